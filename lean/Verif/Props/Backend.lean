import Verif.Lemmas.Sheets
/-
Properties C46-C49, C63, C64 and C72: the cache of sheets, the choice of backends and sheets, and the
names of Excel files.
-/
namespace Props
open Py Model Spec Lemmas

/-! ### C46-C48: the cache of sheets -/

theorem mem_wbIds {own : Str} {g : Ids Str} {w : Str} : w ∈ wbIds own g ↔ (w = own ∨ Gives g w) ∧ w ≠ [] := by
  cases g <;> simp [wbIds, Gives, List.mem_filter]

theorem mem_shIds {own : List ShId} {g : Ids ShId} {i : ShId} :
    i ∈ shIds own g ↔ i ∈ own ∨ Gives g i ∨ (i = ShId.none ∧ g = Ids.none) := by
  cases g <;> simp [shIds, Gives]

theorem mem_deriveKeys {s : SheetObj} {wbs : Ids Str} {shs : Ids ShId} {k : SKey} :
    k ∈ deriveKeys s wbs shs ↔ Registers s wbs shs k := by
  obtain ⟨w, i⟩ := k
  unfold deriveKeys Registers
  simp only [List.mem_flatMap, List.mem_map, mem_wbIds, mem_shIds, Prod.mk.injEq]
  constructor
  · rintro ⟨w', ⟨h1, h2⟩, i', h3, rfl, rfl⟩; exact ⟨h1, h2, h3⟩
  · rintro ⟨h1, h2, h3⟩; exact ⟨w, ⟨h1, h2⟩, i, h3, rfl, rfl⟩

theorem add_facts {order : List SKey → List SKey} (ho : IsOrder order) {f f' : Factory} (hf : FOk f)
    {s : SheetObj} {wbs : Ids Str} {shs : Ids ShId} (h : f.add order s wbs shs = .ok f') :
    FOk f' ∧
    (∀ k t, f'.get k = some t ↔ (Registers s wbs shs k ∧ t = s) ∨
      (¬ Registers s wbs shs k ∧ f.get k = some t ∧ (t = s ∨ ∀ k', Registers s wbs shs k' → f.get k' ≠ some t))) ∧
    (∀ t, t ∈ f'.closed ↔ t ∈ f.closed ∨ (t ≠ s ∧ ∃ k', Registers s wbs shs k' ∧ f.get k' = some t)) ∧
    f'.opened = f.opened := by
  unfold Factory.add at h
  simp only at h
  split at h
  · simp at h
  · simp only [Except.ok.injEq] at h
    subst h
    have hm : ∀ k, k ∈ order (deriveKeys s wbs shs) ↔ Registers s wbs shs k := fun k => by
      rw [ho, mem_deriveKeys]
    obtain ⟨h1, h2, h3, h4⟩ := addKeys_facts s (order (deriveKeys s wbs shs)) hf
    simp only [hm] at h2 h3
    exact ⟨h1, h2, h3, h4⟩

/-- How a look-up that opens when missing ends. -/
theorem cachedOr_cases {order : List SKey → List SKey} (f : Factory) (w : Str) (sh : ShId)
    (op : Nat → Except PyErr SheetObj) :
    (∃ s, f.get (w, sh) = some s ∧ f.cachedOr order w sh op = (f, .ok s)) ∨
    (f.get (w, sh) = none ∧ ∃ e, f.cachedOr order w sh op = ({ f with opened := f.opened + 1 }, .error e)) ∨
    (f.get (w, sh) = none ∧ ∃ s f2, op f.opened = .ok s ∧
      Factory.add order { f with opened := f.opened + 1 } s (.one w) (.one sh) = .ok f2 ∧
      f.cachedOr order w sh op = (f2, .ok s)) := by
  unfold Factory.cachedOr
  cases hg : f.get (w, sh) with
  | some s => exact .inl ⟨s, rfl, rfl⟩
  | none =>
    right
    simp only
    cases hop : op f.opened with
    | error e => exact .inl ⟨trivial, e, rfl⟩
    | ok s =>
      simp only
      cases ha : Factory.add order { f with opened := f.opened + 1 } s (.one w) (.one sh) with
      | error e => exact .inl ⟨trivial, e, rfl⟩
      | ok f2 => exact .inr ⟨trivial, s, f2, rfl, ha, rfl⟩

private theorem cachedOr_get {order : List SKey → List SKey} {f : Factory} {w : Str} {sh : ShId}
    {op : Nat → Except PyErr SheetObj} {s : SheetObj} (h : f.get (w, sh) = some s) :
    f.cachedOr order w sh op = (f, .ok s) := by
  unfold Factory.cachedOr; rw [h]

private theorem cachedOr_hit {order : List SKey → List SKey} (ho : IsOrder order) {f : Factory} (hf : FOk f) {w : Str}
    {sh : ShId} {op : Nat → Except PyErr SheetObj} (h : (f.cachedOr order w sh op).1.opened = f.opened) :
    (f.cachedOr order w sh op).1 = f := by
  rcases cachedOr_cases (order := order) f w sh op with ⟨s, -, e⟩ | ⟨-, e', e⟩ | ⟨-, s, f2, -, ha, e⟩
  · rw [e]
  · rw [e] at h; simp at h
  · rw [e] at h
    have := (add_facts (f := { f with opened := f.opened + 1 }) ho hf ha).2.2.2
    simp only at h this
    omega

/-- The whole state of the cache, after every history. -/
private theorem history_inv {f : Factory} {log : SKey → SheetObj → Prop} (h : History f log) :
    FOk f ∧ ∀ k s, f.get k = some s ↔ (log k s ∧ s ∉ f.closed) := by
  have addCase : ∀ {f f' : Factory} {log : SKey → SheetObj → Prop} {order s wbs shs}, FOk f →
      (∀ k s, f.get k = some s ↔ (log k s ∧ s ∉ f.closed)) → IsOrder order → s ∉ f.closed →
      f.add order s wbs shs = .ok f' →
      FOk f' ∧ ∀ k t, f'.get k = some t ↔ ((log k t ∨ (t = s ∧ Registers s wbs shs k)) ∧ t ∉ f'.closed) := by
    intro f f' log order s wbs shs hf inv ho hs ha
    obtain ⟨a1, a2, a3, -⟩ := add_facts ho hf ha
    refine ⟨a1, ?_⟩
    intro k t
    rw [a2, a3]
    constructor
    · rintro (⟨h1, rfl⟩ | ⟨h1, h2, h3⟩)
      · refine ⟨.inr ⟨rfl, h1⟩, ?_⟩
        rintro (h | ⟨h, -⟩)
        · exact hs h
        · exact h rfl
      · have := (inv k t).1 h2
        refine ⟨.inl this.1, ?_⟩
        rintro (h | ⟨h, k', hk', hg⟩)
        · exact this.2 h
        · exact (h3.resolve_left h) k' hk' hg
    · rintro ⟨hl, hc⟩
      simp only [not_or, not_and, not_exists] at hc
      by_cases hts : t = s
      · subst hts
        by_cases hk : Registers t wbs shs k
        · exact .inl ⟨hk, rfl⟩
        · refine .inr ⟨hk, ?_, .inl rfl⟩
          rcases hl with hl | ⟨-, hl⟩
          · exact (inv k t).2 ⟨hl, hc.1⟩
          · exact absurd hl hk
      · have hl := hl.resolve_right (fun h => hts h.1)
        have hg := (inv k t).2 ⟨hl, hc.1⟩
        refine .inr ⟨fun hk => hc.2 hts k hk hg, hg, .inr (fun k' hk' => hc.2 hts k' hk')⟩
  have failCase : ∀ {f : Factory} {log : SKey → SheetObj → Prop}, FOk f →
      (∀ k s, f.get k = some s ↔ (log k s ∧ s ∉ f.closed)) →
      FOk { f with opened := f.opened + 1 } ∧
        ∀ k s, Factory.get { f with opened := f.opened + 1 } k = some s ↔
          (log k s ∧ s ∉ ({ f with opened := f.opened + 1 } : Factory).closed) :=
    fun h1 h2 => ⟨h1, h2⟩
  induction h with
  | new =>
    refine ⟨by intro w hw; simp [Factory.new] at hw, ?_⟩
    intro k s
    simp [Factory.new, Factory.get, dget]
  | add order s wbs shs _ ho hs ha ih => exact addCase ih.1 ih.2 ho hs ha
  | @addRaises f log f' ks fails order s wbs shs n _ ho hs ha ih =>
    have e1 := (addKeysOr_eq fails s (order (deriveKeys s wbs shs)) f).1
    rw [ha] at e1
    simp only at e1
    obtain ⟨a1, a2, a3, -⟩ := addKeys_facts s ks ih.1
    rw [← e1] at a1 a2 a3
    have hin : ∀ k, (∃ k' ∈ ks, f.get k' = some k) ↔ ∃ k', k' ∈ ks ∧ f.get k' = some k := fun _ => Iff.rfl
    refine ⟨a1, ?_⟩
    intro k t
    show f'.get k = some t ↔ (_ ∧ t ∉ f'.closed)
    rw [a2, a3]
    constructor
    · rintro (⟨h1, rfl⟩ | ⟨h1, h2, h3⟩)
      · refine ⟨.inr ⟨rfl, h1⟩, ?_⟩
        rintro (h | ⟨h, -⟩)
        · exact hs h
        · exact h rfl
      · have := (ih.2 k t).1 h2
        refine ⟨.inl this.1, ?_⟩
        rintro (h | ⟨h, k', hk', hg⟩)
        · exact this.2 h
        · exact (h3.resolve_left h) k' hk' hg
    · rintro ⟨hl, hc⟩
      simp only [not_or, not_and, not_exists] at hc
      by_cases hts : t = s
      · subst hts
        by_cases hk : k ∈ ks
        · exact .inl ⟨hk, rfl⟩
        · refine .inr ⟨hk, ?_, .inl rfl⟩
          rcases hl with hl | ⟨-, hl⟩
          · exact (ih.2 k t).2 ⟨hl, hc.1⟩
          · exact absurd hl hk
      · have hl := hl.resolve_right (fun h => hts h.1)
        have hg := (ih.2 k t).2 ⟨hl, hc.1⟩
        refine .inr ⟨fun hk => hc.2 hts k hk hg, hg, .inr (fun k' hk' => hc.2 hts k' hk')⟩
  | @close f log _ ih =>
    obtain ⟨-, inv⟩ := ih
    refine ⟨by intro w hw; simp [Factory.close] at hw, ?_⟩
    intro k s
    have hn : f.close.get k = none := rfl
    rw [hn]
    simp only [reduceCtorEq, false_iff, not_and, Classical.not_not]
    intro hl
    unfold Factory.close
    simp only [List.mem_append, List.mem_flatMap, List.mem_map]
    by_cases hc : s ∈ f.closed
    · exact .inr hc
    · left
      have hg := (inv k s).2 ⟨hl, hc⟩
      unfold Factory.get at hg
      cases e : dget f.cache k.1 with
      | none => rw [e] at hg; simp at hg
      | some l =>
        rw [e] at hg
        exact ⟨_, mem_of_dget e, _, mem_of_dget hg, rfl⟩
  | @fetchHit f log order o wb sh base _ ho hop ih =>
    have : (f.fetch order o wb sh base).1 = f := by
      unfold Factory.fetch at hop ⊢
      split at hop
      · split
        · rfl
        · rename_i hne
          rw [if_neg hne] at hop
          exact cachedOr_hit ho ih.1 hop
      · simp at hop
      · exact cachedOr_hit ho ih.1 hop
    rw [this]; exact ih
  | @fetchFail f log e order o wb sh base _ ho he ih =>
    have key : ∀ w op, (f.cachedOr order w sh op).2 = .error e →
        (f.cachedOr order w sh op).1 = { f with opened := f.opened + 1 } := by
      intro w op h
      rcases cachedOr_cases (order := order) f w sh op with ⟨s, -, e⟩ | ⟨-, e', e⟩ | ⟨-, s, f2, -, ha, e⟩
      · rw [e] at h; simp at h
      · rw [e]
      · rw [e] at h; simp at h
    have : (f.fetch order o wb sh base).1 = { f with opened := f.opened + 1 } := by
      unfold Factory.fetch at he ⊢
      split at he
      · split at he
        · simp at he
        · rename_i hne
          simp only [if_neg hne]
          exact key _ _ he
      · rfl
      · exact key _ _ he
    rw [this]; exact failCase ih.1 ih.2
  | @fetchOpen f log s order o wb sh base _ ho he hop hs ih =>
    have key : ∀ w op, (f.cachedOr order w sh op).2 = .ok s → (f.cachedOr order w sh op).1.opened = f.opened + 1 →
        Factory.add order { f with opened := f.opened + 1 } s (.one w) (.one sh) = .ok (f.cachedOr order w sh op).1 := by
      intro w op h hop
      rcases cachedOr_cases (order := order) f w sh op with ⟨s', -, e⟩ | ⟨-, e', e⟩ | ⟨-, s', f2, -, ha, e⟩
      · rw [e] at hop; simp at hop
      · rw [e] at h; simp at h
      · rw [e] at h ⊢
        simp only [Except.ok.injEq] at h
        subst h
        exact ha
    cases wb with
    | some w =>
      have e : f.fetch order o (some w) sh base = f.cachedOr order w sh (fun n => o.book n (some w) sh) := by
        unfold Factory.fetch; cases base <;> rfl
      rw [e] at he hop ⊢
      exact addCase (failCase ih.1 ih.2).1 (failCase ih.1 ih.2).2 ho hs (key _ _ he hop)
    | none =>
      cases base with
      | none =>
        obtain ⟨h1, h2⟩ := failCase ih.1 ih.2
        refine ⟨h1, ?_⟩
        intro k t
        simp only [and_false, or_false]
        exact h2 k t
      | some b =>
        have hne : sh ≠ .none := by
          rintro rfl
          simp [Factory.fetch] at hop
        have e : f.fetch order o none sh (some b) = f.cachedOr order b.wb sh (fun n => o.sibling n b sh) := by
          unfold Factory.fetch; simp only [if_neg hne]
        rw [e] at he hop ⊢
        exact addCase (failCase ih.1 ih.2).1 (failCase ih.1 ih.2).2 ho hs (key _ _ he hop)

theorem history_ok {f : Factory} {log : SKey → SheetObj → Prop} (h : History f log) : FOk f := (history_inv h).1

/-- C46. After every history a look-up finds exactly the open sheets under the ids they were
registered with: never a closed sheet, never one not registered there, and always a sheet that is
still open. -/
theorem C46_lookup (f : Factory) (log : SKey → SheetObj → Prop) (h : History f log) (k : SKey) (s : SheetObj) :
    f.get k = some s ↔ (log k s ∧ s ∉ f.closed) := (history_inv h).2 k s

/-- C46. A sheet that was fetched is open: it was in the cache, or it has just been opened. -/
theorem C46_fetched (f : Factory) (log : SKey → SheetObj → Prop) (h : History f log)
    (order : List SKey → List SKey) (ho : IsOrder order) (o : Openers) (w : Str) (sh : ShId) (base : Option SheetObj)
    (hopen : ∀ s, o.book f.opened (some w) sh = .ok s → s ∉ f.closed) (s : SheetObj)
    (hs : (f.fetch order o (some w) sh base).2 = .ok s) :
    s ∉ (f.fetch order o (some w) sh base).1.closed := by
  have e : f.fetch order o (some w) sh base = f.cachedOr order w sh (fun n => o.book n (some w) sh) := by
    unfold Factory.fetch; cases base <;> rfl
  rw [e] at hs ⊢
  rcases cachedOr_cases (order := order) f w sh (fun n => o.book n (some w) sh) with
    ⟨s', hg, e⟩ | ⟨-, e', e⟩ | ⟨-, s', f2, hop, ha, e⟩
  · rw [e] at hs ⊢
    simp only [Except.ok.injEq] at hs
    subst hs
    exact ((C46_lookup f log h _ _).1 hg).2
  · rw [e] at hs; simp at hs
  · rw [e] at hs ⊢
    simp only [Except.ok.injEq] at hs
    subst hs
    have := (add_facts (f := { f with opened := f.opened + 1 }) ho (history_inv h).1 ha).2.2.1 s'
    rw [this]
    rintro (hc | ⟨hc, -⟩)
    · exact hopen s' hop hc
    · exact hc rfl

/-- C46. No sheet is in the cache after closing the factory, and all that were there are closed. -/
theorem C46_close (f : Factory) (log : SKey → SheetObj → Prop) (h : History f log) (k : SKey) (s : SheetObj)
    (hs : log k s) : f.close.get k = none ∧ s ∈ f.close.closed := by
  refine ⟨rfl, ?_⟩
  refine Classical.byContradiction fun hc => ?_
  have := (C46_lookup _ _ (History.close h) k s).2 ⟨hs, hc⟩
  have hn : f.close.get k = none := rfl
  rw [hn] at this
  simp at this

/-- C47. After fetching a sheet of a workbook with a (non-empty) id, fetching it again gives the same
sheet, opens nothing and changes nothing. -/
theorem C47_twice (f : Factory) (log : SKey → SheetObj → Prop) (h : History f log)
    (order order' : List SKey → List SKey) (ho : IsOrder order) (o o' : Openers) (w : Str) (hw : w ≠ []) (sh : ShId)
    (base base' : Option SheetObj) (s : SheetObj) (hs : (f.fetch order o (some w) sh base).2 = .ok s) :
    (f.fetch order o (some w) sh base).1.fetch order' o' (some w) sh base' =
      ((f.fetch order o (some w) sh base).1, .ok s) := by
  have e : ∀ (f : Factory) order o base, f.fetch order o (some w) sh base =
      f.cachedOr order w sh (fun n => o.book n (some w) sh) := by
    intro f order o base; unfold Factory.fetch; cases base <;> rfl
  rw [e, e] at *
  have hg : (f.cachedOr order w sh (fun n => o.book n (some w) sh)).1.get (w, sh) = some s := by
    rcases cachedOr_cases (order := order) f w sh (fun n => o.book n (some w) sh) with
      ⟨s', hg, e⟩ | ⟨-, e', e⟩ | ⟨-, s', f2, hop, ha, e⟩
    · rw [e] at hs ⊢
      simp only [Except.ok.injEq] at hs
      subst hs; exact hg
    · rw [e] at hs; simp at hs
    · rw [e] at hs ⊢
      simp only [Except.ok.injEq] at hs
      subst hs
      apply ((add_facts (f := { f with opened := f.opened + 1 }) ho (history_inv h).1 ha).2.1 _ _).2
      exact .inl ⟨⟨.inr rfl, hw, .inr (.inl rfl)⟩, rfl⟩
  exact cachedOr_get hg

/-- C47. Whatever happened since a sheet was registered under some ids, if it has not been closed
meanwhile then fetching by these ids gives this sheet, opens nothing and changes nothing. -/
theorem C47_history (f : Factory) (log : SKey → SheetObj → Prop) (h : History f log) (w : Str) (sh : ShId)
    (s : SheetObj) (hl : log (w, sh) s) (hc : s ∉ f.closed) (order : List SKey → List SKey) (o : Openers)
    (base : Option SheetObj) : f.fetch order o (some w) sh base = (f, .ok s) := by
  have hg := (C46_lookup f log h _ _).2 ⟨hl, hc⟩
  have e : f.fetch order o (some w) sh base = f.cachedOr order w sh (fun n => o.book n (some w) sh) := by
    unfold Factory.fetch; cases base <;> rfl
  rw [e]; unfold Factory.cachedOr; rw [hg]

/-- C47, for siblings of a base sheet. -/
theorem C47_sibling (f : Factory) (log : SKey → SheetObj → Prop) (h : History f log) (b : SheetObj) (sh : ShId)
    (hsh : sh ≠ .none) (s : SheetObj) (hl : log (b.wb, sh) s) (hc : s ∉ f.closed) (order : List SKey → List SKey)
    (o : Openers) : f.fetch order o none sh (some b) = (f, .ok s) := by
  have hg := (C46_lookup f log h _ _).2 ⟨hl, hc⟩
  have e : f.fetch order o none sh (some b) = f.cachedOr order b.wb sh (fun n => o.sibling n b sh) := by
    unfold Factory.fetch; simp only [if_neg hsh]
  rw [e]; unfold Factory.cachedOr; rw [hg]

/-- C48. Adding a sheet closes exactly the other sheets found under one of the keys it registers, and
every sheet that stays open is found as before. Missing: that no sheet of the same workbook is closed
when no ids are given; it is, see `C48_default_refuted`. -/
theorem C48_frame_partial (f f' : Factory) (log : SKey → SheetObj → Prop) (h : History f log)
    (order : List SKey → List SKey) (ho : IsOrder order) (s : SheetObj) (wbs : Ids Str) (shs : Ids ShId)
    (ha : f.add order s wbs shs = .ok f') (t : SheetObj) (hne : t ≠ s) :
    (t ∈ f'.closed ↔ t ∈ f.closed ∨ ∃ k, Registers s wbs shs k ∧ f.get k = some t) ∧
    (t ∉ f'.closed → ∀ k, f'.get k = some t ↔ f.get k = some t) := by
  obtain ⟨-, a2, a3, -⟩ := add_facts ho (history_inv h).1 ha
  have hc : t ∈ f'.closed ↔ t ∈ f.closed ∨ ∃ k, Registers s wbs shs k ∧ f.get k = some t := by
    rw [a3]
    constructor
    · rintro (h1 | ⟨-, h1⟩)
      · exact .inl h1
      · exact .inr h1
    · rintro (h1 | h1)
      · exact .inl h1
      · exact .inr ⟨hne, h1⟩
  refine ⟨hc, ?_⟩
  intro hcl k
  rw [hc] at hcl
  simp only [not_or, not_exists, not_and] at hcl
  rw [a2]
  constructor
  · rintro (⟨-, h2⟩ | ⟨-, h2, -⟩)
    · exact absurd h2 hne
    · exact h2
  · intro hg
    exact .inr ⟨fun hk => hcl.2 k hk hg, hg, .inr (fun k' hk' => hcl.2 k' hk')⟩

/-- C48 fails for every two sheets of a workbook added without ids: adding the second closes the
first, whatever came before, and the first is found no more. -/
theorem C48_default_refuted (f f1 f2 : Factory) (log : SKey → SheetObj → Prop) (h : History f log)
    (order : List SKey → List SKey) (ho : IsOrder order) (s t : SheetObj) (hwb : s.wb = t.wb) (hw : s.wb ≠ [])
    (hne : s ≠ t) (hs : s ∉ f.closed) (h1 : f.add order s .none .none = .ok f1)
    (h2 : f1.add order t .none .none = .ok f2) : s ∈ f2.closed ∧ ∀ k, f2.get k ≠ some s := by
  have H1 := History.add order s .none .none h ho hs h1
  have hk : Registers s (.none : Ids Str) (.none : Ids ShId) (s.wb, ShId.none) :=
    ⟨.inl rfl, hw, .inr (.inr ⟨rfl, rfl⟩)⟩
  have hk' : Registers t (.none : Ids Str) (.none : Ids ShId) (s.wb, ShId.none) :=
    ⟨.inl hwb, hw, .inr (.inr ⟨rfl, rfl⟩)⟩
  have hg : f1.get (s.wb, ShId.none) = some s := by
    obtain ⟨-, a2, -, -⟩ := add_facts ho (history_inv h).1 h1
    exact (a2 _ _).2 (.inl ⟨hk, rfl⟩)
  obtain ⟨-, b2, b3, -⟩ := add_facts ho (history_inv H1).1 h2
  have hc : s ∈ f2.closed := (b3 s).2 (.inr ⟨hne, _, hk', hg⟩)
  refine ⟨hc, ?_⟩
  intro k e
  rcases (b2 k s).1 e with ⟨-, h3⟩ | ⟨-, -, h3 | h3⟩
  · exact hne h3
  · exact hne h3
  · exact h3 _ hk' hg

/-- Two sheets of a workbook, registered with ids: both are there; a third that takes an id of the
first closes the first only. -/
private def shA : SheetObj := ⟨1, "wb".toList, [.text "A".toList, .num 0]⟩
private def shB : SheetObj := ⟨2, "wb".toList, [.text "B".toList, .num 1]⟩
private def shC : SheetObj := ⟨3, "wb".toList, [.text "C".toList, .num 0]⟩
example : ∃ f1 f2 f3, Factory.new.add id shA .none (.many []) = .ok f1 ∧ f1.add id shB .none (.many []) = .ok f2 ∧
    f2.get ("wb".toList, .text "A".toList) = some shA ∧ f2.get ("wb".toList, .num 1) = some shB ∧
    f2.add id shC .none (.many []) = .ok f3 ∧ f3.closed = [shA] ∧ f3.get ("wb".toList, .text "A".toList) = none ∧
    f3.get ("wb".toList, .num 1) = some shB := ⟨_, _, _, rfl, rfl, rfl, rfl, rfl, rfl, rfl, rfl⟩
/-- The hypotheses of `C48_default_refuted` are met from a new factory. -/
example : ∃ f1 f2, Factory.new.add id shA .none .none = .ok f1 ∧ f1.add id shB .none .none = .ok f2 ∧
    f2.closed = [shA] := ⟨_, _, rfl, rfl, rfl⟩
example : IsOrder id := fun _ _ => Iff.rfl

/-! ### C72: the factory without cache -/

/-- C72. The plain factory gives the base sheet when neither workbook nor sheet is named, and otherwise
opens the workbook. Missing: a sheet named without its workbook; it never succeeds, see below. -/
theorem C72_plain_partial (o : Openers) (wb : Option Str) (sh : ShId) (base : Option SheetObj) :
    (∀ b, simpleFetch o none .none (some b) = .ok b) ∧
    (∀ w, simpleFetch o (some w) sh base = o.book 0 (some w) sh) ∧
    simpleFetch o none sh none = o.book 0 none sh := by
  refine ⟨fun b => by simp [simpleFetch], fun w => rfl, rfl⟩

/-- C72 fails: naming a sheet next to the base sheet never gives it, even when it opens. -/
theorem C72_sibling_refuted (o : Openers) (sh : ShId) (b s : SheetObj) (hsh : sh ≠ .none)
    (hs : o.sibling 0 b sh = .ok s) : simpleFetch o none sh (some b) = .error .unboundLocal := by
  simp [simpleFetch, hsh, hs]

/-! ### C49: bidding -/

private theorem mem_insertBid {β : Type} {x y : β × Int} {l : List (β × Int)} : y ∈ insertBid x l ↔ y = x ∨ y ∈ l := by
  induction l with
  | nil => simp [insertBid]
  | cons z t ih =>
    unfold insertBid
    split
    · simp
    · simp only [List.mem_cons, ih]
      constructor
      · rintro (h | h | h)
        · exact .inr (.inl h)
        · exact .inl h
        · exact .inr (.inr h)
      · rintro (h | h | h)
        · exact .inr (.inl h)
        · exact .inl h
        · exact .inr (.inr h)

private theorem insertBid_last {β : Type} (x : β × Int) : ∀ (l : List (β × Int)),
    (insertBid x l).getLast? = match l.getLast? with
      | none => some x
      | some z => if (∃ y ∈ l, x.2 ≤ y.2) then some z else some x := by
  intro l
  induction l with
  | nil => rfl
  | cons y t ih =>
    unfold insertBid
    by_cases h : x.2 ≤ y.2
    · rw [if_pos h, List.getLast?_cons_cons]
      rw [List.getLast?_cons]
      simp only
      rw [if_pos ⟨y, by simp, h⟩]
    · rw [if_neg h]
      have hne : insertBid x t ≠ [] := by
        cases t with
        | nil => simp [insertBid]
        | cons z t => unfold insertBid; split <;> simp
      have hl : (y :: insertBid x t).getLast? = (insertBid x t).getLast? := by
        cases hh : insertBid x t with
        | nil => exact absurd hh hne
        | cons a b => rw [List.getLast?_cons_cons]
      rw [hl, ih]
      cases t with
      | nil =>
        simp only [List.getLast?_nil, List.getLast?_singleton]
        rw [if_neg]
        rintro ⟨z, hz, hle⟩
        simp only [List.mem_singleton] at hz
        subst hz
        exact h hle
      | cons z t =>
        rw [List.getLast?_cons_cons]
        have hz : (z :: t).getLast? = some ((z :: t).getLast (by simp)) := List.getLast?_eq_some_getLast _
        rw [hz]
        simp only
        have : (∃ w ∈ y :: z :: t, x.2 ≤ w.2) ↔ (∃ w ∈ z :: t, x.2 ≤ w.2) := by
          constructor
          · rintro ⟨w, hw, hle⟩
            rcases List.mem_cons.1 hw with rfl | hw
            · exact absurd hle h
            · exact ⟨w, hw, hle⟩
          · rintro ⟨w, hw, hle⟩
            exact ⟨w, List.mem_cons_of_mem _ hw, hle⟩
        by_cases hc : ∃ w ∈ z :: t, x.2 ≤ w.2
        · rw [if_pos hc, if_pos (this.2 hc)]
        · rw [if_neg hc, if_neg (fun h => hc (this.1 h))]

private theorem mem_sortBids {β : Type} {y : β × Int} {l : List (β × Int)} : y ∈ sortBids l ↔ y ∈ l := by
  induction l with
  | nil => simp [sortBids]
  | cons x t ih => rw [sortBids, mem_insertBid, ih, List.mem_cons]

private theorem sortBids_last {β : Type} : ∀ (l : List (β × Int)), l ≠ [] →
    ∃ pre w post, l = pre ++ w :: post ∧ (sortBids l).getLast? = some w ∧
      (∀ y ∈ pre, y.2 ≤ w.2) ∧ (∀ y ∈ post, y.2 < w.2) := by
  intro l
  induction l with
  | nil => intro h; exact absurd rfl h
  | cons x t ih =>
    intro _
    rw [sortBids, insertBid_last]
    cases t with
    | nil => exact ⟨[], x, [], rfl, rfl, by simp, by simp⟩
    | cons z t =>
      obtain ⟨pre, w, post, e, hl, h1, h2⟩ := ih (by simp)
      rw [hl]
      simp only
      have hw : w ∈ z :: t := by rw [e]; simp
      by_cases hc : ∃ y ∈ sortBids (z :: t), x.2 ≤ y.2
      · rw [if_pos hc]
        refine ⟨x :: pre, w, post, by rw [e]; rfl, rfl, ?_, h2⟩
        obtain ⟨y, hy, hle⟩ := hc
        have hy' : y.2 ≤ w.2 := by
          rw [mem_sortBids, e] at hy
          rcases List.mem_append.1 hy with hy | hy
          · exact h1 y hy
          · rcases List.mem_cons.1 hy with rfl | hy
            · exact Int.le_refl _
            · exact Int.le_of_lt (h2 y hy)
        intro y' hy2
        rcases List.mem_cons.1 hy2 with rfl | hy2
        · omega
        · exact h1 y' hy2
      · rw [if_neg hc]
        refine ⟨[], x, z :: t, rfl, rfl, by simp, ?_⟩
        intro y hy
        refine Classical.byContradiction fun hn => ?_
        exact hc ⟨y, mem_sortBids.2 hy, by omega⟩

/-- C49. The backend chosen made a bid, no backend before it in the list bids more, and every backend
after it bids less or not at all. -/
theorem C49_winner {β : Type} (bids : List (β × Option Int)) (b : β) (h : decideBackend bids = .ok b) :
    ∃ pre score post, bids = pre ++ (b, some score) :: post ∧
      (∀ x ∈ pre, ∀ s, x.2 = some s → s ≤ score) ∧ (∀ x ∈ post, ∀ s, x.2 = some s → s < score) := by
  unfold decideBackend at h
  simp only at h
  cases hl : (sortBids (bids.filterMap (fun b => b.2.map (fun s => (b.1, s))))).getLast? with
  | none => rw [hl] at h; simp at h
  | some w =>
    rw [hl] at h
    simp only [Except.ok.injEq] at h
    have hne : bids.filterMap (fun b => b.2.map (fun s => (b.1, s))) ≠ [] := by
      intro e; rw [e] at hl; simp [sortBids] at hl
    obtain ⟨pre, w', post, e, hl', h1, h2⟩ := sortBids_last _ hne
    rw [hl] at hl'
    simp only [Option.some.injEq] at hl'
    subst hl'
    rw [List.filterMap_eq_append_iff] at e
    obtain ⟨l1, l2, rfl, e1, e2⟩ := e
    rw [List.filterMap_eq_cons_iff] at e2
    obtain ⟨l3, a, l4, rfl, hnone, ha, e4⟩ := e2
    obtain ⟨b', sc⟩ := a
    cases sc with
    | none => simp at ha
    | some sc =>
      simp only [Option.map_some, Option.some.injEq] at ha
      subst ha
      simp only at h
      subst h
      refine ⟨l1 ++ l3, sc, l4, by simp, ?_, ?_⟩
      · intro x hx s hs
        rcases List.mem_append.1 hx with hx | hx
        · have := h1 (x.1, s) (by
            rw [← e1, List.mem_filterMap]
            exact ⟨x, hx, by rw [hs]; rfl⟩)
          exact this
        · have := hnone x hx
          rw [hs] at this
          simp at this
      · intro x hx s hs
        exact h2 (x.1, s) (by
            rw [← e4, List.mem_filterMap]
            exact ⟨x, hx, by rw [hs]; rfl⟩)

/-- C49. Choosing fails exactly when no backend bids, and then with a ValueError. -/
theorem C49_none {β : Type} (bids : List (β × Option Int)) :
    ((∀ x ∈ bids, x.2 = none) ↔ decideBackend bids = .error .valueError) ∧
    ((∃ x ∈ bids, x.2 ≠ none) ↔ ∃ b, decideBackend bids = .ok b) := by
  have key : (∀ x ∈ bids, x.2 = none) ↔ bids.filterMap (fun b => b.2.map (fun s => (b.1, s))) = [] := by
    rw [List.filterMap_eq_nil_iff]
    constructor
    · intro h x hx; rw [h x hx]; rfl
    · intro h x hx
      have := h x hx
      simpa using this
  have key2 : (∃ x ∈ bids, x.2 ≠ none) ↔ ¬ ∀ x ∈ bids, x.2 = none := by
    constructor
    · rintro ⟨x, hx, h⟩ h'; exact h (h' x hx)
    · intro h
      refine Classical.byContradiction fun hn => ?_
      apply h
      intro x hx
      refine Classical.byContradiction fun hc => ?_
      exact hn ⟨x, hx, hc⟩
  rw [key2, key]
  unfold decideBackend
  simp only
  by_cases he : bids.filterMap (fun b => b.2.map (fun s => (b.1, s))) = []
  · rw [he]
    simp [sortBids]
  · obtain ⟨pre, w, post, -, hl, -⟩ := sortBids_last _ he
    rw [hl]
    simp [he]

example : decideBackend [("a", some 5), ("b", some 7), ("c", none), ("d", some 7), ("e", some 6)] = .ok "d" := rfl

/-! ### C64: opening a sheet -/

/-- C64. No id opens the first sheet; a number opens the sheet at this index (negative ones count from
the end). -/
theorem C64_index (names : List Str) (i : Int) :
    openSheetBy names .none = openSheetBy names (.num 0) ∧
    (∀ j : Nat, openSheetBy names (.num i) = .ok j ↔
      j < names.length ∧ (i = j ∨ i = (j : Int) - names.length)) ∧
    ((∀ j : Nat, openSheetBy names (.num i) ≠ .ok j) → openSheetBy names (.num i) = .error .lookupError) := by
  refine ⟨rfl, ?_, ?_⟩
  · intro j
    simp only [openSheetBy, sheetByIndex, seqIndex]
    by_cases h0 : 0 ≤ i
    · rw [if_pos h0]
      by_cases h1 : i.toNat < names.length
      · rw [if_pos h1]; simp only [Except.ok.injEq]; omega
      · rw [if_neg h1]; simp only [reduceCtorEq, false_iff]; omega
    · rw [if_neg h0]
      by_cases h1 : 0 ≤ i + names.length
      · rw [if_pos h1]; simp only [Except.ok.injEq]; omega
      · rw [if_neg h1]; simp only [reduceCtorEq, false_iff]; omega
  · intro h
    cases e : seqIndex names.length i with
    | none => simp [openSheetBy, sheetByIndex, e]
    | some j => exact absurd (by simp [openSheetBy, sheetByIndex, e]) (h j)

/-- C64. A text opens the first sheet of that name when there is one, even if the text is a number. -/
theorem C64_name (before after : List Str) (s : Str) (h : s ∉ before) :
    openSheetBy (before ++ s :: after) (.text s) = .ok before.length := by
  have : (before ++ s :: after).findIdx? (· == s) = some before.length := by
    rw [List.findIdx?_eq_some_iff_getElem]
    refine ⟨by simp, by simp, ?_⟩
    intro j hj
    rw [List.getElem_append_left hj]
    have : before[j] ∈ before := List.getElem_mem hj
    simp only [beq_iff_eq]
    rintro e
    exact h (e ▸ this)
  simp [openSheetBy, sheetByName, this]

/-- C64. A text that is no sheet's name opens the sheet whose index it writes, and fails when it writes
no number. -/
theorem C64_text_index (names : List Str) (s : Str) (h : s ∉ names) :
    (∀ i, pyInt s = some i → openSheetBy names (.text s) = openSheetBy names (.num i)) ∧
    (pyInt s = none → openSheetBy names (.text s) = .error .xlrdError) := by
  have : names.findIdx? (· == s) = none := by
    rw [List.findIdx?_eq_none_iff]
    intro x hx
    simp only [beq_eq_false_iff_ne]
    rintro rfl
    exact h hx
  constructor
  · intro i hi
    simp [openSheetBy, sheetByName, this, hi]
  · intro hn
    simp [openSheetBy, sheetByName, this, hn]

example : openSheetBy ["2".toList, "b".toList, "c".toList] (.text "2".toList) = .ok 0 ∧
    openSheetBy ["a".toList, "b".toList, "c".toList] (.text " 2".toList) = .ok 2 ∧
    openSheetBy ["a".toList, "b".toList, "c".toList] (.text "-1".toList) = .ok 2 := ⟨rfl, rfl, rfl⟩

/-! ### C63: Excel files -/

/-- The Excel extensions. -/
def xlExtensions : List Str :=
  ["XLS".toList, "XLSX".toList, "XLSM".toList, "XLT".toList, "XLTX".toList, "XLTM".toList, "XLW".toList, "XLM".toList]

private theorem run_chrU {x : Char} {s s' : Str} {c c' : Caps} :
    Re.Run (Re.chrU x) s c s' c' ↔ c' = c ∧ ∃ y, s = y :: s' ∧ upperChar y = x := by
  constructor
  · intro h
    obtain ⟨h1, y, h2, h3⟩ := run_cls h
    exact ⟨h1, y, h2, by simpa using h3⟩
  · rintro ⟨rfl, y, rfl, h⟩
    exact .cls (by simpa using h)

private theorem run_xm {s s' : Str} {c c' : Caps} :
    Re.Run reXM s c s' c' ↔ c' = c ∧ (s' = s ∨ ∃ y, s = y :: s' ∧ (upperChar y = 'X' ∨ upperChar y = 'M')) := by
  constructor
  · intro h
    rcases run_opt h with h | ⟨h1, h2⟩
    · obtain ⟨h1, y, h2, h3⟩ := run_cls h
      exact ⟨h1, .inr ⟨y, h2, by simpa using h3⟩⟩
    · exact ⟨h2, .inl h1⟩
  · rintro ⟨rfl, rfl | ⟨y, rfl, h⟩⟩
    · exact .altR .eps
    · exact .altL (.cls (by simpa using h))

private theorem run_seq {a b : Re} {s s' : Str} {c c' : Caps} :
    Re.Run (.seq a b) s c s' c' ↔ ∃ s1 c1, Re.Run a s c s1 c1 ∧ Re.Run b s1 c1 s' c' := by
  constructor
  · intro h; cases h with
    | seq h1 h2 => exact ⟨_, _, h1, h2⟩
  · rintro ⟨s1, c1, h1, h2⟩; exact .seq h1 h2

private theorem run_alt {a b : Re} {s s' : Str} {c c' : Caps} :
    Re.Run (.alt a b) s c s' c' ↔ Re.Run a s c s' c' ∨ Re.Run b s c s' c' := by
  constructor
  · intro h; cases h with
    | altL h => exact .inl h
    | altR h => exact .inr h
  · rintro (h | h)
    · exact .altL h
    · exact .altR h

private theorem run_xlExt {s s' : Str} {c c' : Caps} :
    Re.Run reXlExt s c s' c' ↔ c' = c ∧ ∃ ext, s = '.' :: ext ++ s' ∧ ext.map upperChar ∈ xlExtensions := by
  constructor
  · intro h
    simp only [reXlExt, Re.seqs] at h
    obtain ⟨s1, c1, h1, ha⟩ := run_seq.1 h
    obtain ⟨s2, c2, h2, hb⟩ := run_seq.1 ha
    obtain ⟨s3, c3, h3, hd⟩ := run_seq.1 hb
    clear h ha hb
    obtain ⟨rfl, y, rfl, hy⟩ := run_cls h1
    obtain ⟨rfl, x, rfl, hx⟩ := run_chrU.1 h2
    obtain ⟨rfl, l, rfl, hl⟩ := run_chrU.1 h3
    have hy : y = '.' := by simpa using hy
    subst hy
    rcases run_alt.1 hd with h | h
    · rcases run_alt.1 h with h' | h' <;> obtain ⟨s4, c4, h4, h5⟩ := run_seq.1 h' <;>
        obtain ⟨rfl, z, rfl, hz⟩ := run_chrU.1 h4 <;> obtain ⟨rfl, rfl | ⟨w, rfl, hw⟩⟩ := run_xm.1 h5
      · exact ⟨rfl, [x, l, z], rfl, by simp [hx, hl, hz, xlExtensions]⟩
      · refine ⟨rfl, [x, l, z, w], rfl, ?_⟩
        rcases hw with hw | hw <;> simp [hx, hl, hz, hw, xlExtensions]
      · exact ⟨rfl, [x, l, z], rfl, by simp [hx, hl, hz, xlExtensions]⟩
      · refine ⟨rfl, [x, l, z, w], rfl, ?_⟩
        rcases hw with hw | hw <;> simp [hx, hl, hz, hw, xlExtensions]
    · rcases run_alt.1 h with h' | h' <;> obtain ⟨rfl, z, rfl, hz⟩ := run_chrU.1 h' <;>
        exact ⟨rfl, [x, l, z], rfl, by simp [hx, hl, hz, xlExtensions]⟩
  · rintro ⟨rfl, ext, rfl, he⟩
    have three : ∀ (x l z : Char) (t : Str), upperChar x = 'X' → upperChar l = 'L' →
        Re.Run (.alt (.alt (.seq (Re.chrU 'S') reXM) (.seq (Re.chrU 'T') reXM)) (.alt (Re.chrU 'W') (Re.chrU 'M')))
          (z :: t) c' s' c' → Re.Run reXlExt ('.' :: x :: l :: z :: t) c' s' c' := by
      intro x l z t hx hl h
      simp only [reXlExt, Re.seqs]
      exact .seq (.cls (by simp)) (.seq (run_chrU.2 ⟨rfl, _, rfl, hx⟩) (.seq (run_chrU.2 ⟨rfl, _, rfl, hl⟩) h))
    match ext, he with
    | [x, l, z], he =>
      simp only [xlExtensions, List.map_cons, List.map_nil] at he
      have he : upperChar x = 'X' ∧ upperChar l = 'L' ∧
          (upperChar z = 'S' ∨ upperChar z = 'T' ∨ upperChar z = 'W' ∨ upperChar z = 'M') := by
        simp only [List.mem_cons, List.not_mem_nil, or_false] at he
        rcases he with h | h | h | h | h | h | h | h <;> simp at h <;> simp [h]
      refine three x l z s' he.1 he.2.1 ?_
      rcases he.2.2 with hz | hz | hz | hz
      · exact .altL (.altL (.seq (run_chrU.2 ⟨rfl, _, rfl, hz⟩) (run_xm.2 ⟨rfl, .inl rfl⟩)))
      · exact .altL (.altR (.seq (run_chrU.2 ⟨rfl, _, rfl, hz⟩) (run_xm.2 ⟨rfl, .inl rfl⟩)))
      · exact .altR (.altL (run_chrU.2 ⟨rfl, _, rfl, hz⟩))
      · exact .altR (.altR (run_chrU.2 ⟨rfl, _, rfl, hz⟩))
    | [x, l, z, w], he =>
      simp only [xlExtensions, List.map_cons, List.map_nil] at he
      have he : upperChar x = 'X' ∧ upperChar l = 'L' ∧ (upperChar z = 'S' ∨ upperChar z = 'T') ∧
          (upperChar w = 'X' ∨ upperChar w = 'M') := by
        simp only [List.mem_cons, List.not_mem_nil, or_false] at he
        rcases he with h | h | h | h | h | h | h | h <;> simp at h <;> simp [h]
      refine three x l z (w :: s') he.1 he.2.1 ?_
      rcases he.2.2.1 with hz | hz
      · exact .altL (.altL (.seq (run_chrU.2 ⟨rfl, _, rfl, hz⟩) (run_xm.2 ⟨rfl, .inr ⟨w, rfl, he.2.2.2⟩⟩)))
      · exact .altL (.altR (.seq (run_chrU.2 ⟨rfl, _, rfl, hz⟩) (run_xm.2 ⟨rfl, .inr ⟨w, rfl, he.2.2.2⟩⟩)))
    | [], he => simp [xlExtensions] at he
    | [_], he => simp [xlExtensions] at he
    | [_, _], he => simp [xlExtensions] at he
    | _ :: _ :: _ :: _ :: _ :: _, he => simp [xlExtensions] at he

private theorem search_isSome (r : Re) : ∀ s : Str, (r.search s).isSome ↔ ∃ pre t s' c', s = pre ++ t ∧
    Re.Run r t Caps.empty s' c' := by
  intro s
  induction s with
  | nil =>
    rw [Re.search, Option.isSome_map, match_isSome_iff]
    constructor
    · rintro ⟨s', c', h⟩; exact ⟨[], [], s', c', rfl, h⟩
    · rintro ⟨pre, t, s', c', e, h⟩
      have := List.append_eq_nil_iff.1 e.symm
      rw [this.2] at h
      exact ⟨s', c', h⟩
  | cons x t ih =>
    rw [Re.search]
    cases hm : r.match? (x :: t) with
    | some m =>
      obtain ⟨s', c'⟩ := m
      simp only [Option.isSome_some, true_iff]
      exact ⟨[], x :: t, s', c', rfl, match_run hm⟩
    | none =>
      simp only [Option.isSome_map, ih]
      constructor
      · rintro ⟨pre, u, s', c', rfl, h⟩; exact ⟨x :: pre, u, s', c', rfl, h⟩
      · rintro ⟨pre, u, s', c', e, h⟩
        cases pre with
        | nil =>
          exfalso
          have := (match_isSome_iff r (x :: t)).2 ⟨s', c', by rw [List.nil_append] at e; rw [e]; exact h⟩
          rw [hm] at this
          simp at this
        | cons y pre =>
          simp only [List.cons_append, List.cons.injEq] at e
          exact ⟨pre, u, s', c', e.2, h⟩

/-- C63. A file is an Excel file exactly when its name ends with a dot and an Excel extension in any
letter case (a newline may follow, as for any Python regex ending with `$`). -/
theorem C63_excel_file (path : Str) : isExcelFile path = true ↔
    ∃ stem ext nl, path = stem ++ '.' :: ext ++ nl ∧ ext.map upperChar ∈ xlExtensions ∧ (nl = [] ∨ nl = ['\n']) := by
  unfold isExcelFile
  rw [search_isSome]
  constructor
  · rintro ⟨pre, t, s', c', rfl, h⟩
    obtain ⟨s1, c1, h1, h2⟩ := run_seq.1 h
    obtain ⟨-, ext, rfl, he⟩ := run_xlExt.1 h1
    cases h2 with
    | eos hend =>
      refine ⟨pre, ext, s', by simp, he, ?_⟩
      simpa [atEnd] using hend
  · rintro ⟨stem, ext, nl, rfl, he, hnl⟩
    refine ⟨stem, '.' :: ext ++ nl, nl, Caps.empty, by simp, ?_⟩
    refine .seq (run_xlExt.2 ⟨rfl, ext, rfl, he⟩) (.eos ?_)
    rcases hnl with rfl | rfl <;> rfl

/-- C63. The Excel backend bids exactly for the paths that have, anywhere, a dot and an Excel extension
in any letter case, followed by no word character. -/
theorem C63_bid (isWord : Char → Bool) (wbUrl path : Str) :
    (xlrdBid isWord (some (wbUrl, path)) = some 100 ↔ wbUrl ≠ [] ∧
      ∃ stem ext rest, path = stem ++ '.' :: ext ++ rest ∧ ext.map upperChar ∈ xlExtensions ∧
        ∀ c, rest.head? = some c → isWord c = false) ∧
    (xlrdBid isWord (some (wbUrl, path)) ≠ some 100 → xlrdBid isWord (some (wbUrl, path)) = none) := by
  have hb : ∀ s : Str, boundary isWord s = true ↔ ∀ c, s.head? = some c → isWord c = false := by
    intro s
    cases s with
    | nil => simp [boundary]
    | cons c t => simp [boundary]
  have key : ∀ p : Str, xlExtAnywhere isWord p = true ↔
      ∃ stem ext rest, p = stem ++ '.' :: ext ++ rest ∧ ext.map upperChar ∈ xlExtensions ∧
        ∀ c, rest.head? = some c → isWord c = false := by
    intro p
    induction p with
    | nil => simp [xlExtAnywhere]
    | cons x t ih =>
      rw [xlExtAnywhere, Bool.or_eq_true, ih]
      constructor
      · rintro (h | ⟨stem, ext, rest, rfl, h1, h2⟩)
        · obtain ⟨u, hu⟩ := Option.isSome_iff_exists.1 h
          obtain ⟨s', c', hr, hk⟩ := m_sound _ _ _ _ _ hu
          obtain ⟨-, ext, e, he⟩ := run_xlExt.1 hr
          refine ⟨[], ext, s', e, he, ?_⟩
          split at hk
          · rename_i hbd; exact (hb s').1 hbd
          · simp at hk
        · exact ⟨x :: stem, ext, rest, rfl, h1, h2⟩
      · rintro ⟨stem, ext, rest, e, h1, h2⟩
        cases stem with
        | nil =>
          left
          rw [List.nil_append] at e
          refine m_complete _ (run_xlExt.2 ⟨rfl, ext, e, h1⟩) _ ?_
          rw [if_pos ((hb rest).2 h2)]
          rfl
        | cons y stem =>
          simp only [List.cons_append, List.cons.injEq] at e
          exact .inr ⟨stem, ext, rest, by simpa using e.2, h1, h2⟩
  rw [← key]
  unfold xlrdBid
  simp only
  by_cases h1 : wbUrl = []
  · simp [h1]
  · rw [if_neg (by simpa using h1)]
    by_cases h2 : xlExtAnywhere isWord path = true
    · simp [h1, h2]
    · rw [if_neg h2]; simp [h2]

example : isExcelFile "d/Foo.XlSm".toList = true ∧ isExcelFile "d/foo.xlsb".toList = false ∧
    isExcelFile "xls".toList = false := ⟨rfl, rfl, rfl⟩
example : xlrdBid Char.isAlphanum (some ("u".toList, "foo.xls.txt".toList)) = some 100 ∧
    xlrdBid Char.isAlphanum (some ("u".toList, "foo.xlsb".toList)) = none := ⟨rfl, rfl⟩

end Props
