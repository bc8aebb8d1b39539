import Verif.Spec.SheetsOnce
import Verif.Lemmas.FactoryBooks
/-
Lemmas on factories of which workbooks and sheets are asked for in one way each.
-/
namespace Lemmas
open Py Model Spec Props

section
variable {W : Surroundings} {texts : Str → Prop}

/-- What is cached besides the sheets themselves, between calls. -/
structure KeepsKeys (W : Surroundings) (texts : Str → Prop) (f : Factory) : Prop where
  keys : ∀ k t, f.get k = some t → (k.1 = t.wb ∨ texts k.1 ∧ NamesBook W k.1 t.wb) ∧ (k.2 ∈ t.ids ∨ k.2 = .none)
  first : ∀ x t, f.get (x, .none) = some t → ∃ w, texts w ∧ NamesBook W w t.wb ∧ ∀ id ∈ t.ids, ∃ t', f.get (w, id) = some t'

/-- Adding a sheet that was opened since it was not cached does not remove keys. -/
theorem add_keeps (hT : OneText W texts) {D : Desk} {given : List SheetObj} (h : Inv W D given) (hk : KeepsKeys W texts D.fac)
    {order : List SKey → List SKey} (ho : IsOrder order) {w url : Str} {sh : ShId}
    {names : List Str} {i : Nat} (hB : BookAt W url names) (hi : i < names.length)
    (hw : ∀ id, openSheetOf W.ok W.cwd W.plugins w id = openSheetOf W.ok W.cwd W.plugins url id)
    (hsh : openSheetOf W.ok W.cwd W.plugins w sh = .ok (url, i)) {f2 : Factory}
    (ha : Factory.add order { D.fac with opened := D.fac.opened + 1 } (sheetAt D.fac.opened url names i) (.one w) (.one sh) = .ok f2)
    (hmiss : D.fac.get (w, sh) = none) (hown : sh = .none ∨ sh ∈ (sheetAt D.fac.opened url names i).ids)
    (hcase : (texts w ∧ NamesBook W w url) ∨ (w = url ∧ sh ≠ .none)) :
    (∀ k t, D.fac.get k = some t → ∃ t', f2.get k = some t') ∧ KeepsKeys W texts f2 ∧
      f2.get (w, sh) = some (sheetAt D.fac.opened url names i) := by
  have hgs : ∀ t ∈ given, t.wb = url → t.number = i → t.ids = (sheetAt D.fac.opened url names i).ids := by
    intro t ht h1 h2
    obtain ⟨ns, i', bk, hB', hi', h3, -⟩ := h.good t ht
    rw [h1] at hB'
    cases bookAt_unique hB hB'
    rw [h3, number_sheetAt] at h2
    subst h2
    rw [h3]
    rfl
  generalize hs : sheetAt D.fac.opened url names i = s at *
  have hsw : s.wb = url := by rw [← hs]; rfl
  obtain ⟨a1, a2, a3, a4⟩ := add_facts (f := { D.fac with opened := D.fac.opened + 1 }) ho h.fok ha
  have a2 : ∀ k t, f2.get k = some t ↔ (Registers s (.one w) (.one sh) k ∧ t = s) ∨
      (¬ Registers s (.one w) (.one sh) k ∧ D.fac.get k = some t ∧ (t = s ∨ ∀ k', Registers s (.one w) (.one sh) k' → D.fac.get k' ≠ some t)) := a2
  have hreg : ∀ k, Registers s (.one w) (.one sh) k → openSheetOf W.ok W.cwd W.plugins k.1 k.2 = .ok (url, i) := by
    rintro ⟨k1, k2⟩ ⟨hk1, -, hk2⟩
    have e1 : openSheetOf W.ok W.cwd W.plugins k1 k2 = openSheetOf W.ok W.cwd W.plugins url k2 := by
      rcases hk1 with e | e
      · simp only at e; rw [e, hsw]
      · simp only [Gives] at e; rw [← hw, e]
    simp only [e1]
    rcases hk2 with e | e | ⟨-, e⟩
    · exact open_own hB hi (hs ▸ e)
    · simp only [Gives] at e; rw [e, ← hw]; exact hsh
    · cases e
  have hwne : w ≠ [] := by
    rcases hcase with ⟨h1, -⟩ | ⟨h1, -⟩
    · exact hT.2 w h1
    · rw [h1]; exact hB.1
  have hself : Registers s (.one w) (.one sh) (w, sh) := ⟨.inr rfl, hwne, .inr (.inl rfl)⟩
  have hmono : ∀ k t, D.fac.get k = some t → ∃ t', f2.get k = some t' := by
    intro k t hkt
    by_cases hr : Registers s (.one w) (.one sh) k
    · exact ⟨s, (a2 _ _).2 (.inl ⟨hr, rfl⟩)⟩
    · refine ⟨t, (a2 _ _).2 (.inr ⟨hr, hkt, .inr ?_⟩)⟩
      intro k' hk' hg
      apply hr
      obtain ⟨c1, c2⟩ := h.cached k' t hg
      rw [hreg k' hk'] at c2
      have e1 : t.wb = url := by cases c2; rfl
      have e2 : t.number = i := by cases c2; rfl
      have hids := hgs t c1 e1 e2
      obtain ⟨d1, d2⟩ := hk.keys k t hkt
      rcases hcase with ⟨t1, t2⟩ | ⟨t1, t2⟩
      · have hx : k.1 = s.wb ∨ k.1 = w := by
          rcases d1 with d1 | ⟨d1, d3⟩
          · left; rw [d1, e1, hsw]
          · right; rw [e1] at d3; exact hT.1 _ _ _ d1 t1 d3 t2
        refine ⟨hx, ?_, ?_⟩
        · rcases hx with hx | hx
          · rw [hx, hsw]; exact hB.1
          · rw [hx]; exact hwne
        · rcases d2 with d2 | d2
          · left; rw [← hids]; exact d2
          · by_cases hn : sh = .none
            · right; left; rw [d2, hn]; rfl
            · exfalso
              obtain ⟨x, id⟩ := k
              simp only at d2
              subst d2
              obtain ⟨w', q1, q2, q3⟩ := hk.first x t hkt
              rw [e1] at q2
              have := hT.1 _ _ _ q1 t1 q2 t2
              subst this
              obtain ⟨t', ht'⟩ := q3 sh (hids ▸ hown.resolve_left hn)
              rw [hmiss] at ht'
              cases ht'
      · exfalso
        obtain ⟨t', ht'⟩ := h.known t c1 sh (hids ▸ hown.resolve_left t2)
        rw [e1, ← t1, hmiss] at ht'
        cases ht'
  refine ⟨hmono, ⟨?_, ?_⟩, (a2 _ _).2 (.inl ⟨hself, rfl⟩)⟩
  · intro k t hkt
    rcases (a2 k t).1 hkt with ⟨h1, rfl⟩ | ⟨-, h1, -⟩
    · obtain ⟨g1, g2, g3⟩ := h1
      refine ⟨?_, ?_⟩
      · rcases g1 with g1 | g1
        · exact .inl g1
        · simp only [Gives] at g1
          rcases hcase with ⟨t1, t2⟩ | ⟨t1, t2⟩
          · right; rw [g1, hsw]; exact ⟨t1, t2⟩
          · left; rw [g1, t1, hsw]
      · rcases g3 with g3 | g3 | ⟨-, g3⟩
        · exact .inl g3
        · simp only [Gives] at g3
          rw [g3]
          exact hown.symm
        · cases g3
    · exact hk.keys k t h1
  · intro x t hxt
    rcases (a2 _ t).1 hxt with ⟨h1, rfl⟩ | ⟨-, h1, -⟩
    · obtain ⟨-, -, g3⟩ := h1
      have hn : sh = .none := by
        rcases g3 with g3 | g3 | ⟨-, g3⟩
        · rw [← hs] at g3
          simp [sheetAt] at g3
        · exact g3.symm
        · cases g3
      rcases hcase with ⟨t1, t2⟩ | ⟨t1, t2⟩
      · refine ⟨w, t1, hsw ▸ t2, fun id hid => ⟨t, (a2 _ _).2 (.inl ⟨⟨.inr rfl, hwne, .inl hid⟩, rfl⟩)⟩⟩
      · exact absurd hn t2
    · obtain ⟨w', q1, q2, q3⟩ := hk.first x t h1
      refine ⟨w', q1, q2, fun id hid => ?_⟩
      obtain ⟨t', ht'⟩ := q3 id hid
      exact hmono _ _ ht'

/-- How a call for a sheet of a workbook ends: it is in the cache, it cannot be opened, or it is opened. -/
theorem book_call (hW : ProperBooks W) (hT : OneText W texts) {D : Desk} {given : List SheetObj} (h : Inv W D given) (hk : KeepsKeys W texts D.fac)
    {order : List SKey → List SKey} (ho : IsOrder order) {w : Str} (hw : texts w) {sh : ShId} (hid : OwnId W w sh) (base : Option SheetObj) :
    (∃ s ∈ given, D.fac.get (w, sh) = some s ∧ (D.fetch W order (some w) sh base).1.fac = D.fac ∧ (D.fetch W order (some w) sh base).2 = .ok s) ∨
    (∃ e, D.fac.get (w, sh) = none ∧ (D.fetch W order (some w) sh base).2 = .error e ∧
      (D.fetch W order (some w) sh base).1.fac = { D.fac with opened := D.fac.opened + 1 }) ∨
    ∃ s, D.fac.get (w, sh) = none ∧ (D.fetch W order (some w) sh base).2 = .ok s ∧ s ∉ given ∧
      (D.fetch W order (some w) sh base).1.fac.get (w, sh) = some s ∧ KeepsKeys W texts (D.fetch W order (some w) sh base).1.fac ∧
      ∀ k t, D.fac.get k = some t → ∃ t', (D.fetch W order (some w) sh base).1.fac.get k = some t' := by
  have e0 : ∀ r, D.fac.cachedOr order w sh (fun n => (D.openers W).book n (some w) sh) = r →
      (D.fetch W order (some w) sh base).1.fac = r.1 ∧ (D.fetch W order (some w) sh base).2 = r.2 := by
    intro r hr
    rw [← hr]
    unfold Desk.fetch
    cases base <;> exact ⟨rfl, rfl⟩
  rcases cachedOr_ends (order := order) D.fac w sh (fun n => (D.openers W).book n (some w) sh) (by
      intro s hs
      rcases book_opener (D := D) hW D.fac.opened w sh with ⟨x, hx, -⟩ | ⟨url, names, i, hx, -, hB, -⟩
      · rw [hs] at hx; cases hx
      · rw [hs] at hx; cases hx
        exact ⟨hB.1, sheetAt_ids _ _ _ _⟩) with ⟨s, hg, hr⟩ | ⟨hg, x, hx, hr⟩ | ⟨hg, s, f2, hx, ha, hr⟩
  · obtain ⟨e1, e2⟩ := e0 _ hr
    exact .inl ⟨s, (h.cached _ _ hg).1, hg, e1, e2⟩
  · obtain ⟨e1, e2⟩ := e0 _ hr
    exact .inr (.inl ⟨x, hg, e2, e1⟩)
  · obtain ⟨e1, e2⟩ := e0 _ hr
    rw [e1, e2]
    rcases book_opener (D := D) hW D.fac.opened w sh with ⟨y, hy, -⟩ | ⟨url, names, i, hy, hz, hB, hi, hl, hall⟩
    · rw [hx] at hy; cases hy
    · rw [hx] at hy
      cases hy
      have hnb : NamesBook W w url := by
        simp only [openSheetOf] at hz
        split at hz
        · cases hz
        · rename_i u p hu
          split at hz
          · cases hz
          · split at hz
            · cases hz
            · cases hz
              exact ⟨p, hu⟩
      have hown : sh = .none ∨ sh ∈ (sheetAt D.fac.opened url names i).ids := by
        rcases hid names url i hl hz with h1 | ⟨n, h1, h2⟩ | h1
        · exact .inl h1
        · right
          simp [sheetAt, h1, h2]
        · right
          simp [sheetAt, h1]
      obtain ⟨k1, k2, k3⟩ := add_keeps hT h hk ho hB hi hall hz ha hg hown (.inl ⟨hw, hnb⟩)
      refine .inr (.inr ⟨_, hg, rfl, fun hm => ?_, k3, k2, k1⟩)
      obtain ⟨_, _, _, -, -, -, h4, -⟩ := h.good _ hm
      exact absurd h4 (Nat.lt_irrefl _)

/-- How a call for a sibling ends. -/
theorem sibling_call (hT : OneText W texts) {D : Desk} {given : List SheetObj} (h : Inv W D given) (hk : KeepsKeys W texts D.fac)
    {order : List SKey → List SKey} (ho : IsOrder order) {b : SheetObj} (hb : b ∈ given) {sh : ShId} (hsh : sh ≠ .none) (hid : OwnId W b.wb sh) :
    (∃ s ∈ given, D.fac.get (b.wb, sh) = some s ∧ (D.fetch W order none sh (some b)).1.fac = D.fac ∧ (D.fetch W order none sh (some b)).2 = .ok s) ∨
    (∃ e, D.fac.get (b.wb, sh) = none ∧ (D.fetch W order none sh (some b)).2 = .error e ∧
      (D.fetch W order none sh (some b)).1.fac = { D.fac with opened := D.fac.opened + 1 }) ∨
    ∃ s, D.fac.get (b.wb, sh) = none ∧ (D.fetch W order none sh (some b)).2 = .ok s ∧ s ∉ given ∧
      (D.fetch W order none sh (some b)).1.fac.get (b.wb, sh) = some s ∧ KeepsKeys W texts (D.fetch W order none sh (some b)).1.fac ∧
      ∀ k t, D.fac.get k = some t → ∃ t', (D.fetch W order none sh (some b)).1.fac.get k = some t' := by
  have e : D.fac.fetch order (D.openers W) none sh (some b) =
      D.fac.cachedOr order b.wb sh (fun n => (D.openers W).sibling n b sh) := by
    unfold Factory.fetch; simp only [if_neg hsh]
  have e0 : ∀ r, D.fac.cachedOr order b.wb sh (fun n => (D.openers W).sibling n b sh) = r →
      (D.fetch W order none sh (some b)).1.fac = r.1 ∧ (D.fetch W order none sh (some b)).2 = r.2 := by
    intro r hr
    rw [← hr, ← e]
    exact ⟨rfl, rfl⟩
  cases hg : D.fac.get (b.wb, sh) with
  | some s =>
    have hr : D.fac.cachedOr order b.wb sh (fun n => (D.openers W).sibling n b sh) = (D.fac, .ok s) := by
      unfold Factory.cachedOr
      simp only [hg]
    obtain ⟨e1, e2⟩ := e0 _ hr
    exact .inl ⟨s, (h.cached _ _ hg).1, rfl, e1, e2⟩
  | none =>
    rcases sibling_opener h hb D.fac.opened sh hg with ⟨x, hx, -⟩ | ⟨names, i, hx, hz, hB, hi, hnm, hlt⟩
    · have hr : D.fac.cachedOr order b.wb sh (fun n => (D.openers W).sibling n b sh) = ({ D.fac with opened := D.fac.opened + 1 }, .error x) := by
        unfold Factory.cachedOr
        simp only [hg, hx]
      obtain ⟨e1, e2⟩ := e0 _ hr
      exact .inr (.inl ⟨x, rfl, e2, e1⟩)
    · rcases cachedOr_ends (order := order) D.fac b.wb sh (fun n => (D.openers W).sibling n b sh) (by
          intro s hs
          rw [hs] at hx; cases hx
          exact ⟨hB.1, sheetAt_ids _ _ _ _⟩) with ⟨s, hg', hr⟩ | ⟨-, y, hy, hr⟩ | ⟨-, s, f2, hy, ha, hr⟩
      · rw [hg] at hg'; cases hg'
      · rw [hx] at hy; cases hy
      · rw [hx] at hy
        cases hy
        obtain ⟨e1, e2⟩ := e0 _ hr
        rw [e1, e2]
        have hown : sh ∈ (sheetAt D.fac.opened b.wb names i).ids := by
          rcases hid names b.wb i (list_url hB) hz with h1 | ⟨n, h1, h2⟩ | h1
          · exact absurd h1 hsh
          · simp [sheetAt, h1, h2]
          · simp [sheetAt, h1]
        obtain ⟨k1, k2, k3⟩ := add_keeps hT h hk ho hB hi (fun _ => rfl) hz ha hg (.inr hown) (.inr ⟨rfl, hsh⟩)
        refine .inr (.inr ⟨_, rfl, rfl, fun hm => ?_, k3, k2, k1⟩)
        obtain ⟨_, _, _, -, -, -, h4, -⟩ := h.good _ hm
        exact absurd h4 (Nat.lt_irrefl _)

theorem keeps_opened {f : Factory} (h : KeepsKeys W texts f) (n : Nat) : KeepsKeys W texts { f with opened := n } := ⟨h.keys, h.first⟩

/-- Such a factory is a factory after calls of `fetch_sheet`. -/
theorem orderly_serving {D : Desk} {given : List SheetObj} {asked : List SKey} (h : Orderly W texts D given asked) :
    ∃ given', (∀ s, s ∈ given ↔ s ∈ given') ∧ Serving W D given' := by
  induction h with
  | new => exact ⟨[], fun _ => Iff.rfl, .new⟩
  | @book D given asked order w sh base _ ho hw hid hb ih =>
    obtain ⟨g, h1, h2⟩ := ih
    refine ⟨_, ?_, .fetch order (some w) sh base h2 ho (fun b hbb => (h1 b).1 (hb b hbb))⟩
    intro s
    cases (D.fetch W order (some w) sh base).2 with
    | error e => exact h1 s
    | ok t => simp only [alsoGiven, List.mem_cons, h1]
  | @sibling D given asked order b sh _ ho hb hsh hid ih =>
    obtain ⟨g, h1, h2⟩ := ih
    refine ⟨_, ?_, .fetch order none sh (some b) h2 ho (fun b' hbb => by cases hbb; exact (h1 b).1 hb)⟩
    intro s
    cases (D.fetch W order none sh (some b)).2 with
    | error e => exact h1 s
    | ok t => simp only [alsoGiven, List.mem_cons, h1]
  | @base D given asked order b _ ho hb ih =>
    obtain ⟨g, h1, h2⟩ := ih
    refine ⟨_, ?_, .fetch order none .none (some b) h2 ho (fun b' hbb => by cases hbb; exact (h1 b).1 hb)⟩
    intro s
    have : (D.fetch W order none .none (some b)).2 = .ok b := rfl
    rw [this]
    simp only [List.mem_cons, h1]
    constructor
    · exact .inr
    · rintro (rfl | hs)
      · exact (h1 _).1 hb
      · exact hs

theorem inv_iff {D : Desk} {given given' : List SheetObj} (h : Inv W D given) (e : ∀ s, s ∈ given' ↔ s ∈ given) : Inv W D given' :=
  ⟨h.fok, fun k t hk => ⟨(e t).2 (h.cached k t hk).1, (h.cached k t hk).2⟩, fun t ht => (e t).2 (h.closed t ht),
    fun t ht => h.good t ((e t).1 ht), fun t ht => h.known t ((e t).1 ht), fun t ht u hu => h.book t ((e t).1 ht) u ((e u).1 hu)⟩

theorem orderly_inv (hW : ProperBooks W) {D : Desk} {given : List SheetObj} {asked : List SKey} (h : Orderly W texts D given asked) :
    Inv W D given := by
  obtain ⟨g, h1, h2⟩ := orderly_serving h
  exact inv_iff (serving_inv hW h2) h1

/-- What holds between such calls. -/
theorem orderly_keeps (hW : ProperBooks W) (hT : OneText W texts) {D : Desk} {given : List SheetObj} {asked : List SKey}
    (h : Orderly W texts D given asked) :
    KeepsKeys W texts D.fac ∧ (∀ k ∈ asked, ∃ t, D.fac.get k = some t) ∧
    ∃ l : List (SheetObj × SKey), (l.map Prod.snd).Nodup ∧ (∀ s ∈ given, s ∈ l.map Prod.fst) ∧ ∀ k ∈ l.map Prod.snd, k ∈ asked := by
  induction h with
  | new =>
    refine ⟨⟨?_, ?_⟩, ?_, [], by simp, ?_, by simp⟩
    · intro k t hk
      simp [Desk.new, Factory.new, Factory.get] at hk
    · intro x t hk
      simp [Desk.new, Factory.new, Factory.get] at hk
    · intro k hk; cases hk
    · intro s hs; cases hs
  | @book D given asked order w sh base hD ho hw hid hb ih =>
    obtain ⟨i1, i2, l, l1, l2, l3⟩ := ih
    have hI := orderly_inv hW hD
    rcases book_call hW hT hI i1 ho hw hid base with ⟨s, hs, h1, h2, h3⟩ | ⟨e, h1, h2, h3⟩ | ⟨s, h1, h2, h3, h4, h5, h6⟩
    · rw [h2, h3]
      refine ⟨i1, ?_, l, l1, ?_, fun k hk => List.mem_cons_of_mem _ (l3 k hk)⟩
      · intro k hk
        rcases List.mem_cons.1 hk with rfl | hk
        · exact ⟨s, h1⟩
        · exact i2 k hk
      · intro t ht
        rcases List.mem_cons.1 ht with rfl | ht
        · exact l2 _ hs
        · exact l2 _ ht
    · rw [h2, h3]
      exact ⟨keeps_opened i1 _, i2, l, l1, l2, l3⟩
    · rw [h2]
      refine ⟨h5, ?_, (s, (w, sh)) :: l, ?_, ?_, ?_⟩
      · intro k hk
        rcases List.mem_cons.1 hk with rfl | hk
        · exact ⟨s, h4⟩
        · obtain ⟨t, ht⟩ := i2 k hk
          exact h6 k t ht
      · rw [List.map_cons, List.nodup_cons]
        refine ⟨fun hm => ?_, l1⟩
        obtain ⟨t, ht⟩ := i2 _ (l3 _ hm)
        rw [h1] at ht
        cases ht
      · intro t ht
        rcases List.mem_cons.1 ht with rfl | ht
        · simp
        · exact List.mem_cons_of_mem _ (l2 _ ht)
      · intro k hk
        rcases List.mem_cons.1 hk with rfl | hk
        · exact List.mem_cons_self ..
        · exact List.mem_cons_of_mem _ (l3 k hk)
  | @sibling D given asked order b sh hD ho hb hsh hid ih =>
    obtain ⟨i1, i2, l, l1, l2, l3⟩ := ih
    have hI := orderly_inv hW hD
    rcases sibling_call hT hI i1 ho hb hsh hid with ⟨s, hs, h1, h2, h3⟩ | ⟨e, h1, h2, h3⟩ | ⟨s, h1, h2, h3, h4, h5, h6⟩
    · rw [h2, h3]
      refine ⟨i1, ?_, l, l1, ?_, fun k hk => List.mem_cons_of_mem _ (l3 k hk)⟩
      · intro k hk
        rcases List.mem_cons.1 hk with rfl | hk
        · exact ⟨s, h1⟩
        · exact i2 k hk
      · intro t ht
        rcases List.mem_cons.1 ht with rfl | ht
        · exact l2 _ hs
        · exact l2 _ ht
    · rw [h2, h3]
      exact ⟨keeps_opened i1 _, i2, l, l1, l2, l3⟩
    · rw [h2]
      refine ⟨h5, ?_, (s, (b.wb, sh)) :: l, ?_, ?_, ?_⟩
      · intro k hk
        rcases List.mem_cons.1 hk with rfl | hk
        · exact ⟨s, h4⟩
        · obtain ⟨t, ht⟩ := i2 k hk
          exact h6 k t ht
      · rw [List.map_cons, List.nodup_cons]
        refine ⟨fun hm => ?_, l1⟩
        obtain ⟨t, ht⟩ := i2 _ (l3 _ hm)
        rw [h1] at ht
        cases ht
      · intro t ht
        rcases List.mem_cons.1 ht with rfl | ht
        · simp
        · exact List.mem_cons_of_mem _ (l2 _ ht)
      · intro k hk
        rcases List.mem_cons.1 hk with rfl | hk
        · exact List.mem_cons_self ..
        · exact List.mem_cons_of_mem _ (l3 k hk)
  | @base D given asked order b hD ho hb ih => exact ih

end

end Lemmas
