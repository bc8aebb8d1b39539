import Verif.Spec.FactoryBooks
import Verif.Props.SheetNames
/-
Lemmas on sheets served by a factory.
-/
namespace Lemmas
open Py Model Spec Props

theorem number_sheetAt (n : Nat) (url : Str) (names : List Str) (i : Nat) : (sheetAt n url names i).number = i := by
  simp [sheetAt, SheetObj.number]

section
variable {W : Surroundings}

/-- The workbook with this URL has these sheets. -/
def BookAt (W : Surroundings) (url : Str) (names : List Str) : Prop :=
  url ≠ [] ∧ names.Nodup ∧ ∃ p, urlAndBackend W.ok W.cwd W.plugins url = .ok (url, p) ∧ p.book url = .ok names

theorem bookAt_of (hW : ProperBooks W) {w url : Str} {p : Plugin} {names : List Str} (h : urlAndBackend W.ok W.cwd W.plugins w = .ok (url, p))
    (hb : p.book url = .ok names) : BookAt W url names := by
  obtain ⟨h1, h2, h3⟩ := hW w url p names h hb
  refine ⟨h1, h3, p, ?_, hb⟩
  unfold urlAndBackend at h ⊢
  cases hu : path2url W.ok W.cwd w with
  | none => rw [hu] at h; cases h
  | some u =>
    rw [hu] at h
    simp only at h
    cases hu2 : path2url W.ok W.cwd u with
    | none => rw [hu2] at h; cases h
    | some u2 =>
      rw [hu2] at h
      simp only at h
      cases hd : decideBackend (W.plugins.map (fun p => (p, p.bid u2))) with
      | error e => rw [hd] at h; cases h
      | ok q =>
        rw [hd] at h
        cases h
        rw [h2] at hu2
        cases hu2
        rw [h2]
        simp only [h2, hd]

theorem bookAt_unique {url : Str} {names names' : List Str} (h : BookAt W url names) (h' : BookAt W url names') : names = names' := by
  obtain ⟨-, -, p, h1, h2⟩ := h
  obtain ⟨-, -, p', h1', h2'⟩ := h'
  rw [h1] at h1'
  cases h1'
  rw [h2] at h2'
  cases h2'
  rfl

theorem open_url {url : Str} {names : List Str} (h : BookAt W url names) (id : ShId) :
    openSheetOf W.ok W.cwd W.plugins url id = (openSheetBy names id).map (fun i => (url, i)) := by
  obtain ⟨-, -, p, h1, h2⟩ := h
  simp only [openSheetOf, h1, h2]
  cases openSheetBy names id <;> rfl

theorem list_url {url : Str} {names : List Str} (h : BookAt W url names) : listSheetNames W.ok W.cwd W.plugins url = .ok names := by
  obtain ⟨-, -, p, h1, h2⟩ := h
  simp only [listSheetNames, h1, h2]

theorem open_own {url : Str} {names : List Str} (h : BookAt W url names) {n i : Nat} (hi : i < names.length) {id : ShId}
    (hid : id ∈ (sheetAt n url names i).ids) : openSheetOf W.ok W.cwd W.plugins url id = .ok (url, i) := by
  obtain ⟨u, hu⟩ := C123_opened W.ok W.cwd W.plugins url names h.2.1 (list_url h)
  have e := hu i hi
  have hu' : ∀ id, openSheetOf W.ok W.cwd W.plugins url id = .ok (u, i) → u = url := by
    intro id he
    rw [open_url h] at he
    cases ho : openSheetBy names id with
    | error x => rw [ho] at he; cases he
    | ok j => rw [ho] at he; cases he; rfl
  have := hu' _ e.2
  subst this
  simp only [sheetAt, List.mem_cons, List.not_mem_nil, or_false] at hid
  rcases hid with rfl | rfl
  · have : names.getD i [] = names[i] := by simp [hi]
    rw [this]; exact e.1
  · exact e.2

/-- A sheet that was opened. -/
def Good (W : Surroundings) (D : Desk) (t : SheetObj) : Prop :=
  ∃ names i book, BookAt W t.wb names ∧ i < names.length ∧ t = sheetAt t.oid t.wb names i ∧ t.oid < D.fac.opened ∧ D.home t.oid = (book, i) ∧
    book < D.fac.opened ∧ D.names book = names

theorem good_own {D : Desk} {t : SheetObj} (h : Good W D t) {id : ShId} (hid : id ∈ t.ids) :
    openSheetOf W.ok W.cwd W.plugins t.wb id = .ok (t.wb, t.number) := by
  obtain ⟨names, i, book, h1, h2, h3, -⟩ := h
  rw [h3] at hid
  have := open_own h1 h2 hid
  rw [h3, number_sheetAt]
  exact this

theorem good_same {D D' : Desk} {s t : SheetObj} (hs : Good W D s) (ht : Good W D' t) (hw : s.wb = t.wb) (hn : s.number = t.number) :
    s.ids = t.ids := by
  obtain ⟨names, i, book, h1, h2, h3, -⟩ := hs
  obtain ⟨names', i', book', h1', h2', h3', -⟩ := ht
  rw [hw] at h1
  have := bookAt_unique h1 h1'
  subst this
  rw [h3, number_sheetAt] at hn
  rw [h3', number_sheetAt] at hn
  subst hn
  rw [h3, h3']
  rfl

/-- What holds between calls. -/
structure Inv (W : Surroundings) (D : Desk) (given : List SheetObj) : Prop where
  fok : FOk D.fac
  cached : ∀ k t, D.fac.get k = some t → t ∈ given ∧ openSheetOf W.ok W.cwd W.plugins k.1 k.2 = .ok (t.wb, t.number)
  closed : ∀ t ∈ D.fac.closed, t ∈ given
  good : ∀ t ∈ given, Good W D t
  known : ∀ t ∈ given, ∀ id ∈ t.ids, ∃ t', D.fac.get (t.wb, id) = some t'
  book : ∀ t ∈ given, ∀ u ∈ given, (D.home t.oid).1 = (D.home u.oid).1 → t.wb = u.wb

theorem good_note {D : Desk} {t : SheetObj} (h : Good W D t) (f : Factory) (book number : Nat) (names : List Str)
    (hb : book = D.fac.opened ∨ names = D.names book) (hf : D.fac.opened ≤ f.opened) : Good W (D.note f book number names) t := by
  obtain ⟨ns, i, bk, h1, h2, h3, h4, h5, h6, h7⟩ := h
  refine ⟨ns, i, bk, h1, h2, h3, Nat.lt_of_lt_of_le h4 hf, ?_, Nat.lt_of_lt_of_le h6 hf, ?_⟩
  · show (if t.oid = D.fac.opened then (book, number) else D.home t.oid) = _
    rw [if_neg (by omega)]; exact h5
  · show (if bk = book then names else D.names bk) = ns
    split
    · rename_i e
      subst e
      rcases hb with hb | hb
      · omega
      · rw [hb]; exact h7
    · exact h7

theorem inv_note {D : Desk} {given : List SheetObj} (h : Inv W D given) (f : Factory) (hc : f.cache = D.fac.cache) (hcl : f.closed = D.fac.closed)
    (hf : D.fac.opened ≤ f.opened) (book number : Nat) (names : List Str) (hb : book = D.fac.opened ∨ names = D.names book) :
    Inv W (D.note f book number names) given := by
  have hh : ∀ t ∈ given, (D.note f book number names).home t.oid = D.home t.oid := by
    intro t ht
    obtain ⟨-, -, -, -, -, -, h4, -⟩ := h.good t ht
    show (if t.oid = D.fac.opened then (book, number) else D.home t.oid) = _
    rw [if_neg (by omega)]
  have hg : ∀ k, (D.note f book number names).fac.get k = D.fac.get k := by
    intro k
    show f.get k = _
    simp only [Factory.get, hc]
  refine ⟨?_, ?_, ?_, ?_, ?_, fun t ht u hu hb => h.book t ht u hu (by rw [hh t ht, hh u hu] at hb; exact hb)⟩
  · show FOk f
    intro w hw
    exact h.fok w (hc ▸ hw)
  · intro k t hk
    rw [hg] at hk
    exact h.cached k t hk
  · intro t ht
    exact h.closed t (hcl ▸ ht)
  · intro t ht
    exact good_note (h.good t ht) f book number names hb hf
  · intro t ht id hid
    rw [hg]
    exact h.known t ht id hid

/-- A sheet is opened and added. -/
theorem inv_add {D : Desk} {given : List SheetObj} (h : Inv W D given) {order : List SKey → List SKey} (ho : IsOrder order) {w url : Str} {sh : ShId}
    {names : List Str} {i : Nat} (hB : BookAt W url names) (hi : i < names.length)
    (hw : ∀ id, openSheetOf W.ok W.cwd W.plugins w id = openSheetOf W.ok W.cwd W.plugins url id)
    (hsh : openSheetOf W.ok W.cwd W.plugins w sh = .ok (url, i)) {f2 : Factory}
    (ha : Factory.add order { D.fac with opened := D.fac.opened + 1 } (sheetAt D.fac.opened url names i) (.one w) (.one sh) = .ok f2)
    (book : Nat) (hb : book = D.fac.opened ∨
      book < D.fac.opened ∧ names = D.names book ∧ ∀ t ∈ given, (D.home t.oid).1 = book → t.wb = url) :
    Inv W (D.note f2 book i names) (sheetAt D.fac.opened url names i :: given) ∧
    ∀ t ∈ f2.closed, t ∈ D.fac.closed ∨ t ∈ given ∧ t.wb = url ∧ t.number = i := by
  generalize hs : sheetAt D.fac.opened url names i = s at *
  have hsw : s.wb = url := by rw [← hs]; rfl
  have hsn : s.number = i := by rw [← hs, number_sheetAt]
  obtain ⟨a1, a2, a3, a4⟩ := add_facts (f := { D.fac with opened := D.fac.opened + 1 }) ho h.fok ha
  have a2 : ∀ k t, f2.get k = some t ↔ (Registers s (.one w) (.one sh) k ∧ t = s) ∨
      (¬ Registers s (.one w) (.one sh) k ∧ D.fac.get k = some t ∧ (t = s ∨ ∀ k', Registers s (.one w) (.one sh) k' → D.fac.get k' ≠ some t)) := a2
  have a3 : ∀ t, t ∈ f2.closed ↔ t ∈ D.fac.closed ∨ (t ≠ s ∧ ∃ k', Registers s (.one w) (.one sh) k' ∧ D.fac.get k' = some t) := a3
  have a4 : f2.opened = D.fac.opened + 1 := a4
  have hreg : ∀ k, Registers s (.one w) (.one sh) k → openSheetOf W.ok W.cwd W.plugins k.1 k.2 = .ok (url, i) := by
    rintro ⟨k1, k2⟩ ⟨hk1, -, hk2⟩
    have e1 : openSheetOf W.ok W.cwd W.plugins k1 k2 = openSheetOf W.ok W.cwd W.plugins url k2 := by
      rcases hk1 with e | e
      · simp only at e; rw [e, hsw]
      · simp only [Gives] at e; rw [← hw, e]
    simp only [e1]
    rcases hk2 with e | e | ⟨-, e⟩
    · exact open_own hB hi (hs ▸ e)
    · simp only [Gives] at e; rw [e, ← hw]; exact hsh
    · cases e
  have hgood : Good W (D.note f2 book i names) s := by
    refine ⟨names, i, book, hsw ▸ hB, hi, by rw [← hs]; rfl, ?_, ?_, ?_, ?_⟩
    · show s.oid < f2.opened
      rw [a4, ← hs]
      exact Nat.lt_succ_self _
    · show (if s.oid = D.fac.opened then (book, i) else D.home s.oid) = _
      rw [if_pos (by rw [← hs]; rfl)]
    · show book < f2.opened
      rw [a4]
      omega
    · show (if book = book then names else D.names book) = names
      rw [if_pos rfl]
  have hclosed : ∀ t ∈ f2.closed, t ∈ D.fac.closed ∨ t ∈ given ∧ t.wb = url ∧ t.number = i := by
    intro t ht
    rcases (a3 t).1 ht with ht | ⟨-, k', hk', hg⟩
    · exact .inl ht
    · obtain ⟨c1, c2⟩ := h.cached k' t hg
      rw [hreg k' hk'] at c2
      cases c2
      exact .inr ⟨c1, rfl, rfl⟩
  have hgd : ∀ t ∈ given, Good W (D.note f2 book i names) t := fun t ht =>
    good_note (h.good t ht) f2 book i names (hb.imp id (fun h => h.2.1)) (by omega)
  have hh : ∀ t ∈ given, (D.note f2 book i names).home t.oid = D.home t.oid ∧ (D.home t.oid).1 < D.fac.opened := by
    intro t ht
    obtain ⟨_, _, bk, -, -, -, h4, h5, h6, -⟩ := h.good t ht
    refine ⟨?_, by rw [h5]; exact h6⟩
    show (if t.oid = D.fac.opened then (book, i) else D.home t.oid) = _
    rw [if_neg (by omega)]
  have hhs : ((D.note f2 book i names).home s.oid).1 = book := by
    show (if s.oid = D.fac.opened then (book, i) else D.home s.oid).1 = _
    rw [if_pos (by rw [← hs]; rfl)]
  have hbs : ∀ t ∈ given, ((D.note f2 book i names).home t.oid).1 = book → t.wb = url := by
    intro t ht hk
    rw [(hh t ht).1] at hk
    rcases hb with hb | ⟨-, -, hb⟩
    · have := (hh t ht).2; omega
    · exact hb t ht hk
  refine ⟨⟨a1, ?_, ?_, ?_, ?_, ?_⟩, hclosed⟩
  · intro k t hk
    rcases (a2 k t).1 hk with ⟨h1, rfl⟩ | ⟨-, h1, -⟩
    · refine ⟨List.mem_cons_self .., ?_⟩
      rw [hreg k h1, hsw, hsn]
    · obtain ⟨c1, c2⟩ := h.cached k t h1
      exact ⟨List.mem_cons_of_mem _ c1, c2⟩
  · intro t ht
    rcases hclosed t ht with ht | ht
    · exact List.mem_cons_of_mem _ (h.closed t ht)
    · exact List.mem_cons_of_mem _ ht.1
  · intro t ht
    rcases List.mem_cons.1 ht with rfl | ht
    · exact hgood
    · exact hgd t ht
  · intro t ht id hid
    by_cases hr : Registers s (.one w) (.one sh) (t.wb, id)
    · exact ⟨s, (a2 _ _).2 (.inl ⟨hr, rfl⟩)⟩
    · rcases List.mem_cons.1 ht with rfl | ht
      · exact absurd ⟨.inl rfl, hsw ▸ hB.1, .inl hid⟩ hr
      · obtain ⟨t', ht'⟩ := h.known t ht id hid
        refine ⟨t', (a2 _ _).2 (.inr ⟨hr, ht', ?_⟩)⟩
        refine .inr (fun k' hk' hg => hr ?_)
        obtain ⟨-, c2⟩ := h.cached k' t' hg
        rw [hreg k' hk'] at c2
        obtain ⟨-, c3⟩ := h.cached _ t' ht'
        rw [good_own (h.good t ht) hid] at c3
        have e1 : t'.wb = url ∧ t'.number = i := by cases c2; exact ⟨rfl, rfl⟩
        have e2 : t'.wb = t.wb ∧ t'.number = t.number := by
          simp only [Except.ok.injEq, Prod.mk.injEq] at c3
          exact ⟨c3.1.symm, c3.2.symm⟩
        have := good_same (hgd t ht) hgood (by rw [hsw, ← e1.1, e2.1]) (by rw [hsn, ← e1.2, e2.2])
        refine ⟨.inl ?_, ?_, .inl (this ▸ hid)⟩
        · show t.wb = s.wb
          rw [hsw, ← e1.1, e2.1]
        · show t.wb ≠ []
          rw [← e2.1, e1.1]; exact hB.1
  · intro t ht u hu hk
    rcases List.mem_cons.1 ht with e | ht' <;> rcases List.mem_cons.1 hu with e' | hu'
    · rw [e, e']
    · rw [e, hhs] at hk
      rw [e, hsw, hbs u hu' hk.symm]
    · rw [e', hhs] at hk
      rw [e', hsw, hbs t ht' hk]
    · rw [(hh t ht').1, (hh u hu').1] at hk
      exact h.book t ht' u hu' hk

theorem openSheetBy_lt {names : List Str} {id : ShId} {i : Nat} (h : openSheetBy names id = .ok i) : i < names.length := by
  have hidx : ∀ j, sheetByIndex names.length j = .ok i → i < names.length := by
    intro j hj
    unfold sheetByIndex at hj
    split at hj
    · rename_i k hk
      cases hj
      unfold seqIndex at hk
      split at hk
      · split at hk
        · injection hk with hk; omega
        · cases hk
      · split at hk
        · injection hk with hk; omega
        · cases hk
    · cases hj
  unfold openSheetBy at h
  split at h
  · exact hidx _ h
  · exact hidx _ h
  · rename_i s
    split at h
    · rename_i j hj
      cases h
      unfold sheetByName at hj
      split at hj
      · rename_i k hk
        cases hj
        exact (List.findIdx?_eq_some_iff_getElem.1 hk).1
      · cases hj
    · split at h
      · cases h
      · exact hidx _ h

/-- Opening a sheet of a workbook, and without a factory. -/
theorem book_opener {D : Desk} (hW : ProperBooks W) (n : Nat) (w : Str) (sh : ShId) :
    (∃ e, (D.openers W).book n (some w) sh = .error e ∧ openSheetOf W.ok W.cwd W.plugins w sh = .error e) ∨
    ∃ url names i, (D.openers W).book n (some w) sh = .ok (sheetAt n url names i) ∧ openSheetOf W.ok W.cwd W.plugins w sh = .ok (url, i) ∧
      BookAt W url names ∧ i < names.length ∧ listSheetNames W.ok W.cwd W.plugins w = .ok names ∧
      ∀ id, openSheetOf W.ok W.cwd W.plugins w id = openSheetOf W.ok W.cwd W.plugins url id := by
  simp only [Desk.openers, openSheetOf, listSheetNames]
  cases hu : urlAndBackend W.ok W.cwd W.plugins w with
  | error e => exact .inl ⟨e, rfl, rfl⟩
  | ok q =>
    obtain ⟨url, p⟩ := q
    simp only
    cases hb : p.book url with
    | error e => exact .inl ⟨e, rfl, rfl⟩
    | ok names =>
      simp only
      cases ho : openSheetBy names sh with
      | error e => exact .inl ⟨e, rfl, rfl⟩
      | ok i =>
        right
        have hB := bookAt_of hW hu hb
        refine ⟨url, names, i, rfl, rfl, hB, openSheetBy_lt ho, rfl, fun id => ?_⟩
        obtain ⟨-, -, p', h1, h2⟩ := hB
        simp only [h1, h2]

theorem openLoaded_cases (loaded : Nat → Bool) (names : List Str) (id : ShId)
    (hn : ∀ s j, id = .text s → sheetByName names s = .ok j → loaded j = true) :
    (∃ i, openLoaded loaded names id = .ok i ∧ openSheetBy names id = .ok i) ∨
    ∃ e, openLoaded loaded names id = .error e ∧
      (openSheetBy names id = .error e ∨ ∃ j, openSheetBy names id = .ok j ∧ loaded j = false) := by
  have hidx : ∀ i, (∃ j, loadedByIndex loaded names.length i = .ok j ∧ sheetByIndex names.length i = .ok j) ∨
      ∃ e, loadedByIndex loaded names.length i = .error e ∧
        (sheetByIndex names.length i = .error e ∨ ∃ j, sheetByIndex names.length i = .ok j ∧ loaded j = false) := by
    intro i
    unfold loadedByIndex
    cases sheetByIndex names.length i with
    | error e => exact .inr ⟨e, rfl, .inl rfl⟩
    | ok j =>
      simp only
      cases hl : loaded j with
      | true => exact .inl ⟨j, rfl, rfl⟩
      | false => exact .inr ⟨_, rfl, .inr ⟨j, rfl, hl⟩⟩
  unfold openLoaded openSheetBy
  split
  · exact hidx 0
  · exact hidx _
  · rename_i s
    simp only
    cases hs : sheetByName names s with
    | ok j =>
      have hl := hn s j rfl hs
      have hj : sheetByIndex names.length (j : Int) = .ok j := by
        unfold sheetByName at hs
        split at hs
        · rename_i k hk
          cases hs
          have := (List.findIdx?_eq_some_iff_getElem.1 hk).1
          unfold sheetByIndex seqIndex
          simp [this]
        · cases hs
      left
      refine ⟨j, ?_, rfl⟩
      simp only [loadedByIndex, hj, hl, if_true]
    | error e =>
      simp only
      cases pyInt s with
      | none => exact .inr ⟨e, rfl, .inl rfl⟩
      | some i => exact hidx i

/-- How a look-up that opens when missing ends; adding does not fail. -/
theorem cachedOr_ends {order : List SKey → List SKey} (f : Factory) (w : Str) (sh : ShId) (op : Nat → Except PyErr SheetObj)
    (hop : ∀ s, op f.opened = .ok s → s.wb ≠ [] ∧ s.ids ≠ []) :
    (∃ s, f.get (w, sh) = some s ∧ f.cachedOr order w sh op = (f, .ok s)) ∨
    (f.get (w, sh) = none ∧ ∃ e, op f.opened = .error e ∧ f.cachedOr order w sh op = ({ f with opened := f.opened + 1 }, .error e)) ∨
    (f.get (w, sh) = none ∧ ∃ s f2, op f.opened = .ok s ∧
      Factory.add order { f with opened := f.opened + 1 } s (.one w) (.one sh) = .ok f2 ∧
      f.cachedOr order w sh op = (f2, .ok s)) := by
  unfold Factory.cachedOr
  cases hg : f.get (w, sh) with
  | some s => exact .inl ⟨s, rfl, rfl⟩
  | none =>
    right
    simp only
    cases ho : op f.opened with
    | error e => exact .inl ⟨trivial, e, rfl, rfl⟩
    | ok s =>
      simp only
      cases ha : Factory.add order { f with opened := f.opened + 1 } s (.one w) (.one sh) with
      | ok f2 => exact .inr ⟨trivial, s, f2, rfl, ha, rfl⟩
      | error e =>
        exfalso
        unfold Factory.add at ha
        simp only at ha
        split at ha
        · rename_i he
          obtain ⟨h1, h2⟩ := hop s ho
          obtain ⟨id, hid⟩ := List.exists_mem_of_ne_nil _ h2
          have : (s.wb, id) ∈ deriveKeys s (.one w) (.one sh) := mem_deriveKeys.2 ⟨.inl rfl, h1, .inl hid⟩
          rw [List.isEmpty_iff.1 he] at this
          cases this
        · cases ha

theorem sheetAt_ids (n : Nat) (url : Str) (names : List Str) (i : Nat) : (sheetAt n url names i).ids ≠ [] := by
  simp [sheetAt]

/-- The sheets given after a call. -/
def givenAfter (given : List SheetObj) : Except PyErr SheetObj → List SheetObj
  | .ok s => s :: given
  | .error _ => given

theorem inv_again {D : Desk} {given : List SheetObj} (h : Inv W D given) {s : SheetObj} (hs : s ∈ given) : Inv W D (s :: given) := by
  have hm : ∀ t, t ∈ s :: given → t ∈ given := by
    intro t ht
    rcases List.mem_cons.1 ht with rfl | ht
    · exact hs
    · exact ht
  exact ⟨h.fok, fun k t hk => ⟨List.mem_cons_of_mem _ (h.cached k t hk).1, (h.cached k t hk).2⟩,
    fun t ht => List.mem_cons_of_mem _ (h.closed t ht), fun t ht => h.good t (hm t ht), fun t ht => h.known t (hm t ht),
    fun t ht u hu => h.book t (hm t ht) u (hm u hu)⟩

/-- A call with a workbook. -/
theorem fetch_book {D : Desk} {given : List SheetObj} (hW : ProperBooks W) (h : Inv W D given) {order : List SKey → List SKey} (ho : IsOrder order)
    (w : Str) (sh : ShId) (base : Option SheetObj) :
    Inv W (D.fetch W order (some w) sh base).1 (givenAfter given (D.fetch W order (some w) sh base).2) ∧
    ((∃ e, (D.fetch W order (some w) sh base).2 = .error e ∧ openSheetOf W.ok W.cwd W.plugins w sh = .error e) ∨
      ∃ s, (D.fetch W order (some w) sh base).2 = .ok s ∧ openSheetOf W.ok W.cwd W.plugins w sh = .ok (s.wb, s.number)) ∧
    ∀ t ∈ (D.fetch W order (some w) sh base).1.fac.closed, t ∈ D.fac.closed ∨
      t ∈ given ∧ ∃ s, (D.fetch W order (some w) sh base).2 = .ok s ∧ s.oid = D.fac.opened ∧ t.wb = s.wb ∧ t.number = s.number := by
  have e : D.fac.fetch order (D.openers W) (some w) sh base =
      D.fac.cachedOr order w sh (fun n => (D.openers W).book n (some w) sh) := by
    unfold Factory.fetch; cases base <;> rfl
  have e0 : ∀ r, D.fac.cachedOr order w sh (fun n => (D.openers W).book n (some w) sh) = r →
      D.fetch W order (some w) sh base = (D.note r.1 D.fac.opened (match r.2 with | .ok s => s.number | .error _ => 0)
        (match listSheetNames W.ok W.cwd W.plugins w with | .ok names => names | .error _ => []), r.2) := by
    intro r hr
    rw [← hr, ← e]
    unfold Desk.fetch
    cases base <;> rfl
  rcases cachedOr_ends D.fac w sh (fun n => (D.openers W).book n (some w) sh) (by
      intro s hs
      rcases book_opener (D := D) hW D.fac.opened w sh with ⟨x, hx, -⟩ | ⟨url, names, i, hx, -, hB, -⟩
      · rw [hs] at hx; cases hx
      · rw [hs] at hx; cases hx
        exact ⟨hB.1, sheetAt_ids _ _ _ _⟩) with ⟨s, hg, hr⟩ | ⟨-, x, hx, hr⟩ | ⟨-, s, f2, hx, ha, hr⟩
  · rw [e0 _ hr]
    obtain ⟨c1, c2⟩ := h.cached _ _ hg
    refine ⟨inv_again (inv_note h _ rfl rfl (Nat.le_refl _) _ _ _ (.inl rfl)) c1, .inr ⟨s, rfl, c2⟩, fun t ht => .inl ht⟩
  · rw [e0 _ hr]
    refine ⟨inv_note h { D.fac with opened := D.fac.opened + 1 } rfl rfl (Nat.le_succ _) _ _ _ (.inl rfl), .inl ⟨x, rfl, ?_⟩, fun t ht => .inl ht⟩
    rcases book_opener (D := D) hW D.fac.opened w sh with ⟨y, hy, hz⟩ | ⟨url, names, i, hy, -⟩
    · rw [hx] at hy; cases hy; exact hz
    · rw [hx] at hy; cases hy
  · rw [e0 _ hr]
    rcases book_opener (D := D) hW D.fac.opened w sh with ⟨y, hy, -⟩ | ⟨url, names, i, hy, hz, hB, hi, hl, hall⟩
    · rw [hx] at hy; cases hy
    · rw [hx] at hy
      cases hy
      simp only [hl, number_sheetAt]
      obtain ⟨i1, i2⟩ := inv_add h ho hB hi hall hz ha D.fac.opened (.inl rfl)
      refine ⟨i1, .inr ⟨_, rfl, ?_⟩, ?_⟩
      · rw [number_sheetAt]; exact hz
      · intro t ht
        rcases i2 t ht with ht | ⟨h1, h2, h3⟩
        · exact .inl ht
        · exact .inr ⟨h1, _, rfl, rfl, h2, by rw [number_sheetAt]; exact h3⟩

/-- Opening a sibling of a sheet, when it is not in the cache. -/
theorem sibling_opener {D : Desk} {given : List SheetObj} (h : Inv W D given) {b : SheetObj} (hb : b ∈ given) (n : Nat) (sh : ShId)
    (hmiss : D.fac.get (b.wb, sh) = none) :
    (∃ e, (D.openers W).sibling n b sh = .error e ∧ (openSheetOf W.ok W.cwd W.plugins b.wb sh = .error e ∨
      ∃ j, openSheetOf W.ok W.cwd W.plugins b.wb sh = .ok (b.wb, j) ∧ ∃ t ∈ D.fac.closed, t.wb = b.wb ∧ t.number = j ∧ sh ∉ t.ids)) ∨
    ∃ names i, (D.openers W).sibling n b sh = .ok (sheetAt n b.wb names i) ∧ openSheetOf W.ok W.cwd W.plugins b.wb sh = .ok (b.wb, i) ∧
      BookAt W b.wb names ∧ i < names.length ∧ D.names (D.home b.oid).1 = names ∧ (D.home b.oid).1 < D.fac.opened := by
  obtain ⟨names, ib, book, hB, hib, -, -, hhome, hlt, hnames⟩ := h.good b hb
  have hcl : ∀ j, D.loaded book j = false → ∃ t ∈ D.fac.closed, t.wb = b.wb ∧ t.number = j ∧ t ∈ given := by
    intro j hj
    unfold Desk.loaded at hj
    simp only [Bool.not_eq_false', List.any_eq_true, beq_iff_eq] at hj
    obtain ⟨t, ht, hth⟩ := hj
    have htg := h.closed t ht
    refine ⟨t, ht, h.book t htg b hb (by rw [hth, hhome]), ?_, htg⟩
    obtain ⟨ns, i', bk, -, -, h3, -, h5, -⟩ := h.good t htg
    rw [hth] at h5
    cases h5
    rw [h3, number_sheetAt]
  have hn : ∀ s j, sh = .text s → sheetByName names s = .ok j → D.loaded book j = true := by
    intro s j hs hj
    cases hl : D.loaded book j with
    | true => rfl
    | false =>
      exfalso
      obtain ⟨t, -, hw, hnum, htg⟩ := hcl j hl
      obtain ⟨ns, i', bk, hB', hi', h3, -⟩ := h.good t htg
      rw [hw] at hB'
      have := bookAt_unique hB hB'
      subst this
      rw [h3, number_sheetAt] at hnum
      subst hnum
      unfold sheetByName at hj
      split at hj
      · rename_i k hk
        cases hj
        obtain ⟨q1, q2, -⟩ := List.findIdx?_eq_some_iff_getElem.1 hk
        have hmem : sh ∈ t.ids := by
          rw [h3, hs]
          have : names.getD i' [] = s := by
            simp only [beq_iff_eq] at q2
            simp [q1, q2]
          simp only [sheetAt, this, List.mem_cons, true_or]
        obtain ⟨t', ht'⟩ := h.known t htg sh hmem
        rw [hw, hmiss] at ht'
        cases ht'
      · cases hj
  have hhome1 : (D.home b.oid).1 = book := by rw [hhome]
  simp only [Desk.openers, hhome1, hnames, open_url hB]
  rcases openLoaded_cases (D.loaded book) names sh hn with ⟨i, h1, h2⟩ | ⟨e, h1, h2⟩
  · right
    refine ⟨names, i, ?_, ?_, hB, openSheetBy_lt h2, rfl, hlt⟩
    · rw [h1]
    · rw [h2]; rfl
  · left
    refine ⟨e, by rw [h1], ?_⟩
    rcases h2 with h2 | ⟨j, h2, h3⟩
    · left; rw [h2]; rfl
    · right
      refine ⟨j, by rw [h2]; rfl, ?_⟩
      obtain ⟨t, ht, hw, hnum, htg⟩ := hcl j h3
      refine ⟨t, ht, hw, hnum, fun hm => ?_⟩
      obtain ⟨t', ht'⟩ := h.known t htg sh hm
      rw [hw, hmiss] at ht'
      cases ht'

/-- A call with a base sheet. -/
theorem fetch_sibling {D : Desk} {given : List SheetObj} (h : Inv W D given) {order : List SKey → List SKey} (ho : IsOrder order)
    {b : SheetObj} (hb : b ∈ given) (sh : ShId) :
    Inv W (D.fetch W order none sh (some b)).1 (givenAfter given (D.fetch W order none sh (some b)).2) ∧
    (sh = .none → (D.fetch W order none sh (some b)).2 = .ok b) ∧
    (sh ≠ .none → (∃ e, (D.fetch W order none sh (some b)).2 = .error e ∧ (openSheetOf W.ok W.cwd W.plugins b.wb sh = .error e ∨
        ∃ j, openSheetOf W.ok W.cwd W.plugins b.wb sh = .ok (b.wb, j) ∧ ∃ t ∈ D.fac.closed, t.wb = b.wb ∧ t.number = j ∧ sh ∉ t.ids)) ∨
      ∃ s, (D.fetch W order none sh (some b)).2 = .ok s ∧ openSheetOf W.ok W.cwd W.plugins b.wb sh = .ok (s.wb, s.number)) ∧
    ∀ t ∈ (D.fetch W order none sh (some b)).1.fac.closed, t ∈ D.fac.closed ∨
      t ∈ given ∧ ∃ s, (D.fetch W order none sh (some b)).2 = .ok s ∧ s.oid = D.fac.opened ∧ t.wb = s.wb ∧ t.number = s.number := by
  have e1 : ∀ r, D.fac.fetch order (D.openers W) none sh (some b) = r →
      D.fetch W order none sh (some b) = (D.note r.1 (D.home b.oid).1 (match r.2 with | .ok s => s.number | .error _ => 0)
        (D.names (D.home b.oid).1), r.2) := by
    intro r hr
    rw [← hr]
    rfl
  by_cases hsh : sh = .none
  · have hr : D.fac.fetch order (D.openers W) none sh (some b) = (D.fac, .ok b) := by
      unfold Factory.fetch; simp only [if_pos hsh]
    rw [e1 _ hr]
    exact ⟨inv_again (inv_note h _ rfl rfl (Nat.le_refl _) _ _ _ (.inr rfl)) hb, fun _ => rfl, fun hc => absurd hsh hc, fun t ht => .inl ht⟩
  · have e : D.fac.fetch order (D.openers W) none sh (some b) =
        D.fac.cachedOr order b.wb sh (fun n => (D.openers W).sibling n b sh) := by
      unfold Factory.fetch; simp only [if_neg hsh]
    have e0 : ∀ r, D.fac.cachedOr order b.wb sh (fun n => (D.openers W).sibling n b sh) = r → _ := fun r hr => e1 r (e.trans hr)
    have hmiss : D.fac.get (b.wb, sh) = none ∨ ∃ s, D.fac.get (b.wb, sh) = some s := by
      cases D.fac.get (b.wb, sh) with
      | none => exact .inl rfl
      | some s => exact .inr ⟨s, rfl⟩
    rcases hmiss with hmiss | ⟨s, hg⟩
    · rcases sibling_opener h hb D.fac.opened sh hmiss with ⟨x, hx, hy⟩ | ⟨names, i, hx, hz, hB, hi, hnm, hlt⟩
      · have hr : D.fac.cachedOr order b.wb sh (fun n => (D.openers W).sibling n b sh) = ({ D.fac with opened := D.fac.opened + 1 }, .error x) := by
          unfold Factory.cachedOr
          simp only [hmiss, hx]
        rw [e0 _ hr]
        exact ⟨inv_note h { D.fac with opened := D.fac.opened + 1 } rfl rfl (Nat.le_succ _) _ _ _ (.inr rfl), fun hc => absurd hc hsh,
          fun _ => .inl ⟨x, rfl, hy⟩, fun t ht => .inl ht⟩
      · rcases cachedOr_ends (order := order) D.fac b.wb sh (fun n => (D.openers W).sibling n b sh) (by
            intro s hs
            rw [hs] at hx; cases hx
            exact ⟨hB.1, sheetAt_ids _ _ _ _⟩) with ⟨s, hg, hr⟩ | ⟨-, y, hy, hr⟩ | ⟨-, s, f2, hy, ha, hr⟩
        · rw [hmiss] at hg; cases hg
        · rw [hx] at hy; cases hy
        · rw [hx] at hy
          cases hy
          rw [e0 _ hr]
          simp only [hnm, number_sheetAt]
          obtain ⟨i1, i2⟩ := inv_add h ho hB hi (fun _ => rfl) hz ha (D.home b.oid).1 (.inr ⟨hlt, hnm.symm, fun t ht hk => h.book t ht b hb hk⟩)
          refine ⟨i1, fun hc => absurd hc hsh, fun _ => .inr ⟨_, rfl, ?_⟩, ?_⟩
          · rw [number_sheetAt]; exact hz
          · intro t ht
            rcases i2 t ht with ht | ⟨h1, h2, h3⟩
            · exact .inl ht
            · exact .inr ⟨h1, _, rfl, rfl, h2, by rw [number_sheetAt]; exact h3⟩
    · have hr : D.fac.cachedOr order b.wb sh (fun n => (D.openers W).sibling n b sh) = (D.fac, .ok s) := by
        unfold Factory.cachedOr
        simp only [hg]
      rw [e0 _ hr]
      obtain ⟨c1, c2⟩ := h.cached _ _ hg
      exact ⟨inv_again (inv_note h _ rfl rfl (Nat.le_refl _) _ _ _ (.inr rfl)) c1, fun hc => absurd hc hsh, fun _ => .inr ⟨s, rfl, c2⟩,
        fun t ht => .inl ht⟩

/-- A call with neither. -/
theorem fetch_nothing {D : Desk} {given : List SheetObj} (h : Inv W D given) (order : List SKey → List SKey) (sh : ShId) :
    Inv W (D.fetch W order none sh none).1 (givenAfter given (D.fetch W order none sh none).2) ∧
    (D.fetch W order none sh none).2 = .error .valueError ∧ (D.fetch W order none sh none).1.fac.closed = D.fac.closed :=
  ⟨inv_note h { D.fac with opened := D.fac.opened + 1 } rfl rfl (Nat.le_succ _) _ _ _ (.inl rfl), rfl, rfl⟩

theorem serving_inv (hW : ProperBooks W) {D : Desk} {given : List SheetObj} (h : Serving W D given) : Inv W D given := by
  induction h with
  | new =>
    refine ⟨by intro w hw; simp [Desk.new, Factory.new] at hw, ?_, ?_, ?_, ?_, ?_⟩
    · intro k t hk
      simp [Desk.new, Factory.new, Factory.get] at hk
    · intro t ht; cases ht
    · intro t ht; cases ht
    · intro t ht; cases ht
    · intro t ht; cases ht
  | @fetch D given order wb sh base _ ho hbase ih =>
    change Inv W _ (givenAfter given (D.fetch W order wb sh base).2)
    cases wb with
    | some w => exact (fetch_book hW ih ho w sh base).1
    | none => cases base with
      | none => exact (fetch_nothing ih order sh).1
      | some b => exact (fetch_sibling ih ho (hbase b rfl) sh).1

end

end Lemmas
