import Verif.Lemmas.FactoryBooks
/-
C134. A factory that keeps sheets serves what opening them would.
-/
namespace Props
open Py Model Spec Lemmas

section
variable {W : Surroundings}

private theorem number_good {D : Desk} {s : SheetObj} (h : Good W D s) : IsSheet s s.wb s.number := by
  obtain ⟨ns, i, bk, -, -, h3, -⟩ := h
  refine ⟨rfl, ns.getD i [], ?_⟩
  rw [h3, number_sheetAt]
  rfl

private theorem given_good {D' : Desk} {given : List SheetObj} {r : Except PyErr SheetObj} {s : SheetObj}
    (h : Inv W D' (givenAfter given r)) (hs : r = .ok s) : IsSheet s s.wb s.number := by
  subst hs
  exact number_good (h.good s (List.mem_cons_self ..))

/-- C134. Whatever was fetched before, a sheet that is returned is the one that opening would give: that of the workbook, if one is named;
the sheet with that id in the workbook of the base sheet, if only a sheet is named; the base sheet, if nothing is named. -/
theorem C134_same (hW : ProperBooks W) {D : Desk} {given : List SheetObj} (h : Serving W D given) (order : List SKey → List SKey)
    (ho : IsOrder order) (wb : Option Str) (sh : ShId) (base : Option SheetObj) (hb : ∀ b, base = some b → b ∈ given) (s : SheetObj)
    (hs : (D.fetch W order wb sh base).2 = .ok s) :
    match wb, base with
    | some w, _ => ∃ i, openSheetOf W.ok W.cwd W.plugins w sh = .ok (s.wb, i) ∧ IsSheet s s.wb i
    | none, some b => (sh = .none ∧ s = b) ∨
        (sh ≠ .none ∧ s.wb = b.wb ∧ ∃ i, openSheetOf W.ok W.cwd W.plugins b.wb sh = .ok (s.wb, i) ∧ IsSheet s s.wb i)
    | none, none => False := by
  have hI := serving_inv hW h
  cases wb with
  | some w =>
    obtain ⟨h1, h2, -⟩ := fetch_book hW hI ho w sh base
    rcases h2 with ⟨e, he, -⟩ | ⟨t, ht, h3⟩
    · rw [hs] at he; cases he
    · rw [hs] at ht; cases ht
      exact ⟨_, h3, given_good h1 hs⟩
  | none =>
    cases base with
    | none =>
      have := (fetch_nothing hI order sh).2.1
      rw [hs] at this; cases this
    | some b =>
      obtain ⟨h1, h2, h3, -⟩ := fetch_sibling hI ho (hb b rfl) sh
      by_cases hsh : sh = .none
      · left
        have := h2 hsh
        rw [hs] at this
        exact ⟨hsh, by injection this⟩
      · right
        rcases h3 hsh with ⟨e, he, -⟩ | ⟨t, ht, h4⟩
        · rw [hs] at he; cases he
        · rw [hs] at ht; cases ht
          refine ⟨hsh, ?_, _, h4, given_good h1 hs⟩
          obtain ⟨names, -, -, hB, -⟩ := hI.good b (hb b rfl)
          rw [open_url hB] at h4
          cases hx : openSheetBy names sh with
          | error e => rw [hx] at h4; cases h4
          | ok i =>
            rw [hx] at h4
            injection h4 with h4
            exact (congrArg Prod.fst h4).symm

/-- C134. Whatever was fetched before, fetching a sheet of a workbook fails when opening it does, with the same error, and only then. -/
theorem C134_workbook (hW : ProperBooks W) {D : Desk} {given : List SheetObj} (h : Serving W D given) (order : List SKey → List SKey)
    (ho : IsOrder order) (w : Str) (sh : ShId) (base : Option SheetObj) (e : PyErr) :
    (D.fetch W order (some w) sh base).2 = .error e ↔ openSheetOf W.ok W.cwd W.plugins w sh = .error e := by
  obtain ⟨-, h2, -⟩ := fetch_book hW (serving_inv hW h) ho w sh base
  rcases h2 with ⟨x, h3, h4⟩ | ⟨s, h3, h4⟩ <;> rw [h3, h4] <;> constructor <;> intro h <;> cases h <;> rfl

/-- C134, first in part: fetching a sibling of a sheet that was returned gives a sheet, if the workbook has it and no object for it was
closed, and fails with the error of opening it, if the workbook does not have it. Missing: siblings that were closed, see
`C134_sibling_refuted`. -/
theorem C134_sibling_partial (hW : ProperBooks W) {D : Desk} {given : List SheetObj} (h : Serving W D given) (order : List SKey → List SKey)
    (ho : IsOrder order) (sh : ShId) (b : SheetObj) (hb : b ∈ given) :
    (∀ i, openSheetOf W.ok W.cwd W.plugins b.wb sh = .ok (b.wb, i) → (∀ t ∈ D.fac.closed, ¬ IsSheet t b.wb i) →
      ∃ s, (D.fetch W order none sh (some b)).2 = .ok s) ∧
    (∀ e, sh ≠ .none → openSheetOf W.ok W.cwd W.plugins b.wb sh = .error e → (D.fetch W order none sh (some b)).2 = .error e) := by
  have hI := serving_inv hW h
  obtain ⟨-, h2, h3, -⟩ := fetch_sibling hI ho hb sh
  constructor
  · intro i hi hc
    by_cases hsh : sh = .none
    · exact ⟨b, h2 hsh⟩
    · rcases h3 hsh with ⟨e, -, he | ⟨j, hj, t, ht, hw, hn, -⟩⟩ | ⟨s, hs, -⟩
      · rw [hi] at he; cases he
      · rw [hi] at hj; cases hj
        have := number_good (hI.good t (hI.closed t ht))
        rw [hw, hn] at this
        exact absurd this (hc t ht)
      · exact ⟨s, hs⟩
  · intro e hsh he
    rcases h3 hsh with ⟨x, hx, hy | ⟨j, hj, -⟩⟩ | ⟨s, -, hs⟩
    · rw [he] at hy; cases hy; exact hx
    · rw [he] at hj; cases hj
    · rw [he] at hs; cases hs

/-- C134. In particular, a sibling is always served under its name and under its number. -/
theorem C134_sibling_named (hW : ProperBooks W) {D : Desk} {given : List SheetObj} (h : Serving W D given) (order : List SKey → List SKey)
    (ho : IsOrder order) (b : SheetObj) (hb : b ∈ given) (names : List Str) (hl : listSheetNames W.ok W.cwd W.plugins b.wb = .ok names)
    (i : Nat) (hi : i < names.length) (sh : ShId) (hsh : sh = .text names[i] ∨ sh = .num i) :
    ∃ s, (D.fetch W order none sh (some b)).2 = .ok s ∧ IsSheet s b.wb i := by
  have hI := serving_inv hW h
  obtain ⟨h1, -, h3, -⟩ := fetch_sibling hI ho hb sh
  obtain ⟨ns, ib, bk, hB, -⟩ := hI.good b hb
  rw [list_url hB] at hl
  cases hl
  have hid : sh ∈ (sheetAt 0 b.wb names i).ids := by
    simp only [sheetAt, List.mem_cons, List.getD_eq_getElem?_getD, List.getElem?_eq_getElem hi, Option.getD_some]
    rcases hsh with e | e <;> simp [e]
  have hop := open_own hB hi hid
  rcases h3 (by rcases hsh with e | e <;> simp [e]) with ⟨e, -, he | ⟨j, hj, t, ht, hw, hn, hm⟩⟩ | ⟨s, hs, h4⟩
  · rw [hop] at he; cases he
  · rw [hop] at hj; cases hj
    obtain ⟨ns', i', bk', hB', hi', h3', -⟩ := hI.good t (hI.closed t ht)
    rw [hw] at hB'
    cases bookAt_unique hB hB'
    rw [h3', number_sheetAt] at hn
    subst hn
    rw [h3'] at hm
    exact absurd hid hm
  · refine ⟨s, hs, ?_⟩
    rw [hop] at h4
    have hg := given_good h1 hs
    injection h4 with h4
    have e1 : b.wb = s.wb := congrArg Prod.fst h4
    have e2 : i = s.number := congrArg Prod.snd h4
    rw [e1, e2]
    exact hg

/-- C134, second in part: a call closes a sheet that was returned before only if it opens the same sheet of the same workbook anew.
Missing: that it closes none, see `C134_closed_refuted`. -/
theorem C134_closed_partial (hW : ProperBooks W) {D : Desk} {given : List SheetObj} (h : Serving W D given) (order : List SKey → List SKey)
    (ho : IsOrder order) (wb : Option Str) (sh : ShId) (base : Option SheetObj) (hb : ∀ b, base = some b → b ∈ given) (t : SheetObj)
    (ht : t ∈ (D.fetch W order wb sh base).1.fac.closed) (hn : t ∉ D.fac.closed) :
    t ∈ given ∧ ∃ s, (D.fetch W order wb sh base).2 = .ok s ∧ s ∉ given ∧ ∃ i, IsSheet s s.wb i ∧ IsSheet t s.wb i := by
  have hI := serving_inv hW h
  have key : ∀ {s : SheetObj} (r : Except PyErr SheetObj) (D' : Desk), Inv W D' (givenAfter given r) → r = .ok s → t ∈ given →
      s.oid = D.fac.opened → t.wb = s.wb → t.number = s.number → s ∉ given ∧ ∃ i, IsSheet s s.wb i ∧ IsSheet t s.wb i := by
    intro s r D' h1 hr htg ho' hw hnum
    have ha := given_good h1 hr
    have hb' := number_good (hI.good t htg)
    rw [hw, hnum] at hb'
    refine ⟨fun hc => ?_, s.number, ha, hb'⟩
    obtain ⟨_, _, _, -, -, -, h4, -⟩ := hI.good s hc
    omega
  cases wb with
  | some w =>
    obtain ⟨h1, -, h3⟩ := fetch_book hW hI ho w sh base
    rcases h3 t ht with h3 | ⟨h4, s, h5, h6, h7, h8⟩
    · exact absurd h3 hn
    · exact ⟨h4, s, h5, key _ _ h1 h5 h4 h6 h7 h8⟩
  | none =>
    cases base with
    | none =>
      rw [(fetch_nothing hI order sh).2.2] at ht
      exact absurd ht hn
    | some b =>
      obtain ⟨h1, -, -, h3⟩ := fetch_sibling hI ho (hb b rfl) sh
      rcases h3 t ht with h3 | ⟨h4, s, h5, h6, h7, h8⟩
      · exact absurd h3 hn
      · exact ⟨h4, s, h5, key _ _ h1 h5 h4 h6 h7 h8⟩

end

/-! ### A workbook -/

/-- A backend with one workbook of two sheets. -/
def xlp : Plugin :=
  ⟨fun u => if u.reverse.take 4 = "slx.".toList then some 100 else none,
    fun u => if u = "file:///w/a.xls".toList then .ok ["A".toList, "B".toList] else .error .lookupError⟩

/-- This backend only. -/
def Wx : Surroundings := ⟨fun _ => true, "/w".toList, [xlp]⟩

/-- Its workbook is proper. -/
theorem properWx : ProperBooks Wx := by
  intro w url p names h1 h2
  have hp : p = xlp := by
    unfold urlAndBackend at h1
    split at h1
    · cases h1
    · split at h1
      · cases h1
      · split at h1
        · cases h1
        · rename_i hd
          cases h1
          simp only [Wx, List.map_cons, List.map_nil, decideBackend] at hd
          cases hbid : xlp.bid _ with
          | none => rw [hbid] at hd; simp [sortBids] at hd
          | some x => rw [hbid] at hd; simp [sortBids, insertBid] at hd; exact hd.symm
  subst hp
  simp only [xlp] at h2
  split at h2
  · rename_i he
    subst he
    cases h2
    exact ⟨by decide, by rfl, by decide⟩
  · cases h2

/-- The order of the list. -/
theorem idOrder : IsOrder id := fun _ _ => Iff.rfl

/-- A factory from which sheet "A" was fetched. -/
def D1 : Desk := (Desk.new.fetch Wx id (some "a.xls".toList) (.text "A".toList) none).1
/-- The object for sheet "A". -/
def sA : SheetObj := ⟨0, "file:///w/a.xls".toList, [.text "A".toList, .num 0]⟩
/-- Then the first sheet, with no id. -/
def D2 : Desk := (D1.fetch Wx id (some "a.xls".toList) .none none).1
/-- The second object for sheet "A". -/
def sA' : SheetObj := ⟨1, "file:///w/a.xls".toList, [.text "A".toList, .num 0]⟩

theorem sv1 : Serving Wx D1 [sA] := Serving.fetch id (some "a.xls".toList) (.text "A".toList) none .new idOrder (fun _ h => nomatch h)
theorem sv2 : Serving Wx D2 [sA', sA] := Serving.fetch id (some "a.xls".toList) .none none sv1 idOrder (fun _ h => nomatch h)

/-- C134. A sheet that was returned can be closed by a later call: fetching sheet "A" and then the first sheet, with no id, closes the
object for "A". -/
theorem C134_closed_refuted : ∃ (W : Surroundings) (D : Desk) (s : SheetObj) (w : Str), ProperBooks W ∧ Serving W D [s] ∧ s ∉ D.fac.closed ∧
    s ∈ (D.fetch W id (some w) .none none).1.fac.closed :=
  ⟨Wx, D1, sA, "a.xls".toList, properWx, sv1, by decide +kernel, by decide +kernel⟩

/-- C134. A sibling that the workbook has cannot always be fetched: after sheet "A" was closed as above, it cannot be fetched from it by
an id under which it was not fetched before. -/
theorem C134_sibling_refuted : ∃ (W : Surroundings) (D : Desk) (given : List SheetObj) (b : SheetObj) (sh : ShId), ProperBooks W ∧
    Serving W D given ∧ b ∈ given ∧ openSheetOf W.ok W.cwd W.plugins b.wb sh = .ok (b.wb, 0) ∧
    (D.fetch W id none sh (some b)).2 = .error .xlrdError :=
  ⟨Wx, D2, [sA', sA], sA, .text "0".toList, properWx, sv2, by simp, by rfl, by rfl⟩

example : (D2.fetch Wx id none (.num 0) (some sA)).2 = .ok sA' := by rfl
/-- A sibling that was not closed. -/
example : (D2.fetch Wx id none (.text "B".toList) (some sA)).2 = .ok ⟨2, "file:///w/a.xls".toList, [.text "B".toList, .num 1]⟩ := by rfl
example : ∀ t ∈ D2.fac.closed, ¬ IsSheet t sA.wb 1 := by
  have : D2.fac.closed = [sA] := by rfl
  rw [this]
  intro t ht
  simp only [List.mem_singleton] at ht
  subst ht
  rintro ⟨-, name, h⟩
  simp [sA] at h
example : (D2.fetch Wx id (some "a.xls".toList) (.text "A".toList) none).2 = .ok sA' := by rfl
example : (D2.fetch Wx id (some "b.xls".toList) (.text "A".toList) none).2 = .error .lookupError := by rfl
example : (D2.fetch Wx id none (.text "C".toList) (some sA)).2 = .error .xlrdError := by rfl

end Props
