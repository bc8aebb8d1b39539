import Verif.Props.HeaderTable
import Verif.Spec.WholeTable
/-
C159: a contiguous table is captured whole, from any of its cells.
-/
set_option linter.unusedSimpArgs false
namespace Props
open Py Model Spec Lemmas

private theorem stays {m : Mat} {r : Rect} (hc : ∀ d, ¬ LineFull m r d) {x y : Coords} (h : Linked m x y) (hx : InRect r x) : InRect r y := by
  induction h with
  | here => exact hx
  | next q d _ hf ih =>
    apply Classical.byContradiction
    intro hn
    refine hc d ⟨_, ?_, hf⟩
    cases d <;> simp only [AdjLine, InRect, stepsFrom, unit] at * <;> omega

/-- C159. A capture whose expansion goes without limit in all four directions ends with a rectangle around which
no line has a full cell, and with every full cell it has all the cells linked with it. -/
theorem C159_whole (m : Mat) (up dn : Coords) (base : Option Coords) (st nd : Edge) (p q : Coords) (dirs : List Dir)
    (hall : ∀ d, d ∈ dirs) (hp : resolveSt m up dn st base = .ok p) (hq : resolveNd m up dn nd p = .ok q)
    (h1 : 0 ≤ p.row) (h2 : 0 ≤ p.col) (h3 : 0 ≤ q.row) (h4 : 0 ≤ q.col) :
    ∃ r, resolveCaptureRect m up dn st (some nd) [⟨dirs, none⟩] base = .ok (⟨r.r1, r.c1⟩, some ⟨r.r2, r.c2⟩) ∧
      InRect r p ∧ InRect r q ∧ (∀ d, ¬ LineFull m r d) ∧ ∀ x y, InRect r x → Linked m x y → InRect r y := by
  obtain ⟨S, hS, hw, hc, -⟩ := C35_unlimited_least m p q h1 h2 h3 h4 dirs
  have hc' : ∀ d, ¬ LineFull m S d := fun d => hc d (hall d)
  refine ⟨S, ?_, ?_, ?_, hc', fun x y hx hl => stays hc' hl hx⟩
  · simp only [resolveCaptureRect, hp, hq, ne_eq, reduceCtorEq, not_false_eq_true, if_true, Option.getD_some, hS, corners]
  · simp only [Within, between, InRect] at *; omega
  · simp only [Within, between, InRect] at *; omega

private theorem linked_full {m : Mat} {p q : Coords} (h : Linked m p q) : FullAt m p := by
  induction h with
  | here h => exact h
  | next _ _ _ _ ih => exact ih

private theorem run_linked {m : Mat} {p : Coords} {d : Dir} {k : Nat} (h : ∀ i ≤ k, FullAt m (stepsFrom p d i)) :
    Linked m p (stepsFrom p d k) := by
  induction k with
  | zero =>
    have e : stepsFrom p d 0 = p := by cases d <;> simp [stepsFrom, unit]
    rw [e]; exact .here p (by have := h 0 (Nat.le_refl _); rwa [e] at this)
  | succ k ih =>
    have e : stepsFrom p d (k + 1) = stepsFrom (stepsFrom p d k) d 1 := by
      cases d <;> simp only [stepsFrom, unit, Coords.mk.injEq] <;> omega
    rw [e]
    exact .next _ _ _ (ih (fun i hi => h i (by omega))) (by rw [← e]; exact h _ (Nat.le_refl _))

private theorem nonneg {m : Mat} {p : Coords} (h : FullAt m p) : 0 ≤ p.row ∧ 0 ≤ p.col := by
  obtain ⟨i, j, rfl, -⟩ := h; simp

private theorem table_rect {m : Mat} {up dn : Coords} {r1 c1 r2 c2 : Nat} (h : ContiguousTable m r1 c1 r2 c2) (hdn : MarginOf m dn)
    {st : Edge} {p : Coords} (hp : resolveSt m up dn st none = .ok p) (hf : FullAt m p) (hin : InRect ⟨r1, r2, c1, c2⟩ p)
    {mv : List Dir} {d1 : Dir} {d2 : Option Dir} (hmv : Moves mv d1 d2) {dirs : List Dir} (hall : ∀ d, d ∈ dirs) :
    resolveCaptureRect m up dn st (some ⟨⟨['.'], ['.']⟩, some mv, none⟩) [⟨dirs, none⟩] none = .ok (⟨r1, c1⟩, some ⟨r2, c2⟩) := by
  obtain ⟨n1, n2⟩ := nonneg hf
  have hdot : resolveCell ⟨['.'], ['.']⟩ up dn (some p) = .ok p := by simp [resolveCell, resolveCoord]
  obtain ⟨-, hsame, -, -⟩ := C37_second_edge m up dn p ⟨['.'], ['.']⟩ p hdot n1 n2 hdn _ d1 d2 hmv none
  have hnd := hsame hf (.inr ⟨rfl, rfl⟩)
  have hrun : ∀ d k, RunEnds m p d k → InRect ⟨r1, r2, c1, c2⟩ (stepsFrom p d k) :=
    fun d k hk => stays h.alone (run_linked hk.1) hin
  have hq : ∃ q, targetSame m dn p mv = .ok q ∧ InRect ⟨r1, r2, c1, c2⟩ q := by
    cases hmv with
    | one =>
      obtain ⟨k, hk, e⟩ := C34_one_move m dn p d1 hdn hf
      exact ⟨_, e, hrun _ _ hk⟩
    | two _ e hpe =>
      obtain ⟨k, l, hk, hl, e'⟩ := C34_two_moves m dn p d1 e hpe hdn hf
      refine ⟨_, e', ?_⟩
      have a := hrun _ _ hk
      have b := hrun _ _ hl
      cases d1 <;> cases e <;> simp [Perp, unit] at hpe <;> simp only [InRect, stepsFrom, unit] at * <;> omega
  obtain ⟨q, hq, hqin⟩ := hq
  rw [hq] at hnd
  obtain ⟨S, hS, hw, hc, hleast⟩ := C35_unlimited_least m p q n1 n2 (by simp only [InRect] at hqin; omega)
    (by simp only [InRect] at hqin; omega) dirs
  have hc' : ∀ d, ¬ LineFull m S d := fun d => hc d (hall d)
  have hsub : Within S ⟨r1, r2, c1, c2⟩ := by
    refine hleast _ ?_ (fun d _ => h.alone d)
    simp only [Within, between, InRect] at *; omega
  have hpS : InRect S p := by simp only [Within, between, InRect] at *; omega
  have hall' : ∀ x, FullAt m x → InRect ⟨r1, r2, c1, c2⟩ x → InRect S x :=
    fun x hx hi => stays hc' (h.linked p x hf hx hin hi) hpS
  obtain ⟨j1, t1, t2, t3⟩ := h.top
  obtain ⟨j2, b1, b2, b3⟩ := h.bottom
  obtain ⟨i1, l1, l2, l3⟩ := h.left
  obtain ⟨i2, e1, e2, e3⟩ := h.right
  have y1 := hall' _ t3 (by simp only [InRect] at *; omega)
  have y2 := hall' _ b3 (by simp only [InRect] at *; omega)
  have y3 := hall' _ l3 (by simp only [InRect] at *; omega)
  have y4 := hall' _ e3 (by simp only [InRect] at *; omega)
  have hST : S = ⟨r1, r2, c1, c2⟩ := by
    obtain ⟨s1, s2, s3, s4⟩ := S
    simp only [Within, InRect, Rect.mk.injEq] at *; omega
  simp only [resolveCaptureRect, hp, hnd, ne_eq, reduceCtorEq, not_false_eq_true, if_true, List.cons_ne_self, Option.getD_some, hS, corners, hST]

private theorem letter_cases {c : Char} {d : Dir} (h : letterDir c = some d) : c ∈ ['L', 'l', 'U', 'u', 'R', 'r', 'D', 'd'] := by
  simp only [letterDir] at h
  split at h
  · rename_i hh; rcases hh with hh | hh <;> simp [hh]
  split at h
  · rename_i hh; rcases hh with hh | hh <;> simp [hh]
  split at h
  · rename_i hh; rcases hh with hh | hh <;> simp [hh]
  split at h
  · rename_i hh; rcases hh with hh | hh <;> simp [hh]
  · cases h

private theorem dirs_text {mv : Str} {d1 : Dir} {d2 : Option Dir} (h : DirsText mv d1 d2) :
    Moves (dirsMeant mv) d1 d2 ∧ upper mv ∈ allMoves ∧ ∀ c ∈ mv, c ∈ ['L', 'l', 'U', 'u', 'R', 'r', 'D', 'd'] := by
  cases h with
  | one c _ hc =>
    have := letter_cases hc
    refine ⟨by simp only [dirsMeant, List.filterMap_cons, hc, List.filterMap_nil]; exact .one _, ?_, by simpa using this⟩
    simp only [List.mem_cons, List.not_mem_nil, or_false] at this
    rcases this with rfl | rfl | rfl | rfl | rfl | rfl | rfl | rfl <;> decide
  | two c c' d e hc hc' hp =>
    have h1 := letter_cases hc
    have h2 := letter_cases hc'
    refine ⟨by simp only [dirsMeant, List.filterMap_cons, hc, hc', List.filterMap_nil]; exact .two _ _ hp, ?_, by
      intro x hx
      rcases List.mem_cons.1 hx with rfl | hx
      · exact h1
      · rw [List.mem_singleton.1 hx]; exact h2⟩
    have key : ∀ c ∈ ['L', 'l', 'U', 'u', 'R', 'r', 'D', 'd'], ∀ c' ∈ ['L', 'l', 'U', 'u', 'R', 'r', 'D', 'd'],
        (match letterDir c, letterDir c' with | some d, some e => decide (Perp d e) | _, _ => false) = true → upper [c, c'] ∈ allMoves := by decide
    exact key c h1 c' h2 (by rw [hc, hc']; simpa using hp)

private theorem table_in {m : Mat} {r1 c1 r2 c2 : Nat} (h : ContiguousTable m r1 c1 r2 c2) :
    r1 ≤ r2 ∧ c1 ≤ c2 ∧ r2 < m.rows ∧ c2 < m.cols := by
  obtain ⟨j2, b1, b2, b3⟩ := h.bottom
  obtain ⟨i2, e1, e2, e3⟩ := h.right
  have := fullAt_iff.1 b3
  have := fullAt_iff.1 e3
  simp only at *; omega

private theorem table_lasso {S : Type} {A : SheetApi S} {R : Ranger S} {s : S} {m : Mat} {up dn : Coords} {val : Nat → Nat → Doc}
    (hR : Readable A R s m up dn val) (jsonLoads : Str → Option Doc) {r1 c1 r2 c2 : Nat} (h : ContiguousTable m r1 c1 r2 c2)
    (e : EdgeText) (he : e.Ok false) (hcur : ∀ c ∈ e.text, c ≠ '“' ∧ c ≠ '”') {p : Coords}
    (hp : resolveSt m up dn e.meant none = .ok p) (hf : FullAt m p) (hin : InRect ⟨r1, r2, c1, c2⟩ p)
    {mv : Str} {d1 : Dir} {d2 : Option Dir} (hmv : DirsText mv d1 d2) {x : Str} (hx : AllDirections x) :
    ∃ l, R.doLasso A jsonLoads ('#' :: (e.text ++ ":..(".toList ++ mv ++ "):".toList ++ x)) { sheet := some s } = .ok (.lasso l) ∧
      l.st = some ⟨r1, c1⟩ ∧ l.nd = some ⟨r2, c2⟩ ∧ IsBlock val r1 c1 r2 c2 l.values := by
  obtain ⟨o1, o2, w1, w2⟩ := table_in h
  obtain ⟨hmov, hok, hch⟩ := dirs_text hmv
  obtain ⟨hx1, hx2⟩ := hx
  have hxc : ∀ c ∈ x, c ∈ ['L', 'l', 'U', 'u', 'R', 'r', 'D', 'd'] := by
    intro c hc
    obtain ⟨d, hd⟩ := Option.isSome_iff_exists.1 (hx1 c hc)
    exact letter_cases hd
  have hxne : x ≠ [] := by
    rintro rfl
    obtain ⟨c, hc, -⟩ := hx2 .L
    simp at hc
  have hdot : CellText.Ok true (.a1 ".".toList ".".toList) :=
    ⟨.inr (.inr (.inr ⟨rfl, rfl⟩)), .inr (.inr (.inr ⟨rfl, rfl⟩))⟩
  let rt : RefText := ⟨[], none, some e, some (some ⟨.a1 ".".toList ".".toList, some (mv, none)⟩, some x), none⟩
  have htext : e.text ++ ":..(".toList ++ mv ++ "):".toList ++ x = rt.text := by
    simp [rt, RefText.text, sheetText, optEdgeText, rangeText, expText, filtText, EdgeText.text, CellText.text, movText]
  have hlet : ∀ c ∈ ['L', 'l', 'U', 'u', 'R', 'r', 'D', 'd'], c ≠ '“' ∧ c ≠ '”' := by decide
  have hchars : ∀ c ∈ e.text ++ ":..(".toList ++ mv ++ "):".toList ++ x, c ≠ '“' ∧ c ≠ '”' := by
    intro c hc
    simp only [List.mem_append] at hc
    rcases hc with (((hc | hc) | hc) | hc) | hc
    · exact hcur c hc
    · revert c; decide
    · exact hlet c (hch c hc)
    · revert c; decide
    · exact hlet c (hxc c hc)
  rw [htext]
  refine block_on hR jsonLoads o1 o2 w1 w2 rt [.run x] ?_ rfl rfl ?_ ?_ ?_ ?_
  · exact ⟨by simp [Spaces, rt], trivial, (by intro e' he'; cases he'; exact he),
      (by intro e ex he'; cases he'; exact ⟨hdot, hok, .inl rfl⟩),
      (by
        intro nd ex he'; cases he'
        have key : ∀ c ∈ ['L', 'l', 'U', 'u', 'R', 'r', 'D', 'd'], c ∈ "LURDlurd?123456789".toList := by decide
        exact ⟨hxne, fun c hc => key c (hxc c hc)⟩), trivial, by simp [rt]⟩
  · rw [← htext]; simp
  · rw [← htext]
    exact ⟨fun hc => (hchars _ hc).1 rfl, fun hc => (hchars _ hc).2 rfl⟩
  · exact ⟨by intro it hit; simp at hit; subst hit; exact ⟨hxne, hx1⟩, trivial, by simp [expString, ExpItem.text]⟩
  · refine table_rect h hR.lower hp hf hin hmov ?_
    intro d
    obtain ⟨c, hc, hd⟩ := hx2 d
    exact List.mem_filterMap.2 ⟨c, hc, hd⟩

private theorem start_from {m : Mat} {up dn : Coords} {i j : Nat} {land : Cell} (hdn : MarginOf m dn)
    (hl : resolveCell land up dn none = .ok ⟨i, j⟩) {mv : List Dir} {d1 : Dir} {d2 : Option Dir} (hmv : Moves mv d1 d2) {t : Coords}
    (hff : FirstFull m ⟨i, j⟩ d1 d2 t) : resolveSt m up dn ⟨land, some mv, none⟩ none = .ok t := by
  obtain ⟨-, hfull, -, hempty⟩ := C37_first_edge m up dn none land ⟨i, j⟩ hl (by simp) (by simp) hdn _ d1 d2 hmv none
  by_cases hf : FullAt m ⟨i, j⟩
  · rw [hfull hf (by simp)]
    obtain ⟨k2, k1, e, _, hn⟩ := hff
    have h0 : visited ⟨i, j⟩ d1 d2 0 0 = ⟨i, j⟩ := by
      cases d2 with
      | none => cases d1 <;> simp [visited, stepsFrom, unit]
      | some d2 => cases d1 <;> cases d2 <;> simp [visited, stepsFrom, unit]
    by_cases hz : k2 = 0 ∧ k1 = 0
    · obtain ⟨rfl, rfl⟩ := hz
      rw [e, h0]
    · exact absurd (by rw [h0]; exact hf) (hn 0 0 (by omega))
  · exact (hempty hf _).2 hff

private theorem found_on {S : Type} {A : SheetApi S} {R : Ranger S} {s : S} {m : Mat} {up dn : Coords} {val : Nat → Nat → Doc}
    (hR : Readable A R s m up dn val) (jsonLoads : Str → Option Doc) {r1 c1 r2 c2 : Nat} (h : ContiguousTable m r1 c1 r2 c2)
    (a : A1) (i j : Nat) (ha : a.Is i j) (mv : Str) (d1 : Dir) (d2 : Option Dir) (hmv : DirsText mv d1 d2)
    (p : Coords) (hp : FirstFull m ⟨i, j⟩ d1 d2 p) (hin : InRect ⟨r1, r2, c1, c2⟩ p)
    (mv' : Str) (d1' : Dir) (d2' : Option Dir) (hmv' : DirsText mv' d1' d2') (x : Str) (hx : AllDirections x) :
    ∃ l, R.doLasso A jsonLoads
        ('#' :: (a.text ++ "(".toList ++ mv ++ "):..(".toList ++ mv' ++ "):".toList ++ x)) { sheet := some s } = .ok (.lasso l) ∧
      l.st = some ⟨r1, c1⟩ ∧ l.nd = some ⟨r2, c2⟩ ∧ IsBlock val r1 c1 r2 c2 l.values := by
  obtain ⟨hmov, hok, hch⟩ := dirs_text hmv
  have hdn := hR.lower
  have hl := cell_resolves ha up dn none
  obtain ⟨-, -, -, hf, -⟩ := id hp
  have := table_lasso hR jsonLoads h ⟨.a1 a.letters (natStr a.row), some (mv, none)⟩
    ⟨(cell_ok ha false).1, hok, .inl rfl⟩ ?_ (start_from hdn hl hmov hp) hf hin hmv' hx
  · have e : a.text ++ "(".toList ++ mv ++ "):..(".toList ++ mv' ++ "):".toList ++ x =
        (⟨.a1 a.letters (natStr a.row), some (mv, none)⟩ : EdgeText).text ++ ":..(".toList ++ mv' ++ "):".toList ++ x := by
      simp [EdgeText.text, CellText.text, movText, A1.text]
    rw [e]; exact this
  · intro c hc
    have hlet : ∀ c ∈ ['L', 'l', 'U', 'u', 'R', 'r', 'D', 'd'], c ≠ '“' ∧ c ≠ '”' := by decide
    have e : (⟨.a1 a.letters (natStr a.row), some (mv, none)⟩ : EdgeText).text = a.text ++ (['('] ++ (mv ++ [')'])) := by
      simp [EdgeText.text, CellText.text, movText, A1.text]
    rw [e] at hc
    simp only [List.mem_append, List.mem_singleton] at hc
    rcases hc with hc | rfl | hc | rfl
    · have := text_chars ha c hc
      constructor <;> (rintro rfl; revert this; decide)
    · decide
    · exact hlet c (hch c hc)
    · decide

private theorem within_on {S : Type} {A : SheetApi S} {R : Ranger S} {s : S} {m : Mat} {up dn : Coords} {val : Nat → Nat → Doc}
    (hR : Readable A R s m up dn val) (jsonLoads : Str → Option Doc) {r1 c1 r2 c2 : Nat} (h : ContiguousTable m r1 c1 r2 c2)
    (a : A1) (i j : Nat) (ha : a.Is i j) (hf : FullAt m ⟨i, j⟩) (hin : r1 ≤ i ∧ i ≤ r2 ∧ c1 ≤ j ∧ j ≤ c2)
    (mv : Str) (d1 : Dir) (d2 : Option Dir) (hmv : DirsText mv d1 d2) (x : Str) (hx : AllDirections x) :
    ∃ l, R.doLasso A jsonLoads ('#' :: (a.text ++ ":..(".toList ++ mv ++ "):".toList ++ x)) { sheet := some s } = .ok (.lasso l) ∧
      l.st = some ⟨r1, c1⟩ ∧ l.nd = some ⟨r2, c2⟩ ∧ IsBlock val r1 c1 r2 c2 l.values := by
  have hl := cell_resolves ha up dn none
  have e : a.text = (⟨.a1 a.letters (natStr a.row), none⟩ : EdgeText).text := by
    simp [EdgeText.text, CellText.text, movText, A1.text]
  have := table_lasso hR jsonLoads h ⟨.a1 a.letters (natStr a.row), none⟩ (cell_ok ha false) ?_
    (show resolveSt m up dn ⟨⟨upper (natStr a.row), upper a.letters⟩, none, none⟩ none = .ok ⟨i, j⟩ by simp [resolveSt, hl]) hf
    (by simp only [InRect]; omega) hmv hx
  · rw [← e] at this; exact this
  · rw [← e]
    intro c hc
    have := text_chars ha c hc
    constructor <;> (rintro rfl; revert this; decide)

/-- C159. A contiguous table of an array sheet is captured whole, with its values, by `CELL(MOVES):..(MOVES):RLDU`,
when the first full cell found from the given cell, going by the given moves, is one of the table: whatever the moves
of the second edge, however the four directions of the expansion are written, and whatever else the sheet holds. -/
theorem C159_found (R : Ranger Grid) (jsonLoads : Str → Option Doc) (g : Grid) (m : Mat) (r1 c1 r2 c2 : Nat)
    (hfetch : R.fetch none none (some g) = .ok g) (hm : g.states = .ok m) (h : ContiguousTable m r1 c1 r2 c2)
    (a : A1) (i j : Nat) (ha : a.Is i j) (mv : Str) (d1 : Dir) (d2 : Option Dir) (hmv : DirsText mv d1 d2)
    (p : Coords) (hp : FirstFull m ⟨i, j⟩ d1 d2 p) (hin : InRect ⟨r1, r2, c1, c2⟩ p)
    (mv' : Str) (d1' : Dir) (d2' : Option Dir) (hmv' : DirsText mv' d1' d2') (x : Str) (hx : AllDirections x) :
    ∃ l, R.doLasso arrayApi jsonLoads
        ('#' :: (a.text ++ "(".toList ++ mv ++ "):..(".toList ++ mv' ++ "):".toList ++ x)) { sheet := some g } = .ok (.lasso l) ∧
      l.st = some ⟨r1, c1⟩ ∧ l.nd = some ⟨r2, c2⟩ ∧ IsBlock g.val r1 c1 r2 c2 l.values :=
  found_on (array_readable hfetch hm) jsonLoads h a i j ha mv d1 d2 hmv p hp hin mv' d1' d2' hmv' x hx

/-- C159. The same for the sheets of Excel files. -/
theorem C159_found_excel (dateOf : Nat → Doc) (nan : Doc) (R : Ranger XlGrid) (jsonLoads : Str → Option Doc) (g : XlGrid) (r1 c1 r2 c2 : Nat)
    (hfetch : R.fetch none none (some g) = .ok g) (h : ContiguousTable g.states r1 c1 r2 c2)
    (a : A1) (i j : Nat) (ha : a.Is i j) (mv : Str) (d1 : Dir) (d2 : Option Dir) (hmv : DirsText mv d1 d2)
    (p : Coords) (hp : FirstFull g.states ⟨i, j⟩ d1 d2 p) (hin : InRect ⟨r1, r2, c1, c2⟩ p)
    (mv' : Str) (d1' : Dir) (d2' : Option Dir) (hmv' : DirsText mv' d1' d2') (x : Str) (hx : AllDirections x) :
    ∃ l, R.doLasso (xlrdApi dateOf nan) jsonLoads
        ('#' :: (a.text ++ "(".toList ++ mv ++ "):..(".toList ++ mv' ++ "):".toList ++ x)) { sheet := some g } = .ok (.lasso l) ∧
      l.st = some ⟨r1, c1⟩ ∧ l.nd = some ⟨r2, c2⟩ ∧ IsBlock (fun i j => parseCell dateOf nan (g.cell i j)) r1 c1 r2 c2 l.values :=
  found_on (excel_readable dateOf nan hfetch (let ⟨_, _, _, hj⟩ := h.top; ⟨_, hj⟩)) jsonLoads h a i j ha mv d1 d2 hmv p hp hin mv' d1' d2' hmv' x hx

/-- C159. The same from a full cell of the table, without moves. -/
theorem C159_within (R : Ranger Grid) (jsonLoads : Str → Option Doc) (g : Grid) (m : Mat) (r1 c1 r2 c2 : Nat)
    (hfetch : R.fetch none none (some g) = .ok g) (hm : g.states = .ok m) (h : ContiguousTable m r1 c1 r2 c2)
    (a : A1) (i j : Nat) (ha : a.Is i j) (hf : FullAt m ⟨i, j⟩) (hin : r1 ≤ i ∧ i ≤ r2 ∧ c1 ≤ j ∧ j ≤ c2)
    (mv : Str) (d1 : Dir) (d2 : Option Dir) (hmv : DirsText mv d1 d2) (x : Str) (hx : AllDirections x) :
    ∃ l, R.doLasso arrayApi jsonLoads ('#' :: (a.text ++ ":..(".toList ++ mv ++ "):".toList ++ x)) { sheet := some g } = .ok (.lasso l) ∧
      l.st = some ⟨r1, c1⟩ ∧ l.nd = some ⟨r2, c2⟩ ∧ IsBlock g.val r1 c1 r2 c2 l.values :=
  within_on (array_readable hfetch hm) jsonLoads h a i j ha hf hin mv d1 d2 hmv x hx

/-- C159. The same for the sheets of Excel files. -/
theorem C159_within_excel (dateOf : Nat → Doc) (nan : Doc) (R : Ranger XlGrid) (jsonLoads : Str → Option Doc) (g : XlGrid) (r1 c1 r2 c2 : Nat)
    (hfetch : R.fetch none none (some g) = .ok g) (h : ContiguousTable g.states r1 c1 r2 c2)
    (a : A1) (i j : Nat) (ha : a.Is i j) (hf : FullAt g.states ⟨i, j⟩) (hin : r1 ≤ i ∧ i ≤ r2 ∧ c1 ≤ j ∧ j ≤ c2)
    (mv : Str) (d1 : Dir) (d2 : Option Dir) (hmv : DirsText mv d1 d2) (x : Str) (hx : AllDirections x) :
    ∃ l, R.doLasso (xlrdApi dateOf nan) jsonLoads ('#' :: (a.text ++ ":..(".toList ++ mv ++ "):".toList ++ x)) { sheet := some g } = .ok (.lasso l) ∧
      l.st = some ⟨r1, c1⟩ ∧ l.nd = some ⟨r2, c2⟩ ∧ IsBlock (fun i j => parseCell dateOf nan (g.cell i j)) r1 c1 r2 c2 l.values :=
  within_on (excel_readable dateOf nan hfetch (let ⟨_, _, _, hj⟩ := h.top; ⟨_, hj⟩)) jsonLoads h a i j ha hf hin mv d1 d2 hmv x hx

private theorem box_contiguous {m : Mat} {r1 c1 r2 c2 : Nat} (h : BoundingBox m r1 c1 r2 c2)
    (hl : ∀ p q, FullAt m p → FullAt m q → Linked m p q) : ContiguousTable m r1 c1 r2 c2 where
  linked := fun p q hp hq _ _ => hl p q hp hq
  top := let ⟨j, hj⟩ := h.2.1; ⟨j, by have := h.1 _ _ hj; omega, by have := h.1 _ _ hj; omega, hj⟩
  bottom := let ⟨j, hj⟩ := h.2.2.1; ⟨j, by have := h.1 _ _ hj; omega, by have := h.1 _ _ hj; omega, hj⟩
  left := let ⟨j, hj⟩ := h.2.2.2.1; ⟨j, by have := h.1 _ _ hj; omega, by have := h.1 _ _ hj; omega, hj⟩
  right := let ⟨j, hj⟩ := h.2.2.2.2; ⟨j, by have := h.1 _ _ hj; omega, by have := h.1 _ _ hj; omega, hj⟩
  alone := by
    rintro d ⟨p, hp, hf⟩
    have := box_inside h hf
    cases d <;> simp only [AdjLine] at hp <;> omega

private theorem first_exists {m : Mat} {dn : Coords} (hdn : MarginOf m dn) {i j : Nat} {d1 : Dir} {d2 : Dir} (hp : Perp d1 d2)
    {k2 k1 : Nat} (h : FullAt m (visited ⟨i, j⟩ d1 (some d2) k2 k1)) : ∃ t, FirstFull m ⟨i, j⟩ d1 (some d2) t := by
  have hm : Moves [d1, d2] d1 (some d2) := .two _ _ hp
  cases hr : targetOpposite m dn ⟨i, j⟩ [d1, d2] with
  | ok t => exact ⟨t, (C33_first_full m dn _ _ _ _ hm hdn (by simp) (by simp) t).1 hr⟩
  | error e => exact absurd h ((C33_fails_iff_none m dn _ _ _ _ hm hdn (by simp) (by simp)).1.1 ⟨e, hr⟩ k2 k1)

private theorem block_unique {val : Nat → Nat → Doc} {r1 c1 r2 c2 : Nat} {d d' : Doc} (h : IsBlock val r1 c1 r2 c2 d)
    (h' : IsBlock val r1 c1 r2 c2 d') : d = d' := by
  obtain ⟨t, rfl, a1, a2, a3⟩ := h
  obtain ⟨t', rfl, b1, b2, b3⟩ := h'
  have : t = t' := by
    apply List.ext_getElem (by omega)
    intro i hi hi'
    apply List.ext_getElem
    · rw [a2 _ (List.getElem_mem hi), b2 _ (List.getElem_mem hi')]
    · intro j hj hj'
      have e1 := a2 _ (List.getElem_mem hi)
      have x := a3 i j (by omega) (by omega)
      have y := b3 i j (by omega) (by omega)
      rw [List.getElem?_eq_getElem hi] at x
      rw [List.getElem?_eq_getElem hi'] at y
      simp only [Option.bind_some] at x y
      rw [List.getElem?_eq_getElem hj] at x
      rw [List.getElem?_eq_getElem hj'] at y
      exact Option.some.inj (x.trans y.symm)
  rw [this]

private theorem single_on {S : Type} {A : SheetApi S} {R : Ranger S} {s : S} {m : Mat} {val : Nat → Nat → Doc} {r1 c1 r2 c2 : Nat}
    (hR : Readable A R s m ⟨r1, c1⟩ ⟨r2, c2⟩ val) (jsonLoads : Str → Option Doc) (h : BoundingBox m r1 c1 r2 c2)
    (hlink : ∀ p q, FullAt m p → FullAt m q → Linked m p q)
    (a : A1) (i j : Nat) (ha : a.Is i j) (hi : i ≤ r1) (hj : j ≤ c1)
    (mv : Str) (hmv : DirsText mv .D (some .R) ∨ DirsText mv .R (some .D))
    (mv' : Str) (d1' : Dir) (d2' : Option Dir) (hmv' : DirsText mv' d1' d2') (x : Str) (hx : AllDirections x) :
    ∃ l l', R.doLasso A jsonLoads
        ('#' :: (a.text ++ "(".toList ++ mv ++ "):..(".toList ++ mv' ++ "):".toList ++ x)) { sheet := some s } = .ok (.lasso l) ∧
      R.doLasso A jsonLoads "#:".toList { sheet := some s } = .ok (.lasso l') ∧
      l.st = some ⟨r1, c1⟩ ∧ l.nd = some ⟨r2, c2⟩ ∧ l'.st = some ⟨r1, c1⟩ ∧ l'.nd = some ⟨r2, c2⟩ ∧
      l.values = l'.values ∧ IsBlock val r1 c1 r2 c2 l.values := by
  have ht := box_contiguous h hlink
  obtain ⟨o1, o2⟩ := box_ordered h
  obtain ⟨w1, w2⟩ := box_in h
  have hdn := hR.lower
  have hfirst : ∃ l, R.doLasso A jsonLoads
        ('#' :: (a.text ++ "(".toList ++ mv ++ "):..(".toList ++ mv' ++ "):".toList ++ x)) { sheet := some s } = .ok (.lasso l) ∧
      l.st = some ⟨r1, c1⟩ ∧ l.nd = some ⟨r2, c2⟩ ∧ IsBlock val r1 c1 r2 c2 l.values := by
    obtain ⟨y, hy⟩ := h.2.1
    have hyin := h.1 _ _ hy
    have go : ∀ d1 d2, DirsText mv d1 (some d2) → Perp d1 d2 → (∃ k2 k1, FullAt m (visited ⟨i, j⟩ d1 (some d2) k2 k1)) →
        ∃ l, R.doLasso A jsonLoads
          ('#' :: (a.text ++ "(".toList ++ mv ++ "):..(".toList ++ mv' ++ "):".toList ++ x)) { sheet := some s } = .ok (.lasso l) ∧
        l.st = some ⟨r1, c1⟩ ∧ l.nd = some ⟨r2, c2⟩ ∧ IsBlock val r1 c1 r2 c2 l.values := by
      rintro d1 d2 hd hp ⟨k2, k1, hk⟩
      obtain ⟨t, htt⟩ := first_exists hdn hp hk
      refine found_on hR jsonLoads ht a i j ha mv d1 (some d2) hd t htt ?_ mv' d1' d2' hmv' x hx
      obtain ⟨-, -, -, hf, -⟩ := htt
      have := box_inside h hf
      simp only [InRect]; omega
    rcases hmv with hd | hd
    · refine go _ _ hd (by decide) ⟨y - j, r1 - i, ?_⟩
      have e : visited ⟨i, j⟩ .D (some .R) (y - j) (r1 - i) = ⟨r1, y⟩ := by
        simp only [visited, stepsFrom, unit, Coords.mk.injEq]; omega
      rw [e]; exact hy
    · refine go _ _ hd (by decide) ⟨r1 - i, y - j, ?_⟩
      have e : visited ⟨i, j⟩ .R (some .D) (r1 - i) (y - j) = ⟨r1, y⟩ := by
        simp only [visited, stepsFrom, unit, Coords.mk.injEq]; omega
      rw [e]; exact hy
  have hcolon : ∃ l, R.doLasso A jsonLoads "#:".toList { sheet := some s } = .ok (.lasso l) ∧
      l.st = some ⟨r1, c1⟩ ∧ l.nd = some ⟨r2, c2⟩ ∧ IsBlock val r1 c1 r2 c2 l.values := by
    let rt : RefText := ⟨[], none, none, some (none, none), none⟩
    refine block_on hR jsonLoads o1 o2 w1 w2 rt [] ?_ rfl rfl (by decide) (by unfold NoCurly; decide) rfl ?_
    · exact ⟨by simp [Spaces, rt], trivial, (by intro e he; cases he), (by intro e ex he; cases he),
        (by intro nd ex he; cases he; trivial), trivial, by simp [rt]⟩
    · have h1 : rt.first = ⟨⟨['^'], ['^']⟩, none, none⟩ := rfl
      have h2 : rt.second = some ⟨⟨['_'], ['_']⟩, none, none⟩ := rfl
      rw [h1, h2]
      have := corners_resolve (⟨r1, c1⟩ : Coords) ⟨r2, c2⟩
      simp only [resolveCaptureRect, resolveSt, resolveNd, (this _).1, (this _).2, sortRect, List.map_nil,
        ne_eq, not_true_eq_false, if_false, Except.ok.injEq, Prod.mk.injEq, Coords.mk.injEq, Option.some.injEq]
      omega
  obtain ⟨l, a1, a2, a3, a4⟩ := hfirst
  obtain ⟨l', b1, b2, b3, b4⟩ := hcolon
  exact ⟨l, l', a1, b1, a2, a3, b2, b3, block_unique a4 b4, a4⟩

/-- C159. On an array sheet whose full cells are all linked, `CELL(DR):..(MOVES):RLDU`, from any cell that is not
below or after the beginning of the table, captures the same as a lone `:`, namely the smallest rectangle around
the full cells. -/
theorem C159_single (R : Ranger Grid) (jsonLoads : Str → Option Doc) (g : Grid) (m : Mat) (r1 c1 r2 c2 : Nat)
    (hfetch : R.fetch none none (some g) = .ok g) (hm : g.states = .ok m) (h : BoundingBox m r1 c1 r2 c2)
    (hlink : ∀ p q, FullAt m p → FullAt m q → Linked m p q)
    (a : A1) (i j : Nat) (ha : a.Is i j) (hi : i ≤ r1) (hj : j ≤ c1)
    (mv : Str) (hmv : DirsText mv .D (some .R) ∨ DirsText mv .R (some .D))
    (mv' : Str) (d1' : Dir) (d2' : Option Dir) (hmv' : DirsText mv' d1' d2') (x : Str) (hx : AllDirections x) :
    ∃ l l', R.doLasso arrayApi jsonLoads
        ('#' :: (a.text ++ "(".toList ++ mv ++ "):..(".toList ++ mv' ++ "):".toList ++ x)) { sheet := some g } = .ok (.lasso l) ∧
      R.doLasso arrayApi jsonLoads "#:".toList { sheet := some g } = .ok (.lasso l') ∧
      l.st = some ⟨r1, c1⟩ ∧ l.nd = some ⟨r2, c2⟩ ∧ l'.st = some ⟨r1, c1⟩ ∧ l'.nd = some ⟨r2, c2⟩ ∧
      l.values = l'.values ∧ IsBlock g.val r1 c1 r2 c2 l.values := by
  have hR := array_readable hfetch hm
  rw [box_margins h] at hR
  exact single_on hR jsonLoads h hlink a i j ha hi hj mv hmv mv' d1' d2' hmv' x hx

/-- C159. The same for the sheets of Excel files that end where the table does. -/
theorem C159_single_excel (dateOf : Nat → Doc) (nan : Doc) (R : Ranger XlGrid) (jsonLoads : Str → Option Doc) (g : XlGrid) (r1 c1 r2 c2 : Nat)
    (hfetch : R.fetch none none (some g) = .ok g) (hends : g.rows = r2 + 1 ∧ g.cols = c2 + 1) (h : BoundingBox g.states r1 c1 r2 c2)
    (hlink : ∀ p q, FullAt g.states p → FullAt g.states q → Linked g.states p q)
    (a : A1) (i j : Nat) (ha : a.Is i j) (hi : i ≤ r1) (hj : j ≤ c1)
    (mv : Str) (hmv : DirsText mv .D (some .R) ∨ DirsText mv .R (some .D))
    (mv' : Str) (d1' : Dir) (d2' : Option Dir) (hmv' : DirsText mv' d1' d2') (x : Str) (hx : AllDirections x) :
    ∃ l l', R.doLasso (xlrdApi dateOf nan) jsonLoads
        ('#' :: (a.text ++ "(".toList ++ mv ++ "):..(".toList ++ mv' ++ "):".toList ++ x)) { sheet := some g } = .ok (.lasso l) ∧
      R.doLasso (xlrdApi dateOf nan) jsonLoads "#:".toList { sheet := some g } = .ok (.lasso l') ∧
      l.st = some ⟨r1, c1⟩ ∧ l.nd = some ⟨r2, c2⟩ ∧ l'.st = some ⟨r1, c1⟩ ∧ l'.nd = some ⟨r2, c2⟩ ∧
      l.values = l'.values ∧ IsBlock (fun i j => parseCell dateOf nan (g.cell i j)) r1 c1 r2 c2 l.values := by
  have hR := excel_readable dateOf nan hfetch (let ⟨_, hj⟩ := h.2.1; ⟨_, hj⟩)
  have e1 : (g.rows : Int) - 1 = r2 := by omega
  have e2 : (g.cols : Int) - 1 = c2 := by omega
  rw [box_margins h, e1, e2] at hR
  exact single_on hR jsonLoads h hlink a i j ha hi hj mv hmv mv' d1' d2' hmv' x hx

/-- C159. A lone `:` on the sheet of an Excel file captures up to the last cell of the sheet, empty or not, and not
up to the last row and column with a full cell. -/
theorem C159_colon_excel (dateOf : Nat → Doc) (nan : Doc) (R : Ranger XlGrid) (jsonLoads : Str → Option Doc) (g : XlGrid) (r1 c1 r2 c2 : Nat)
    (hfetch : R.fetch none none (some g) = .ok g) (h : BoundingBox g.states r1 c1 r2 c2) :
    ∃ l, R.doLasso (xlrdApi dateOf nan) jsonLoads "#:".toList { sheet := some g } = .ok (.lasso l) ∧
      l.st = some ⟨r1, c1⟩ ∧ l.nd = some ⟨(g.rows - 1 : Nat), (g.cols - 1 : Nat)⟩ ∧
      IsBlock (fun i j => parseCell dateOf nan (g.cell i j)) r1 c1 (g.rows - 1) (g.cols - 1) l.values := by
  have hR := excel_readable dateOf nan hfetch (let ⟨_, hj⟩ := h.2.1; ⟨_, hj⟩)
  obtain ⟨o1, o2⟩ := box_ordered h
  obtain ⟨w1, w2⟩ := box_in h
  simp only [XlGrid.states] at w1 w2
  have e1 : (g.rows : Int) - 1 = (g.rows - 1 : Nat) := by omega
  have e2 : (g.cols : Int) - 1 = (g.cols - 1 : Nat) := by omega
  rw [box_margins h, e1, e2] at hR
  let rt : RefText := ⟨[], none, none, some (none, none), none⟩
  refine block_on hR jsonLoads (by omega) (by omega) (by simp only [XlGrid.states]; omega) (by simp only [XlGrid.states]; omega) rt [] ?_ rfl rfl
    (by decide) (by unfold NoCurly; decide) rfl ?_
  · exact ⟨by simp [Spaces, rt], trivial, (by intro e he; cases he), (by intro e ex he; cases he),
      (by intro nd ex he; cases he; trivial), trivial, by simp [rt]⟩
  · have h1 : rt.first = ⟨⟨['^'], ['^']⟩, none, none⟩ := rfl
    have h2 : rt.second = some ⟨⟨['_'], ['_']⟩, none, none⟩ := rfl
    rw [h1, h2]
    have := corners_resolve (⟨r1, c1⟩ : Coords) ⟨(g.rows - 1 : Nat), (g.cols - 1 : Nat)⟩
    simp only [resolveCaptureRect, resolveSt, resolveNd, (this _).1, (this _).2, sortRect, List.map_nil,
      ne_eq, not_true_eq_false, if_false, Except.ok.injEq, Prod.mk.injEq, Coords.mk.injEq, Option.some.injEq]
    omega

/-- A sheet of an Excel file with one table and an empty column after it: what the two references capture. -/
example : (match (⟨fun _ _ s => match s with | some s => .ok s | none => .error .valueError, [], fun _ => none⟩ : Ranger XlGrid).doLasso
      (xlrdApi (fun _ => .null) .null) (fun _ => none) "#:".toList
      { sheet := some ⟨2, 3, fun _ j => if j = 0 then .intNum 7 else .empty⟩ } with
    | .ok (.lasso l) => l.nd == some ⟨1, 2⟩ | _ => false) = true ∧
    (match (⟨fun _ _ s => match s with | some s => .ok s | none => .error .valueError, [], fun _ => none⟩ : Ranger XlGrid).doLasso
      (xlrdApi (fun _ => .null) .null) (fun _ => none) "#A1(DR):..(DR):RLDU".toList
      { sheet := some ⟨2, 3, fun _ j => if j = 0 then .intNum 7 else .empty⟩ } with
    | .ok (.lasso l) => l.nd == some ⟨1, 0⟩ | _ => false) = true := by decide +kernel

/-- An L-shaped table from C2 with a gap, one more table below it, and one that only touches its corner. -/
private def twoTables : Grid := ⟨8, 7, fun i j =>
  if (i = 1 ∧ 2 ≤ j ∧ j ≤ 4) ∨ (j = 4 ∧ 1 ≤ i ∧ i ≤ 3) ∨ (i = 4 ∧ j = 5) ∨ i = 6 then .int (10 * i + j) else .null⟩

private def wholeRanger : Ranger Grid := ⟨fun _ _ s => match s with | some s => .ok s | none => .error .valueError, [], fun _ => none⟩

private def wholeShows (ref : Str) (st nd : Coords) : Bool :=
  match wholeRanger.doLasso arrayApi (fun _ => none) ref { sheet := some twoTables } with
  | .ok (.lasso l) => l.st == some st && l.nd == some nd
  | _ => false

example : wholeShows "#A1(RD):..(DR):RLDU".toList ⟨1, 2⟩ ⟨3, 4⟩ = true ∧ wholeShows "#E4:..(U):dulr".toList ⟨1, 2⟩ ⟨3, 4⟩ = true ∧
    wholeShows "#A1(RD):..(DR)".toList ⟨1, 2⟩ ⟨1, 4⟩ = true ∧ wholeShows "#:".toList ⟨1, 0⟩ ⟨6, 6⟩ = true := by decide +kernel

example : DirsText "Dr".toList .D (some .R) ∧ AllDirections "RLDU".toList :=
  ⟨.two 'D' 'r' _ _ rfl rfl (by decide), by decide, fun d => by cases d <;> decide⟩

private theorem linked_trans {m : Mat} {p q r : Coords} (h : Linked m p q) (h' : Linked m q r) : Linked m p r := by
  induction h' with
  | here => exact h
  | next _ d _ hf ih => exact .next _ _ d ih hf

private theorem linked_symm {m : Mat} {p q : Coords} (h : Linked m p q) : Linked m q p := by
  induction h with
  | here hf => exact .here _ hf
  | next q d _ hf ih =>
    have back : ∃ e, stepsFrom (stepsFrom q d 1) e 1 = q := by
      cases d
      · exact ⟨.R, by cases q; simp only [stepsFrom, unit, Coords.mk.injEq]; omega⟩
      · exact ⟨.D, by cases q; simp only [stepsFrom, unit, Coords.mk.injEq]; omega⟩
      · exact ⟨.L, by cases q; simp only [stepsFrom, unit, Coords.mk.injEq]; omega⟩
      · exact ⟨.U, by cases q; simp only [stepsFrom, unit, Coords.mk.injEq]; omega⟩
    obtain ⟨e, he⟩ := back
    refine linked_trans (q := q) ?_ ih
    have := Linked.next _ _ e (.here _ hf) (by rw [he]; exact linked_full ih)
    rwa [he] at this

/-- The first of those tables is contiguous. -/
example : ∃ m, twoTables.states = .ok m ∧ ContiguousTable m 1 2 3 4 ∧ FirstFull m ⟨0, 0⟩ .R (some .D) ⟨1, 2⟩ := by
  obtain ⟨m, hm⟩ : ∃ m, twoTables.states = .ok m := ⟨_, rfl⟩
  refine ⟨m, hm, ?_, ?_⟩
  · have f : ∀ i j : Nat, FullAt m ⟨i, j⟩ ↔ _ := full_in twoTables hm
    have f1 : FullAt m ⟨(1 : Nat), (2 : Nat)⟩ := (f 1 2).2 (by decide)
    have f2 : FullAt m ⟨(1 : Nat), (3 : Nat)⟩ := (f 1 3).2 (by decide)
    have f3 : FullAt m ⟨(1 : Nat), (4 : Nat)⟩ := (f 1 4).2 (by decide)
    have f4 : FullAt m ⟨(2 : Nat), (4 : Nat)⟩ := (f 2 4).2 (by decide)
    have f5 : FullAt m ⟨(3 : Nat), (4 : Nat)⟩ := (f 3 4).2 (by decide)
    have k1 := Linked.here _ f1
    have k2 := Linked.next _ _ .R k1 f2
    have k3 := Linked.next _ _ .R k2 f3
    have k4 := Linked.next _ _ .D k3 f4
    have k5 := Linked.next _ _ .D k4 f5
    have hall : ∀ p, FullAt m p → InRect ⟨1, 3, 2, 4⟩ p → Linked m ⟨(1 : Nat), (2 : Nat)⟩ p := by
      intro p hp hin
      obtain ⟨i, j, rfl, -⟩ := id hp
      have hv := ((f i j).1 hp).2.2
      simp only [InRect] at hin
      have : i = 1 ∧ j = 2 ∨ i = 1 ∧ j = 3 ∨ i = 1 ∧ j = 4 ∨ i = 2 ∧ j = 4 ∨ i = 3 ∧ j = 4 := by
        simp only [twoTables] at hv
        by_cases hc : (i = 1 ∧ 2 ≤ j ∧ j ≤ 4) ∨ (j = 4 ∧ 1 ≤ i ∧ i ≤ 3) ∨ (i = 4 ∧ j = 5) ∨ i = 6
        · omega
        · rw [if_neg hc] at hv; simp at hv
      rcases this with ⟨rfl, rfl⟩ | ⟨rfl, rfl⟩ | ⟨rfl, rfl⟩ | ⟨rfl, rfl⟩ | ⟨rfl, rfl⟩
      · exact k1
      · exact k2
      · exact k3
      · exact k4
      · exact k5
    refine ⟨fun p q hp hq ip iq => linked_trans (linked_symm (hall p hp ip)) (hall q hq iq),
      ⟨2, by decide, by decide, f1⟩, ⟨4, by decide, by decide, f5⟩, ⟨1, by decide, by decide, f1⟩, ⟨1, by decide, by decide, f3⟩, ?_⟩
    rintro d ⟨p, hp, hf⟩
    obtain ⟨i, j, rfl, -⟩ := id hf
    have hv := ((f i j).1 hf).2.2
    simp only [twoTables] at hv
    by_cases hc : (i = 1 ∧ 2 ≤ j ∧ j ≤ 4) ∨ (j = 4 ∧ 1 ≤ i ∧ i ≤ 3) ∨ (i = 4 ∧ j = 5) ∨ i = 6
    · cases d <;> simp only [AdjLine] at hp <;> omega
    · rw [if_neg hc] at hv; simp at hv
  · refine ⟨1, 2, rfl, (full_in twoTables hm 1 2).2 (by decide), ?_⟩
    intro j2 j1 hlt hf
    have e : visited ⟨0, 0⟩ .R (some .D) j2 j1 = ⟨j2, j1⟩ := by simp [visited, stepsFrom, unit]
    rw [e] at hf
    have hv := ((full_in twoTables hm j2 j1).1 hf).2.2
    simp only [twoTables] at hv
    rw [if_neg (by omega)] at hv; simp at hv

private def oneTable : Grid := ⟨4, 4, fun i j => if (i = 1 ∧ 1 ≤ j ∧ j ≤ 2) ∨ (i = 2 ∧ j = 2) then .int (10 * i + j) else .null⟩

/-- A sheet with one table, whose full cells are all linked. -/
example : ∃ m, oneTable.states = .ok m ∧ BoundingBox m 1 1 2 2 ∧ ∀ p q, FullAt m p → FullAt m q → Linked m p q := by
  obtain ⟨m, hm⟩ : ∃ m, oneTable.states = .ok m := ⟨_, rfl⟩
  have f : ∀ i j : Nat, FullAt m ⟨i, j⟩ ↔ _ := full_in oneTable hm
  have f1 : FullAt m ⟨(1 : Nat), (1 : Nat)⟩ := (f 1 1).2 (by decide)
  have f2 : FullAt m ⟨(1 : Nat), (2 : Nat)⟩ := (f 1 2).2 (by decide)
  have f3 : FullAt m ⟨(2 : Nat), (2 : Nat)⟩ := (f 2 2).2 (by decide)
  have k1 := Linked.here _ f1
  have k2 := Linked.next _ _ .R k1 f2
  have k3 := Linked.next _ _ .D k2 f3
  have hcells : ∀ i j : Nat, FullAt m ⟨i, j⟩ → i = 1 ∧ j = 1 ∨ i = 1 ∧ j = 2 ∨ i = 2 ∧ j = 2 := by
    intro i j hp
    have hv := ((f i j).1 hp).2.2
    simp only [oneTable] at hv
    by_cases hc : (i = 1 ∧ 1 ≤ j ∧ j ≤ 2) ∨ (i = 2 ∧ j = 2)
    · omega
    · rw [if_neg hc] at hv; simp at hv
  have hall : ∀ p, FullAt m p → Linked m ⟨(1 : Nat), (1 : Nat)⟩ p := by
    intro p hp
    obtain ⟨i, j, rfl, -⟩ := id hp
    rcases hcells i j hp with ⟨rfl, rfl⟩ | ⟨rfl, rfl⟩ | ⟨rfl, rfl⟩
    · exact k1
    · exact k2
    · exact k3
  refine ⟨m, hm, ⟨fun i j hp => ?_, ⟨1, f1⟩, ⟨2, f3⟩, ⟨1, f1⟩, ⟨1, f2⟩⟩, fun p q hp hq => linked_trans (linked_symm (hall p hp)) (hall q hq)⟩
  have := hcells i j hp; omega

end Props
