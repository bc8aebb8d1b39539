import Verif.Props.Reference
import Verif.Props.Expand
/-
C87: tables are captured whole.
-/
set_option linter.unusedSimpArgs false
namespace Props
open Py Model Spec Lemmas

/-- The references to the table found from a cell: to the ends of its runs, or by expanding. -/
inductive TableRef : Str → Str → Prop
  | ends (cell m1 m2 : Str) : upper m1 ∈ ["DR".toList, "RD".toList] → upper m2 ∈ ["DR".toList, "RD".toList] →
      TableRef cell (cell ++ "(".toList ++ m1 ++ "):..(".toList ++ m2 ++ ")".toList)
  | grown (cell m1 m2 : Str) : upper m1 ∈ ["DR".toList, "RD".toList] → (∀ c ∈ m2, (letterDir c).isSome) →
      .D ∈ dirsMeant m2 → .R ∈ dirsMeant m2 →
      TableRef cell (cell ++ "(".toList ++ m1 ++ "):..:".toList ++ m2)

private theorem fullAt_nat {m : Mat} {p : Coords} (h : FullAt m p) : ∃ i j : Nat, p = ⟨i, j⟩ := by
  obtain ⟨i, j, e, -⟩ := h; exact ⟨i, j, e⟩

private theorem full_iff {m : Mat} {r1 c1 r2 c2 : Nat} (h : OneTable m r1 c1 r2 c2) (p : Coords) :
    FullAt m p ↔ ((r1 : Int) ≤ p.row ∧ p.row ≤ r2 ∧ (c1 : Int) ≤ p.col ∧ p.col ≤ c2) := by
  constructor
  · intro hp
    obtain ⟨i, j, rfl⟩ := fullAt_nat hp
    have := (h.2.2 i j).1 hp
    simp only; omega
  · intro hp
    have e : p = ⟨(p.row.toNat : Nat), (p.col.toNat : Nat)⟩ := by
      cases p; simp only [Coords.mk.injEq] at *; omega
    rw [e]
    exact (h.2.2 _ _).2 (by omega)

private theorem first_DR {m : Mat} {r1 c1 r2 c2 i j : Nat} (h : OneTable m r1 c1 r2 c2) (hi : i ≤ r1) (hj : j ≤ c1) :
    FirstFull m ⟨i, j⟩ .D (some .R) ⟨r1, c1⟩ := by
  refine ⟨c1 - j, r1 - i, ?_, ?_, ?_⟩
  · simp only [visited, stepsFrom, unit, Coords.mk.injEq]; omega
  · rw [full_iff h]; have := h.1; have := h.2.1; simp only; omega
  · intro j2 j1 hlt
    rw [full_iff h]
    simp only [visited, stepsFrom, unit]; omega

private theorem first_RD {m : Mat} {r1 c1 r2 c2 i j : Nat} (h : OneTable m r1 c1 r2 c2) (hi : i ≤ r1) (hj : j ≤ c1) :
    FirstFull m ⟨i, j⟩ .R (some .D) ⟨r1, c1⟩ := by
  refine ⟨r1 - i, c1 - j, ?_, ?_, ?_⟩
  · simp only [visited, stepsFrom, unit, Coords.mk.injEq]; omega
  · rw [full_iff h]; have := h.1; have := h.2.1; simp only; omega
  · intro j2 j1 hlt
    rw [full_iff h]
    simp only [visited, stepsFrom, unit]; omega

private theorem dirsMeant_of {s : Str} (h : upper s ∈ ["DR".toList, "RD".toList]) :
    dirsMeant s = [.D, .R] ∨ dirsMeant s = [.R, .D] := by
  have hd := dirsOf_moves (s := s) (by
    simp only [List.mem_cons, List.not_mem_nil, or_false] at h
    rcases h with h | h <;> rw [h] <;> decide)
  simp only [List.mem_cons, List.not_mem_nil, or_false] at h
  rcases h with h | h
  · left; rw [h] at hd; exact (Option.some.inj hd).symm
  · right; rw [h] at hd; exact (Option.some.inj hd).symm

private theorem st_table {m : Mat} {up dn : Coords} {base : Option Coords} {r1 c1 r2 c2 i j : Nat}
    (h : OneTable m r1 c1 r2 c2) (hdn : MarginOf m dn) (hi : i ≤ r1) (hj : j ≤ c1) {land : Cell}
    (hl : resolveCell land up dn base = .ok ⟨i, j⟩) {ds : List Dir} (hds : ds = [.D, .R] ∨ ds = [.R, .D]) :
    resolveSt m up dn ⟨land, some ds, none⟩ base = .ok ⟨r1, c1⟩ := by
  have hmv : ∃ d1 d2, Moves ds d1 d2 ∧ FirstFull m ⟨i, j⟩ d1 d2 ⟨r1, c1⟩ := by
    rcases hds with rfl | rfl
    · exact ⟨.D, some .R, .two _ _ (by decide), first_DR h hi hj⟩
    · exact ⟨.R, some .D, .two _ _ (by decide), first_RD h hi hj⟩
  obtain ⟨d1, d2, hmv, hff⟩ := hmv
  obtain ⟨-, hfull, -, hempty⟩ := C37_first_edge m up dn base land ⟨i, j⟩ hl (by simp) (by simp) hdn ds d1 d2 hmv none
  by_cases hf : FullAt m ⟨i, j⟩
  · have := (full_iff h _).1 hf
    rw [hfull hf (by simp)]
    simp only at this
    have e1 : i = r1 := by omega
    have e2 : j = c1 := by omega
    rw [e1, e2]
  · exact (hempty hf _).2 hff

private theorem dot_resolves (up dn st : Coords) : resolveCell ⟨['.'], ['.']⟩ up dn (some st) = .ok st := by
  simp [resolveCell, resolveCoord]

private theorem run_D {m : Mat} {r1 c1 r2 c2 k : Nat} (h : OneTable m r1 c1 r2 c2) (hr : RunEnds m ⟨r1, c1⟩ .D k) : k = r2 - r1 := by
  obtain ⟨a, b⟩ := hr
  have a := (full_iff h _).1 (a k (Nat.le_refl _))
  rw [full_iff h] at b
  have := h.1; have := h.2.1
  simp only [stepsFrom, unit] at a b
  omega

private theorem run_R {m : Mat} {r1 c1 r2 c2 k : Nat} (h : OneTable m r1 c1 r2 c2) (hr : RunEnds m ⟨r1, c1⟩ .R k) : k = c2 - c1 := by
  obtain ⟨a, b⟩ := hr
  have a := (full_iff h _).1 (a k (Nat.le_refl _))
  rw [full_iff h] at b
  have := h.1; have := h.2.1
  simp only [stepsFrom, unit] at a b
  omega

private theorem nd_table {m : Mat} {up dn : Coords} {r1 c1 r2 c2 : Nat} (h : OneTable m r1 c1 r2 c2) (hdn : MarginOf m dn)
    {ds : List Dir} (hds : ds = [.D, .R] ∨ ds = [.R, .D]) :
    resolveNd m up dn ⟨⟨['.'], ['.']⟩, some ds, none⟩ ⟨r1, c1⟩ = .ok ⟨r2, c2⟩ := by
  have hfull : FullAt m ⟨r1, c1⟩ := by rw [full_iff h]; have := h.1; have := h.2.1; simp only; omega
  have hmv : ∃ d1 d2, Moves ds d1 d2 := by
    rcases hds with rfl | rfl
    · exact ⟨.D, some .R, .two _ _ (by decide)⟩
    · exact ⟨.R, some .D, .two _ _ (by decide)⟩
  obtain ⟨d1, d2, hmv⟩ := hmv
  obtain ⟨-, h1, -, -⟩ := C37_second_edge m up dn ⟨r1, c1⟩ ⟨['.'], ['.']⟩ ⟨r1, c1⟩ (dot_resolves _ _ _) (by simp) (by simp) hdn ds d1 d2 hmv none
  rw [h1 hfull (.inr ⟨rfl, rfl⟩)]
  have := h.1; have := h.2.1
  rcases hds with rfl | rfl
  · obtain ⟨k, l, hk, hl, e⟩ := C34_two_moves m dn ⟨r1, c1⟩ .D .R (by decide) hdn hfull
    rw [e, run_D h hk, run_R h hl]
    simp only [stepsFrom, unit, Except.ok.injEq, Coords.mk.injEq]; omega
  · obtain ⟨k, l, hk, hl, e⟩ := C34_two_moves m dn ⟨r1, c1⟩ .R .D (by decide) hdn hfull
    rw [e, run_R h hk, run_D h hl]
    simp only [stepsFrom, unit, Except.ok.injEq, Coords.mk.injEq]; omega

private theorem expand_table {m : Mat} {r1 c1 r2 c2 : Nat} (h : OneTable m r1 c1 r2 c2) {ds : List Dir} (hD : .D ∈ ds) (hR : .R ∈ ds) :
    expandRect m ⟨r1, c1⟩ ⟨r1, c1⟩ [⟨ds, none⟩] = (⟨r1, c1⟩, ⟨r2, c2⟩) := by
  have o1 := h.1; have o2 := h.2.1
  obtain ⟨S, e, hs, hcl, hleast⟩ := C35_unlimited_least m ⟨r1, c1⟩ ⟨r1, c1⟩ (by simp) (by simp) (by simp) (by simp) ds
  have hT := hleast ⟨r1, r2, c1, c2⟩ (by simp [Within, between]; omega) (by
    intro d hd
    rintro ⟨p, hp, hf⟩
    rw [full_iff h] at hf
    cases d <;> simp only [AdjLine] at hp <;> omega)
  have hb : between ⟨r1, c1⟩ ⟨r1, c1⟩ = ⟨r1, r1, c1, c1⟩ := by simp [between]
  rw [hb] at hs
  have hd := hcl .D hD
  have hr := hcl .R hR
  have hd' : ¬ S.r2 < r2 := by
    intro hlt
    refine hd ⟨⟨S.r2 + 1, c1⟩, ?_, ?_⟩
    · simp only [Within] at hs; exact ⟨rfl, by simp only; omega, by simp only; omega⟩
    · rw [full_iff h]; simp only [Within] at hs ⊢; omega
  have hr' : ¬ S.c2 < c2 := by
    intro hlt
    refine hr ⟨⟨r1, S.c2 + 1⟩, ?_, ?_⟩
    · simp only [Within] at hs; exact ⟨rfl, by simp only; omega, by simp only; omega⟩
    · rw [full_iff h]; simp only [Within] at hs ⊢; omega
  rw [e]
  simp only [corners, Prod.mk.injEq, Coords.mk.injEq, Within] at *
  omega

/-- The rectangle of a reference to the table. -/
private theorem rect_table {m : Mat} {up dn : Coords} {base : Option Coords} {r1 c1 r2 c2 i j : Nat}
    (h : OneTable m r1 c1 r2 c2) (hdn : MarginOf m dn) (hi : i ≤ r1) (hj : j ≤ c1) {land : Cell}
    (hl : resolveCell land up dn base = .ok ⟨i, j⟩) {ds es : List Dir} (hds : ds = [.D, .R] ∨ ds = [.R, .D]) :
    ((es = [.D, .R] ∨ es = [.R, .D]) →
      resolveCaptureRect m up dn ⟨land, some ds, none⟩ (some ⟨⟨['.'], ['.']⟩, some es, none⟩) [] base = .ok (⟨r1, c1⟩, some ⟨r2, c2⟩)) ∧
    (.D ∈ es → .R ∈ es →
      resolveCaptureRect m up dn ⟨land, some ds, none⟩ (some ⟨⟨['.'], ['.']⟩, none, none⟩) [⟨es, none⟩] base =
        .ok (⟨r1, c1⟩, some ⟨r2, c2⟩)) := by
  have o1 := h.1; have o2 := h.2.1
  have hst := st_table h hdn hi hj hl hds
  constructor
  · intro hes
    have hnd := nd_table (up := up) h hdn hes
    simp only [resolveCaptureRect, hst, hnd, sortRect]
    simp only [ne_eq, not_true_eq_false, if_false, Except.ok.injEq, Prod.mk.injEq, Coords.mk.injEq, Option.some.injEq]
    omega
  · intro hD hR
    have hnd : resolveNd m up dn ⟨⟨['.'], ['.']⟩, none, none⟩ ⟨r1, c1⟩ = .ok ⟨r1, c1⟩ := by simp [resolveNd, dot_resolves]
    have he := expand_table h hD hR
    simp only [resolveCaptureRect, hst, hnd, ne_eq, List.cons_ne_self, reduceCtorEq, not_false_eq_true, if_true, Option.getD_some, he]

private theorem table_lasso {S : Type} (R : Ranger S) (A : SheetApi S) (jsonLoads : Str → Option Doc) (s : S) (m : Mat) (up dn : Coords)
    (hfetch : R.fetch none none (some s) = .ok s) (hstates : A.states s = .ok m) (hmargins : A.margins s = .ok (up, dn))
    (hdn : MarginOf m dn) (r1 c1 r2 c2 : Nat) (h : OneTable m r1 c1 r2 c2) (a : A1) (i j : Nat) (ha : a.Is i j) (hi : i ≤ r1) (hj : j ≤ c1)
    (ref : Str) (href : TableRef a.text ref) (v : Captured) (hv : A.readRect s ⟨r1, c1⟩ (some ⟨r2, c2⟩) = .ok v) :
    ∃ l, R.doLasso A jsonLoads ('#' :: ref) { sheet := some s } = .ok (.lasso l) ∧ l.st = some ⟨r1, c1⟩ ∧ l.nd = some ⟨r2, c2⟩ ∧
      l.values = v.toDoc := by
  have hq : ∀ s' : Str, (∀ c ∈ s', c ≠ '“' ∧ c ≠ '”') → NoCurly ([] ++ s') := by
    intro s' hs'
    exact ⟨fun e => (hs' _ e).1 rfl, fun e => (hs' _ e).2 rfl⟩
  have hcell := cell_ok ha false
  have hatext : ∀ c ∈ a.letters ++ natStr a.row, c ≠ '“' ∧ c ≠ '”' := by
    intro c hc
    have := text_chars ha c hc
    constructor <;> (rintro rfl; revert this; decide)
  have hlet : ∀ c, (letterDir c).isSome → c ≠ '“' ∧ c ≠ '”' := by
    intro c hc
    constructor <;> (rintro rfl; revert hc; decide)
  have hmtext : ∀ m1 : Str, upper m1 ∈ ["DR".toList, "RD".toList] → ∀ c ∈ m1, c ≠ '“' ∧ c ≠ '”' := by
    intro m1 hm1 c hc
    apply hlet
    have : upperChar c ∈ upper m1 := List.mem_map.2 ⟨c, hc, rfl⟩
    apply letterDir_of_upper
    simp only [List.mem_cons, List.not_mem_nil, or_false] at hm1
    rcases hm1 with e | e <;> rw [e] at this <;> revert this <;> generalize upperChar c = x <;> intro hx <;>
      simp at hx <;> rcases hx with rfl | rfl <;> rfl
  have hmall : ∀ m1 : Str, upper m1 ∈ ["DR".toList, "RD".toList] → upper m1 ∈ allMoves := by
    intro m1 hm1
    simp only [List.mem_cons, List.not_mem_nil, or_false] at hm1
    rcases hm1 with e | e <;> rw [e] <;> decide
  have hdot : CellText.Ok true (.a1 ".".toList ".".toList) :=
    ⟨.inr (.inr (.inr ⟨rfl, rfl⟩)), .inr (.inr (.inr ⟨rfl, rfl⟩))⟩
  have hl := cell_resolves ha up dn none
  cases href with
  | ends m1 m2 hm1 hm2 =>
    have hr := (rect_table (up := up) (base := none) h hdn hi hj hl (dirsMeant_of hm1)).1 (dirsMeant_of hm2)
    let rt : RefText := ⟨[], none, some ⟨.a1 a.letters (natStr a.row), some (m1, none)⟩,
      some (some ⟨.a1 ".".toList ".".toList, some (m2, none)⟩, none), none⟩
    have htext : a.text ++ "(".toList ++ m1 ++ "):..(".toList ++ m2 ++ ")".toList = rt.text := by
      simp [rt, RefText.text, sheetText, optEdgeText, rangeText, expText, filtText, EdgeText.text, CellText.text, movText, A1.text]
    have hok : rt.Ok := ⟨by simp [Spaces, rt], trivial, by intro e he; cases he; exact ⟨hcell.1, hmall m1 hm1, .inl rfl⟩,
      by intro e ex he; cases he; exact ⟨hdot, hmall m2 hm2, .inl rfl⟩, by intro nd ex he; cases he; trivial, trivial, by simp [rt]⟩
    have := (C86_captures R A jsonLoads [] rt [] (some s) none s m up dn (by simp) (hq _ (by
      rw [← htext]
      intro c hc
      simp only [List.mem_append] at hc
      rcases hc with ((((hc | hc) | hc) | hc) | hc) | hc
      · exact hatext c hc
      · simp at hc; subst hc; decide
      · exact hmtext m1 hm1 c hc
      · simp at hc; rcases hc with rfl | rfl | rfl | rfl | rfl <;> decide
      · exact hmtext m2 hm2 c hc
      · simp at hc; subst hc; decide)) hok rfl (by rw [← htext]; simp) (by simp [RefText.Expands, rt]) hfetch hstates hmargins).1
        ⟨r1, c1⟩ (some ⟨r2, c2⟩) v hr hv
    obtain ⟨l, e, -, e1, e2, e3⟩ := this
    rw [htext]
    exact ⟨l, e, e1, e2, e3⟩
  | grown m1 m2 hm1 hm2 hD hR =>
    have hr := (rect_table (up := up) (base := none) h hdn hi hj hl (dirsMeant_of hm1)).2 hD hR
    have hne : m2 ≠ [] := by rintro rfl; simp [dirsMeant] at hD
    let rt : RefText := ⟨[], none, some ⟨.a1 a.letters (natStr a.row), some (m1, none)⟩,
      some (some ⟨.a1 ".".toList ".".toList, none⟩, some m2), none⟩
    have htext : a.text ++ "(".toList ++ m1 ++ "):..:".toList ++ m2 = rt.text := by
      simp [rt, RefText.text, sheetText, optEdgeText, rangeText, expText, filtText, EdgeText.text, CellText.text, movText, A1.text]
    have hok : rt.Ok := ⟨by simp [Spaces, rt], trivial, by intro e he; cases he; exact ⟨hcell.1, hmall m1 hm1, .inl rfl⟩,
      by intro e ex he; cases he; exact ⟨hdot, trivial⟩, by
        intro nd ex he; cases he
        refine ⟨hne, fun c hc => ?_⟩
        have := hm2 c hc
        revert this
        unfold letterDir
        intro this
        split at this
        · rename_i hh; rcases hh with rfl | rfl <;> decide
        split at this
        · rename_i hh; rcases hh with rfl | rfl <;> decide
        split at this
        · rename_i hh; rcases hh with rfl | rfl <;> decide
        split at this
        · rename_i hh; rcases hh with rfl | rfl <;> decide
        · simp at this, trivial, by simp [rt]⟩
    have := (C86_captures R A jsonLoads [] rt [.run m2] (some s) none s m up dn (by simp) (hq _ (by
      rw [← htext]
      intro c hc
      simp only [List.mem_append] at hc
      rcases hc with (((hc | hc) | hc) | hc) | hc
      · exact hatext c hc
      · simp at hc; subst hc; decide
      · exact hmtext m1 hm1 c hc
      · simp at hc; rcases hc with rfl | rfl | rfl | rfl | rfl <;> decide
      · exact hlet c (hm2 c hc))) hok rfl (by rw [← htext]; simp) (by
        simp only [RefText.Expands, rt, Option.bind_some]
        exact ⟨by intro it hit; simp at hit; subst hit; exact ⟨hne, hm2⟩, trivial, by simp [expString, ExpItem.text]⟩)
        hfetch hstates hmargins).1 ⟨r1, c1⟩ (some ⟨r2, c2⟩) v hr hv
    obtain ⟨l, e, -, e1, e2, e3⟩ := this
    rw [htext]
    exact ⟨l, e, e1, e2, e3⟩

/-- C87. On an array sheet whose full cells form one table, each of the documented references to "the table
found going down and right from here" captures exactly that table, from any cell above and left of it. -/
theorem C87_array_table (R : Ranger Grid) (jsonLoads : Str → Option Doc) (g : Grid) (m : Mat) (r1 c1 r2 c2 : Nat)
    (hfetch : R.fetch none none (some g) = .ok g) (hm : g.states = .ok m) (h : OneTable m r1 c1 r2 c2)
    (a : A1) (i j : Nat) (ha : a.Is i j) (hi : i ≤ r1) (hj : j ≤ c1) (ref : Str) (href : TableRef a.text ref) :
    ∃ l, R.doLasso arrayApi jsonLoads ('#' :: ref) { sheet := some g } = .ok (.lasso l) ∧
      l.st = some ⟨r1, c1⟩ ∧ l.nd = some ⟨r2, c2⟩ ∧ IsBlock g.val r1 c1 r2 c2 l.values := by
  have hne : ¬ (g.rows = 0 ∨ g.cols = 0) := by
    intro e; simp [Grid.states, e] at hm
  have hdim : m.rows = g.rows ∧ m.cols = g.cols := by
    rw [Grid.states, if_neg hne] at hm; cases hm; exact ⟨rfl, rfl⟩
  obtain ⟨i', j', e, h1, h2, -⟩ := (full_iff h ⟨r2, c2⟩).2 (by have := h.1; have := h.2.1; simp only; omega)
  simp only [Coords.mk.injEq] at e
  obtain ⟨t, ht, hl, hrow, hent⟩ := C39_array_rect g r1 c1 r2 c2 h.1 (by omega) h.2.1 (by omega)
  obtain ⟨l, e0, e1, e2, e3⟩ := table_lasso R arrayApi jsonLoads g m (marginCoords m).1 (marginCoords m).2 hfetch hm
    (by simp [arrayApi, hm, getMargins]) (C38_lower_margin_ok m (by omega) (by omega)) r1 c1 r2 c2 h a i j ha hi hj ref href _ ht
  exact ⟨l, e0, e1, e2, t, e3, hl, hrow, hent⟩

/-- C87. The same on a sheet of an Excel file, with the values of its cells. -/
theorem C87_xlrd_table (R : Ranger XlGrid) (jsonLoads : Str → Option Doc) (dateOf : Nat → Doc) (nan : Doc) (g : XlGrid)
    (r1 c1 r2 c2 : Nat) (hfetch : R.fetch none none (some g) = .ok g) (h : OneTable g.states r1 c1 r2 c2)
    (a : A1) (i j : Nat) (ha : a.Is i j) (hi : i ≤ r1) (hj : j ≤ c1) (ref : Str) (href : TableRef a.text ref) :
    ∃ l, R.doLasso (xlrdApi dateOf nan) jsonLoads ('#' :: ref) { sheet := some g } = .ok (.lasso l) ∧
      l.st = some ⟨r1, c1⟩ ∧ l.nd = some ⟨r2, c2⟩ ∧
      IsBlock (fun i j => parseCell dateOf nan (g.cell i j)) r1 c1 r2 c2 l.values := by
  obtain ⟨i', j', e, h1, h2, -⟩ := (full_iff h ⟨r2, c2⟩).2 (by have := h.1; have := h.2.1; simp only; omega)
  simp only [Coords.mk.injEq] at e
  simp only [XlGrid.states] at h1 h2
  have hdn : g.dnMargin = .ok ⟨(g.rows : Int) - 1, (g.cols : Int) - 1⟩ := by
    unfold XlGrid.dnMargin; rw [if_neg (by omega)]
  obtain ⟨t, ht, hl, hrow, hent⟩ := C39_xlrd_rect g dateOf nan r1 c1 r2 c2 h.1 h.2.1
  obtain ⟨l, e0, e1, e2, e3⟩ := table_lasso R (xlrdApi dateOf nan) jsonLoads g g.states _ _ hfetch rfl
    (by simp only [xlrdApi, hdn]; rfl) (C38_xlrd_margins g _ hdn).1 r1 c1 r2 c2 h a i j ha hi hj ref href _ ht
  refine ⟨l, e0, e1, e2, t, e3, hl, hrow, ?_⟩
  intro x y hx hy
  have := h.1; have := h.2.1
  rw [hent x y hx hy, if_pos (by omega)]

private def tableGrid : Grid := ⟨5, 4, fun i j => if 1 ≤ i ∧ i ≤ 3 ∧ 2 ≤ j then .int (10 * i + j) else .null⟩
private def tableRanger : Ranger Grid := ⟨fun _ _ s => match s with | some s => .ok s | none => .error .valueError, [], fun _ => none⟩

/-- The hypotheses of `C87_array_table` hold of a table in the middle of a sheet. -/
example : ∃ m, tableGrid.states = .ok m ∧ OneTable m 1 2 3 3 := by
  refine ⟨_, rfl, by decide, by decide, ?_⟩
  intro i j
  constructor
  · rintro ⟨i', j', e, h1, h2, h3⟩
    simp only [Coords.mk.injEq, Int.natCast_inj] at e
    obtain ⟨rfl, rfl⟩ := e
    simp only [tableGrid] at h1 h2 h3
    by_cases hc : 1 ≤ i ∧ i ≤ 3 ∧ 2 ≤ j
    · omega
    · rw [if_neg hc] at h3; simp at h3
  · intro h
    refine ⟨i, j, rfl, by simp only [tableGrid]; omega, by simp only [tableGrid]; omega, ?_⟩
    simp only [tableGrid]
    rw [if_pos (by omega)]

example : tableRanger.fetch none none (some tableGrid) = .ok tableGrid := rfl

example : A1.Is ⟨"B".toList, 1⟩ 0 1 := by unfold A1.Is; decide

example : TableRef "B1".toList "B1(dR):..(RD)".toList :=
  .ends "B1".toList "dR".toList "RD".toList (by decide) (by decide)

example : TableRef "B1".toList "B1(DR):..:LuRD".toList :=
  .grown "B1".toList "DR".toList "LuRD".toList (by decide) (by decide) (by decide) (by decide)

/-! C86: plain cells and ranges of Excel files. -/

private theorem plain_lasso {S : Type} (R : Ranger S) (A : SheetApi S) (jsonLoads : Str → Option Doc) (s : S) (m : Mat) (up dn : Coords)
    (hfetch : R.fetch none none (some s) = .ok s) (hstates : A.states s = .ok m) (hmargins : A.margins s = .ok (up, dn))
    (a : A1) (i j : Nat) (ha : a.Is i j) :
    (∀ v, A.readRect s ⟨i, j⟩ none = .ok v →
      ∃ l, R.doLasso A jsonLoads ('#' :: a.text) { sheet := some s } = .ok (.lasso l) ∧ l.st = some ⟨i, j⟩ ∧ l.nd = none ∧ l.values = v.toDoc) ∧
    (∀ (b : A1) (i' j' : Nat), b.Is i' j' → ∀ v, A.readRect s ⟨(min i i' : Nat), (min j j' : Nat)⟩ (some ⟨(max i i' : Nat), (max j j' : Nat)⟩) = .ok v →
      ∃ l, R.doLasso A jsonLoads ('#' :: (a.text ++ ":".toList ++ b.text)) { sheet := some s } = .ok (.lasso l) ∧
        l.st = some ⟨(min i i' : Nat), (min j j' : Nat)⟩ ∧ l.nd = some ⟨(max i i' : Nat), (max j j' : Nat)⟩ ∧ l.values = v.toDoc) := by
  have hq : ∀ s' : Str, (∀ c ∈ s', c ≠ '“' ∧ c ≠ '”') → NoCurly ([] ++ s') := by
    intro s' hs'
    exact ⟨fun e => (hs' _ e).1 rfl, fun e => (hs' _ e).2 rfl⟩
  have htc : ∀ {a : A1} {i j : Nat}, a.Is i j → ∀ c ∈ a.text, c ≠ '“' ∧ c ≠ '”' := by
    intro a i j ha c hc
    have := text_chars ha c hc
    constructor <;> (rintro rfl; revert this; decide)
  have hne : a.text ≠ [] := by
    intro e
    have h1 : natStr a.row = [] := (List.append_eq_nil_iff.1 e).2
    have h2 := natStr_ne_nil a.row
    exact h2 h1
  constructor
  · intro v hv
    let rt : RefText := ⟨[], none, some ⟨.a1 a.letters (natStr a.row), none⟩, none, none⟩
    have htext : a.text = rt.text := by
      simp [rt, RefText.text, sheetText, optEdgeText, rangeText, expText, filtText, EdgeText.text, CellText.text, movText, A1.text]
    have hok : rt.Ok := ⟨by simp [Spaces, rt], trivial, (by intro e he; cases he; exact ⟨(cell_ok ha false).1, trivial⟩),
      (by intro e ex he; cases he), (by intro nd ex he; cases he), trivial, by simp [rt]⟩
    have hr : resolveCaptureRect m up dn rt.first rt.second [] none = .ok (⟨i, j⟩, none) := by
      have hl := cell_resolves ha up dn none
      simp only [rt, RefText.first, RefText.second, EdgeText.meant, CellText.row, CellText.col, resolveCaptureRect, resolveSt, hl, ne_eq, not_true_eq_false, if_false,
        Option.map_none]
    obtain ⟨l, e, -, e1, e2, e3⟩ := (C86_captures R A jsonLoads [] rt [] (some s) none s m up dn (by simp)
      (hq _ (by rw [← htext]; exact htc ha)) hok rfl (by rw [← htext]; exact hne) (by simp [RefText.Expands, rt]) hfetch hstates hmargins).1
      _ _ v hr hv
    rw [htext]
    exact ⟨l, e, e1, e2, e3⟩
  · intro b i' j' hb v hv
    let rt : RefText := ⟨[], none, some ⟨.a1 a.letters (natStr a.row), none⟩, some (some ⟨.a1 b.letters (natStr b.row), none⟩, none), none⟩
    have htext : a.text ++ ":".toList ++ b.text = rt.text := by
      simp [rt, RefText.text, sheetText, optEdgeText, rangeText, expText, filtText, EdgeText.text, CellText.text, movText, A1.text]
    have hok : rt.Ok := ⟨by simp [Spaces, rt], trivial, (by intro e he; cases he; exact ⟨(cell_ok ha false).1, trivial⟩),
      (by intro e ex he; cases he; exact ⟨(cell_ok hb true).1, trivial⟩), (by intro nd ex he; cases he; trivial), trivial, by simp [rt]⟩
    have hr : resolveCaptureRect m up dn rt.first rt.second [] none = .ok (⟨(min i i' : Nat), (min j j' : Nat)⟩, some ⟨(max i i' : Nat), (max j j' : Nat)⟩) := by
      have hl := cell_resolves ha up dn none
      have hl' := cell_resolves hb up dn (some ⟨i, j⟩)
      simp only [rt, RefText.first, RefText.second, EdgeText.meant, CellText.row, CellText.col, resolveCaptureRect, resolveSt, resolveNd, hl, hl', ne_eq, not_true_eq_false,
        if_false, Option.map_none, sortRect]
      simp only [Except.ok.injEq, Prod.mk.injEq, Coords.mk.injEq, Option.some.injEq]
      omega
    obtain ⟨l, e, -, e1, e2, e3⟩ := (C86_captures R A jsonLoads [] rt [] (some s) none s m up dn (by simp)
      (hq _ (by
        rw [← htext]
        intro c hc
        rcases List.mem_append.1 hc with hc | hc
        · rcases List.mem_append.1 hc with hc | hc
          · exact htc ha c hc
          · simp at hc; subst hc; decide
        · exact htc hb c hc)) hok rfl (by rw [← htext]; simp) (by simp [RefText.Expands, rt]) hfetch hstates hmargins).1
      _ _ v hr hv
    rw [htext]
    exact ⟨l, e, e1, e2, e3⟩

/-- C86. On a sheet of an Excel file a cell gives what is written there, and two cells, in any order, all values
between them (see C65 for array sheets). -/
theorem C86_xlrd_plain (R : Ranger XlGrid) (jsonLoads : Str → Option Doc) (dateOf : Nat → Doc) (nan : Doc) (g : XlGrid)
    (hfetch : R.fetch none none (some g) = .ok g) (a : A1) (i j : Nat) (ha : a.Is i j) (hi : i < g.rows) (hj : j < g.cols) :
    (∃ l, R.doLasso (xlrdApi dateOf nan) jsonLoads ('#' :: a.text) { sheet := some g } = .ok (.lasso l) ∧
      ReadAs dateOf nan (g.cell i j) l.values) ∧
    (∀ (b : A1) (i' j' : Nat), b.Is i' j' → i' < g.rows → j' < g.cols →
      ∃ l, R.doLasso (xlrdApi dateOf nan) jsonLoads ('#' :: (a.text ++ ":".toList ++ b.text)) { sheet := some g } = .ok (.lasso l) ∧
        IsBlock (fun i j => parseCell dateOf nan (g.cell i j)) (min i i') (min j j') (max i i') (max j j') l.values) := by
  have hdn : g.dnMargin = .ok ⟨(g.rows : Int) - 1, (g.cols : Int) - 1⟩ := by
    unfold XlGrid.dnMargin; rw [if_neg (by omega)]
  obtain ⟨h1, h2⟩ := plain_lasso R (xlrdApi dateOf nan) jsonLoads g g.states (marginCoords g.states).1
    ⟨(g.rows : Int) - 1, (g.cols : Int) - 1⟩ hfetch rfl (by simp [xlrdApi, hdn, getMargins]) a i j ha
  constructor
  · obtain ⟨v, hv, hr⟩ := (C39_xlrd_cell g dateOf nan i j).1 hi hj
    obtain ⟨l, e, -, -, e3⟩ := h1 _ hv
    exact ⟨l, e, by rw [e3]; exact hr⟩
  · intro b i' j' hb hi' hj'
    obtain ⟨t, ht, hl, hrow, hent⟩ := C39_xlrd_rect g dateOf nan (min i i') (min j j') (max i i') (max j j') (by omega) (by omega)
    obtain ⟨l, e, -, -, e3⟩ := h2 b i' j' hb (.table t) ht
    refine ⟨l, e, t, e3, hl, hrow, ?_⟩
    intro x y hx hy
    rw [hent x y hx hy, if_pos (by omega)]

example : A1.Is ⟨"b".toList, 3⟩ 2 1 ∧ A1.text ⟨"b".toList, 3⟩ = "b3".toList := by unfold A1.Is; decide

/-! C88: the whole sheet. -/

private theorem corner_resolves (up dn : Coords) (base : Option Coords) :
    resolveCell ⟨['^'], ['^']⟩ up dn base = .ok up ∧ resolveCell ⟨['_'], ['_']⟩ up dn base = .ok dn := by
  constructor <;> simp [resolveCell, resolveCoord]

private theorem all_lasso {S : Type} (R : Ranger S) (A : SheetApi S) (jsonLoads : Str → Option Doc) (s : S) (m : Mat)
    (r1 c1 r2 c2 : Nat) (h1 : r1 ≤ r2) (h2 : c1 ≤ c2)
    (hfetch : R.fetch none none (some s) = .ok s) (hstates : A.states s = .ok m) (hmargins : A.margins s = .ok (⟨r1, c1⟩, ⟨r2, c2⟩))
    (v : Captured) (hv : A.readRect s ⟨r1, c1⟩ (some ⟨r2, c2⟩) = .ok v) :
    ∃ l, R.doLasso A jsonLoads "#:".toList { sheet := some s } = .ok (.lasso l) ∧ l.st = some ⟨r1, c1⟩ ∧ l.nd = some ⟨r2, c2⟩ ∧
      l.values = v.toDoc := by
  let rt : RefText := ⟨[], none, none, some (none, none), none⟩
  have hok : rt.Ok := ⟨by simp [Spaces, rt], trivial, (by intro e he; cases he), (by intro e ex he; cases he),
    by intro nd ex he; cases he; trivial, trivial, by simp [rt]⟩
  have hr : resolveCaptureRect m ⟨r1, c1⟩ ⟨r2, c2⟩ rt.first rt.second [] none = .ok (⟨r1, c1⟩, some ⟨r2, c2⟩) := by
    have := corner_resolves ⟨r1, c1⟩ ⟨r2, c2⟩
    simp only [rt, RefText.first, RefText.second, cornerEdge, resolveCaptureRect, resolveSt, resolveNd, (this _).1, (this _).2, sortRect,
      ne_eq, not_true_eq_false, if_false, Except.ok.injEq, Prod.mk.injEq, Coords.mk.injEq, Option.some.injEq]
    omega
  obtain ⟨l, e, -, e1, e2, e3⟩ := (C86_captures R A jsonLoads [] rt [] (some s) none s m ⟨r1, c1⟩ ⟨r2, c2⟩ (by simp)
    (by unfold NoCurly; decide) hok rfl (by decide) (by simp [RefText.Expands, rt]) hfetch hstates hmargins).1 _ _ v hr hv
  exact ⟨l, e, e1, e2, e3⟩

/-- C88. `#:` on an array sheet captures the smallest rectangle around its full cells. -/
theorem C88_array_all (R : Ranger Grid) (jsonLoads : Str → Option Doc) (g : Grid) (m : Mat) (r1 c1 r2 c2 : Nat)
    (hfetch : R.fetch none none (some g) = .ok g) (hm : g.states = .ok m) (h : BoundingBox m r1 c1 r2 c2) :
    ∃ l, R.doLasso arrayApi jsonLoads "#:".toList { sheet := some g } = .ok (.lasso l) ∧
      l.st = some ⟨r1, c1⟩ ∧ l.nd = some ⟨r2, c2⟩ ∧ IsBlock g.val r1 c1 r2 c2 l.values := by
  obtain ⟨hin, ⟨j1, f1⟩, ⟨j2, f2⟩, ⟨i1, f3⟩, ⟨i2, f4⟩⟩ := h
  have b1 := C38_margins_bound m _ f1
  have b2 := C38_margins_bound m _ f2
  have b3 := C38_margins_bound m _ f3
  have b4 := C38_margins_bound m _ f4
  obtain ⟨⟨p1, q1, a1⟩, ⟨p2, q2, a2⟩, ⟨p3, q3, a3⟩, ⟨p4, q4, a4⟩⟩ := C38_margins_attained m ⟨_, f1⟩
  obtain ⟨x1, y1, rfl⟩ := fullAt_nat q1
  obtain ⟨x2, y2, rfl⟩ := fullAt_nat q2
  obtain ⟨x3, y3, rfl⟩ := fullAt_nat q3
  obtain ⟨x4, y4, rfl⟩ := fullAt_nat q4
  have d1 := hin _ _ q1
  have d2 := hin _ _ q2
  have d3 := hin _ _ q3
  have d4 := hin _ _ q4
  have hmg : marginCoords m = (⟨r1, c1⟩, ⟨r2, c2⟩) := by
    simp only at b1 b2 b3 b4 a1 a2 a3 a4
    refine Prod.ext ?_ ?_
    · cases h : (marginCoords m).1; rw [h] at b1 b2 b3 b4 a1 a2; simp only [Coords.mk.injEq] at *; omega
    · cases h : (marginCoords m).2; rw [h] at b1 b2 b3 b4 a3 a4; simp only [Coords.mk.injEq] at *; omega
  have hne : ¬ (g.rows = 0 ∨ g.cols = 0) := by
    intro e; simp [Grid.states, e] at hm
  have hdim : m.rows = g.rows ∧ m.cols = g.cols := by
    rw [Grid.states, if_neg hne] at hm; cases hm; exact ⟨rfl, rfl⟩
  have w2 := fullAt_iff.1 f2
  have w4 := fullAt_iff.1 f4
  have o1 := hin _ _ f2
  have o2 := hin _ _ f4
  simp only at w2 w4
  obtain ⟨t, ht, hl, hrow, hent⟩ := C39_array_rect g r1 c1 r2 c2 o1.1 (by omega) o2.2.2.1 (by omega)
  obtain ⟨l, e0, e1, e2, e3⟩ := all_lasso R arrayApi jsonLoads g m r1 c1 r2 c2 o1.1 o2.2.2.1 hfetch hm
    (by simp [arrayApi, hm, getMargins, hmg]) _ ht
  exact ⟨l, e0, e1, e2, t, e3, hl, hrow, hent⟩

/-- C88 (partial: the last row and column are those of the sheet of the file, which may be blank, instead of
the last ones with a full cell). `#:` on a sheet of an Excel file captures from the first row and the first
column with a full cell to the end of the sheet; so nothing full is missed. -/
theorem C88_xlrd_all_partial (R : Ranger XlGrid) (jsonLoads : Str → Option Doc) (dateOf : Nat → Doc) (nan : Doc) (g : XlGrid)
    (r1 c1 r2 c2 : Nat) (hfetch : R.fetch none none (some g) = .ok g) (h : BoundingBox g.states r1 c1 r2 c2) :
    ∃ l, R.doLasso (xlrdApi dateOf nan) jsonLoads "#:".toList { sheet := some g } = .ok (.lasso l) ∧
      l.st = some ⟨r1, c1⟩ ∧ l.nd = some ⟨(g.rows - 1 : Nat), (g.cols - 1 : Nat)⟩ ∧ r2 ≤ g.rows - 1 ∧ c2 ≤ g.cols - 1 ∧
      IsBlock (fun i j => parseCell dateOf nan (g.cell i j)) r1 c1 (g.rows - 1) (g.cols - 1) l.values := by
  obtain ⟨hin, ⟨j1, f1⟩, ⟨j2, f2⟩, ⟨i1, f3⟩, ⟨i2, f4⟩⟩ := h
  have b1 := C38_margins_bound g.states _ f1
  have b3 := C38_margins_bound g.states _ f3
  obtain ⟨⟨p1, q1, a1⟩, ⟨p2, q2, a2⟩, -, -⟩ := C38_margins_attained g.states ⟨_, f1⟩
  obtain ⟨x1, y1, rfl⟩ := fullAt_nat q1
  obtain ⟨x2, y2, rfl⟩ := fullAt_nat q2
  have d1 := hin _ _ q1
  have d2 := hin _ _ q2
  have hmg : (marginCoords g.states).1 = ⟨r1, c1⟩ := by
    simp only at b1 b3 a1 a2
    cases h : (marginCoords g.states).1; rw [h] at b1 b3 a1 a2; simp only [Coords.mk.injEq] at *; omega
  have w2 := fullAt_iff.1 f2
  have w4 := fullAt_iff.1 f4
  have o1 := hin _ _ f2
  have o2 := hin _ _ f4
  simp only [XlGrid.states] at w2 w4
  have hdn : g.dnMargin = .ok ⟨(g.rows - 1 : Nat), (g.cols - 1 : Nat)⟩ := by
    unfold XlGrid.dnMargin; rw [if_neg (by omega)]
    simp only [Except.ok.injEq, Coords.mk.injEq]; omega
  obtain ⟨t, ht, hl, hrow, hent⟩ := C39_xlrd_rect g dateOf nan r1 c1 (g.rows - 1) (g.cols - 1) (by omega) (by omega)
  obtain ⟨l, e0, e1, e2, e3⟩ := all_lasso R (xlrdApi dateOf nan) jsonLoads g g.states r1 c1 (g.rows - 1) (g.cols - 1) (by omega) (by omega) hfetch rfl
    (by simp only [xlrdApi, hdn, getMargins, hmg, Option.getD_none, Option.getD_some]) _ ht
  refine ⟨l, e0, e1, e2, by omega, by omega, t, e3, hl, hrow, ?_⟩
  intro x y hx hy
  rw [hent x y hx hy, if_pos (by omega)]

private def blankTail : XlGrid := ⟨3, 2, fun i j => if i = 0 ∧ j = 0 then .text "x".toList else .blank⟩
private def xlRanger : Ranger XlGrid := ⟨fun _ _ s => match s with | some s => .ok s | none => .error .valueError, [], fun _ => none⟩

private theorem blankTail_box : BoundingBox blankTail.states 0 0 0 0 := by
  have key : FullAt blankTail.states ⟨(0 : Nat), (0 : Nat)⟩ := ⟨0, 0, rfl, by decide, by decide, rfl⟩
  refine ⟨?_, ⟨0, key⟩, ⟨0, key⟩, ⟨0, key⟩, ⟨0, key⟩⟩
  rintro i j ⟨i', j', e, h1, h2, h3⟩
  simp only [Coords.mk.injEq, Int.natCast_inj] at e
  obtain ⟨rfl, rfl⟩ := e
  simp only [blankTail, XlGrid.states] at h3
  by_cases hc : i = 0 ∧ j = 0
  · omega
  · rw [if_neg hc] at h3; simp [XlCell.full] at h3

/-- C88 does not hold of Excel files: with blank (formatted, valueless) cells after the only full one, `#:`
also captures these. -/
theorem C88_xlrd_refuted : ∃ (R : Ranger XlGrid) (g : XlGrid) (r1 c1 r2 c2 : Nat), R.fetch none none (some g) = .ok g ∧
    BoundingBox g.states r1 c1 r2 c2 ∧
    ∀ (jsonLoads : Str → Option Doc) (dateOf : Nat → Doc) (nan : Doc),
      ∃ l, R.doLasso (xlrdApi dateOf nan) jsonLoads "#:".toList { sheet := some g } = .ok (.lasso l) ∧ l.nd ≠ some ⟨r2, c2⟩ := by
  refine ⟨xlRanger, blankTail, 0, 0, 0, 0, rfl, blankTail_box, ?_⟩
  intro jl dateOf nan
  obtain ⟨l, e, -, e2, -⟩ := C88_xlrd_all_partial xlRanger jl dateOf nan blankTail 0 0 0 0 rfl blankTail_box
  exact ⟨l, e, by rw [e2]; decide⟩

end Props
