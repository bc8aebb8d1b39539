import Verif.Props.Parse
import Verif.Props.Sheet
import Verif.Props.Coords
import Verif.Spec.Lasso
import Verif.Props.Filters
set_option linter.unusedSimpArgs false
/-
C65 from the text of a reference to values.
-/
namespace Props
open Py Model Spec Lemmas

/-- A cell as users write it: column letters, in any case, and the row number. -/
structure A1 where
  letters : Str
  row : Nat

/-- The cell of column `col` and row `row`, both counted from zero. -/
def A1.Is (a : A1) (row col : Nat) : Prop :=
  a.row = row + 1 ∧ a.letters ≠ [] ∧ (∀ c ∈ a.letters, isLetter c = true) ∧ lettersNum a.letters = col + 1

def A1.text (a : A1) : Str := a.letters ++ natStr a.row

private theorem letters_no {s : Str} (h : ∀ c ∈ s, isLetter c = true) (x : Char) (hx : isLetter x = false) : x ∉ s := by
  intro hm; rw [h x hm] at hx; simp at hx

private theorem natStr_head (n : Nat) (h : 0 < n) : (natStr n).head? ≠ some '0' := by
  unfold natStr
  induction n using Nat.strongRecOn with
  | _ n ih =>
    by_cases hn : n < 10
    · rw [Nat.toDigits_of_lt_base hn]
      have : n = 1 ∨ n = 2 ∨ n = 3 ∨ n = 4 ∨ n = 5 ∨ n = 6 ∨ n = 7 ∨ n = 8 ∨ n = 9 := by omega
      rcases this with rfl | rfl | rfl | rfl | rfl | rfl | rfl | rfl | rfl <;> decide
    · rw [Nat.toDigits_of_base_le (by omega) (by omega)]
      have := ih (n / 10) (by omega) (by omega)
      cases hs : Nat.toDigits 10 (n / 10) with
      | nil => exact absurd hs Nat.toDigits_ne_nil
      | cons d t => rw [hs] at this; simpa using this

private theorem isNum_natStr (n : Nat) : IsNum (natStr (n + 1)) := by
  have hd := natStr_isDigit (n + 1)
  cases hs : natStr (n + 1) with
  | nil => exact absurd hs (natStr_ne_nil _)
  | cons d t =>
    refine ⟨d, t, rfl, hd d (by rw [hs]; simp), ?_, fun x hx => hd x (by rw [hs]; simp [hx])⟩
    rintro rfl
    exact natStr_head (n + 1) (by omega) (by rw [hs]; rfl)

theorem cell_ok {a : A1} {row col : Nat} (h : a.Is row col) (dot : Bool) :
    EdgeText.Ok dot ⟨.a1 a.letters (natStr a.row), none⟩ :=
  ⟨⟨.inl ⟨h.2.1, h.2.2.1⟩, .inl (by rw [h.1]; exact isNum_natStr row)⟩, trivial⟩

theorem cell_resolves {a : A1} {row col : Nat} (h : a.Is row col) (up dn : Coords) (base : Option Coords) :
    resolveCell ⟨upper (natStr a.row), upper a.letters⟩ up dn base = .ok ⟨row, col⟩ := by
  obtain ⟨h1, h2, h3, h4⟩ := h
  have hr : upper (natStr a.row) = natStr (row + 1) := by rw [h1, upper_digits (natStr_isDigit _)]
  have hc : upper a.letters = colName col := by
    have := (colName_lettersNum a.letters h2 h3).2
    rw [h4] at this
    rw [← this]; rfl
  obtain ⟨cell, hcell, hres⟩ := C31_cell_round_trip row col up dn base
  have : cell = ⟨natStr (row + 1), colName col⟩ := by
    have h1 : ¬ ((row : Int) + 1 < 0) := by omega
    have h2 : ((row : Int) + 1).natAbs = row + 1 := by omega
    simp [coords2Cell, intStr, h1, h2, upper_digits (natStr_isDigit (row + 1)), colName_upper] at hcell
    exact hcell.symm
  rw [hr, hc, ← this]; exact hres

theorem text_chars {a : A1} {row col : Nat} (h : a.Is row col) :
    ∀ x ∈ a.text, isLetter x = true ∨ x.isDigit = true := by
  intro x hx
  rcases List.mem_append.1 hx with hx | hx
  · exact .inl (h.2.2.1 x hx)
  · exact .inr (natStr_isDigit _ x hx)

private theorem unsmart_id {s : Str} (h : ∀ x ∈ s, x ≠ '“' ∧ x ≠ '”') : unsmart s = s := by
  unfold unsmart
  induction s with
  | nil => rfl
  | cons x s ih =>
    have := h x (by simp)
    simp only [List.map_cons, this.1, this.2, or_self, if_false]
    rw [ih (fun y hy => h y (by simp [hy]))]

private theorem smart_not (x : Char) (h : isLetter x = true ∨ x.isDigit = true ∨ x = ':' ∨ x = '#') : x ≠ '“' ∧ x ≠ '”' := by
  constructor <;> (rintro rfl; revert h; decide)

private theorem parse_hash (jl : Str → Option Doc) (f : Str) (fr : Fragment) (hne : f ≠ [])
    (hs : ∀ x ∈ f, x ≠ '“' ∧ x ≠ '”') (hp : parseFragment jl f = .ok fr) :
    parseXlref jl ('#' :: f) = .ok ⟨none, fr, '#' :: f, none⟩ := by
  have hu : unsmart ('#' :: f) = '#' :: f := by
    apply unsmart_id
    intro x hx
    rcases List.mem_cons.1 hx with rfl | hx
    · decide
    · exact hs x hx
  have : parseXlref1 jl ('#' :: f) = .ok ⟨none, fr, '#' :: f, none⟩ := by
    unfold parseXlref1
    rw [hu]
    simp [urldefrag, List.span, List.span.loop, hne, hp]
  unfold parseXlref
  rw [this]

theorem states_eq {g : Grid} (h : ¬ (g.rows = 0 ∨ g.cols = 0)) : ∃ m, g.states = .ok m := by
  unfold Grid.states; rw [if_neg h]; exact ⟨_, rfl⟩

/-- C65. Lassoing `#<cell>:<cell>` on an array sheet, for any two cells of it in any order, captures
exactly the block between them. -/
theorem C65_block (R : Ranger Grid) (jsonLoads : Str → Option Doc) (g : Grid)
    (hfetch : R.fetch none none (some g) = .ok g) (a b : A1) (r1 c1 r2 c2 : Nat)
    (ha : a.Is r1 c1) (hb : b.Is r2 c2) (h1 : r1 < g.rows) (h2 : c1 < g.cols) (h3 : r2 < g.rows) (h4 : c2 < g.cols) :
    ∃ (l : Lasso Grid) (t : List (List Doc)), R.doLasso arrayApi jsonLoads ("#".toList ++ a.text ++ ":".toList ++ b.text) { sheet := some g } =
        .ok (.lasso l) ∧ l.values = .list (t.map .list) ∧
      t.length = max r1 r2 - min r1 r2 + 1 ∧ (∀ row ∈ t, row.length = max c1 c2 - min c1 c2 + 1) ∧
      ∀ i j, i ≤ max r1 r2 - min r1 r2 → j ≤ max c1 c2 - min c1 c2 →
        (t[i]?.bind (·[j]?)) = some (g.val (min r1 r2 + i) (min c1 c2 + j)) := by
  have hne : ¬ (g.rows = 0 ∨ g.cols = 0) := by omega
  obtain ⟨m, hm⟩ := states_eq hne
  have htext : "#".toList ++ a.text ++ ":".toList ++ b.text = '#' :: (a.text ++ ':' :: b.text) := by simp
  have hfrag := C41_round_trip jsonLoads
    ⟨[], none, some ⟨.a1 a.letters (natStr a.row), none⟩, some (some ⟨.a1 b.letters (natStr b.row), none⟩, none), none⟩
    ⟨by simp [Spaces], trivial, by intro e he; cases he; exact cell_ok ha false,
      by intro e ex he; cases he; exact cell_ok hb true, by intro nd ex he; cases he; trivial, trivial, by simp⟩ rfl
  have hrt : RefText.text ⟨[], none, some ⟨.a1 a.letters (natStr a.row), none⟩,
      some (some ⟨.a1 b.letters (natStr b.row), none⟩, none), none⟩ = a.text ++ ':' :: b.text := by
    simp [RefText.text, sheetText, optEdgeText, rangeText, expText, filtText, EdgeText.text, CellText.text, movText, A1.text]
  rw [hrt] at hfrag
  have hparse := parse_hash jsonLoads (a.text ++ ':' :: b.text) _ (by simp) (by
    intro x hx
    apply smart_not
    rcases List.mem_append.1 hx with hx | hx
    · rcases text_chars ha x hx with h | h <;> simp [h]
    · rcases List.mem_cons.1 hx with rfl | hx
      · simp
      · rcases text_chars hb x hx with h | h <;> simp [h]) hfrag
  obtain ⟨t, ht, hl, hrow, hent⟩ := C39_array_rect g (min r1 r2) (min c1 c2) (max r1 r2) (max c1 c2)
    (by omega) (by omega) (by omega) (by omega)
  refine ⟨
        ({ xlRef := some ('#' :: (a.text ++ ':' :: b.text)), stEdge := some (edgeOf ⟨.a1 a.letters (natStr a.row), none⟩),
           ndEdge := some (edgeOf ⟨.a1 b.letters (natStr b.row), none⟩), sheet := some g, opts := some [R.baseOpts], st := some ⟨(min r1 r2 : Nat), (min c1 c2 : Nat)⟩,
           nd := some ⟨(max r1 r2 : Nat), (max c1 c2 : Nat)⟩, values := .list (t.map .list) } : Lasso Grid), t, ?_, rfl, hl, hrow, hent⟩
  · rw [htext]
    unfold Ranger.doLasso Ranger.parseMerge
    rw [hparse]
    simp only [Option.isSome_none, Bool.false_eq_true, if_false, overlay, RefText.sheetName, edgesOf, hfetch]
    have hres : resolveRect arrayApi
        ({ xlRef := some ('#' :: (a.text ++ ':' :: b.text)), stEdge := some (edgeOf ⟨.a1 a.letters (natStr a.row), none⟩),
           ndEdge := some (edgeOf ⟨.a1 b.letters (natStr b.row), none⟩), sheet := some g, opts := some [R.baseOpts] } : Lasso Grid) g =
        .ok (some (⟨(min r1 r2 : Nat), (min c1 c2 : Nat)⟩, some ⟨(max r1 r2 : Nat), (max c1 c2 : Nat)⟩)) := by
      simp only [resolveRect, arrayApi, hm, resolveText, edgeOf, CellText.row, CellText.col, TEdge.toEdge,
        Option.map_none, Option.bind_none, Option.map_some, Option.bind_some, id, resolveCaptureRect, resolveSt,
        resolveNd, cell_resolves ha, cell_resolves hb, sortRect, ne_eq, not_true_eq_false, if_false]
      have e1 : min (r1 : Int) r2 = (min r1 r2 : Nat) := by omega
      have e2 : min (c1 : Int) c2 = (min c1 c2 : Nat) := by omega
      have e3 : max (r1 : Int) r2 = (max r1 r2 : Nat) := by omega
      have e4 : max (c1 : Int) c2 = (max c1 c2 : Nat) := by omega
      simp only [e1, e2, e3, e4]
    simp only [hres, Option.bind_some, Option.map_none]
    simp only [arrayApi, ht, Ranger.runFilters]
    rfl

/-- C65. Lassoing one cell of an array sheet gives its value. -/
theorem C65_cell (R : Ranger Grid) (jsonLoads : Str → Option Doc) (g : Grid)
    (hfetch : R.fetch none none (some g) = .ok g) (a : A1) (r c : Nat) (ha : a.Is r c)
    (h1 : r < g.rows) (h2 : c < g.cols) :
    ∃ l, R.doLasso arrayApi jsonLoads ("#".toList ++ a.text) { sheet := some g } = .ok (.lasso l) ∧
      l.values = g.val r c ∧ l.st = some ⟨r, c⟩ ∧ l.nd = none := by
  have hne : ¬ (g.rows = 0 ∨ g.cols = 0) := by omega
  obtain ⟨m, hm⟩ := states_eq hne
  have htext : "#".toList ++ a.text = '#' :: a.text := by simp
  have hfrag := C41_round_trip jsonLoads
    ⟨[], none, some ⟨.a1 a.letters (natStr a.row), none⟩, none, none⟩
    ⟨by simp [Spaces], trivial, by intro e he; cases he; exact cell_ok ha false,
      by intro e ex he; simp at he, by intro nd ex he; simp at he, trivial, by simp⟩ rfl
  have hrt : RefText.text ⟨[], none, some ⟨.a1 a.letters (natStr a.row), none⟩, none, none⟩ = a.text := by
    simp [RefText.text, sheetText, optEdgeText, rangeText, expText, filtText, EdgeText.text, CellText.text, movText, A1.text]
  rw [hrt] at hfrag
  have hparse := parse_hash jsonLoads a.text _ (by simp [A1.text, ha.2.1]) (by
    intro x hx
    apply smart_not
    rcases text_chars ha x hx with h | h <;> simp [h]) hfrag
  have hread := (C39_array_cell g r c).1 h1 h2
  refine ⟨
        ({ xlRef := some ('#' :: a.text), stEdge := some (edgeOf ⟨.a1 a.letters (natStr a.row), none⟩),
           sheet := some g, opts := some [R.baseOpts], st := some ⟨r, c⟩, values := g.val r c } : Lasso Grid), ?_, rfl, rfl, rfl⟩
  · rw [htext]
    unfold Ranger.doLasso Ranger.parseMerge
    rw [hparse]
    simp only [Option.isSome_none, Bool.false_eq_true, if_false, overlay, RefText.sheetName, edgesOf, hfetch]
    have hres : resolveRect arrayApi
        ({ xlRef := some ('#' :: a.text), stEdge := some (edgeOf ⟨.a1 a.letters (natStr a.row), none⟩),
           sheet := some g, opts := some [R.baseOpts] } : Lasso Grid) g =
        .ok (some (⟨r, c⟩, none)) := by
      simp only [resolveRect, arrayApi, hm, resolveText, edgeOf, CellText.row, CellText.col, TEdge.toEdge,
        Option.map_none, Option.bind_none, Option.map_some, Option.bind_some, id, resolveCaptureRect, resolveSt,
        cell_resolves ha, ne_eq, not_true_eq_false, if_false]
    simp only [hres, Option.bind_none, Option.map_none]
    simp only [arrayApi, hread, Ranger.runFilters]
    rfl

example : A1.Is ⟨"aB".toList, 12⟩ 11 27 := by
  refine ⟨rfl, by decide, by decide, by decide⟩

/-- A ranger that serves the sheet it is given. -/
def gridRanger : Ranger Grid where
  fetch _ _ s := match s with
    | some s => .ok s
    | none => .error .valueError
  baseOpts := []
  filters _ := none

example : ∃ l, gridRanger.doLasso arrayApi (fun _ => none) "#b3:A2".toList
    { sheet := some ⟨4, 3, fun i j => .int (10 * i + j)⟩ } = .ok (.lasso l) ∧
    l.values = .list [.list [.int 10, .int 11], .list [.int 20, .int 21]] := ⟨_, by rfl, by rfl⟩

end Props
