import Verif.Spec.Capture
import Verif.Lemmas.Int
import Verif.Lemmas.List
set_option linter.unusedSimpArgs false
namespace Model
open Py Spec

theorem fullAt_iff {m : Mat} {p : Coords} :
    FullAt m p ↔ 0 ≤ p.row ∧ p.row < m.rows ∧ 0 ≤ p.col ∧ p.col < m.cols ∧
      m.cell p.row.toNat p.col.toNat = true := by
  constructor
  · rintro ⟨i, j, rfl, hi, hj, h⟩
    exact ⟨by simp, by simp; omega, by simp, by simp; omega, by simpa using h⟩
  · rintro ⟨h1, h2, h3, h4, h5⟩
    refine ⟨p.row.toNat, p.col.toNat, ?_, by omega, by omega, h5⟩
    cases p; simp at *; omega

theorem fullAt_mk {m : Mat} {r c : Int} :
    FullAt m ⟨r, c⟩ ↔ 0 ≤ r ∧ r < m.rows ∧ 0 ≤ c ∧ c < m.cols ∧ m.cell r.toNat c.toNat = true :=
  fullAt_iff

theorem seqIndex_nonneg {n : Nat} {i : Int} (h : 0 ≤ i) :
    seqIndex n i = if i < n then some i.toNat else none := by
  unfold seqIndex
  rw [if_pos h]
  by_cases hi : i < n
  · rw [if_pos hi, if_pos (by omega)]
  · rw [if_neg hi, if_neg (by omega)]

theorem move_eq (c : Coords) (d : Dir) (k : Nat) : c.move d k = stepsFrom c d k := by
  cases d <;> simp [Coords.move, stepsFrom, Dir.vec, unit] <;> omega

theorem sliceBound_nonneg {n : Nat} {k : Int} (h : 0 ≤ k) : sliceBound n k = min k.toNat n := by
  unfold sliceBound; rw [if_neg (by omega)]

theorem rowVec_get (m : Mat) (i k : Nat) :
    (m.rowVec i)[k]? = if k < m.cols then some (m.cell i k) else none := by
  unfold Mat.rowVec
  rw [List.getElem?_map]
  by_cases h : k < m.cols
  · rw [List.getElem?_range h]; simp [h]
  · rw [List.getElem?_eq_none (by simp; omega)]; simp [h]

theorem colVec_get (m : Mat) (j k : Nat) :
    (m.colVec j)[k]? = if k < m.rows then some (m.cell k j) else none := by
  unfold Mat.colVec
  rw [List.getElem?_map]
  by_cases h : k < m.rows
  · rw [List.getElem?_range h]; simp [h]
  · rw [List.getElem?_eq_none (by simp; omega)]; simp [h]

theorem rowVec_length (m : Mat) (i : Nat) : (m.rowVec i).length = m.cols := by simp [Mat.rowVec]
theorem colVec_length (m : Mat) (j : Nat) : (m.colVec j).length = m.rows := by simp [Mat.colVec]

/-- Reversed prefix of a list. -/
theorem get_take_reverse {α} (l : List α) (n k : Nat) (hn : n ≤ l.length) :
    ((l.take n).reverse)[k]? = if k < n then l[n - 1 - k]? else none := by
  by_cases h : k < n
  · have hlt : k < (l.take n).length := by simp; omega
    rw [List.getElem?_reverse hlt, if_pos h]
    have e : (l.take n).length - 1 - k = n - 1 - k := by simp; omega
    rw [e, List.getElem?_take]
    rw [if_pos (by omega)]
  · rw [if_neg h, List.getElem?_eq_none (by simp; omega)]

/-- The line along direction `d` through `t` is outside the matrix. -/
def OffLine (m : Mat) (t : Coords) : Dir → Prop
  | .L | .R => (m.rows : Int) ≤ t.row
  | .U | .D => (m.cols : Int) ≤ t.col

theorem extractVec_none {m : Mat} {t : Coords} {d : Dir} (h1 : 0 ≤ t.row) (h2 : 0 ≤ t.col)
    (h : extractVec m t d = none) : OffLine m t d := by
  cases d <;> simp only [extractVec, Option.map_eq_none_iff, seqIndex_nonneg h1, seqIndex_nonneg h2] at h <;>
    split at h <;> simp [OffLine] at * <;> omega

theorem extractVec_on {m : Mat} {t : Coords} {d : Dir} {v : List Bool} (h1 : 0 ≤ t.row) (h2 : 0 ≤ t.col)
    (h : extractVec m t d = some v) : ¬ OffLine m t d := by
  cases d <;> simp only [extractVec, Option.map_eq_some_iff, seqIndex_nonneg h1, seqIndex_nonneg h2] at h <;>
    obtain ⟨i, hi, _⟩ := h <;> split at hi <;> simp [OffLine] at * <;> omega

theorem offLine_not_full {m : Mat} {t : Coords} {d : Dir} (h : OffLine m t d) (k : Nat) :
    ¬ FullAt m (stepsFrom t d k) := by
  rw [fullAt_iff]
  cases d <;> simp [stepsFrom, unit, OffLine] at * <;> omega

theorem extractVec_some {m : Mat} {t : Coords} {d : Dir} (h1 : 0 ≤ t.row) (h2 : 0 ≤ t.col)
    (hL : d = .L → t.col < m.cols) (hU : d = .U → t.row < m.rows) {v : List Bool}
    (h : extractVec m t d = some v) (k : Nat) :
    v[k]? = some true ↔ FullAt m (stepsFrom t d k) := by
  rw [fullAt_iff]
  cases d with
  | L =>
    have hc := hL rfl
    simp only [extractVec, Option.map_eq_some_iff, seqIndex_nonneg h1] at h
    obtain ⟨i, hi, rfl⟩ := h
    split at hi
    · simp at hi; subst hi
      rw [sliceBound_nonneg (by omega), get_take_reverse _ _ _ (by rw [rowVec_length]; omega), rowVec_get]
      have e : min (t.col + 1).toNat m.cols = t.col.toNat + 1 := by omega
      rw [e]
      simp only [stepsFrom, unit]
      by_cases hk : k < t.col.toNat + 1
      · have e1 : (t.col + k * (-1)).toNat = t.col.toNat + 1 - 1 - k := by omega
        have e2 : (t.row + k * 0).toNat = t.row.toNat := by omega
        rw [if_pos hk, if_pos (by omega), e1, e2]
        constructor
        · intro h; exact ⟨by omega, by omega, by omega, by omega, by simpa using h⟩
        · rintro ⟨_, _, _, _, h⟩; simpa using h
      · rw [if_neg hk]
        simp; omega
    · simp at hi
  | U =>
    have hc := hU rfl
    simp only [extractVec, Option.map_eq_some_iff, seqIndex_nonneg h2] at h
    obtain ⟨i, hi, rfl⟩ := h
    split at hi
    · simp at hi; subst hi
      rw [sliceBound_nonneg (by omega), get_take_reverse _ _ _ (by rw [colVec_length]; omega), colVec_get]
      have e : min (t.row + 1).toNat m.rows = t.row.toNat + 1 := by omega
      rw [e]
      simp only [stepsFrom, unit]
      by_cases hk : k < t.row.toNat + 1
      · have e1 : (t.row + k * (-1)).toNat = t.row.toNat + 1 - 1 - k := by omega
        have e2 : (t.col + k * 0).toNat = t.col.toNat := by omega
        rw [if_pos hk, if_pos (by omega), e1, e2]
        constructor
        · intro h; exact ⟨by omega, by omega, by omega, by omega, by simpa using h⟩
        · rintro ⟨_, _, _, _, h⟩; simpa using h
      · rw [if_neg hk]
        simp; omega
    · simp at hi
  | R =>
    simp only [extractVec, Option.map_eq_some_iff, seqIndex_nonneg h1] at h
    obtain ⟨i, hi, rfl⟩ := h
    split at hi
    · simp at hi; subst hi
      rw [sliceBound_nonneg (by omega), List.getElem?_drop, rowVec_get]
      simp only [stepsFrom, unit]
      by_cases hk : t.col + k < m.cols
      · have e1 : (t.col + k * 1).toNat = min t.col.toNat m.cols + k := by omega
        have e2 : (t.row + k * 0).toNat = t.row.toNat := by omega
        rw [if_pos (by omega), e1, e2]
        constructor
        · intro h; exact ⟨by omega, by omega, by omega, by omega, by simpa using h⟩
        · rintro ⟨_, _, _, _, h⟩; simpa using h
      · rw [if_neg (by omega)]
        simp; omega
    · simp at hi
  | D =>
    simp only [extractVec, Option.map_eq_some_iff, seqIndex_nonneg h2] at h
    obtain ⟨i, hi, rfl⟩ := h
    split at hi
    · simp at hi; subst hi
      rw [sliceBound_nonneg (by omega), List.getElem?_drop, colVec_get]
      simp only [stepsFrom, unit]
      by_cases hk : t.row + k < m.rows
      · have e1 : (t.row + k * 1).toNat = min t.row.toNat m.rows + k := by omega
        have e2 : (t.col + k * 0).toNat = t.col.toNat := by omega
        rw [if_pos (by omega), e1, e2]
        constructor
        · intro h; exact ⟨by omega, by omega, by omega, by omega, by simpa using h⟩
        · rintro ⟨_, _, _, _, h⟩; simpa using h
      · rw [if_neg (by omega)]
        simp; omega
    · simp at hi

/-- What a targeting result has to be. -/
def OppOk (m : Mat) (t : Coords) (d1 : Dir) (d2 : Option Dir) : Except PyErr Coords → Prop
  | .ok x => FirstFull m t d1 d2 x
  | .error e => e = .emptyCapture ∧ NoneFull m t d1 d2

/-- Steps left along the second direction. -/
def oppFuel (m : Mat) (t : Coords) : Option Dir → Nat
  | none => 1
  | some .D => (m.rows - t.row).toNat + 1
  | some .R => (m.cols - t.col).toNat + 1
  | some .U => (t.row + 1).toNat + 1
  | some .L => (t.col + 1).toNat + 1

theorem visited_succ (t : Coords) (d1 d2 : Dir) (k2 k1 : Nat) :
    visited t d1 (some d2) (k2 + 1) k1 = visited (stepsFrom t d2 1) d1 (some d2) k2 k1 := by
  cases d1 <;> cases d2 <;> simp [visited, stepsFrom, unit] <;> omega

theorem visited_zero (t : Coords) (d1 : Dir) (d2 : Option Dir) (k1 : Nat) :
    visited t d1 d2 0 k1 = stepsFrom t d1 k1 := by
  cases d2 <;> simp [visited, stepsFrom]

theorem findIdx_first {v : List Bool} {i : Nat} (h : v.findIdx? (fun b => b) = some i) :
    v[i]? = some true ∧ ∀ j, j < i → v[j]? ≠ some true := by
  rw [List.findIdx?_eq_some_iff_getElem] at h
  obtain ⟨hi, h1, h2⟩ := h
  refine ⟨by rw [List.getElem?_eq_getElem hi, h1], ?_⟩
  intro j hj hc
  have := h2 j hj
  rw [List.getElem?_eq_getElem (by omega)] at hc
  simp at hc; simp [hc] at this

theorem findIdx_none {v : List Bool} (h : v.findIdx? (fun b => b) = none) (k : Nat) :
    v[k]? ≠ some true := by
  rw [List.findIdx?_eq_none_iff] at h
  intro hc
  have := h true (List.mem_of_getElem? hc)
  simp at this

theorem oppositeLoop_ok (m : Mat) (d1 : Dir) (d2 : Option Dir) (hp : ∀ d, d2 = some d → Perp d1 d) :
    ∀ (fuel : Nat) (t : Coords), (0 ≤ t.row ∨ (d2 = some .U ∧ -1 ≤ t.row)) → (0 ≤ t.col ∨ (d2 = some .L ∧ -1 ≤ t.col)) →
      (d1 = .L ∨ d2 = some .L → t.col < m.cols) → (d1 = .U ∨ d2 = some .U → t.row < m.rows) →
      oppFuel m t d2 ≤ fuel → OppOk m t d1 d2 (oppositeLoop m d1 d2 t fuel) := by
  intro fuel
  induction fuel with
  | zero =>
    intro t _ _ _ _ hf
    exfalso
    cases d2 with
    | none => simp [oppFuel] at hf
    | some d => cases d <;> simp [oppFuel] at hf
  | succ n ih =>
    intro t hr hc hL hU hf
    unfold oppositeLoop
    by_cases h0 : 0 ≤ t.row ∧ 0 ≤ t.col
    · rw [if_pos h0]
      cases hv : extractVec m t d1 with
      | none =>
        have hoff := extractVec_none h0.1 h0.2 hv
        refine ⟨rfl, ?_⟩
        intro k2 k1
        cases hd : d2 with
        | none => simp only [visited]; exact offLine_not_full hoff k1
        | some e =>
          have hpe := hp e hd
          simp only [visited]
          apply offLine_not_full
          cases d1 <;> cases e <;> simp [OffLine, stepsFrom, unit, Perp] at * <;> first | omega | (have := hU hd; omega) | (have := hL hd; omega)
      | some v =>
        have hs := fun k => extractVec_some h0.1 h0.2 (fun h => hL (.inl h)) (fun h => hU (.inl h)) hv k
        simp only
        cases hi : v.findIdx? (fun b => b) with
        | some i =>
          obtain ⟨g1, g2⟩ := findIdx_first hi
          refine ⟨0, i, ?_, ?_, ?_⟩
          · rw [visited_zero, move_eq]
          · rw [move_eq]; exact (hs i).1 g1
          · intro j2 j1 hj
            rcases hj with hj | ⟨rfl, hj⟩
            · omega
            · rw [visited_zero]
              intro hc; exact g2 j1 hj ((hs j1).2 hc)
        | none =>
          have hno : ∀ k, ¬ FullAt m (stepsFrom t d1 k) := fun k hc => findIdx_none hi k ((hs k).2 hc)
          cases hd : d2 with
          | none =>
            refine ⟨rfl, ?_⟩
            intro k2 k1
            simp only [visited]; exact hno k1
          | some e =>
            simp only
            have hpe := hp e hd
            rw [move_eq]
            have hstep := ih (stepsFrom t e 1)
              (by rw [hd] at hr ⊢; cases e <;> simp [stepsFrom, unit] <;> omega)
              (by rw [hd] at hc ⊢; cases e <;> simp [stepsFrom, unit] <;> omega)
              (by
                intro h; have := hL h; rw [hd] at h
                cases e <;> simp [stepsFrom, unit] <;> try omega
                rcases h with h | h
                · subst h; simp [Perp, unit] at hpe
                · simp at h)
              (by
                intro h; have := hU h; rw [hd] at h
                cases e <;> simp [stepsFrom, unit] <;> try omega
                rcases h with h | h
                · subst h; simp [Perp, unit] at hpe
                · simp at h)
              (by
                rw [hd] at hf ⊢
                have hon := extractVec_on h0.1 h0.2 hv
                cases d1 <;> cases e <;> simp [oppFuel, stepsFrom, unit, OffLine, Perp] at hf hpe hon ⊢ <;> omega)
            rw [hd] at hstep
            cases hres : oppositeLoop m d1 (some e) (stepsFrom t e 1) n with
            | ok x =>
              rw [hres] at hstep
              obtain ⟨k2, k1, e1, e2, e3⟩ := hstep
              refine ⟨k2 + 1, k1, by rw [visited_succ]; exact e1, e2, ?_⟩
              intro j2 j1 hj
              cases j2 with
              | zero => rw [visited_zero]; exact hno j1
              | succ j2 => rw [visited_succ]; exact e3 j2 j1 (by omega)
            | error er =>
              rw [hres] at hstep
              refine ⟨hstep.1, ?_⟩
              intro k2 k1
              cases k2 with
              | zero => rw [visited_zero]; exact hno k1
              | succ k2 => rw [visited_succ]; exact hstep.2 k2 k1
    · rw [if_neg h0]
      refine ⟨rfl, ?_⟩
      intro k2 k1
      rw [fullAt_iff]
      cases hd : d2 with
      | none => rw [hd] at hr hc; simp at hr hc; omega
      | some e =>
        have hpe := hp e hd
        rw [hd] at hr hc
        cases d1 <;> cases e <;> simp [visited, stepsFrom, unit, Perp] at * <;> omega

theorem oppOk_shift {m : Mat} {t t' : Coords} {d1 : Dir} {d2 : Option Dir} (s2 s1 : Nat)
    (hv : ∀ k2 k1, visited t' d1 d2 k2 k1 = visited t d1 d2 (k2 + s2) (k1 + s1))
    (hn : ∀ k2 k1, (k2 < s2 ∨ k1 < s1) → ¬ FullAt m (visited t d1 d2 k2 k1))
    {r : Except PyErr Coords} (h : OppOk m t' d1 d2 r) : OppOk m t d1 d2 r := by
  cases r with
  | ok x =>
    obtain ⟨k2, k1, e1, e2, e3⟩ := h
    refine ⟨k2 + s2, k1 + s1, by rw [e1, hv], e2, ?_⟩
    intro j2 j1 hj
    by_cases hs : j2 < s2 ∨ j1 < s1
    · exact hn _ _ hs
    · have := e3 (j2 - s2) (j1 - s1) (by omega)
      rw [hv] at this
      have a1 : j2 - s2 + s2 = j2 := by omega
      have a2 : j1 - s1 + s1 = j1 := by omega
      rw [a1, a2] at this
      exact this
  | error e =>
    refine ⟨h.1, ?_⟩
    intro k2 k1
    by_cases hs : k2 < s2 ∨ k1 < s1
    · exact hn _ _ hs
    · have := h.2 (k2 - s2) (k1 - s1)
      rw [hv] at this
      have a1 : k2 - s2 + s2 = k2 := by omega
      have a2 : k1 - s1 + s1 = k1 := by omega
      rw [a1, a2] at this
      exact this

/-- How far clipping moves the landing cell along a direction. -/
def clipBy (dn land : Coords) : Dir → Nat
  | .L => (land.col - dn.col).toNat
  | .U => (land.row - dn.row).toNat
  | _ => 0

theorem targetOpposite_ok (m : Mat) (dn land : Coords) (moves : List Dir) (d1 : Dir) (d2 : Option Dir)
    (hm : Moves moves d1 d2) (hdn : MarginOf m dn) (h1 : 0 ≤ land.row) (h2 : 0 ≤ land.col) :
    OppOk m land d1 d2 (targetOpposite m dn land moves) := by
  obtain ⟨n1, g1, n2, g2, g3⟩ := hdn
  · have key : ∀ t', t' = clipLand dn land moves →
        OppOk m land d1 d2 (oppositeLoop m d1 d2 t' (m.rows + m.cols + 2)) := by
      intro t' ht'
      cases hm with
      | one d =>
        refine oppOk_shift (t' := t') 0 (clipBy dn land d1) ?_ ?_ (oppositeLoop_ok m d1 none (by simp) _ t' ?_ ?_ ?_ ?_ ?_)
        · subst ht'; intro k2 k1
          cases d1 <;> simp [visited, clipLand, clipBy, stepsFrom, unit] <;> split <;> omega
        · intro k2 k1 hk hf
          have := g3 _ hf
          cases d1 <;> simp [visited, clipBy, stepsFrom, unit] at hk this <;> omega
        · subst ht'; cases d1 <;> simp [clipLand] <;> first | omega | (split <;> omega)
        · subst ht'; cases d1 <;> simp [clipLand] <;> first | omega | (split <;> omega)
        · subst ht'; cases d1 <;> simp [clipLand] <;> first | omega | (split <;> omega)
        · subst ht'; cases d1 <;> simp [clipLand] <;> first | omega | (split <;> omega)
        · simp [oppFuel]
      | two d e hp =>
        refine oppOk_shift (t' := t') (clipBy dn land e) (clipBy dn land d1) ?_ ?_ (oppositeLoop_ok m d1 (some e) (by rintro d ⟨rfl⟩; exact hp) _ t' ?_ ?_ ?_ ?_ ?_)
        · subst ht'; intro k2 k1
          cases d1 <;> cases e <;> simp [visited, clipLand, clipBy, stepsFrom, unit, Perp] at hp ⊢ <;> repeat (first | omega | split)
        · intro k2 k1 hk hf
          have := g3 _ hf
          cases d1 <;> cases e <;> simp [visited, clipBy, stepsFrom, unit, Perp] at hp hk this <;> omega
        · subst ht'; cases d1 <;> cases e <;> simp [clipLand, Perp, unit] at hp ⊢ <;> first | omega | (split <;> omega)
        · subst ht'; cases d1 <;> cases e <;> simp [clipLand, Perp, unit] at hp ⊢ <;> first | omega | (split <;> omega)
        · subst ht'; cases d1 <;> cases e <;> simp [clipLand, Perp, unit] at hp ⊢ <;> first | omega | (split <;> omega)
        · subst ht'; cases d1 <;> cases e <;> simp [clipLand, Perp, unit] at hp ⊢ <;> first | omega | (split <;> omega)
        · subst ht'; cases d1 <;> cases e <;> simp [clipLand, Perp, unit, oppFuel] at hp ⊢ <;> first | omega | (split <;> omega)
    cases hm with
    | one d => exact key _ rfl
    | two d e hp => exact key _ rfl

theorem firstFull_unique {m : Mat} {t : Coords} {d1 : Dir} {d2 : Option Dir} {x y : Coords}
    (hx : FirstFull m t d1 d2 x) (hy : FirstFull m t d1 d2 y) : x = y := by
  obtain ⟨a2, a1, ea, fa, na⟩ := hx
  obtain ⟨b2, b1, eb, fb, nb⟩ := hy
  have h1 : ¬ (a2 < b2 ∨ (a2 = b2 ∧ a1 < b1)) := fun h => nb a2 a1 h (ea ▸ fa)
  have h2 : ¬ (b2 < a2 ∨ (b2 = a2 ∧ b1 < a1)) := fun h => na b2 b1 h (eb ▸ fb)
  have e2 : a2 = b2 := by omega
  have e1 : a1 = b1 := by omega
  rw [ea, eb, e1, e2]

theorem firstFull_not_none {m : Mat} {t : Coords} {d1 : Dir} {d2 : Option Dir} {x : Coords}
    (hx : FirstFull m t d1 d2 x) : ¬ NoneFull m t d1 d2 := by
  obtain ⟨a2, a1, ea, fa, _⟩ := hx
  intro h; exact h a2 a1 (ea ▸ fa)

theorem stepsFrom_zero (p : Coords) (d : Dir) : stepsFrom p d 0 = p := by simp [stepsFrom]

theorem at_full {m : Mat} {p : Coords} (h : FullAt m p) : m.at? p.row p.col = some true := by
  rw [fullAt_iff] at h
  obtain ⟨h1, h2, h3, h4, h5⟩ := h
  simp [Mat.at?, seqIndex_nonneg h1, seqIndex_nonneg h3, h2, h4, h5]

theorem at_not_full {m : Mat} {p : Coords} (h1 : 0 ≤ p.row) (h2 : 0 ≤ p.col) (h : ¬ FullAt m p) :
    m.at? p.row p.col = none ∨ m.at? p.row p.col = some false := by
  rw [fullAt_iff] at h
  simp only [Mat.at?, seqIndex_nonneg h1, seqIndex_nonneg h2]
  by_cases a : p.row < m.rows
  · by_cases b : p.col < m.cols
    · simp [a, b]
      cases hc : m.cell p.row.toNat p.col.toNat with
      | false => rfl
      | true => exact absurd ⟨h1, a, h2, b, hc⟩ h
    · simp [a, b]
  · simp [a]

theorem stateAt_iff {m : Mat} {p : Coords} (h1 : 0 ≤ p.row) (h2 : 0 ≤ p.col) :
    stateAt m p = true ↔ FullAt m p := by
  unfold stateAt
  by_cases h : FullAt m p
  · rw [at_full h]; simp [h]
  · rcases at_not_full h1 h2 h with e | e <;> rw [e] <;> simp [h]

theorem sameLen_run {m : Mat} {p : Coords} {d : Dir} (h : FullAt m p) :
    ∃ v k, extractVec m p d = some v ∧ sameLen v = (k : Nat) ∧ RunEnds m p d k := by
  have hf := fullAt_iff.1 h
  obtain ⟨h1, h2, h3, h4, h5⟩ := hf
  cases hv : extractVec m p d with
  | none =>
    have := extractVec_none h1 h3 hv
    cases d <;> simp [OffLine] at this <;> omega
  | some v =>
    have hs := fun k => extractVec_some h1 h3 (fun _ => h4) (fun _ => h2) hv k
    have h0 : v[0]? = some true := (hs 0).2 (by rw [stepsFrom_zero]; exact h)
    have hlen : 0 < v.length := by
      rw [List.getElem?_eq_some_iff] at h0
      exact h0.1
    cases hi : v.findIdx? (fun b => !b) with
    | none =>
      rw [List.findIdx?_eq_none_iff] at hi
      refine ⟨v, v.length - 1, rfl, ?_, ?_, ?_⟩
      · simp [sameLen, List.findIdx?_eq_none_iff.2 hi]; omega
      · intro i hik
        rw [← hs i, List.getElem?_eq_getElem (by omega)]
        have := hi v[i] (by simp)
        simpa using this
      · rw [← hs, List.getElem?_eq_none (by omega)]; simp
    | some i =>
      have hi' := hi
      rw [List.findIdx?_eq_some_iff_getElem] at hi
      obtain ⟨hlt, g1, g2⟩ := hi
      have hipos : i ≠ 0 := by
        intro e; subst e
        rw [List.getElem?_eq_getElem hlt] at h0
        simp at h0; simp [h0] at g1
      refine ⟨v, i - 1, rfl, ?_, ?_, ?_⟩
      · simp only [sameLen, hi']; omega
      · intro j hj
        rw [← hs j, List.getElem?_eq_getElem (by omega)]
        have := g2 j (by omega)
        simpa using this
      · have e : i - 1 + 1 = i := by omega
        rw [e, ← hs, List.getElem?_eq_getElem hlt]
        simpa using g1

theorem runEnds_unique {m : Mat} {p : Coords} {d : Dir} {k l : Nat} (hk : RunEnds m p d k)
    (hl : RunEnds m p d l) : k = l := by
  have h1 : ¬ (k < l) := fun h => hk.2 (hl.1 _ (by omega))
  have h2 : ¬ (l < k) := fun h => hl.2 (hk.1 _ (by omega))
  omega

theorem targetSame_start {m : Mat} {dn p : Coords} (hdn : MarginOf m dn) (h : FullAt m p) (moves : List Dir) :
    targetSame m dn p moves = targetSameLoop m p p moves := by
  have := hdn.2.2.2.2 p h
  rw [targetSame, if_pos this, at_full h]

end Model
