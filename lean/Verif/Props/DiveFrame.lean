import Verif.Lemmas.DiveFrame
import Verif.Props.Recursive
/-
C138: element-wise filters on tables.
-/
namespace Props
open Py Model Spec Lemmas

section
variable {S : Type} (R : Ranger S) (ef : EFun S) (filters : List Doc)
  (incl excl : Option (List Label)) (depth : Option Int) (l : Lasso S) (t t' : Tabled)

private theorem unfold_table (h : R.elementwiseTable ef filters incl excl depth l t = .ok t') :
    ∃ subs s', parseSubs filters = .ok subs ∧
      diveTabled (included incl excl) depth (R.callElement ef l) l.st subs t = .ok (t', s') := by
  unfold Ranger.elementwiseTable at h
  cases hp : parseSubs filters with
  | error e => rw [hp] at h; simp at h
  | ok subs =>
    rw [hp] at h; simp only at h
    cases hd : diveTabled (included incl excl) depth (R.callElement ef l) l.st subs t with
    | error e => rw [hd] at h; simp at h
    | ok q =>
      obtain ⟨v, s'⟩ := q
      rw [hd] at h; simp at h; subst h
      exact ⟨subs, s', rfl, hd⟩

private theorem asked_iff (ask : Option Coords → Doc → Option Doc) (i j : Nat) (p : List VStep) (z : Doc) (b : Option Coords) :
    AskedIn (Selected incl excl) depth ask l.st t i j p z b ↔
      ∃ x, TabledAt t i j x ∧ DivedInto (included incl excl) depth t i j ∧
        reach (cellCfg (included incl excl) depth) ask (cellDepth t) (cellPos l.st i j) x p = some (z, b) := by
  have key : ∀ x, Reached (fun k => Selected incl excl (.name k)) (depth.map (· - (cellDepth t : Int))) true ask x
      (l.st.map (fun c => ⟨c.row + i, c.col + j⟩)) p z b ↔
        reach (cellCfg (included incl excl) depth) ask (cellDepth t) (cellPos l.st i j) x p = some (z, b) := by
    intro x
    have h1 := reach_shift (cfg := cellCfg (included incl excl) depth) (ask := ask) rfl (cellDepth t) p 0 (cellPos l.st i j) x
    rw [Nat.zero_add] at h1
    rw [h1]
    exact reached_iff (cfg := ⟨fun k => included incl excl (.name k), depth.map (· - (cellDepth t : Int)), true⟩)
      (fun k => incl_iff incl excl (.name k)) p z b
  constructor
  · rintro ⟨k, x, h1, h2, h3, h4, h5⟩
    exact ⟨x, h2, ⟨k, h1, (incl_iff incl excl k).2 h3, h4⟩, (key x).1 h5⟩
  · rintro ⟨x, h2, ⟨k, h1, h3, h4⟩, h5⟩
    exact ⟨k, x, h1, h2, (incl_iff incl excl k).1 h3, h4, (key x).2 h5⟩

/-- C138. Every element asked about, in a cell of a table, that the element function processes is replaced in that cell by the values of its
lasso, run through the sub-filters; the keyword `lax` of the sub-filters is in force for one of these elements and for no other. -/
theorem C138_processed (h : R.elementwiseTable ef filters incl excl depth l t = .ok t') (strict : List Doc) (hs : SameButLax filters strict) :
    ∃ first : Nat × Nat × List VStep, ∀ i j p z b, AskedIn (Selected incl excl) depth (took ef l) l.st t i j p z b → ¬ isDict z →
      ∀ m, Hands ef l b z m →
        ∃ w y, valuesAfter R (if (i, j, p) = first then filters else strict) m = some y ∧ TabledAt t' i j w ∧ valAt w p = some y := by
  obtain ⟨subs, s', hp, hdv⟩ := unfold_table R ef filters incl excl depth l t t' h
  obtain ⟨subs2, hp2, hq⟩ := strict_parse hs
  rw [hp] at hp2
  cases hp2
  have hF := does R ef l subs filters hp
  have hS := does R ef l _ strict hq
  rw [popped] at hS
  obtain ⟨first, hf⟩ := diveTabled_first hF hS l.st subs t t' s' rfl hdv
  refine ⟨first, ?_⟩
  intro i j p z b hr hz m hm
  have hr' : AskedIn (Selected incl excl) depth
      (askTook (fun bc x => (took ef l bc x).isSome) (askOf ef (valuesAfter R strict) l)) l.st t i j p z b := by
    obtain ⟨k, x, h1, h2, h3, h4, h5⟩ := hr
    refine ⟨k, x, h1, h2, h3, h4, reached_congr _ _ ?_ h5⟩
    intro bc x hn
    simp [askTook, hn]
  obtain ⟨x, h1, h2, h3⟩ := (asked_iff incl excl depth l t _ i j p z b).1 hr'
  obtain ⟨w, h4, h5, h6⟩ := hf i j x p z b h2 h1 h3 hz (hands_took ef l hm)
  by_cases he : (i, j, p) = first
  · rw [if_pos he]
    obtain ⟨y, h7, h8⟩ := h5 he
    exact ⟨w, y, by rw [← hands_ask ef l hm (valuesAfter R filters)]; exact h7, h4, h8⟩
  · rw [if_neg he]
    obtain ⟨y, h7, h8⟩ := h6 he
    exact ⟨w, y, by rw [← hands_ask ef l hm (valuesAfter R strict)]; exact h7, h4, h8⟩

/-- C138. A table keeps its kind, its rows and columns and their labels. -/
theorem C138_labels (h : R.elementwiseTable ef filters incl excl depth l t = .ok t') : SameLabels t t' := by
  obtain ⟨subs, s', _, hdv⟩ := unfold_table R ef filters incl excl depth l t t' h
  exact (diveTabled_ok (keeps_true R ef l) l.st subs t t' s' trivial hdv).1

/-- C138. Wherever nothing was processed on the way, the value is still there: in a cell whose label is not selected, or one that the element
function leaves alone, the same value; in a cell with a list or dictionary inside which something was processed, one of the same shape. -/
theorem C138_kept (h : R.elementwiseTable ef filters incl excl depth l t = .ok t') (i j : Nat) (x : Doc) (hx : TabledAt t i j x)
    (p : List VStep) (z : Doc) (hz : valAt x p = some z)
    (hno : ∀ q u b, q <+: p → AskedIn (Selected incl excl) depth (took ef l) l.st t i j q u b → ¬ isDict u → took ef l b u = none) :
    ∃ w y, TabledAt t' i j w ∧ valAt w p = some y ∧ SameShape z y := by
  obtain ⟨subs, s', _, hdv⟩ := unfold_table R ef filters incl excl depth l t t' h
  obtain ⟨w, hw, hh⟩ := (diveTabled_ok (keeps_true R ef l) l.st subs t t' s' trivial hdv).2 i j x hx
  rcases hh with ⟨hd, s1, s2, _, h1⟩ | ⟨_, rfl⟩
  · obtain ⟨y, h2, h3⟩ := dive_frame (keeps_true R ef l) (answers_if R ef l) p trivial h1 hz (by
      intro q u b hq hr hu
      exact hno q u b hq ((asked_iff incl excl depth l t _ i j q u b).2 ⟨x, hx, hd, hr⟩) hu)
    exact ⟨w, y, hw, h2, h3⟩
  · exact ⟨x, z, hw, hz, sameShape_refl z⟩

/-- C138. Cells whose label is not selected are unchanged. -/
theorem C138_not_selected (h : R.elementwiseTable ef filters incl excl depth l t = .ok t') (i j : Nat) (x : Doc) (hx : TabledAt t i j x)
    (k : Label) (hk : CellLabel t i j k) (hn : ¬ Selected incl excl k) : TabledAt t' i j x := by
  obtain ⟨subs, s', _, hdv⟩ := unfold_table R ef filters incl excl depth l t t' h
  obtain ⟨w, hw, hh⟩ := (diveTabled_ok (keeps_true R ef l) l.st subs t t' s' trivial hdv).2 i j x hx
  rcases hh with ⟨⟨k', hk', hs, _⟩, _⟩ | ⟨_, rfl⟩
  · exfalso
    apply hn
    rw [← incl_iff incl excl k]
    cases hk with
    | series _ _ _ x1 h1 =>
      cases hk' with
      | series _ _ _ x2 h2 => rw [h1] at h2; cases h2; exact hs
    | frame _ _ _ _ c1 h1 =>
      cases hk' with
      | frame _ _ _ _ c2 h2 => rw [h1] at h2; cases h2; exact hs
  · exact hw

/-- C138. When filtering succeeds, no element that was asked about made the element function fail. -/
theorem C138_success (h : R.elementwiseTable ef filters incl excl depth l t = .ok t') (i j : Nat) (p : List VStep) (z : Doc)
    (b : Option Coords) (hr : AskedIn (Selected incl excl) depth (took ef l) l.st t i j p z b) (hz : ¬ isDict z) :
    ∃ r, ef l b z = .ok r := by
  obtain ⟨subs, s', _, hdv⟩ := unfold_table R ef filters incl excl depth l t t' h
  obtain ⟨x, h1, h2, h3⟩ := (asked_iff incl excl depth l t _ i j p z b).1 hr
  obtain ⟨w, hw, hh⟩ := (diveTabled_ok (keeps_true R ef l) l.st subs t t' s' trivial hdv).2 i j x h1
  rcases hh with ⟨_, s1, s2, _, h4⟩ | ⟨hn, _⟩
  · obtain ⟨s1, o, s2, _, hs⟩ := dive_reached_ok (keeps_true R ef l) (answers_if R ef l) p trivial h4 h3 hz
    unfold Ranger.callElement at hs
    cases he : ef l b z with
    | error e => rw [he] at hs; simp at hs
    | ok r => exact ⟨r, rfl⟩
  · exact absurd h2 hn

/-- C138. When filtering fails, a sub-filter cannot be read, or some element asked about is to blame: the element function raised there,
which gives `ValueError`; or a sub-filter failed, with the keyword `lax` or without it; or something was left that is not a lasso. -/
theorem C138_failure (e : PyErr) (h : R.elementwiseTable ef filters incl excl depth l t = .error e)
    (strict : List Doc) (hs : ∀ subs, parseSubs filters = .ok subs → SameButLax filters strict)
    (hk : ∀ i j x, TabledAt t i j x → KeysOk x) :
    (∃ f ∈ filters, parseCallSpec f = .error e) ∨
    ∃ i j p z b, AskedIn (Selected incl excl) depth (took ef l) l.st t i j p z b ∧
      ((e = .valueError ∧ ∃ e', ef l b z = .error e') ∨
       ∃ m fs, Hands ef l b z m ∧ (fs = filters ∨ fs = strict) ∧
        (R.pipe fs (.lasso m) = .error e ∨ e = .attributeError ∧ ∃ d, Truth d ∧ R.pipe fs (.lasso m) = .ok (.other d))) := by
  unfold Ranger.elementwiseTable at h
  cases hp : parseSubs filters with
  | error e' =>
    rw [hp] at h; simp at h; subst h
    exact .inl (parse_fails filters e' hp)
  | ok subs =>
    right
    rw [hp] at h; simp only at h
    cases hd : diveTabled (included incl excl) depth (R.callElement ef l) l.st subs t with
    | ok q => rw [hd] at h; simp at h
    | error e' =>
      rw [hd] at h; simp at h; subst h
      obtain ⟨subs2, hp2, hq⟩ := strict_parse (hs subs hp)
      rw [hp] at hp2
      cases hp2
      have hI := keeps_either R ef l hp hq
      obtain ⟨i, j, x, s1, h1, h2, h3, h4⟩ := diveTabled_error hI l.st subs t e' (.inl rfl) hd
      obtain ⟨p, z, b, s2, hr, hz, hs2, hc⟩ := dive_error (ask := took ef l) hI
        (fun s bc d o s' _ hc => answers_if R ef l s bc d o s' trivial hc) _ _ s1 x e' h3 (hk i j x h1) h4
      exact ⟨i, j, p, z, b, (asked_iff incl excl depth l t _ i j p z b).2 ⟨x, h1, h2, hr⟩, call_fails R ef l hp hq hs2 hc⟩

end

private theorem asked_after (sel : Label → Prop) (depth : Option Int) (ask : Option Coords → Doc → Option Doc) (st : Coords) (h : Nat)
    (data : List (List Doc)) (t : Tabled) (ht : ReadAfter h data t) (r c : Nat) (hr : h ≤ r) (row : List Doc) (z : Doc)
    (h1 : data[r]? = some row) (h2 : row[c]? = some z) (hz : ∀ n ≤ cellDepth t, depth ≠ some (n : Int))
    (hs : ∀ k, CellLabel t (r - h) c k → sel k) :
    AskedIn sel depth ask (some st) t (r - h) c [] z (some ⟨st.row + (r - h : Nat), st.col + c⟩) := by
  have hc : TabledAt t (r - h) c z := (ht (r - h) c z).2 ⟨row, by rw [show h + (r - h) = r by omega]; exact h1, h2⟩
  obtain ⟨k, hk⟩ : ∃ k, CellLabel t (r - h) c k := by
    cases hc with
    | series cells i k x hx => exact ⟨k, .series _ _ _ _ hx⟩
    | frame cols i j c cells k x hx hy => exact ⟨c, .frame _ _ _ _ cells hx⟩
  refine ⟨k, z, hk, hc, hs k hk, fun n hn => hz n (by omega), ?_⟩
  refine .root ?_
  intro he
  cases depth with
  | none => simp at he
  | some d =>
    have h1 := hz (cellDepth t) (Nat.le_refl _)
    simp at he h1
    omega

/-- C138. Where the first `h` of the captured rows make the header of the table, a reference in row `r` of the capture is looked up relative
to the cell that is `h` rows above it, and replaced by what is captured there, after the sub-filters. -/
theorem C138_references {S : Type} (R : Ranger S) (lassoRef : Str → Lasso S → Except PyErr (FRes S)) (filters : List Doc)
    (incl excl : Option (List Label)) (depth : Option Int) (l : Lasso S) (t t' : Tabled)
    (hok : R.elementwiseTable (recurseElement lassoRef) filters incl excl depth l t = .ok t') (hn : NoLax filters)
    (st : Coords) (hst : l.st = some st) (h : Nat) (data : List (List Doc)) (ht : ReadAfter h data t)
    (r c : Nat) (hr : h ≤ r) (row : List Doc) (txt : Str) (h1 : data[r]? = some row) (h2 : row[c]? = some (.str txt))
    (hz : ∀ n ≤ cellDepth t, depth ≠ some (n : Int)) (hs : ∀ k, CellLabel t (r - h) c k → Selected incl excl k)
    (m : Lasso S) (hm : lassoRef txt (contextAt l (some ⟨st.row + (r - h : Nat), st.col + c⟩)) = .ok (.lasso m)) :
    ∃ y, valuesAfter R filters m = some y ∧ TabledAt t' (r - h) c y := by
  obtain ⟨subs, _, hp, _⟩ := unfold_table R _ filters incl excl depth l t t' hok
  obtain ⟨first, hf⟩ := C138_processed R _ filters incl excl depth l t t' hok filters (same_of_noLax hp hn)
  have ha := asked_after (Selected incl excl) depth (took (recurseElement lassoRef) l) st h data t ht r c hr row (.str txt) h1 h2 hz hs
  rw [← hst] at ha
  have hm' : lassoRef txt { sheet := l.sheet, st := l.st, nd := l.nd, baseCoords := some ⟨st.row + (r - h : Nat), st.col + c⟩ } =
    .ok (.lasso m) := hm
  obtain ⟨w, y, h3, h4, h5⟩ := hf _ _ _ _ _ ha (by simp [isDict]) m (.lasso m (by simp only [recurseElement, hm']))
  rw [ite_self] at h3
  simp only [valAt, Option.some.injEq] at h5
  exact ⟨y, h3, h5 ▸ h4⟩

/-- C138. A reference in a cell is looked up relative to that cell, where the table has all of the captured rows.
Missing for the full property: tables with a header, see `C138_header_refuted`, and `C138_references` for what they do. -/
theorem C138_own_cell_partial {S : Type} (R : Ranger S) (lassoRef : Str → Lasso S → Except PyErr (FRes S)) (filters : List Doc)
    (incl excl : Option (List Label)) (depth : Option Int) (l : Lasso S) (t t' : Tabled)
    (hok : R.elementwiseTable (recurseElement lassoRef) filters incl excl depth l t = .ok t') (hn : NoLax filters)
    (st : Coords) (hst : l.st = some st) (data : List (List Doc)) (ht : ReadAfter 0 data t)
    (r c : Nat) (row : List Doc) (txt : Str) (h1 : data[r]? = some row) (h2 : row[c]? = some (.str txt))
    (hz : ∀ n ≤ cellDepth t, depth ≠ some (n : Int)) (hs : ∀ k, CellLabel t r c k → Selected incl excl k)
    (m : Lasso S) (hm : lassoRef txt (contextAt l (some ⟨st.row + r, st.col + c⟩)) = .ok (.lasso m)) :
    ∃ y, valuesAfter R filters m = some y ∧ TabledAt t' r c y :=
  C138_references R lassoRef filters incl excl depth l t t' hok hn st hst 0 data ht r c (Nat.zero_le r) row txt h1 h2 hz hs m hm

/-- A reference, for the examples, whose capture is the row of the cell that it is relative to. -/
private def rowOf : Str → Lasso Unit → Except PyErr (FRes Unit) := fun r l =>
  if r = ".".toList then .ok (.lasso { values := .int ((l.baseCoords.map (fun (c : Coords) => (c.row : Int))).getD (-1)) }) else .error .syntaxError

/-- A captured table, its first row with names. -/
private def rows : List (List Doc) := [[.str "a".toList, .str "b".toList], [.int 1, .str ".".toList]]

/-- The same, as a DataFrame with a header. -/
private def headed : Tabled :=
  .frame [(.name "a".toList, [(.pos 0, .int 1)]), (.name "b".toList, [(.pos 0, .str ".".toList)])]

/-- The same, as a DataFrame without a header. -/
private def unheaded : Tabled :=
  .frame [(.pos 0, [(.pos 0, .str "a".toList), (.pos 1, .int 1)]), (.pos 1, [(.pos 0, .str "b".toList), (.pos 1, .str ".".toList)])]

private theorem headed_read : ReadAfter 1 rows headed := by
  intro i j x
  constructor
  · intro h
    cases h with
    | frame _ _ _ c cells k _ h1 h2 =>
      match j, h1 with
      | 0, h1 =>
        cases h1
        match i, h2 with
        | 0, h2 => cases h2; exact ⟨_, rfl, rfl⟩
      | 1, h1 =>
        cases h1
        match i, h2 with
        | 0, h2 => cases h2; exact ⟨_, rfl, rfl⟩
  · rintro ⟨row, h1, h2⟩
    match i, h1 with
    | 0, h1 =>
      cases h1
      match j, h2 with
      | 0, h2 => cases h2; exact .frame _ _ _ _ _ (.pos 0) _ rfl rfl
      | 1, h2 => cases h2; exact .frame _ _ _ _ _ (.pos 0) _ rfl rfl
    | i + 1, h1 => rw [show 1 + (i + 1) = i + 2 by omega] at h1; simp [rows] at h1

/-- C138, violated: in a table with a header, a reference in a cell is taken relative to the cell above it. Here the text is in row 1 of
the capture, which starts in row 0, and is looked up as if it were in row 0; without the header it is looked up in row 1. -/
theorem C138_header_refuted :
    ReadAfter 1 rows headed ∧
    (∃ row, rows[1]? = some row ∧ row[1]? = some (.str ".".toList)) ∧
    sampleRanger.elementwiseTable (recurseElement rowOf) [] none none none { st := some ⟨0, 0⟩ } headed =
      .ok (.frame [(.name "a".toList, [(.pos 0, .int 1)]), (.name "b".toList, [(.pos 0, .int 0)])]) ∧
    sampleRanger.elementwiseTable (recurseElement rowOf) [] none none none { st := some ⟨0, 0⟩ } unheaded =
      .ok (.frame [(.pos 0, [(.pos 0, .str "a".toList), (.pos 1, .int 1)]), (.pos 1, [(.pos 0, .str "b".toList), (.pos 1, .int 1)])]) :=
  ⟨headed_read, ⟨_, rfl, rfl⟩, rfl, rfl⟩

/-- A cell that is asked about. -/
example : AskedIn (Selected none none) none (took (recurseElement rowOf) { st := some ⟨0, 0⟩ }) (some ⟨0, 0⟩) headed 0 1 []
    (.str ".".toList) (some ⟨0, 1⟩) :=
  asked_after (Selected none none) none _ ⟨0, 0⟩ 1 rows headed headed_read 1 1 (by simp) _ _ rfl rfl (by simp)
    (by intro k _; simp [Selected])

/-- Columns that are left out, a depth limit, and a list in a cell of a Series. -/
example : sampleRanger.elementwiseTable lengths [] none (some [.name "a".toList]) none {}
      (.frame [(.name "a".toList, [(.pos 0, .str "xy".toList)]), (.name "b".toList, [(.pos 0, .str "xyz".toList)])]) =
      .ok (.frame [(.name "a".toList, [(.pos 0, .str "xy".toList)]), (.name "b".toList, [(.pos 0, .int 3)])]) ∧
    sampleRanger.elementwiseTable lengths [] none none (some 1) {} (.series [(.pos 0, .str "xy".toList)]) =
      .ok (.series [(.pos 0, .str "xy".toList)]) ∧
    sampleRanger.elementwiseTable lengths [] none none none {} (.series [(.pos 0, .list [.str "xy".toList])]) =
      .ok (.series [(.pos 0, .list [.int 2])]) :=
  ⟨rfl, rfl, rfl⟩

end Props
