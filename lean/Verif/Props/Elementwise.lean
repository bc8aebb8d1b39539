import Verif.Lemmas.Elementwise
import Verif.Props.Filters
/-
C53 element-wise filters.
-/
namespace Props
open Py Model Spec Lemmas

section
variable {S : Type} (R : Ranger S) (pandas : Bool) (ef : EFun S) (filters : List Doc)
  (incl excl : Option (List Str)) (depth : Option Int) (l l' : Lasso S)

private theorem unfold_ok (h : R.elementwise pandas ef filters incl excl depth l = .ok l') :
    ∃ subs s', parseSubs filters = .ok subs ∧
      dive ⟨included incl excl, depth, pandas⟩ (R.callElement ef l) 0 l.st subs l.values = .ok (l'.values, s') ∧
      l' = { l with values := l'.values } := by
  unfold Ranger.elementwise at h
  cases hp : parseSubs filters with
  | error e => rw [hp] at h; simp at h
  | ok subs =>
    rw [hp] at h; simp only at h
    cases hd : dive ⟨included incl excl, depth, pandas⟩ (R.callElement ef l) 0 l.st subs l.values with
    | error e => rw [hd] at h; simp at h
    | ok q =>
      obtain ⟨v, s'⟩ := q
      rw [hd] at h; simp at h; subst h
      exact ⟨subs, s', rfl, hd, rfl⟩

/-- C53. Only the values of the lasso change. -/
theorem C53_only_values (h : R.elementwise pandas ef filters incl excl depth l = .ok l') :
    l' = { l with values := l'.values } := by
  obtain ⟨_, _, _, _, h⟩ := unfold_ok R pandas ef filters incl excl depth l l' h
  exact h

/-- C53. What becomes of sub-filters with the keyword `lax`: it is in force for one of the elements that are processed and for no other.
Each of the elements reached that the element function processes is replaced by the values of its lasso, run through the sub-filters; but for
one of them, through the sub-filters without the keyword. -/
theorem C53_first (h : R.elementwise pandas ef filters incl excl depth l = .ok l') (strict : List Doc) (hs : SameButLax filters strict) :
    ∃ first : List VStep, ∀ p x bc, Reached (Selected incl excl) depth pandas (took ef l) l.values l.st p x bc → ¬ isDict x →
      ∀ m, Hands ef l bc x m →
        ∃ y, valuesAfter R (if p = first then filters else strict) m = some y ∧ valAt l'.values p = some y := by
  obtain ⟨subs, s', hp, hdv, _⟩ := unfold_ok R pandas ef filters incl excl depth l l' h
  obtain ⟨subs2, hp2, hq⟩ := strict_parse hs
  rw [hp] at hp2
  cases hp2
  have hF := does R ef l subs filters hp
  have hS := does R ef l _ strict hq
  rw [popped] at hS
  have hreach : ∀ p x bc, Reached (Selected incl excl) depth pandas (took ef l) l.values l.st p x bc →
      reach ⟨included incl excl, depth, pandas⟩ (askTook (fun bc x => (took ef l bc x).isSome) (askOf ef (valuesAfter R strict) l)) 0 l.st
        l.values p = some (x, bc) := by
    intro p x bc hr
    refine (reached_iff (cfg := ⟨included incl excl, depth, pandas⟩) (incl_iff incl excl) p x bc).1 (reached_congr _ _ ?_ hr)
    intro bc x hn
    simp [askTook, hn]
  rcases dive_first hF hS 0 l.st subs l.values l'.values s' rfl hdv with ⟨_, h2⟩ | ⟨_, p0, h2⟩
  · refine ⟨[], ?_⟩
    intro p x bc hr hx m hm
    have : (took ef l bc x).isSome = false := h2 p x bc (hreach p x bc hr) hx
    rw [hands_took ef l hm] at this
    cases this
  · refine ⟨p0, ?_⟩
    intro p x bc hr hx m hm
    obtain ⟨h3, h4⟩ := h2 p x bc (hreach p x bc hr) hx (hands_took ef l hm)
    by_cases hpp : p = p0
    · rw [if_pos hpp, ← hands_ask ef l hm (valuesAfter R filters)]
      exact h3 hpp
    · rw [if_neg hpp, ← hands_ask ef l hm (valuesAfter R strict)]
      exact h4 hpp

/-- C53. Every element reached that the element function processes is replaced by the values of its lasso, run through the sub-filters.
Missing for the full property: sub-filters with the keyword `lax`, see `C53_lax_refuted`, and `C53_first` for what becomes of them. -/
theorem C53_processed_partial (h : R.elementwise pandas ef filters incl excl depth l = .ok l') (hn : NoLax filters)
    (p : List VStep) (x : Doc) (bc : Option Coords)
    (hr : Reached (Selected incl excl) depth pandas (took ef l) l.values l.st p x bc)
    (hd : ¬ isDict x) (m : Lasso S) (hm : Hands ef l bc x m) :
    ∃ y, valuesAfter R filters m = some y ∧ valAt l'.values p = some y := by
  obtain ⟨subs, s', hp, hdv, _⟩ := unfold_ok R pandas ef filters incl excl depth l l' h
  obtain ⟨first, hf⟩ := C53_first R pandas ef filters incl excl depth l l' h filters (same_of_noLax hp hn)
  simpa using hf p x bc hr hd m hm

/-- C53. Wherever nothing was processed on the way, the value is still there: a list with as many
elements, a dictionary with the same keys in the same order, anything else unchanged. -/
theorem C53_frame (h : R.elementwise pandas ef filters incl excl depth l = .ok l')
    (p : List VStep) (x : Doc) (hx : valAt l.values p = some x)
    (hno : ∀ q z bc, q <+: p → Reached (Selected incl excl) depth pandas (took ef l) l.values l.st q z bc →
      ¬ isDict z → took ef l bc z = none) :
    ∃ y, valAt l'.values p = some y ∧ SameShape x y := by
  obtain ⟨subs, s', hp, hdv, _⟩ := unfold_ok R pandas ef filters incl excl depth l l' h
  refine dive_frame (keeps_true R ef l) (answers_if R ef l) p trivial hdv hx ?_
  intro q z b hq hr hz
  refine hno q z b hq ?_ hz
  exact (reached_iff (cfg := ⟨included incl excl, depth, pandas⟩) (incl_iff incl excl) q z b).2 hr

/-- C53. When filtering succeeds, no element that was reached made the element function fail. -/
theorem C53_success (h : R.elementwise pandas ef filters incl excl depth l = .ok l')
    (p : List VStep) (x : Doc) (bc : Option Coords)
    (hr : Reached (Selected incl excl) depth pandas (took ef l) l.values l.st p x bc)
    (hd : ¬ isDict x) : ∃ r, ef l bc x = .ok r := by
  obtain ⟨subs, s', hp, hdv, _⟩ := unfold_ok R pandas ef filters incl excl depth l l' h
  have hr' := (reached_iff (cfg := ⟨included incl excl, depth, pandas⟩) (incl_iff incl excl) p x bc).1 hr
  obtain ⟨s1, o, s2, _, hs⟩ := dive_reached_ok (keeps_true R ef l) (answers_if R ef l) p trivial hdv hr' hd
  unfold Ranger.callElement at hs
  cases he : ef l bc x with
  | error e => rw [he] at hs; simp at hs
  | ok r => exact ⟨r, rfl⟩

/-- C53. When filtering fails, a sub-filter cannot be read, or some element reached is to blame: the element function raised there, which
gives `ValueError`; or a sub-filter failed, with the keyword `lax` or without it; or something was left that is not a lasso. -/
theorem C53_failure (e : PyErr) (h : R.elementwise pandas ef filters incl excl depth l = .error e)
    (strict : List Doc) (hs : ∀ subs, parseSubs filters = .ok subs → SameButLax filters strict) (hk : KeysOk l.values) :
    (∃ f ∈ filters, parseCallSpec f = .error e) ∨
    ∃ p x bc, Reached (Selected incl excl) depth pandas (took ef l) l.values l.st p x bc ∧
      ((e = .valueError ∧ ∃ e', ef l bc x = .error e') ∨
       ∃ m fs, Hands ef l bc x m ∧ (fs = filters ∨ fs = strict) ∧
        (R.pipe fs (.lasso m) = .error e ∨ e = .attributeError ∧ ∃ d, Truth d ∧ R.pipe fs (.lasso m) = .ok (.other d))) := by
  unfold Ranger.elementwise at h
  cases hp : parseSubs filters with
  | error e' =>
    rw [hp] at h; simp at h; subst h
    exact .inl (parse_fails filters e' hp)
  | ok subs =>
    right
    rw [hp] at h; simp only at h
    cases hd : dive ⟨included incl excl, depth, pandas⟩ (R.callElement ef l) 0 l.st subs l.values with
    | ok q => rw [hd] at h; simp at h
    | error e' =>
      rw [hd] at h; simp at h; subst h
      obtain ⟨subs2, hp2, hq⟩ := strict_parse (hs subs hp)
      rw [hp] at hp2
      cases hp2
      have hI := keeps_either R ef l hp hq
      obtain ⟨p, x, b, s1, hr, hx, hs1, hc⟩ := dive_error (ask := took ef l) hI
        (fun s bc d o s' _ hc => answers_if R ef l s bc d o s' trivial hc) 0 l.st subs l.values e' (.inl rfl) hk hd
      refine ⟨p, x, b, (reached_iff (cfg := ⟨included incl excl, depth, pandas⟩) (incl_iff incl excl) p x b).2 hr, ?_⟩
      exact call_fails R ef l hp hq hs1 hc

end

/-- An element function for the examples: texts become the number of their characters. -/
def lengths : EFun Unit := fun l _ x => match x with
  | .str t => .ok (true, .other (.int t.length))
  | _ => .ok (false, .lasso l)

example : sampleRanger.elementwise true lengths [] none (some ["b".toList]) none
    { values := .list [.str "ab".toList, .dict [("a".toList, .str "c".toList), ("b".toList, .str "c".toList)]] } =
    .ok { values := .list [.int 2, .dict [("a".toList, .int 1), ("b".toList, .str "c".toList)]] } := rfl

example : Reached (Selected none none) none true (took lengths {})
    (.list [.str "ab".toList]) none [.idx 0] (.str "ab".toList) none :=
  .idx [] [.str "ab".toList] none 0 _ (.root (by simp)) rfl rfl (by simp)

/-- C53, violated: the keyword `lax` of a sub-filter works for the first element only. -/
theorem C53_lax_refuted :
    let sub := [Doc.list [.str "fail".toList, .dict [("lax".toList, .bool true)]]]
    sampleRanger.elementwise true lengths sub none none none { values := .list [.str "ab".toList], opts := some [] } =
      .ok { values := .list [.int 2], opts := some [] } ∧
    sampleRanger.elementwise true lengths sub none none none
      { values := .list [.str "ab".toList, .str "ab".toList], opts := some [] } = .error .valueError := by
  exact ⟨rfl, rfl⟩

/-- Calls with the keyword and without it. -/
example : SameButLax [Doc.list [.str "fail".toList, .dict [("lax".toList, .bool true), ("a".toList, .int 1)]]]
    [Doc.list [.str "fail".toList, .dict [("a".toList, .int 1)]]] :=
  .cons _ _ ⟨"fail".toList, [], [("lax".toList, .bool true), ("a".toList, .int 1)]⟩ [] [] rfl rfl .nil

/-- A failing filter that is lax on the first of two texts, and absent on the other. -/
example : sampleRanger.elementwise true lengths [Doc.list [.str "fail".toList, .dict [("lax".toList, .bool true)]]] none none none
      { values := .list [.str "ab".toList, .int 3], opts := some [] } = .ok { values := .list [.int 2, .int 3], opts := some [] } ∧
    Hands lengths { opts := some [] } none (.str "ab".toList) { values := .int 2, opts := some [] } :=
  ⟨rfl, .value (.int 2) rfl⟩

/-- C53. With *pandas* installed, elements of lists are all given the position of the whole capture. -/
theorem C53_positions_pandas (sel : Str → Prop) (depth : Option Int) (ask : Option Coords → Doc → Option Doc) (v : Doc)
    (st : Option Coords) (p : List VStep) (x : Doc) (bc : Option Coords)
    (h : Reached sel depth true ask v st p x bc) : bc = none ∨ bc = st := by
  induction h with
  | root _ => right; rfl
  | key => left; rfl
  | idx p xs bc i x _ _ _ _ ih =>
    have : updBase true p.length bc i = bc := by simp [updBase]
    rw [this]; exact ih

/-- C53. Without it, the element in row `i` and column `j` of a captured table is given its own position. -/
theorem C53_positions_no_pandas (sel : Str → Prop) (ask : Option Coords → Doc → Option Doc) (v : Doc)
    (c : Coords) (i j : Nat) (x : Doc) (bc : Option Coords)
    (h : Reached sel none false ask v (some c) [.idx i, .idx j] x bc) :
    bc = some ⟨c.row + i, c.col + j⟩ := by
  have h1 := (reached_iff (cfg := ⟨fun k => by classical exact decide (sel k), none, false⟩) (by simp) _ _ _).1 h
  simp only [reach] at h1
  simp at h1
  cases v <;> simp at h1
  rename_i xs
  obtain ⟨_, h1⟩ := h1
  cases hi : xs[i]? with
  | none => rw [hi] at h1; simp at h1
  | some y =>
    rw [hi] at h1
    simp only [Option.bind_some] at h1
    cases y <;> simp at h1
    rename_i ys
    obtain ⟨_, h1⟩ := h1
    cases hj : ys[j]? with
    | none => rw [hj] at h1; simp at h1
    | some z =>
      rw [hj] at h1
      simp [updBase] at h1
      exact h1.2.symm

end Props
