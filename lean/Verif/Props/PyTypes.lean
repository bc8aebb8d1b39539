import Verif.Spec.PyTypes
/-
C120: the JSON types of Python values, those of *pandas* and *numpy* included.
-/
namespace Props
open Py Model Spec

private theorem held_one {h : Held} (hn : h.numeric = true) (hl : h.nans.length = 1) (ha : h.nans.all id = true) :
    h = ⟨true, [true]⟩ := by
  obtain ⟨nm, ns⟩ := h
  match ns, hl with
  | [b], _ =>
    simp only [List.all_cons, List.all_nil, id, Bool.and_true] at ha
    simp only at hn
    rw [hn, ha]

private theorem held_null {h : Held} :
    ((if h.nans.length = 1 then (if h.numeric then some (h.nans.all id) else none).getD false else false) = true) ↔
      h = ⟨true, [true]⟩ := by
  constructor
  · intro e
    by_cases h1 : h.nans.length = 1
    · rw [if_pos h1] at e
      by_cases h2 : h.numeric = true
      · rw [if_pos h2] at e
        exact held_one h2 h1 e
      · rw [if_neg h2] at e
        exact absurd e (by decide)
    · rw [if_neg h1] at e
      exact absurd e (by decide)
  · rintro rfl
    rfl

/-- C120: a value counts as null exactly if it is `None` or NaN or holds just a NaN, except for NaNs of Python
that are not the object `np.nan`. -/
theorem C120_null_partial (v : PyThing) (h : ¬ OwnNan v) : pyIsType .null v = true ↔ v = .none ∨ IsNan v := by
  cases v with
  | ndarray sh hd =>
    refine (held_null (h := hd)).trans ⟨?_, ?_⟩
    · rintro rfl; exact .inr (.ndarray _)
    · rintro (e | e)
      · cases e
      · cases e; rfl
  | series hd =>
    refine (held_null (h := hd)).trans ⟨?_, ?_⟩
    · rintro rfl; exact .inr .series
    · rintro (e | e)
      · cases e
      · cases e; rfl
  | frame r c hd =>
    refine (held_null (h := hd)).trans ⟨?_, ?_⟩
    · rintro rfl; exact .inr (.frame _ _)
    · rintro (e | e)
      · cases e
      · cases e; rfl
  | none => exact ⟨fun _ => .inl rfl, fun _ => rfl⟩
  | npNan => exact ⟨fun _ => .inr .npNan, fun _ => rfl⟩
  | npFloat n => cases n with
    | true => exact ⟨fun _ => .inr .npFloat, fun _ => rfl⟩
    | false => exact ⟨fun e => (by cases e), fun e => by rcases e with e | e <;> cases e⟩
  | float n => cases n with
    | true => exact absurd rfl h
    | false => exact ⟨fun e => (by cases e), fun e => by rcases e with e | e <;> cases e⟩
  | _ => exact ⟨fun e => (by cases e), fun e => by rcases e with e | e <;> cases e⟩

/-- C120: what every value is taken for: as the table says, but for arrays that do not have one dimension, which are
arrays too, and NaNs of Python that are not the object `np.nan`, which are not null. -/
theorem C120_exact (t : JType) (v : PyThing) :
    pyIsType t v = true ↔ (TypedAs t v ∧ ¬ (t = .null ∧ OwnNan v)) ∨ (t = .array ∧ OtherDims v) := by
  by_cases ht : t = .null
  · subst ht
    by_cases hn : OwnNan v
    · have : v = .float true := hn
      subst this
      refine ⟨fun h => absurd h Bool.false_ne_true, ?_⟩
      rintro (⟨-, h⟩ | ⟨h, -⟩)
      · exact absurd ⟨rfl, hn⟩ h
      · cases h
    rw [C120_null_partial v hn]
    constructor
    · rintro (rfl | h)
      · exact .inl ⟨.none, fun h => hn h.2⟩
      · exact .inl ⟨.nan v h, fun h => hn h.2⟩
    · rintro (⟨h, -⟩ | ⟨h, -⟩)
      · cases h with
        | none => exact .inl rfl
        | nan _ h => exact .inr h
      · cases h
  · constructor
    · intro h
      cases v with
      | ndarray shape held =>
        cases t <;> first | exact absurd rfl ht | exact absurd h Bool.false_ne_true | skip
        match shape with
        | [n] => exact .inl ⟨.ndarray n held, fun h => by cases h.1⟩
        | [] => exact .inr ⟨rfl, by simp [OtherDims]⟩
        | _ :: _ :: _ => exact .inr ⟨rfl, by simp [OtherDims]⟩
      | _ =>
        refine .inl ⟨?_, fun h => ht h.1⟩
        cases t <;> first | exact absurd rfl ht | exact absurd h Bool.false_ne_true | (constructor)
    · rintro (⟨h, -⟩ | ⟨rfl, h⟩)
      · cases h with
        | none => exact absurd rfl ht
        | nan _ _ => exact absurd rfl ht
        | _ => rfl
      · cases v <;> first | exact h.elim | rfl

/-- C120: a value is taken for a JSON type exactly as the table says, except for arrays that do not have one
dimension and NaNs of Python that are not the object `np.nan`. -/
theorem C120_types_partial (t : JType) (v : PyThing) (hd : t = .array → ¬ OtherDims v) (hn : t = .null → ¬ OwnNan v) :
    pyIsType t v = true ↔ TypedAs t v := by
  rw [C120_exact]
  constructor
  · rintro (⟨h, -⟩ | ⟨h1, h2⟩)
    · exact h
    · exact absurd h2 (hd h1)
  · exact fun h => .inl ⟨h, fun h => hn h.1 h.2⟩

/-- C120: no text is an array, no boolean is a number, and so on: a value that is not null has two types only
if it is a `Series` (an object and an array) or an integer (which is a number). -/
theorem C120_one_type (t u : JType) (v : PyThing) (ht : pyIsType t v = true) (hu : pyIsType u v = true)
    (hn : pyIsType .null v = false) : t = u ∨
    (∃ h, v = .series h ∧ ((t = .object ∧ u = .array) ∨ (t = .array ∧ u = .object))) ∨
    (pyIsType .integer v = true ∧ ((t = .integer ∧ u = .number) ∨ (t = .number ∧ u = .integer))) := by
  cases v with
  | series h =>
    cases t <;> cases u <;> first
      | exact .inl rfl
      | exact absurd ht Bool.false_ne_true
      | exact absurd hu Bool.false_ne_true
      | (rw [hn] at ht; cases ht)
      | (rw [hn] at hu; cases hu)
      | exact .inr (.inl ⟨h, rfl, .inl ⟨rfl, rfl⟩⟩)
      | exact .inr (.inl ⟨h, rfl, .inr ⟨rfl, rfl⟩⟩)
  | _ =>
    cases t <;> cases u <;> first
      | exact .inl rfl
      | exact absurd ht Bool.false_ne_true
      | exact absurd hu Bool.false_ne_true
      | (rw [hn] at ht; cases ht)
      | (rw [hn] at hu; cases hu)
      | exact .inr (.inr ⟨rfl, .inl ⟨rfl, rfl⟩⟩)
      | exact .inr (.inr ⟨rfl, .inr ⟨rfl, rfl⟩⟩)

/-- C120: the checks on documents, that the properties of whole validations are about (C89 to C92, C110,
C111), are the checks on the Python values that the documents stand for. -/
theorem C120_documents (f : VFlags) (atom : Nat → PyThing) (hf : ∀ n, Floating (atom n))
    (hnum : ∀ n, f.num n = pyIsType .number (atom n)) (hnan : ∀ n, f.nan n = pyIsType .null (atom n))
    (t : JType) (d : Doc) : f.isType t d = pyIsType t (thing atom d) := by
  cases d with
  | atom n =>
    have key : ∀ v, Floating v → t ≠ .null → t ≠ .number → pyIsType t v = false := by
      rintro v (rfl | ⟨n, rfl⟩ | ⟨n, rfl⟩) h1 h2 <;> cases t <;>
        first | exact absurd rfl h1 | exact absurd rfl h2 | rfl
    cases t with
    | number => exact hnum n
    | null => exact hnan n
    | _ => exact (key _ (hf n) (by decide) (by decide)).symm
  | _ => cases t <;> rfl

/-- C120 is false of arrays: any number of dimensions makes an array. -/
theorem C120_dims_refuted : ∃ v, OtherDims v ∧ pyIsType .array v = true ∧ ¬ TypedAs .array v :=
  ⟨.ndarray [2, 3] ⟨true, [false, false, false, false, false, false]⟩, by simp [OtherDims], rfl, fun h => by cases h⟩

/-- C120 is false of NaNs: one that Python made is not null. -/
theorem C120_nan_refuted : pyIsType .null (.float true) = false ∧ TypedAs .null (.float true) :=
  ⟨rfl, .nan _ .float⟩

/-! Cases that meet the hypotheses. -/
example : ¬ OtherDims (.ndarray [3] ⟨true, [false, true, false]⟩) ∧ ¬ OwnNan (.ndarray [3] ⟨true, [false, true, false]⟩) ∧
    TypedAs .array (.ndarray [3] ⟨true, [false, true, false]⟩) :=
  ⟨by simp [OtherDims], fun h => (by cases h), .ndarray _ _⟩
example : ¬ OwnNan (.npFloat true) ∧ IsNan (.npFloat true) := ⟨fun h => (by cases h), .npFloat⟩
example : pyIsType .object (.series ⟨true, [false]⟩) = true ∧ pyIsType .array (.series ⟨true, [false]⟩) = true ∧
    pyIsType .null (.series ⟨true, [false]⟩) = false := by decide
example : ∀ n : Nat, Floating (if n = 0 then .npNan else .float false) := by
  intro n
  by_cases h : n = 0
  · exact .inl (if_pos h)
  · exact .inr (.inl ⟨false, if_neg h⟩)

end Props
