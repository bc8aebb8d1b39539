import Verif.Model.Pstep
/-
Model of the creation of steps from a dataframe, `pandalone/mappings.py`.
-/
namespace Model
open Py

mutual
/-- The objects that `pmods_from_tuples` leaves on the heap, for the mappings it returns (`Model.pmodsFromTuples`, which holds them
by value). They share nothing; the order in which they are allocated is immaterial. -/
def storePmod (h : List PmodObj) : Pmod → List PmodObj × Nat
  | .mk a s r =>
    let hs := storePmods h s
    let hr := storePmods hs.1 r
    (hr.1 ++ [⟨a, hs.2, hr.2⟩], hr.1.length)
/-- The same for the entries of a dictionary. -/
def storePmods (h : List PmodObj) : List (Str × Pmod) → List PmodObj × List (Str × Nat)
  | [] => (h, [])
  | (k, p) :: t =>
    let hp := storePmod h p
    let ht := storePmods hp.1 t
    (ht.1, (k, hp.2) :: ht.2)
end

/-- A row of the dataframe: its index (a path), the text in the column of names, and the values in the other columns, with the
names of these (`zip(attributes, attr_values)`). -/
structure DfRow (V : Type) where
  path : Str
  name : Str
  vals : List (Str × V)

/-- The private attributes set on steps, by step and name (without the leading underscore). -/
abbrev StepAttrs (V : Type) := List ((Nat × Str) × V)

/-- `pandalone/mappings.py:1335-1336`: `setattr(cstep, "_%s" % attr, aval)`, for columns that are not called like the attributes
and methods that steps have already (such as `tags` or `locked`). -/
def setAttrs {V : Type} (attrs : StepAttrs V) (c : Nat) (vals : List (Str × V)) : StepAttrs V :=
  vals.foldl (fun m kv => dset m (c, kv.1) kv.2) attrs

/-- `pandalone/mappings.py:1332-1336` the loop over the rows. Where `getattr` gives a method of texts, no attribute can be set. -/
def dfLoop {V : Type} (F : Nat) (E : RegexLib) (s : Nat) : PsState → StepAttrs V → List (DfRow V) →
    Except PyErr (PsState × StepAttrs V)
  | σ, attrs, [] => .ok (σ, attrs)
  | σ, attrs, row :: rows =>
    match getAttr F E σ s (row.path.drop 1) with
    | (_, .error e) => .error e
    | (σ', .ok none) => if row.vals.isEmpty then dfLoop F E s σ' attrs rows else .error .attributeError
    | (σ', .ok (some c)) => dfLoop F E s σ' (setAttrs attrs c row.vals) rows

/-- A row that `pmods_from_tuples` does not accept, `pandalone/mappings.py:669`. -/
def DfRow.blank {V : Type} (r : DfRow V) : Bool := r.path.isEmpty && r.name.isEmpty

/-- `pandalone/mappings.py:667-684` `pmods_from_tuples` when it is given a `zip`: the warning about the first pair that is not
accepted asks for the number of pairs, which a `zip` does not know (line 671, `len(pmods_tuples)`). Missing names are not modelled. -/
def pmodsFromZip {V : Type} (E : RegexLib) (rows : List (DfRow V)) : Except PyErr Pmod :=
  match pmodsFromTuples E ((rows.takeWhile (fun r => !r.blank)).map (fun r => (some r.path, some r.name))) with
  | .error e => .error e
  | .ok pm => if rows.any DfRow.blank then .error .typeError else .ok pm

/-- `pandalone/mappings.py:1312-1338` `pstep_from_df`: the objects, the attributes set and the step returned. -/
def pstepFromDf {V : Type} (F : Nat) (E : RegexLib) (rows : List (DfRow V)) : Except PyErr (PsState × StepAttrs V × Nat) :=
  match pmodsFromZip E rows with
  | .error e => .error e
  | .ok pm =>
    let hr := storePmod [] pm
    match newStep F E ⟨hr.1, [], []⟩ [] (.pmod hr.2) none [] with
    | (_, .error e) => .error e
    | (σ, .ok s) =>
      match dfLoop F E s σ [] rows with
      | .error e => .error e
      | .ok (σ', attrs) => .ok (σ', attrs, s)

end Model
