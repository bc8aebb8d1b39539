import Verif.Spec.Lasso
import Verif.Model.InPlace
/-
What element-wise filters that fail leave of the captured values, for C154.
-/
namespace Spec
open Py Model

/-- Where the cells of the values of a lasso are said to be when the references in them are followed. -/
def cellContext {S : Type} (l : Lasso S) : Lasso S := { sheet := l.sheet, st := l.st, nd := l.nd, baseCoords := l.st }

/-- What becomes of a cell when the references of a table are followed, `ref` being what the reference leads to: texts that are references
become the values captured there, and all else stays. Nothing if the reference cannot be followed. -/
def becomes {S : Type} (ref : Str → Except PyErr (FRes S)) : Doc → Option Doc
  | .str t => match ref t with
    | .ok (.lasso m) => some m.values
    | .ok (.other d) => some d
    | .error .syntaxError => some (.str t)
    | .error _ => none
  | d => some d

/-- The cell afterwards. -/
def followed {S : Type} (ref : Str → Except PyErr (FRes S)) (c : Doc) : Doc := (becomes ref c).getD c

/-- What becomes of a cell that is evaluated, `eval` being what the text evaluates to. -/
def evaluates {S : Type} (evalAll : Bool) (eval : Str → Option (FRes S)) : Doc → Option Doc
  | .str t => match eval t with
    | some (.lasso m) => some m.values
    | some (.other d) => some d
    | none => if evalAll then none else some (.str t)
  | d => some d

/-- A cell of a sheet: no list and no dictionary. -/
def OneCell : Doc → Prop
  | .list _ => False
  | .dict _ => False
  | _ => True

/-- The values captured from a rectangle. -/
def tableOf (rows : List (List Doc)) : Doc := .list (rows.map .list)

/-- What an element function says to an element: it takes it and gives another value for it, it leaves it alone, or it fails. -/
inductive Answer
  | takes (y : Doc)
  | leaves
  | fails

/-- The answer of an element function; no sub-filters are run. -/
def answerOf {S : Type} (ef : EFun S) (l : Lasso S) (bc : Option Coords) (x : Doc) : Answer := match ef l bc x with
  | .error _ => .fails
  | .ok (false, _) => .leaves
  | .ok (true, .lasso m) => .takes m.values
  | .ok (true, .other d) => .takes d

section
variable (answer : Option Coords → Doc → Answer) (sel : Str → Prop)

mutual
/-- All of a value was gone through, and this is what became of it. Inside dictionaries there are no positions. -/
inductive Done : Option Coords → Doc → Doc → Prop
  | taken (bc d y) : ¬ isDict d → answer bc d = .takes y → Done bc d y
  | cell (bc d) : OneCell d → answer bc d = .leaves → Done bc d d
  | list (bc xs ys) : answer bc (.list xs) = .leaves → DoneList bc xs ys → Done bc (.list xs) (.list ys)
  | dict (bc kvs kvs') : DoneItems kvs kvs' → Done bc (.dict kvs) (.dict kvs')

/-- So were all elements of a list. -/
inductive DoneList : Option Coords → List Doc → List Doc → Prop
  | nil (bc) : DoneList bc [] []
  | cons (bc x y xs ys) : Done bc x y → DoneList bc xs ys → DoneList bc (x :: xs) (y :: ys)

/-- So were all items of a dictionary that are selected, and the others stayed. -/
inductive DoneItems : List (Str × Doc) → List (Str × Doc) → Prop
  | nil : DoneItems [] []
  | item (k x y kvs kvs') : sel k → Done none x y → DoneItems kvs kvs' → DoneItems ((k, x) :: kvs) ((k, y) :: kvs')
  | other (k x kvs kvs') : ¬ sel k → DoneItems kvs kvs' → DoneItems ((k, x) :: kvs) ((k, x) :: kvs')
end

/-- A value was gone through up to an element at which it failed, and this is what is left of it: all before that element was done, that element
and all after it stayed. -/
inductive Halted : Option Coords → Doc → Doc → Prop
  | here (bc d) : ¬ isDict d → answer bc d = .fails → Halted bc d d
  | list (bc pre x post pre' x') : answer bc (.list (pre ++ x :: post)) = .leaves → DoneList answer sel bc pre pre' → Halted bc x x' →
      Halted bc (.list (pre ++ x :: post)) (.list (pre' ++ x' :: post))
  | dict (bc pre k x post pre' x') : DoneItems answer sel pre pre' → sel k → Halted none x x' →
      Halted bc (.dict (pre ++ (k, x) :: post)) (.dict (pre' ++ (k, x') :: post))

end

end Spec
