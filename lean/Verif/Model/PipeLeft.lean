import Verif.Model.InPlace
/-
Model of what `pipe_filter` of `pandalone/xleash/_filter.py` leaves of the values that it is given, when some of its filters change them in place.
-/
namespace Model
open Py

/-- Whether a value can be changed in place. -/
def Doc.mutable : Doc → Bool
  | .list _ => true
  | .dict _ => true
  | _ => false

/-- Whether a filter goes through values and changes them in place, `pandalone/xleash/_filter.py:373-396, 440-499`. -/
def Setup.elementWise {S : Type} (U : Setup S) (func : Str) : Bool := match U.filters func with
  | some (.recurse, _) => true
  | some (.pyeval _, _) => true
  | _ => false

/-- `pandalone/xleash/_filter.py:34-45` `pipe_filter`: what is left of the values of the lasso given. A filter that goes through values returns the
list or dictionary that it was given (`run_filter_elementwise`, lines 345-353), and so does a lax call that fails (`pandalone/xleash/_lasso.py:124-136`): the
next filter changes it further. Simplification: what other filters return is taken to share nothing with what they were given. -/
def Setup.pipeLeft {S : Type} (U : Setup S) (others : OthersLeave S) (n : Nat) : List Doc → Lasso S → Doc
  | [], l => l.values
  | d :: ds, l => match parseCallSpec d with
    | .error _ => l.values
    | .ok c =>
      let R := U.rangerLeft others n
      match R.filters c.func with
      | none => match R.makeCall (.lasso l) c.func c.args c.kwds with
        | .ok (.lasso l') => U.pipeLeft others n ds l'
        | _ => l.values
      | some rec => match rec.func l c.args (ddel c.kwds "lax".toList) with
        | (left, .error _) => match R.makeCall (.lasso l) c.func c.args c.kwds with
          | .ok (.lasso l') => U.pipeLeft others n ds l'
          | _ => left
        | (left, .ok (.other _)) => left
        | (left, .ok (.lasso l')) =>
          if U.elementWise c.func && l.values.mutable then U.pipeLeft others n ds l' else left

/-- A `Ranger` with stack left for `n + 1` filters within one another, see `Setup.rangerLeft`, for whose pipes it is known what they leave. -/
def Setup.rangerPipes {S : Type} (U : Setup S) (others : OthersLeave S) (n : Nat) : RangerLeft S :=
  ⟨U.fetch, U.baseOpts, fun f => match U.filters f with
    | some (.pipe, desc) => some ⟨fun l args _ => (U.pipeLeft others n args l, (U.rangerLeft others n).pipe args (.lasso l)), desc⟩
    | _ => (U.rangerLeft others (n + 1)).filters f⟩

end Model
