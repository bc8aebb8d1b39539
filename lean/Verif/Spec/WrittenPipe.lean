import Verif.Spec.WrittenFilter
import Verif.Model.PipeLeft
/-
Vocabulary for pipes of filters written after references, for C158.
-/
namespace Spec
open Py Model

/-- What filters come to one after the other, the first on this lasso and each later one on what the one before it came to (see `Comes`), under the
options that it has: a result, or nothing if one fails, is of no documented form, or came to no lasso with options for the next. -/
inductive PipeComes {S : Type} (R : Ranger S) : List Doc → Lasso S → Option (FRes S) → Prop
  | done (l : Lasso S) : PipeComes R [] l (some (.lasso l))
  | step (d : Doc) (ds : List Doc) (l l' : Lasso S) (o : Opts) (f : Str) (a : List Doc) (k : List (Str × Doc)) (out : Option (FRes S)) :
      CallForm d f a k → l.opts = some o → Comes R o l f a k (.ok (.lasso l')) → PipeComes R ds l' out → PipeComes R (d :: ds) l out
  | unreadable (d : Doc) (ds : List Doc) (l : Lasso S) : (∀ f a k, ¬ CallForm d f a k) → PipeComes R (d :: ds) l none
  | failed (d : Doc) (ds : List Doc) (l : Lasso S) (o : Opts) (f : Str) (a : List Doc) (k : List (Str × Doc)) (e : PyErr) :
      CallForm d f a k → l.opts = some o → Comes R o l f a k (.error e) → PipeComes R (d :: ds) l none
  | noOptions (d : Doc) (ds : List Doc) (l : Lasso S) : l.opts = none → PipeComes R (d :: ds) l none
  | noLassoLast (d : Doc) (l : Lasso S) (o : Opts) (f : Str) (a : List Doc) (k : List (Str × Doc)) (x : Doc) :
      CallForm d f a k → l.opts = some o → Comes R o l f a k (.ok (.other x)) → PipeComes R [d] l (some (.other x))
  | noLasso (d e : Doc) (ds : List Doc) (l : Lasso S) (o : Opts) (f : Str) (a : List Doc) (k : List (Str × Doc)) (x : Doc) :
      CallForm d f a k → l.opts = some o → Comes R o l f a k (.ok (.other x)) → PipeComes R (d :: e :: ds) l none

/-- What comes of a pipe whose filters come to this: what the last filter returned; if there is nothing, or no lasso, `ValueError`, unless the pipe is
lax: then what the pipe was given, or what the last filter returned. -/
inductive PipeGives {S : Type} (o : Opts) (l : Lasso S) (k : List (Str × Doc)) : Option (FRes S) → Except PyErr (FRes S) → Prop
  | done (l' : Lasso S) : PipeGives o l k (some (.lasso l')) (.ok (.lasso l'))
  | failed : ¬ Lax o k → PipeGives o l k none (.error .valueError)
  | failedLax : Lax o k → PipeGives o l k none (.ok (.lasso l))
  | wrong (x : Doc) : ¬ Lax o k → PipeGives o l k (some (.other x)) (.error .valueError)
  | wrongLax (x : Doc) : Lax o k → PipeGives o l k (some (.other x)) (.ok (.other x))

/-- A filter that calls these filters one after the other, in any of the documented forms. -/
def IsPipe (d : Doc) (ds : List Doc) : Prop := ∃ k, CallForm d "pipe".toList ds k

/-- A filter that goes through the values: `recurse` or `pyeval`. -/
def GoesThrough {S : Type} (U : Setup S) (f : Str) : Prop :=
  ∃ kind desc, U.filters f = some (kind, desc) ∧ (kind = .recurse ∨ ∃ eval, kind = .pyeval eval)

/-- Filters that go through the values, one after the other, each on what the one before it made. -/
inductive MadeInPlace {S : Type} (U : Setup S) (R : RangerLeft S) : List Doc → Lasso S → Lasso S → Prop
  | none (l : Lasso S) : MadeInPlace U R [] l l
  | next (d : Doc) (ds : List Doc) (f : Str) (a : List Doc) (k : List (Str × Doc)) (l l1 l2 : Lasso S) :
      CallForm d f a k → GoesThrough U f → R.makeCall (.lasso l) f a k = .ok (.lasso l1) → MadeInPlace U R ds l1 l2 → MadeInPlace U R (d :: ds) l l2

/-- A filter fails, and leaves this of the values that it was given: all, if it cannot be read or is not there; else what it left. -/
inductive FailsLeaving {S : Type} (R : RangerLeft S) (d : Doc) (l : Lasso S) : Doc → Prop
  | unreadable : (∀ f a k, ¬ CallForm d f a k) → FailsLeaving R d l l.values
  | absent (f : Str) (a : List Doc) (k : List (Str × Doc)) (o : Opts) :
      CallForm d f a k → R.filters f = none → l.opts = some o → ¬ Lax o k → FailsLeaving R d l l.values
  | failed (f : Str) (a : List Doc) (k : List (Str × Doc)) (o : Opts) (rec : FRecLeft S) (v : Doc) (e : PyErr) :
      CallForm d f a k → R.filters f = some rec → l.opts = some o → ¬ Lax o k → rec.func l a (withoutLax k) = (v, .error e) → FailsLeaving R d l v

end Spec
