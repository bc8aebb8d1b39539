import Verif.Model.Stages
/-
What "how far a lasso got" means.
-/
namespace Spec
open Py Model

/-- The stages of throwing a lasso, by number and name, with the lasso that each produces:
the context, with the options of the ranger; the reference, parsed and merged into it; the sheet, opened; the rectangle, resolved (or
found empty); its values, read; and a call of the filter of the reference, which gets that lasso. -/
inductive StageOf {S : Type} (R : RangerI S) (A : SheetApi S) (jsonLoads : Str → Option Doc) (xlref : Str) (ctx : Lasso S) :
    Nat → Str → Lasso S → Prop
  | context : StageOf R A jsonLoads xlref ctx 0 "context".toList { ctx with opts := some [R.baseOpts] }
  | parse (l : Lasso S) : R.plain.parseMerge jsonLoads xlref ctx = .ok l → StageOf R A jsonLoads xlref ctx 1 "parse".toList l
  | opened (l : Lasso S) (sheet : S) : StageOf R A jsonLoads xlref ctx 1 "parse".toList l →
      R.fetch l.urlFile l.shName l.sheet = .ok sheet →
      StageOf R A jsonLoads xlref ctx 2 "open".toList { l with sheet := some sheet }
  | captured (l : Lasso S) (sheet : S) (st : Coords) (nd : Option Coords) : StageOf R A jsonLoads xlref ctx 2 "open".toList l →
      l.sheet = some sheet → resolveRect A l sheet = .ok (some (st, nd)) →
      StageOf R A jsonLoads xlref ctx 3 "capture".toList { l with st := some st, nd := nd }
  | capturedEmpty (l : Lasso S) (sheet : S) : StageOf R A jsonLoads xlref ctx 2 "open".toList l →
      l.sheet = some sheet → resolveRect A l sheet = .ok none →
      StageOf R A jsonLoads xlref ctx 3 "capture".toList { l with st := none, nd := none }
  | read (l : Lasso S) (sheet : S) (st : Coords) (v : Captured) : StageOf R A jsonLoads xlref ctx 3 "capture".toList l →
      l.sheet = some sheet → l.st = some st → A.readRect sheet st l.nd = .ok v →
      StageOf R A jsonLoads xlref ctx 4 "read_rect".toList { l with values := v.toDoc }
  | readEmpty (l : Lasso S) : StageOf R A jsonLoads xlref ctx 3 "capture".toList l → l.st = none → l.nd = none →
      StageOf R A jsonLoads xlref ctx 4 "read_rect".toList { l with values := .list [] }
  | filter (l : Lasso S) (c : CallSpec) : StageOf R A jsonLoads xlref ctx 4 "read_rect".toList l → l.callSpec = some c →
      StageOf R A jsonLoads xlref ctx 5 c.func l

/-- A filter that does not use the ranger. -/
def Quiet {S : Type} (R : RangerI S) : Prop :=
  ∀ name rec, R.filters name = some rec → ∀ l args kwds s, (rec.func l args kwds s).1 = s

/-- A ranger with the same filters as another one, whatever they make the ranger remember. -/
def SameFilters {S : Type} (R : RangerI S) (R' : Ranger S) : Prop :=
  R.fetch = R'.fetch ∧ R.baseOpts = R'.baseOpts ∧ ∀ name,
    match R.filters name, R'.filters name with
    | none, none => True
    | some f, some f' => f.desc = f'.desc ∧ ∀ l args kwds s, (f.func l args kwds s).2 = f'.func l args kwds
    | _, _ => False
end Spec
