import Verif.Model.RecurringRun
import Verif.Spec.LassoDesk
import Verif.Spec.Recurring
/-
Following references that are found in cells, on a factory that was used before as against sheets that are opened anew each time.
-/
namespace Spec
open Py Model

/-- The text is no reference to a sheet by its number: if it is a reference with a sheet and no workbook, then the sheet is given by its name. -/
def NoNumber (W : Surroundings) (jsonLoads : Str → Option Doc) (t : Str) : Prop :=
  ∀ p, parseXlref jsonLoads t = .ok p → p.urlFile = none → ∀ n, p.frag.shName = some n → ∀ url, ByName W url n

/-- No text in the value refers to a sheet by its number. -/
def NoNumbers (W : Surroundings) (jsonLoads : Str → Option Doc) (d : Doc) : Prop := ∀ t, TextIn t d → NoNumber W jsonLoads t

/-- The same outcome, without references to sheets by number in its values. -/
inductive SafeEnd (W : Surroundings) (jsonLoads : Str → Option Doc) (given : List SheetObj) :
    Except PyErr (FRes SheetObj) → Except PyErr (FRes BookSheet) → Prop
  | lasso (l l') : SameLasso given l l' → NoNumbers W jsonLoads l'.values → SafeEnd W jsonLoads given (.ok (.lasso l)) (.ok (.lasso l'))
  | other (d) : NoNumbers W jsonLoads d → SafeEnd W jsonLoads given (.ok (.other d)) (.ok (.other d))
  | error (e) : SafeEnd W jsonLoads given (.error e) (.error e)

/-- Whatever was fetched before, besides these sheets, the outcome of the program is as `Q` says. -/
def EndsIn (W : Surroundings) {α β : Type} (Q : List SheetObj → Except PyErr α → β → Prop) (given : List SheetObj) (p : Run α) (r : β) : Prop :=
  ∀ order, IsOrder order → ∀ D given0, (∀ s ∈ given, s ∈ given0) → Serving W D given0 →
    ∃ given1, (∀ s ∈ given0, s ∈ given1) ∧ Serving W (p.onDesk W order D).1 given1 ∧ Q given1 (p.onDesk W order D).2 r

/-- Two forms of the same filter: one for a factory, and one for sheets that are opened anew. Those that run other filters are the same by
themselves; expressions and filters of one's own are to treat sheet objects as the sheets that they are for, and are not to make references to
sheets by number. -/
inductive SameFilterKind (W : Surroundings) (jsonLoads : Str → Option Doc) : RunKind → FilterKind BookSheet → Prop
  | pipe : SameFilterKind W jsonLoads .pipe .pipe
  | recurse : SameFilterKind W jsonLoads .recurse .recurse
  | pyeval (e e') : (∀ given l l', SameLasso given l l' → NoNumbers W jsonLoads l'.values → ∀ t bc,
        (e t l bc = none ∧ e' t l' bc = none) ∨
        ∃ r r', e t l bc = some r ∧ e' t l' bc = some r' ∧ SafeEnd W jsonLoads given (.ok r) (.ok r')) →
      SameFilterKind W jsonLoads (.pyeval e) (.pyeval e')
  | own (f f') : (∀ given l l', SameLasso given l l' → NoNumbers W jsonLoads l'.values → ∀ args kwds,
        EndsIn W (SafeEnd W jsonLoads) given (f l args kwds) (f' l' args kwds)) →
      SameFilterKind W jsonLoads (.own f) (.own f')

/-- Two forms of the same ranger: one for a factory, and one for sheets that are opened anew, with no references to sheets by number in the
cells. -/
structure SameSetup (W : Surroundings) (U : RunSetup) (U' : Setup BookSheet) : Prop where
  fetch : U'.fetch = openAnew W
  baseOpts : U'.baseOpts = U.baseOpts
  pandas : U'.pandas = U.pandas
  jsonLoads : U'.jsonLoads = U.jsonLoads
  api : SameApi U.api U'.api
  filters : ∀ n, (U.filters n = none ∧ U'.filters n = none) ∨
    ∃ k k' desc, U.filters n = some (k, desc) ∧ U'.filters n = some (k', desc) ∧ SameFilterKind W U.jsonLoads k k'
  cells : ∀ s st nd v, U'.api.readRect s st nd = .ok v → NoNumbers W U.jsonLoads v.toDoc

end Spec
