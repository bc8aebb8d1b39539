import Verif.Model.LassoRun
/-
Model of `with` blocks on a sheets factory, `pandalone/xleash/io/backend.py:247-251`.
-/
namespace Model
open Py

/-- `with factory as sf: ...` (pandalone/xleash/io/backend.py:247-251): the block may do anything with the factory that `Run` can; however it
ends, `__exit__` closes the factory, and returns nothing, so that the exception of the block, if any, goes on. An exception of a closing
(of sheets for which `fails`), `closeErr`, is raised instead. The factory after it, what happened to sheets, the sheets for which
`_close_all` is called at the end (and does not raise), and the result. -/
def Factory.withBlock {α : Type} (order : List SKey → List SKey) (o : Openers) (fails : SheetObj → Bool) (closeErr : PyErr) (f : Factory)
    (block : Run α) : Factory × List Event × List SheetObj × Except PyErr α :=
  let q := block.exec order o f
  let c := q.1.closeOr fails
  (c.1, q.2.1, (closeUntil fails q.1.sheets).1, if c.2 then .error closeErr else q.2.2)

end Model
