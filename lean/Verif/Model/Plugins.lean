import Verif.Model.Pstep
import Verif.Py.Sort
/-
Model of the discovery of plugins in `pandalone/xleash/__init__.py`.
-/
namespace Model
open Py

/-- What loading an entry point and calling what it gives leads to. An exception is a subclass of `Exception`. Each entry point is loaded
once by a call of `_init_plugins`, and called at most once, so that its outcome is all there is to say about it, whatever it depends on. -/
inductive PluginOutcome
  | loadFails
  | notCallable
  | installFails
  | installs
  deriving DecidableEq, Repr

/-- An entry point: its name, its text (`stringify_EntryPoint`, `pandalone/xleash/__init__.py:929-930`), and its outcome. -/
structure EntryPoint where
  name : Str
  text : Str
  outcome : PluginOutcome
  deriving DecidableEq, Repr

/-- What happens, in order: an entry point is loaded, or what it gave is called. -/
inductive PluginEvent
  | load (text : Str)
  | call (text : Str)
  deriving DecidableEq, Repr

/-- `ep.load()` succeeds and gives something callable. -/
def EntryPoint.callable (ep : EntryPoint) : Bool :=
  match ep.outcome with
  | .installFails | .installs => true
  | _ => false

/-- `pandalone/xleash/__init__.py:944-954` the loop that loads: `_plugins_installed`, what happens, and the `plugin_loaders`. -/
def loadPlugins : List EntryPoint → List (Str × Nat) → List (Str × Nat) × List PluginEvent × List EntryPoint
  | [], inst => (inst, [], [])
  | ep :: eps, inst =>
    let inst := dset inst ep.text 0
    match ep.outcome with
    | .loadFails =>
      let r := loadPlugins eps inst
      (r.1, .load ep.text :: r.2.1, r.2.2)
    | _ =>
      let inst := dset inst ep.text 1
      let r := loadPlugins eps inst
      (r.1, .load ep.text :: r.2.1, if ep.callable then ep :: r.2.2 else r.2.2)

/-- `pandalone/xleash/__init__.py:956-967` the loop that installs. -/
def installPlugins : List EntryPoint → List (Str × Nat) → List (Str × Nat) × List PluginEvent
  | [], inst => (inst, [])
  | ep :: eps, inst =>
    let inst := match ep.outcome with
      | .installs => dset inst ep.text 2
      | _ => inst
    let r := installPlugins eps inst
    (r.1, .call ep.text :: r.2)

/-- `sorted(entry_points, key=lambda ep: ep.name)`, `pandalone/xleash/__init__.py:933-936`. -/
def sortEntryPoints (eps : List EntryPoint) : List EntryPoint := sortBy (fun a b => strLt a.name b.name) eps

/-- `pandalone/xleash/__init__.py:882-967` `_init_plugins`, for the entry points found: `_plugins_installed` and what happened. -/
def initPlugins (eps : List EntryPoint) (inst : List (Str × Nat)) : Except PyErr (List (Str × Nat) × List PluginEvent) :=
  if eps.isEmpty then .error .valueError
  else
    let r := loadPlugins (sortEntryPoints eps) inst
    let q := installPlugins r.2.2 r.1
    .ok (q.1, r.2.1 ++ q.2)

end Model
