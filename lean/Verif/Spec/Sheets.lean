import Verif.Model.Backend
/-
Specification vocabulary for the sheets factory: the ids a sheet is registered under, and the
histories of a factory.
-/
namespace Spec
open Py Model

/-- The ids given as one, several or none at all. -/
def Gives {α : Type} (g : Ids α) (x : α) : Prop :=
  match g with
  | .none => False
  | .one y => x = y
  | .many ys => x ∈ ys

/-- The keys that adding a sheet registers: a non-empty workbook id, of the sheet's own or given, with
a sheet id of its own or given; not giving any sheet id counts as giving the id "no sheet". -/
def Registers (s : SheetObj) (wbs : Ids Str) (shs : Ids ShId) (k : SKey) : Prop :=
  (k.1 = s.wb ∨ Gives wbs k.1) ∧ k.1 ≠ [] ∧
  (k.2 ∈ s.ids ∨ Gives shs k.2 ∨ (k.2 = ShId.none ∧ shs = Ids.none))

/-- An order of visiting a set: all and only its elements. -/
def IsOrder (order : List SKey → List SKey) : Prop := ∀ l k, k ∈ order l ↔ k ∈ l

/-- The histories of a factory: what it is after them, and which sheets were registered under which
keys (`log`). Sheets that are added or come from openers are open. Openers may do anything else. -/
inductive History : Factory → (SKey → SheetObj → Prop) → Prop
  | new : History Factory.new (fun _ _ => False)
  | add {f log f'} (order : List SKey → List SKey) (s : SheetObj) (wbs : Ids Str) (shs : Ids ShId) :
      History f log → IsOrder order → s ∉ f.closed → f.add order s wbs shs = .ok f' →
      History f' (fun k t => log k t ∨ (t = s ∧ Registers s wbs shs k))
  /-- a sheet to be replaced cannot be closed, so that adding (after which the count of openings may be another) raises: the sheet is registered
  under some of the keys -/
  | addRaises {f log f' ks} (fails : SheetObj → Bool) (order : List SKey → List SKey) (s : SheetObj) (wbs : Ids Str) (shs : Ids ShId) (n : Nat) :
      History f log → IsOrder order → s ∉ f.closed → f.addKeysOr fails s (order (deriveKeys s wbs shs)) = (f', ks, true) →
      History { f' with opened := n } (fun k t => log k t ∨ (t = s ∧ k ∈ ks))
  | close {f log} : History f log → History f.close log
  | fetchHit {f log} (order : List SKey → List SKey) (o : Openers) (wb : Option Str) (sh : ShId)
      (base : Option SheetObj) : History f log → IsOrder order →
      (f.fetch order o wb sh base).1.opened = f.opened →
      History (f.fetch order o wb sh base).1 log
  | fetchFail {f log e} (order : List SKey → List SKey) (o : Openers) (wb : Option Str) (sh : ShId)
      (base : Option SheetObj) : History f log → IsOrder order →
      (f.fetch order o wb sh base).2 = .error e →
      History (f.fetch order o wb sh base).1 log
  | fetchOpen {f log s} (order : List SKey → List SKey) (o : Openers) (wb : Option Str) (sh : ShId)
      (base : Option SheetObj) : History f log → IsOrder order →
      (f.fetch order o wb sh base).2 = .ok s → (f.fetch order o wb sh base).1.opened = f.opened + 1 →
      s ∉ f.closed →
      History (f.fetch order o wb sh base).1 (fun k t => log k t ∨ (t = s ∧
        match wb, base with
        | some w, _ => Registers s (.one w) (.one sh) k
        | none, some b => Registers s (.one b.wb) (.one sh) k
        | none, none => False))

end Spec
