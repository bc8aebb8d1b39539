import Verif.Model.Recurring
/-
References that lead to references.
-/
namespace Spec
open Py Model

/-- From some amount of stack on, more of it makes no difference. -/
def Settles {α : Type} (f : Nat → α) : Prop := ∃ N, ∀ n, N ≤ n → f n = f N

/-- A text somewhere in a value, other than as a key. -/
inductive TextIn (u : Str) : Doc → Prop
  | here : TextIn u (.str u)
  | item (xs : List Doc) (x : Doc) : x ∈ xs → TextIn u x → TextIn u (.list xs)
  | value (kvs : List (Str × Doc)) (k : Str) (x : Doc) : (k, x) ∈ kvs → TextIn u x → TextIn u (.dict kvs)

/-- The key `lax` somewhere in a value, with a value that is true. -/
inductive SaysLax : Doc → Prop
  | here (kvs : List (Str × Doc)) (v : Doc) : ("lax".toList, v) ∈ kvs → v.truthy = true → SaysLax (.dict kvs)
  | item (xs : List Doc) (x : Doc) : x ∈ xs → SaysLax x → SaysLax (.list xs)
  | value (kvs : List (Str × Doc)) (k : Str) (x : Doc) : (k, x) ∈ kvs → SaysLax x → SaysLax (.dict kvs)

/-- The values of what a filter returns. -/
def valuesOf {S : Type} : FRes S → Doc
  | .lasso l => l.values
  | .other d => d

/-- A text that is no reference. -/
def NoReference (jsonLoads : Str → Option Doc) (u : Str) : Prop := ∃ e, parseXlref jsonLoads u = .error e

/-- The reference `t` captures this in the context: the call gives it when every filter returns the lasso it is given. -/
def Captures {S : Type} (U : Setup S) (t : Str) (ctx l : Lasso S) : Prop :=
  Ranger.doLasso ⟨U.fetch, U.baseOpts, fun _ => some ⟨fun l _ _ => .ok (.lasso l), true⟩⟩ U.api U.jsonLoads t ctx = .ok (.lasso l)

/-- The context in which a text is looked up that was found in a capture: the sheet, the edges of the capture and the position. -/
def foundIn {S : Type} (sheet : Option S) (st nd bc : Option Coords) : Lasso S := { sheet := sheet, st := st, nd := nd, baseCoords := bc }

/-- The reference `u` is among what the reference `t`, found in some capture, captures. -/
def Leads {S : Type} (U : Setup S) (u t : Str) : Prop :=
  ∃ sheet st nd bc l, Captures U t (foundIn sheet st nd bc) l ∧ TextIn u l.values ∧ ¬ NoReference U.jsonLoads u

/-- No infinite chain of references, each among what the one before captures. -/
def NoCycles {S : Type} (U : Setup S) : Prop := WellFounded (Leads U)

/-- Filters make no references: texts in what they return are in what they are given, or are no references. -/
def MakeNoReferences {S : Type} (U : Setup S) : Prop :=
  ∀ name i, U.filters name = some i → match i.1 with
    | .own f => ∀ l args kwds r, f l args kwds = .ok r →
        ∀ u, TextIn u (valuesOf r) → TextIn u l.values ∨ NoReference U.jsonLoads u
    | .pyeval eval => ∀ t l bc r, eval t l bc = some r →
        ∀ u, TextIn u (valuesOf r) → TextIn u l.values ∨ NoReference U.jsonLoads u
    | _ => True

/-- Filters leave the options as they are. -/
def KeepOptions {S : Type} (U : Setup S) : Prop :=
  ∀ name i, U.filters name = some i → match i.1 with
    | .own f => ∀ l args kwds l', f l args kwds = .ok (.lasso l') → l'.opts = l.opts
    | .pyeval eval => ∀ t l bc l', eval t l bc = some (.lasso l') → l'.opts = none ∨ l'.opts = l.opts
    | _ => True

/-- Nothing is lax: not the options of the ranger, and no JSON that references contain. -/
def NothingLax {S : Type} (U : Setup S) : Prop :=
  (Opts.get [U.baseOpts] "lax".toList (.bool false)).truthy = false ∧
    ∀ t d, U.jsonLoads t = some d → ¬ SaysLax d

end Spec
