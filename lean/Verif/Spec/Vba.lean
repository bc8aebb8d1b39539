import Verif.Model.Vba
/-
What it means for VBA code to be imported into a workbook.
-/
namespace Spec
open Py Model

/-- The file lies in the folder (empty, or ending with a separator) and is called `stem`, a dot and `ext`. -/
structure InFolder (file folder stem ext : Str) : Prop where
  file : file = folder ++ stem ++ '.' :: ext
  folder : folder = [] ∨ ∃ f, folder = f ++ ['/'] ∨ folder = f ++ ['\\']
  stem : '/' ∉ stem ∧ '\\' ∉ stem ∧ ':' ∉ stem ∧ ∃ c ∈ stem, c ≠ '.'
  ext : '/' ∉ ext ∧ '\\' ∉ ext ∧ '.' ∉ ext

/-- `after` is `before` without the components called like a file, and then the modules of the files, in their order. -/
def Imported (X : ExcelLib) (files : List Str) (before after : List VbComp) : Prop :=
  ∃ new : List VbComp,
    after = before.filter (fun c => decide (X.fold c.name ∉ files.map (fun f => X.fold (moduleName f)))) ++ new ∧
    new.map VbComp.name = files.map moduleName ∧
    ∀ f ∈ files, ∃ c ∈ new, c.name = moduleName f ∧ ∃ n, X.load f = some (n, c.type, c.code)

/-- The components are the ones saved. -/
def SaveCall.comps : SaveCall → List VbComp
  | .save cs => cs
  | .saveAs _ cs => cs

/-- The name of a macro-enabled workbook or template of Excel. -/
def MacroEnabled (name : Str) : Prop :=
  ∃ stem ext, name = stem ++ '.' :: ext ∧ (∃ c ∈ stem, c ≠ '.') ∧ lower ext ∈ ["xlsm".toList, "xltm".toList, "xlam".toList]

/-- `file` is the path, as written on Windows, of what is called `name` in the folder. -/
inductive FileIn : (folder name file : Str) → Prop
  | here (name) : FileIn [] name name
  | ended (f : Str) (sep : Char) (name) : sep = '/' ∨ sep = '\\' ∨ sep = ':' → FileIn (f ++ [sep]) name (f ++ sep :: name)
  | below (f : Str) (c : Char) (name) : c ≠ '/' → c ≠ '\\' → c ≠ ':' → FileIn (f ++ [c]) name (f ++ c :: '\\' :: name)
end Spec
