import Verif.Model.MakeDirs
/-
File systems.
-/
namespace Spec
open Py Model

/-- A file system: what is there is in a directory. -/
structure FileSystem (t : FsTree) : Prop where
  root : t [] = .dir
  inside : ∀ q, q ≠ [] → t q ≠ .absent → t q.dropLast = .dir

end Spec
