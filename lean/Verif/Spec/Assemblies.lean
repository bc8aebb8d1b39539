import Verif.Model.Assemblies
/-
The components in an assembly, at whatever depth.
-/
namespace Spec
open Model

mutual
/-- The components made from functions, from left to right. -/
def leaves : Part → List Comp
  | .comp c => [c]
  | .assembly ps => leavesOf ps
def leavesOf : List Part → List Comp
  | [] => []
  | p :: ps => leaves p ++ leavesOf ps
end
end Spec
