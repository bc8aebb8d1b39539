import Verif.Py.Str
/-
Model of `build_all_jsonpaths`, pandalone/pandata.py.
-/
namespace Model
open Py

/-- A json-schema, as far as `build_all_jsonpaths` looks at it (pandalone/pandata.py:1337-1350): the
alternatives under "oneOf", "anyOf" and "allOf" and the pairs under "properties" in their order.
A missing key is the empty list, which the code does not tell apart from it. Sub-schemas that are no
dictionaries (where the code raises AttributeError) are left out. -/
inductive Schema
  | mk (oneOf anyOf allOf : List Schema) (props : List (Str × Schema))

def Schema.oneOf : Schema → List Schema | .mk a _ _ _ => a
def Schema.anyOf : Schema → List Schema | .mk _ a _ _ => a
def Schema.allOf : Schema → List Schema | .mk _ _ a _ => a
def Schema.props : Schema → List (Str × Schema) | .mk _ _ _ a => a

mutual
/-- `_visit(schema, path, paths)`, pandalone/pandata.py:1339-1351: what it appends to `paths`. -/
def visitSchema : Schema → Str → List Str
  | .mk one any all [], path =>
    visitForks one path ++ visitForks any path ++ visitForks all path ++ [path]
  | .mk one any all (p :: ps), path =>
    visitForks one path ++ visitForks any path ++ visitForks all path ++ visitProps (p :: ps) path
/-- The loop over one of the forks, pandalone/pandata.py:1341-1344. -/
def visitForks : List Schema → Str → List Str
  | [], _ => []
  | s :: l, path => visitSchema s path ++ visitForks l path
/-- The loop over the properties, pandalone/pandata.py:1348-1349. -/
def visitProps : List (Str × Schema) → Str → List Str
  | [], _ => []
  | (p, s) :: l, path => visitSchema s (path ++ ('/' :: p)) ++ visitProps l path
end

/-- `build_all_jsonpaths(schema)`, pandalone/pandata.py:1335-1356. -/
def buildAllJsonpaths (schema : Schema) : List Str := visitSchema schema []

end Model
