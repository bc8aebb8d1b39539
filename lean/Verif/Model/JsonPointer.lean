import Verif.Model.Basic
/-
Model of the json-pointer functions of `pandalone/pandata.py`.
-/
namespace Model
open Py

/-- `pandalone/pandata.py:1047-1048` `escape_jsonpointer_part`. -/
def escapePart (part : Str) : Str := replace1 '/' ['~', '1'] (replace1 '~' ['~', '0'] part)

/-- `pandalone/pandata.py:1051-1052` `unescape_jsonpointer_part`. -/
def unescapePart (part : Str) : Str := replace2 '~' '0' ['~'] (replace2 '~' '1' ['/'] part)

/-- `pandalone/pandata.py:1055-1107` `iter_jsonpointer_parts`, as the list of all generated parts
(the only exception is raised before the first part). -/
def iterParts (jsonpath : Str) : Except PyErr (List Str) :=
  match splitOn '/' jsonpath with
  | [] :: parts => .ok (parts.map unescapePart)
  | _ => .error .refResolution

/-- `pandalone/pandata.py:1110-1138` `iter_jsonpointer_parts_relaxed`. -/
def iterPartsRelaxed (jsonpointer : Str) : List Str := (splitOn '/' jsonpointer).map unescapePart

/-- The subscript made from a part, `pandalone/pandata.py:1177-1182`: numbers for sequences. -/
def partIdx (doc : Doc) (part : Str) : Idx :=
  if doc.isSeq then
    match pyInt part with
    | some n => .i n
    | none => .s part
  else .s part

/-- The loop of `resolve_jsonpointer`, `pandalone/pandata.py:1176-1191`;
`none` when a subscript fails. -/
def resolveParts (doc : Doc) : List Str → Option Doc
  | [] => some doc
  | part :: parts =>
    match doc.getItem (partIdx doc part) with
    | .ok d => resolveParts d parts
    | .error _ => none

/-- `pandalone/pandata.py:1144-1193` `resolve_jsonpointer`; `default = none` is `_scream`. -/
def resolveJsonPointer (doc : Doc) (jsonpointer : Str) (default : Option Doc) : Except PyErr Doc :=
  match iterParts jsonpointer with
  | .error e => .error e
  | .ok parts =>
    match resolveParts doc parts with
    | some d => .ok d
    | none =>
      match default with
      | none => .error .refResolution
      | some v => .ok v

/-- `pandalone/pandata.py:1043-1044` `Pandel.get`: the resolved value is computed, and dropped
(there is no `return`). -/
def pandelGet (model : Doc) (path : Str) (default : Option Doc) : Except PyErr Doc :=
  match resolveJsonPointer model path default with
  | .error e => .error e
  | .ok _ => .ok .null

/-- One part of `resolve_path`, `pandalone/pandata.py:1232-1253`: the resolvers in order.
`attr` is Python's `getattr` (`none` is AttributeError); `root` is the optional root document.
Note that `root or doc` uses the *current* document, since the loop reassigns `doc`. -/
def resolvePathPart (attr : Doc → Str → Option Doc) (root : Option Doc) (doc : Doc) (part : Str) :
    Option Doc :=
  let byInt : Option Doc :=
    if doc.isSeq then
      match pyInt part with
      | some n => match doc.getItem (.i n) with
        | .ok d => some d
        | .error _ => none
      | none => none
    else none
  let byKey : Option Doc := match doc.getItem (.s part) with
    | .ok d => some d
    | .error _ => none
  let byRoot : Option Doc :=
    if part = [] then
      match root with
      | some r => if r.truthy then some r else some doc
      | none => some doc
    else none
  byInt <|> byKey <|> attr doc part <|> byRoot

/-- The loop of `resolve_path`, `pandalone/pandata.py:1243-1256`. -/
def resolvePathParts (attr : Doc → Str → Option Doc) (root : Option Doc) (doc : Doc) :
    List Str → Option Doc
  | [] => some doc
  | part :: parts =>
    match resolvePathPart attr root doc part with
    | some d => resolvePathParts attr root d parts
    | none => none

/-- `pandalone/pandata.py:1196-1256` `resolve_path`. -/
def resolvePath (attr : Doc → Str → Option Doc) (doc : Doc) (path : Str) (default : Option Doc)
    (root : Option Doc) : Except PyErr Doc :=
  match resolvePathParts attr root doc (iterPartsRelaxed path) with
  | some d => .ok d
  | none =>
    match default with
    | none => .error .refResolution
    | some v => .ok v

/-- `pandalone/pandata.py:1311-1315`: the new branch of nested dictionaries ending in the value. -/
def mkBranch (value : Doc) : List Str → Doc
  | [] => value
  | part2 :: parts => .dict [(part2, mkBranch value parts)]

/-- The subscript used by `set_jsonpointer`, `pandalone/pandata.py:1275-1294`. -/
def setIdx (doc : Doc) (part : Str) : Except PyErr Idx :=
  match doc with
  | .list xs =>
    if part = ['-'] then .ok (.i xs.length)
    else match pyInt part with
      | none => .error .refResolution
      | some n => if n > xs.length then .error .refResolution else .ok (.i n)
  | _ => .ok (.s part)

/-- `doc[part] = nbranch` with the `IndexError` fallback, `pandalone/pandata.py:1318-1323`. -/
def attach (doc : Doc) (idx : Idx) (nbranch : Doc) : Doc :=
  match doc, idx with
  | .dict kvs, .s k => .dict (dset kvs k nbranch)
  | .list xs, .i n =>
    match seqIndex xs.length n with
    | some j => .list (xs.set j nbranch)
    | none => .list (xs ++ [nbranch])
  | d, _ => d   -- not reached: only dictionaries by text and lists by number get here

/-- The loop and final assignment of `set_jsonpointer`, `pandalone/pandata.py:1274-1323`.
Restructured: instead of mutating the parent in place, the new value of `doc` is returned and put
in its place by the caller.  `isRoot` is the first iteration, where `pdoc` is `None`. -/
def setParts (isRoot : Bool) (value : Doc) (doc : Doc) : List Str → Except PyErr Doc
  | [] => .ok value
  | part :: parts =>
    match setIdx doc part with
    | .error e => .error e
    | .ok idx =>
      match doc.getItem idx with
      | .error .lookup => .ok (attach doc idx (mkBranch value parts))
      | .error .type =>
        if isRoot then .error .typeError
        else .ok (.dict [(part, mkBranch value parts)])
      | .ok ndoc =>
        match setParts false value ndoc parts with
        | .error e => .error e
        | .ok ndoc' => .ok (attach doc idx ndoc')

/-- `pandalone/pandata.py:1259-1323` `set_jsonpointer` with the default `object_factory=dict`;
returns the document after the in-place modification.  For the empty pointer the loop variable `i`
is never bound and line 1312 raises `UnboundLocalError`. -/
def setJsonPointer (doc : Doc) (jsonpointer : Str) (value : Doc) : Except PyErr Doc :=
  match iterParts jsonpointer with
  | .error e => .error e
  | .ok [] => .error .unboundLocal
  | .ok parts => setParts true value doc parts

end Model
