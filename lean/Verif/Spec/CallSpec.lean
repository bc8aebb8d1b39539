import Verif.Model.Basic
/-
Specification of the documented forms of a call-specification, and of the filter part of a reference.
-/
namespace Spec
open Py Model

/-- An optional list in a JSON document: absent when null. -/
inductive ArgsForm : Doc → List Doc → Prop
  | null : ArgsForm .null []
  | list (a : List Doc) : ArgsForm (.list a) a

/-- An optional object in a JSON document: absent when null. -/
inductive KwdsForm : Doc → List (Str × Doc) → Prop
  | null : KwdsForm .null []
  | dict (k : List (Str × Doc)) : KwdsForm (.dict k) k

/-- The documented forms: `"f"`, `["f", args, kwds]` with the last two optional and in any order, and
`{"func": "f", "args": .., "kwds": ..}` with the last two optional. -/
inductive CallForm : Doc → Str → List Doc → List (Str × Doc) → Prop
  | name (f : Str) : CallForm (.str f) f [] []
  | list1 (f : Str) : CallForm (.list [.str f]) f [] []
  | listArgs (f : Str) (d : Doc) (a : List Doc) : ArgsForm d a → CallForm (.list [.str f, d]) f a []
  | listKwds (f : Str) (d : Doc) (k : List (Str × Doc)) : KwdsForm d k → CallForm (.list [.str f, d]) f [] k
  | listArgsKwds (f : Str) (d e : Doc) (a : List Doc) (k : List (Str × Doc)) :
      ArgsForm d a → KwdsForm e k → CallForm (.list [.str f, d, e]) f a k
  | listKwdsArgs (f : Str) (d e : Doc) (a : List Doc) (k : List (Str × Doc)) :
      KwdsForm d k → ArgsForm e a → CallForm (.list [.str f, d, e]) f a k
  | object (kvs : List (Str × Doc)) (f : Str) (a : List Doc) (k : List (Str × Doc)) :
      (∀ p ∈ kvs, p.1 = "func".toList ∨ p.1 = "args".toList ∨ p.1 = "kwds".toList) →
      dget kvs "func".toList = some (.str f) →
      (∀ d, dget kvs "args".toList = some d → ArgsForm d a) → (dget kvs "args".toList = none → a = []) →
      (∀ d, dget kvs "kwds".toList = some d → KwdsForm d k) → (dget kvs "kwds".toList = none → k = []) →
      CallForm (.dict kvs) f a k

/-- The `opts` entry of the filters: absent, null, or an object. -/
inductive OptsForm : Option Doc → Option (List (Str × Doc)) → Prop
  | absent : OptsForm none none
  | null : OptsForm (some .null) none
  | dict (kvs : List (Str × Doc)) : OptsForm (some (.dict kvs)) (some kvs)

/-- What filter JSON means: options, and maybe a call. -/
inductive FilterForm : Doc → Option (List (Str × Doc)) → Option (Str × List Doc × List (Str × Doc)) → Prop
  | emptyStr : FilterForm (.str []) none none
  | emptyList : FilterForm (.list []) none none
  | str (s : Str) (f : Str) (a : List Doc) (k : List (Str × Doc)) : s ≠ [] → CallForm (.str s) f a k →
      FilterForm (.str s) none (some (f, a, k))
  | list (l : List Doc) (f : Str) (a : List Doc) (k : List (Str × Doc)) : l ≠ [] → CallForm (.list l) f a k →
      FilterForm (.list l) none (some (f, a, k))
  | onlyOpts (kvs : List (Str × Doc)) (o : Option (List (Str × Doc))) :
      (∀ p ∈ kvs, p.1 = "opts".toList) → OptsForm (dget kvs "opts".toList) o → FilterForm (.dict kvs) o none
  | call (kvs : List (Str × Doc)) (o : Option (List (Str × Doc))) (f : Str) (a : List Doc) (k : List (Str × Doc)) :
      (∃ p ∈ kvs, p.1 ≠ "opts".toList) → OptsForm (dget kvs "opts".toList) o →
      CallForm (.dict (kvs.filter (fun p => p.1 ≠ "opts".toList))) f a k → FilterForm (.dict kvs) o (some (f, a, k))

end Spec
