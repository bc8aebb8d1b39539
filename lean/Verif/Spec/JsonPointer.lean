import Verif.Model.Basic
/-
Specification of json-pointers, independent of the code (RFC 6901 reading).
Uses only the document type, not any function of the model.
-/
namespace Spec
open Py Model

/-- RFC 6901 writing of one character. -/
def escChar (c : Char) : Str := if c = '~' then ['~', '0'] else if c = '/' then ['~', '1'] else [c]

/-- A part written for a pointer, character by character. -/
def esc (p : Str) : Str := p.flatMap escChar

/-- The pointer made of parts: each part escaped and preceded by a slash. -/
def pointerOf (parts : List Str) : Str := parts.flatMap (fun p => '/' :: esc p)

/-- A step into a document: an object key or an array index. -/
inductive Step
  | key (k : Str)
  | idx (n : Nat)

/-- The text of a step in a pointer: the key, or the decimal numeral of the index. -/
def Step.text : Step → Str
  | .key k => k
  | .idx n => Nat.toDigits 10 n

/-- `Walk d steps v`: following the keys and indexes `steps` from `d` arrives at `v`.
A key selects the *first* pair of an object with that key; an index an array element. -/
inductive Walk : Doc → List Step → Doc → Prop
  | nil (d) : Walk d [] d
  | key (before after k d steps v) : k ∉ before.map Prod.fst → Walk d steps v →
      Walk (.dict (before ++ (k, d) :: after)) (.key k :: steps) v
  | idx (xs n d steps v) : xs[n]? = some d → Walk d steps v →
      Walk (.list xs) (.idx n :: steps) v

end Spec

namespace Spec
open Py Model

/-- `Reach d parts v`: following the textual `parts` from `d` arrives at `v`, with Python
indexing: an object is entered by key, an array by a number (as read by Python's `int`, negative
numbers count from the end), a string by the number of one of its characters. -/
inductive Reach : Doc → List Str → Doc → Prop
  | nil (d) : Reach d [] d
  | key (before after k d ps v) : k ∉ before.map Prod.fst → Reach d ps v →
      Reach (.dict (before ++ (k, d) :: after)) (k :: ps) v
  | idx (xs : List Doc) (p : Str) (n : Int) (j : Nat) (d ps v) : pyInt p = some n →
      (n = j ∨ n = (j : Int) - xs.length) → xs[j]? = some d → Reach d ps v →
      Reach (.list xs) (p :: ps) v
  | chr (cs : Str) (p : Str) (n : Int) (j : Nat) (c ps v) : pyInt p = some n →
      (n = j ∨ n = (j : Int) - cs.length) → cs[j]? = some c → Reach (.str [c]) ps v →
      Reach (.str cs) (p :: ps) v

/-- How a path is walked, its steps given: each step leads to the child of that name; the empty step, where no child is
named so, leads to the root, if one is given that is not empty, and nowhere else if not. -/
inductive Walked (root : Option Doc) : Doc → List Str → Doc → Prop
  | stop (d) : Walked root d [] d
  | child (d p c ps v) : Reach d [p] c → Walked root c ps v → Walked root d (p :: ps) v
  | toRoot (d r ps v) : (∀ c, ¬ Reach d [[]] c) → root = some r → r.truthy = true → Walked root r ps v →
      Walked root d ([] :: ps) v
  | stay (d ps v) : (∀ c, ¬ Reach d [[]] c) → (∀ r, root = some r → r.truthy = false) → Walked root d ps v →
      Walked root d ([] :: ps) v

/-- The list positions met while walking `parts` in `d` are all written as natural numbers
(no `-`, no negative index); object keys are unrestricted. -/
def NatIndexed (d : Doc) (parts : List Str) : Prop :=
  ∀ pre p post xs, parts = pre ++ p :: post → Reach d pre (.list xs) → ∃ n : Nat, pyInt p = some (n : Int)

/-- Two pointers part ways in `d` at an object key or at an array position. The position of `p` in
an array is its number, or the end for `-` (as when setting). -/
inductive Diverge : Doc → List Str → List Str → Prop
  | key (kvs p q ps qs) : p ≠ q → Diverge (.dict kvs) (p :: ps) (q :: qs)
  | idx (xs p q ps qs) (n m : Nat) : (pyInt p = some (n : Int) ∨ p = ['-'] ∧ n = xs.length) →
      pyInt q = some (m : Int) → n ≠ m → Diverge (.list xs) (p :: ps) (q :: qs)
  | belowKey (before after k d ps qs) : k ∉ before.map Prod.fst → Diverge d ps qs →
      Diverge (.dict (before ++ (k, d) :: after)) (k :: ps) (k :: qs)
  | belowIdx (xs p q ps qs) (n : Nat) (d) : pyInt p = some (n : Int) → pyInt q = some (n : Int) →
      xs[n]? = some d → Diverge d ps qs → Diverge (.list xs) (p :: ps) (q :: qs)

end Spec
