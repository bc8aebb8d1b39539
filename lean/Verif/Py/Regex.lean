import Verif.Py.Str
/-
Model of the part of Python's `re` used by pandalone: a backtracking matcher in
continuation-passing style, trying alternatives in the order in which `re` tries them.
Standard library semantics, not repo code.
-/
namespace Py

/-- Regular expressions. A class is a predicate on characters; flags such as `re.IGNORECASE` are
spelled out in the classes. -/
inductive Re
  | eps
  | cls (p : Char → Bool)
  | seq (a b : Re)
  | alt (a b : Re)
  | star (a : Re)            -- greedy `*`
  | lazyStar (a : Re)        -- `*?`
  | grp (name : String) (a : Re)
  | backref (name : String)
  | eos                      -- `$`

/-- `a?` -/
def Re.opt (a : Re) : Re := .alt a .eps
/-- `a+` -/
def Re.plus (a : Re) : Re := .seq a (.star a)
/-- A literal character. -/
def Re.chr (c : Char) : Re := .cls (fun x => x == c)
/-- A literal letter under `re.IGNORECASE` (for letters whose only other case is the ASCII one). -/
def Re.chrI (c : Char) : Re := .cls (fun x => x == c || x == lowerChar c)
/-- A sequence. -/
def Re.seqs : List Re → Re
  | [] => .eps
  | [a] => a
  | a :: b :: l => .seq a (Re.seqs (b :: l))
/-- Alternatives. -/
def Re.alts : List Re → Re
  | [] => .cls (fun _ => false)
  | [a] => a
  | a :: b :: l => .alt a (Re.alts (b :: l))

/-- Captured groups. -/
abbrev Caps := String → Option Str

def Caps.empty : Caps := fun _ => none
def Caps.put (c : Caps) (n : String) (t : Str) : Caps := fun x => if x = n then some t else c x

/-- `$`: at the end, or before a newline that ends the text. -/
def atEnd (s : Str) : Bool := s == [] || s == ['\n']

/-- Greedy repetition; an iteration that consumes nothing ends it. -/
def starM {α : Type} (body : Str → Caps → (Str → Caps → Option α) → Option α) (k : Str → Caps → Option α) :
    Nat → Str → Caps → Option α
  | 0, s, c => k s c
  | n + 1, s, c =>
    (body s c (fun s' c' => if s'.length < s.length then starM body k n s' c' else none)).or (k s c)

/-- Lazy repetition. -/
def lazyM {α : Type} (body : Str → Caps → (Str → Caps → Option α) → Option α) (k : Str → Caps → Option α) :
    Nat → Str → Caps → Option α
  | 0, s, c => k s c
  | n + 1, s, c =>
    (k s c).or (body s c (fun s' c' => if s'.length < s.length then lazyM body k n s' c' else none))

/-- Backtracking matcher: `s` is the text left, `k` what has to match afterwards. -/
def Re.m {α : Type} : Re → Str → Caps → (Str → Caps → Option α) → Option α
  | .eps, s, c, k => k s c
  | .cls p, s, c, k => match s with
    | [] => none
    | x :: t => if p x then k t c else none
  | .seq a b, s, c, k => a.m s c (fun s' c' => b.m s' c' k)
  | .alt a b, s, c, k => (a.m s c k).or (b.m s c k)
  | .star a, s, c, k => starM (fun s c k => a.m s c k) k s.length s c
  | .lazyStar a, s, c, k => lazyM (fun s c k => a.m s c k) k s.length s c
  | .grp n a, s, c, k => a.m s c (fun s' c' => k s' (c'.put n (s.take (s.length - s'.length))))
  | .backref n, s, c, k => match c n with
    | none => none
    | some t => if t.isPrefixOf s then k (s.drop t.length) c else none
  | .eos, s, c, k => if atEnd s then k s c else none

/-- `regex.match(s)`: the text left and the groups. -/
def Re.match? (r : Re) (s : Str) : Option (Str × Caps) := r.m s Caps.empty (fun s' c => some (s', c))

/-- `regex.search(s)`: the text before the match, the text after it and the groups. -/
def Re.search (r : Re) : Str → Option (Str × Str × Caps)
  | [] => (r.match? []).map (fun x => ([], x.1, x.2))
  | x :: t => match r.match? (x :: t) with
    | some (s', c) => some ([], s', c)
    | none => (r.search t).map (fun y => (x :: y.1, y.2.1, y.2.2))

/-- `regex.split(s)` for a regex all of which is one group, and that never matches the empty text:
the pieces and, between them, the matched texts. Fuel is the length of the text. -/
def Re.splitGrp (r : Re) : Nat → Str → List Str
  | 0, s => [s]
  | n + 1, s => match r.search s with
    | none => [s]
    | some (pre, post, _) =>
      pre :: (s.drop pre.length).take (s.length - pre.length - post.length) :: r.splitGrp n post

end Py
