import Verif.Model.Pmod
/-
A small pattern library used only in examples: `abc*` matches every text starting with `abc`, any
other pattern matches itself; `&` in a template is the matched text.
-/
namespace Tests
open Py Model

def toy : RegexLib where
  Match := Str
  compiles := fun _ => true
  fullmatch := fun pat s =>
    if endsWith ['*'] pat then (if startsWith pat.dropLast s then some s else none)
    else if pat = s then some s else none
  expand := fun m t => .ok (replace1 '&' m t)

end Tests
