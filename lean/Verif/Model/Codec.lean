import Verif.Py.Str
import Verif.Py.QuotedPrintable
/-
Model of `JSONCodec`, pandalone/pandata.py.
-/
namespace Model
open Py

/-- The collaborators of the codec: pickling and JSON. `jsonEncode` is `JSONEncoder.encode` on the
dictionary of texts that the codec writes, `jsonDecode` is `JSONDecoder.decode` where the text is such
a dictionary. -/
structure CodecEnv (Obj : Type) where
  dumps : Obj → List Nat
  loads : List Nat → Option Obj
  jsonEncode : List (Str × Str) → Str
  jsonDecode : Str → List (Str × Str)

/-- `bytes.decode(encoding="utf8")` of ASCII bytes. -/
def asciiDecode (b : List Nat) : Str := b.map Char.ofNat
/-- `str.encode(encoding="utf8")` of an ASCII text. -/
def asciiEncode (s : Str) : List Nat := s.map Char.toNat

/-- `JSONCodec.Encoder.encode(o)`, pandalone/pandata.py:1428-1433. -/
def codecEncode {Obj : Type} (e : CodecEnv Obj) (o : Obj) : Str :=
  let pickleStr := asciiDecode (b2aQp (e.dumps o))
  e.jsonEncode [("$qpickle".toList, pickleStr), ("_ver".toList, "0".toList)]

/-- What decoding gives: an unpickled object, the plain JSON value, or a failure of unpickling. -/
inductive Decoded (Obj : Type)
  | obj (o : Obj)
  | plain (d : List (Str × Str))
  | fails

/-- `JSONCodec.Decoder.decode(s)`, pandalone/pandata.py:1435-1446, for texts of dictionaries of
texts. -/
def codecDecode {Obj : Type} (e : CodecEnv Obj) (s : Str) : Decoded Obj :=
  let o := e.jsonDecode s
  match o.lookup "$qpickle".toList with
  | some (c :: t) =>
    match e.loads (a2bQp (asciiEncode (c :: t))) with
    | some x => .obj x
    | none => .fails
  | _ => .plain o

end Model
