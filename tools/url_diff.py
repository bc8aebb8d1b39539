"""Compare Verif/Py/Url.lean with the standard library of the running interpreter (3.11) on random texts.

Only standard-library functions are run here, nothing of the modelled project.
usage: python3 tools/url_diff.py [how many] [seed]
"""
import json, posixpath, random, subprocess, sys
from urllib.parse import quote, unquote, urljoin, urlsplit, urlunsplit, urlparse

n = int(sys.argv[1]) if len(sys.argv) > 1 else 3000
random.seed(int(sys.argv[2]) if len(sys.argv) > 2 else 1)
ATOMS = ["a", "b", "/", "/", "//", ".", "..", "/../", "/./", ":", "#", "?", "%", "%41", "%c3%a9", "%4", " ",
         "\t", "\n", ";", "file:", "http:", "svn:", "zz:", "é", "€", "\\", "x.xls", "host", "//h", "~", "+", "7", "C:", "@"]
def text():
    return "".join(random.choice(ATOMS) for _ in range(random.randint(0, 7)))
def lit(s):
    return "[" + ", ".join("Char.ofNat %d" % ord(c) for c in s) + "]"
def attempt(f):
    try:
        return f()
    except ValueError:
        return None
rows = []
for _ in range(n):
    a, b = text(), text()
    if random.random() < .5:
        a = "file:///" + a
    sp = attempt(lambda: urlsplit(a))
    pr = attempt(lambda: urlparse(a, "file"))
    exp = [posixpath.normpath(a), quote(a), unquote(a),
           list(sp) if sp else None, urlunsplit(sp) if sp else None,
           [pr.scheme, pr.netloc, pr.path, pr.query, pr.fragment, pr.params] if pr else None,
           attempt(lambda: urljoin(a, b))]
    rows.append((a, b, exp))
open("/tmp/url_in.txt", "w").write("\n".join(
    ",".join(map(str, map(ord, a))) + ";" + ",".join(map(str, map(ord, b))) for a, b, _ in rows))
open("/tmp/UrlDiff.lean", "w").write('''import Verif.Py.Url
import Lean.Data.Json
open Py Lean
def decodeU (b : List UInt8) : Str := (String.fromUTF8? ⟨b.toArray⟩).getD "\\uFFFD" |>.toList
unsafe def U : Utf8Lib := ⟨decodeU, unsafeCast ()⟩
def ok (_ : Str) : Bool := true
def J (s : Str) : Json := Json.str (String.ofList s)
def JO (s : Option Str) : Json := match s with | none => Json.null | some s => J s
def rd (s : String) : Str := if s.isEmpty then [] else ((s.splitOn ",").map (fun x => Char.ofNat x.toNat!))
unsafe def main : IO Unit := do
  for line in (← IO.FS.readFile "/tmp/url_in.txt").splitOn "\\n" do
    match line.splitOn ";" with
    | [x, y] =>
      let a := rd x; let b := rd y
      let sp := urlsplit ok [] a
      let j := Json.arr #[J (osNormpath a), J (quote a), J (unquote U a),
        (match sp with | none => Json.null | some u => Json.arr #[J u.scheme, J u.netloc, J u.path, J u.query, J u.fragment]),
        JO (sp.map urlunsplit),
        (match urlparse ok "file".toList a with | none => Json.null | some (u, p) => Json.arr #[J u.scheme, J u.netloc, J u.path, J u.query, J u.fragment, J p]),
        JO (urljoin ok a b)]
      IO.println j.compress
    | _ => IO.println "bad"
''')
out = subprocess.run(["lake", "env", "lean", "--run", "/tmp/UrlDiff.lean"], cwd="/verif/lean",
                     capture_output=True, text=True)
got = [json.loads(l) for l in out.stdout.splitlines()]
if len(got) != len(rows):
    sys.exit("lean printed %d rows\n%s" % (len(got), out.stderr[-2000:] + out.stdout[-2000:]))
bad = 0
for (a, b, exp), g in zip(rows, got):
    for name, e, h in zip(("normpath", "quote", "unquote", "urlsplit", "urlunsplit", "urlparse", "urljoin"), exp, g):
        if e != h and not (name == "unquote" and "�" in e):
            bad += 1
            if bad < 15:
                print(name, repr(a), repr(b), "python", e, "lean", h)
print(n, "texts,", bad, "differences")
