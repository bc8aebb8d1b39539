"""Generate wrong programs: automut.py OUT.py SEED PER_DEF [only definitions not in seeded/LOG.jsonl: 1]."""
import glob, json, random, re, sys
out, seed, per, fresh = sys.argv[1], int(sys.argv[2]), int(sys.argv[3]), len(sys.argv) > 4 and sys.argv[4] == '1'
rnd = random.Random(seed)
done = set(json.loads(l)['definition'].split(' (')[0] for l in open('/verif/seeded/LOG.jsonl'))
seen = set(json.loads(l)['edit'] for l in open('/verif/seeded/LOG.jsonl'))
OPS = [(r' < ', ' ≤ '), (r' ≤ ', ' < '), (r' > ', ' ≥ '), (r' ≥ ', ' > '), (r' && ', ' || '), (r' \|\| ', ' && '), (r' ∧ ', ' ∨ '), (r' ∨ ', ' ∧ '),
       (r'\btrue\b', 'false'), (r'\bfalse\b', 'true'), (r'\.1\b', '.2'), (r'\.2\b', '.1'), (r' \+ 1\b', ''), (r' \+ 1\b', ' + 2'), (r' - 1\b', ''),
       (r'(?<![\w.])0(?![\w.])', '1'), (r'(?<![\w.])1(?![\w.])', '2'), (r'\.reverse\b', ''), (r'\.take ', '.drop '), (r'\.drop ', '.take '),
       (r'\.any ', '.all '), (r'\.all ', '.any '), (r'\.head\?', '.getLast?'), (r'\.getLast\?', '.head?'), (r'\.tail\b', ''), (r'\.dropLast\b', ''),
       (r' ≠ ', ' = '), (r' == ', ' != '), (r' != ', ' == '), (r'!(?=[\w(])', ''), (r' ∈ ', ' ∉ '), (r'\.isEmpty', '.isEmpty.not'), (r'\.isNone', '.isSome'), (r'\.isSome', '.isNone'),
       (r' \+\+ ', ' ++ [] ++ '), (r' \+ ', ' - '), (r' - ', ' + '), (r"'/'", "'#'"), (r"'~'", "'/'"), (r"'\.'", "','"), (r'\.min ', '.max '), (r'\bmin\b', 'max'), (r'\bmax\b', 'min'),
       (r'foldl', 'foldr'), (r'\.ok \(\)', '.error .valueError'), (r'\.valueError', '.typeError'), (r'\.typeError', '.valueError'), (r'\.attributeError', '.valueError'), (r'\.keyError', '.valueError'),
       (r'\bif (?!let|h)(\w[^\n]*?) then', r'if ¬ (\1) then'), (r'=> none$', '=> NONE'), (r'\bfilter\b', 'filter (fun _ => true) <| List.filter')]
def blocks(t):
    ls = t.split('\n')
    i = 0
    while i < len(ls):
        m = re.match(r'(?:private |@\[[^]]*\] )*def ([\w.\']+)', ls[i])
        if m:
            j = i + 1
            while j < len(ls) and ls[j].strip() and not re.match(r'(/--|def |theorem |end |namespace |structure |inductive |mutual)', ls[j]): j += 1
            yield m.group(1), i, j
            i = j
        else: i += 1
M = []
for f in sorted(glob.glob('/verif/lean/Verif/Model/*.lean') + glob.glob('/verif/lean/Verif/Py/*.lean')):
    t = open(f).read(); ls = t.split('\n')
    for name, i, j in blocks(t):
        if fresh and name in done: continue
        cand = []
        for k in range(i, j):
            line = ls[k]
            start = 0
            if k == i:
                # skip the header: what follows ':='
                start = line.find(':=')
                if start < 0: continue
            if line.strip().startswith('--'): continue
            code = line.split(' --')[0]
            for pat, rep in OPS:
                if 'NONE' in rep or '++ []' in rep: continue
                for m in re.finditer(pat, code):
                    if m.start() < start: continue
                    new = code[:m.start()] + m.expand(rep) + code[m.end():]
                    # context to make the text unique
                    lo, hi = k, k
                    old_, new_ = code, new
                    while t.count(old_) > 1 and lo > i:
                        lo -= 1
                        old_ = ls[lo] + '\n' + old_; new_ = ls[lo] + '\n' + new_
                    if t.count(old_) != 1: continue
                    if f'{old_.strip()}  ==>  {new_.strip()}' in seen: continue
                    cand.append((old_, new_))
        rnd.shuffle(cand)
        rel = f.split('/lean/Verif/')[1]
        for old_, new_ in cand[:per]:
            M.append((rel, name, old_, new_, ''))
rnd.shuffle(M)
open(out, 'w').write('M = ' + repr(M).replace("), ('", "),\n('") + '\n')
print(len(M))
