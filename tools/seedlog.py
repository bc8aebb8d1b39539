"""Turn the records of mutate.py into seeded/LOG.jsonl lines: seedlog.py FIRST.jsonl [RERUN.jsonl TIGHTENED.json]"""
import json, sys
def load(p): return [json.loads(l) for l in open(p)]
def clean(r):
    f = [x.split(':')[1] for x in r['theorems_failed']]
    f = [x for x in dict.fromkeys(f) if x != 'example']
    return f + [x for x in r['blocked'] if x not in f]
first = load(sys.argv[1])
tight = json.load(open(sys.argv[2])) if len(sys.argv) > 2 else {}
out = open('/verif/seeded/LOG.jsonl', 'a')
seen = set()
for r in first:
    if r['k'] in seen: continue
    seen.add(r['k'])
    last = [x for x in first if x['k'] == r['k']][-1]
    t = tight.get(str(r['k']))
    rec = {'definition': f"{r['definition']} (lean/Verif/{r['file']})", 'edit': r['edit'], 'claim': r['claim'],
           'theorems_failed': clean(last), 'theorems_tightened': t['theorems'] if t else []}
    if t and t.get('note'): rec['note'] = t['note']
    out.write(json.dumps(rec, ensure_ascii=False) + '\n')
