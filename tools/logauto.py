import json,sys,re
src, tight = sys.argv[1], json.load(open(sys.argv[2]))
out=open('/verif/seeded/LOG.jsonl','a'); n=0
for l in open(src):
    r=json.loads(l)
    if r['invalid'] or any(e.startswith('Model.') for e in r['theorems_failed']): continue
    f=[x.split(':')[1] for x in r['theorems_failed']]
    f=[x for x in dict.fromkeys(f) if x!='example']
    f+=[x for x in r['blocked'] if x not in f]
    ids=list(dict.fromkeys(m for x in f for m in re.findall(r'^(C\d+)_',x)))
    t=tight.get(str(r['k']))
    claim='what '+', '.join(ids[:6])+' say about it' if ids else (t or {}).get('claim','behaviour of the definition')
    rec={'definition':f"{r['definition']} (lean/Verif/{r['file']})",'edit':r['edit'],'claim':claim,'theorems_failed':f,'theorems_tightened':(t or {}).get('theorems',[])}
    if t and t.get('note'): rec['note']=t['note']
    out.write(json.dumps(rec,ensure_ascii=False)+'\n'); n+=1
print(n)
