"""Try wrong programs on a scratch copy: mutate.py MUTANTS.py [first | k,k,...]  (see seeded/LOG.jsonl)."""
import json, os, re, signal, subprocess, sys, time, runpy
V, M = '/verif/lean', os.environ.get('MUT', '/tmp/mut')
ms = runpy.run_path(sys.argv[1])['M']
only = [int(x) for x in sys.argv[2].split(',')] if len(sys.argv) > 2 and ',' in sys.argv[2] else None
first = int(sys.argv[2]) if len(sys.argv) > 2 and not only else 0
out = sys.argv[1].replace('.py', '.out.jsonl')
subprocess.run(['mkdir', '-p', M])
subprocess.run('rm -rf %s && cp -a %s %s' % (M, V, M), shell=True, check=True)

def theorem_at(path, line):
    txt = open(path).read().split('\n')
    for i in range(line - 1, -1, -1):
        m = re.match(r'(?:private |protected |@\[[^]]*\] )*(theorem|lemma|def|example|instance|structure|inductive)\b\s*([^\s:({\[]*)', txt[i])
        if m:
            return (m.group(2) or m.group(1)) if m.group(1) != 'example' else 'example'
    return '?'

def decls(path):
    return re.findall(r'^theorem\s+(C\d+_\S+)', open(path).read(), re.M)

def build():
    """Build; 45 seconds after the first error, or after 40 minutes, the rest is given up."""
    with open(f'{M}/build.log', 'w') as log:
        p = subprocess.Popen(['lake', 'build'], cwd=M, stdout=log, stderr=subprocess.STDOUT, start_new_session=True)
    t0, left = time.time(), None
    while p.poll() is None:
        time.sleep(1)
        if left is None and re.search('^error:', open(f'{M}/build.log').read(), re.M): left = time.time() + 45
        if time.time() > (left or t0 + 2400):
            os.killpg(p.pid, signal.SIGKILL)
            p.wait()
            return left is None
    return False

for k, (f, d, old, new, claim) in enumerate(ms):
    if k < first or (only and k not in only): continue
    dst = f'{M}/Verif/{f}'
    t = open(dst).read()
    n = t.count(old)
    if n != 1:
        print(k, 'SKIP: occurrences', n, d, repr(old)); continue
    open(dst, 'w').write(t.replace(old, new))
    timed_out = build()
    text = open(f'{M}/build.log').read()
    errs = re.findall(r'^error: (Verif/\S+?\.lean):(\d+):\d+:', text, re.M)
    # modules that could not be built without any message: the evaluation of a case ran out of memory
    for x in re.findall(r'^✖ \[\S+ Building (\S+)', text, re.M):
        f_ = x.replace('.', '/') + '.lean'
        if not any(a == f_ for a, _ in errs): errs.append((f_, '0'))
    if timed_out: errs = errs or [('timeout', '0')]
    failed = []
    for p, l in errs:
        n_ = theorem_at(f'{M}/{p}', int(l)) if p != 'timeout' else p
        e = f'{p[6:-5].replace("/", ".")}:{n_}'
        if e not in failed: failed.append(e)
    # property theorems whose module could not be built because something it needs failed
    built = set()
    bad = set(p for p, _ in errs)
    blocked = []
    if errs:
        deps = {}
        for root, _, fs in os.walk(f'{M}/Verif'):
            for x in fs:
                if x.endswith('.lean'):
                    pth = os.path.join(root, x)
                    deps[os.path.relpath(pth, M)] = ['%s.lean' % y.replace('.', '/') for y in re.findall(r'^import (Verif\.\S+)', open(pth).read(), re.M)]
        block = set(bad); ch = True
        while ch:
            ch = False
            for a, b in deps.items():
                if a not in block and any(y in block for y in b):
                    block.add(a); ch = True
        for a in sorted(block - bad):
            if '/Props/' in a: blocked += decls(f'{M}/{a}')
    # the edited model itself does not compile: nothing is shown by that
    invalid = any(e.startswith("Model.") for e in failed)
    rec = {'k': k, 'invalid': invalid, 'file': f, 'definition': d, 'edit': f'{old.strip()}  ==>  {new.strip()}', 'claim': claim,
           'theorems_failed': failed, 'blocked': blocked}
    open(out, 'a').write(json.dumps(rec, ensure_ascii=False) + '\n')
    print(k, d, 'INVALID' if invalid else 'KILLED' if failed else 'SURVIVED', failed[:6], flush=True)
    open(dst, 'w').write(t)
