#!/usr/bin/env python3
"""Seed realistic bugs into a scratch copy of the model and see which theorems fail.

usage: mutate.py MUTANTS.py [name ...]
MUTANTS.py defines `M`, a list of (name, file, definition, old text, new text, edit, claim).
Results are appended to /tmp/mut/results.jsonl; `mutate.py --log` writes seeded/LOG.jsonl from them.
"""
import json, os, re, subprocess, sys, time
SRC = os.environ.get('MUTSRC', '/tmp/mut/base'); DST = '/tmp/mut/lean'; RES = '/tmp/mut/results.jsonl'

def deps():
    g = {}
    for l in open('/tmp/mut/deps.tsv'):
        n, m, u = (l.rstrip('\n') + '\t\t').split('\t')[:3]
        g[n] = (m, u.split())
    rev = {}
    for n, (m, u) in g.items():
        for x in u: rev.setdefault(x, set()).add(n)
    return g, rev

def enclosing(path, line):
    ls = open(path).read().split('\n')
    ns = []
    for i, l in enumerate(ls[:line]):
        m = re.match(r'namespace (\S+)', l)
        if m: ns.append(m.group(1))
        m = re.match(r'end (\S+)', l)
        if m and ns and ns[-1] == m.group(1): ns.pop()
    for i in range(line - 1, -1, -1):
        m = re.match(r'\s*(?:private |protected |@\[[^\]]*\] )*(theorem|def|lemma|example|instance|abbrev)\b\s*(\S*)', ls[i])
        if m:
            if m.group(1) == 'example': return 'example@%s:%d' % (os.path.basename(path), i + 1)
            nm = m.group(2)
            if nm.startswith('_root_.'): return nm[7:]
            return '.'.join(ns + [nm])
    return '?'

def blowup(mod):
    """The errors reported before the prover ran out of memory on another (false) statement."""
    f = mod.replace('.', '/') + '.lean'
    r = subprocess.run('ulimit -v 16000000; timeout 900 lake env lean ' + f, shell=True, cwd=DST, capture_output=True, text=True)
    return [enclosing(DST + '/' + f, int(m.group(1))) for m in re.finditer(r'\.lean:(\d+):\d+: error', r.stdout + r.stderr)]

def run(mu, g, rev):
    name, f, defn, old, new, edit, claim = mu
    subprocess.run(f'rm -rf {DST}; cp -a {SRC} {DST}', shell=True, check=True)
    p = DST + '/Verif/' + f
    s = open(p).read()
    if s.count(old) != 1:
        print(name, 'BAD PATTERN', s.count(old)); return None
    open(p, 'w').write(s.replace(old, new))
    t = time.time()
    r = subprocess.run('timeout 1500 lake build 2>&1', shell=True, cwd=DST, capture_output=True, text=True)
    out = r.stdout
    bad = []
    for m in re.finditer(r'error: (?:\S*/)?(Verif/\S+?\.lean):(\d+):\d+', out):
        e = enclosing(DST + '/' + m.group(1), int(m.group(2)))
        if e not in bad: bad.append(e)
    if r.returncode and not bad:
        # the prover ran out of memory or time on a false statement: look for the declaration
        for m in re.finditer(r'^- (Verif\.\S+)', out, re.M):
            for e in blowup(m.group(1)):
                if e not in bad: bad.append(e)
    seen = set(); todo = list(bad)
    while todo:
        x = todo.pop()
        if x in seen: continue
        seen.add(x)
        todo += list(rev.get(x, ()))
        # auxiliary constants of the same declaration
    props = sorted({x.split('.')[-1] for x in seen if re.search(r'\.C\d\d+_', x) and '._' not in x})
    res = dict(name=name, definition=defn, file=f, edit=edit, claim=claim, survived=(r.returncode == 0),
               direct=bad[:12], failed=props, secs=round(time.time() - t), rc=r.returncode)
    print(name, 'SURVIVED' if r.returncode == 0 else 'killed', res['secs'], bad[:4], props[:8], flush=True)
    with open(RES, 'a') as o: o.write(json.dumps(res) + '\n')
    return res

if __name__ == '__main__':
    ns = {}
    exec(open(sys.argv[1]).read(), ns)
    g, rev = deps()
    want = set(sys.argv[2:])
    done = set()
    if os.path.exists(RES) and not want:
        done = {json.loads(l)['name'] for l in open(RES)}
    for mu in ns['M']:
        if want and mu[0] not in want: continue
        if mu[0] in done: continue
        run(mu, g, rev)
