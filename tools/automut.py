#!/usr/bin/env python3
"""Automatic seeding: small random edits of the definitions of the model, in a scratch copy.

usage: automut.py SEED COUNT PREFIX [FILE ...]
Takes COUNT random edits (negated condition, other boundary, other constant, swapped connective, dropped reversal, swapped
arguments ...) of the definitions in the model files, builds, stops at the first error, and appends the result to
/tmp/mut/results.jsonl like mutate.py.  Edits that do not type-check in the edited definition are skipped.
"""
import json, os, random, re, subprocess, sys, time, signal
sys.path.insert(0, os.path.dirname(os.path.abspath(__file__)))
import mutate
from mutate import SRC, DST, RES, enclosing

FILES = ['Ridl/Lexer.lean', 'Ridl/ParserCore.lean', 'Ridl/ParserStates.lean', 'Ridl/ParserRun.lean',
  'Schema/BigInt.lean', 'Schema/Filter.lean', 'Schema/Types.lean', 'Schema/Validate.lean',
  'Gen/Cache.lean', 'Gen/Cli.lean', 'Gen/Funcs.lean', 'Gen/Generate.lean', 'Gen/Letters.lean', 'Gen/Lists.lean', 'Gen/Strings.lean',
  'Json/Json.lean', 'Json/SchemaJson.lean',
  'Rpc/Basics.lean', 'Rpc/BigNum.lean', 'Rpc/Chat.lean', 'Rpc/Errors.lean', 'Rpc/Server.lean', 'Rpc/Services.lean', 'Rpc/Stream.lean',
  'Rpc/Tables.lean', 'Rpc/TestSuite.lean', 'Rpc/TestTypes.lean', 'Rpc/Values.lean', 'Rpc/Versions.lean',
  'Ts/ChatPage.lean', 'Ts/Client.lean', 'Ts/Interop.lean', 'Ts/Js.lean', 'Ts/Server.lean', 'Ts/Stream.lean', 'Ts/Timer.lean', 'Ts/Utf8.lean',
  'Compile/Compile.lean', 'Compile/Paths.lean']

def defs(text):
    """(name, start, end) of the definitions."""
    ls = text.split('\n'); out = []; pos = 0; offs = []
    for l in ls: offs.append(pos); pos += len(l) + 1
    i = 0
    while i < len(ls):
        m = re.match(r'(?:private |protected |@\[[^\]]*\] )*(def|abbrev)\s+(\S+)', ls[i])
        if m:
            j = i + 1
            while j < len(ls) and (ls[j].startswith(' ') or ls[j] == ''): j += 1
            k = j
            while k > i and ls[k-1].strip() == '': k -= 1
            out.append((m.group(2), offs[i], offs[k-1] + len(ls[k-1])))
            i = j
        else: i += 1
    return out

def edits(body):
    """(description, new body) candidates; comments are left alone."""
    out = []
    st = body.find(':=')
    if st < 0: st = body.find('\n')
    if st < 0: return []
    def sub(m, new, what): out.append((what, body[:m.start()] + new + body[m.end():]))
    spans = [(m.start(), m.end()) for m in re.finditer(r'/-.*?-/|--[^\n]*|"(?:[^"\\]|\\.)*"', body, re.S)]
    inside = lambda p: any(a <= p < b for a, b in spans)
    def each(rx, f, what):
        for m in re.finditer(rx, body):
            if m.start() >= st and not inside(m.start()): sub(m, f(m), what % ((m.group(0).strip(),) if '%s' in what else ()))
    for m in re.finditer(r'\bif ((?:[^\n"]|"[^"\n]*")*?) then\b', body):
        if m.start() >= st and not inside(m.start()) and not re.match(r'\w+ :', m.group(1)):
            sub(m, 'if ¬ (' + m.group(1) + ') then', 'condition negated: ' + m.group(1))
    each(r' && ', lambda m: ' || ', 'and → or'); each(r' \|\| ', lambda m: ' && ', 'or → and')
    each(r' ∧ ', lambda m: ' ∨ ', 'and → or'); each(r' ∨ ', lambda m: ' ∧ ', 'or → and')
    each(r'\btrue\b', lambda m: 'false', 'true → false'); each(r'\bfalse\b', lambda m: 'true', 'false → true')
    each(r' < ', lambda m: ' ≤ ', '< → ≤'); each(r' ≤ ', lambda m: ' < ', '≤ → <')
    each(r' > ', lambda m: ' ≥ ', '> → ≥'); each(r' ≥ ', lambda m: ' > ', '≥ → >')
    each(r' = (?=\S)', lambda m: ' ≠ ', '= → ≠'); each(r' ≠ ', lambda m: ' = ', '≠ → =')
    each(r' == ', lambda m: ' != ', '== → !='); each(r' != ', lambda m: ' == ', '!= → ==')
    each(r'(?<![\w.#])\d+\b(?!\w)', lambda m: str(int(m.group(0)) + 1), '%s plus one')
    each(r' \+ 1\b', lambda m: '', 'no + 1')
    each(r'\.reverse\b', lambda m: '', 'no reverse')
    each(r'\.dropLast\b', lambda m: '', 'no dropLast')
    each(r'\.head\?', lambda m: '.getLast?', 'head? → getLast?')
    each(r'\.any\b', lambda m: '.all', 'any → all'); each(r'\.all\b', lambda m: '.any', 'all → any')
    each(r'\.takeWhile\b', lambda m: '.dropWhile', 'takeWhile → dropWhile'); each(r'\.isSome\b', lambda m: '.isNone', 'isSome → isNone')
    each(r'\.isNone\b', lambda m: '.isSome', 'isNone → isSome'); each(r'\.isEmpty\b', lambda m: '.isEmpty.not', 'isEmpty negated')
    each(r'!(?=[\w(])(?!=)', lambda m: '', 'negation dropped')
    each(r'\((\w+)\.1, (\w+)\.2\)', lambda m: '(%s.2, %s.1)' % (m.group(1), m.group(2)), 'pair swapped')
    each(r'\b(\w+) \+\+ (\w+)\b', lambda m: m.group(2) + ' ++ ' + m.group(1), 'swapped: %s')
    each(r'\{ (\w+) with (\w+) := [^,{}]*?(, | \})', lambda m: '{ ' + m.group(1) + ' with ' if m.group(3) == ', ' else m.group(1), 'update dropped: %s')
    each(r'\| (\w+) :: (\w+) => ([^\n]*)', lambda m: '| %s :: %s => %s' % (m.group(2) + "'", m.group(1) + "'", m.group(3)) if False else '| %s :: %s => %s' % (m.group(1), m.group(2), m.group(3).replace(m.group(1), m.group(1), 0)), 'same') if False else None
    each(r'\.take\b', lambda m: '.drop', 'take → drop'); each(r'\.drop\b', lambda m: '.take', 'drop → take')
    each(r'\bsome \(?(\w+)\)?(?= |\n|$)(?! =>)', lambda m: 'none', 'none instead of %s')
    for m in re.finditer(r"S \"((?:[^\"\\]|\\.)*)\"", body):
        if m.start() >= st and not any(a <= m.start() < b and body[a:a+2] in ('/-', '--') for a, b in spans):
            sub(m, 'S "%s"' % (m.group(1) + 'x'), 'other text for ' + m.group(0))
    for m in re.finditer(r"'(\\?.)'", body):
        if m.start() >= st and not inside(m.start()): sub(m, "'~'", 'other character for ' + m.group(0))
    for m in re.finditer(r'\n( *\| [^\n]*=> )([^\n]+)(\n *\| [^\n]*=> )([^\n]+)', body):
        if m.start() >= st: sub(m, '\n' + m.group(1) + m.group(4) + m.group(3) + m.group(2), 'branches swapped: ' + m.group(2).strip() + ' / ' + m.group(4).strip())
    return out

def build():
    """Build, stopping soon after the first error."""
    p = subprocess.Popen('timeout 1500 lake build 2>&1', shell=True, cwd=DST, stdout=subprocess.PIPE, text=True, preexec_fn=os.setsid)
    out = ''; stop = False
    for l in p.stdout:
        out += l
        if re.match(r'error: (?:\S*/)?Verif/\S+?\.lean:\d+', l): stop = True
        if stop and (l.startswith('✖') or l.startswith('⚠') or l.startswith('✔') or l.startswith('error: Lean exited')):
            os.killpg(p.pid, signal.SIGKILL); p.wait(); time.sleep(1); break
    p.wait()
    return (1 if stop else p.returncode), out

def main():
    seed, count, prefix = int(sys.argv[1]), int(sys.argv[2]), sys.argv[3]
    files = sys.argv[4:] or FILES
    rnd = random.Random(seed)
    cand = []
    for f in files:
        t = open(SRC + '/Verif/' + f).read()
        for n, a, b in defs(t):
            if re.match(r'ex[A-Z]', n): continue
            es = edits(t[a:b])
            if es: cand.append((f, n, a, b, es))
    g, rev = mutate.deps()
    done = {json.loads(l)['name'] for l in open(RES)}
    print(len(cand), 'definitions', sum(len(c[4]) for c in cand), 'edits', flush=True)
    i = 0
    # each definition at most as often as its turn comes: shuffle definitions, one random edit each
    order = []
    while len(order) < 20 * count:
        rnd.shuffle(cand); order += [(c, rnd.choice(c[4])) for c in cand]
    seen = set()
    for (f, n, a, b, _), (what, new) in order:
        if i >= count: break
        key = (f, n, new)
        if key in seen: continue
        seen.add(key)
        name = '%s%03d' % (prefix, i)
        if name in done: i += 1; continue
        while subprocess.run(f'rm -rf {DST} && cp -a {SRC} {DST}', shell=True).returncode: time.sleep(2)
        p = DST + '/Verif/' + f; s = open(p).read()
        line = s[:a].count('\n') + 1; last = line + new.count('\n')
        open(p, 'w').write(s[:a] + new + s[b:])
        t = time.time()
        # does the definition itself still compile?
        r = subprocess.run('timeout 300 lake env lean ' + 'Verif/' + f, shell=True, cwd=DST, capture_output=True, text=True)
        errs = [int(m.group(1)) for m in re.finditer(r'\.lean:(\d+):\d+: error', r.stdout + r.stderr)]
        if any(line <= e <= last for e in errs): continue
        rc, out = build()
        bad = []
        for m in re.finditer(r'error: (?:\S*/)?(Verif/\S+?\.lean):(\d+):\d+', out):
            e = enclosing(DST + '/' + m.group(1), int(m.group(2)))
            if e not in bad: bad.append(e)
        if rc and not bad: print(out[-1500:], flush=True)
        seen2 = set(); todo = list(bad)
        while todo:
            x = todo.pop()
            if x in seen2: continue
            seen2.add(x); todo += list(rev.get(x, ()))
        props = sorted({x.split('.')[-1] for x in seen2 if re.search(r'\.C\d\d+_', x) and '._' not in x})
        old = s[a:b]
        k = next((j for j in range(min(len(old), len(new))) if old[j] != new[j]), 0)
        ctx = old[old.rfind('\n', 0, k) + 1: (old.find('\n', k) + 1 or len(old) + 1) - 1].strip()
        res = dict(name=name, definition=n, file=f, edit='%s, in: %s' % (what, ctx), claim='(automatic edit)', survived=(rc == 0),
                   direct=bad[:12], failed=props, secs=round(time.time() - t), rc=rc)
        print(name, f, n, 'SURVIVED' if rc == 0 else 'killed', res['secs'], what, '|', ctx[:120], bad[:2], flush=True)
        with open(RES, 'a') as o: o.write(json.dumps(res) + '\n')
        i += 1

if __name__ == '__main__': main()
