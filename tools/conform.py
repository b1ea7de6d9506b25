#!/usr/bin/env python3
"""Test the model against files in /repo: run the model of webrpc-gen (lean/Verif/Conform.lean) on the schema files of
the examples and tests with the recorded arguments, and compare the SHA-1 of the JSON it makes with the schema hash in the
header of the generated files, and the JSON with the JSON files."""
import glob, hashlib, os, re, subprocess, tempfile

R = '/repo'
LEAN = os.path.join(os.path.dirname(os.path.abspath(__file__)), '..', 'lean')
FILES = (glob.glob(R + '/**/*.ridl', recursive=True) + glob.glob(R + '/**/*.webrpc.json', recursive=True) +
         [R + '/tests/schema/test.gen.json', R + '/schema/ridl/_example/example1-golden.json',
          R + '/schema/ridl/_example/example2-golden.json'])
MAIN = os.path.join(tempfile.mkdtemp(), 'Main.lean')
open(MAIN, 'w').write('import Verif.Conform\ndef main := Verif.Conform.main\n')


def run(cwd, *args):
    r = subprocess.run(['lake', 'env', 'lean', '--run', MAIN, cwd] + FILES + ['--'] + list(args), cwd=LEAN, capture_output=True)
    return r.returncode, r.stdout, r.stderr.decode()


def recorded(f):
    """The schema hash in the header of a generated file."""
    return re.search(r' ([0-9a-f]{40})\n', open(f).read()).group(1)


B, E = R + '/_examples/golang-basics', R + '/_examples'
HASHES = [
    (B, ['-schema=example.ridl', '-service=Example'], B + '/example.gen.go'),
    (B, ['-schema=example.ridl', '-service=Admin', '-ignore=@deprecated'], B + '/admin/admin.gen.go'),
    (B, ['-schema=example.ridl', '-service=Example,Admin', '-ignore=@public,@deprecated'], B + '/internal/internal.gen.go'),
    (E + '/webrpc-streaming', ['-schema=proto/chat.ridl'], E + '/webrpc-streaming/proto/chat.gen.go'),
    (E + '/golang-imports', ['-schema=./proto/api.ridl'], E + '/golang-imports/api.gen.go'),
    (E + '/node-ts', ['-schema=service.ridl'], E + '/node-ts/server/server.gen.ts'),
    (E + '/hello-webrpc', ['-schema=hello-api.ridl'], E + '/hello-webrpc/server/hello_api.gen.go'),
    (R + '/tests', ['-schema=schema/test.ridl'], R + '/tests/server/server.gen.go'),
    (R + '/tests', ['-schema=schema/test.ridl'], R + '/tests/client/client.gen.go'),
]
JSONS = [
    (R + '/tests/schema', ['-schema=test.ridl'], R + '/tests/schema/test.gen.json'),
    (R + '/tests/schema', ['-schema=test.gen.json'], R + '/tests/schema/test.gen.json'),
]
# golden files of the parser: made before the base path gets its default
GOLDEN = [
    (R + '/schema/ridl/_example', ['-schema=example1.ridl'], R + '/schema/ridl/_example/example1-golden.json'),
    (R + '/schema/ridl/_example', ['-schema=example2.ridl'], R + '/schema/ridl/_example/example2-golden.json'),
]

bad = 0
for cwd, args, f in HASHES:
    rc, out, err = run(cwd, *args, '-target=golang', '-pkg=main', '-server', '-client', '-out=./x')
    ok = rc == 0 and hashlib.sha1(out).hexdigest() == recorded(f)
    bad += not ok
    print('ok' if ok else 'DIFFERS', 'schema hash', f, err[-200:])
for cwd, args, f in JSONS + GOLDEN:
    rc, out, err = run(cwd, *args, '-target=json', '-out=./x')
    want = open(f, 'rb').read()
    if (cwd, args, f) in GOLDEN:
        want = want.replace(b'"basepath": ""', b'"basepath": "/rpc/"')
    ok = rc == 0 and out.rstrip(b'\n') == want.rstrip(b'\n')
    bad += not ok
    print('ok' if ok else 'DIFFERS', 'JSON', f, err[-200:])
raise SystemExit(bad != 0)
