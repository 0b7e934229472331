#!/usr/bin/env python3
"""Compare the Lean model, compiled, with the test vectors of the repository.

    python3 run.py [--repo /repo] [--jobs 4] [--full]

Builds the model (lake), compiles the generated C with leanc in a temporary directory and runs it on

* tests/py_vectors.rs: one key pair and one hedged signature for each of the twelve parameter sets;
* tests/nist_acvp_vectors: key generation and signature verification vectors of NIST.

Without --full only the fast signing vectors run (a minute); with it all of them (some minutes).
"""
import argparse, glob, json, os, re, subprocess, sys, tempfile
from concurrent.futures import ThreadPoolExecutor

here = os.path.dirname(os.path.abspath(__file__))
lean = os.path.join(here, '..', 'lean')

MAIN = '''import Verif.Exec.Run
partial def loop (i o : IO.FS.Stream) : IO Unit := do
  let l ← i.getLine
  if l.isEmpty then return
  o.putStrLn (Fips205.Exec.request ((l.trimAscii.toString.splitOn " ").filter (· ≠ "")))
  o.flush
  loop i o
def main : IO Unit := do loop (← IO.getStdin) (← IO.getStdout)
'''

def build(tmp):
    subprocess.run(['lake', 'build', 'Verif.Exec.Run'], cwd=lean, check=True, stdout=subprocess.DEVNULL)
    open(f'{tmp}/Main.lean', 'w').write(MAIN)
    subprocess.run(['lake', 'env', 'lean', '-R', tmp, '-c', f'{tmp}/Main.c', f'{tmp}/Main.lean'], cwd=lean, check=True)
    ir = os.path.join(lean, '.lake/build/ir/Verif')
    srcs = sorted(glob.glob(f'{ir}/Model/*.c')) + sorted(glob.glob(f'{ir}/Exec/*.c')) + [f'{tmp}/Main.c']
    objs = []
    for s in srcs:
        o = f'{tmp}/{len(objs)}.o'
        subprocess.run(['leanc', '-O2', '-c', s, '-o', o], check=True)
        objs.append(o)
    subprocess.run(['leanc', '-o', f'{tmp}/model'] + objs, check=True)
    return f'{tmp}/model'

def ask(exe, line):
    return subprocess.run([exe], input=line + '\n', capture_output=True, text=True).stdout.strip()

def requests(repo, full):
    """(description, request, expected answer)"""
    s = open(f'{repo}/tests/py_vectors.rs').read()
    for f in s.split('fn vector_slh_dsa_')[1:]:
        name = f[:f.index('(')]
        if not full and name.endswith('s'):
            continue
        hx = lambda v: re.search(r'let %s = (?:decode\()?"([0-9A-F]+)"' % v, f).group(1).lower()
        sks, skp, pks, opt, msg, sig = map(hx, ['sk_seed', 'sk_prf', 'pk_seed', 'opt_rand', 'm', 'sig_exp'])
        yield f'py {name} keygen+sign', ('py', name, sks, skp, pks, opt, msg, sig), None
    d = json.load(open(f'{repo}/tests/nist_acvp_vectors/SLH-DSA-keyGen-FIPS205/internalProjection.json'))
    for g in d['testGroups']:
        name = g['parameterSet'][8:].lower().replace('-', '_')
        for t in g['tests']:
            yield (f'nist keygen {name} {t["tcId"]}',
                   f'keygen {name} {t["skSeed"]} {t["skPrf"]} {t["pkSeed"]}', f'{t["pk"]} {t["sk"]}'.lower())
    d = json.load(open(f'{repo}/tests/nist_acvp_vectors/SLH-DSA-sigVer-FIPS205/internalProjection.json'))
    for g in d['testGroups']:
        name = g['parameterSet'][8:].lower().replace('-', '_')
        for t in g['tests']:
            ans = 'true' if t['testPassed'] else 'false'
            yield (f'nist verify {name} {t["tcId"]} ({t["reason"]})',
                   f'rawverify {name} {t["pk"]} {t["message"]} {t["signature"]}', ans)
            if t['testPassed'] and (full or name.endswith('f')):
                yield (f'nist sign {name} {t["tcId"]}',
                       f'rawsign {name} {t["sk"]} {t["additionalRandomness"]} {t["message"]}',
                       t['signature'].lower())

def main():
    ap = argparse.ArgumentParser()
    ap.add_argument('--repo', default='/repo')
    ap.add_argument('--jobs', type=int, default=4)
    ap.add_argument('--full', action='store_true')
    a = ap.parse_args()
    bad = n = 0
    with tempfile.TemporaryDirectory() as tmp:
        exe = build(tmp)
        def one(r):
            what, req, want = r
            if isinstance(req, tuple):
                _, name, sks, skp, pks, opt, msg, sig = req
                pk, sk = ask(exe, f'keygen {name} {sks} {skp} {pks}').split()
                got = ask(exe, f'rawsign {name} {sk} {opt} {msg}')
                ok = got == sig and ask(exe, f'rawverify {name} {pk} {msg} {sig}') == 'true'
                return what, ok, got[:80]
            got = ask(exe, req)
            # a signature of the wrong length is not an array of SIG_LEN bytes: the Rust test cannot
            # even call the function with it and counts that as a rejection
            return what, got == want or (want == 'false' and got == 'error length'), got[:80]
        with ThreadPoolExecutor(a.jobs) as ex:
            for what, ok, got in ex.map(one, requests(a.repo, a.full)):
                n += 1
                bad += not ok
                print('ok  ' if ok else 'FAIL', what, '' if ok else got, flush=True)
    print(f'{n - bad} of {n} agree')
    sys.exit(bad != 0)

main()
