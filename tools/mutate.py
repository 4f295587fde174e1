#!/usr/bin/env python3
"""Apply one edit to a scratch copy of the model, rebuild, and append the outcome to seeded/LOG.jsonl.

usage: mutate.py FILE.json   (list of {file, definition, old, new, edit, claim})
"""
import json, sys, os, re, subprocess, shutil
root = '/verif'; scratch = '/tmp/mut'
muts = json.load(open(sys.argv[1]))
os.makedirs(scratch, exist_ok=True)
def sync():
    subprocess.run(['rsync', '-a', '--delete', root + '/lean/', scratch + '/lean/'], check=True) if shutil.which('rsync') else (
        shutil.rmtree(scratch + '/lean', ignore_errors=True), subprocess.run(['cp', '-a', root + '/lean', scratch + '/lean'], check=True))
def enclosing(path, line):
    name = None
    for i, l in enumerate(open(path), 1):
        if i > line: break
        m = re.match(r'(?:@\[[^\]]*\] )?(?:private )?(?:noncomputable )?(theorem|lemma|def|example|instance)\s*(\S*)', l)
        if m: name = m.group(2) if m.group(1) != 'example' else f'example@{os.path.basename(path)}:{i}'
    return name
subprocess.run(['lake', 'build'], cwd=root + '/lean', check=True, capture_output=True)
direct = {}
shutil.copy(root + '/tools/deps.lean.txt', '/tmp/deps.lean')
for l in subprocess.run(['lake', 'env', 'lean', '/tmp/deps.lean'], cwd=root + '/lean', capture_output=True, text=True).stdout.splitlines():
    k, _, v = l.partition(':'); direct[k] = set(v.split())
deps = {}
for k in direct:
    if re.match(r'C\d+_', k.split('.')[-1]):
        seen, todo = set(), [k]
        while todo:
            n = todo.pop()
            if n not in seen:
                seen.add(n); todo += direct.get(n, ())
        deps[k] = seen
def blocked(names):
    return sorted({k.split('.')[-1] for k, ds in deps.items()
                   if any(d == n or d.endswith('.' + n) for n in names for d in ds)})
for m in muts:
    sync()
    p = f"{scratch}/lean/{m['file']}"
    s = open(p).read()
    if s.count(m['old']) != 1:
        print('SKIP (pattern count %d): %s' % (s.count(m['old']), m['edit'])); continue
    open(p, 'w').write(s.replace(m['old'], m['new']))
    r = subprocess.run(['lake', 'build'], cwd=scratch + '/lean', capture_output=True, text=True)
    out = r.stdout + r.stderr
    failed, seen = [], set()
    for f, l in re.findall(r'error: (Verif/\S+?\.lean):(\d+):', out):
        n = enclosing(f'{scratch}/lean/{f}', int(l))
        if n and (f, n) not in seen: seen.add((f, n)); failed.append(n)
    if r.returncode and not failed:  # the prover ran out of memory in a module, without a position
        failed = [x + ' (ran out of memory)' for x in re.findall(r'^- (Verif\S*)', out, re.M)]
    rec = {"definition": m['definition'], "edit": m['edit'], "claim": m['claim'],
           "failed": failed, "blocked_properties": blocked(failed), "tightened": m.get('tightened', [])}
    print(('OK  ' if failed else 'SURVIVED ') + m['edit'], failed[:8], m['claim'] in {x[:3] for x in rec['blocked_properties']})
    open(root + '/seeded/LOG.jsonl', 'a').write(json.dumps(rec) + '\n')
