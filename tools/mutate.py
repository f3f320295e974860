#!/usr/bin/env python3
"""Apply each mutant of a list to a scratch copy of the model (/tmp/mut/lean), rebuild, and append what failed to seeded/LOG.jsonl.

A mutant is (file under Verif, definition edited, old text, new text, claim it breaks, optional note).
Usage: mutate.py mutants.py [start]
"""
import json, re, subprocess, sys, os, shutil
SCR = os.environ.get('MUTDIR', '/tmp/mut/lean')
deps = {}
for l in open('/tmp/mut/deps.tsv'):
    n, k, d = (l.rstrip('\n').split('\t') + [''])[:3]
    deps[n] = (k, d.split())
def users(failed):
    """property theorems whose proof uses one of the failed declarations"""
    rev = {}
    for n, (k, ds) in deps.items():
        for d in ds:
            rev.setdefault(d, set()).add(n)
    seen, todo = set(failed), list(failed)
    while todo:
        x = todo.pop()
        for y in rev.get(x, ()):
            if y not in seen:
                seen.add(y); todo.append(y)
    return sorted({x[3:] for x in seen if re.match(r'MU\.C\d\d\d?_\w+$', x)})
def decl(path, line):
    ls = open(path).read().split('\n')
    ns = []
    name = None
    for i, l in enumerate(ls[:line]):
        m = re.match(r'namespace (\S+)', l)
        if m: ns += [m.group(1)]
        m = re.match(r'end (\S+)', l)
        if m and ns and ns[-1] == m.group(1): ns.pop()
        m = re.match(r'(?:@\[[^\]]*\] )?(?:private |noncomputable |protected )*(theorem|lemma|def|instance|example|inductive|structure|abbrev)\b\s*([^\s:({\[]*)', l)
        if m: name = '.'.join(ns + [m.group(2)]) if m.group(1) != 'example' else 'example'
    return name
exec(open(sys.argv[1]).read())
start = int(sys.argv[2]) if len(sys.argv) > 2 else 0
for idx, m in enumerate(MUTANTS):
    if idx < start: continue
    f, d, old, new, claim = m[:5]
    p = f'{SCR}/Verif/{f}'
    src = open(p).read()
    if src.count(old) < 1:
        print(idx, 'NOT FOUND', d, old); continue
    i = src.index(old)
    if len(m) > 5 and isinstance(m[5], str):
        i = src.index(old, src.index(m[5]))
    open(p, 'w').write(src[:i] + new + src[i+len(old):])
    r = subprocess.run('lake build Verif 2>&1', shell=True, cwd=SCR, capture_output=True, text=True)
    open(p, 'w').write(src)
    errs = re.findall(r'error: (Verif/\S+?\.lean):(\d+):\d+', r.stdout)
    failed = []
    for ef, el in errs:
        n = decl(f'{SCR}/{ef}', int(el))
        n = f'{n} ({ef})' if n == 'example' else n
        if n not in failed: failed.append(n)
    props = users([x for x in failed])
    rec = {"definition": d, "file": f, "edit": {"from": old, "to": new}, "claim": claim,
           "failed": failed, "property_theorems_failed": props, "tightened": []}
    ok = r.returncode == 0
    print(idx, 'SURVIVED' if ok else 'killed', d, failed[:4], props[:6], flush=True)
    if ok: rec["survived"] = True
    open(os.environ.get('MUTOUT','/tmp/mut/results.jsonl'), 'a').write(json.dumps(rec, ensure_ascii=False) + '\n')
