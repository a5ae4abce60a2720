#!/usr/bin/env python3
"""Seeded-bug runner.  Usage: mutate.py muts.json [scratchdir]
muts.json: list of {file, def, old, new, edit, claim}; file is relative to lean/Verif.
An edit may name the modules to rebuild (targets); the default is all of them.
Each edit is applied to a scratch copy, the copy is rebuilt, and one line per edit is appended to
seeded/LOG.jsonl naming the theorems whose proofs no longer check (and the property theorems that
depend on a lemma that no longer checks)."""
import json, re, glob, os, sys, subprocess, shutil
root = os.path.dirname(os.path.dirname(os.path.abspath(__file__)))
muts = json.load(open(sys.argv[1]))
scratch = sys.argv[2] if len(sys.argv) > 2 else '/tmp/mut'
if os.path.exists(scratch): shutil.rmtree(scratch)
shutil.copytree(root + '/lean', scratch, symlinks=True)

DECL = re.compile(r'^(?:@\[[^\]]*\]\s*)?(?:private |protected )?(theorem|lemma|def|example|instance|structure|inductive|abbrev)\s*(\S+)?')
def decls(path):
    out = []
    for i, l in enumerate(open(path), 1):
        m = DECL.match(l)
        if m: out.append((i, m.group(1), m.group(2) or ''))
    return out
def enclosing(path, line):
    best = None
    for i, k, n in decls(path):
        if i <= line: best = (k, n if k != 'example' else 'example@%d' % i)
    return best
# text of each theorem, for the dependency closure; the proofs about programs on the heap find the lemma about a called function by
# themselves, so a lemma about a program depends on the lemmas about the functions it calls
bodies = {}; programs = {}
for f in glob.glob(root + '/lean/Verif/**/*.lean', recursive=True):
    ls = open(f).read().split('\n'); ds = decls(f)
    for j, (i, k, n) in enumerate(ds):
        if k in ('theorem', 'lemma'):
            end = ds[j+1][0] - 1 if j + 1 < len(ds) else len(ls)
            bodies[n] = '\n'.join(ls[i-1:end])
        elif k == 'def' and '/Model/Heap' in f:
            programs[n] = '\n'.join(ls[i-1:ds[j+1][0] - 1 if j + 1 < len(ds) else len(ls)])
LEMMA = re.compile(r'^(\w+?)_(spec|view|keep|reads|refuse|destroys)\w*$')
def dependents(names):
    seen = set(names); todo = list(names)
    while todo:
        x = todo.pop(); short = x.split('.')[-1]
        pat = re.compile(r'(?<![\w])' + re.escape(short) + r'(?![\w])')
        for n, b in bodies.items():
            if n not in seen and pat.search(b): seen.add(n); todo.append(n)
        m = LEMMA.match(x)
        if m and m.group(1) in programs:
            pat = re.compile(r'(?<![\w])' + re.escape(m.group(1)) + r'(?![\w])')
            callers = {n for n, b in programs.items() if n != m.group(1) and pat.search(b)}
            for n in bodies:
                m2 = LEMMA.match(n)
                if n not in seen and m2 and m2.group(1) in callers: seen.add(n); todo.append(n)
    return sorted(n for n in seen if re.match(r'C\d\d_', n))
for m in muts:
    p = scratch + '/Verif/' + m['file']
    src = open(p).read()
    if src.count(m['old']) != 1:
        print('!! pattern occurs', src.count(m['old']), 'times:', m['file'], m['old'][:60]); continue
    open(p, 'w').write(src.replace(m['old'], m['new']))
    failed = []; out = ''
    r = subprocess.run(['lake', 'build'] + m.get('targets', []), cwd=scratch, capture_output=True, text=True)
    out = r.stdout + r.stderr
    for e in re.finditer(r'^error: (Verif/\S+\.lean):(\d+):', out, re.M):
        x = enclosing(scratch + '/' + e.group(1), int(e.group(2)))
        nm = (e.group(1).replace('Verif/', '') + ':' + (x[1] if x else '?'))
        if nm not in failed: failed.append(nm)
    open(p, 'w').write(src)
    lem = [f.split(':')[1] for f in failed if not f.split(':')[1].startswith('example')]
    deps = dependents(lem) if lem else []
    entry = {'definition': m['def'], 'edit': m['edit'], 'claim': m['claim'],
             'theorems_failed': deps, 'failed_at': failed, 'tightened': m.get('tightened', [])}
    modelerr = any(f.startswith('Model/') or f.startswith('Spec/') for f in failed)
    print(('OK  ' if failed else 'SURVIVED'), ('(model does not compile) ' if modelerr else ''), m['def'], '|', m['edit'], '|', failed[:4], '| props:', deps[:6])
    if modelerr: continue
    if not failed: entry['note'] = 'survived'
    with open(root + '/seeded/LOG.jsonl', 'a') as g: g.write(json.dumps(entry, ensure_ascii=False) + '\n')
