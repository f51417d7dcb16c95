#!/usr/bin/env python3
"""Run wrong-program tests: apply each edit to a scratch copy of the model, rebuild, record which theorems fail.

usage: mutate.py <mutation file> [only-index ...]
A mutation file defines M = [(file, definition, old, new, claim, description), ...].
The scratch copies are /tmp/mut/w0..w2 (copies of /verif/lean with .lake).
Results are appended to /tmp/mut/results.jsonl; `theorems_failed` = theorems with an error or whose proof rests on one.
"""
import sys, os, re, json, subprocess, importlib.util, queue, threading, shutil
spec = importlib.util.spec_from_file_location('m', sys.argv[1]); m = importlib.util.module_from_spec(spec); spec.loader.exec_module(m)
only = [int(x) for x in sys.argv[2:]]
claims = json.load(open('/verif/MANIFEST.json'))['claims']
manifest = {t: c['property'] for c in claims for t in c['theorems']}
SRC = '/verif/lean'
DECL = re.compile(r'^(?:@\[[^\]]*\]\s*)?(?:private |protected |noncomputable )*(theorem|lemma|def|example|instance|structure|inductive|abbrev)\s*([^\s:({\[]*)')
def decl_at(path, line):
    name = None; ns = []
    for i, l in enumerate(open(path), 1):
        if i > line: break
        mm = re.match(r'^namespace (\S+)', l)
        if mm: ns.append(mm.group(1))
        mm = re.match(r'^end (\S+)', l)
        if mm and ns and ns[-1] == mm.group(1): ns.pop()
        mm = DECL.match(l)
        if mm: name = '.'.join(ns + [mm.group(2)]) if mm.group(2) else '.'.join(ns) + '.example@%d' % i
    return name
def errors(w, out):
    res = []
    for mm in re.finditer(r'^error: (Verif/\S+\.lean):(\d+):\d+: (.*)$', out, re.M):
        res.append((mm.group(1), decl_at(f'{w}/{mm.group(1)}', int(mm.group(2)))))
    return res
def run(w, idx, mut):
    f, d, old, new, claim, desc = mut
    src = open(f'{SRC}/Verif/{f}').read()
    n = src.count(old)
    if n != 1:
        return dict(idx=idx, problem=f'{n} matches', definition=d)
    path = f'{w}/Verif/{f}'
    open(path, 'w').write(src.replace(old, new))
    try:
        p = subprocess.run(['lake', 'build'], cwd=w, capture_output=True, text=True, timeout=1500)
        out = p.stdout + p.stderr
        errs = errors(w, out)
        files = []
        for fl, _ in errs:
            if fl not in files: files.append(fl)
        direct = []
        for _, nm in errs:
            if nm and nm not in direct: direct.append(nm)
        dep = []
        for fl in files:
            names = []
            ns = []
            for l in open(f'{w}/{fl}'):
                mm = re.match(r'^namespace (\S+)', l)
                if mm: ns.append(mm.group(1))
                mm = re.match(r'^end (\S+)', l)
                if mm and ns and ns[-1] == mm.group(1): ns.pop()
                mm = re.match(r'^theorem\s+([^\s:({\[]*)', l)
                if mm: names.append('.'.join(ns + [mm.group(1)]))
            names = [n for n in names if n in manifest]
            if not names: continue
            tmp = f'{w}/Tmp{os.getpid()}_{idx}.lean'
            open(tmp, 'w').write(open(f'{w}/{fl}').read() + '\n' + '\n'.join(f'#print axioms {n}' for n in names))
            q = subprocess.run(['lake', 'env', 'lean', tmp], cwd=w, capture_output=True, text=True, timeout=1500)
            os.remove(tmp)
            for mm in re.finditer(r"'(\S+)' depends on axioms: \[([^\]]*)\]", q.stdout):
                if 'sorryAx' in mm.group(2) and mm.group(1) not in dep: dep.append(mm.group(1))
        blocked = []
        if p.returncode != 0 and not errs:
            blocked = [out[-600:]]
        return dict(idx=idx, definition=f'{f}: {d}', edit=desc or f'{old.strip()}  →  {new.strip()}', claim=claim, rc=p.returncode,
                    failed_directly=direct, theorems_failed=dep, in_model=[x for x in direct if any(a[0].startswith('Verif/Model') and a[1] == x for a in errs)],
                    other=blocked)
    finally:
        open(path, 'w').write(src)
q = queue.Queue()
for i, mut in enumerate(m.M):
    if not only or i in only: q.put((i, mut))
lock = threading.Lock()
def worker(w):
    while True:
        try: i, mut = q.get_nowait()
        except queue.Empty: return
        try: r = run(w, i, mut)
        except Exception as e: r = dict(idx=i, problem=repr(e))
        r['src'] = os.path.basename(sys.argv[1])
        with lock:
            open('/tmp/mut/results.jsonl', 'a').write(json.dumps(r, ensure_ascii=False) + '\n')
            print(i, r.get('definition'), 'SURVIVED' if r.get('rc') == 0 else r.get('problem') or ('killed %d/%d' % (len(r['failed_directly']), len(r['theorems_failed']))), r.get('theorems_failed'), r.get('other'), flush=True)
ts = [threading.Thread(target=worker, args=(f'/tmp/mut/w{k}',)) for k in range(3)]
[t.start() for t in ts]; [t.join() for t in ts]
