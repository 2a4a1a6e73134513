#!/usr/bin/env python3
"""Try wrong programs: mutate.py FILE.json
Each entry: {"file": "Verif/X/Model.lean", "def": "name", "old": "...", "new": "...", "claim": "C01", "edit": "words"}.
Works in a scratch copy (/tmp/mut), rebuilds, and prints one JSON line per entry with the declarations that failed. Appends the line to
/verif/seeded/LOG.jsonl when run with --log.
"caught" says that a proof stopped working. Whether the statement became false, or only its script broke, is for the reader to decide; correct
the line by hand when the edit turns out to be harmless."""
import json, os, re, shutil, subprocess, sys
SRC, DST = '/verif/lean', '/tmp/mut/lean'
def sync():
    os.makedirs('/tmp/mut', exist_ok=True)
    subprocess.run(['rsync', '-a', '--delete', SRC + '/', DST + '/'], check=True) if shutil.which('rsync') else (
        shutil.rmtree(DST, ignore_errors=True), shutil.copytree(SRC, DST, symlinks=True))
def decl_at(path, line):
    L = open(path).read().split('\n')
    for i in range(min(line, len(L)) - 1, -1, -1):
        m = re.match(r'\s*(?:private |@\[[^\]]*\] )*(theorem|def|example|instance|structure|inductive|abbrev)\s*([\w.?\'₁-₉]*)', L[i])
        if m: return (m.group(2) or 'example') if m.group(1) != 'example' else f'example@{os.path.basename(path)}:{i+1}'
    return '?'
def build():
    r = subprocess.run('ulimit -v 400000000; timeout 900 lake build 2>&1', shell=True, cwd=DST, capture_output=True, text=True, executable='/bin/bash')
    out = r.stdout
    failed, at = [], []
    for m in re.finditer(r'error: (Verif/[\w/]+\.lean):(\d+):', out):
        d = decl_at(os.path.join(DST, m.group(1)), int(m.group(2)))
        if d not in failed: failed.append(d)
        at.append((m.group(1)[:-5].replace('/', '.'), d))
    mods = sorted(set(re.findall(r'^- (Verif[\w.]*)', out, re.M)))
    return r.returncode, failed, mods, out, at
def imports():
    imp = {}
    for root, _, fs in os.walk(os.path.join(DST, 'Verif')):
        for f in fs:
            if f.endswith('.lean'):
                p = os.path.join(root, f)
                mod = os.path.relpath(p, DST)[:-5].replace('/', '.')
                imp[mod] = (p, re.findall(r'^import (Verif[\w.]+)', open(p).read(), re.M))
    return imp
def dependants(failed_at):
    """Property theorems that use, directly or through lemmas, one of the declarations that failed (by name, inside the import closure)."""
    imp = imports()
    clos = {}
    def close(m):
        if m not in clos:
            clos[m] = {m}
            for x in imp[m][1]:
                if x in imp: clos[m] |= close(x)
        return clos[m]
    decls = {}
    for m, (p, _) in imp.items():
        cur = None
        for line in open(p).read().split('\n'):
            k = re.match(r'(?:private |@\[[^\]]*\] )*(?:theorem|def|abbrev|instance)\s+([\w.?\'₁-₉]+)', line)
            if k: cur = (m, k.group(1)); decls[cur] = []
            elif re.match(r'example|structure|inductive|namespace|end\b', line): cur = None
            if cur: decls[cur].append(line)
    words = {d: set(re.findall(r"[\w'?₁-₉]+", ' '.join(t))) for d, t in decls.items()}
    bad = {(m, n) for m, n in failed_at}
    ch = True
    while ch:
        ch = False
        for d in decls:
            if d in bad: continue
            for (m, n) in list(bad):
                if n.split('.')[-1] in words[d] and m in close(d[0]): bad.add(d); ch = True; break
    return sorted({n for _, n in bad if re.match(r'C\d\d_', n)})
def main():
    log = '--log' in sys.argv
    muts = json.load(open([a for a in sys.argv[1:] if not a.startswith('--')][0]))
    sync()
    built = set(re.findall(r'^import (\S+)', open(os.path.join(DST, 'Verif.lean')).read(), re.M))
    for mu in muts:
        p = os.path.join(DST, mu['file'])
        if mu['file'][:-5].replace('/', '.') not in built:
            sys.exit(mu['file'] + ' is not imported by Verif.lean: run tools/manifest.py first')
        s = open(p).read()
        n = s.count(mu['old'])
        if n != 1:
            print(json.dumps({'skip': mu['edit'], 'count': n}), flush=True); continue
        open(p, 'w').write(s.replace(mu['old'], mu['new']))
        rc, failed, mods, out, at = build()
        deps = dependants(at)
        shutil.copyfile(os.path.join(SRC, mu['file']), p)
        mb = [m for m in mods]
        modelbroken = mu['file'][:-5].replace('/', '.') in mods
        rec = {'definition': mu['file'] + ':' + mu['def'], 'edit': mu['edit'], 'claim': mu['claim'],
               'failed': failed, 'property_theorems_lost': deps, 'caught': rc != 0, 'tightened': mu.get('tightened', [])}
        if modelbroken: rec['model_does_not_compile'] = out[-600:]
        print(json.dumps(rec), flush=True)
        if log and not modelbroken:
            with open('/verif/seeded/LOG.jsonl', 'a') as f: f.write(json.dumps(rec) + '\n')
main()
