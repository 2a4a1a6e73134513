#!/usr/bin/env python3
"""Check the source citations in the Lean comments: the file must exist in /repo, the lines must be inside it, and when the
comment names a function in backquotes right before the citation, that name must occur near the cited lines."""
import re, os, glob, sys
files = {}
for root, _, fs in os.walk('/repo'):
    for f in fs:
        if f.endswith(('.c', '.h', '.cpp')):
            files.setdefault(f, []).append(os.path.join(root, f))
bad = 0; total = 0; named = 0
for p in sorted(glob.glob('/verif/lean/Verif/**/*.lean', recursive=True)):
    s = open(p).read()
    for m in re.finditer(r'(?:`(ngx_\w+|cJSON\w*|\w+)`[^`()]{0,40}\()?((?:[\w.-]+/)*[\w.-]+\.[ch](?:pp)?):(\d+)(?:-(\d+))?', s):
        total += 1
        name, f, a, b = m.group(1), m.group(2), int(m.group(3)), int(m.group(4) or m.group(3))
        line = s[:m.start()].count('\n') + 1
        c = [x for x in files.get(os.path.basename(f), []) if x.endswith('/' + f)]
        if not c:
            print(f'{p}:{line}: no such file {f}'); bad += 1; continue
        ok = False; inside = False
        for x in c:
            L = open(x, errors='replace').read().split('\n')
            if a <= b <= len(L):
                inside = True
                if name is None or any(re.search(r'\b' + re.escape(name), t) for t in L[max(0, a - 4):b + 3]):
                    ok = True
                enc = [t for t in L[:a] if re.match(r'[a-z]\w*\(', t)]
                if name and enc and re.match(r'\w+', enc[-1]).group(0) == name:
                    ok = True
        if name: named += 1
        if not inside:
            print(f'{p}:{line}: lines {a}-{b} outside {f}'); bad += 1
        elif not ok:
            print(f'{p}:{line}: `{name}` not found near {f}:{a}-{b}'); bad += 1
print(f'{total} citations, {named} with a name, {bad} suspicious')
sys.exit(1 if bad else 0)
