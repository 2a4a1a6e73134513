#!/usr/bin/env python3
"""Regenerate MANIFEST.json and lean/Verif.lean from the theorem names in lean/Verif.

Property theorems are the ones called Cnn_*. A property is 'partial' when one of its theorems is called
*_partial or *_violation. Notes are kept in tools/notes.json."""
import json, os, re, collections
root = os.path.dirname(os.path.dirname(os.path.abspath(__file__)))
lean = os.path.join(root, "lean")
thms = collections.OrderedDict()
mods = []
for d, _, fs in sorted(os.walk(os.path.join(lean, "Verif"))):
    for f in sorted(fs):
        if not f.endswith(".lean"): continue
        path = os.path.join(d, f)
        mods.append(os.path.relpath(path, lean)[:-5].replace("/", "."))
        ns = []
        for line in open(path):
            m = re.match(r"namespace (\S+)", line)
            if m: ns.append(m.group(1))
            m = re.match(r"end (\S+)", line)
            if m and ns and ns[-1] == m.group(1): ns.pop()
            m = re.match(r"(?:set_option .* in )?theorem ((C\d\d+)_\S+)", line)
            if m:
                thms.setdefault(m.group(2), []).append(".".join(ns + [m.group(1)]))
open(os.path.join(lean, "Verif.lean"), "w").write("".join(f"import {m}\n" for m in mods))
notes = json.load(open(os.path.join(root, "tools", "notes.json")))
claims = []
for line in open(os.path.join(root, "properties.jsonl")):
    p = json.loads(line)
    t = thms.get(p["id"], [])
    n = notes.get(p["id"], {})
    if t:
        st = "partial" if any(x.endswith("_partial") or "_violation" in x for x in t) else "proved"
    else:
        st = "not_applicable"
    st = n.get("status", st)
    claims.append({"property": p["id"], "status": st, "theorems": t,
                   "note": n.get("note", "" if t else "not modelled yet")})
json.dump({"claims": claims}, open(os.path.join(root, "MANIFEST.json"), "w"), indent=1, ensure_ascii=False)
print(len(mods), "modules;", {s: sum(c["status"] == s for c in claims) for s in ("proved", "partial", "not_applicable")})
