#!/usr/bin/env python3
"""Regenerate MANIFEST.json: theorem names are collected from lean/Verif/Props/*.lean by their Cnn_ prefix;
status and note per property come from the table below."""
import json, re, glob, os
root = os.path.dirname(os.path.dirname(os.path.abspath(__file__)))
thms = {}
for f in sorted(glob.glob(root + "/lean/Verif/Props/*.lean")):
    ns = []
    for line in open(f):
        m = re.match(r"namespace (\S+)", line)
        if m: ns.append(m.group(1))
        m = re.match(r"end (\S+)", line)
        if m and ns and ns[-1] == m.group(1): ns.pop()
        m = re.match(r"(?:protected |private )?theorem (C\d\d+_\S+)", line)
        if m: thms.setdefault(m.group(1).split("_")[0], []).append(".".join(ns + [m.group(1)]))
notes = json.load(open(root + "/tools/status.json"))
ids = [json.loads(l)["id"] for l in open(root + "/properties.jsonl") if l.strip()]
claims = []
for i in ids:
    st = notes.get(i, {})
    t = thms.get(i, [])
    status = st.get("status") or ("proved" if t and not any(x.endswith("_partial") or "_violated" in x for x in t) else "partial" if t else "not_applicable")
    claims.append({"property": i, "status": status, "theorems": t, "note": st.get("note", "" if t else "not modelled yet")})
json.dump({"claims": claims}, open(root + "/MANIFEST.json", "w"), indent=1)
print({s: sum(c["status"] == s for c in claims) for s in ("proved", "partial", "not_applicable")})
