#!/usr/bin/env python3
"""Regenerate MANIFEST.json from the theorem names in lean/Verif/Props and the notes in tools/notes.json.

A theorem `Cnn_...` belongs to property Cnn. A property with a `_partial` or `_violated` theorem is
reported as partial, otherwise as proved; notes.json may set the status explicitly."""
import glob, json, re, os
root = os.path.dirname(os.path.dirname(os.path.abspath(__file__)))
notes = json.load(open(f"{root}/tools/notes.json"))
thms = {}
for f in sorted(glob.glob(f"{root}/lean/Verif/Props/**/*.lean", recursive=True)):
    ns = []
    for line in open(f):
        m = re.match(r"namespace (\S+)", line)
        if m: ns.append(m.group(1))
        m = re.match(r"end (\S+)", line)
        if m and ns and ns[-1] == m.group(1): ns.pop()
        m = re.match(r"theorem ((C\d+)_\S+)", line)
        if m: thms.setdefault(m.group(2), []).append(".".join(ns + [m.group(1)]))
claims = []
for line in open(f"{root}/properties.jsonl"):
    pid = json.loads(line)["id"]
    t = thms.get(pid, [])
    n = notes.get(pid, {})
    if isinstance(n, str): n = {"note": n}
    if not t and not n: continue
    status = n.get("status") or ("partial" if any(re.search(r"_(partial|violated)", x) for x in t) else "proved")
    claims.append({"property": pid, "status": status, "theorems": t, "note": n.get("note", "")})
json.dump({"claims": claims}, open(f"{root}/MANIFEST.json", "w"), indent=1, ensure_ascii=False)
print(len(claims), "claims", {s: sum(c["status"] == s for c in claims) for s in ("proved", "partial", "not_applicable")})
print("without theorem:", [c["property"] for c in claims if not c["theorems"]])
