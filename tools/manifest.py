"""Regenerates MANIFEST.json: theorem names are read from lean/Verif/Props, statuses and notes from tools/status.json."""
import json, os, re
here = os.path.dirname(os.path.abspath(__file__))
root = os.path.dirname(here)
props = [json.loads(l)["id"] for l in open(os.path.join(root, "properties.jsonl")) if l.strip()]
status = json.load(open(os.path.join(here, "status.json")))
found = {p: [] for p in props}
base = os.path.join(root, "lean", "Verif", "Props")
for f in sorted(os.listdir(base)):
    ns = []
    for line in open(os.path.join(base, f)):
        m = re.match(r"namespace (\S+)", line)
        if m:
            ns.append(m.group(1))
            continue
        m = re.match(r"end (\S+)", line)
        if m and ns and ns[-1] == m.group(1):
            ns.pop()
            continue
        m = re.match(r"theorem (c(\d\d)_\w+)", line)
        if m:
            found["C" + m.group(2)].append(".".join(ns + [m.group(1)]))
claims = []
for p in props:
    if p not in status:
        continue
    s, note = status[p]
    if not found[p]:
        raise SystemExit("no theorem for " + p)
    claims.append({"property": p, "status": s, "theorems": found[p], "note": note})
json.dump({"claims": claims}, open(os.path.join(root, "MANIFEST.json"), "w"), indent=1)
print(len(claims), "claims;", "missing:", [p for p in props if p not in status])
