#!/usr/bin/env python3
"""seedlog.py bugs.json tightened.json out1.jsonl [out2.jsonl ...] : one JSON line per attempt, for seeded/LOG.jsonl
SEED_FIRST is the number of the first series (1 by default)"""
import json, re, sys, os
LEAN = os.path.join(os.environ.get("SEED_LEAN", os.path.join(os.path.dirname(os.path.abspath(__file__)), "..", "lean")), "Verif")
bugs = {b["id"]: b for b in json.load(open(sys.argv[1]))}
tight = json.load(open(sys.argv[2]))


def definition(bug):
    """the definition that contains the edit"""
    s = open(os.path.join(LEAN, bug["file"])).read()
    i = s.index(bug["edits"][0][0])
    j = i + len(bug["edits"][0][0])
    names = re.findall(r"^(?:def|abbrev|structure|inductive) (\S+)", s[:j], re.M)
    return names[-1] if names else "?"


for n, out in enumerate(sys.argv[3:], int(os.environ.get("SEED_FIRST", "1"))):
    for l in open(out):
        r = json.loads(l)
        b = bugs[r["id"]]
        if "problem" in r:
            continue
        key = f'{r["id"]}/{n}'
        print(json.dumps({
            "id": r["id"], "series": n, "definition": f'{b["file"]}: {definition(b)}', "bug": b["why"],
            "edit": [{"from": o, "to": t} for o, t in b["edits"]], "breaks": b["claim"],
            "failed": r["failed"], "failed_examples": r["examples"], "claims_lost": r["hit"],
            "survived": not r["hit"], "tightened": tight.get(key, [])}, ensure_ascii=False))
