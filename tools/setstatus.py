#!/usr/bin/env python3
"""setstatus.py CNN status note: record the status of a claim in status.json"""
import json, sys, os
p = os.path.join(os.path.dirname(os.path.abspath(__file__)), "status.json")
d = json.load(open(p))
d[sys.argv[1]] = [sys.argv[2], sys.argv[3]]
json.dump(d, open(p, "w"), indent=1)
