#!/usr/bin/env python3
"""Add or replace properties: reads JSON objects (one per line) on stdin."""
import json,sys,os
f=os.path.join(os.path.dirname(os.path.dirname(os.path.abspath(__file__))),"properties.jsonl")
ps=[json.loads(l) for l in open(f) if l.strip()]
for l in sys.stdin:
    if not l.strip(): continue
    d=json.loads(l)
    old=[p for p in ps if p["id"]==d["id"]]
    if old: old[0].update(d)
    else:
        assert set(d)=={"id","title","statement","quantifier","why_tests_cant","anchors"}, d
        ps.append(d)
open(f,"w").write("".join(json.dumps(p,ensure_ascii=False)+"\n" for p in ps))
