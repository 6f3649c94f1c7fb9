#!/usr/bin/env python3
"""Writes ../MANIFEST.json.  Theorem names are collected from lean/Verif/Props/*.lean:
every theorem named Cxx_... is attached to property Cxx."""
import json, os, re, glob
here=os.path.dirname(os.path.abspath(__file__))
root=os.path.join(here,"..")
props=[json.loads(l) for l in open(os.path.join(root,"properties.jsonl"))]
th={}
for f in sorted(glob.glob(os.path.join(root,"lean/Verif/Props/*.lean"))):
    ns=[]
    for line in open(f):
        m=re.match(r"namespace (\S+)",line)
        if m: ns.append(m.group(1))
        m=re.match(r"end (\S+)",line)
        if m and ns and ns[-1]==m.group(1): ns.pop()
        m=re.match(r"theorem (C(\d\d+)_\S+)",line)
        if m: th.setdefault("C"+m.group(2),[]).append(".".join(ns+[m.group(1)]))
notes={}
exec(open(os.path.join(here,"notes.py")).read(),{"notes":notes})
claims=[]
for p in props:
    i=p["id"]; ts=th.get(i,[])
    note=notes.get(i,("",""))
    st=note[0] or ("partial" if (not ts or any(t.endswith("_partial") for t in ts)) else "proved")
    claims.append({"property":i,"status":st,"theorems":ts,"note":note[1]})
json.dump({"claims":claims},open(os.path.join(root,"MANIFEST.json"),"w"),indent=1,ensure_ascii=False)
print({s:sum(c["status"]==s for c in claims) for s in ("proved","partial","not_applicable")}, [c["property"] for c in claims if not c["theorems"]])
