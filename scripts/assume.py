#!/usr/bin/env python3
"""Writes ../ASSUMPTIONS.md: for every theorem of the manifest the arithmetic laws it assumes (type classes in its
statement) and the axioms it depends on, as reported by Lean.  Run after `lake build`."""
import json, os, subprocess, tempfile
root=os.path.join(os.path.dirname(os.path.abspath(__file__)),"..")
M=json.load(open(os.path.join(root,"MANIFEST.json")))["claims"]
names=[t for c in M for t in c["theorems"]]
src='''import Verif
open Lean Meta Elab Command
def nm : List Name := ['''+", ".join("`"+n for n in names)+''']
#eval show CommandElabM Unit from do
  let env ← getEnv
  for n in nm do
    match env.find? n with
    | some ci =>
      let u := ci.type.getUsedConstants
      let cs := u.filter (fun c => ["OrderedScalar","ExactScalar","ExactSqrt","ExactAtan2","Archimedean","Rat","Real","FQ"].contains c.getString!)
      let ax ← collectAxioms n
      IO.println s!"@@{n}|{", ".intercalate (cs.toList.map (·.getString!))}|{", ".intercalate (ax.toList.map toString)}"
    | none => IO.println s!"@@MISSING {n}||"
'''
f=tempfile.NamedTemporaryFile("w",suffix=".lean",delete=False); f.write(src); f.close()
o=subprocess.run(["lake","env","lean",f.name],cwd=os.path.join(root,"lean"),capture_output=True,text=True).stdout
rows=[l[2:].split("|") for l in o.splitlines() if l.startswith("@@")]
with open(os.path.join(root,"ASSUMPTIONS.md"),"w") as g:
    g.write("# Laws and axioms per theorem\n\nGenerated by `scripts/assume.py`. “Laws”: the type classes in the statement (`–`: holds for every arithmetic, "
            "NaN and rounding included; `Rat`, `FQ`: a concrete witness evaluated by the kernel; `ExactScalar` has the instances ℚ and ℝ, `ExactSqrt` ℝ, "
            "`ExactAtan2` ℚ and ℝ).\n\n| theorem | laws | axioms |\n|---|---|---|\n")
    for n,c,a in rows:
        g.write(f"| {n.replace('Verif.Props.','')} | {c or '–'} | {a or 'none'} |\n")
print(len(rows), set(x for r in rows for x in r[2].split(", ")))
