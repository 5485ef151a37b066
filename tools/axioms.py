#!/usr/bin/env python3
"""Rewrites the axiom table at the end of DESIGN.md (run after `lake build`)."""
import subprocess, tempfile, os
SRC = r"""import Verif
open Lean
run_cmd do
  let env ← getEnv
  let mut out := #[]
  for (n, ci) in env.constants.map₁.toList do
    if (`Verif.Props).isPrefixOf n && !n.isInternal then
      match ci with
      | .thmInfo _ => 
        let s := n.getString!
        if s.startsWith "C" && s.length > 3 && ((s.drop 3).startsWith "_" || (s.drop 4).startsWith "_") then
          let ax ← Lean.collectAxioms n
          out := out.push (s, ax.toList)
      | _ => pure ()
  for (s, a) in out.qsort (fun x y => x.1 < y.1) do
    IO.println s!"{s}\t{" ".intercalate (a.map toString)}"
"""
root = os.path.dirname(os.path.dirname(os.path.abspath(__file__)))
with tempfile.TemporaryDirectory() as d:
    f = os.path.join(d, "ax.txt")
    open(f, "w").write(SRC)
    out = subprocess.run(["lake", "env", "lean", f], cwd=root + "/lean", capture_output=True, text=True, check=True).stdout
groups = {}
for l in out.splitlines():
    n, _, a = l.partition("\t")
    groups.setdefault(a, []).append(n)
p = root + "/DESIGN.md"
s = open(p).read()
mark = "## Axioms of each theorem"
if mark in s: s = s[:s.index(mark)]
s = s.rstrip() + "\n\n" + mark + "\n\n"
for a in sorted(groups, key=len):
    s += "* " + (", ".join("`%s`" % x for x in a.split()) or "no axioms") + ": " + ", ".join(groups[a]) + "\n"
open(p, "w").write(s)
print(sum(map(len, groups.values())), "theorems")
