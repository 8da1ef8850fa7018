"""Compare the model of the abstraction functions with the recorded cases of the repository.

Usage, after `lake build`, in /verif/lean:  python3 ../checks/abstraction_cases.py [path to the repository]

The cases are read from tests/test_unit/data/abstraction_testcases.json.gz and passed to a Lean program that evaluates
the model.  No code of the repository is run.
"""

import gzip
import json
import os
import subprocess
import sys
import tempfile

LEAN = r"""
import Verif.Model.PatternScore
open Clever
def dec (l : String) : List Char :=
  (((l.trimAscii.toString.splitOn " ").filter (· ≠ "")).map (fun s => Char.ofNat s.toNat!))
def main (args : List String) : IO Unit := do
  let t ← IO.FS.readFile args[0]!
  let ls := (t.splitOn "\n").toArray
  let mut i := 0
  let mut bad := 0
  while i + 8 ≤ ls.size - 1 do
    let g := fun k => dec ls[i+k]!
    let o := fun k => some (g k)
    match baseAbstractionPy (g 0) (o 1) (o 2) (o 3) with
    | .error _ => IO.println s!"error {i/8}"; bad := bad + 1
    | .ok b =>
      let m := mergeWithQuotechar b
      let f := fillEmpties m
      let s := stripTrailing f
      if b ≠ g 4 ∨ m ≠ g 5 ∨ f ≠ g 6 ∨ s ≠ g 7 then
        bad := bad + 1
        IO.println s!"case {i/8}: {b == g 4} {m == g 5} {f == g 6} {s == g 7}"
    i := i + 8
  IO.println s!"{i/8} cases, {bad} differ"
"""

repo = sys.argv[1] if len(sys.argv) > 1 else "/repo"
path = os.path.join(repo, "tests/test_unit/data/abstraction_testcases.json.gz")
with tempfile.TemporaryDirectory() as tmp:
    with gzip.open(path, "rt") as fp, open(os.path.join(tmp, "cases.txt"), "w") as out:
        for line in fp:
            case = json.loads(line)
            d = case["dialect"]
            parts = [case["content"], d["delimiter"], d["quotechar"], d["escapechar"], case["base_abstraction"]]
            parts += [case["after_" + k] for k in ("merge_with_quotechar", "fill_empties", "strip_trailing")]
            for part in parts:
                out.write(" ".join(str(ord(c)) for c in part) + "\n")
    with open(os.path.join(tmp, "run.lean"), "w") as fp:
        fp.write(LEAN)
    subprocess.run(
        ["bash", "-c", 'ulimit -s unlimited; lake env lean --run "$0" "$1"', fp.name, out.name], check=True
    )
