#!/usr/bin/env python3
"""Translate /repo/assets/asc-12.yaml into lean/Verif/Data/Asc12.lean.

One chain element per constructor call: e lPos lIdx rPos rIdx rShift.  The parser accepts
exactly the shape of the shipped file and stops on anything else.
"""
import os, re

src = "/repo/assets/asc-12.yaml"
out = os.path.join(os.path.dirname(os.path.abspath(__file__)), "..", "lean/Verif/Data/Asc12.lean")
lines = open(src).read().split("\n")
assert lines[0] == "---"
chains, i = [], 1
FIELDS = ["l_pos", "l_idx", "r_pos", "r_idx", "r_shift"]
while i < len(lines) and lines[i] != "":
    m = re.fullmatch(r"(\d+):( \[\])?", lines[i])
    assert m, lines[i]
    key, chain = int(m.group(1)), []
    i += 1
    if not m.group(2):
        while i < len(lines) and lines[i].startswith("- "):
            vals = []
            for j, f in enumerate(FIELDS):
                m2 = re.fullmatch((r"- " if j == 0 else r"  ") + f + r": (\w+)", lines[i + j])
                assert m2, lines[i + j]
                vals.append(m2.group(1))
            chain.append(vals)
            i += 5
    chains.append((key, chain))
assert all(l == "" for l in lines[i:])

CH = 64
with open(out, "w") as f:
    f.write("import Verif.Model.Ciphertext\n\n/-!\n# The shipped chain table `/repo/assets/asc-12.yaml`\n\n"
            "Generated by `tools/gen_asc.py`; one entry per key of the file, in file order.\n-/\n\n"
            "namespace Parm\nnamespace Asc12\n\n"
            "private abbrev T := true\nprivate abbrev F := false\n\n"
            "/-- an element of a chain, in the field order of the file -/\n"
            "def e (lPos : Bool) (lIdx : Nat) (rPos : Bool) (rIdx rShift : Nat) : AddShift :=\n"
            "  ⟨lPos, lIdx, rPos, rIdx, rShift⟩\n\n")
    n = 0
    for a in range(0, len(chains), CH):
        f.write(f"/-- `/repo/assets/asc-12.yaml`, entries {a}–{min(a+CH,len(chains))-1} -/\n")
        f.write(f"def part{n} : List (Nat × Asc) := [\n")
        rows = []
        for k, ch in chains[a:a + CH]:
            els = ", ".join("e " + " ".join({"true": "T", "false": "F"}.get(v, v) for v in el) for el in ch)
            rows.append(f"  ({k}, [{els}])")
        f.write(",\n".join(rows) + "]\n\n")
        n += 1
    f.write("end Asc12\n\n/-- `/repo/assets/asc-12.yaml` as parsed by `map_from_yaml`, "
            "`/repo/src/cloudovo/scalar_multiplication/asc.rs:92-129` -/\n"
            "def asc12 : List (Nat × Asc) :=\n  " + " ++ ".join(f"Asc12.part{j}" for j in range(n)) + "\n\nend Parm\n")
print(len(chains), sum(len(c) for _, c in chains), max(len(c) for _, c in chains))
