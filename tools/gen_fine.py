#!/usr/bin/env python3
"""Writes lean/Verif/Fine/Code.lean: the monadic functions of the model with `M` replaced by `P`,
the type of computations whose parallel tasks can be interleaved (Verif/Fine/Rust.lean)."""
import os, re
root = os.path.join(os.path.dirname(os.path.abspath(__file__)), "..", "lean", "Verif")

FILES = [  # (file, names to copy or None for all functions whose type mentions M)
    ("Model/Rust.lean", ["idx", "setIdx", "runTasks", "seqFor", "i32Op", "i64Op", "u32Op", "shAmt64"]),
    ("Model/Ciphertext.lean", ["decryptMu", "decryptMi"]),
    ("Model/Pbs.lean", None),
    ("Model/Addition.lean", None),
    ("Model/Signum.lean", None),
    ("Model/Multiplication.lean", None),
    ("Model/Encryption.lean", ["convertFromVecLoop", "convertFromVec"]),
    ("Model/Naf.lean", ["u32Bit", "u32BitPred", "fillWhile", "ktStep", "ktLoop", "ktFinish",
                        "koyamaTsuruokaVec", "windShiftsLoop", "windShifts"]),
    ("Model/Arith.lean", ["Arith"]),
    ("Model/ScalarMul.lean", ["ascStep", "ascLoop", "ascEval", "ascArith", "mapIdx", "scalarMulImpl",
                              "ctScalarMul", "arithCt"]),
    ("Model/NN.lean", None),
    ("Spec.lean", ["Instr.run", "runProg"]),
]

def blocks(path):
    """top-level commands with the comment in front of them"""
    lines = open(path).read().split("\n")
    out, cur, incomment = [], [], False
    for ln in lines:
        start = (not incomment) and re.match(r"(/--|/-!|def |structure |inductive |theorem |instance|abbrev |variable|section|namespace|end\b|import|open)", ln)
        if start and not (cur and cur[0].startswith("/--") and not any(re.match(r"(def|structure|inductive|theorem|instance|abbrev) ?", c) for c in cur)):
            if cur:
                out.append("\n".join(cur))
            cur = []
        cur.append(ln)
        if "/-" in ln and "-/" not in ln[ln.index("/-") + 2:]:
            incomment = True
        elif incomment and "-/" in ln:
            incomment = False
    if cur:
        out.append("\n".join(cur))
    return out

def main():
    res = []
    for f, names in FILES:
        res.append("/-! ### from `Verif/%s` -/\n\nsection\n" % f)
        for b in blocks(os.path.join(root, f)):
            code = re.sub(r"/-.*?-/", "", b, flags=re.S).strip()
            m = re.match(r"(def|structure) ([\w.']+)", code)
            if re.match(r"(variable|section)\b", code) or code == "end":
                if names is None or code.startswith("variable (S"):
                    res.append(b.strip() + "\n")
                continue
            if not m:
                continue
            if names is not None:
                if m.group(2) not in names:
                    continue
            elif m.group(1) == "structure" or not re.search(r"\bM\b", code):
                continue
            t = re.sub(r"(?<![\w`])M(?=[ .\n])", "P", b)
            # dot notation would find the function of the model
            t = t.replace("i.run A r", "Instr.run A r i")
            res.append(t.strip() + "\n")
        res.append("end\n")
    head = """import Verif.Fine.Rust
import Verif.Model.NN
import Verif.Spec

/-!
# The model with interleaved tasks

Generated by `tools/gen_fine.py` from the files of `Verif/Model` (and the programs of `Verif.Spec`):
the same functions, with the same text, on `P` instead of `M`.  Functions that are not monadic are
those of the model itself.
-/

namespace Parm.Fine

"""
    with open(os.path.join(root, "Fine", "Code.lean"), "w") as o:
        o.write(head + "\n".join(res) + "\nend Parm.Fine\n")

main()
