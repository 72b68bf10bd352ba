#!/usr/bin/env python3
"""Translate `arrhythmia_nn` and `demo_nn` of /repo/src/demos.rs into lean/Verif/Data/Networks.lean.

The parser accepts exactly the shape of the two functions and stops on anything else.
"""
import os, re

src = open("/repo/src/demos.rs").read()
out = os.path.join(os.path.dirname(os.path.abspath(__file__)), "..", "lean/Verif/Data/Networks.lean")

PERC = re.compile(r"Perceptron\s*\{\s*t:\s*PercType::(MAX|LIN|ACT),\s*w:\s*vec!\[([-0-9,\s]*)\],\s*b:\s*(-?\d+)\s*,?\s*\}\s*,?\s*")


def network(name):
    m = re.search(r"pub fn " + name + r"\(\) -> NeuralNetwork \{\s*NeuralNetwork \{\s*layers: vec!\[(.*?)\],\s*"
                  r"n_inputs: (\d+),\s*\}\s*\}", src, re.S)
    assert m, name
    body, n_inputs = m.group(1).strip(), int(m.group(2))
    layers, pos = [], 0
    while pos < len(body):
        h = re.compile(r"vec!\[\s*").match(body, pos)
        assert h, body[pos:pos + 60]
        pos, layer = h.end(), []
        while True:
            p = PERC.match(body, pos)
            if not p:
                break
            layer.append((p.group(1), [int(x) for x in p.group(2).split(",") if x.strip()], int(p.group(3))))
            pos = p.end()
        e = re.compile(r"\]\s*,?\s*").match(body, pos)
        assert e, body[pos:pos + 60]
        pos = e.end()
        layers.append(layer)
    line = src[:m.start()].count("\n") + 1
    return layers, n_inputs, line, src[:m.end()].count("\n") + 1


with open(out, "w") as f:
    f.write("import Verif.Model.NN\n\n/-!\n# The networks of `/repo/src/demos.rs`\n\n"
            "Generated by `tools/gen_nn.py`, in file order.\n-/\n\nnamespace Parm\n")
    for name, lean in [("demo_nn", "demoNn"), ("arrhythmia_nn", "arrhythmiaNn")]:
        layers, n_inputs, a, b = network(name)
        f.write(f"\n/-- `{name}`, `/repo/src/demos.rs:{a}-{b}` ({n_inputs} inputs) -/\ndef {lean} : NeuralNetwork where\n"
                "  layers := [\n")
        f.write(",\n".join("    [" + ",\n     ".join(f"⟨.{t}, [{', '.join(map(str, w))}], {bb}⟩" for t, w, bb in l) + "]"
                           for l in layers))
        f.write("]\n")
        print(name, [len(l) for l in layers], [sorted({len(w) for _, w, _ in l}) for l in layers])
    f.write("\nend Parm\n")
