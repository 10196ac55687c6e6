#!/usr/bin/env python3
"""Transcribes the newton_f functions of the generated_linear headers of /repo statement by statement into lean/Verif/Model/FloatLinear.lean, as expressions whose operations are rounded."""
import re, os
repo = "/repo/include/nektar_interface/particle_cell_mapping/generated_linear/"
out = os.path.dirname(os.path.abspath(__file__)) + "/../lean/Verif/Model/FloatLinear.lean"
lits = {"0.25": "lit (1 / 4)", "0.125": "lit (1 / 8)", "0.5": "lit (1 / 2)", "1.0": "lit 1"}
s = """import Verif.Model.FloatExpr
import Verif.Model.NewtonKernel

/-!
The residual functions of include/nektar_interface/particle_cell_mapping/generated_linear/*.hpp in floating point arithmetic, one `let` for each C++ statement (written by
tools/gen_float_linear.py). The arguments are those of Model/LinearElements.lean. The values are expressions: what a program computes for them is said in Model/FloatExpr.lean.
-/

namespace Verif.Model.FloatLinear
open Verif.Model.NewtonKernel Verif.Model.FloatExpr
"""
for fn, ns in [("quadrilateral", "Quad"), ("hexahedron", "Hex"), ("prism", "Prism"), ("pyramid", "Pyr"), ("tetrahedron", "Tet")]:
    t = open(repo + fn + ".hpp").read()
    for m in re.finditer(r"inline void\s+(newton_(f)_linear_(\d)d)\(([^)]*)\)\s*\{(.*?)\n\}", t, re.S):
        name, kind, nd, args, body = m.groups()
        l0 = t[:m.start()].count("\n") + 1
        l1 = t[:m.end()].count("\n") + 1
        s += f"\n/-- `{name}`, generated_linear/{fn}.hpp:{l0}-{l1}. -/\nnoncomputable def {ns}.newtonF (c : ℕ → V3 Expr) (xi phys : V3 Expr) : V3 Expr :=\n"
        for v in re.findall(r"const REAL (\w+)", args):
            comp = "xyz"[int(v[-1])]
            rhs = f"(c {v[1]}).{comp}" if re.fullmatch(r"v\d\d", v) else f"{v[:-1]}.{comp}"
            s += f"  let {v} := {rhs}\n"
        tmp = []
        for st in body.split(";"):
            st = " ".join(st.split())
            if not st: continue
            d = re.fullmatch(r"const REAL (\w+) = (.*)", st)
            if d:
                rhs = re.sub(r"\b\d+\.\d+\b", lambda x: lits[x.group(0)], d.group(2))
                rhs = re.sub(r"(?<![\w/(] )(?<![\w.])\b1\b(?! /)", "lit 1", rhs) if "lit" not in rhs else re.sub(r"([+-]) 1$", r"\1 lit 1", rhs)
                s += f"  let {d.group(1)} := {rhs}\n"
            else:
                d = re.fullmatch(r"\*(\w+) = (\w+)", st)
                tmp.append(d.group(2))
        if len(tmp) == 2: tmp.append("lit 0")
        s += "  ⟨" + ", ".join(tmp) + "⟩\n"
s += "\nend Verif.Model.FloatLinear\n"
open(out, "w").write(s)
