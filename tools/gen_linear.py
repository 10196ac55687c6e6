#!/usr/bin/env python3
"""Transcribes the generated_linear headers of /repo statement by statement into lean/Verif/Model/LinearElements.lean."""
import re, os
repo = "/repo/include/nektar_interface/particle_cell_mapping/generated_linear/"
out = os.path.dirname(os.path.abspath(__file__)) + "/../lean/Verif/Model/LinearElements.lean"
lits = {"0.25": "(1 / 4)", "0.125": "(1 / 8)", "0.5": "(1 / 2)", "1.0": "1"}
s = """import Verif.Model.NewtonKernel

/-!
The functions of include/nektar_interface/particle_cell_mapping/generated_linear/*.hpp, one `let` for each C++ statement (written by
tools/gen_linear.py). The coordinates of vertex `i` are `c i`; the arguments are passed as in newton_quad.hpp:56-93, newton_hex.hpp,
newton_prism.hpp, newton_pyr.hpp, newton_tet.hpp and newton_quad_embed_3d.hpp: `v_ij` is coordinate `j` of vertex `i`. Division is that of a field.
-/

namespace Verif.Model.LinearElements
open Verif.Model.NewtonKernel

variable {K : Type*} [Field K]
"""
lem = """import Mathlib.LinearAlgebra.Matrix.NonsingularInverse
import Mathlib.LinearAlgebra.Matrix.Notation
import Verif.Model.LinearElements

/-! The Jacobians in the generated functions (written by tools/gen_linear.py). -/

namespace Verif.Model.LinearElements
open Verif.Model.NewtonKernel

variable {K : Type*} [Field K]

/-- The last statements of the 2D function. -/
def cramer2 (J : Matrix (Fin 2) (Fin 2) K) (xi f : V3 K) : V3 K :=
  let y2 := 1 / (J 0 0 * J 1 1 - J 0 1 * J 1 0)
  ⟨y2 * (J 0 1 * f.y - J 1 1 * f.x + xi.x * (J 0 0 * J 1 1) - xi.x * (J 0 1 * J 1 0)),
   y2 * (-J 0 0 * f.y + J 1 0 * f.x + xi.y * (J 0 0 * J 1 1) - xi.y * (J 0 1 * J 1 0)), 0⟩

/-- The last statements of the 3D functions. -/
def cramer3 (J : Matrix (Fin 3) (Fin 3) K) (xi f : V3 K) : V3 K :=
CRAMER
"""
for fn, ns in [("quadrilateral", "Quad"), ("quadrilateralembed3d", "QuadEmbed"), ("hexahedron", "Hex"), ("prism", "Prism"), ("pyramid", "Pyr"), ("tetrahedron", "Tet")]:
    t = open(repo + fn + ".hpp").read()
    for m in re.finditer(r"inline void\s+(newton_(step|f)_linear_(\d)d)\(([^)]*)\)\s*\{(.*?)\n\}", t, re.S):
        name, kind, nd, args, body = m.groups()
        dims = 3 if "xi2" in args else 2
        l0 = t[:m.start()].count("\n") + 1
        l1 = t[:m.end()].count("\n") + 1
        lean = {"step": "newtonStep", "f": "newtonF"}[kind]
        a = "(c : ℕ → V3 K) (xi phys f : V3 K)" if kind == "step" else "(c : ℕ → V3 K) (xi phys : V3 K)"
        s += f"\n/-- `{name}`, generated_linear/{fn}.hpp:{l0}-{l1}. -/\ndef {ns}.{lean} {a} : V3 K :=\n"
        for v in re.findall(r"const REAL (\w+)", args):
            comp = "xyz"[int(v[-1])]
            if re.fullmatch(r"v\d\d", v): rhs = f"(c {v[1]}).{comp}"
            else: rhs = f"{v[:-1]}.{comp}"
            if kind == "step" and v.startswith("phys"): continue
            s += f"  let {v} := {rhs}\n"
        tmp = []
        for st in body.split(";"):
            st = " ".join(st.split())
            if not st: continue
            d = re.fullmatch(r"const REAL (\w+) = (.*)", st)
            if d:
                rhs = re.sub(r"\b\d+\.\d+\b", lambda x: lits[x.group(0)], d.group(2))
                s += f"  let {d.group(1)} := {rhs}\n"
            else:
                d = re.fullmatch(r"\*(\w+) = (\w+)", st)
                tmp.append(d.group(2))
        if len(tmp) == 2: tmp.append("0")
        s += "  ⟨" + ", ".join(tmp) + "⟩\n"
        if kind == "step":
            pre = "".join(f"  let {v} := " + (f"(c {v[1]})." if v[0] == "v" else f"{v[:-1]}.") + "xyz"[int(v[-1])] + "\n" for v in re.findall(r"const REAL (\w+)", args) if not re.match("phys|f", v))
            for st in body.split(";"):
                d = re.fullmatch(r"const REAL ([xJ]\d+) = (.*)", " ".join(st.split()))
                if d: pre += f"  let {d.group(1)} := " + re.sub(r"\b\d+\.\d+\b", lambda x: lits[x.group(0)], d.group(2)) + "\n"
            mat = "!![" + "; ".join(", ".join(f"J{i}{j}" for j in range(dims)) for i in range(dims)) + "]"
            lem += f"\n/-- The temporaries `J_ij` of `{ns}.newtonStep`. -/\ndef {ns}.jac (c : ℕ → V3 K) (xi : V3 K) : Matrix (Fin {dims}) (Fin {dims}) K :=\n{pre}  {mat}\n"
            lem += f"\ntheorem {ns}.newtonStep_eq (c : ℕ → V3 K) (xi phys f : V3 K) : {ns}.newtonStep c xi phys f = cramer{dims} ({ns}.jac c xi) xi f := rfl\n"
s += "\nend Verif.Model.LinearElements\n"
t = open(repo + "tetrahedron.hpp").read()
t = t[t.index("const REAL y0"):t.index("*xin0 = xin0_tmp")]
cr = ""
for st in t.split(";"):
    d = re.fullmatch(r"const REAL (\w+) = (.*)", " ".join(st.split()))
    if d:
        rhs = d.group(2).replace("1.0", "1")
        rhs = re.sub(r"\bJ(\d)(\d)", r"J \1 \2", rhs)
        rhs = re.sub(r"\b(xi|f)(\d)\b", lambda x: x.group(1) + "." + "xyz"[int(x.group(2))], rhs)
        cr += f"  let {d.group(1)} := {rhs}\n"
lem = lem.replace("CRAMER\n", cr + "  ⟨xin0_tmp, xin1_tmp, xin2_tmp⟩\n") + "\nend Verif.Model.LinearElements\n"
open(out, "w").write(s)
open(out.replace("Model", "Lemmas"), "w").write(lem)
