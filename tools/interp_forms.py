# Writes lean/Verif/Model/InterpForm.lean: the arithmetic expressions of the compact spline evaluations,
# copied from src/spline/interp{1,2,3}Dcomp.c with str->c[i] written as C (i).
import re, os
R = "/repo/src/spline/"
here = os.path.dirname(os.path.abspath(__file__))

def body(path, fn):
    t = open(path).read()
    a = t.index("a5err %s(" % fn)
    line0 = t[:a].count("\n") + 1
    b = t.index("\n}", a)
    return t[a:b], line0

def stmts(path, fn):
    t, l0 = body(path, fn)
    names = {}
    for m in re.finditer(r"real (c\d{4}) = str->c\[([^\]]*)\];", t):
        names[m.group(1)] = m.group(2)
    out = {}
    for m in re.finditer(r"(\*f|f_df\[(\d+)\])\s*=\s*(.*?);", t, re.S):
        a = l0 + t[:m.start()].count("\n")
        b = l0 + t[:m.end()].count("\n")
        e = m.group(3)
        e = re.sub(r"c(\d{4})", lambda g: "C (%s)" % names["c" + g.group(1)], e)
        e = re.sub(r"str->c\[([^\]]*)\]", r"C (\1)", e)
        e = re.sub(r"/\*.*?\*/", "", e, flags=re.S)
        e = "\n".join("    " + l.strip() for l in e.split("\n") if l.strip())[2:]
        out["f" if m.group(2) is None else int(m.group(2))] = (e, a, b)
    return out

def emit(name, doc, params, lets, e):
    keep = ""
    for l in reversed(lets.split("\n")):
        if not l: continue
        v = l.split()[1]
        if re.search(r"\b%s\b" % v, keep + e): keep = l + "\n" + keep
    return "/-- %s -/\ndef %s %s : K :=\n%s%s\n" % (doc, name, params, keep, e)

P = []
P.append("""import Mathlib.Algebra.Field.Basic

/-!
# Expressions of the compact spline evaluations

Written by tools/interp_forms.py from src/spline/interp1Dcomp.c, interp2Dcomp.c and interp3Dcomp.c.  `C i` is
`str->c[i]`, `n` the index of the cell and `x1`, `y1`, `z1` the jumps to the next point along each axis.
-/
namespace Ascot.Interp
variable {K : Type} [Field K]
""")
def lets(axes, names3):
    s = ""
    for a in axes:
        s += "  let d{0}3 := {1}\n  let d{0}3d{0} := 3*d{0}*d{0} - 1\n  let d{0}i := 1 - d{0}\n  let d{0}i3 := {2}\n  let d{0}i3d{0} := -3*d{0}i*d{0}i + 1\n  let {0}g2 := {0}g*{0}g\n  let {0}gi := 1 / {0}g\n".format(
            a, "d%s*d%s*d%s - d%s" % (a, a, a, a) if names3 else "d%s * (d%s*d%s - 1)" % (a, a, a),
            "d{0}i*d{0}i*d{0}i - d{0}i".format(a) if names3 else "d{0}i * (d{0}i*d{0}i - 1)".format(a))
    return s
for dim, axes in ((1, "x"), (2, "xy"), (3, "xyz")):
    path = R + "interp%dDcomp.c" % dim
    par = "(C : Int → K) (n " + " ".join(a + "1" for a in axes) + " : Int) (" + " ".join("d" + a for a in axes) + " " + " ".join(a + "g" for a in axes) + " : K)"
    for fn in ("eval_f", "eval_df"):
        for k, (e, a, b) in stmts(path, "interp%dDcomp_%s" % (dim, fn)).items():
            nm = "form%d%s" % (dim, "f" if k == "f" else "df%d" % k)
            P.append(emit(nm, "src/spline/interp%dDcomp.c:%d-%d, with the helper variables of the same function." % (dim, a, b), par, lets(axes, dim == 3), e))
P.append("end Ascot.Interp\n")
open(os.path.join(here, "..", "lean", "Verif", "Model", "InterpForm.lean"), "w").write("\n".join(P))
