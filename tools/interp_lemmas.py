ops={'f':['val']*3,
}
D1=[('val',),('der',),('der2',)]
D2=[('val','val'),('der','val'),('val','der'),('der2','val'),('val','der2'),('der','der')]
v,d,s='val','der','der2'
D3=[(v,v,v),(d,v,v),(v,d,v),(v,v,d),(s,v,v),(v,s,v),(v,v,s),(d,d,v),(d,v,d),(v,d,d)]
out=['''import Verif.Model.InterpForm
import Verif.Spec.Interp
import Mathlib.Algebra.Order.Field.Basic
import Mathlib.Tactic.Ring

/-!
# The expressions of the spline evaluations are tensor products
-/
set_option linter.unusedSectionVars false
set_option linter.unusedSimpArgs false

namespace Ascot.Interp
open Ascot.Spline
variable {K : Type} [Field K] [LinearOrder K] [IsStrictOrderedRing K]

theorem k3_a (d : K) : d * d * d - d = k3 d := by unfold k3; ring
theorem k3_b (d : K) : d * (d * d - 1) = k3 d := by unfold k3; ring
theorem k3'_a (d : K) : 3 * d * d - 1 = k3' d := by unfold k3'; ring
theorem k3'_b (d : K) : -3 * d * d + 1 = -k3' d := by unfold k3'; ring
''']
for dim,DD in ((1,D1),(2,D2),(3,D3)):
    ax='xyz'[:dim]
    ps=' '.join(a+'1' for a in ax); ds=' '.join('d'+a for a in ax); gs=' '.join(a+'g' for a in ax)
    for nm,o in [('f',DD[0])]+[('df%d'%k,o) for k,o in enumerate(DD)]:
        out.append(f'''theorem form{dim}{nm}_eq (C : Int → K) (n {ps} : Int) ({ds} {gs} : K) :
    form{dim}{nm} C n {ps} {ds} {gs} = tensor{dim} {' '.join('.'+x for x in o)} C n {ps} {ds} {gs} := by
  simp only [form{dim}{nm}, tensor{dim}, Op.at, k3_a, k3_b, k3'_a, k3'_b]
'''+''.join(f"  generalize 1 - d{a} = e{a}\n" for a in ax)+"  ring_nf\n" if (dim,nm)!=(1,'df2') else f'''theorem form{dim}{nm}_eq (C : Int → K) (n {ps} : Int) ({ds} {gs} : K) :
    form{dim}{nm} C n {ps} {ds} {gs} = tensor{dim} {' '.join('.'+x for x in o)} C n {ps} {ds} {gs} := rfl
''')
out.append("end Ascot.Interp\n")
open('/verif/lean/Verif/Lemmas/InterpForm.lean','w').write('\n'.join(out))
