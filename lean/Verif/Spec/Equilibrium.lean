import Verif.Model.Cocos

/-!
# What an equilibrium says about the magnetic field

In all conventions (O. Sauter and S. Yu. Medvedev, Comput. Phys. Commun. 184 (2013) 293) the
field is `B = F ∇φ + σ_Bp (2π)^(-e_Bp) ∇φ × ∇ψ`.  The conventions differ in `σ_Bp`, in whether ψ has been
divided by 2π, in the direction in which φ increases (`σ_RφZ`), and in the direction in which the poloidal
angle increases, which decides on the sign of q (`σ_ρθφ`).  Below everything is referred to the angle that
increases counter-clockwise as seen from above.
-/
namespace Ascot.Equilibrium

open Cocos (Eqd)

/-- The numbers of the conventions. -/
def IsCocos (n : ℤ) : Prop := (1 ≤ n ∧ n ≤ 8) ∨ (11 ≤ n ∧ n ≤ 18)

/-- The toroidal angle increases counter-clockwise in conventions with odd numbers. -/
def sRpZ (n : ℤ) : ℝ := if n % 2 = 1 then 1 else -1

/-- The sign in front of the poloidal field. -/
def sBp (n : ℤ) : ℝ := if n % 10 = 1 ∨ n % 10 = 2 ∨ n % 10 = 5 ∨ n % 10 = 6 then 1 else -1

/-- The sign of q, if current and field are in the same direction. -/
def sRtp (n : ℤ) : ℝ := if n % 10 = 1 ∨ n % 10 = 2 ∨ n % 10 = 7 ∨ n % 10 = 8 then 1 else -1

/-- What ψ has to be divided by. -/
noncomputable def turn (n : ℤ) : ℝ := if n ≤ 8 then 1 else 2 * Real.pi

/-- The function `χ` with `B_pol = ∇φ × ∇χ` for the counter-clockwise angle, for a value of ψ. -/
noncomputable def flux (n : ℤ) (psi : ℝ) : ℝ := sRpZ n * sBp n / turn n * psi

/-- A derivative with respect to `χ`, for a derivative with respect to ψ. -/
noncomputable def perFlux (n : ℤ) (d : ℝ) : ℝ := d / (sRpZ n * sBp n / turn n)

/-- Along the counter-clockwise angle. -/
noncomputable def ccw (n : ℤ) (x : ℝ) : ℝ := sRpZ n * x

/-- The safety factor, positive if current and field are in the same direction. -/
noncomputable def safety (n : ℤ) (q : ℝ) : ℝ := sRtp n * q

/-- Two files say the same, the one read in convention `n` and the other in convention `m`. -/
structure Same (n : ℤ) (a : Eqd) (m : ℤ) (b : Eqd) : Prop where
  nx : a.nx = b.nx
  ny : a.ny = b.ny
  rdim : a.rdim = b.rdim
  zdim : a.zdim = b.zdim
  rcentr : a.rcentr = b.rcentr
  rleft : a.rleft = b.rleft
  zmid : a.zmid = b.zmid
  rmagx : a.rmagx = b.rmagx
  zmagx : a.zmagx = b.zmagx
  simagx : flux n a.simagx = flux m b.simagx
  sibdry : flux n a.sibdry = flux m b.sibdry
  bcentr : ccw n a.bcentr = ccw m b.bcentr
  cpasma : ccw n a.cpasma = ccw m b.cpasma
  fpol : a.fpol.map (ccw n) = b.fpol.map (ccw m)
  pres : a.pres = b.pres
  ffprime : a.ffprime.map (perFlux n) = b.ffprime.map (perFlux m)
  pprime : a.pprime.map (perFlux n) = b.pprime.map (perFlux m)
  psi : a.psi.map (List.map (flux n)) = b.psi.map (List.map (flux m))
  qpsi : a.qpsi.map (safety n) = b.qpsi.map (safety m)
  rbdry : a.rbdry = b.rbdry
  zbdry : a.zbdry = b.zbdry
  rlim : a.rlim = b.rlim
  zlim : a.zlim = b.zlim

/-- A file can be in convention `n`: the poloidal field is that of the current, the safety factor has the
sign that belongs to the directions of current and field, and nothing of this is zero. -/
structure Consistent (n : ℤ) (e : Eqd) : Prop where
  ampere : 0 < (flux n e.sibdry - flux n e.simagx) * ccw n e.cpasma
  helicity : ∃ q, e.qpsi.head? = some q ∧ 0 < safety n q * (ccw n e.cpasma * ccw n e.bcentr)

end Ascot.Equilibrium
