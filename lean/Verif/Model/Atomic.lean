import Mathlib.Algebra.Order.Round
import Mathlib.Algebra.Order.Archimedean.Real.Basic
import Verif.Model.Asigma

/-!
# Atomic reactions of full orbits (`src/simulate/atomic.c`)
-/
namespace Ascot.Atomic

open Asigma

/-- `round` of the C library: to the nearest integer, halves away from zero; followed by the cast to `int` of
src/simulate/atomic.c:107.  Values outside the range of `int` are not modelled. -/
noncomputable def cround (x : ℝ) : ℤ := if 0 ≤ x then ⌊x + 1/2⌋ else ⌈x - 1/2⌉

/-- The fields of one lane of `particle_simd_fo` that `atomic_fo` reads or writes, src/simulate/atomic.c:73-131. -/
structure Lane where
  running : Bool
  err : Nat
  charge : ℝ
  mass : ℝ
  znum : ℤ
  anum : ℤ
  pr : ℝ
  pphi : ℝ
  pz : ℝ
  rho : ℝ
  r : ℝ
  phi : ℝ
  z : ℝ
  time : ℝ

/-- The background: species identifiers of the plasma ions (`plasma_get_species_znum/anum`), number of neutral species, and the
evaluation functions of plasma and neutrals at a lane's position, src/simulate/atomic.c:65-103.  Densities and temperatures of the
plasma are those of the electrons followed by those of the ions.  `ids` of the neutral species are stored by the neutral modules
(src/neutral/N0_1D.c:41-42) but not read by `atomic_fo`. -/
structure Bkg where
  ionZ : List ℤ
  ionA : List ℤ
  plasma : Lane → Except Nat (List ℝ × List ℝ)
  neutralZ : List ℤ
  neutralA : List ℤ
  n0 : Lane → Except Nat (List ℝ)
  t0 : Lane → Except Nat (List ℝ)

/-- Species arrays of length `n` as seen by the evaluation functions; reading past the end of an array is undefined. -/
def species (n : Nat) (z a : List ℤ) (dens : List ℝ) : Option (List Species) :=
  if n ≤ z.length ∧ n ≤ a.length ∧ n ≤ dens.length then
    some ((List.range n).map fun i => ⟨dens.getD i 0, a.getD i 0, z.getD i 0⟩)
  else none

/-- Rates for ionisation and recombination; `none` is a NaN. -/
structure Rates where
  err : Nat
  ion : Option ℝ
  rec' : Option ℝ

/-- `atomic_rates`, src/simulate/atomic.c:164-197.  `none` is undefined behaviour. -/
noncomputable def rates (c cE : ℝ) (d : Data) (b : Bkg) (z1 a1 : ℤ) (m1 : ℝ) (q : ℤ) (e : ℝ) (temp dens n0 t0 : List ℝ) :
    Option Rates :=
  if q = 1 then
    (species b.neutralZ.length b.ionZ b.ionA n0).bind fun spec => t0.head?.map fun t =>
      let r := evalCx cE d z1 a1 e t spec
      ⟨r.err, some 0, r.val⟩
  else if q = 0 then
    (species b.ionZ.length b.ionZ b.ionA dens.tail).bind fun spec => temp.head?.bind fun te => dens.head?.bind fun ne =>
      (evalBms c cE d z1 a1 e m1 te spec).map fun r => ⟨r.err, r.val.map (· * ne), some 0⟩
  else some ⟨Error.raise 8 193 25, some 0, some 0⟩

/-- Reaction probabilities, src/simulate/atomic.c:222-235: a share of the probability that anything happens. -/
noncomputable def prob (rate ion rec' dt : ℝ) : ℝ :=
  if rate = 0 then 0 else rate / (ion + rec') * (1 - Real.exp (-(ion + rec') * dt))

/-- `atomic_react`, src/simulate/atomic.c:215-245.  With a NaN rate both comparisons involving it are false. -/
noncomputable def react (q : ℤ) (dt : ℝ) (ion rec' : Option ℝ) (z1 : ℤ) (rnd : ℝ) : ℤ :=
  match ion, rec' with
  | some i, some r =>
    if q < z1 ∧ rnd < prob i i r dt then q + 1
    else if q > 0 ∧ rnd < prob i i r dt + prob r i r dt then q - 1
    else q
  | _, _ => q

/-- The reaction part for a running lane once the background is known, src/simulate/atomic.c:105-131. -/
noncomputable def finish (c cE : ℝ) (d : Data) (b : Bkg) (h rnd : ℝ) (p : Lane) (e : ℝ) (temp dens n0 t0 : List ℝ) : Option Lane :=
  let q := cround (p.charge / cE)
  (rates c cE d b p.znum p.anum p.mass q e temp dens n0 t0).map fun r =>
    if r.err ≠ 0 then { p with err := r.err, running := false }
    else
      let q' := react q h r.ion r.rec' p.znum rnd
      if q' ≠ q then { p with charge := q' * cE } else p

/-- One lane of `atomic_fo`, src/simulate/atomic.c:72-132.  `none` is undefined behaviour. -/
noncomputable def fo (c cE : ℝ) (d : Data) (b : Bkg) (h rnd : ℝ) (p : Lane) : Option Lane :=
  if p.running then
    let pnorm := Real.sqrt (p.pr * p.pr + p.pphi * p.pphi + p.pz * p.pz)
    let e := Physlib.ekinPnorm c p.mass pnorm
    match b.plasma p with
    | .error er => some { p with err := er, running := false }
    | .ok (dens, temp) =>
      match b.n0 p with
      | .error er => some { p with err := er, running := false }
      | .ok n0 =>
        match b.t0 p with
        | .error er => some { p with err := er, running := false }
        | .ok t0 => finish c cE d b h rnd p e temp dens n0 t0
  else some p

end Ascot.Atomic
