import Mathlib.Data.Real.Archimedean

/-!
# The check for missing planes (`input_check_bfield_seam`, a5py/ascotpy/__init__.py:639-835)

The selection of the data around the seam is modelled; the polynomial fit and the figure are not.  Numbers are real numbers.
-/
namespace Ascot.Seam

/-- `int(x)` of a floating-point number: towards zero. -/
noncomputable def trunc (x : ℝ) : ℤ := if 0 ≤ x then ⌊x⌋ else ⌈x⌉

/-- Index into an array of `n` elements; negative ones count from the end; `none` for `IndexError`. -/
def index (n : ℕ) (i : ℤ) : Option ℕ :=
  if 0 ≤ i ∧ i < n then some i.toNat else if -(n : ℤ) ≤ i ∧ i < 0 then some (i + n).toNat else none

/-- Element of `np.linspace(lo, hi, n)`, a5py/ascotpy/__init__.py:717. -/
noncomputable def linspace (lo hi : ℝ) (n i : ℕ) : ℝ := lo + i * ((hi - lo) / ((n : ℝ) - 1))

/-- `rmidindex` and `zmidindex` as they are used, a5py/ascotpy/__init__.py:712-726. -/
noncomputable def mid (x : Option ℝ) (lo hi : ℝ) (n : ℕ) : Option ℕ :=
  match x with
  | some x => index n (trunc ((x - lo) / (hi - lo) * n))
  | none => index n (n / 2 : ℕ)

/-- `np.roll(l, s)` for `s` of at most the length. -/
def roll {α : Type} (l : List α) (s : ℕ) : List α := l.drop (l.length - s) ++ l.take (l.length - s)

/-- `phi_vec` after the shift, a5py/ascotpy/__init__.py:706-707, 730-731: element `k`. -/
noncomputable def phi (lo hi : ℝ) (n k : ℕ) : ℝ := (lo + k * ((hi - lo) / n)) - (n / 2 : ℕ) * ((hi - lo) / n)

/-- `start_index`, a5py/ascotpy/__init__.py:735-736. -/
noncomputable def start (n : ℕ) (percent : ℝ) : ℤ := trunc (n * (1 - 0.01 * percent) / 2)

/-- `l[a:b]` for `a` and `b` that are not negative. -/
def slice {α : Type} (l : List α) (a b : ℕ) : List α := (l.take b).drop a

/-- The angles and the values that are looked at, a5py/ascotpy/__init__.py:706-739, without `diff`; the percentage is at most
one hundred, so that the start is not negative. -/
noncomputable def window (lo hi percent : ℝ) (l : List ℝ) : List ℝ × List ℝ :=
  let n := l.length
  let s := (start n percent).toNat
  (slice ((List.range n).map (phi lo hi n)) s (n - s), slice (roll l (n / 2)) s (n - s))

/-- `centremost`, a5py/ascotpy/__init__.py:755-768; `none` for `ValueError`. -/
def centremost {α : Type} (l : List α) (n : ℕ) : Option (List α) :=
  if l.length < n then none else some (slice l ((l.length - n) / 2) ((l.length - n) / 2 + n))

end Ascot.Seam
