import Mathlib.Data.Int.Basic

/-!
# Marker species of the Python interface (a5py/physlib/species.py)

Charges are in elementary charges and masses in units of 1e-7 amu, so that those of the table are whole.  Units are not
modelled: a given charge is stored without a unit, the charge of the table has one.
-/
namespace Ascot.Species

/-- A row of `speciesdict`, a5py/physlib/species.py:6-35. -/
structure Row where
  key : String
  anum : ℤ
  znum : ℤ
  charge : ℤ
  mass : ℤ
deriving DecidableEq

/-- `speciesdict`, a5py/physlib/species.py:6-35, in the order of the file. -/
def table : List Row :=
  [⟨"e", 0, 0, -1, 5486⟩,
   ⟨"n", 1, 0, 0, 10090000⟩,
   ⟨"H", 1, 1, 1, 10070000⟩,
   ⟨"D", 2, 1, 1, 20140000⟩,
   ⟨"T", 3, 1, 1, 30160000⟩,
   ⟨"He3", 3, 2, 2, 30160000⟩,
   ⟨"He4", 4, 2, 2, 40030000⟩,
   ⟨"Li6", 6, 3, 3, 60150000⟩,
   ⟨"Li7", 7, 3, 3, 70160000⟩,
   ⟨"Be9", 9, 4, 4, 90120000⟩,
   ⟨"B10", 10, 5, 5, 100120000⟩,
   ⟨"B11", 11, 5, 5, 110090000⟩,
   ⟨"C12", 12, 6, 6, 120110000⟩,
   ⟨"C13", 13, 6, 6, 130030000⟩,
   ⟨"N14", 14, 7, 7, 140030000⟩,
   ⟨"N15", 15, 7, 7, 150000000⟩,
   ⟨"O16", 16, 8, 8, 159940000⟩,
   ⟨"O17", 17, 8, 8, 169990000⟩,
   ⟨"O18", 18, 8, 8, 179990000⟩,
   ⟨"Ne20", 20, 10, 10, 199920000⟩,
   ⟨"Ne22", 22, 10, 10, 219910000⟩,
   ⟨"Ar36", 36, 18, 18, 359670000⟩,
   ⟨"Ar40", 40, 18, 18, 399620000⟩,
   ⟨"Ni59", 59, 28, 28, 589340000⟩,
   ⟨"Sn118", 118, 50, 50, 1179010000⟩,
   ⟨"Xe132", 132, 54, 54, 1319040000⟩,
   ⟨"W183", 183, 74, 74, 1829500000⟩,
   ⟨"W184", 184, 74, 74, 1839500000⟩]

/-- The branches of `species`, a5py/physlib/species.py:58-85: names and the key they stand for. -/
def branches : List (List String × String) :=
  [(["e", "electron"], "e"),
   (["n", "neutron"], "n"),
   (["H", "p", "proton", "H1"], "H"),
   (["D", "deuterium", "H2"], "D"),
   (["T", "tritium", "H3"], "T"),
   (["He3", "helion"], "He3"),
   (["He4", "alpha"], "He4"),
   (["Be9"], "Be9"),
   (["C12"], "C12"),
   (["Ne20"], "Ne20"),
   (["Ar40"], "Ar40"),
   (["Ni59"], "Ni59"),
   (["Xe132"], "Xe132"),
   (["W184"], "W184")]

/-- The outcome of `species`: data, or `ValueError` with the names of the message, or `KeyError`. -/
inductive Found (α : Type) where
  | ok (a : α)
  | unknown (known : List String)
  | keyError
deriving DecidableEq

/-- The chain of branches with `checkadd`, a5py/physlib/species.py:52-90; `opts` is `valid_options`. -/
def search (name : String) : List (List String × String) → List String → Found String
  | [], opts => .unknown opts
  | (a, k) :: t, opts => if name ∈ a then .ok k else search name t (opts ++ a)

/-- `anum`, `znum`, `charge` and `mass` of the dictionaries that are returned. -/
structure Data where
  anum : ℤ
  znum : ℤ
  charge : ℤ
  mass : ℤ
deriving DecidableEq

/-- `species`, a5py/physlib/species.py:37-96. -/
def species (name : String) (charge : Option ℤ) : Found Data :=
  match search name branches [] with
  | .ok k =>
    match table.find? (·.key = k) with
    | some v => .ok ⟨v.anum, v.znum, charge.getD v.charge, v.mass⟩
    | none => .keyError
  | .unknown l => .unknown l
  | .keyError => .keyError

/-- `autodetect`, a5py/physlib/species.py:98-122: the data and the name; `none` for `ValueError`. -/
def autodetect (anum znum : ℤ) (charge : Option ℤ) : Option (Data × String) :=
  (table.find? fun v => anum = v.anum ∧ znum = v.znum).map fun v =>
    (⟨v.anum, v.znum, charge.getD v.charge, v.mass⟩, v.key)

end Ascot.Species
