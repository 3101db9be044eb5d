/-!
# Error codes (`src/error.h`, `src/error.c`)

`a5err` is `unsigned long int` (src/error.h:17); all values that occur are far
below 2^53, so the integer divisions and `floor` of `error_parse` are exact and
codes are modelled as natural numbers.
-/
namespace Ascot.Error

/-- `error_type`, src/error.h:62-72. -/
inductive ErrType where
  | eInputEvaluation  -- ERR_INPUT_EVALUATION
  | eUnknownInput  -- ERR_UNKNOWN_INPUT
  | eInputUnphysical  -- ERR_INPUT_UNPHYSICAL
  | eMarkerUnphysical  -- ERR_MARKER_UNPHYSICAL
  | eInvalidTimestep  -- ERR_INVALID_TIMESTEP
  | eWienerArray  -- ERR_WIENER_ARRAY
  | eIntegration  -- ERR_INTEGRATION
  | eAtomicEvaluation  -- ERR_ATOMIC_EVALUATION
  deriving DecidableEq, Repr

/-- Numerical values of `error_type`, src/error.h:62-72. -/
def ErrType.val : ErrType → Nat
  | .eInputEvaluation => 1
  | .eUnknownInput => 2
  | .eInputUnphysical => 3
  | .eMarkerUnphysical => 4
  | .eInvalidTimestep => 5
  | .eWienerArray => 6
  | .eIntegration => 7
  | .eAtomicEvaluation => 8

/-- `error_file`, src/error.h:25-54. -/
inductive ErrFile where
  | fMcccWiener  -- EF_MCCC_WIENER
  | fMcccPush  -- EF_MCCC_PUSH
  | fMcccCoefs  -- EF_MCCC_COEFS
  | fMccc  -- EF_MCCC
  | fStepFoVpa  -- EF_STEP_FO_VPA
  | fStepGcCashkarp  -- EF_STEP_GC_CASHKARP
  | fStepGcRK4  -- EF_STEP_GC_RK4
  | fN01D  -- EF_N0_1D
  | fN03D  -- EF_N0_3D
  | fN0St  -- EF_N0_ST
  | fB3DS  -- EF_B_3DS
  | fB2DS  -- EF_B_2DS
  | fBSts  -- EF_B_STS
  | fBGs  -- EF_B_GS
  | fPlasma1D  -- EF_PLASMA_1D
  | fPlasma1DS  -- EF_PLASMA_1DS
  | fPlasma  -- EF_PLASMA
  | fEField  -- EF_E_FIELD
  | fNeutral  -- EF_NEUTRAL
  | fE1DS  -- EF_E_1DS
  | fBField  -- EF_B_FIELD
  | fParticle  -- EF_PARTICLE
  | fBoozer  -- EF_BOOZER
  | fMhd  -- EF_MHD
  | fAtomic  -- EF_ATOMIC
  | fAsigma  -- EF_ASIGMA
  | fAsigmaLoc  -- EF_ASIGMA_LOC
  | fSuzuki  -- EF_SUZUKI
  deriving DecidableEq, Repr

/-- Numerical values of `error_file`, src/error.h:25-54. -/
def ErrFile.val : ErrFile → Nat
  | .fMcccWiener => 1
  | .fMcccPush => 2
  | .fMcccCoefs => 3
  | .fMccc => 4
  | .fStepFoVpa => 5
  | .fStepGcCashkarp => 6
  | .fStepGcRK4 => 7
  | .fN01D => 8
  | .fN03D => 9
  | .fN0St => 10
  | .fB3DS => 11
  | .fB2DS => 12
  | .fBSts => 13
  | .fBGs => 14
  | .fPlasma1D => 15
  | .fPlasma1DS => 16
  | .fPlasma => 17
  | .fEField => 18
  | .fNeutral => 19
  | .fE1DS => 20
  | .fBField => 21
  | .fParticle => 22
  | .fBoozer => 23
  | .fMhd => 24
  | .fAtomic => 25
  | .fAsigma => 26
  | .fAsigmaLoc => 27
  | .fSuzuki => 28

/-- `error_raise`, src/error.h:86-92.  The products are computed in `int` in C;
for the line numbers and file identifiers that occur they do not overflow. -/
def raise (type line file : Nat) : Nat := type + line * 256 + file * 256 * 1024

/-- `error_parse`, src/error.c:44-50.  Returns `(msg, line, file)`. -/
def parse (err : Nat) : Nat × Nat × Nat :=
  let file := err / (256 * 1024)
  let err1 := err - file * (256 * 1024)
  let line := err1 / 256
  let err2 := err1 - line * 256
  (err2, line, file)

/-- The message `switch` of `error_parse2str`, src/error.c:67-110. -/
def msgText : Nat → String
  | 1 => "Input evaluation failed (marker could be outside input data grid)"
  | 2 => "Input was not regonized (offload or target data could be uninitialized)"
  | 3 => "Input evaluation yields unphysical results (something could be wrong with the input)"
  | 4 => "One or more of marker's fields are unphysical or inconsistent (marker input could be corrupted)"
  | 5 => "Time step is zero, NaN, or smaller than MIN_ALLOWED_TIME_STEP in ascot5.h (time step limits could be too conservative)"
  | 6 => "Wiener array is full of rejected steps or  limits could be too conservative or initial step too large)"
  | 8 => "Atomic reaction evaluation failed (atomic reactions for the current charge state mightnot have been implemented)"
  | _ => "Unknown error"

/-- The file `switch` of `error_parse2str`, src/error.c:116-229. -/
def fileText : Nat → String
  | 1 => "mccc_wiener.c"
  | 2 => "mccc_push.c"
  | 3 => "mccc_coefs.c"
  | 4 => "mccc.c"
  | 5 => "step_fo_vpa.c"
  | 7 => "step_gc_rk4.c"
  | 6 => "step_gc_cashkarp.c"
  | 17 => "plasma.c"
  | 15 => "plasma_1D.c"
  | 16 => "plasma_1DS.c"
  | 18 => "E_field.c"
  | 20 => "E_1DS.c"
  | 19 => "neutral.c"
  | 8 => "N0_1D.c"
  | 9 => "N0_3D.c"
  | 10 => "N0_ST.c"
  | 21 => "B_field.c"
  | 14 => "B_GS.c"
  | 13 => "B_STS.c"
  | 12 => "B_2DS.c"
  | 11 => "B_3DS.c"
  | 22 => "particle.c"
  | 23 => "boozer.c"
  | 24 => "mhd.c"
  | 25 => "atomic.c"
  | 26 => "asigma.c"
  | 27 => "asigma_loc.c"
  | _ => "unknown file"

/-- `error_parse2str`, src/error.c:62-230.  The line is kept as a number instead
of being printed with `"%4d"`. -/
def parse2str (err : Nat) : String × Nat × String :=
  let r := parse err
  (msgText r.1, r.2.1, fileText r.2.2)

/-- A call of `error_raise` in the sources: base name of the source file, the
value of `__LINE__` there, and the two enum arguments. -/
structure Site where
  src : String
  line : Nat
  type : ErrType
  file : ErrFile
  deriving DecidableEq, Repr

/-- Every call `error_raise(.., __LINE__, ..)` in `/repo/src/**/*.c` outside the
unit tests, in path order (path and line are the citation). -/
def sites : List Site := [
  ⟨"B_field.c", 129, .eUnknownInput, .fBField⟩,
  ⟨"B_field.c", 193, .eUnknownInput, .fBField⟩,
  ⟨"B_field.c", 261, .eUnknownInput, .fBField⟩,
  ⟨"B_field.c", 267, .eInputUnphysical, .fBField⟩,
  ⟨"B_field.c", 339, .eUnknownInput, .fBField⟩,
  ⟨"B_field.c", 401, .eUnknownInput, .fBField⟩,
  ⟨"B_field.c", 476, .eUnknownInput, .fBField⟩,
  ⟨"B_field.c", 527, .eUnknownInput, .fBField⟩,
  ⟨"B_2DS.c", 165, .eInputEvaluation, .fB2DS⟩,
  ⟨"B_2DS.c", 195, .eInputEvaluation, .fB2DS⟩,
  ⟨"B_2DS.c", 221, .eInputEvaluation, .fB2DS⟩,
  ⟨"B_2DS.c", 227, .eInputUnphysical, .fB2DS⟩,
  ⟨"B_2DS.c", 260, .eInputEvaluation, .fB2DS⟩,
  ⟨"B_2DS.c", 271, .eInputEvaluation, .fB2DS⟩,
  ⟨"B_2DS.c", 279, .eInputUnphysical, .fB2DS⟩,
  ⟨"B_2DS.c", 325, .eInputEvaluation, .fB2DS⟩,
  ⟨"B_2DS.c", 343, .eInputEvaluation, .fB2DS⟩,
  ⟨"B_2DS.c", 351, .eInputUnphysical, .fB2DS⟩,
  ⟨"B_3DS.c", 231, .eInputEvaluation, .fB3DS⟩,
  ⟨"B_3DS.c", 262, .eInputEvaluation, .fB3DS⟩,
  ⟨"B_3DS.c", 287, .eInputEvaluation, .fB3DS⟩,
  ⟨"B_3DS.c", 293, .eInputUnphysical, .fB3DS⟩,
  ⟨"B_3DS.c", 327, .eInputEvaluation, .fB3DS⟩,
  ⟨"B_3DS.c", 339, .eInputEvaluation, .fB3DS⟩,
  ⟨"B_3DS.c", 347, .eInputUnphysical, .fB3DS⟩,
  ⟨"B_3DS.c", 390, .eInputEvaluation, .fB3DS⟩,
  ⟨"B_3DS.c", 406, .eInputEvaluation, .fB3DS⟩,
  ⟨"B_3DS.c", 414, .eInputUnphysical, .fB3DS⟩,
  ⟨"B_GS.c", 305, .eInputUnphysical, .fBGs⟩,
  ⟨"B_STS.c", 227, .eInputEvaluation, .fBSts⟩,
  ⟨"B_STS.c", 269, .eInputEvaluation, .fBSts⟩,
  ⟨"B_STS.c", 293, .eInputUnphysical, .fBSts⟩,
  ⟨"B_STS.c", 310, .eInputUnphysical, .fBSts⟩,
  ⟨"B_STS.c", 345, .eInputEvaluation, .fBSts⟩,
  ⟨"B_STS.c", 352, .eInputUnphysical, .fBSts⟩,
  ⟨"B_STS.c", 399, .eInputEvaluation, .fBSts⟩,
  ⟨"B_STS.c", 406, .eInputUnphysical, .fBSts⟩,
  ⟨"B_STS.c", 428, .eInputEvaluation, .fBSts⟩,
  ⟨"E_field.c", 98, .eUnknownInput, .fEField⟩,
  ⟨"E_1DS.c", 96, .eInputEvaluation, .fE1DS⟩,
  ⟨"E_1DS.c", 115, .eInputEvaluation, .fE1DS⟩,
  ⟨"asigma.c", 109, .eUnknownInput, .fAsigma⟩,
  ⟨"asigma.c", 160, .eUnknownInput, .fAsigma⟩,
  ⟨"asigma.c", 206, .eUnknownInput, .fAsigma⟩,
  ⟨"asigma.c", 252, .eUnknownInput, .fAsigma⟩,
  ⟨"asigma_loc.c", 190, .eInputEvaluation, .fAsigmaLoc⟩,
  ⟨"asigma_loc.c", 204, .eInputEvaluation, .fAsigmaLoc⟩,
  ⟨"asigma_loc.c", 210, .eInputEvaluation, .fAsigmaLoc⟩,
  ⟨"asigma_loc.c", 273, .eInputEvaluation, .fAsigmaLoc⟩,
  ⟨"asigma_loc.c", 285, .eInputEvaluation, .fAsigmaLoc⟩,
  ⟨"asigma_loc.c", 297, .eInputEvaluation, .fAsigmaLoc⟩,
  ⟨"asigma_loc.c", 304, .eInputEvaluation, .fAsigmaLoc⟩,
  ⟨"asigma_loc.c", 361, .eInputEvaluation, .fAsigmaLoc⟩,
  ⟨"asigma_loc.c", 372, .eInputEvaluation, .fAsigmaLoc⟩,
  ⟨"asigma_loc.c", 437, .eInputEvaluation, .fAsigmaLoc⟩,
  ⟨"asigma_loc.c", 454, .eInputEvaluation, .fAsigmaLoc⟩,
  ⟨"boozer.c", 205, .eInputEvaluation, .fBoozer⟩,
  ⟨"mhd.c", 110, .eUnknownInput, .fMhd⟩,
  ⟨"mhd.c", 169, .eUnknownInput, .fMhd⟩,
  ⟨"neutral.c", 86, .eUnknownInput, .fNeutral⟩,
  ⟨"neutral.c", 128, .eUnknownInput, .fNeutral⟩,
  ⟨"N0_1D.c", 120, .eInputEvaluation, .fN01D⟩,
  ⟨"N0_1D.c", 146, .eInputEvaluation, .fN01D⟩,
  ⟨"N0_3D.c", 124, .eInputEvaluation, .fN03D⟩,
  ⟨"N0_3D.c", 152, .eInputEvaluation, .fN03D⟩,
  ⟨"particle.c", 558, .eMarkerUnphysical, .fParticle⟩,
  ⟨"particle.c", 561, .eMarkerUnphysical, .fParticle⟩,
  ⟨"particle.c", 564, .eMarkerUnphysical, .fParticle⟩,
  ⟨"particle.c", 567, .eMarkerUnphysical, .fParticle⟩,
  ⟨"particle.c", 580, .eMarkerUnphysical, .fParticle⟩,
  ⟨"particle.c", 583, .eMarkerUnphysical, .fParticle⟩,
  ⟨"particle.c", 586, .eMarkerUnphysical, .fParticle⟩,
  ⟨"particle.c", 589, .eMarkerUnphysical, .fParticle⟩,
  ⟨"particle.c", 592, .eMarkerUnphysical, .fParticle⟩,
  ⟨"particle.c", 595, .eMarkerUnphysical, .fParticle⟩,
  ⟨"particle.c", 608, .eMarkerUnphysical, .fParticle⟩,
  ⟨"particle.c", 611, .eMarkerUnphysical, .fParticle⟩,
  ⟨"particle.c", 614, .eMarkerUnphysical, .fParticle⟩,
  ⟨"particle.c", 796, .eMarkerUnphysical, .fParticle⟩,
  ⟨"particle.c", 797, .eMarkerUnphysical, .fParticle⟩,
  ⟨"particle.c", 813, .eMarkerUnphysical, .fParticle⟩,
  ⟨"particle.c", 1004, .eMarkerUnphysical, .fParticle⟩,
  ⟨"particle.c", 1234, .eMarkerUnphysical, .fParticle⟩,
  ⟨"particle.c", 1235, .eMarkerUnphysical, .fParticle⟩,
  ⟨"particle.c", 1487, .eMarkerUnphysical, .fParticle⟩,
  ⟨"particle.c", 1490, .eMarkerUnphysical, .fParticle⟩,
  ⟨"particle.c", 1587, .eMarkerUnphysical, .fParticle⟩,
  ⟨"particle.c", 1631, .eMarkerUnphysical, .fParticle⟩,
  ⟨"plasma.c", 209, .eUnknownInput, .fPlasma⟩,
  ⟨"plasma.c", 259, .eUnknownInput, .fPlasma⟩,
  ⟨"plasma_1D.c", 152, .eInputEvaluation, .fPlasma1D⟩,
  ⟨"plasma_1D.c", 155, .eInputEvaluation, .fPlasma1D⟩,
  ⟨"plasma_1D.c", 192, .eInputEvaluation, .fPlasma1D⟩,
  ⟨"plasma_1D.c", 195, .eInputEvaluation, .fPlasma1D⟩,
  ⟨"plasma_1D.c", 231, .eInputEvaluation, .fPlasma1D⟩,
  ⟨"plasma_1D.c", 234, .eInputEvaluation, .fPlasma1D⟩,
  ⟨"plasma_1D.c", 280, .eInputEvaluation, .fPlasma1D⟩,
  ⟨"plasma_1D.c", 283, .eInputEvaluation, .fPlasma1D⟩,
  ⟨"plasma_1DS.c", 243, .eInputEvaluation, .fPlasma1DS⟩,
  ⟨"plasma_1DS.c", 252, .eInputEvaluation, .fPlasma1DS⟩,
  ⟨"plasma_1DS.c", 275, .eInputEvaluation, .fPlasma1DS⟩,
  ⟨"plasma_1DS.c", 284, .eInputEvaluation, .fPlasma1DS⟩,
  ⟨"plasma_1DS.c", 319, .eInputEvaluation, .fPlasma1DS⟩,
  ⟨"plasma_1DS.c", 335, .eInputEvaluation, .fPlasma1DS⟩,
  ⟨"plasma_1DS.c", 354, .eInputEvaluation, .fPlasma1DS⟩,
  ⟨"plasma_1Dt.c", 225, .eInputEvaluation, .fPlasma1D⟩,
  ⟨"plasma_1Dt.c", 228, .eInputEvaluation, .fPlasma1D⟩,
  ⟨"plasma_1Dt.c", 324, .eInputEvaluation, .fPlasma1D⟩,
  ⟨"plasma_1Dt.c", 327, .eInputEvaluation, .fPlasma1D⟩,
  ⟨"atomic.c", 193, .eAtomicEvaluation, .fAtomic⟩,
  ⟨"mccc_wiener.c", 115, .eWienerArray, .fMcccWiener⟩,
  ⟨"mccc_wiener.c", 183, .eWienerArray, .fMcccWiener⟩,
  ⟨"step_gc_cashkarp.c", 254, .eInvalidTimestep, .fStepGcCashkarp⟩,
  ⟨"step_gc_cashkarp.c", 258, .eIntegration, .fStepGcCashkarp⟩,
  ⟨"step_gc_cashkarp.c", 262, .eIntegration, .fStepGcCashkarp⟩,
  ⟨"step_gc_rk4.c", 150, .eIntegration, .fStepGcRK4⟩,
  ⟨"step_gc_rk4.c", 153, .eIntegration, .fStepGcRK4⟩,
  ⟨"step_gc_rk4.c", 370, .eIntegration, .fStepGcRK4⟩,
  ⟨"step_gc_rk4.c", 373, .eIntegration, .fStepGcRK4⟩,
  ⟨"step_gc_rk4.c", 376, .eIntegration, .fStepGcRK4⟩,
  ⟨"suzuki.c", 173, .eInputEvaluation, .fSuzuki⟩,
  ⟨"suzuki.c", 189, .eInputEvaluation, .fSuzuki⟩,
  ⟨"suzuki.c", 223, .eInputEvaluation, .fSuzuki⟩]

end Ascot.Error
