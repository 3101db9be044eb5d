import Verif.Model.Error
import Mathlib.Tactic.Common

/-!
# C01, C02: error codes

C01 full statement: for every raise site, decoding the code gives back type,
line and file.  It is false: `particle.c` has raise sites beyond line 1023 and
the line field of the code is ten bits wide.

C02 full statement: every declared type and file has a description.  It is
false for `ERR_INTEGRATION` and for `EF_SUZUKI`.
-/
namespace Ascot.C01
open Ascot.Error

/-- Decoding returns what was raised exactly when the type fits in eight bits
and the line number in ten bits. -/
theorem roundtrip_iff (type line file : Nat) :
    parse (raise type line file) = (type, line, file) ↔ type < 256 ∧ line < 1024 := by
  unfold parse raise
  simp only [Prod.mk.injEq]
  constructor
  · rintro ⟨h1, h2, h3⟩
    omega
  · rintro ⟨h1, h2⟩
    have hf : (type + line * 256 + file * 256 * 1024) / (256 * 1024) = file := by omega
    rw [hf]
    omega

/-- What the user gets back if the line number does not fit: the excess of the
line number is added to the file identifier. -/
theorem overlong_line (type line file : Nat) (ht : type < 256) :
    parse (raise type line file) = (type, line % 1024, file + line / 1024) := by
  unfold parse raise
  simp only [Prod.mk.injEq]
  have hf : (type + line * 256 + file * 256 * 1024) / (256 * 1024) = file + line / 1024 := by
    omega
  rw [hf]
  omega

/-- Two errors with in-range fields have the same code only if they are equal. -/
theorem raise_injective {t l f t' l' f' : Nat} (ht : t < 256) (hl : l < 1024)
    (ht' : t' < 256) (hl' : l' < 1024) (h : raise t l f = raise t' l' f') :
    t = t' ∧ l = l' ∧ f = f' := by
  have h1 := (roundtrip_iff t l f).2 ⟨ht, hl⟩
  have h2 := (roundtrip_iff t' l' f').2 ⟨ht', hl'⟩
  rw [h, h2] at h1
  simp only [Prod.mk.injEq] at h1
  exact ⟨h1.1.symm, h1.2.1.symm, h1.2.2.symm⟩

/-- A raised error is never confused with "no error" (zero). -/
theorem raise_ne_zero (t : ErrType) (l : Nat) (f : ErrFile) :
    raise t.val l f.val ≠ 0 := by
  unfold raise
  cases t <;> simp [ErrType.val]

/-- The whole table of raise sites: the code of a site decodes to the site's own
type, line and file if and only if the site is above line 1024 of its file.
(The missing part of C01 is the sites excluded here, see `not_all_sites`.) -/
theorem sites_decode_partial :
    ∀ s ∈ sites, (parse (raise s.type.val s.line s.file.val)
      = (s.type.val, s.line, s.file.val) ↔ s.line < 1024) := by
  intro s _
  rw [roundtrip_iff]
  constructor
  · exact fun h => h.2
  · intro h
    exact ⟨by cases s.type <;> simp [ErrType.val], h⟩

/-- The sites whose location is misreported: all in `particle.c`, all reported
as coming from the file with the next identifier, `boozer.c`. -/
theorem misreported_sites :
    (sites.filter fun s => decide (1024 ≤ s.line)).map
      (fun s => (s.src, s.line, parse2str (raise s.type.val s.line s.file.val) |>.2))
    = [("particle.c", 1234, (210, "boozer.c")), ("particle.c", 1235, (211, "boozer.c")),
       ("particle.c", 1487, (463, "boozer.c")), ("particle.c", 1490, (466, "boozer.c")),
       ("particle.c", 1587, (563, "boozer.c")), ("particle.c", 1631, (607, "boozer.c"))] := by
  decide +kernel

/-- C01 as stated is false for the code. -/
theorem not_all_sites :
    ¬ ∀ s ∈ sites, parse (raise s.type.val s.line s.file.val)
      = (s.type.val, s.line, s.file.val) := by
  intro h
  have hm : (⟨"particle.c", 1487, .eMarkerUnphysical, .fParticle⟩ : Site) ∈ sites := by
    decide +kernel
  have := (roundtrip_iff _ _ _).1 (h _ hm)
  exact absurd this.2 (by decide)

/-- Non-trivial instance of the hypotheses: a site of `plasma_1D.c`. -/
example : parse (raise ErrType.eInputEvaluation.val 152 ErrFile.fPlasma1D.val) = (1, 152, 15) :=
  (roundtrip_iff _ _ _).2 (by decide)

end Ascot.C01

namespace Ascot.C02
open Ascot.Error

/-- Every declared error type except `ERR_INTEGRATION` has its own message. -/
theorem message_defined_partial (t : ErrType) :
    msgText t.val ≠ "Unknown error" ↔ t ≠ .eIntegration := by
  cases t <;> decide

/-- Every declared source file except `EF_SUZUKI` has a name. -/
theorem file_defined_partial (f : ErrFile) :
    fileText f.val ≠ "unknown file" ↔ f ≠ .fSuzuki := by
  cases f <;> decide

/-- Distinct error types have distinct numerical codes and distinct messages. -/
theorem message_injective (t t' : ErrType) (h : msgText t.val = msgText t'.val) : t = t' := by
  cases t <;> cases t' <;> first | rfl | (revert h; decide)

/-- Distinct source files have distinct names. -/
theorem file_injective (f f' : ErrFile) (h : fileText f.val = fileText f'.val) : f = f' := by
  cases f <;> cases f' <;> first | rfl | (revert h; decide)

/-- Over the whole table of raise sites: the location shown to the user (file
name and line) is the actual location exactly for the sites before line 1024
of files other than `suzuki.c` and `plasma_1Dt.c`. -/
theorem location_shown_partial :
    ∀ s ∈ sites, ((parse2str (raise s.type.val s.line s.file.val)).2 = (s.line, s.src) ↔
      (s.line < 1024 ∧ s.src ≠ "suzuki.c" ∧ s.src ≠ "plasma_1Dt.c")) := by
  decide +kernel

/-- Over the whole table of raise sites: the message shown describes the error
except for integration errors. -/
theorem message_shown_partial :
    ∀ s ∈ sites, ((parse2str (raise s.type.val s.line s.file.val)).1 = "Unknown error" ↔
      s.type = .eIntegration) := by
  decide +kernel

/-- C02 as stated is false: integration errors occur in the sources and are
shown as unknown; errors of `suzuki.c` are shown as coming from an unknown file. -/
theorem not_all_described :
    (∃ s ∈ sites, (parse2str (raise s.type.val s.line s.file.val)).1 = "Unknown error") ∧
    (∃ s ∈ sites, (parse2str (raise s.type.val s.line s.file.val)).2.2 = "unknown file") := by
  decide +kernel

example : msgText ErrType.eWienerArray.val ≠ "Unknown error" :=
  (message_defined_partial _).2 (by decide)

end Ascot.C02
