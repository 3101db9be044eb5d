import Verif.Model.Simulate
import Verif.Props.C04_C06_Queue
import Verif.Props.C07_C12_EndCond

/-!
# C53: the hybrid mode
-/
set_option linter.unusedSectionVars false
set_option linter.unusedSimpArgs false

namespace Ascot.C53
open Ascot.Queue Ascot.EndCond Ascot.Simulate

variable {X Λ T : Type} [DecidableEq T]

/-- The marker was stopped by the hand-over condition and by nothing else, and there is no wall on the way. -/
def Ready (tile : Marker X → Int) (m : Marker X) : Prop := m.endcond = hybrid ∧ ¬ tile m > 0

/-- The marker was stopped by the hand-over condition and by nothing else, but there is a wall on the way. -/
def Blocked (tile : Marker X → Int) (m : Marker X) : Prop := m.endcond = hybrid ∧ tile m > 0

open Classical in
theorem handover_spec (tile : Marker X → Int) (n : Nat) (p : Nat → Marker X) :
    ((handover tile n p).1 > 0 ↔ ∃ k < n, Ready tile (p k)) ∧
    ∀ k, (handover tile n p).2 k = if k < n ∧ Blocked tile (p k) then { p k with walltile := tile (p k), endcond := hybrid ||| wall } else p k := by
  induction n with
  | zero => simp [handover]
  | succ n ih =>
    obtain ⟨h1, h2⟩ := ih
    have e : handover tile (n + 1) p = handoverStep tile (handover tile n p) n := by
      unfold handover; rw [List.range_succ, List.foldl_append]; rfl
    have hn : (handover tile n p).2 n = p n := by rw [h2]; simp
    rw [e]
    unfold handoverStep
    simp only [hn]
    by_cases hh : (p n).endcond = hybrid
    · rw [if_pos hh]
      by_cases ht : tile (p n) > 0
      · rw [if_pos ht]
        refine ⟨h1.trans ⟨fun ⟨k, hk, hr⟩ => ⟨k, by omega, hr⟩, fun ⟨k, hk, hr⟩ => ⟨k, ?_, hr⟩⟩, fun k => ?_⟩
        · rcases Nat.lt_succ_iff_lt_or_eq.1 hk with h | h
          · exact h
          · subst h; exact absurd ht hr.2
        · show Function.update _ n _ k = _
          by_cases hk : k = n
          · subst hk
            rw [Function.update_self, if_pos ⟨by omega, hh, ht⟩, hh]
          · rw [Function.update_of_ne hk, h2]
            have : k < n + 1 ↔ k < n := by omega
            simp only [this]
      · rw [if_neg ht]
        refine ⟨⟨fun _ => ⟨n, by omega, hh, ht⟩, fun _ => Nat.succ_pos _⟩, fun k => ?_⟩
        rw [h2]
        by_cases hk : k = n
        · subst hk; simp [Blocked, ht]
        · have : k < n + 1 ↔ k < n := by omega
          simp only [this]
    · rw [if_neg hh]
      refine ⟨h1.trans ⟨fun ⟨k, hk, hr⟩ => ⟨k, by omega, hr⟩, fun ⟨k, hk, hr⟩ => ⟨k, ?_, hr⟩⟩, fun k => ?_⟩
      · rcases Nat.lt_succ_iff_lt_or_eq.1 hk with h | h
        · exact h
        · subst h; exact absurd hr.1 hh
      · rw [h2]
        by_cases hk : k = n
        · subst hk; simp [Blocked, hh]
        · have : k < n + 1 ↔ k < n := by omega
          simp only [this]

/-- The marker with the hand-over bit of its end condition taken off. -/
def cleared (m : Marker X) : Marker X := if m.endcond &&& hybrid ≠ 0 then { m with endcond := m.endcond ^^^ hybrid } else m

theorem reset_spec (n : Nat) (p : Nat → Marker X) (k : Nat) : reset n p k = if k < n then cleared (p k) else p k := by
  induction n generalizing k with
  | zero => simp [reset]
  | succ n ih =>
    have e : reset (n + 1) p = resetStep (reset n p) n := by
      unfold reset; rw [List.range_succ, List.foldl_append]; rfl
    have hnn := ih n
    rw [if_neg (lt_irrefl _)] at hnn
    rw [e]
    unfold resetStep
    by_cases hk : k = n
    · subst hk
      rw [if_pos (Nat.lt_succ_self _)]
      unfold cleared
      rw [hnn]
      split
      · rw [Function.update_self]
      · exact hnn
    · have hkk : k < n + 1 ↔ k < n := by omega
      simp only [hkk]
      split
      · rw [Function.update_of_ne hk]; exact ih k
      · exact ih k

theorem cleared_ready {m : Marker X} (h : m.endcond = hybrid) : cleared m = { m with endcond := 0 } := by
  unfold cleared; rw [h, if_pos (by decide)]; rfl

theorem cleared_err (m : Marker X) : (cleared m).err = m.err := by unfold cleared; split <;> rfl

/-- Bits of the end condition without the hand-over bit. -/
theorem cleared_bits (m : Marker X) (b : Nat) : (cleared m).endcond.testBit b = (m.endcond.testBit b && decide (b ≠ 9)) := by
  have hh : hybrid = 2 ^ 9 := rfl
  unfold cleared
  by_cases h9 : m.endcond.testBit 9 = true
  · have : m.endcond &&& hybrid ≠ 0 := by
      intro h0
      have := congrArg (fun n => n.testBit 9) h0
      rw [hh] at this
      simp only [Nat.testBit_and, h9, Nat.testBit_two_pow] at this
      simp at this
    rw [if_pos this]
    simp only [Nat.testBit_xor, hh, Nat.testBit_two_pow]
    by_cases hb : b = 9
    · subst hb; simp [h9]
    · simp [hb, Ne.symm hb]
  · have h9' : m.endcond.testBit 9 = false := by simpa using h9
    have : ¬ m.endcond &&& hybrid ≠ 0 := by
      rw [not_not]
      apply Nat.eq_of_testBit_eq
      intro i
      rw [Nat.testBit_and, hh, Nat.testBit_two_pow]
      by_cases hi : 9 = i
      · subst hi; simp [h9']
      · simp [hi]
    rw [if_neg this]
    by_cases hb : b = 9
    · subst hb; simp [h9']
    · simp [hb]

variable [Fintype T] [Nonempty T] {tile : Marker X → Int} {conv : Marker X → Except Nat Λ} {store : Λ → Marker X → Marker X}
  {n L : Nat} {p q : Nat → Marker X} {evs : List (Event T Λ Nat)}

/-- What a marker looks like at the start of the full-orbit stage. -/
theorem start_slot (tile : Marker X → Int) (p : Nat → Marker X) {k : Nat} (hk : k < n) :
    (Ready tile (p k) → reset n (handover tile n p).2 k = { p k with endcond := 0 }) ∧
    (Blocked tile (p k) → reset n (handover tile n p).2 k = { p k with walltile := tile (p k), endcond := wall }) ∧
    ((p k).endcond ≠ hybrid → reset n (handover tile n p).2 k = cleared (p k)) := by
  rw [reset_spec, if_pos hk, (handover_spec tile n p).2 k]
  refine ⟨fun h => ?_, fun h => ?_, fun h => ?_⟩
  · rw [if_neg (fun hb => h.2 hb.2.2), cleared_ready h.1]
  · rw [if_pos ⟨hk, h⟩]
    unfold cleared
    have e : (hybrid ||| wall) &&& hybrid ≠ 0 := by decide
    simp only [e]
    rfl
  · rw [if_neg (fun hb => h hb.2.1)]

theorem cleared_ne_zero {m : Marker X} (h0 : m.endcond ≠ 0) (hh : m.endcond ≠ hybrid) : (cleared m).endcond ≠ 0 := by
  intro hz
  have hb := cleared_bits m
  rw [hz] at hb
  apply hh
  have h9 : ∀ b, b ≠ 9 → m.endcond.testBit b = false := by
    intro b hb9; simpa [hb9] using (hb b).symm
  apply Nat.eq_of_testBit_eq
  intro b
  rw [show hybrid = 2 ^ 9 from rfl, Nat.testBit_two_pow]
  by_cases hb9 : b = 9
  · subst hb9
    by_contra hc
    apply h0
    apply Nat.eq_of_testBit_eq
    intro b'
    rw [Nat.zero_testBit]
    by_cases hb' : b' = 9
    · subst hb'; simpa using hc
    · exact h9 b' hb'
  · rw [h9 b hb9]; simp [Ne.symm hb9]

/-- Markers that are not handed over have an end condition or an error at the start of the full-orbit stage. -/
theorem start_ended (tile : Marker X → Int) (p : Nat → Marker X) {k : Nat} (hk : k < n) (hend : (p k).endcond ≠ 0 ∨ (p k).err ≠ 0)
    (hr : ¬ Ready tile (p k)) : (reset n (handover tile n p).2 k).endcond ≠ 0 ∨ (reset n (handover tile n p).2 k).err ≠ 0 := by
  obtain ⟨-, s2, s3⟩ := start_slot tile p hk
  by_cases hh : (p k).endcond = hybrid
  · rw [s2 ⟨hh, by by_contra hc; exact hr ⟨hh, hc⟩⟩]; exact .inl (by show wall ≠ 0; decide)
  · rw [s3 hh]
    rcases hend with h | h
    · exact .inl (cleared_ne_zero h hh)
    · exact .inr (by rw [cleared_err]; exact h)

/-- A marker is continued as a full orbit if and only if it was stopped by the hand-over condition and nothing else, there is no
wall on the way and it can be converted.  As after every guiding-center stage, each marker has an end condition or an error. -/
theorem continued_iff (hL : 0 < L) (h : HybridStage T tile conv store n L p evs q)
    (hend : ∀ k < n, (p k).endcond ≠ 0 ∨ (p k).err ≠ 0) {k : Nat} (hk : k < n) :
    (∃ t i l, Event.load t i k l ∈ evs) ↔
      Ready tile (p k) ∧ (p k).err = 0 ∧ ∃ l, conv { p k with endcond := 0 } = .ok l := by
  have hload : (∃ l, (foOps conv store).load { p k with endcond := 0 } = .ok l) ↔
      (p k).err = 0 ∧ ∃ l, conv { p k with endcond := 0 } = .ok l := by
    by_cases he : (p k).err = 0 <;> simp [foOps, he]
  rw [← hload]
  unfold HybridStage at h
  by_cases h0 : (handover tile n p).1 > 0
  · rw [if_pos h0] at h
    obtain ⟨s, hx, hd, rfl⟩ := h
    obtain ⟨-, hf⟩ := C05.fo_all_finished _ n L _ evs s hx hL hd
    have hf := hf k hk
    have hmem : ∀ t i l, Event.load t i k l ∈ evs ↔ Event.load t i k l ∈ eventsOf k evs := by
      intro t i l; simp [eventsOf, Event.marker]
    simp only [hmem]
    generalize eventsOf k evs = es at hf
    generalize s.slot k = v at hf
    by_cases hr : Ready tile (p k)
    · rw [(start_slot tile p hk).1 hr] at hf
      cases hf with
      | skipped t i _ h2 => simp [foOps] at h2
      | failed t i e he =>
        constructor
        · rintro ⟨t', i', l', hm⟩; simp at hm
        · rintro ⟨-, l, hl⟩; rw [hl] at he; cases he
      | simulated t i l l' hl _ => exact ⟨fun _ => ⟨hr, l, hl⟩, fun _ => ⟨t, i, l, by simp⟩⟩
    · constructor
      · rintro ⟨t, i, l, hm⟩
        exfalso
        cases hf with
        | skipped => simp at hm
        | failed => simp at hm
        | simulated t i l l' hl he =>
          have he := he rfl
          rcases start_ended tile p hk (hend k hk) hr with h1 | h1
          · exact h1 (by simpa [foOps] using he)
          · simp [foOps, h1] at hl
      · rintro ⟨hr', -⟩; exact absurd hr' hr
  · rw [if_neg h0] at h
    obtain ⟨rfl, -⟩ := h
    constructor
    · rintro ⟨t, i, l, hm⟩; simp at hm
    · rintro ⟨hr, -⟩; exact absurd ((handover_spec tile n p).1.2 ⟨k, hk, hr⟩) h0

/-- A marker that is handed over ends as its own full-orbit simulation left it; one that cannot be converted has no end condition
and gets the error.  The full-orbit simulation starts from the marker without end condition. -/
theorem continued_result (hL : 0 < L) (h : HybridStage T tile conv store n L p evs q) {k : Nat} (hk : k < n) (hr : Ready tile (p k))
    (he : (p k).err = 0) :
    (∃ t i l l', Event.load t i k l ∈ evs ∧ Event.unload t i k l' ∈ evs ∧ conv { p k with endcond := 0 } = .ok l ∧
      q k = store l' { p k with endcond := 0 }) ∨
    ∃ e, conv { p k with endcond := 0 } = .error e ∧ q k = { p k with endcond := 0, err := e } := by
  have hload : (foOps conv store).load { p k with endcond := 0 } = conv { p k with endcond := 0 } := by simp [foOps, he]
  rw [← hload]
  unfold HybridStage at h
  rw [if_pos ((handover_spec tile n p).1.2 ⟨k, hk, hr⟩)] at h
  obtain ⟨s, hx, hd, rfl⟩ := h
  obtain ⟨-, hf⟩ := C05.fo_all_finished _ n L _ evs s hx hL hd
  have hf := hf k hk
  have hmem : ∀ e ∈ eventsOf k evs, e ∈ evs := fun e he => (List.mem_filter.1 he).1
  rw [(start_slot tile p hk).1 hr] at hf
  generalize eventsOf k evs = es at hf hmem
  generalize s.slot k = v at hf ⊢
  cases hf with
  | skipped t i _ h2 => simp [foOps] at h2
  | failed t i e he => exact .inr ⟨e, he, rfl⟩
  | simulated t i l l' hl _ => exact .inl ⟨t, i, l, l', hmem _ (by simp), hmem _ (by simp), hl, rfl⟩

/-- A marker that is not handed over comes out of the full-orbit stage as it went in. -/
theorem not_continued_slot (hL : 0 < L) (h : HybridStage T tile conv store n L p evs q)
    (hend : ∀ k < n, (p k).endcond ≠ 0 ∨ (p k).err ≠ 0) {k : Nat} (hk : k < n) (hr : ¬ Ready tile (p k)) :
    ((∃ j < n, Ready tile (p j)) → q k = reset n (handover tile n p).2 k) ∧
    ((¬ ∃ j < n, Ready tile (p j)) → q k = (handover tile n p).2 k) := by
  rw [← (handover_spec tile n p).1]
  unfold HybridStage at h
  by_cases h0 : (handover tile n p).1 > 0
  · rw [if_pos h0] at h
    refine ⟨fun _ => ?_, fun hc => absurd h0 hc⟩
    obtain ⟨s, hx, hd, rfl⟩ := h
    obtain ⟨-, hf⟩ := C05.fo_all_finished _ n L _ evs s hx hL hd
    have hf := hf k hk
    have hs := start_ended tile p hk (hend k hk) hr
    generalize eventsOf k evs = es at hf
    generalize s.slot k = v at hf ⊢
    cases hf with
    | skipped => rfl
    | failed t i e he hn =>
      have hn := hn rfl
      have herr : (reset n (handover tile n p).2 k).err ≠ 0 := hs.resolve_left (by simpa [foOps] using hn)
      simp only [foOps, if_pos herr] at he
      rw [← Except.error.inj he]
      rfl
    | simulated t i l l' hl hn =>
      have hn := hn rfl
      have herr : (reset n (handover tile n p).2 k).err ≠ 0 := hs.resolve_left (by simpa [foOps] using hn)
      simp [foOps, herr] at hl
  · rw [if_neg h0] at h
    exact ⟨fun hc => absurd hc h0, fun _ => by rw [h.2]⟩

/-- A marker that is not continued is left as it is, except for the wall between guiding center and particle and for the hand-over
bit: all other end conditions are those of the first stage, plus the wall if it is on the way.  Missing: the hand-over bit, see
`depends_on_others`. -/
theorem not_continued_partial (hL : 0 < L) (h : HybridStage T tile conv store n L p evs q)
    (hend : ∀ k < n, (p k).endcond ≠ 0 ∨ (p k).err ≠ 0) {k : Nat} (hk : k < n) (hr : ¬ Ready tile (p k)) :
    (∀ b, b ≠ 9 → ((q k).endcond.testBit b = true ↔ (p k).endcond.testBit b = true ∨ b = 3 ∧ Blocked tile (p k))) ∧
    ((q k).endcond.testBit 9 = true ↔ (p k).endcond.testBit 9 = true ∧ ¬ ∃ j < n, Ready tile (p j)) ∧
    (q k).err = (p k).err ∧ (q k).rest = (p k).rest ∧ (¬ Blocked tile (p k) → (q k).walltile = (p k).walltile) ∧
    (Blocked tile (p k) → (q k).walltile = tile (p k)) := by
  obtain ⟨hq1, hq2⟩ := not_continued_slot hL h hend hk hr
  by_cases hh : (p k).endcond = hybrid
  · have hb : Blocked tile (p k) := ⟨hh, by by_contra hc; exact hr ⟨hh, hc⟩⟩
    by_cases hex : ∃ j < n, Ready tile (p j)
    · have hq := hq1 hex
      rw [(start_slot tile p hk).2.1 hb] at hq
      rw [hq]
      refine ⟨fun b hb9 => ?_, by simp [hex, show wall.testBit 9 = false by decide], rfl, rfl, fun h => absurd hb h, fun _ => rfl⟩
      simp only [hh, show hybrid = 2 ^ 9 from rfl, show wall = 2 ^ 3 from rfl, Nat.testBit_two_pow, hb, and_true, decide_eq_true_eq]
      omega
    · have hq := hq2 hex
      rw [(handover_spec tile n p).2, if_pos ⟨hk, hb⟩] at hq
      rw [hq]
      refine ⟨fun b hb9 => ?_, ?_, rfl, rfl, fun h => absurd hb h, fun _ => rfl⟩
      · simp only [hh, Nat.testBit_or, show hybrid = 2 ^ 9 from rfl, show wall = 2 ^ 3 from rfl, Nat.testBit_two_pow, hb, and_true,
          decide_eq_true_eq, Bool.or_eq_true]
        omega
      · simp only [hh, hex, not_false_eq_true, and_true]
        decide
  · have hb : ¬ Blocked tile (p k) := fun h => hh h.1
    by_cases hex : ∃ j < n, Ready tile (p j)
    · have hq := hq1 hex
      rw [(start_slot tile p hk).2.2 hh] at hq
      rw [hq]
      refine ⟨fun b hb9 => ?_, ?_, cleared_err _, ?_, fun _ => ?_, fun h => absurd h hb⟩
      · rw [cleared_bits]; simp [hb9, hb]
      · rw [cleared_bits]; simp [hex]
      · unfold cleared; split <;> rfl
      · unfold cleared; split <;> rfl
    · have hq := hq2 hex
      rw [(handover_spec tile n p).2, if_neg (fun h => hb h.2)] at hq
      rw [hq]
      exact ⟨fun b _ => by simp [hb], by simp [hex], rfl, rfl, fun _ => rfl, fun h => absurd h hb⟩

/-- The final end condition of a marker that is not handed over is the same whichever other markers are simulated with it, unless it
has the hand-over bit. -/
theorem independent_partial {n' L' : Nat} {p' q' : Nat → Marker X} {evs' : List (Event T Λ Nat)} (hL : 0 < L) (hL' : 0 < L')
    (h : HybridStage T tile conv store n L p evs q) (h' : HybridStage T tile conv store n' L' p' evs' q')
    (hend : ∀ k < n, (p k).endcond ≠ 0 ∨ (p k).err ≠ 0) (hend' : ∀ k < n', (p' k).endcond ≠ 0 ∨ (p' k).err ≠ 0)
    {k k' : Nat} (hk : k < n) (hk' : k' < n') (hsame : p k = p' k') (hr : (p k).endcond.testBit 9 = false) :
    (q k).endcond = (q' k').endcond := by
  have hr1 : ¬ Ready tile (p k) := by
    intro h; rw [h.1] at hr; exact absurd hr (by decide)
  obtain ⟨a1, a2, -⟩ := not_continued_partial hL h hend hk hr1
  obtain ⟨b1, b2, -⟩ := not_continued_partial hL' h' hend' hk' (by rw [← hsame]; exact hr1)
  rw [← hsame] at b1 b2
  apply Nat.eq_of_testBit_eq
  intro b
  rw [Bool.eq_iff_iff]
  by_cases hb : b = 9
  · subst hb; rw [a2, b2]; simp [hr]
  · rw [a1 b hb, b1 b hb]

/-! ### The final end condition depends on the other markers -/

/-- Every marker is a hand-over; those with `rest = true` have a wall on the way.  A full orbit ends with the time limit. -/
abbrev exTile (m : Marker Bool) : Int := if m.rest then 1 else 0
abbrev exConv (_ : Marker Bool) : Except Nat Unit := .ok ()
abbrev exStore (_ : Unit) (m : Marker Bool) : Marker Bool := { m with endcond := tlim }
abbrev exP (k : Nat) : Marker Bool := ⟨hybrid, 0, 0, decide (k = 0)⟩

theorem ex_alone : HybridStage Unit exTile exConv exStore 1 1 exP [] (handover exTile 1 exP).2 := by
  unfold HybridStage
  rw [if_neg]
  · exact ⟨rfl, rfl⟩
  · rw [(handover_spec exTile 1 exP).1]
    rintro ⟨k, hk, hr⟩
    obtain rfl : k = 0 := by omega
    exact hr.2 (by decide)

theorem ex_together : ∃ evs q, HybridStage Unit exTile exConv exStore 2 1 exP evs q := by
  have h0 : (handover exTile 2 exP).1 > 0 := (handover_spec exTile 2 exP).1.2 ⟨1, by decide, rfl, by decide⟩
  unfold HybridStage
  simp only [if_pos h0]
  have b0 := (start_slot (n := 2) exTile exP (k := 0) (by decide)).2.1 ⟨rfl, by decide⟩
  have b1 := (start_slot (n := 2) exTile exP (k := 1) (by decide)).1 ⟨rfl, by decide⟩
  generalize reset 2 (handover exTile 2 exP).2 = p0 at b0 b1
  let s0 : St (Marker Bool) Unit Unit := init p0
  have i0 : (foOps exConv exStore).ended (p0 0) = true := by rw [b0]; decide
  have i1 : (foOps exConv exStore).ended (p0 1) = false := by rw [b1]; decide
  have i2 : (foOps exConv exStore).load (p0 1) = .ok () := by rw [b1]; rfl
  have e0 : Exec (foOps exConv exStore) true 2 1 p0 [] s0 := .start
  have e1 := e0.quiet (.takeDummy _ () 0 rfl (by decide) rfl)
  have e2 := e1.event (.claim _ () 0 (by simp) (by simp [s0, init]))
  have e3 := e2.event (.skip _ () 0 0 (by simp [s0, init]) rfl (by simpa [s0, init] using i0))
  have e4 := e3.quiet (.count _ () 0 (by simp))
  have e5 := e4.event (.claim _ () 0 (by simp) (by simp [s0, init]))
  have e6 := e5.event (.load _ () 0 1 () (by simp [s0, init]) (by simpa [s0, init] using i1) (by simpa [s0, init] using i2))
  have e7 := e6.quiet (.loop _ () (by simp) ⟨0, by decide, ⟨1, true, ()⟩, by
    simp [setLane_lane, s0, init, i1], rfl⟩)
  have e8 := e7.quiet (.advance _ () (fun i => if i = 0 then some ⟨1, false, ()⟩ else none)
    (by simp) (by
      intro i
      by_cases hi : i = 0
      · subst hi; simp [setLane_lane, s0, init, i1]
      · simp [setLane_lane, s0, init, hi]))
  have e9 := e8.event (.unload _ () 0 ⟨1, false, ()⟩ (by simp) (by decide) (by simp) rfl)
  have e10 := e9.quiet (.count _ () 0 (by simp))
  have e11 := e10.quiet (.claimEmpty _ () 0 (by simp) (by simp [s0, init]))
  have e12 := e11.quiet (.exit _ () (by simp) (by
    intro i hi x hx
    obtain rfl : i = 0 := by omega
    simp [setLane_lane] at hx))
  exact ⟨_, _, _, e12, by simp, rfl⟩

/-- The property fails as stated: a marker with a wall on the way ends with "wall" and "hand-over" if it is simulated alone, and with
"wall" only if another marker is continued. -/
theorem depends_on_others :
    ∃ (tile : Marker Bool → Int) (conv : Marker Bool → Except Nat Unit) (store : Unit → Marker Bool → Marker Bool)
      (p : Nat → Marker Bool) (evs : List (Event Unit Unit Nat)) (q q' : Nat → Marker Bool),
      HybridStage Unit tile conv store 1 1 p [] q ∧ HybridStage Unit tile conv store 2 1 p evs q' ∧
      (q 0).endcond = hybrid ||| wall ∧ (q' 0).endcond = wall := by
  obtain ⟨evs, q', h'⟩ := ex_together
  have hend : ∀ n : Nat, ∀ k < n, (exP k).endcond ≠ 0 ∨ (exP k).err ≠ 0 := fun n k _ => .inl (by show hybrid ≠ 0; decide)
  have hr : ¬ Ready exTile (exP 0) := fun h => h.2 (by decide)
  have hb : Blocked exTile (exP 0) := ⟨rfl, by decide⟩
  refine ⟨exTile, exConv, exStore, exP, evs, _, q', ex_alone, h', ?_, ?_⟩
  · rw [(handover_spec exTile 1 exP).2, if_pos ⟨by decide, hb⟩]
  · rw [(not_continued_slot (by decide) h' (hend 2) (by decide) hr).1 ⟨1, by decide, rfl, by decide⟩,
      (start_slot exTile exP (by decide)).2.1 hb]

/-- In the same run the second marker is continued, so the hypotheses of the theorems above can be met. -/
example : ∃ evs q, HybridStage Unit exTile exConv exStore 2 1 exP evs q ∧ (∃ t i l, Event.load t i 1 l ∈ evs) ∧ (q 1).endcond = tlim := by
  obtain ⟨evs, q, h⟩ := ex_together
  have hr : Ready exTile (exP 1) := ⟨rfl, by decide⟩
  refine ⟨evs, q, h, (continued_iff (by decide) h (fun k _ => .inl (by show hybrid ≠ 0; decide)) (by decide)).2 ⟨hr, rfl, (), rfl⟩, ?_⟩
  rcases continued_result (by decide) h (k := 1) (by decide) hr rfl with ⟨_, _, _, _, _, _, _, hq⟩ | ⟨e, he, _⟩
  · rw [hq]
  · cases he

/-! ### Hand-over and the maximum radius -/

section
variable {K : Type} [Field K] [LinearOrder K] [IsStrictOrderedRing K] [FloorRing K]

/-- The hand-over condition and the `rhomax` end condition compare the same quantity with the same limit.  If `rhomax` is enabled in
the hybrid mode, a guiding center that meets the hand-over condition always meets `rhomax` as well, so no marker is handed over. -/
theorem rhomax_prevents_handover (o : Opts K) (e : Env K) (ekin : Gc K → K) (i f : Gc K) (hrun : f.running = true) (herr : f.err = 0)
    (hec : f.endcond = 0) (htemp : o.on .emin ∨ o.on .therm → (e.temp f.rho f.r f.phi f.z f.time).1 = 0) (hon : o.on .rhomax) :
    (checkGc o e ekin i f).endcond ≠ hybrid := by
  intro hc
  obtain ⟨h1, -⟩ := C08.gc_endcond o e ekin i f hrun herr htemp
  have a := (h1 .hybrid).1 (by rw [hc]; decide)
  have b := h1 .rhomax
  rw [hc, hec] at b
  rw [hec] at a
  simp only [Nat.zero_testBit, Bool.false_eq_true, false_or] at a b
  exact absurd (b.2 ⟨hon, a.2⟩) (by decide)
end

end Ascot.C53
