import Verif.Model.Latency
import Verif.Spec.Rounding
import Verif.Spec.Leap
import Verif.Props.Rate
import Verif.Proof.SampleTime
/-!
# Data latency (C136)
-/
namespace Verif.Props.Latency
open Verif.Model.Latency Verif.Spec Verif.Spec.Leap

/-- The exact number of seconds from the last sample of a record to `now`, without leap seconds. -/
def latency (now start n : Int) (rate : Rat) : Rat :=
  now - (start + exactSpan (n - 1) rate) / 1000000000

theorem near_abs {rnd : Rat → Rat} (h : Rounding rnd) {x : Rat} {m : Rat} (h1 : -m ≤ x) (h2 : x ≤ m) :
    x - m / 2 ^ 53 ≤ rnd x ∧ rnd x ≤ x + m / 2 ^ 53 := by
  have := Rate.rnd_bounds h x
  rcases Rat.le_total (a := 0) (b := x) with hx | hx
  · have := this.1 hx; clear h; grind
  · have := this.2 hx; clear h; grind

/-- The difference from a start time, to 2^-15 s. -/
theorem start_near {rnd : Rat → Rat} (h : Rounding rnd) {now start : Int}
    (hnow : -2 ^ 34 ≤ now ∧ now ≤ 2 ^ 34) (hs : InInt64 start) :
    (now - start / 1000000000 : Rat) - 1 / 2 ^ 15 ≤ rnd (rnd now - rnd (rnd start / Verif.Model.NSTMODULUS)) ∧
    rnd (rnd now - rnd (rnd start / Verif.Model.NSTMODULUS)) ≤ (now - start / 1000000000 : Rat) + 1 / 2 ^ 15 := by
  have e0 : rnd now = now := h.exact now (by omega) (by omega)
  have eN : ((Verif.Model.NSTMODULUS : Int) : Rat) = 1000000000 := rfl
  have n1 : (-2 ^ 34 : Rat) ≤ (now : Rat) := by
    have : ((-2 ^ 34 : Int) : Rat) ≤ now := Rat.intCast_le_intCast.2 hnow.1
    clear h; grind
  have n2 : (now : Rat) ≤ 2 ^ 34 := by
    have : (now : Rat) ≤ ((2 ^ 34 : Int) : Rat) := Rat.intCast_le_intCast.2 hnow.2
    clear h; grind
  have s1 : (-2 ^ 63 : Rat) ≤ (start : Rat) := by
    have : ((-2 ^ 63 : Int) : Rat) ≤ start := Rat.intCast_le_intCast.2 (by have := hs.1; omega)
    clear h; grind
  have s2 : (start : Rat) ≤ 2 ^ 63 := by
    have : (start : Rat) ≤ ((2 ^ 63 : Int) : Rat) := Rat.intCast_le_intCast.2 (by have := hs.2; omega)
    clear h; grind
  rw [e0, eN]
  have a := near_abs h s1 s2
  generalize rnd (start : Rat) = A at *
  have b := near_abs h (x := A / 1000000000) (m := 2 ^ 34) (by clear h; grind) (by clear h; grind)
  generalize rnd (A / 1000000000) = B at *
  have c := near_abs h (x := (now : Rat) - B) (m := 2 ^ 36) (by clear h; grind) (by clear h; grind)
  clear h
  grind

/-- **C136** (part).  For a record with a rate in samples per second the latency is the time from its last
sample to the time of the host, to a tenth of a millisecond.

Missing: rates given as periods, `C136_period_violated`; leap seconds within the record,
`C136_leap_violated`. -/
theorem C136_rate_partial {rnd : Rat → Rat} (h : Rounding rnd) (now start n : Int) (rate : Rat)
    (hnow : -2 ^ 34 ≤ now ∧ now ≤ 2 ^ 34) (hs : InInt64 start) (hn : 1 ≤ n ∧ n ≤ 2 ^ 53) (hr : 0 < rate)
    (hspan : exactSpan (n - 1) rate ≤ 2 ^ 63) :
    latency now start n rate - 1 / 10000 ≤ hostLatency rnd now start n rate ∧
    hostLatency rnd now start n rate ≤ latency now start n rate + 1 / 10000 := by
  have hk1 : (0 : Rat) ≤ ((n - 1 : Int) : Rat) := by
    have := Rat.intCast_le_intCast.2 (show (0 : Int) ≤ n - 1 by omega)
    simpa using this
  have ek : rnd ((n - 1 : Int) : Rat) = ((n - 1 : Int) : Rat) := h.exact (n - 1) (by omega) (by omega)
  have hu : 0 ≤ 1 / rate := Verif.Proof.SampleTime.rat_div_nonneg (by decide) hr
  have a := h.near (1 / rate) hu
  have eS : exactSpan (n - 1) rate = 1 / rate * ((n - 1 : Int) : Rat) * 1000000000 := by
    unfold exactSpan
    rw [if_pos hr]
    clear h; grind
  have l1 := Rat.mul_le_mul_of_nonneg_right a.1 hk1
  have l2 := Rat.mul_le_mul_of_nonneg_right a.2 hk1
  have l0 : 0 ≤ 1 / rate * ((n - 1 : Int) : Rat) := Rat.mul_nonneg hu hk1
  unfold latency hostLatency
  simp only
  rw [if_pos ⟨hr, by omega⟩, ek]
  rw [eS] at hspan ⊢
  have e1 : (1 / rate - 1 / rate / 2 ^ 53) * ((n - 1 : Int) : Rat) =
      1 / rate * ((n - 1 : Int) : Rat) - 1 / rate * ((n - 1 : Int) : Rat) / 2 ^ 53 := by clear h; grind
  have e2 : (1 / rate + 1 / rate / 2 ^ 53) * ((n - 1 : Int) : Rat) =
      1 / rate * ((n - 1 : Int) : Rat) + 1 / rate * ((n - 1 : Int) : Rat) / 2 ^ 53 := by clear h; grind
  rw [e1] at l1
  rw [e2] at l2
  generalize 1 / rate * ((n - 1 : Int) : Rat) = T at *
  generalize rnd (1 / rate) * ((n - 1 : Int) : Rat) = P at *
  clear a e1 e2 eS
  have b := near_abs h (x := P) (m := 2 ^ 34) (by clear h; grind) (by clear h; grind)
  generalize rnd P = Q at *
  have d := start_near h hnow hs
  have n1 : (-2 ^ 34 : Rat) ≤ (now : Rat) := by
    have : ((-2 ^ 34 : Int) : Rat) ≤ now := Rat.intCast_le_intCast.2 hnow.1
    clear h; grind
  have n2 : (now : Rat) ≤ 2 ^ 34 := by
    have : (now : Rat) ≤ ((2 ^ 34 : Int) : Rat) := Rat.intCast_le_intCast.2 hnow.2
    clear h; grind
  have s1 : (-2 ^ 63 : Rat) ≤ (start : Rat) := by
    have : ((-2 ^ 63 : Int) : Rat) ≤ start := Rat.intCast_le_intCast.2 (by have := hs.1; omega)
    clear h; grind
  have s2 : (start : Rat) ≤ 2 ^ 63 := by
    have : (start : Rat) ≤ ((2 ^ 63 : Int) : Rat) := Rat.intCast_le_intCast.2 (by have := hs.2; omega)
    clear h; grind
  generalize rnd (rnd now - rnd (rnd start / Verif.Model.NSTMODULUS)) = D at *
  have c := near_abs h (x := D - Q) (m := 2 ^ 37) (by clear h; grind) (by clear h; grind)
  clear h
  grind

/-- Ten years at 200 samples per second, in 2023. -/
example : (-2 ^ 34 ≤ (1700000000 : Int) ∧ (1700000000 : Int) ≤ 2 ^ 34) ∧
    InInt64 1384467200000000000 ∧ exactSpan (63115200000 - 1) 200 ≤ 2 ^ 63 := by
  refine ⟨by decide, ?_, ?_⟩ <;> decide +kernel

/-- A record of one sample, or none, or without a rate, is as old as its start time says. -/
theorem C136_one_sample {rnd : Rat → Rat} (h : Rounding rnd) (now start n : Int) (rate : Rat)
    (hnow : -2 ^ 34 ≤ now ∧ now ≤ 2 ^ 34) (hs : InInt64 start) (hn : n ≤ 1 ∨ rate = 0) :
    (now - start / 1000000000 : Rat) - 1 / 10000 ≤ hostLatency rnd now start n rate ∧
    hostLatency rnd now start n rate ≤ (now - start / 1000000000 : Rat) + 1 / 10000 := by
  have e : hostLatency rnd now start n rate = rnd (rnd (rnd now - rnd (rnd start / Verif.Model.NSTMODULUS))) := by
    have z : (if rate > 0 ∧ n > 0 then rnd (rnd (1 / rate) * rnd ((n - 1 : Int) : Rat)) else 0) = 0 := by
      split
      · rename_i hh
        have : n = 1 := by
          rcases hn with hn | hn
          · omega
          · rw [hn] at hh; exact absurd hh.1 (by decide)
        subst this
        have r0 := h.exact 0 (by decide) (by decide)
        have r0' : rnd 0 = 0 := by simpa using r0
        show rnd (rnd (1 / rate) * rnd ((0 : Int) : Rat)) = 0
        rw [r0]
        show rnd (rnd (1 / rate) * 0) = 0
        rw [Rat.mul_zero, r0']
      · rfl
    unfold hostLatency
    simp only
    rw [z]
    congr 1
    clear h; grind
  rw [e, h.idem]
  have := start_near h hnow hs
  clear h
  grind

/-- A single sample in 2023, and a log record. -/
example : InInt64 1700000000000000000 ∧ ((1 : Int) ≤ 1 ∨ (0 : Rat) = 0) := ⟨by decide, .inl (by decide)⟩

/-- **C136** (violated).  If the rate is given as a period (a negative number of seconds) the latency is that
of the first sample: of a record of 11 samples each 100 seconds apart, which ends now, 1000 seconds. -/
theorem C136_period_violated {rnd : Rat → Rat} (h : Rounding rnd) :
    latency 1000 0 11 (-100) = 0 ∧ hostLatency rnd 1000 0 11 (-100) = 1000 := by
  refine ⟨by decide +kernel, ?_⟩
  unfold hostLatency
  simp only
  rw [if_neg (by decide)]
  have r0 : rnd ((0 : Int) : Rat) = 0 := by simpa using h.exact 0 (by decide) (by decide)
  have r1 : rnd ((1000 : Int) : Rat) = 1000 := by simpa using h.exact 1000 (by decide) (by decide)
  have r0' : rnd (0 / ((Verif.Model.NSTMODULUS : Int) : Rat)) = 0 := by
    have : (0 : Rat) / ((Verif.Model.NSTMODULUS : Int) : Rat) = ((0 : Int) : Rat) := by decide +kernel
    rw [this, r0]
  rw [r0, r0', r1]
  have e : (1000 : Rat) - 0 = ((1000 : Int) : Rat) := by decide +kernel
  rw [e, r1, e, r1]

/-- **C136** (violated).  A leap second within the record is not taken into account: of a record that ends
now, by `msr3_endtime`, the latency is a second less than nothing (to a tenth of a millisecond). -/
theorem C136_leap_violated {rnd : Rat → Rat} (h : Rounding rnd) :
    Verif.Model.SampleTime.endtime rnd Verif.Model.SampleTime.embedded 1483228799000000000 11 1 =
      .ok 1483228808000000000 ∧
    hostLatency rnd 1483228808 1483228799000000000 11 1 ≤ -1 + 1 / 10000 := by
  constructor
  · have hp : HasPeriod 1000000000 1 := .inl (by decide +kernel)
    unfold Verif.Model.SampleTime.endtime
    have hs := Verif.Proof.SampleTime.rawSpan_period h (p := 1000000000) (by decide) hp (k := 10) (by decide) (by decide)
    exact (Verif.Proof.SampleTime.sampletime_ok hs (by decide) (by decide) (by decide)).1
      ⟨⟨1483228800000000000, 37⟩, by decide +kernel, by decide, by decide⟩
  · have := (C136_rate_partial h 1483228808 1483228799000000000 11 1 (by decide) (by decide) (by decide) (by decide)
      (by decide +kernel)).2
    have e : latency 1483228808 1483228799000000000 11 1 = -1 := by decide +kernel
    rwa [e] at this

end Verif.Props.Latency
