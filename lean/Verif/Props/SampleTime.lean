import Verif.Proof.SampleTime
import Verif.Props.Pack
/-!
# C09 times of samples, C32 times of packed records, C53 leap second files

`rnd` is the rounding of `double` arithmetic.  A time is in range if it is at least a second above the
least value of `int64_t`: below, comparing it with a leap second overflows.
-/
namespace Verif.Props.SampleTime
open Verif.Model Verif.Model.SampleTime Verif.Spec Verif.Spec.Leap Verif.Proof.SampleTime

/-- The times of the entries of a list. -/
def times (leaps : List Leap) : List Int := leaps.map (·.leapsecond)

/-- No leap second is passed completely between `t` and `v`. -/
def NonePassed (leaps : List Leap) (t v : Int) : Prop :=
  ∀ l ∈ times leaps, ¬ (t < l ∧ l + 1000000000 ≤ v)

instance (leaps : List Leap) (t v : Int) : Decidable (NonePassed leaps t v) := by
  unfold NonePassed; infer_instance

theorem not_passed {leaps : List Leap} {t v : Int} (h : NonePassed leaps t v) : ¬ Passed leaps t v :=
  fun ⟨l, m, a, b⟩ => h l.leapsecond (List.mem_map_of_mem m) ⟨a, by omega⟩

/-- The first sample has the time of the start, for any rate and list of leap seconds. -/
theorem C09_first (rnd : Rat → Rat) (leaps : List Leap) (t : Int) (rate : Rat)
    (ht : -9223372035854775808 ≤ t ∧ t ≤ 9223372036854775807) :
    sampletime rnd leaps t 0 rate = .ok t := by
  have hs : rawSpan rnd 0 rate = .ok 0 := rfl
  have := (sampletime_ok (leaps := leaps) hs (by omega) ht.1 (by omega)).2
    (fun ⟨l, _, a, b⟩ => by omega)
  simpa using this

example : sampletime (fun x => x) embedded 78796799000000000 0 100 = .ok 78796799000000000 := by
  decide +kernel

/-- If the period is a whole number of nanoseconds, the times of samples are exact over spans of up
to 2^49 nanoseconds (six days and a half) in which no leap second passes, for rates and for periods
given to the accuracy of `double`. -/
theorem C09_exact {rnd : Rat → Rat} (hr : Rounding rnd) (leaps : List Leap) (t k : Int) (p : Nat)
    (rate : Rat) (hp : 1 ≤ p) (hrate : HasPeriod p rate) (hk : 0 ≤ k) (hspan : k * p ≤ 2 ^ 49)
    (ht : -9223372035854775808 ≤ t ∧ t + k * p ≤ 9223372036854775807)
    (hl : NonePassed leaps t (t + k * p)) :
    sampletime rnd leaps t k rate = .ok (t + k * p) :=
  (sampletime_ok (rawSpan_period hr hp hrate hk hspan) (Int.mul_nonneg hk (by omega)) ht.1 ht.2).2
    (not_passed hl)

/-- 40 samples per second, 2^20 samples. -/
example : HasPeriod 25000000 40 ∧ ((2 : Int) ^ 20) * (25000000 : Nat) ≤ 2 ^ 49 ∧
    NonePassed embedded 1500000000000000000 (1500000000000000000 + 2 ^ 20 * 25000000) := by
  refine ⟨.inl ?_, ?_, ?_⟩ <;> decide +kernel
/-- A tenth of a second as a period: `-0.1` is not exact as a `double`. -/
example : HasPeriod 100000000 (-(3602879701896397 / 36028797018963968)) := by
  refine .inr ?_; decide +kernel

/-- Over any span the times are within half a nanosecond and 2^-51 of the span of the exact ones (no
leap second passed). -/
theorem C09_accuracy {rnd : Rat → Rat} (hr : Rounding rnd) (leaps : List Leap) (t k : Int) (rate : Rat)
    (hk : 0 ≤ k ∧ k ≤ 2 ^ 53) (ht : -9223372035854775808 ≤ t)
    (hspan : exactSpan k rate ≤ 9223372036854000000)
    (hend : (t : Rat) + exactSpan k rate ≤ 9223372036854000000)
    (hl : ∀ v : Int, (v : Rat) ≤ t + exactSpan k rate + 1 / 2 + (exactSpan k rate + 1) / 2 ^ 51 →
      NonePassed leaps t v) :
    ∃ u, sampletime rnd leaps t k rate = .ok u ∧
      (t : Rat) + exactSpan k rate - 1 / 2 - (exactSpan k rate + 1) / 2 ^ 51 < u ∧
      u ≤ (t : Rat) + exactSpan k rate + 1 / 2 + (exactSpan k rate + 1) / 2 ^ 51 := by
  obtain ⟨s, h1, h2, h3, h4, h5⟩ := rawSpan_near hr hk.1 hk.2 rate hspan
  have hup : ((t + s : Int) : Rat) ≤
      t + exactSpan k rate + 1 / 2 + (exactSpan k rate + 1) / 2 ^ 51 := by
    rw [Rat.intCast_add]; clear hl hr; grind
  have hn := hl _ hup
  generalize exactSpan k rate = E at *
  have hv : t + s ≤ 9223372036854775807 := by
    have : ((t + s : Int) : Rat) ≤ ((9223372036854775807 : Int) : Rat) := by
      rw [Rat.intCast_add]; clear hl hr hn; grind
    exact Rat.intCast_le_intCast.1 this
  refine ⟨t + s, (sampletime_ok h1 h2 ht hv).2 (not_passed hn), ?_, hup⟩
  rw [Rat.intCast_add]; clear hl hr hn; grind

/-- Three samples per second over a century. -/
example : exactSpan (3 * 36525 * 86400) 3 ≤ 9223372036854000000 ∧
    (3 : Int) * 36525 * 86400 ≤ 2 ^ 53 := by
  constructor <;> decide +kernel

/-- Times do not go back from a sample to a later one, but for the second that follows a leap second:
there the earlier sample is in the leap second, whose values the later one repeats. -/
theorem C09_monotone {rnd : Rat → Rat} (hr : Rounding rnd) (leaps : List Leap) (t k k' : Int)
    (rate : Rat) (u u' : Int) (hk : k ≤ k') (h : sampletime rnd leaps t k rate = .ok u)
    (h' : sampletime rnd leaps t k' rate = .ok u') :
    u ≤ u' ∨ ∃ l ∈ times leaps, t < l ∧ l ≤ u' ∧ u' < u ∧ u < l + 1000000000 := by
  obtain ⟨s, h1, h2, _⟩ := sampletime_cases h
  obtain ⟨s', h1', h2', _⟩ := sampletime_cases h'
  have hm := rawSpan_mono hr hk h1 h1'
  rcases h2 with ⟨e, p⟩ | ⟨e, p⟩
  · rcases h2' with ⟨e', p'⟩ | ⟨e', p'⟩
    · left; omega
    · left; omega
  · rcases h2' with ⟨e', l, m, a, b⟩ | ⟨e', p'⟩
    · by_cases hle : u ≤ u'
      · exact .inl hle
      · refine .inr ⟨l.leapsecond, List.mem_map_of_mem m, a, by omega, by omega, ?_⟩
        have : ¬ (t < l.leapsecond ∧ l.leapsecond ≤ t + s - 1000000000) := fun hh => p ⟨l, m, hh.1, hh.2⟩
        omega
    · left; omega

/-- Both cases occur, before and at the leap second at the end of June 1972. -/
example : sampletime (fun x => x) embedded 78796798000000000 3 2 = .ok 78796799500000000 ∧
    sampletime (fun x => x) embedded 78796798000000000 5 2 = .ok 78796800500000000 ∧
    sampletime (fun x => x) embedded 78796798000000000 6 2 = .ok 78796800000000000 := by
  refine ⟨?_, ?_, ?_⟩ <;> decide +kernel

/-- No sample is before the first one, for any list of leap seconds. -/
theorem C09_not_before {rnd : Rat → Rat} (hr : Rounding rnd) (leaps : List Leap) (t k : Int)
    (rate : Rat) (u : Int) (h : sampletime rnd leaps t k rate = .ok u) : t ≤ u := by
  obtain ⟨s, h1, h2, _⟩ := sampletime_cases h
  have := rawSpan_nonneg hr h1
  rcases h2 with ⟨e, l, m, a, b⟩ | ⟨e, p⟩ <;> omega

/-- The end time of a record is the time of its last sample, and not before its start. -/
theorem C09_end {rnd : Rat → Rat} (hr : Rounding rnd) (leaps : List Leap) (t n : Int) (rate : Rat) :
    (1 ≤ n → endtime rnd leaps t n rate = sampletime rnd leaps t (n - 1) rate) ∧
    ∀ u, endtime rnd leaps t n rate = .ok u → t ≤ u := by
  constructor
  · intro hn
    unfold endtime
    rw [if_pos (by omega)]
  · intro u h
    exact C09_not_before hr _ _ _ _ _ h

example : endtime (fun x => x) embedded 0 101 100 = .ok 1000000000 := by decide +kernel

/-- The period of a record is exact if it is a whole number of nanoseconds. -/
theorem C09_period {rnd : Rat → Rat} (hr : Rounding rnd) (p : Nat) (rate : Rat) (hp : 1 ≤ p)
    (hp2 : p ≤ 2 ^ 49) (hrate : HasPeriod p rate) : nsperiod rnd rate = .ok p := by
  have near : ∀ q : Rat, (p : Rat) - p / 2 ^ 52 ≤ q → q ≤ (p : Rat) + p / 2 ^ 52 →
      toInt64 (rnd (rnd q + 1 / 2)) = .ok p := by
    intro q h1 h2
    have hp0 : (1 : Rat) ≤ (p : Rat) := by exact_mod_cast hp
    have hp49 : (p : Rat) ≤ 562949953421312 := by
      have : (p : Rat) ≤ ((562949953421312 : Nat) : Rat) := Rat.natCast_le_natCast.2 (by omega)
      exact this
    have pc : ((p : Int) : Rat) = (p : Rat) := rfl
    have hq0 : 0 ≤ q := by clear hrate hr; grind
    have a := hr.near q hq0
    generalize rnd q = a0 at *
    have ha : 0 ≤ a0 + 1 / 2 := by clear hrate hr; grind
    have b := hr.near _ ha
    generalize rnd (a0 + 1 / 2) = x at *
    have l : ((p : Int) : Rat) ≤ x := by rw [pc]; clear hrate hr; grind
    have u : x < (((p : Int) + 1 : Int) : Rat) := by
      rw [Rat.intCast_add, pc]; clear hrate hr; grind
    have x0 : 0 ≤ x := by rw [pc] at l; clear hrate hr; grind
    have fl : x.floor = p := by
      have l' : (p : Int) ≤ x.floor := Rat.le_floor_iff.2 l
      have u' : x.floor < (p : Int) + 1 := Rat.floor_lt_iff.2 u
      omega
    rw [toInt64_nonneg x0, fl, if_pos (fits (by omega) (by omega))]
  obtain ⟨n1, n2⟩ := period_near hrate (k := 1) (by omega)
  have e1 : ((1 * (p : Int) : Int) : Rat) = (p : Rat) := by rw [Int.one_mul]; rfl
  rw [e1] at n1 n2
  unfold nsperiod
  rcases hrate with ⟨h1, _, _⟩ | ⟨h1, _, _⟩
  · rw [if_pos h1]
    have e : exactSpan 1 rate = (NSTMODULUS : Rat) / rate := by
      unfold exactSpan NSTMODULUS
      rw [if_pos h1]
      rw [Rat.div_def, Rat.div_def]
      have : ((1 : Int) : Rat) = 1 := rfl
      rw [this, Rat.one_mul, Rat.mul_comm]
      rfl
    rw [e] at n1 n2
    exact near _ n1 n2
  · have h2 : ¬ rate > 0 := by grind
    rw [if_neg h2, if_pos h1]
    have e : exactSpan 1 rate = (NSTMODULUS : Rat) * -rate := by
      unfold exactSpan NSTMODULUS
      rw [if_neg h2, if_pos h1]
      have : ((1 : Int) : Rat) = 1 := rfl
      rw [this, Rat.one_mul, Rat.mul_comm]
      rfl
    rw [e] at n1 n2
    exact near _ n1 n2

example : HasPeriod 10000000 100 := by refine .inl ?_; decide +kernel

/-- Up to one leap second in the span is accounted for: the time between the first sample and the
time returned is the time without leap seconds, or the sample is in the leap second itself.  More of
them are not, see `C09_two_leaps_violated`. -/
theorem C09_leap_partial {rnd : Rat → Rat} (hr : Rounding rnd) (leaps : List Leap) (t k : Int)
    (rate : Rat) (v : Int) (ht : -9223372035854775808 ≤ t)
    (hv : sampletime rnd [] t k rate = .ok v)
    (hone : ((times leaps).filter fun l => t < l ∧ l ≤ v).length ≤ 1) :
    ∃ u, sampletime rnd leaps t k rate = .ok u ∧
      (elapsed (times leaps) t u = v - t ∨
        (u = v ∧ ∃ l ∈ times leaps, t < l ∧ l ≤ u ∧ u < l + 1000000000)) := by
  obtain ⟨s, h1, h2, h3⟩ := sampletime_cases hv
  have hs0 := rawSpan_nonneg hr h1
  have hvs : v = t + s := by
    rcases h2 with ⟨_, l, m, _⟩ | ⟨e, _⟩
    · cases m
    · exact e
  have hvle : v ≤ 9223372036854775807 := by
    unfold fitsInt64 at h3
    rw [decide_eq_true_eq] at h3
    exact h3.2
  subst hvs
  obtain ⟨a, b⟩ := sampletime_ok (leaps := leaps) h1 hs0 ht hvle
  by_cases hp : Passed leaps t (t + s)
  · refine ⟨_, a hp, .inl ?_⟩
    obtain ⟨l, m, c, d⟩ := hp
    have hsub : ((times leaps).filter fun l => t < l ∧ l ≤ t + s - 1000000000).length ≤
        ((times leaps).filter fun l => t < l ∧ l ≤ t + s).length := by
      rw [← List.countP_eq_length_filter, ← List.countP_eq_length_filter]
      apply List.countP_mono_left
      intro x _ hx
      simp only [decide_eq_true_eq] at hx ⊢
      omega
    have hpos : 0 < ((times leaps).filter fun l => t < l ∧ l ≤ t + s - 1000000000).length := by
      apply List.length_pos_of_mem (a := l.leapsecond)
      simp only [List.mem_filter, decide_eq_true_eq]
      exact ⟨List.mem_map_of_mem m, c, d⟩
    unfold elapsed
    omega
  · refine ⟨_, b hp, ?_⟩
    by_cases hz : ((times leaps).filter fun l => t < l ∧ l ≤ t + s).length = 0
    · left
      unfold elapsed
      omega
    · right
      obtain ⟨x, hx⟩ := List.exists_mem_of_length_pos (Nat.pos_of_ne_zero hz)
      simp only [List.mem_filter, decide_eq_true_eq] at hx
      refine ⟨rfl, x, hx.1, hx.2.1, hx.2.2, ?_⟩
      obtain ⟨l, m, rfl⟩ := List.mem_map.1 hx.1
      have : ¬ l.leapsecond ≤ t + s - 1000000000 := fun hle => hp ⟨l, m, hx.2.1, hle⟩
      omega

/-- From the last second of June 1972 on, with the leap second that followed. -/
example : sampletime (fun x => x) [] 78796799000000000 10 1 = .ok 78796809000000000 ∧
    ((times embedded).filter fun l => 78796799000000000 < l ∧ l ≤ 78796809000000000).length = 1 ∧
    elapsed (times embedded) 78796799000000000 78796808000000000 = 10000000000 := by
  refine ⟨?_, ?_, ?_⟩ <;> decide +kernel

/-- Only one leap second is taken into account: of two in the span, the second is not.  A sample 365
days after the beginning of 30 June 1972 gets a time a second late. -/
theorem C09_two_leaps_violated :
    sampletime (fun x => x) embedded (day 1972 6 30) 365 (-86400) =
      .ok (day 1973 6 29 + 86399000000000) ∧
    elapsed (times embedded) (day 1972 6 30) (day 1973 6 29 + 86399000000000) =
      365 * 86400 * 1000000000 + 1000000000 := by
  constructor <;> decide +kernel

/-- The list begins with 1 January 1972, which followed no leap second: a record over that time gets
the time of its samples after it a second early. -/
theorem C09_1972_violated :
    sampletime (fun x => x) embedded (day 1972 1 1 - 1000000000) 2 1 = .ok (day 1972 1 1) ∧
    elapsed (days.map fun p => day p.1 p.2 1) (day 1972 1 1 - 1000000000) (day 1972 1 1) =
      1000000000 := by
  constructor <;> decide +kernel

/-! ## Packed records -/

theorem divides_bound {P : Nat → Nat → List UInt8 → Prop} : ∀ rs a b, Pack.Divides P a rs b →
    a ≤ b ∧ Pack.Divides (fun off n r => P off n r ∧ off + n ≤ b) a rs b := by
  intro rs
  induction rs with
  | nil => intro a b h; exact ⟨Nat.le_of_eq h, h⟩
  | cons r rs ih =>
    intro a b ⟨n, h1, h2, h3⟩
    obtain ⟨i1, i2⟩ := ih _ _ h3
    exact ⟨by omega, n, h1, ⟨h2, i1⟩, i2⟩

/-- `ms_sampletime` where rates are given by their bits; `val` is the value of the bits. -/
def ofBits (rnd : Rat → Rat) (leaps : List Leap) (val : Nat → Rat) (t : Int) (n bits : Nat) : Out Int :=
  sampletime rnd leaps t n (val bits)

/-- **C32** with the times computed by `ms_sampletime`: if the period is a whole number of
nanoseconds, every record made is read back with exactly the time of its first sample (spans of up to
2^49 nanoseconds in which no leap second passes). -/
theorem C32_exact_times {rnd : Rat → Rat} (hr : Rounding rnd) (leaps : List Leap) (val : Nat → Rat)
    (nr : Nat → Nat) (h : Bool) (m : Record3.Msr) (flush : Bool) (junk : List UInt8)
    (i : Pack.Input nr (ofBits rnd leaps val) m)
    (hroom : 40 + m.sid.length + m.extra.length ≤ (Record3.packReclen m.reclen).toNat)
    (hj : (Record3.packReclen m.reclen).toNat - 40 ≤ junk.length) (p : Pack.Packing)
    (hp : Pack.msrPack nr (ofBits rnd leaps val) h m flush junk (m.samples.count + 1) = .ok p)
    (period : Nat) (h1 : 1 ≤ period) (hrate : HasPeriod period (val m.samprate))
    (hspan : (p.packed : Int) * period ≤ 2 ^ 49)
    (ht : -9223372035854775808 ≤ m.starttime ∧
      m.starttime + p.packed * period ≤ 9223372036854775807)
    (hl : NonePassed leaps m.starttime (m.starttime + p.packed * period)) :
    Pack.Divides (fun off n r => Pack.Reads r (fun m' => m'.samplecnt = n ∧
      m'.starttime = m.starttime + off * period)) 0 p.records p.packed := by
  have base := Props.Pack.C32_record_times nr (ofBits rnd leaps val) h m flush junk i hroom hj p hp
  refine Proof.PackRead.divides_mono ?_ _ _ _ (divides_bound _ _ _ base).2
  intro off n r ⟨hq, hle⟩ host
  obtain ⟨m', ⟨w1, w2⟩, u⟩ := hq host
  refine ⟨m', ⟨w1, ?_⟩, u⟩
  have hmul : (off : Int) * period ≤ p.packed * period :=
    Int.mul_le_mul_of_nonneg_right (by omega) (by omega)
  have he := C09_exact hr leaps m.starttime off period (val m.samprate) h1 hrate (by omega)
    (by omega) ⟨ht.1, by omega⟩ (fun l hl' hh => hl l hl' ⟨hh.1, by omega⟩)
  unfold Pack.timeOf at w2
  split at w2
  · rename_i h0
    have := Out.ok.inj w2
    simp [h0, ← this]
  · unfold ofBits at w2
    rw [he] at w2
    exact (Out.ok.inj w2).symm

/-- Seven samples at 10 samples per second in four records. -/
example : Pack.Input id (ofBits (fun x => x) embedded fun _ => 10) Props.Pack.seven ∧
    (∃ p, Pack.msrPack id (ofBits (fun x => x) embedded fun _ => 10) false Props.Pack.seven true
      (List.replicate 60 0) 8 = .ok p ∧ p.packed = 7) ∧ HasPeriod 100000000 10 ∧
    NonePassed embedded 1325376000000000005 (1325376000000000005 + 7 * 100000000) := by
  have hin : Pack.Input id (ofBits (fun x => x) embedded fun _ => 10) Props.Pack.seven := by
    have s := Props.Pack.seven_input
    refine ⟨s.packable, s.default, s.extraText, s.some, s.few, s.fits, ?_⟩
    intro k h0 hk
    obtain ⟨t, h1, h2⟩ := s.times k h0 hk
    have hk : k < 7 := hk
    have e : ofBits (fun x => x) embedded (fun _ => 10) Props.Pack.seven.starttime k
        Props.Pack.seven.samprate = .ok (1325376000000000005 + (k : Int) * (100000000 : Nat)) := by
      apply C09_exact rounding_id embedded 1325376000000000005 k 100000000 10 (by omega)
        (.inl (by decide +kernel)) (by omega) (by omega) (by omega)
      intro l hl hh
      have : ∀ l ∈ times embedded,
          ¬ (1325376000000000005 < l ∧ l + 1000000000 ≤ 1325376000000000005 + 700000000) := by
        decide +kernel
      exact this l hl ⟨hh.1, by omega⟩
    rw [e]
    refine ⟨_, rfl, ?_⟩
    have ht : t = 1325376000000000005 + (k : Int) * (100000000 : Nat) := by
      exact (Out.ok.inj h1).symm
    rw [← ht]
    exact h2
  refine ⟨hin, ?_, .inl (by decide +kernel), by decide +kernel⟩
  obtain ⟨p, h1, h2, _⟩ := Props.Pack.C31_pack_keeps_samples_partial id _ false Props.Pack.seven
    (List.replicate 60 0) hin Props.Pack.seven_encodable (by decide)
  exact ⟨p, h1, h2⟩

/-! ## Leap second files -/

/-- The list in the library is that of the leap seconds, each with the difference of TAI and UTC after
it, preceded by the beginning of 1972. -/
theorem C53_embedded :
    embedded = ⟨day 1972 1 1, 10⟩ ::
      (days.zipIdx.map fun p => ⟨day p.1.1 p.1.2 1, 11 + p.2⟩) := by
  decide +kernel

/-- The characters of a line of a text file. -/
def Plain (s : List Char) : Prop := ∀ c ∈ s, c ≠ '\n' ∧ c ≠ '\x00'

instance (s : List Char) : Decidable (Plain s) := by unfold Plain; infer_instance

/-- A file of lines of less than 198 characters is read completely: the list has the entries of the
file in order, with their times and differences, and nothing else; their number is returned; the
lines that are not of such a file are reported in order and no others; and there is a message for each
date of expiry that has passed.  Missing: lines of 198 characters and more. -/
theorem C53_file_partial (now : Int) (lines : List (List Char × Said)) (last : Bool)
    (list : List Leap)
    (h : ∀ p ∈ lines, Line p.1 p.2 ∧ p.2.InRange ∧ Plain p.1 ∧ p.1.length ≤ 197) :
    readleapsecondfile now (some (fileText (lines.map (·.1)) last)) list =
      .ok { ret := (table (lines.map (·.2))).length
            list := (table (lines.map (·.2))).map fun p => ⟨p.1, p.2⟩
            expired := passed now (lines.map (·.2))
            unrecognized := (lines.filter fun p => p.2 = .unknown).map (·.1) } := by
  unfold readleapsecondfile
  simp only
  rw [readLines_file now last lines _ _ h (by omega), result_eq]
  simp

/-- A file with a comment, a date of expiry, an empty line and two entries. -/
example : ∃ lines : List (List Char × Said),
    lines.map (·.1) = ["# leap seconds".toList, "#@\t3928521600".toList, [],
      "2272060800\t10\t# 1 Jan 1972".toList, " 2287785600 11".toList, "12 ".toList, "x 1".toList] ∧
    (∀ p ∈ lines, Line p.1 p.2 ∧ p.2.InRange ∧ Plain p.1 ∧ p.1.length ≤ 197) ∧
    table (lines.map (·.2)) = [(day 1972 1 1, 10), (day 1972 7 1, 11)] := by
  refine ⟨[("# leap seconds".toList, .nothing), ("#@\t3928521600".toList, .expires 3928521600),
    ([], .nothing), ("2272060800\t10\t# 1 Jan 1972".toList, .entry 2272060800 10),
    (" 2287785600 11".toList, .entry 2287785600 11), ("12 ".toList, .unknown),
    ("x 1".toList, .unknown)], rfl, ?_, by decide +kernel⟩
  have num : ∀ (s : List Char) (n : Nat), (decide (s ≠ []) && s.all (fun c => decide (TimeStr.Digit c)) &&
      decide (TimeStr.value s = n)) = true → TimeStr.Numeral s n := by
    intro s n hh
    simp only [Bool.and_eq_true, decide_eq_true_eq, List.all_eq_true] at hh
    exact ⟨hh.1.1, hh.1.2, hh.2⟩
  intro p hp
  simp only [List.mem_cons, List.not_mem_nil, or_false] at hp
  rcases hp with rfl | rfl | rfl | rfl | rfl | rfl | rfl
  · exact ⟨.comment " leap seconds".toList (by intro u h; cases h), trivial, by decide +kernel, by decide +kernel⟩
  · exact ⟨.expires (ws := ['\t']) (a := "3928521600".toList) (t := []) (by unfold Blank; decide)
      (num _ _ (by decide +kernel)) (by intro c u h; cases h), (by decide : (3928521600 : Nat) ≤ _),
      by decide +kernel, by decide +kernel⟩
  · exact ⟨.empty, trivial, by decide, by decide⟩
  · exact ⟨.entry (lead := []) (a := "2272060800".toList) (ws := ['\t']) (b := "10".toList)
      (t := "\t# 1 Jan 1972".toList) (by intro c h; cases h) (num _ _ (by decide +kernel))
      (by unfold Blank; decide) (by decide) (num _ _ (by decide +kernel))
      (by intro c u h; cases h; decide), ⟨by decide, by decide⟩, by decide +kernel, by decide +kernel⟩
  · exact ⟨.entry (lead := [' ']) (a := "2287785600".toList) (ws := [' ']) (b := "11".toList)
      (t := []) (by unfold Blank; decide) (num _ _ (by decide +kernel))
      (by unfold Blank; decide) (by decide) (num _ _ (by decide +kernel))
      (by intro c u h; cases h), ⟨by decide, by decide⟩, by decide +kernel, by decide +kernel⟩
  · exact ⟨.lacking (lead := []) (a := "12".toList) (ws := [' ']) (n := 12) (by intro c h; cases h)
      (num _ _ (by decide +kernel)) (by decide) (by unfold Blank; decide), trivial, by decide +kernel,
      by decide +kernel⟩
  · exact ⟨.other (lead := []) (c := 'x') (t := " 1".toList) (by intro c h; cases h) (by decide)
      (by decide) (by decide) (by decide) (by decide), trivial, by decide +kernel, by decide +kernel⟩

/-- Lines that are too long are taken for several lines, so the table can get an entry from a
comment. -/
theorem C53_long_line_violated : ∃ s : List Char, Line s .nothing ∧ Plain s ∧
    readleapsecondfile 0 (some (fileText [s] true)) [] =
      .ok { ret := 1, list := [⟨day 2017 1 1, 37⟩] } := by
  refine ⟨'#' :: (List.replicate 197 ' ' ++ "3692217600 37".toList), .comment _ ?_, ?_, ?_⟩
  · intro u h; cases h
  · decide +kernel
  · decide +kernel

/-- If the file cannot be opened the list stays and -1 is returned; without a file named by the
environment it stays and -2 is returned. -/
theorem C53_no_file (now : Int) (list : List Leap) :
    readleapsecondfile now none list = .ok { ret := -1, list } ∧
    readleapseconds now none list = .ok { ret := -2, list } := ⟨rfl, rfl⟩

/-- Every call leaves a list (the former is dropped once the file is open) and returns its length. -/
theorem C53_count (now : Int) (s : List Char) (list : List Leap) (a : Loaded)
    (h : readleapsecondfile now (some s) list = .ok a) : a.ret = a.list.length := by
  have key : ∀ fuel (s : List Char) (b a : Loaded), readLines now fuel s b = .ok a →
      b.ret = b.list.length → a.ret = a.list.length := by
    intro fuel
    induction fuel with
    | zero => intro s b a h hb; cases h; exact hb
    | succ n ih =>
      intro s b a h hb
      unfold readLines at h
      simp only at h
      split at h
      · cases h; exact hb
      · split at h
        · cases h
        · rename_i e _
          refine ih _ _ _ h ?_
          cases e <;> simp [apply, hb]
  exact key _ _ _ _ h rfl

example : ∃ a, readleapsecondfile 0 (some "2272060800 10\nx".toList) embedded = .ok a ∧ a.ret = 1 ∧
    a.unrecognized = [['x']] := ⟨_, rfl, by decide +kernel, by decide +kernel⟩

end Verif.Props.SampleTime
