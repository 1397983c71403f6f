import Verif.Proof.Calendar
/-!
# Properties C01–C05, C55: calendar conversions

The statements use only `Verif.Spec.Calendar` (the Gregorian calendar) and the modelled API
functions `nstime2time`, `time2nstime`, `gmtime64`, `doy2md`, `md2doy`.
-/
namespace Verif.Props
open Verif.Spec Verif.Model Verif.Proof

/-- The API's output fields read as specification fields. -/
def toFields (d : DateTime) : Fields := ⟨d.year, d.yday, d.hour, d.min, d.sec, d.nsec⟩

/-- **C01.** For every 64-bit nanosecond time `ms_nstime2time` succeeds and returns the valid
calendar fields of that very instant; there are no others. -/
theorem C01_nstime2time_gregorian (t : Int) (ht : InInt64 t) :
    ∃ d, nstime2time t = some d ∧ (toFields d).Valid ∧ (toFields d).instant = t ∧
      ∀ f : Fields, f.Valid → f.instant = t → f = toFields d := by
  obtain ⟨h1, h2⟩ := splitNs_spec t
  unfold InInt64 at ht
  obtain ⟨tm, htm⟩ := gmtime64_some (t / 1000000000) (by omega)
  have hs := gmtime64_spec _ _ htm
  obtain ⟨hsum, s0, s1, m0, m1, k0, k1, y0, y1, _⟩ := hs
  have hyl := yearLen_cases (tm.year + 1900)
  have hj2 : jan1 (tm.year + 1900) = jc (tm.year + 1900) := jan1_eq _
  unfold jc at hj2
  have hyear : 0 ≤ tm.year + 1900 ∧ tm.year + 1900 < 65536 := by omega
  have e1 : (tm.year + 1900) % 65536 = tm.year + 1900 := by omega
  have e2 : (tm.yday + 1) % 65536 = tm.yday + 1 := by omega
  have e3 : tm.hour % 256 = tm.hour := by omega
  have e4 : tm.min % 256 = tm.min := by omega
  have e5 : tm.sec % 256 = tm.sec := by omega
  have e6 : (t % 1000000000) % 4294967296 = t % 1000000000 := by omega
  have hres : nstime2time t = some ⟨tm.year + 1900, tm.yday + 1, tm.hour, tm.min, tm.sec,
      t % 1000000000⟩ := by
    unfold nstime2time
    have hsp : splitNs t = (t / 1000000000, t % 1000000000) := Prod.ext h1 h2
    rw [hsp]
    simp only [htm, e1, e2, e3, e4, e5, e6]
  have hval : (toFields ⟨tm.year + 1900, tm.yday + 1, tm.hour, tm.min, tm.sec,
      t % 1000000000⟩).Valid := by
    unfold toFields
    exact ⟨by simp only; omega, by simp only; omega, by simp only; omega, by simp only; omega,
      by simp only; omega⟩
  have hinst : (toFields ⟨tm.year + 1900, tm.yday + 1, tm.hour, tm.min, tm.sec,
      t % 1000000000⟩).instant = t := by
    unfold toFields Fields.instant
    simp only
    have : (((jan1 (tm.year + 1900) + (tm.yday + 1 - 1)) * 24 + tm.hour) * 60 + tm.min) * 60 + tm.sec
        = t / 1000000000 := by rw [← hsum]; omega
    rw [this]; omega
  refine ⟨_, hres, hval, hinst, ?_⟩
  intro f hf hfi
  exact instant_inj _ _ hf hval (hfi.trans hinst.symm)

/-- Non-vacuity: a negative time one nanosecond before a leap day. -/
example : nstime2time (951782400000000000 - 1) = some ⟨2000, 59, 23, 59, 59, 999999999⟩ := by
  decide +kernel
example : nstime2time (-1) = some ⟨1969, 365, 23, 59, 59, 999999999⟩ := by decide +kernel

/-- **C01 (month and day).** Every successful `ms_gmtime64_r` (any second count whatsoever) names
the month, day of month, day of week of the instant, consistently with its day of year. -/
theorem C01_gmtime64_month_day (time : Int) (tm : Tm) (h : gmtime64 time = some tm) :
    (((jan1 (tm.year + 1900) + tm.yday) * 24 + tm.hour) * 60 + tm.min) * 60 + tm.sec = time ∧
    (0 ≤ tm.sec ∧ tm.sec ≤ 59) ∧ (0 ≤ tm.min ∧ tm.min ≤ 59) ∧ (0 ≤ tm.hour ∧ tm.hour ≤ 23) ∧
    (1 ≤ tm.mon + 1 ∧ tm.mon + 1 ≤ 12) ∧
    (1 ≤ tm.mday ∧ tm.mday ≤ monthLen (tm.year + 1900) (tm.mon + 1)) ∧
    tm.yday + 1 = daysBeforeMonth (tm.year + 1900) (tm.mon + 1) + tm.mday ∧
    -- 1970-01-01 was a Thursday (= 4)
    tm.wday = (jan1 (tm.year + 1900) + tm.yday + 4) % 7 := by
  obtain ⟨a, b, c, d, e, f, g, _, _, i, j, k, l, m, n⟩ := gmtime64_spec time tm h
  exact ⟨a, ⟨b, c⟩, ⟨d, e⟩, ⟨f, g⟩, ⟨by omega, by omega⟩, ⟨k, l⟩, m, n⟩

example : (gmtime64 951782400).map (fun tm => (tm.year + 1900, tm.mon + 1, tm.mday, tm.wday))
    = some (2000, 2, 29, 2) := by decide +kernel

/-- **C02.** Converting a time to fields and back is the identity, for every time whose year the
library accepts. -/
theorem C02_fields_round_trip (t : Int) (ht : InInt64 t) (d : DateTime)
    (hd : nstime2time t = some d) (hy : 1678 ≤ d.year ∧ d.year ≤ 2262) :
    time2nstime d.year d.yday d.hour d.min d.sec d.nsec = .ok t := by
  obtain ⟨d', h1, hv, hi, _⟩ := C01_nstime2time_gregorian t ht
  rw [hd] at h1
  injection h1 with h1
  subst h1
  obtain ⟨vy, vh, vm, vs, vn⟩ := hv
  unfold toFields at vy vh vm vs vn hi
  simp only at vy vh vm vs vn
  unfold time2nstime
  have a1 : validYear d.year = true := by unfold validYear; simpa using hy
  have a2 : validYearDay d.year d.yday = true := (validYearDay_iff _ _).2 vy
  have a3 : validHour d.hour = true := by unfold validHour; simpa using vh
  have a4 : validMin d.min = true := by unfold validMin; simpa using vm
  have a5 : validSec d.sec = true := by unfold validSec; simp; omega
  have a6 : validNano d.nsec = true := by unfold validNano; simp; omega
  simp only [a1, a2, a3, a4, a5, a6, Bool.not_true, Bool.false_eq_true, if_false]
  rw [time2nstimeInt_eq, hi]
  have hj2 : jan1 d.year = jc d.year := jan1_eq _
  unfold jc at hj2
  unfold Fields.instant at hi
  simp only at hi
  have : InInt64 (t - d.nsec) ∧ InInt64 t := by unfold InInt64 at *; omega
  simp [this]

example : InInt64 (-8000000000000000001) ∧
    nstime2time (-8000000000000000001) = some ⟨1716, 180, 9, 46, 39, 999999999⟩ := by
  decide +kernel

/-- **C03.** The conversion to epoch time preserves strict order, both ways. -/
theorem C03_order_preserved (f g : Fields) (hf : f.Valid) (hg : g.Valid)
    (a b : Int)
    (yf : 1678 ≤ f.year ∧ f.year ≤ 2262) (yg : 1678 ≤ g.year ∧ g.year ≤ 2262)
    (ha : time2nstime f.year f.yday f.hour f.min f.sec f.nsec = .ok a)
    (hb : time2nstime g.year g.yday g.hour g.min g.sec g.nsec = .ok b) :
    a < b ↔ f.Earlier g := by
  have conv : ∀ (f : Fields) (a : Int), f.Valid → (1678 ≤ f.year ∧ f.year ≤ 2262) →
      time2nstime f.year f.yday f.hour f.min f.sec f.nsec = .ok a → a = f.instant := by
    intro f a hf yf ha
    obtain ⟨vy, vh, vm, vs, vn⟩ := hf
    unfold time2nstime at ha
    have a1 : validYear f.year = true := by unfold validYear; simpa using yf
    have a2 : validYearDay f.year f.yday = true := (validYearDay_iff _ _).2 vy
    have a3 : validHour f.hour = true := by unfold validHour; simpa using vh
    have a4 : validMin f.min = true := by unfold validMin; simpa using vm
    have a5 : validSec f.sec = true := by unfold validSec; simp; omega
    have a6 : validNano f.nsec = true := by unfold validNano; simp; omega
    simp only [a1, a2, a3, a4, a5, a6, Bool.not_true, Bool.false_eq_true, if_false] at ha
    rw [time2nstimeInt_eq] at ha
    split at ha
    · injection ha with ha; exact ha.symm
    · cases ha
  rw [conv f a hf yf ha, conv g b hg yg hb]
  exact instant_lt_iff f g hf hg

example : (Fields.mk 2000 60 23 59 59 999999999).Valid ∧ (Fields.mk 2000 61 0 0 0 0).Valid ∧
    (Fields.mk 2000 60 23 59 59 999999999).Earlier (Fields.mk 2000 61 0 0 0 0) ∧
    time2nstime 2000 60 23 59 59 999999999 = .ok 951868799999999999 ∧
    time2nstime 2000 61 0 0 0 0 = .ok 951868800000000000 := by
  refine ⟨⟨by decide, by decide, by decide, by decide, by decide⟩,
    ⟨by decide, by decide, by decide, by decide, by decide⟩, by unfold Fields.Earlier; decide, ?_, ?_⟩ <;> decide +kernel

/-- The fields pass the library's documented range checks (seconds up to 60). -/
structure Accepted (f : Fields) : Prop where
  year : 1678 ≤ f.year ∧ f.year ≤ 2262
  yday : 1 ≤ f.yday ∧ f.yday ≤ yearLen f.year
  hour : 0 ≤ f.hour ∧ f.hour ≤ 23
  min : 0 ≤ f.min ∧ f.min ≤ 59
  sec : 0 ≤ f.sec ∧ f.sec ≤ 60
  nsec : 0 ≤ f.nsec ∧ f.nsec ≤ 999999999

/-- **C04 is violated by the code**: fields inside every documented range (year 2262, day 365)
overflow the signed 64-bit result. -/
theorem C04_accepted_fields_overflow_violated :
    ∃ f : Fields, Accepted f ∧
      time2nstime f.year f.yday f.hour f.min f.sec f.nsec = .ub :=
  ⟨⟨2262, 365, 0, 0, 0, 0⟩, ⟨by decide, by decide, by decide, by decide, by decide, by decide⟩,
    by decide +kernel⟩

/-- **C04 (partial).** For accepted fields the result is the exact instant precisely when that
instant is at most 2^63-1; all accepted fields of years before 2262 qualify.  Missing: the code
does not reject the rest of 2262 (see `C04_accepted_fields_overflow_violated`). -/
theorem C04_no_overflow_partial (f : Fields) (h : Accepted f) :
    (time2nstime f.year f.yday f.hour f.min f.sec f.nsec = .ok f.instant
      ↔ f.instant ≤ 9223372036854775807) ∧
    (f.year ≤ 2261 → f.instant ≤ 9223372036854775807) := by
  obtain ⟨hy, vy, vh, vm, vs, vn⟩ := h
  have hj2 : jan1 f.year = jc f.year := jan1_eq _
  have hyl := yearLen_cases f.year
  unfold jc at hj2
  unfold time2nstime
  have a1 : validYear f.year = true := by unfold validYear; simpa using hy
  have a2 : validYearDay f.year f.yday = true := (validYearDay_iff _ _).2 vy
  have a3 : validHour f.hour = true := by unfold validHour; simpa using vh
  have a4 : validMin f.min = true := by unfold validMin; simpa using vm
  have a5 : validSec f.sec = true := by unfold validSec; simp; omega
  have a6 : validNano f.nsec = true := by unfold validNano; simp; omega
  simp only [a1, a2, a3, a4, a5, a6, Bool.not_true, Bool.false_eq_true, if_false]
  rw [time2nstimeInt_eq]
  have hi : f.instant = ((((jan1 f.year + (f.yday - 1)) * 24 + f.hour) * 60 + f.min) * 60 + f.sec)
    * 1000000000 + f.nsec := rfl
  constructor
  · constructor
    · intro h
      split at h
      · rename_i hc; exact hc.2.2
      · cases h
    · intro h
      have : InInt64 (f.instant - f.nsec) ∧ InInt64 f.instant := by
        unfold InInt64; omega
      rw [if_pos this]
  · intro h; omega

example : Accepted ⟨2262, 101, 23, 47, 16, 854775807⟩ ∧
    time2nstime 2262 101 23 47 16 854775807 = .ok 9223372036854775807 :=
  ⟨⟨by decide, by decide, by decide, by decide, by decide, by decide⟩, by decide +kernel⟩

/-- **C05 (day of year to month/day).** For every accepted year and every day of that year,
`ms_doy2md` gives the Gregorian month and day, and `ms_md2doy` turns them back. -/
theorem C05_doy_to_md (year yday : Int) (hy : 1678 ≤ year ∧ year ≤ 2262)
    (hd : 1 ≤ yday ∧ yday ≤ yearLen year) :
    ∃ m d, doy2md year yday = some (m, d) ∧ (1 ≤ m ∧ m ≤ 12) ∧ (1 ≤ d ∧ d ≤ monthLen year m) ∧
      daysBeforeMonth year m + d = yday ∧ md2doy year m d = some yday := by
  have a1 : validYear year = true := by unfold validYear; simpa using hy
  have a2 : validYearDay year yday = true := (validYearDay_iff _ _).2 hd
  rw [yearLen_eqB] at hd
  obtain ⟨m, d, e, m1, m2, d1, d2, hs⟩ := doy2mdLoop_spec (leapYear year) yday hd.1 hd.2
  refine ⟨m, d, ?_, ⟨m1, m2⟩, ⟨d1, ?_⟩, ?_, ?_⟩
  · unfold doy2md; simp [a1, a2, e]
  · rw [monthLen_eqB]; exact d2
  · rw [daysBefore_eqB]; exact hs
  · unfold md2doy
    have a3 : validMonth m = true := by unfold validMonth; simp; omega
    have a4 : validMonthDay year m d = true := by
      unfold validMonthDay; rw [monthDays_eqB _ _ m1 m2]; simp; omega
    simp only [a1, a3, a4, Bool.not_true, Bool.false_eq_true, if_false]
    rw [md2doyLoop_spec _ _ _ m1 m2, hs]

example : doy2md 2000 366 = some (12, 31) ∧ doy2md 1900 60 = some (3, 1) := by decide

/-- **C05 (month/day to day of year).** The other direction, for every real date. -/
theorem C05_md_to_doy (year month mday : Int) (hy : 1678 ≤ year ∧ year ≤ 2262)
    (hm : 1 ≤ month ∧ month ≤ 12) (hd : 1 ≤ mday ∧ mday ≤ monthLen year month) :
    md2doy year month mday = some (daysBeforeMonth year month + mday) ∧
    doy2md year (daysBeforeMonth year month + mday) = some (month, mday) := by
  have a1 : validYear year = true := by unfold validYear; simpa using hy
  have a3 : validMonth month = true := by unfold validMonth; simp; omega
  rw [monthLen_eqB] at hd
  have a4 : validMonthDay year month mday = true := by
    unfold validMonthDay; rw [monthDays_eqB _ _ hm.1 hm.2]; simp; omega
  have hb := daysBeforeB_bound (leapYear year) month mday hm.1 hm.2 hd.1 hd.2
  constructor
  · unfold md2doy
    simp only [a1, a3, a4, Bool.not_true, Bool.false_eq_true, if_false]
    rw [md2doyLoop_spec _ _ _ hm.1 hm.2, daysBefore_eqB]
  · rw [daysBefore_eqB]
    obtain ⟨m, d, e, m1, m2, d1, d2, hs⟩ := doy2mdLoop_spec (leapYear year) _ hb.1 hb.2
    obtain ⟨em, ed⟩ := daysBeforeB_inj (leapYear year) _ _ _ _ m1 m2 hm.1 hm.2 d1 d2 hd.1 hd.2 hs
    have a2 : validYearDay year (daysBeforeB (leapYear year) month + mday) = true := by
      rw [validYearDay_iff, yearLen_eqB]; exact hb
    unfold doy2md
    simp [a1, a2, e, em, ed]

example : md2doy 2024 2 29 = some 60 := by decide

/-- **C05 (rejection).** `ms_doy2md` rejects exactly the days that the year does not have (and
years outside the accepted range). -/
theorem C05_doy_rejects (year yday : Int) :
    doy2md year yday = none ↔
      ¬ (1678 ≤ year ∧ year ≤ 2262) ∨ ¬ (1 ≤ yday ∧ yday ≤ yearLen year) := by
  constructor
  · intro h
    by_cases h1 : 1678 ≤ year ∧ year ≤ 2262
    · by_cases h2 : 1 ≤ yday ∧ yday ≤ yearLen year
      · obtain ⟨m, d, e, _⟩ := C05_doy_to_md year yday h1 h2
        rw [e] at h; cases h
      · exact Or.inr h2
    · exact Or.inl h1
  · intro h
    unfold doy2md
    rcases h with h | h
    · have : validYear year = false := by unfold validYear; simpa using h
      simp [this]
    · have : validYearDay year yday = false := by
        cases hh : validYearDay year yday
        · rfl
        · exact absurd ((validYearDay_iff _ _).1 hh) h
      simp [this]

/-- **C05 (rejection of month/day) is violated**: day-of-month 0 is accepted, and for January it
yields day-of-year 0. -/
theorem C05_md_accepts_day_zero_violated :
    md2doy 2000 1 0 = some 0 ∧ ¬ (1 ≤ (0 : Int) ∧ (0 : Int) ≤ monthLen 2000 1) := by decide

/-- **C05 (rejection of month/day, partial).** Exactly the dates with a day of month in
`0..length` of a month 1..12 of an accepted year are accepted.  Missing: day 0 is not rejected. -/
theorem C05_md_rejects_partial (year month mday : Int) :
    md2doy year month mday = none ↔
      ¬ ((1678 ≤ year ∧ year ≤ 2262) ∧ (1 ≤ month ∧ month ≤ 12) ∧
         (0 ≤ mday ∧ mday ≤ monthLen year month)) := by
  unfold md2doy
  by_cases h1 : 1678 ≤ year ∧ year ≤ 2262
  · have a1 : validYear year = true := by unfold validYear; simpa using h1
    by_cases h2 : 1 ≤ month ∧ month ≤ 12
    · have a3 : validMonth month = true := by unfold validMonth; simpa using h2
      have e : validMonthDay year month mday = decide (0 ≤ mday ∧ mday ≤ monthLen year month) := by
        unfold validMonthDay; rw [monthDays_eqB _ _ h2.1 h2.2, ← monthLen_eqB]
      by_cases h3 : 0 ≤ mday ∧ mday ≤ monthLen year month
      · simp [a1, a3, e, h1, h2, h3]
      · simp [a1, a3, e, h1, h2, h3]
    · have a3 : validMonth month = false := by unfold validMonth; simpa using h2
      simp [a1, a3, h1, h2]
  · have a1 : validYear year = false := by unfold validYear; simpa using h1
    simp [a1, h1]

/-- **C55.** The error value `NSTERROR` comes back exactly for rejected fields and for the one
documented instant 1902-01-01T00:00:00 that has the same value (as 1902-01-01 itself or as second
60 of the minute before). -/
theorem C55_error_value (f : Fields) (hn : 0 ≤ f.nsec) :
    time2nstime f.year f.yday f.hour f.min f.sec f.nsec = .ok NSTERROR ↔
      (¬ Accepted f ∨ (Accepted f ∧
        f.instant = (Fields.mk 1902 1 0 0 0 0).instant)) := by
  have e : (Fields.mk 1902 1 0 0 0 0).instant = NSTERROR := by decide +kernel
  rw [e]
  by_cases h : Accepted f
  · have hp := (C04_no_overflow_partial f h).1
    constructor
    · intro h1
      right
      refine ⟨h, ?_⟩
      by_cases hle : f.instant ≤ 9223372036854775807
      · rw [hp.2 hle] at h1; injection h1
      · exfalso
        obtain ⟨hy, vy, vh, vm, vs, vn⟩ := h
        unfold time2nstime at h1
        have a1 : validYear f.year = true := by unfold validYear; simpa using hy
        have a2 : validYearDay f.year f.yday = true := (validYearDay_iff _ _).2 vy
        have a3 : validHour f.hour = true := by unfold validHour; simpa using vh
        have a4 : validMin f.min = true := by unfold validMin; simpa using vm
        have a5 : validSec f.sec = true := by unfold validSec; simp; omega
        have a6 : validNano f.nsec = true := by unfold validNano; simp; omega
        simp only [a1, a2, a3, a4, a5, a6, Bool.not_true, Bool.false_eq_true, if_false] at h1
        rw [time2nstimeInt_eq] at h1
        have : ¬ InInt64 f.instant := by unfold InInt64; omega
        simp only [this, and_false, if_false] at h1
        cases h1
    · rintro (h1 | ⟨_, h1⟩)
      · exact absurd h h1
      · have : f.instant ≤ 9223372036854775807 := by rw [h1]; decide
        rw [hp.2 this, h1]
  · constructor
    · intro _; exact Or.inl h
    · intro _
      unfold time2nstime
      by_cases b1 : validYear f.year = true
      · by_cases b2 : validYearDay f.year f.yday = true
        · by_cases b3 : validHour f.hour = true
          · by_cases b4 : validMin f.min = true
            · by_cases b5 : validSec f.sec = true
              · by_cases b6 : validNano f.nsec = true
                · exfalso; apply h
                  unfold validYear at b1; unfold validHour at b3; unfold validMin at b4
                  unfold validSec at b5; unfold validNano at b6
                  exact ⟨by simpa using b1, (validYearDay_iff _ _).1 b2, by simpa using b3,
                    by simpa using b4, by simpa using b5, ⟨hn, by simpa using b6⟩⟩
                · simp [b1, b2, b3, b4, b5, b6]
              · simp [b1, b2, b3, b4, b5]
            · simp [b1, b2, b3, b4]
          · simp [b1, b2, b3]
        · simp [b1, b2]
      · simp [b1]

example : time2nstime 1902 1 0 0 0 0 = .ok NSTERROR ∧ time2nstime 1901 366 0 0 0 0 = .ok NSTERROR ∧
    time2nstime 1902 1 0 0 0 1 = .ok NSTUNSET := by decide +kernel

end Verif.Props
