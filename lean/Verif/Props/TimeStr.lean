import Verif.Proof.TimeStrRead
/-!
# Properties C06–C08, C79–C81: time strings

The text printed is compared with `Verif.Props.TimeStr.shown`, built from the digits of the calendar
fields of `Verif.Spec.Calendar`; the texts read are those of the grammar in `Verif.Spec.TimeStr`.
-/
namespace Verif.Props.TimeStr
open Verif.Spec Verif.Spec.TimeStr Verif.Model Verif.Model.TimeStr Verif.Proof Verif.Proof.TimeStr

/-- Every 64-bit time has a date. -/
theorem dated_exists (t : Int) (ht : InInt64 t) : ∃ f month mday, Dated t f month mday := by
  obtain ⟨d, _, hv, hi, _⟩ := C01_nstime2time_gregorian t ht
  have hy := year_range t ht _ hv hi
  have hvy := hv.yday
  rw [yearLen_eqB] at hvy
  obtain ⟨m, md, _, m1, m2, d1, d2, hs⟩ := doy2mdLoop_spec (leapYear (toFields d).year)
    (toFields d).yday hvy.1 hvy.2
  refine ⟨toFields d, m, md, hv, hi, ⟨m1, m2⟩, ⟨d1, ?_⟩, ?_⟩
  · rw [monthLen_eqB]; exact d2
  · rw [daysBefore_eqB]; exact hs.symm

/-- **C08 (calendar formats).** In every calendar format and with every sub-second option
`ms_nstime2timestr` prints exactly the date and time of the instant, with the digits of the fraction
the option asks for, the others cut off. -/
theorem C08_calendar_text (t : Int) (ht : InInt64 t) (f : Fields) (month mday : Int)
    (h : Dated t f month mday) (fmt : Format) (hc : Calendar fmt) (sub : Sub) :
    nstime2timestr t fmt sub = ⟨true, some (shown fmt (fractionDigits sub t) f month mday)⟩ :=
  printed_calendar t ht f month mday h fmt hc sub

/-- One nanosecond before 1970, with microseconds. -/
example : Dated (-1) ⟨1969, 365, 23, 59, 59, 999999999⟩ 12 31 ∧
    shown .isoMonthDayDoyZ (fractionDigits .micro (-1)) ⟨1969, 365, 23, 59, 59, 999999999⟩ 12 31 =
      "1969-12-31T23:59:59.999999Z (365)".toList :=
  ⟨⟨⟨by decide, by decide, by decide, by decide, by decide⟩, by decide +kernel, by decide,
    by decide, by decide⟩, by decide +kernel⟩

/-- **C08 (with Z).** `ms_nstime2timestrz` appends the designator of UTC to the ISO formats that lack it
and changes nothing else. -/
theorem C08_timestrz (t : Int) (ht : InInt64 t) (f : Fields) (month mday : Int)
    (h : Dated t f month mday) (sub : Sub) :
    nstime2timestrz t .isoMonthDay sub =
      ⟨true, some (shown .isoMonthDay (fractionDigits sub t) f month mday ++ ['Z'])⟩ ∧
    nstime2timestrz t .isoMonthDaySpace sub =
      ⟨true, some (shown .isoMonthDaySpace (fractionDigits sub t) f month mday ++ ['Z'])⟩ ∧
    nstime2timestrz t .isoMonthDayDoy sub =
      ⟨true, some (shown .isoMonthDay (fractionDigits sub t) f month mday ++ "Z (".toList ++
        dec 3 f.yday.toNat ++ [')'])⟩ ∧
    ∀ fmt, fmt ≠ .isoMonthDay → fmt ≠ .isoMonthDaySpace → fmt ≠ .isoMonthDayDoy →
      nstime2timestrz t fmt sub = nstime2timestr t fmt sub := by
  refine ⟨?_, ?_, ?_, ?_⟩
  · exact printed_calendar t ht f month mday h .isoMonthDayZ ⟨by decide, by decide⟩ sub
  · exact printed_calendar t ht f month mday h .isoMonthDaySpaceZ ⟨by decide, by decide⟩ sub
  · exact printed_calendar t ht f month mday h .isoMonthDayDoyZ ⟨by decide, by decide⟩ sub
  · intro fmt h1 h2 h3
    unfold nstime2timestrz
    rw [if_neg h1, if_neg h3, if_neg h2]

example : (nstime2timestrz 0 .isoMonthDaySpace .none).text = some "1970-01-01 00:00:00Z".toList ∧
    (nstime2timestrz 0 .seedOrdinal .none).text = some "1970,001,00:00:00".toList := by decide +kernel

/-- **C07.** Every time is printed in every format, with at most 36 characters. -/
theorem C07_length (t : Int) (ht : InInt64 t) (fmt : Format) (sub : Sub) :
    ∃ text, nstime2timestr t fmt sub = ⟨true, some text⟩ ∧ text.length ≤ 36 := by
  have hk := fractionDigits_cases sub t
  by_cases hc : Calendar fmt
  · obtain ⟨f, month, mday, hd⟩ := dated_exists t ht
    refine ⟨_, printed_calendar t ht f month mday hd fmt hc sub, ?_⟩
    rw [shown_length fmt _ f month mday hc]
    cases fmt <;> simp only <;> rcases hk with h | h | h <;> rw [h] <;> decide
  · have hfmt : fmt = .unixEpoch ∨ fmt = .nanosecondEpoch := by
      unfold Calendar at hc
      cases fmt <;> simp at hc ⊢
    rcases hfmt with rfl | rfl
    · exact ⟨_, printed_unix t ht sub, Nat.le_trans (unixText_length _ t hk ht) (by decide)⟩
    · exact ⟨_, printed_nano t ht sub, Nat.le_trans (printD_length t ht) (by decide)⟩

/-- The longest text. -/
example : ((nstime2timestr 1700000000123456789 .isoMonthDayDoyZ .nano).text.map List.length) =
    some 36 := by decide +kernel

/-- **C07 is violated by the program**: with its default format `msi` prints every skipped record's
time into a buffer of 30 bytes, for which the text and the terminating NUL need 31. -/
theorem C07_program_buffer_violated (t : Int) (ht : InInt64 t) :
    ∃ text, nstime2timestr t .isoMonthDayZ .nano = ⟨true, some text⟩ ∧ text.length + 1 = 31 := by
  obtain ⟨f, month, mday, hd⟩ := dated_exists t ht
  have hc : Calendar .isoMonthDayZ := ⟨by decide, by decide⟩
  refine ⟨_, printed_calendar t ht f month mday hd _ hc .nano, ?_⟩
  rw [shown_length _ _ f month mday hc]
  rfl

example : InInt64 1700000000123456789 := by decide

/-- **C07 (the program's buffer, partial).** With the formats chosen by the option `-tf` the 30 bytes
suffice.  Missing: the default format. -/
theorem C07_program_buffer_partial (t : Int) (ht : InInt64 t) (fmt : Format)
    (hf : fmt = .seedOrdinal ∨ fmt = .isoMonthDay ∨ fmt = .unixEpoch) :
    ∃ text, nstime2timestr t fmt .nano = ⟨true, some text⟩ ∧ text.length + 1 ≤ 30 := by
  by_cases hu : fmt = .unixEpoch
  · subst hu
    exact ⟨_, printed_unix t ht .nano,
      Nat.le_trans (Nat.succ_le_succ (unixText_length _ t (fractionDigits_cases _ t) ht)) (by decide)⟩
  · have hc : Calendar fmt := by
      rcases hf with rfl | rfl | rfl
      · exact ⟨by decide, by decide⟩
      · exact ⟨by decide, by decide⟩
      · exact absurd rfl hu
    obtain ⟨f, month, mday, hd⟩ := dated_exists t ht
    refine ⟨_, printed_calendar t ht f month mday hd _ hc .nano, ?_⟩
    rw [shown_length _ _ f month mday hc]
    rcases hf with rfl | rfl | rfl
    · show 17 + 10 + 1 ≤ 30; decide
    · show 19 + 10 + 1 ≤ 30; decide
    · exact absurd rfl hu

example : ((nstime2timestr 1700000000123456789 .isoMonthDay .nano).text.map List.length) =
    some 29 := by decide +kernel

/-- **C08 (seconds since 1970, partial).** For times from 1970 on and up to one second before it the
epoch format prints the seconds with their sign, the digits not asked for being cut off.  Missing:
times within the second before 1970. -/
theorem C08_unix_epoch_partial (t : Int) (ht : InInt64 t) (hs : 0 ≤ t ∨ t ≤ -1000000000) (sub : Sub) :
    nstime2timestr t .unixEpoch sub = ⟨true, some (secondsShown (fractionDigits sub t) t)⟩ := by
  rw [printed_unix t ht]
  have : (if t < 0 ∧ t.natAbs / 1000000000 ≠ 0 then ['-'] else []) =
      (if t < 0 then ['-'] else []) := by
    rcases hs with h | h
    · rw [if_neg (by omega), if_neg (by omega)]
    · rw [if_pos ⟨by omega, by omega⟩, if_pos (by omega)]
  unfold unixText secondsShown
  rw [this, Nat.toList_repr]

example : secondsShown 6 (-1500000999) = "-1.500000".toList := by decide +kernel

/-- **C08 is violated** within the second before 1970: the sign is lost, such a time is printed as the
time as long after 1970. -/
theorem C08_unix_epoch_violated (t : Int) (ht : -1000000000 < t ∧ t < 0) :
    nstime2timestr t .unixEpoch .nano = nstime2timestr (-t) .unixEpoch .nano := by
  rw [printed_unix t (by unfold InInt64; omega), printed_unix (-t) (by unfold InInt64; omega)]
  have e : (-t).natAbs = t.natAbs := Int.natAbs_neg t
  unfold unixText
  rw [e, if_neg (by omega), if_neg (by omega)]
  rfl

example : (nstime2timestr (-500000000) .unixEpoch .nano).text = some "0.500000000".toList := by
  decide +kernel

/-- **C08 (nanoseconds since 1970).** -/
theorem C08_nanosecond_epoch (t : Int) (ht : InInt64 t) (sub : Sub) :
    nstime2timestr t .nanosecondEpoch sub = ⟨true, some (Int.repr t).toList⟩ := by
  rw [printed_nano t ht]
  congr 2
  unfold printD
  cases t with
  | ofNat n =>
    rw [if_neg (by simp)]
    simp [Int.repr, Nat.toList_repr]
  | negSucc n =>
    rw [if_pos (by omega)]
    have : (-(Int.negSucc n)).toNat = n + 1 := by omega
    rw [this]
    simp [Int.repr, Nat.toList_repr]

example : (nstime2timestr (-1) .nanosecondEpoch .none).text = some "-1".toList := by decide +kernel

/-! ## Reading -/

/-- **C79 (month and day).** `ms_timestr2nstime` reads every date written with year, month and day, and
a time of day of which the later parts may be missing, as the instant it denotes. -/
theorem C79_month_day (rnd : Rat → Rat) (hr : Rounding rnd) {ys ms ds clk z : List Char} {a b : Char}
    {y mo d h m s n : Nat} (hy : Numeral ys y) (hm : Numeral ms mo) (hd : Numeral ds d)
    (ha : a = '-' ∨ a = '/') (hb : b = '-' ∨ b = '/')
    (hc : Clock ['T', ' '] [':'] clk h m s n) (hz : Suffix z)
    (hlen : (ys ++ a :: (ms ++ b :: (ds ++ (clk ++ z)))).length ≤ 32)
    (vy : 1678 ≤ y ∧ y ≤ 2262) (vmo : 1 ≤ mo ∧ mo ≤ 12) (vd : 1 ≤ d ∧ (d : Int) ≤ monthLen y mo)
    (vh : h ≤ 23) (vm : m ≤ 59) (vs : s ≤ 60)
    (hi : InInt64 (Fields.instant ⟨y, daysBeforeMonth y mo + d, h, m, s, n⟩)) :
    timestr2nstime rnd (ys ++ a :: (ms ++ b :: (ds ++ (clk ++ z)))) =
      .ok (Fields.instant ⟨y, daysBeforeMonth y mo + d, h, m, s, n⟩) := by
  have h31 := monthLen_le y mo
  have hyl := numeral_long (k := 3) hy (by omega)
  rw [md_choice hy hm hd ha hb hc hz hlen (by omega),
    md_scan hr hy hm hd ha hb hc hz (by omega) (by omega) (by omega) (by omega) (by omega) (by omega)]
  exact mdEnd_ok vy vmo vd vh vm vs (clock_nano hc) hi

/-- The text `2024/2/29 7:05:60.25Z`. -/
example : Clock ['T', ' '] [':'] " 7:05:60.25".toList 7 5 60 250000000 ∧ Suffix ['Z'] ∧
    Numeral "2024".toList 2024 ∧ Numeral "2".toList 2 ∧ Numeral "29".toList 29 :=
  ⟨@Clock.fraction _ _ ' ' ['7'] 7 ':' ['0', '5'] 5 ':' ['6', '0'] 60 ['2', '5'] 25 (by decide)
    ⟨by decide, by decide, by decide⟩ (by decide) ⟨by decide, by decide, by decide⟩ (by decide)
    ⟨by decide, by decide, by decide⟩ ⟨by decide, by decide, by decide⟩ (by decide),
   Or.inr (Or.inl rfl), ⟨by decide, by decide, by decide⟩, ⟨by decide, by decide, by decide⟩,
   ⟨by decide, by decide, by decide⟩⟩
example : timestr2nstime id "2024/2/29 7:05:60.25Z".toList =
    .ok (Fields.instant ⟨2024, 60, 7, 5, 60, 250000000⟩) := by decide +kernel

/-- **C79 (ISO ordinal date).** The same for a year and a day of year separated by a dash. -/
theorem C79_iso_ordinal (rnd : Rat → Rat) (hr : Rounding rnd) {ys ds clk z : List Char}
    {y d h m s n : Nat} (hy : Numeral ys y) (hd : Numeral ds d)
    (hc : Clock ['T', ' '] [':'] clk h m s n) (hz : Suffix z)
    (hlen : (ys ++ '-' :: (ds ++ (clk ++ z))).length ≤ 32)
    (vy : 1678 ≤ y ∧ y ≤ 2262) (vd : 1 ≤ d ∧ (d : Int) ≤ yearLen y)
    (vh : h ≤ 23) (vm : m ≤ 59) (vs : s ≤ 60) (hi : InInt64 (Fields.instant ⟨y, d, h, m, s, n⟩)) :
    timestr2nstime rnd (ys ++ '-' :: (ds ++ (clk ++ z))) =
      .ok (Fields.instant ⟨y, d, h, m, s, n⟩) := by
  have hyl := numeral_long (k := 3) hy (by omega)
  have hyc := yearLen_cases (y : Int)
  rw [seed_choice hy hd (Or.inl rfl) hc hz hlen (by omega),
    seed_scan hr hy hd (Or.inl rfl) hc hz (by omega) (by omega) (by omega) (by omega) (by omega)]
  exact seedEnd_ok vy vd vh vm vs (clock_nano hc) hi

example : timestr2nstime id "2024-366T23".toList = .ok (Fields.instant ⟨2024, 366, 23, 0, 0, 0⟩) := by
  decide +kernel

/-- **C79 (SEED ordinal date).** The same for a year and a day of year separated by a comma; the parts
of the time may be separated by commas too. -/
theorem C79_seed_ordinal (rnd : Rat → Rat) (hr : Rounding rnd) {ys ds clk z : List Char}
    {y d h m s n : Nat} (hy : Numeral ys y) (hd : Numeral ds d)
    (hc : Clock ['T', ' ', ',', ':'] [',', ':'] clk h m s n) (hz : Suffix z)
    (hlen : (ys ++ ',' :: (ds ++ (clk ++ z))).length ≤ 32)
    (vy : 1678 ≤ y ∧ y ≤ 2262) (vd : 1 ≤ d ∧ (d : Int) ≤ yearLen y)
    (vh : h ≤ 23) (vm : m ≤ 59) (vs : s ≤ 60) (hi : InInt64 (Fields.instant ⟨y, d, h, m, s, n⟩)) :
    timestr2nstime rnd (ys ++ ',' :: (ds ++ (clk ++ z))) =
      .ok (Fields.instant ⟨y, d, h, m, s, n⟩) := by
  have hyl := numeral_long (k := 3) hy (by omega)
  have hyc := yearLen_cases (y : Int)
  rw [seed_choice hy hd (Or.inr rfl) hc hz hlen (by omega),
    seed_scan hr hy hd (Or.inr rfl) hc hz (by omega) (by omega) (by omega) (by omega) (by omega)]
  exact seedEnd_ok vy vd vh vm vs (clock_nano hc) hi

example : timestr2nstime id "2024,060,12,30,15.5".toList =
    .ok (Fields.instant ⟨2024, 60, 12, 30, 15, 500000000⟩) := by decide +kernel

/-- **C79 (a year alone).** Four digits are the beginning of that year. -/
theorem C79_year (rnd : Rat → Rat) {ys : List Char} {y : Nat} (hy : Numeral ys y)
    (hl : ys.length = 4) (vy : 1678 ≤ y ∧ y ≤ 2262) :
    timestr2nstime rnd ys = .ok (Fields.instant ⟨y, 1, 0, 0, 0, 0⟩) := by
  rw [year_reads hy hl]
  have hyc := yearLen_cases (y : Int)
  refine seedEnd_ok (d := 1) (h := 0) (m := 0) (s := 0) (n := 0) vy ⟨by omega, by omega⟩ (by omega)
    (by omega) (by omega) (by omega) ?_
  unfold InInt64 Fields.instant
  simp only
  rw [jan1_eq]
  unfold jc
  omega

example : Numeral "2024".toList 2024 ∧ timestr2nstime id "2024".toList = .ok 1704067200000000000 :=
  ⟨⟨by decide, by decide, by decide⟩, by decide +kernel⟩

/-- **C79 (refusals, month and day).** A date or time with a field out of its range is refused. The
fields are such that an `int` holds them: others are undefined behaviour, see
`C79_large_field_violated`.  Missing: day 0, see `C79_day_zero_violated`. -/
theorem C79_refuses_month_day_partial (rnd : Rat → Rat) (hr : Rounding rnd)
    {ys ms ds clk z : List Char} {a b : Char}
    {y mo d h m s n : Nat} (hy : Numeral ys y) (hm : Numeral ms mo) (hd : Numeral ds d)
    (ha : a = '-' ∨ a = '/') (hb : b = '-' ∨ b = '/')
    (hc : Clock ['T', ' '] [':'] clk h m s n) (hz : Suffix z)
    (hlen : (ys ++ a :: (ms ++ b :: (ds ++ (clk ++ z)))).length ≤ 32) (h4 : 4 ≤ ys.length)
    (by' : y < 2 ^ 31) (bmo : mo < 2 ^ 31) (bd : d < 2 ^ 31) (bh : h < 2 ^ 31) (bm : m < 2 ^ 31)
    (bs : s < 2 ^ 31)
    (hbad : ¬ ((1678 ≤ y ∧ y ≤ 2262) ∧ (1 ≤ mo ∧ mo ≤ 12) ∧ (d : Int) ≤ monthLen y mo ∧ h ≤ 23 ∧
      m ≤ 59 ∧ s ≤ 60)) :
    timestr2nstime rnd (ys ++ a :: (ms ++ b :: (ds ++ (clk ++ z)))) = .ok NSTERROR := by
  rw [md_choice hy hm hd ha hb hc hz hlen (by omega), md_scan hr hy hm hd ha hb hc hz by' bmo bd bh bm bs]
  exact mdEnd_bad hbad

example : timestr2nstime id "2023-02-29".toList = .ok NSTERROR ∧
    timestr2nstime id "2023-13-01T00:00".toList = .ok NSTERROR ∧
    timestr2nstime id "2023-12-31T24:00:00Z".toList = .ok NSTERROR := by decide +kernel

/-- **C79 (refusals, ordinal dates).** -/
theorem C79_refuses_ordinal (rnd : Rat → Rat) (hr : Rounding rnd) {ys ds clk z : List Char} {a : Char}
    {y d h m s n : Nat} (hy : Numeral ys y) (hd : Numeral ds d) (ha : a = '-' ∨ a = ',')
    (hc : Clock ['T', ' '] [':'] clk h m s n) (hz : Suffix z)
    (hlen : (ys ++ a :: (ds ++ (clk ++ z))).length ≤ 32) (h4 : 4 ≤ ys.length)
    (by' : y < 2 ^ 31) (bd : d < 2 ^ 31) (bh : h < 2 ^ 31) (bm : m < 2 ^ 31) (bs : s < 2 ^ 31)
    (hbad : ¬ ((1678 ≤ y ∧ y ≤ 2262) ∧ (1 ≤ d ∧ (d : Int) ≤ yearLen y) ∧ h ≤ 23 ∧ m ≤ 59 ∧
      s ≤ 60)) :
    timestr2nstime rnd (ys ++ a :: (ds ++ (clk ++ z))) = .ok NSTERROR := by
  have hc' : Clock (ordinalSeps a) (ordinalDelims a) clk h m s n := by
    unfold ordinalSeps ordinalDelims
    split
    · cases hc with
      | none => exact .none
      | hour h1 h2 => exact .hour (by simp at h1 ⊢; grind) h2
      | minute h1 h2 h3 h4 => exact .minute (by simp at h1 ⊢; grind) h2 (by simp at h3 ⊢; grind) h4
      | second h1 h2 h3 h4 h5 h6 =>
        exact .second (by simp at h1 ⊢; grind) h2 (by simp at h3 ⊢; grind) h4 (by simp at h5 ⊢; grind) h6
      | fraction h1 h2 h3 h4 h5 h6 h7 h8 =>
        exact .fraction (by simp at h1 ⊢; grind) h2 (by simp at h3 ⊢; grind) h4
          (by simp at h5 ⊢; grind) h6 h7 h8
    · exact hc
  rw [seed_choice hy hd ha hc' hz hlen (by omega), seed_scan hr hy hd ha hc' hz by' bd bh bm bs]
  exact seedEnd_bad hbad

example : timestr2nstime id "2023-366".toList = .ok NSTERROR ∧
    timestr2nstime id "2023,000,00:00:00".toList = .ok NSTERROR := by decide +kernel

/-- **C79 is violated for day 0 of a month**: it is read as the last day of the month before. -/
theorem C79_day_zero_violated (rnd : Rat → Rat) (hr : Rounding rnd) :
    timestr2nstime rnd "2024-01-00T00:00:00Z".toList =
      .ok (Fields.instant ⟨2023, 365, 0, 0, 0, 0⟩) := by
  have := rnd_zero hr
  have h := md_scan (rnd := rnd) hr (ys := "2024".toList) (ms := "01".toList) (ds := "00".toList)
    (a := '-') (b := '-') (clk := "T00:00:00".toList) (z := "Z".toList)
    (y := 2024) (mo := 1) (d := 0) (h := 0) (m := 0) (s := 0) (n := 0)
    ⟨by decide, by decide, by decide⟩ ⟨by decide, by decide, by decide⟩
    ⟨by decide, by decide, by decide⟩ (Or.inl rfl) (Or.inl rfl)
    (@Clock.second _ _ 'T' ['0', '0'] 0 ':' ['0', '0'] 0 ':' ['0', '0'] 0 (by decide)
      ⟨by decide, by decide, by decide⟩ (by decide) ⟨by decide, by decide, by decide⟩ (by decide)
      ⟨by decide, by decide, by decide⟩) (Or.inr (Or.inl rfl)) (by decide) (by decide) (by decide)
    (by decide) (by decide) (by decide)
  have e : timestr2nstime rnd "2024-01-00T00:00:00Z".toList =
      mdtimestr2nstime rnd "2024-01-00T00:00:00Z".toList := rfl
  rw [e]
  refine h.trans ?_
  decide +kernel

/-- **C79 is violated for a number that no `int` holds**: reading it is undefined behaviour rather than
a refusal. -/
theorem C79_large_field_violated (rnd : Rat → Rat) :
    timestr2nstime rnd "99999999999-01-01".toList = .ub := rfl

/-- **C79 is violated by an offset from UTC**: the hours of a negative offset are taken for a negative
fraction of a second, whose conversion to an unsigned number is undefined behaviour.  The strings are
not of the documented forms, but neither are they refused. -/
theorem C79_offset_violated (rnd : Rat → Rat) (hr : Rounding rnd) :
    timestr2nstime rnd "2024-01-01T00:00:00-08:00".toList = .ub := by
  have h1 : rnd (-8 : Rat) = -8 := hr.exact (-8) (by decide) (by decide)
  have h2 : rnd ((-8 : Rat) * 1000000000) = -8000000000 := by
    rw [show ((-8 : Rat) * 1000000000) = ((-8000000000 : Int) : Rat) by decide +kernel]
    exact hr.exact (-8000000000) (by decide) (by decide)
  have h3 : rnd (-8000000000 + 1 / 2 : Rat) ≤ -1 := by
    have h4 : rnd (-1 : Rat) = -1 := hr.exact (-1) (by decide) (by decide)
    rw [← h4]
    exact hr.mono _ _ (by decide +kernel)
  have hscan : sscanf rnd mdFormat "2024-01-01T00:00:00-08:00".toList =
      .ok ⟨[2024, 1, 1, 0, 0, 0], some (rnd (-8 : Rat))⟩ := by
    have : scanReal "-08:00".toList = .ok (some (-8, ":00".toList)) := by decide +kernel
    have h5 : sscanf rnd [.real] "-08:00".toList = .ok ⟨[], some (rnd (-8 : Rat))⟩ := by
      unfold sscanf
      rw [this]
      rfl
    unfold mdFormat
    rw [sscanf_int_at (n := 2024) (rest := "-01-01T00:00:00-08:00".toList) (by decide +kernel)
        (by decide),
      sscanf_set_at (rest := "01-01T00:00:00-08:00".toList) (by decide +kernel),
      sscanf_int_at (n := 1) (rest := "-01T00:00:00-08:00".toList) (by decide +kernel) (by decide),
      sscanf_set_at (rest := "01T00:00:00-08:00".toList) (by decide +kernel),
      sscanf_int_at (n := 1) (rest := "T00:00:00-08:00".toList) (by decide +kernel) (by decide),
      sscanf_set_at (rest := "00:00:00-08:00".toList) (by decide +kernel),
      sscanf_int_at (n := 0) (rest := ":00:00-08:00".toList) (by decide +kernel) (by decide),
      sscanf_set_at (rest := "00:00-08:00".toList) (by decide +kernel),
      sscanf_int_at (n := 0) (rest := ":00-08:00".toList) (by decide +kernel) (by decide),
      sscanf_set_at (rest := "00-08:00".toList) (by decide +kernel),
      sscanf_int_at (n := 0) (rest := "-08:00".toList) (by decide +kernel) (by decide), h5]
    rfl
  have e : timestr2nstime rnd "2024-01-01T00:00:00-08:00".toList =
      mdtimestr2nstime rnd "2024-01-01T00:00:00-08:00".toList := rfl
  rw [e]
  unfold mdtimestr2nstime
  rw [hscan]
  simp only [Got.bind, Option.getD_some]
  unfold toNanos
  rw [if_neg (by rw [h1]; decide +kernel)]
  simp only [h1, h2]
  rw [if_pos (Or.inl h3)]

/-- **C79 is violated by the form with commas throughout**, which the documentation of the function
lists: a fraction of a second after a comma is dropped. -/
theorem C79_comma_fraction_violated (rnd : Rat → Rat) :
    timestr2nstime rnd "2024,001,00,00,00,5".toList =
      .ok (Fields.instant ⟨2024, 1, 0, 0, 0, 0⟩) := rfl

/-- **C79 (the text decides).** Whatever the text, the model covers its reading. -/
theorem C79_modelled (rnd : Rat → Rat) (s : List Char) : timestr2nstime rnd s ≠ .outside :=
  timestr_ne rnd s

example : timestr2nstime id "2024-01-01T00:00:00.5e3".toList = .ok NSTERROR := by decide +kernel

/-! ## Seconds since 1970 as text -/

/-- **C80 (partial).** A number of seconds with an optional sign and a fraction of up to nine digits is
read as that time.  Missing: a fraction of a second before 1970 with its sign, and unsigned texts of
four characters. -/
theorem C80_seconds_partial (rnd : Rat → Rat) (hr : Rounding rnd) {sg s fr : List Char} {v n : Nat}
    (hsg : sg = [] ∨ sg = ['+'] ∨ sg = ['-']) (hs : Numeral s v) (hf : Frac fr n)
    (hlen : (sg ++ (s ++ fr)).length ≠ 4 ∨ sg ≠ []) (hneg : sg = ['-'] → v = 0 → n = 0)
    (hi : InInt64 (signed sg (v * 1000000000 + n))) :
    timestr2nstime rnd (sg ++ (s ++ fr)) = .ok (signed sg (v * 1000000000 + n)) :=
  epoch_reads hr hsg hs hf hlen hneg hi

example : Numeral "1700000000".toList 1700000000 ∧ Frac ".25".toList 250000000 ∧
    timestr2nstime id "-1700000000.25".toList = .ok (-1700000000250000000) :=
  ⟨⟨by decide, by decide, by decide⟩,
   Or.inr ⟨['2', '5'], 25, rfl, ⟨by decide, by decide, by decide⟩, by decide, by decide⟩,
   by decide +kernel⟩

/-- **C80 is violated within the second before 1970**: the sign is ignored. -/
theorem C80_sign_violated (rnd : Rat → Rat) {s fr : List Char} {n : Nat} (hs : Numeral s 0)
    (hf : Frac fr n) :
    timestr2nstime rnd ('-' :: (s ++ fr)) = timestr2nstime rnd ('+' :: (s ++ fr)) :=
  epoch_sign hs hf

example : timestr2nstime id "-0.5".toList = .ok 500000000 := by decide +kernel

/-- **C80 is violated by unsigned texts of four characters**: they are refused, or taken for a year. -/
theorem C80_four_characters_violated (rnd : Rat → Rat) :
    timestr2nstime rnd "12.5".toList = .ok NSTERROR ∧
      timestr2nstime rnd "2024".toList ≠ .ok 2024000000000 :=
  ⟨rfl, by rw [show timestr2nstime rnd "2024".toList = .ok 1704067200000000000 from rfl]; decide⟩

/-! ## Reading what was printed -/

/-- **C06 (calendar dates).** The text printed for a time from 1678 on, in a format that is among those
read and with any sub-second option, is read back as the time with the digits not printed cut off. -/
theorem C06_read_back (rnd : Rat → Rat) (hr : Rounding rnd) (t : Int) (ht : InInt64 t)
    (h78 : Fields.instant ⟨1678, 1, 0, 0, 0, 0⟩ ≤ t) (fmt : Format) (hf : Readable fmt) (sub : Sub) :
    ∃ text, nstime2timestr t fmt sub = ⟨true, some text⟩ ∧
      timestr2nstime rnd text = .ok (t - t % (10 ^ (9 - fractionDigits sub t) : Nat)) := by
  obtain ⟨f, month, mday, hd⟩ := dated_exists t ht
  have hc : Calendar fmt := by
    unfold Readable at hf
    constructor <;> (rintro rfl; simp at hf)
  refine ⟨_, printed_calendar t ht f month mday hd fmt hc sub, ?_⟩
  have hk := fractionDigits_cases sub t
  have hlen := shown_length fmt (fractionDigits sub t) f month mday hc
  generalize fractionDigits sub t = k at *
  obtain ⟨hv, hi, hmo, hmd, hdoy⟩ := hd
  have hyr := year_range t ht f hv hi
  have h31 := monthLen_le f.year month
  have hyl := yearLen_cases f.year
  obtain ⟨y, yd, h, m, s, n⟩ := f
  obtain ⟨v1, v2, v3, v4, v5⟩ := hv
  simp only at v1 v2 v3 v4 v5 hyr hmd hdoy h31 hyl
  have hy78 : 1678 ≤ y := by
    have hj : jan1 y = jc y := jan1_eq _
    have hj2 : jan1 1678 = jc 1678 := jan1_eq _
    by_cases h77 : y = 1677
    · subst h77
      have hl : yearLen 1677 = 365 := by decide
      rw [hl] at v1
      unfold Fields.instant at h78 hi
      simp only at h78 hi
      unfold jc at hj hj2
      omega
    · omega
  obtain ⟨y, rfl⟩ : ∃ y' : Nat, y = y' := ⟨y.toNat, by omega⟩
  obtain ⟨yd, rfl⟩ : ∃ y' : Nat, yd = y' := ⟨yd.toNat, by omega⟩
  obtain ⟨h, rfl⟩ : ∃ y' : Nat, h = y' := ⟨h.toNat, by omega⟩
  obtain ⟨m, rfl⟩ : ∃ y' : Nat, m = y' := ⟨m.toNat, by omega⟩
  obtain ⟨s, rfl⟩ : ∃ y' : Nat, s = y' := ⟨s.toNat, by omega⟩
  obtain ⟨n, rfl⟩ : ∃ y' : Nat, n = y' := ⟨n.toNat, by omega⟩
  obtain ⟨month, rfl⟩ : ∃ y' : Nat, month = y' := ⟨month.toNat, by omega⟩
  obtain ⟨mday, rfl⟩ : ∃ y' : Nat, mday = y' := ⟨mday.toNat, by omega⟩
  have hcut : ∀ z : Int, Fields.instant ⟨y, z, h, m, s,
      ((if k = 0 then 0 else n / 10 ^ (9 - k) * 10 ^ (9 - k) : Nat) : Int)⟩ =
        Fields.instant ⟨y, z, h, m, s, n⟩ - Fields.instant ⟨y, z, h, m, s, n⟩ % (10 ^ (9 - k) : Nat) := by
    intro z
    unfold Fields.instant
    simp only
    rcases hk with rfl | rfl | rfl
    · simp; omega
    · simp only [if_neg (show ¬ (6 = 0) by omega)]; omega
    · simp only [if_neg (show ¬ (9 = 0) by omega)]; omega
  have hin : ∀ z : Int, Fields.instant ⟨y, z, h, m, s, n⟩ = t → InInt64 (Fields.instant ⟨y, z, h, m, s,
      ((if k = 0 then 0 else n / 10 ^ (9 - k) * 10 ^ (9 - k) : Nat) : Int)⟩) := by
    intro z hz
    rw [hcut, hz]
    unfold InInt64 at ht ⊢
    have h0 : (Fields.instant ⟨1678, 1, 0, 0, 0, 0⟩) = -9214560000000000000 := by decide +kernel
    rw [h0] at h78
    rcases hk with rfl | rfl | rfl <;> simp <;> omega
  have nY := dec_numeral 4 y (by omega) (by omega)
  have nD := dec_numeral 3 yd (by omega) (by omega)
  have nM := dec_numeral 2 month (by omega) (by omega)
  have nd := dec_numeral 2 mday (by omega) (by omega)
  have md : ∀ (sep : Char) (z : List Char), sep ∈ ['T', ' '] → Suffix z →
      timestr2nstime rnd (date y month mday ++ sep :: (clock h m s ++ fraction k n) ++ z) =
        .ok (t - t % (10 ^ (9 - k) : Nat)) := by
    intro sep z hsep hz
    have hclk := clock_shown (delims := [':']) hsep (by simp) k h m s n hk (by omega) (by omega)
      (by omega) (by omega)
    have hzl : z.length ≤ 1 := by rcases hz with rfl | rfl | rfl <;> simp
    have e : date y month mday ++ sep :: (clock h m s ++ fraction k n) ++ z =
        dec 4 y ++ '-' :: (dec 2 month ++ '-' :: (dec 2 mday ++
          ((sep :: (clock h m s ++ fraction k n)) ++ z))) := by
      unfold date
      simp
    rw [e, C79_month_day rnd hr nY nM nd (Or.inl rfl) (Or.inl rfl) hclk hz ?_ (by omega) (by omega)
      (by omega) (by omega) (by omega) (by omega) ?_]
    · rw [← hdoy, hcut, hi]
    · simp only [List.length_append, List.length_cons, dec_length, fraction_length, clock]
      rcases hk with rfl | rfl | rfl <;> simp <;> omega
    · rw [← hdoy]
      exact hin _ hi
  rcases hf with rfl | rfl | rfl | rfl | rfl
  · have := md 'T' [] (by simp) (Or.inl rfl)
    rw [List.append_nil] at this
    exact this
  · exact md 'T' ['Z'] (by simp) (Or.inr (Or.inl rfl))
  · have := md ' ' [] (by simp) (Or.inl rfl)
    rw [List.append_nil] at this
    exact this
  · exact md ' ' ['Z'] (by simp) (Or.inr (Or.inl rfl))
  · have hclk := clock_shown (seps := ['T', ' ', ',', ':']) (delims := [',', ':']) (sep := ',')
      (by simp) (by simp) k h m s n hk (by omega) (by omega) (by omega) (by omega)
    have e : shown .seedOrdinal k ⟨y, yd, h, m, s, n⟩ month mday =
        dec 4 y ++ ',' :: (dec 3 yd ++ ((',' :: (clock h m s ++ fraction k n)) ++ [])) := by
      unfold shown
      simp
    rw [e, C79_seed_ordinal rnd hr nY nD hclk (Or.inl rfl) ?_ (by omega) (by omega) (by omega)
      (by omega) (by omega) ?_]
    · rw [hcut, hi]
    · simp only [List.length_append, List.length_cons, dec_length, fraction_length, clock]
      rcases hk with rfl | rfl | rfl <;> simp
    · exact hin _ hi

/-- A time before 1970 and the format of `msi`. -/
example : Fields.instant ⟨1678, 1, 0, 0, 0, 0⟩ ≤ (-1234567890123456789) ∧ Readable .isoMonthDayZ ∧
    (nstime2timestr (-1234567890123456789) .isoMonthDayZ .nano).text =
      some "1930-11-18T00:28:29.876543211Z".toList :=
  ⟨by decide +kernel, by simp [Readable], by decide +kernel⟩

/-- **C06 (exactly).** With nine digits the very time is read back. -/
theorem C06_read_back_exact (rnd : Rat → Rat) (hr : Rounding rnd) (t : Int) (ht : InInt64 t)
    (h78 : Fields.instant ⟨1678, 1, 0, 0, 0, 0⟩ ≤ t) (fmt : Format) (hf : Readable fmt) :
    ∃ text, nstime2timestr t fmt .nano = ⟨true, some text⟩ ∧ timestr2nstime rnd text = .ok t := by
  obtain ⟨text, h1, h2⟩ := C06_read_back rnd hr t ht h78 fmt hf .nano
  refine ⟨text, h1, ?_⟩
  rw [h2]
  simp [fractionDigits]

example : timestr2nstime id "1930-11-18T00:28:29.876543211Z".toList = .ok (-1234567890123456789) := by
  decide +kernel

/-- **C81 is violated in 1677**: the times of the year in which the range of 64-bit times begins are
printed but not read. -/
theorem C81_first_year_violated (rnd : Rat → Rat) :
    (nstime2timestr (-9223372036854775806) .isoMonthDayZ .none).text =
      some "1677-09-21T00:12:43Z".toList ∧
    timestr2nstime rnd "1677-09-21T00:12:43Z".toList = .ok NSTERROR :=
  ⟨by decide +kernel, rfl⟩

/-- **C81 is violated by the formats with the day of the year in parentheses**: no such text is read. -/
theorem C81_day_of_year_violated (rnd : Rat → Rat) (t : Int) (ht : InInt64 t) (fmt : Format)
    (hf : fmt = .isoMonthDayDoy ∨ fmt = .isoMonthDayDoyZ) (sub : Sub) :
    ∃ text, nstime2timestr t fmt sub = ⟨true, some text⟩ ∧
      timestr2nstime rnd text = .ok NSTERROR := by
  obtain ⟨f, month, mday, hd⟩ := dated_exists t ht
  have hc : Calendar fmt := by
    constructor <;> (rintro rfl; simp at hf)
  refine ⟨_, printed_calendar t ht f month mday hd fmt hc sub, paren_refused ?_⟩
  rcases hf with rfl | rfl <;> simp [shown]

example : (nstime2timestr 0 .isoMonthDayDoy .none).text = some "1970-01-01T00:00:00 (001)".toList := by
  decide +kernel

/-- **C81 (seconds since 1970, partial).** Epoch texts are read back likewise, cut towards 1970.
Missing: times within the second before 1970, and texts of four digits. -/
theorem C81_unix_epoch_partial (rnd : Rat → Rat) (hr : Rounding rnd) (t : Int) (ht : InInt64 t)
    (sub : Sub) (hs : 0 ≤ t ∨ t ≤ -1000000000)
    (h4 : t < 1000000000000 ∨ 10000000000000 ≤ t ∨ fractionDigits sub t ≠ 0) :
    ∃ text, nstime2timestr t .unixEpoch sub = ⟨true, some text⟩ ∧
      timestr2nstime rnd text =
        .ok (Int.tdiv t (10 ^ (9 - fractionDigits sub t) : Nat) * (10 ^ (9 - fractionDigits sub t) : Nat)) := by
  refine ⟨_, printed_unix t ht sub, ?_⟩
  have hk := fractionDigits_cases sub t
  generalize fractionDigits sub t = k at *
  have hf := fraction_frac k (t.natAbs % 1000000000) hk (by omega)
  have hn := numeral_toDigits (t.natAbs / 1000000000)
  have hval : signed (if t < 0 then ['-'] else []) ((t.natAbs / 1000000000 : Nat) * 1000000000 +
      ((if k = 0 then 0 else t.natAbs % 1000000000 / 10 ^ (9 - k) * 10 ^ (9 - k) : Nat) : Int)) =
      Int.tdiv t (10 ^ (9 - k) : Nat) * (10 ^ (9 - k) : Nat) := by
    have hp : t = if t < 0 then -(t.natAbs : Int) else t.natAbs := by split <;> omega
    generalize t.natAbs = a at *
    by_cases hneg : t < 0
    · rw [if_pos hneg] at hp
      rw [hp, Int.neg_tdiv, ← Int.ofNat_tdiv, if_pos (by omega)]
      unfold signed
      rw [if_pos rfl]
      rcases hk with rfl | rfl | rfl
      · simp
        omega
      · rw [if_neg (show ¬ (6 = 0) by omega)]
        simp
        omega
      · rw [if_neg (show ¬ (9 = 0) by omega)]
        simp
        omega
    · rw [if_neg hneg] at hp
      rw [hp, ← Int.ofNat_tdiv, if_neg (by omega)]
      unfold signed
      rw [if_neg (by simp)]
      rcases hk with rfl | rfl | rfl
      · simp
      · rw [if_neg (show ¬ (6 = 0) by omega)]
        simp
        omega
      · rw [if_neg (show ¬ (9 = 0) by omega)]
        simp
        omega
  have e : unixText k t = (if t < 0 then ['-'] else []) ++
      (Nat.toDigits 10 (t.natAbs / 1000000000) ++ fraction k (t.natAbs % 1000000000)) := by
    have : (if t < 0 ∧ t.natAbs / 1000000000 ≠ 0 then ['-'] else []) =
        (if t < 0 then ['-'] else []) := by
      rcases hs with h | h
      · rw [if_neg (by omega), if_neg (by omega)]
      · rw [if_pos ⟨by omega, by omega⟩, if_pos (by omega)]
    unfold unixText
    rw [this, List.append_assoc]
  rw [e, C80_seconds_partial rnd hr (v := t.natAbs / 1000000000) ?_ hn hf ?_ ?_ ?_, hval]
  · split
    · exact Or.inr (Or.inr rfl)
    · exact Or.inl rfl
  · by_cases hneg : t < 0
    · right
      rw [if_pos hneg]
      simp
    · left
      rw [if_neg hneg, List.nil_append, List.length_append, fraction_length]
      have l3 := Nat.length_toDigits_le_iff (b := 10) (n := t.natAbs / 1000000000) (k := 3) (by omega)
        (by omega)
      have l4 := Nat.length_toDigits_le_iff (b := 10) (n := t.natAbs / 1000000000) (k := 4) (by omega)
        (by omega)
      rcases hk with rfl | rfl | rfl
      · rw [if_pos rfl]
        omega
      · rw [if_neg (show ¬ (6 = 0) by omega)]
        omega
      · rw [if_neg (show ¬ (9 = 0) by omega)]
        omega
  · intro hm hv
    exfalso
    split at hm
    · omega
    · cases hm
  · rw [hval]
    unfold InInt64 at ht ⊢
    by_cases h0 : 0 ≤ t
    · rw [tdiv_nonneg_eq _ _ h0]
      rcases hk with rfl | rfl | rfl <;> simp <;> omega
    · have : t = -(t.natAbs : Int) := by omega
      rw [this, Int.neg_tdiv, tdiv_nonneg_eq _ _ (by omega)]
      rcases hk with rfl | rfl | rfl <;> simp <;> omega

example : (nstime2timestr (-1500000999) .unixEpoch .micro).text = some "-1.500000".toList ∧
    timestr2nstime id "-1.500000".toList = .ok (-1500000000) := by decide +kernel

/-- **C81 is violated** for epoch texts of four digits, which are taken for a year, and within the
second before 1970, where the sign is lost in printing. -/
theorem C81_unix_epoch_violated (rnd : Rat → Rat) (hr : Rounding rnd) :
    (∃ text, nstime2timestr 2024000000000 .unixEpoch .none = ⟨true, some text⟩ ∧
      timestr2nstime rnd text = .ok (Fields.instant ⟨2024, 1, 0, 0, 0, 0⟩)) ∧
    (∃ text, nstime2timestr (-500000000) .unixEpoch .nano = ⟨true, some text⟩ ∧
      timestr2nstime rnd text = .ok 500000000) := by
  refine ⟨⟨"2024".toList, by decide +kernel, ?_⟩, ⟨"0.500000000".toList, by decide +kernel, ?_⟩⟩
  · exact C79_year rnd (y := 2024) ⟨by decide, by decide, by decide⟩ rfl (by decide)
  · exact C80_seconds_partial rnd hr (sg := []) (s := ['0']) (v := 0) (n := 500000000)
      (fr := ".500000000".toList) (Or.inl rfl) ⟨by decide, by decide, by decide⟩
      (Or.inr ⟨"500000000".toList, 500000000, rfl, ⟨by decide, by decide, by decide⟩, by decide,
        by decide⟩) (by decide) (by decide) (by decide)

/-- **C81 is violated by nanoseconds since 1970**: the text is taken for seconds, and the conversion
overflows, for every time more than ten seconds from 1970. -/
theorem C81_nanosecond_epoch_violated (rnd : Rat → Rat) (t : Int) (ht : InInt64 t)
    (hb : 10000000000 ≤ t) (sub : Sub) :
    ∃ text, nstime2timestr t .nanosecondEpoch sub = ⟨true, some text⟩ ∧
      timestr2nstime rnd text = .ub := by
  refine ⟨_, printed_nano t ht sub, ?_⟩
  obtain ⟨n, rfl⟩ : ∃ n : Nat, t = n := ⟨t.toNat, by omega⟩
  have hn := numeral_toDigits n
  have e : printD (n : Int) = Nat.toDigits 10 n := by
    unfold printD
    rw [if_neg (by omega), Int.toNat_natCast]
  have l4 := Nat.length_toDigits_le_iff (b := 10) (n := n) (k := 4) (by omega) (by omega)
  unfold InInt64 at ht
  have hw := walk_epoch (sg := []) (fr := []) (Or.inl rfl) hn (Or.inl ⟨rfl, rfl⟩)
  have hsc := scanInt_numeral hn (rest := []) stops_nil
  simp only [List.append_nil, List.nil_append] at hw hsc
  have hlt : n < 2 ^ 63 := by omega
  have hsel : timestr2nstime rnd (Nat.toDigits 10 n) = epoch rnd (Nat.toDigits 10 n) := by
    unfold timestr2nstime
    simp only
    rw [if_pos ⟨hw.1, by rw [hw.2.1, hw.2.2], Or.inl (by rw [hw.2.1]; omega)⟩]
  have hscan : sscanf rnd epochFormat (Nat.toDigits 10 n) = .ok ⟨[(n : Int)], none⟩ := by
    unfold epochFormat
    rw [sscanf_int_at hsc ⟨by omega, by omega⟩]
    rfl
  rw [e, hsel]
  exact epoch_over hscan (nanos_over n (by omega))

example : InInt64 1700000000123456789 ∧ 10000000000 ≤ 1700000000123456789 := by decide

end Verif.Props.TimeStr
