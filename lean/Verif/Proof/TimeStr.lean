import Verif.Props.TimeStrDefs
import Verif.Proof.Calendar
/-! Helper lemmas for printing time strings. -/
namespace Verif.Proof.TimeStr
open Verif.Spec Verif.Spec.TimeStr Verif.Model Verif.Model.TimeStr Verif.Props.TimeStr Verif.Proof

theorem digitChar_digit (d : Nat) (h : d < 10) : Nat.digitChar d = digit d := by
  have : ∀ d : Fin 10, Nat.digitChar d.1 = digit d.1 := by decide +kernel
  exact this ⟨d, h⟩

theorem digit_toNat (d : Nat) (h : d < 10) : (digit d).toNat = 48 + d := by
  have : ∀ d : Fin 10, (digit d.1).toNat = 48 + d.1 := by decide +kernel
  exact this ⟨d, h⟩

theorem dec_length (w : Nat) : ∀ n, (dec w n).length = w := by
  induction w with
  | zero => intro n; rfl
  | succ w ih => intro n; simp [dec, ih]

theorem dec_digits (w : Nat) : ∀ n, ∀ c ∈ dec w n, Digit c := by
  induction w with
  | zero => intro n c hc; simp [dec] at hc
  | succ w ih =>
    intro n c hc
    simp only [dec, List.mem_append, List.mem_singleton] at hc
    rcases hc with hc | rfl
    · exact ih _ c hc
    · unfold Digit
      rw [digit_toNat _ (by omega)]
      omega

theorem value_append (a : List Char) (c : Char) : value (a ++ [c]) = value a * 10 + (c.toNat - 48) := by
  simp [value, List.foldl_append]

theorem dec_value (w : Nat) : ∀ n, n < 10 ^ w → value (dec w n) = n := by
  induction w with
  | zero => intro n h; simp only [Nat.pow_zero] at h; have : n = 0 := by omega
            subst this; rfl
  | succ w ih =>
    intro n h
    rw [Nat.pow_succ] at h
    simp only [dec]
    rw [value_append, ih _ (by omega), digit_toNat _ (by omega)]
    omega

theorem dec_numeral (w n : Nat) (hw : 0 < w) (h : n < 10 ^ w) : Numeral (dec w n) n := by
  refine ⟨?_, dec_digits w n, dec_value w n h⟩
  intro he
  have := dec_length w n
  rw [he] at this
  simp at this
  omega

theorem dec_zero (w : Nat) : dec w 0 = List.replicate w '0' := by
  induction w with
  | zero => rfl
  | succ w ih =>
    simp only [dec]
    rw [show 0 / 10 = 0 from rfl, ih, List.replicate_succ']
    rfl

theorem toDigits_dec (w : Nat) : ∀ n, 0 < w → n < 10 ^ w →
    List.replicate (w - (Nat.toDigits 10 n).length) '0' ++ Nat.toDigits 10 n = dec w n := by
  induction w with
  | zero => intro n h; omega
  | succ w ih =>
    intro n _ h
    rw [Nat.pow_succ] at h
    by_cases h10 : n < 10
    · rw [Nat.toDigits_of_lt_base h10]
      simp only [dec]
      rw [Nat.div_eq_of_lt h10, dec_zero, Nat.mod_eq_of_lt h10, digitChar_digit n h10]
      simp
    · have hw : 0 < w := by
        rcases Nat.eq_zero_or_pos w with hw | hw
        · subst hw; simp at h; omega
        · exact hw
      rw [Nat.toDigits_of_base_le (by omega) (by omega)]
      simp only [dec]
      rw [← ih (n / 10) hw (by omega), digitChar_digit _ (by omega)]
      simp only [List.length_append, List.length_singleton, Nat.add_sub_add_right, List.append_assoc]

theorem print0_dec (w : Nat) (n : Int) (hw : 0 < w) (h0 : 0 ≤ n) (h : n.toNat < 10 ^ w) :
    print0 w n = dec w n.toNat := by
  unfold print0
  rw [if_neg (by omega)]
  exact toDigits_dec w _ hw h

theorem toDigits_four (n : Nat) (h : 1000 ≤ n) (h' : n < 10000) :
    (Nat.toDigits 10 n).length = 4 := by
  have a := (Nat.length_toDigits_le_iff (b := 10) (n := n) (k := 4) (by omega) (by omega)).2 (by omega)
  have b := mt (Nat.length_toDigits_le_iff (b := 10) (n := n) (k := 3) (by omega) (by omega)).1
    (by omega)
  omega

theorem printW_dec (n : Int) (h : 1000 ≤ n) (h' : n < 10000) : printW 4 n = dec 4 n.toNat := by
  have hl := toDigits_four n.toNat (by omega) (by omega)
  unfold printW printD
  rw [if_neg (by omega), hl]
  have := toDigits_dec 4 n.toNat (by omega) (by omega)
  rw [hl] at this
  simpa using this

/-- The fraction of a second printed. -/
theorem resolution_eq (sub : Sub) (t : Int) :
    resolution sub (t % 1000000000) (t % 1000000000 / 1000)
      (t % 1000000000 - t % 1000000000 / 1000 * 1000) = some (fractionDigits sub t) := by
  unfold resolution fractionDigits
  have h1 : (t % 1000000000 - t % 1000000000 / 1000 * 1000 = 0) ↔ t % 1000 = 0 := by omega
  have h2 : t % 1000000000 = 0 → t % 1000 = 0 := by omega
  cases sub <;> simp [h1] <;> grind

theorem year_range (t : Int) (ht : InInt64 t) (f : Fields) (hf : f.Valid) (hi : f.instant = t) :
    1677 ≤ f.year ∧ f.year ≤ 2262 := by
  obtain ⟨⟨a, a'⟩, b, c, d, e⟩ := hf
  unfold Fields.instant at hi
  unfold InInt64 at ht
  have hj : jan1 f.year = jc f.year := jan1_eq _
  have hy := yearLen_cases f.year
  unfold jc at hj
  omega

theorem dated_tm (t : Int) (ht : InInt64 t) (f : Fields) (month mday : Int)
    (h : Dated t f month mday) :
    ∃ tm, gmtime64 (t / 1000000000) = some tm ∧ tm.year + 1900 = f.year ∧ tm.yday + 1 = f.yday ∧
      tm.hour = f.hour ∧ tm.min = f.min ∧ tm.sec = f.sec ∧ tm.mon + 1 = month ∧ tm.mday = mday ∧
      f.nsec = t % 1000000000 := by
  obtain ⟨hf, hi, ⟨hm1, hm2⟩, ⟨hd1, hd2⟩, hyd⟩ := h
  unfold InInt64 at ht
  obtain ⟨tm, htm⟩ := gmtime64_some (t / 1000000000) (by omega)
  obtain ⟨hsum, s0, s1, m0, m1, k0, k1, y0, y1, mo0, mo1, md0, md1, hy, _⟩ := gmtime64_spec _ _ htm
  have hv : Fields.Valid ⟨tm.year + 1900, tm.yday + 1, tm.hour, tm.min, tm.sec, t % 1000000000⟩ :=
    ⟨⟨by simp only; omega, by simp only; omega⟩, ⟨k0, k1⟩, ⟨m0, m1⟩, ⟨s0, s1⟩,
      ⟨by simp only; omega, by simp only; omega⟩⟩
  have hinst : Fields.instant ⟨tm.year + 1900, tm.yday + 1, tm.hour, tm.min, tm.sec,
      t % 1000000000⟩ = t := by
    unfold Fields.instant
    simp only
    have : (((jan1 (tm.year + 1900) + (tm.yday + 1 - 1)) * 24 + tm.hour) * 60 + tm.min) * 60 + tm.sec
        = t / 1000000000 := by rw [← hsum]; omega
    rw [this]; omega
  have he := instant_inj _ _ hf hv (hi.trans hinst.symm)
  subst he
  simp only at hd2 hyd
  rw [monthLen_eqB] at hd2 md1
  rw [daysBefore_eqB] at hyd hy
  have := daysBeforeB_inj _ _ _ _ _ (by omega) (by omega) hm1 hm2 md0 md1 hd1 hd2 (hy.symm.trans hyd)
  exact ⟨tm, htm, rfl, rfl, rfl, rfl, rfl, this.1, this.2, rfl⟩

theorem shown_length (fmt : Format) (k : Nat) (f : Fields) (month mday : Int) (hc : Calendar fmt) :
    (shown fmt k f month mday).length =
      (match fmt with
        | .isoMonthDay => 19 | .isoMonthDayZ => 20 | .isoMonthDaySpace => 19
        | .isoMonthDaySpaceZ => 20 | .isoMonthDayDoy => 25 | .isoMonthDayDoyZ => 26
        | .seedOrdinal => 17 | .unixEpoch => 0 | .nanosecondEpoch => 0) +
      (if k = 0 then 0 else k + 1) := by
  have hfr : ∀ n, (fraction k n).length = if k = 0 then 0 else k + 1 := by
    intro n
    unfold fraction
    split
    · rfl
    · simp [dec_length]
  cases fmt <;>
    simp [shown, date, clock, dec_length, hfr] <;> first | omega | (exfalso; revert hc; simp [Calendar])

theorem formatted_shown (fmt : Format) (hc : Calendar fmt) (k : Nat) (hk : k = 0 ∨ k = 6 ∨ k = 9)
    (tm : Tm) (f : Fields) (month mday nstime rawisec fr raw : Int)
    (hf : f.Valid) (hy : 1677 ≤ f.year ∧ f.year ≤ 2262)
    (hmo : 1 ≤ month ∧ month ≤ 12) (hmd : 1 ≤ mday ∧ mday ≤ 31)
    (e1 : tm.year + 1900 = f.year) (e2 : tm.yday + 1 = f.yday) (e3 : tm.hour = f.hour)
    (e4 : tm.min = f.min) (e5 : tm.sec = f.sec) (e6 : tm.mon + 1 = month) (e7 : tm.mday = mday)
    (hfr : k ≠ 0 → fr.toNat = f.nsec.toNat / 10 ^ (9 - k)) (hfr0 : 0 ≤ fr)
    (hfr1 : fr.toNat < 10 ^ k) :
    formatted fmt k tm nstime rawisec fr raw =
      (((shown fmt k f month mday).length : Int), shown fmt k f month mday) := by
  obtain ⟨⟨a, a'⟩, ⟨b, b'⟩, ⟨c, c'⟩, ⟨d, d'⟩, ⟨e, e'⟩⟩ := hf
  have hyl := yearLen_cases f.year
  have hfrac : (if k = 0 then [] else '.' :: print0 k fr) = fraction k f.nsec.toNat := by
    unfold fraction
    split
    · rfl
    · rename_i hk0
      rw [print0_dec k fr (by omega) hfr0 hfr1, hfr hk0]
  have hext : (if k = 0 then (0 : Int) else k + 1) = ((if k = 0 then 0 else k + 1 : Nat) : Int) := by
    split <;> simp
  rw [shown_length fmt k f month mday hc]
  unfold formatted
  simp only [hfrac, hext]
  have p1 := printW_dec f.year (by omega) (by omega)
  have p2 := print0_dec 2 f.hour (by omega) (by omega) (by omega)
  have p3 := print0_dec 2 f.min (by omega) (by omega) (by omega)
  have p4 := print0_dec 2 f.sec (by omega) (by omega) (by omega)
  have p5 := print0_dec 2 month (by omega) (by omega) (by omega)
  have p6 := print0_dec 2 mday (by omega) (by omega) (by omega)
  have p7 := print0_dec 3 f.yday (by omega) (by omega) (by omega)
  cases fmt
  case unixEpoch => exact absurd rfl hc.1
  case nanosecondEpoch => exact absurd rfl hc.2
  all_goals
    refine Prod.ext (by simp only [Int.natCast_add]; rfl) ?_
    simp only [isoText, doyText, seedText, shown, date, clock, e1, e2, e3, e4, e5, e6, e7, p1, p2, p3,
      p4, p5, p6, p7]
    simp

theorem printed_calendar (t : Int) (ht : InInt64 t) (f : Fields) (month mday : Int)
    (h : Dated t f month mday) (fmt : Format) (hc : Calendar fmt) (sub : Sub) :
    nstime2timestr t fmt sub = ⟨true, some (shown fmt (fractionDigits sub t) f month mday)⟩ := by
  obtain ⟨tm, htm, e1, e2, e3, e4, e5, e6, e7, e8⟩ := dated_tm t ht f month mday h
  obtain ⟨hf, hi, hm, hd, hyd⟩ := h
  have hy := year_range t ht f hf hi
  have hml : monthLen f.year month ≤ 31 := by
    unfold monthLen
    split <;> (try split) <;> (try split) <;> omega
  obtain ⟨s1, s2⟩ := splitNs_spec t
  have hn : needsDate fmt = true := by
    cases fmt <;> first | rfl | exact absurd rfl hc.1 | exact absurd rfl hc.2
  have hdiv : Int.tdiv (t % 1000000000) 1000 = t % 1000000000 / 1000 :=
    tdiv_nonneg_eq _ _ (by omega)
  have hwrite : ∀ x : List Char, x ≠ [] → write ((x.length : Int), x) = ⟨true, some x⟩ := by
    intro x hx
    have hpos : 0 < x.length := List.length_pos_iff.2 hx
    unfold write
    simp only
    rw [if_neg (by omega)]
    have h1 : ((x.length : Int) + 1).toNat - 1 = x.length := by omega
    rw [h1, List.take_length]
    have h2 : decide ((x.length : Int) = 0) = false := decide_eq_false (by omega)
    rw [h2]
    simp
  have hne : ∀ k, shown fmt k f month mday ≠ [] := by
    intro k he
    have hl := shown_length fmt k f month mday hc
    rw [he] at hl
    revert hl
    cases fmt
    case unixEpoch => exact absurd rfl hc.1
    case nanosecondEpoch => exact absurd rfl hc.2
    all_goals simp only [List.length_nil]; omega
  unfold nstime2timestr
  simp only [s1, s2, hn, if_true, htm, hdiv, resolution_eq]
  have hk : fractionDigits sub t = 0 ∨ fractionDigits sub t = 6 ∨ fractionDigits sub t = 9 := by
    unfold fractionDigits
    cases sub <;> simp <;> grind
  rcases hk with hk | hk | hk
  · rw [hk]
    simp only
    rw [formatted_shown fmt hc 0 (by omega) tm f month mday _ _ _ _ hf hy hm (by omega) e1 e2 e3 e4 e5
      e6 e7 (by omega) (by omega) (by simp)]
    exact hwrite _ (hne 0)
  · rw [hk]
    simp only
    rw [formatted_shown fmt hc 6 (by omega) tm f month mday _ _ _ _ hf hy hm (by omega) e1 e2 e3 e4 e5
      e6 e7 (by intro _; simp only [e8]; omega) (by omega) (by omega)]
    exact hwrite _ (hne 6)
  · rw [hk]
    simp only
    rw [formatted_shown fmt hc 9 (by omega) tm f month mday _ _ _ _ hf hy hm (by omega) e1 e2 e3 e4 e5
      e6 e7 (by intro _; simp only [e8]; omega) (by omega) (by omega)]
    exact hwrite _ (hne 9)

/-- The text of the number of seconds, as the code writes it. -/
def unixText (k : Nat) (t : Int) : List Char :=
  (if t < 0 ∧ t.natAbs / 1000000000 ≠ 0 then ['-'] else []) ++
    Nat.toDigits 10 (t.natAbs / 1000000000) ++ fraction k (t.natAbs % 1000000000)

theorem fractionDigits_cases (sub : Sub) (t : Int) :
    fractionDigits sub t = 0 ∨ fractionDigits sub t = 6 ∨ fractionDigits sub t = 9 := by
  unfold fractionDigits
  cases sub <;> simp <;> grind

theorem fraction_length (k n : Nat) : (fraction k n).length = if k = 0 then 0 else k + 1 := by
  unfold fraction
  split
  · rfl
  · simp [dec_length]

theorem unixText_length (k : Nat) (t : Int) (hk : k = 0 ∨ k = 6 ∨ k = 9) (ht : InInt64 t) :
    (unixText k t).length ≤ 21 := by
  unfold InInt64 at ht
  unfold unixText
  rw [List.length_append, List.length_append, fraction_length]
  have h1 : (if t < 0 ∧ t.natAbs / 1000000000 ≠ 0 then ['-'] else []).length ≤ 1 := by
    split <;> simp
  have h2 := (Nat.length_toDigits_le_iff (b := 10) (n := t.natAbs / 1000000000) (k := 10) (by omega)
    (by omega)).2 (by omega)
  have h3 : (if k = 0 then 0 else k + 1) ≤ 10 := by
    rcases hk with h | h | h <;> subst h <;> decide
  omega

theorem printed_unix (t : Int) (ht : InInt64 t) (sub : Sub) :
    nstime2timestr t .unixEpoch sub = ⟨true, some (unixText (fractionDigits sub t) t)⟩ := by
  obtain ⟨s1, s2⟩ := splitNs_spec t
  have hdiv : Int.tdiv (t % 1000000000) 1000 = t % 1000000000 / 1000 :=
    tdiv_nonneg_eq _ _ (by omega)
  have hk := fractionDigits_cases sub t
  have hlen := unixText_length (fractionDigits sub t) t hk ht
  have hsec : Int.tdiv t NSTMODULUS =
      if t < 0 then -((t.natAbs / 1000000000 : Nat) : Int) else (t.natAbs / 1000000000 : Nat) := by
    unfold NSTMODULUS
    by_cases h : t < 0
    · rw [if_pos h, tdiv_neg_eq _ _ h]
      omega
    · rw [if_neg h, tdiv_nonneg_eq _ _ (by omega)]
      omega
  have hraw : (if t < 0 ∧ t - Int.tdiv t NSTMODULUS * NSTMODULUS ≠ 0 then
      (t - Int.tdiv t NSTMODULUS * NSTMODULUS) * -1 else t - Int.tdiv t NSTMODULUS * NSTMODULUS) =
      (t.natAbs % 1000000000 : Nat) := by
    rw [hsec]
    unfold NSTMODULUS
    by_cases h : t < 0
    · rw [if_pos h]
      split <;> omega
    · rw [if_neg h]
      split <;> omega
  have hpd : printD (Int.tdiv t NSTMODULUS) =
      (if t < 0 ∧ t.natAbs / 1000000000 ≠ 0 then ['-'] else []) ++
        Nat.toDigits 10 (t.natAbs / 1000000000) := by
    rw [hsec]
    unfold printD
    by_cases h : t < 0
    · rw [if_pos h]
      by_cases h0 : t.natAbs / 1000000000 = 0
      · rw [h0]; simp
      · rw [if_pos (by omega), if_pos ⟨h, h0⟩]
        rw [Int.neg_neg, Int.toNat_natCast]
        rfl
    · rw [if_neg h, if_neg (by omega), if_neg (by omega), Int.toNat_natCast]
      rfl
  have hwr : ∀ x : List Char, x.length ≤ 21 → write (-1, x) = ⟨true, some x⟩ := by
    intro x hx
    unfold write
    simp only
    rw [if_pos (by omega), List.take_of_length_le (by omega)]
    simp
  unfold nstime2timestr
  simp only [s1, s2, needsDate, Bool.false_eq_true, if_false, hdiv, resolution_eq, hraw]
  have hrm : Int.tdiv ((t.natAbs % 1000000000 : Nat) : Int) 1000 =
      ((t.natAbs % 1000000000 / 1000 : Nat) : Int) := by
    rw [tdiv_nonneg_eq _ _ (by omega)]
    omega
  rcases hk with h | h | h
  · rw [h] at hlen ⊢
    simp only [formatted, hpd, if_true]
    have : unixText 0 t = (if t < 0 ∧ t.natAbs / 1000000000 ≠ 0 then ['-'] else []) ++
        Nat.toDigits 10 (t.natAbs / 1000000000) ++ [] := rfl
    rw [← this]
    exact hwr _ hlen
  · rw [h] at hlen ⊢
    simp only [formatted, hpd, hrm]
    have hlt : t.natAbs % 1000000000 / 1000 < 10 ^ 6 := by omega
    rw [if_neg (show ¬ (6 = 0) by omega), print0_dec 6 _ (by omega) (by omega) (by rw [Int.toNat_natCast]; exact hlt)]
    have : unixText 6 t = (if t < 0 ∧ t.natAbs / 1000000000 ≠ 0 then ['-'] else []) ++
        Nat.toDigits 10 (t.natAbs / 1000000000) ++ '.' :: dec 6 (t.natAbs % 1000000000 / 1000) := by
      simp [unixText, fraction]
    rw [Int.toNat_natCast, ← this]
    exact hwr _ hlen
  · rw [h] at hlen ⊢
    simp only [formatted, hpd]
    rw [if_neg (show ¬ (9 = 0) by omega), print0_dec 9 _ (by omega) (by omega) (by omega)]
    have : unixText 9 t = (if t < 0 ∧ t.natAbs / 1000000000 ≠ 0 then ['-'] else []) ++
        Nat.toDigits 10 (t.natAbs / 1000000000) ++ '.' :: dec 9 (t.natAbs % 1000000000) := by
      simp [unixText, fraction]
    rw [Int.toNat_natCast, ← this]
    exact hwr _ hlen

theorem printD_length (t : Int) (ht : InInt64 t) : (printD t).length ≤ 21 := by
  unfold InInt64 at ht
  unfold printD
  split
  · have h2 := (Nat.length_toDigits_le_iff (b := 10) (n := (-t).toNat) (k := 19) (by omega)
      (by omega)).2 (by omega)
    simp only [List.length_cons]
    omega
  · have h2 := (Nat.length_toDigits_le_iff (b := 10) (n := t.toNat) (k := 19) (by omega)
      (by omega)).2 (by omega)
    omega

theorem monthLen_le (y mo : Int) : monthLen y mo ≤ 31 := by
  unfold monthLen
  split <;> (try split) <;> (try split) <;> omega

theorem printed_nano (t : Int) (ht : InInt64 t) (sub : Sub) :
    nstime2timestr t .nanosecondEpoch sub = ⟨true, some (printD t)⟩ := by
  obtain ⟨s1, s2⟩ := splitNs_spec t
  have hdiv : Int.tdiv (t % 1000000000) 1000 = t % 1000000000 / 1000 :=
    tdiv_nonneg_eq _ _ (by omega)
  have hlen := printD_length t ht
  have hwr : write (-1, printD t) = ⟨true, some (printD t)⟩ := by
    unfold write
    simp only
    rw [if_pos (by omega), List.take_of_length_le (by omega)]
    simp
  unfold nstime2timestr
  simp only [s1, s2, needsDate, Bool.false_eq_true, if_false, hdiv, resolution_eq]
  rcases fractionDigits_cases sub t with h | h | h <;> rw [h] <;> exact hwr

end Verif.Proof.TimeStr
