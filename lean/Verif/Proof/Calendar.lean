import Verif.Spec.Calendar
import Verif.Model.Calendar
/-! Helper lemmas for the calendar properties. -/
namespace Verif.Proof
open Verif.Spec Verif.Model

theorem isLeap_iff (y : Int) : IsLeap y ↔ (y % 4 = 0 ∧ y % 100 ≠ 0) ∨ y % 400 = 0 := by
  unfold IsLeap; omega

theorem tmod_eq_zero_iff (y : Int) (k : Int) : Int.tmod y k = 0 ↔ k ∣ y :=
  ⟨fun h => Int.dvd_of_tmod_eq_zero h, fun h => Int.tmod_eq_zero_of_dvd h⟩

theorem isLeapTm_iff (n : Int) : isLeapTm n = true ↔ IsLeap (n + 1900) := by
  unfold isLeapTm IsLeap
  simp only [Bool.or_eq_true, Bool.and_eq_true, beq_iff_eq, Bool.not_eq_true', beq_eq_false_iff_ne,
    ne_eq, tmod_eq_zero_iff]
  exact Or.comm

theorem leapYear_iff (n : Int) : leapYear n = true ↔ IsLeap n := by
  unfold leapYear IsLeap
  simp only [Bool.or_eq_true, Bool.and_eq_true, beq_iff_eq, bne_iff_ne, ne_eq, tmod_eq_zero_iff]

theorem lengthOfYear_eq (n : Int) : lengthOfYear (isLeapTm n) = yearLen (n + 1900) := by
  unfold lengthOfYear yearLen
  by_cases h : IsLeap (n + 1900)
  · simp [h, (isLeapTm_iff n).2 h]
  · have : isLeapTm n = false := by
      cases hh : isLeapTm n
      · rfl
      · exact absurd ((isLeapTm_iff n).1 hh) h
    simp [h, this]

/-- Closed form of `jan1`. -/
def jc (y : Int) : Int := 365 * (y - 1970) + (y - 1) / 4 - (y - 1) / 100 + (y - 1) / 400 - 477

theorem jc_succ (y : Int) : jc (y + 1) = jc y + yearLen y := by
  unfold jc yearLen
  have := isLeap_iff y
  split <;> rename_i h <;> rw [this] at h <;> omega

theorem jan1_eq (y : Int) : jan1 y = jc y := by
  unfold jan1
  have up : ∀ n : Nat, sumTo (fun i => yearLen (1970 + i)) n = jc (1970 + n) := by
    intro n
    induction n with
    | zero => decide
    | succ n ih =>
      have := jc_succ (1970 + n)
      simp only [sumTo, ih]
      rw [← this]; congr 1
  have dn : ∀ n : Nat, - sumTo (fun i => yearLen (1969 - i)) n = jc (1970 - n) := by
    intro n
    induction n with
    | zero => decide
    | succ n ih =>
      have := jc_succ (1969 - n)
      simp only [sumTo]
      have e : (1969 - (n:Int)) + 1 = 1970 - n := by omega
      rw [e] at this
      have e2 : (1970 - ((n + 1 : Nat) : Int)) = 1969 - n := by omega
      rw [e2]; omega
  split
  · rw [up]; congr 1; omega
  · rw [dn]; congr 1; omega

theorem jan1_succ (y : Int) : jan1 (y + 1) = jan1 y + yearLen y := by
  simp only [jan1_eq, jc_succ]

theorem jan1_add400 (y : Int) (k : Int) : jan1 (y + 400 * k) = jan1 y + 146097 * k := by
  simp only [jan1_eq, jc]; omega

theorem yearLen_cases (y : Int) : yearLen y = 365 ∨ yearLen y = 366 := by
  unfold yearLen; split <;> simp

theorem yearsFwd_spec (fuel : Nat) : ∀ (year m : Int), 0 ≤ m → m < fuel →
    jan1 ((yearsFwd fuel year m).1 + 1900) + (yearsFwd fuel year m).2 = jan1 (year + 1900) + m ∧
    0 ≤ (yearsFwd fuel year m).2 ∧
    (yearsFwd fuel year m).2 < yearLen ((yearsFwd fuel year m).1 + 1900) := by
  induction fuel with
  | zero => intro year m h0 h; omega
  | succ fuel ih =>
    intro year m h0 h
    unfold yearsFwd
    rw [lengthOfYear_eq]
    have hl := yearLen_cases (year + 1900)
    split
    · rename_i hge
      have := ih (year + 1) (m - yearLen (year + 1900)) (by omega) (by omega)
      obtain ⟨a, b, c⟩ := this
      refine ⟨?_, b, c⟩
      rw [a]
      have := jan1_succ (year + 1900)
      have e : year + 1 + 1900 = year + 1900 + 1 := by omega
      rw [e]; omega
    · exact ⟨rfl, h0, by simpa using by omega⟩

theorem yearsBwd_spec (fuel : Nat) : ∀ (year m : Int), m < 0 → -m < fuel →
    jan1 ((yearsBwd fuel year m).1 + 1 + 1900) + (yearsBwd fuel year m).2 = jan1 (year + 1 + 1900) + m ∧
    (yearsBwd fuel year m).2 < 0 ∧
    - yearLen ((yearsBwd fuel year m).1 + 1900) ≤ (yearsBwd fuel year m).2 := by
  induction fuel with
  | zero => intro year m h0 h; omega
  | succ fuel ih =>
    intro year m h0 h
    unfold yearsBwd
    rw [lengthOfYear_eq]
    have hl := yearLen_cases (year + 1900)
    split
    · rename_i hge
      have := ih (year - 1) (m + yearLen (year + 1900)) (by omega) (by omega)
      obtain ⟨a, b, c⟩ := this
      refine ⟨?_, b, c⟩
      rw [a]
      have := jan1_succ (year + 1900)
      have e : year + 1 + 1900 = year + 1900 + 1 := by omega
      have e' : year - 1 + 1 + 1900 = year + 1900 := by omega
      rw [e, e']; omega
    · exact ⟨rfl, h0, by simpa using by omega⟩

/-- What the forward month loop computes: month index and day inside it (whole domain `[0,366)`). -/
theorem monthsFwd_spec (leap : Bool) (m : Int) (h0 : 0 ≤ m) (h : m < lengthOfYear leap) :
    (monthsFwd leap 12 0 m).1 < 12 ∧
    julianDaysByMonth leap (monthsFwd leap 12 0 m).1 + (monthsFwd leap 12 0 m).2 = m ∧
    0 ≤ (monthsFwd leap 12 0 m).2 ∧
    (monthsFwd leap 12 0 m).2 < daysInMonth leap (monthsFwd leap 12 0 m).1 := by
  have key : ∀ (leap : Bool) (k : Fin 366), ((k.val : Nat) : Int) < lengthOfYear leap →
    (monthsFwd leap 12 0 k.val).1 < 12 ∧
    julianDaysByMonth leap (monthsFwd leap 12 0 k.val).1 + (monthsFwd leap 12 0 k.val).2 = k.val ∧
    0 ≤ (monthsFwd leap 12 0 k.val).2 ∧
    (monthsFwd leap 12 0 k.val).2 < daysInMonth leap (monthsFwd leap 12 0 k.val).1 := by
    decide +kernel
  have hm : m < 366 := by cases leap <;> simp [lengthOfYear] at h <;> omega
  have := key leap ⟨m.toNat, by omega⟩
  have e : ((m.toNat : Nat) : Int) = m := Int.toNat_of_nonneg h0
  simp only [e] at this
  exact this h

/-- What the backward month loop computes (whole domain `[-366,0)`). -/
theorem monthsBwd_spec (leap : Bool) (m : Int) (h0 : m < 0) (h : - lengthOfYear leap ≤ m) :
    (monthsBwd leap 11 11 m).1 < 12 ∧
    julianDaysByMonth leap (monthsBwd leap 11 11 m).1 + (monthsBwd leap 11 11 m).2
      = m + lengthOfYear leap ∧
    0 ≤ (monthsBwd leap 11 11 m).2 ∧
    (monthsBwd leap 11 11 m).2 < daysInMonth leap (monthsBwd leap 11 11 m).1 := by
  have key : ∀ (leap : Bool) (k : Fin 366), - lengthOfYear leap ≤ -((k.val : Nat) : Int) - 1 →
    (monthsBwd leap 11 11 (-(k.val : Int) - 1)).1 < 12 ∧
    julianDaysByMonth leap (monthsBwd leap 11 11 (-(k.val : Int) - 1)).1
      + (monthsBwd leap 11 11 (-(k.val : Int) - 1)).2 = (-(k.val : Int) - 1) + lengthOfYear leap ∧
    0 ≤ (monthsBwd leap 11 11 (-(k.val : Int) - 1)).2 ∧
    (monthsBwd leap 11 11 (-(k.val : Int) - 1)).2
      < daysInMonth leap (monthsBwd leap 11 11 (-(k.val : Int) - 1)).1 := by
    decide +kernel
  have hm : -366 ≤ m := by cases leap <;> simp [lengthOfYear] at h <;> omega
  have := key leap ⟨(-m-1).toNat, by omega⟩
  have e : -(((-m-1).toNat : Nat) : Int) - 1 = m := by omega
  simp only [e] at this
  exact this h

theorem daysInMonth_eq (n : Int) : ∀ mon : Nat, mon < 12 →
    daysInMonth (isLeapTm n) mon = monthLen (n + 1900) (mon + 1) := by
  intro mon hmon
  have key : ∀ k : Fin 12, daysInMonth true k = (if (k.val : Int) + 1 = 2 then 29
      else if (k.val : Int) + 1 = 4 ∨ (k.val : Int) + 1 = 6 ∨ (k.val : Int) + 1 = 9 ∨ (k.val : Int) + 1 = 11 then 30
      else if (1:Int) ≤ (k.val : Int) + 1 ∧ (k.val : Int) + 1 ≤ 12 then 31 else 0) ∧
      daysInMonth false k = (if (k.val : Int) + 1 = 2 then 28
      else if (k.val : Int) + 1 = 4 ∨ (k.val : Int) + 1 = 6 ∨ (k.val : Int) + 1 = 9 ∨ (k.val : Int) + 1 = 11 then 30
      else if (1:Int) ≤ (k.val : Int) + 1 ∧ (k.val : Int) + 1 ≤ 12 then 31 else 0) := by decide
  have hk := key ⟨mon, hmon⟩
  unfold monthLen
  by_cases h : IsLeap (n + 1900)
  · rw [(isLeapTm_iff n).2 h, hk.1]; simp only [h, if_true]
  · have : isLeapTm n = false := by
      cases hh : isLeapTm n
      · rfl
      · exact absurd ((isLeapTm_iff n).1 hh) h
    rw [this, hk.2]; simp only [h, if_false]

theorem daysBeforeMonth_succ (y : Int) (mon : Nat) :
    daysBeforeMonth y ((mon : Int) + 1) = sumTo (fun i => monthLen y (i + 1)) mon := by
  unfold daysBeforeMonth; congr 1; omega

theorem monthLen_leap (y : Int) (h : IsLeap y) (i : Int) :
    monthLen y i = monthLen 2000 i := by
  unfold monthLen; simp only [h, show IsLeap 2000 from by decide, if_true]

theorem monthLen_noleap (y : Int) (h : ¬ IsLeap y) (i : Int) :
    monthLen y i = monthLen 1999 i := by
  unfold monthLen; simp only [h, show ¬ IsLeap 1999 from by decide, if_false]

theorem julian_eq (n : Int) (mon : Nat) (hmon : mon < 12) :
    julianDaysByMonth (isLeapTm n) mon = daysBeforeMonth (n + 1900) (mon + 1) := by
  have key : ∀ k : Fin 12, julianDaysByMonth true k = sumTo (fun i => monthLen 2000 (i + 1)) k ∧
      julianDaysByMonth false k = sumTo (fun i => monthLen 1999 (i + 1)) k := by decide
  have hk := key ⟨mon, hmon⟩
  rw [daysBeforeMonth_succ]
  by_cases h : IsLeap (n + 1900)
  · rw [(isLeapTm_iff n).2 h, hk.1]; simp only [monthLen_leap _ h]
  · have : isLeapTm n = false := by
      cases hh : isLeapTm n
      · rfl
      · exact absurd ((isLeapTm_iff n).1 hh) h
    rw [this, hk.2]; simp only [monthLen_noleap _ h]

theorem tdiv_nonneg_eq (m k : Int) (h : 0 ≤ m) : Int.tdiv m k = m / k :=
  Int.tdiv_eq_ediv_of_nonneg h

theorem tdiv_neg_eq (m k : Int) (h : m < 0) : Int.tdiv m k = -((-m) / k) := by
  have : Int.tdiv (-m) k = (-m) / k := Int.tdiv_eq_ediv_of_nonneg (by omega)
  rw [Int.neg_tdiv] at this; omega

/-- The heart of `ms_gmtime64_r`: the day number is decomposed correctly. -/
theorem dayToYmd_spec (tday : Int) :
    let r := dayToYmd tday
    r.2.2.2 = isLeapTm r.1 ∧ r.2.1 < 12 ∧
    jan1 (r.1 + 1900) + julianDaysByMonth r.2.2.2 r.2.1 + r.2.2.1 = tday ∧
    0 ≤ r.2.2.1 ∧ r.2.2.1 < daysInMonth r.2.2.2 r.2.1 ∧
    0 ≤ julianDaysByMonth r.2.2.2 r.2.1 + r.2.2.1 ∧
    julianDaysByMonth r.2.2.2 r.2.1 + r.2.2.1 < yearLen (r.1 + 1900) := by
  have fwd : ∀ (year m : Int), 0 ≤ m →
      let cycles := Int.tdiv m 146097
      let ym := if cycles ≠ 0 then (year + cycles * 400, m - cycles * 146097) else (year, m)
      let ym2 := yearsFwd (ym.2.toNat + 1) ym.1 ym.2
      let leap := isLeapTm ym2.1
      let md := monthsFwd leap 12 0 ym2.2
      md.1 < 12 ∧
      jan1 (ym2.1 + 1900) + julianDaysByMonth leap md.1 + md.2 = jan1 (year + 1900) + m ∧
      0 ≤ md.2 ∧ md.2 < daysInMonth leap md.1 ∧
      0 ≤ julianDaysByMonth leap md.1 + md.2 ∧
      julianDaysByMonth leap md.1 + md.2 < yearLen (ym2.1 + 1900) := by
    intro year m hm
    simp only
    have hym : ∃ y' m' : Int, (if Int.tdiv m 146097 ≠ 0 then
        (year + Int.tdiv m 146097 * 400, m - Int.tdiv m 146097 * 146097) else (year, m)) = (y', m') ∧
        0 ≤ m' ∧ jan1 (y' + 1900) + m' = jan1 (year + 1900) + m := by
      rw [tdiv_nonneg_eq _ _ hm]
      split
      · refine ⟨_, _, rfl, by omega, ?_⟩
        have := jan1_add400 (year + 1900) (m / 146097)
        have e : year + m / 146097 * 400 + 1900 = year + 1900 + 400 * (m / 146097) := by omega
        rw [e, this]; omega
      · exact ⟨_, _, rfl, hm, rfl⟩
    obtain ⟨y', m', he, h0, hj⟩ := hym
    rw [he]
    simp only
    obtain ⟨a, b, c⟩ := yearsFwd_spec (m'.toNat + 1) y' m' h0 (by omega)
    generalize yearsFwd (m'.toNat + 1) y' m' = r at a b c
    have c' : r.2 < lengthOfYear (isLeapTm r.1) := by rw [lengthOfYear_eq]; exact c
    obtain ⟨d, e, f, g⟩ := monthsFwd_spec (isLeapTm r.1) r.2 b c'
    refine ⟨d, ?_, f, g, ?_, ?_⟩ <;> omega
  have bwd : ∀ (year m : Int), m < 0 →
      let cycles := Int.tdiv m 146097 + 1
      let ym := if cycles ≠ 0 then (year - 1 + cycles * 400, m - cycles * 146097) else (year - 1, m)
      let ym2 := yearsBwd ((-ym.2).toNat + 1) ym.1 ym.2
      let leap := isLeapTm ym2.1
      let md := monthsBwd leap 11 11 ym2.2
      md.1 < 12 ∧
      jan1 (ym2.1 + 1900) + julianDaysByMonth leap md.1 + md.2 = jan1 (year + 1900) + m ∧
      0 ≤ md.2 ∧ md.2 < daysInMonth leap md.1 ∧
      0 ≤ julianDaysByMonth leap md.1 + md.2 ∧
      julianDaysByMonth leap md.1 + md.2 < yearLen (ym2.1 + 1900) := by
    intro year m hm
    simp only
    have hym : ∃ y' m' : Int, (if Int.tdiv m 146097 + 1 ≠ 0 then
        (year - 1 + (Int.tdiv m 146097 + 1) * 400, m - (Int.tdiv m 146097 + 1) * 146097)
        else (year - 1, m)) = (y', m') ∧
        m' < 0 ∧ jan1 (y' + 1 + 1900) + m' = jan1 (year + 1900) + m := by
      rw [tdiv_neg_eq _ _ hm]
      split
      · refine ⟨_, _, rfl, by omega, ?_⟩
        have := jan1_add400 (year + 1900) (-(-m / 146097) + 1)
        have e : year - 1 + (-(-m / 146097) + 1) * 400 + 1 + 1900
          = year + 1900 + 400 * (-(-m / 146097) + 1) := by omega
        rw [e, this]; omega
      · refine ⟨_, _, rfl, hm, ?_⟩
        have e : year - 1 + 1 + 1900 = year + 1900 := by omega
        rw [e]
    obtain ⟨y', m', he, h0, hj⟩ := hym
    rw [he]
    simp only
    obtain ⟨a, b, c⟩ := yearsBwd_spec ((-m').toNat + 1) y' m' h0 (by omega)
    generalize yearsBwd ((-m').toNat + 1) y' m' = r at a b c
    have c' : - lengthOfYear (isLeapTm r.1) ≤ r.2 := by rw [lengthOfYear_eq]; exact c
    obtain ⟨d, e, f, g⟩ := monthsBwd_spec (isLeapTm r.1) r.2 b c'
    rw [lengthOfYear_eq] at e
    have := jan1_succ (r.1 + 1900)
    have ee : r.1 + 1 + 1900 = r.1 + 1900 + 1 := by omega
    rw [ee] at a
    refine ⟨d, ?_, f, g, ?_, ?_⟩ <;> omega
  have j70 : jan1 (70 + 1900) = 0 := by decide
  have j108 : jan1 (108 + 1900) = 13879 := by decide
  intro r
  obtain ⟨r', hr⟩ : ∃ r', r' = dayToYmd tday := ⟨_, rfl⟩
  have hrr : r = r' := hr.symm
  clear_value r
  subst hrr
  unfold dayToYmd at hr
  by_cases h1 : tday ≥ 13879
  · have := fwd 108 (tday - 13879) (by omega)
    simp only [h1, if_true] at hr
    have h2 : tday - 13879 ≥ 0 := by omega
    simp only [h2, if_true] at hr
    simp only at this
    obtain ⟨a, b, c, d, e, f⟩ := this
    rw [hr]
    refine ⟨rfl, a, ?_, c, d, e, f⟩
    exact b.trans (by rw [j108]; omega)
  · simp only [h1, if_false] at hr
    by_cases h2 : tday ≥ 0
    · have := fwd 70 tday h2
      simp only [h2, if_true] at hr
      simp only at this
      obtain ⟨a, b, c, d, e, f⟩ := this
      rw [hr]
      refine ⟨rfl, a, ?_, c, d, e, f⟩
      exact b.trans (by rw [j70]; omega)
    · have := bwd 70 tday (by omega)
      simp only [h2, if_false] at hr
      simp only at this
      obtain ⟨a, b, c, d, e, f⟩ := this
      rw [hr]
      refine ⟨rfl, a, ?_, c, d, e, f⟩
      exact b.trans (by rw [j70]; omega)

/-- Truncating division: quotient, remainder and its sign. -/
theorem tdiv_tmod_spec (t k : Int) (hk : 0 < k) :
    t = k * Int.tdiv t k + Int.tmod t k ∧
    ((0 ≤ t ∧ 0 ≤ Int.tmod t k ∧ Int.tmod t k < k ∧ 0 ≤ Int.tdiv t k) ∨
     (t < 0 ∧ -k < Int.tmod t k ∧ Int.tmod t k ≤ 0 ∧ Int.tdiv t k ≤ 0)) := by
  refine ⟨(Int.mul_tdiv_add_tmod t k).symm, ?_⟩
  rcases Int.lt_or_le t 0 with h | h
  · right
    have h1 : Int.tmod (-t) k = (-t) % k := Int.tmod_eq_emod_of_nonneg (by omega)
    rw [Int.neg_tmod] at h1
    have h2 := tdiv_neg_eq t k h
    have h3 := Int.emod_nonneg (-t) (b := k) (by omega)
    have h4 := Int.emod_lt_of_pos (-t) hk
    have h5 : 0 ≤ (-t) / k := Int.ediv_nonneg (by omega) (by omega)
    omega
  · left
    rw [Int.tmod_eq_emod_of_nonneg h, Int.tdiv_eq_ediv_of_nonneg h]
    exact ⟨h, Int.emod_nonneg _ (by omega), Int.emod_lt_of_pos _ hk, Int.ediv_nonneg h (by omega)⟩

/-- gmtime64.c:87-97: the wrapped seconds, minutes, hours and days. -/
theorem hms_spec (time : Int) : ∃ sec min hour tday : Int,
      (wrapTime (Int.tmod time 60) (Int.tmod (Int.tdiv time 60) 60) 60).1 = sec ∧
      (wrapTime (wrapTime (Int.tmod time 60) (Int.tmod (Int.tdiv time 60) 60) 60).2
        (Int.tmod (Int.tdiv (Int.tdiv time 60) 60) 24) 60).1 = min ∧
      (wrapTime (wrapTime (wrapTime (Int.tmod time 60) (Int.tmod (Int.tdiv time 60) 60) 60).2
        (Int.tmod (Int.tdiv (Int.tdiv time 60) 60) 24) 60).2
        (Int.tdiv (Int.tdiv (Int.tdiv time 60) 60) 24) 24) = (hour, tday) ∧
      ((tday * 24 + hour) * 60 + min) * 60 + sec = time ∧ 0 ≤ sec ∧ sec ≤ 59 ∧ 0 ≤ min ∧ min ≤ 59
      ∧ 0 ≤ hour ∧ hour ≤ 23 := by
  have h1 := tdiv_tmod_spec time 60 (by omega)
  generalize Int.tdiv time 60 = q1 at *
  generalize Int.tmod time 60 = r1 at *
  have h2 := tdiv_tmod_spec q1 60 (by omega)
  generalize Int.tdiv q1 60 = q2 at *
  generalize Int.tmod q1 60 = r2 at *
  have h3 := tdiv_tmod_spec q2 24 (by omega)
  generalize Int.tdiv q2 24 = q3 at *
  generalize Int.tmod q2 24 = r3 at *
  have w : ∀ a b m : Int, ∃ a' b', wrapTime a b m = (a', b') ∧
      ((a < 0 ∧ a' = a + m ∧ b' = b - 1) ∨ (0 ≤ a ∧ a' = a ∧ b' = b)) := by
    intro a b m
    unfold wrapTime
    split
    · exact ⟨_, _, rfl, Or.inl ⟨by omega, rfl, rfl⟩⟩
    · exact ⟨_, _, rfl, Or.inr ⟨by omega, rfl, rfl⟩⟩
  obtain ⟨s1, m1, e1, w1⟩ := w r1 r2 60
  rw [e1]; simp only
  obtain ⟨m2, k2, e2, w2⟩ := w m1 r3 60
  rw [e2]; simp only
  obtain ⟨k3, d3, e3, w3⟩ := w k2 q3 24
  refine ⟨s1, m2, k3, d3, rfl, rfl, e3, ?_⟩
  omega

/-- `ms_gmtime64_r` yields the calendar fields of the given second. -/
theorem gmtime64_spec (time : Int) (tm : Tm) (h : gmtime64 time = some tm) :
    (((jan1 (tm.year + 1900) + tm.yday) * 24 + tm.hour) * 60 + tm.min) * 60 + tm.sec = time ∧
    0 ≤ tm.sec ∧ tm.sec ≤ 59 ∧ 0 ≤ tm.min ∧ tm.min ≤ 59 ∧ 0 ≤ tm.hour ∧ tm.hour ≤ 23 ∧
    0 ≤ tm.yday ∧ tm.yday < yearLen (tm.year + 1900) ∧
    0 ≤ tm.mon ∧ tm.mon ≤ 11 ∧ 1 ≤ tm.mday ∧ tm.mday ≤ monthLen (tm.year + 1900) (tm.mon + 1) ∧
    tm.yday + 1 = daysBeforeMonth (tm.year + 1900) (tm.mon + 1) + tm.mday ∧
    tm.wday = (jan1 (tm.year + 1900) + tm.yday + 4) % 7 := by
  unfold gmtime64 at h
  have hsplit := hms_spec time
  obtain ⟨sec, min, hour, tday, e1, e2, e3, hsum, hr⟩ := hsplit
  simp only [e1, e2, e3] at h
  have hd := dayToYmd_spec tday
  simp only at hd
  generalize dayToYmd tday = r at hd h
  obtain ⟨year, mon, m, leap⟩ := r
  simp only at hd h
  obtain ⟨hl, hmon, hj, hm0, hm1, hy0, hy1⟩ := hd
  split at h
  · rename_i hfit
    injection h with h
    subst h
    simp only
    subst hl
    have hdm := daysInMonth_eq year mon hmon
    have hju := julian_eq year mon hmon
    refine ⟨?_, ?_, ?_, ?_, ?_, ?_, ?_, ?_, ?_, ?_, ?_, ?_, ?_, ?_, ?_⟩
    · rw [← hsum, ← hj]; omega
    · omega
    · omega
    · omega
    · omega
    · omega
    · omega
    · exact hy0
    · exact hy1
    · omega
    · omega
    · omega
    · omega
    · omega
    · have : jan1 (year + 1900) + (julianDaysByMonth (isLeapTm year) mon + m) = tday := by omega
      rw [this, Int.tmod_eq_emod]
      split <;> split <;> omega
  · simp at h

/-- The conversion succeeds whenever the day number is not astronomically large. -/
theorem gmtime64_some (time : Int) (h : -100000000000 ≤ time ∧ time ≤ 100000000000) :
    ∃ tm, gmtime64 time = some tm := by
  unfold gmtime64
  obtain ⟨sec, min, hour, tday, e1, e2, e3, hsum, hr⟩ := hms_spec time
  have hb : -2000000 ≤ tday ∧ tday ≤ 2000000 := by omega
  simp only [e3]
  have hd := dayToYmd_spec tday
  simp only at hd
  generalize dayToYmd tday = r at hd
  obtain ⟨year, mon, m, leap⟩ := r
  simp only at hd ⊢
  obtain ⟨hl, hmon, hj, hm0, hm1, hy0, hy1⟩ := hd
  have hyl := yearLen_cases (year + 1900)
  have hj2 : jan1 (year + 1900) = jc (year + 1900) := jan1_eq _
  unfold jc at hj2
  have : -2147483648 ≤ year ∧ year ≤ 2147483647 := by omega
  simp [this]

theorem splitNs_spec (t : Int) :
    (splitNs t).1 = t / 1000000000 ∧ (splitNs t).2 = t % 1000000000 := by
  unfold splitNs NSTMODULUS
  have h := tdiv_tmod_spec t 1000000000 (by omega)
  generalize Int.tdiv t 1000000000 = q at *
  generalize Int.tmod t 1000000000 = r at *
  simp only
  split <;> constructor <;> simp only <;> omega

/-- genutils.c:1175-1182 computes the day number of the specification, for every year. -/
theorem daysFromYearDay_eq (year yday : Int) :
    daysFromYearDay year yday = jan1 year + (yday - 1) := by
  rw [jan1_eq]
  unfold daysFromYearDay jc
  simp only
  generalize ha : (year - 1900) / 4 + 475 - (if (year - 1900) % 4 = 0 then 1 else 0) = a4
  have h4 : a4 = (year - 1) / 4 := by rw [← ha]; split <;> omega
  have h := tdiv_tmod_spec a4 25 (by omega)
  generalize Int.tdiv a4 25 = q at *
  generalize Int.tmod a4 25 = r at *
  split <;> omega

theorem jan1_mono {a b : Int} (h : a < b) : jan1 a + yearLen a ≤ jan1 b := by
  rw [jan1_eq, jan1_eq, ← jc_succ]
  unfold jc; omega

theorem jan1_lt_inv {a b x y : Int} (hx : 0 ≤ x) (hy : y < yearLen b)
    (h : jan1 a + x ≤ jan1 b + y) : a ≤ b := by
  rcases Int.lt_or_le b a with h' | h'
  · have := jan1_mono h'; omega
  · exact h'

/-- Valid fields are ordered like their instants. -/
theorem instant_lt_iff (f g : Fields) (hf : f.Valid) (hg : g.Valid) :
    f.instant < g.instant ↔ f.Earlier g := by
  obtain ⟨⟨fy0, fy1⟩, fh, fm, fs, fn⟩ := hf
  obtain ⟨⟨gy0, gy1⟩, gh, gm, gs, gn⟩ := hg
  unfold Fields.instant Fields.Earlier
  rcases Int.lt_trichotomy f.year g.year with h | h | h
  · have := jan1_mono h
    omega
  · rw [h]; omega
  · have := jan1_mono h
    omega

/-- Valid fields are determined by their instant. -/
theorem instant_inj (f g : Fields) (hf : f.Valid) (hg : g.Valid) (h : f.instant = g.instant) :
    f = g := by
  have h1 := instant_lt_iff f g hf hg
  have h2 := instant_lt_iff g f hg hf
  have n1 : ¬ f.Earlier g := by rw [← h1]; omega
  have n2 : ¬ g.Earlier f := by rw [← h2]; omega
  unfold Fields.Earlier at n1 n2
  obtain ⟨a, b, c, d, e, i⟩ := f
  obtain ⟨a', b', c', d', e', i'⟩ := g
  simp only at n1 n2
  simp only [Fields.mk.injEq]
  omega

theorem validYearDay_iff (y d : Int) : validYearDay y d = true ↔ 1 ≤ d ∧ d ≤ yearLen y := by
  unfold validYearDay yearLen
  rw [decide_eq_true_iff]
  by_cases h : IsLeap y
  · simp only [h, (leapYear_iff y).2 h, if_true]; omega
  · have : leapYear y = false := by
      cases hh : leapYear y
      · rfl
      · exact absurd ((leapYear_iff y).1 hh) h
    simp [h, this]

theorem fitsInt64_iff (x : Int) : fitsInt64 x = true ↔ InInt64 x := by
  unfold fitsInt64 InInt64; rw [decide_eq_true_iff]

theorem time2nstimeInt_eq (y d h m s n : Int) :
    time2nstimeInt y d h m s n =
      (if InInt64 ((Fields.mk y d h m s n).instant - n) ∧ InInt64 (Fields.mk y d h m s n).instant
       then .ok (Fields.mk y d h m s n).instant else .ub) := by
  unfold time2nstimeInt Fields.instant
  simp only [daysFromYearDay_eq, NSTMODULUS]
  have e : (60 * (60 * (24 * (jan1 y + (d - 1)) + h) + m) + s) * 1000000000
      = ((((jan1 y + (d - 1)) * 24 + h) * 60 + m) * 60 + s) * 1000000000 := by omega
  rw [e]
  have e2 : ((((jan1 y + (d - 1)) * 24 + h) * 60 + m) * 60 + s) * 1000000000 + n - n
      = ((((jan1 y + (d - 1)) * 24 + h) * 60 + m) * 60 + s) * 1000000000 := by omega
  simp only [e2, Bool.and_eq_true, fitsInt64_iff]

/-! ### Day of year versus month and day: whole finite domain -/

def monthLenB (leap : Bool) (i : Int) : Int := monthLen (if leap then 2000 else 1999) i
def daysBeforeB (leap : Bool) (i : Int) : Int := daysBeforeMonth (if leap then 2000 else 1999) i

theorem monthLen_eqB (y i : Int) : monthLen y i = monthLenB (leapYear y) i := by
  unfold monthLenB
  by_cases h : IsLeap y
  · rw [(leapYear_iff y).2 h, monthLen_leap y h]; rfl
  · have : leapYear y = false := by
      cases hh : leapYear y
      · rfl
      · exact absurd ((leapYear_iff y).1 hh) h
    rw [this, monthLen_noleap y h]; rfl

theorem daysBefore_eqB (y i : Int) : daysBeforeMonth y i = daysBeforeB (leapYear y) i := by
  unfold daysBeforeB daysBeforeMonth
  congr 1
  funext k
  rw [monthLen_eqB]
  unfold monthLenB
  rfl

theorem yearLen_eqB (y : Int) : yearLen y = 365 + (if leapYear y then 1 else 0) := by
  unfold yearLen
  by_cases h : IsLeap y
  · simp [h, (leapYear_iff y).2 h]
  · have : leapYear y = false := by
      cases hh : leapYear y
      · rfl
      · exact absurd ((leapYear_iff y).1 hh) h
    simp [h, this]

def doy2mdOk (leap : Bool) (yday : Int) (r : Option (Int × Int)) : Bool :=
  match r with
  | none => false
  | some (m, d) => decide (1 ≤ m ∧ m ≤ 12 ∧ 1 ≤ d ∧ d ≤ monthLenB leap m ∧
        daysBeforeB leap m + d = yday)

theorem doy2mdLoop_spec (leap : Bool) (yday : Int) (h1 : 1 ≤ yday)
    (h2 : yday ≤ 365 + (if leap then 1 else 0)) :
    ∃ m d, doy2mdLoop leap 12 0 yday = some (m, d) ∧ 1 ≤ m ∧ m ≤ 12 ∧ 1 ≤ d ∧ d ≤ monthLenB leap m ∧
      daysBeforeB leap m + d = yday := by
  have key : ∀ (leap : Bool) (k : Fin 366), ((k.val : Int) + 1 ≤ 365 + (if leap then 1 else 0)) →
      doy2mdOk leap ((k.val : Int) + 1) (doy2mdLoop leap 12 0 ((k.val : Int) + 1)) = true := by
    decide +kernel
  have hb : yday ≤ 366 := by cases leap <;> simp at h2 <;> omega
  have := key leap ⟨(yday - 1).toNat, by omega⟩
  have e : (((yday - 1).toNat : Nat) : Int) + 1 = yday := by omega
  simp only [e] at this
  have := this h2
  unfold doy2mdOk at this
  split at this
  · simp at this
  · rename_i m d hm
    exact ⟨m, d, hm, of_decide_eq_true this⟩

theorem md2doyLoop_spec (leap : Bool) (m d : Int) (h1 : 1 ≤ m) (h2 : m ≤ 12) :
    md2doyLoop leap (m - 1) d 12 0 0 = daysBeforeB leap m + d := by
  have key : ∀ (leap : Bool) (k : Fin 12), md2doyLoop leap ((k.val : Int)) 0 12 0 0
      = daysBeforeB leap ((k.val : Int) + 1) := by decide +kernel
  have shift : ∀ (fuel idx : Nat) (acc : Int), (idx : Int) ≤ m - 1 → m - 1 < idx + fuel →
      md2doyLoop leap (m - 1) d fuel idx acc = md2doyLoop leap (m - 1) 0 fuel idx acc + d := by
    intro fuel
    induction fuel with
    | zero => intro idx acc a b; omega
    | succ fuel ih =>
      intro idx acc a b
      unfold md2doyLoop
      split
      · omega
      · exact ih _ _ (by omega) (by omega)
  have := key leap ⟨(m - 1).toNat, by omega⟩
  have e : (((m - 1).toNat : Nat) : Int) = m - 1 := by omega
  simp only [e] at this
  rw [shift 12 0 0 (by omega) (by omega), this]
  have e2 : m - 1 + 1 = m := by omega
  rw [e2]

theorem daysBeforeB_inj (leap : Bool) (m d m' d' : Int) (h1 : 1 ≤ m) (h2 : m ≤ 12)
    (h1' : 1 ≤ m') (h2' : m' ≤ 12) (hd : 1 ≤ d) (hd2 : d ≤ monthLenB leap m)
    (hd' : 1 ≤ d') (hd2' : d' ≤ monthLenB leap m')
    (h : daysBeforeB leap m + d = daysBeforeB leap m' + d') : m = m' ∧ d = d' := by
  have key : ∀ (leap : Bool) (k k' : Fin 12), k < k' →
      daysBeforeB leap ((k.val : Int) + 1) + monthLenB leap ((k.val : Int) + 1)
        ≤ daysBeforeB leap ((k'.val : Int) + 1) := by decide +kernel
  have e : (((m - 1).toNat : Nat) : Int) + 1 = m := by omega
  have e' : (((m' - 1).toNat : Nat) : Int) + 1 = m' := by omega
  rcases Int.lt_trichotomy m m' with hlt | heq | hgt
  · have := key leap ⟨(m - 1).toNat, by omega⟩ ⟨(m' - 1).toNat, by omega⟩
      (by simp only [Fin.mk_lt_mk]; omega)
    simp only [e, e'] at this
    omega
  · subst heq; omega
  · have := key leap ⟨(m' - 1).toNat, by omega⟩ ⟨(m - 1).toNat, by omega⟩
      (by simp only [Fin.mk_lt_mk]; omega)
    simp only [e, e'] at this
    omega

theorem monthDays_eqB (leap : Bool) (m : Int) (h1 : 1 ≤ m) (h2 : m ≤ 12) :
    monthDays leap (m - 1).toNat = monthLenB leap m := by
  have key : ∀ (leap : Bool) (k : Fin 12), monthDays leap k = monthLenB leap ((k.val : Int) + 1) := by
    decide
  have := key leap ⟨(m - 1).toNat, by omega⟩
  have e : (((m - 1).toNat : Nat) : Int) + 1 = m := by omega
  simp only [e] at this
  exact this

theorem daysBeforeB_bound (leap : Bool) (m d : Int) (h1 : 1 ≤ m) (h2 : m ≤ 12) (hd : 1 ≤ d)
    (hd2 : d ≤ monthLenB leap m) :
    1 ≤ daysBeforeB leap m + d ∧ daysBeforeB leap m + d ≤ 365 + (if leap then 1 else 0) := by
  have key : ∀ (leap : Bool) (k : Fin 12), 0 ≤ daysBeforeB leap ((k.val : Int) + 1) ∧
      daysBeforeB leap ((k.val : Int) + 1) + monthLenB leap ((k.val : Int) + 1)
        ≤ 365 + (if leap then 1 else 0) := by decide +kernel
  have := key leap ⟨(m - 1).toNat, by omega⟩
  have e : (((m - 1).toNat : Nat) : Int) + 1 = m := by omega
  simp only [e] at this
  omega

end Verif.Proof
