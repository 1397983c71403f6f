import Verif.Model.SampleTime
import Verif.Spec.Leap
import Verif.Spec.Rounding
import Verif.Proof.TimeStrRead
/-! Lemmas on sample times and leap second files. -/
namespace Verif.Proof.SampleTime
open Verif.Model Verif.Model.SampleTime Verif.Model.TimeStr Verif.Spec Verif.Spec.Leap
open Verif.Spec.TimeStr (Digit Numeral)
open Verif.Proof.TimeStr

/-- The three roundings after the exact quotient or product `q`. -/
def chain (rnd : Rat → Rat) (q : Rat) : Rat := rnd (rnd (rnd q * 1000000000) + 1 / 2)

theorem chain_bounds {rnd : Rat → Rat} (hr : Rounding rnd) (q : Rat) (hq : 0 ≤ q) :
    let E := q * 1000000000
    0 ≤ chain rnd q ∧ E + 1 / 2 - (E + 1) / 2 ^ 51 ≤ chain rnd q ∧
      chain rnd q ≤ E + 1 / 2 + (E + 1) / 2 ^ 51 := by
  intro E
  have hE : E = q * 1000000000 := rfl
  clear_value E
  unfold chain
  have a := hr.near q hq
  generalize rnd q = a0 at *
  have ha0 : 0 ≤ a0 * 1000000000 := by grind
  have b := hr.near _ ha0
  generalize rnd (a0 * 1000000000) = b0 at *
  have hb0 : 0 ≤ b0 + 1 / 2 := by grind
  have c := hr.near _ hb0
  generalize rnd (b0 + 1 / 2) = c0 at *
  clear hr
  refine ⟨?_, ?_, ?_⟩ <;> grind

theorem chain_mono {rnd : Rat → Rat} (hr : Rounding rnd) {q q' : Rat} (h : q ≤ q') :
    chain rnd q ≤ chain rnd q' := by
  unfold chain
  apply hr.mono
  have h1 := hr.mono _ _ h
  have h2 : rnd q * 1000000000 ≤ rnd q' * 1000000000 := by
    clear hr; grind
  have h3 := hr.mono _ _ h2
  clear hr; grind

/-- What the roundings start from. -/
def quot (x : Rat) (r : Rat) : Rat := if r > 0 then x / r else if r < 0 then x * -r else 0

theorem quot_exact (k : Int) (r : Rat) : quot k r * 1000000000 = exactSpan k r := by
  unfold quot exactSpan
  split
  · rfl
  · split
    · rfl
    · exact Rat.zero_mul _

theorem rat_div_nonneg {x r : Rat} (hx : 0 ≤ x) (hr : 0 < r) : 0 ≤ x / r := by
  rw [Rat.div_def]
  exact Rat.mul_nonneg hx (Rat.le_of_lt (Rat.inv_pos.2 hr))

theorem quot_mono {x y r : Rat} (h : x ≤ y) : quot x r ≤ quot y r := by
  unfold quot
  split
  · rename_i hr
    rw [Rat.div_def, Rat.div_def]
    exact Rat.mul_le_mul_of_nonneg_right h (Rat.le_of_lt (Rat.inv_pos.2 hr))
  · split
    · rename_i hr
      exact Rat.mul_le_mul_of_nonneg_right h (by grind)
    · exact Rat.le_refl

theorem quot_nonneg {x r : Rat} (h : 0 ≤ x) : 0 ≤ quot x r := by
  have := quot_mono (r := r) h
  have z : quot 0 r = 0 := by
    unfold quot
    split
    · rw [Rat.div_def, Rat.zero_mul]
    · split
      · exact Rat.zero_mul _
      · rfl
  rwa [z] at this

/-- The conversion of a value that is not negative. -/
theorem toInt64_nonneg {x : Rat} (h : 0 ≤ x) :
    toInt64 x = if fitsInt64 x.floor then .ok x.floor else .ub := by
  unfold toInt64
  simp only [if_neg (Rat.not_lt.2 h)]

theorem rawSpan_eq {rnd : Rat → Rat} (hr : Rounding rnd) {k : Int} (hk : 0 ≤ k) (r : Rat) :
    rawSpan rnd k r = toInt64 (chain rnd (quot (rnd k) r)) := by
  have half : toInt64 (chain rnd 0) = .ok 0 := by
    have b := (chain_bounds hr 0 Rat.le_refl)
    simp only [] at b
    rw [toInt64_nonneg b.1]
    have h1 : chain rnd 0 < 1 := by clear hr; grind
    have : (chain rnd 0).floor = 0 := by
      have l : (0 : Int) ≤ (chain rnd 0).floor := Rat.le_floor_iff.2 (by simpa using b.1)
      have u : (chain rnd 0).floor < 1 := Rat.floor_lt_iff.2 (by simpa using h1)
      omega
    rw [this]; rfl
  unfold rawSpan
  by_cases hk0 : k > 0
  · rw [if_pos hk0]
    by_cases h1 : r > 0
    · rw [if_pos h1, quot, if_pos h1]; rfl
    · rw [if_neg h1]
      by_cases h2 : r < 0
      · rw [if_pos h2, quot, if_neg h1, if_pos h2]; rfl
      · rw [if_neg h2, quot, if_neg h1, if_neg h2, half]
  · have : k = 0 := by omega
    subst this
    rw [if_neg hk0]
    have z : rnd ((0 : Int) : Rat) = 0 := by simpa using rnd_zero hr
    have q : quot 0 r = 0 := by
      unfold quot
      split
      · rw [Rat.div_def, Rat.zero_mul]
      · split
        · exact Rat.zero_mul _
        · rfl
    rw [z, q, half]

/-- Spans are not negative. -/
theorem rawSpan_nonneg {rnd : Rat → Rat} (hr : Rounding rnd) {k : Int} {r : Rat} {s : Int}
    (h : rawSpan rnd k r = .ok s) : 0 ≤ s := by
  by_cases hk : 0 ≤ k
  · rw [rawSpan_eq hr hk] at h
    have kk : (0 : Rat) ≤ k := by exact_mod_cast hk
    have k0 : 0 ≤ rnd k := by
      have := hr.mono _ _ kk
      rwa [rnd_zero hr] at this
    have b := (chain_bounds hr _ (quot_nonneg (r := r) k0)).1
    rw [toInt64_nonneg b] at h
    split at h
    · cases h
      exact Rat.le_floor_iff.2 (by simpa using b)
    · cases h
  · unfold rawSpan at h
    rw [if_neg (by omega)] at h
    cases h; omega

theorem rawSpan_mono {rnd : Rat → Rat} (hr : Rounding rnd) {k k' : Int} {r : Rat} {s s' : Int}
    (hk : k ≤ k') (h : rawSpan rnd k r = .ok s) (h' : rawSpan rnd k' r = .ok s') : s ≤ s' := by
  by_cases h0 : 0 ≤ k
  · rw [rawSpan_eq hr h0] at h
    rw [rawSpan_eq hr (by omega)] at h'
    have kk : (0 : Rat) ≤ k := by exact_mod_cast h0
    have kk' : (k : Rat) ≤ k' := by exact_mod_cast hk
    have k0 : 0 ≤ rnd k := by
      have := hr.mono _ _ kk
      rwa [rnd_zero hr] at this
    have m := chain_mono hr (quot_mono (r := r) (hr.mono _ _ kk'))
    have b := (chain_bounds hr _ (quot_nonneg (r := r) k0)).1
    rw [toInt64_nonneg b] at h
    rw [toInt64_nonneg (Rat.le_trans b m)] at h'
    split at h
    · split at h'
      · cases h; cases h'
        exact Rat.le_floor_iff.2 (Rat.le_trans (Rat.le_floor_iff.1 (Int.le_refl _)) m)
      · cases h'
    · cases h
  · have : s = 0 := by
      unfold rawSpan at h
      rw [if_neg (by omega)] at h
      cases h; rfl
    have := rawSpan_nonneg hr h'
    omega

/-- The span is near the exact one. -/
theorem rawSpan_near {rnd : Rat → Rat} (hr : Rounding rnd) {k : Int} (h0 : 0 ≤ k)
    (h1 : k ≤ 2 ^ 53) (r : Rat) (hE : exactSpan k r ≤ 9223372036854000000) :
    ∃ s : Int, rawSpan rnd k r = .ok s ∧ 0 ≤ s ∧
      exactSpan k r - 1 / 2 - (exactSpan k r + 1) / 2 ^ 51 < s ∧
      s ≤ exactSpan k r + 1 / 2 + (exactSpan k r + 1) / 2 ^ 51 ∧ s ≤ 9223372036854775807 := by
  rw [rawSpan_eq hr h0, hr.exact k (by omega) h1]
  have kk : (0 : Rat) ≤ k := by exact_mod_cast h0
  obtain ⟨b0, b1, b2⟩ := chain_bounds hr _ (quot_nonneg (r := r) kk)
  rw [quot_exact] at b1 b2
  rw [toInt64_nonneg b0]
  generalize chain rnd (quot k r) = x at *
  generalize exactSpan k r = E at *
  have f0 : (0 : Int) ≤ x.floor := Rat.le_floor_iff.2 (by simpa using b0)
  have f1 : (x.floor : Rat) ≤ x := Rat.le_floor_iff.1 (Int.le_refl _)
  have f2 : x < ((x.floor + 1 : Int) : Rat) := Rat.floor_lt_iff.1 (by omega)
  rw [Rat.intCast_add] at f2
  have f3 : ((x.floor : Int) : Rat) ≤ ((9223372036854775807 : Int) : Rat) := by
    clear hr; grind
  have f4 : x.floor ≤ 9223372036854775807 := Rat.intCast_le_intCast.1 f3
  refine ⟨x.floor, ?_, f0, ?_, ?_, f4⟩
  · rw [if_pos]
    unfold fitsInt64
    rw [decide_eq_true_eq]; omega
  · clear hr; grind
  · clear hr; grind

/-- The exact span is near a multiple of the period. -/
theorem period_near {p : Nat} {r : Rat} (hp : HasPeriod p r) {k : Int} (h0 : 0 ≤ k) :
    ((k * p : Int) : Rat) - (k * p : Int) / 2 ^ 52 ≤ exactSpan k r ∧
      exactSpan k r ≤ (k * p : Int) + (k * p : Int) / 2 ^ 52 := by
  have kk : (0 : Rat) ≤ k := by exact_mod_cast h0
  have hT : ((k * p : Int) : Rat) = (k : Rat) * (p : Rat) := by
    rw [Rat.intCast_mul]; rfl
  have hT0 : (0 : Rat) ≤ (k : Rat) * (p : Rat) := Rat.mul_nonneg kk (by exact_mod_cast Nat.zero_le p)
  rw [hT]
  rcases hp with ⟨h1, h2, h3⟩ | ⟨h1, h2, h3⟩
  · unfold exactSpan
    rw [if_pos h1]
    have hq : (k : Rat) / r * r = k := Rat.div_mul_cancel (by grind)
    have hq0 := rat_div_nonneg kk h1
    generalize (k : Rat) / r = q at *
    have e : (k : Rat) * p = q * (r * p) := by rw [← hq]; grind
    have l := Rat.mul_le_mul_of_nonneg_left h2 hq0
    have u := Rat.mul_le_mul_of_nonneg_left h3 hq0
    rw [← e] at l u
    generalize (k : Rat) * p = T at *
    clear h2 h3 e hq h1 hT
    constructor <;> grind
  · unfold exactSpan
    rw [if_neg (by grind), if_pos h1]
    have l := Rat.mul_le_mul_of_nonneg_left h2 kk
    have u := Rat.mul_le_mul_of_nonneg_left h3 kk
    have e : (k : Rat) * -r * 1000000000 = k * (-r * 1000000000) := by grind
    rw [e]
    have e2 : (k : Rat) * ((p : Rat) - p / 2 ^ 53) = k * p - k * p / 2 ^ 53 := by grind
    have e3 : (k : Rat) * ((p : Rat) + p / 2 ^ 53) = k * p + k * p / 2 ^ 53 := by grind
    rw [e2] at l
    rw [e3] at u
    generalize (k : Rat) * (-r * 1000000000) = E at *
    generalize (k : Rat) * p = T at *
    clear h2 h3 e e2 e3 h1 hT
    constructor <;> grind

theorem rawSpan_period {rnd : Rat → Rat} (hr : Rounding rnd) {p : Nat} (hp1 : 1 ≤ p) {r : Rat}
    (hp : HasPeriod p r) {k : Int} (h0 : 0 ≤ k) (hk : k * p ≤ 2 ^ 49) :
    rawSpan rnd k r = .ok (k * p) := by
  have hkp : k ≤ k * p := by
    have := Int.mul_le_mul_of_nonneg_left (show (1 : Int) ≤ p by omega) h0
    omega
  obtain ⟨n1, n2⟩ := period_near hp h0
  have hT : ((k * p : Int) : Rat) ≤ ((2 ^ 49 : Int) : Rat) := Rat.intCast_le_intCast.2 hk
  have hT0 : ((0 : Int) : Rat) ≤ ((k * p : Int) : Rat) :=
    Rat.intCast_le_intCast.2 (Int.mul_nonneg h0 (by omega))
  generalize k * (p : Int) = T at *
  have c49 : ((2 ^ 49 : Int) : Rat) = 562949953421312 := by decide +kernel
  rw [c49] at hT
  have c0 : ((0 : Int) : Rat) = 0 := rfl
  rw [c0] at hT0
  obtain ⟨s, h1, _, h2, h3, _⟩ := rawSpan_near hr h0 (by omega) r (by clear hr; grind)
  rw [h1]
  congr 1
  generalize exactSpan k r = E at *
  have u : (s : Rat) < ((T + 1 : Int) : Rat) := by
    rw [Rat.intCast_add]; clear hr; grind
  have l : ((T - 1 : Int) : Rat) < (s : Rat) := by
    rw [Rat.intCast_sub]; clear hr; grind
  have u' := Rat.intCast_lt_intCast.1 u
  have l' := Rat.intCast_lt_intCast.1 l
  omega

/-! ## The list of leap seconds -/

/-- Leap seconds are fully passed at the time `v` that would be without them. -/
def Passed (leaps : List Leap) (t v : Int) : Prop :=
  ∃ l ∈ leaps, t < l.leapsecond ∧ l.leapsecond ≤ v - 1000000000

theorem adjust_eq (leaps : List Leap) {t s : Int} (ht : -9223372035854775808 ≤ t) (hs : 0 ≤ s)
    (hv : t + s ≤ 9223372036854775807) :
    (Passed leaps t (t + s) → adjust t s leaps = .ok (s - 1000000000)) ∧
    (¬ Passed leaps t (t + s) → adjust t s leaps = .ok s) := by
  induction leaps with
  | nil =>
    refine ⟨fun h => ?_, fun _ => rfl⟩
    obtain ⟨l, hl, _⟩ := h
    cases hl
  | cons l ls ih =>
    have hf : (!(fitsInt64 (t + s) && fitsInt64 (t + s - NSTMODULUS))) = false := by
      unfold fitsInt64 NSTMODULUS
      simp only [Bool.not_eq_false', Bool.and_eq_true, decide_eq_true_eq]
      omega
    unfold adjust
    rw [hf]
    have hn : NSTMODULUS = 1000000000 := rfl
    by_cases h1 : l.leapsecond > t
    · rw [if_pos h1]
      by_cases h2 : l.leapsecond ≤ t + s - NSTMODULUS
      · rw [if_neg (by simp), if_pos h2]
        refine ⟨fun _ => rfl, fun h => absurd ⟨l, by simp, h1, by omega⟩ h⟩
      · rw [if_neg (by simp), if_neg h2]
        refine ⟨fun h => ih.1 ?_, fun h => ih.2 fun ⟨l', m, a, b⟩ => h ⟨l', by simp [m], a, b⟩⟩
        obtain ⟨l', m, a, b⟩ := h
        rcases List.mem_cons.1 m with e | m
        · subst e; omega
        · exact ⟨l', m, a, b⟩
    · rw [if_neg h1]
      refine ⟨fun h => ih.1 ?_, fun h => ih.2 fun ⟨l', m, a, b⟩ => h ⟨l', by simp [m], a, b⟩⟩
      obtain ⟨l', m, a, b⟩ := h
      rcases List.mem_cons.1 m with e | m
      · subst e; omega
      · exact ⟨l', m, a, b⟩

/-- Whatever the walk does, it takes off nothing or a second, the latter only for a leap second that
is passed. -/
theorem adjust_cases {leaps : List Leap} {t s s' : Int} (h : adjust t s leaps = .ok s') :
    (s' = s - 1000000000 ∧ Passed leaps t (t + s)) ∨ (s' = s ∧ ¬ Passed leaps t (t + s)) := by
  induction leaps with
  | nil =>
    cases h
    exact .inr ⟨rfl, fun ⟨l, hl, _⟩ => by cases hl⟩
  | cons l ls ih =>
    have hn : NSTMODULUS = 1000000000 := rfl
    unfold adjust at h
    by_cases h1 : l.leapsecond > t
    · rw [if_pos h1] at h
      split at h
      · cases h
      · split at h
        · rename_i h2
          cases h
          exact .inl ⟨rfl, l, by simp, h1, by omega⟩
        · rename_i h2
          rcases ih h with ⟨e, l', m, a, b⟩ | ⟨e, n⟩
          · exact .inl ⟨e, l', by simp [m], a, b⟩
          · refine .inr ⟨e, fun ⟨l', m, a, b⟩ => ?_⟩
            rcases List.mem_cons.1 m with e | m
            · subst e; omega
            · exact n ⟨l', m, a, b⟩
    · rw [if_neg h1] at h
      rcases ih h with ⟨e, l', m, a, b⟩ | ⟨e, n⟩
      · exact .inl ⟨e, l', by simp [m], a, b⟩
      · refine .inr ⟨e, fun ⟨l', m, a, b⟩ => ?_⟩
        rcases List.mem_cons.1 m with e | m
        · subst e; omega
        · exact n ⟨l', m, a, b⟩

/-- `ms_sampletime` by its span. -/
theorem sampletime_cases {rnd : Rat → Rat} {leaps : List Leap} {t k : Int} {r : Rat} {u : Int}
    (h : sampletime rnd leaps t k r = .ok u) : ∃ s, rawSpan rnd k r = .ok s ∧
      ((u = t + s - 1000000000 ∧ Passed leaps t (t + s)) ∨ (u = t + s ∧ ¬ Passed leaps t (t + s))) ∧
      fitsInt64 u = true := by
  unfold sampletime at h
  cases hs : rawSpan rnd k r with
  | ub => rw [hs] at h; cases h
  | ok s =>
    rw [hs] at h
    simp only at h
    cases ha : adjust t s leaps with
    | ub => rw [ha] at h; cases h
    | ok s' =>
      rw [ha] at h
      simp only at h
      split at h
      · rename_i hf
        cases h
        refine ⟨s, rfl, ?_, hf⟩
        rcases adjust_cases ha with ⟨e, p⟩ | ⟨e, p⟩
        · exact .inl ⟨by omega, p⟩
        · exact .inr ⟨by omega, p⟩
      · cases h

theorem sampletime_ok {rnd : Rat → Rat} {leaps : List Leap} {t k : Int} {r : Rat} {s : Int}
    (hs : rawSpan rnd k r = .ok s) (h0 : 0 ≤ s) (ht : -9223372035854775808 ≤ t)
    (hv : t + s ≤ 9223372036854775807) :
    (Passed leaps t (t + s) → sampletime rnd leaps t k r = .ok (t + s - 1000000000)) ∧
    (¬ Passed leaps t (t + s) → sampletime rnd leaps t k r = .ok (t + s)) := by
  obtain ⟨a, b⟩ := adjust_eq leaps ht h0 hv
  constructor
  · intro h
    unfold sampletime
    rw [hs]
    simp only
    rw [a h]
    simp only
    have e : t + (s - 1000000000) = t + s - 1000000000 := by omega
    rw [e, if_pos]
    unfold fitsInt64
    rw [decide_eq_true_eq]
    obtain ⟨l, _, h1, h2⟩ := h
    omega
  · intro h
    unfold sampletime
    rw [hs]
    simp only
    rw [b h]
    simp only
    rw [if_pos]
    unfold fitsInt64
    rw [decide_eq_true_eq]
    omega

/-! ## Leap second files -/

theorem fgets_line (s rest : List Char) (hs : ∀ c ∈ s, c ≠ '\n') :
    ∀ n, s.length < n → fgets n (s ++ '\n' :: rest) = (s ++ ['\n'], rest) := by
  induction s with
  | nil =>
    intro n hn
    obtain ⟨m, rfl⟩ : ∃ m, n = m + 1 := ⟨n - 1, by simp at hn; omega⟩
    rfl
  | cons c s ih =>
    intro n hn
    simp only [List.length_cons] at hn
    obtain ⟨m, rfl⟩ : ∃ m, n = m + 1 := ⟨n - 1, by omega⟩
    have := ih (fun d hd => hs d (by simp [hd])) m (by omega)
    simp only [List.cons_append, fgets, if_neg (hs c (by simp)), this]

theorem fgets_last (s : List Char) (hs : ∀ c ∈ s, c ≠ '\n') :
    ∀ n, s.length ≤ n → fgets n s = (s, []) := by
  induction s with
  | nil => intro n _; cases n <;> rfl
  | cons c s ih =>
    intro n hn
    simp only [List.length_cons] at hn
    obtain ⟨m, rfl⟩ : ∃ m, n = m + 1 := ⟨n - 1, by omega⟩
    have := ih (fun d hd => hs d (by simp [hd])) m (by omega)
    simp only [fgets, if_neg (hs c (by simp)), this]

/-- The characters of a line. -/
def Plain (s : List Char) : Prop := ∀ c ∈ s, c ≠ '\n' ∧ c ≠ '\x00'

theorem lineText_line (s rest : List Char) (hs : Plain s) : lineText (s ++ '\n' :: rest) = s := by
  unfold lineText
  rw [List.takeWhile_append_of_pos]
  · rw [List.takeWhile_cons_of_neg (by decide), List.append_nil]
  · intro c hc
    have := hs c hc
    simp [this.1, this.2]

theorem lineText_last (s : List Char) (hs : Plain s) : lineText s = s := by
  unfold lineText
  have := List.takeWhile_append_of_pos (p := fun c => c ≠ '\x00' && c ≠ '\n') (l₁ := s) (l₂ := [])
    (fun c hc => by simp [(hs c hc).1, (hs c hc).2])
  simpa using this

theorem scanInt_blank {w s : List Char} (hw : Blank w) : scanInt (w ++ s) = scanInt s := by
  have e : (w ++ s).dropWhile isSpace = s.dropWhile isSpace := by
    rw [List.dropWhile_append_of_pos]
    intro c hc
    rcases hw c hc with rfl | rfl <;> rfl
  unfold scanInt
  rw [e]

/-- What a line does that says something. -/
def effectOf (now : Int) (text : List Char) : Said → Effect
  | .nothing => .skip
  | .expires n => if now > (n : Int) - 2208988800 then .expired else .skip
  | .entry n d => .entry ⟨ntpTime n, d⟩
  | .unknown => .unrecognized text

theorem numeral_take {lead a t : List Char} {n : Nat} (hl : Blank lead) (ha : Numeral a n) :
    lead ++ (a ++ t) ≠ [] ∧ (lead ++ (a ++ t)).take 1 ≠ ['#'] ∧
      (lead ++ (a ++ t)).take 2 ≠ ['#', '@'] := by
  have key : ∃ c u, lead ++ (a ++ t) = c :: u ∧ c ≠ '#' := by
    cases lead with
    | cons c l =>
      refine ⟨c, l ++ (a ++ t), rfl, ?_⟩
      rcases hl c (by simp) with rfl | rfl <;> decide
    | nil =>
      obtain ⟨h1, h2, _⟩ := ha
      cases a with
      | nil => exact absurd rfl h1
      | cons c a =>
        refine ⟨c, a ++ t, rfl, ?_⟩
        have := h2 c (by simp)
        intro e
        subst e
        revert this
        decide
  obtain ⟨c, u, e, hc⟩ := key
  rw [e]
  refine ⟨by simp, by simpa using hc, ?_⟩
  cases u with
  | nil => simp
  | cons d u => simp [hc]

theorem fits {x : Int} (h1 : -9223372036854775808 ≤ x) (h2 : x ≤ 9223372036854775807) :
    fitsInt64 x = true := by
  unfold fitsInt64
  rw [decide_eq_true_eq]
  exact ⟨h1, h2⟩

theorem line_nil {s : List Char} {w : Said} (h : Line s w) (hs : s = []) : w = .nothing := by
  cases h with
  | empty => rfl
  | comment => cases hs
  | expires => cases hs
  | entry hl ha _ _ _ _ => exact absurd hs (numeral_take hl ha).1
  | other => simp at hs
  | lacking hl ha _ _ => exact absurd hs (numeral_take hl ha).1

theorem lineEffect_line (now : Int) {s : List Char} {w : Said} (h : Line s w) (hr : w.InRange) :
    lineEffect now s = .ok (effectOf now s w) := by
  cases h with
  | empty => rfl
  | comment t ht =>
    unfold lineEffect
    rw [if_neg (by simp), if_neg, if_pos (by simp)]
    · rfl
    · cases t with
      | nil => simp
      | cons c u =>
        have := ht u
        intro e
        simp only [List.take_succ_cons, List.cons.injEq, List.take_zero, and_true, true_and] at e
        exact this (by rw [e])
  | @expires ws a t n hw ha ht =>
    have hr : n ≤ 11432360836 := hr
    unfold lineEffect
    rw [if_neg (by simp), if_pos (by simp)]
    unfold expiry
    rw [show ('#' :: '@' :: (ws ++ (a ++ t))).drop 2 = ws ++ (a ++ t) from rfl, scanInt_blank hw,
      scanInt_numeral ha ht]
    have f1 : fitsInt64 n = true := fits (by omega) (by omega)
    have f2 : fitsInt64 (n - NTPPOSIXEPOCHDELTA) = true := by
      apply fits <;> unfold NTPPOSIXEPOCHDELTA <;> omega
    have f3 : fitsInt64 ((n - NTPPOSIXEPOCHDELTA) * NSTMODULUS) = true := by
      apply fits <;> unfold NTPPOSIXEPOCHDELTA NSTMODULUS <;> omega
    simp only [f1, f2, f3, Bool.and_self, Bool.not_true, Bool.false_eq_true, if_false, if_true,
      effectOf]
    show (if now > (n : Int) - 2208988800 then _ else _) = _
    split <;> rfl
  | @entry lead a ws b t n d hl ha hw hne hb ht =>
    obtain ⟨hr1, hr2⟩ : n ≤ 11432360836 ∧ d < 2147483648 := hr
    obtain ⟨t1, t2, t3⟩ := numeral_take (t := ws ++ (b ++ t)) hl ha
    unfold lineEffect
    rw [if_neg t1, if_neg t3, if_neg t2]
    unfold entryLine
    have st : ∀ c u, ws ++ (b ++ t) = c :: u → ¬ Digit c := by
      intro c u e
      cases ws with
      | nil => exact absurd rfl hne
      | cons x ws =>
        have hx := hw x (by simp)
        cases e
        rcases hx with rfl | rfl <;> decide
    rw [scanInt_blank hl, scanInt_numeral ha st]
    simp only
    rw [scanInt_blank hw, scanInt_numeral hb ht]
    have f1 : fitsInt64 n = true := fits (by omega) (by omega)
    have f2 : fitsInt64 (n - NTPPOSIXEPOCHDELTA) = true := by
      apply fits <;> unfold NTPPOSIXEPOCHDELTA <;> omega
    have f3 : fitsInt64 (ntpEpoch2nstime n) = true := by
      apply fits <;> unfold ntpEpoch2nstime NTPPOSIXEPOCHDELTA NSTMODULUS <;> omega
    have f4 : decide (-2147483648 ≤ (d : Int) ∧ (d : Int) ≤ 2147483647) = true := by
      rw [decide_eq_true_eq]; omega
    simp only [f1, f2, f3, f4, Bool.and_self, Bool.not_true, Bool.false_eq_true, if_false, if_true,
      effectOf]
    rfl
  | @other lead t c hl h1 h2 h3 h4 h5 =>
    have hc : isSpace c = false := by
      unfold isSpace; rw [decide_eq_false_iff_not]; omega
    have key : ∃ d u, lead ++ c :: t = d :: u ∧ d ≠ '#' := by
      cases lead with
      | cons d l =>
        refine ⟨d, l ++ c :: t, rfl, ?_⟩
        rcases hl d (by simp) with rfl | rfl <;> decide
      | nil => exact ⟨c, t, rfl, h3⟩
    have hs : scanInt (lead ++ c :: t) = none := by
      rw [scanInt_blank hl]
      have e : (c :: t).dropWhile isSpace = c :: t := by simp [hc]
      have hsg : sign (c :: t) = (false, c :: t) := by
        unfold sign
        split
        · rename_i he; cases he; exact absurd rfl h5
        · rename_i he; cases he; exact absurd rfl h4
        · rfl
      unfold scanInt
      rw [e, hsg]
      simp [isDigit_not h2]
    obtain ⟨d, u, e, hd⟩ := key
    unfold lineEffect
    rw [if_neg (by rw [e]; simp), if_neg, if_neg]
    · unfold entryLine
      rw [hs]
      rfl
    · rw [e]; simpa using hd
    · rw [e]
      cases u with
      | nil => simp
      | cons x u => simp [hd]
  | @lacking lead a ws n hl ha hn hw =>
    obtain ⟨t1, t2, t3⟩ := numeral_take (t := ws) hl ha
    have st : ∀ c u, ws = c :: u → ¬ Digit c := by
      intro c u e
      have hx := hw c (by rw [e]; simp)
      rcases hx with rfl | rfl <;> decide
    have hnone : scanInt ws = none := by
      have := scanInt_blank (s := []) hw
      rw [List.append_nil] at this
      rw [this]; rfl
    unfold lineEffect
    rw [if_neg t1, if_neg t3, if_neg t2]
    unfold entryLine
    have f1 : fitsInt64 n = true := fits (by omega) (by omega)
    rw [scanInt_blank hl, scanInt_numeral ha st]
    simp only [f1, hnone, Bool.not_true, Bool.false_eq_true, if_false]
    rfl

/-- The result of the lines. -/
def result (now : Int) (a : Loaded) : List (List Char × Said) → Loaded
  | [] => a
  | w :: l => result now (apply a (effectOf now w.1 w.2)) l

theorem result_eq (now : Int) (l : List (List Char × Said)) : ∀ a : Loaded, result now a l =
    { ret := a.ret + (table (l.map (·.2))).length
      list := a.list ++ (table (l.map (·.2))).map fun p => ⟨p.1, p.2⟩
      expired := a.expired + passed now (l.map (·.2))
      unrecognized := a.unrecognized ++ (l.filter fun p => p.2 = .unknown).map (·.1) } := by
  induction l with
  | nil => intro a; simp [result, table, passed]
  | cons w l ih =>
    intro a
    unfold result
    rw [ih]
    obtain ⟨text, w⟩ := w
    cases w with
    | nothing => simp [effectOf, apply, table, passed]
    | expires n =>
      simp only [effectOf, List.map_cons, table, passed]
      split
      · simp [apply]; omega
      · simp [apply]
    | entry n d =>
      simp [effectOf, apply, table, passed]
      omega
    | unknown => simp [effectOf, apply, table, passed]

theorem readLines_file (now : Int) (last : Bool) : ∀ (l : List (List Char × Said)) (a : Loaded)
    (fuel : Nat), (∀ p ∈ l, Line p.1 p.2 ∧ p.2.InRange ∧ Plain p.1 ∧ p.1.length ≤ 197) →
    (fileText (l.map (·.1)) last).length < fuel →
    readLines now fuel (fileText (l.map (·.1)) last) a = .ok (result now a l) := by
  intro l
  induction l with
  | nil =>
    intro a fuel _ hf
    obtain ⟨m, rfl⟩ : ∃ m, fuel = m + 1 := ⟨fuel - 1, by omega⟩
    rfl
  | cons p l ih =>
    intro a fuel hl hf
    obtain ⟨m, rfl⟩ : ∃ m, fuel = m + 1 := ⟨fuel - 1, by omega⟩
    obtain ⟨h1, h2, h3, h4⟩ := hl p (by simp)
    have hnl : ∀ c ∈ p.1, c ≠ '\n' := fun c hc => (h3 c hc).1
    have newline : ∀ rest, readLines now m rest (apply a (effectOf now p.1 p.2)) =
        .ok (result now (apply a (effectOf now p.1 p.2)) l) →
        readLines now (m + 1) (p.1 ++ '\n' :: rest) a =
          .ok (result now a (p :: l)) := by
      intro rest hrest
      unfold readLines
      rw [fgets_line p.1 rest hnl 198 (by omega)]
      simp only [List.append_eq_nil_iff, List.cons_ne_self, and_false, if_false]
      rw [lineText_line p.1 [] h3, lineEffect_line now h1 h2]
      simp only
      rw [hrest]
      rfl
    cases l with
    | nil =>
      simp only [List.map_cons, List.map_nil, fileText] at hf ⊢
      cases last with
      | true =>
        simp only [if_true] at hf ⊢
        apply newline []
        obtain ⟨m', rfl⟩ : ∃ m', m = m' + 1 := ⟨m - 1, by simp at hf; omega⟩
        rfl
      | false =>
        simp only [Bool.false_eq_true, if_false] at hf ⊢
        unfold readLines
        rw [fgets_last p.1 hnl 198 (by omega)]
        simp only
        rw [lineText_last p.1 h3, lineEffect_line now h1 h2]
        by_cases he : p.1 = []
        · rw [if_pos he]
          have hw : p.2 = .nothing := line_nil h1 he
          simp only [result, hw, effectOf, apply]
        · rw [if_neg he]
          simp only
          obtain ⟨m', rfl⟩ : ∃ m', m = m' + 1 := by
            refine ⟨m - 1, ?_⟩
            have := List.length_pos_iff.2 he
            omega
          rfl
    | cons q l =>
      have e : fileText ((p :: q :: l).map (·.1)) last =
          p.1 ++ '\n' :: fileText ((q :: l).map (·.1)) last := rfl
      rw [e] at hf ⊢
      apply newline
      apply ih
      · exact fun x hx => hl x (List.mem_cons_of_mem _ hx)
      · simp only [List.length_append, List.length_cons] at hf
        omega

end Verif.Proof.SampleTime
