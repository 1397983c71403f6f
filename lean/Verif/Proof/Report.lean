import Verif.Model.Report
import Verif.Props.ReportDefs
import Verif.Props.TimeStr
import Verif.Props.Gaps
import Verif.Proof.Printf
import Verif.Proof.TraceFacts
import Verif.Proof.TracePack
import Verif.Proof.TraceRuns
/-!
# Lemmas on the lists printed
-/
namespace Verif.Proof.Report
open Verif.Model Verif.Model.Steim Verif.Model.Trace Verif.Model.TraceList Verif.Model.Report
open Verif.Model.Rate (fabs)
open Verif.Model.Gaps (Line samplesOf gapOf gapChecked seconds)
open Verif.Model.Options (lit)
open Verif.Props.Report Verif.Props.Gaps Verif.Spec Verif.Spec.Decimal Verif.Proof.Printf
open Verif.Props.TracePack (Each)

theorem left_eq (w : Nat) (s : List UInt8) : left w s = s.rightpad w 32 := rfl

theorem ascii_length (s : List Char) : (ascii s).length = s.length := List.length_map _

theorem bytes_eq (s : List Char) : bytes s = ascii s := rfl

theorem lit_eq (s : String) : lit s = ascii s.toList := rfl

theorem ascii_append (a b : List Char) : ascii (a ++ b) = ascii a ++ ascii b := List.map_append

theorem left_length (w : Nat) (s : List UInt8) : (left w s).length = max w s.length := by
  unfold left
  rw [List.length_append, List.length_replicate]
  omega

theorem left_long {w : Nat} {s : List UInt8} (h : w ≤ s.length) : left w s = s := by
  unfold left
  rw [show w - s.length = 0 by omega]
  exact List.append_nil s

theorem modern_int64 {t : Int} (h : Modern t) : InInt64 t := by
  unfold Modern at h
  unfold InInt64
  omega

/-- Times are written. -/
theorem timeText_ok (fmt : TimeStr.Format) (sub : TimeStr.Sub) {t : Int} (h : Modern t) :
    ∃ s, timeText fmt sub t = some s ∧ TimeShown fmt sub t s ∧ s.length ≤ 36 := by
  obtain ⟨s, e, hl⟩ := Verif.Props.TimeStr.C07_length t (modern_int64 h) fmt sub
  refine ⟨ascii s, ?_, ⟨s, e, rfl⟩, by rw [ascii_length]; exact hl⟩
  unfold timeText
  rw [e]
  rfl

/-- Numbers are written. -/
theorem general_shown (p : Nat) (hp : 0 < p) (x : Rat) : NumberShown p x (bytes (Printf.general p x)) := by
  by_cases h : HasDigits p x
  · refine ⟨_, x, rfl, general_exact p hp x h, ?_, fun _ => rfl⟩
    rw [Rat.sub_self, Rat.abs_zero]
    refine Rat.mul_nonneg Rat.abs_nonneg ?_
    rw [Rat.div_def]
    exact Rat.mul_nonneg (by grind) (Rat.le_of_lt (Rat.inv_pos.2 (npos _)))
  · obtain ⟨y, h1, h2⟩ := general_near p hp x
    exact ⟨_, y, rfl, h1, h2, fun h' => absurd h' h⟩

/-! ## Gaps -/

theorem z10 (k : Nat) : (10 : Rat) ^ (-(k : Int)) = 1 / 10 ^ k := by
  rw [Rat.zpow_neg, Rat.zpow_natCast, Rat.div_def, Rat.one_mul]

/-- The gaps between neat segments are of the size of a `double`. -/
theorem gap_bounds {rnd : Rat → Rat} (h : Rounding rnd) {q s : Seg Rat} (hq : Neat q) (hs : Neat s) :
    (gapOf rnd q s).abs ≤ 10 ^ 10 ∧ (gapOf rnd q s = 0 ∨ (10 : Rat) ^ (-402 : Int) ≤ (gapOf rnd q s).abs) := by
  have b1 := hq.stop
  have b2 := hs.start
  have b3 := hs.stop
  unfold Modern at b1 b2 b3
  -- the difference of times
  have key : ∀ n : Int, -2 ^ 63 < n → n < 2 ^ 63 → (seconds rnd n).abs ≤ 10 ^ 10 ∧
      (n = 0 → seconds rnd n = 0) ∧ (0 < n → 1 / 10 ^ 10 ≤ seconds rnd n) ∧
      (n < 0 → seconds rnd n ≤ -(1 / 10 ^ 10)) := by
    intro n h1 h2
    obtain ⟨p, m⟩ := seconds_bounds h n
    have c1 : (n : Rat) < ((2 ^ 63 : Int) : Rat) := Rat.intCast_lt_intCast.2 h2
    have c2 : ((-2 ^ 63 : Int) : Rat) < (n : Rat) := Rat.intCast_lt_intCast.2 h1
    have e1 : ((2 ^ 63 : Int) : Rat) = 2 ^ 63 := by decide +kernel
    have e2 : ((-2 ^ 63 : Int) : Rat) = -2 ^ 63 := by decide +kernel
    rw [e1] at c1
    rw [e2] at c2
    refine ⟨?_, ?_, ?_, ?_⟩
    · by_cases h0 : 0 ≤ n
      · have p' := p h0
        have c0 : (0 : Rat) ≤ n := by exact_mod_cast h0
        clear p m h
        rw [Rat.abs_of_nonneg (by grind)]
        grind
      · have m' := m (by omega)
        have c0 : (n : Rat) ≤ 0 := by
          have : n ≤ 0 := by omega
          exact_mod_cast this
        clear p m h
        rw [Rat.abs_of_nonpos (by grind)]
        grind
    · intro h0
      subst h0
      have p' := p (Int.le_refl _)
      have : ((0 : Int) : Rat) = 0 := rfl
      clear p m h
      grind
    · intro h0
      have p' := p (by omega)
      have c0 : (1 : Rat) ≤ n := by
        have : 1 ≤ n := by omega
        exact_mod_cast this
      clear p m h
      grind
    · intro h0
      have m' := m (by omega)
      have c0 : (n : Rat) ≤ -1 := by
        have h' : n ≤ -1 := by omega
        have := Rat.intCast_le_intCast.2 h'
        have e : ((-1 : Int) : Rat) = -1 := by decide +kernel
        rw [e] at this
        exact this
      clear p m h
      grind
  obtain ⟨k1, k2, k3, k4⟩ := key (s.start - q.stop) (by omega) (by omega)
  obtain ⟨j1, j2, j3, _⟩ := key (s.stop - s.start) (by omega) (by omega)
  clear key
  have horder := hs.order
  have small : (10 : Rat) ^ (-402 : Int) ≤ 1 / 10 ^ 10 := by decide +kernel
  unfold gapOf
  simp only
  by_cases hg : seconds rnd (s.start - q.stop) < 0
  · rw [if_pos hg]
    have hneg : s.start - q.stop < 0 := by
      refine Int.not_le.1 fun h0 => ?_
      rcases Int.lt_or_eq_of_le h0 with h0 | h0
      · have := k3 h0
        clear k1 k2 k4 j1 j2 j3 h
        grind
      · have := k2 h0.symm
        rw [this] at hg
        exact absurd hg (by decide +kernel)
    have kk := k4 hneg
    -- the time covered
    have hdelta : ∃ d : Rat, (if s.rate ≠ 0 then rnd (1 / s.rate) else 0) = d ∧
        (d = 0 ∨ (10 : Rat) ^ (-401 : Int) ≤ d) := by
      refine ⟨_, rfl, ?_⟩
      rcases hs.rate with hr | hr
      · rw [if_neg (by simpa using hr)]
        exact Or.inl rfl
      · have hpos : 0 < s.rate := Std.lt_of_lt_of_le (zpos (-400)) hr.1
        rw [if_pos (Rat.ne_of_gt hpos)]
        right
        have hinv : (10 : Rat) ^ (-400 : Int) ≤ 1 / s.rate := by
          rw [le_div hpos]
          have h1 := Rat.mul_le_mul_of_nonneg_left (Rat.le_of_lt hr.2) (Rat.le_of_lt (zpos (-400)))
          have h2 : (10 : Rat) ^ (-400 : Int) * 10 ^ (400 : Int) = 1 := by
            rw [← zadd]
            exact Rat.zpow_zero _
          rw [h2] at h1
          exact h1
        have h0 : 0 ≤ 1 / s.rate := Rat.le_trans (Rat.le_of_lt (zpos (-400))) hinv
        have hn := h.near (1 / s.rate) h0
        have e : (10 : Rat) ^ (-400 : Int) = 10 * 10 ^ (-401 : Int) := by decide +kernel
        have := zpos (-401)
        generalize (10 : Rat) ^ (-401 : Int) = u at *
        generalize 1 / s.rate = v at *
        rw [e] at hinv
        clear e k1 k2 k3 k4 j1 j2 j3 h
        grind
    obtain ⟨d, ed, hd⟩ := hdelta
    rw [ed]
    clear ed
    have hd0 : 0 ≤ d := by
      rcases hd with hd | hd
      · rw [hd]; exact Rat.le_refl
      · exact Rat.le_trans (Rat.le_of_lt (zpos _)) hd
    have hj0 : 0 ≤ seconds rnd (s.stop - s.start) := by
      rcases Int.lt_or_eq_of_le (show 0 ≤ s.stop - s.start by omega) with h0 | h0
      · have := j3 h0
        clear k1 k2 k3 k4 j1 j2 j3 h
        grind
      · rw [j2 h0.symm]; exact Rat.le_refl
    have hsum : 0 ≤ seconds rnd (s.stop - s.start) + d := Rat.add_nonneg hj0 hd0
    have hn := h.near _ hsum
    have hzero : seconds rnd (s.stop - s.start) + d = 0 ∨
        (10 : Rat) ^ (-401 : Int) ≤ seconds rnd (s.stop - s.start) + d := by
      have s2 : (10 : Rat) ^ (-401 : Int) ≤ 1 / 10 ^ 10 := by decide +kernel
      rcases Int.lt_or_eq_of_le (show 0 ≤ s.stop - s.start by omega) with h0 | h0
      · right
        have := j3 h0
        generalize (10 : Rat) ^ (-401 : Int) = u at *
        clear k1 k2 k3 k4 j1 j2 j3 h hn
        grind
      · rw [j2 h0.symm, Rat.zero_add]
        exact hd
    generalize seconds rnd (s.stop - s.start) + d = c at *
    have hcov : rnd c = 0 ∨ (10 : Rat) ^ (-402 : Int) ≤ rnd c := by
      rcases hzero with hz | hz
      · left
        rw [hz] at hn
        clear k1 k2 k3 k4 j1 j2 j3 h
        rw [hz]
        grind
      · right
        have e : (10 : Rat) ^ (-401 : Int) = 10 * 10 ^ (-402 : Int) := by decide +kernel
        have := zpos (-402)
        rw [e] at hz
        generalize (10 : Rat) ^ (-402 : Int) = u at *
        clear e k1 k2 k3 k4 j1 j2 j3 h
        grind
    have hc0 : 0 ≤ rnd c := by
      rcases hcov with hz | hz
      · rw [hz]; exact Rat.le_refl
      · exact Rat.le_trans (Rat.le_of_lt (zpos _)) hz
    by_cases hbig : -seconds rnd (s.start - q.stop) > rnd c
    · rw [if_pos hbig, Rat.abs_neg, Rat.abs_of_nonneg hc0]
      rw [Rat.abs_of_nonpos (Rat.le_of_lt hg)] at k1
      refine ⟨Rat.le_trans (Rat.le_of_lt hbig) k1, ?_⟩
      rcases hcov with hz | hz
      · left; rw [hz]; rfl
      · exact Or.inr hz
    · rw [if_neg hbig]
      refine ⟨k1, Or.inr ?_⟩
      rw [Rat.abs_of_nonpos (Rat.le_of_lt hg)]
      generalize (10 : Rat) ^ (-402 : Int) = u at *
      clear k1 k2 k3 k4 j1 j2 j3 h hn
      grind
  · rw [if_neg hg]
    refine ⟨k1, ?_⟩
    rcases Int.lt_trichotomy (s.start - q.stop) 0 with h0 | h0 | h0
    · have := k4 h0
      clear k1 k2 k3 k4 j1 j2 j3 h
      grind
    · exact Or.inl (k2 h0)
    · right
      have := k3 h0
      rw [Rat.abs_of_nonneg (Rat.not_lt.1 hg)]
      exact Rat.le_trans small this

theorem fixed_min (p : Nat) (hp : 0 < p) (x : Rat) : p + 2 ≤ (Printf.fixed p x).length := by
  unfold Printf.fixed
  simp only [List.length_append, List.length_cons]
  rw [print0_length p _ hp (Nat.mod_lt _ (Nat.pow_pos (by decide)))]
  have := Nat.length_toDigits_pos (b := 10) (n := Printf.halfEven (x.abs * 10 ^ p) / 10 ^ p)
  omega

theorem abs_iff {g k : Rat} (hk : 0 < k) : (g ≥ k ∨ g ≤ -k) ↔ k ≤ g.abs := by
  constructor
  · rintro (h | h)
    · rw [Rat.abs_of_nonneg (by grind)]; exact h
    · rw [Rat.abs_of_nonpos (by grind)]; grind
  · intro h
    by_cases hg : 0 ≤ g
    · rw [Rat.abs_of_nonneg hg] at h; exact Or.inl h
    · rw [Rat.abs_of_nonpos (by grind)] at h; right; grind

theorem abs_div (g : Rat) {k : Rat} (hk : 0 < k) : (g / k).abs = g.abs / k := by
  have hi : 0 < k⁻¹ := Rat.inv_pos.2 hk
  rw [Rat.div_def, Rat.div_def]
  by_cases hg : 0 ≤ g
  · rw [Rat.abs_of_nonneg hg, Rat.abs_of_nonneg (Rat.mul_nonneg hg (Rat.le_of_lt hi))]
  · have h' : 0 ≤ -g := by grind
    have := Rat.mul_nonneg h' (Rat.le_of_lt hi)
    rw [Rat.abs_of_nonpos (x := g) (by grind), Rat.abs_of_nonpos (by grind)]
    grind

/-- Rounding is near. -/
theorem near_abs {rnd : Rat → Rat} (h : Rounding rnd) (x : Rat) :
    rnd x - x ≤ x.abs / 2 ^ 53 ∧ x - rnd x ≤ x.abs / 2 ^ 53 := by
  by_cases hx : 0 ≤ x
  · have := h.near x hx
    rw [Rat.abs_of_nonneg hx]
    grind
  · have := h.near (-x) (by grind)
    rw [h.odd] at this
    rw [Rat.abs_of_nonpos (by grind)]
    grind

theorem abs_le {x k : Rat} (h1 : x ≤ k) (h2 : -x ≤ k) : x.abs ≤ k := by
  by_cases hx : 0 ≤ x
  · rw [Rat.abs_of_nonneg hx]; exact h1
  · rw [Rat.abs_of_nonpos (by grind)]; exact h2

theorem le_abs (x : Rat) : x ≤ x.abs ∧ -x ≤ x.abs := by
  by_cases hx : 0 ≤ x
  · rw [Rat.abs_of_nonneg hx]; grind
  · rw [Rat.abs_of_nonpos (by grind)]; grind

/-- A quotient to one decimal. -/
theorem fixed_shown {rnd : Rat → Rat} (h : Rounding rnd) (x : Rat) :
    ∃ y, Writes (Printf.fixed 1 (rnd x)) y ∧ Within y x (1 / 20 + x.abs / 2 ^ 53) := by
  obtain ⟨y, hw, h1, h2⟩ := fixed_writes 1 (by decide) (rnd x)
  have hn := near_abs h x
  have e : (1 : Rat) / 2 / 10 ^ 1 = 1 / 20 := by decide +kernel
  rw [e] at h1 h2
  exact ⟨y, hw, by grind, by grind⟩

/-- Gaps are written. -/
theorem gapText_ok {rnd : Rat → Rat} (h : Rounding rnd) (g : Option Rat)
    (hg : ∀ x, g = some x → x.abs ≤ 10 ^ 10 ∧ (x = 0 ∨ (10 : Rat) ^ (-402 : Int) ≤ x.abs)) :
    ∃ s, gapText rnd g = left 4 s ∧ GapShown g s ∧ s.length ≤ 11 := by
  cases g with
  | none => exact ⟨_, rfl, GapShown.first, by decide⟩
  | some g =>
    obtain ⟨hmax, hmin⟩ := hg g rfl
    unfold gapText
    simp only
    have short : ∀ {x : List UInt8}, x.length ≤ 39 → x.take 39 = x := fun hx => List.take_of_length_le hx
    by_cases hd : g ≥ 86400 ∨ g ≤ -86400
    · rw [if_pos hd]
      obtain ⟨y, hw, hy⟩ := fixed_shown h (g / 86400)
      have hmn := fixed_min 1 (by decide) (rnd (g / 86400))
      have hn := near_abs h (g / 86400)
      have hx := le_abs (g / 86400)
      have hab := abs_div g (k := 86400) (by decide +kernel)
      have hl := fixed_length 1 6 (by decide) (rnd (g / 86400)) (by decide) (by
        have e : ((10 ^ 6 - 1 : Nat) : Rat) = 999999 := by decide +kernel
        rw [e]
        generalize (g / 86400).abs = a at *
        refine abs_le ?_ ?_ <;> grind)
      refine ⟨ascii (Printf.fixed 1 (rnd (g / 86400)) ++ ['d']), ?_, ?_, ?_⟩
      · rw [bytes_eq, left_long (w := 3) (by rw [ascii_length]; omega), ascii_append]
        rw [left_long (by rw [List.length_append, ascii_length, ascii_length]; simp; omega)]
        refine short ?_
        rw [List.length_append, ascii_length, lit_eq, ascii_length]
        simp
        omega
      · exact GapShown.days ((abs_iff (by decide +kernel)).1 hd) hw hy
      · rw [ascii_length, List.length_append]
        simp
        omega
    · rw [if_neg hd]
      have hlt : g.abs < 86400 := Rat.not_le.1 fun h' => hd ((abs_iff (by decide +kernel)).2 h')
      by_cases hh : g ≥ 3600 ∨ g ≤ -3600
      · rw [if_pos hh]
        obtain ⟨y, hw, hy⟩ := fixed_shown h (g / 3600)
        have hmn := fixed_min 1 (by decide) (rnd (g / 3600))
        have hn := near_abs h (g / 3600)
        have hx := le_abs (g / 3600)
        have hab := abs_div g (k := 3600) (by decide +kernel)
        have hl := fixed_length 1 6 (by decide) (rnd (g / 3600)) (by decide) (by
          have e : ((10 ^ 6 - 1 : Nat) : Rat) = 999999 := by decide +kernel
          rw [e]
          generalize (g / 3600).abs = a at *
          refine abs_le ?_ ?_ <;> grind)
        refine ⟨ascii (Printf.fixed 1 (rnd (g / 3600)) ++ ['h']), ?_, ?_, ?_⟩
        · rw [bytes_eq, left_long (w := 3) (by rw [ascii_length]; omega), ascii_append]
          rw [left_long (by rw [List.length_append, ascii_length, ascii_length]; simp; omega)]
          refine short ?_
          rw [List.length_append, ascii_length, lit_eq, ascii_length]
          simp
          omega
        · exact GapShown.hours ((abs_iff (by decide +kernel)).1 hh) hlt hw hy
        · rw [ascii_length, List.length_append]
          simp
          omega
      · rw [if_neg hh]
        have hlt' : g.abs < 3600 := Rat.not_le.1 fun h' => hh ((abs_iff (by decide +kernel)).2 h')
        by_cases h0 : g = 0
        · rw [if_pos h0, h0]
          exact ⟨_, rfl, GapShown.zero, by decide⟩
        · rw [if_neg h0]
          have hl := general_length 4 (by decide) g (by
            right
            rcases hmin with hm | hm
            · exact absurd hm h0
            · refine ⟨Rat.le_trans (zmono (by decide)) hm, Std.lt_of_le_of_lt hmax ?_⟩
              decide +kernel)
          refine ⟨bytes (Printf.general 4 g), ?_, ?_, ?_⟩
          · refine short ?_
            rw [left_length, bytes_eq, ascii_length]
            omega
          · exact GapShown.seconds (Rat.abs_pos_iff.2 h0) hlt' (general_shown 4 (by decide) g)
          · rw [bytes_eq, ascii_length]; omega

theorem sensible_sized {r : Rat} (h : Sensible r) : Sized r := by
  rcases h with h | h
  · exact Or.inl h
  · right
    rw [Rat.abs_of_nonneg (Rat.le_trans (Rat.le_of_lt (zpos _)) h.1)]
    exact ⟨Rat.le_trans (zmono (by decide)) h.1, Std.lt_of_lt_of_le h.2 (zmono (by decide))⟩

theorem printD_text (n : Int) : bytes (TimeStr.printD n) = ascii (toString n).toList := by
  rw [bytes_eq]
  congr 1
  show TimeStr.printD n = (Int.repr n).toList
  unfold TimeStr.printD
  cases n with
  | ofNat n =>
    rw [if_neg (by simp)]
    simp [Int.repr, Nat.toList_repr]
  | negSucc n =>
    rw [if_pos (by omega)]
    simp [Int.repr, Nat.toList_repr, String.toList_append]

theorem count_length {n : Int} (h : 0 ≤ n ∧ n < 2 ^ 63) : (ascii (toString n).toList).length ≤ 19 := by
  rw [← printD_text, bytes_eq, ascii_length]
  unfold TimeStr.printD
  rw [if_neg (by omega)]
  exact toDigits_length (by decide) (by omega)

/-! ## The trace list -/

theorem pub_length {n : Nat} (h : n ≤ 255) : (ascii s!"#{n}".toList).length ≤ 4 := by
  have e : s!"#{n}".toList = '#' :: (toString n).toList := by
    simp [String.toList_append]
    rfl
  have : (toString n).toList.length ≤ 3 := by
    show (Nat.repr n).toList.length ≤ 3
    rw [Nat.toList_repr]
    exact toDigits_length (by decide) (by omega)
  rw [ascii_length, e, List.length_cons]
  omega

theorem displaySid_ok (versions : Bool) {id : Source Rat} (h1 : id.sid.length ≤ 63) (h2 : id.pub ≤ 255) :
    displaySid versions id = name versions id ∧ (name versions id).length ≤ 67 := by
  unfold displaySid name
  cases versions with
  | false => exact ⟨rfl, by simp; omega⟩
  | true =>
    have hl := pub_length h2
    have e : (35 : UInt8) :: bytes (TimeStr.printD id.pub) = ascii s!"#{id.pub}".toList := by
      rw [printD_text]
      have : s!"#{id.pub}".toList = '#' :: (toString id.pub).toList := by
        simp [String.toList_append]
        rfl
      rw [this]
      rfl
    simp only [if_true]
    rw [e]
    constructor
    · rw [List.take_of_length_le]
      rw [List.length_append]
      omega
    · rw [List.length_append]; omega

theorem message_short {t : List UInt8} (h : t.length ≤ 199) : message t = t := List.take_of_length_le h

theorem columns_length (sid start stop : List UInt8) (h1 : sid.length ≤ 67) (h2 : start.length ≤ 36)
    (h3 : stop.length ≤ 36) : (columns sid start stop).length ≤ 141 := by
  unfold columns
  simp only [List.length_append, List.length_cons, left_length]
  omega

/-- The line of a segment. -/
theorem segLine_ok {rnd : Rat → Rat} (h : Rounding rnd) (fmt : TimeStr.Format) (details gaps : Bool)
    {sid : List UInt8} (hsid : sid.length ≤ 67) {heap : Heap Rat} {n : Node Rat} {p : Option (Seg Rat)}
    (hn : Neat n.seg) (hp : ∀ q, p = some q → Neat q)
    (hprev : gapBefore rnd heap n = .ok (p.map fun q => gapOf rnd q n.seg)) :
    ∃ line, segLine rnd fmt details gaps sid heap n = .ok (some line) ∧
      TraceRow rnd fmt details gaps sid p n.seg line := by
  obtain ⟨start, e1, t1, l1⟩ := timeText_ok fmt .nanoMicro hn.start
  obtain ⟨stop, e2, t2, l2⟩ := timeText_ok fmt .nanoMicro hn.stop
  obtain ⟨gap, e3, t3, l3⟩ := gapText_ok h (p.map fun q => gapOf rnd q n.seg) (by
    intro x hx
    cases p with
    | none => cases hx
    | some q => cases hx; exact gap_bounds h (hp q rfl) hn)
  have t4 := general_shown 3 (by decide) n.seg.rate
  have l4 : (bytes (Printf.general 3 n.seg.rate)).length ≤ 10 := by
    rw [bytes_eq, ascii_length]
    exact general_length 3 (by decide) _ (sensible_sized hn.rate)
  have l5 := count_length hn.samples
  refine ⟨_, ?_, TraceRow.mk t1 t2 t3 t4⟩
  have hc := columns_length sid start stop hsid l1 l2
  unfold segLine detailText
  rw [e1, e2, hprev]
  simp only [Verif.Proof.Mem.bind_ok]
  have ec : ∀ rest : List UInt8, left 27 sid ++ 32 :: (left 28 start ++ 32 :: (left 28 stop ++ rest))
      = columns sid start stop ++ rest := by
    intro rest
    unfold columns
    simp only [List.append_assoc, List.cons_append]
  have hz : ∀ x : List UInt8, x.rightpad 0 32 = x := fun x => by simp [List.rightpad]
  unfold table
  cases gaps <;> cases details <;>
    simp only [Bool.false_eq_true, if_true, if_false, List.append_nil, List.cons_append, List.nil_append,
      List.map_cons, List.map_nil, List.intercalate, List.intersperse, List.flatten_cons, List.flatten_nil,
      ← left_eq, List.append_assoc, ec]
  · rw [message_short]
    simp only [List.length_append, List.length_cons, List.length_nil]
    omega
  · rw [message_short, printD_text, left_eq 0, hz]
    simp only [List.length_append, List.length_cons, List.length_nil, left_length, printD_text]
    omega
  · rw [message_short, e3, left_long (w := 4) (s := left 4 gap) (by rw [left_length]; omega)]
    simp only [List.length_append, List.length_cons, List.length_nil, left_length, e3]
    omega
  · rw [message_short, printD_text, left_eq 0, hz, e3]
    simp only [List.length_append, List.length_cons, List.length_nil, left_length, printD_text, e3]
    omega

open Verif.Proof.Trace (Links Rep headAddr)

/-- The lines of the segments of a source. -/
theorem segLines_ok {rnd : Rat → Rat} (h : Rounding rnd) (fmt : TimeStr.Format) (details gaps : Bool)
    {sid : List UInt8} (hsid : sid.length ≤ 67) (heap : Heap Rat) :
    ∀ (l : List (Nat × Seg Rat)) (p : Option Nat) (ps : Option (Seg Rat)) (fuel : Nat),
    Links heap p l none → (p = none ∧ ps = none ∨ ∃ b m, p = some b ∧ heap b = some m ∧ ps = some m.seg) →
    (∀ y ∈ l, Neat y.2) → (∀ q, ps = some q → Neat q) → l.length ≤ fuel →
    ∃ lines, segLines rnd fmt details gaps sid heap fuel (headAddr l none) = .ok (lines, true) ∧
      Each (fun x line => TraceRow rnd fmt details gaps sid x.1 x.2 line) (pairs ps (l.map Prod.snd)) lines := by
  intro l
  induction l with
  | nil =>
    intro p ps fuel _ _ _ _ _
    exact ⟨[], by cases fuel <;> rfl, trivial⟩
  | cons y t ih =>
    intro p ps fuel hl hp hn hps hf
    obtain ⟨a, s⟩ := y
    cases fuel with
    | zero => simp at hf
    | succ fuel =>
      have ha : heap a = some ⟨s, headAddr t none, p⟩ := hl.1
      have e1 : fetch heap a = .ok ⟨s, headAddr t none, p⟩ := by unfold fetch; rw [ha]
      have hgb : gapBefore rnd heap ⟨s, headAddr t none, p⟩ = .ok (ps.map fun q => gapOf rnd q s) := by
        unfold gapBefore
        rcases hp with ⟨h1, h2⟩ | ⟨b, m, h1, h2, h3⟩
        · rw [h1, h2]; rfl
        · rw [h1, h3]
          simp only
          have e2 : fetch heap b = .ok m := by unfold fetch; rw [h2]
          have hm := hps m.seg h3
          have hs := hn (a, s) (by simp)
          rw [e2, Verif.Proof.Mem.bind_ok, gapChecked_modern rnd ⟨hm.start, hm.stop⟩ ⟨hs.start, hs.stop⟩,
            Verif.Proof.Mem.bind_ok]
          rfl
      obtain ⟨line, e3, hrow⟩ := segLine_ok h fmt details gaps hsid (heap := heap)
        (n := ⟨s, headAddr t none, p⟩) (hn (a, s) (by simp)) hps hgb
      obtain ⟨lines, e4, hrows⟩ := ih (some a) (some s) fuel hl.2 (Or.inr ⟨a, _, rfl, ha, rfl⟩)
        (fun y hy => hn y (List.mem_cons_of_mem _ hy)) (fun q hq => by cases hq; exact hn (a, s) (by simp))
        (by simpa using hf)
      refine ⟨line :: lines, ?_, hrow, hrows⟩
      show segLines rnd fmt details gaps sid heap (fuel + 1) (some a) = _
      unfold segLines
      rw [e1, Verif.Proof.Mem.bind_ok, e3, Verif.Proof.Mem.bind_ok]
      simp only
      rw [e4, Verif.Proof.Mem.bind_ok]

theorem each_length {α β : Type} {P : α → β → Prop} : ∀ {a : List α} {b : List β}, Each P a b → a.length = b.length
  | [], [], _ => rfl
  | [], _ :: _, h => h.elim
  | _ :: _, [], h => h.elim
  | _ :: _, _ :: _, h => by simp [each_length h.2]

theorem each_left {α β γ : Type} {P : γ → β → Prop} (f : α → γ) : ∀ {a : List α} {b : List β},
    Each (fun x y => P (f x) y) a b → Each P (a.map f) b
  | [], [], _ => trivial
  | [], _ :: _, h => h.elim
  | _ :: _, [], h => h.elim
  | _ :: _, _ :: _, h => ⟨h.1, each_left f h.2⟩

/-- The lines of the sources. -/
theorem sourceLines_ok {rnd : Rat → Rat} (h : Rounding rnd) (fmt : TimeStr.Format) (details gaps versions : Bool)
    (tl : TraceList Rat) (pick : Nat → List (Nat × Seg Rat)) :
    ∀ (l : List (Nat × Source Rat)) (fuel : Nat), (∀ x ∈ l, tl.sources x.1 = some x.2) →
    (∀ x ∈ l, Rep x.2 (pick x.1)) →
    (∀ x ∈ l, x.2.sid.length ≤ 63 ∧ x.2.pub ≤ 255 ∧ ∀ y ∈ pick x.1, Neat y.2) →
    (∀ i b, (l.map Prod.fst)[i]? = some b → tl.next b 0 = (l.map Prod.fst)[i + 1]?) → l.length ≤ fuel →
    ∃ lines, sourceLines rnd fmt details gaps versions tl fuel (l.map Prod.fst).head?
        = .ok (lines, l.length, true) ∧
      Each (fun x line => TraceRow rnd fmt details gaps (name versions x.1) x.2.1 x.2.2 line)
        (entries (l.map fun x => (x.2, (pick x.1).map Prod.snd))) lines := by
  intro l
  induction l with
  | nil =>
    intro fuel _ _ _ _ _
    exact ⟨[], by cases fuel <;> rfl, trivial⟩
  | cons x t ih =>
    intro fuel hsrc hpick hneat hnext hf
    cases fuel with
    | zero => simp at hf
    | succ fuel =>
      obtain ⟨n1, n2, n3⟩ := hneat x (by simp)
      obtain ⟨d1, d2⟩ := displaySid_ok versions n1 n2
      have hs := hsrc x (by simp)
      have hr := hpick x (by simp)
      have e1 : source tl x.1 = .ok x.2 := by unfold source; rw [hs]
      have e2 : nextOf tl x.1 0 = .ok (tl.next x.1 0) := by
        unfold nextOf; rw [if_pos (Or.inr (by rw [hs]; rfl))]
      have hnb : tl.next x.1 0 = (t.map Prod.fst).head? := by
        have := hnext 0 x.1 rfl
        rw [this]
        simp [List.head?_eq_getElem?]
      obtain ⟨lines, e3, hrows⟩ := segLines_ok h fmt details gaps d2 x.2.heap (pick x.1) none none (x.2.fresh + 1)
        hr.links (Or.inl ⟨rfl, rfl⟩) n3 (fun q hq => by cases hq) (Nat.le_succ_of_le hr.length_le)
      rw [hr.first] at e3
      obtain ⟨more, e4, hmore⟩ := ih fuel (fun y hy => hsrc y (List.mem_cons_of_mem _ hy))
        (fun y hy => hpick y (List.mem_cons_of_mem _ hy)) (fun y hy => hneat y (List.mem_cons_of_mem _ hy))
        (fun i b hi => by simpa using hnext (i + 1) b (by simpa using hi)) (by simpa using hf)
      refine ⟨lines ++ more, ?_, ?_⟩
      · show sourceLines rnd fmt details gaps versions tl (fuel + 1) (some x.1) = _
        unfold sourceLines
        rw [e1, Verif.Proof.Mem.bind_ok, d1, e3, Verif.Proof.Mem.bind_ok]
        simp only [if_true]
        rw [e2, Verif.Proof.Mem.bind_ok, hnb, e4, Verif.Proof.Mem.bind_ok]
        rfl
      · unfold entries
        rw [List.map_cons, List.flatMap_cons]
        exact Verif.Proof.TraceRuns.each_append (each_left (fun y => (x.2, y)) hrows) hmore

/-! ## The SYNC list -/

theorem codesOf_ok (c : Codes) {sid net sta loc chan : List UInt8} (h : Named sid net sta loc chan) :
    codesOf c sid = .ok ⟨net, sta, loc, chan⟩ := by
  obtain ⟨⟨b, s, p, ec, es⟩, hn, hs, hl, hc⟩ := h
  obtain ⟨sid', _, e1, e2⟩ := Verif.Props.Str.C10_sid_round_trip 1000 net sta (some loc) b s p (by decide) hn.1 hs.1
    hl.1 (ec ▸ hc) (by
      have := hn.2; have := hs.2; have := hl.2
      simp only [Option.getD_some]
      omega)
  simp only [Option.getD_some] at e1 e2
  rw [e1, ← es] at e2
  unfold codesOf
  rw [e2]
  simp only
  rw [if_neg ?_]
  · simp [ec]
  · have := hn.2; have := hs.2; have := hl.2
    simp
    omega

theorem syncLine_ok (sub : TimeStr.Sub) {day sid : List UInt8} (hday : day.length ≤ 31) {c : Codes} {s : Seg Rat}
    (hs : Neat s) (hc : Named sid c.net c.sta c.loc c.chan) :
    ∃ line, syncLine sub day c s = .ok line ∧ SyncRow sub day sid s line := by
  obtain ⟨start, e1, t1, l1⟩ := timeText_ok .seedOrdinal sub hs.start
  obtain ⟨stop, e2, t2, l2⟩ := timeText_ok .seedOrdinal sub hs.stop
  have l3 := general_length 10 (by decide) s.rate (sensible_sized hs.rate)
  have l4 := count_length hs.samples
  obtain ⟨b, x, p, ec, _⟩ := hc.sid
  have l5 : c.chan.length = 3 := by rw [ec]; rfl
  refine ⟨_, ?_, SyncRow.mk hc t1 t2 (general_shown 10 (by decide) s.rate)⟩
  unfold syncLine
  rw [e1, e2]
  simp only
  rw [message_short, printD_text]
  · congr 1
    simp [fields, lit, List.intercalate]
  · rw [printD_text]
    have := hc.net.2; have := hc.sta.2; have := hc.loc.2
    simp only [List.length_append, List.length_cons, List.length_nil, bytes_eq, ascii_length, lit_eq] at *
    have e1 : "||".toList.length = 2 := by decide
    have e2 : "|||||||".toList.length = 7 := by decide
    omega

theorem syncSegs_ok (sub : TimeStr.Sub) {day sid : List UInt8} (hday : day.length ≤ 31) {c : Codes}
    (hc : Named sid c.net c.sta c.loc c.chan) (heap : Heap Rat) :
    ∀ (l : List (Nat × Seg Rat)) (p : Option Nat) (fuel : Nat), Links heap p l none →
    (∀ y ∈ l, Neat y.2) → l.length ≤ fuel →
    ∃ lines, syncSegs sub day c heap fuel (headAddr l none) = .ok lines ∧
      Each (fun x line => SyncRow sub day sid x line) (l.map Prod.snd) lines := by
  intro l
  induction l with
  | nil =>
    intro p fuel _ _ _
    exact ⟨[], by cases fuel <;> rfl, trivial⟩
  | cons y t ih =>
    intro p fuel hl hn hf
    obtain ⟨a, s⟩ := y
    cases fuel with
    | zero => simp at hf
    | succ fuel =>
      have ha : heap a = some ⟨s, headAddr t none, p⟩ := hl.1
      have e1 : fetch heap a = .ok ⟨s, headAddr t none, p⟩ := by unfold fetch; rw [ha]
      obtain ⟨line, e3, hrow⟩ := syncLine_ok sub hday (hn (a, s) (by simp)) hc
      obtain ⟨lines, e4, hrows⟩ := ih (some a) fuel hl.2 (fun y hy => hn y (List.mem_cons_of_mem _ hy))
        (by simpa using hf)
      refine ⟨line :: lines, ?_, hrow, hrows⟩
      show syncSegs sub day c heap (fuel + 1) (some a) = _
      unfold syncSegs
      rw [e1, Verif.Proof.Mem.bind_ok]
      simp only at e3 ⊢
      rw [e3, Verif.Proof.Mem.bind_ok, e4, Verif.Proof.Mem.bind_ok]

theorem syncSources_ok (sub : TimeStr.Sub) {day : List UInt8} (hday : day.length ≤ 31) (tl : TraceList Rat)
    (pick : Nat → List (Nat × Seg Rat)) :
    ∀ (l : List (Nat × Source Rat)) (fuel : Nat) (c : Codes), (∀ x ∈ l, tl.sources x.1 = some x.2) →
    (∀ x ∈ l, Rep x.2 (pick x.1)) → (∀ x ∈ l, ∀ y ∈ pick x.1, Neat y.2) →
    (∀ x ∈ l, ∃ net sta loc chan, Named x.2.sid net sta loc chan) →
    (∀ i b, (l.map Prod.fst)[i]? = some b → tl.next b 0 = (l.map Prod.fst)[i + 1]?) → l.length ≤ fuel →
    ∃ lines, syncSources sub day tl fuel (l.map Prod.fst).head? c = .ok lines ∧
      Each (fun x line => SyncRow sub day x.1.sid x.2 line)
        ((l.map fun x => (x.2, (pick x.1).map Prod.snd)).flatMap fun x => x.2.map fun s => (x.1, s)) lines := by
  intro l
  induction l with
  | nil =>
    intro fuel c _ _ _ _ _ _
    exact ⟨[], by cases fuel <;> rfl, trivial⟩
  | cons x t ih =>
    intro fuel c hsrc hpick hneat hname hnext hf
    cases fuel with
    | zero => simp at hf
    | succ fuel =>
      obtain ⟨net, sta, loc, chan, hc⟩ := hname x (by simp)
      have hs := hsrc x (by simp)
      have hr := hpick x (by simp)
      have e1 : source tl x.1 = .ok x.2 := by unfold source; rw [hs]
      have e2 : nextOf tl x.1 0 = .ok (tl.next x.1 0) := by
        unfold nextOf; rw [if_pos (Or.inr (by rw [hs]; rfl))]
      have hnb : tl.next x.1 0 = (t.map Prod.fst).head? := by
        have := hnext 0 x.1 rfl
        rw [this]
        simp [List.head?_eq_getElem?]
      obtain ⟨lines, e3, hrows⟩ := syncSegs_ok sub hday (c := ⟨net, sta, loc, chan⟩) hc x.2.heap (pick x.1) none
        (x.2.fresh + 1) hr.links (hneat x (by simp)) (Nat.le_succ_of_le hr.length_le)
      rw [hr.first] at e3
      obtain ⟨more, e4, hmore⟩ := ih fuel ⟨net, sta, loc, chan⟩ (fun y hy => hsrc y (List.mem_cons_of_mem _ hy))
        (fun y hy => hpick y (List.mem_cons_of_mem _ hy)) (fun y hy => hneat y (List.mem_cons_of_mem _ hy))
        (fun y hy => hname y (List.mem_cons_of_mem _ hy))
        (fun i b hi => by simpa using hnext (i + 1) b (by simpa using hi)) (by simpa using hf)
      refine ⟨lines ++ more, ?_, ?_⟩
      · show syncSources sub day tl (fuel + 1) (some x.1) c = _
        unfold syncSources
        rw [e1, Verif.Proof.Mem.bind_ok, codesOf_ok c hc, Verif.Proof.Mem.bind_ok, e3, Verif.Proof.Mem.bind_ok,
          e2, Verif.Proof.Mem.bind_ok, hnb, e4, Verif.Proof.Mem.bind_ok]
      · rw [List.map_cons, List.flatMap_cons]
        exact Verif.Proof.TraceRuns.each_append (each_left (fun y => (x.2, y)) hrows) hmore

/-! ## The gap list -/

/-- The samples of a gap are of the size of a `double`. -/
theorem samples_sized {rnd : Rat → Rat} (h : Rounding rnd) (hg : Grained rnd) {g rate : Rat}
    (h1 : g.abs ≤ 10 ^ 10) (h2 : Sensible rate) : Sized (samplesOf rnd g rate) := by
  have hr0 : 0 ≤ rate := by
    rcases h2 with h2 | h2
    · rw [h2]; grind
    · exact Rat.le_trans (Rat.le_of_lt (zpos _)) h2.1
  have hr1 : rate ≤ 10 ^ (400 : Int) := by
    rcases h2 with h2 | h2
    · rw [h2]; exact Rat.le_of_lt (zpos _)
    · exact Rat.le_of_lt h2.2
  have efab : fabs g = g.abs := by
    unfold fabs
    split
    · rw [Rat.abs_of_nonpos (by grind)]
    · rw [Rat.abs_of_nonneg (by grind)]
  have hp0 : 0 ≤ g.abs * rate := Rat.mul_nonneg Rat.abs_nonneg hr0
  have hp1 : g.abs * rate ≤ 10 ^ (410 : Int) := by
    have a1 := Rat.mul_le_mul_of_nonneg_left hr1 (Rat.abs_nonneg (x := g))
    have a2 := Rat.mul_le_mul_of_nonneg_right h1 (Rat.le_of_lt (zpos 400))
    have e : (10 : Rat) ^ 10 * 10 ^ (400 : Int) = 10 ^ (410 : Int) := by
      rw [← Rat.zpow_natCast, ← zadd]; rfl
    rw [e] at a2
    exact Rat.le_trans a1 a2
  have hbig : (1 : Rat) ≤ 10 ^ (410 : Int) := by
    have : (10 : Rat) ^ (0 : Int) ≤ 10 ^ (410 : Int) := zmono (by decide)
    rwa [Rat.zpow_zero] at this
  have hlast : 8 * (10 : Rat) ^ (410 : Int) < 10 ^ (900 : Int) := by
    have e : (10 : Rat) ^ (411 : Int) = 10 ^ (410 : Int) * 10 := by
      rw [show (411 : Int) = 410 + 1 from rfl, zadd]; congr 1
    have a1 : (10 : Rat) ^ (411 : Int) ≤ 10 ^ (900 : Int) := zmono (by decide)
    have a2 := zpos 410
    rw [e] at a1
    generalize (10 : Rat) ^ (410 : Int) = v at *
    generalize (10 : Rat) ^ (900 : Int) = w at *
    clear h hg
    grind
  have hsmall : (10 : Rat) ^ (-900 : Int) ≤ 1 / 2 ^ 56 := by
    have a1 : (10 : Rat) ^ (-900 : Int) ≤ 10 ^ (-(20 : Nat) : Int) := zmono (by decide)
    rw [z10] at a1
    refine Rat.le_trans a1 ?_
    decide +kernel
  have hn := h.near _ hp0
  -- a rounded sum with a lower bound
  have key : ∀ y : Rat, y.abs ≤ 3 * 10 ^ (410 : Int) → (y = 0 ∨ 1 / 2 ^ 54 ≤ y.abs) → Sized (rnd y) := by
    intro y hy hc
    have hna := near_abs h y
    rcases hc with hc | hc
    · left
      rw [hc]
      exact h.exact 0 (by decide) (by decide)
    · right
      have b1 : y.abs / 2 ^ 53 ≤ y.abs / 2 := by
        have := Rat.abs_nonneg (x := y)
        clear h hg; grind
      have hl := le_abs y
      have hl2 := le_abs (rnd y)
      constructor
      · refine Rat.le_trans hsmall ?_
        have c1 : (1 : Rat) / 2 ^ 56 ≤ 1 / 2 ^ 54 / 2 := by decide +kernel
        have c2 : y.abs / 2 ≤ (rnd y).abs := by
          by_cases hy0 : 0 ≤ y
          · rw [Rat.abs_of_nonneg hy0] at *
            clear h hg; grind
          · rw [Rat.abs_of_nonpos (x := y) (by grind)] at *
            clear h hg; grind
        generalize (1 : Rat) / 2 ^ 54 = v at *
        generalize (1 : Rat) / 2 ^ 56 = w at *
        clear h hg
        grind
      · refine Std.lt_of_le_of_lt (abs_le (k := 8 * 10 ^ (410 : Int)) ?_ ?_) hlast
        · generalize (10 : Rat) ^ (410 : Int) = v at *
          clear h hg hlast
          grind
        · generalize (10 : Rat) ^ (410 : Int) = v at *
          clear h hg hlast
          grind
  have hq : rnd (g.abs * rate) ≤ 2 * 10 ^ (410 : Int) := by
    have : g.abs * rate / 2 ^ 53 ≤ g.abs * rate := by clear h hg; grind
    generalize (10 : Rat) ^ (410 : Int) = v at *
    clear h hg hlast key
    grind
  have hq0 : 0 ≤ rnd (g.abs * rate) := by
    have := h.mono 0 _ hp0
    have e := h.exact 0 (by decide) (by decide)
    rw [show ((0 : Int) : Rat) = 0 from rfl] at e
    rw [e] at this
    exact this
  unfold samplesOf
  rw [efab]
  simp only
  split
  · apply key
    · refine abs_le ?_ ?_
      · generalize (10 : Rat) ^ (410 : Int) = v at *
        clear h hg hlast key hn
        grind
      · generalize (10 : Rat) ^ (410 : Int) = v at *
        clear h hg hlast key hn
        grind
    · by_cases hh : 1 / 2 ≤ rnd (g.abs * rate)
      · obtain ⟨k, hk⟩ := hg _ hh
        by_cases hz : k = 2 ^ 54
        · left
          rw [hk, hz]
          decide +kernel
        · right
          have e : rnd (g.abs * rate) - 1 = ((k - 2 ^ 54 : Int) : Rat) / 2 ^ 54 := by
            rw [hk, Rat.intCast_sub]
            have : ((2 ^ 54 : Int) : Rat) = 2 ^ 54 := by decide +kernel
            rw [this]
            clear h hg
            grind
          rw [e, abs_div _ (by decide +kernel)]
          have hi : (1 : Rat) ≤ ((k - 2 ^ 54 : Int) : Rat).abs := by
            by_cases hp : 0 ≤ k - 2 ^ 54
            · have h0 : (0 : Rat) ≤ ((k - 2 ^ 54 : Int) : Rat) := Rat.intCast_nonneg.2 hp
              rw [Rat.abs_of_nonneg h0]
              have : ((1 : Int) : Rat) ≤ ((k - 2 ^ 54 : Int) : Rat) := Rat.intCast_le_intCast.2 (by omega)
              exact this
            · have h0 : ((k - 2 ^ 54 : Int) : Rat) ≤ 0 := by
                have : ((k - 2 ^ 54 : Int) : Rat) ≤ ((0 : Int) : Rat) := Rat.intCast_le_intCast.2 (by omega)
                exact this
              rw [Rat.abs_of_nonpos h0, ← Rat.intCast_neg]
              have : ((1 : Int) : Rat) ≤ ((-(k - 2 ^ 54) : Int) : Rat) := Rat.intCast_le_intCast.2 (by omega)
              exact this
          generalize ((k - 2 ^ 54 : Int) : Rat).abs = v at *
          clear h hg hlast key hn
          grind
      · right
        rw [Rat.abs_of_nonpos (by clear h hg hlast key hn; grind)]
        have : (1 : Rat) / 2 ^ 54 ≤ 1 / 2 := by decide +kernel
        clear h hg hlast key hn
        grind
  · apply key
    · rw [Rat.abs_of_nonneg (by clear h hg hlast key hn; grind)]
      generalize (10 : Rat) ^ (410 : Int) = v at *
      clear h hg hlast key hn
      grind
    · right
      rw [Rat.abs_of_nonneg (by clear h hg hlast key hn; grind)]
      have : (1 : Rat) / 2 ^ 54 ≤ 1 := by decide +kernel
      clear h hg hlast key hn
      grind

/-- What the lines of gaps of a tidy list are. -/
structure NeatLine (l : Line) : Prop where
  sid : l.sid.length ≤ 63
  before : Modern l.before
  after : Modern l.after
  gap : l.gap.abs ≤ 10 ^ 10 ∧ (l.gap = 0 ∨ (10 : Rat) ^ (-402 : Int) ≤ l.gap.abs)
  samples : Sized l.nsamples

theorem gapLines_ok {rnd : Rat → Rat} (h : Rounding rnd) (fmt : TimeStr.Format) : ∀ (l : List Line),
    (∀ x ∈ l, NeatLine x) → ∃ lines, gapLines rnd fmt l = .ok lines ∧ Each (GapRow fmt) l lines := by
  intro l
  induction l with
  | nil => intro _; exact ⟨[], rfl, trivial⟩
  | cons x t ih =>
    intro hx
    obtain ⟨lines, e, hrows⟩ := ih fun y hy => hx y (List.mem_cons_of_mem _ hy)
    have hn := hx x (by simp)
    obtain ⟨a, e1, t1, l1⟩ := timeText_ok fmt .nanoMicro hn.before
    obtain ⟨b, e2, t2, l2⟩ := timeText_ok fmt .nanoMicro hn.after
    obtain ⟨gap, e3, t3, l3⟩ := gapText_ok h (some x.gap) (fun y hy => by cases hy; exact hn.gap)
    have l4 := general_length 8 (by decide) x.nsamples hn.samples
    refine ⟨_ :: lines, ?_, GapRow.mk t1 t2 t3 (general_shown 8 (by decide) x.nsamples), hrows⟩
    unfold gapLines
    have e4 : left 4 (gapText rnd (some x.gap)) = left 4 gap := by
      rw [e3]
      exact left_long (by rw [left_length]; omega)
    have : gapLine rnd fmt x = .ok (table [(27, x.sid), (28, a), (28, b), (4, gap),
        (0, bytes (Printf.general 8 x.nsamples))]) := by
      unfold gapLine
      rw [e1, e2]
      simp only
      rw [e4, message_short]
      · congr 1
        simp [table, columns, left_eq, List.intercalate, List.rightpad]
      · have := columns_length x.sid a b (by have := hn.sid; omega) l1 l2
        simp only [List.length_append, List.length_cons, List.length_nil, left_length, bytes_eq, ascii_length] at *
        omega
    rw [this, Verif.Proof.Mem.bind_ok, e, Verif.Proof.Mem.bind_ok]

end Verif.Proof.Report
