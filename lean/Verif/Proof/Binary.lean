import Verif.Spec.Binary
/-! Rounding to nearest has the properties of `Verif.Spec.Rounding`. -/
namespace Verif.Proof.Binary
open Verif.Spec Verif.Spec.Binary

theorem two_pos (k : Int) : 0 < (2 : Rat) ^ k := Rat.zpow_pos (by decide)

theorem two_succ (k : Int) : (2 : Rat) ^ (k + 1) = 2 ^ k * 2 := Rat.zpow_add_one (by decide) k

theorem two_add (a b : Int) : (2 : Rat) ^ (a + b) = 2 ^ a * 2 ^ b := Rat.zpow_add (by decide) a b

theorem two_nat (k : Nat) : (2 : Rat) ^ (k : Int) = ((2 ^ k : Nat) : Rat) := by
  rw [Rat.zpow_natCast]
  induction k with
  | zero => rfl
  | succ k ih => rw [Rat.pow_succ, ih, Nat.pow_succ, Rat.natCast_mul]; rfl

theorem one_le_two (n : Nat) : 1 ≤ (2 : Rat) ^ (n : Int) := by
  rw [two_nat]
  have : ((1 : Nat) : Rat) ≤ ((2 ^ n : Nat) : Rat) := Rat.natCast_le_natCast.2 (Nat.one_le_two_pow)
  exact this

theorem two_mono {a b : Int} (h : a ≤ b) : (2 : Rat) ^ a ≤ 2 ^ b := by
  obtain ⟨n, rfl⟩ := Int.le.dest h
  rw [two_add]
  have h1 := one_le_two n
  have h2 := Rat.mul_le_mul_of_nonneg_left h1 (Rat.le_of_lt (two_pos a))
  rw [Rat.mul_one] at h2
  exact h2

theorem two_sub (a b : Int) : (2 : Rat) ^ (a - b) * 2 ^ b = 2 ^ a := by
  rw [← two_add]
  congr 1
  omega

theorem num_eq (x : Rat) (h : 0 < x) : x * (x.den : Rat) = ((x.num.toNat : Nat) : Rat) := by
  have hn : 0 ≤ x.num := Rat.num_nonneg.2 (Rat.le_of_lt h)
  have hd : (x.den : Rat) ≠ 0 := by
    intro h'
    exact x.den_nz (Rat.natCast_inj.1 (h'.trans rfl))
  have hx : x = (x.num : Rat) / (x.den : Rat) := by
    have h1 := (Rat.num_divInt_den x).symm
    rw [Rat.divInt_eq_div, Rat.intCast_natCast] at h1
    exact h1
  have : x * (x.den : Rat) = (x.num : Rat) := by
    have h2 := Rat.div_mul_cancel (a := (x.num : Rat)) hd
    rw [← hx] at h2
    exact h2
  rw [this]
  rw [← Rat.intCast_natCast, Int.toNat_of_nonneg hn]

theorem exponent_spec (x : Rat) (h : 0 < x) :
    (2 : Rat) ^ exponent x ≤ x ∧ x < 2 ^ (exponent x + 1) := by
  have hd : x.den ≠ 0 := x.den_nz
  have hn : x.num.toNat ≠ 0 := by
    have h1 := Rat.num_nonneg.2 (Rat.le_of_lt h)
    have h2 : x.num ≠ 0 := by
      intro h'
      rw [Rat.num_eq_zero.1 h'] at h
      exact absurd h (by decide)
    omega
  have h1 := num_eq x h
  have a1 : (2 : Rat) ^ (x.num.toNat.log2 : Int) ≤ (x.num.toNat : Nat) := by
    rw [two_nat]; exact Rat.natCast_le_natCast.2 (Nat.log2_self_le hn)
  have a2 : ((x.num.toNat : Nat) : Rat) < 2 ^ ((x.num.toNat.log2 : Int) + 1) := by
    rw [show (x.num.toNat.log2 : Int) + 1 = ((x.num.toNat.log2 + 1 : Nat) : Int) from rfl, two_nat]
    exact Rat.natCast_lt_natCast.2 Nat.lt_log2_self
  have b1 : (2 : Rat) ^ (x.den.log2 : Int) ≤ (x.den : Nat) := by
    rw [two_nat]; exact Rat.natCast_le_natCast.2 (Nat.log2_self_le hd)
  have b2 : ((x.den : Nat) : Rat) < 2 ^ ((x.den.log2 : Int) + 1) := by
    rw [show (x.den.log2 : Int) + 1 = ((x.den.log2 + 1 : Nat) : Int) from rfl, two_nat]
    exact Rat.natCast_lt_natCast.2 Nat.lt_log2_self
  have hx : x ≠ 0 := by rintro rfl; exact absurd h (by decide)
  generalize hla : (x.num.toNat.log2 : Int) = la at *
  generalize hlb : (x.den.log2 : Int) = lb at *
  have up : x < 2 ^ (la - lb + 1) := by
    refine Rat.lt_of_mul_lt_mul_right (c := 2 ^ lb) ?_ (Rat.le_of_lt (two_pos _))
    have e : (2 : Rat) ^ (la - lb + 1) * 2 ^ lb = 2 ^ (la + 1) := by
      rw [← two_add]; congr 1; omega
    rw [e]
    have := Rat.mul_le_mul_of_nonneg_left b1 (Rat.le_of_lt h)
    rw [h1] at this
    grind
  have low : (2 : Rat) ^ (la - lb - 1) < x := by
    refine Rat.lt_of_mul_lt_mul_right (c := 2 ^ (lb + 1)) ?_ (Rat.le_of_lt (two_pos _))
    have e : (2 : Rat) ^ (la - lb - 1) * 2 ^ (lb + 1) = 2 ^ la := by
      rw [← two_add]; congr 1; omega
    rw [e]
    have := Rat.mul_lt_mul_of_pos_left b2 h
    rw [h1] at this
    grind
  unfold exponent
  simp only [hla, hlb]
  by_cases hc : (2 : Rat) ^ (la - lb) ≤ x
  · rw [if_pos hc]; exact ⟨hc, up⟩
  · rw [if_neg hc]
    refine ⟨Rat.le_of_lt low, ?_⟩
    rw [show la - lb - 1 + 1 = la - lb by omega]
    exact Rat.not_le.1 hc

theorem exponent_mono {x y : Rat} (hx : 0 < x) (h : x ≤ y) : exponent x ≤ exponent y := by
  have h1 := exponent_spec x hx
  have h2 := exponent_spec y (by grind)
  by_cases hc : exponent x ≤ exponent y
  · exact hc
  · have := two_mono (show exponent y + 1 ≤ exponent x by omega)
    grind

theorem halfEven_near (x : Rat) : x - 1 / 2 ≤ halfEven x ∧ (halfEven x : Rat) ≤ x + 1 / 2 := by
  have h1 := Rat.floor_le x
  have h2 := Rat.lt_floor_add_one x
  rw [Rat.intCast_add] at h2
  unfold halfEven
  simp only
  generalize x.floor = n at *
  have e : ((n + 1 : Int) : Rat) = (n : Rat) + 1 := by rw [Rat.intCast_add]; rfl
  have h2 : x < (n : Rat) + 1 := h2
  split
  · grind
  · split
    · rw [e]; grind
    · split
      · grind
      · rw [e]; grind

theorem halfEven_int (n : Int) : halfEven (n : Rat) = n := by
  unfold halfEven
  simp only [Rat.floor_intCast]
  rw [if_pos (by grind)]

theorem halfEven_mono {x y : Rat} (h : x ≤ y) : halfEven x ≤ halfEven y := by
  have h1 := Rat.floor_le x
  have h2 := Rat.lt_floor_add_one x
  have h3 := Rat.floor_le y
  have h4 := Rat.lt_floor_add_one y
  have hm := Rat.floor_monotone h
  unfold halfEven
  simp only
  generalize x.floor = n at *
  generalize y.floor = m at *
  rw [Rat.intCast_add] at h2 h4
  have h2 : x < (n : Rat) + 1 := h2
  have h4 : y < (m : Rat) + 1 := h4
  by_cases hnm : n = m
  · subst hnm
    by_cases c1 : x - n < 1 / 2
    · rw [if_pos c1]; repeat' split
      all_goals omega
    · have c1' : ¬ y - n < 1 / 2 := by grind
      rw [if_neg c1, if_neg c1']
      by_cases c2 : 1 / 2 < x - n
      · have : 1 / 2 < y - n := by grind
        rw [if_pos c2, if_pos this]; omega
      · rw [if_neg c2]
        repeat' split
        all_goals first | omega | grind
  · have hlt : n + 1 ≤ m := by omega
    repeat' split
    all_goals omega

theorem ulp_pos (p : Nat) (x : Rat) : 0 < ulp p x := two_pos _

theorem div_mul (x u : Rat) (hu : 0 < u) : x / u * u = x :=
  Rat.div_mul_cancel (by rintro rfl; exact absurd hu (by decide))

theorem roundPos_near (p : Nat) (x : Rat) :
    x - ulp p x / 2 ≤ roundPos p x ∧ roundPos p x ≤ x + ulp p x / 2 := by
  have h := halfEven_near (x / ulp p x)
  have hu := ulp_pos p x
  unfold roundPos
  generalize hq : x / ulp p x = q at *
  have hx : q * ulp p x = x := by rw [← hq]; exact div_mul _ _ hu
  generalize ulp p x = u at *
  constructor
  · have := Rat.mul_le_mul_of_nonneg_right h.1 (Rat.le_of_lt hu)
    grind
  · have := Rat.mul_le_mul_of_nonneg_right h.2 (Rat.le_of_lt hu)
    grind

/-- `x` in units of the last place. -/
theorem scaled (p : Nat) (hp : 1 ≤ p) (x : Rat) (h : 0 < x) :
    ((2 ^ (p - 1) : Nat) : Rat) * ulp p x ≤ x ∧ x < ((2 ^ p : Nat) : Rat) * ulp p x := by
  have he := exponent_spec x h
  have e1 : ((2 ^ (p - 1) : Nat) : Rat) * ulp p x = 2 ^ exponent x := by
    unfold ulp
    rw [← two_nat, ← two_add]; congr 1; omega
  have e2 : ((2 ^ p : Nat) : Rat) * ulp p x = 2 ^ (exponent x + 1) := by
    unfold ulp
    rw [← two_nat, ← two_add]; congr 1; omega
  rw [e1, e2]
  exact he

theorem roundPos_mono (p : Nat) (hp : 1 ≤ p) {x y : Rat} (hx : 0 < x) (h : x ≤ y) :
    roundPos p x ≤ roundPos p y := by
  have hy : 0 < y := by grind
  have hm := exponent_mono hx h
  by_cases hc : exponent x = exponent y
  · have hu : ulp p x = ulp p y := by unfold ulp; rw [hc]
    unfold roundPos
    rw [hu]
    have hup := ulp_pos p y
    have hd : x / ulp p y ≤ y / ulp p y := by
      refine Rat.le_of_mul_le_mul_right (c := ulp p y) ?_ hup
      rw [div_mul _ _ hup, div_mul _ _ hup]
      exact h
    exact Rat.mul_le_mul_of_nonneg_right (Rat.intCast_le_intCast.2 (halfEven_mono hd)) (Rat.le_of_lt hup)
  · have hsx := scaled p hp x hx
    have hsy := scaled p hp y hy
    have hux := ulp_pos p x
    have huy := ulp_pos p y
    -- rounding x gives at most 2^p units of x, rounding y at least 2^(p-1) units of y
    have r1 : roundPos p x ≤ ((2 ^ p : Nat) : Rat) * ulp p x := by
      unfold roundPos
      refine Rat.mul_le_mul_of_nonneg_right ?_ (Rat.le_of_lt hux)
      have : x / ulp p x ≤ (((2 ^ p : Nat) : Int) : Rat) := by
        refine Rat.le_of_mul_le_mul_right (c := ulp p x) ?_ hux
        rw [div_mul _ _ hux, Rat.intCast_natCast]
        exact Rat.le_of_lt hsx.2
      have := halfEven_mono this
      rw [halfEven_int] at this
      rw [← Rat.intCast_natCast]
      exact Rat.intCast_le_intCast.2 this
    have r2 : ((2 ^ (p - 1) : Nat) : Rat) * ulp p y ≤ roundPos p y := by
      unfold roundPos
      refine Rat.mul_le_mul_of_nonneg_right ?_ (Rat.le_of_lt huy)
      have : (((2 ^ (p - 1) : Nat) : Int) : Rat) ≤ y / ulp p y := by
        refine Rat.le_of_mul_le_mul_right (c := ulp p y) ?_ huy
        rw [div_mul _ _ huy, Rat.intCast_natCast]
        exact hsy.1
      have := halfEven_mono this
      rw [halfEven_int] at this
      rw [← Rat.intCast_natCast]
      exact Rat.intCast_le_intCast.2 this
    have hle : ((2 ^ p : Nat) : Rat) * ulp p x ≤ ((2 ^ (p - 1) : Nat) : Rat) * ulp p y := by
      unfold ulp
      rw [← two_nat, ← two_nat, ← two_add, ← two_add]
      exact two_mono (by omega)
    exact Rat.le_trans r1 (Rat.le_trans hle r2)

theorem roundPos_nonneg (p : Nat) (x : Rat) (h : 0 < x) : 0 ≤ roundPos p x := by
  unfold roundPos
  have hu := ulp_pos p x
  refine Rat.mul_nonneg ?_ (Rat.le_of_lt hu)
  have : ((0 : Int) : Rat) ≤ x / ulp p x := by
    refine Rat.le_of_mul_le_mul_right (c := ulp p x) ?_ hu
    rw [div_mul _ _ hu]
    grind
  have := halfEven_mono this
  rw [halfEven_int] at this
  exact Rat.intCast_nonneg.2 this

theorem round_mono (p : Nat) (hp : 1 ≤ p) (x y : Rat) (h : x ≤ y) : round p x ≤ round p y := by
  unfold round
  by_cases hx : 0 < x
  · have hy : 0 < y := by grind
    rw [if_pos hx, if_pos hy]
    exact roundPos_mono p hp hx h
  · rw [if_neg hx]
    by_cases hy : 0 < y
    · rw [if_pos hy]
      have := roundPos_nonneg p y hy
      split
      · have := roundPos_nonneg p (-x) (by grind)
        grind
      · exact this
    · rw [if_neg hy]
      by_cases hy' : y < 0
      · have hx' : x < 0 := by grind
        rw [if_pos hx', if_pos hy']
        have := roundPos_mono p hp (x := -y) (y := -x) (by grind) (by grind)
        grind
      · rw [if_neg hy']
        split
        · have := roundPos_nonneg p (-x) (by grind)
          grind
        · grind

theorem round_odd (p : Nat) (x : Rat) : round p (-x) = -round p x := by
  unfold round
  by_cases h1 : 0 < x
  · rw [if_neg (show ¬ 0 < -x by grind), if_pos (show -x < 0 by grind), if_pos h1, Rat.neg_neg]
  · by_cases h2 : x < 0
    · rw [if_pos (show 0 < -x by grind), if_neg h1, if_pos h2, Rat.neg_neg]
    · rw [if_neg (show ¬ 0 < -x by grind), if_neg (show ¬ -x < 0 by grind), if_neg h1, if_neg h2]
      rfl

theorem round_near (p : Nat) (hp : 1 ≤ p) (x : Rat) (h : 0 ≤ x) :
    x - x / ((2 ^ p : Nat) : Rat) ≤ round p x ∧ round p x ≤ x + x / ((2 ^ p : Nat) : Rat) := by
  unfold round
  by_cases hx : 0 < x
  · rw [if_pos hx]
    have hn := roundPos_near p x
    have hs := (scaled p hp x hx).1
    have h2 : (0 : Rat) < ((2 ^ p : Nat) : Rat) := by
      have : ((0 : Nat) : Rat) < ((2 ^ p : Nat) : Rat) := Rat.natCast_lt_natCast.2 (Nat.two_pow_pos p)
      exact this
    have hu : ulp p x / 2 ≤ x / ((2 ^ p : Nat) : Rat) := by
      refine Rat.le_of_mul_le_mul_right (c := ((2 ^ p : Nat) : Rat)) ?_ h2
      rw [div_mul _ _ h2]
      have e : ((2 ^ p : Nat) : Rat) = ((2 ^ (p - 1) : Nat) : Rat) * 2 := by
        rw [show 2 ^ p = 2 ^ (p - 1) * 2 by
          rw [← Nat.pow_succ]; congr 1; omega, Rat.natCast_mul]; rfl
      rw [e]
      generalize ((2 ^ (p - 1) : Nat) : Rat) = t at *
      grind
    exact ⟨by grind, by grind⟩
  · have : x = 0 := by grind
    subst this
    rw [if_neg (by decide), if_neg (by decide)]
    grind

theorem round_grid_pos (p : Nat) (hp : 1 ≤ p) (n : Nat) (e : Int) (h0 : 0 < n) (h : n ≤ 2 ^ p) :
    round p ((n : Rat) * 2 ^ e) = (n : Rat) * 2 ^ e := by
  have hn0 : (0 : Rat) < (n : Rat) := by
    have : ((0 : Nat) : Rat) < (n : Rat) := Rat.natCast_lt_natCast.2 h0
    exact this
  have he := two_pos e
  generalize hy : (n : Rat) * 2 ^ e = y
  have hx : 0 < y := by rw [← hy]; exact Rat.mul_pos hn0 he
  unfold round
  rw [if_pos hx]
  have hs := exponent_spec y hx
  have hu := ulp_pos p y
  have hd := div_mul y _ hu
  have hne : ulp p y ≠ 0 := by
    intro h'; rw [h'] at hu; exact absurd hu (by decide)
  -- the quotient is an integer
  have hq : ∃ k : Int, y / ulp p y = (k : Rat) := by
    by_cases hc : exponent y ≤ e + ((p : Int) - 1)
    · refine ⟨(n : Int) * (2 ^ ((e + ((p : Int) - 1) - exponent y).toNat) : Nat), ?_⟩
      have e1 : ((2 ^ ((e + ((p : Int) - 1) - exponent y).toNat) : Nat) : Rat) * ulp p y = 2 ^ e := by
        unfold ulp
        rw [← two_nat, ← two_add]
        congr 1
        omega
      rw [Rat.intCast_mul, Rat.intCast_natCast, Rat.intCast_natCast]
      generalize ((2 ^ ((e + ((p : Int) - 1) - exponent y).toNat) : Nat) : Rat) = t at *
      have h1 : (n : Rat) * t * ulp p y = y := by rw [Rat.mul_assoc, e1, hy]
      have h2 : ((n : Rat) * t - y / ulp p y) * ulp p y = 0 := by grind
      rcases Rat.mul_eq_zero.1 h2 with h3 | h3
      · grind
      · exact absurd h3 hne
    · -- n = 2^p
      have h1 : (2 : Rat) ^ ((p : Int) + e) ≤ y := Rat.le_trans (two_mono (by omega)) hs.1
      rw [two_add, two_nat, ← hy] at h1
      have h1 : 2 ^ p ≤ n := Rat.natCast_le_natCast.1 (Rat.le_of_mul_le_mul_right h1 he)
      have hn : n = 2 ^ p := by omega
      have hyp : y = 2 ^ ((p : Int) + e) := by rw [← hy, hn, two_add, two_nat]
      have hex : exponent y = (p : Int) + e := by
        have : ¬ (p : Int) + e + 1 ≤ exponent y := by
          intro h'
          have h2 := Rat.le_trans (two_mono h') hs.1
          rw [two_succ, ← hyp] at h2
          grind
        omega
      refine ⟨(2 ^ (p - 1) : Nat), ?_⟩
      have e1 : ((2 ^ (p - 1) : Nat) : Rat) * ulp p y = y := by
        unfold ulp
        rw [hex, ← two_nat, ← two_add, hyp]
        congr 1
        omega
      rw [Rat.intCast_natCast]
      generalize ((2 ^ (p - 1) : Nat) : Rat) = t at *
      have h2 : (t - y / ulp p y) * ulp p y = 0 := by grind
      rcases Rat.mul_eq_zero.1 h2 with h3 | h3
      · grind
      · exact absurd h3 hne
  obtain ⟨k, hk⟩ := hq
  unfold roundPos
  rw [hk, halfEven_int, ← hk]
  exact hd

theorem round_exact_pos (p : Nat) (hp : 1 ≤ p) (n : Nat) (h0 : 0 < n) (h : n ≤ 2 ^ p) :
    round p (n : Rat) = n := by
  have := round_grid_pos p hp n 0 h0 h
  rw [Rat.zpow_zero, Rat.mul_one] at this
  exact this

theorem roundPos_idem (p : Nat) (hp : 1 ≤ p) (x : Rat) (h : 0 < x) :
    round p (roundPos p x) = roundPos p x := by
  have hs := scaled p hp x h
  have hu := ulp_pos p x
  have h1 : (((2 ^ (p - 1) : Nat) : Int) : Rat) ≤ x / ulp p x := by
    refine Rat.le_of_mul_le_mul_right (c := ulp p x) ?_ hu
    rw [div_mul _ _ hu, Rat.intCast_natCast]
    exact hs.1
  have h2 : x / ulp p x ≤ (((2 ^ p : Nat) : Int) : Rat) := by
    refine Rat.le_of_mul_le_mul_right (c := ulp p x) ?_ hu
    rw [div_mul _ _ hu, Rat.intCast_natCast]
    exact Rat.le_of_lt hs.2
  have h1 := halfEven_mono h1
  have h2 := halfEven_mono h2
  rw [halfEven_int] at h1 h2
  have hp0 : 0 < 2 ^ (p - 1) := Nat.two_pow_pos _
  have h1 : ((2 ^ (p - 1) : Nat) : Int) ≤ halfEven (x / ulp p x) := h1
  obtain ⟨n, hn⟩ : ∃ n : Nat, halfEven (x / ulp p x) = (n : Int) :=
    ⟨(halfEven (x / ulp p x)).toNat, by omega⟩
  unfold roundPos
  rw [hn] at h1 h2 ⊢
  rw [Rat.intCast_natCast]
  unfold ulp
  exact round_grid_pos p hp n _ (by omega) (by omega)

theorem round_idem (p : Nat) (hp : 1 ≤ p) (x : Rat) : round p (round p x) = round p x := by
  by_cases h1 : 0 < x
  · have e : round p x = roundPos p x := by unfold round; rw [if_pos h1]
    rw [e]
    exact roundPos_idem p hp x h1
  · by_cases h2 : x < 0
    · have e : round p x = -roundPos p (-x) := by unfold round; rw [if_neg h1, if_pos h2]
      rw [e, round_odd, roundPos_idem p hp (-x) (by grind)]
    · have e : round p x = 0 := by unfold round; rw [if_neg h1, if_neg h2]
      rw [e]
      unfold round
      rw [if_neg (by decide), if_neg (by decide)]

theorem round_exact (p : Nat) (hp : 1 ≤ p) (n : Int) (h1 : -(2 ^ p : Nat) ≤ n) (h2 : n ≤ (2 ^ p : Nat)) :
    round p (n : Rat) = n := by
  by_cases hz : n = 0
  · subst hz
    unfold round
    rw [if_neg (by decide), if_neg (by decide)]
    rfl
  · by_cases hn : 0 < n
    · obtain ⟨k, rfl⟩ : ∃ k : Nat, n = (k : Int) := ⟨n.toNat, by omega⟩
      rw [Rat.intCast_natCast]
      exact round_exact_pos p hp k (by omega) (by omega)
    · obtain ⟨k, rfl⟩ : ∃ k : Nat, n = -(k : Int) := ⟨(-n).toNat, by omega⟩
      rw [Rat.intCast_neg, Rat.intCast_natCast, round_odd, round_exact_pos p hp k (by omega) (by omega)]

/-- Rounding to nearest, ties to even, with 53 bits. -/
theorem rounding_binary64 : Rounding binary64 where
  mono := round_mono 53 (by decide)
  odd := round_odd 53
  near := by
    intro x h
    have := round_near 53 (by decide) x h
    exact this
  exact := fun n h1 h2 => round_exact 53 (by decide) n h1 h2
  idem := round_idem 53 (by decide)

end Verif.Proof.Binary
