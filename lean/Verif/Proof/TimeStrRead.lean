import Verif.Proof.TimeStr
import Verif.Props.Calendar
/-! Helper lemmas for reading time strings. -/
namespace Verif.Proof.TimeStr
open Verif.Spec Verif.Spec.TimeStr Verif.Model Verif.Model.TimeStr Verif.Props.TimeStr Verif.Proof Verif.Props

theorem char_ne {c d : Char} (h : c.toNat ≠ d.toNat) : c ≠ d := fun e => h (by rw [e])

theorem isDigit_iff (c : Char) : isDigit c = true ↔ Digit c := by
  simp [isDigit, Digit]

theorem isDigit_not {c : Char} (h : ¬ Digit c) : isDigit c = false := by
  cases hb : isDigit c
  · rfl
  · exact absurd ((isDigit_iff c).1 hb) h

/-- What digits are not. -/
theorem digit_plain {c : Char} (h : Digit c) :
    c ≠ '-' ∧ c ≠ '/' ∧ c ≠ ',' ∧ c ≠ ':' ∧ c ≠ '.' ∧ c ≠ '+' ∧ c ≠ 'T' ∧ c ≠ 't' ∧ c ≠ ' ' ∧
      isSpace c = false := by
  unfold Digit at h
  refine ⟨?_, ?_, ?_, ?_, ?_, ?_, ?_, ?_, ?_, ?_⟩
  all_goals first
    | (refine char_ne ?_; simp only [Char.reduceToNat]; omega)
    | (simp [isSpace]; omega)

/-- The rest of a text does not go on with a digit. -/
def Stops (s : List Char) : Prop := ∀ c t, s = c :: t → ¬ Digit c

theorem stops_nil : Stops [] := by intro c t h; cases h

theorem stops_cons {c : Char} {t : List Char} (h : ¬ Digit c) : Stops (c :: t) := by
  intro d u he; cases he; exact h

theorem take_digits (s rest : List Char) (hs : ∀ c ∈ s, Digit c) (hr : Stops rest) :
    (s ++ rest).takeWhile isDigit = s ∧ (s ++ rest).dropWhile isDigit = rest := by
  induction s with
  | nil =>
    cases rest with
    | nil => exact ⟨rfl, rfl⟩
    | cons c t =>
      have := isDigit_not (hr c t rfl)
      simp [this]
  | cons c s ih =>
    have hc : isDigit c = true := (isDigit_iff c).2 (hs c (by simp))
    have := ih (fun d hd => hs d (by simp [hd]))
    simp only [List.cons_append, List.takeWhile_cons, List.dropWhile_cons, hc, if_true]
    exact ⟨by rw [this.1], this.2⟩

theorem sign_digit {c : Char} {t : List Char} (h : Digit c) : sign (c :: t) = (false, c :: t) := by
  obtain ⟨a, _, _, _, _, b, _⟩ := digit_plain h
  unfold sign
  split
  · rename_i he; cases he; exact absurd rfl a
  · rename_i he; cases he; exact absurd rfl b
  · rfl

theorem scanInt_numeral {s : List Char} {n : Nat} (h : Numeral s n) {rest : List Char}
    (hr : Stops rest) : scanInt (s ++ rest) = some ((n : Int), rest) := by
  obtain ⟨hne, hd, hv⟩ := h
  cases s with
  | nil => exact absurd rfl hne
  | cons c s =>
    have hc := hd c (by simp)
    have hsp := (digit_plain hc).2.2.2.2.2.2.2.2.2
    obtain ⟨t1, t2⟩ := take_digits (c :: s) rest hd hr
    unfold scanInt
    have e : List.dropWhile isSpace (c :: s ++ rest) = c :: s ++ rest := by
      simp [hsp]
    rw [e]
    simp only [List.cons_append] at t1 t2 ⊢
    rw [sign_digit hc]
    simp only
    rw [t1, t2, if_neg (by simp)]
    rw [← hv]
    rfl

/-- One separator in the set, followed by something not in the set. -/
theorem scanSet_one {set : List Char} {d : Char} {t : List Char} (hd : d ∈ set)
    (ht : ∀ c u, t = c :: u → c ∉ set) : scanSet set (d :: t) = some t := by
  unfold scanSet
  have h1 : set.contains d = true := by simpa using hd
  have h2 : t.dropWhile (set.contains ·) = t := by
    cases t with
    | nil => rfl
    | cons c u =>
      have : set.contains c = false := by simpa using ht c u rfl
      simp only [List.dropWhile_cons, this, Bool.false_eq_true, if_false]
  simp only [List.takeWhile_cons, List.dropWhile_cons, h1, if_true, h2]
  rw [if_neg (by simp)]

theorem scanSet_fail {set : List Char} {t : List Char} (ht : ∀ c u, t = c :: u → c ∉ set) :
    scanSet set t = none := by
  unfold scanSet
  cases t with
  | nil => rfl
  | cons c u =>
    have : set.contains c = false := by simpa using ht c u rfl
    simp only [List.takeWhile_cons, this, Bool.false_eq_true, if_false, if_true]

/-- The sets of the formats contain no digit. -/
theorem numeral_head {s : List Char} {n : Nat} (h : Numeral s n) (rest : List Char) {set : List Char}
    (hset : ∀ c, Digit c → c ∉ set) : ∀ c u, s ++ rest = c :: u → c ∉ set := by
  intro c u he
  obtain ⟨hne, hd, _⟩ := h
  cases s with
  | nil => exact absurd rfl hne
  | cons d s =>
    simp only [List.cons_append] at he
    cases he
    exact hset _ (hd _ (by simp))

theorem sets_plain : ∀ c, Digit c →
    c ∉ "-,/:.".toList ∧ c ∉ "-,/:.Tt ".toList ∧ c ∉ "-,:.".toList ∧ c ∉ "-,:.Tt ".toList := by
  intro c hc
  obtain ⟨h1, h2, h3, h4, h5, h6, h7, h8, h9, _⟩ := digit_plain hc
  simp [h1, h2, h3, h4, h5, h7, h8, h9]

/-- A suffix ends the scan. -/
theorem suffix_stops {z : List Char} (hz : Suffix z) : Stops z := by
  rcases hz with rfl | rfl | rfl
  · exact stops_nil
  · exact stops_cons (by simp [Digit])
  · exact stops_cons (by simp [Digit])

theorem suffix_set {z : List Char} (hz : Suffix z) :
    scanSet "-,/:.".toList z = none ∧ scanSet "-,/:.Tt ".toList z = none ∧
      scanSet "-,:.".toList z = none ∧ scanSet "-,:.Tt ".toList z = none ∧
      scanReal z = .ok none := by
  rcases hz with rfl | rfl | rfl <;> decide

/-- A step of `sscanf` over a numeral. -/
theorem sscanf_int {rnd : Rat → Rat} {bound : Nat} {ds : List Dir} {s : List Char} {n : Nat}
    (h : Numeral s n) {rest : List Char} (hr : Stops rest) (hb : n < bound) :
    sscanf rnd (.int bound :: ds) (s ++ rest) =
      (sscanf rnd ds rest).bind fun r => .ok { r with ints := (n : Int) :: r.ints } := by
  conv => lhs; unfold sscanf
  rw [scanInt_numeral h hr]
  simp only
  rw [if_pos ⟨by omega, by omega⟩]

theorem sscanf_int_at {rnd : Rat → Rat} {bound : Nat} {ds : List Dir} {s rest : List Char} {n : Int}
    (h : scanInt s = some (n, rest)) (hb : -(bound : Int) ≤ n ∧ n < bound) :
    sscanf rnd (.int bound :: ds) s =
      (sscanf rnd ds rest).bind fun r => .ok { r with ints := n :: r.ints } := by
  conv => lhs; unfold sscanf
  rw [h]
  exact if_pos hb

theorem sscanf_set_at {rnd : Rat → Rat} {set : List Char} {ds : List Dir} {s rest : List Char}
    (h : scanSet set s = some rest) : sscanf rnd (.set set :: ds) s = sscanf rnd ds rest := by
  conv => lhs; unfold sscanf
  rw [h]

theorem sscanf_set {rnd : Rat → Rat} {set : List Char} {ds : List Dir} {d : Char} {s : List Char}
    {n : Nat} (h : Numeral s n) (rest : List Char) (hd : d ∈ set) (hset : ∀ c, Digit c → c ∉ set) :
    sscanf rnd (.set set :: ds) (d :: (s ++ rest)) = sscanf rnd ds (s ++ rest) := by
  conv => lhs; unfold sscanf
  rw [scanSet_one hd (numeral_head h rest hset)]

theorem sscanf_set_none {rnd : Rat → Rat} {set : List Char} {ds : List Dir} {z : List Char}
    (h : scanSet set z = none) : sscanf rnd (.set set :: ds) z = .ok ⟨[], none⟩ := by
  conv => lhs; unfold sscanf
  rw [h]

theorem sscanf_real_none {rnd : Rat → Rat} {ds : List Dir} {z : List Char}
    (h : scanReal z = .ok none) : sscanf rnd (.real :: ds) z = .ok ⟨[], none⟩ := by
  conv => lhs; unfold sscanf
  rw [h]
  rfl

theorem scanReal_fraction {f : List Char} {n : Nat} (h : Numeral f n) {z : List Char}
    (hz : Suffix z) : scanReal ('.' :: (f ++ z)) = .ok (some ((n : Rat) / 10 ^ f.length, z)) := by
  obtain ⟨hne, hd, hv⟩ := h
  obtain ⟨t1, t2⟩ := take_digits f z hd (suffix_stops hz)
  have hs : special z = false := by
    rcases hz with rfl | rfl | rfl <;> decide
  unfold scanReal
  have e1 : List.dropWhile isSpace ('.' :: (f ++ z)) = '.' :: (f ++ z) := by
    have : isSpace '.' = false := by decide
    simp [this]
  have e2 : sign ('.' :: (f ++ z)) = (false, '.' :: (f ++ z)) := by
    unfold sign
    split <;> simp_all
  have e3 : List.takeWhile isDigit ('.' :: (f ++ z)) = [] ∧
      List.dropWhile isDigit ('.' :: (f ++ z)) = '.' :: (f ++ z) := by
    have : isDigit '.' = false := by decide
    simp [this]
  rw [e1, e2]
  simp only [e3.1, e3.2, t1, t2]
  rw [hs, if_neg (by simp), if_neg (by simp [hne])]
  simp only [List.nil_append, Bool.false_eq_true, if_false]
  rw [← hv]
  rfl

theorem sscanf_real {rnd : Rat → Rat} {ds : List Dir} {f : List Char} {n : Nat} (h : Numeral f n)
    {z : List Char} (hz : Suffix z) :
    sscanf rnd (.real :: ds) ('.' :: (f ++ z)) = .ok ⟨[], some (rnd ((n : Rat) / 10 ^ f.length))⟩ := by
  conv => lhs; unfold sscanf
  rw [scanReal_fraction h hz]
  rfl

/-! ### The fraction of a second -/

theorem value_lt (s : List Char) (hs : ∀ c ∈ s, Digit c) : value s < 10 ^ s.length := by
  have gen : ∀ (s : List Char) (v : Nat), (∀ c ∈ s, Digit c) →
      s.foldl (fun v c => v * 10 + (c.toNat - 48)) v < (v + 1) * 10 ^ s.length := by
    intro s
    induction s with
    | nil => intro v _; simp
    | cons c s ih =>
      intro v h
      have hc := h c (by simp)
      unfold Digit at hc
      have := ih (v * 10 + (c.toNat - 48)) (fun d hd => h d (by simp [hd]))
      simp only [List.foldl_cons, List.length_cons, Nat.pow_succ]
      refine Nat.lt_of_lt_of_le this ?_
      have h2 : v * 10 + (c.toNat - 48) + 1 ≤ (v + 1) * 10 := by omega
      calc (v * 10 + (c.toNat - 48) + 1) * 10 ^ s.length ≤ ((v + 1) * 10) * 10 ^ s.length :=
            Nat.mul_le_mul_right _ h2
        _ = (v + 1) * (10 ^ s.length * 10) := by
            rw [Nat.mul_assoc, Nat.mul_comm 10]
  have := gen s 0 hs
  unfold value
  simpa using this

theorem nanos_bounds {rnd : Rat → Rat} (hr : Rounding rnd) (v : Rat) (N : Int)
    (hv : v * 1000000000 = N) (h0 : 0 ≤ N) (h1 : N < 1000000000) :
    (N : Rat) ≤ rnd (rnd (rnd v * 1000000000) + 1 / 2) ∧
    rnd (rnd (rnd v * 1000000000) + 1 / 2) < ((N + 1 : Int) : Rat) := by
  have q0 : (0 : Rat) ≤ N := by exact_mod_cast h0
  have q1 : (N : Rat) < 1000000000 := Rat.intCast_lt_intCast.2 h1
  have q2 : ((N + 1 : Int) : Rat) = N + 1 := by rw [Rat.intCast_add]; rfl
  rw [q2]
  generalize (N : Rat) = M at *
  have hv0 : 0 ≤ v := by grind
  have a := hr.near v hv0
  generalize rnd v = a0 at *
  have ha0 : 0 ≤ a0 * 1000000000 := by grind
  have b := hr.near _ ha0
  generalize rnd (a0 * 1000000000) = b0 at *
  have hb0 : 0 ≤ b0 + 1 / 2 := by grind
  have c := hr.near _ hb0
  generalize rnd (b0 + 1 / 2) = c0 at *
  clear hr
  constructor <;> grind

theorem rnd_pos {rnd : Rat → Rat} (hr : Rounding rnd) (v : Rat) (h : 0 < v) : 0 < rnd v := by
  have a := hr.near v (Rat.le_of_lt h)
  clear hr
  grind

theorem rnd_zero {rnd : Rat → Rat} (hr : Rounding rnd) : rnd 0 = 0 := by
  have := hr.exact 0 (by omega) (by omega)
  simpa using this

/-- The fraction as a number of nanoseconds. -/
theorem fraction_scaled (n k : Nat) (hk : k ≤ 9) :
    (n : Rat) / 10 ^ k * 1000000000 = ((n * 10 ^ (9 - k) : Nat) : Int) := by
  have h9 : (1000000000 : Rat) = 10 ^ k * 10 ^ (9 - k) := by
    have : (1000000000 : Nat) = 10 ^ k * 10 ^ (9 - k) := by
      rw [← Nat.pow_add, show k + (9 - k) = 9 by omega]
    exact_mod_cast this
  have hp : (10 : Rat) ^ k ≠ 0 := by
    have : (0 : Rat) < 10 ^ k := Rat.pow_pos (by decide)
    intro h
    rw [h] at this
    exact absurd this (by decide)
  rw [h9, ← Rat.mul_assoc, Rat.div_mul_cancel hp]
  simp [Rat.intCast_natCast]

theorem toNanos_fraction {rnd : Rat → Rat} (hr : Rounding rnd) {f : List Char} {n : Nat}
    (h : Numeral f n) (hk : f.length ≤ 9) :
    toNanos rnd (rnd ((n : Rat) / 10 ^ f.length)) = .ok ((n * 10 ^ (9 - f.length) : Nat) : Int) := by
  have hs := fraction_scaled n f.length hk
  have hlt : n * 10 ^ (9 - f.length) < 1000000000 := by
    have h1 := value_lt f h.2.1
    rw [h.2.2] at h1
    have h2 : (1000000000 : Nat) = 10 ^ f.length * 10 ^ (9 - f.length) := by
      rw [← Nat.pow_add, show f.length + (9 - f.length) = 9 by omega]
    rw [h2]
    exact Nat.mul_lt_mul_of_pos_right h1 (Nat.pow_pos (by omega))
  have hb := nanos_bounds hr _ _ hs (by omega) (by omega)
  generalize hN : n * 10 ^ (9 - f.length) = N at *
  generalize hv : (n : Rat) / 10 ^ f.length = v at *
  unfold toNanos
  by_cases hz : v = 0
  · subst hz
    rw [rnd_zero hr, if_pos rfl]
    have : ((N : Int) : Rat) = ((0 : Int) : Rat) := by rw [← hs]; simp
    have := Rat.intCast_inj.1 this
    rw [this]
  · have h0 : (0 : Rat) ≤ ((N : Int) : Rat) := by
      have : ((0 : Int) : Rat) ≤ ((N : Int) : Rat) := Rat.intCast_le_intCast.2 (by omega)
      simpa using this
    have hpos : 0 < v := by grind
    have := rnd_pos hr v hpos
    rw [if_neg (by intro he; rw [he] at this; exact absurd this (by decide))]
    simp only
    generalize rnd (rnd (rnd v * 1000000000) + 1 / 2) = x at *
    have hx2 : x < 4294967296 := by
      have : ((N + 1 : Int) : Rat) ≤ ((4294967296 : Int) : Rat) := Rat.intCast_le_intCast.2 (by omega)
      have h4 : ((4294967296 : Int) : Rat) = 4294967296 := rfl
      grind
    rw [if_neg (by grind), if_neg (by grind)]
    have e1 := Rat.le_floor_iff.2 hb.1
    have e2 := Rat.floor_lt_iff.2 hb.2
    congr 1
    omega

theorem toNanos_zero (rnd : Rat → Rat) : toNanos rnd 0 = .ok 0 := by
  unfold toNanos
  rw [if_pos rfl]

theorem clock_stops {seps delims : List Char} {clk z : List Char} {h m s n : Nat}
    (hc : Clock seps delims clk h m s n) (hz : Suffix z) (hseps : ∀ c ∈ seps, ¬ Digit c) :
    Stops (clk ++ z) := by
  cases hc with
  | none => simpa using suffix_stops hz
  | hour hs _ => exact stops_cons (hseps _ hs)
  | minute hs _ _ _ => exact stops_cons (hseps _ hs)
  | second hs _ _ _ _ _ => exact stops_cons (hseps _ hs)
  | fraction hs _ _ _ _ _ _ _ => exact stops_cons (hseps _ hs)

/-- The scan of the time of day. -/
theorem sscanf_clock {rnd : Rat → Rat} (hr : Rounding rnd) {seps delims S1 S2 : List Char}
    {clk z : List Char} {h m s n : Nat} (hc : Clock seps delims clk h m s n) (hz : Suffix z)
    (h1 : ∀ c ∈ seps, c ∈ S1) (h2 : ∀ c ∈ delims, c ∈ S2) (hd : ∀ c ∈ delims, ¬ Digit c)
    (p1 : ∀ c, Digit c → c ∉ S1) (p2 : ∀ c, Digit c → c ∉ S2)
    (z1 : scanSet S1 z = none) (z2 : scanSet S2 z = none)
    (bh : h < 2 ^ 31) (bm : m < 2 ^ 31) (bs : s < 2 ^ 31) :
    ∃ r : Scanned,
      sscanf rnd [.set S1, .int (2 ^ 31), .set S2, .int (2 ^ 31), .set S2, .int (2 ^ 31), .real]
        (clk ++ z) = .ok r ∧ r.ints[0]?.getD 0 = (h : Int) ∧ r.ints[1]?.getD 0 = (m : Int) ∧
      r.ints[2]?.getD 0 = (s : Int) ∧ toNanos rnd (r.real.getD 0) = .ok (n : Int) := by
  have hzr : scanReal z = .ok none := (suffix_set hz).2.2.2.2
  have hst := suffix_stops hz
  cases hc with
  | none =>
    refine ⟨⟨[], none⟩, ?_, rfl, rfl, rfl, toNanos_zero rnd⟩
    rw [List.nil_append, sscanf_set_none z1]
  | hour hs ha =>
    refine ⟨⟨[_], none⟩, ?_, rfl, rfl, rfl, toNanos_zero rnd⟩
    rw [List.cons_append, sscanf_set ha z (h1 _ hs) p1, sscanf_int ha hst bh, sscanf_set_none z2]
    rfl
  | minute hs ha hd1 hb =>
    refine ⟨⟨[_, _], none⟩, ?_, rfl, rfl, rfl, toNanos_zero rnd⟩
    simp only [List.cons_append, List.append_assoc]
    rw [sscanf_set ha _ (h1 _ hs) p1, sscanf_int ha (stops_cons (hd _ hd1)) bh,
      sscanf_set hb _ (h2 _ hd1) p2, sscanf_int hb hst bm, sscanf_set_none z2]
    rfl
  | second hs ha hd1 hb hd2 hcc =>
    refine ⟨⟨[_, _, _], none⟩, ?_, rfl, rfl, rfl, toNanos_zero rnd⟩
    simp only [List.cons_append, List.append_assoc]
    rw [sscanf_set ha _ (h1 _ hs) p1, sscanf_int ha (stops_cons (hd _ hd1)) bh,
      sscanf_set hb _ (h2 _ hd1) p2, sscanf_int hb (stops_cons (hd _ hd2)) bm,
      sscanf_set hcc _ (h2 _ hd2) p2, sscanf_int hcc hst bs, sscanf_real_none hzr]
    rfl
  | fraction hs ha hd1 hb hd2 hcc hf hl =>
    refine ⟨⟨[_, _, _], some _⟩, ?_, rfl, rfl, rfl, toNanos_fraction hr hf hl⟩
    simp only [List.cons_append, List.append_assoc]
    rw [sscanf_set ha _ (h1 _ hs) p1, sscanf_int ha (stops_cons (hd _ hd1)) bh,
      sscanf_set hb _ (h2 _ hd1) p2, sscanf_int hb (stops_cons (hd _ hd2)) bm,
      sscanf_set hcc _ (h2 _ hd2) p2, sscanf_int hcc (stops_cons (by simp [Digit])) bs,
      sscanf_real hf hz]
    rfl

/-! ### The walk over the characters -/

theorem walk_digits (s : List Char) (hs : ∀ c ∈ s, Digit c) : ∀ (t : List Char) (w : Walk),
    walk (s ++ t) w = walk t { w with numberlike := w.numberlike + s.length
                                      length := w.length + s.length } := by
  induction s with
  | nil => intro t w; rfl
  | cons c s ih =>
    intro t w
    have hc := hs c (by simp)
    obtain ⟨h1, h2, h3, h4, h5, h6, h7, h8, h9, _⟩ := digit_plain hc
    have hdg := (isDigit_iff c).2 hc
    simp only [List.cons_append]
    conv => lhs; unfold walk
    rw [if_neg (by simp [h1, h2, h3, h4, h5]), if_neg (by simp [h6]), if_neg (by simp [h7, h9]),
      if_pos hdg, ih (fun d hd => hs d (by simp [hd]))]
    simp only [List.length_cons]
    congr 2 <;> omega

/-- Punctuation between numbers. -/
def Delim (c : Char) : Prop := c = '-' ∨ c = '/' ∨ c = ',' ∨ c = ':' ∨ c = '.'

theorem delim_not_digit {c : Char} (h : Delim c) : ¬ Digit c := by
  rcases h with rfl | rfl | rfl | rfl | rfl <;> simp [Digit]

theorem walk_suffix {z : List Char} (hz : Suffix z) (w : Walk) :
    walk z w = { w with length := w.length + z.length } := by
  rcases hz with rfl | rfl | rfl
  · rfl
  · simp [walk, isDigit]
  · simp [walk, isDigit]

/-- The walk over digits and punctuation to the end. -/
theorem walk_plain {z : List Char} (hz : Suffix z) : ∀ (t : List Char),
    (∀ c ∈ t, Digit c ∨ Delim c) → ∀ (w : Walk) (c : Char), w.length ≠ 0 →
    w.firstdelimiter = some c →
    (walk (t ++ z) w).error = w.error ∧ (walk (t ++ z) w).firstdelimiter = some c ∧
    (walk (t ++ z) w).length = w.length + t.length + z.length ∧
    (walk (t ++ z) w).numberlike ≤ w.numberlike + t.length ∧
    (w.separator = true → (walk (t ++ z) w).delimiters = w.delimiters) := by
  intro t
  induction t with
  | nil =>
    intro _ w c _ hf
    rw [List.nil_append, walk_suffix hz]
    exact ⟨rfl, hf, rfl, Nat.le_refl _, fun _ => rfl⟩
  | cons x t ih =>
    intro hall w c hl hf
    have htl : ∀ c ∈ t, Digit c ∨ Delim c := fun d hd => hall d (by simp [hd])
    rcases hall x (by simp) with hx | hx
    · have hw := walk_digits [x] (by intro d hd; simp at hd; rw [hd]; exact hx) (t ++ z) w
      simp only [List.cons_append, List.nil_append, List.length_singleton] at hw
      simp only [List.cons_append, hw, List.length_cons]
      obtain ⟨a, b, d, e, f⟩ := ih htl { w with numberlike := w.numberlike + 1
                                                length := w.length + 1 } c
        (by simp) hf
      refine ⟨a, b, ?_, ?_, f⟩
      · rw [d]; simp only; omega
      · simp only at e; omega
    · have hw : walk (x :: (t ++ z)) w = walk (t ++ z) { w with
          firstdelimiter := if w.firstdelimiter = none then some x else w.firstdelimiter
          delimiters := if w.separator then w.delimiters else w.delimiters + 1
          numberlike := if (x = '-' ∧ w.length = 0) ∨ x = '.' then w.numberlike + 1
            else w.numberlike
          length := w.length + 1 } := by
        conv => lhs; unfold walk
        rw [if_pos (show x = '-' ∨ x = '/' ∨ x = ',' ∨ x = ':' ∨ x = '.' from hx)]
      simp only [List.cons_append, hw, List.length_cons]
      obtain ⟨a, b, d, e, f⟩ := ih htl { w with
          firstdelimiter := if w.firstdelimiter = none then some x else w.firstdelimiter
          delimiters := if w.separator then w.delimiters else w.delimiters + 1
          numberlike := if (x = '-' ∧ w.length = 0) ∨ x = '.' then w.numberlike + 1
            else w.numberlike
          length := w.length + 1 } c (by simp) (by simp [hf])
      refine ⟨a, b, ?_, ?_, ?_⟩
      · rw [d]; simp only; omega
      · have hle : (if (x = '-' ∧ w.length = 0) ∨ x = '.' then w.numberlike + 1
            else w.numberlike) ≤ w.numberlike + 1 := by split <;> omega
        simp only at e
        omega
      · intro hs
        rw [f hs]
        simp [hs]

theorem clock_plain {seps delims : List Char} {clk : List Char} {h m s n : Nat}
    (hc : Clock seps delims clk h m s n) (hd : ∀ c ∈ delims, Delim c) :
    clk = [] ∨ ∃ x t, clk = x :: t ∧ x ∈ seps ∧ ∀ c ∈ t, Digit c ∨ Delim c := by
  have num : ∀ {a : List Char} {n : Nat}, Numeral a n → ∀ c ∈ a, Digit c ∨ Delim c :=
    fun ha c hc => Or.inl (ha.2.1 c hc)
  have app : ∀ {a b : List Char}, (∀ c ∈ a, Digit c ∨ Delim c) → (∀ c ∈ b, Digit c ∨ Delim c) →
      ∀ c ∈ a ++ b, Digit c ∨ Delim c := by
    intro a b ha hb c hc
    rcases List.mem_append.1 hc with h | h
    · exact ha c h
    · exact hb c h
  have con : ∀ {d : Char} {b : List Char}, Delim d → (∀ c ∈ b, Digit c ∨ Delim c) →
      ∀ c ∈ d :: b, Digit c ∨ Delim c := by
    intro d b hd hb c hc
    rcases List.mem_cons.1 hc with h | h
    · rw [h]; exact Or.inr hd
    · exact hb c h
  cases hc with
  | none => exact Or.inl rfl
  | hour hs ha => exact Or.inr ⟨_, _, rfl, hs, num ha⟩
  | minute hs ha d1 hb => exact Or.inr ⟨_, _, rfl, hs, app (num ha) (con (hd _ d1) (num hb))⟩
  | second hs ha d1 hb d2 hcc =>
    exact Or.inr ⟨_, _, rfl, hs,
      app (num ha) (con (hd _ d1) (app (num hb) (con (hd _ d2) (num hcc))))⟩
  | fraction hs ha d1 hb d2 hcc hf _ =>
    exact Or.inr ⟨_, _, rfl, hs,
      app (num ha) (con (hd _ d1) (app (num hb) (con (hd _ d2)
        (app (num hcc) (con (by simp [Delim]) (num hf))))))⟩

/-- The walk over the time of day. -/
theorem walk_clock {seps delims : List Char} {clk z : List Char} {h m s n : Nat}
    (hc : Clock seps delims clk h m s n) (hz : Suffix z) (hd : ∀ c ∈ delims, Delim c)
    (hs : ∀ c ∈ seps, c = 'T' ∨ c = ' ' ∨ Delim c) (w : Walk) (c : Char) (hl : w.length ≠ 0)
    (hf : w.firstdelimiter = some c) (hsep : w.separator = false) :
    (walk (clk ++ z) w).error = w.error ∧ (walk (clk ++ z) w).firstdelimiter = some c ∧
    (walk (clk ++ z) w).length = w.length + clk.length + z.length ∧
    (walk (clk ++ z) w).numberlike ≤ w.numberlike + clk.length ∧
    ((∀ c ∈ seps, c = 'T' ∨ c = ' ') → (walk (clk ++ z) w).delimiters = w.delimiters) := by
  rcases clock_plain hc hd with rfl | ⟨x, t, rfl, hx, ht⟩
  · rw [List.nil_append, walk_suffix hz]
    exact ⟨rfl, hf, rfl, Nat.le_refl _, fun _ => rfl⟩
  · by_cases hxt : x = 'T' ∨ x = ' '
    · have hw : walk (x :: (t ++ z)) w =
          walk (t ++ z) { w with separator := true, length := w.length + 1 } := by
        conv => lhs; unfold walk
        have hnd : ¬ (x = '-' ∨ x = '/' ∨ x = ',' ∨ x = ':' ∨ x = '.') := by
          rcases hxt with rfl | rfl <;> decide
        rw [if_neg hnd, if_neg (by intro hh; exact hl hh.2), if_pos ⟨hsep, hxt⟩]
      obtain ⟨a, b, d, e, f⟩ := walk_plain hz t ht
        { w with separator := true, length := w.length + 1 } c (by simp) hf
      simp only [List.cons_append, hw, List.length_cons]
      refine ⟨a, b, ?_, ?_, fun _ => f rfl⟩
      · rw [d]; simp only; omega
      · simp only at e; omega
    · have hdx : Delim x := by
        rcases hs x hx with h | h | h
        · exact absurd (Or.inl h) hxt
        · exact absurd (Or.inr h) hxt
        · exact h
      have hall : ∀ c ∈ x :: t, Digit c ∨ Delim c := by
        intro c hc
        rcases List.mem_cons.1 hc with h | h
        · rw [h]; exact Or.inr hdx
        · exact ht c h
      obtain ⟨a, b, d, e, _⟩ := walk_plain hz (x :: t) hall w c hl hf
      exact ⟨a, b, d, e, fun hall => absurd (hall x hx) hxt⟩

/-! ### Whole strings -/

theorem walk_delim {c : Char} (h : Delim c) (t : List Char) (w : Walk) :
    walk (c :: t) w = walk t { w with
      firstdelimiter := if w.firstdelimiter = none then some c else w.firstdelimiter
      delimiters := if w.separator then w.delimiters else w.delimiters + 1
      numberlike := if (c = '-' ∧ w.length = 0) ∨ c = '.' then w.numberlike + 1 else w.numberlike
      length := w.length + 1 } := by
  conv => lhs; unfold walk
  rw [if_pos (show c = '-' ∨ c = '/' ∨ c = ',' ∨ c = ':' ∨ c = '.' from h)]

theorem numeral_long {s : List Char} {n k : Nat} (h : Numeral s n) (hn : 10 ^ k ≤ n) :
    k < s.length := by
  have := value_lt s h.2.1
  rw [h.2.2] at this
  exact (Nat.pow_lt_pow_iff_right (a := 10) (by omega)).1 (Nat.lt_of_le_of_lt hn this)

theorem instant_out (y d h m s n : Int) (hy : 1678 ≤ y) (hd : 1 ≤ d) (hh : 0 ≤ h) (hm : 0 ≤ m)
    (hs : 0 ≤ s) (hn : 0 ≤ n) (hi : InInt64 (Fields.instant ⟨y, d, h, m, s, n⟩)) :
    ofOut (time2nstimeInt y d h m s n) = .ok (Fields.instant ⟨y, d, h, m, s, n⟩) := by
  have hj : jan1 y = jc y := jan1_eq y
  unfold jc at hj
  rw [time2nstimeInt_eq]
  have h2 := hi
  unfold InInt64 Fields.instant at h2
  simp only at h2
  have : InInt64 (Fields.instant ⟨y, d, h, m, s, n⟩ - n) := by
    unfold InInt64 Fields.instant
    simp only
    omega
  simp only [this, hi, and_self, if_true, ofOut]

/-- The checks and the conversion at the end of `ms_mdtimestr2nstime`. -/
def mdEnd (year mon mday hour min sec nsec : Int) : Got Int :=
  if !validYear year then .ok NSTERROR
  else if !validMonth mon then .ok NSTERROR
  else if !validMonthDay year mon mday then .ok NSTERROR
  else if !validHour hour then .ok NSTERROR
  else if !validMin min then .ok NSTERROR
  else if !validSec sec then .ok NSTERROR
  else if !validNano nsec then .ok NSTERROR
  else
    match md2doy year mon mday with
    | none => .ok NSTERROR
    | some yday => ofOut (time2nstimeInt year yday hour min sec nsec)

/-- The checks and the conversion at the end of `ms_seedtimestr2nstime`. -/
def seedEnd (year yday hour min sec nsec : Int) : Got Int :=
  if !validYear year then .ok NSTERROR
  else if !validYearDay year yday then .ok NSTERROR
  else if !validHour hour then .ok NSTERROR
  else if !validMin min then .ok NSTERROR
  else if !validSec sec then .ok NSTERROR
  else if !validNano nsec then .ok NSTERROR
  else ofOut (time2nstimeInt year yday hour min sec nsec)

theorem dateDelim {c : Char} (h : c = '-' ∨ c = '/') : Delim c := by
  rcases h with rfl | rfl <;> simp [Delim]

theorem isoSeps : ∀ c ∈ ['T', ' '], ¬ Digit c := by
  intro c hc
  simp at hc
  rcases hc with rfl | rfl <;> simp [Digit]

theorem md_scan {rnd : Rat → Rat} (hr : Rounding rnd) {ys ms ds clk z : List Char} {a b : Char}
    {y mo d h m s n : Nat} (hy : Numeral ys y) (hm : Numeral ms mo) (hd : Numeral ds d)
    (ha : a = '-' ∨ a = '/') (hb : b = '-' ∨ b = '/')
    (hc : Clock ['T', ' '] [':'] clk h m s n) (hz : Suffix z)
    (by1 : y < 2 ^ 31) (bmo : mo < 2 ^ 31) (bd : d < 2 ^ 31) (bh : h < 2 ^ 31) (bm : m < 2 ^ 31)
    (bs : s < 2 ^ 31) :
    mdtimestr2nstime rnd (ys ++ a :: (ms ++ b :: (ds ++ (clk ++ z)))) = mdEnd y mo d h m s n := by
  obtain ⟨z1, z2, z3, z4, z5⟩ := suffix_set hz
  obtain ⟨r, hr1, r1, r2, r3, r4⟩ := sscanf_clock hr (S1 := "-,/:.Tt ".toList)
    (S2 := "-,/:.".toList) hc hz (by decide) (by decide) (by simp [Digit])
    (fun c hc => (sets_plain c hc).2.1) (fun c hc => (sets_plain c hc).1) z2 z1 bh bm bs
  have hin : ∀ c, (c = '-' ∨ c = '/') → c ∈ "-,/:.".toList := by
    rintro c (rfl | rfl) <;> decide
  have hscan : sscanf rnd mdFormat (ys ++ a :: (ms ++ b :: (ds ++ (clk ++ z)))) =
      .ok { r with ints := (y : Int) :: (mo : Int) :: (d : Int) :: r.ints } := by
    unfold mdFormat
    rw [sscanf_int hy (stops_cons (delim_not_digit (dateDelim ha))) by1,
      sscanf_set hm _ (hin a ha) (fun c hc => (sets_plain c hc).1),
      sscanf_int hm (stops_cons (delim_not_digit (dateDelim hb))) bmo,
      sscanf_set hd _ (hin b hb) (fun c hc => (sets_plain c hc).1),
      sscanf_int hd (clock_stops hc hz isoSeps) bd, hr1]
    rfl
  unfold mdtimestr2nstime
  rw [hscan]
  simp only [Got.bind, List.getElem?_cons_zero, List.getElem?_cons_succ, Option.getD_some, r1, r2, r3,
    r4]
  rw [if_neg (by simp)]
  rfl

theorem seedSets {c : Char} (h : c = '-' ∨ c = ',') : c ∈ "-,:.".toList ∧ Delim c := by
  rcases h with rfl | rfl <;> exact ⟨by decide, by simp [Delim]⟩

/-- The separators of an ordinal date: those of ISO after a dash, those of SEED after a comma. -/
def ordinalSeps (a : Char) : List Char := if a = ',' then ['T', ' ', ',', ':'] else ['T', ' ']
def ordinalDelims (a : Char) : List Char := if a = ',' then [',', ':'] else [':']

theorem ordinal_facts (a : Char) :
    (∀ c ∈ ordinalSeps a, ¬ Digit c) ∧ (∀ c ∈ ordinalSeps a, c ∈ "-,:.Tt ".toList) ∧
    (∀ c ∈ ordinalDelims a, c ∈ "-,:.".toList) ∧ (∀ c ∈ ordinalDelims a, Delim c) ∧
    (∀ c ∈ ordinalSeps a, c = 'T' ∨ c = ' ' ∨ Delim c) := by
  unfold ordinalSeps ordinalDelims
  split
  · refine ⟨?_, by decide, by decide, by simp [Delim], by simp [Delim]⟩
    intro c hc
    simp at hc
    rcases hc with rfl | rfl | rfl | rfl <;> simp [Digit]
  · refine ⟨isoSeps, by decide, by decide, by simp [Delim], by simp⟩

theorem seed_scan {rnd : Rat → Rat} (hr : Rounding rnd) {ys ds clk z : List Char} {a : Char}
    {y d h m s n : Nat} (hy : Numeral ys y) (hd : Numeral ds d)
    (ha : a = '-' ∨ a = ',')
    (hc : Clock (ordinalSeps a) (ordinalDelims a) clk h m s n) (hz : Suffix z)
    (by1 : y < 2 ^ 31) (bd : d < 2 ^ 31) (bh : h < 2 ^ 31) (bm : m < 2 ^ 31)
    (bs : s < 2 ^ 31) :
    seedtimestr2nstime rnd (ys ++ a :: (ds ++ (clk ++ z))) = seedEnd y d h m s n := by
  obtain ⟨z1, z2, z3, z4, z5⟩ := suffix_set hz
  obtain ⟨f1, f2, f3, f4, _⟩ := ordinal_facts a
  obtain ⟨r, hr1, r1, r2, r3, r4⟩ := sscanf_clock hr (S1 := "-,:.Tt ".toList)
    (S2 := "-,:.".toList) hc hz f2 f3 (fun c hc => delim_not_digit (f4 c hc))
    (fun c hc => (sets_plain c hc).2.2.2) (fun c hc => (sets_plain c hc).2.2.1) z4 z3 bh bm bs
  have hscan : sscanf rnd seedFormat (ys ++ a :: (ds ++ (clk ++ z))) =
      .ok { r with ints := (y : Int) :: (d : Int) :: r.ints } := by
    unfold seedFormat
    rw [sscanf_int hy (stops_cons (delim_not_digit (seedSets ha).2)) by1,
      sscanf_set hd _ (seedSets ha).1 (fun c hc => (sets_plain c hc).2.2.1),
      sscanf_int hd (clock_stops hc hz f1) bd, hr1]
    rfl
  unfold seedtimestr2nstime
  rw [hscan]
  simp only [Got.bind, List.getElem?_cons_zero, List.getElem?_cons_succ, Option.getD_some, r1, r2, r3,
    r4]
  rw [if_neg (by simp)]
  rfl

/-- The choice of the form by `ms_timestr2nstime`: month and day. -/
theorem md_choice {rnd : Rat → Rat} {ys ms ds clk z : List Char} {a b : Char}
    {y mo d h m s n : Nat} (hy : Numeral ys y) (hm : Numeral ms mo) (hd : Numeral ds d)
    (ha : a = '-' ∨ a = '/') (hb : b = '-' ∨ b = '/')
    (hc : Clock ['T', ' '] [':'] clk h m s n) (hz : Suffix z)
    (hlen : (ys ++ a :: (ms ++ b :: (ds ++ (clk ++ z)))).length ≤ 32) (hmin : 1 < ys.length +
      ms.length + ds.length) :
    timestr2nstime rnd (ys ++ a :: (ms ++ b :: (ds ++ (clk ++ z)))) =
      mdtimestr2nstime rnd (ys ++ a :: (ms ++ b :: (ds ++ (clk ++ z)))) := by
  have hy0 : 0 < ys.length := List.length_pos_iff.2 hy.1
  have hw : walk (ys ++ a :: (ms ++ b :: (ds ++ (clk ++ z)))) {} = walk (clk ++ z)
      { firstdelimiter := some a, separator := false, delimiters := 2,
        numberlike := ys.length + ms.length + ds.length,
        length := ys.length + 1 + ms.length + 1 + ds.length, error := false } := by
    rw [walk_digits ys hy.2.1, walk_delim (dateDelim ha), walk_digits ms hm.2.1,
      walk_delim (dateDelim hb), walk_digits ds hd.2.1]
    have na : ¬ ((a = '-' ∧ 0 + ys.length = 0) ∨ a = '.') := by
      rcases ha with rfl | rfl
      · simp [hy.1]
      · simp
    have nb : ¬ ((b = '-' ∧ 0 + ys.length + 1 + ms.length = 0) ∨ b = '.') := by
      rcases hb with rfl | rfl <;> simp
    simp only [na, nb, if_false, if_true, Bool.false_eq_true, reduceCtorEq]
    congr 2 <;> omega
  obtain ⟨c1, c2, c3, c4, c5⟩ := walk_clock hc hz (by simp [Delim]) (by simp)
    { firstdelimiter := some a, separator := false, delimiters := 2,
      numberlike := ys.length + ms.length + ds.length,
      length := ys.length + 1 + ms.length + 1 + ds.length, error := false } a (by simp) rfl rfl
  have c6 := c5 (by simp)
  simp only [List.length_append, List.length_cons] at hlen
  unfold timestr2nstime
  simp only [hw]
  generalize walk (clk ++ z) _ = w at *
  simp only at c1 c3 c4 c6
  rw [if_neg (by omega), if_pos ⟨c1, by omega, by omega⟩, c2]
  simp only
  rw [if_pos ⟨ha, c6⟩]

theorem seed_choice {rnd : Rat → Rat} {ys ds clk z : List Char} {a : Char}
    {y d h m s n : Nat} (hy : Numeral ys y) (hd : Numeral ds d)
    (ha : a = '-' ∨ a = ',')
    (hc : Clock (ordinalSeps a) (ordinalDelims a) clk h m s n) (hz : Suffix z)
    (hlen : (ys ++ a :: (ds ++ (clk ++ z))).length ≤ 32) (hmin : 2 < ys.length + ds.length) :
    timestr2nstime rnd (ys ++ a :: (ds ++ (clk ++ z))) =
      seedtimestr2nstime rnd (ys ++ a :: (ds ++ (clk ++ z))) := by
  have hy0 : 0 < ys.length := List.length_pos_iff.2 hy.1
  obtain ⟨f1, f2, f3, f4, f5⟩ := ordinal_facts a
  have hw : walk (ys ++ a :: (ds ++ (clk ++ z))) {} = walk (clk ++ z)
      { firstdelimiter := some a, separator := false, delimiters := 1,
        numberlike := ys.length + ds.length,
        length := ys.length + 1 + ds.length, error := false } := by
    rw [walk_digits ys hy.2.1, walk_delim (seedSets ha).2, walk_digits ds hd.2.1]
    have na : ¬ ((a = '-' ∧ 0 + ys.length = 0) ∨ a = '.') := by
      rcases ha with rfl | rfl
      · simp [hy.1]
      · simp
    simp only [na, if_false, if_true, Bool.false_eq_true]
    congr 2 <;> omega
  obtain ⟨c1, c2, c3, c4, c5⟩ := walk_clock hc hz f4 f5
    { firstdelimiter := some a, separator := false, delimiters := 1,
      numberlike := ys.length + ds.length,
      length := ys.length + 1 + ds.length, error := false } a (by simp) rfl rfl
  simp only [List.length_append, List.length_cons] at hlen
  unfold timestr2nstime
  simp only [hw]
  generalize walk (clk ++ z) _ = w at *
  simp only at c1 c3 c4 c5
  rw [if_neg (by omega), if_pos ⟨c1, by omega, by omega⟩, c2]
  simp only
  rcases ha with rfl | rfl
  · have c6 : w.delimiters = 1 := c5 (by simp [ordinalSeps])
    rw [if_neg (by omega), if_pos ⟨rfl, c6⟩]
  · rw [if_neg (by simp), if_neg (by simp), if_pos rfl]

theorem clock_nano {seps delims clk : List Char} {h m s n : Nat} (hc : Clock seps delims clk h m s n) :
    n < 1000000000 := by
  cases hc with
  | none => omega
  | hour _ _ => omega
  | minute _ _ _ _ => omega
  | second _ _ _ _ _ _ => omega
  | fraction _ _ _ _ _ _ hf hl =>
    rename_i f n _ _ _ _ _ _
    have h1 := value_lt f hf.2.1
    rw [hf.2.2] at h1
    have h2 : (1000000000 : Nat) = 10 ^ f.length * 10 ^ (9 - f.length) := by
      rw [← Nat.pow_add, show f.length + (9 - f.length) = 9 by omega]
    rw [h2]
    exact Nat.mul_lt_mul_of_pos_right h1 (Nat.pow_pos (by omega))

/-- A valid date is converted. -/
theorem mdEnd_ok {y mo d h m s n : Nat} (hy : 1678 ≤ y ∧ y ≤ 2262) (hmo : 1 ≤ mo ∧ mo ≤ 12)
    (hd : 1 ≤ d ∧ (d : Int) ≤ monthLen y mo) (hh : h ≤ 23) (hm : m ≤ 59) (hs : s ≤ 60)
    (hn : n < 1000000000)
    (hi : InInt64 (Fields.instant ⟨y, daysBeforeMonth y mo + d, h, m, s, n⟩)) :
    mdEnd y mo d h m s n = .ok (Fields.instant ⟨y, daysBeforeMonth y mo + d, h, m, s, n⟩) := by
  obtain ⟨hdoy, _⟩ := C05_md_to_doy y mo d (by omega) (by omega) (by omega)
  have a1 : validYear (y : Int) = true := by unfold validYear; simp; omega
  have a3 : validMonth (mo : Int) = true := by unfold validMonth; simp; omega
  have hdd := hd
  rw [monthLen_eqB] at hdd
  have a4 : validMonthDay (y : Int) mo d = true := by
    unfold validMonthDay; rw [monthDays_eqB _ _ (by omega) (by omega)]; simp; omega
  have a5 : validHour (h : Int) = true := by unfold validHour; simp; omega
  have a6 : validMin (m : Int) = true := by unfold validMin; simp; omega
  have a7 : validSec (s : Int) = true := by unfold validSec; simp; omega
  have a8 : validNano (n : Int) = true := by unfold validNano; simp; omega
  have hb := daysBeforeB_bound (leapYear (y : Int)) mo d (by omega) (by omega) (by omega) hdd.2
  rw [← daysBefore_eqB] at hb
  unfold mdEnd
  simp only [a1, a3, a4, a5, a6, a7, a8, Bool.not_true, Bool.false_eq_true, if_false, hdoy]
  exact instant_out _ _ _ _ _ _ (by omega) hb.1 (by omega) (by omega) (by omega) (by omega) hi

theorem seedEnd_ok {y d h m s n : Nat} (hy : 1678 ≤ y ∧ y ≤ 2262)
    (hd : 1 ≤ d ∧ (d : Int) ≤ yearLen y) (hh : h ≤ 23) (hm : m ≤ 59) (hs : s ≤ 60)
    (hn : n < 1000000000) (hi : InInt64 (Fields.instant ⟨y, d, h, m, s, n⟩)) :
    seedEnd y d h m s n = .ok (Fields.instant ⟨y, d, h, m, s, n⟩) := by
  have a1 : validYear (y : Int) = true := by unfold validYear; simp; omega
  have a2 : validYearDay (y : Int) d = true := (validYearDay_iff _ _).2 ⟨by omega, hd.2⟩
  have a5 : validHour (h : Int) = true := by unfold validHour; simp; omega
  have a6 : validMin (m : Int) = true := by unfold validMin; simp; omega
  have a7 : validSec (s : Int) = true := by unfold validSec; simp; omega
  have a8 : validNano (n : Int) = true := by unfold validNano; simp; omega
  unfold seedEnd
  simp only [a1, a2, a5, a6, a7, a8, Bool.not_true, Bool.false_eq_true, if_false]
  exact instant_out _ _ _ _ _ _ (by omega) (by omega) (by omega) (by omega) (by omega) (by omega) hi

/-! ### Epoch times -/

theorem toInt_fraction {rnd : Rat → Rat} (hr : Rounding rnd) {f : List Char} {n : Nat}
    (h : Numeral f n) (hk : f.length ≤ 9) :
    toInt rnd (rnd ((n : Rat) / 10 ^ f.length)) = .ok ((n * 10 ^ (9 - f.length) : Nat) : Int) := by
  have hs := fraction_scaled n f.length hk
  have hlt : n * 10 ^ (9 - f.length) < 1000000000 := by
    have h1 := value_lt f h.2.1
    rw [h.2.2] at h1
    have h2 : (1000000000 : Nat) = 10 ^ f.length * 10 ^ (9 - f.length) := by
      rw [← Nat.pow_add, show f.length + (9 - f.length) = 9 by omega]
    rw [h2]
    exact Nat.mul_lt_mul_of_pos_right h1 (Nat.pow_pos (by omega))
  have hb := nanos_bounds hr _ _ hs (by omega) (by omega)
  generalize hN : n * 10 ^ (9 - f.length) = N at *
  generalize hv : (n : Rat) / 10 ^ f.length = v at *
  unfold toInt
  have h0 : (0 : Rat) ≤ ((N : Int) : Rat) := by
    have : ((0 : Int) : Rat) ≤ ((N : Int) : Rat) := Rat.intCast_le_intCast.2 (by omega)
    simpa using this
  simp only
  generalize rnd (rnd (rnd v * 1000000000) + 1 / 2) = x at *
  have hx2 : x < 2147483648 := by
    have : ((N + 1 : Int) : Rat) ≤ ((2147483648 : Int) : Rat) := Rat.intCast_le_intCast.2 (by omega)
    have h4 : ((2147483648 : Int) : Rat) = 2147483648 := rfl
    grind
  rw [if_neg (by grind), if_neg (by grind)]
  have e1 := Rat.le_floor_iff.2 hb.1
  have e2 := Rat.floor_lt_iff.2 hb.2
  congr 1
  omega

theorem scanInt_signed {sg s : List Char} {n : Nat} (hsg : sg = [] ∨ sg = ['+'] ∨ sg = ['-'])
    (h : Numeral s n) {rest : List Char} (hr : Stops rest) :
    scanInt (sg ++ (s ++ rest)) = some (signed sg n, rest) := by
  rcases hsg with rfl | rfl | rfl
  · rw [List.nil_append, scanInt_numeral h hr]
    rfl
  all_goals
    obtain ⟨hne, hd, hv⟩ := h
    obtain ⟨t1, t2⟩ := take_digits s rest hd hr
    unfold scanInt
    simp only [List.cons_append, List.nil_append]
    rw [show List.dropWhile isSpace (_ :: (s ++ rest)) = _ :: (s ++ rest) from by
      rw [List.dropWhile_cons, if_neg (by decide)]]
    simp only [sign]
    rw [t1, t2, if_neg hne]
    rw [← hv]
    rfl

theorem frac_stops {fr : List Char} {n : Nat} (h : Frac fr n) : Stops fr := by
  rcases h with ⟨rfl, _⟩ | ⟨f, v, rfl, _⟩
  · exact stops_nil
  · exact stops_cons (by simp [Digit])

theorem walk_epoch {sg s fr : List Char} {v n : Nat} (hsg : sg = [] ∨ sg = ['+'] ∨ sg = ['-'])
    (hs : Numeral s v) (hf : Frac fr n) :
    (walk (sg ++ (s ++ fr)) {}).error = false ∧
    (walk (sg ++ (s ++ fr)) {}).length = (sg ++ (s ++ fr)).length ∧
    (walk (sg ++ (s ++ fr)) {}).numberlike = (sg ++ (s ++ fr)).length := by
  have hfr : ∀ w : Walk, (walk fr w).error = w.error ∧ (walk fr w).length = w.length + fr.length ∧
      (walk fr w).numberlike = w.numberlike + fr.length := by
    intro w
    rcases hf with ⟨rfl, _⟩ | ⟨f, v, rfl, hn, _⟩
    · exact ⟨rfl, rfl, rfl⟩
    · have hd := walk_digits f hn.2.1 []
      rw [List.append_nil] at hd
      rw [walk_delim (by simp [Delim]), hd]
      refine ⟨rfl, ?_, ?_⟩
      · simp only [walk, List.length_cons]; omega
      · simp only [walk, List.length_cons, or_true, if_true]; omega
  have hrest : ∀ w : Walk, (walk (s ++ fr) w).error = w.error ∧
      (walk (s ++ fr) w).length = w.length + (s.length + fr.length) ∧
      (walk (s ++ fr) w).numberlike = w.numberlike + (s.length + fr.length) := by
    intro w
    rw [walk_digits s hs.2.1]
    obtain ⟨a, b, c⟩ := hfr { w with numberlike := w.numberlike + s.length
                                     length := w.length + s.length }
    exact ⟨a, by rw [b]; simp only; omega, by rw [c]; simp only; omega⟩
  rcases hsg with rfl | rfl | rfl
  · obtain ⟨a, b, c⟩ := hrest {}
    simp only [List.nil_append, List.length_append]
    exact ⟨a, by rw [b]; simp only; omega, by rw [c]; simp only; omega⟩
  · have hw : walk (['+'] ++ (s ++ fr)) {} = walk (s ++ fr) { numberlike := 1, length := 1 } := by
      simp [walk]
    rw [hw]
    obtain ⟨a, b, c⟩ := hrest { numberlike := 1, length := 1 }
    simp only [List.cons_append, List.nil_append, List.length_append, List.length_cons]
    exact ⟨a, by rw [b]; simp only; omega, by rw [c]; simp only; omega⟩
  · have hw : walk (['-'] ++ (s ++ fr)) {} = walk (s ++ fr)
        { firstdelimiter := some '-', delimiters := 1, numberlike := 1, length := 1 } := by
      simp [walk]
    rw [hw]
    obtain ⟨a, b, c⟩ := hrest { firstdelimiter := some '-', delimiters := 1, numberlike := 1,
                                length := 1 }
    simp only [List.cons_append, List.nil_append, List.length_append, List.length_cons]
    exact ⟨a, by rw [b]; simp only; omega, by rw [c]; simp only; omega⟩

theorem epoch_reads {rnd : Rat → Rat} (hr : Rounding rnd) {sg s fr : List Char} {v n : Nat}
    (hsg : sg = [] ∨ sg = ['+'] ∨ sg = ['-']) (hs : Numeral s v) (hf : Frac fr n)
    (hlen : (sg ++ (s ++ fr)).length ≠ 4 ∨ sg ≠ []) (hneg : sg = ['-'] → v = 0 → n = 0)
    (hi : InInt64 (signed sg (v * 1000000000 + n))) :
    timestr2nstime rnd (sg ++ (s ++ fr)) = .ok (signed sg (v * 1000000000 + n)) := by
  obtain ⟨w1, w2, w3⟩ := walk_epoch hsg hs hf
  have hn : n < 1000000000 := by
    rcases hf with ⟨_, rfl⟩ | ⟨f, u, _, hu, hl, rfl⟩
    · omega
    · have h1 := value_lt f hu.2.1
      rw [hu.2.2] at h1
      have h2 : (1000000000 : Nat) = 10 ^ f.length * 10 ^ (9 - f.length) := by
        rw [← Nat.pow_add, show f.length + (9 - f.length) = 9 by omega]
      rw [h2]
      exact Nat.mul_lt_mul_of_pos_right h1 (Nat.pow_pos (by omega))
  have hchoose : timestr2nstime rnd (sg ++ (s ++ fr)) = epoch rnd (sg ++ (s ++ fr)) := by
    unfold timestr2nstime
    simp only
    rw [if_pos]
    refine ⟨w1, by rw [w2, w3], ?_⟩
    rw [w2]
    rcases hlen with h | h
    · exact Or.inl h
    · by_cases h4 : (sg ++ (s ++ fr)).length = 4
      · refine Or.inr ⟨h4, ?_⟩
        rcases hsg with rfl | rfl | rfl
        · exact absurd rfl h
        · exact Or.inr rfl
        · exact Or.inl rfl
      · exact Or.inl h4
  rw [hchoose]
  unfold InInt64 at hi
  have hsgn : signed sg (v * 1000000000 + n) = signed sg v * 1000000000 + signed sg n := by
    unfold signed
    split <;> omega
  have hb : -2 ^ 63 ≤ signed sg v ∧ signed sg v < 2 ^ 63 := by
    unfold signed at *
    split at hi <;> split <;> omega
  have hreal : ∃ q, sscanf rnd [.real] fr = .ok ⟨[], q⟩ ∧
      ((q.getD 0 = 0 ∧ n = 0) ∨ (q.getD 0 ≠ 0 ∧ toInt rnd (q.getD 0) = .ok (n : Int))) := by
    rcases hf with ⟨rfl, rfl⟩ | ⟨f, u, rfl, hu, hl, rfl⟩
    · exact ⟨none, sscanf_real_none (by decide), Or.inl ⟨rfl, rfl⟩⟩
    · have hsc := sscanf_real (rnd := rnd) (ds := []) hu (z := []) (Or.inl rfl)
      rw [List.append_nil] at hsc
      refine ⟨_, hsc, ?_⟩
      simp only [Option.getD_some]
      by_cases hu0 : u = 0
      · subst hu0
        left
        refine ⟨?_, by simp⟩
        have : ((0 : Nat) : Rat) / 10 ^ f.length = 0 := by
          simp [Rat.div_def]
        rw [this, rnd_zero hr]
      · right
        refine ⟨?_, toInt_fraction hr hu hl⟩
        have hpos : (0 : Rat) < (u : Rat) / 10 ^ f.length := by
          have h1 : (0 : Rat) < 10 ^ f.length := Rat.pow_pos (by decide)
          have h2 : (0 : Rat) < u := by
            have : ((0 : Nat) : Rat) < (u : Rat) := Rat.natCast_lt_natCast.2 (by omega)
            simpa using this
          rw [Rat.lt_div_iff h1]
          simpa using h2
        have := rnd_pos hr _ hpos
        intro he
        rw [he] at this
        exact absurd this (by decide)
  obtain ⟨q, hq, hcases⟩ := hreal
  have hscan : sscanf rnd epochFormat (sg ++ (s ++ fr)) = .ok ⟨[signed sg v], q⟩ := by
    unfold epochFormat
    conv => lhs; unfold sscanf
    rw [scanInt_signed hsg hs (frac_stops hf)]
    simp only
    rw [if_pos ⟨by omega, by omega⟩, hq]
    rfl
  unfold epoch
  rw [hscan]
  simp only [Got.bind]
  have hfit : fitsInt64 (signed sg v * NSTMODULUS) = true := by
    rw [fitsInt64_iff]
    unfold InInt64 NSTMODULUS
    unfold signed at *
    split at hi <;> split <;> omega
  rw [hfit]
  simp only [Bool.not_true, Bool.false_eq_true, if_false]
  rcases hcases with ⟨hq0, rfl⟩ | ⟨hq0, hti⟩
  · rw [if_pos hq0]
    congr 1
    unfold signed NSTMODULUS
    split <;> omega
  · rw [if_neg hq0, hti]
    simp only
    have hval : (if signed sg v * NSTMODULUS ≥ 0 then signed sg v * NSTMODULUS + (n : Int)
        else signed sg v * NSTMODULUS - n) = signed sg (v * 1000000000 + n) := by
      unfold signed NSTMODULUS
      by_cases hm : sg = ['-']
      · have h0 := hneg hm
        simp only [hm, if_true]
        by_cases hv0 : v = 0
        · have := h0 hv0
          subst hv0
          subst this
          simp
        · rw [if_neg (by omega)]
          omega
      · simp only [hm, if_false]
        rw [if_pos (by omega)]
    rw [hval, if_pos]
    rw [fitsInt64_iff]
    exact hi

/-- The sign of a zero number of seconds has no effect. -/
theorem epoch_sign {rnd : Rat → Rat} {s fr : List Char} {n : Nat} (hs : Numeral s 0) (hf : Frac fr n) :
    timestr2nstime rnd ('-' :: (s ++ fr)) = timestr2nstime rnd ('+' :: (s ++ fr)) := by
  have key : ∀ sg : List Char, sg = ['+'] ∨ sg = ['-'] →
      timestr2nstime rnd (sg ++ (s ++ fr)) = epoch rnd (sg ++ (s ++ fr)) := by
    intro sg hsg
    obtain ⟨w1, w2, w3⟩ := walk_epoch (sg := sg) (Or.inr hsg) hs hf
    unfold timestr2nstime
    simp only
    rw [if_pos]
    refine ⟨w1, by rw [w2, w3], ?_⟩
    rw [w2]
    by_cases h4 : (sg ++ (s ++ fr)).length = 4
    · refine Or.inr ⟨h4, ?_⟩
      rcases hsg with rfl | rfl
      · exact Or.inr rfl
      · exact Or.inl rfl
    · exact Or.inl h4
  have hscan : ∀ sg : List Char, sg = ['+'] ∨ sg = ['-'] →
      sscanf rnd epochFormat (sg ++ (s ++ fr)) =
        (sscanf rnd [.real] fr).bind fun r => .ok { r with ints := 0 :: r.ints } := by
    intro sg hsg
    unfold epochFormat
    conv => lhs; unfold sscanf
    rw [scanInt_signed (Or.inr hsg) hs (frac_stops hf)]
    have : signed sg ((0 : Nat) : Int) = 0 := by unfold signed; split <;> rfl
    simp only [this]
    rw [if_pos ⟨by omega, by omega⟩]
  have h1 := key ['-'] (Or.inr rfl)
  have h2 := key ['+'] (Or.inl rfl)
  have h3 := hscan ['-'] (Or.inr rfl)
  have h4 := hscan ['+'] (Or.inl rfl)
  simp only [List.singleton_append] at h1 h2 h3 h4
  rw [h1, h2]
  unfold epoch
  rw [h3, h4]

/-! ### Overflow -/

theorem epoch_over {rnd : Rat → Rat} {s : List Char} {a : Int}
    (h : sscanf rnd epochFormat s = .ok ⟨[a], none⟩) (hf : fitsInt64 (a * NSTMODULUS) = false) :
    epoch rnd s = .ub := by
  unfold epoch
  rw [h]
  show (if !fitsInt64 (a * NSTMODULUS) then Got.ub else _) = _
  rw [hf]
  rfl

theorem nanos_over (n : Nat) (hb : 10000000000 ≤ n) : fitsInt64 ((n : Int) * NSTMODULUS) = false := by
  cases hc : fitsInt64 ((n : Int) * NSTMODULUS) with
  | false => rfl
  | true =>
    rw [fitsInt64_iff] at hc
    have h2 := hc.2
    have : NSTMODULUS = 1000000000 := rfl
    rw [this] at h2
    omega

/-! ### Printed texts are of the grammar read -/

/-- What is left of `n` nanoseconds after `k` digits of the fraction. -/
theorem fraction_frac (k n : Nat) (hk : k = 0 ∨ k = 6 ∨ k = 9) (hn : n < 1000000000) :
    Frac (fraction k n) (if k = 0 then 0 else n / 10 ^ (9 - k) * 10 ^ (9 - k)) := by
  unfold fraction
  rcases hk with rfl | rfl | rfl
  · exact Or.inl ⟨rfl, rfl⟩
  · exact Or.inr ⟨dec 6 (n / 10 ^ (9 - 6)), n / 10 ^ (9 - 6), rfl,
      dec_numeral 6 _ (by omega) (by simp; omega), by rw [dec_length]; omega, by
        rw [dec_length]; rfl⟩
  · exact Or.inr ⟨dec 9 (n / 10 ^ (9 - 9)), n / 10 ^ (9 - 9), rfl,
      dec_numeral 9 _ (by omega) (by simp; omega), by rw [dec_length]; omega, by
        rw [dec_length]; rfl⟩

theorem clock_shown {seps delims : List Char} {sep : Char} (hs : sep ∈ seps) (hd : ':' ∈ delims)
    (k h m s n : Nat) (hk : k = 0 ∨ k = 6 ∨ k = 9) (hh : h < 100) (hm : m < 100) (hsec : s < 100)
    (hn : n < 1000000000) :
    Clock seps delims (sep :: (clock h m s ++ fraction k n)) h m s
      (if k = 0 then 0 else n / 10 ^ (9 - k) * 10 ^ (9 - k)) := by
  have nh := dec_numeral 2 h (by omega) (by omega)
  have nm := dec_numeral 2 m (by omega) (by omega)
  have ns := dec_numeral 2 s (by omega) (by omega)
  have hf := fraction_frac k n hk hn
  generalize (if k = 0 then 0 else n / 10 ^ (9 - k) * 10 ^ (9 - k)) = q at *
  have e : sep :: (clock h m s ++ fraction k n) =
      sep :: (dec 2 h ++ ':' :: (dec 2 m ++ ':' :: (dec 2 s ++ fraction k n))) := by
    unfold clock
    simp
  rw [e]
  rcases hf with ⟨hf, rfl⟩ | ⟨f, v, hf, hv, hl, rfl⟩
  · rw [hf, List.append_nil]
    exact Clock.second hs nh hd nm hd ns
  · rw [hf]
    exact Clock.fraction hs nh hd nm hd ns hv hl

theorem numeral_toDigits (n : Nat) : Numeral (Nat.toDigits 10 n) n := by
  by_cases h0 : n = 0
  · subst h0
    exact ⟨by decide, by decide, by decide⟩
  · obtain ⟨w, hw⟩ : ∃ w, n < 10 ^ w := ⟨n, Nat.lt_pow_self (by omega)⟩
    refine ⟨Nat.toDigits_ne_nil, ?_, ?_⟩
    · intro c hc
      have := Nat.isDigit_of_mem_toDigits (by omega) (by omega) hc
      unfold Char.isDigit at this
      unfold Digit
      simp only [Bool.and_eq_true, decide_eq_true_eq] at this
      exact ⟨UInt32.le_iff_toNat_le.1 this.1, UInt32.le_iff_toNat_le.1 this.2⟩
    · have := Nat.ofDigitChars_ten_toDigits (n := n)
      unfold Nat.ofDigitChars at this
      refine Eq.trans ?_ this
      unfold value
      congr 1
      funext v c
      show _ = 10 * v + (c.toNat - 48)
      omega

/-! ### Years, refusals and what is modelled -/

theorem year_reads {rnd : Rat → Rat} {ys : List Char} {y : Nat} (hy : Numeral ys y)
    (hl : ys.length = 4) : timestr2nstime rnd ys = seedEnd y 1 0 0 0 0 := by
  have hb : y < 2 ^ 31 := by
    have := value_lt ys hy.2.1
    rw [hy.2.2, hl] at this
    omega
  have hw : walk ys {} = { numberlike := 4, length := 4 } := by
    have := walk_digits ys hy.2.1 [] {}
    rw [List.append_nil, hl] at this
    rw [this]
    rfl
  have hh : ¬ (ys.head? = some '-' ∨ ys.head? = some '+') := by
    cases ys with
    | nil => simp
    | cons c t =>
      have := digit_plain (hy.2.1 c (by simp))
      simp [this.1, this.2.2.2.2.2.1]
  have hscan : sscanf rnd seedFormat ys = .ok ⟨[(y : Int)], none⟩ := by
    have := sscanf_int (rnd := rnd) (ds := seedFormat.tail) hy (rest := []) stops_nil hb
    rw [List.append_nil] at this
    have h2 : sscanf rnd seedFormat.tail [] = .ok ⟨[], none⟩ := rfl
    rw [h2] at this
    exact this
  unfold timestr2nstime
  simp only [hw]
  rw [if_neg (by simp [hh]), if_pos (by simp)]
  rw [if_pos (by simp)]
  unfold seedtimestr2nstime
  rw [hscan]
  simp only [Got.bind, List.getElem?_cons_zero, List.getElem?_cons_succ, Option.getD_some,
    Option.getD_none, List.getElem?_nil, toNanos_zero]
  rw [if_neg (by simp)]
  rfl

theorem mdEnd_bad {y mo d h m s n : Nat}
    (hbad : ¬ ((1678 ≤ y ∧ y ≤ 2262) ∧ (1 ≤ mo ∧ mo ≤ 12) ∧ (d : Int) ≤ monthLen y mo ∧ h ≤ 23 ∧
      m ≤ 59 ∧ s ≤ 60)) : mdEnd y mo d h m s n = .ok NSTERROR := by
  unfold mdEnd
  by_cases a1 : validYear (y : Int) = true
  · by_cases a3 : validMonth (mo : Int) = true
    · by_cases a4 : validMonthDay (y : Int) mo d = true
      · by_cases a5 : validHour (h : Int) = true
        · by_cases a6 : validMin (m : Int) = true
          · by_cases a7 : validSec (s : Int) = true
            · exfalso
              apply hbad
              unfold validYear at a1
              unfold validMonth at a3
              unfold validHour at a5
              unfold validMin at a6
              unfold validSec at a7
              simp only [decide_eq_true_eq] at a1 a3 a5 a6 a7
              unfold validMonthDay at a4
              rw [monthDays_eqB _ _ a3.1 a3.2, ← monthLen_eqB] at a4
              simp only [decide_eq_true_eq] at a4
              exact ⟨by omega, by omega, by omega, by omega, by omega, by omega⟩
            · simp [a7]
          · simp [a6]
        · simp [a5]
      · simp [a4]
    · simp [a3]
  · simp [a1]

theorem seedEnd_bad {y d h m s n : Nat}
    (hbad : ¬ ((1678 ≤ y ∧ y ≤ 2262) ∧ (1 ≤ d ∧ (d : Int) ≤ yearLen y) ∧ h ≤ 23 ∧
      m ≤ 59 ∧ s ≤ 60)) : seedEnd y d h m s n = .ok NSTERROR := by
  unfold seedEnd
  by_cases a1 : validYear (y : Int) = true
  · by_cases a4 : validYearDay (y : Int) d = true
    · by_cases a5 : validHour (h : Int) = true
      · by_cases a6 : validMin (m : Int) = true
        · by_cases a7 : validSec (s : Int) = true
          · exfalso
            apply hbad
            unfold validYear at a1
            unfold validHour at a5
            unfold validMin at a6
            unfold validSec at a7
            rw [validYearDay_iff] at a4
            simp only [decide_eq_true_eq] at a1 a5 a6 a7
            exact ⟨by omega, by omega, by omega, by omega, by omega⟩
          · simp [a7]
        · simp [a6]
      · simp [a5]
    · simp [a4]
  · simp [a1]

/-- No character of an infinity, a NaN, an exponent or a hexadecimal number. -/
def Tame (s : List Char) : Prop := ∀ c ∈ s, "xXeEiInN".toList.contains c = false

theorem tame_special {s : List Char} (h : Tame s) : special s = false := by
  cases s with
  | nil => rfl
  | cons c t => exact h c (by simp)

theorem tame_sub {s t : List Char} (h : Tame s) (hs : ∀ c ∈ t, c ∈ s) : Tame t :=
  fun c hc => h c (hs c hc)

theorem tame_dropWhile {s : List Char} (p : Char → Bool) (h : Tame s) : Tame (s.dropWhile p) :=
  tame_sub h fun _ hc => (List.dropWhile_sublist p).subset hc

theorem tame_sign {s : List Char} (h : Tame s) : Tame (sign s).2 := by
  unfold sign
  split
  · exact tame_sub h fun c hc => by simp [hc]
  · exact tame_sub h fun c hc => by simp [hc]
  · exact h

theorem tame_scanInt {s rest : List Char} {n : Int} (h : Tame s) (hs : scanInt s = some (n, rest)) :
    Tame rest := by
  unfold scanInt at hs
  simp only at hs
  split at hs
  · cases hs
  · injection hs with hs
    have := (Prod.mk.inj hs).2
    rw [← this]
    exact tame_dropWhile _ (tame_sign (tame_dropWhile _ h))

theorem tame_scanSet {s rest set : List Char} (h : Tame s) (hs : scanSet set s = some rest) :
    Tame rest := by
  unfold scanSet at hs
  split at hs
  · cases hs
  · injection hs with hs
    rw [← hs]
    exact tame_dropWhile _ h

theorem tame_scanReal {s : List Char} (h : Tame s) : scanReal s ≠ .outside := by
  have h1 := tame_dropWhile isDigit (tame_sign (tame_dropWhile isSpace h))
  unfold scanReal
  simp only
  generalize List.dropWhile isDigit (sign (List.dropWhile isSpace s)).2 = t at *
  split
  · rename_i u
    have h2 : Tame (List.dropWhile isDigit u) :=
      tame_dropWhile _ (tame_sub h1 fun c hc => by simp [hc])
    simp only
    rw [tame_special h2]
    simp only [Bool.false_eq_true, if_false]
    split <;> simp
  · rw [tame_special h1]
    simp only [Bool.false_eq_true, if_false]
    split <;> simp

theorem tame_sscanf (rnd : Rat → Rat) : ∀ (ds : List Dir) (s : List Char), Tame s →
    sscanf rnd ds s ≠ .outside := by
  intro ds
  induction ds with
  | nil => intro s _; simp [sscanf]
  | cons d ds ih =>
    intro s h
    cases d with
    | int bound =>
      unfold sscanf
      split
      · simp
      · rename_i n rest hs
        split
        · have := ih rest (tame_scanInt h hs)
          cases hc : sscanf rnd ds rest <;> simp_all [Got.bind]
        · simp
    | set chars =>
      unfold sscanf
      split
      · simp
      · rename_i rest hs
        exact ih rest (tame_scanSet h hs)
    | real =>
      unfold sscanf
      have := tame_scanReal h
      cases hc : scanReal s with
      | ok v => cases v <;> simp [Got.bind]
      | ub => simp [Got.bind]
      | outside => exact absurd hc this

/-- The characters of a text without an error in it. -/
theorem walk_allowed : ∀ (s : List Char) (w : Walk), (walk s w).error = false → ∀ c ∈ s,
    Digit c ∨ c ∈ "-/,:.+T Zz".toList := by
  intro s
  induction s with
  | nil => intro w _ c hc; cases hc
  | cons x t ih =>
    intro w h
    have key : ∀ w', (walk t w').error = false → (Digit x ∨ x ∈ "-/,:.+T Zz".toList) →
        ∀ c ∈ x :: t, Digit c ∨ c ∈ "-/,:.+T Zz".toList := by
      intro w' h' hx c hc
      rcases List.mem_cons.1 hc with rfl | hc
      · exact hx
      · exact ih w' h' c hc
    unfold walk at h
    split at h
    · rename_i hx
      exact key _ h (Or.inr (by rcases hx with rfl | rfl | rfl | rfl | rfl <;> decide))
    · split at h
      · rename_i hx
        exact key _ h (Or.inr (by rw [hx.1]; decide))
      · split at h
        · rename_i hx
          exact key _ h (Or.inr (by rcases hx.2 with rfl | rfl <;> decide))
        · split at h
          · rename_i hx
            exact key _ h (Or.inl ((isDigit_iff x).1 hx))
          · split at h
            · rename_i hx
              intro c hc
              rw [hx.2] at hc
              rcases List.mem_cons.1 hc with rfl | hc
              · rcases hx.1 with rfl | rfl <;> exact Or.inr (by decide)
              · cases hc
            · simp at h

theorem walk_tame (s : List Char) (w : Walk) (h : (walk s w).error = false) : Tame s := by
  intro c hc
  rcases walk_allowed s w h c hc with hd | hd
  · unfold Digit at hd
    have hne : ∀ d : Char, 57 < d.toNat → c ≠ d := fun d h e => by rw [e] at hd; omega
    simp [hne 'x' (by decide), hne 'X' (by decide), hne 'e' (by decide), hne 'E' (by decide),
      hne 'i' (by decide), hne 'I' (by decide), hne 'n' (by decide), hne 'N' (by decide)]
  · have : ∀ d ∈ "-/,:.+T Zz".toList, "xXeEiInN".toList.contains d = false := by decide
    exact this c hd

/-- A text with a parenthesis is refused. -/
theorem paren_refused {rnd : Rat → Rat} {s : List Char} (h : '(' ∈ s) :
    timestr2nstime rnd s = .ok NSTERROR := by
  have he : (walk s {}).error = true := by
    cases hc : (walk s {}).error with
    | true => rfl
    | false => exact absurd (walk_allowed s _ hc _ h) (by decide)
  unfold timestr2nstime
  simp only [he]
  rw [if_neg (by simp), if_neg (by simp)]

theorem toNanos_ne (rnd : Rat → Rat) (q : Rat) : toNanos rnd q ≠ .outside := by
  unfold toNanos
  split
  · simp
  · simp only
    split <;> simp

theorem toInt_ne (rnd : Rat → Rat) (q : Rat) : toInt rnd q ≠ .outside := by
  unfold toInt
  simp only
  split <;> simp

theorem ofOut_ne (o : Out Int) : ofOut o ≠ .outside := by
  cases o <;> simp [ofOut]

theorem mdtimestr_ne (rnd : Rat → Rat) (s : List Char) (h : Tame s) :
    mdtimestr2nstime rnd s ≠ .outside := by
  unfold mdtimestr2nstime
  have h1 := tame_sscanf rnd mdFormat s h
  cases hc : sscanf rnd mdFormat s with
  | outside => exact absurd hc h1
  | ub => simp [Got.bind]
  | ok r =>
    simp only [Got.bind]
    have h2 := toNanos_ne rnd (r.real.getD 0)
    cases hn : toNanos rnd (r.real.getD 0) with
    | outside => exact absurd hn h2
    | ub => simp
    | ok n =>
      simp only
      iterate 8 (refine iteInduction (motive := fun x => x ≠ Got.outside) (by intro _; simp) ?_; intro _)
      split
      · simp
      · exact ofOut_ne _

theorem seedtimestr_ne (rnd : Rat → Rat) (s : List Char) (h : Tame s) :
    seedtimestr2nstime rnd s ≠ .outside := by
  unfold seedtimestr2nstime
  have h1 := tame_sscanf rnd seedFormat s h
  cases hc : sscanf rnd seedFormat s with
  | outside => exact absurd hc h1
  | ub => simp [Got.bind]
  | ok r =>
    simp only [Got.bind]
    have h2 := toNanos_ne rnd (r.real.getD 0)
    cases hn : toNanos rnd (r.real.getD 0) with
    | outside => exact absurd hn h2
    | ub => simp
    | ok n =>
      simp only
      iterate 7 (refine iteInduction (motive := fun x => x ≠ Got.outside) (by intro _; simp) ?_; intro _)
      exact ofOut_ne _

theorem epoch_ne (rnd : Rat → Rat) (s : List Char) (h : Tame s) : epoch rnd s ≠ .outside := by
  unfold epoch
  have h1 := tame_sscanf rnd epochFormat s h
  cases hc : sscanf rnd epochFormat s with
  | outside => exact absurd hc h1
  | ub => simp [Got.bind]
  | ok r =>
    simp only [Got.bind]
    split
    · simp
    · have h2 := toInt_ne rnd (r.real.getD 0)
      cases hn : toInt rnd (r.real.getD 0) with
      | outside => exact absurd hn h2
      | ub => simp only; split <;> (try split) <;> simp
      | ok n =>
        simp only
        repeat' split
        all_goals simp

theorem timestr_ne (rnd : Rat → Rat) (s : List Char) : timestr2nstime rnd s ≠ .outside := by
  unfold timestr2nstime
  simp only
  split
  · rename_i h
    exact epoch_ne rnd s (walk_tame s _ h.1)
  · split
    · rename_i h
      have ht := walk_tame s _ h.1
      repeat' split
      all_goals first
        | exact mdtimestr_ne rnd s ht
        | exact seedtimestr_ne rnd s ht
        | simp
    · simp

end Verif.Proof.TimeStr
