import Verif.Spec.Samples
import Verif.Model.Samples
import Verif.Proof.Steim
/-! Lemmas on the uncompressed and gain-ranged sample encodings. -/
namespace Verif.Proof.Samples
open Verif.Spec.Steim Verif.Spec.Samples Verif.Model.Bytes Verif.Model.Samples Verif.Proof.Bytes
open Verif.Proof.Steim
open Verif.Model.Steim (Res)

theorem group_succ (n i : Nat) (b : List UInt8) : group n (i + 1) b = group n i (b.drop n) := by
  unfold group
  rw [List.drop_drop]
  congr 2
  rw [Nat.mul_add]; omega

theorem group_zero (n : Nat) (b : List UInt8) : group n 0 b = b.take n := by simp [group]

theorem group_length (n i : Nat) (b : List UInt8) (h : n * i + n ≤ b.length) :
    (group n i b).length = n := by
  unfold group; simp; omega

/-- The decoding loop when no conversion fails. -/
theorem decLoop_ok {α} (insize outsize : Nat) (conv : List UInt8 → Res α) (g : List UInt8 → α)
    (hc : ∀ b, b.length = insize → conv b = .ok (g b)) : ∀ (n ol : Nat) (mem : List UInt8),
    outsize * n ≤ ol → insize * n ≤ mem.length →
    decLoop insize outsize conv n ol mem = .ok ((List.range n).map fun i => g (group insize i mem)) := by
  intro n
  induction n with
  | zero => intro ol mem _ _; rfl
  | succ n ih =>
    intro ol mem ho hm
    rw [Nat.mul_add] at ho hm
    simp only [decLoop]
    rw [if_pos (by omega), if_neg (by omega), hc _ (by simp; omega),
      ih _ _ (by omega) (by simp; omega)]
    simp only [Res.bind]
    rw [List.range_succ_eq_map, List.map_cons, List.map_map, group_zero]
    congr 2
    apply List.map_congr_left
    intro i _
    simp only [Function.comp_apply, group_succ]

/-- An optional value as outcome. -/
def ofOpt {α} : Option α → Res α
  | some v => .ok v
  | none => .err

/-- The decoding loop when conversions can fail. -/
theorem decLoop_opt {α} (insize outsize : Nat) (conv : List UInt8 → Res α) (f : List UInt8 → Option α)
    (hc : ∀ b, b.length = insize → conv b = ofOpt (f b)) :
    ∀ (n ol : Nat) (mem : List UInt8), outsize * n ≤ ol → insize * n ≤ mem.length →
    decLoop insize outsize conv n ol mem =
      ofOpt (((List.range n).map fun i => group insize i mem).mapM f) := by
  intro n
  induction n with
  | zero => intro ol mem _ _; rfl
  | succ n ih =>
    intro ol mem ho hm
    rw [Nat.mul_add] at ho hm
    simp only [decLoop]
    rw [if_pos (by omega), if_neg (by omega), hc _ (by simp; omega),
      ih _ _ (by omega) (by simp; omega)]
    rw [List.range_succ_eq_map, List.map_cons, List.map_map, group_zero, List.mapM_cons]
    have e : ((fun i => group insize i mem) ∘ Nat.succ) = fun i => group insize i (mem.drop insize) := by
      funext i; simp only [Function.comp_apply, group_succ]
    rw [e]
    cases f (mem.take insize) with
    | none => rfl
    | some v =>
      cases ((List.range n).map fun i => group insize i (mem.drop insize)).mapM f with
      | none => rfl
      | some w => rfl

/-- The encoding loop packs as many samples as fit. -/
theorem encLoop_eq {α} (size : Nat) (hs : 0 < size) (put : α → List UInt8) : ∀ (xs : List α) (ol : Nat),
    encLoop size put xs ol =
      (((xs.take (min xs.length (ol / size))).map put).flatten, min xs.length (ol / size)) := by
  intro xs
  induction xs with
  | nil => intro ol; simp [encLoop]
  | cons x xs ih =>
    intro ol
    simp only [encLoop]
    by_cases h : ol ≥ size
    · rw [if_pos h, ih]
      have e : ol / size = (ol - size) / size + 1 := by
        exact Nat.div_eq_sub_div hs h
      rw [e, List.length_cons, Nat.add_min_add_right]
      simp
    · rw [if_neg h, Nat.div_eq_of_lt (by omega)]
      simp

theorem flatten_groups {α β} (size : Nat) (put : α → List UInt8) (g : List UInt8 → β)
    (hp : ∀ x, (put x).length = size) (rest : List UInt8) : ∀ (l : List α),
    ((List.range l.length).map fun i => g (group size i ((l.map put).flatten ++ rest)))
      = l.map fun x => g (put x) := by
  intro l
  induction l with
  | nil => rfl
  | cons x l ih =>
    rw [List.length_cons, List.range_succ_eq_map, List.map_cons, List.map_map, group_zero]
    simp only [List.map_cons, List.flatten_cons, List.append_assoc]
    rw [List.take_append_of_le_length (by rw [hp]; omega), List.take_of_length_le (by rw [hp]; omega)]
    congr 1
    rw [← ih]
    apply List.map_congr_left
    intro i _
    simp only [Function.comp_apply, group_succ]
    rw [List.drop_append_of_le_length (by rw [hp]; omega), List.drop_of_length_le (by rw [hp]; omega)]
    rfl

theorem flatten_length {α} (size : Nat) (put : α → List UInt8)
    (hp : ∀ x, (put x).length = size) : ∀ (l : List α), ((l.map put).flatten).length = size * l.length := by
  intro l
  induction l with
  | nil => simp
  | cons x l ih => simp only [List.map_cons, List.flatten_cons, List.length_append, hp, ih,
      List.length_cons, Nat.mul_add]; omega

theorem wrap32_id (x : Int) (h : isInt32 x) : wrap32 x = x := by
  unfold wrap32
  rw [sext_eq _ _ (bits_lt 32 x), signed32 x h]

theorem and_mask (v n : Nat) : v &&& (2 ^ n - 1) = v % 2 ^ n := Nat.and_two_pow_sub_one_eq_mod v n

theorem gain (v k n : Nat) : (v &&& (2 ^ n - 1) * 2 ^ k) >>> k = v / 2 ^ k % 2 ^ n := by
  rw [Nat.shiftRight_and_distrib, Nat.shiftRight_eq_div_pow, Nat.shiftRight_eq_div_pow,
    Nat.mul_div_cancel _ (Nat.pow_pos (by omega)), and_mask]

theorem pow_cases (e : Nat) (h : e ≤ 10) : (2 : Int) ^ e ∈ [1, 2, 4, 8, 16, 32, 64, 128, 256, 512, 1024] := by
  have : e = 0 ∨ e = 1 ∨ e = 2 ∨ e = 3 ∨ e = 4 ∨ e = 5 ∨ e = 6 ∨ e = 7 ∨ e = 8 ∨ e = 9 ∨ e = 10 := by
    omega
  rcases this with rfl | rfl | rfl | rfl | rfl | rfl | rfl | rfl | rfl | rfl | rfl <;> decide

theorem cdsn_spec (h s : Bool) (b : List UInt8) (hb : b.length = 2) :
    cdsnSample h s b = .ok (cdsn (num (order h s) b)) := by
  have hv := num_lt16 (order h s) b hb
  unfold cdsnSample
  simp only [num_eq_host]
  generalize num (order h s) b = v at hv
  have e1 : v &&& 0x3FFF = v % 16384 := and_mask v 14
  have e2 : (v &&& 0xC000) >>> 14 = v / 16384 := by
    have := gain v 14 2
    rw [show (2 ^ 2 - 1) * 2 ^ 14 = 0xC000 from rfl] at this
    rw [this]; simp; omega
  rw [e1, e2, wrap32_id (((v % 16384 : Nat) : Int) - 0x1FFF) (by unfold isInt32; omega)]
  unfold cdsn
  have hq : v / 16384 = 0 ∨ v / 16384 = 1 ∨ v / 16384 = 2 ∨ v / 16384 = 3 := by omega
  rcases hq with hq | hq | hq | hq <;> rw [hq] <;> simp only [↓reduceIte, Nat.reduceEqDiff] <;>
    rw [wrap32_id _ (by unfold isInt32; simp; omega)] <;> simp

theorem sro_spec (h s : Bool) (b : List UInt8) (hb : b.length = 2) :
    sroSample h s b = ofOpt (sro (num (order h s) b)) := by
  have hv := num_lt16 (order h s) b hb
  unfold sroSample
  simp only [num_eq_host]
  generalize num (order h s) b = v at hv
  have e1 : v &&& 0x0FFF = v % 4096 := and_mask v 12
  have e2 : (v &&& 0xF000) >>> 12 = v / 4096 := by
    have := gain v 12 4
    rw [show (2 ^ 4 - 1) * 2 ^ 12 = 0xF000 from rfl] at this
    rw [this]; simp; omega
  rw [e1, e2]
  unfold sro
  by_cases hg : v / 4096 ≤ 10
  · rw [if_pos hg, if_neg (by omega)]
    simp only [ofOpt]
    have hs : (if ((v % 4096 : Nat) : Int) > 0x7FF then wrap32 ((v % 4096 : Nat) - 2 * (0x7FF + 1))
        else ((v % 4096 : Nat) : Int)) = signed 12 (v % 4096) := by
      unfold signed
      simp only [Nat.reduceSub, Nat.reducePow, Int.reducePow]
      by_cases hm : v % 4096 < 2048
      · rw [if_neg (by omega), if_pos hm]
      · rw [if_pos (by omega), if_neg hm, wrap32_id _ (by unfold isInt32; omega)]
        omega
    rw [hs]
    have he : (-1 * (((v / 4096 : Nat) : Int) + 0) + 10).toNat = 10 - v / 4096 := by omega
    rw [he]
    have hr : -2048 ≤ signed 12 (v % 4096) ∧ signed 12 (v % 4096) ≤ 2047 := by
      unfold signed
      simp only [Nat.reduceSub, Nat.reducePow, Int.reducePow]
      split <;> omega
    rw [wrap32_id]
    have hp := pow_cases (10 - v / 4096) (by omega)
    generalize (2 : Int) ^ (10 - v / 4096) = p at hp
    generalize signed 12 (v % 4096) = m at hr
    simp only [List.mem_cons, List.not_mem_nil, or_false] at hp
    unfold isInt32
    rcases hp with rfl | rfl | rfl | rfl | rfl | rfl | rfl | rfl | rfl | rfl | rfl <;> omega
  · rw [if_neg hg, if_pos (by omega)]; rfl

theorem dwwssn_spec (h s : Bool) (b : List UInt8) (hb : b.length = 2) :
    dwwssnSample h s b = .ok (dwwssn (num (order h s) b)) := by
  have hv := num_lt16 (order h s) b hb
  unfold dwwssnSample
  simp only [num_eq_host]
  generalize num (order h s) b = v at hv
  unfold dwwssn signed
  simp only [Nat.reduceSub, Nat.reducePow, Int.reducePow]
  by_cases hm : v < 32768
  · rw [if_neg (by omega), if_pos hm]
  · rw [if_pos (by omega), if_neg hm, wrap32_id _ (by unfold isInt32; omega)]
    congr 1

theorem geo163_spec (h s : Bool) (b : List UInt8) :
    geo16 0x7000 h s b = geoscope163 (num (order h s) b) := by
  unfold geo16
  simp only [num_eq_host]
  generalize num (order h s) b = v
  have e1 : v &&& 0x0FFF = v % 4096 := and_mask v 12
  have e2 : (v &&& 0x7000) >>> 12 = v / 4096 % 8 := gain v 12 3
  rw [e1, e2]; rfl

theorem geo164_spec (h s : Bool) (b : List UInt8) (hb : b.length = 2) :
    geo16 0xf000 h s b = geoscope164 (num (order h s) b) := by
  have hv := num_lt16 (order h s) b hb
  unfold geo16
  simp only [num_eq_host]
  generalize num (order h s) b = v at hv
  have e1 : v &&& 0x0FFF = v % 4096 := and_mask v 12
  have e2 : (v &&& 0xf000) >>> 12 = v / 4096 := by
    have := gain v 12 4
    rw [show (2 ^ 4 - 1) * 2 ^ 12 = 0xF000 from rfl] at this
    rw [this]; simp; omega
  rw [e1, e2]; rfl

/-- Big-endian 24-bit data: little-endian host with swapping, big-endian host without. -/
theorem geo24_spec (h : Bool) (b : List UInt8) (hb : b.length = 3) :
    geo24 h (!h) b = geoscope24 (num true b) := by
  obtain ⟨x, y, z, rfl⟩ : ∃ x y z, b = [x, y, z] := by
    match b, hb with
    | [x, y, z], _ => exact ⟨x, y, z, rfl⟩
  have hx := x.toNat_lt; have hy := y.toNat_lt; have hz := z.toNat_lt
  have hn : num true [x, y, z] = 65536 * x.toNat + 256 * y.toNat + z.toNat := by
    simp [num]; omega
  have hh : hostNat h (if (!h) = true then [([x, y, z] : List UInt8).getD 2 0, ([x, y, z] : List UInt8).getD 1 0,
      ([x, y, z] : List UInt8).getD 0 0, 0] else [0, ([x, y, z] : List UInt8).getD 0 0,
      ([x, y, z] : List UInt8).getD 1 0, ([x, y, z] : List UInt8).getD 2 0])
      = num true [x, y, z] := by
    rw [hn]
    cases h <;> simp [hostNat, beNat] <;> omega
  unfold geo24
  simp only
  rw [hh]
  have hv : num true [x, y, z] < 16777216 := by omega
  generalize num true [x, y, z] = v at hv
  rw [sext_eq _ _ (by omega)]
  have e : signed 32 v = v := by unfold signed; rw [if_pos (by omega)]
  rw [e]
  unfold geoscope24 signed
  simp only [Nat.reduceSub, Nat.reducePow, Int.reducePow]
  by_cases hm : v < 8388608
  · rw [if_neg (by omega), if_pos hm]
  · rw [if_pos (by omega), if_neg hm, wrap32_id _ (by unfold isInt32; omega)]
    congr 1

/-- Encoding, then decoding what was encoded. -/
theorem enc_dec {α} (size osz : Nat) (hs : 0 < size) (put : α → List UInt8) (conv : List UInt8 → Res α)
    (g : List UInt8 → α) (hc : ∀ b, b.length = size → conv b = .ok (g b))
    (hp : ∀ x, (put x).length = size) (xs : List α) (hg : ∀ x ∈ xs, g (put x) = x) (ol : Nat) :
    ∃ bytes, encLoop size put xs ol = (bytes, min xs.length (ol / size)) ∧
      bytes.length = size * min xs.length (ol / size) ∧
      ((List.range (min xs.length (ol / size))).map fun i => g (group size i bytes))
        = xs.take (min xs.length (ol / size)) ∧
      ∀ rest ol2, osz * min xs.length (ol / size) ≤ ol2 →
        decLoop size osz conv (min xs.length (ol / size)) ol2 (bytes ++ rest)
          = .ok (xs.take (min xs.length (ol / size))) := by
  have hn : min xs.length (ol / size) ≤ xs.length := Nat.min_le_left _ _
  refine ⟨_, encLoop_eq size hs put xs ol, ?_, ?_, ?_⟩
  · rw [flatten_length size put hp, List.length_take]; congr 1; omega
  · generalize hm : min xs.length (ol / size) = m at hn
    have := flatten_groups size put g hp [] (xs.take m)
    rw [List.append_nil, List.length_take, Nat.min_eq_left hn] at this
    rw [this]
    have : (xs.take m).map (fun x => g (put x)) = (xs.take m).map id := by
      apply List.map_congr_left
      intro x hx
      exact hg x (List.mem_of_mem_take hx)
    rw [this, List.map_id]
  · intro rest ol2 ho
    generalize hm : min xs.length (ol / size) = m at hn ho
    have hl := flatten_length size put hp (xs.take m)
    rw [List.length_take, Nat.min_eq_left hn] at hl
    rw [decLoop_ok size osz conv g hc m ol2 _ ho (by rw [List.length_append, hl]; omega)]
    have := flatten_groups size put g hp rest (xs.take m)
    rw [List.length_take, Nat.min_eq_left hn] at this
    rw [this]
    have : (xs.take m).map (fun x => g (put x)) = (xs.take m).map id := by
      apply List.map_congr_left
      intro x hx
      exact hg x (List.mem_of_mem_take hx)
    rw [this, List.map_id]

theorem bind_ok {α β} {r : Res α} {f : α → Res β} {v : β} (h : r.bind f = .ok v) :
    ∃ a, r = .ok a ∧ f a = .ok v := by
  cases r with
  | ok a => exact ⟨a, rfl, h⟩
  | err => simp [Res.bind] at h
  | ub => simp [Res.bind] at h
  | oob => simp [Res.bind] at h

/-- The loop never stores more samples than asked for, nor more than the output holds. -/
theorem decLoop_length {α} (insize outsize : Nat) (conv : List UInt8 → Res α) :
    ∀ (n ol : Nat) (mem : List UInt8) (v : List α),
    decLoop insize outsize conv n ol mem = .ok v → v.length ≤ n ∧ v.length * outsize ≤ ol := by
  intro n
  induction n with
  | zero => intro ol mem v h; simp [decLoop] at h; subst h; simp
  | succ n ih =>
    intro ol mem v h
    simp only [decLoop] at h
    by_cases ho : ol ≥ outsize
    · rw [if_pos ho] at h
      by_cases hm : mem.length < insize
      · rw [if_pos hm] at h; simp at h
      · rw [if_neg hm] at h
        obtain ⟨x, _, h⟩ := bind_ok h
        obtain ⟨xs, hxs, h⟩ := bind_ok h
        have := Res.ok.inj h
        subst this
        have := ih _ _ _ hxs
        simp only [List.length_cons, Nat.add_mul]
        omega
    · rw [if_neg ho] at h
      have := Res.ok.inj h
      subst this; simp

/-- With enough memory the loop stays inside it. -/
theorem decLoop_safe {α} (insize outsize : Nat) (conv : List UInt8 → Res α)
    (hc : ∀ b, b.length = insize → conv b ≠ .oob ∧ conv b ≠ .ub) :
    ∀ (n ol : Nat) (mem : List UInt8), insize * n ≤ mem.length →
    decLoop insize outsize conv n ol mem ≠ .oob ∧ decLoop insize outsize conv n ol mem ≠ .ub := by
  intro n
  induction n with
  | zero => intro ol mem _; simp [decLoop]
  | succ n ih =>
    intro ol mem hm
    rw [Nat.mul_add] at hm
    simp only [decLoop]
    by_cases ho : ol ≥ outsize
    · rw [if_pos ho, if_neg (by omega)]
      have h1 := hc (mem.take insize) (by simp; omega)
      have h2 := ih (ol - outsize) (mem.drop insize) (by simp; omega)
      cases hr : conv (mem.take insize) with
      | oob => exact absurd hr h1.1
      | ub => exact absurd hr h1.2
      | err => simp [Res.bind]
      | ok x =>
        cases hq : decLoop insize outsize conv n (ol - outsize) (mem.drop insize) with
        | oob => exact absurd hq h2.1
        | ub => exact absurd hq h2.2
        | err => simp [Res.bind]
        | ok xs => simp [Res.bind]
    · rw [if_neg ho]; simp

theorem finish_ok {α} {n : Nat} {mk : List α → Samples} {r : Res (List α)} {v : Samples}
    (h : finish n mk r = .ok v) : ∃ l, r = .ok l ∧ l.length = n ∧ v = mk l := by
  unfold finish at h
  obtain ⟨l, hl, h⟩ := bind_ok h
  by_cases hn : l.length = n
  · rw [if_pos hn] at h; exact ⟨l, hl, hn, (Res.ok.inj h).symm⟩
  · rw [if_neg hn] at h; simp at h

theorem finish_safe {α} {n : Nat} {mk : List α → Samples} {r : Res (List α)}
    (h : r ≠ .oob) : finish n mk r ≠ .oob := by
  unfold finish
  cases r with
  | ok v => simp only [Res.bind]; split <;> simp
  | err => simp [Res.bind]
  | ub => simp [Res.bind]
  | oob => exact absurd rfl h

end Verif.Proof.Samples
