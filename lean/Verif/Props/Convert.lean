import Verif.Proof.ConvertInt
/-!
# C52: conversion of samples

`Spec.Ieee.sampleValue` is the value of a sample of a buffer by type.  Values of infinities and NaN are
not defined; nothing is claimed about them.
-/
namespace Verif.Props.Convert
open Verif.Model.Steim (Res)
open Verif.Model.Convert
open Verif.Spec.Ieee
open Verif.Proof.Convert
open Verif.Proof.Mem

/-- A segment with samples of a type, all of them in the buffer. -/
def Holds (s : Seg) (type : Char) : Prop :=
  s.sampletype = type ∧ (if type = 'd' then 2 else 1) * s.numsamples ≤ s.datasamples.length

theorem value_i {d : List UInt32} {k : Nat} (h : k < d.length) :
    sampleValue 'i' d k = some ((valueInt d[k] : Int) : Rat) := by
  unfold sampleValue
  rw [if_pos rfl, List.getElem?_eq_getElem h]
  rfl

theorem value_f {d : List UInt32} {k : Nat} (h : k < d.length) : sampleValue 'f' d k = value32 d[k] := by
  unfold sampleValue
  rw [if_neg (by decide), if_pos rfl, List.getElem?_eq_getElem h, Option.bind_some]

theorem value_d {d : List UInt32} {k : Nat} (h : 2 * k + 1 < d.length) :
    sampleValue 'd' d k = value64 d[2 * k] d[2 * k + 1] := by
  unfold sampleValue
  rw [if_neg (by decide), if_neg (by decide), if_pos rfl,
    List.getElem?_eq_getElem (show 2 * k < d.length by omega), List.getElem?_eq_getElem h, Option.bind_some,
    Option.bind_some]

theorem value_i_some {d : List UInt32} {k : Nat} {w : UInt32} (h : d[k]? = some w) :
    sampleValue 'i' d k = some ((valueInt w : Int) : Rat) := by
  unfold sampleValue
  rw [if_pos rfl, h]
  rfl

theorem value_f_some {d : List UInt32} {k : Nat} {w : UInt32} (h : d[k]? = some w) :
    sampleValue 'f' d k = value32 w := by
  unfold sampleValue
  rw [if_neg (by decide), if_pos rfl, h, Option.bind_some]

theorem value_d_some {d : List UInt32} {k : Nat} {lo hi : UInt32} (h : d[2 * k]? = some lo)
    (h' : d[2 * k + 1]? = some hi) : sampleValue 'd' d k = value64 lo hi := by
  unfold sampleValue
  rw [if_neg (by decide), if_neg (by decide), if_pos rfl, h, h', Option.bind_some, Option.bind_some]

/-- **C52** Integers and `float` samples keep their values as `double`. -/
theorem C52_to_double (prealloc : Nat) (fresh : List UInt32) (truncate : Bool) (s : Seg)
    (h : Holds s 'i' ∨ Holds s 'f') :
    ∃ s', convertsamples prealloc fresh s 'd' truncate = .ok (0, s') ∧ Holds s' 'd' ∧
      s'.numsamples = s.numsamples ∧ s'.datasize = 8 * s.numsamples ∧
      ∀ k v, k < s.numsamples → sampleValue s.sampletype s.datasamples k = some v →
        sampleValue 'd' s'.datasamples k = some v := by
  rcases h with ⟨ht, hl⟩ | ⟨ht, hl⟩
  · rw [if_neg (by decide), Nat.one_mul] at hl
    obtain ⟨r, e1, e2, e3⟩ := widen_spec getInt s.datasamples s.numsamples 0
      (fun j => ofInt (valueInt (s.datasamples[j]?.getD 0))) (fun j h1 h2 => by
        rw [getInt_ok (show j < s.datasamples.length by omega),
          List.getElem?_eq_getElem (show j < s.datasamples.length by omega)]
        rfl)
    refine ⟨{ s with sampletype := 'd', datasamples := r, datasize := s.numsamples * 8 }, ?_, ⟨rfl, ?_⟩,
      rfl, Nat.mul_comm _ _, ?_⟩
    · unfold convertsamples
      rw [ht]
      rw [if_neg (by decide), if_neg (by decide), if_neg (by decide), if_neg (by decide), if_pos rfl]
      simp only
      rw [if_pos True.intro, e1, bind_ok]
    · show 2 * s.numsamples ≤ r.length
      omega
    · intro k v hk hv
      have hkl : k < s.datasamples.length := by omega
      rw [ht, value_i hkl] at hv
      obtain ⟨a1, a2⟩ := e3 k hk
      obtain ⟨lo, hi, d1, d2⟩ := int_to_double (valueInt s.datasamples[k]) (valueInt_range _)
      rw [Nat.zero_add, List.getElem?_eq_getElem hkl] at a1 a2
      simp only [Option.getD_some] at a1 a2
      rw [d1] at a1 a2
      show sampleValue 'd' r k = _
      rw [value_d_some a1 a2, d2]
      exact hv
  · rw [if_neg (by decide), Nat.one_mul] at hl
    obtain ⟨r, e1, e2, e3⟩ := widen_spec getFloat s.datasamples s.numsamples 0
      (fun j => decode single (s.datasamples[j]?.getD 0).toNat) (fun j h1 h2 => by
        rw [getFloat_ok (show j < s.datasamples.length by omega),
          List.getElem?_eq_getElem (show j < s.datasamples.length by omega)]
        rfl)
    refine ⟨{ s with sampletype := 'd', datasamples := r, datasize := s.numsamples * 8 }, ?_, ⟨rfl, ?_⟩,
      rfl, Nat.mul_comm _ _, ?_⟩
    · unfold convertsamples
      rw [ht]
      rw [if_neg (by decide), if_neg (by decide), if_neg (by decide), if_neg (by decide), if_pos rfl]
      simp only
      rw [if_neg (by decide), if_pos True.intro, e1, bind_ok]
    · show 2 * s.numsamples ≤ r.length
      omega
    · intro k v hk hv
      have hkl : k < s.datasamples.length := by omega
      rw [ht, value_f hkl] at hv
      obtain ⟨a1, a2⟩ := e3 k hk
      obtain ⟨lo, hi, d1, d2⟩ := float_to_double s.datasamples[k] v hv
      rw [Nat.zero_add, List.getElem?_eq_getElem hkl] at a1 a2
      simp only [Option.getD_some] at a1 a2
      rw [d1] at a1 a2
      show sampleValue 'd' r k = _
      rw [value_d_some a1 a2, d2]

/-- Three integers. -/
def ints : Seg := { sampletype := 'i', numsamples := 3, datasamples := [7, 4294967295, 2147483647], datasize := 12 }

/-- The values 0.5, -2 and the smallest `float`. -/
def floats : Seg := { sampletype := 'f', numsamples := 3, datasamples := [1056964608, 3221225472, 1], datasize := 12 }

example : Holds ints 'i' ∧ sampleValue 'i' ints.datasamples 1 = some (-1) := by
  refine ⟨⟨rfl, by decide⟩, by decide +kernel⟩

example : Holds floats 'f' ∧ sampleValue 'f' floats.datasamples 1 = some (-2) ∧
    sampleValue 'f' floats.datasamples 2 = some (2 ^ (-149 : Int)) := by
  refine ⟨⟨rfl, by decide⟩, by decide +kernel, by decide +kernel⟩

/-- **C52** (partial: larger integers are rounded without notice, `C52_float_violated`.)  Integers of up to
24 bits keep their values as `float`. -/
theorem C52_int_to_float_partial (prealloc : Nat) (fresh : List UInt32) (truncate : Bool) (s : Seg)
    (h : Holds s 'i')
    (hv : ∀ k n, k < s.numsamples → sampleValue 'i' s.datasamples k = some n → -2 ^ 24 ≤ n ∧ n ≤ 2 ^ 24) :
    ∃ s', convertsamples prealloc fresh s 'f' truncate = .ok (0, s') ∧ Holds s' 'f' ∧
      s'.numsamples = s.numsamples ∧ s'.datasize = s.datasize ∧
      ∀ k, k < s.numsamples → sampleValue 'f' s'.datasamples k = sampleValue 'i' s.datasamples k := by
  obtain ⟨ht, hl⟩ := h
  rw [if_neg (by decide), Nat.one_mul] at hl
  obtain ⟨b, r, e1, e2, e3, e4, e5⟩ := loop_spec
    (fun d i => (getInt d i).bind fun x => .ok (some (floatOf x)))
    (fun d d' j h => local_int _ d d' j h) s.numsamples 0 s.datasamples (by omega) (fun j h1 h2 => by
      rw [getInt_ok (show j < s.datasamples.length by omega), bind_ok]
      exact ⟨_, rfl⟩)
  have hb : b = true := by
    cases b
    · obtain ⟨j, j1, j2, j3⟩ := e5 rfl
      rw [getInt_ok (show j < s.datasamples.length by omega), bind_ok] at j3
      cases j3
    · rfl
  subst hb
  refine ⟨{ s with sampletype := 'f', datasamples := r }, ?_, ⟨rfl, ?_⟩, rfl, rfl, ?_⟩
  · unfold convertsamples
    rw [ht]
    rw [if_neg (by decide), if_neg (by decide), if_neg (by decide), if_pos rfl, if_pos rfl, e1, bind_ok]
    rfl
  · show 1 * s.numsamples ≤ r.length
    omega
  · intro k hk
    have hkl : k < s.datasamples.length := by omega
    obtain ⟨w, a1, a2⟩ := e3 rfl k (by omega) (by omega)
    rw [getInt_ok hkl, bind_ok] at a1
    injection a1 with a1
    injection a1 with a1
    have hr := hv k _ hk (value_i hkl)
    have hr1 : ((-16777216 : Int) : Rat) ≤ ((valueInt s.datasamples[k] : Int) : Rat) := by
      have : (-2 ^ 24 : Rat) = ((-16777216 : Int) : Rat) := by decide +kernel
      rw [← this]; exact hr.1
    have hr2 : ((valueInt s.datasamples[k] : Int) : Rat) ≤ ((16777216 : Int) : Rat) := by
      have : (2 ^ 24 : Rat) = ((16777216 : Int) : Rat) := by decide +kernel
      rw [← this]; exact hr.2
    show sampleValue 'f' r k = _
    rw [value_f_some a2, ← a1, value_i hkl,
      int_to_float _ ⟨Rat.intCast_le_intCast.1 hr1, Rat.intCast_le_intCast.1 hr2⟩]

example : ∀ k n, k < 2 → sampleValue 'i' [16777216, 4278190080] k = some n → -2 ^ 24 ≤ n ∧ n ≤ 2 ^ 24 := by
  intro k n hk h
  have : k = 0 ∨ k = 1 := by omega
  rcases this with rfl | rfl
  · have e : sampleValue 'i' [16777216, 4278190080] 0 = some (2 ^ 24 : Rat) := by decide +kernel
    rw [e] at h
    injection h with h
    subst h
    decide +kernel
  · have e : sampleValue 'i' [16777216, 4278190080] 1 = some (-2 ^ 24 : Rat) := by decide +kernel
    rw [e] at h
    injection h with h
    subst h
    decide +kernel

/-- The segment after `double` samples have been replaced in place. -/
theorem shrink_samples (prealloc : Nat) (s : Seg) (r : List UInt32) (type : Char) (htype : type ≠ 'd')
    (hlen : r.length = s.datasamples.length) (hl : s.numsamples ≤ s.datasamples.length) :
    ∃ s', finish s type (some prealloc) (true, r) = (0, s') ∧ Holds s' type ∧
      s'.numsamples = s.numsamples ∧ ∀ k, k < s.numsamples → s'.datasamples[k]? = r[k]? := by
  unfold finish shrink
  rw [if_pos rfl]
  simp only
  by_cases hp : prealloc = 0
  · simp only [if_pos hp]
    refine ⟨_, rfl, ⟨rfl, ?_⟩, rfl, ?_⟩
    · show (if type = 'd' then 2 else 1) * s.numsamples ≤ (r.take s.numsamples).length
      rw [if_neg htype, List.length_take]
      omega
    · intro k hk
      show (r.take s.numsamples)[k]? = _
      rw [List.getElem?_take_of_lt hk]
  · simp only [if_neg hp]
    refine ⟨_, rfl, ⟨rfl, ?_⟩, rfl, fun k hk => rfl⟩
    show (if type = 'd' then 2 else 1) * s.numsamples ≤ r.length
    rw [if_neg htype]
    omega

/-- **C52** (partial: other values are rounded without notice.)  `double` samples with values of `float`
numbers keep them as `float`. -/
theorem C52_double_to_float_partial (prealloc : Nat) (fresh : List UInt32) (truncate : Bool) (s : Seg)
    (h : Holds s 'd')
    (hv : ∀ k, k < s.numsamples → ∃ w v, sampleValue 'd' s.datasamples k = some v ∧ value32 w = some v) :
    ∃ s', convertsamples prealloc fresh s 'f' truncate = .ok (0, s') ∧ Holds s' 'f' ∧
      s'.numsamples = s.numsamples ∧
      ∀ k, k < s.numsamples → sampleValue 'f' s'.datasamples k = sampleValue 'd' s.datasamples k := by
  obtain ⟨ht, hl⟩ := h
  rw [if_pos rfl] at hl
  obtain ⟨b, r, e1, e2, e3, e4, e5⟩ := loop_spec
    (fun d i => (getDouble d i).bind fun x => .ok (some (floatOf x)))
    (fun d d' j h => local_double _ d d' j h) s.numsamples 0 s.datasamples (by omega) (fun j h1 h2 => by
      rw [getDouble_ok (show 2 * j + 1 < s.datasamples.length by omega), bind_ok]
      exact ⟨_, rfl⟩)
  have hb : b = true := by
    cases b
    · obtain ⟨j, j1, j2, j3⟩ := e5 rfl
      rw [getDouble_ok (show 2 * j + 1 < s.datasamples.length by omega), bind_ok] at j3
      cases j3
    · rfl
  subst hb
  obtain ⟨s', f1, f2, f3, f4⟩ := shrink_samples prealloc s r 'f' (by decide) e2 (by omega)
  refine ⟨s', ?_, f2, f3, ?_⟩
  · unfold convertsamples
    rw [ht]
    rw [if_neg (by decide), if_neg (by decide), if_neg (by decide), if_pos rfl, if_neg (by decide), if_pos rfl,
      e1, bind_ok, f1]
  · intro k hk
    have hkl : 2 * k + 1 < s.datasamples.length := by omega
    obtain ⟨w, a1, a2⟩ := e3 rfl k (by omega) (by omega)
    rw [getDouble_ok hkl, bind_ok] at a1
    injection a1 with a1
    injection a1 with a1
    obtain ⟨wf, v, v1, v2⟩ := hv k hk
    rw [value_d hkl] at v1
    rw [value_d hkl, v1, value_f_some ((f4 k hk).trans a2), ← a1]
    exact double_to_float _ _ wf v v1 v2

example : sampleValue 'd' [0, 3220701184] 0 = some (-3 / 2) ∧ value32 3217031168 = some (-3 / 2) := by
  refine ⟨by decide +kernel, by decide +kernel⟩

/-- **C52** (partial: for samples that are not negative and in range, see the violations below.)
`float` and `double` samples are refused as integers, or become integers at most 0.0000011 smaller.
Whole numbers are not refused, and so are kept. -/
theorem C52_to_int_partial (prealloc : Nat) (fresh : List UInt32) (s : Seg) (type : Char)
    (htype : type = 'f' ∨ type = 'd') (h : Holds s type)
    (hv : ∀ k, k < s.numsamples → ∃ v, sampleValue type s.datasamples k = some v ∧ 0 ≤ v ∧ v < 2147483647) :
    ∃ c s', convertsamples prealloc fresh s 'i' false = .ok (c, s') ∧ (c = 0 ∨ c = -1) ∧
      (c = 0 → Holds s' 'i' ∧ s'.numsamples = s.numsamples ∧
        ∀ k v, k < s.numsamples → sampleValue type s.datasamples k = some v →
          ∃ n, sampleValue 'i' s'.datasamples k = some n ∧ n ≤ v ∧ v ≤ n + 11 / 10000000) ∧
      (c = -1 → ∃ k, k < s.numsamples ∧ ∀ n : Int, sampleValue type s.datasamples k ≠ some (n : Rat)) := by
  obtain ⟨ht, hl⟩ := h
  rcases htype with rfl | rfl
  · rw [if_neg (by decide), Nat.one_mul] at hl
    have step : ∀ k, k < s.numsamples → ∃ v o, sampleValue 'f' s.datasamples k = some v ∧
        (getFloat s.datasamples k).bind (intOf single false) = .ok o ∧
        (∀ w, o = some w → ((valueInt w : Int) : Rat) ≤ v ∧ v ≤ (valueInt w : Rat) + 11 / 10000000) ∧
        ((∃ n : Int, v = n) → o ≠ none) := by
      intro k hk
      have hkl : k < s.datasamples.length := by omega
      obtain ⟨v, v1, v2, v3⟩ := hv k hk
      have v1' := v1
      rw [value_f hkl, ← decode_value32] at v1'
      obtain ⟨o, o1, o2, o3⟩ := intOf_nonneg single (Or.inl rfl) _ v v1' v2 v3
      refine ⟨v, o, v1, ?_, o2, o3⟩
      rw [getFloat_ok hkl, bind_ok, o1]
    obtain ⟨b, r, e1, e2, e3, e4, e5⟩ := loop_spec
      (fun d i => (getFloat d i).bind (intOf single false))
      (fun d d' j h => local_float _ d d' j h) s.numsamples 0 s.datasamples (by omega) (fun j h1 h2 => by
        obtain ⟨v, o, -, o2, -⟩ := step j (by omega)
        exact ⟨o, o2⟩)
    have hcv : convertsamples prealloc fresh s 'i' false = .ok (finish s 'i' none (b, r)) := by
      unfold convertsamples
      rw [ht]
      rw [if_neg (by decide), if_neg (by decide), if_pos rfl, if_pos rfl, e1, bind_ok]
    rw [hcv]
    cases b with
    | true =>
      refine ⟨0, _, rfl, Or.inl rfl, fun _ => ⟨⟨rfl, ?_⟩, rfl, ?_⟩, fun h => by cases h⟩
      · show 1 * s.numsamples ≤ r.length
        omega
      · intro k v hk hkv
        obtain ⟨w, a1, a2⟩ := e3 rfl k (by omega) (by omega)
        obtain ⟨v', o, o1, o2, o3, -⟩ := step k hk
        rw [o1] at hkv
        injection hkv with hkv
        subst hkv
        rw [o2] at a1
        injection a1 with a1
        exact ⟨_, value_i_some a2, o3 w a1⟩
    | false =>
      refine ⟨-1, _, rfl, Or.inr rfl, (fun h => by cases h), fun _ => ?_⟩
      obtain ⟨j, j1, j2, j3⟩ := e5 rfl
      obtain ⟨v', o, o1, o2, -, o4⟩ := step j (by omega)
      refine ⟨j, by omega, fun n hn => ?_⟩
      rw [o1] at hn
      injection hn with hn
      rw [o2] at j3
      injection j3 with j3
      exact o4 ⟨n, hn⟩ j3
  · rw [if_pos rfl] at hl
    have step : ∀ k, k < s.numsamples → ∃ v o, sampleValue 'd' s.datasamples k = some v ∧
        (getDouble s.datasamples k).bind (intOf double false) = .ok o ∧
        (∀ w, o = some w → ((valueInt w : Int) : Rat) ≤ v ∧ v ≤ (valueInt w : Rat) + 11 / 10000000) ∧
        ((∃ n : Int, v = n) → o ≠ none) := by
      intro k hk
      have hkl : 2 * k + 1 < s.datasamples.length := by omega
      obtain ⟨v, v1, v2, v3⟩ := hv k hk
      have v1' := v1
      rw [value_d hkl, ← decode_value64] at v1'
      obtain ⟨o, o1, o2, o3⟩ := intOf_nonneg double (Or.inr rfl) _ v v1' v2 v3
      refine ⟨v, o, v1, ?_, o2, o3⟩
      rw [getDouble_ok hkl, bind_ok, o1]
    obtain ⟨b, r, e1, e2, e3, e4, e5⟩ := loop_spec
      (fun d i => (getDouble d i).bind (intOf double false))
      (fun d d' j h => local_double _ d d' j h) s.numsamples 0 s.datasamples (by omega) (fun j h1 h2 => by
        obtain ⟨v, o, -, o2, -⟩ := step j (by omega)
        exact ⟨o, o2⟩)
    have hcv : convertsamples prealloc fresh s 'i' false = .ok (finish s 'i' (some prealloc) (b, r)) := by
      unfold convertsamples
      rw [ht]
      rw [if_neg (by decide), if_neg (by decide), if_pos rfl, if_neg (by decide), if_pos rfl, e1, bind_ok]
    rw [hcv]
    cases b with
    | true =>
      obtain ⟨s', f1, f2, f3, f4⟩ := shrink_samples prealloc s r 'i' (by decide) e2 (by omega)
      refine ⟨0, s', by rw [f1], Or.inl rfl, fun _ => ⟨f2, f3, ?_⟩, fun h => by cases h⟩
      intro k v hk hkv
      obtain ⟨w, a1, a2⟩ := e3 rfl k (by omega) (by omega)
      obtain ⟨v', o, o1, o2, o3, -⟩ := step k hk
      rw [o1] at hkv
      injection hkv with hkv
      subst hkv
      rw [o2] at a1
      injection a1 with a1
      exact ⟨_, value_i_some ((f4 k hk).trans a2), o3 w a1⟩
    | false =>
      refine ⟨-1, _, rfl, Or.inr rfl, (fun h => by cases h), fun _ => ?_⟩
      obtain ⟨j, j1, j2, j3⟩ := e5 rfl
      obtain ⟨v', o, o1, o2, -, o4⟩ := step j (by omega)
      refine ⟨j, by omega, fun n hn => ?_⟩
      rw [o1] at hn
      injection hn with hn
      rw [o2] at j3
      injection j3 with j3
      exact o4 ⟨n, hn⟩ j3

/-- The values 12 and 0.1. -/
def twelve : Seg :=
  { sampletype := 'd', numsamples := 2,
    datasamples := [0, 1076363264, 2576980378, 1069128089], datasize := 16 }

example : Holds twelve 'd' ∧ sampleValue 'd' twelve.datasamples 0 = some 12 := by
  refine ⟨⟨rfl, by decide⟩, by decide +kernel⟩

example : ∀ k, k < twelve.numsamples → ∃ v, sampleValue 'd' twelve.datasamples k = some v ∧ 0 ≤ v ∧
    v < 2147483647 := by
  intro k hk
  have : k = 0 ∨ k = 1 := by
    have : twelve.numsamples = 2 := rfl
    omega
  rcases this with rfl | rfl
  · exact ⟨12, by decide +kernel, by decide +kernel, by decide +kernel⟩
  · exact ⟨3602879701896397 / 36028797018963968, by decide +kernel, by decide +kernel, by decide +kernel⟩

/-- The integer that replaces a sample if truncation is allowed. -/
theorem intOf_truncate (f : Format) (x : Fl) (v : Rat) (hv : x.value = some v) (h0 : 0 ≤ v)
    (h1 : v < 2147483647) :
    ∃ w, intOf f true x = .ok (some w) ∧ v - 501 / 1000 ≤ ((valueInt w : Int) : Rat) ∧
      (valueInt w : Rat) ≤ v + 501 / 1000 := by
  have e : (2 : Rat) ^ 31 = 2147483648 := by decide +kernel
  have hr := Verif.Proof.Convert.rounded_sum (v + 1 / 2) (by grind) (by rw [e]; grind)
  obtain ⟨f1, f2⟩ := (show (((rounded double (v + 1 / 2)).floor : Int) : Rat) ≤ rounded double (v + 1 / 2) ∧
      rounded double (v + 1 / 2) < ((rounded double (v + 1 / 2)).floor : Rat) + 1 by
    refine ⟨Rat.floor_le _, ?_⟩
    have := Rat.lt_floor_add_one (rounded double (v + 1 / 2))
    rw [Rat.intCast_add] at this
    exact this)
  have g0 : 0 ≤ (rounded double (v + 1 / 2)).floor := by
    rw [Rat.le_floor_iff]
    show (0 : Rat) ≤ _
    grind
  have g1 : (rounded double (v + 1 / 2)).floor < 2147483648 := by
    rw [Rat.floor_lt_iff]
    show _ < (2147483648 : Rat)
    grind
  have hh : half x = .ok (rounded double (v + 1 / 2)).floor := by
    unfold half
    rw [hv]
    exact toInt32_floor (by grind) f1 f2 (by omega)
  generalize (rounded double (v + 1 / 2)).floor = n at *
  refine ⟨intWord n, ?_, ?_⟩
  · unfold intOf lossy
    rw [if_pos rfl, bind_ok, if_neg (by decide), hh, bind_ok]
  · rw [intWord_value n (by omega)]
    grind

/-- **C52** (partial: for samples that are not negative and in range.)  With truncation allowed, samples
become integers next to them, by rounding. -/
theorem C52_truncate_partial (prealloc : Nat) (fresh : List UInt32) (s : Seg) (type : Char)
    (htype : type = 'f' ∨ type = 'd') (h : Holds s type)
    (hv : ∀ k, k < s.numsamples → ∃ v, sampleValue type s.datasamples k = some v ∧ 0 ≤ v ∧ v < 2147483647) :
    ∃ s', convertsamples prealloc fresh s 'i' true = .ok (0, s') ∧ Holds s' 'i' ∧
      s'.numsamples = s.numsamples ∧
      ∀ k v, k < s.numsamples → sampleValue type s.datasamples k = some v →
        ∃ n, sampleValue 'i' s'.datasamples k = some n ∧ v - 501 / 1000 ≤ n ∧ n ≤ v + 501 / 1000 := by
  obtain ⟨ht, hl⟩ := h
  rcases htype with rfl | rfl
  · rw [if_neg (by decide), Nat.one_mul] at hl
    have step : ∀ k, k < s.numsamples → ∃ v w, sampleValue 'f' s.datasamples k = some v ∧
        (getFloat s.datasamples k).bind (intOf single true) = .ok (some w) ∧
        v - 501 / 1000 ≤ ((valueInt w : Int) : Rat) ∧ (valueInt w : Rat) ≤ v + 501 / 1000 := by
      intro k hk
      have hkl : k < s.datasamples.length := by omega
      obtain ⟨v, v1, v2, v3⟩ := hv k hk
      have v1' := v1
      rw [value_f hkl, ← decode_value32] at v1'
      obtain ⟨w, o1, o2⟩ := intOf_truncate single _ v v1' v2 v3
      refine ⟨v, w, v1, ?_, o2⟩
      rw [getFloat_ok hkl, bind_ok, o1]
    obtain ⟨b, r, e1, e2, e3, e4, e5⟩ := loop_spec
      (fun d i => (getFloat d i).bind (intOf single true))
      (fun d d' j h => local_float _ d d' j h) s.numsamples 0 s.datasamples (by omega) (fun j h1 h2 => by
        obtain ⟨v, w, -, o2, -⟩ := step j (by omega)
        exact ⟨_, o2⟩)
    have hb : b = true := by
      cases b
      · obtain ⟨j, j1, j2, j3⟩ := e5 rfl
        obtain ⟨v, w, -, o2, -⟩ := step j (by omega)
        rw [o2] at j3
        cases j3
      · rfl
    subst hb
    refine ⟨{ s with sampletype := 'i', datasamples := r }, ?_, ⟨rfl, ?_⟩, rfl, ?_⟩
    · unfold convertsamples
      rw [ht]
      rw [if_neg (by decide), if_neg (by decide), if_pos rfl, if_pos rfl, e1, bind_ok]
      rfl
    · show 1 * s.numsamples ≤ r.length
      omega
    · intro k v hk hkv
      obtain ⟨w, a1, a2⟩ := e3 rfl k (by omega) (by omega)
      obtain ⟨v', w', o1, o2, o3⟩ := step k hk
      rw [o1] at hkv
      injection hkv with hkv
      subst hkv
      rw [o2] at a1
      injection a1 with a1
      injection a1 with a1
      subst a1
      exact ⟨_, value_i_some a2, o3⟩
  · rw [if_pos rfl] at hl
    have step : ∀ k, k < s.numsamples → ∃ v w, sampleValue 'd' s.datasamples k = some v ∧
        (getDouble s.datasamples k).bind (intOf double true) = .ok (some w) ∧
        v - 501 / 1000 ≤ ((valueInt w : Int) : Rat) ∧ (valueInt w : Rat) ≤ v + 501 / 1000 := by
      intro k hk
      have hkl : 2 * k + 1 < s.datasamples.length := by omega
      obtain ⟨v, v1, v2, v3⟩ := hv k hk
      have v1' := v1
      rw [value_d hkl, ← decode_value64] at v1'
      obtain ⟨w, o1, o2⟩ := intOf_truncate double _ v v1' v2 v3
      refine ⟨v, w, v1, ?_, o2⟩
      rw [getDouble_ok hkl, bind_ok, o1]
    obtain ⟨b, r, e1, e2, e3, e4, e5⟩ := loop_spec
      (fun d i => (getDouble d i).bind (intOf double true))
      (fun d d' j h => local_double _ d d' j h) s.numsamples 0 s.datasamples (by omega) (fun j h1 h2 => by
        obtain ⟨v, w, -, o2, -⟩ := step j (by omega)
        exact ⟨_, o2⟩)
    have hb : b = true := by
      cases b
      · obtain ⟨j, j1, j2, j3⟩ := e5 rfl
        obtain ⟨v, w, -, o2, -⟩ := step j (by omega)
        rw [o2] at j3
        cases j3
      · rfl
    subst hb
    obtain ⟨s', f1, f2, f3, f4⟩ := shrink_samples prealloc s r 'i' (by decide) e2 (by omega)
    refine ⟨s', ?_, f2, f3, ?_⟩
    · unfold convertsamples
      rw [ht]
      rw [if_neg (by decide), if_neg (by decide), if_pos rfl, if_neg (by decide), if_pos rfl, e1, bind_ok, f1]
    · intro k v hk hkv
      obtain ⟨w, a1, a2⟩ := e3 rfl k (by omega) (by omega)
      obtain ⟨v', w', o1, o2, o3⟩ := step k hk
      rw [o1] at hkv
      injection hkv with hkv
      subst hkv
      rw [o2] at a1
      injection a1 with a1
      injection a1 with a1
      subst a1
      exact ⟨_, value_i_some ((f4 k hk).trans a2), o3⟩

example : Holds { twelve with numsamples := 1 } 'd' := ⟨rfl, by decide⟩

/-- **C52** Integers that are not negative come back unchanged from `double`, even if truncation is not
allowed. -/
theorem C52_round_trip_partial (prealloc : Nat) (fresh : List UInt32) (s : Seg) (h : Holds s 'i')
    (hv : ∀ k v, k < s.numsamples → sampleValue 'i' s.datasamples k = some v → 0 ≤ v ∧ v < 2147483647) :
    ∃ d s', convertsamples prealloc fresh s 'd' false = .ok (0, d) ∧
      convertsamples prealloc fresh d 'i' false = .ok (0, s') ∧ Holds s' 'i' ∧ s'.numsamples = s.numsamples ∧
      ∀ k, k < s.numsamples → sampleValue 'i' s'.datasamples k = sampleValue 'i' s.datasamples k := by
  obtain ⟨d, d1, d2, d3, -, d5⟩ := C52_to_double prealloc fresh false s (Or.inl h)
  obtain ⟨ht, hl⟩ := h
  rw [if_neg (by decide), Nat.one_mul] at hl
  rw [ht] at d5
  have hsome : ∀ k, k < s.numsamples → ∃ n : Int, sampleValue 'i' s.datasamples k = some (n : Rat) ∧
      sampleValue 'd' d.datasamples k = some (n : Rat) := by
    intro k hk
    have := value_i (show k < s.datasamples.length by omega)
    exact ⟨_, this, d5 k _ hk this⟩
  obtain ⟨c, s', c1, c2, c3, c4⟩ := C52_to_int_partial prealloc fresh d 'd' (Or.inr rfl) d2 (by
    intro k hk
    rw [d3] at hk
    obtain ⟨n, n1, n2⟩ := hsome k hk
    exact ⟨_, n2, hv k _ hk n1⟩)
  rcases c2 with rfl | rfl
  · obtain ⟨c5, c6, c7⟩ := c3 rfl
    refine ⟨d, s', d1, c1, c5, by rw [c6, d3], ?_⟩
    intro k hk
    obtain ⟨n, n1, n2⟩ := hsome k hk
    obtain ⟨m, m1, m2, m3⟩ := c7 k _ (by rw [d3]; exact hk) n2
    have hlen : k < s'.datasamples.length := by
      have := c5.2
      rw [if_neg (by decide), c6, d3] at this
      omega
    have m1' := m1
    rw [value_i hlen] at m1'
    injection m1' with m1'
    rw [m1, n1, ← m1']
    rw [← m1'] at m2 m3
    generalize valueInt s'.datasamples[k] = z at *
    have a1 := Rat.intCast_le_intCast.1 m2
    have a2 : n < z + 1 := by
      apply Rat.intCast_lt_intCast.1
      rw [Rat.intCast_add]
      show (n : Rat) < z + 1
      grind
    have : n = z := by omega
    rw [this]
  · obtain ⟨k, k1, k2⟩ := c4 rfl
    rw [d3] at k1
    obtain ⟨n, n1, n2⟩ := hsome k k1
    exact absurd n2 (k2 n)

example : ∀ v, sampleValue 'i' [2147483646] 0 = some v → 0 ≤ v ∧ v < 2147483647 := by
  intro v h
  have e : sampleValue 'i' [2147483646] 0 = some 2147483646 := by decide +kernel
  rw [e] at h
  injection h with h
  subst h
  decide +kernel

/-- **C52** Text, also with its legacy code `a`, is refused as source and as target, and nothing is
changed. -/
theorem C52_text (prealloc : Nat) (fresh : List UInt32) (s : Seg) (type : Char) (truncate : Bool)
    (hne : s.sampletype ≠ type) (h : (s.sampletype = 't' ∨ s.sampletype = 'a') ∨ (type = 't' ∨ type = 'a')) :
    convertsamples prealloc fresh s type truncate = .ok (-1, s) := by
  unfold convertsamples
  rw [if_neg hne, if_pos (by grind)]

example : ({ floats with sampletype := 't' } : Seg).sampletype ≠ 'i' := by decide

/-- **C52** is violated: every negative whole number, as `float` or `double`, becomes the next larger
integer, with success and whether or not truncation is allowed. -/
theorem C52_negative_violated (prealloc : Nat) (fresh : List UInt32) (truncate : Bool) (s : Seg) (type : Char)
    (htype : type = 'f' ∨ type = 'd') (h : Holds s type) (hn : s.numsamples = 1) (n : Int)
    (hv : sampleValue type s.datasamples 0 = some (n : Rat)) (hr : -2147483648 ≤ n ∧ n < 0) :
    ∃ s', convertsamples prealloc fresh s 'i' truncate = .ok (0, s') ∧
      sampleValue 'i' s'.datasamples 0 = some ((n + 1 : Int) : Rat) := by
  obtain ⟨ht, hl⟩ := h
  rcases htype with rfl | rfl
  · rw [if_neg (by decide), Nat.one_mul, hn] at hl
    rw [value_f (show 0 < s.datasamples.length by omega), ← decode_value32] at hv
    obtain ⟨w, w1, w2⟩ := intOf_negative single truncate _ n hv hr
    have hcv : convertsamples prealloc fresh s 'i' truncate =
        .ok (finish s 'i' none (true, s.datasamples.set 0 w)) := by
      unfold convertsamples
      rw [ht]
      rw [if_neg (by decide), if_neg (by decide), if_pos rfl, if_pos rfl, hn]
      simp only [loop, getFloat_ok (show 0 < s.datasamples.length by omega), bind_ok, w1]
    refine ⟨_, hcv, ?_⟩
    show sampleValue 'i' (s.datasamples.set 0 w) 0 = _
    rw [value_i_some (List.getElem?_set_self (by omega)), w2]
  · rw [if_pos rfl, hn] at hl
    rw [value_d (show 2 * 0 + 1 < s.datasamples.length by omega), ← decode_value64] at hv
    obtain ⟨w, w1, w2⟩ := intOf_negative double truncate _ n hv hr
    have hcv : convertsamples prealloc fresh s 'i' truncate =
        .ok (finish s 'i' (some prealloc) (true, s.datasamples.set 0 w)) := by
      unfold convertsamples
      rw [ht]
      rw [if_neg (by decide), if_neg (by decide), if_pos rfl, if_neg (by decide), if_pos rfl, hn]
      simp only [loop, getDouble_ok (show 2 * 0 + 1 < s.datasamples.length by omega), bind_ok, w1]
    obtain ⟨s', f1, f2, f3, f4⟩ := shrink_samples prealloc s (s.datasamples.set 0 w) 'i' (by decide)
      (List.length_set) (by omega)
    refine ⟨s', by rw [hcv, f1], ?_⟩
    rw [value_i_some ((f4 0 (by omega)).trans (List.getElem?_set_self (by omega))), w2]

example : sampleValue 'd' [0, 3225681920] 0 = some ((-40 : Int) : Rat) := by decide +kernel

/-- **C52** is violated: -1.75 becomes -1 though truncation is not allowed. -/
theorem C52_loss_violated :
    sampleValue 'd' [0, 3220963328] 0 = some (-7 / 4) ∧
    convertsamples 0 [] { sampletype := 'd', numsamples := 1, datasamples := [0, 3220963328], datasize := 8 }
      'i' false = .ok (0, { sampletype := 'i', numsamples := 1, datasamples := [4294967295], datasize := 4 }) ∧
    sampleValue 'i' [4294967295] 0 = some (-1) := by
  refine ⟨by decide +kernel, by decide +kernel, by decide +kernel⟩

/-- **C52** is violated: a conversion that is refused leaves other samples behind; of 12 and 0.1 the
first is gone. -/
theorem C52_refused_violated :
    ∃ s', convertsamples 0 [] twelve 'i' false = .ok (-1, s') ∧ s'.sampletype = 'd' ∧
      sampleValue 'd' twelve.datasamples 0 = some 12 ∧ sampleValue 'd' s'.datasamples 0 ≠ some 12 := by
  refine ⟨{ twelve with datasamples := [12, 1076363264, 2576980378, 1069128089] }, by decide +kernel, rfl,
    by decide +kernel, by decide +kernel⟩

/-- **C52** is violated: 16777217 becomes 16777216 as `float`, with success. -/
theorem C52_float_violated :
    convertsamples 0 [] { sampletype := 'i', numsamples := 1, datasamples := [16777217], datasize := 4 } 'f' false =
      .ok (0, { sampletype := 'f', numsamples := 1, datasamples := [1266679808], datasize := 4 }) ∧
    sampleValue 'f' [1266679808] 0 = some 16777216 := by
  refine ⟨by decide +kernel, by decide +kernel⟩

/-- **C52** is violated: a sample out of the range of integers, here 3000000000, has no defined
conversion. -/
theorem C52_range_violated (truncate : Bool) :
    sampleValue 'd' [3221225472, 1105615371] 0 = some 3000000000 ∧
    convertsamples 0 [] { sampletype := 'd', numsamples := 1, datasamples := [3221225472, 1105615371], datasize := 8 }
      'i' truncate = .ub := by
  refine ⟨by decide +kernel, ?_⟩
  cases truncate <;> decide +kernel

end Verif.Props.Convert
