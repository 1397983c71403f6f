import Verif.Proof.Samples
import Verif.Props.Steim
/-!
# Sample encodings (C24, C25, C54, C60, C61, C62)
-/
namespace Verif.Props.Samples
open Verif.Spec.Steim Verif.Spec.Samples Verif.Model.Samples Verif.Proof.Samples Verif.Proof.Steim
open Verif.Model.Steim (Res)
open Verif.Props.Steim (dataOrder differences)

/-- Values of a 16-bit signed integer. -/
def isInt16 (x : Int) : Prop := -32768 ≤ x ∧ x ≤ 32767

instance (x : Int) : Decidable (isInt16 x) := by unfold isInt16; infer_instance

/-- **C24 (text).**  The first `min count size` bytes are stored unchanged. -/
theorem C24_text (input : List UInt8) (outlen : Nat) (ho : 0 < outlen) :
    encodeText input outlen = .ok (input.take outlen, min input.length outlen) := by
  unfold encodeText
  by_cases h : input.length = 0
  · rw [if_pos h]
    rw [List.length_eq_zero_iff] at h; subst h; simp
  · rw [if_neg h, if_neg (by omega)]
    simp only
    by_cases hl : input.length < outlen
    · rw [if_pos hl, List.take_of_length_le (by omega), List.take_of_length_le (by omega),
        Nat.min_eq_left (by omega)]
    · rw [if_neg hl, Nat.min_eq_right (by omega)]

example : encodeText [84, 101, 120, 116] 3 = .ok ([84, 101, 120], 3) := by decide

/-- **C24 (16-bit integers).**  With room for at least one sample, exactly as many samples as fit
are stored, two bytes each in the requested byte order, and decoding them gives the samples back,
whatever follows in memory. -/
theorem C24_int16 (hb sw hb' sw' : Bool) (hord : dataOrder hb' sw' = dataOrder hb sw)
    (xs : List Int) (hx : ∀ x ∈ xs, isInt16 x) (outlen : Nat) (h1 : xs ≠ []) (h2 : 2 ≤ outlen) :
    let n := min xs.length (outlen / 2)
    1 ≤ n ∧ ∃ bytes, encodeInt16 hb sw xs outlen = .ok (bytes, n) ∧ bytes.length = 2 * n ∧
      ints (dataOrder hb sw) 2 n bytes = xs.take n ∧
      ∀ rest ol2, 4 * n ≤ ol2 → decodeInt16 hb' sw' (bytes ++ rest) n ol2 = .ok (xs.take n) := by
  intro n
  have hl := List.length_pos_iff.2 h1
  have hn : 1 ≤ n := by have : 1 ≤ outlen / 2 := by omega
                        simp only [n]; omega
  refine ⟨hn, ?_⟩
  obtain ⟨bytes, g1, g2, g3, g4⟩ := enc_dec 2 4 (by omega)
    (fun x : Int => Verif.Model.Bytes.swapIf sw (Verif.Model.Bytes.hostBytes hb 2 (Verif.Model.Bytes.bits 16 x)))
    (fun b => .ok (Verif.Model.Bytes.sext 16 (Verif.Model.Bytes.hostNat hb' (Verif.Model.Bytes.swapIf sw' b))))
    (fun b => signed 16 (num (dataOrder hb sw) b))
    (by
      intro b hbl
      rw [num_eq_host, sext_eq _ _ (num_lt16 _ b hbl)]
      change _ = Res.ok (signed 16 (num (dataOrder hb sw) b))
      rw [← hord]; rfl)
    (by intro x; exact stored_length hb sw 2 _) xs
    (by
      intro x hxm
      change signed 16 (num (order hb sw) _) = x
      rw [num_store16 hb sw _ (Verif.Proof.Bytes.bits_lt 16 x)]
      exact signed16 x (hx x hxm)) outlen
  refine ⟨bytes, ?_, g2, g3, ?_⟩
  · unfold encodeInt16
    rw [if_neg (by omega), if_neg (by omega), g1]
  · intro rest ol2 ho
    unfold decodeInt16
    rw [if_neg (by omega), if_neg (by omega)]
    exact g4 rest ol2 ho

example : encodeInt16 false true [-32768, 258, 7] 5 = .ok ([128, 0, 1, 2], 2) ∧
    decodeInt16 false true [128, 0, 1, 2] 2 8 = .ok [-32768, 258] := by decide

/-- **C24 (32-bit integers).** -/
theorem C24_int32 (hb sw hb' sw' : Bool) (hord : dataOrder hb' sw' = dataOrder hb sw)
    (xs : List Int) (hx : ∀ x ∈ xs, isInt32 x) (outlen : Nat) (h1 : xs ≠ []) (h2 : 4 ≤ outlen) :
    let n := min xs.length (outlen / 4)
    1 ≤ n ∧ ∃ bytes, encodeInt32 hb sw xs outlen = .ok (bytes, n) ∧ bytes.length = 4 * n ∧
      ints (dataOrder hb sw) 4 n bytes = xs.take n ∧
      ∀ rest ol2, 4 * n ≤ ol2 → decodeInt32 hb' sw' (bytes ++ rest) n ol2 = .ok (xs.take n) := by
  intro n
  have hl := List.length_pos_iff.2 h1
  have hn : 1 ≤ n := by have : 1 ≤ outlen / 4 := by omega
                        simp only [n]; omega
  refine ⟨hn, ?_⟩
  obtain ⟨bytes, g1, g2, g3, g4⟩ := enc_dec 4 4 (by omega)
    (fun x : Int => Verif.Model.Bytes.swapIf sw (Verif.Model.Bytes.hostBytes hb 4 (Verif.Model.Bytes.bits 32 x)))
    (fun b => .ok (Verif.Model.Bytes.sext 32 (Verif.Model.Bytes.hostNat hb' (Verif.Model.Bytes.swapIf sw' b))))
    (fun b => signed 32 (num (dataOrder hb sw) b))
    (by
      intro b hbl
      rw [num_eq_host, sext_eq _ _ (num_lt32 _ b hbl)]
      change _ = Res.ok (signed 32 (num (dataOrder hb sw) b))
      rw [← hord]; rfl)
    (by intro x; exact stored_length hb sw 4 _) xs
    (by
      intro x hxm
      change signed 32 (num (order hb sw) _) = x
      rw [num_store32 hb sw _ (Verif.Proof.Bytes.bits_lt 32 x)]
      exact signed32 x (hx x hxm)) outlen
  refine ⟨bytes, ?_, g2, g3, ?_⟩
  · unfold encodeInt32
    rw [if_neg (by omega), if_neg (by omega), g1]
  · intro rest ol2 ho
    unfold decodeInt32
    rw [if_neg (by omega), if_neg (by omega)]
    exact g4 rest ol2 ho

example : encodeInt32 false true [-2, 66051] 8 = .ok ([255, 255, 255, 254, 0, 1, 2, 3], 2) := by
  decide

/-- **C24 (32-bit floats)**, on bit patterns. -/
theorem C24_float32 (hb sw hb' sw' : Bool) (hord : dataOrder hb' sw' = dataOrder hb sw)
    (xs : List Nat) (hx : ∀ x ∈ xs, x < 2 ^ 32) (outlen : Nat) (h1 : xs ≠ []) (h2 : 4 ≤ outlen) :
    let n := min xs.length (outlen / 4)
    1 ≤ n ∧ ∃ bytes, encodeFloat32 hb sw xs outlen = .ok (bytes, n) ∧ bytes.length = 4 * n ∧
      patterns (dataOrder hb sw) 4 n bytes = xs.take n ∧
      ∀ rest ol2, 4 * n ≤ ol2 → decodeFloat32 hb' sw' (bytes ++ rest) n ol2 = .ok (xs.take n) := by
  intro n
  have hl := List.length_pos_iff.2 h1
  have hn : 1 ≤ n := by have : 1 ≤ outlen / 4 := by omega
                        simp only [n]; omega
  refine ⟨hn, ?_⟩
  obtain ⟨bytes, g1, g2, g3, g4⟩ := enc_dec 4 4 (by omega)
    (fun x : Nat => Verif.Model.Bytes.swapIf sw (Verif.Model.Bytes.hostBytes hb 4 x))
    (fun b => .ok (Verif.Model.Bytes.hostNat hb' (Verif.Model.Bytes.swapIf sw' b)))
    (fun b => num (dataOrder hb sw) b)
    (by
      intro b hbl
      rw [num_eq_host]
      change _ = Res.ok (num (dataOrder hb sw) b)
      rw [← hord]; rfl)
    (by intro x; exact stored_length hb sw 4 _) xs
    (by
      intro x hxm
      change num (order hb sw) _ = x
      rw [num_store32 hb sw _ (hx x hxm)]) outlen
  refine ⟨bytes, ?_, g2, g3, ?_⟩
  · unfold encodeFloat32
    rw [if_neg (by omega), if_neg (by omega), g1]
  · intro rest ol2 ho
    unfold decodeFloat32
    rw [if_neg (by omega), if_neg (by omega)]
    exact g4 rest ol2 ho

example : encodeFloat32 false true [0x3F800001, 0x80000000] 7 = .ok ([0x3F, 0x80, 0, 1], 1) := by
  decide

/-- **C24 (64-bit floats)**, on bit patterns. -/
theorem C24_float64 (hb sw hb' sw' : Bool) (hord : dataOrder hb' sw' = dataOrder hb sw)
    (xs : List Nat) (hx : ∀ x ∈ xs, x < 2 ^ 64) (outlen : Nat) (h1 : xs ≠ []) (h2 : 8 ≤ outlen) :
    let n := min xs.length (outlen / 8)
    1 ≤ n ∧ ∃ bytes, encodeFloat64 hb sw xs outlen = .ok (bytes, n) ∧ bytes.length = 8 * n ∧
      patterns (dataOrder hb sw) 8 n bytes = xs.take n ∧
      ∀ rest ol2, 8 * n ≤ ol2 → decodeFloat64 hb' sw' (bytes ++ rest) n ol2 = .ok (xs.take n) := by
  intro n
  have hl := List.length_pos_iff.2 h1
  have hn : 1 ≤ n := by have : 1 ≤ outlen / 8 := by omega
                        simp only [n]; omega
  refine ⟨hn, ?_⟩
  obtain ⟨bytes, g1, g2, g3, g4⟩ := enc_dec 8 8 (by omega)
    (fun x : Nat => Verif.Model.Bytes.swapIf sw (Verif.Model.Bytes.hostBytes hb 8 x))
    (fun b => .ok (Verif.Model.Bytes.hostNat hb' (Verif.Model.Bytes.swapIf sw' b)))
    (fun b => num (dataOrder hb sw) b)
    (by
      intro b hbl
      rw [num_eq_host]
      change _ = Res.ok (num (dataOrder hb sw) b)
      rw [← hord]; rfl)
    (by intro x; exact stored_length hb sw 8 _) xs
    (by
      intro x hxm
      change num (order hb sw) _ = x
      rw [num_store hb sw 8 _ (by simpa using hx x hxm)]) outlen
  refine ⟨bytes, ?_, g2, g3, ?_⟩
  · unfold encodeFloat64
    rw [if_neg (by omega), if_neg (by omega), g1]
  · intro rest ol2 ho
    unfold decodeFloat64
    rw [if_neg (by omega), if_neg (by omega)]
    exact g4 rest ol2 ho

example : encodeFloat64 true false [0x3FF0000000000001] 8 = .ok ([0x3F, 0xF0, 0, 0, 0, 0, 0, 1], 1) := by
  decide

/-- **C62 is violated**: 16-bit encoding silently stores integers outside the 16-bit range as
different values. -/
theorem C62_int16_truncates_violated :
    ∃ bytes, encodeInt16 false true [70000, -40000] 4 = .ok (bytes, 2) ∧
      decodeInt16 false true bytes 2 8 = .ok [4464, 25536] := by
  exact ⟨_, rfl, by decide⟩

/-- **C62.**  Integer samples in the 16-bit range keep their value.  Missing: the refusal of samples
outside the range. -/
theorem C62_int16_range_partial (hb sw : Bool) (xs : List Int) (hx : ∀ x ∈ xs, isInt16 x)
    (outlen : Nat) (h1 : xs ≠ []) (h2 : 2 ≤ outlen) :
    ∃ bytes n, encodeInt16 hb sw xs outlen = .ok (bytes, n) ∧ 1 ≤ n ∧
      decodeInt16 hb sw bytes n (4 * n) = .ok (xs.take n) := by
  obtain ⟨hn, bytes, g1, g2, g3, g4⟩ := C24_int16 hb sw hb sw rfl xs hx outlen h1 h2
  exact ⟨bytes, _, g1, hn, by simpa using g4 [] _ (Nat.le_refl _)⟩

example : isInt16 (-32768) ∧ isInt16 32767 ∧ ¬ isInt16 32768 := by decide

/-- The 16-bit code words of a byte sequence. -/
abbrev codeWords (be : Bool) (n : Nat) (mem : List UInt8) : List Nat := patterns be 2 n mem

/-- **C25 (CDSN).**  Every sequence of code words, either byte order. -/
theorem C25_cdsn (hb sw : Bool) (mem : List UInt8) (n outlen : Nat) (hn : 1 ≤ n)
    (hm : 2 * n ≤ mem.length) (ho : 4 * n ≤ outlen) :
    decodeCdsn hb sw mem n outlen = .ok ((codeWords (dataOrder hb sw) n mem).map cdsn) := by
  unfold decodeCdsn
  rw [if_neg (by omega), if_neg (by omega),
    decLoop_ok 2 4 _ (fun b => cdsn (num (order hb sw) b)) (fun b h => cdsn_spec hb sw b h) n outlen mem ho hm]
  simp only [codeWords, patterns, List.map_map]
  rfl

example : decodeCdsn false true [0, 0, 0xFF, 0xFF, 0x5F, 0xFF] 3 12 = .ok [-8191, 1048576, 0] := by
  decide +kernel

/-- **C25 (SRO).**  If all code words have a gain range of 0 to 10 the samples are mantissa times
gain; otherwise an error is returned. -/
theorem C25_sro (hb sw : Bool) (mem : List UInt8) (n outlen : Nat) (hn : 1 ≤ n)
    (hm : 2 * n ≤ mem.length) (ho : 4 * n ≤ outlen) :
    decodeSro hb sw mem n outlen = match (codeWords (dataOrder hb sw) n mem).mapM sro with
      | some v => .ok v
      | none => .err := by
  unfold decodeSro
  rw [if_neg (by omega), if_neg (by omega),
    decLoop_opt 2 4 _ (fun b => sro (num (order hb sw) b)) (fun b h => sro_spec hb sw b h) n outlen mem ho hm]
  have e : (codeWords (dataOrder hb sw) n mem).mapM sro =
      ((List.range n).map fun i => group 2 i mem).mapM fun b => sro (num (order hb sw) b) := by
    simp only [codeWords, patterns, List.mapM_map]
    rfl
  rw [e]
  cases ((List.range n).map fun i => group 2 i mem).mapM fun b => sro (num (order hb sw) b) <;> rfl

example : decodeSro false true [0x08, 0x00, 0xA7, 0xFF] 2 8 = .ok [-2097152, 2047] ∧
    decodeSro false true [0xB0, 0x00] 1 4 = .err := by decide +kernel

/-- **C25 (DWWSSN).** -/
theorem C25_dwwssn (hb sw : Bool) (mem : List UInt8) (n outlen : Nat) (hn : 1 ≤ n)
    (hm : 2 * n ≤ mem.length) (ho : 4 * n ≤ outlen) :
    decodeDwwssn hb sw mem n outlen = .ok ((codeWords (dataOrder hb sw) n mem).map dwwssn) := by
  unfold decodeDwwssn
  rw [if_neg (by omega), if_neg (by omega),
    decLoop_ok 2 4 _ (fun b => dwwssn (num (order hb sw) b)) (fun b h => dwwssn_spec hb sw b h) n outlen mem ho hm]
  simp only [codeWords, patterns, List.map_map]
  rfl

example : decodeDwwssn true true [0xFE, 0xFF] 1 4 = .ok [-2] := by decide +kernel

/-- **C25 (GEOSCOPE 16-bit).**  Both gain-ranged formats; the quotients are exact floats. -/
theorem C25_geoscope16 (hb sw : Bool) (mem : List UInt8) (n outlen : Nat) (hn : 1 ≤ n)
    (hm : 2 * n ≤ mem.length) (ho : 4 * n ≤ outlen) :
    decodeGeoscope hb sw mem n outlen 13 = .ok ((codeWords (dataOrder hb sw) n mem).map geoscope163) ∧
    decodeGeoscope hb sw mem n outlen 14 = .ok ((codeWords (dataOrder hb sw) n mem).map geoscope164) ∧
    ∀ v, (-2048 ≤ (geoscope163 v).1 ∧ (geoscope163 v).1 ≤ 2047) ∧
      (-2048 ≤ (geoscope164 v).1 ∧ (geoscope164 v).1 ≤ 2047) := by
  refine ⟨?_, ?_, ?_⟩
  · unfold decodeGeoscope
    rw [if_neg (by omega), if_neg (by omega), if_neg (by omega), if_pos rfl,
      decLoop_ok 2 4 _ (fun b => geoscope163 (num (order hb sw) b))
        (fun b _ => by rw [geo163_spec]) n outlen mem ho hm]
    simp only [codeWords, patterns, List.map_map]
    rfl
  · unfold decodeGeoscope
    rw [if_neg (by omega), if_neg (by omega), if_neg (by omega), if_neg (by omega), if_pos rfl,
      decLoop_ok 2 4 _ (fun b => geoscope164 (num (order hb sw) b))
        (fun b h => by rw [geo164_spec hb sw b h]) n outlen mem ho hm]
    simp only [codeWords, patterns, List.map_map]
    rfl
  · intro v
    unfold geoscope163 geoscope164
    simp only
    omega

example : decodeGeoscope false true [0x58, 0x01] 1 4 13 = .ok [(1, 5)] := by decide +kernel

/-- **C25 is violated for little-endian GEOSCOPE 24-bit data**: on a little-endian host without
swapping (and on a big-endian host with swapping) the three bytes land in the wrong places of the
word. -/
theorem C25_geoscope24_little_endian_violated :
    decodeGeoscope false false [1, 0, 0] 1 4 12 = .ok [(256, 0)] ∧
    decodeGeoscope true true [1, 0, 0] 1 4 12 = .ok [(256, 0)] ∧
    geoscope24 (num false [1, 0, 0]) = (1, 0) := by decide +kernel

/-- **C25 (GEOSCOPE 24-bit), big-endian data** on either kind of host.  Missing: little-endian
data. -/
theorem C25_geoscope24_partial (hb : Bool) (mem : List UInt8) (n outlen : Nat) (hn : 1 ≤ n)
    (hm : 3 * n ≤ mem.length) (ho : 4 * n ≤ outlen) :
    decodeGeoscope hb (!hb) mem n outlen 12 = .ok ((patterns true 3 n mem).map geoscope24) := by
  unfold decodeGeoscope
  rw [if_neg (by omega), if_neg (by omega), if_pos rfl,
    decLoop_ok 3 4 _ (fun b => geoscope24 (num true b))
      (fun b h => by rw [geo24_spec hb b h]) n outlen mem ho hm]
  simp only [patterns, List.map_map]
  rfl

example : decodeGeoscope false true [0xFF, 0xFF, 0xFE, 0x00, 0x01, 0x00] 2 8 12
    = .ok [(-2, 0), (256, 0)] := by decide +kernel

/-- Bytes a sample occupies in each fixed-size encoding (SEED encoding list). -/
def storedSize (encoding : Nat) : Nat :=
  if encoding = 0 then 1
  else if encoding = 3 ∨ encoding = 4 then 4
  else if encoding = 5 then 8
  else if encoding = 12 then 3
  else 2

/-- The encodings with a fixed sample size that can be decoded. -/
def fixedSize (encoding : Nat) : Prop := encoding ∈ [0, 1, 3, 4, 5, 12, 13, 14, 16, 30, 32]

instance (e : Nat) : Decidable (fixedSize e) := by unfold fixedSize; infer_instance

/-- **C60 is violated**: the size of the input is ignored for the fixed-size encodings: two 32-bit
samples requested from 4 bytes are read from beyond the input. -/
theorem C60_input_size_ignored_violated :
    decodeData false true [0, 0, 0, 7] 4 3 2 8 = .oob ∧
    decodeData false true [0, 0, 0, 7] 4 0 5 8 = .oob := by decide +kernel

/-- **C60.**  With an input holding all requested samples (for Steim: any input) and fewer than
2^60 of them, decoding never reads outside the input.  Missing: fixed-size encodings with an input
that is too short. -/
theorem C60_decode_in_bounds_partial (hb sw : Bool) (mem : List UInt8) (insize enc n outsize : Nat)
    (hin : insize ≤ mem.length) (hn : n < 2 ^ 60)
    (hfix : fixedSize enc → storedSize enc * n ≤ insize) :
    decodeData hb sw mem insize enc n outsize ≠ .oob := by
  unfold decodeData
  by_cases h0 : n = 0
  · rw [if_pos h0]; simp
  rw [if_neg h0]
  split
  · simp
  have loop : ∀ {α} (isz osz : Nat) (conv : List UInt8 → Res α) (ol : Nat),
      (∀ b, b.length = isz → conv b ≠ .oob ∧ conv b ≠ .ub) → isz * n ≤ insize →
      decLoop isz osz conv n ol mem ≠ .oob := by
    intro α isz osz conv ol hc hk
    exact (decLoop_safe isz osz conv hc n ol mem (by omega)).1
  have okc : ∀ {α} (isz : Nat) (f : List UInt8 → α) (b : List UInt8), b.length = isz →
      (Res.ok (f b)) ≠ .oob ∧ (Res.ok (f b)) ≠ .ub := by intros; simp
  have hst := fun ol => Verif.Props.Steim.C23_memory_safe_partial hb sw mem insize n ol hin (by omega) (by omega)
  generalize n * decodedSampleSize enc % 2 ^ 64 = ol
  unfold decodeBy
  split
  · have := hfix (by decide)
    simp only [storedSize, ↓reduceIte] at this
    rw [if_neg (by omega)]; simp
  · have := hfix (by decide)
    apply finish_safe; unfold decodeInt16
    rw [if_neg h0]; split
    · simp
    · exact loop _ _ _ _ (okc 2 _) this
  · have := hfix (by decide)
    apply finish_safe; unfold decodeInt32
    rw [if_neg h0]; split
    · simp
    · exact loop _ _ _ _ (okc 4 _) this
  · have := hfix (by decide)
    apply finish_safe; unfold decodeFloat32
    rw [if_neg h0]; split
    · simp
    · exact loop _ _ _ _ (okc 4 _) this
  · have := hfix (by decide)
    apply finish_safe; unfold decodeFloat64
    rw [if_neg h0]; split
    · simp
    · exact loop _ _ _ _ (okc 8 _) this
  · apply finish_safe
    have := (hst ol).1.1
    cases hr : Verif.Model.Steim.decodeSteim1 hb sw mem insize n ol with
    | oob => exact absurd hr this
    | _ => simp [Res.bind]
  · apply finish_safe
    have := (hst ol).2.1
    cases hr : Verif.Model.Steim.decodeSteim2 hb sw mem insize n ol with
    | oob => exact absurd hr this
    | _ => simp [Res.bind]
  · have := hfix (by decide)
    apply finish_safe; unfold decodeGeoscope
    rw [if_neg h0]; split
    · simp
    · exact loop _ _ _ _ (okc 3 _) this
  · have := hfix (by decide)
    apply finish_safe; unfold decodeGeoscope
    rw [if_neg h0]; split
    · simp
    · exact loop _ _ _ _ (okc 2 _) this
  · have := hfix (by decide)
    apply finish_safe; unfold decodeGeoscope
    rw [if_neg h0]; split
    · simp
    · exact loop _ _ _ _ (okc 2 _) this
  · have := hfix (by decide)
    apply finish_safe; unfold decodeCdsn
    rw [if_neg h0]; split
    · simp
    · exact loop _ _ _ _ (fun b h => by rw [cdsn_spec hb sw b h]; simp) this
  · have := hfix (by decide)
    apply finish_safe; unfold decodeSro
    rw [if_neg h0]; split
    · simp
    · exact loop _ _ _ _ (fun b h => by
        rw [sro_spec hb sw b h]; cases sro (num (order hb sw) b) <;> simp [ofOpt]) this
  · have := hfix (by decide)
    apply finish_safe; unfold decodeDwwssn
    rw [if_neg h0]; split
    · simp
    · exact loop _ _ _ _ (fun b h => by rw [dwwssn_spec hb sw b h]; simp) this
  · simp

example : fixedSize 30 ∧ storedSize 30 * 3 ≤ 6 ∧ ¬ fixedSize 11 := by decide

/-- The library's type code for decoded samples. -/
def typeCode : Samples → Char
  | .text _ => 't'
  | .ints _ => 'i'
  | .floats _ => 'f'
  | .doubles _ => 'd'
  | .quotients _ => 'f'

/-- **C54.**  For every encoding code: if size and type are known, the size is that of the type, the
decoder can succeed, and whenever it succeeds it delivers the requested number of samples of that
type, which fit the output buffer; if not, the decoder always returns an error. -/
theorem C54_lookups_consistent (enc : Nat) :
    (∀ s t, encodingSizeType enc = some (s, t) →
      sampleSize t = s ∧ encodingStr enc ≠ "Unknown" ∧
      (∃ mem r, decodeData false true mem mem.length enc 1 8 = .ok r) ∧
      ∀ hb sw mem insize n outsize r, 1 ≤ n → n * s < 2 ^ 64 →
        decodeData hb sw mem insize enc n outsize = .ok r →
        typeCode r = t ∧ r.count = n ∧ r.count * s ≤ outsize) ∧
    (encodingSizeType enc = none → ∀ hb sw mem insize n outsize, 1 ≤ n →
      decodeData hb sw mem insize enc n outsize = .err) := by
  constructor
  · intro s t hst
    have hsz : decodedSampleSize enc = s := by unfold decodedSampleSize; rw [hst]
    have hcases : enc ∈ [0, 1, 3, 4, 5, 10, 11, 12, 13, 14, 16, 30, 32] := by
      unfold encodingSizeType at hst
      split at hst <;> simp_all
    refine ⟨?_, ?_, ?_, ?_⟩
    · unfold encodingSizeType at hst
      split at hst <;> simp only [Option.some.injEq, Prod.mk.injEq, reduceCtorEq] at hst <;>
        (obtain ⟨rfl, rfl⟩ := hst; decide)
    · clear hst hsz
      simp only [List.mem_cons, List.not_mem_nil, or_false] at hcases
      rcases hcases with rfl | rfl | rfl | rfl | rfl | rfl | rfl | rfl | rfl | rfl | rfl | rfl | rfl <;>
        decide
    · clear hst hsz
      refine ⟨List.replicate 64 0, ?_⟩
      have key : ∀ e ∈ [0, 1, 3, 4, 5, 10, 11, 12, 13, 14, 16, 30, 32],
          (match decodeData false true (List.replicate 64 0) (List.replicate 64 (0 : UInt8)).length e 1 8 with
            | .ok _ => true | _ => false) = true := by decide +kernel
      have := key enc hcases
      revert this
      cases decodeData false true (List.replicate 64 0) (List.replicate 64 (0 : UInt8)).length enc 1 8 with
      | ok r => intro _; exact ⟨r, rfl⟩
      | _ => simp
    · intro hb sw mem insize n outsize r hn hw hr
      unfold decodeData at hr
      rw [if_neg (by omega), hsz, Nat.mod_eq_of_lt hw] at hr
      split at hr
      · simp at hr
      next hle =>
      have hfin : typeCode r = t ∧ r.count = n := by
        clear hsz
        unfold decodeBy at hr
        unfold encodingSizeType at hst
        simp only [List.mem_cons, List.not_mem_nil, or_false] at hcases
        rcases hcases with rfl | rfl | rfl | rfl | rfl | rfl | rfl | rfl | rfl | rfl | rfl | rfl | rfl <;>
          simp only [Option.some.injEq, Prod.mk.injEq] at hst <;> obtain ⟨_, rfl⟩ := hst <;>
          simp only at hr <;>
          first
          | (obtain ⟨l, _, hl, rfl⟩ := finish_ok hr; exact ⟨rfl, hl⟩)
          | (split at hr
             · simp at hr
             · have := Res.ok.inj hr; subst this
               refine ⟨rfl, ?_⟩
               simp only [Samples.count, List.length_take]; omega)
      refine ⟨hfin.1, hfin.2, ?_⟩
      rw [hfin.2]; omega
  · intro hnone hb sw mem insize n outsize hn
    unfold decodeData
    rw [if_neg (by omega)]
    have hsz : decodedSampleSize enc = 0 := by unfold decodedSampleSize; rw [hnone]
    rw [hsz, if_neg (by omega)]
    unfold encodingSizeType at hnone
    unfold decodeBy
    split <;> simp at hnone ⊢

example : encodingSizeType 11 = some (4, 'i') ∧ encodingSizeType 19 = none := by decide

/-- Samples an encoding can represent. -/
def representable : Samples → Nat → Prop
  | .text _, 0 => True
  | .ints v, 1 => ∀ x ∈ v, isInt16 x
  | .ints v, 3 => ∀ x ∈ v, isInt32 x
  | .floats v, 4 => ∀ x ∈ v, x < 2 ^ 32
  | .doubles v, 5 => ∀ x ∈ v, x < 2 ^ 64
  | .ints v, 10 => ∀ x ∈ v, isInt32 x
  | .ints v, 11 => ∀ x ∈ v, isInt32 x
  | _, _ => False

/-- The first `n` samples. -/
def first (n : Nat) : Samples → Samples
  | .text b => .text (b.take n)
  | .ints v => .ints (v.take n)
  | .floats v => .floats (v.take n)
  | .doubles v => .doubles (v.take n)
  | .quotients v => .quotients (v.take n)

/-- **C61.**  Whatever the packer stores for samples representable in the encoding, the decoder
turns back into the first `n` samples, `n` being the count the packer returned; the stored bytes
never exceed the space given.  Steim data is big-endian on every host. -/
theorem C61_pack_decode (hb sw hb' sw' : Bool) (src : Samples) (maxbytes enc : Nat)
    (bytes : List UInt8) (n : Nat)
    (hord : dataOrder hb' sw' = if enc = 10 ∨ enc = 11 then true else dataOrder hb sw)
    (hrep : representable src enc) (hlen : src.count * 8 < 2 ^ 64)
    (h : packData hb sw src maxbytes enc = .ok (bytes, n)) :
    n ≤ src.count ∧ bytes.length ≤ maxbytes ∧
    (1 ≤ n → ∀ rest outsize, n * decodedSampleSize enc ≤ outsize →
      decodeData hb' sw' (bytes ++ rest) bytes.length enc n outsize = .ok (first n src)) := by
  have fin : ∀ {α} (k : Nat) (mk : List α → Samples) (l : List α), l.length = k →
      finish k mk (.ok l) = .ok (mk l) := by
    intro α k mk l hl; unfold finish; simp only [Res.bind]; rw [if_pos hl]
  have dd : ∀ s m insz out, 1 ≤ n → decodedSampleSize enc = s → n * s < 2 ^ 64 → n * s ≤ out →
      decodeData hb' sw' m insz enc n out = decodeBy hb' sw' m insz n (n * s) enc := by
    intro s m insz out h1 hs h2 h3
    unfold decodeData
    rw [if_neg (by omega), hs, Nat.mod_eq_of_lt h2, if_neg (by omega)]
  unfold packData at h
  split at h
  · -- text
    next b =>
    by_cases ho : maxbytes = 0
    · unfold encodeText at h
      split at h
      · have := Res.ok.inj h
        simp only [Prod.mk.injEq] at this
        obtain ⟨rfl, rfl⟩ := this
        exact ⟨by simp, by simp, by omega⟩
      · simp [ho] at h
    · rw [C24_text b maxbytes (by omega)] at h
      have := Res.ok.inj h
      simp only [Prod.mk.injEq] at this
      obtain ⟨rfl, rfl⟩ := this
      refine ⟨by simp [Samples.count]; omega, by simp; omega, ?_⟩
      intro h1 rest outsize ho'
      have hc : b.length * 8 < 2 ^ 64 := hlen
      rw [dd 1 _ _ _ h1 rfl (by omega) ho']
      simp only [decodeBy]
      rw [if_neg (by simp; omega)]
      simp only [first]
      congr 2
      rw [List.take_append_of_le_length (by simp; omega), List.take_take]
      congr 1; omega
  · -- int16
    next v =>
    split at h
    · simp at h
    by_cases hv : v = []
    · subst hv
      simp [encodeInt16] at h
      obtain ⟨rfl, rfl⟩ := h
      exact ⟨by simp, by simp, by omega⟩
    · obtain ⟨g0, bs, g1, g2, g3, g4⟩ := C24_int16 hb sw hb' sw' hord v hrep maxbytes hv (by omega)
      rw [g1] at h
      have := Res.ok.inj h
      simp only [Prod.mk.injEq] at this
      obtain ⟨rfl, rfl⟩ := this
      refine ⟨by simp [Samples.count]; omega, by omega, ?_⟩
      intro h1 rest outsize ho'
      have hc : v.length * 8 < 2 ^ 64 := hlen
      rw [dd 4 _ _ _ h1 rfl (by omega) ho']
      simp only [decodeBy]
      rw [g4 rest _ (by omega), fin _ _ _ (by simp)]
      rfl
  · -- int32
    next v =>
    split at h
    · simp at h
    by_cases hv : v = []
    · subst hv
      simp [encodeInt32] at h
      obtain ⟨rfl, rfl⟩ := h
      exact ⟨by simp, by simp, by omega⟩
    · obtain ⟨g0, bs, g1, g2, g3, g4⟩ := C24_int32 hb sw hb' sw' hord v hrep maxbytes hv (by omega)
      rw [g1] at h
      have := Res.ok.inj h
      simp only [Prod.mk.injEq] at this
      obtain ⟨rfl, rfl⟩ := this
      refine ⟨by simp [Samples.count]; omega, by omega, ?_⟩
      intro h1 rest outsize ho'
      have hc : v.length * 8 < 2 ^ 64 := hlen
      rw [dd 4 _ _ _ h1 rfl (by omega) ho']
      simp only [decodeBy]
      rw [g4 rest _ (by omega), fin _ _ _ (by simp)]
      rfl
  · -- float32
    next v =>
    split at h
    · simp at h
    by_cases hv : v = []
    · subst hv
      simp [encodeFloat32] at h
      obtain ⟨rfl, rfl⟩ := h
      exact ⟨by simp, by simp, by omega⟩
    · obtain ⟨g0, bs, g1, g2, g3, g4⟩ := C24_float32 hb sw hb' sw' hord v hrep maxbytes hv (by omega)
      rw [g1] at h
      have := Res.ok.inj h
      simp only [Prod.mk.injEq] at this
      obtain ⟨rfl, rfl⟩ := this
      refine ⟨by simp [Samples.count]; omega, by omega, ?_⟩
      intro h1 rest outsize ho'
      have hc : v.length * 8 < 2 ^ 64 := hlen
      rw [dd 4 _ _ _ h1 rfl (by omega) ho']
      simp only [decodeBy]
      rw [g4 rest _ (by omega), fin _ _ _ (by simp)]
      rfl
  · -- float64
    next v =>
    split at h
    · simp at h
    by_cases hv : v = []
    · subst hv
      simp [encodeFloat64] at h
      obtain ⟨rfl, rfl⟩ := h
      exact ⟨by simp, by simp, by omega⟩
    · obtain ⟨g0, bs, g1, g2, g3, g4⟩ := C24_float64 hb sw hb' sw' hord v hrep maxbytes hv (by omega)
      rw [g1] at h
      have := Res.ok.inj h
      simp only [Prod.mk.injEq] at this
      obtain ⟨rfl, rfl⟩ := this
      refine ⟨by simp [Samples.count]; omega, by omega, ?_⟩
      intro h1 rest outsize ho'
      have hc : v.length * 8 < 2 ^ 64 := hlen
      rw [dd 8 _ _ _ h1 rfl (by omega) ho']
      simp only [decodeBy]
      rw [g4 rest _ (by omega), fin _ _ _ (by simp)]
      rfl
  · -- Steim-1
    next v =>
    split at h
    · simp at h
    obtain ⟨e, he, h⟩ := bind_ok h
    have := Res.ok.inj h
    simp only [Prod.mk.injEq] at this
    obtain ⟨rfl, rfl⟩ := this
    have hb2 : isInt32 0 := by decide
    have hbd := Verif.Props.Steim.encoded_bounds hb (!hb) (wordEnc1 hb (!hb)) (by omega) v maxbytes 0
      hb2 (by omega) hrep e he
    refine ⟨hbd.1, hbd.2, ?_⟩
    intro h1 rest outsize ho'
    have hc : v.length * 8 < 2 ^ 64 := hlen
    have hle : e.samples ≤ v.length := hbd.1
    rw [dd 4 _ _ _ h1 rfl (by omega) ho']
    simp only [decodeBy]
    rw [Verif.Props.Steim.C20_steim1_lossless hb (!hb) hb' sw'
      (by rw [hord]; simp [dataOrder]) v maxbytes 0 hb2 hrep e he rest _ (by omega) (by omega)]
    simp only [Res.bind]
    rw [fin _ _ _ (by simp; omega)]
    rfl
  · -- Steim-2
    next v =>
    split at h
    · simp at h
    obtain ⟨e, he, h⟩ := bind_ok h
    have := Res.ok.inj h
    simp only [Prod.mk.injEq] at this
    obtain ⟨rfl, rfl⟩ := this
    have hb2 : isInt32 0 := by decide
    have hbd := Verif.Props.Steim.encoded_bounds hb (!hb) (wordEnc2 hb (!hb)) (by omega) v maxbytes 0
      hb2 (by omega) hrep e he
    refine ⟨hbd.1, hbd.2, ?_⟩
    intro h1 rest outsize ho'
    have hc : v.length * 8 < 2 ^ 64 := hlen
    have hle : e.samples ≤ v.length := hbd.1
    rw [dd 4 _ _ _ h1 rfl (by omega) ho']
    simp only [decodeBy]
    rw [Verif.Props.Steim.C21_steim2_lossless hb (!hb) hb' sw'
      (by rw [hord]; simp [dataOrder]) v maxbytes 0 hb2 hrep e he rest _ (by omega) (by omega)]
    simp only [Res.bind]
    rw [fin _ _ _ (by simp; omega)]
    rfl
  · simp at h

example : ∃ b n, packData false true (.ints [5, -7, 100000]) 64 11 = .ok (b, n) ∧ n = 3 ∧
    decodeData false true b 64 11 3 12 = .ok (.ints [5, -7, 100000]) := by
  refine ⟨_, _, rfl, ?_⟩; decide +kernel

end Verif.Props.Samples
