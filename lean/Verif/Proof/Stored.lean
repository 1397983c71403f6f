import Verif.Proof.RecordListPoint
import Verif.Props.StoredDefs
import Verif.Props.Samples
/-!
# Lemmas about the samples that the data of a record holds
-/
namespace Verif.Proof.Stored
open Verif.Model Verif.Model.Bytes Verif.Model.Steim Verif.Model.Samples Verif.Model.Mem Verif.Model.Record3
open Verif.Spec.Samples Verif.Spec.Steim
open Verif.Proof.Samples hiding bind_ok
open Verif.Proof.Steim Verif.Proof.Mem Verif.Proof.RecordList Verif.Props.Stored Verif.Props.Samples Verif.Props.Steim

theorem group_take (w n i : Nat) (b : List UInt8) (h : i < n) : group w i (b.take (w * n)) = group w i b := by
  unfold group
  rw [List.drop_take, List.take_take, Nat.min_eq_left]
  have : w * (i + 1) ≤ w * n := Nat.mul_le_mul_left w h
  rw [Nat.mul_add] at this
  omega

theorem patterns_take (be : Bool) (w n : Nat) (b : List UInt8) : patterns be w n (b.take (w * n)) = patterns be w n b := by
  unfold patterns
  refine List.map_congr_left fun i hi => ?_
  rw [group_take w n i b (List.mem_range.1 hi)]

theorem ints_take (be : Bool) (w n : Nat) (b : List UInt8) :
    Spec.Samples.ints be w n (b.take (w * n)) = Spec.Samples.ints be w n b := by
  unfold Spec.Samples.ints
  refine List.map_congr_left fun i hi => ?_
  rw [group_take w n i b (List.mem_range.1 hi)]

theorem finish_ok {α : Type} {n : Nat} {mk : List α → Samples} {r : Res (List α)} {v : List α} (e : r = .ok v)
    (h : v.length = n) : finish n mk r = .ok (mk v) := by
  unfold finish
  rw [e, bind_ok, if_pos h]

theorem mapM_length {f : Nat → Option Int} : ∀ {l : List Nat} {v : List Int}, l.mapM f = some v → v.length = l.length
  | [], v, h => by simp at h; subst h; rfl
  | a :: l, v, h => by
    simp only [List.mapM_cons] at h
    cases h1 : f a with
    | none => simp [h1] at h
    | some x =>
      cases h2 : l.mapM f with
      | none => simp [h1, h2] at h
      | some y =>
        simp [h1, h2] at h
        subst h
        simp [mapM_length h2]

/-- Decoding exactly the bytes used gives the samples. -/
theorem stored_decode {h sw : Bool} {n enc used : Nat} {b : List UInt8} {s : Samples} (hn : 1 ≤ n) (hm : n < 2 ^ 31)
    (hs : Stored (dataOrder h sw) n b enc used s) :
    used ≤ b.length ∧ decodeData h sw (b.take used) used enc n (n * decodedSampleSize enc) = .ok s ∧
      (∃ x, encodingSizeType enc = some (decodedSampleSize enc, x)) ∧ enc < 256 ∧ n * decodedSampleSize enc < 2 ^ 64 := by
  have start : ∀ e, n * decodedSampleSize e < 2 ^ 64 →
      decodeData h sw (b.take used) used e n (n * decodedSampleSize e) =
        decodeBy h sw (b.take used) used n (n * decodedSampleSize e) e := by
    intro e he
    unfold decodeData
    rw [if_neg (by omega), Nat.mod_eq_of_lt he, if_neg (by omega)]
  have two : ∀ {α : Type} (f : Nat → α), ((patterns (dataOrder h sw) 2 n b).map f).length = n := by
    intro α f; simp [patterns]
  cases hs with
  | text hl =>
    have d : decodedSampleSize 0 = 1 := rfl
    refine ⟨hl, ?_, ⟨_, rfl⟩, by omega, by rw [d]; omega⟩
    rw [start 0 (by rw [d]; omega)]
    show (if (b.take n).length < n then _ else Res.ok (Samples.text ((b.take n).take n))) = _
    rw [if_neg (by rw [List.length_take]; omega), List.take_take, Nat.min_self]
  | int16 hl =>
    have d : decodedSampleSize 1 = 4 := rfl
    have ht : (b.take (2 * n)).length = 2 * n := by rw [List.length_take]; omega
    refine ⟨hl, ?_, ⟨_, rfl⟩, by omega, by rw [d]; omega⟩
    rw [start 1 (by rw [d]; omega), d]
    refine finish_ok ?_ (by simp [Spec.Samples.ints])
    unfold decodeInt16
    rw [if_neg (by omega), if_neg (by omega), decLoop_ok 2 4 _ (fun b => signed 16 (num (dataOrder h sw) b))
      (by
        intro b hbl
        rw [num_eq_host, sext_eq _ _ (num_lt16 _ b hbl)]
        rfl) n _ _ (by omega) (by omega)]
    exact congrArg _ (ints_take (dataOrder h sw) 2 n b)
  | int32 hl =>
    have d : decodedSampleSize 3 = 4 := rfl
    have ht : (b.take (4 * n)).length = 4 * n := by rw [List.length_take]; omega
    refine ⟨hl, ?_, ⟨_, rfl⟩, by omega, by rw [d]; omega⟩
    rw [start 3 (by rw [d]; omega), d]
    refine finish_ok ?_ (by simp [Spec.Samples.ints])
    unfold decodeInt32
    rw [if_neg (by omega), if_neg (by omega), decLoop_ok 4 4 _ (fun b => signed 32 (num (dataOrder h sw) b))
      (by
        intro b hbl
        rw [num_eq_host, sext_eq _ _ (num_lt32 _ b hbl)]
        rfl) n _ _ (by omega) (by omega)]
    exact congrArg _ (ints_take (dataOrder h sw) 4 n b)
  | float32 hl =>
    have d : decodedSampleSize 4 = 4 := rfl
    have ht : (b.take (4 * n)).length = 4 * n := by rw [List.length_take]; omega
    refine ⟨hl, ?_, ⟨_, rfl⟩, by omega, by rw [d]; omega⟩
    rw [start 4 (by rw [d]; omega), d]
    refine finish_ok ?_ (by simp [patterns])
    unfold decodeFloat32
    rw [if_neg (by omega), if_neg (by omega), decLoop_ok 4 4 _ (fun b => num (dataOrder h sw) b)
      (by
        intro b hbl
        rw [num_eq_host]
        rfl) n _ _ (by omega) (by omega)]
    exact congrArg _ (patterns_take (dataOrder h sw) 4 n b)
  | float64 hl =>
    have d : decodedSampleSize 5 = 8 := rfl
    have ht : (b.take (8 * n)).length = 8 * n := by rw [List.length_take]; omega
    refine ⟨hl, ?_, ⟨_, rfl⟩, by omega, by rw [d]; omega⟩
    rw [start 5 (by rw [d]; omega), d]
    refine finish_ok ?_ (by simp [patterns])
    unfold decodeFloat64
    rw [if_neg (by omega), if_neg (by omega), decLoop_ok 8 8 _ (fun b => num (dataOrder h sw) b)
      (by
        intro b hbl
        rw [num_eq_host]
        rfl) n _ _ (by omega) (by omega)]
    exact congrArg _ (patterns_take (dataOrder h sw) 8 n b)
  | steim1 k out hk hl hd hc h32 =>
    have d : decodedSampleSize 10 = 4 := rfl
    have ht : (b.take (64 * k)).length = 64 * k := by rw [List.length_take]; omega
    refine ⟨hl, ?_, ⟨_, rfl⟩, by omega, by rw [d]; omega⟩
    rw [start 10 (by rw [d]; omega), d]
    refine finish_ok ?_ hc
    obtain ⟨x, e1, e2, -⟩ := (C58_decoders_implement_format h sw (b.take (64 * k)) n (n * 4) (by omega) hn (by omega)
      (by omega)).1 out hd h32
    rw [ht] at e1
    rw [e1, bind_ok, e2]
  | steim2 k out hk hl hd hc h32 =>
    have d : decodedSampleSize 11 = 4 := rfl
    have ht : (b.take (64 * k)).length = 64 * k := by rw [List.length_take]; omega
    refine ⟨hl, ?_, ⟨_, rfl⟩, by omega, by rw [d]; omega⟩
    rw [start 11 (by rw [d]; omega), d]
    refine finish_ok ?_ hc
    obtain ⟨x, e1, e2, -⟩ := (C58_decoders_implement_format h sw (b.take (64 * k)) n (n * 4) (by omega) hn (by omega)
      (by omega)).2.1 out hd h32
    rw [ht] at e1
    rw [e1, bind_ok, e2]
  | geoscope24 hb hl =>
    have d : decodedSampleSize 12 = 4 := rfl
    have ht : (b.take (3 * n)).length = 3 * n := by rw [List.length_take]; omega
    refine ⟨hl, ?_, ⟨_, rfl⟩, by omega, by rw [d]; omega⟩
    rw [start 12 (by rw [d]; omega), d]
    refine finish_ok ?_ (by simp [patterns])
    have hsw : sw = !h := by cases h <;> cases sw <;> simp_all [dataOrder]
    subst hsw
    rw [hb, C25_geoscope24_partial h _ n _ hn (by omega) (by omega), patterns_take]
  | geoscope163 hl =>
    have d : decodedSampleSize 13 = 4 := rfl
    have ht : (b.take (2 * n)).length = 2 * n := by rw [List.length_take]; omega
    refine ⟨hl, ?_, ⟨_, rfl⟩, by omega, by rw [d]; omega⟩
    rw [start 13 (by rw [d]; omega), d]
    refine finish_ok ?_ (two _)
    rw [(C25_geoscope16 h sw _ n _ hn (by omega) (by omega)).1, codeWords, patterns_take]
  | geoscope164 hl =>
    have d : decodedSampleSize 14 = 4 := rfl
    have ht : (b.take (2 * n)).length = 2 * n := by rw [List.length_take]; omega
    refine ⟨hl, ?_, ⟨_, rfl⟩, by omega, by rw [d]; omega⟩
    rw [start 14 (by rw [d]; omega), d]
    refine finish_ok ?_ (two _)
    rw [(C25_geoscope16 h sw _ n _ hn (by omega) (by omega)).2.1, codeWords, patterns_take]
  | cdsn hl =>
    have d : decodedSampleSize 16 = 4 := rfl
    have ht : (b.take (2 * n)).length = 2 * n := by rw [List.length_take]; omega
    refine ⟨hl, ?_, ⟨_, rfl⟩, by omega, by rw [d]; omega⟩
    rw [start 16 (by rw [d]; omega), d]
    refine finish_ok ?_ (two _)
    rw [C25_cdsn h sw _ n _ hn (by omega) (by omega), codeWords, patterns_take]
  | sro out hl hd =>
    have d : decodedSampleSize 30 = 4 := rfl
    have ht : (b.take (2 * n)).length = 2 * n := by rw [List.length_take]; omega
    refine ⟨hl, ?_, ⟨_, rfl⟩, by omega, by rw [d]; omega⟩
    rw [start 30 (by rw [d]; omega), d]
    refine finish_ok ?_ (by rw [mapM_length hd]; simp [patterns])
    rw [C25_sro h sw _ n _ hn (by omega) (by omega), codeWords, patterns_take, hd]
  | dwwssn hl =>
    have d : decodedSampleSize 32 = 4 := rfl
    have ht : (b.take (2 * n)).length = 2 * n := by rw [List.length_take]; omega
    refine ⟨hl, ?_, ⟨_, rfl⟩, by omega, by rw [d]; omega⟩
    rw [start 32 (by rw [d]; omega), d]
    refine finish_ok ?_ (two _)
    rw [C25_dwwssn h sw _ n _ hn (by omega) (by omega), codeWords, patterns_take]

theorem trim_keeps {mem : List UInt8} {k : Nat} : ∀ n, 64 * n ≤ mem.length →
    (∃ i, k ≤ i + 1 ∧ i < n ∧ ∃ x ∈ (mem.drop (64 * i)).take 64, x ≠ 0) →
    ∃ s, trimFrames mem n = .ok s ∧ 64 * k ≤ s ∧ s ≤ 64 * n
  | 0, _, ⟨_, _, h, _⟩ => by omega
  | n + 1, hl, ⟨i, hk, hi, hz⟩ => by
    unfold trimFrames
    have hp : peek mem (64 * n) 64 = .ok ((mem.drop (64 * n)).take 64) := by
      unfold peek; rw [if_pos (by omega)]
    rw [hp, bind_ok]
    split
    · next ha =>
      by_cases e : i = n
      · exfalso
        obtain ⟨x, hx, hne⟩ := hz
        rw [e] at hx
        exact hne (by simpa using List.all_eq_true.1 ha x hx)
      · obtain ⟨s, h1, h2, h3⟩ := trim_keeps (k := k) n (by omega) ⟨i, hk, by omega, hz⟩
        exact ⟨s, h1, h2, by omega⟩
    · exact ⟨_, rfl, by omega, by omega⟩

theorem nonzero_block {mem : List UInt8} {k n : Nat} (hk : 1 ≤ k) (hl : 64 * n ≤ mem.length)
    (hz : ∃ x ∈ (mem.take (64 * n)).drop (64 * k - 64), x ≠ 0) :
    ∃ i, k ≤ i + 1 ∧ i < n ∧ ∃ x ∈ (mem.drop (64 * i)).take 64, x ≠ 0 := by
  obtain ⟨x, hx, hne⟩ := hz
  obtain ⟨p, hp, rfl⟩ := List.mem_iff_getElem.1 hx
  have hlt := hp
  rw [List.length_drop, List.length_take, Nat.min_eq_left hl] at hlt
  refine ⟨(64 * k - 64 + p) / 64, by omega, by omega, _, ?_, hne⟩
  rw [List.getElem_drop, List.getElem_take]
  refine List.mem_iff_getElem.2 ⟨(64 * k - 64 + p) % 64, ?_, ?_⟩
  · rw [List.length_take, List.length_drop]; omega
  · rw [List.getElem_take, List.getElem_drop]
    congr 1
    omega

/-- Where the data is and how much of it there is. -/
theorem bounds {h : Bool} {m : Msr} {mem t b : List UInt8} {off n enc used : Nat} {be : Bool} {s : Samples}
    (hoff : (if m.formatversion = 3 then
        .ok ((40 + strlen m.sid + m.extra.length) % 2 ^ 32, m.datalength)
      else if m.formatversion = 2 then
        (load h m.swapHeader mem 44 2).bind fun off => .ok (off, bits 32 (m.reclen - off))
      else .err : Res (Nat × Nat)) = .ok (off, b.length))
    (hmem : mem.drop off = b ++ t) (hn : m.samplecnt = (n : Int)) (h31 : n < 2 ^ 31) (he : m.encoding = (enc : Int))
    (hs : Stored be n b enc used s) (hu : used ≤ b.length) (hf : Sized mem b enc used) :
    ∃ size, dataBounds h m mem = .ok (off, size) ∧ size ≤ b.length ∧ used ≤ size := by
  have hlen : b.length ≤ mem.length := by
    have := congrArg List.length hmem
    rw [List.length_drop, List.length_append] at this
    omega
  unfold dataBounds
  rw [hoff, bind_ok]
  simp only
  have small : ∀ w : Nat, w ≤ 8 → bits 64 ((n : Int) * w) = w * n := by
    intro w hw
    have e : ((n : Int) * w) = ((w * n : Nat) : Int) := by rw [Int.natCast_mul, Int.mul_comm]
    have : w * n ≤ 8 * n := Nat.mul_le_mul_right n hw
    rw [e]
    unfold bits
    rw [Int.emod_eq_of_lt (by omega) (by omega)]
    rfl
  have fixed : ∀ w : Nat, w ≤ 8 → fixedBytes m.encoding = some w → enc ∈ [0, 1, 3, 4, 5] → used = w * n →
      sampleBytes m.encoding m.samplecnt b.length = used := by
    intro w hw h1 h2 h3
    unfold sampleBytes
    rw [h1, hn]
    simp only
    rw [small w hw, ← h3]
    have := hf.fixed h2
    split <;> omega
  have plain : fixedBytes m.encoding = none → sampleBytes m.encoding m.samplecnt b.length = b.length := by
    intro h1
    unfold sampleBytes
    rw [h1]
  by_cases hst : enc = 10 ∨ enc = 11
  · have hp : sampleBytes m.encoding m.samplecnt b.length = b.length := by
      refine plain ?_
      rw [he]
      rcases hst with e | e <;> rw [e] <;> decide
    rw [hp]
    obtain ⟨k, hk, hku⟩ : ∃ k, 1 ≤ k ∧ used = 64 * k := by
      cases hs <;> first
        | (exact ⟨_, by assumption, rfl⟩)
        | (exfalso; omega)
    split
    · next hc =>
      obtain ⟨size, h1, h2, h3⟩ := trim_keeps (mem := mem) (k := k) (b.length / 64) (by omega)
        (nonzero_block hk (by omega) (by
          rw [show 64 * (b.length / 64) = b.length by omega, ← hku]
          exact hf.steim hst (Nat.dvd_of_mod_eq_zero hc.1)))
      exact ⟨size, by rw [h1, bind_ok], by omega, by omega⟩
    · exact ⟨_, rfl, Nat.le_refl _, hu⟩
  · rw [if_neg (by rw [he]; omega)]
    refine ⟨_, rfl, ?_⟩
    cases hs <;> first
      | (exfalso; omega)
      | (rw [fixed 1 (by omega) (by rw [he]; decide) (by simp) (by omega)]; exact ⟨hu, Nat.le_refl _⟩)
      | (rw [fixed 2 (by omega) (by rw [he]; decide) (by simp) (by omega)]; exact ⟨hu, Nat.le_refl _⟩)
      | (rw [fixed 4 (by omega) (by rw [he]; decide) (by simp) (by omega)]; exact ⟨hu, Nat.le_refl _⟩)
      | (rw [fixed 8 (by omega) (by rw [he]; decide) (by simp) (by omega)]; exact ⟨hu, Nat.le_refl _⟩)
      | (rw [plain (by rw [he]; decide)]; exact ⟨Nat.le_refl _, hu⟩)

/-- Unpacking the data of a record gives the samples it holds. -/
theorem unpack_stored {h : Bool} {m : Msr} {mem t b : List UInt8} {off n enc used : Nat} {s : Samples} (align : Nat)
    (hoff : (if m.formatversion = 3 then
        .ok ((40 + strlen m.sid + m.extra.length) % 2 ^ 32, m.datalength)
      else if m.formatversion = 2 then
        (load h m.swapHeader mem 44 2).bind fun off => .ok (off, bits 32 (m.reclen - off))
      else .err : Res (Nat × Nat)) = .ok (off, b.length))
    (hmem : mem.drop off = b ++ t) (hn : m.samplecnt = (n : Int)) (h0 : 1 ≤ n) (h31 : n < 2 ^ 31)
    (he : m.encoding = (enc : Int)) (hs : Stored (dataOrder h m.swapPayload) n b enc used s) (hf : Sized mem b enc used)
    (hr : 40 ≤ m.reclen ∧ m.reclen ≤ 10485760) (ho : 40 ≤ off ∧ (off : Int) < m.reclen)
    (hml : off ≤ mem.length) :
    unpackData h align m mem = .ok s := by
  obtain ⟨hu, hd, ⟨x, ht⟩, h256, h64⟩ := stored_decode h0 h31 hs
  obtain ⟨size, hb, hle, hge⟩ := bounds hoff hmem hn h31 he hs hu hf
  have hlen : off + b.length ≤ mem.length := by
    have := congrArg List.length hmem
    rw [List.length_drop, List.length_append] at this
    omega
  unfold unpackData
  rw [if_neg (by omega), if_neg (by omega), if_neg (by omega), hb, bind_ok]
  simp only
  rw [if_neg (by omega), if_neg (by omega), he]
  have hbits : bits 8 (enc : Int) = enc := by
    unfold bits
    rw [Int.emod_eq_of_lt (by omega) (by omega)]
    rfl
  rw [hbits, ht, hn]
  simp only [Int.toNat_natCast]
  have more : ∀ c, decodeData h m.swapPayload (b.take used ++ c) size enc n (n * decodedSampleSize enc) = .ok s :=
    fun c => decodeData_longer _ _ _ c used size enc n _ _ _ (fun _ => hge) h0
      (by rw [Nat.mod_eq_of_lt h64]; exact Nat.le_refl _) hd
  unfold encodedMem
  split
  · have hp : peek mem off size = .ok ((mem.drop off).take size) := by
      unfold peek; rw [if_pos (by omega)]
    rw [hp, bind_ok, hmem, List.take_append_of_le_length hle]
    have e : b.take size = b.take used ++ (b.take size).drop used := by
      conv => lhs; rw [← List.take_append_drop used (b.take size)]
      rw [List.take_take, Nat.min_eq_left hge]
    rw [e]
    exact more _
  · rw [bind_ok, hmem, ← List.take_append_drop used b, List.append_assoc]
    exact more _

end Verif.Proof.Stored
