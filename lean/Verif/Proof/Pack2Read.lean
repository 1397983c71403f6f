import Verif.Proof.Pack2
/-!
# Lemmas about reading the samples of packed version 2 records
-/
namespace Verif.Proof.Pack2
open Verif.Model Verif.Model.Bytes Verif.Model.Steim Verif.Model.Samples Verif.Model.Mem
  Verif.Model.Record3 Verif.Model.Pack Verif.Model.Pack2
open Verif.Model.Record2 (Env Header)
open Verif.Spec Verif.Spec.Record2 Verif.Spec.Detect
open Verif.Proof.Mem Verif.Proof.Record2
open Verif.Proof.Steim (order)
open Verif.Proof.Pack (stored Stored order_swap)
open Verif.Props.Samples

/-! ## More frames than needed -/

theorem decFrames_more (h s : Bool) (dec : Nat → List UInt8 → List Int → Res (List Int))
    (input : List UInt8) (cnt cap k : Nat) : ∀ n idx out xn o x,
    decFrames h s dec input cnt cap n idx out xn = .ok (o, x) → cnt ≤ o.length →
    decFrames h s dec input cnt cap (n + k) idx out xn = .ok (o, x) := by
  intro n
  induction n with
  | zero =>
    intro idx out xn o x he hl
    simp only [decFrames, Res.ok.injEq, Prod.mk.injEq] at he
    obtain ⟨rfl, rfl⟩ := he
    rw [Nat.zero_add]
    cases k with
    | zero => rfl
    | succ k => rw [decFrames, if_neg (by omega)]
  | succ n ih =>
    intro idx out xn o x he hl
    rw [show n + 1 + k = (n + k) + 1 by omega]
    rw [decFrames] at he ⊢
    split
    · next h1 =>
      rw [if_pos h1] at he
      split
      · next h2 => rw [if_pos h2] at he; exact he
      · next h2 =>
        rw [if_neg h2] at he
        simp only at he ⊢
        split
        · next h3 =>
          rw [if_pos h3] at he
          split
          · next h4 => rw [if_pos h4] at he; exact he
          · next h4 =>
            rw [if_neg h4] at he
            obtain ⟨df, e1, he⟩ := bind_eq_ok.1 he
            obtain ⟨o2, e2, he⟩ := bind_eq_ok.1 he
            rw [e1, bind_ok, e2, bind_ok]
            exact ih _ _ _ _ _ he hl
        · next h3 =>
          rw [if_neg h3] at he
          obtain ⟨df, e1, he⟩ := bind_eq_ok.1 he
          obtain ⟨o2, e2, he⟩ := bind_eq_ok.1 he
          rw [e1, bind_ok, e2, bind_ok]
          exact ih _ _ _ _ _ he hl
    · next h1 => rw [if_neg h1] at he; exact he

theorem decode_more (h s : Bool) (dec : Nat → List UInt8 → List Int → Res (List Int))
    (input : List UInt8) (len len' cnt out : Nat) (d : Decoded) (hl : len ≤ len') (hc : 1 ≤ cnt)
    (he : decode h s dec input len cnt out = .ok d) (hd : d.output.length = cnt) :
    decode h s dec input len' cnt out = .ok d := by
  unfold decode at he ⊢
  split at he
  · injection he with he
    subst he
    simp at hd
    omega
  · next h1 =>
    have h2 : ¬ len' / 64 = 0 := by omega
    rw [if_neg h2]
    split at he
    · cases he
    · next h3 =>
      rw [if_neg h3]
      split at he
      · cases he
      · next h4 =>
        rw [if_neg h4]
        obtain ⟨⟨o, x⟩, e1, e2⟩ := bind_eq_ok.1 he
        simp only at e2
        have hlen : o.length = cnt := by
          split at e2
          · assumption
          · injection e2 with e2
            subst e2
            exact hd
        have hm := decFrames_more h s dec input cnt (out / 4) (len' / 64 - len / 64) _ _ _ _ _ _ e1
          (by omega)
        rw [show len / 64 + (len' / 64 - len / 64) = len' / 64 by omega] at hm
        rw [hm, bind_ok]
        exact e2

theorem decodeData_more (h s : Bool) (mem : List UInt8) (len len' enc cnt out : Nat) (src : Samples)
    (henc : enc = 10 ∨ enc = 11) (hl : len ≤ len') (hc : 1 ≤ cnt)
    (he : decodeData h s mem len enc cnt out = .ok src) :
    decodeData h s mem len' enc cnt out = .ok src := by
  unfold decodeData at he ⊢
  rw [if_neg (by omega)] at he ⊢
  split at he
  · cases he
  · next h1 =>
    rw [if_neg h1]
    have key : ∀ dec, finish cnt Samples.ints
        ((decode h s dec mem len cnt (cnt * decodedSampleSize enc % 2 ^ 64)).bind
          fun d => .ok d.output) = .ok src →
        finish cnt Samples.ints
        ((decode h s dec mem len' cnt (cnt * decodedSampleSize enc % 2 ^ 64)).bind
          fun d => .ok d.output) = .ok src := by
      intro dec hf
      unfold finish at hf ⊢
      obtain ⟨o, e1, e2⟩ := bind_eq_ok.1 hf
      obtain ⟨d, e3, e4⟩ := bind_eq_ok.1 e1
      injection e4 with e4
      subst e4
      have hd : d.output.length = cnt := by
        split at e2
        · assumption
        · cases e2
      rw [decode_more h s dec mem len len' cnt _ d hl hc e3 hd, bind_ok, bind_ok]
      exact e2
    rcases henc with rfl | rfl
    · exact key _ he
    · exact key _ he

theorem trim_spec (mem : List UInt8) : ∀ n, 64 * n ≤ mem.length →
    ∃ k, trimFrames mem n = .ok (64 * k) ∧ k ≤ n ∧
      ∀ j, j < n → (∃ i b, i < 64 ∧ mem[64 * j + i]? = some b ∧ b ≠ 0) → j < k := by
  intro n
  induction n with
  | zero => intro _; exact ⟨0, rfl, by omega, by omega⟩
  | succ n ih =>
    intro hl
    rw [trimFrames, peek_ok (by omega), bind_ok]
    split
    · next hall =>
      obtain ⟨k, k1, k2, k3⟩ := ih (by omega)
      refine ⟨k, k1, by omega, ?_⟩
      intro j hj hex
      by_cases hjn : j = n
      · subst hjn
        obtain ⟨i, b, hi, hb, hne⟩ := hex
        rw [List.all_eq_true] at hall
        have := hall b (by
          apply List.mem_of_getElem? (i := i)
          rw [List.getElem?_take_of_lt hi, List.getElem?_drop, hb])
        exact absurd (by simpa using this) hne
      · exact k3 j (by omega) hex
    · exact ⟨n + 1, rfl, by omega, fun j hj _ => hj⟩

/-- The decoder gets the samples of a record from the place of its data. -/
theorem unpackData2 (env : Env) (h h2 sw : Bool) (align : Nat) (r : Rec) (v : r.Valid)
    (hs : List Header) (hbe : r.be = true) (hd : r.dataBE = true) (pre data fill t : List UInt8)
    (hb : r.bytes = pre ++ (data ++ fill)) (ho : pre.length = r.dataoffset) (h40 : 40 ≤ r.dataoffset)
    (enc : Nat) (henc : (msr2 env h2 r hs).encoding = (enc : Int)) (src : Samples) (max : Nat)
    (hrep : representable src enc) (hpos : 1 ≤ src.count) (h64 : src.count * 8 < 2 ^ 64)
    (hord : order h sw = true) (hp : packData h sw src max enc = .ok (data, r.numsamples))
    (hfix : enc ≠ 10 → enc ≠ 11 → data.length < 65536)
    (hnz : enc = 10 ∨ enc = 11 → ∃ j i b, data.length ≤ 64 * (j + 1) ∧
      64 * (j + 1) ≤ r.bytes.length - r.dataoffset ∧ i < 64 ∧ r.bytes[64 * j + i]? = some b ∧ b ≠ 0) :
    unpackData h2 align (msr2 env h2 r hs) (r.bytes ++ t) = .ok (first r.numsamples src) := by
  have hst := stored h sw src max enc data r.numsamples hrep hpos hp
  have hn1 := hst.pos
  have hlen := v.length
  have hns := v.numsamples
  have hbl : r.bytes.length = r.dataoffset + (data.length + fill.length) := by
    rw [hb, List.length_append, List.length_append, ho]
  have henc' : enc ∈ [0, 1, 3, 4, 5, 10, 11] := by
    revert hrep
    generalize enc = e
    intro hrep
    unfold representable at hrep
    split at hrep <;> simp_all
  have hdl : 1 ≤ data.length := by
    by_cases he : enc = 10 ∨ enc = 11
    · have := (hst.frames he).2.1; omega
    · rw [hst.fixed (by omega) (by omega)]
      have : 1 ≤ storedSize enc := by unfold storedSize; grind
      exact Nat.mul_pos this hn1
  have hmem : r.bytes ++ t = pre ++ (data ++ (fill ++ t)) := by
    rw [hb]; simp only [List.append_assoc]
  have hfm : r.bytes ++ t = r.fixed ++ (chainBytes r.be 48 r.chain ++ (r.rest ++ t)) := by
    simp [Rec.bytes]
  have hld : load h2 (true != h2) (r.bytes ++ t) 44 2 = .ok r.dataoffset := by
    rw [hfm, ← hbe]; exact ld_dataoffset h2 r v _
  -- the bounds of the data
  have hdb : ∃ size, dataBounds h2 (msr2 env h2 r hs) (r.bytes ++ t) = .ok (r.dataoffset, size) ∧
      data.length ≤ size ∧ size ≤ data.length + fill.length ∧
      (enc ≠ 10 → enc ≠ 11 → size = data.length) := by
    unfold dataBounds
    have e1 : (msr2 env h2 r hs).formatversion = 2 := rfl
    have e2 : (msr2 env h2 r hs).swapHeader = (true != h2) := by rw [← hbe]; rfl
    have e3 : (msr2 env h2 r hs).reclen = r.bytes.length := rfl
    have e4 : (msr2 env h2 r hs).samplecnt = r.numsamples := rfl
    rw [e1, e2, e3, e4, henc, if_neg (by omega), if_pos rfl, hld, bind_ok, bind_ok]
    simp only
    have eb : bits 32 ((r.bytes.length : Int) - (r.dataoffset : Nat)) = data.length + fill.length := by
      unfold bits; rw [hbl]; omega
    rw [eb]
    by_cases he : enc = 10 ∨ enc = 11
    · have e5 : sampleBytes (enc : Int) (r.numsamples : Int) (data.length + fill.length) =
          data.length + fill.length := by
        rcases he with e | e <;> rw [e] <;> rfl
      rw [e5]
      split
      · obtain ⟨k, k1, k2, k3⟩ := trim_spec (r.bytes ++ t) ((data.length + fill.length) / 64)
          (by rw [List.length_append]; omega)
        rw [k1, bind_ok]
        refine ⟨_, rfl, ?_, by omega, by omega⟩
        obtain ⟨j, i, b, j1, j2, hi, hbi, hne⟩ := hnz he
        have := k3 j (by omega) ⟨i, b, hi, by
          rw [List.getElem?_append_left]
          · exact hbi
          · exact (List.getElem?_eq_some_iff.1 hbi).1, hne⟩
        omega
      · exact ⟨_, rfl, by omega, by omega, by omega⟩
    · rw [if_neg (by omega)]
      have hf := hst.fixed (by omega) (by omega)
      have h65 := hfix (by omega) (by omega)
      have key : ∀ k : Nat, k ≤ 8 → data.length = k * r.numsamples →
          (if bits 64 ((r.numsamples : Int) * (k : Nat)) < data.length + fill.length then
            bits 64 ((r.numsamples : Int) * (k : Nat)) % 2 ^ 16 else data.length + fill.length)
            = data.length := by
        intro k hk hkn
        have hb64 : bits 64 ((r.numsamples : Int) * (k : Nat)) = k * r.numsamples := by
          have h8 : k * r.numsamples ≤ 8 * r.numsamples := Nat.mul_le_mul_right _ hk
          unfold bits
          rw [show (r.numsamples : Int) * (k : Nat) = ((k * r.numsamples : Nat) : Int) by
            rw [Nat.mul_comm]; simp]
          generalize k * r.numsamples = z at *
          omega
        rw [hb64, ← hkn]
        split <;> omega
      have e5 : sampleBytes (enc : Int) (r.numsamples : Int) (data.length + fill.length) =
          data.length := by
        unfold sampleBytes
        simp only [List.mem_cons, List.not_mem_nil, or_false] at henc'
        have hc : enc = 0 ∨ enc = 1 ∨ enc = 3 ∨ enc = 4 ∨ enc = 5 := by omega
        rcases hc with e | e | e | e | e <;> rw [e] at hf ⊢
        · exact key 1 (by omega) (by simpa [storedSize] using hf)
        · exact key 2 (by omega) (by simpa [storedSize] using hf)
        · exact key 4 (by omega) (by simpa [storedSize] using hf)
        · exact key 4 (by omega) (by simpa [storedSize] using hf)
        · exact key 8 (by omega) (by simpa [storedSize] using hf)
      rw [e5]
      exact ⟨_, rfl, by omega, by omega, fun _ _ => rfl⟩
  obtain ⟨size, hdb, s1, s2, s3⟩ := hdb
  unfold unpackData
  have hc : (msr2 env h2 r hs).samplecnt = r.numsamples := rfl
  have hr : (msr2 env h2 r hs).reclen = r.bytes.length := rfl
  have hsw : (msr2 env h2 r hs).swapPayload = !h2 := by
    show (r.dataBE != h2) = !h2
    rw [hd]; cases h2 <;> rfl
  rw [hdb, hc, hr, henc, hsw, if_neg (by omega), if_neg (by omega), if_neg (by omega), bind_ok]
  simp only
  rw [if_neg (by omega)]
  have e1 : (if (enc : Int) < 0 then 10 else bits 8 (enc : Int)) = enc := by
    rw [if_neg (by omega)]
    unfold bits
    have : enc < 256 := by
      simp only [List.mem_cons, List.not_mem_nil, or_false] at henc'; omega
    omega
  rw [e1]
  obtain ⟨ss, ty, hty⟩ : ∃ ss ty, encodingSizeType enc = some (ss, ty) := by
    simp only [List.mem_cons, List.not_mem_nil, or_false] at henc'
    rcases henc' with e | e | e | e | e | e | e <;> rw [e] <;> exact ⟨_, _, rfl⟩
  rw [hty]
  simp only
  have hdrop : (r.bytes ++ t).drop r.dataoffset = data ++ (fill ++ t) := by
    rw [hmem]; exact List.drop_left' ho
  have hdss : decodedSampleSize enc = ss := by unfold decodedSampleSize; rw [hty]
  have dec := (C61_pack_decode h sw h2 (!h2) src max enc data r.numsamples (by
      rw [show Verif.Props.Steim.dataOrder h2 (!h2) = true from order_swap h2,
        show Verif.Props.Steim.dataOrder h sw = order h sw from rfl, hord]; simp) hrep h64 hp).2.2 hn1
  have hen2 : ∀ m, decodeData h2 (!h2) (data ++ m) size enc (r.numsamples : Int).toNat
      ((r.numsamples : Int).toNat * ss) = .ok (first r.numsamples src) := by
    intro m
    rw [Int.toNat_natCast]
    have d1 := dec m (r.numsamples * ss) (by rw [hdss]; exact Nat.le_refl _)
    by_cases he : enc = 10 ∨ enc = 11
    · exact decodeData_more _ _ _ _ _ _ _ _ _ he s1 hn1 d1
    · rw [s3 (by omega) (by omega)]; exact d1
  unfold encodedMem
  split
  · rw [peek_ok (by rw [List.length_append]; omega), bind_ok, hdrop,
      show size = data.length + (size - data.length) by omega, List.take_length_add_append]
    rw [← show size = data.length + (size - data.length) by omega]
    exact hen2 _
  · rw [bind_ok, hdrop]
    exact hen2 _

end Verif.Proof.Pack2
