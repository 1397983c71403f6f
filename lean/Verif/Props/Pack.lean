import Verif.Proof.PackRead
/-!
# Packing samples into version 3 records (C31, C32, C65, C66)

The packer `msr3_pack` (version 3), followed by the parser: what a reader gets from the records
handed to the record handler.  The terms are defined in `Verif.Props.PackDefs`.  `rounds`, the bound
on the number of rounds of the loop in the model, is one more than the number of samples, and the
theorems show that this is enough.
-/
namespace Verif.Props.Pack
open Verif.Model Verif.Model.Bytes Verif.Model.Steim Verif.Model.Samples Verif.Model.Mem
  Verif.Model.Record3 Verif.Model.Pack
open Verif.Spec Verif.Spec.Record3
open Verif.Spec.Steim (isInt32)
open Verif.Proof.Mem Verif.Proof.Record3 Verif.Proof.Repack Verif.Proof.PackRead
open Verif.Proof.Pack hiding unit
open Verif.Props.Samples Verif.Props.Record3

/-- **C31**, any samples: the packer ends after at most as many rounds as there are samples, and
unless a difference of Steim-encoded samples overflows 32 bits (undefined behaviour, C59), the records
divide a first part of the samples, which is reported as packed, into consecutive runs; each record is
within the maximum length and is read back as its run of samples.  The result is -1, or the number of
records, and then with flush all samples are packed.  Missing: 2^32 or more samples, for which the
claim fails (`C31_endless_violated`). -/
theorem C31_packed_prefix_partial (nr : Nat → Nat) (sampletime : Int → Nat → Nat → Out Int) (h : Bool)
    (m : Msr) (flush : Bool) (junk : List UInt8) (i : Input nr sampletime m)
    (hroom : 40 + m.sid.length + m.extra.length ≤ (packReclen m.reclen).toNat)
    (hj : (packReclen m.reclen).toNat - 40 ≤ junk.length) :
    (∃ p, msrPack nr sampletime h m flush junk (m.samples.count + 1) = .ok p ∧
      Divides (fun off n r => Reads r (fun m' => m'.samples = slice off n m.samples ∧ m'.samplecnt = n) ∧
        (r.length : Int) ≤ packReclen m.reclen) 0 p.records p.packed ∧
      ((p.ret = -1 ∧ p.packed < m.samples.count) ∨
        (p.ret = p.records.length ∧ (flush = true → p.packed = m.samples.count)))) ∨
    (msrPack nr sampletime h m flush junk (m.samples.count + 1) = .ub ∧
      packEncoding m.encoding ∈ [10, 11] ∧ ∃ d ∈ steps m.samples, ¬ isInt32 d) := by
  rcases packed_records nr sampletime h m flush junk i hroom hj with ⟨p, h1, h2, h3, h4⟩ | ⟨h1, k, h2, h3⟩
  · left
    refine ⟨p, h1, divides_mono ?_ _ _ _ h2, ?_⟩
    · intro a n r ⟨q1, q2, _⟩
      refine ⟨?_, q2⟩
      intro h2
      obtain ⟨m', w, u⟩ := q1 h2
      exact ⟨m', ⟨w.1, w.2.1⟩, u⟩
    · rcases h4 with ⟨a, b, _⟩ | ⟨a, b, _⟩
      · exact Or.inl ⟨a, b⟩
      · exact Or.inr ⟨a, b⟩
  · right
    obtain ⟨a, b⟩ := packData_ub h h m.samples _ _ k i.fits h2 h3
    exact ⟨h1, by simpa using a, b⟩

/-- **C31.** Packing with flush: when a record has room for at least one unit of data and the encoding
can store the differences, all samples are packed, the count reported is their number, the result is
the number of records, and the records, each within the maximum length, are read back as consecutive
runs covering all samples.  Missing: 2^32 or more samples, see `C31_endless_violated`. -/
theorem C31_pack_keeps_samples_partial (nr : Nat → Nat) (sampletime : Int → Nat → Nat → Out Int)
    (h : Bool) (m : Msr) (junk : List UInt8) (i : Input nr sampletime m) (e : Encodable m)
    (hj : (packReclen m.reclen).toNat - 40 ≤ junk.length) :
    ∃ p, msrPack nr sampletime h m true junk (m.samples.count + 1) = .ok p ∧
      p.packed = m.samples.count ∧ p.ret = p.records.length ∧
      Divides (fun off n r => Reads r (fun m' => m'.samples = slice off n m.samples ∧ m'.samplecnt = n) ∧
        (r.length : Int) ≤ packReclen m.reclen) 0 p.records m.samples.count := by
  rcases packed_records nr sampletime h m true junk i e.header hj with
    ⟨p, h1, h2, h3, h4⟩ | ⟨h1, k, h2, h3⟩
  · rcases h4 with ⟨a, b, c⟩ | ⟨a, b, _⟩
    · obtain ⟨x, hx⟩ := packData_succeeds h m e i.fits p.packed b
      rw [hx] at c
      cases c
    · refine ⟨p, h1, b rfl, a, ?_⟩
      rw [← b rfl]
      refine divides_mono ?_ _ _ _ h2
      intro a n r ⟨q1, q2, _⟩
      refine ⟨?_, q2⟩
      intro h2
      obtain ⟨m', w, u⟩ := q1 h2
      exact ⟨m', ⟨w.1, w.2.1⟩, u⟩
  · obtain ⟨x, hx⟩ := packData_succeeds h m e i.fits k h2
    rw [hx] at h3
    cases h3

/-- **C31**, no samples: exactly one record without samples is made, within the maximum length, and it
is read back with the identifier, start time and extra headers given. -/
theorem C31_no_samples (nr : Nat → Nat) (sampletime : Int → Nat → Nat → Out Int)
    (h : Bool) (m : Msr) (flush : Bool) (junk : List UInt8) (rounds : Nat) (hp : Packable nr m)
    (hdef : m.reclen < 0 → m.reclen = -1) (hnone : m.samples.count = 0)
    (hroom : 40 + m.sid.length + m.extra.length ≤ (packReclen m.reclen).toNat)
    (hj : (packReclen m.reclen).toNat - 40 ≤ junk.length) :
    ∃ r, msrPack nr sampletime h m flush junk rounds
        = .ok { records := [r], packed := 0, ret := 1 } ∧
      (r.length : Int) ≤ packReclen m.reclen ∧
      Reads r (fun m' => m'.samplecnt = 0 ∧ m'.encoding = 0 ∧ m'.starttime = m.starttime ∧
        m'.sid = m.sid ∧ m'.extra = m.extra ∧ m'.flags = m.flags ∧ m'.pubversion = m.pubversion) := by
  have hsid := takeWhile_text m.sid hp.sidText
  have hpl : 40 ≤ packReclen m.reclen ∧ packReclen m.reclen ≤ 10485760 := by
    have := hp.reclen
    unfold packReclen
    split <;> omega
  have hbuf : (List.replicate 40 (0 : UInt8) ++ junk.take ((packReclen m.reclen).toNat - 40)).length
      = (packReclen m.reclen).toNat := by
    simp
    omega
  have hz : ∀ k, k + 4 ≤ 40 → unle (((List.replicate 40 (0 : UInt8) ++
      junk.take ((packReclen m.reclen).toNat - 40)).drop k).take 4) = 0 := by
    intro k hk
    rw [List.drop_append_of_le_length (by simp; omega), List.take_append_of_le_length (by simp; omega),
      List.drop_replicate, List.take_replicate, Nat.min_eq_left (by omega)]
    decide
  generalize hB : List.replicate 40 (0 : UInt8) ++ junk.take ((packReclen m.reclen).toNat - 40) = B
    at hbuf hz
  obtain ⟨t, ht, hv, htime⟩ := packed_valid nr m hp B (by omega)
  have hl := hp.sid
  have hh := packHeader3_eq nr h m t B (packReclen m.reclen).toNat hpl ht (by rw [hsid]; omega)
    hp.extra (by rw [hsid]; omega) (by rw [hsid]; omega)
  rw [hsid, hz 36 (by omega)] at hh
  generalize hR : ({ packed nr m t B with encoding := 0 } : Rec) = q
  have hqv : q.Valid := by
    subst hR
    obtain ⟨v1, v2, v3, v4, v5, v6, v7, v8, v9, v10, v11, v12, v13, v14, v15⟩ := hv
    exact ⟨v1, v2, v3, v4, v5, v6, v7, by show 0 < 256; omega, v9, v10, v11, v12, v13, v14, v15⟩
  have q1 : q.sid = m.sid := by subst hR; exact hsid
  have q2 : q.extra = m.extra := by subst hR; rfl
  have q3 : q.payload = [] := by subst hR; rfl
  have q4 : q.numsamples = 0 := by subst hR; exact hz 24 (by omega)
  have q5 : recTime q = .ok m.starttime := by subst hR; exact htime
  have q6 : q.encoding = 0 := by subst hR; rfl
  have q7 : q.flags = m.flags := by subst hR; rfl
  have q8 : q.pubversion = m.pubversion := by subst hR; rfl
  have hbl : q.withCrc.bytes.length = 40 + m.sid.length + m.extra.length := by
    rw [bytes_length, withCrc_sid, withCrc_extra, withCrc_payload, q1, q2, q3]; rfl
  refine ⟨q.withCrc.bytes, ?_, by omega, ?_⟩
  · unfold msrPack
    have hr := hp.reclen
    rw [if_neg (by omega)]
    unfold packMseed3
    simp only
    rw [strlen_text _ hp.sidText, if_neg (by omega), hB, hh]
    simp only
    have hpk := poke_encoding (packed nr m t B) 0
      (m.sid ++ (m.extra ++ B.drop (40 + m.sid.length + m.extra.length))) 0
    rw [if_pos hnone, show ([0] : List UInt8) = le 1 0 by decide, hpk, bind_ok, hR]
    have hset := setCrc_finish h 0 q m.sid m.extra [] (B.drop (40 + m.sid.length + m.extra.length))
      q1 q2 (40 + m.sid.length + m.extra.length) (by simp)
    have hq' : ({ q with payload := [] } : Rec) = q := by cases q; cases q3; rfl
    simp only [List.append_nil, List.append_assoc, List.length_nil] at hset
    rw [hset, bind_ok, hq', ← hbl]
    have hpe := peek_append (a := []) (b := q.withCrc.bytes) (c := B.drop q.withCrc.bytes.length)
    simp only [List.nil_append, List.length_nil] at hpe
    rw [hpe, bind_ok]
  · refine read_empty q.withCrc (withCrc_valid q hqv) q rfl q4 (by rw [withCrc_sid, q1]; exact hp.sid)
      (by omega) m.starttime q5 hp.noError _ ?_
    intro h2
    refine ⟨?_, ?_, rfl, q1, q2, q7, q8⟩
    · show ((q.numsamples : Nat) : Int) = 0
      rw [q4]; rfl
    · show ((q.encoding : Nat) : Int) = 0
      rw [q6]; rfl

/-- **C31** is violated for a multiple of 2^32 text samples: the number of remaining samples is
converted to a 32-bit integer, 0, so every round makes a record without samples and the packer never
returns (whatever the number of rounds). -/
theorem C31_endless_violated (nr : Nat → Nat) (sampletime : Int → Nat → Nat → Out Int) (h : Bool)
    (m : Msr) (junk : List UInt8) (hp : Packable nr m) (hdef : m.reclen < 0 → m.reclen = -1)
    (b : List UInt8) (hb : m.samples = .text b) (hcount : b.length % 2 ^ 32 = 0) (hpos : 1 ≤ b.length)
    (henc : m.encoding = 0) (hst : sampletime m.starttime 0 m.samprate = .ok m.starttime)
    (hroom : 40 + m.sid.length + m.extra.length < (packReclen m.reclen).toNat)
    (hj : (packReclen m.reclen).toNat - 40 ≤ junk.length) (rounds : Nat) :
    msrPack nr sampletime h m true junk rounds = .err := by
  have hsid := takeWhile_text m.sid hp.sidText
  have hpl : 40 ≤ packReclen m.reclen ∧ packReclen m.reclen ≤ 10485760 := by
    have := hp.reclen
    unfold packReclen
    split <;> omega
  have hbuf : (List.replicate 40 (0 : UInt8) ++ junk.take ((packReclen m.reclen).toNat - 40)).length
      = (packReclen m.reclen).toNat := by
    simp
    omega
  generalize hB : List.replicate 40 (0 : UInt8) ++ junk.take ((packReclen m.reclen).toNat - 40) = B
    at hbuf
  obtain ⟨t, ht, hv, htime⟩ := packed_valid nr m hp B (by omega)
  have hl := hp.sid
  have hh := packHeader3_eq nr h m t B (packReclen m.reclen).toNat hpl ht (by rw [hsid]; omega)
    hp.extra (by rw [hsid]; omega) (by rw [hsid]; omega)
  rw [hsid] at hh
  have e1 : (packed nr m t B).sid = m.sid := hsid
  have e2 : (packed nr m t B).extra = m.extra := rfl
  have e3 : (packed nr m t B).encoding = packEncoding m.encoding := rfl
  have hend := endless (fun offset => sampletime m.starttime offset m.samprate) m.starttime h b
    (packed nr m t B) (space m) (maxSamples (packEncoding m.encoding) (space m) (typeSize m.samples))
    true hcount hpos (Or.inr rfl) (by unfold space; omega) (by rw [e3, henc]; rfl) hst
    ⟨hp.time, hp.time1678, hp.noError⟩ rounds (packed nr m t B) (unle ((B.drop 36).take 4))
    (B.drop (40 + m.sid.length + m.extra.length)) hv ⟨rfl, rfl, rfl, rfl, rfl, rfl⟩
    (by rw [List.length_drop, hbuf]; rfl)
  rw [e1, e2, e3] at hend
  unfold msrPack
  have hr := hp.reclen
  rw [if_neg (by omega)]
  unfold packMseed3
  simp only
  rw [strlen_text _ hp.sidText, if_neg (by omega), hB, hh]
  simp only
  rw [if_neg (by rw [hb]; simp only [Samples.count]; omega), hb]
  rw [hb] at hend
  exact hend

/-- **C32**, version 3: every record is read back with the start time of its first sample, computed
from the original start time and the number of samples packed before it. -/
theorem C32_record_times (nr : Nat → Nat) (sampletime : Int → Nat → Nat → Out Int) (h : Bool)
    (m : Msr) (flush : Bool) (junk : List UInt8) (i : Input nr sampletime m)
    (hroom : 40 + m.sid.length + m.extra.length ≤ (packReclen m.reclen).toNat)
    (hj : (packReclen m.reclen).toNat - 40 ≤ junk.length) (p : Packing)
    (hp : msrPack nr sampletime h m flush junk (m.samples.count + 1) = .ok p) :
    Divides (fun off n r => Reads r (fun m' => m'.samplecnt = n ∧
      timeOf sampletime m off = .ok m'.starttime)) 0 p.records p.packed := by
  rcases packed_records nr sampletime h m flush junk i hroom hj with ⟨p', h1, h2, _⟩ | ⟨h1, _⟩
  · rw [hp] at h1
    cases h1
    refine divides_mono ?_ _ _ _ h2
    intro a n r ⟨q1, _⟩ h2
    obtain ⟨m', w, u⟩ := q1 h2
    exact ⟨m', ⟨w.2.1, w.2.2.1⟩, u⟩
  · rw [hp] at h1
    cases h1

/-- **C65.** Every record made carries the identifier, flags, publication version, extra headers,
encoding and stored sample rate of the description packed, and its CRC is right (it is read back with
CRC validation). -/
theorem C65_metadata_kept (nr : Nat → Nat) (sampletime : Int → Nat → Nat → Out Int) (h : Bool)
    (m : Msr) (flush : Bool) (junk : List UInt8) (i : Input nr sampletime m)
    (hroom : 40 + m.sid.length + m.extra.length ≤ (packReclen m.reclen).toNat)
    (hj : (packReclen m.reclen).toNat - 40 ≤ junk.length) (p : Packing)
    (hp : msrPack nr sampletime h m flush junk (m.samples.count + 1) = .ok p) :
    Divides (fun _ _ r => Reads r (fun m' => m'.sid = m.sid ∧ m'.flags = m.flags ∧
      m'.pubversion = m.pubversion ∧ m'.extra = m.extra ∧
      m'.encoding = packEncoding m.encoding ∧ m'.samprate = storedRate nr m.samprate)) 0
      p.records p.packed := by
  rcases packed_records nr sampletime h m flush junk i hroom hj with ⟨p', h1, h2, _⟩ | ⟨h1, _⟩
  · rw [hp] at h1
    cases h1
    refine divides_mono ?_ _ _ _ h2
    intro a n r ⟨q1, _⟩ h2
    obtain ⟨m', ⟨_, _, _, w1, w2, w3, w4, w5, w6⟩, u⟩ := q1 h2
    exact ⟨m', ⟨w1, w3, w4, w2, w5, w6⟩, u⟩
  · rw [hp] at h1
    cases h1

/-- **C66.** Without flush every record made is filled: no further frame (Steim) or sample would have
fit into the maximum record length.  Missing: 16-bit integers, for which this fails
(`C66_int16_violated`). -/
theorem C66_only_filled_partial (nr : Nat → Nat) (sampletime : Int → Nat → Nat → Out Int) (h : Bool)
    (m : Msr) (junk : List UInt8) (i : Input nr sampletime m)
    (hroom : 40 + m.sid.length + m.extra.length ≤ (packReclen m.reclen).toNat)
    (hj : (packReclen m.reclen).toNat - 40 ≤ junk.length) (p : Packing)
    (hp : msrPack nr sampletime h m false junk (m.samples.count + 1) = .ok p)
    (h16 : packEncoding m.encoding ≠ 1) :
    Divides (fun _ _ r => packReclen m.reclen < r.length + unit (packEncoding m.encoding)) 0
      p.records p.packed := by
  rcases packed_records nr sampletime h m false junk i hroom hj with ⟨p', h1, h2, _⟩ | ⟨h1, _⟩
  · rw [hp] at h1
    cases h1
    refine divides_mono ?_ _ _ _ h2
    intro a n r ⟨_, _, q3⟩
    exact q3 rfl h16
  · rw [hp] at h1
    cases h1

/-! ## Concrete cases -/

/-- Sample times at 10 samples per second. -/
def everyTenth (t : Int) (n _ : Nat) : Out Int := .ok (t + n * 100000000)

/-- Seven integers for records of at most 60 bytes: two at a time. -/
def seven : Msr :=
  { sid := [70, 68, 83, 78, 58, 88], flags := 4, starttime := 1325376000000000005, reclen := 60,
    samprate := 0x4024000000000000, encoding := 3, pubversion := 1, extra := [123, 125],
    samples := .ints [1, -2, 70000, 4, 5, -2147483648, 7] }

theorem seven_input : Input id everyTenth seven := by
  constructor
  · constructor <;> decide +kernel
  · decide +kernel
  · decide +kernel
  · decide +kernel
  · decide +kernel
  · show ∀ x ∈ [1, -2, 70000, 4, 5, -2147483648, 7], isInt32 x
    decide
  · intro k _ hk
    refine ⟨_, rfl, ?_⟩
    have hk : k < 7 := hk
    constructor
    · show InInt64 (1325376000000000005 + (k : Int) * 100000000)
      unfold InInt64; omega
    · show (Fields.mk 1678 1 0 0 0 0).instant ≤ 1325376000000000005 + (k : Int) * 100000000
      have : (Fields.mk 1678 1 0 0 0 0).instant = -9214560000000000000 := by decide +kernel
      omega
    · show 1325376000000000005 + (k : Int) * 100000000 ≠ NSTERROR
      unfold NSTERROR; omega

theorem seven_encodable : Encodable seven := by
  constructor
  · decide +kernel
  · decide +kernel
  · intro h; exact absurd h (by decide)
  · intro h; exact absurd h (by decide)

/-- The hypotheses of the theorems above can be met. -/
example : Input id everyTenth seven ∧ Encodable seven := ⟨seven_input, seven_encodable⟩

/-- Five 16-bit integers for records of at most 60 bytes, which hold six. -/
def five : Msr := { seven with encoding := 1, samples := .ints [1, 2, 3, 4, 5] }

/-- **C66** is violated for 16-bit integers: the number of samples filling a record is computed for 4
bytes per sample, so that without flush all five samples go into a record of 58 bytes, although a
sixth would have fit into 60. -/
theorem C66_int16_violated : ∃ r,
    msrPack id everyTenth false five false (List.replicate 20 0) 6
      = .ok { records := [r], packed := 5, ret := 1 } ∧
    (r.length : Int) + unit (packEncoding five.encoding) ≤ packReclen five.reclen := by
  refine ⟨((match msrPack id everyTenth false five false (List.replicate 20 0) 6 with
    | .ok p => p.records
    | _ => []).headD []), ?_, ?_⟩ <;> decide +kernel

/-- A description without samples for `C31_no_samples`. -/
example : Packable id sampleMsr ∧ sampleMsr.samples.count = 0 ∧
    40 + sampleMsr.sid.length + sampleMsr.extra.length ≤ (packReclen sampleMsr.reclen).toNat := by
  refine ⟨by constructor <;> decide +kernel, by decide, by decide⟩

/-- The hypotheses of `C31_endless_violated` can be met. -/
example : ∃ m : Msr, Packable id m ∧ m.reclen = -1 ∧ m.encoding = 0 ∧
    m.samples = .text (List.replicate (2 ^ 32) 65) ∧
    (List.replicate (2 ^ 32) (65 : UInt8)).length % 2 ^ 32 = 0 ∧
    40 + m.sid.length + m.extra.length < (packReclen m.reclen).toNat :=
  ⟨{ seven with reclen := -1, encoding := 0, samples := .text (List.replicate (2 ^ 32) 65) },
    by constructor <;> decide +kernel, rfl, rfl, rfl,
    by rw [List.length_replicate, Nat.mod_self], by decide⟩

/-- **C31** (defaults).  A record whose encoding is not given is packed as Steim2, and one whose length is not given
in records of at most 4096 bytes. -/
theorem C31_defaults (negRecip : Nat → Nat) (sampletime : Int → Nat → Nat → Out Int) (hostBE : Bool)
    (msr : Model.Record3.Msr) (flush : Bool) (junk : List UInt8) (rounds : Nat) :
    (msr.encoding < 0 → msrPack negRecip sampletime hostBE msr flush junk rounds =
      msrPack negRecip sampletime hostBE { msr with encoding := 11 } flush junk rounds) ∧
    (msr.reclen = -1 → msrPack negRecip sampletime hostBE msr flush junk rounds =
      msrPack negRecip sampletime hostBE { msr with reclen := 4096 } flush junk rounds) := by
  constructor
  · intro h
    have e : packEncoding msr.encoding = packEncoding 11 := by
      unfold packEncoding
      rw [if_pos h, if_neg (by decide)]
      decide
    unfold msrPack packMseed3 packHeader3
    simp only [e]
  · intro h
    have e : packReclen (-1) = packReclen 4096 := by decide
    unfold msrPack packMseed3 packHeader3
    have g : ∀ x : Int, (x = -1 ∨ x = 4096) → ¬ (x ≠ -1 ∧ (x < 40 ∨ x > 10485760)) := by omega
    rw [if_neg (g _ (.inl h)), if_neg (g _ (.inr rfl))]
    simp only [h, e]

/-- Neither the length nor the encoding are given: a record with one frame. -/
example : (match msrPack id everyTenth false
      { seven with reclen := -1, encoding := -1, samples := .ints [1, -2, 70000] } true (List.replicate 4096 7) 2 with
    | .ok p => p.records.map fun r => (r.length, r[15]?)
    | _ => []) = [(112, some 11)] := by decide +kernel

end Verif.Props.Pack
