import Verif.Proof.Repack
import Verif.Props.Record3
/-!
# Properties of repacking and of the location of the payload (C33, C63, C64)
-/
namespace Verif.Props.Record3
open Verif.Model Verif.Model.Bytes Verif.Model.Steim Verif.Model.Mem Verif.Model.Detect
open Verif.Model.Record3 Verif.Proof.Bytes Verif.Proof.Mem Verif.Proof.Record3
open Verif.Spec Verif.Spec.Record3
open Verif.Model.Samples Verif.Props.Samples Verif.Proof.Parse Verif.Proof.Repack

/-! ## C33, C63: repacking -/

/-- The description of the record of the examples. -/
def sampleParsed : Msr :=
  { sid := [70, 68, 83, 78, 58, 88], reclen := 52, flags := 4, samprate := 0x3FF0000000000000,
    starttime := 1325383384000000005, encoding := 0, pubversion := 1, samplecnt := 4,
    extra := [123, 125], datalength := 4 }

/-- **C33 (violated).** The size check forgets the source identifier: a record with a 6 character
identifier and 4 bytes of data is written to a buffer of 46 bytes, 4 bytes beyond its end. -/
theorem C33_identifier_length_violated :
    ∃ (m : Msr) (buf : List UInt8), buf.length = 46 ∧
      unpack3 false 0 sample.bytes 52 false false = .ok (.record m, sample.bytes) ∧
      repack3 id false 0 { m with extra := [] }
        ({ sample with extra := [] } : Rec).bytes buf = .oob := by
  exact ⟨sampleParsed, List.replicate 46 0, by simp, by decide +kernel, by decide +kernel⟩

/-- **C33 (partial).** With a buffer holding header, identifier, extra headers and data, or one too
small even without the identifier, repacking does not touch memory outside the buffer or the record
(if the record holds its data).  Missing: buffers in between, see the violation. -/
theorem C33_repack_in_bounds_partial (nr : Nat → Nat) (h : Bool) (align : Nat) (m : Msr)
    (mem buf : List UInt8) (hd : dataBounds h m mem ≠ .oob)
    (hs : ∀ off size, dataBounds h m mem = .ok (off, size) → off + size ≤ mem.length ∧
      40 + strlen m.sid + m.extra.length + size < 4294967296 ∧
      (40 + strlen m.sid + m.extra.length + size ≤ buf.length ∨
       buf.length < 40 + m.extra.length + size)) :
    repack3 nr h align m mem buf ≠ .oob ∧
    ∀ b n, repack3 nr h align m mem buf = .ok (b, n) → b.length = buf.length ∧ n ≤ buf.length := by
  unfold repack3
  simp only
  split
  · simp
  split
  · simp
  rename_i hb _
  obtain ⟨hp, hlen⟩ := packHeader3_bounds nr h m buf buf.length (by omega)
  cases e1 : packHeader3 nr h m buf buf.length with
  | err => simp [Res.bind]
  | ub => simp [Res.bind]
  | oob => exact absurd e1 hp
  | ok r =>
    obtain ⟨b, o⟩ := r
    obtain ⟨hbl, ho⟩ := hlen b o e1
    rw [bind_ok]
    cases e2 : dataBounds h m mem with
    | err => simp [Res.bind]
    | ub => simp [Res.bind]
    | oob => exact absurd e2 hd
    | ok r =>
      obtain ⟨off, size⟩ := r
      obtain ⟨hm, h32, hc⟩ := hs off size e2
      rw [bind_ok]
      simp only
      split
      · simp
      rename_i hnot
      rw [Nat.mod_eq_of_lt (by omega)] at hnot
      have hfit : 40 + strlen m.sid + m.extra.length + size ≤ buf.length := by omega
      rw [peek_ok hm, bind_ok]
      have hdl : ((mem.drop off).take size).length = size := by simp; omega
      generalize (mem.drop off).take size = data at hdl
      rw [poke_ok (by omega), bind_ok]
      generalize hb2 : b.take o ++ data ++ b.drop (o + data.length) = b2
      have hb2l : b2.length = buf.length := by rw [← hb2]; simp; omega
      obtain ⟨b3, e3⟩ := pokes_ne_oob (mem := b2)
        (ws := [(24, store h h 4 (bits 32 m.samplecnt)), (36, store h h 4 size)]) (by
          intro w hw
          simp only [List.mem_cons, List.not_mem_nil, or_false] at hw
          rcases hw with rfl | rfl <;> simp [store_length] <;> omega)
      rw [e3, bind_ok]
      have hb3l := pokes_length e3
      unfold setCrc
      rw [poke_ok (by simp; omega), bind_ok]
      generalize hz : b3.take 28 ++ [0, 0, 0, 0] ++ b3.drop (28 + [(0 : UInt8), 0, 0, 0].length) = b4
      have hb4l : b4.length = buf.length := by rw [← hz]; simp; omega
      rw [show (o + size) % 2 ^ 32 = o + size from Nat.mod_eq_of_lt (by omega)]
      have hcrc := Props.Crc.C17_is_crc32c_partial h (align % 4) (b4.take (o + size))
        (b4.drop (o + size)) 0
        (by intro h0; have := congrArg List.length h0; rw [List.length_take, List.length_nil] at this; omega)
        (by right; right; rw [List.length_take]; omega)
      rw [List.take_append_drop, show (b4.take (o + size)).length = o + size by rw [List.length_take]; omega] at hcrc
      rw [hcrc]
      simp only [ofMem, bind_ok]
      rw [poke_ok (by rw [store_length]; omega), bind_ok]
      refine ⟨by simp, ?_⟩
      intro b' n hbn
      injection hbn with hbn
      injection hbn with h1 h2
      refine ⟨?_, by omega⟩
      rw [← h1]
      simp [store_length]
      omega

/-- The record of the examples meets the hypotheses, in a buffer that is just large enough. -/
example : dataBounds false sampleParsed sample.bytes = .ok (48, 4) ∧ 48 + 4 ≤ sample.bytes.length ∧
    40 + strlen sampleParsed.sid + sampleParsed.extra.length + 4 ≤ (List.replicate 52 0).length := by
  decide +kernel

/-- **C63 (partial).** Repacking writes, at the beginning of the buffer, exactly one version 3
record with the identifier, flags, publication version, extra headers, encoding and start time of
the given one, its number of samples, the payload bytes of the original unchanged, and a correct
CRC; the rest of the buffer is untouched.
Missing: the meaning of the payload is kept only if its byte order is that of version 3, and only
the bytes found by `msr3_data_bounds` are kept, see the violations. -/
theorem C63_repack_partial (nr : Nat → Nat) (h : Bool) (align : Nat) (m : Msr) (p : Packable nr m)
    (mem buf : List UInt8) (off size : Nat) (hd : dataBounds h m mem = .ok (off, size))
    (hm : off + size ≤ mem.length) (hcnt : 0 ≤ m.samplecnt ∧ m.samplecnt ≤ 4294967295)
    (hfit : 40 + m.sid.length + m.extra.length + size ≤ buf.length)
    (h32 : 40 + m.sid.length + m.extra.length + size < 4294967296) :
    ∃ (r : Rec) (n : Nat), repack3 nr h align m mem buf = .ok (r.bytes ++ buf.drop n, n) ∧
      n = r.bytes.length ∧ r.Valid ∧
      r.sid = m.sid ∧ r.flags = m.flags ∧ r.pubversion = m.pubversion ∧ r.extra = m.extra ∧
      r.numsamples = m.samplecnt ∧ r.encoding = packEncoding m.encoding ∧
      r.rate = storedRate nr m.samprate ∧
      time2nstime r.year r.day r.hour r.minute r.second r.nsec = .ok m.starttime ∧
      r.payload = (mem.drop off).take size ∧
      r.crc = (Crc.crc32c 0 ({ r with crc := 0 } : Rec).bytes).toNat := by
  obtain ⟨t, ht, hv, htime⟩ := packed_valid nr m p buf (by omega)
  have hsid := takeWhile_text m.sid p.sidText
  have hpl : 40 ≤ packReclen m.reclen ∧ packReclen m.reclen ≤ 10485760 := by
    have := p.reclen
    unfold packReclen
    split <;> omega
  have hl := p.sid
  have hp := packHeader3_eq nr h m t buf buf.length hpl ht (by rw [hsid]; omega) p.extra
    (by rw [hsid]; omega) (by rw [hsid]; omega)
  rw [hsid] at hp
  have hdl : ((mem.drop off).take size).length = size := by simp; omega
  have e1 : (packed nr m t buf).sid = m.sid := hsid
  have e2 : (packed nr m t buf).extra = m.extra := rfl
  have f1 : (packed nr m t buf).flags = m.flags := rfl
  have f2 : (packed nr m t buf).pubversion = m.pubversion := rfl
  have f3 : (packed nr m t buf).encoding = packEncoding m.encoding := rfl
  have f4 : (packed nr m t buf).rate = storedRate nr m.samprate := rfl
  have f5 : time2nstime (packed nr m t buf).year (packed nr m t buf).day (packed nr m t buf).hour
    (packed nr m t buf).minute (packed nr m t buf).second (packed nr m t buf).nsec
    = .ok m.starttime := htime
  generalize packed nr m t buf = q at *
  generalize hdata : (mem.drop off).take size = data at hdl
  have hns : bits 32 m.samplecnt = m.samplecnt := by unfold bits; omega
  have e1' : ({ q with numsamples := bits 32 m.samplecnt, payload := data } : Rec).sid = m.sid := e1
  have e2' : ({ q with numsamples := bits 32 m.samplecnt, payload := data } : Rec).extra = m.extra :=
    e2
  have hrl : ({ q with numsamples := bits 32 m.samplecnt, payload := data } : Rec).withCrc.bytes.length
      = 40 + m.sid.length + m.extra.length + size := by
    rw [bytes_length, withCrc_sid, withCrc_extra, withCrc_payload, e1', e2']
    show _ + data.length = _
    rw [hdl]
  refine ⟨({ q with numsamples := bits 32 m.samplecnt, payload := data } : Rec).withCrc,
    40 + m.sid.length + m.extra.length + size, ?_, hrl.symm, ?_, e1, f1, f2, e2, hns, f3, f4,
    f5, rfl, rfl⟩
  · unfold repack3
    have hst : strlen m.sid = m.sid.length := by unfold strlen; rw [hsid]
    simp only
    rw [hst, if_neg (by omega), if_neg (by omega), hp, bind_ok]
    simp only
    rw [hd, bind_ok]
    simp only
    rw [Nat.mod_eq_of_lt (by omega), if_neg (by omega), peek_ok hm, bind_ok,
      Nat.mod_eq_of_lt (by omega), hdata]
    have hpk : poke (q.fixedFor (unle ((buf.drop 36).take 4)) ++ (m.sid ++ (m.extra ++
        buf.drop (40 + m.sid.length + m.extra.length)))) (40 + m.sid.length + m.extra.length) data
        = .ok (q.fixedFor (unle ((buf.drop 36).take 4)) ++ ((m.sid ++ (m.extra ++ data)) ++
          buf.drop (40 + m.sid.length + m.extra.length + size))) := by
      have := poke_append' (a := q.fixedFor (unle ((buf.drop 36).take 4)) ++ (m.sid ++ m.extra))
        (c := buf.drop (40 + m.sid.length + m.extra.length)) (d := data) (by simp; omega)
      simp only [List.length_append, fixed_length, List.append_assoc, List.drop_drop, hdl] at this
      rw [show 40 + (m.sid.length + m.extra.length) = 40 + m.sid.length + m.extra.length by omega]
        at this
      rw [this]
      simp only [List.append_assoc]
    rw [hpk, bind_ok]
    simp only [pokes, store_le]
    rw [poke_numsamples, bind_ok, poke_datalength, bind_ok, bind_ok]
    rw [← hdl, setCrc_finish h align { q with numsamples := bits 32 m.samplecnt } m.sid m.extra data _ e1 e2 _ rfl, bind_ok]
  · exact ⟨hv.flags, hv.nsec, hv.year, hv.day, hv.hour, hv.minute, hv.second, hv.encoding, hv.rate,
      by show bits 32 m.samplecnt < _; omega, by show BitVec.toNat _ < 2 ^ 32; exact BitVec.isLt _,
      hv.pubversion, hv.sid, hv.extra, by show data.length < _; omega⟩

example : Packable id sampleParsed ∧ 0 ≤ sampleParsed.samplecnt ∧
    sampleParsed.samplecnt ≤ 4294967295 :=
  ⟨by constructor <;> decide +kernel, by decide, by decide⟩

/-- A version 2 description with one big-endian 32-bit sample, 7, at offset 64 of its 128 bytes, as
`msr3_unpack_mseed2` describes it on a little-endian host. -/
def sampleV2 : Msr :=
  { sid := [70, 68, 83, 78, 58, 88], reclen := 128, swapHeader := true, swapPayload := true,
    formatversion := 2, starttime := 1325383384000000005, samprate := 0x3FF0000000000000,
    encoding := 3, pubversion := 1, samplecnt := 1 }

/-- The bytes that matter of that record: the data offset at 44 and the sample at 64. -/
def sampleV2mem : List UInt8 :=
  List.replicate 44 0 ++ [0, 64] ++ List.replicate 18 0 ++ [0, 0, 0, 7] ++ List.replicate 60 0

/-- The samples of a parsed record. -/
def samplesOf : Res (Parsed × List UInt8) → Option Samples
  | .ok (.record m, _) => some m.samples
  | _ => none

/-- **C63 (violated for version 2 data).** The payload is copied without changing its byte order:
the sample 7 of a big-endian version 2 record becomes 117440512 in the version 3 record. -/
theorem C63_byte_order_violated :
    unpackData false 0 sampleV2 sampleV2mem = .ok (.ints [7]) ∧
    ∃ b n, repack3 id false 0 sampleV2 sampleV2mem (List.replicate 50 0) = .ok (b, n) ∧
      samplesOf (unpack3 false 0 b n true true) = some (.ints [117440512]) := by
  refine ⟨by decide +kernel, ?_⟩
  have h : ∃ x, repack3 id false 0 sampleV2 sampleV2mem (List.replicate 50 0) = .ok x ∧
      samplesOf (unpack3 false 0 x.1 x.2 true true) = some (.ints [117440512]) := by
    refine ⟨([77, 83, 3, 0, 5, 0, 0, 0, 220, 7, 1, 0, 2, 3, 4, 3, 0, 0, 0, 0, 0, 0, 240, 63, 1, 0, 0,
      0, 165, 19, 185, 241, 1, 6, 0, 0, 4, 0, 0, 0, 70, 68, 83, 78, 58, 88, 0, 0, 0, 7], 50), ?_, ?_⟩
    · decide +kernel
    · decide +kernel
  obtain ⟨⟨b, n⟩, h⟩ := h
  exact ⟨b, n, h⟩

/-! ## C64: where the payload is -/

/-- **C64 (partial).** For a version 3 record whose identifier is a string, held completely by the
buffer, the data offset is the exact offset of the payload, and the size never exceeds the
payload.  The size is the whole payload for the encodings without a fixed sample size other than
Steim, and for the fixed sizes the bytes of the samples if the payload holds them and they fill it
or are fewer than 65536.  Missing: the size of larger data and of Steim data, see the violations. -/
theorem C64_data_bounds_partial (h : Bool) (r : Rec) (v : r.Valid) (text : ∀ b ∈ r.sid, b ≠ 0)
    (rest : List UInt8) (reclen s : Int) :
    ∃ size, dataBounds h (header h r r.payload.length reclen s) (r.bytes ++ rest)
        = .ok (r.bytes.length - r.payload.length, size) ∧ size ≤ r.payload.length ∧
      (r.encoding ∉ [0, 1, 3, 4, 5, 10, 11] → size = r.payload.length) ∧
      (r.encoding ∈ [0, 1, 3, 4, 5] → r.numsamples < 2147483648 →
        storedSize r.encoding * r.numsamples ≤ r.payload.length →
        (storedSize r.encoding * r.numsamples = r.payload.length ∨
          storedSize r.encoding * r.numsamples < 65536) →
        size = storedSize r.encoding * r.numsamples) := by
  have hl := bytes_length r
  have hst : strlen r.sid = r.sid.length := by unfold strlen; rw [takeWhile_text _ text]
  have v1 := v.sid
  have v2 := v.extra
  obtain ⟨size, h1, h2, h3⟩ := dataBounds_ok h (header h r r.payload.length reclen s)
    (r.bytes ++ rest) rfl
    (by rw [List.length_append, hl]; show 40 + r.sid.length + r.extra.length + r.payload.length ≤ _
        omega)
    (by right; show 40 + r.sid.length + r.extra.length < _; omega)
  refine ⟨size, ?_, h2, ?_, ?_⟩
  · have e : 40 + strlen (header h r r.payload.length reclen s).sid +
        (header h r r.payload.length reclen s).extra.length
        = r.bytes.length - r.payload.length := by
      show 40 + strlen r.sid + r.extra.length = _
      omega
    rw [h1, e]
  · intro he
    simp only [List.mem_cons, List.not_mem_nil, or_false, not_or] at he
    rw [h3 (by show (r.encoding : Int) ≠ 10; omega) (by show (r.encoding : Int) ≠ 11; omega)]
    show sampleBytes r.encoding r.numsamples r.payload.length = _
    unfold sampleBytes fixedBytes
    rw [if_neg (by omega), if_neg (by omega), if_neg (by omega), if_neg (by omega),
      if_neg (by omega)]
  · intro he hn hfit hor
    have hfx : fixedSize r.encoding := by
      unfold fixedSize
      simp only [List.mem_cons, List.not_mem_nil, or_false] at he ⊢
      omega
    simp only [List.mem_cons, List.not_mem_nil, or_false] at he
    have h5 := h3 (by show (r.encoding : Int) ≠ 10; omega) (by show (r.encoding : Int) ≠ 11; omega)
    have hge := sampleBytes_ge r.encoding r.numsamples r.payload.length hfx hn hfit (fun _ => hor)
    have h6 : size = sampleBytes r.encoding r.numsamples r.payload.length := h5
    have hle : size ≤ storedSize r.encoding * r.numsamples := by
      rcases hor with e | e
      · rw [e]; exact h2
      · by_cases heq : storedSize r.encoding * r.numsamples = r.payload.length
        · rw [heq]; exact h2
        rw [h6]
        have hfb : fixedBytes (r.encoding : Int) = some (storedSize r.encoding) := by
          unfold fixedBytes storedSize
          rcases he with e | e | e | e | e <;> rw [e] <;> decide
        unfold sampleBytes
        rw [hfb]
        simp only
        have hb : bits 64 ((r.numsamples : Int) * (storedSize r.encoding : Nat))
            = storedSize r.encoding * r.numsamples := by
          unfold bits
          rw [show (r.numsamples : Int) * (storedSize r.encoding : Nat)
            = ((storedSize r.encoding * r.numsamples : Nat) : Int) by rw [Nat.mul_comm]; simp]
          omega
        rw [hb, if_pos (by omega)]
        omega
    omega

example : dataBounds false (header false sample 4 52 0) (sample.bytes ++ [1, 2]) = .ok (48, 4) := by
  decide +kernel

/-- **C64 (violated for 65536 bytes and more).** The size is cut to 16 bits: for 16384 samples of
4 bytes followed by at least one more byte it is 0. -/
theorem C64_size_truncated_violated (h : Bool) (r : Rec) (mem : List UInt8)
    (he : r.encoding = 3) (hn : r.numsamples = 16384) (hp : 65536 < r.payload.length)
    (reclen s : Int) :
    ∃ off, dataBounds h (header h r r.payload.length reclen s) mem = .ok (off, 0) := by
  refine ⟨(40 + strlen r.sid + r.extra.length) % 2 ^ 32, ?_⟩
  unfold dataBounds
  rw [if_pos (show (header h r r.payload.length reclen s).formatversion = 3 from rfl), bind_ok]
  simp only
  have e : sampleBytes (header h r r.payload.length reclen s).encoding
      (header h r r.payload.length reclen s).samplecnt
      (header h r r.payload.length reclen s).datalength = 0 := by
    show sampleBytes (r.encoding : Int) (r.numsamples : Int) r.payload.length = 0
    rw [he, hn]
    show (if 65536 < r.payload.length then 0 else r.payload.length) = 0
    rw [if_pos hp]
  rw [e, if_neg]
  · rfl
  rintro ⟨-, a⟩
  have : (header h r r.payload.length reclen s).encoding = 3 := by
    show (r.encoding : Int) = 3; omega
  rw [this] at a
  omega

example : ∃ r : Rec, r.Valid ∧ r.encoding = 3 ∧ r.numsamples = 16384 ∧ 65536 < r.payload.length :=
  ⟨{ sample with encoding := 3, numsamples := 16384, payload := List.replicate 65540 0 },
    ⟨by decide, by decide, by decide, by decide, by decide, by decide, by decide, by decide,
     by decide, by decide, by decide, by decide, by decide, by decide, by
      show (List.replicate 65540 _).length < _; rw [List.length_replicate]; omega⟩, rfl, rfl, by
      show _ < (List.replicate 65540 _).length; rw [List.length_replicate]; omega⟩

/-- **C64 (violated for Steim data).** The frames tested for zeros are counted from the beginning of
the record instead of the data: with a 24 character identifier and a zero first frame, the last
frame is dropped though it is not zero. -/
theorem C64_wrong_frames_violated :
    ∃ r : Rec, r.Valid ∧ r.payload = List.replicate 64 0 ++ List.replicate 64 1 ∧
      dataBounds false (header false r 128 192 0) r.bytes = .ok (64, 64) :=
  ⟨{ sample with sid := List.replicate 24 65, extra := [], encoding := 11,
                 payload := List.replicate 64 0 ++ List.replicate 64 1 },
    by constructor <;> decide +kernel, rfl, by decide +kernel⟩

end Verif.Props.Record3
