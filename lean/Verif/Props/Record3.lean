import Verif.Proof.Parse
import Verif.Proof.Detect
import Verif.Props.Calendar
import Verif.Props.Samples
/-!
# Properties of version 3 records (C26, C27, C29, C30, C33)

`Spec.Record3.Rec` describes a record by its fields, `Rec.bytes` are its bytes.
-/
namespace Verif.Props.Record3
open Verif.Model Verif.Model.Bytes Verif.Model.Steim Verif.Model.Mem Verif.Model.Detect
open Verif.Model.Record3 Verif.Proof.Bytes Verif.Proof.Mem Verif.Proof.Record3
open Verif.Spec Verif.Spec.Record3
open Verif.Model.Samples Verif.Props.Samples Verif.Proof.Parse Verif.Proof.Detect

/-- A small record used in the examples: `FDSN:X` at 2012-01-01T00:00:00, four text samples. -/
def sample : Rec :=
  { flags := 4, nsec := 5, year := 2012, day := 1, hour := 2, minute := 3, second := 4,
    encoding := 0, rate := 0x3FF0000000000000, numsamples := 4, crc := 0, pubversion := 1,
    sid := [70, 68, 83, 78, 58, 88], extra := [123, 125], payload := [65, 66, 67, 68] }

theorem sample_valid : sample.Valid := by
  constructor <;> decide

/-! ## C27: detection -/

/-- **C27 (partial).** On a little-endian host, for every record whose total length is below 2^32,
a buffer that has at least its 40 header bytes (the rest may be missing or followed by anything) is
recognised as version 3 and the exact total length is returned.
Missing: big-endian hosts and announced lengths of 2^32 and more, see the next two theorems. -/
theorem C27_exact_length_partial (r : Rec) (v : r.Valid) (hl : r.bytes.length < 4294967296)
    (buf : List UInt8) (hb : r.bytes.take 40 = buf.take 40) :
    detect false buf = .ok (r.bytes.length, 3) := by
  have h40 : r.fixed.length = 40 := fixed_length _ _
  have e1 : r.bytes.take 40 = r.fixed := by
    unfold Rec.bytes
    rw [List.append_assoc, List.append_assoc, List.take_left' h40]
  have e2 : buf = r.fixedFor r.payload.length ++ buf.drop 40 := by
    have := List.take_append_drop 40 buf
    rw [← hb, e1] at this
    exact this.symm
  have e3 : r.bytes.length = 40 + r.sid.length + r.extra.length + r.payload.length := by
    unfold Rec.bytes; simp [h40]; omega
  rw [e2, detect_rec r v _ v.payload, ← e3, Nat.mod_eq_of_lt hl]

example : detect false (sample.bytes.take 41) = .ok (52, 3) := by decide +kernel

/-- **C27 (violated on big-endian hosts).** The lengths are read in host byte order: the 52 byte
record is reported as 67109422 bytes long. -/
theorem C27_big_endian_violated :
    ∃ r : Rec, r.Valid ∧ r.bytes.length = 52 ∧ detect true r.bytes = .ok (67109422, 3) :=
  ⟨sample, sample_valid, by decide +kernel, by decide +kernel⟩

/-- **C27 (violated for huge announced lengths).** The sum of the lengths wraps: a header announcing
65535 bytes of extra headers and 2^32 - 65535 bytes of data is reported as a 40 byte record. -/
theorem C27_wrapped_length_violated :
    let hdr := ({ sample with sid := [], extra := List.replicate 65535 0 } : Rec).fixedFor
      (4294967296 - 65535)
    detect false hdr = .ok (40, 3) := by
  have e : ({ sample with sid := [], extra := List.replicate 65535 0 } : Rec).fixedFor
      (4294967296 - 65535)
      = [77, 83] ++ le 1 3 ++ le 1 4 ++ le 4 5 ++ le 2 2012 ++ le 2 1 ++ le 1 2 ++ le 1 3 ++
        le 1 4 ++ le 1 0 ++ le 8 0x3FF0000000000000 ++ le 4 4 ++ le 4 0 ++ le 1 1 ++ le 1 0 ++
        le 2 65535 ++ le 4 (4294967296 - 65535) := by
    unfold Rec.fixedFor sample
    simp only [List.length_replicate, List.length_nil]
  simp only
  rw [e]
  decide +kernel

/-- **C27 (not a record).** A buffer of fewer than 40 bytes, or without the signature of version 3
or version 2, is reported as no record: -1. -/
theorem C27_not_a_record (h : Bool) (buf : List UInt8)
    (hn : buf.length < 40 ∨
      (¬ Signature3 buf ∧ ¬ Signature2 buf)) :
    detect h buf = .ok (-1, 0) := by
  unfold detect
  by_cases hl : buf.length < 40
  · rw [if_pos hl]
  · rw [if_neg hl, peek_ok (by omega), peek_ok (by omega), bind_ok, bind_ok]
    rcases hn with hn | ⟨h3, h2⟩
    · exact absurd hn hl
    · have n3 : validHeader3 ((buf.drop 0).take 15) = false := Bool.eq_false_iff.2 fun hv =>
        h3 ((sig3_iff buf (by omega)).1 hv)
      have n2 : validHeader2 ((buf.drop 0).take 27) = false := Bool.eq_false_iff.2 fun hv =>
        h2 ((sig2_iff buf (by omega)).1 hv)
      rw [n3, n2]
      rfl

example : detect false (List.replicate 60 65) = .ok (-1, 0) := by decide +kernel

/-! ## C26: headers round trip -/

/-- What the record description may be: the values fit the C types, the identifier is a string of
at most 63 characters, the record length is one the library accepts, and the start time is from
1678 on and is not the value reserved for errors. -/
structure Packable (nr : Nat → Nat) (m : Msr) : Prop where
  flags : m.flags < 256
  pubversion : m.pubversion < 256
  rate : storedRate nr m.samprate < 18446744073709551616
  sid : m.sid.length ≤ 63
  sidText : ∀ b ∈ m.sid, b ≠ 0
  extra : m.extra.length < 65536
  reclen : m.reclen < 0 ∨ (40 ≤ m.reclen ∧ m.reclen ≤ 10485760)
  time : InInt64 m.starttime
  time1678 : (Fields.mk 1678 1 0 0 0 0).instant ≤ m.starttime
  noError : m.starttime ≠ NSTERROR

theorem year_range (d : Fields) (hv : d.Valid) (hi : InInt64 d.instant)
    (h : (Fields.mk 1678 1 0 0 0 0).instant ≤ d.instant) : 1678 ≤ d.year ∧ d.year ≤ 2262 := by
  obtain ⟨vy, vh, vm, vs, vn⟩ := hv
  have hyl := Proof.yearLen_cases d.year
  have hj : jan1 d.year = Proof.jc d.year := Proof.jan1_eq _
  have hj2 : (Fields.mk 1678 1 0 0 0 0).instant = -9214560000000000000 := by decide +kernel
  rw [hj2] at h
  unfold Proof.jc at hj
  unfold InInt64 at hi
  unfold Fields.instant at h hi
  have h7 : yearLen 1677 = 365 := by decide
  have h8 : d.year = 1677 → d.yday ≤ 365 := by
    intro e; rw [e, h7] at vy; exact vy.2
  omega

theorem packed_valid (nr : Nat → Nat) (m : Msr) (p : Packable nr m) (buf : List UInt8)
    (hb : 40 ≤ buf.length) :
    ∃ t, nstime2time m.starttime = some t ∧ (packed nr m t buf).Valid ∧
      time2nstime t.year.toNat t.yday.toNat t.hour.toNat t.min.toNat t.sec.toNat t.nsec.toNat
        = .ok m.starttime := by
  obtain ⟨t, ht, hv, hi, _⟩ := C01_nstime2time_gregorian m.starttime p.time
  have hy := year_range _ hv (by rw [hi]; exact p.time) (by rw [hi]; exact p.time1678)
  obtain ⟨vy, vh, vm, vs, vn⟩ := id hv
  unfold toFields at vy vh vm vs vn hy
  simp only at vy vh vm vs vn hy
  have hyl := Proof.yearLen_cases t.year
  refine ⟨t, ht, ?_, ?_⟩
  · have l1 : ((buf.drop 24).take 4).length = 4 := by simp; omega
    have l2 : ((buf.drop 28).take 4).length = 4 := by simp; omega
    have u1 := unle_lt ((buf.drop 24).take 4)
    have u2 := unle_lt ((buf.drop 28).take 4)
    rw [l1] at u1
    rw [l2] at u2
    have pe : packEncoding m.encoding < 256 := by
      unfold packEncoding
      split
      · decide
      · exact bits_lt 8 _
    have hs : (m.sid.takeWhile (· != 0)).length ≤ m.sid.length :=
      (List.takeWhile_prefix _).length_le
    have := p.sid
    unfold packed
    constructor <;> simp only [List.length_nil]
    · exact p.flags
    · omega
    · omega
    · omega
    · omega
    · omega
    · omega
    · exact pe
    · exact p.rate
    · exact u1
    · exact u2
    · exact p.pubversion
    · omega
    · exact p.extra
    · decide
  · have e : ∀ x : Int, 0 ≤ x → ((x.toNat : Nat) : Int) = x := fun x h => Int.toNat_of_nonneg h
    rw [e _ (by omega), e _ (by omega), e _ (by omega), e _ (by omega), e _ (by omega),
      e _ (by omega)]
    exact C02_fields_round_trip m.starttime p.time t ht hy

theorem takeWhile_text (s : List UInt8) (h : ∀ b ∈ s, b ≠ 0) : s.takeWhile (· != 0) = s := by
  induction s with
  | nil => rfl
  | cons a s ih =>
    have ha : (a != 0) = true := by simpa using h a (by simp)
    rw [List.takeWhile_cons, ha, if_pos rfl, ih (fun b hb => h b (by simp [hb]))]

/-- **C26.** Writing a header on a host of either byte order and parsing it on a host of either
byte order gives back the identifier, start time, encoding, flags, publication version and extra
headers, and the bits of the stored sample rate: those of the given rate, or of `-1.0 / rate` for a
rate between 0 and 1. -/
theorem C26_header_round_trip (nr : Nat → Nat) (h1 h2 : Bool) (align : Nat) (m : Msr)
    (p : Packable nr m) (buf : List UInt8)
    (hb : 40 + m.sid.length + m.extra.length ≤ buf.length)
    (reclen : Int) (hr : 40 ≤ reclen ∧ reclen ≤ 10485760) :
    ∃ buf' m', packHeader3 nr h1 m buf buf.length
        = .ok (buf', 40 + m.sid.length + m.extra.length) ∧
      unpack3 h2 align buf' reclen false false = .ok (.record m', buf') ∧
      m'.sid = m.sid ∧ m'.starttime = m.starttime ∧ m'.flags = m.flags ∧
      m'.pubversion = m.pubversion ∧ m'.extra = m.extra ∧ m'.formatversion = 3 ∧
      (0 ≤ m.encoding → m.encoding ≤ 255 → m'.encoding = m.encoding) ∧
      ((m.samprate = 0 ∨ 0x3FF0000000000000 ≤ m.samprate) → m'.samprate = m.samprate) ∧
      ((0 < m.samprate ∧ m.samprate < 0x3FF0000000000000) → m'.samprate = nr m.samprate) := by
  obtain ⟨t, ht, hv, htime⟩ := packed_valid nr m p buf (by omega)
  have hsid := takeWhile_text m.sid p.sidText
  have hpl : 40 ≤ packReclen m.reclen ∧ packReclen m.reclen ≤ 10485760 := by
    have := p.reclen
    unfold packReclen
    split <;> omega
  have hl := p.sid
  have hp := packHeader3_eq nr h1 m t buf buf.length hpl ht (by rw [hsid]; omega) p.extra
    (by rw [hsid]; omega) (by rw [hsid]; omega)
  rw [hsid] at hp
  have ld : ((buf.drop 36).take 4).length = 4 := by simp; omega
  have ud := unle_lt ((buf.drop 36).take 4)
  rw [ld] at ud
  have hu := unpack3_rec h2 align (packed nr m t buf) hv (unle ((buf.drop 36).take 4)) ud
    (buf.drop (40 + m.sid.length + m.extra.length)) reclen hr
    (by show (m.sid.takeWhile (· != 0)).length ≤ 63; rw [hsid]; exact hl) false m.starttime
    htime p.noError
  have e1 : (packed nr m t buf).sid = m.sid := hsid
  have e2 : (packed nr m t buf).extra = m.extra := rfl
  rw [e1, e2] at hu
  refine ⟨_, header h2 (packed nr m t buf) (unle ((buf.drop 36).take 4)) reclen m.starttime, hp, ?_,
    hsid, rfl, rfl, rfl, rfl, rfl, ?_, ?_, ?_⟩
  · rw [hu]
    unfold withSamples
    simp [bind_ok]
  · intro a b
    show ((packEncoding m.encoding : Nat) : Int) = m.encoding
    unfold packEncoding bits
    rw [if_neg (by omega)]
    omega
  · intro a
    show storedRate nr m.samprate = m.samprate
    unfold storedRate
    rw [if_neg (by omega)]
  · intro a
    show storedRate nr m.samprate = nr m.samprate
    unfold storedRate
    rw [if_pos a]

/-- **C26 (through `msr3_parse`, little-endian host).** A header written over a zeroed buffer is
itself a record, and `msr3_parse` of it gives the same values and the length of the header. -/
theorem C26_header_parses (unpack2 : List UInt8 → Int → Bool → Res Parsed) (nr : Nat → Nat)
    (h1 : Bool) (align : Nat) (m : Msr)
    (p : Packable nr m) (n : Nat) (hb : 40 + m.sid.length + m.extra.length ≤ n) (ud eof : Bool) :
    ∃ buf' m', packHeader3 nr h1 m (List.replicate n 0) n
        = .ok (buf', 40 + m.sid.length + m.extra.length) ∧
      parse unpack2 false align buf' false ud eof = .ok (.record m', buf') ∧
      m'.sid = m.sid ∧ m'.starttime = m.starttime ∧ m'.flags = m.flags ∧
      m'.pubversion = m.pubversion ∧ m'.extra = m.extra ∧ m'.formatversion = 3 ∧
      m'.samplecnt = 0 ∧ m'.reclen = 40 + m.sid.length + m.extra.length := by
  obtain ⟨t, ht, hv, htime⟩ := packed_valid nr m p (List.replicate n 0) (by simp; omega)
  have hsid := takeWhile_text m.sid p.sidText
  have hpl : 40 ≤ packReclen m.reclen ∧ packReclen m.reclen ≤ 10485760 := by
    have := p.reclen
    unfold packReclen
    split <;> omega
  have hl := p.sid
  have hp := packHeader3_eq nr h1 m t (List.replicate n 0) n hpl ht (by rw [hsid]; omega) p.extra
    (by rw [hsid]; omega) (by rw [hsid]; simp; omega)
  rw [hsid] at hp
  have z : ∀ k, k + 4 ≤ n → unle (((List.replicate n (0 : UInt8)).drop k).take 4) = 0 := by
    intro k hk
    rw [List.drop_replicate, List.take_replicate, Nat.min_eq_left (by omega)]
    decide
  rw [z 36 (by omega)] at hp
  have hx := p.extra
  have e1 : (packed nr m t (List.replicate n 0)).sid = m.sid := hsid
  have e2 : (packed nr m t (List.replicate n 0)).extra = m.extra := rfl
  have e3 : (packed nr m t (List.replicate n 0)).numsamples = 0 := z 24 (by omega)
  generalize (List.replicate n (0 : UInt8)).drop (40 + m.sid.length + m.extra.length) = rest at hp
  have hd := detect_rec _ hv 0 (by decide) (m.sid ++ (m.extra ++ rest))
  rw [e1, e2, Nat.mod_eq_of_lt (by omega)] at hd
  have hu := unpack3_rec false align _ hv 0 (by decide) rest
    ((40 + m.sid.length + m.extra.length + 0 : Nat) : Int) (by omega) (by rw [e1]; exact hl) ud
    m.starttime htime p.noError
  rw [e1, e2] at hu
  refine ⟨_, header false (packed nr m t (List.replicate n 0)) 0
    ((40 + m.sid.length + m.extra.length + 0 : Nat) : Int) m.starttime, hp, ?_,
    e1, rfl, rfl, rfl, rfl, rfl, by simp only [header, e3]; rfl, by simp only [header]; omega⟩
  rw [parse_v3 unpack2 false align _ false ud eof _ hd (by omega) (by omega)
    (by simp [fixed_length]; omega), hu]
  unfold withSamples
  rw [if_neg (by simp [header, e3])]
  rfl

/-- A record description meeting the hypotheses of the two theorems. -/
def sampleMsr : Msr :=
  { sid := [70, 68, 83, 78, 58, 88], flags := 4, starttime := 1325376000000000005,
    samprate := 0x4059000000000000, encoding := 11, pubversion := 1, extra := [123, 125] }

example : Packable id sampleMsr := by
  constructor <;> decide +kernel

/-! ## C30: CRC validation -/

/-- **C30.** With CRC validation, parsing a record (followed by anything) behaves as without it if
the stored CRC is the CRC-32C of the record with a zero CRC field, and otherwise fails with the CRC
error; the buffer is unchanged in both cases.  Little-endian host, as for C27. -/
theorem C30_crc_decides (unpack2 : List UInt8 → Int → Bool → Res Parsed) (align : Nat) (r : Rec)
    (v : r.Valid) (hsid : r.sid.length ≤ 63) (hl : r.bytes.length ≤ 10485760)
    (rest : List UInt8) (ud eof : Bool) :
    parse unpack2 false align (r.bytes ++ rest) true ud eof
      = if r.crc = (Crc.crc32c 0 ({ r with crc := 0 } : Rec).bytes).toNat then
          parse unpack2 false align (r.bytes ++ rest) false ud eof
        else .ok (.invalidCrc, r.bytes ++ rest) := by
  have hd := detect_rec r v _ v.payload (r.sid ++ (r.extra ++ (r.payload ++ rest)))
  have hbl : r.bytes.length = 40 + r.sid.length + r.extra.length + r.payload.length := by
    unfold Rec.bytes Rec.fixed; simp [fixed_length]; omega
  rw [Nat.mod_eq_of_lt (by omega)] at hd
  have hc := unpack3_crc false align r v _ v.payload r.payload rest
    (40 + r.sid.length + r.extra.length + r.payload.length) (by omega) (by simp; omega) hsid ud
  have e : r.bytes ++ rest
      = r.fixedFor r.payload.length ++ (r.sid ++ (r.extra ++ (r.payload ++ rest))) := by
    unfold Rec.bytes Rec.fixed; simp only [List.append_assoc]
  have e0 : ({ r with crc := 0 } : Rec).bytes
      = ({ r with crc := 0 } : Rec).fixedFor r.payload.length ++ (r.sid ++ (r.extra ++ r.payload)) := by
    unfold Rec.bytes Rec.fixed; simp only [List.append_assoc]
  rw [e, e0, parse_v3 unpack2 false align _ true ud eof _ hd (by omega) (by omega)
    (by simp [fixed_length]; omega), parse_v3 unpack2 false align _ false ud eof _ hd (by omega)
    (by omega) (by simp [fixed_length]; omega), hc]

/-- The record of the examples has a CRC that meets the condition, and others do not. -/
example : checkCrc false 0 ({ sample with crc := 0x668df61a } : Rec).bytes 52
    = .ok (true, ({ sample with crc := 0x668df61a } : Rec).bytes) := by
  decide +kernel

example : ({ sample with crc := 0x668df61a } : Rec).Valid := by
  constructor <;> decide

example : unpack3 false 0 ({ sample with crc := 0x668df61b } : Rec).bytes 52 true false
    = .ok (.invalidCrc, ({ sample with crc := 0x668df61b } : Rec).bytes) := by
  decide +kernel

/-- **C30 (bytes unchanged).** Whatever the buffer holds and whatever the outcome, parsing leaves
the caller's bytes as they were (on every host). -/
theorem C30_bytes_unchanged (unpack2 : List UInt8 → Int → Bool → Res Parsed) (h : Bool)
    (align : Nat) (mem mem' : List UInt8) (vc ud eof : Bool) (p : Parsed)
    (hp : parse unpack2 h align mem vc ud eof = .ok (p, mem')) : mem' = mem := by
  have u3 : ∀ reclen p mem', unpack3 h align mem reclen vc ud = .ok (p, mem') → mem' = mem := by
    intro reclen p mem' hp
    unfold unpack3 at hp
    split at hp
    · injection hp with hp; injection hp with _ hp; exact hp.symm
    · rw [bind_eq_ok] at hp
      obtain ⟨_, _, hp⟩ := hp
      split at hp
      · injection hp with hp; injection hp with _ hp; exact hp.symm
      · rw [bind_eq_ok] at hp
        obtain ⟨_, _, hp⟩ := hp
        split at hp
        · rw [bind_eq_ok] at hp
          obtain ⟨_, _, hp⟩ := hp
          injection hp with hp; injection hp with _ hp; exact hp.symm
        · rw [bind_eq_ok] at hp
          obtain ⟨⟨g, m⟩, hc, hp⟩ := hp
          have hm : m = mem := by
            split at hc
            · exact checkCrc_mem _ _ _ _ _ _ hc
            · injection hc with hc; injection hc with _ hc; exact hc.symm
          simp only at hp
          split at hp
          · rw [bind_eq_ok] at hp
            obtain ⟨_, _, hp⟩ := hp
            injection hp with hp; injection hp with _ hp
            rw [← hp, hm]
          · rw [bind_eq_ok] at hp
            obtain ⟨_, _, hp⟩ := hp
            injection hp with hp; injection hp with _ hp
            rw [← hp, hm]
  unfold parse at hp
  rw [bind_eq_ok] at hp
  obtain ⟨⟨n, fv⟩, _, hp⟩ := hp
  simp only at hp
  repeat' split at hp
  all_goals first
    | exact u3 _ _ _ hp
    | (rw [bind_eq_ok] at hp
       obtain ⟨_, _, hp⟩ := hp
       injection hp with hp; injection hp with _ hp; exact hp.symm)
    | (injection hp with hp; injection hp with _ hp; exact hp.symm)

/-! ## C29: staying inside the buffer -/

/-- **C29 (violated, detection).** For a 40-byte buffer with a version 2 header bytes 46 and 47 are
read, and for a chain ending two bytes before the end the four bytes of a blockette header. -/
theorem C29_version2_header_violated :
    (∃ b : List UInt8, b.length = 40 ∧ detect false b = .oob) ∧
    (∃ b : List UInt8, b.length = 64 ∧ detect false b = .oob) :=
  ⟨⟨[48, 48, 48, 48, 48, 49, 68, 32] ++ List.replicate 32 0, by decide, by decide +kernel⟩,
   ⟨[48, 48, 48, 48, 48, 49, 68, 32] ++ List.replicate 38 0 ++ [0, 62] ++ List.replicate 16 0,
    by decide, by decide +kernel⟩⟩

/-- **C29 (violated, parsing).** A 40-byte buffer announcing 65535 bytes of extra headers and
2^32 - 65535 bytes of data is accepted as a complete record and the extra headers are copied from
beyond it. -/
theorem C29_wrapped_length_violated (unpack2 : List UInt8 → Int → Bool → Res Parsed) :
    ∃ b : List UInt8, b.length = 40 ∧ parse unpack2 false 0 b false false false = .oob :=
  ⟨[77, 83, 3, 0, 0, 0, 0, 0, 220, 7, 1, 0, 0, 0, 0, 0] ++ List.replicate 18 0 ++
    [255, 255, 1, 0, 255, 255], by decide, by
      have hd : detect false ([77, 83, 3, 0, 0, 0, 0, 0, 220, 7, 1, 0, 0, 0, 0, 0] ++
        List.replicate 18 0 ++ [255, 255, 1, 0, 255, 255]) = .ok ((40 : Nat), 3) := by decide +kernel
      rw [parse_v3 unpack2 false 0 _ false false false 40 hd (by decide) (by decide) (by decide)]
      decide +kernel⟩

/-- **C29 (violated, decoding).** The number of samples in the header is trusted: a complete and
well-formed 52-byte record with 4 bytes of text data and a count of 5 makes the parser read beyond
the buffer when samples are requested. -/
theorem C29_sample_count_violated (unpack2 : List UInt8 → Int → Bool → Res Parsed) :
    ∃ r : Rec, r.Valid ∧ r.bytes.length = 52 ∧
      parse unpack2 false 0 r.bytes false true false = .oob :=
  ⟨{ sample with numsamples := 5 }, by constructor <;> decide, by decide +kernel, by
    have hd : detect false ({ sample with numsamples := 5 } : Rec).bytes = .ok ((52 : Nat), 3) := by
      decide +kernel
    rw [parse_v3 unpack2 false 0 _ false true false 52 hd (by decide) (by decide) (by decide)]
    decide +kernel⟩

/-- **C29 (partial).** On a little-endian host, let a buffer of at least 40 bytes begin with a
version 3 header that announces fewer than 2^32 bytes in all; anything may follow, or be missing.
Parsing never touches memory outside the buffer: without sample decoding unconditionally, with it
if for the fixed-size encodings the announced samples fit the announced data (and, for text,
integers and floats, fill it or take fewer than 65536 bytes).
Missing: what the three violations above show, big-endian hosts (C27), version 2. -/
theorem C29_parse_in_bounds_partial (unpack2 : List UInt8 → Int → Bool → Res Parsed) (align : Nat)
    (r : Rec) (v : r.Valid) (hl : r.bytes.length < 4294967296) (mem : List UInt8)
    (hb : r.bytes.take 40 = mem.take 40) (vc ud eof : Bool)
    (hs : ud = true → fixedSize r.encoding →
      storedSize r.encoding * r.numsamples ≤ r.payload.length ∧
      (r.encoding ≤ 5 → storedSize r.encoding * r.numsamples = r.payload.length ∨
        storedSize r.encoding * r.numsamples < 65536)) :
    parse unpack2 false align mem vc ud eof ≠ .oob := by
  have e3 : r.bytes.length = 40 + r.sid.length + r.extra.length + r.payload.length := by
    unfold Rec.bytes Rec.fixed; simp [fixed_length]; omega
  have hd := C27_exact_length_partial r v hl mem hb
  by_cases hc : r.bytes.length ≤ 10485760 ∧ r.bytes.length ≤ mem.length
  · rw [parse_v3 unpack2 false align mem vc ud eof _ hd (by omega) hc.1 hc.2]
    obtain ⟨r', rest, v', hsl, hxl, hpl, hen, hns, e6⟩ := actual r v mem hb hc.2
    rw [← hen, ← hns] at hs
    have hml : 40 + r'.sid.length + r'.extra.length + r.payload.length ≤ mem.length := by omega
    generalize r.payload.length = d at *
    generalize r.bytes.length = total at *
    by_cases h63 : r'.sid.length ≤ 63
    · have hfields : unpackFields false align mem (total : Nat) r'.sid.length ud ≠ .oob := by
        have hu := unpackFields_gen false align r' v' d (by omega) (r'.payload ++ rest) (total : Nat)
          ud
        rw [← e6] at hu
        rw [hu]
        cases ht : time2nstime r'.year r'.day r'.hour r'.minute r'.second r'.nsec with
        | ub => simp [ofOut, Res.bind]
        | ok s =>
          simp only [ofOut, bind_ok]
          split
          · simp
          · unfold withSamples
            split
            · rename_i hud
              have hne := unpackData_in_bounds false align
                (header false r' d (total : Nat) s) mem rfl hml
                (by right; show 40 + r'.sid.length + r'.extra.length < _; omega)
                r'.encoding r'.numsamples rfl v'.encoding rfl (hs hud.1)
              revert hne
              cases unpackData false align (header false r' d (total : Nat) s) mem <;> simp
            · simp
      have hnc : unpack3 false align mem (total : Nat) false ud ≠ .oob := by
        have hu := unpack3_gen false align r' v' d (by omega) (r'.payload ++ rest) (total : Nat)
          (by omega) h63 false ud
        rw [← e6] at hu
        rw [hu]
        simp only [Bool.false_eq_true, if_false, bind_ok, Bool.not_true]
        exact bind_ne_oob hfields (by simp)
      cases vc with
      | false => exact hnc
      | true =>
        have hu := unpack3_crc false align r' v' d (by omega) r'.payload rest
          total hc.1 (by simp; omega) h63 ud
        rw [← e6] at hu
        rw [hu]
        split
        · exact hnc
        · simp
    · unfold unpack3
      rw [if_neg (by omega), peek_ok (by omega), bind_ok]
      split
      · simp
      · have := ld_sidlength false r' d (r'.sid ++ (r'.extra ++ (r'.payload ++ rest))) v'
        rw [← e6] at this
        rw [this, bind_ok, if_pos (by omega), peek_ok (by omega)]
        simp [Res.bind]
  · unfold parse
    rw [hd, bind_ok]
    simp only
    rw [if_neg (by omega : ¬ ((3 : Nat) = 2 ∧ _)), if_neg (by omega), if_neg (by omega)]
    split
    · simp
    · rw [if_pos (by omega)]; simp

example : parse (fun _ _ _ => .err) false 0 (sample.bytes.take 50) true true false ≠ .oob :=
  C29_parse_in_bounds_partial _ 0 sample sample_valid (by decide +kernel) _ (by decide +kernel)
    _ _ _ (by decide)

end Verif.Props.Record3
