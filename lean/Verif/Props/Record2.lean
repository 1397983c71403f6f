import Verif.Props.Record2Defs
import Verif.Proof.Record2Bounds
/-!
# Reading version 2 records: C71, C72 and C29 for version 2

The specification of the records is `Verif.Spec.Record2`, what is expected of the reader is
`meaning` and `HeadersOf` of `Verif.Props.Record2Defs`.  `h` is the byte order of the host (`true`
for big-endian).
-/
namespace Verif.Props.Record2
open Verif.Model Verif.Model.Bytes Verif.Model.Steim Verif.Model.Mem Verif.Model.Record3
open Verif.Model.Record2 Verif.Proof.Record2 Verif.Proof.Mem Verif.Proof.Detect
open Verif.Model.Detect hiding Blkt
open Verif.Spec Verif.Spec.Record2 Verif.Spec.Detect

/-- A date whose two byte orders are both dates of the years 1900 to 2100. -/
def Ambiguous (r : Rec) : Prop := r.year = 2056 ∧ (r.day = 1 ∨ r.day = 256 ∨ r.day = 257)

instance (r : Rec) : Decidable (Ambiguous r) := by unfold Ambiguous; infer_instance

/-- The instant that is the error value of time stamps, 1902-01-01T00:00:00. -/
def Reserved (r : Rec) : Prop :=
  (Fields.mk r.year r.day r.hour r.minute r.second (r.fract * 100000)).instant =
    (Fields.mk 1902 1 0 0 0 0).instant

instance (r : Rec) : Decidable (Reserved r) := by unfold Reserved; infer_instance

theorem not_reserved {r : Rec} (h : ¬ Reserved r) : (hdrTime r).instant ≠ NSTERROR := by
  intro hc
  apply h
  unfold Reserved
  have : (Fields.mk 1902 1 0 0 0 0).instant = NSTERROR := by decide +kernel
  rw [this]
  exact hc

theorem told {h : Bool} {r : Rec} (hb : r.be = h ∨ ¬ Ambiguous r) : Told h r := hb

/-- **C71 (`msr3_parse`).** A valid version 2 record with a blockette 1000, in either byte order, on
either host, with anything behind it, is read with exactly the fields it stands for. -/
theorem C71_version2_fields (env : Env) (h : Bool) (align : Nat) (r : Rec) (v : r.Valid)
    (hb : r.be = h ∨ ¬ Ambiguous r) (ht : ¬ Reserved r) (hd : (r.last Blkt.data?).isSome)
    (t : List UInt8) (vc eof : Bool) :
    ∃ hs, HeadersOf r hs ∧
      parse (unpack2 env h align) h align (r.bytes ++ t) vc false eof =
        .ok (.record (meaning env h r hs), r.bytes ++ t) := by
  refine ⟨headers2 r, headers_ok r, ?_⟩
  rw [parse2_eq env h align r v (told hb) (not_reserved ht) hd t vc false eof]
  unfold withSamples
  rw [if_neg (by simp), bind_ok, meaning_eq]

/-- **C71 (`msr3_unpack_mseed2`).** The same for a record of known length, with or without a
blockette 1000. -/
theorem C71_version2_unpack (env : Env) (h : Bool) (align : Nat) (r : Rec) (v : r.Valid)
    (hb : r.be = h ∨ ¬ Ambiguous r) (ht : ¬ Reserved r) (t : List UInt8) :
    ∃ hs, HeadersOf r hs ∧ unpack2 env h align (r.bytes ++ t) r.bytes.length false =
      .ok (.record (meaning env h r hs)) := by
  refine ⟨headers2 r, headers_ok r, ?_⟩
  rw [unpack2_eq env h align r v (told hb) (not_reserved ht) t false]
  unfold withSamples
  rw [if_neg (by simp), meaning_eq]

/-- A big-endian record of 128 bytes: XX.ANMO.00.BHZ, 2012-05-11 (day 132) 23:59:60.9999, with
blockettes 1000, 1001 and 100. -/
def sample2 : Rec :=
  { be := true, seq := [48, 48, 48, 48, 48, 49], quality := 77, reserved := 32
    sta := [65, 78, 77, 79], loc := [48, 48], band := 66, source := 72, position := 90
    net := [88, 88], year := 2012, day := 132, hour := 23, minute := 59, second := 60, unused := 0
    fract := 9999, numsamples := 16, factor := -20, multiplier := 1, activity := 0x15, io := 0x20
    dq := 0x82, numblockettes := 3, correction := -7, dataoffset := 80
    chain := [(.data 3 1 7 0, [0, 0]), (.timing 99 (-25) 0 7, []), (.rate 0x41A00000 [0, 0, 0, 0], [])]
    rest := List.replicate 50 7 }

theorem sample2_valid : sample2.Valid := by
  constructor
  case blockettes =>
    intro b hb
    simp only [sample2, List.mem_cons, List.not_mem_nil, or_false] at hb
    rcases hb with rfl | rfl | rfl <;> simp [Blkt.Valid]
  case exponent =>
    intro b hb e o x hx
    simp only [sample2, List.mem_cons, List.not_mem_nil, or_false] at hb
    rcases hb with rfl | rfl | rfl <;> simp [Blkt.data?] at hx
    obtain ⟨rfl, rfl, rfl⟩ := hx
    decide +kernel
  all_goals decide +kernel

/-- The open parts, for examples. -/
def env0 : Env := ⟨fun f m => (f * 1000 + m).toNat, (· + 1), fun hs => [UInt8.ofNat hs.length]⟩

example : sample2.Valid ∧ ¬ Ambiguous sample2 ∧ ¬ Reserved sample2 ∧
    (sample2.last Blkt.data?).isSome :=
  ⟨sample2_valid, by decide, by decide +kernel, by decide⟩

example : sample2.sid = "FDSN:XX_ANMO_00_B_H_Z".toUTF8.toList ∧ sample2.version = 4 ∧
    flagsOf sample2 = 7 ∧
    sample2.start = (Fields.mk 2012 132 23 59 60 (999900000 - 700000 - 25000)).instant := by
  decide +kernel

example : (headers2 sample2) = [.flag "/FDSN/Event/Begin", .leapSecond 1,
    .flag "/FDSN/Flags/DigitizerClipping", .correction (-7), .quality 99] := by decide +kernel

/-- **C71 (violated for one instant).** The start time 1902-01-01T00:00:00 is taken for an error: a
valid record with this time is not read. -/
theorem C71_reserved_time_violated :
    ∃ r : Rec, r.Valid ∧ r.year = 1902 ∧ (r.last Blkt.data?).isSome ∧
      parse (unpack2 env0 false 0) false 0 r.bytes false false false = .ok (.genError, r.bytes) := by
  refine ⟨{ sample2 with year := 1902, day := 1, hour := 0, minute := 0, second := 0, fract := 0 },
    ?_, rfl, rfl, by decide +kernel⟩
  have s := sample2_valid
  exact ⟨s.seq, s.quality, s.reserved, s.sta, s.loc, s.chan, s.net, by decide, by decide,
    s.numsamples, s.factor, s.multiplier, s.correction, s.dataoffset, s.blockettes, s.room, s.chainEnd,
    s.exponent, s.length⟩

/-! ## C72: the byte order -/

/-- A number of two bytes read in the other byte order. -/
def other (v : Nat) : Nat := 256 * (v % 256) + v / 256

/-- **C72 (exactly these dates).** The byte order of a record is taken from its year and day: of all
days from 1900 to 2100, only days 1, 256 and 257 of 2056 are also such days in the other order. -/
theorem C72_ambiguous_dates (y d : Nat) (hs : SaneDate y d) :
    SaneDate (other y) (other d) ↔ y = 2056 ∧ (d = 1 ∨ d = 256 ∨ d = 257) := by
  constructor
  · exact order_exact y d hs
  · rintro ⟨rfl, rfl | rfl | rfl⟩ <;> decide

example : SaneDate 2056 1 ∧ SaneDate 2012 132 := by decide

/-- **C72 (partial).** A valid record reads the same on hosts of either byte order, except for the
two fields that tell whether its bytes needed swapping.  Missing: records of the three days of
2056, `C72_byte_order_violated`. -/
theorem C72_host_independent_partial (env : Env) (align : Nat) (r : Rec) (v : r.Valid)
    (hb : ¬ Ambiguous r) (ht : ¬ Reserved r) (hd : (r.last Blkt.data?).isSome) (t : List UInt8)
    (vc eof : Bool) :
    ∃ m1 m2 mem, parse (unpack2 env false align) false align (r.bytes ++ t) vc false eof =
        .ok (.record m1, mem) ∧
      parse (unpack2 env true align) true align (r.bytes ++ t) vc false eof = .ok (.record m2, mem) ∧
      m2 = { m1 with swapHeader := !m1.swapHeader, swapPayload := !m1.swapPayload } := by
  refine ⟨meaning env false r (headers2 r), meaning env true r (headers2 r), r.bytes ++ t, ?_, ?_, ?_⟩
  · rw [parse2_eq env false align r v (told (Or.inr hb)) (not_reserved ht) hd t vc false eof]
    unfold withSamples
    rw [if_neg (by simp), bind_ok, meaning_eq]
  · rw [parse2_eq env true align r v (told (Or.inr hb)) (not_reserved ht) hd t vc false eof]
    unfold withSamples
    rw [if_neg (by simp), bind_ok, meaning_eq]
  · have e : ∀ b : Bool, (b != true) = !(b != false) := by decide
    unfold meaning
    rw [e r.be, e r.dataBE]

/-- `sample2` on 2056-01-01, with only a blockette 1000. -/
def sample2056 : Rec :=
  { sample2 with year := 2056, day := 1, correction := 0, fract := 0
                 chain := [(.data 3 1 7 0, [])], rest := List.replicate 72 7 }

theorem sample2056_valid : sample2056.Valid := by
  constructor
  case blockettes =>
    intro b hb
    simp only [sample2056, List.mem_cons, List.not_mem_nil, or_false] at hb
    rw [hb]; trivial
  case exponent =>
    intro b hb e o x hx
    simp only [sample2056, List.mem_cons, List.not_mem_nil, or_false] at hb
    rw [hb] at hx
    simp [Blkt.data?] at hx
    obtain ⟨rfl, rfl, rfl⟩ := hx
    decide +kernel
  all_goals decide +kernel

/-- The start time of a parsed record. -/
def startOf : Res (Parsed × List UInt8) → Option Int
  | .ok (.record m, _) => some m.starttime
  | _ => none

/-- **C72 (violated).** A valid big-endian record of 2056-01-01 is not found on a little-endian host:
its blockette chain is looked for at the wrong place and more data is requested.  At the end of a
file it is read with a start time 255 days late. -/
theorem C72_byte_order_violated :
    ∃ r : Rec, r.Valid ∧ r.be = true ∧ (r.last Blkt.data?).isSome ∧
      parse (unpack2 env0 false 0) false 0 r.bytes false false false = .ok (.need 40, r.bytes) ∧
      startOf (parse (unpack2 env0 false 0) false 0 r.bytes false false true) =
        some (r.start + 255 * 86400 * 1000000000) :=
  ⟨sample2056, sample2056_valid, rfl, rfl, by decide +kernel, by decide +kernel⟩

/-! ## C29: staying inside the buffer -/

/-- The first 46 bytes of a big-endian version 2 record, then the offset of the blockettes. -/
def head2 : List UInt8 := sample2.fixed.take 46 ++ [0, 48]

/-- **C29 (violated, version 2 blockettes).** The lengths assumed for blockettes 200, 201, 300, 310,
320 and 500 are too small: a record of 128 bytes, held completely by its buffer, with a blockette 500
in its last 8 bytes makes the parser read beyond the buffer. -/
theorem C29_version2_blockette_violated :
    ∃ b : List UInt8, b.length = 128 ∧
      parse (unpack2 env0 false 0) false 0 b false false false = .oob :=
  ⟨head2 ++ [3, 232, 0, 120, 3, 1, 7, 0] ++ List.replicate 64 0 ++ [1, 244, 0, 0, 0, 0, 0, 0],
    by decide +kernel, by decide +kernel⟩

/-- **C29 (violated, version 2 links).** A link to one of the last 3 bytes of the record is followed,
the header of the blockette is read from beyond the buffer. -/
theorem C29_version2_link_violated :
    ∃ b : List UInt8, b.length = 128 ∧
      parse (unpack2 env0 false 0) false 0 b false false false = .oob :=
  ⟨head2 ++ [3, 232, 0, 126, 3, 1, 7, 0] ++ List.replicate 72 0,
    by decide +kernel, by decide +kernel⟩

/-- The text `t` in a field of `n` bytes, filled with spaces. -/
def spaced (n : Nat) (t : String) : Label := ⟨t.toUTF8.toList, n - t.toUTF8.toList.length, []⟩

/-- The text `t` in a field of `n` bytes, ended by NULs. -/
def ended (n : Nat) (t : String) : Label := ⟨t.toUTF8.toList, 0, List.replicate (n - t.toUTF8.toList.length) 0⟩

/-- 2012-05-11 (day 132) 01:02:03.0405 -/
def onset2 : BTime := ⟨2012, 132, 1, 2, 3, 0, 405⟩

/-- Blockette 200: an event detection. -/
def event2 : Mapped := .event 0x42C80000 0x3F800000 0x40000000 5 0 onset2 (spaced 24 "STA/LTA")

/-- Blockette 300: a step calibration. -/
def step2 : Mapped :=
  .step onset2 3 13 150000 200000 0x42C80000 (spaced 3 "BC0") 0 0x3F800000 (spaced 12 "RESISTIVE") (ended 12 "3DB@10Hz")

/-- Blockette 500: timing, with the label `type` for the type of the exception. -/
def clock2 (type : Label) : Mapped := .clock 0x41200000 onset2 (-25) 90 4 type (spaced 32 "Quanterra GPS") (ended 128 "SNR=23")

/-- `sample2` as a record of 512 bytes with blockettes 1000, 200, 300, 1001 and 500. -/
def eventful (type : Label) : Rec :=
  { sample2 with
    chain := [(.data 3 1 9 0, []), (.mapped event2, []), (.mapped step2, [0, 0]), (.timing 99 (-25) 0 7, []),
      (.mapped (clock2 type), [])]
    dataoffset := 448, numblockettes := 5, rest := List.replicate 134 7 }

theorem label2_valid : (spaced 24 "STA/LTA").Valid 24 ∧ (spaced 3 "BC0").Valid 3 ∧ (spaced 12 "RESISTIVE").Valid 12 ∧
    (ended 12 "3DB@10Hz").Valid 12 ∧ (spaced 32 "Quanterra GPS").Valid 32 ∧ (ended 128 "SNR=23").Valid 128 ∧
    (ended 16 "MISSING").Valid 16 ∧ (spaced 16 "MISSING").Valid 16 := by
  refine ⟨?_, ?_, ?_, ?_, ?_, ?_, ?_, ?_⟩ <;> constructor <;> decide +kernel

theorem onset2_valid : onset2.Valid := by constructor <;> decide +kernel

theorem clock2_valid {type : Label} (v : type.Valid 16) : (clock2 type).Valid := by
  obtain ⟨h1, h2, h3, h4, h5, h6, _⟩ := label2_valid
  exact ⟨by decide, onset2_valid, by decide, by decide, by decide, v, h5, h6⟩

theorem eventful_valid : (eventful (ended 16 "MISSING")).Valid := by
  obtain ⟨h1, h2, h3, h4, h5, h6, h7, _⟩ := label2_valid
  constructor
  case blockettes =>
    intro b hb
    simp only [eventful, List.mem_cons, List.not_mem_nil, or_false] at hb
    rcases hb with rfl | rfl | rfl | rfl | rfl
    · trivial
    · exact ⟨⟨by decide, by decide, by decide, onset2_valid, h1⟩, trivial⟩
    · exact ⟨⟨onset2_valid, by decide, by decide, by decide, h2, by decide, h3, h4⟩, trivial⟩
    · exact ⟨by decide, by decide⟩
    · exact ⟨clock2_valid h7, by decide +kernel, by decide +kernel⟩
  case room => intro _; decide +kernel
  case exponent =>
    intro b hb e o x hx
    simp only [eventful, List.mem_cons, List.not_mem_nil, or_false] at hb
    rcases hb with rfl | rfl | rfl | rfl | rfl <;> simp [Blkt.data?] at hx
    obtain ⟨rfl, rfl, rfl⟩ := hx
    decide +kernel
  all_goals decide +kernel

example : (eventful (ended 16 "MISSING")).Valid ∧ ¬ Ambiguous (eventful (ended 16 "MISSING")) ∧
    ¬ Reserved (eventful (ended 16 "MISSING")) ∧ ((eventful (ended 16 "MISSING")).last Blkt.data?).isSome :=
  ⟨eventful_valid, by decide +kernel, by decide +kernel, by decide +kernel⟩

/-- **C29 (violated, version 2 timing).** A blockette 500 with its type of exception filled with spaces, as the
format has it, makes the parser write beyond the array for the text: undefined behaviour. -/
theorem C29_version2_timing_violated :
    (spaced 16 "MISSING").Valid 16 ∧ (clock2 (spaced 16 "MISSING")).Valid ∧
      parse (unpack2 env0 false 0) false 0 (eventful (spaced 16 "MISSING")).bytes false false false = .ub :=
  ⟨label2_valid.2.2.2.2.2.2.2, clock2_valid label2_valid.2.2.2.2.2.2.2, by decide +kernel⟩

/-- The record length of a parsed record. -/
def reclenOf : Res (Parsed × List UInt8) → Option Int
  | .ok (.record m, _) => some m.reclen
  | _ => none

/-- **C73 (violated).** The record length is taken again from every further blockette 1000: an
exponent of 32 or more is an undefined shift, 31 gives a negative length, 20 a length beyond the
buffer. -/
theorem C73_second_blockette_violated :
    (∃ b : List UInt8, b.length = 128 ∧
      parse (unpack2 env0 false 0) false 0 b false false false = .ub) ∧
    (∃ b : List UInt8, b.length = 128 ∧
      reclenOf (parse (unpack2 env0 false 0) false 0 b false false false) = some (-2147483648)) ∧
    (∃ b : List UInt8, b.length = 128 ∧
      reclenOf (parse (unpack2 env0 false 0) false 0 b false false false) = some 1048576) :=
  ⟨⟨head2 ++ [3, 232, 0, 56, 3, 1, 7, 0] ++ [3, 232, 0, 0, 3, 1, 32, 0] ++ List.replicate 64 0,
    by decide +kernel, by decide +kernel⟩,
   ⟨head2 ++ [3, 232, 0, 56, 3, 1, 7, 0] ++ [3, 232, 0, 0, 3, 1, 31, 0] ++ List.replicate 64 0,
    by decide +kernel, by decide +kernel⟩,
   ⟨head2 ++ [3, 232, 0, 56, 3, 1, 7, 0] ++ [3, 232, 0, 0, 3, 1, 20, 0] ++ List.replicate 64 0,
    by decide +kernel, by decide +kernel⟩⟩

/-- **C73 (partial).** The record length reported for a valid record is its own length, which the
buffer holds.  Missing: records with several blockettes 1000 that disagree,
`C73_second_blockette_violated`. -/
theorem C73_reclen_partial (env : Env) (h : Bool) (align : Nat) (r : Rec) (v : r.Valid)
    (hb : r.be = h ∨ ¬ Ambiguous r) (ht : ¬ Reserved r) (hd : (r.last Blkt.data?).isSome)
    (t : List UInt8) (vc eof : Bool) :
    reclenOf (parse (unpack2 env h align) h align (r.bytes ++ t) vc false eof) =
      some (r.bytes.length : Int) := by
  obtain ⟨hs, -, e⟩ := C71_version2_fields env h align r v hb ht hd t vc eof
  rw [e]
  rfl

example : reclenOf (parse (unpack2 env0 false 0) false 0 (sample2.bytes ++ [1, 2, 3]) false false false)
    = some 128 := by decide +kernel

/-- **C29 (partial, version 2).** Whatever the bytes, reading the header and the blockettes of a
record that is followed by 193 more bytes never leaves the buffer, and the chain of blockettes
always ends.  Missing: records nearer to the end of the buffer, see the violations; samples. -/
theorem C29_unpack2_in_bounds_partial (env : Env) (h : Bool) (align : Nat) (mem : List UInt8)
    (reclen : Int) (hl : 48 ≤ mem.length) (hm : reclen + 193 ≤ mem.length) :
    unpack2 env h align mem reclen false ≠ .oob ∧ unpack2 env h align mem reclen false ≠ .err :=
  unpack2_ne env h align mem reclen hl hm

example : (head2 ++ [1, 244, 0, 0, 0, 0, 0, 0] ++ List.replicate 201 0).length = 64 + 193 ∧
    unpack2 env0 false 0 (head2 ++ [1, 244, 0, 0, 0, 0, 0, 0] ++ List.replicate 201 0) 64 false ≠
      .ub := by decide +kernel

end Verif.Props.Record2
