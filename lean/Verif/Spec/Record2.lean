import Verif.Spec.Detect
/-!
# Specification of miniSEED 2 records (SEED manual, chapter 8)

A record is a fixed header of 48 bytes, a chain of blockettes and data.  The numbers of the header
and of the blockettes are big-endian or little-endian throughout.
-/
namespace Verif.Spec.Record2
open Verif.Spec.Record3

/-- A number in `n` bytes. -/
def num (be : Bool) (n v : Nat) : List UInt8 := if be then (le n v).reverse else le n v

/-- Two's complement in `n` bytes. -/
def twos (n : Nat) (v : Int) : Nat := (v % 256 ^ n).toNat

/-- A time in 10 bytes, `fract` in units of 0.0001 seconds. -/
structure BTime where
  year : Nat
  day : Nat
  hour : Nat
  minute : Nat
  second : Nat
  unused : UInt8
  fract : Nat
deriving DecidableEq, Repr

/-- Its bytes. -/
def BTime.bytes (be : Bool) (t : BTime) : List UInt8 :=
  num be 2 t.year ++ num be 2 t.day ++
  [UInt8.ofNat t.hour, UInt8.ofNat t.minute, UInt8.ofNat t.second, t.unused] ++ num be 2 t.fract

/-- The nanoseconds since 1970. -/
def BTime.instant (t : BTime) : Int :=
  (Fields.mk t.year t.day t.hour t.minute t.second (t.fract * 100000)).instant

/-- A time of a day from 1900 to 2100, but not the instant that the library uses for errors. -/
structure BTime.Valid (t : BTime) : Prop where
  date : Detect.SaneDate t.year t.day ∧ t.day ≤ yearLen t.year
  time : t.hour ≤ 23 ∧ t.minute ≤ 59 ∧ t.second ≤ 60 ∧ t.fract ≤ 9999
  instant : t.instant ≠ -2145916800000000000

/-- A text in a field: filled with spaces, or ended by a NUL with anything after it. -/
structure Label where
  s : List UInt8
  spaces : Nat
  rest : List UInt8
deriving DecidableEq, Repr

/-- Its bytes. -/
def Label.bytes (t : Label) : List UInt8 := t.s ++ List.replicate t.spaces 32 ++ t.rest

/-- An ASCII text in a field of `n` bytes. -/
structure Label.Valid (n : Nat) (t : Label) : Prop where
  length : t.bytes.length = n
  ascii : ∀ x ∈ t.s, 1 ≤ x.toNat ∧ x.toNat ≤ 127
  last : t.s.getLast? ≠ some 32
  rest : t.rest = [] ∨ t.rest.head? = some 0

/-- The blockettes for events, calibrations and timing.  Amplitudes, periods, background estimate and
correction are 32-bit floats (bit patterns), durations are in units of 0.0001 seconds. -/
inductive Mapped where
  /-- 200: generic event detection -/
  | event (amplitude period background : Nat) (flags reserved : UInt8) (onset : BTime) (detector : Label)
  /-- 201: Murdock event detection -/
  | murdock (amplitude period background : Nat) (flags reserved : UInt8) (onset : BTime)
      (snr0 snr1 snr2 snr3 snr4 snr5 lookback pick : UInt8) (detector : Label)
  /-- 300: step calibration -/
  | step (start : BTime) (steps flags : UInt8) (duration interval amplitude : Nat) (channel : Label)
      (reserved : UInt8) (reference : Nat) (coupling rolloff : Label)
  /-- 310: sine calibration -/
  | sine (start : BTime) (reserved1 flags : UInt8) (duration period amplitude : Nat) (channel : Label)
      (reserved2 : UInt8) (reference : Nat) (coupling rolloff : Label)
  /-- 320: pseudo-random calibration -/
  | random (start : BTime) (reserved1 flags : UInt8) (duration amplitude : Nat) (channel : Label)
      (reserved2 : UInt8) (reference : Nat) (coupling rolloff noise : Label)
  /-- 390: generic calibration -/
  | generic (start : BTime) (reserved1 flags : UInt8) (duration amplitude : Nat) (channel : Label)
      (reserved2 : UInt8)
  /-- 395: calibration abort -/
  | abort (stop : BTime) (reserved1 reserved2 : UInt8)
  /-- 500: timing -/
  | clock (correction : Nat) (time : BTime) (micro : Int) (quality : UInt8) (count : Nat) (type model status : Label)
deriving DecidableEq, Repr

/-- The type number. -/
def Mapped.type : Mapped → Nat
  | .event .. => 200
  | .murdock .. => 201
  | .step .. => 300
  | .sine .. => 310
  | .random .. => 320
  | .generic .. => 390
  | .abort .. => 395
  | .clock .. => 500

/-- The fields after type and link. -/
def Mapped.parts (be : Bool) : Mapped → List (List UInt8)
  | .event amplitude period background flags reserved onset detector =>
    [num be 4 amplitude, num be 4 period, num be 4 background, [flags], [reserved], onset.bytes be,
     detector.bytes]
  | .murdock amplitude period background flags reserved onset s0 s1 s2 s3 s4 s5 lookback pick detector =>
    [num be 4 amplitude, num be 4 period, num be 4 background, [flags], [reserved], onset.bytes be,
     [s0], [s1], [s2], [s3], [s4], [s5], [lookback], [pick], detector.bytes]
  | .step start steps flags duration interval amplitude channel reserved reference coupling rolloff =>
    [start.bytes be, [steps], [flags], num be 4 duration, num be 4 interval, num be 4 amplitude,
     channel.bytes, [reserved], num be 4 reference, coupling.bytes, rolloff.bytes]
  | .sine start reserved1 flags duration period amplitude channel reserved2 reference coupling rolloff =>
    [start.bytes be, [reserved1], [flags], num be 4 duration, num be 4 period, num be 4 amplitude,
     channel.bytes, [reserved2], num be 4 reference, coupling.bytes, rolloff.bytes]
  | .random start reserved1 flags duration amplitude channel reserved2 reference coupling rolloff noise =>
    [start.bytes be, [reserved1], [flags], num be 4 duration, num be 4 amplitude,
     channel.bytes, [reserved2], num be 4 reference, coupling.bytes, rolloff.bytes, noise.bytes]
  | .generic start reserved1 flags duration amplitude channel reserved2 =>
    [start.bytes be, [reserved1], [flags], num be 4 duration, num be 4 amplitude, channel.bytes, [reserved2]]
  | .abort stop reserved1 reserved2 => [stop.bytes be, [reserved1], [reserved2]]
  | .clock correction time micro quality count type model status =>
    [num be 4 correction, time.bytes be, [UInt8.ofNat (twos 1 micro)], [quality], num be 4 count,
     type.bytes, model.bytes, status.bytes]

/-- The sizes of the fields. -/
def Mapped.sizes : Mapped → List Nat
  | .event .. => [4, 4, 4, 1, 1, 10, 24]
  | .murdock .. => [4, 4, 4, 1, 1, 10, 1, 1, 1, 1, 1, 1, 1, 1, 24]
  | .step .. => [10, 1, 1, 4, 4, 4, 3, 1, 4, 12, 12]
  | .sine .. => [10, 1, 1, 4, 4, 4, 3, 1, 4, 12, 12]
  | .random .. => [10, 1, 1, 4, 4, 3, 1, 4, 12, 12, 8]
  | .generic .. => [10, 1, 1, 4, 4, 3, 1]
  | .abort .. => [10, 1, 1]
  | .clock .. => [4, 10, 1, 1, 4, 16, 32, 128]

/-- The values fit their fields. -/
def Mapped.Valid : Mapped → Prop
  | .event amplitude period background _ _ onset detector =>
    amplitude < 2 ^ 32 ∧ period < 2 ^ 32 ∧ background < 2 ^ 32 ∧ onset.Valid ∧ detector.Valid 24
  | .murdock amplitude period background _ _ onset _ _ _ _ _ _ _ _ detector =>
    amplitude < 2 ^ 32 ∧ period < 2 ^ 32 ∧ background < 2 ^ 32 ∧ onset.Valid ∧ detector.Valid 24
  | .step start _ _ duration interval amplitude channel _ reference coupling rolloff =>
    start.Valid ∧ duration < 2 ^ 32 ∧ interval < 2 ^ 32 ∧ amplitude < 2 ^ 32 ∧ channel.Valid 3 ∧
    reference < 2 ^ 32 ∧ coupling.Valid 12 ∧ rolloff.Valid 12
  | .sine start _ _ duration period amplitude channel _ reference coupling rolloff =>
    start.Valid ∧ duration < 2 ^ 32 ∧ period < 2 ^ 32 ∧ amplitude < 2 ^ 32 ∧ channel.Valid 3 ∧
    reference < 2 ^ 32 ∧ coupling.Valid 12 ∧ rolloff.Valid 12
  | .random start _ _ duration amplitude channel _ reference coupling rolloff noise =>
    start.Valid ∧ duration < 2 ^ 32 ∧ amplitude < 2 ^ 32 ∧ channel.Valid 3 ∧
    reference < 2 ^ 32 ∧ coupling.Valid 12 ∧ rolloff.Valid 12 ∧ noise.Valid 8
  | .generic start _ _ duration amplitude channel _ =>
    start.Valid ∧ duration < 2 ^ 32 ∧ amplitude < 2 ^ 32 ∧ channel.Valid 3
  | .abort stop _ _ => stop.Valid
  | .clock correction time micro _ count type model status =>
    correction < 2 ^ 32 ∧ time.Valid ∧ -128 ≤ micro ∧ micro ≤ 127 ∧ count < 2 ^ 32 ∧
    type.Valid 16 ∧ model.Valid 32 ∧ status.Valid 128

/-- The texts of type and clock status of a blockette 500 end with a NUL in their fields.  The library writes beyond
its arrays otherwise. -/
def Mapped.Ended : Mapped → Prop
  | .clock _ _ _ _ _ type _ status => type.rest ≠ [] ∧ status.rest ≠ []
  | _ => True

/-- The blockettes of data records. -/
inductive Blkt where
  /-- 100: sample rate as a 32-bit float (bit pattern), 4 more bytes -/
  | rate (float : Nat) (rest : List UInt8)
  /-- 400: beam, 12 bytes -/
  | beam (rest : List UInt8)
  /-- 1000: encoding, byte order of the data (0 little-endian), exponent of the record length -/
  | data (encoding order exponent reserved : UInt8)
  /-- 1001: timing quality, microseconds, 2 more bytes -/
  | timing (quality : UInt8) (micro : Int) (reserved frames : UInt8)
  /-- 2000: opaque data, begins with the length of the blockette -/
  | block2000 (rest : List UInt8)
  /-- 200, 201, 300, 310, 320, 390, 395, 500 -/
  | mapped (m : Mapped)
deriving DecidableEq, Repr

/-- The type number. -/
def Blkt.type : Blkt → Nat
  | .rate .. => 100
  | .beam .. => 400
  | .data .. => 1000
  | .timing .. => 1001
  | .block2000 .. => 2000
  | .mapped m => m.type

/-- The bytes after type and link. -/
def Blkt.body (be : Bool) : Blkt → List UInt8
  | .rate f rest => num be 4 f ++ rest
  | .beam rest => rest
  | .data encoding order exponent reserved => [encoding, order, exponent, reserved]
  | .timing quality micro reserved frames =>
    [quality, UInt8.ofNat (twos 1 micro), reserved, frames]
  | .block2000 rest => num be 2 (6 + rest.length) ++ rest
  | .mapped m => (m.parts be).flatten

/-- The length of a blockette. -/
def Blkt.size : Blkt → Nat
  | .rate _ rest => 8 + rest.length
  | .beam rest => 4 + rest.length
  | .data .. => 8
  | .timing .. => 8
  | .block2000 rest => 6 + rest.length
  | .mapped m => 4 + m.sizes.sum

/-- The values fit their places. -/
def Blkt.Valid : Blkt → Prop
  | .rate f rest => f < 4294967296 ∧ rest.length = 4
  | .beam rest => rest.length = 12
  | .data .. => True
  | .timing _ micro _ _ => -128 ≤ micro ∧ micro ≤ 127
  | .block2000 rest => 6 + rest.length < 65536
  | .mapped m => m.Valid ∧ m.Ended

/-- The rate of a blockette 100. -/
def Blkt.float? : Blkt → Option Nat
  | .rate f _ => some f
  | _ => none

/-- Encoding, byte order and length exponent of a blockette 1000. -/
def Blkt.data? : Blkt → Option (UInt8 × UInt8 × UInt8)
  | .data e o x _ => some (e, o, x)
  | _ => none

/-- Timing quality and microseconds of a blockette 1001. -/
def Blkt.timing? : Blkt → Option (UInt8 × Int)
  | .timing q m _ _ => some (q, m)
  | _ => none

/-- A blockette for events, calibrations or timing. -/
def Blkt.mapped? : Blkt → Option Mapped
  | .mapped m => some m
  | _ => none

/-- The bytes of a chain of blockettes, each with the bytes that follow it, the first at offset
`off`.  The link is the offset of the next blockette, 0 at the end. -/
def chainBytes (be : Bool) : Nat → List (Blkt × List UInt8) → List UInt8
  | _, [] => []
  | off, (b, pad) :: bs =>
    let next := off + b.size + pad.length
    num be 2 b.type ++ num be 2 (if bs = [] then 0 else next) ++ b.body be ++ pad ++
      chainBytes be next bs

/-- A code in a field of `n` bytes, filled with spaces. -/
def padded (n : Nat) (code : List UInt8) : List UInt8 :=
  code ++ List.replicate (n - code.length) 32

/-- The fields of a record.  The time is that of the header, `fract` in units of 0.0001 seconds,
`correction` in the same unit; `chain` are the blockettes after the header, each followed by unused
bytes, `rest` everything after the chain. -/
structure Rec where
  be : Bool
  seq : List UInt8
  quality : UInt8
  reserved : UInt8
  sta : List UInt8
  loc : List UInt8
  band : UInt8
  source : UInt8
  position : UInt8
  net : List UInt8
  year : Nat
  day : Nat
  hour : Nat
  minute : Nat
  second : Nat
  unused : UInt8
  fract : Nat
  numsamples : Nat
  factor : Int
  multiplier : Int
  activity : UInt8
  io : UInt8
  dq : UInt8
  numblockettes : UInt8
  correction : Int
  dataoffset : Nat
  chain : List (Blkt × List UInt8)
  rest : List UInt8
deriving DecidableEq, Repr

/-- The fixed header, 48 bytes. -/
def Rec.fixed (r : Rec) : List UInt8 :=
  r.seq ++ [r.quality, r.reserved] ++ padded 5 r.sta ++ padded 2 r.loc ++
  [r.band, r.source, r.position] ++ padded 2 r.net ++ num r.be 2 r.year ++ num r.be 2 r.day ++
  [UInt8.ofNat r.hour, UInt8.ofNat r.minute, UInt8.ofNat r.second, r.unused] ++
  num r.be 2 r.fract ++ num r.be 2 r.numsamples ++ num r.be 2 (twos 2 r.factor) ++
  num r.be 2 (twos 2 r.multiplier) ++ [r.activity, r.io, r.dq, r.numblockettes] ++
  num r.be 4 (twos 4 r.correction) ++ num r.be 2 r.dataoffset ++
  num r.be 2 (if r.chain = [] then 0 else 48)

/-- The whole record. -/
def Rec.bytes (r : Rec) : List UInt8 := r.fixed ++ chainBytes r.be 48 r.chain ++ r.rest

/-- A printable code without spaces. -/
def Code (c : List UInt8) : Prop := ∀ x ∈ c, 33 ≤ x.toNat ∧ x.toNat ≤ 126

instance (c : List UInt8) : Decidable (Code c) := by unfold Code; infer_instance

/-- Every value fits its place, the start time is a time of a day from 1900 to 2100, and the record
is one of 64 bytes up to the largest length supported.  After blockettes for events, calibrations and timing there
is another byte, as the texts in them are read with the byte after them. -/
structure Rec.Valid (r : Rec) : Prop where
  seq : r.seq.length = 6 ∧ ∀ x ∈ r.seq, 48 ≤ x.toNat ∧ x.toNat ≤ 57
  quality : r.quality ∈ [68, 82, 81, 77]
  reserved : r.reserved = 32
  sta : Code r.sta ∧ r.sta.length ≤ 5
  loc : Code r.loc ∧ r.loc.length ≤ 2
  chan : Code [r.band, r.source, r.position]
  net : Code r.net ∧ r.net.length ≤ 2
  date : Detect.SaneDate r.year r.day ∧ r.day ≤ yearLen r.year
  time : r.hour ≤ 23 ∧ r.minute ≤ 59 ∧ r.second ≤ 60 ∧ r.fract ≤ 9999
  numsamples : r.numsamples < 65536
  factor : -32768 ≤ r.factor ∧ r.factor ≤ 32767
  multiplier : -32768 ≤ r.multiplier ∧ r.multiplier ≤ 32767
  correction : -2147483648 ≤ r.correction ∧ r.correction ≤ 2147483647
  dataoffset : r.dataoffset < 65536 ∧ r.dataoffset ≤ r.bytes.length
  blockettes : ∀ b ∈ r.chain, b.1.Valid
  room : (∃ b ∈ r.chain, b.1.mapped?.isSome) → r.rest ≠ []
  chainEnd : 48 + (chainBytes r.be 48 r.chain).length < 65536
  exponent : ∀ b ∈ r.chain, ∀ e o x, b.1.data? = some (e, o, x) → 2 ^ x.toNat = r.bytes.length
  length : 64 ≤ r.bytes.length ∧ r.bytes.length ≤ 10485760

/-- The source identifier: network, station, location, band, source and position codes. -/
def Rec.sid (r : Rec) : List UInt8 :=
  [70, 68, 83, 78, 58] ++ r.net ++ [95] ++ r.sta ++ [95] ++ r.loc ++ [95] ++
  [r.band, 95, r.source, 95, r.position]

/-- The value of the last blockette that has one. -/
def Rec.last {α : Type} (r : Rec) (f : Blkt → Option α) : Option α :=
  (r.chain.filterMap fun b => f b.1).getLast?

/-- The start time in nanoseconds: the time of the header, plus the correction unless bit 1 of the
activity flags says that it is applied, plus the microseconds of blockette 1001. -/
def Rec.start (r : Rec) : Int :=
  (Fields.mk r.year r.day r.hour r.minute r.second (r.fract * 100000)).instant +
  (if r.activity.toNat.testBit 1 then 0 else r.correction * 100000) +
  (match r.last Blkt.timing? with
   | some (_, m) => m * 1000
   | none => 0)

/-- The byte order of the data: that of the last blockette 1000, otherwise that of the header. -/
def Rec.dataBE (r : Rec) : Bool :=
  match r.last Blkt.data? with
  | some (_, order, _) => order != 0
  | none => r.be

/-- The flag bits that become extra headers: byte (0 activity, 1 I/O, 2 data quality), bit, name. -/
def flagNames : List (Nat × Nat × String) :=
  [ (0, 2, "/FDSN/Event/Begin"), (0, 3, "/FDSN/Event/End"), (0, 6, "/FDSN/Event/InProgress"),
    (1, 0, "/FDSN/Flags/StationVolumeParityError"), (1, 1, "/FDSN/Flags/LongRecordRead"),
    (1, 2, "/FDSN/Flags/ShortRecordRead"), (1, 3, "/FDSN/Flags/StartOfTimeSeries"),
    (1, 4, "/FDSN/Flags/EndOfTimeSeries"), (2, 0, "/FDSN/Flags/AmplifierSaturation"),
    (2, 1, "/FDSN/Flags/DigitizerClipping"), (2, 2, "/FDSN/Flags/Spikes"),
    (2, 3, "/FDSN/Flags/Glitches"), (2, 4, "/FDSN/Flags/MissingData"),
    (2, 5, "/FDSN/Flags/TelemetrySyncError"), (2, 6, "/FDSN/Flags/FilterCharging") ]

/-- The three flag bytes. -/
def Rec.flagByte (r : Rec) : Nat → UInt8
  | 0 => r.activity
  | 1 => r.io
  | _ => r.dq

/-- The publication version: R, D, Q, M are 1, 2, 3, 4. -/
def Rec.version (r : Rec) : Nat :=
  (([82, 68, 81, 77] : List UInt8).findIdx (· == r.quality)) + 1

end Verif.Spec.Record2
