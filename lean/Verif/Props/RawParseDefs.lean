import Verif.Model.RawParse
import Verif.Spec.RawParse
import Verif.Spec.Record2
/-!
# What the header checks should tell

For each message how often it is given, in terms of the bytes of the record.
-/
namespace Verif.Props.RawParse
open Verif.Model.RawParse Verif.Spec.Detect Verif.Spec.RawParse

/-- Once if `p`, otherwise not at all. -/
def once (p : Prop) [Decidable p] : Nat := if p then 1 else 0

/-- The messages about a version 3 header of which `n` bytes are given.  An identifier that is too short or does not end in the
bytes given ends the checks. -/
structure Told3 (buf : List UInt8) (n : Nat) (ms : List Message) : Prop where
  identifier : ms.count .identifier = once (u8 buf 33 < 4)
  cut : ms.count .cut = once (4 ≤ u8 buf 33 ∧ 40 + u8 buf 33 > n)
  indicator : ms.count .indicator = once ((4 ≤ u8 buf 33 ∧ 40 + u8 buf 33 ≤ n) ∧ ¬ (u8 buf 0 = 77 ∧ u8 buf 1 = 83))
  version : ms.count .version = once ((4 ≤ u8 buf 33 ∧ 40 + u8 buf 33 ≤ n) ∧ u8 buf 2 ≠ 3)
  year : ms.count .year =
    once ((4 ≤ u8 buf 33 ∧ 40 + u8 buf 33 ≤ n) ∧ ¬ (1900 ≤ u16 false buf 8 ∧ u16 false buf 8 ≤ 2100))
  day : ms.count .day = once ((4 ≤ u8 buf 33 ∧ 40 + u8 buf 33 ≤ n) ∧ ¬ (1 ≤ u16 false buf 10 ∧ u16 false buf 10 ≤ 366))
  hour : ms.count .hour = once ((4 ≤ u8 buf 33 ∧ 40 + u8 buf 33 ≤ n) ∧ 23 < u8 buf 12)
  minute : ms.count .minute = once ((4 ≤ u8 buf 33 ∧ 40 + u8 buf 33 ≤ n) ∧ 59 < u8 buf 13)
  second : ms.count .second = once ((4 ≤ u8 buf 33 ∧ 40 + u8 buf 33 ≤ n) ∧ 60 < u8 buf 14)
  fraction : ms.count .fraction = once ((4 ≤ u8 buf 33 ∧ 40 + u8 buf 33 ≤ n) ∧ 999999999 < u32le buf 4)
  only : ∀ m ∈ ms, m ∈ [Message.identifier, .cut, .indicator, .version, .year, .day, .hour, .minute, .second, .fraction]

/-- A sound version 3 header in `n` bytes. -/
structure Sound3 (buf : List UInt8) (n : Nat) : Prop where
  identifier : 4 ≤ u8 buf 33 ∧ 40 + u8 buf 33 ≤ n
  indicator : u8 buf 0 = 77 ∧ u8 buf 1 = 83 ∧ u8 buf 2 = 3
  date : 1900 ≤ u16 false buf 8 ∧ u16 false buf 8 ≤ 2100 ∧ 1 ≤ u16 false buf 10 ∧ u16 false buf 10 ≤ 366
  time : u8 buf 12 ≤ 23 ∧ u8 buf 13 ≤ 59 ∧ u8 buf 14 ≤ 60 ∧ u32le buf 4 ≤ 999999999

/-- The messages about the fixed header of a version 2 record. -/
structure ToldHead (be : Bool) (buf : List UInt8) (ms : List Message) : Prop where
  sequence : ms.count .sequence = once (¬ ∀ i ∈ List.range 6, Digit (u8 buf i))
  indicator : ms.count .indicator = once (u8 buf 6 ∉ [68, 82, 81, 77])
  reserved : ms.count .reserved = once (u8 buf 7 ≠ 32 ∧ u8 buf 7 ≠ 0)
  station : ms.count .station = once (¬ ∀ i ∈ List.range 5, CodeChar (u8 buf (8 + i)))
  location : ms.count .location = once (¬ ∀ i ∈ List.range 2, CodeChar (u8 buf (13 + i)))
  channel : ms.count .channel = once (¬ ∀ i ∈ List.range 3, CodeChar (u8 buf (15 + i)))
  network : ms.count .network = once (¬ ∀ i ∈ List.range 2, CodeChar (u8 buf (18 + i)))
  year : ms.count .year = once (¬ (1900 ≤ u16 be buf 20 ∧ u16 be buf 20 ≤ 2100))
  day : ms.count .day = once (¬ (1 ≤ u16 be buf 22 ∧ u16 be buf 22 ≤ 366))
  hour : ms.count .hour = once (23 < u8 buf 24)
  minute : ms.count .minute = once (59 < u8 buf 25)
  second : ms.count .second = once (60 < u8 buf 26)
  fraction : ms.count .fraction = once (9999 < u16 be buf 28)
  samples : ms.count .samples = once (20000 < u16 be buf 30)
  space : ms.count .space = once (0 < u16 be buf 30 ∧ 0 < u8 buf 39 ∧ u16 be buf 44 ≤ u16 be buf 46)

/-- An encoding with a number in the SEED manual. -/
def KnownEncoding (e : Nat) : Prop := e ≤ 5 ∨ (10 ≤ e ∧ e ≤ 19) ∨ (30 ≤ e ∧ e ≤ 33)

instance (e : Nat) : Decidable (KnownEncoding e) := by unfold KnownEncoding; infer_instance

/-- The messages about a sound chain of blockettes at these offsets. -/
structure ToldChain (be : Bool) (buf : List UInt8) (offs : List Nat) (ms : List Message) : Prop where
  encoding : ms.count .encoding = offs.countP fun o => u16 be buf o = 1000 ∧ ¬ KnownEncoding (u8 buf (o + 4))
  order : ms.count .order = offs.countP fun o => u16 be buf o = 1000 ∧ ¬ (u8 buf (o + 5) = 0 ∨ u8 buf (o + 5) = 1)
  dataBeyond : ms.count .dataBeyond = once (∀ l ∈ recordLength be buf offs, l < u16 be buf 44)
  firstBeyond : ms.count .firstBeyond = once (∀ l ∈ recordLength be buf offs, l < u16 be buf 46)
  count : ms.count .count = once (u8 buf 39 ≠ offs.length)
  /-- Data that begins before the end of the last blockette, if the library knows how long that is. -/
  dataWithin : ∀ o size, offs.getLast? = some o → Sized be buf o size →
    u16 be buf o ∉ [200, 201, 300, 310, 320, 500] →
    ms.count .dataWithin = once (0 < u16 be buf 30 ∧ u16 be buf 44 < o + size)
  /-- Never without reason. -/
  dataOutside : ∀ o size, offs.getLast? = some o → Sized be buf o size → (u16 be buf 30 = 0 ∨ o + size ≤ u16 be buf 44) →
    ms.count .dataWithin = 0
  none : ∀ m ∈ [Message.length, .fit, .type, .link, .beyond, .maxreclen, .identifier, .cut, .version], ms.count m = 0

/-- A record of which every part is as the manual says, and as many samples as the check allows. -/
structure Clean (r : Verif.Spec.Record2.Rec) : Prop where
  codes : ∀ x ∈ r.sta ++ r.loc ++ [r.band, r.source, r.position] ++ r.net, CodeChar x.toNat
  samples : r.numsamples ≤ 20000
  count : r.numblockettes.toNat = r.chain.length
  length : (r.last Verif.Spec.Record2.Blkt.data?).isSome
  encodings : ∀ b ∈ r.chain, ∀ e o x, b.1.data? = some (e, o, x) → KnownEncoding e.toNat ∧ (o = 0 ∨ o = 1)

end Verif.Props.RawParse
