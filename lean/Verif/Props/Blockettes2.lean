import Verif.Proof.Blockettes2Within
import Verif.Proof.Blockettes2Header
import Verif.Props.Headers2
import Verif.Props.Pack2
/-!
# Extra headers in version 2 headers (C116)
-/
namespace Verif.Props.Blockettes2
open Verif.Spec.Json Verif.Spec.Record2 Verif.Props.ExtraHeaders Verif.Props.Headers2 Verif.Props.JsonText
open Verif.Model Verif.Model.Steim Verif.Model.Pack2 Verif.Model.Blockettes2
open Verif.Model.Record3 (Msr packEncoding packReclen)
open Verif.Model.JsonText (Reals)
open Verif.Proof.Pack2 Verif.Proof.Blockettes2
open Verif.Props.Pack2 (Within Some2 Readable Reads2 ExtraKept)
open Verif.Props.Pack (Divides)

/-- **C116 (partial, the header).** Extra headers that describe timing exceptions, event detections and calibrations become a
header with exactly the blockettes for these, in this order, big-endian, and with the flags, leap second, time correction
and timing quality that they say; only the header is written to the buffer.  Missing: entries that say what no blockette can hold,
those of the reader for the end of a calibration (`C116_abort_violated`), and the limit of MEDLookback and
MEDPickAlgorithm (`C116_limit_violated`), which `Canonical` leaves out, as it does negative VCO corrections. -/
theorem C116_header_partial {reals : Reals} {n : Headers2.Numbers} {k : Numbers} (hi : Inverse n k) (h : Bool) {v : Json}
    {clocks events : List Mapped} {shots : List Calibrated} (hd : Describes n (some v) clocks events shots)
    (hv : ∀ m ∈ blockettes clocks events shots, m.Valid ∧ Canonical m) (hc : Corrected k (some v))
    (rates : Rates) (m : Msr) (ht : Document reals.read v m.extra)
    {net sta loc : List UInt8} {band source position : UInt8} (hn : Names m.sid net sta loc band source position)
    {exponent : Nat} (he : 7 ≤ exponent ∧ exponent ≤ 17) (hr : packReclen m.reclen = (2 ^ exponent : Nat))
    (hg : GoodTime2 m.starttime) {factor multiplier : Int} (hf : rates.factors m.samprate = some (factor, multiplier))
    (buf : List UInt8) (hb : 76 + ((blockettes clocks events shots).map fun m => (Blkt.mapped m).size).sum ≤ buf.length) (hL : buf.length < 2 ^ 32) :
    ∃ r size, packHeader2 rates (json reals h k) h m buf buf.length = .ok (r.bytes, size) ∧
      Carries k (some v) m.starttime (blockettes clocks events shots) r ∧ r.rest = buf.drop size ∧
      size = 48 + (chainBytes true 48 r.chain).length := by
  obtain ⟨dt, htime⟩ := good_time2 _ hg
  obtain ⟨_, hx⟩ := json_text (h := h) (k := k) ht
  let d : Head :=
    { time := dt, factor := factor, multiplier := multiplier, extra := extra h k (some v),
      poor := rates.poor m.samprate factor multiplier, float := rates.narrow m.samprate, exponent := exponent,
      more := blockettes clocks events shots }
  have hst : Stores d.extra.steps d.more := steps_stores hi hd hv (overflow_nil hc)
  have hsize : d.size ≤ buf.length := by
    have := (base_cases d).1
    have e : d.size = d.baseSize + total (blockettes clocks events shots) := rfl
    unfold total at e
    omega
  refine ⟨_, d.size, packHeader2_eq rates (json reals h k) h m net sta loc band source position d buf hn he hr htime.time hf hx
    hst rfl rfl hsize hL, head_carries (m := m) (d := d) (extra_meant h hc) hc htime.micro, rfl, ?_⟩
  exact (chain_size d (stores_total hst) (packEncoding m.encoding)).symm

/-- **C116 (partial, read back).** Records packed with such extra headers are read back with the fields of exactly these
blockettes, and with the flags, leap second, time correction and timing quality of the extra headers.  Missing: timing
exceptions, which `Blkt.Valid` allows only with texts that have an end, as the packer does not write them
(`C116_exception_violated`). -/
theorem C116_read_back_partial {reals : Reals} {n : Headers2.Numbers} {k : Numbers} (hi : Inverse n k) (h : Bool) {v : Json}
    {clocks events : List Mapped} {shots : List Calibrated} (hd : Describes n (some v) clocks events shots)
    (hv : ∀ m ∈ blockettes clocks events shots, (Blkt.mapped m).Valid ∧ Canonical m) (hc : Corrected k (some v))
    (rates : Rates) (sampletime : Int → Nat → Nat → Out Int) (m : Msr) (ht : Document reals.read v m.extra)
    {net sta loc : List UInt8} {band source position : UInt8} (hn : Names m.sid net sta loc band source position)
    {d : Head} (hx : json reals h k m.extra = some d.extra) (hm : d.more = blockettes clocks events shots)
    (he : 7 ≤ d.exponent ∧ d.exponent ≤ 17) (hr : packReclen m.reclen = (2 ^ d.exponent : Nat)) (hdef : m.reclen < 0 → m.reclen = -1)
    (hg : GoodTime2 m.starttime) (htime : nstime2time m.starttime = some d.time)
    (hf : rates.factors m.samprate = some (d.factor, d.multiplier))
    (hfm : -32768 ≤ d.factor ∧ d.factor ≤ 32767 ∧ -32768 ≤ d.multiplier ∧ d.multiplier ≤ 32767)
    (hp : d.poor = rates.poor m.samprate d.factor d.multiplier) (hfl : d.float = rates.narrow m.samprate ∧ d.float < 2 ^ 32)
    (htimes : ∀ i, 0 < i → i < m.samples.count → ∃ t, sampletime m.starttime i m.samprate = .ok t ∧ GoodTime2 t)
    (hfit : d.size < 2 ^ d.exponent ∧ d.size ≤ 65472) (s : Some2 m) (rd : Readable m d)
    (flush : Bool) (junk : List UInt8) (hj : packReclen m.reclen ≤ junk.length + 48) (p : Pack.Packing)
    (hpack : msrPack2 rates (json reals h k) sampletime h m flush junk (m.samples.count + 1) = .ok p) :
    ∃ x, Meant k (some v) x ∧ Divides (fun _ _ r => ∀ env, Reads2 env r (fun m' =>
      ∃ hs, ExtraKept m.starttime x (blockettes clocks events shots) hs ∧ m'.extra = if hs = [] then [] else env.json hs))
      0 p.records p.packed := by
  obtain ⟨hx1, hx2⟩ := json_text (h := h) (k := k) ht
  have hde : d.extra = extra h k (some v) := Option.some.inj (hx.symm.trans hx1)
  have hmean : Meant k (some v) d.extra := hde ▸ extra_meant h hc
  have i : Input2 rates (json reals h k) sampletime m net sta loc band source position d :=
    { names := hn, exponent := he, reclen := hr, default := hdef, start := hg, time := htime, factors := hf,
      factor := ⟨hfm.1, hfm.2.1⟩, multiplier := hfm.2.2, poor := hp, float := hfl,
      extra := by rw [hde]; exact hx2
      correction := by
        intro c hcc
        obtain ⟨e, h1, h2⟩ := (hmean.correction c).1 hcc
        obtain ⟨c', h3, h4⟩ := hc e h1
        rw [h2] at h3
        cases h3
        exact h4
      times := htimes
      stores := by
        rw [hde, hm]
        exact steps_stores hi hd (fun b hb => ⟨(hv b hb).1.1, (hv b hb).2⟩) (overflow_nil hc)
      more := by
        rw [hm]
        exact fun b hb => (hv b hb).1
      fits := fun _ => hfit }
  refine ⟨d.extra, hmean, ?_⟩
  have := Pack2.C88_extra_headers_kept_partial rates (json reals h k) sampletime h m net sta loc band source position d flush
    junk p i s rd hj hpack
  rw [hm] at this
  exact this

/-- **C116 (partial, converted).** The extra headers that a valid version 2 record is read with (C115) become a header with the
same blockettes 201, 300, 310, 320, 390 and 500, those for timing exceptions first, then those for event detections.
Missing: blockettes 200, whose direction of the wave the reader takes for the opposite (`C116_wave_violated`), and 395
(`C116_abort_violated`). -/
theorem C116_converted_partial {reals : Reals} {n : Headers2.Numbers} {k : Numbers} (hi : Inverse n k) (h : Bool) {known : Bool → Bool}
    {r : Rec} {v : Json} (hd : Documented n known r (some v)) (hr : Convertible r)
    (hv : ∀ b ∈ mapped r, b.Valid ∧ Canonical b) (hc : Corrected k (some v))
    (rates : Rates) (m : Msr) (ht : Document reals.read v m.extra)
    {net sta loc : List UInt8} {band source position : UInt8} (hn : Names m.sid net sta loc band source position)
    {exponent : Nat} (he : 7 ≤ exponent ∧ exponent ≤ 17) (hrl : packReclen m.reclen = (2 ^ exponent : Nat))
    (hg : GoodTime2 m.starttime) {factor multiplier : Int} (hf : rates.factors m.samprate = some (factor, multiplier))
    (buf : List UInt8) (hb : 76 + ((mapped r).map fun m => (Blkt.mapped m).size).sum ≤ buf.length) (hL : buf.length < 2 ^ 32) :
    ∃ r' size, packHeader2 rates (json reals h k) h m buf buf.length = .ok (r'.bytes, size) ∧ r'.rest = buf.drop size ∧
      mapped r' = (mapped r).filter (·.type = 500) ++ (mapped r).filter (·.type = 201) ++
        (mapped r).filter (·.type ∈ [300, 310, 320, 390]) := by
  have hds := describes_converted hd hr
  have hbl : blockettes ((mapped r).filter (·.type = 500)) ((mapped r).filter (·.type = 201))
      (((mapped r).filter (·.type ∈ [300, 310, 320, 390])).map fun m => .shot m none) =
      (mapped r).filter (·.type = 500) ++ (mapped r).filter (·.type = 201) ++
        (mapped r).filter (·.type ∈ [300, 310, 320, 390]) := by
    unfold blockettes
    rw [List.flatMap_map]
    congr 1
    exact List.flatMap_singleton' _
  have hmem : ∀ b ∈ (mapped r).filter (·.type = 500) ++ (mapped r).filter (·.type = 201) ++
      (mapped r).filter (·.type ∈ [300, 310, 320, 390]), b ∈ mapped r := by
    intro b hb
    simp only [List.mem_append] at hb
    rcases hb with (hb | hb) | hb <;> exact (List.mem_filter.1 hb).1
  obtain ⟨r', size, h1, h2, h3, _⟩ := C116_header_partial hi h hds
    (by rw [hbl]; exact fun b hb => hv b (hmem b hb)) hc rates m ht hn he hrl hg hf buf
    (by
      rw [hbl]
      have := sizes_split (fun m => (Blkt.mapped m).size) (mapped r)
      omega) hL
  exact ⟨r', size, h1, h3, h2.blockettes.trans hbl⟩

/-- **C116 (partial, bounds).** Whatever the extra headers are, the header is written inside of a buffer of at least 76
bytes, as long as no event detection has more than 32 ratios.  Missing: `C116_ratios_violated`. -/
theorem C116_bounds_partial (reals : Reals) (k : Numbers) (h : Bool) (rates : Rates) (m : Msr)
    (hr : ∀ v, Document reals.read v m.extra → Few 32 (some v)) (buf : List UInt8) (recbuflen : Nat) (h76 : 76 ≤ recbuflen)
    (hb : recbuflen ≤ buf.length) (hL : recbuflen < 4294967296) :
    packHeader2 rates (json reals h k) h m buf recbuflen ≠ .oob ∧
    ∀ b n, packHeader2 rates (json reals h k) h m buf recbuflen = .ok (b, n) →
      b.length = buf.length ∧ 56 ≤ n ∧ n ≤ recbuflen := by
  refine Pack2.C89_header2_buffer_partial rates (json reals h k) h m buf recbuflen h76 hb hL ?_
  intro e he
  unfold Verif.Model.Pack2.extraOf at he
  split at he
  · unfold json at he
    obtain ⟨v, hv, rfl⟩ := Option.map_eq_some_iff.1 he
    exact steps_within h k (some v) (hr v ((Verif.Proof.Json.read_document reals v _).1 hv))
  · cases he
    intro type size ws hs
    cases hs

/-! ## Examples and violations -/

/-- For examples: numbers are their bits. -/
def toyBack : Numbers where
  int i := UInt64.ofNat i.toNat
  narrow d := d.toNat
  tenths d := some d.toNat
  whole d := some d.toNat
  byte d := if d.toNat < 256 then some d.toNat else none
  shift d := if d.toNat < 2 ^ 31 then some d.toNat else none
  sign d := if d.toNat = 0 then 0 else 1
  rnd x := x

/-- There is an inverse conversion. -/
theorem toy_inverse : Inverse toyNumbers toyBack where
  narrow f hf h := by
    show (if f / 2 ^ 23 % 256 = 255 then _ else UInt64.ofNat (f % 2 ^ 32)).toNat = f
    rw [if_neg h, UInt64.toNat_ofNat']
    omega
  widen_zero f hf := by
    show (if f / 2 ^ 23 % 256 = 255 then (0x7FF8000000000000 : UInt64) else UInt64.ofNat (f % 2 ^ 32)).toNat % 2 ^ 63 = 0 → _
    split
    · intro h; exact absurd h (by decide)
    · rw [UInt64.toNat_ofNat']
      omega
  widen_sign f hf h := by
    show (if f / 2 ^ 23 % 256 = 255 then _ else UInt64.ofNat (f % 2 ^ 32)).toNat ≤ _ ∨ _
    rw [if_neg h, UInt64.toNat_ofNat']
    omega
  tenths v hv := by
    show some (UInt64.ofNat ((v : Int).natAbs % 2 ^ 32)).toNat = some v
    rw [UInt64.toNat_ofNat']
    congr 1
    omega
  tenths_zero v hv := by
    show (UInt64.ofNat ((v : Int).natAbs % 2 ^ 32)).toNat % 2 ^ 63 = 0 → _
    rw [UInt64.toNat_ofNat']
    omega
  whole v hv := by
    show some (UInt64.ofNat (v % 2 ^ 32)).toNat = some v
    rw [UInt64.toNat_ofNat']
    congr 1
    omega
  whole_zero v hv := by
    show (UInt64.ofNat (v % 2 ^ 32)).toNat % 2 ^ 63 = 0 → _
    rw [UInt64.toNat_ofNat']
    omega
  byte b hb := by
    show (if (UInt64.ofNat (b : Int).toNat).toNat < 256 then some (UInt64.ofNat (b : Int).toNat).toNat else none) = some b
    have : (UInt64.ofNat (b : Int).toNat).toNat = b := by
      rw [UInt64.toNat_ofNat']
      omega
    rw [this, if_pos hb]
  rnd := Verif.Spec.rounding_id

/-- A description without samples and with extra headers, for records of this length. -/
def with' (extra : String) (reclen : Int) : Msr :=
  { Pack2.thirty with extra := Verif.Model.ExtraHeaders.lit extra, reclen := reclen, starttime := 1325376000000000000, samples := .ints [] }

/-- The header of 128 bytes for extra headers. -/
def header128 (extra : String) : Res (List UInt8 × Nat) :=
  packHeader2 (Pack2.rates0 false) (json toy false toyBack) false (with' extra 128) (List.replicate 128 0) 128

/-- The record without samples for extra headers, read again. -/
def again (extra : String) (reclen : Nat) : Res (Option (List UInt8)) :=
  (msrPack2 (Pack2.rates0 false) (json toy false toyBack) Pack2.every125 false (with' extra reclen) true (List.replicate reclen 0) 1).bind
    fun p => (Record3.parse (Record2.unpack2 (Headers2.env (Verif.Model.ExtraHeaders.codec toy) toyNumbers fun _ _ => 0) false 0) false 0
      (p.records.headD []) false false false).bind fun m => .ok (extraOf (.ok m))

/-- **C116 (violated, end of a calibration).** What the reader makes of a blockette 395, an entry of the type ABORT with an end
(`Verif.Props.Headers2.calibration`), is refused by the packer, with all other headers, while the end alone is accepted. -/
theorem C116_abort_violated :
    header128 "{\"FDSN\":{\"Calibration\":{\"Sequence\":[{\"Type\":\"ABORT\",\"EndTime\":\"2012-01-01T00:00:00Z\"}]}}}" = .err ∧
    ∃ b, header128 "{\"FDSN\":{\"Calibration\":{\"Sequence\":[{\"EndTime\":\"2012-01-01T00:00:00Z\"}]}}}" = .ok (b, 72) := by
  constructor
  · have : ∀ r : Res (List UInt8 × Nat), (match r with | .err => true | _ => false) = true → r = .err := by
      intro r hr
      cases r <;> first | rfl | cases hr
    exact this _ (by decide +kernel)
  · have : ∀ r : Res (List UInt8 × Nat), (match r with | .ok (_, n) => n == 72 | _ => false) = true → ∃ b, r = .ok (b, 72) := by
      intro r hr
      cases r with
      | ok p =>
        obtain ⟨b, n⟩ := p
        have : n = 72 := by simpa using hr
        exact ⟨b, by rw [this]⟩
      | _ => cases hr
    exact this _ (by decide +kernel)

/-- **C116 (violated, limits).** A MEDLookback and a MEDPickAlgorithm of 255, which blockette 201 can hold, are written as 0. -/
theorem C116_limit_violated : ∃ b,
    header128 "{\"FDSN\":{\"Event\":{\"Detection\":[{\"Type\":\"MURDOCK\",\"MEDLookback\":255,\"MEDPickAlgorithm\":255}]}}}" = .ok b ∧
    header128 "{\"FDSN\":{\"Event\":{\"Detection\":[{\"Type\":\"MURDOCK\",\"MEDLookback\":0,\"MEDPickAlgorithm\":0}]}}}" = .ok b := by
  have : ∀ r s : Res (List UInt8 × Nat), (match r, s with | .ok a, .ok b => a == b | _, _ => false) = true →
      ∃ b, r = .ok b ∧ s = .ok b := by
    intro r s hr
    cases r <;> cases s <;> first | cases hr | skip
    rename_i a b
    have : a = b := by simpa using hr
    exact ⟨a, rfl, by rw [this]⟩
  exact this _ _ (by decide +kernel)

/-- **C116 (violated, ratios).** An event detection with 45 ratios makes the packer write beyond the end of a buffer that has
more space than the header needs. -/
theorem C116_ratios_violated :
    header128 ("{\"FDSN\":{\"Event\":{\"Detection\":[{\"Type\":\"MURDOCK\",\"MEDSNR\":[1,1,1,1,1,1,1,1,1,1,1,1,1,1,1,1,1,1,1,1,1,1," ++
      "1,1,1,1,1,1,1,1,1,1,1,1,1,1,1,1,1,1,1,1,1,1,1]}]}}}") = .oob ∧
    ∃ b, header128 "{\"FDSN\":{\"Event\":{\"Detection\":[{\"Type\":\"MURDOCK\",\"MEDSNR\":[1,1,1,1,1,1]}]}}}" = .ok (b, 116) := by
  constructor
  · have : ∀ r : Res (List UInt8 × Nat), (match r with | .oob => true | _ => false) = true → r = .oob := by
      intro r hr
      cases r <;> first | rfl | cases hr
    exact this _ (by decide +kernel)
  · have : ∀ r : Res (List UInt8 × Nat), (match r with | .ok (_, n) => n == 116 | _ => false) = true → ∃ b, r = .ok (b, 116) := by
      intro r hr
      cases r with
      | ok p =>
        obtain ⟨b, n⟩ := p
        have : n = 116 := by simpa using hr
        exact ⟨b, by rw [this]⟩
      | _ => cases hr
    exact this _ (by decide +kernel)

/-- **C116 (violated, direction of the wave).** A direction is written as the manual says, and then not found by the reader,
and without one the reader makes it up. -/
theorem C116_wave_violated :
    again ("{\"FDSN\":{\"Event\":{\"Detection\":[{\"Type\":\"GENERIC\",\"Wave\":\"DILATATION\",\"Units\":\"COUNTS\"," ++
        "\"OnsetTime\":\"2012-01-01T00:00:00Z\"}]}}}") 128 =
      .ok (some (Verif.Model.ExtraHeaders.lit ("{\"FDSN\":{\"Event\":{\"Detection\":[{\"Type\":\"GENERIC\",\"Units\":\"COUNTS\"," ++
        "\"OnsetTime\":\"2012-01-01T00:00:00Z\"}]}}}"))) ∧
    again ("{\"FDSN\":{\"Event\":{\"Detection\":[{\"Type\":\"GENERIC\",\"Units\":\"COUNTS\"," ++
        "\"OnsetTime\":\"2012-01-01T00:00:00Z\"}]}}}") 128 =
      .ok (some (Verif.Model.ExtraHeaders.lit ("{\"FDSN\":{\"Event\":{\"Detection\":[{\"Type\":\"GENERIC\",\"Wave\":\"COMPRESSION\"," ++
        "\"Units\":\"COUNTS\",\"OnsetTime\":\"2012-01-01T00:00:00Z\"}]}}}"))) := by
  have : ∀ (r : Res (Option (List UInt8))) s, (match r with | .ok (some t) => t == s | _ => false) = true → r = .ok (some s) := by
    intro r s hr
    cases r with
    | ok p =>
      cases p with
      | none => cases hr
      | some t =>
        have : t = s := by simpa using hr
        rw [this]
    | _ => cases hr
  exact ⟨this _ _ (by decide +kernel), this _ _ (by decide +kernel)⟩

/-- **C116 (violated, timing exceptions).** A timing exception with a type is packed into a record that the reader cannot read
without undefined behaviour: the text in the record has no end. -/
theorem C116_exception_violated :
    again "{\"FDSN\":{\"Time\":{\"Exception\":[{\"Time\":\"2012-01-01T00:00:00Z\",\"Type\":\"MISSING\"}]}}}" 512 = .ub ∧
    ∃ p, msrPack2 (Pack2.rates0 false) (json toy false toyBack) Pack2.every125 false
      (with' "{\"FDSN\":{\"Time\":{\"Exception\":[{\"Time\":\"2012-01-01T00:00:00Z\",\"Type\":\"MISSING\"}]}}}" 512) true
      (List.replicate 512 0) 1 = .ok p := by
  constructor
  · have : ∀ r : Res (Option (List UInt8)), (match r with | .ub => true | _ => false) = true → r = .ub := by
      intro r hr
      cases r <;> first | rfl | cases hr
    exact this _ (by decide +kernel)
  · have : ∀ r : Res Pack.Packing, (match r with | .ok _ => true | _ => false) = true → ∃ p, r = .ok p := by
      intro r hr
      cases r <;> first | exact ⟨_, rfl⟩ | cases hr
    exact this _ (by decide +kernel)

/-- **C116 (violated, negative time corrections).** If the reader gives a time correction of `c` units of 0.0001 seconds as a
number within 10^-8 of it, and the packer cuts a number within 1/1000 of 10000 times the number given plus 1/2 to an
integer, as the C conversions do, then every negative correction comes back one unit larger. -/
theorem C116_correction_violated (n : Headers2.Numbers) (k : Numbers) (value : UInt64 → Rat)
    (hn : ∀ c : Int, -2147483648 ≤ c → c ≤ 2147483647 → -1 / 100000000 ≤ value (n.tenths c) - (c : Rat) / 10000 ∧
      value (n.tenths c) - (c : Rat) / 10000 ≤ 1 / 100000000)
    (hk : ∀ d c, k.shift d = some c → ∃ y : Rat, -1 / 1000 ≤ y - (value d * 10000 + 1 / 2) ∧ y - (value d * 10000 + 1 / 2) ≤ 1 / 1000 ∧
      c = if 0 ≤ y then y.floor else y.ceil)
    (c b : Int) (hc : c < 0) (hl : -2147483648 ≤ c) (hb : k.shift (n.tenths c) = some b) : b = c + 1 := by
  obtain ⟨h1, h2⟩ := hn c hl (by omega)
  obtain ⟨y, h3, h4, h5⟩ := hk _ _ hb
  have hcq : (c : Rat) ≤ ((-1 : Int) : Rat) := by exact_mod_cast (by omega : c ≤ -1)
  rw [show ((-1 : Int) : Rat) = -1 from rfl] at hcq
  have hy : y < 0 := by grind
  rw [if_neg (by grind)] at h5
  have e1 : (c : Rat) < y := by grind
  have e2 : y ≤ (c : Rat) + 1 := by grind
  have g1 : y ≤ (y.ceil : Rat) := Rat.le_ceil
  have g2 : (y.ceil : Rat) < y + 1 := Rat.ceil_lt
  subst h5
  have i1 : (c : Rat) < (y.ceil : Rat) := by grind
  have i2 : (y.ceil : Rat) < (c : Rat) + 2 := by grind
  have j1 : c < y.ceil := by exact_mod_cast i1
  have j2 : y.ceil < c + 2 := by
    have : (y.ceil : Rat) < ((c + 2 : Int) : Rat) := by push_cast; exact i2
    exact_mod_cast this
  omega

/-! ### A record that is converted -/

/-- Blockette 201: an event detection. -/
def murdock2 : Mapped :=
  .murdock 0x42C80000 0x3F800000 0x40000000 1 0 Record2.onset2 1 2 3 4 5 6 2 3 (Record2.spaced 24 "STA/LTA")

/-- Blockette 300: a step calibration. -/
def step3 : Mapped :=
  .step Record2.onset2 3 13 150000 200000 0x42C80000 (Record2.spaced 3 "BC0") 0 0x3F800000 (Record2.spaced 12 "RESISTIVE")
    (Record2.spaced 12 "3DB@10Hz")

/-- A record of 256 bytes with both. -/
def both : Rec :=
  { Record2.sample2 with
    chain := [(.data 3 1 8 0, []), (.mapped step3, []), (.mapped murdock2, [])]
    correction := 7, dataoffset := 192, numblockettes := 3, rest := List.replicate 80 7 }

theorem murdock2_good : (Blkt.mapped murdock2).Valid ∧ Canonical murdock2 := by
  obtain ⟨h1, _⟩ := Record2.label2_valid
  refine ⟨⟨⟨by decide, by decide, by decide, Record2.onset2_valid, h1⟩, trivial⟩, ?_⟩
  unfold murdock2 Canonical Usual Finite32 Ordinary Plain
  decide +kernel

theorem step3_good : (Blkt.mapped step3).Valid ∧ Canonical step3 := by
  obtain ⟨_, h2, h3, _⟩ := Record2.label2_valid
  refine ⟨⟨⟨Record2.onset2_valid, by decide, by decide, by decide, h2, by decide, h3, by constructor <;> decide +kernel⟩, trivial⟩, ?_⟩
  unfold step3 Canonical Usual Finite32 Ordinary Plain
  decide +kernel

theorem both_valid : both.Valid := by
  constructor
  case blockettes =>
    intro b hb
    simp only [both, List.mem_cons, List.not_mem_nil, or_false] at hb
    rcases hb with rfl | rfl | rfl
    · trivial
    · exact step3_good.1
    · exact murdock2_good.1
  case room => intro _; decide +kernel
  case exponent =>
    intro b hb e o x hx
    simp only [both, List.mem_cons, List.not_mem_nil, or_false] at hb
    rcases hb with rfl | rfl | rfl <;> simp [Blkt.data?] at hx
    obtain ⟨rfl, rfl, rfl⟩ := hx
    decide +kernel
  all_goals decide +kernel

/-- What the reader makes of it. -/
theorem both_read : ∃ m v, Record3.parse (Record2.unpack2 (Headers2.env (Verif.Model.ExtraHeaders.codec toy) toyNumbers fun _ _ => 0) false 0)
      false 0 both.bytes false false false = .ok (.record m, both.bytes) ∧
    Document toy.read v m.extra ∧ Documented toyNumbers (fun bit => bit) both (some v) := by
  obtain ⟨m, x, h1, h2, h3⟩ := Headers2.C115_headers_partial toy_lawful toyNumbers (fun _ _ => 0) false 0 both
    both_valid (.inr (by decide)) (by decide +kernel) (by decide +kernel) [] false false
  rw [List.append_nil] at h1
  have hx : m.extra ≠ [] := by
    have : extraOf (.ok (.record m, both.bytes)) ≠ some [] := by
      rw [← h1]
      decide +kernel
    intro hc
    exact this (by rw [← hc]; rfl)
  rcases h3 with h3 | ⟨w, _, _, h3 | ⟨q, b, hb, ⟨u, c, f, hbt⟩, _⟩⟩
  · cases x with
    | none => exact absurd h3 hx
    | some v => exact ⟨m, v, h1, h3, h2⟩
  · exact absurd h3 hx
  · simp only [both, List.mem_cons, List.not_mem_nil, or_false] at hb
    rcases hb with rfl | rfl | rfl <;> cases hbt

theorem both_convertible : Convertible both := by
  constructor
  · decide +kernel
  · intro m hm s hs
    have : m = step3 ∨ m = murdock2 := by simpa [mapped, both, Blkt.mapped?] using hm
    rcases this with rfl | rfl <;> cases hs

theorem both_corrected {v : Json} (h : Documented toyNumbers (fun bit => bit) both (some v)) : Corrected toyBack (some v) := by
  intro d hd
  rcases hd with hd | ⟨i, hd, _⟩
  · obtain ⟨_, hu⟩ := (h.correction _).1 hd
    cases hu
    exact ⟨7, by decide, by decide, by decide⟩
  · obtain ⟨_, hu⟩ := (h.correction _).1 hd
    cases hu

/-- `Verif.Props.Pack2.thirty` with extra headers, for records of 1024 bytes. -/
def thirtyWith (extra : List UInt8) : Msr := { Pack2.thirty with extra := extra, reclen := 1024 }

theorem thirty_names (extra : List UInt8) : Names (thirtyWith extra).sid [88, 88] [65, 78, 77, 79] [48, 48] 66 72 90 := by
  show Names Pack2.thirty.sid _ _ _ _ _ _
  constructor <;> decide +kernel

/-- The hypotheses of `C116_header_partial`, `C116_converted_partial` and `C116_bounds_partial`. -/
example : ∃ e v, Inverse toyNumbers toyBack ∧ Document toy.read v (thirtyWith e).extra ∧
    Describes toyNumbers (some v) [] [murdock2] [.shot step3 none] ∧
    (∀ m ∈ blockettes [] [murdock2] [.shot step3 none], m.Valid ∧ Canonical m) ∧ Corrected toyBack (some v) ∧
    Documented toyNumbers (fun bit => bit) both (some v) ∧ Convertible both ∧ mapped both = [step3, murdock2] ∧
    Names (thirtyWith e).sid [88, 88] [65, 78, 77, 79] [48, 48] 66 72 90 ∧ packReclen (thirtyWith e).reclen = (2 ^ 10 : Nat) ∧
    GoodTime2 (thirtyWith e).starttime ∧ (Pack2.rates0 false).factors (thirtyWith e).samprate = some (8000, 1) ∧
    76 + ((blockettes [] [murdock2] [.shot step3 none]).map fun m => (Blkt.mapped m).size).sum ≤ 512 := by
  obtain ⟨m, v, _, h2, h3⟩ := both_read
  refine ⟨m.extra, v, toy_inverse, h2, describes_converted h3 both_convertible, ?_, both_corrected h3, h3, both_convertible,
    by decide +kernel, thirty_names _, rfl, Pack2.good2012 50000 (by omega) (by omega), rfl, by decide +kernel⟩
  intro b hb
  have : b = murdock2 ∨ b = step3 := by simpa [blockettes, Calibrated.blockettes] using hb
  rcases this with rfl | rfl
  · exact ⟨murdock2_good.1.1, murdock2_good.2⟩
  · exact ⟨step3_good.1.1, step3_good.2⟩

/-- The hypotheses of `C116_read_back_partial`. -/
example : ∃ e v, ∃ d : Head, json toy false toyBack (thirtyWith e).extra = some d.extra ∧ Document toy.read v (thirtyWith e).extra ∧
    d.more = blockettes [] [murdock2] [.shot step3 none] ∧ (∀ m ∈ d.more, (Blkt.mapped m).Valid ∧ Canonical m) ∧
    d.exponent = 10 ∧ nstime2time (thirtyWith e).starttime = some d.time ∧
    (d.factor, d.multiplier) = (8000, 1) ∧ d.poor = false ∧ d.float = 0x45FA0000 ∧
    (d.size < 2 ^ d.exponent ∧ d.size ≤ 65472) ∧ Some2 (thirtyWith e) ∧ Readable (thirtyWith e) d := by
  obtain ⟨m, v, _, h2, h3⟩ := both_read
  let d : Head := { Pack2.head30 50000 false 10 with extra := extra false toyBack (some v), more := [murdock2, step3] }
  have hs : d.size ≤ 76 + 120 := by
    have h0 := (base_cases d).1
    have h1 : total [murdock2, step3] = 120 := by decide +kernel
    have h2 : d.size = d.baseSize + total [murdock2, step3] := rfl
    omega
  have he : d.exponent = 10 := rfl
  refine ⟨m.extra, v, d, (json_text (h := false) (k := toyBack) h2).1, h2, rfl, ?_, rfl, rfl, rfl, rfl, rfl, ?_,
    ⟨Pack2.thirty_some.some, Pack2.thirty_some.few, Pack2.thirty_some.fits⟩, .inr ?_, fun _ => .inr ?_⟩
  · intro b hb
    have : b = murdock2 ∨ b = step3 := by simpa [d] using hb
    rcases this with rfl | rfl
    · exact murdock2_good
    · exact step3_good
  · rw [he]
    omega
  · rw [he]
    omega
  · rw [he]
    omega

end Verif.Props.Blockettes2
