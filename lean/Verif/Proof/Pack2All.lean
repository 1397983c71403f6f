import Verif.Proof.Pack2Loop
/-!
# Lemmas about packing version 2 records: what a reader gets
-/
namespace Verif.Proof.Pack2
open Verif.Model Verif.Model.Bytes Verif.Model.Steim Verif.Model.Samples Verif.Model.Mem
  Verif.Model.Record3 Verif.Model.Pack Verif.Model.Pack2
open Verif.Model.Record2 (Env Header unpack2)
open Verif.Spec Verif.Spec.Record2 Verif.Spec.Detect
open Verif.Proof.Mem Verif.Proof.Record2
open Verif.Proof.Pack (stored Stored drop_count drop_representable)
open Verif.Proof.PackRead (packEncoding_lt first_drop)
open Verif.Props.Samples Verif.Props.Pack

/-- What the arguments of the packer have to satisfy; `d` is what the header is made of.  The identifier
names the codes, the record length is a power of two from 128 to 131072, factor and multiplier of the
sample rate can be found, the extra headers can be parsed and their entries become blockettes with values that
fit and texts that the reader can end, which leave a byte of the record and are in its first 65472 bytes, and
all sample times are good. -/
structure Input2 (rates : Rates) (json : List UInt8 → Option Extra)
    (sampletime : Int → Nat → Nat → Out Int) (m : Msr) (net sta loc : List UInt8)
    (band source position : UInt8) (d : Head) : Prop where
  names : Names m.sid net sta loc band source position
  exponent : 7 ≤ d.exponent ∧ d.exponent ≤ 17
  reclen : packReclen m.reclen = (2 ^ d.exponent : Nat)
  default : m.reclen < 0 → m.reclen = -1
  start : GoodTime2 m.starttime
  time : nstime2time m.starttime = some d.time
  factors : rates.factors m.samprate = some (d.factor, d.multiplier)
  factor : -32768 ≤ d.factor ∧ d.factor ≤ 32767
  multiplier : -32768 ≤ d.multiplier ∧ d.multiplier ≤ 32767
  poor : d.poor = rates.poor m.samprate d.factor d.multiplier
  float : d.float = rates.narrow m.samprate ∧ d.float < 4294967296
  extra : extraOf json m.extra = some d.extra
  correction : ∀ c, d.extra.correction = some c → -2147483648 ≤ c ∧ c ≤ 2147483647
  times : ∀ k, 0 < k → k < m.samples.count → ∃ t, sampletime m.starttime k m.samprate = .ok t ∧
    GoodTime2 t
  stores : Stores d.extra.steps d.more
  more : ∀ m ∈ d.more, (Blkt.mapped m).Valid
  fits : d.more ≠ [] → d.size < 2 ^ d.exponent ∧ d.size ≤ 65472

/-- The offset of the data. -/
def dataAt (d : Head) (encoding : Nat) : Nat :=
  if encoding = 10 ∨ encoding = 11 then frameOffset d.size else d.size

/-- The header of the records with samples. -/
def dataRec (m : Msr) (net sta loc : List UInt8) (band source position : UInt8) (d : Head) : Rec :=
  { headRec m net sta loc band source position d [] with
    dataoffset := dataAt d (packEncoding m.encoding) }

theorem base_cases (d : Head) : (d.baseSize = 56 ∨ d.baseSize = 64 ∨ d.baseSize = 68 ∨ d.baseSize = 76) ∧
    (64 < d.baseSize → d.poor = true) := by
  unfold Head.baseSize
  cases d.timed <;> cases d.poor <;> simp

theorem size_base {d : Head} (h : d.more = []) : d.size = d.baseSize := by
  unfold Head.size
  rw [h]; rfl

theorem frame_cases (n : Nat) : n ≤ frameOffset n ∧ frameOffset n % 64 = 0 ∧ 64 ≤ frameOffset n ∧
    (n ≤ 64 → frameOffset n = 64) ∧ (64 < n → frameOffset n < n + 64) := by
  unfold frameOffset
  split <;> omega

theorem qualityByte_mem (v : Nat) (e : Extra) : qualityByte v e ∈ ([68, 82, 81, 77] : List UInt8) := by
  have hb : qualityByte.byVersion v ∈ ([68, 82, 81, 77] : List UInt8) := by
    unfold qualityByte.byVersion
    repeat' split
    all_goals decide
  unfold qualityByte
  split
  · split
    · next h => simp only [List.mem_cons, List.not_mem_nil, or_false]; omega
    · exact hb
  · exact hb

theorem chain_filter {α : Type} (f : Blkt → Option α) (hf : ∀ m, f (.mapped m) = none) (d : Head) (enc : Nat) :
    ((d.chain enc).filterMap fun b => f b.1) = (d.base enc).filterMap fun b => f b.1 := by
  unfold Head.chain
  have e : ((chained d.more).filterMap fun b => f b.1) = [] := by
    refine List.filterMap_eq_nil_iff.2 ?_
    intro b hb
    obtain ⟨m, _, rfl⟩ := List.mem_map.1 hb
    exact hf m
  rw [List.filterMap_append, e, List.append_nil]

theorem last_data (d : Head) (enc : Nat) : lastOf Blkt.data? (d.chain enc) = some (UInt8.ofNat enc, 1, UInt8.ofNat d.exponent) := by
  unfold lastOf
  rw [chain_filter _ (fun _ => rfl)]
  unfold Head.base
  cases d.timed <;> cases d.poor <;> simp [Blkt.data?]

theorem last_float (d : Head) (enc : Nat) :
    lastOf Blkt.float? (d.chain enc) = if d.poor then some d.float else none := by
  unfold lastOf
  rw [chain_filter _ (fun _ => rfl)]
  unfold Head.base
  cases d.timed <;> cases d.poor <;> simp [Blkt.float?]

theorem timings (d : Head) (enc : Nat) : ((d.chain enc).filterMap fun b => b.1.timing?) =
    if d.timed then [(UInt8.ofNat d.timing, (microOffset d.time : Int))] else [] := by
  rw [chain_filter _ (fun _ => rfl)]
  unfold Head.base
  cases d.timed <;> cases d.poor <;> simp [Blkt.timing?]

theorem mem_chain {d : Head} {enc : Nat} {b : Blkt × List UInt8} (hb : b ∈ d.chain enc) :
    b = (.data (UInt8.ofNat enc) 1 (UInt8.ofNat d.exponent) 0, []) ∨
    b = (.timing (UInt8.ofNat d.timing) (microOffset d.time) 0 0, []) ∨
    (d.poor = true ∧ b = (.rate d.float [0, 0, 0, 0], [])) ∨ ∃ m ∈ d.more, b = (.mapped m, []) := by
  rcases List.mem_append.1 hb with hb | hb
  · simp only [Head.base, List.mem_cons, List.mem_append, List.mem_ite_nil_right, List.not_mem_nil,
      or_false] at hb
    rcases hb with rfl | ⟨_, rfl⟩ | ⟨hp, rfl⟩
    · exact Or.inl rfl
    · exact Or.inr (Or.inl rfl)
    · exact Or.inr (Or.inr (Or.inl ⟨hp, rfl⟩))
  · obtain ⟨m, hm, rfl⟩ := List.mem_map.1 hb
    exact Or.inr (Or.inr (Or.inr ⟨m, hm, rfl⟩))

theorem chain_mapped (d : Head) (enc : Nat) : ((d.chain enc).filterMap fun b => b.1.mapped?) = d.more := by
  unfold Head.chain
  rw [List.filterMap_append]
  have e1 : ((d.base enc).filterMap fun b => b.1.mapped?) = [] := by
    unfold Head.base
    cases d.timed <;> cases d.poor <;> rfl
  have e2 : ∀ ms : List Mapped, ((chained ms).filterMap fun b => b.1.mapped?) = ms := by
    intro ms
    unfold chained
    rw [List.filterMap_map]
    exact List.filterMap_some
  rw [e1, e2, List.nil_append]

theorem chain_data {d : Head} {enc : Nat} : ∀ b ∈ d.chain enc, ∀ e o x, b.1.data? = some (e, o, x) →
    x = UInt8.ofNat d.exponent := by
  intro b hb e o x hx
  rcases mem_chain hb with rfl | rfl | ⟨_, rfl⟩ | ⟨m, _, rfl⟩ <;> simp [Blkt.data?] at hx
  exact hx.2.2.symm

theorem chain_valid (d : Head) (enc : Nat) (hf : d.float < 4294967296)
    (hm : ∀ m ∈ d.more, (Blkt.mapped m).Valid) : ∀ b ∈ d.chain enc, b.1.Valid := by
  have hmi := micro_lt d.time
  intro b hb
  rcases mem_chain hb with rfl | rfl | ⟨_, rfl⟩ | ⟨m, hmem, rfl⟩
  · simp [Blkt.Valid]
  · simp only [Blkt.Valid]; omega
  · exact ⟨hf, rfl⟩
  · exact hm m hmem

section
variable {rates : Rates} {json : List UInt8 → Option Extra}
  {sampletime : Int → Nat → Nat → Out Int} {m : Msr} {net sta loc : List UInt8}
  {band source position : UInt8} {d : Head}

theorem input_sound (i : Input2 rates json sampletime m net sta loc band source position d) : d.Sound :=
  stores_total i.stores

/-- The size of the header. -/
theorem size_fits (i : Input2 rates json sampletime m net sta loc band source position d) :
    56 ≤ d.size ∧ d.size ≤ 2 ^ d.exponent ∧ d.size ≤ 65472 ∧ (d.more ≠ [] → d.size < 2 ^ d.exponent) := by
  obtain ⟨_, _, k3, k4⟩ := exp_ok d.exponent i.exponent
  have hb := (base_cases d).1
  have hs : d.baseSize ≤ d.size := Nat.le_add_right _ _
  refine ⟨by omega, ?_⟩
  by_cases hm : d.more = []
  · rw [size_base hm]
    exact ⟨by omega, by omega, fun h => absurd hm h⟩
  · obtain ⟨h1, h2⟩ := i.fits hm
    exact ⟨by omega, h2, fun _ => h1⟩

theorem exponent_64 (i : Input2 rates json sampletime m net sta loc band source position d) :
    2 ^ d.exponent % 64 = 0 := by
  have : d.exponent = 6 + (d.exponent - 6) := by have := i.exponent; omega
  rw [this, Nat.pow_add]
  omega

/-- The offset of the data. -/
theorem dataAt_fits (i : Input2 rates json sampletime m net sta loc band source position d) (enc : Nat) :
    d.size ≤ dataAt d enc ∧ dataAt d enc ≤ 2 ^ d.exponent ∧ dataAt d enc ≤ 65472 ∧ 56 ≤ d.size ∧
    (enc ≠ 10 → enc ≠ 11 → dataAt d enc = d.size) ∧
    (enc = 10 ∨ enc = 11 → dataAt d enc % 64 = 0 ∧ 64 ≤ dataAt d enc ∧ (d.size ≤ 64 → dataAt d enc = 64) ∧
      (64 < d.size → dataAt d enc < d.size + 64)) := by
  obtain ⟨_, _, k3, k4⟩ := exp_ok d.exponent i.exponent
  obtain ⟨h1, h2, h3, h4⟩ := size_fits i
  have h64 := exponent_64 i
  obtain ⟨f1, f2, f3, f4, f5⟩ := frame_cases d.size
  unfold dataAt
  split
  · refine ⟨f1, ?_, ?_, h1, fun _ _ => by omega, fun _ => ⟨f2, f3, f4, f5⟩⟩ <;>
    · by_cases hc : d.size ≤ 64
      · have := f4 hc; omega
      · have := f5 (by omega); omega
  · exact ⟨Nat.le_refl _, h2, h3, h1, fun _ _ => rfl, fun h => by omega⟩

theorem input_shape (i : Input2 rates json sampletime m net sta loc band source position d) :
    Shape (dataRec m net sta loc band source position d) :=
  ⟨rfl, i.names.sta.2, i.names.loc.2, i.names.net.2⟩

theorem exponent_toNat (i : Input2 rates json sampletime m net sta loc band source position d) :
    (UInt8.ofNat d.exponent).toNat = d.exponent := by
  have := i.exponent
  exact ofNat_toNat (by omega)

theorem variant_length (i : Input2 rates json sampletime m net sta loc band source position d)
    (enc : Nat) (dt : DateTime) (n off : Nat) (rest : List UInt8) :
    (variant { headRec m net sta loc band source position d [] with
      dataoffset := off, chain := d.chain enc } dt n rest).bytes.length = d.size + rest.length := by
  rw [bytes_length' _ ⟨rfl, i.names.sta.2, i.names.loc.2, i.names.net.2⟩]
  show 48 + (chainBytes true 48 (d.chain enc)).length + rest.length = _
  rw [chain_size d (input_sound i)]

theorem variant_valid (i : Input2 rates json sampletime m net sta loc band source position d)
    (enc : Nat) (t : Int) (dt : DateTime) (h : TimeOk t dt) (n off : Nat) (hn : n ≤ 65535)
    (hoff : off ≤ 65472 ∧ off ≤ 2 ^ d.exponent)
    (rest : List UInt8) (hr : d.size + rest.length = 2 ^ d.exponent) :
    (variant { headRec m net sta loc band source position d [] with
      dataoffset := off, chain := d.chain enc } dt n rest).Valid := by
  have hl := variant_length i enc dt n off rest
  obtain ⟨_, _, k3, k4⟩ := exp_ok d.exponent i.exponent
  obtain ⟨hsz, hsz2, hsz3, hsz4⟩ := size_fits i
  constructor
  · exact ⟨rfl, by show ∀ x ∈ ([48, 48, 48, 48, 48, 48] : List UInt8), 48 ≤ x.toNat ∧ x.toNat ≤ 57; decide⟩
  · exact qualityByte_mem _ _
  · rfl
  · exact ⟨i.names.sta.1.1, i.names.sta.2⟩
  · exact ⟨i.names.loc.1.1, i.names.loc.2⟩
  · exact i.names.chan.1
  · exact ⟨i.names.net.1.1, i.names.net.2⟩
  · exact h.date
  · exact h.clock
  · show n < 65536; omega
  · exact i.factor
  · exact i.multiplier
  · show -2147483648 ≤ d.extra.correction.getD 0 ∧ d.extra.correction.getD 0 ≤ 2147483647
    cases hc : d.extra.correction with
    | none => simp
    | some c => exact i.correction c hc
  · show off < 65536 ∧ off ≤ _
    rw [hl]; omega
  · exact chain_valid d enc i.float.2 i.more
  · rintro ⟨b, hb, hm⟩ hnil
    have hne : d.more ≠ [] := by
      rw [← chain_mapped d enc]
      intro hc
      rw [List.filterMap_eq_nil_iff.1 hc b hb] at hm
      cases hm
    have : rest = [] := hnil
    have := hsz4 hne
    simp_all
  · show 48 + (chainBytes true 48 (d.chain enc)).length < 65536
    rw [chain_size d (input_sound i)]; omega
  · intro b hb e o x hx
    rw [hl, hr, chain_data b hb e o x hx, exponent_toNat i]
  · rw [hl]; omega

end

/-! ## The flags -/

theorem act_bits (flags : Nat) (e : Extra) :
    (UInt8.ofNat (actFlags flags e)).toNat = actFlags flags e ∧
    (actFlags flags e).testBit 0 = flags.testBit 0 ∧
    (actFlags flags e).testBit 1 = e.correction.isSome ∧
    (actFlags flags e).testBit 2 = e.flag "/FDSN/Event/Begin" ∧
    (actFlags flags e).testBit 3 = e.flag "/FDSN/Event/End" ∧
    (actFlags flags e).testBit 4 = decide (e.leap > 0) ∧
    (actFlags flags e).testBit 5 = decide (e.leap < 0) ∧
    (actFlags flags e).testBit 6 = e.flag "/FDSN/Event/InProgress" := by
  unfold actFlags
  by_cases h1 : e.leap > 0
  · have h2 : ¬ e.leap < 0 := by omega
    simp only [h1, h2, if_true]
    generalize flags.testBit 0 = a
    generalize e.flag "/FDSN/Event/Begin" = b
    generalize e.flag "/FDSN/Event/End" = c
    generalize e.flag "/FDSN/Event/InProgress" = x
    generalize e.correction.isSome = y
    revert a b c x y
    decide
  · simp only [h1, if_false]
    by_cases h2 : e.leap < 0
    · simp only [h2, if_true]
      generalize flags.testBit 0 = a
      generalize e.flag "/FDSN/Event/Begin" = b
      generalize e.flag "/FDSN/Event/End" = c
      generalize e.flag "/FDSN/Event/InProgress" = x
      generalize e.correction.isSome = y
      revert a b c x y
      decide
    · simp only [h2, if_false]
      generalize flags.testBit 0 = a
      generalize e.flag "/FDSN/Event/Begin" = b
      generalize e.flag "/FDSN/Event/End" = c
      generalize e.flag "/FDSN/Event/InProgress" = x
      generalize e.correction.isSome = y
      revert a b c x y
      decide

theorem io_bits (flags : Nat) (e : Extra) :
    (UInt8.ofNat (ioFlags flags e)).toNat = ioFlags flags e ∧
    (ioFlags flags e).testBit 0 = e.flag "/FDSN/Flags/StationVolumeParityError" ∧
    (ioFlags flags e).testBit 1 = e.flag "/FDSN/Flags/LongRecordRead" ∧
    (ioFlags flags e).testBit 2 = e.flag "/FDSN/Flags/ShortRecordRead" ∧
    (ioFlags flags e).testBit 3 = e.flag "/FDSN/Flags/StartOfTimeSeries" ∧
    (ioFlags flags e).testBit 4 = e.flag "/FDSN/Flags/EndOfTimeSeries" ∧
    (ioFlags flags e).testBit 5 = flags.testBit 2 := by
  unfold ioFlags
  generalize flags.testBit 2 = a
  generalize e.flag "/FDSN/Flags/StationVolumeParityError" = b
  generalize e.flag "/FDSN/Flags/LongRecordRead" = c
  generalize e.flag "/FDSN/Flags/ShortRecordRead" = x
  generalize e.flag "/FDSN/Flags/StartOfTimeSeries" = y
  generalize e.flag "/FDSN/Flags/EndOfTimeSeries" = z
  revert a b c x y z
  decide

theorem dq_bits (flags : Nat) (e : Extra) :
    (UInt8.ofNat (dqFlags flags e)).toNat = dqFlags flags e ∧
    (dqFlags flags e).testBit 0 = e.flag "/FDSN/Flags/AmplifierSaturation" ∧
    (dqFlags flags e).testBit 1 = e.flag "/FDSN/Flags/DigitizerClipping" ∧
    (dqFlags flags e).testBit 2 = e.flag "/FDSN/Flags/Spikes" ∧
    (dqFlags flags e).testBit 3 = e.flag "/FDSN/Flags/Glitches" ∧
    (dqFlags flags e).testBit 4 = e.flag "/FDSN/Flags/MissingData" ∧
    (dqFlags flags e).testBit 5 = e.flag "/FDSN/Flags/TelemetrySyncError" ∧
    (dqFlags flags e).testBit 6 = e.flag "/FDSN/Flags/FilterCharging" ∧
    (dqFlags flags e).testBit 7 = flags.testBit 1 := by
  unfold dqFlags
  generalize flags.testBit 1 = a
  generalize e.flag "/FDSN/Flags/AmplifierSaturation" = b
  generalize e.flag "/FDSN/Flags/DigitizerClipping" = c
  generalize e.flag "/FDSN/Flags/Spikes" = x
  generalize e.flag "/FDSN/Flags/Glitches" = y
  generalize e.flag "/FDSN/Flags/MissingData" = z
  generalize e.flag "/FDSN/Flags/TelemetrySyncError" = u
  generalize e.flag "/FDSN/Flags/FilterCharging" = v
  revert a b c x y z u v
  decide

end Verif.Proof.Pack2
