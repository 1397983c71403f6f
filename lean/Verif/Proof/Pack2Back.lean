import Verif.Props.Pack2Defs
/-!
# Lemmas about packing version 2 records: reading them back
-/
namespace Verif.Proof.Pack2
open Verif.Model Verif.Model.Bytes Verif.Model.Steim Verif.Model.Samples Verif.Model.Mem
  Verif.Model.Record3 Verif.Model.Pack Verif.Model.Pack2
open Verif.Model.Record2 (Env Header unpack2)
open Verif.Spec Verif.Spec.Record2 Verif.Spec.Detect
open Verif.Proof.Mem Verif.Proof.Record2
open Verif.Proof.Pack (stored Stored drop_count drop_representable order_swap)
open Verif.Proof.PackRead (packEncoding_lt first_drop)
open Verif.Props.Samples Verif.Props.Pack
open Verif.Props.Record2 (flagsOf HeadersOf meaning meaning_eq headers_ok)
open Verif.Props.Pack2 hiding Steim

theorem timed_iff {m : Msr} {d : Head} {dt : DateTime} (h : TimeOk m.starttime dt) (hd : d.time = dt) :
    d.timed = true ↔ Timed m d := by
  have := h.micro
  unfold Head.timed Timed
  rw [hd, Bool.or_eq_true, decide_eq_true_eq]
  have e : microOffset dt ≠ 0 ↔ m.starttime / 1000 % 100 ≠ 0 := by omega
  rw [e]

theorem flags_mod (flags : Nat) : (if flags.testBit 0 then 1 else 0) + (if flags.testBit 1 then 2 else 0) +
    (if flags.testBit 2 then 4 else 0) = flags % 8 := by
  have h0 : flags.testBit 0 = (flags % 8).testBit 0 := by
    rw [show (8 : Nat) = 2 ^ 3 from rfl, Nat.testBit_mod_two_pow]; simp
  have h1 : flags.testBit 1 = (flags % 8).testBit 1 := by
    rw [show (8 : Nat) = 2 ^ 3 from rfl, Nat.testBit_mod_two_pow]; simp
  have h2 : flags.testBit 2 = (flags % 8).testBit 2 := by
    rw [show (8 : Nat) = 2 ^ 3 from rfl, Nat.testBit_mod_two_pow]; simp
  rw [h0, h1, h2]
  have : flags % 8 < 8 := Nat.mod_lt _ (by decide)
  generalize flags % 8 = x at this
  have hall : ∀ x, x < 8 → (if x.testBit 0 then 1 else 0) + (if x.testBit 1 then 2 else 0) +
    (if x.testBit 2 then 4 else 0) = x := by decide
  exact hall x this

theorem version_back (v : Nat) (e : Extra) :
    (([82, 68, 81, 77] : List UInt8).findIdx (· == qualityByte v e)) + 1 = versionBack v e.quality := by
  have hb : (([82, 68, 81, 77] : List UInt8).findIdx (· == qualityByte.byVersion v)) + 1 =
      if 1 ≤ v ∧ v ≤ 4 then v else 2 := by
    unfold qualityByte.byVersion
    by_cases h1 : v = 1
    · subst h1; rfl
    by_cases h3 : v = 3
    · subst h3; rfl
    by_cases h4 : v = 4
    · subst h4; rfl
    rw [if_neg h1, if_neg h3, if_neg h4]
    by_cases h2 : v = 2
    · subst h2; rfl
    rw [if_neg (by omega)]
    rfl
  unfold qualityByte
  cases hq : e.quality with
  | none => exact hb
  | some q =>
    simp only
    by_cases h : q = 68 ∨ q = 82 ∨ q = 81 ∨ q = 77
    · rw [if_pos h]
      rcases h with rfl | rfl | rfl | rfl <;> rfl
    · rw [if_neg h, hb]
      unfold versionBack
      split <;> simp_all

/-- The headers of a packed record. -/
theorem extra_kept (m : Msr) (d : Head) (dt : DateTime) (h : TimeOk m.starttime dt) (hd : d.time = dt)
    (r : Rec) (hact : r.activity = UInt8.ofNat (actFlags m.flags d.extra))
    (hio : r.io = UInt8.ofNat (ioFlags m.flags d.extra)) (hdq : r.dq = UInt8.ofNat (dqFlags m.flags d.extra))
    (hc : r.correction = d.extra.correction.getD 0) (enc : Nat) (hch : r.chain = d.chain enc)
    (hs : List Header) (ho : HeadersOf r hs) : ExtraKept m.starttime d.extra d.more hs := by
  obtain ⟨a0, a1, a2, a3, a4, a5, a6, a7⟩ := act_bits m.flags d.extra
  obtain ⟨i0, i1, i2, i3, i4, i5, i6⟩ := io_bits m.flags d.extra
  obtain ⟨q0, q1, q2, q3, q4, q5, q6, q7, q8⟩ := dq_bits m.flags d.extra
  constructor
  · intro path
    rw [ho.flag]
    have hall : ∀ e ∈ flagNames, (r.flagByte e.1).toNat.testBit e.2.1 = d.extra.flag e.2.2 := by
      simp only [flagNames, List.mem_cons, List.not_mem_nil, or_false, forall_eq_or_imp, forall_eq,
        Rec.flagByte, hact, hio, hdq, a0, i0, q0, a3, a4, a7, i1, i2, i3, i4, i5,
        q1, q2, q3, q4, q5, q6, q7, and_self]
    rw [List.mem_map]
    constructor
    · rintro ⟨e, he, rfl, h2⟩
      exact ⟨⟨e, he, rfl⟩, by rw [← hall e he]; exact h2⟩
    · rintro ⟨⟨e, he, rfl⟩, h2⟩
      exact ⟨e, he, rfl, by rw [hall e he]; exact h2⟩
  · intro x
    rw [ho.leap, hact, a0, a5, a6]
    simp only [decide_eq_true_eq]
  · intro x
    rw [ho.correction, hc]
    cases d.extra.correction with
    | none => simp
    | some c => simp [eq_comm]
  · refine ho.quality.trans ?_
    rw [hch]
    have e : ((d.chain enc).filterMap fun b => (b.1.timing?).map fun t => t.1.toNat) =
        ((d.chain enc).filterMap fun b => b.1.timing?).map fun t => t.1.toNat := by
      rw [List.map_filterMap]
    rw [e, timings]
    have hm := h.micro
    unfold Head.timed Head.timing
    rw [hd]
    cases d.extra.timing with
    | some q =>
      simp only [Option.isSome_some, Bool.true_or, if_true, List.map_cons, List.map_nil]
      split
      · rw [ofNat_toNat (by omega)]
      · rfl
    | none =>
      simp only [Option.isSome_none, Bool.false_or, decide_eq_true_eq]
      by_cases h0 : microOffset dt = 0
      · rw [if_neg (by omega), if_pos (by omega)]; rfl
      · rw [if_pos h0, if_neg (by omega)]; rfl
  · refine ho.blockette.trans ?_
    rw [hch, ← chain_mapped d enc, List.map_filterMap]

section
variable {rates : Rates} {json : List UInt8 → Option Extra}
  {sampletime : Int → Nat → Nat → Out Int} {m : Msr} {net sta loc : List UInt8}
  {band source position : UInt8} {d : Head}

/-- A header with another encoding and data offset. -/
def encRec (m : Msr) (net sta loc : List UInt8) (band source position : UInt8) (d : Head)
    (enc off : Nat) : Rec :=
  { headRec m net sta loc band source position d [] with dataoffset := off, chain := d.chain enc }

theorem frame_nz (i : Input2 rates json sampletime m net sta loc band source position d) (dt : DateTime)
    (off n : Nat) (rest : List UInt8) (enc : Nat) :
    (variant (encRec m net sta loc band source position d enc off) dt n rest).bytes[0]? = some 48 ∧
    (d.timed = true → d.poor = true →
      (variant (encRec m net sta loc band source position d enc off) dt n rest).bytes[65]? = some 100) := by
  constructor
  · simp [Rec.bytes, Rec.fixed, variant, encRec, headRec]
  · intro h1 h2
    unfold Rec.bytes
    rw [List.append_assoc, List.getElem?_append_right (by
      rw [fixed_length' _ ⟨rfl, i.names.sta.2, i.names.loc.2, i.names.net.2⟩]; omega),
      fixed_length' _ ⟨rfl, i.names.sta.2, i.names.loc.2, i.names.net.2⟩]
    show (chainBytes true 48 (d.chain enc) ++ rest)[65 - 48]? = _
    unfold Head.chain Head.base
    rw [h1, h2]
    simp [chainBytes, Blkt.type, Blkt.size, num, Verif.Spec.Record3.le, Blkt.body]

/-- The description of a packed record. -/
theorem back_msr (env : Env) (h : Bool)
    (i : Input2 rates json sampletime m net sta loc band source position d) (t : Int) (dt : DateTime)
    (ht : TimeOk t dt) (off n enc k : Nat) (rest : List UInt8)
    (hr : d.size + rest.length = 2 ^ d.exponent) (henc : enc = packEncoding m.encoding) (r : Rec)
    (hr0 : r = variant (encRec m net sta loc band source position d enc off) dt n rest) :
    Back env m d k n t { msr2 env h r (headers2 r) with samples := slice k n m.samples } := by
  obtain ⟨dt0, h0⟩ := good_time2 _ i.start
  have hd0 : d.time = dt0 := by
    have := i.time.symm.trans h0.time
    exact Option.some.inj this
  have hlt := packEncoding_lt m.encoding
  have hch : r.chain = d.chain enc := by rw [hr0]; rfl
  have hkept := extra_kept m d dt0 h0 hd0 r (by rw [hr0]; rfl) (by rw [hr0]; rfl) (by rw [hr0]; rfl)
    (by rw [hr0]; rfl) enc hch _ (headers_ok r)
  generalize headers2 r = hs at hkept ⊢
  obtain ⟨a0, a1, a2, a3, a4, a5, a6, a7⟩ := act_bits m.flags d.extra
  obtain ⟨i0, i1, i2, i3, i4, i5, i6⟩ := io_bits m.flags d.extra
  obtain ⟨q0, q1, q2, q3, q4, q5, q6, q7, q8⟩ := dq_bits m.flags d.extra
  rw [meaning_eq]
  constructor
  · rfl
  · show ((r.numsamples : Nat) : Int) = n
    rw [hr0]; rfl
  · rfl
  · show r.sid = m.sid
    rw [hr0, i.names.text]; rfl
  · show flagsOf r = _
    have b1 : r.activity = UInt8.ofNat (actFlags m.flags d.extra) := by rw [hr0]; rfl
    have b2 : r.io = UInt8.ofNat (ioFlags m.flags d.extra) := by rw [hr0]; rfl
    have b3 : r.dq = UInt8.ofNat (dqFlags m.flags d.extra) := by rw [hr0]; rfl
    unfold flagsOf
    rw [b1, b2, b3, a0, i0, q0, a1, i6, q8]
    exact flags_mod _
  · show r.start = _
    have b1 : r.activity = UInt8.ofNat (actFlags m.flags d.extra) := by rw [hr0]; rfl
    have b2 : r.correction = d.extra.correction.getD 0 := by rw [hr0]; rfl
    have b3 : r.last Blkt.timing? = ((d.chain enc).filterMap fun b => b.1.timing?).getLast? := by
      rw [← hch]; rfl
    have b4 : (Fields.mk r.year r.day r.hour r.minute r.second (r.fract * 100000)).instant =
        t / 100000 * 100000 := by
      rw [← ht.instant, hr0]; rfl
    unfold Rec.start
    rw [b1, a0, a2, b2, b3, timings, b4]
    have hc : (if d.extra.correction.isSome = true then (0 : Int)
        else d.extra.correction.getD 0 * 100000) = 0 := by
      cases d.extra.correction <;> simp
    rw [hc, Int.add_zero]
    have hm := h0.micro
    rw [← hm, hd0]
    cases htm : d.timed with
    | true => rfl
    | false =>
      have : microOffset d.time = 0 := by
        unfold Head.timed at htm
        rw [Bool.or_eq_false_iff, decide_eq_false_iff_not] at htm
        omega
      rw [hd0] at this
      rw [this]; rfl
  · show (match r.last Blkt.data? with | some (e, _, _) => (e.toNat : Int) | none => -1) = _
    have b3 : r.last Blkt.data? = lastOf Blkt.data? (d.chain enc) := by rw [← hch]; rfl
    rw [b3, last_data]
    simp only
    rw [ofNat_toNat (by omega), henc]
  · show (match r.last Blkt.float? with
      | some f => env.widen f | none => env.nominal r.factor r.multiplier) = _
    have b3 : r.last Blkt.float? = lastOf Blkt.float? (d.chain enc) := by rw [← hch]; rfl
    rw [b3, last_float]
    cases d.poor with
    | true => rfl
    | false => rw [hr0]; rfl
  · show r.version = _
    rw [← version_back, hr0]; rfl
  · exact ⟨hs, hkept, rfl⟩
  · show ((r.bytes.length : Nat) : Int) = _
    rw [hr0, encRec, variant_length i, hr, i.reclen]

/-- Whatever is done with the samples, the record is found. -/
theorem back_parse (env : Env) (h : Bool)
    (i : Input2 rates json sampletime m net sta loc band source position d) (t : Int) (dt : DateTime)
    (ht : TimeOk t dt) (off n enc : Nat) (hn : n ≤ 65535)
    (hoff : off ≤ 65472 ∧ off ≤ 2 ^ d.exponent) (rest : List UInt8)
    (hr : d.size + rest.length = 2 ^ d.exponent) (r : Rec)
    (hr0 : r = variant (encRec m net sta loc band source position d enc off) dt n rest) :
    r.Valid ∧ ∀ align rest vc ud eof, parse (unpack2 env h align) h align (r.bytes ++ rest) vc ud eof =
      (withSamples h align (r.bytes ++ rest) (msr2 env h r (headers2 r)) ud).bind
        fun p => .ok (p, r.bytes ++ rest) := by
  have hv : r.Valid := by
    rw [hr0]
    exact variant_valid i enc t dt ht n off hn hoff rest hr
  refine ⟨hv, ?_⟩
  intro align rest vc ud eof
  apply parse2_eq env h align r hv
  · right; rw [hr0]; exact ht.told
  · rw [hr0]
    have := ht.instant
    show (Fields.mk dt.year.toNat dt.yday.toNat dt.hour.toNat dt.min.toNat dt.sec.toNat
      ((dt.nsec.toNat / 100000 : Nat) * 100000)).instant ≠ _
    rw [this]
    exact ht.noError
  · have b3 : r.last Blkt.data? = lastOf Blkt.data? (d.chain enc) := by rw [hr0]; rfl
    rw [b3, last_data]; rfl

/-- One record with samples, read back. -/
theorem read_one (env : Env) (hp : Bool)
    (i : Input2 rates json sampletime m net sta loc band source position d) (s2 : Some2 m)
    (rd : Readable m d) (t : Int) (dt : DateTime) (ht : TimeOk t dt) (a n : Nat) (hn : n ≤ 65535)
    (ha : a < m.samples.count)
    (pad data : List UInt8) (max : Nat) (hpad : d.size + pad.length = dataAt d (packEncoding m.encoding))
    (hmax : d.size + pad.length + max = 2 ^ d.exponent)
    (hd : packData hp (!hp) (dropSamples a m.samples) max (packEncoding m.encoding) = .ok (data, n))
    (r : Rec) (hr0 : r = variant (dataRec m net sta loc band source position d) dt n
      (pad ++ (data ++ zeros (max - data.length)))) :
    1 ≤ n ∧ r.bytes.length = 2 ^ d.exponent ∧ Reads2 env r.bytes (Back env m d a n t) := by
  have hcnt := drop_count a m.samples
  have hrep := drop_representable a m.samples _ s2.fits
  have hst := stored hp (!hp) _ _ _ _ _ hrep (by omega) hd
  have hroom := hst.room
  have hfew := s2.few
  obtain ⟨da1, da2, da3, da6, da4, da5⟩ := dataAt_fits i (packEncoding m.encoding)
  have hrest : d.size + (pad ++ (data ++ zeros (max - data.length))).length = 2 ^ d.exponent := by
    simp [zeros]; omega
  have hr0' : r = variant (encRec m net sta loc band source position d (packEncoding m.encoding)
      (dataAt d (packEncoding m.encoding))) dt n (pad ++ (data ++ zeros (max - data.length))) := hr0
  have hbl : r.bytes.length = 2 ^ d.exponent := by
    rw [hr0', encRec, variant_length i, hrest]
  refine ⟨hst.pos, hbl, ?_⟩
  intro h
  obtain ⟨hv, hparse⟩ := back_parse env h i t dt ht _ n _ hn ⟨da3, da2⟩ _ hrest r hr0'
  have hmsr := back_msr env h i t dt ht _ n _ a _ hrest rfl r hr0'
  refine ⟨_, hmsr, ?_⟩
  intro align rest vc eof
  rw [hparse align rest vc true eof]
  obtain ⟨dt0, h0⟩ := good_time2 _ i.start
  have hd0 : d.time = dt0 := Option.some.inj (i.time.symm.trans h0.time)
  have hnum : r.numsamples = n := by rw [hr0']; rfl
  have hdo : r.dataoffset = dataAt d (packEncoding m.encoding) := by rw [hr0']; rfl
  have hpre : ∃ pre, r.bytes = pre ++ (data ++ zeros (max - data.length)) ∧
      pre.length = r.dataoffset := by
    refine ⟨r.fixed ++ chainBytes r.be 48 r.chain ++ pad, ?_, ?_⟩
    · rw [hr0']
      unfold Rec.bytes
      simp only [List.append_assoc]
      rfl
    · rw [hdo, ← hpad, ← chain_size d (input_sound i) (packEncoding m.encoding)]
      rw [List.length_append, List.length_append, fixed_length' _ ⟨hv.seq.1, hv.sta.2, hv.loc.2, hv.net.2⟩, hr0']
      rfl
  obtain ⟨pre, hb, hpl⟩ := hpre
  have hup := unpackData2 env hp h (!hp) align r hv (headers2 r) (by rw [hr0']; rfl)
    (by
      have b3 : r.last Blkt.data? = lastOf Blkt.data? (d.chain (packEncoding m.encoding)) := by
        rw [hr0']; rfl
      unfold Rec.dataBE
      rw [b3, last_data]; rfl) pre data _ rest hb hpl (by omega) (packEncoding m.encoding)
    hmsr.encoding (dropSamples a m.samples) max hrep (by omega) (by omega) (order_swap hp)
    (by rw [hnum]; exact hd)
    (by
      intro h1 h2
      have hx : d.exponent ≤ 16 := rd.fixed.resolve_left (by unfold Props.Pack2.Steim; omega)
      have : 2 ^ d.exponent ≤ 2 ^ 16 := Nat.pow_le_pow_right (by omega) hx
      omega)
    (by
      intro hs
      obtain ⟨f1, f2, f3⟩ := hst.frames hs
      obtain ⟨z1, z2⟩ := frame_nz i dt (dataAt d (packEncoding m.encoding)) n
        (pad ++ (data ++ zeros (max - data.length))) (packEncoding m.encoding)
      rw [← hr0'] at z1 z2
      have hdata : ∀ k, 64 * k < data.length → ∃ b, r.bytes[r.dataoffset + 64 * k]? = some b ∧ b ≠ 0 := by
        intro k hk
        obtain ⟨b, b1, b2⟩ := f3 k hk
        refine ⟨b, ?_, b2⟩
        rw [hb, List.getElem?_append_right (by omega), hpl, Nat.add_sub_cancel_left,
          List.getElem?_append_left hk]
        exact b1
      have h64 : 2 ^ d.exponent % 64 = 0 := by
        have : d.exponent = 6 + (d.exponent - 6) := by have := i.exponent; omega
        rw [this, Nat.pow_add]
        omega
      obtain ⟨g1, g2, g3, g4⟩ := da5 hs
      by_cases hone : data.length = 64
      · exact ⟨0, 0, 48, by omega, by omega, by omega, z1, by decide⟩
      rcases rd.frames hs with ⟨hm, rf⟩ | rf
      rotate_left
      · have hsz : r.dataoffset = 64 * (r.dataoffset / 64) := by omega
        have hle : dataAt d (packEncoding m.encoding) < d.size + 64 := by
          by_cases hc : d.size ≤ 64
          · have := g3 hc; omega
          · exact g4 (by omega)
        by_cases hlong : r.dataoffset / 64 < data.length / 64
        · obtain ⟨b, b1, b2⟩ := hdata (data.length / 64 - 1 - r.dataoffset / 64) (by omega)
          refine ⟨data.length / 64 - 1, 0, b, by omega, by omega, by omega, ?_, b2⟩
          rw [← b1, show 64 * (data.length / 64 - 1) + 0 =
            r.dataoffset + 64 * (data.length / 64 - 1 - r.dataoffset / 64) by omega]
        · obtain ⟨b, b1, b2⟩ := hdata 0 (by omega)
          refine ⟨r.dataoffset / 64, 0, b, by omega, by omega, by omega, ?_, b2⟩
          rw [← b1, show 64 * (r.dataoffset / 64) + 0 = r.dataoffset + 64 * 0 by omega]
      have hbase := base_cases d
      have hsb := size_base hm
      have da5' : dataAt d (packEncoding m.encoding) = 64 ∨
          (dataAt d (packEncoding m.encoding) = 128 ∧ 64 < d.size) := by
        by_cases hc : d.size ≤ 64
        · exact Or.inl (g3 hc)
        · have := g4 (by omega)
          right; omega
      rcases da5' with o1 | ⟨o1, o2⟩
      · obtain ⟨b, b1, b2⟩ := hdata (data.length / 64 - 2) (by omega)
        refine ⟨data.length / 64 - 1, 0, b, by omega, by omega, by omega, ?_, b2⟩
        rw [← b1, show 64 * (data.length / 64 - 1) + 0 = r.dataoffset + 64 * (data.length / 64 - 2) by omega]
      · have hpoor := hbase.2 (by omega)
        by_cases htwo : data.length = 128
        · by_cases hbig : 3 * 64 ≤ max
          · obtain ⟨b, b1, b2⟩ := hdata 0 (by omega)
            refine ⟨2, 0, b, by omega, by omega, by omega, ?_, b2⟩
            rw [← b1, show 64 * 2 + 0 = r.dataoffset + 64 * 0 by omega]
          · have hexp : d.exponent = 8 := by
              have h1 : 2 ^ d.exponent = 256 := by omega
              have : (2 : Nat) ^ d.exponent = 2 ^ 8 := h1
              exact Nat.pow_right_inj (by omega) |>.1 this
            have htm := (timed_iff h0 hd0).2 (rf hexp hpoor)
            exact ⟨1, 1, 100, by omega, by omega, by omega, z2 htm hpoor, by decide⟩
        · obtain ⟨b, b1, b2⟩ := hdata (data.length / 64 - 3) (by omega)
          refine ⟨data.length / 64 - 1, 0, b, by omega, by omega, by omega, ?_, b2⟩
          rw [← b1, show 64 * (data.length / 64 - 1) + 0 = r.dataoffset + 64 * (data.length / 64 - 3) by
            omega])
  have hsc : (msr2 env h r (headers2 r)).samplecnt > 0 := by
    have h1 : (msr2 env h r (headers2 r)).samplecnt = n := hmsr.samplecnt
    have := hst.pos
    omega
  unfold withSamples
  rw [if_pos ⟨rfl, hsc⟩, hup, hnum, first_drop]
  simp only
  have he : assumed (msr2 env h r (headers2 r)).encoding = (msr2 env h r (headers2 r)).encoding := by
    have e1 : (msr2 env h r (headers2 r)).encoding = ((packEncoding m.encoding : Nat) : Int) := hmsr.encoding
    unfold assumed
    rw [if_neg (by omega)]
  rw [bind_ok, he]

/-- The space for data. -/
def space2 (m : Msr) (d : Head) : Nat := 2 ^ d.exponent - dataAt d (packEncoding m.encoding)

theorem reclen_ok (i : Input2 rates json sampletime m net sta loc band source position d) :
    ¬ (m.reclen ≠ -1 ∧ (m.reclen < 40 ∨ m.reclen > 10485760)) := by
  obtain ⟨_, _, k3, k4⟩ := exp_ok d.exponent i.exponent
  have := i.reclen
  have := i.default
  unfold packReclen at *
  split at * <;> omega

/-- The beginning of the packer. -/
theorem packMseed2_head (i : Input2 rates json sampletime m net sta loc band source position d) (h : Bool)
    (flush : Bool) (junk : List UInt8) (rounds : Nat) (hj : 2 ^ d.exponent ≤ junk.length + 48) :
    ∃ B : List UInt8, B.length = 2 ^ d.exponent ∧
    msrPack2 rates json sampletime h m flush junk rounds =
      if m.samples.count = 0 then
        emptyRecord (headRec m net sta loc band source position d (B.drop d.size)).bytes (2 ^ d.exponent) d.size
      else
        (dataStart (headRec m net sta loc band source position d (B.drop d.size)).bytes
          (packEncoding m.encoding) d.size).bind fun (buf, dataoffset) =>
        (poke buf 44 (big h 2 dataoffset)).bind fun buf =>
        packLoop2 (fun offset => sampletime m.starttime offset m.samprate) h m.samples
          (packEncoding m.encoding) (2 ^ d.exponent)
          (maxSamples (packEncoding m.encoding) (2 ^ d.exponent - dataoffset) (typeSize m.samples)) dataoffset
          flush rounds buf 0 := by
  obtain ⟨k1, _, k3, k4⟩ := exp_ok d.exponent i.exponent
  refine ⟨List.replicate 48 0 ++ junk.take (2 ^ d.exponent - 48), by simp; omega, ?_⟩
  have hsz := size_fits i
  unfold msrPack2
  rw [if_neg (reclen_ok i)]
  unfold packMseed2
  have e : (packReclen m.reclen).toNat = 2 ^ d.exponent := by rw [i.reclen]; rfl
  simp only [e]
  have hB : (List.replicate 48 0 ++ junk.take (2 ^ d.exponent - 48)).length = 2 ^ d.exponent := by
    simp; omega
  have := packHeader2_eq rates json h m net sta loc band source position d _
    i.names i.exponent i.reclen i.time i.factors i.extra i.stores i.poor i.float.1 (by rw [hB]; exact hsz.2.1)
    (by rw [hB]; omega)
  rw [hB] at this
  rw [if_neg (by omega), if_neg (by omega), this]

theorem dataStart_eq (i : Input2 rates json sampletime m net sta loc band source position d)
    (rest : List UInt8) (hr : d.size + rest.length = 2 ^ d.exponent) :
    ∃ pad tail, d.size + pad.length = dataAt d (packEncoding m.encoding) ∧
      d.size + pad.length + tail.length = 2 ^ d.exponent ∧
      (dataStart (headRec m net sta loc band source position d rest).bytes
          (packEncoding m.encoding) d.size) =
        .ok ((headRec m net sta loc band source position d (pad ++ tail)).bytes,
          dataAt d (packEncoding m.encoding)) := by
  obtain ⟨_, _, k3, k4⟩ := exp_ok d.exponent i.exponent
  obtain ⟨da1, da2, da3, da6, da4, da5⟩ := dataAt_fits i (packEncoding m.encoding)
  unfold dataStart
  by_cases hs : packEncoding m.encoding = 10 ∨ packEncoding m.encoding = 11
  · have hat : dataAt d (packEncoding m.encoding) = frameOffset d.size := by
      unfold dataAt; rw [if_pos hs]
    rw [if_pos hs, hat]
    rw [hat] at da1 da2
    refine ⟨zeros (frameOffset d.size - d.size), rest.drop (frameOffset d.size - d.size),
      by simp [zeros]; omega, by simp [zeros]; omega, ?_⟩
    have hlen : ((headRec m net sta loc band source position d rest).fixed ++
        chainBytes true 48 (d.chain (packEncoding m.encoding))).length = d.size := by
      rw [List.length_append, fixed_length' _ ⟨rfl, i.names.sta.2, i.names.loc.2, i.names.net.2⟩,
        chain_size d (input_sound i)]
    have hb : (headRec m net sta loc band source position d rest).bytes =
        ((headRec m net sta loc band source position d rest).fixed ++
          chainBytes true 48 (d.chain (packEncoding m.encoding))) ++ rest := rfl
    have hp : poke (headRec m net sta loc band source position d rest).bytes d.size
        (List.replicate (frameOffset d.size - d.size) 0) =
        .ok (headRec m net sta loc band source position d
          (zeros (frameOffset d.size - d.size) ++ rest.drop (frameOffset d.size - d.size))).bytes := by
      have p2 := poke_append' (a := (headRec m net sta loc band source position d rest).fixed ++
          chainBytes true 48 (d.chain (packEncoding m.encoding))) (c := rest)
          (d := List.replicate (frameOffset d.size - d.size) 0) (by simp; omega)
      rw [hlen, List.length_replicate] at p2
      rw [hb, p2, List.append_assoc]
      rfl
    rw [hp, bind_ok]
  · rw [if_neg hs]
    have hat : dataAt d (packEncoding m.encoding) = d.size := da4 (by omega) (by omega)
    exact ⟨[], rest, by rw [hat]; rfl, by simpa using hr, by rw [hat]; rfl⟩

theorem poke_offset_rec (i : Input2 rates json sampletime m net sta loc band source position d) (h : Bool)
    (rest : List UInt8) :
    poke (headRec m net sta loc band source position d rest).bytes 44
        (big h 2 (dataAt d (packEncoding m.encoding))) =
      .ok (variant (dataRec m net sta loc band source position d) d.time 0 rest).bytes := by
  unfold Rec.bytes
  rw [List.append_assoc, poke_offset h _ ⟨rfl, i.names.sta.2, i.names.loc.2, i.names.net.2⟩ rfl]
  rw [← List.append_assoc]
  rfl

/-- Records read back. -/
theorem recs2_read (start : Nat → Int) (h : Bool)
    (i : Input2 rates json sampletime m net sta loc band source position d) (s2 : Some2 m)
    (rd : Readable m d) (lim : Nat) (pad : List UInt8)
    (hpad : d.size + pad.length = dataAt d (packEncoding m.encoding))
    (hstart : ∀ k, k < m.samples.count → timeOf sampletime m k = .ok (start k) ∧ GoodTime2 (start k)) :
    ∀ rs a b, Recs2 start h m.samples (packEncoding m.encoding) (space2 m d) lim
        (dataRec m net sta loc band source position d) pad a rs b →
      Divides (fun off n r => (r.length : Int) = packReclen m.reclen ∧
        ∃ t, timeOf sampletime m off = .ok t ∧ ∀ env, Reads2 env r (Back env m d off n t))
        a (rs.map Rec.bytes) b := by
  obtain ⟨_, _, k3, k4⟩ := exp_ok d.exponent i.exponent
  obtain ⟨da1, da2, da3, da6, da4, da5⟩ := dataAt_fits i (packEncoding m.encoding)
  intro rs
  induction rs with
  | nil => intro a b hr; exact hr
  | cons r rs ih =>
    intro a b hr
    obtain ⟨⟨dt, data, e1, e2, e3, e4, e5, e6⟩, hr⟩ := hr
    obtain ⟨t1, t2⟩ := hstart a (by omega)
    obtain ⟨dt', ht⟩ := good_time2 _ t2
    have : dt' = dt := Option.some.inj (ht.time.symm.trans e1)
    subst this
    have hone := fun env => read_one env h i s2 rd (start a) dt' ht a r.numsamples e3 (by omega) pad data
      (space2 m d) hpad (by unfold space2; omega) e6 r e2
    have henv : Env := ⟨fun _ _ => 0, fun n => n, fun _ => []⟩
    refine ⟨r.numsamples, (hone henv).1, ⟨?_, start a, t1, fun env => (hone env).2.2⟩, ih _ _ hr⟩
    rw [(hone henv).2.1, i.reclen]

/-- The packer from beginning to end. -/
theorem packed_records2 (h : Bool) (flush : Bool) (junk : List UInt8)
    (i : Input2 rates json sampletime m net sta loc band source position d) (s2 : Some2 m)
    (hj : 2 ^ d.exponent ≤ junk.length + 48) :
    (∃ p, msrPack2 rates json sampletime h m flush junk (m.samples.count + 1) = .ok p ∧
      (Readable m d → Divides (fun off n r => (r.length : Int) = packReclen m.reclen ∧
        ∃ t, timeOf sampletime m off = .ok t ∧ ∀ env, Reads2 env r (Back env m d off n t))
        0 p.records p.packed) ∧
      p.packed ≤ m.samples.count ∧
      ((p.ret = -1 ∧ p.packed < m.samples.count ∧
          (packData h (!h) (dropSamples p.packed m.samples) (space2 m d) (packEncoding m.encoding) = .err ∨
           ∃ x n, packData h (!h) (dropSamples p.packed m.samples) (space2 m d) (packEncoding m.encoding) =
              .ok (x, n) ∧ 65535 < n)) ∨
        (p.ret = p.records.length ∧ (flush = true → p.packed = m.samples.count) ∧
          (p.packed = m.samples.count ∨ m.samples.count - p.packed ≤
            maxSamples (packEncoding m.encoding) (space2 m d) (typeSize m.samples))))) ∨
    (msrPack2 rates json sampletime h m flush junk (m.samples.count + 1) = .ub ∧
      ∃ k, k < m.samples.count ∧
        packData h (!h) (dropSamples k m.samples) (space2 m d) (packEncoding m.encoding) = .ub) := by
  obtain ⟨_, _, k3, k4⟩ := exp_ok d.exponent i.exponent
  obtain ⟨da1, da2, da3, da6, da4, da5⟩ := dataAt_fits i (packEncoding m.encoding)
  have hsome := s2.some
  obtain ⟨B, hB, hmsr⟩ := packMseed2_head i h flush junk (m.samples.count + 1) hj
  obtain ⟨pad, tail, hpad, htail, hds⟩ := dataStart_eq i (B.drop d.size) (by simp; omega)
  rw [if_neg (by omega), hds, bind_ok] at hmsr
  simp only at hmsr
  rw [poke_offset_rec i h, bind_ok] at hmsr
  have hstart : ∃ start : Nat → Int, start 0 = m.starttime ∧
      ∀ k, k < m.samples.count → timeOf sampletime m k = .ok (start k) ∧ GoodTime2 (start k) := by
    refine ⟨fun k => match timeOf sampletime m k with | .ok t => t | .ub => 0, rfl, ?_⟩
    intro k hk
    by_cases h0 : k = 0
    · subst h0
      exact ⟨rfl, i.start⟩
    · obtain ⟨t, t1, t2⟩ := i.times k (by omega) hk
      have : timeOf sampletime m k = .ok t := by unfold timeOf; rw [if_neg h0, t1]
      simp only [this]
      exact ⟨trivial, t2⟩
  obtain ⟨start, hs0, hstart⟩ := hstart
  have hloop := loop2 (fun offset => sampletime m.starttime offset m.samprate) start h m.samples
    (dataRec m net sta loc band source position d) (input_shape i) rfl pad (packEncoding m.encoding)
    (space2 m d) (maxSamples (packEncoding m.encoding) (space2 m d) (typeSize m.samples))
    (2 ^ d.exponent) (dataAt d (packEncoding m.encoding)) flush
    (by
      rw [← hpad, ← chain_size d (input_sound i) (packEncoding m.encoding)]; rfl)
    (by unfold space2; omega) s2.few s2.fits
    (by
      intro k hk
      obtain ⟨a, b⟩ := hstart k hk
      refine ⟨?_, ?_⟩
      · intro h0
        unfold timeOf at a
        rw [if_neg (by omega)] at a
        exact a
      · obtain ⟨dt, hdt⟩ := good_time2 _ b
        exact ⟨dt, hdt.time⟩)
    (m.samples.count + 1) 0 d.time 0 tail (by omega) (by omega) (by rw [hs0]; exact i.time)
    (by unfold space2; omega)
  rw [hmsr]
  have e : 2 ^ d.exponent - dataAt d (packEncoding m.encoding) = space2 m d := rfl
  rw [e]
  revert hloop
  generalize packLoop2 (fun offset => sampletime m.starttime offset m.samprate) h m.samples
        (packEncoding m.encoding) _ _ _ flush _ _ 0 = out
  intro hloop
  cases out with
  | err => exact hloop.elim
  | oob => exact hloop.elim
  | ub => exact Or.inr ⟨rfl, hloop⟩
  | ok p =>
    obtain ⟨rs, r1, r2, r3, r4⟩ := hloop
    left
    refine ⟨p, rfl, ?_, r3, ?_⟩
    · intro rd
      rw [r1]
      exact recs2_read start h i s2 rd _ pad hpad hstart rs 0 p.packed r2
    · rcases r4 with r4 | ⟨a, b, c⟩
      · exact Or.inl r4
      · right
        refine ⟨?_, b, c⟩
        rw [r1, List.length_map]; exact a

/-- The record without samples. -/
theorem empty_bytes (i : Input2 rates json sampletime m net sta loc band source position d)
    (rest : List UInt8) (hr : d.size + rest.length = 2 ^ d.exponent) :
    emptyRecord (headRec m net sta loc band source position d rest).bytes (2 ^ d.exponent) d.size =
      .ok { records := [(variant (encRec m net sta loc band source position d 0 0) d.time 0
              (zeros (2 ^ d.exponent - d.size))).bytes], packed := 0, ret := 1 } := by
  have hf := fixed_length' (headRec m net sta loc band source position d rest)
    ⟨rfl, i.names.sta.2, i.names.loc.2, i.names.net.2⟩
  have hch : ∃ pre post, pre.length = 4 ∧ ∀ enc, chainBytes true 48 (d.chain enc) =
      pre ++ ([UInt8.ofNat enc] ++ post) := by
    unfold Head.chain Head.base
    simp only [List.cons_append]
    generalize ((if d.timed then [(Blkt.timing (UInt8.ofNat d.timing) (microOffset d.time) 0 0, ([] : List UInt8))] else []) ++
      (if d.poor then [(Blkt.rate d.float [0, 0, 0, 0], [])] else [])) ++ chained d.more = bs
    refine ⟨num true 2 1000 ++ num true 2 (if bs = [] then 0 else 48 + 8 + 0), 1 :: UInt8.ofNat d.exponent :: 0 ::
      (chainBytes true (48 + 8 + 0) bs), by simp [num_length], ?_⟩
    intro enc
    simp [chainBytes, Blkt.type, Blkt.size, Blkt.body]
  obtain ⟨pre, post, hpre, hch⟩ := hch
  have e1 : (headRec m net sta loc band source position d rest).bytes =
      ((headRec m net sta loc band source position d rest).fixed ++ pre) ++
        [UInt8.ofNat (packEncoding m.encoding)] ++ (post ++ rest) := by
    unfold Rec.bytes
    show (headRec m net sta loc band source position d rest).fixed ++
      chainBytes true 48 (d.chain (packEncoding m.encoding)) ++ rest = _
    rw [hch]
    simp only [List.append_assoc]
  unfold emptyRecord
  have hl : ((headRec m net sta loc band source position d rest).fixed ++ pre).length = 52 := by
    rw [List.length_append, hf, hpre]
  have p1 := poke_append (a := (headRec m net sta loc band source position d rest).fixed ++ pre)
    (b := [UInt8.ofNat (packEncoding m.encoding)]) (c := post ++ rest) (d := [0]) rfl
  rw [hl] at p1
  rw [e1, p1, bind_ok]
  have e2 : (headRec m net sta loc band source position d rest).fixed ++ pre ++ [0] ++ (post ++ rest) =
      ((headRec m net sta loc band source position d rest).fixed ++ chainBytes true 48 (d.chain 0)) ++ rest := by
    rw [hch]
    simp only [List.append_assoc]
    rfl
  have hl2 : ((headRec m net sta loc band source position d rest).fixed ++
      chainBytes true 48 (d.chain 0)).length = d.size := by
    rw [List.length_append, hf, chain_size d (input_sound i)]
  have p2 := poke_append' (a := (headRec m net sta loc band source position d rest).fixed ++
    chainBytes true 48 (d.chain 0)) (c := rest) (d := List.replicate (2 ^ d.exponent - d.size) 0)
    (by simp; omega)
  rw [hl2] at p2
  rw [e2, p2, bind_ok, List.drop_eq_nil_of_le (by simp; omega), List.append_nil]
  rfl

end

/-! ## The header in a buffer of any size -/

theorem openField_ok (c : List UInt8) (n : Nat) : ∃ f, openField c n = .ok f ∧ f.length = n := by
  obtain ⟨s, rest, e, hs, hr⟩ : ∃ s rest, c ++ [0] = s ++ rest ∧ (∀ x ∈ s, x ≠ 0) ∧ ∃ r, rest = 0 :: r := by
    refine ⟨(c ++ [0]).takeWhile (· != 0), (c ++ [0]).dropWhile (· != 0),
      (List.takeWhile_append_dropWhile).symm, ?_, ?_⟩
    · intro x hx
      have := List.all_takeWhile (l := c ++ [0]) (p := (· != 0))
      simpa using List.all_eq_true.1 this x hx
    · cases hd : (c ++ [0]).dropWhile (· != 0) with
      | nil =>
        have e := List.takeWhile_append_dropWhile (p := (· != 0)) (l := c ++ [0])
        rw [hd, List.append_nil] at e
        have := List.all_takeWhile (l := c ++ [0]) (p := (· != 0))
        rw [e] at this
        simp at this
      | cons x r =>
        have := List.head?_dropWhile_not (· != 0) (c ++ [0])
        rw [hd] at this
        simp at this
        exact ⟨r, by rw [this]⟩
  obtain ⟨r, rfl⟩ := hr
  obtain ⟨k, hk, he, hl⟩ := Props.Str.C12_strncpopen s (0 :: r) n ⟨hs, Or.inr (Or.inl ⟨r, rfl⟩)⟩
  unfold openField
  rw [e, he]
  exact ⟨_, rfl, hl⟩

theorem codes_lengths (sid : List UInt8) : codes sid ≠ .oob ∧ ∀ c, codes sid = .ok c →
    c.sta.length = 5 ∧ c.loc.length = 2 ∧ c.chan.length = 3 ∧ c.net.length = 2 := by
  unfold codes
  split
  · simp
  · next c0 _ =>
    split
    · simp
    · next chan _ =>
      split
      · simp
      · obtain ⟨f1, e1, l1⟩ := openField_ok c0.sta 5
        obtain ⟨f2, e2, l2⟩ := openField_ok c0.loc 2
        obtain ⟨f3, e3, l3⟩ := openField_ok chan 3
        obtain ⟨f4, e4, l4⟩ := openField_ok c0.net 2
        rw [e1, e2, e3, e4]
        simp only [bind_ok]
        refine ⟨by simp, ?_⟩
        intro c hc
        cases hc
        exact ⟨l1, l2, l3, l4⟩

theorem poke_fits {mem b : List UInt8} {off : Nat} (h : off + b.length ≤ mem.length) :
    ∃ mem', poke mem off b = .ok mem' ∧ mem'.length = mem.length := by
  unfold poke
  rw [if_pos h]
  exact ⟨_, rfl, by simp; omega⟩

theorem writeAll_fits (base size : Nat) : ∀ (ws : List (Nat × Res (List UInt8))) (mem : List UInt8),
    base + size ≤ mem.length → (∀ w ∈ ws, w.2 ≠ .oob ∧ ∀ b, w.2 = .ok b → w.1 + b.length ≤ size) →
    writeAll base mem ws ≠ .oob ∧ ∀ mem', writeAll base mem ws = .ok mem' → mem'.length = mem.length
  | [], mem, _, _ => ⟨by simp [writeAll], fun mem' h => by cases h; rfl⟩
  | (off, v) :: ws, mem, hm, hw => by
    obtain ⟨h1, h2⟩ := hw _ (List.mem_cons_self ..)
    unfold writeAll
    cases v with
    | err => exact ⟨by simp [Res.bind], fun mem' h => by cases h⟩
    | ub => exact ⟨by simp [Res.bind], fun mem' h => by cases h⟩
    | oob => exact absurd rfl h1
    | ok b =>
      have hb : off + b.length ≤ size := h2 b rfl
      obtain ⟨m1, e1, l1⟩ := poke_fits (mem := mem) (b := b) (off := base + off) (by omega)
      rw [bind_ok, e1, bind_ok, ← l1]
      exact writeAll_fits base size ws m1 (by omega) (fun w hx => hw w (List.mem_cons_of_mem _ hx))

theorem addSteps_fits (h : Bool) (L : Nat) (hL : L < 4294967296) : ∀ (steps : List Step) (buf : List UInt8)
    (written next count : Nat), Within steps → L ≤ buf.length → 40 ≤ buf.length → written ≤ L →
    next + 2 ≤ written →
    addSteps h L steps buf written next count ≠ .oob ∧
    ∀ b n, addSteps h L steps buf written next count = .ok (b, n) →
      b.length = buf.length ∧ written ≤ n ∧ n ≤ L
  | [], buf, written, next, count, _, _, _, hw, _ => by
    unfold addSteps
    refine ⟨by simp, fun b n e => ?_⟩
    cases e
    exact ⟨rfl, Nat.le_refl _, hw⟩
  | .refuse :: steps, buf, written, next, count, _, _, _, _, _ =>
    ⟨by simp [addSteps], fun b n e => by simp [addSteps] at e⟩
  | .undefined :: steps, buf, written, next, count, _, _, _, _, _ =>
    ⟨by simp [addSteps], fun b n e => by simp [addSteps] at e⟩
  | .room size :: steps, buf, written, next, count, hs, h1, h2, h3, h4 => by
    unfold addSteps
    split
    · exact ⟨by simp, fun b n e => by cases e⟩
    · exact addSteps_fits h L hL steps buf written next count
        (fun t s w hm => hs t s w (List.mem_cons_of_mem _ hm)) h1 h2 h3 h4
  | .add type size ws :: steps, buf, written, next, count, hs, h1, h2, h3, h4 => by
    obtain ⟨s4, hws⟩ := hs type size ws (List.mem_cons_self ..)
    unfold addSteps
    split
    · exact ⟨by simp, fun b n e => by cases e⟩
    · next hroom =>
      obtain ⟨b1, e1⟩ := pokes_ne_oob (mem := buf) (ws := [ (next, big h 2 (written % 65536)),
        (39, store h false 1 ((count + 1) % 256)), (written, List.replicate size 0), (written, big h 2 type),
        (written + 2, big h 2 0) ]) (by
          intro w hw
          simp only [List.mem_cons, List.not_mem_nil, or_false] at hw
          rcases hw with rfl | rfl | rfl | rfl | rfl <;> simp [big_eq, byte_eq, num_length] <;> omega)
      have l1 := pokes_length e1
      unfold beginBlockette
      rw [e1, bind_ok]
      obtain ⟨w1, w2⟩ := writeAll_fits written size ws b1 (by omega) hws
      cases hwa : writeAll written b1 ws with
      | err => exact ⟨by simp [Res.bind], fun b n e => by cases e⟩
      | ub => exact ⟨by simp [Res.bind], fun b n e => by cases e⟩
      | oob => exact absurd hwa w1
      | ok b2 =>
        have l2 := w2 b2 hwa
        rw [bind_ok]
        obtain ⟨r1, r2⟩ := addSteps_fits h L hL steps b2 (written + size) (written + 2) (count + 1)
          (fun t s w hm => hs t s w (List.mem_cons_of_mem _ hm)) (by omega) (by omega) (by omega) (by omega)
        refine ⟨r1, fun b n e => ?_⟩
        obtain ⟨q1, q2, q3⟩ := r2 b n e
        exact ⟨by omega, by omega, q3⟩

theorem header2_fits (rates : Rates) (json : List UInt8 → Option Extra) (h : Bool) (m : Msr)
    (buf : List UInt8) (recbuflen : Nat) (h76 : 76 ≤ recbuflen) (hb : recbuflen ≤ buf.length)
    (hL : recbuflen < 4294967296) (hw : ∀ e, extraOf json m.extra = some e → Within e.steps) :
    packHeader2 rates json h m buf recbuflen ≠ .oob ∧
    ∀ b n, packHeader2 rates json h m buf recbuflen = .ok (b, n) →
      b.length = buf.length ∧ 56 ≤ n ∧ n ≤ recbuflen := by
  unfold packHeader2
  simp only
  split
  · simp
  · split
    · simp
    · obtain ⟨c1, c2⟩ := codes_lengths (m.sid.takeWhile (· != 0))
      cases hc : codes (m.sid.takeWhile (· != 0)) with
      | err => simp [Res.bind]
      | ub => simp [Res.bind]
      | oob => exact absurd hc c1
      | ok c =>
        obtain ⟨l1, l2, l3, l4⟩ := c2 c hc
        rw [bind_ok]
        cases nstime2time m.starttime with
        | none => simp
        | some t =>
          simp only
          cases rates.factors m.samprate with
          | none => simp
          | some fm =>
            obtain ⟨factor, multiplier⟩ := fm
            simp only
            cases hx : extraOf json m.extra with
            | none => simp
            | some eh =>
              simp only
              have hw := hw eh hx
              generalize (eh.timing.isSome || decide (microOffset t ≠ 0)) = timed
              generalize rates.poor m.samprate factor multiplier = poor
              obtain ⟨b, hp⟩ := pokes_ne_oob (mem := buf) (ws := fixedWrites h m c t factor multiplier eh
                (1 + (if timed then 1 else 0) + (if poor then 1 else 0)) ++
                chainWrites rates h m (expLoop (packReclen m.reclen).toNat 25 1 1) t eh timed poor) (by
                intro w hw
                rw [List.mem_append] at hw
                rcases hw with hw | hw
                · simp only [fixedWrites, List.mem_cons, List.not_mem_nil, or_false] at hw
                  rcases hw with hw | hw | hw | hw | hw | hw | hw | hw | hw | hw | hw | hw | hw | hw | hw |
                    hw | hw | hw | hw | hw | hw | hw | hw | hw <;>
                    rw [hw] <;> simp [big_eq, byte_eq, num_length, l1, l2, l3, l4] <;> omega
                · cases timed <;> cases poor <;>
                    simp [chainWrites, b1000Writes, b1001Writes, b100Writes, big_eq, byte_eq] at hw <;>
                    (rcases hw with hw | hw | hw | hw | hw | hw | hw | hw | hw | hw | hw | hw | hw | hw |
                      hw | hw | hw) <;>
                    first
                      | (rw [hw]; simp [num_length]; omega)
                      | (simp; omega))
              rw [hp, bind_ok]
              have hl := pokes_length hp
              rw [← hl]
              have := addSteps_fits h recbuflen hL eh.steps b
                (56 + (if timed then 8 else 0) + (if poor then 12 else 0))
                ((if poor then (if timed then 64 else 56) else if timed then 56 else 48) + 2)
                (1 + (if timed then 1 else 0) + (if poor then 1 else 0)) hw (by omega) (by omega)
                (by cases timed <;> cases poor <;> simp <;> omega)
                (by cases timed <;> cases poor <;> simp)
              refine ⟨this.1, ?_⟩
              intro b' n hbn
              obtain ⟨q1, q2, q3⟩ := this.2 b' n hbn
              exact ⟨q1, by omega, q3⟩

end Verif.Proof.Pack2
