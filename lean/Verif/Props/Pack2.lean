import Verif.Proof.Pack2Back
import Verif.Props.Pack
import Verif.Props.Record2
/-!
# Packing samples into version 2 records (C85 to C88)

The packer `msr3_pack` with `MSF_PACKVER2`, followed by the parser: what a reader gets from the records
handed to the record handler.  The terms are defined in `Verif.Props.Pack2Defs`, the conditions on the
arguments are `Input2` in `Verif.Proof.Pack2All`.  `rounds`, the bound on the number of rounds of the loop
in the model, is one more than the number of samples, and the theorems show that this is enough.
-/
namespace Verif.Props.Pack2
open Verif.Model Verif.Model.Bytes Verif.Model.Steim Verif.Model.Samples Verif.Model.Mem
  Verif.Model.Record3 Verif.Model.Pack Verif.Model.Pack2
open Verif.Model.Record2 (Env Header unpack2)
open Verif.Spec Verif.Spec.Record2
open Verif.Spec.Steim (isInt32)
open Verif.Proof.Mem Verif.Proof.Pack2
open Verif.Proof.PackRead (divides_mono packData_some packData_ub)
open Verif.Proof.Pack (stored drop_count drop_representable)
open Verif.Props.Samples Verif.Props.Pack
open Verif.Props.Record2 (env0)

theorem reads_mono {env : Env} {r : List UInt8} {P Q : Msr → Prop} (h : ∀ m', P m' → Q m')
    (hr : Reads2 env r P) : Reads2 env r Q := by
  intro host
  obtain ⟨m', w, u⟩ := hr host
  exact ⟨m', h m' w, u⟩

section
variable (rates : Rates) (json : List UInt8 → Option Extra)
  (sampletime : Int → Nat → Nat → Out Int) (h : Bool) (m : Msr) (net sta loc : List UInt8)
  (band source position : UInt8) (d : Head)

/-- **C85**, any samples: the packer ends after at most as many rounds as there are samples, and unless a
difference of Steim-encoded samples overflows 32 bits (undefined behaviour, C59), the records, each of
exactly the record length, divide a first part of the samples, which is reported as packed, into consecutive
runs, and each is read back as its run of samples.  The result is -1, or the number of records, and then with
flush all samples are packed.  Missing: 2^32 or more samples, start times that version 2 readers mistake
(C72), and the records excluded by `Readable`, for which the claim fails (`C64_fixed_cut_violated`,
`C85_frames_violated`). -/
theorem C85_packed_prefix_partial (flush : Bool) (junk : List UInt8)
    (i : Input2 rates json sampletime m net sta loc band source position d) (s : Some2 m)
    (rd : Readable m d) (hj : packReclen m.reclen ≤ junk.length + 48) :
    (∃ p, msrPack2 rates json sampletime h m flush junk (m.samples.count + 1) = .ok p ∧
      Divides (fun off n r => (r.length : Int) = packReclen m.reclen ∧ ∀ env, Reads2 env r (fun m' =>
        m'.samples = slice off n m.samples ∧ m'.samplecnt = n ∧ m'.formatversion = 2 ∧
        m'.reclen = packReclen m.reclen)) 0 p.records p.packed ∧
      ((p.ret = -1 ∧ p.packed < m.samples.count) ∨
        (p.ret = p.records.length ∧ (flush = true → p.packed = m.samples.count)))) ∨
    (msrPack2 rates json sampletime h m flush junk (m.samples.count + 1) = .ub ∧ Steim m ∧
      ∃ x ∈ steps m.samples, ¬ isInt32 x) := by
  have hj' : 2 ^ d.exponent ≤ junk.length + 48 := by have := i.reclen; omega
  rcases packed_records2 h flush junk i s hj' with ⟨p, h1, h2, h3, h4⟩ | ⟨h1, k, h2, h3⟩
  · left
    refine ⟨p, h1, divides_mono ?_ _ _ _ (h2 rd), ?_⟩
    · intro a n r ⟨q1, t, _, q2⟩
      exact ⟨q1, fun env => reads_mono (fun m' b => ⟨b.samples, b.samplecnt, b.version, b.reclen⟩) (q2 env)⟩
    · rcases h4 with ⟨a, b, _⟩ | ⟨a, b, _⟩
      · exact Or.inl ⟨a, b⟩
      · exact Or.inr ⟨a, b⟩
  · right
    obtain ⟨a, b⟩ := packData_ub h (!h) m.samples _ _ k s.fits h2 h3
    exact ⟨h1, a, b⟩

/-- Encodable samples are packed from every position, at most 65535 at a time. -/
theorem packs (i : Input2 rates json sampletime m net sta loc band source position d) (s : Some2 m)
    (e : Encodable2 m d) (k : Nat) (hk : k < m.samples.count) :
    ∃ x n, packData h (!h) (dropSamples k m.samples) (space2 m d) (packEncoding m.encoding) = .ok (x, n) ∧
      n ≤ 65535 := by
  obtain ⟨_, _, k3, k4⟩ := exp_ok d.exponent i.exponent
  obtain ⟨da1, da2, da3, da6, da4, da5⟩ := dataAt_fits i (packEncoding m.encoding)
  have hcnt := drop_count k m.samples
  have henc : packEncoding m.encoding ∈ [0, 1, 3, 4, 5, 10, 11] := by
    have := s.fits
    unfold representable at this
    split at this <;> first | exact this.elim | simp [*]
  have h8 : 8 ≤ d.exponent → 256 ≤ 2 ^ d.exponent := fun h8 => by
    have : 2 ^ 8 ≤ 2 ^ d.exponent := Nat.pow_le_pow_right (by omega) h8
    omega
  have hroom : unit (packEncoding m.encoding) ≤ space2 m d := by
    unfold unit space2
    by_cases hs : packEncoding m.encoding = 10 ∨ packEncoding m.encoding = 11
    · rw [if_pos hs]
      obtain ⟨g1, g2, g3, g4⟩ := da5 hs
      by_cases hc : d.size ≤ 64
      · have := g3 hc; omega
      · have := g4 (by omega)
        by_cases hm : d.more = []
        · have hb := base_cases d
          have hs' := size_base hm
          have := h8 (e.room hs (hb.2 (by omega)))
          omega
        · have := e.more hm
          rw [if_pos (show Steim m from hs)] at this
          omega
    · rw [if_neg hs, da4 (by omega) (by omega)]
      have : storedSize (packEncoding m.encoding) ≤ 8 := by
        unfold storedSize; repeat' split
        all_goals omega
      by_cases hm : d.more = []
      · have hb := (base_cases d).1
        have hs' := size_base hm
        omega
      · have := e.more hm
        rw [if_neg (show ¬ Steim m from hs)] at this
        omega
  obtain ⟨⟨x, n⟩, hx⟩ := packData_some h (!h) m.samples (space2 m d) _ hroom e.steim1 e.steim2 s.fits k hk
  refine ⟨x, n, hx, ?_⟩
  have hst := stored h (!h) _ _ _ _ _ (drop_representable k m.samples _ s.fits) (by omega) hx
  have hle := hst.le
  have hfew := hst.few
  have hr := hst.room
  have hsp : space2 m d + 56 ≤ 2 ^ d.exponent := by unfold space2; omega
  rcases e.count with c | ⟨c, cs⟩ | c
  · have : 2 ^ d.exponent ≤ 2 ^ 15 := Nat.pow_le_pow_right (by omega) c
    omega
  · have : 2 ^ d.exponent ≤ 2 ^ 16 := Nat.pow_le_pow_right (by omega) c
    unfold Steim at cs
    have hf := hst.fixed (by omega) (by omega)
    have h1 : 1 ≤ storedSize (packEncoding m.encoding) := by
      simp only [List.mem_cons, List.not_mem_nil, or_false] at henc
      rcases henc with h | h | h | h | h | h | h <;> rw [h] <;> decide
    have : 1 * n ≤ storedSize (packEncoding m.encoding) * n := Nat.mul_le_mul_right n h1
    omega
  · omega

/-- **C85.** Packing with flush: when the encoding can store the differences and at most 65535 samples fit
into a record, all samples are packed, the count reported is their number, the result is the number of
records, and the records, each of exactly the record length, are read back on either host as consecutive runs
covering all samples.  Missing: see `C85_packed_prefix_partial` and `C85_many_samples_violated`. -/
theorem C85_pack2_keeps_samples_partial (junk : List UInt8)
    (i : Input2 rates json sampletime m net sta loc band source position d) (s : Some2 m)
    (rd : Readable m d) (e : Encodable2 m d) (hj : packReclen m.reclen ≤ junk.length + 48) :
    ∃ p, msrPack2 rates json sampletime h m true junk (m.samples.count + 1) = .ok p ∧
      p.packed = m.samples.count ∧ p.ret = p.records.length ∧
      Divides (fun off n r => (r.length : Int) = packReclen m.reclen ∧ ∀ env, Reads2 env r (fun m' =>
        m'.samples = slice off n m.samples ∧ m'.samplecnt = n ∧ m'.formatversion = 2 ∧
        m'.reclen = packReclen m.reclen)) 0 p.records m.samples.count := by
  have hj' : 2 ^ d.exponent ≤ junk.length + 48 := by have := i.reclen; omega
  rcases packed_records2 h true junk i s hj' with ⟨p, h1, h2, h3, h4⟩ | ⟨h1, k, h2, h3⟩
  · rcases h4 with ⟨a, b, c⟩ | ⟨a, b, _⟩
    · obtain ⟨x, n, hx, hn⟩ := packs rates json sampletime h m net sta loc band source position d i s e _ b
      rw [hx] at c
      rcases c with c | ⟨x', n', c, hn'⟩
      · cases c
      · cases c; omega
    · refine ⟨p, h1, b rfl, a, ?_⟩
      rw [← b rfl]
      refine divides_mono ?_ _ _ _ (h2 rd)
      intro a n r ⟨q1, t, _, q2⟩
      exact ⟨q1, fun env => reads_mono (fun m' b => ⟨b.samples, b.samplecnt, b.version, b.reclen⟩) (q2 env)⟩
  · obtain ⟨x, n, hx, hn⟩ := packs rates json sampletime h m net sta loc band source position d i s e _ h2
    rw [hx] at h3
    cases h3

/-- **C85**, no samples: exactly one record without samples is made, of the record length, and it is read
back with the identifier and the flags given. -/
theorem C85_no_samples (flush : Bool) (junk : List UInt8) (rounds : Nat)
    (i : Input2 rates json sampletime m net sta loc band source position d) (hnone : m.samples.count = 0)
    (hj : packReclen m.reclen ≤ junk.length + 48) :
    ∃ r, msrPack2 rates json sampletime h m flush junk rounds
        = .ok { records := [r], packed := 0, ret := 1 } ∧
      (r.length : Int) = packReclen m.reclen ∧
      ∀ env, Reads2 env r (fun m' => m'.samplecnt = 0 ∧ m'.encoding = 0 ∧ m'.sid = m.sid ∧
        m'.starttime = m.starttime / 1000 * 1000 ∧ m'.flags = m.flags % 8 ∧
        m'.pubversion = versionBack m.pubversion d.extra.quality) := by
  have hj' : 2 ^ d.exponent ≤ junk.length + 48 := by have := i.reclen; omega
  obtain ⟨_, _, k3, k4⟩ := exp_ok d.exponent i.exponent
  have hsz := size_fits i
  obtain ⟨B, hB, hmsr⟩ := packMseed2_head i h flush junk rounds hj'
  rw [if_pos hnone, empty_bytes i (B.drop d.size) (by simp; omega)] at hmsr
  obtain ⟨dt, ht⟩ := good_time2 _ i.start
  have hd0 : d.time = dt := Option.some.inj (i.time.symm.trans ht.time)
  have hrest : d.size + (zeros (2 ^ d.exponent - d.size)).length = 2 ^ d.exponent := by
    simp [zeros]; omega
  refine ⟨_, hmsr, ?_, ?_⟩
  · rw [encRec, variant_length i, hrest, i.reclen]
  · intro env host
    -- the description of the same record with encoding 0
    have i' : Input2 rates json sampletime { m with encoding := 0 } net sta loc band source position d :=
      ⟨i.names, i.exponent, i.reclen, i.default, i.start, i.time, i.factors, i.factor, i.multiplier, i.poor,
        i.float, i.extra, i.correction, i.times, i.stores, i.more, i.fits⟩
    rw [hd0]
    generalize hr : variant (encRec m net sta loc band source position d 0 0) dt 0
      (zeros (2 ^ d.exponent - d.size)) = r
    have hb := back_msr env host i' m.starttime dt ht 0 0 0 0 (zeros (2 ^ d.exponent - d.size)) hrest rfl r
      hr.symm
    obtain ⟨_, hp⟩ := back_parse env host i m.starttime dt ht 0 0 0 (by omega) ⟨by omega, by omega⟩
      (zeros (2 ^ d.exponent - d.size)) hrest r hr.symm
    generalize Proof.Record2.msr2 env host r (Proof.Record2.headers2 r) = x at hb hp
    have hc : x.samplecnt = 0 := hb.samplecnt
    refine ⟨x, ⟨hc, hb.encoding, hb.sid, ?_, hb.flags, hb.pubversion⟩, ?_⟩
    · have : x.starttime = m.starttime / 100000 * 100000 + m.starttime / 1000 % 100 * 1000 := hb.starttime
      omega
    · intro align rest vc eof
      rw [hp]
      unfold withSamples
      rw [if_neg (by omega), bind_ok]

/-- **C86.** The start time of every record is less than 0.0001 seconds away from the time of its first
sample; the first record starts at the given time cut to microseconds, and if all sample times are multiples
of 0.0001 seconds, every record starts at exactly the time of its first sample.  Missing: the exact time in
microseconds for later records, see `C86_later_record_violated`. -/
theorem C86_record_times_partial (flush : Bool) (junk : List UInt8) (p : Packing)
    (i : Input2 rates json sampletime m net sta loc band source position d) (s : Some2 m)
    (rd : Readable m d) (hj : packReclen m.reclen ≤ junk.length + 48)
    (hp : msrPack2 rates json sampletime h m flush junk (m.samples.count + 1) = .ok p) :
    Divides (fun off _ r => ∃ t, timeOf sampletime m off = .ok t ∧ ∀ env, Reads2 env r (fun m' =>
      t - 100000 < m'.starttime ∧ m'.starttime < t + 100000 ∧
      (off = 0 → m'.starttime = t / 1000 * 1000) ∧
      (m.starttime % 100000 = 0 → t % 100000 = 0 → m'.starttime = t))) 0 p.records p.packed := by
  have hj' : 2 ^ d.exponent ≤ junk.length + 48 := by have := i.reclen; omega
  rcases packed_records2 h flush junk i s hj' with ⟨p', h1, h2, _⟩ | ⟨h1, _⟩
  · rw [hp] at h1
    cases h1
    refine divides_mono ?_ _ _ _ (h2 rd)
    intro off n r ⟨q1, t, q2, q3⟩
    refine ⟨t, q2, fun env => reads_mono ?_ (q3 env)⟩
    intro m' b
    have hs := b.starttime
    refine ⟨by omega, by omega, ?_, by omega⟩
    intro h0
    subst h0
    have : m.starttime = t := by simpa [timeOf] using q2
    omega
  · rw [hp] at h1; cases h1

/-- **C87.** Every record carries the identifier, the encoding and the three flags given, the sample rate as
stored (a 32-bit float if factor and multiplier are too far off, otherwise those), and the publication version
if it is one of the four that version 2 knows and no data quality is given in the extra headers.  Missing:
other publication versions, see `C87_version_violated`. -/
theorem C87_metadata_kept_partial (flush : Bool) (junk : List UInt8) (p : Packing)
    (i : Input2 rates json sampletime m net sta loc band source position d) (s : Some2 m)
    (rd : Readable m d) (hj : packReclen m.reclen ≤ junk.length + 48)
    (hp : msrPack2 rates json sampletime h m flush junk (m.samples.count + 1) = .ok p) :
    Divides (fun _ _ r => ∀ env, Reads2 env r (fun m' =>
      m'.sid = m.sid ∧ m'.encoding = packEncoding m.encoding ∧ m'.flags = m.flags % 8 ∧
      m'.samprate = (if rates.poor m.samprate d.factor d.multiplier then env.widen (rates.narrow m.samprate)
        else env.nominal d.factor d.multiplier) ∧
      m'.pubversion = versionBack m.pubversion d.extra.quality ∧
      (d.extra.quality = none → 1 ≤ m.pubversion → m.pubversion ≤ 4 → m'.pubversion = m.pubversion)))
      0 p.records p.packed := by
  have hj' : 2 ^ d.exponent ≤ junk.length + 48 := by have := i.reclen; omega
  rcases packed_records2 h flush junk i s hj' with ⟨p', h1, h2, _⟩ | ⟨h1, _⟩
  · rw [hp] at h1
    cases h1
    refine divides_mono ?_ _ _ _ (h2 rd)
    intro off n r ⟨q1, t, q2, q3⟩
    refine fun env => reads_mono ?_ (q3 env)
    intro m' b
    refine ⟨b.sid, b.encoding, b.flags, ?_, b.pubversion, ?_⟩
    · rw [b.samprate, i.poor, i.float.1]
    · intro hq h1 h4
      rw [b.pubversion, hq]
      exact if_pos ⟨h1, h4⟩
  · rw [hp] at h1; cases h1

/-- **C88.** The boolean extra headers that version 2 has a bit for, the sign of the leap second, the time
correction unless 0, the timing quality up to 255 and the blockettes that the entries of events, calibrations
and timing became are read back from every record as they were given, and nothing else.  Missing: other extra
headers, which are dropped; what becomes of the entries is C116; a start time with microseconds beyond units of
0.0001 seconds makes up a timing quality of 0 (`C88_timing_quality_violated`). -/
theorem C88_extra_headers_kept_partial (flush : Bool) (junk : List UInt8) (p : Packing)
    (i : Input2 rates json sampletime m net sta loc band source position d) (s : Some2 m)
    (rd : Readable m d) (hj : packReclen m.reclen ≤ junk.length + 48)
    (hp : msrPack2 rates json sampletime h m flush junk (m.samples.count + 1) = .ok p) :
    Divides (fun _ _ r => ∀ env, Reads2 env r (fun m' =>
      ∃ hs, ExtraKept m.starttime d.extra d.more hs ∧ m'.extra = if hs = [] then [] else env.json hs))
      0 p.records p.packed := by
  have hj' : 2 ^ d.exponent ≤ junk.length + 48 := by have := i.reclen; omega
  rcases packed_records2 h flush junk i s hj' with ⟨p', h1, h2, _⟩ | ⟨h1, _⟩
  · rw [hp] at h1
    cases h1
    refine divides_mono ?_ _ _ _ (h2 rd)
    intro off n r ⟨q1, t, q2, q3⟩
    exact fun env => reads_mono (fun m' b => b.extra) (q3 env)
  · rw [hp] at h1; cases h1

end

/-! ## Examples and violations -/

/-- The codes XX, ANMO, 00 and B, H, Z. -/
def sid0 : List UInt8 := "FDSN:XX_ANMO_00_B_H_Z".toUTF8.toList

/-- Operations on rates for examples: 8000 samples per second with factor 8000 or, if `poor`, also with a
32-bit float. -/
def rates0 (poor : Bool) : Rates := ⟨fun _ => some (8000, 1), fun _ _ _ => poor, fun _ => 0x45FA0000⟩

/-- Samples every 0.000125 seconds. -/
def every125 (start : Int) (k _ : Nat) : Out Int := .ok (start + k * 125000)

/-- Thirty samples with differences of 32 bits, 50 microseconds after the beginning of 2012, for records of
128 bytes. -/
def thirty : Msr :=
  { sid := sid0, flags := 5, starttime := 1325376000000050000, reclen := 128, samprate := 0x40BF400000000000,
    encoding := 10, pubversion := 3, samples := .ints ((List.replicate 15 [0, 100000]).flatten) }

/-- The header of `thirty`. -/
def head30 (micro : Int) (poor : Bool) (exponent : Nat) : Head :=
  { time := ⟨2012, 1, 0, 0, 0, micro⟩, factor := 8000, multiplier := 1, extra := {}, poor := poor,
    float := 0x45FA0000, exponent := exponent }

theorem good2012 (x : Int) (h0 : 0 ≤ x) (h1 : x < 60000000000) : GoodTime2 (1325376000000000000 + x) := by
  have hy : yearLen 2012 = 366 := by decide
  refine ⟨⟨2012, 1, 0, 0, x / 1000000000, x % 1000000000⟩, ?_, ?_, by simp, by simp, by simp, ?_⟩
  · constructor <;> simp <;> omega
  · have : jan1 2012 = 15340 := by decide +kernel
    simp only [Fields.instant, this]
    omega
  · have : (Fields.mk 1902 1 0 0 0 0).instant = -2145916800000000000 := by decide +kernel
    rw [this]
    omega

theorem thirty_input : Input2 (rates0 false) (fun _ => none) every125 thirty [88, 88] [65, 78, 77, 79]
    [48, 48] 66 72 90 (head30 50000 false 7) := by
  constructor
  · constructor <;> decide +kernel
  · decide
  · decide
  · decide
  · exact good2012 50000 (by omega) (by omega)
  · decide +kernel
  · rfl
  · decide
  · decide
  · rfl
  · exact ⟨rfl, by decide⟩
  · rfl
  · intro c hc; cases hc
  · intro k h0 hk
    have hk : k < 30 := hk
    refine ⟨_, rfl, ?_⟩
    have : thirty.starttime + (k : Int) * 125000 = 1325376000000000000 + (50000 + (k : Int) * 125000) := by
      show (1325376000000050000 : Int) + _ = _
      omega
    rw [this]
    exact good2012 _ (by omega) (by omega)
  · exact Stores.nil
  · intro x hx; cases hx
  · intro hx; exact absurd rfl hx

theorem thirty_some : Some2 thirty := by
  refine ⟨by decide, by decide, ?_⟩
  show ∀ x ∈ (List.replicate 15 [(0 : Int), 100000]).flatten, isInt32 x
  decide

/-- The hypotheses of the theorems above can be met. -/
example : Input2 (rates0 false) (fun _ => none) every125 thirty [88, 88] [65, 78, 77, 79]
      [48, 48] 66 72 90 (head30 50000 false 7) ∧ Some2 thirty ∧ Readable thirty (head30 50000 false 7) ∧
    Encodable2 thirty (head30 50000 false 7) :=
  ⟨thirty_input, thirty_some, ⟨Or.inl (Or.inl rfl), fun _ => Or.inl ⟨rfl, fun h => nomatch h⟩⟩,
    ⟨fun _ h => (nomatch h), fun h => absurd rfl h, Or.inl (by decide), fun _ => by decide +kernel, fun h => (nomatch h)⟩⟩

/-- The records, for examples. -/
def recordsOf : Res Packing → List (List UInt8)
  | .ok p => p.records
  | _ => []

/-- The description read, for examples. -/
def readOf (r : List UInt8) : Msr :=
  match parse (unpack2 env0 false 0) false 0 r false true false with
  | .ok (.record m', _) => m'
  | _ => {}

/-- The records of `thirty`. -/
def records30 : List (List UInt8) :=
  recordsOf (msrPack2 (rates0 false) (fun _ => none) every125 false thirty true (List.replicate 80 0) 31)

/-- **C86 (violated).** The microseconds beyond units of 0.0001 seconds of the first record are kept in all
records: 13 samples, that is 0.001625 seconds, after the start at 0.000050, the second record is said to start
at 0.001650 instead of 0.001675 seconds. -/
theorem C86_later_record_violated : ∃ r1 r2 r3 m',
    msrPack2 (rates0 false) (fun _ => none) every125 false thirty true (List.replicate 80 0) 31
      = .ok { records := [r1, r2, r3], packed := 30, ret := 3 } ∧
    parse (unpack2 env0 false 0) false 0 r2 false true false = .ok (.record m', r2) ∧
    m'.samples = slice 13 13 thirty.samples ∧
    every125 thirty.starttime 13 thirty.samprate = .ok (m'.starttime + 25000) := by
  refine ⟨records30.getD 0 [], records30.getD 1 [], records30.getD 2 [], readOf (records30.getD 1 []), ?_⟩
  decide +kernel

/-- **C88 (violated).** A description without extra headers is packed into records that are read back with one:
a timing quality of 0, because its start time has 50 microseconds. -/
theorem C88_timing_quality_violated : ∃ r1 r2 r3 m', thirty.extra = [] ∧
    msrPack2 (rates0 false) (fun _ => none) every125 false thirty true (List.replicate 80 0) 31
      = .ok { records := [r1, r2, r3], packed := 30, ret := 3 } ∧
    parse (unpack2 env0 false 0) false 0 r1 false true false = .ok (.record m', r1) ∧
    m'.extra = env0.json [.quality 0] := by
  refine ⟨records30.getD 0 [], records30.getD 1 [], records30.getD 2 [], readOf (records30.getD 0 []), ?_⟩
  decide +kernel

/-- Twenty-eight samples with differences of 32 bits at the beginning of 2012, for records of 256 bytes. -/
def twentyEight : Msr :=
  { thirty with
    starttime := 1325376000000000000, reclen := 256
    samples := .ints ((List.replicate 14 [0, 100000]).flatten) }

theorem twentyEight_input : Input2 (rates0 true) (fun _ => none) every125 twentyEight [88, 88] [65, 78, 77, 79]
    [48, 48] 66 72 90 (head30 0 true 8) := by
  constructor
  · constructor <;> decide +kernel
  · decide
  · decide
  · decide
  · exact good2012 0 (by omega) (by omega)
  · decide +kernel
  · rfl
  · decide
  · decide
  · rfl
  · exact ⟨rfl, by decide⟩
  · rfl
  · intro c hc; cases hc
  · intro k h0 hk
    have hk : k < 28 := hk
    exact ⟨_, rfl, good2012 _ (by omega) (by omega)⟩
  · exact Stores.nil
  · intro x hx; cases hx
  · intro hx; exact absurd rfl hx

/-- **C85 (violated, frames).** All 28 samples are packed into one record of 256 bytes, with data from 128 on
because of a blockette 100.  The record satisfies all conditions but `Readable`; it cannot be read back: the
reader takes bytes 64 to 127, which are zero, for the second frame of the data. -/
theorem C85_frames_violated : ∃ r,
    Input2 (rates0 true) (fun _ => none) every125 twentyEight [88, 88] [65, 78, 77, 79] [48, 48] 66 72 90
      (head30 0 true 8) ∧
    Some2 twentyEight ∧ Encodable2 twentyEight (head30 0 true 8) ∧
    msrPack2 (rates0 true) (fun _ => none) every125 false twentyEight true (List.replicate 208 0) 29
      = .ok { records := [r], packed := 28, ret := 1 } ∧
    parse (unpack2 env0 false 0) false 0 r false true false = .ok (.genError, r) := by
  refine ⟨(recordsOf (msrPack2 (rates0 true) (fun _ => none) every125 false twentyEight true
    (List.replicate 208 0) 29)).getD 0 [], twentyEight_input, ?_, ?_, ?_⟩
  · refine ⟨by decide, by decide, ?_⟩
    show ∀ x ∈ (List.replicate 14 [(0 : Int), 100000]).flatten, isInt32 x
    decide
  · exact ⟨fun _ _ => by decide, fun h => absurd rfl h, Or.inl (by decide), fun _ => by decide +kernel, fun h => nomatch h⟩
  · decide +kernel

/-- **C87 (violated).** A publication version that version 2 does not know is read back as 2, whatever it
was. -/
theorem C87_version_violated : ∃ r1 r2 r3 m',
    msrPack2 (rates0 false) (fun _ => none) every125 false { thirty with pubversion := 5 } true
      (List.replicate 80 0) 31 = .ok { records := [r1, r2, r3], packed := 30, ret := 3 } ∧
    parse (unpack2 env0 false 0) false 0 r1 false true false = .ok (.record m', r1) ∧
    m'.pubversion = 2 := by
  let rs := recordsOf (msrPack2 (rates0 false) (fun _ => none) every125 false { thirty with pubversion := 5 } true
      (List.replicate 80 0) 31)
  refine ⟨rs.getD 0 [], rs.getD 1 [], rs.getD 2 [], readOf (rs.getD 0 []), ?_⟩
  decide +kernel

/-- **C85 (violated, many samples).** More than 65535 characters of text that fit into one record of 131072
bytes are not packed at all: the result is -1 and there is no record. -/
theorem C85_many_samples_violated (b : List UInt8) (hb : 65535 < b.length) (hb2 : b.length ≤ 131016)
    (junk : List UInt8) (hj : 131072 ≤ junk.length) :
    msrPack2 (rates0 false) (fun _ => none) every125 false
      { thirty with
        starttime := 1325376000000000000, encoding := 0, reclen := 131072, samples := .text b }
      true junk (b.length + 1) = .ok { records := [], packed := 0, ret := -1 } := by
  have i : Input2 (rates0 false) (fun _ => none) every125 { thirty with
        starttime := 1325376000000000000, encoding := 0, reclen := 131072, samples := .text b }
      [88, 88] [65, 78, 77, 79] [48, 48] 66 72 90 (head30 0 false 17) := by
    constructor
    · have := thirty_input.names
      exact this
    · decide
    · show packReclen 131072 = ((2 ^ 17 : Nat) : Int); decide
    · show (131072 : Int) < 0 → (131072 : Int) = -1; decide
    · exact good2012 0 (by omega) (by omega)
    · show nstime2time 1325376000000000000 = some ⟨2012, 1, 0, 0, 0, 0⟩; decide +kernel
    · rfl
    · decide
    · decide
    · rfl
    · exact ⟨rfl, by decide⟩
    · rfl
    · intro c hc; cases hc
    · intro k h0 hk
      have hk : k < b.length := hk
      exact ⟨_, rfl, good2012 _ (by omega) (by omega)⟩
    · exact Stores.nil
    · intro x hx; cases hx
    · intro hx; exact absurd rfl hx
  obtain ⟨B, hB, hmsr⟩ := packMseed2_head i false true junk (b.length + 1) (by
    show 2 ^ 17 ≤ _
    omega)
  obtain ⟨pad, tail, hpad, htail, hds⟩ := dataStart_eq i (B.drop (head30 0 false 17).size) (by
    have : (head30 0 false 17).size = 56 := by decide
    have h2 : 2 ^ (head30 0 false 17).exponent = 131072 := rfl
    simp; omega)
  rw [if_neg (by show b.length ≠ 0; omega), hds, bind_ok] at hmsr
  simp only at hmsr
  rw [poke_offset_rec i false, bind_ok] at hmsr
  rw [hmsr, packLoop2, if_pos (Or.inr rfl), packRound2]
  have hx : packEncoding 0 = 0 := by decide
  have hpd : packData false (!false) (passed (dropSamples 0 (.text b))) (131072 - 56) 0 = .ok (b, b.length) := by
    rw [Proof.Pack.passed_eq _ (by simp only [dropSamples, Samples.count, List.length_drop]; omega)]
    simp only [dropSamples, List.drop_zero]
    have := C24_text b (131072 - 56) (by omega)
    rw [List.take_of_length_le (by omega), Nat.min_eq_left (by omega)] at this
    exact this
  have hat' : 2 ^ (head30 0 false 17).exponent - dataAt (head30 0 false 17) 0 = 131072 - 56 := by
    decide
  simp only [hx]
  rw [hat', hpd]
  simp only
  rw [if_pos (by omega), bind_ok]

/-- `thirty` without its samples. -/
def none30 : Msr := { thirty with samples := .ints [] }

theorem none30_input : Input2 (rates0 false) (fun _ => none) every125 none30 [88, 88] [65, 78, 77, 79]
    [48, 48] 66 72 90 (head30 50000 false 7) :=
  let i := thirty_input
  ⟨i.names, i.exponent, i.reclen, i.default, i.start, i.time, i.factors, i.factor, i.multiplier, i.poor,
    i.float, i.extra, i.correction, fun k _ hk => absurd hk (Nat.not_lt_zero k), i.stores, i.more, i.fits⟩

/-- The hypotheses of `C85_no_samples` are met. -/
example (junk : List UInt8) (hj : junk.length = 128) :
    ∃ r, msrPack2 (rates0 false) (fun _ => none) every125 false none30 true junk 1
        = .ok { records := [r], packed := 0, ret := 1 } ∧ (r.length : Int) = 128 := by
  obtain ⟨r, h1, h2, _⟩ := C85_no_samples _ _ _ false _ _ _ _ _ _ _ _ true junk 1 none30_input rfl (by
    rw [hj]; decide)
  exact ⟨r, h1, h2⟩

/-! ## The header in a buffer of the caller -/

/-- **C89.** `msr3_pack_header2` with a buffer of the length given, at least 76 bytes, writes nothing outside of
it, whatever the description and the extra headers are, as long as no entry makes it write outside of its
blockette, and reports a header of 56 bytes up to that length.  Missing: shorter buffers, see
`C89_header2_buffer_violated`, and the entries, see C116. -/
theorem C89_header2_buffer_partial (rates : Rates) (json : List UInt8 → Option Extra) (h : Bool) (m : Msr)
    (buf : List UInt8) (recbuflen : Nat) (h76 : 76 ≤ recbuflen) (hb : recbuflen ≤ buf.length)
    (hL : recbuflen < 4294967296) (hw : ∀ e, extraOf json m.extra = some e → Within e.steps) :
    packHeader2 rates json h m buf recbuflen ≠ .oob ∧
    ∀ b n, packHeader2 rates json h m buf recbuflen = .ok (b, n) →
      b.length = buf.length ∧ 56 ≤ n ∧ n ≤ recbuflen :=
  header2_fits rates json h m buf recbuflen h76 hb hL hw

example : ∃ b, packHeader2 (rates0 true) (fun _ => none) false thirty (List.replicate 76 0) 76 = .ok (b, 76) := by
  cases e : packHeader2 (rates0 true) (fun _ => none) false thirty (List.replicate 76 0) 76 with
  | ok p =>
    have : p.2 = 76 := by
      have h : ∀ q, packHeader2 (rates0 true) (fun _ => none) false thirty (List.replicate 76 0) 76 = .ok q →
          q.2 = 76 := by
        have hd : (match packHeader2 (rates0 true) (fun _ => none) false thirty (List.replicate 76 0) 76 with
          | .ok q => q.2 == 76 | _ => false) = true := by decide +kernel
        intro q hq
        rw [hq] at hd
        simpa using hd
      exact h p e
    exact ⟨p.1, by rw [← this]⟩
  | _ =>
    have hd : (match packHeader2 (rates0 true) (fun _ => none) false thirty (List.replicate 76 0) 76 with
      | .ok _ => true | _ => false) = true := by decide +kernel
    rw [e] at hd
    cases hd

/-- **C89 is violated**: the length of the buffer is not looked at before the header is written, so a buffer of
48 bytes, the fixed part of the header, is overrun; so is one of 75 bytes by a header with the blockettes 100
and 1001. -/
theorem C89_header2_buffer_violated :
    packHeader2 (rates0 false) (fun _ => none) false thirty (List.replicate 48 0) 48 = .oob ∧
    packHeader2 (rates0 true) (fun _ => none) false thirty (List.replicate 75 0) 75 = .oob := by
  constructor <;>
  · have : ∀ r : Res (List UInt8 × Nat), (match r with | .oob => true | _ => false) = true → r = .oob := by
      intro r hr
      cases r <;> first | rfl | cases hr
    exact this _ (by decide +kernel)

/-- **C85** (defaults).  A record whose encoding is not given is packed as Steim2, and one whose length is not given
in records of 4096 bytes. -/
theorem C85_defaults (rates : Rates) (json : List UInt8 → Option Extra) (sampletime : Int → Nat → Nat → Out Int)
    (hostBE : Bool) (msr : Msr) (flush : Bool) (junk : List UInt8) (rounds : Nat) :
    (msr.encoding < 0 → msrPack2 rates json sampletime hostBE msr flush junk rounds =
      msrPack2 rates json sampletime hostBE { msr with encoding := 11 } flush junk rounds) ∧
    (msr.reclen = -1 → msrPack2 rates json sampletime hostBE msr flush junk rounds =
      msrPack2 rates json sampletime hostBE { msr with reclen := 4096 } flush junk rounds) := by
  constructor
  · intro h
    have e : packEncoding msr.encoding = packEncoding 11 := by
      unfold packEncoding
      rw [if_pos h, if_neg (by decide)]
      decide
    unfold msrPack2 packMseed2 packHeader2 chainWrites fixedWrites
    simp only [e]
  · intro h
    have e : packReclen (-1) = packReclen 4096 := by decide
    unfold msrPack2 packMseed2 packHeader2
    have g : ∀ x : Int, (x = -1 ∨ x = 4096) → ¬ (x ≠ -1 ∧ (x < 40 ∨ x > 10485760)) := by omega
    rw [if_neg (g _ (.inl h)), if_neg (g _ (.inr rfl))]
    simp only [h, e]
    rfl

/-- Neither the length nor the encoding are given. -/
example : (recordsOf (msrPack2 (rates0 false) (fun _ => none) every125 false { thirty with reclen := -1, encoding := -1 }
    true (List.replicate 4096 7) 2)).map (fun r => (r.length, r[52]?)) = [(4096, some 11)] := by decide +kernel

end Verif.Props.Pack2
