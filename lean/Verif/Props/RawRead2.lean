import Verif.Props.RawParse
import Verif.Props.Pack2
/-!
# Packed version 2 records and the header check (C123)
-/
namespace Verif.Props.RawParse
open Verif.Model Verif.Model.Bytes Verif.Model.Steim Verif.Model.Samples Verif.Model.Mem
  Verif.Model.Record3 Verif.Model.Pack Verif.Model.Pack2
open Verif.Model.RawParse (raw2)
open Verif.Spec Verif.Spec.Record2 Verif.Spec.Detect Verif.Spec.RawParse
open Verif.Proof.Mem Verif.Proof.Record2 Verif.Proof.Pack2
open Verif.Proof.Pack (stored Stored drop_count drop_representable order_swap)
open Verif.Props.Samples Verif.Props.Pack
open Verif.Props.Pack2 hiding Steim

variable {rates : Rates} {json : List UInt8 → Option Extra} {sampletime : Int → Nat → Nat → Out Int}
  {m : Msr} {net sta loc : List UInt8} {band source position : UInt8} {d : Head}

theorem chain_count (d : Head) (enc : Nat) : (d.chain enc).length = d.few + d.more.length := by
  unfold Head.chain Head.base chained Head.few
  cases d.timed <;> cases d.poor <;> simp <;> omega

theorem known_of {s : Samples} {e : Nat} (h : representable s e) : KnownEncoding e ∧ e < 256 := by
  have : e = 0 ∨ e = 1 ∨ e = 3 ∨ e = 4 ∨ e = 5 ∨ e = 10 ∨ e = 11 := by
    unfold representable at h
    split at h <;> simp_all
  unfold KnownEncoding
  omega

/-- What the check asks of a record with `n` samples made from this description. -/
def Passes (net sta loc : List UInt8) (band source position : UInt8) (blockettes n : Nat) : Prop :=
  (∀ x ∈ net ++ sta ++ loc ++ [band, source, position], CodeChar x.toNat) ∧ n ≤ 20000 ∧ blockettes < 256

/-- One record. -/
theorem passes_core (i : Input2 rates json sampletime m net sta loc band source position d)
    (t : Int) (dt : DateTime) (ht : TimeOk t dt) (n : Nat) (hn : n ≤ 65535) (enc off : Nat) (hk : KnownEncoding enc ∧ enc < 256)
    (hoff0 : off ≤ 65472 ∧ off ≤ 2 ^ d.exponent) (ho : n = 0 ∨ d.size ≤ off) (tail : List UInt8)
    (hrest : d.size + tail.length = 2 ^ d.exponent)
    (r : Rec) (hr0 : r = variant (encRec m net sta loc band source position d enc off) dt n tail)
    (h signed : Bool) (rest : List UInt8) (details : Int) (fuel : Nat)
    (hf : d.few + d.more.length < fuel) :
    raw2 h signed (r.bytes ++ rest) r.bytes.length details (-1) fuel = .ok ⟨0, []⟩ ↔
      Passes net sta loc band source position (d.few + d.more.length) n := by
  have hv : r.Valid := by
    rw [hr0]
    exact variant_valid i _ t dt ht n _ hn hoff0 _ hrest
  have hch : r.chain = d.chain enc := by rw [hr0]; rfl
  have hbe : r.be = true := by rw [hr0]; rfl
  have hlen : r.chain.length = d.few + d.more.length := by rw [hch, chain_count]
  have hoff : r.dataoffset = off := by rw [hr0]; rfl
  have hcodes : r.sta = sta ∧ r.loc = loc ∧ r.net = net ∧ r.band = band ∧ r.source = source ∧ r.position = position := by
    rw [hr0]; exact ⟨rfl, rfl, rfl, rfl, rfl, rfl⟩
  have hns : r.numsamples = n := by rw [hr0]; rfl
  have hnb : r.numblockettes = UInt8.ofNat (d.few + d.more.length) := by rw [hr0]; rfl
  rw [C122_record_partial h signed r hv (Or.inr (by rw [hr0]; exact ht.told))
    (by
      intro h0
      rw [h0] at hlen
      have : 1 ≤ d.few := by unfold Head.few; omega
      simp at hlen
      omega)
    (by
      intro b hb
      rw [hch] at hb
      rcases mem_chain hb with rfl | rfl | ⟨_, rfl⟩ | ⟨x, _, rfl⟩
      · show (1000 : Nat) ≠ 2000; decide
      · show (1001 : Nat) ≠ 2000; decide
      · show (100 : Nat) ≠ 2000; decide
      · show x.type ≠ 2000
        cases x <;> simp [Mapped.type])
    (by
      rcases ho with ho | ho
      · left; rw [hns]; exact ho
      · right
        rw [hbe, hch, chain_size d (input_sound i), hoff]
        exact ho) rest details fuel (by rw [hlen]; exact hf)]
  obtain ⟨c1, c2, c3, c4, c5, c6⟩ := hcodes
  obtain ⟨k1, k2⟩ := hk
  constructor
  · intro c
    refine ⟨?_, by rw [← hns]; exact c.samples, ?_⟩
    · have := c.codes
      rw [c1, c2, c3, c4, c5, c6] at this
      intro x hx
      refine this x ?_
      simp only [List.mem_append] at hx ⊢
      rcases hx with ((hx | hx) | hx) | hx
      · exact Or.inr hx
      · exact Or.inl (Or.inl (Or.inl hx))
      · exact Or.inl (Or.inl (Or.inr hx))
      · exact Or.inl (Or.inr hx)
    · have := c.count
      rw [hnb, hlen] at this
      have h2 := (UInt8.ofNat (d.few + d.more.length)).toNat_lt
      omega
  · rintro ⟨p1, p2, p3⟩
    constructor
    · rw [c1, c2, c3, c4, c5, c6]
      intro x hx
      refine p1 x ?_
      simp only [List.mem_append] at hx ⊢
      rcases hx with ((hx | hx) | hx) | hx
      · exact Or.inl (Or.inl (Or.inr hx))
      · exact Or.inl (Or.inr hx)
      · exact Or.inr hx
      · exact Or.inl (Or.inl (Or.inl hx))
    · rw [hns]; exact p2
    · rw [hnb, hlen, UInt8.toNat_ofNat']
      exact Nat.mod_eq_of_lt p3
    · have b3 : r.last Blkt.data? = lastOf Blkt.data? (d.chain enc) := by rw [hr0]; rfl
      rw [b3, last_data]; rfl
    · intro b hb e o x hbd
      rw [hch] at hb
      rcases mem_chain hb with rfl | rfl | ⟨_, rfl⟩ | ⟨x, _, rfl⟩
      · simp only [Blkt.data?, Option.some.injEq, Prod.mk.injEq] at hbd
        obtain ⟨rfl, rfl, -⟩ := hbd
        rw [UInt8.toNat_ofNat', Nat.mod_eq_of_lt k2]
        exact ⟨k1, Or.inr rfl⟩
      · cases hbd
      · cases hbd
      · cases hbd

/-- One record with samples. -/
theorem passes_one (hp : Bool) (i : Input2 rates json sampletime m net sta loc band source position d) (s2 : Some2 m)
    (t : Int) (dt : DateTime) (ht : TimeOk t dt) (a n : Nat) (hn : n ≤ 65535)
    (ha : a < m.samples.count)
    (pad data : List UInt8) (max : Nat) (hpad : d.size + pad.length = dataAt d (packEncoding m.encoding))
    (hmax : d.size + pad.length + max = 2 ^ d.exponent)
    (hd : packData hp (!hp) (dropSamples a m.samples) max (packEncoding m.encoding) = .ok (data, n))
    (r : Rec) (hr0 : r = variant (dataRec m net sta loc band source position d) dt n
      (pad ++ (data ++ zeros (max - data.length)))) (h signed : Bool) (rest : List UInt8) (details : Int) (fuel : Nat)
    (hf : d.few + d.more.length < fuel) :
    raw2 h signed (r.bytes ++ rest) r.bytes.length details (-1) fuel = .ok ⟨0, []⟩ ↔
      Passes net sta loc band source position (d.few + d.more.length) n := by
  have hcnt := drop_count a m.samples
  have hrep := drop_representable a m.samples _ s2.fits
  have hst := stored hp (!hp) _ _ _ _ _ hrep (by omega) hd
  have hroom := hst.room
  have hfew := s2.few
  obtain ⟨da1, da2, da3, da6, da4, da5⟩ := dataAt_fits i (packEncoding m.encoding)
  have hrest : d.size + (pad ++ (data ++ zeros (max - data.length))).length = 2 ^ d.exponent := by
    simp [zeros]; omega
  have hr0' : r = variant (encRec m net sta loc band source position d (packEncoding m.encoding)
      (dataAt d (packEncoding m.encoding))) dt n (pad ++ (data ++ zeros (max - data.length))) := hr0
  exact passes_core i t dt ht n hn _ _ (known_of s2.fits) ⟨da3, da2⟩ (Or.inr da1) _ hrest r hr0' h signed rest details fuel hf

theorem recs2_pass (start : Nat → Int) (hp : Bool)
    (i : Input2 rates json sampletime m net sta loc band source position d) (s2 : Some2 m)
    (lim : Nat) (pad : List UInt8)
    (hpad : d.size + pad.length = dataAt d (packEncoding m.encoding))
    (hstart : ∀ k, k < m.samples.count → timeOf sampletime m k = .ok (start k) ∧ GoodTime2 (start k)) :
    ∀ rs a b, Recs2 start hp m.samples (packEncoding m.encoding) (space2 m d) lim
        (dataRec m net sta loc band source position d) pad a rs b →
      Divides (fun _ n r => ∀ h signed rest details fuel, d.few + d.more.length < fuel →
        (raw2 h signed (r ++ rest) r.length details (-1) fuel = .ok ⟨0, []⟩ ↔
          Passes net sta loc band source position (d.few + d.more.length) n))
        a (rs.map Rec.bytes) b := by
  obtain ⟨_, _, k3, k4⟩ := exp_ok d.exponent i.exponent
  obtain ⟨da1, da2, da3, da6, da4, da5⟩ := dataAt_fits i (packEncoding m.encoding)
  intro rs
  induction rs with
  | nil => intro a b hr; exact hr
  | cons r rs ih =>
    intro a b hr
    obtain ⟨⟨dt, data, e1, e2, e3, e4, e5, e6⟩, hr⟩ := hr
    obtain ⟨t1, t2⟩ := hstart a (by omega)
    obtain ⟨dt', ht⟩ := good_time2 _ t2
    have : dt' = dt := Option.some.inj (ht.time.symm.trans e1)
    subst this
    have hcnt := drop_count a m.samples
    have hpos := (stored hp (!hp) _ _ _ _ _ (drop_representable a m.samples _ s2.fits) (by have := s2.few; omega) e6).pos
    exact ⟨r.numsamples, hpos, passes_one hp i s2 (start a) dt' ht a r.numsamples e3 (by omega) pad data
      (space2 m d) hpad (by unfold space2; omega) e6 r e2, ih _ _ hr⟩

/-- **C123 (version 2 records made).** The header check finds nothing wrong with a record that packing makes exactly if the
codes are letters and digits, the record has at most 20000 samples and fewer than 256 blockettes. -/
theorem C123_packed2 (hp : Bool) (flush : Bool) (junk : List UInt8)
    (i : Input2 rates json sampletime m net sta loc band source position d) (s2 : Some2 m)
    (hj : packReclen m.reclen ≤ junk.length + 48) (p : Packing)
    (hpk : msrPack2 rates json sampletime hp m flush junk (m.samples.count + 1) = .ok p) :
    Divides (fun _ n r => ∀ h signed rest details fuel, d.few + d.more.length < fuel →
      (raw2 h signed (r ++ rest) r.length details (-1) fuel = .ok ⟨0, []⟩ ↔
        Passes net sta loc band source position (d.few + d.more.length) n))
      0 p.records p.packed := by
  have hj : 2 ^ d.exponent ≤ junk.length + 48 := by have := i.reclen; omega
  obtain ⟨_, _, k3, k4⟩ := exp_ok d.exponent i.exponent
  obtain ⟨da1, da2, da3, da6, da4, da5⟩ := dataAt_fits i (packEncoding m.encoding)
  have hsome := s2.some
  obtain ⟨B, hB, hmsr⟩ := packMseed2_head i hp flush junk (m.samples.count + 1) hj
  obtain ⟨pad, tail, hpad, htail, hds⟩ := dataStart_eq i (B.drop d.size) (by simp; omega)
  rw [if_neg (by omega), hds, bind_ok] at hmsr
  simp only at hmsr
  rw [poke_offset_rec i hp, bind_ok] at hmsr
  have hstart : ∃ start : Nat → Int, start 0 = m.starttime ∧
      ∀ k, k < m.samples.count → timeOf sampletime m k = .ok (start k) ∧ GoodTime2 (start k) := by
    refine ⟨fun k => match timeOf sampletime m k with | .ok t => t | .ub => 0, rfl, ?_⟩
    intro k hk
    by_cases h0 : k = 0
    · subst h0
      exact ⟨rfl, i.start⟩
    · obtain ⟨t, t1, t2⟩ := i.times k (by omega) hk
      have : timeOf sampletime m k = .ok t := by unfold timeOf; rw [if_neg h0, t1]
      simp only [this]
      exact ⟨trivial, t2⟩
  obtain ⟨start, hs0, hstart⟩ := hstart
  have hloop := loop2 (fun offset => sampletime m.starttime offset m.samprate) start hp m.samples
    (dataRec m net sta loc band source position d) (input_shape i) rfl pad (packEncoding m.encoding)
    (space2 m d) (maxSamples (packEncoding m.encoding) (space2 m d) (typeSize m.samples))
    (2 ^ d.exponent) (dataAt d (packEncoding m.encoding)) flush
    (by
      rw [← hpad, ← chain_size d (input_sound i) (packEncoding m.encoding)]; rfl)
    (by unfold space2; omega) s2.few s2.fits
    (by
      intro k hk
      obtain ⟨a, b⟩ := hstart k hk
      refine ⟨?_, ?_⟩
      · intro h0
        unfold timeOf at a
        rw [if_neg (by omega)] at a
        exact a
      · obtain ⟨dt, hdt⟩ := good_time2 _ b
        exact ⟨dt, hdt.time⟩)
    (m.samples.count + 1) 0 d.time 0 tail (by omega) (by omega) (by rw [hs0]; exact i.time)
    (by unfold space2; omega)
  rw [hmsr] at hpk
  have e : 2 ^ d.exponent - dataAt d (packEncoding m.encoding) = space2 m d := rfl
  rw [e] at hpk
  rw [hpk] at hloop
  obtain ⟨rs, r1, r2, r3, r4⟩ := hloop
  rw [r1]
  exact recs2_pass start hp i s2 _ pad hpad hstart rs 0 p.packed r2

/-- **C123 (version 2 records made), no samples.** The record made of a description without samples passes the header check exactly if
the codes are letters and digits and it has fewer than 256 blockettes. -/
theorem C123_empty2 (hp : Bool) (flush : Bool) (junk : List UInt8) (rounds : Nat)
    (i : Input2 rates json sampletime m net sta loc band source position d) (hnone : m.samples.count = 0)
    (hj : packReclen m.reclen ≤ junk.length + 48) :
    ∃ r, msrPack2 rates json sampletime hp m flush junk rounds = .ok { records := [r], packed := 0, ret := 1 } ∧
      ∀ h signed rest details fuel, d.few + d.more.length < fuel →
        (raw2 h signed (r ++ rest) r.length details (-1) fuel = .ok ⟨0, []⟩ ↔
          Passes net sta loc band source position (d.few + d.more.length) 0) := by
  have hj' : 2 ^ d.exponent ≤ junk.length + 48 := by have := i.reclen; omega
  obtain ⟨_, _, k3, k4⟩ := exp_ok d.exponent i.exponent
  have hsz := size_fits i
  obtain ⟨B, hB, hmsr⟩ := packMseed2_head i hp flush junk rounds hj'
  rw [if_pos hnone, empty_bytes i (B.drop d.size) (by simp; omega)] at hmsr
  obtain ⟨dt, ht⟩ := good_time2 _ i.start
  have hd0 : d.time = dt := Option.some.inj (i.time.symm.trans ht.time)
  have hrest : d.size + (zeros (2 ^ d.exponent - d.size)).length = 2 ^ d.exponent := by
    simp [zeros]; omega
  refine ⟨_, hmsr, fun h signed rest details fuel hf => ?_⟩
  rw [hd0]
  exact passes_core i m.starttime dt ht 0 (by omega) 0 0 ⟨Or.inl (by omega), by omega⟩ ⟨by omega, by omega⟩ (Or.inl rfl) _ hrest _ rfl
    h signed rest details fuel hf

/-- Records of thirty samples: their number, what they need to pass, and a code for which they do not. -/
example : Input2 (rates0 false) (fun _ => none) every125 thirty [88, 88] [65, 78, 77, 79]
      [48, 48] 66 72 90 (head30 50000 false 7) ∧ Some2 thirty ∧
    (∃ p, msrPack2 (rates0 false) (fun _ => none) every125 false thirty true (List.replicate 128 0) 31 = .ok p ∧ 0 < p.records.length) ∧
    Passes [88, 88] [65, 78, 77, 79] [48, 48] 66 72 90 ((head30 50000 false 7).few + (head30 50000 false 7).more.length) 30 ∧
    ¬ Passes [88, 88] [65, 45, 77, 79] [48, 48] 66 72 90 1 30 ∧ ¬ Passes [88, 88] [65, 78, 77, 79] [48, 48] 66 72 90 1 20001 := by
  refine ⟨thirty_input, thirty_some, ?_, ⟨by decide, by decide, by decide⟩, fun h => absurd (h.1 45 (by decide)) (by decide),
    fun h => absurd h.2.1 (by decide)⟩
  have e : (match msrPack2 (rates0 false) (fun _ => none) every125 false thirty true (List.replicate 128 0) 31 with
    | .ok p => decide (0 < p.records.length)
    | _ => false) = true := by decide +kernel
  split at e
  · rename_i p hp
    exact ⟨p, hp, of_decide_eq_true e⟩
  · cases e

end Verif.Props.RawParse
