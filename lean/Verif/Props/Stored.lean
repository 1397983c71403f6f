import Verif.Proof.Stored
import Verif.Proof.ReaderTop
import Verif.Props.RecordList
/-!
# Samples of records (C74)
-/
namespace Verif.Props.Stored
open Verif.Model Verif.Model.Bytes Verif.Model.Steim Verif.Model.Samples Verif.Model.Mem Verif.Model.Record3
  Verif.Model.Reader
open Verif.Proof.Mem Verif.Proof.Stored Verif.Proof.Reader Verif.Props.Reader Verif.Props.Record2

theorem used_pos {be : Bool} {n : Nat} {b : List UInt8} {enc used : Nat} {s : Samples} (h : Stored be n b enc used s)
    (hn : 1 ≤ n) : 1 ≤ used := by
  cases h <;> omega

theorem sized_longer {a b t : List UInt8} {enc used : Nat} (h : Sized a b enc used) (hl : b.length ≤ a.length) :
    Sized (a ++ t) b enc used :=
  ⟨h.fixed, fun h1 h2 => by rw [List.take_append_of_le_length hl]; exact h.steim h1 h2⟩

theorem unpacked {h : Bool} {a : Nat} {m : Msr} {mem : List UInt8} {s : Samples} (hu : unpackData h a m mem = .ok s)
    (hc : 0 < m.samplecnt) (he : 0 ≤ m.encoding) :
    withSamples h a mem m true = .ok (.record { m with samples := s }) := by
  unfold withSamples
  rw [if_pos ⟨rfl, hc⟩, hu]
  simp only
  unfold assumed
  rw [if_neg (by omega)]

/-- **C74 (partial).**  A record that holds samples, read with unpacking at any address and with any bytes behind it,
is returned with exactly those samples and otherwise as it is returned without unpacking.  Missing: what `Sized` leaves out,
little-endian data of 24-bit GEOSCOPE encoding, version 3 records on big-endian hosts; see the violations. -/
theorem C74_record_samples_partial {env : Record2.Env} {h vc : Bool} {b : List UInt8} {s : Samples} {m : Msr}
    (hh : Holds h b s) (ha : Alone env h vc b m) (align : Nat) (t : List UInt8) (eof : Bool) :
    parse (Record2.unpack2 env h align) h align (b ++ t) vc true eof = .ok (.record { m with samples := s }, b ++ t) := by
  cases hh with
  | version3 r used s little v text hl hc hs hz =>
    subst little
    obtain ⟨-, hp, st, rfl⟩ := piece3 v hl ha
    have hb := Proof.Repack.bytes_length r
    have hst : strlen r.sid = r.sid.length := by unfold strlen; rw [Verif.Props.Record3.takeWhile_text _ text]
    have hu := used_pos hs hc.1
    have hlen := (stored_decode (h := false) (sw := decide (r.encoding = 10 ∨ r.encoding = 11)) hc.1 (by omega) (by
      rw [show Steim.dataOrder false (decide (r.encoding = 10 ∨ r.encoding = 11)) = decide (r.encoding = 10 ∨ r.encoding = 11) by
        unfold Steim.dataOrder; simp]
      exact hs)).1
    rw [hp align t true eof]
    have hun : unpackData false align (Proof.Record3.header false r r.payload.length r.bytes.length st) (r.bytes ++ t) = .ok s := by
      refine unpack_stored (b := r.payload) (t := t) (off := 40 + r.sid.length + r.extra.length)
        (n := r.numsamples) (enc := r.encoding) (used := used) align ?_ ?_ rfl hc.1 (by omega) rfl ?_ ?_ ?_ ?_ ?_
      · show (if (3 : Nat) = 3 then Res.ok ((40 + strlen r.sid + r.extra.length) % 2 ^ 32, r.payload.length) else _) = _
        rw [if_pos rfl, hst, Nat.mod_eq_of_lt (by omega)]
      · rw [Proof.Repack.bytes_eq]
        simp only [← List.append_assoc]
        rw [List.append_assoc _ r.payload t]
        refine List.drop_left' ?_
        simp [Proof.Record3.fixed_length]; omega
      · show Stored (Steim.dataOrder false (if r.encoding = 10 ∨ r.encoding = 11 then true else false)) _ _ _ _ _
        have e : Steim.dataOrder false (if r.encoding = 10 ∨ r.encoding = 11 then true else false) =
            decide (r.encoding = 10 ∨ r.encoding = 11) := by
          unfold Steim.dataOrder
          split <;> simp [*]
        rw [e]
        exact hs
      · exact sized_longer hz (by omega)
      · show (40 : Int) ≤ (r.bytes.length : Nat) ∧ ((r.bytes.length : Nat) : Int) ≤ 10485760
        omega
      · refine ⟨by omega, ?_⟩
        show ((40 + r.sid.length + r.extra.length : Nat) : Int) < (r.bytes.length : Nat)
        omega
      · rw [List.length_append]; omega
    rw [unpacked hun (by show (0 : Int) < (r.numsamples : Nat); omega) (by show (0 : Int) ≤ (r.encoding : Nat); omega), bind_ok]
  | version2 r enc order exp used s v ht hr hd ho hc hs hz =>
    have hsome : (r.last Spec.Record2.Blkt.data?).isSome := by rw [hd]; rfl
    have hne := not_reserved hr
    have hp := fun align t ud eof => Proof.Record2.parse2_eq env h align r v (told ht) hne hsome t vc ud eof
    have h0 := hp 0 [] false false
    unfold Alone at ha
    rw [List.append_nil, ha, withSamples_false, bind_ok] at h0
    have e := Parsed.record.inj (Prod.mk.inj (Res.ok.inj h0)).1
    subst e
    have hl := v.length
    have hdo := v.dataoffset
    have hns := v.numsamples
    have hu := used_pos hs hc
    have hbe : r.dataBE = decide (order ≠ 0) := by
      unfold Spec.Record2.Rec.dataBE
      rw [hd]
      by_cases h0 : order = 0 <;> simp [h0]
    have hord : Steim.dataOrder h (r.dataBE != h) = decide (order ≠ 0) := by
      rw [hbe]
      unfold Steim.dataOrder
      cases h <;> cases decide (order ≠ 0) <;> rfl
    have hlen := (stored_decode (h := h) (sw := r.dataBE != h) hc (by omega) (by rw [hord]; exact hs)).1
    rw [List.length_drop] at hlen
    have henc : (Proof.Record2.msr2 env h r (Proof.Record2.headers2 r)).encoding = (enc.toNat : Int) := by
      show ((r.last Spec.Record2.Blkt.data?).map fun d => (d.1.toNat : Int)).getD (-1) = _
      rw [hd]; rfl
    have f1 : (Proof.Record2.msr2 env h r (Proof.Record2.headers2 r)).formatversion = 2 := rfl
    have f2 : (Proof.Record2.msr2 env h r (Proof.Record2.headers2 r)).swapHeader = (r.be != h) := rfl
    have f3 : (Proof.Record2.msr2 env h r (Proof.Record2.headers2 r)).swapPayload = (r.dataBE != h) := rfl
    have f4 : (Proof.Record2.msr2 env h r (Proof.Record2.headers2 r)).samplecnt = (r.numsamples : Int) := rfl
    have f5 : (Proof.Record2.msr2 env h r (Proof.Record2.headers2 r)).reclen = (r.bytes.length : Int) := rfl
    rw [hp align t true eof]
    clear hp ha
    generalize Proof.Record2.msr2 env h r (Proof.Record2.headers2 r) = m at *
    have hun : unpackData h align m (r.bytes ++ t) = .ok s := by
      refine unpack_stored (b := r.bytes.drop r.dataoffset) (t := t) (off := r.dataoffset)
        (n := r.numsamples) (enc := enc.toNat) (used := used) align ?_ ?_ f4 hc (by omega) henc ?_ ?_ ?_ ?_ ?_
      · rw [f1, f2, f5, if_neg (by omega), if_pos rfl]
        have e : bits 32 ((r.bytes.length : Int) - r.dataoffset) = r.bytes.length - r.dataoffset := by
          unfold bits
          omega
        have ld : load h (r.be != h) (r.bytes ++ t) 44 2 = .ok r.dataoffset := by
          rw [Spec.Record2.Rec.bytes, List.append_assoc, List.append_assoc]
          exact Proof.Record2.ld_dataoffset (v := v) ..
        rw [ld, bind_ok, e, List.length_drop]
      · rw [List.drop_append_of_le_length hdo.2]
      · rw [f3, hord]; exact hs
      · exact sized_longer hz (by rw [List.length_drop]; omega)
      · rw [f5]; omega
      · rw [f5]; omega
      · rw [List.length_append]; omega
    rw [unpacked hun (by rw [f4]; omega) (by rw [henc]; omega), bind_ok]

/-- **C74 (partial, files).**  Reading a file of such records with unpacking returns every record that is asked for, in
the order of the file, with the samples it holds. -/
theorem C74_file_samples_partial (env : Record2.Env) (h : Bool) (base : Nat) (vc skip : Bool) (sel : Option (Msr → Bool))
    (l : List (Entry × Samples)) (tail : List UInt8) (hk : Kinds h skip (l.map Prod.fst) tail)
    (hl : ∀ y ∈ l, Holds h y.1.bytes y.2 ∧ Alone env h vc y.1.bytes y.1.msr ∧
      y.1.full = { y.1.msr with samples := y.2 }) :
    Calls (opts env h base vc true skip sel) (opened (fileOf (l.map Prod.fst) tail) 0 0)
      (expected 0 (ofFile sel (l.map Prod.fst))) (lastCode (expected 0 (ofFile sel (l.map Prod.fst)))) := by
  refine kinds_calls hk ?_
  intro e he
  obtain ⟨y, hy, rfl⟩ := List.mem_map.1 he
  obtain ⟨h1, h2, h3⟩ := hl y hy
  refine ⟨h2, ?_⟩
  rw [h3]
  exact C74_record_samples_partial h1 h2

/-- Two frames of Steim-1 compression: 56 times the sample 5. -/
def frames2 : List UInt8 :=
  [0x01, 0x55, 0x55, 0x55, 0, 0, 0, 5, 0, 0, 0, 5] ++ List.replicate 52 0 ++ [0x10, 0, 0, 0] ++ List.replicate 60 0

/-- A record of version 2 with the data directly behind the header, followed by an unused frame, and one with the data
64 bytes further on. -/
def near2 : Spec.Record2.Rec :=
  { Record2.sample2 with
    numsamples := 56, dataoffset := 64, numblockettes := 1, chain := [(.data 10 1 8 0, [0, 0, 0, 0, 0, 0, 0, 0])]
    rest := frames2 ++ List.replicate 64 0 }

@[inherit_doc near2] def far2 : Spec.Record2.Rec :=
  { near2 with dataoffset := 128, rest := List.replicate 64 0 ++ frames2 }

/-- A record with one sample of the 24-bit GEOSCOPE encoding in little-endian order. -/
def little24 : Spec.Record2.Rec :=
  { near2 with
    numsamples := 1, chain := [(.data 12 0 7 0, [0, 0, 0, 0, 0, 0, 0, 0])], rest := [1, 0, 0] ++ List.replicate 61 0 }

theorem samples_valid : near2.Valid ∧ far2.Valid ∧ little24.Valid := by
  refine ⟨?_, ?_, ?_⟩
  all_goals
    constructor
    case blockettes =>
      intro b hb
      simp only [near2, far2, little24, List.mem_cons, List.not_mem_nil, or_false] at hb
      rw [hb]; simp [Spec.Record2.Blkt.Valid]
    case exponent =>
      intro b hb e o x hx
      simp only [near2, far2, little24, List.mem_cons, List.not_mem_nil, or_false] at hb
      rw [hb] at hx
      simp [Spec.Record2.Blkt.data?] at hx
      obtain ⟨rfl, rfl, rfl⟩ := hx
      decide +kernel
    all_goals decide +kernel

theorem near2_holds : Holds false near2.bytes (.ints (List.replicate 56 5)) := by
  refine .version2 near2 10 1 8 128 _ samples_valid.1 (Or.inr (by decide)) (by decide +kernel) (by decide +kernel)
    (by decide) (by decide) (.steim1 2 _ (by decide) (by decide +kernel) (by decide +kernel) (by decide +kernel)
    (by decide +kernel)) ⟨by decide, fun _ _ => ⟨0x10, by decide +kernel, by decide⟩⟩

theorem near2_alone : ∃ m, Alone Record2.env0 false false near2.bytes m := by
  refine ⟨Proof.Record2.msr2 Record2.env0 false near2 (Proof.Record2.headers2 near2), ?_⟩
  unfold Alone
  decide +kernel

/-- The record meets the hypotheses, also in a file with a record of other samples. -/
example : (∃ m, Holds false near2.bytes (.ints (List.replicate 56 5)) ∧ Alone Record2.env0 false false near2.bytes m) ∧
    Holds false RecordList.big2.bytes (.ints [1, 2]) ∧
    Kinds false false [⟨[], near2.bytes, {}, {}⟩, ⟨[], RecordList.big2.bytes, {}, {}⟩] [] := by
  refine ⟨?_, ?_, Or.inr (Or.inl ⟨?_, by decide⟩)⟩
  · obtain ⟨m, hm⟩ := near2_alone
    exact ⟨m, near2_holds, hm⟩
  · exact .version2 RecordList.big2 3 1 7 8 _ RecordList.records2_valid.1 (Or.inr (by decide)) (by decide +kernel)
      (by decide +kernel) (by decide) (by decide) (.int32 (by decide +kernel)) ⟨by decide, by decide⟩
  · intro e he
    simp only [List.mem_cons, List.not_mem_nil, or_false] at he
    rcases he with rfl | rfl
    · exact ⟨Or.inr ⟨near2, samples_valid.1, Or.inr (by decide), by decide +kernel, ⟨10, 1, 8, 0, _, [], rfl⟩, rfl⟩,
        by decide +kernel, rfl⟩
    · exact ⟨Or.inr ⟨RecordList.big2, RecordList.records2_valid.1, Or.inr (by decide), by decide +kernel,
        ⟨3, 1, 7, 0, _, [], rfl⟩, rfl⟩, by decide +kernel, rfl⟩

/-- A record of version 3. -/
example : Holds false Record3.sample.bytes (.text [65, 66, 67, 68]) :=
  .version3 Record3.sample 4 _ rfl Record3.sample_valid (by decide) (by decide +kernel) (by decide) (.text (by decide))
    ⟨by decide, by decide⟩

/-- **C74 is violated by data behind a gap**: the library looks for the end of the data 128 bytes too early, finds zero
bytes and drops the second frame; the record, whose data holds all samples, is refused. -/
theorem C74_gap_violated : far2.Valid ∧
    Stored true far2.numsamples (far2.bytes.drop far2.dataoffset) 10 128 (.ints (List.replicate 56 5)) ∧
    parse (Model.Record2.unpack2 Record2.env0 false 0) false 0 far2.bytes false true false = .ok (.genError, far2.bytes) :=
  ⟨samples_valid.2.1, .steim1 2 _ (by decide) (by decide +kernel) (by decide +kernel) (by decide +kernel)
    (by decide +kernel), by decide +kernel⟩

/-- **C74 is violated by little-endian 24-bit GEOSCOPE data**: the sample 1 is returned as 256. -/
theorem C74_geoscope24_violated : little24.Valid ∧
    Spec.Samples.geoscope24 (Spec.Steim.num false ((little24.bytes.drop little24.dataoffset).take 3)) = (1, 0) ∧
    ∃ m : Msr, parse (Model.Record2.unpack2 Record2.env0 false 0) false 0 little24.bytes false true false =
      .ok (.record { m with samples := .quotients [(256, 0)] }, little24.bytes) :=
  ⟨samples_valid.2.2, by decide +kernel,
    Proof.Record2.msr2 Record2.env0 false little24 (Proof.Record2.headers2 little24), by decide +kernel⟩

end Verif.Props.Stored
