import Verif.Props.RawParse
import Verif.Props.Pack
import Verif.Props.SampleTime
/-!
# Theorems on the header checks of records that are read and made

C123: records that the library reads and makes pass its own check.
-/
namespace Verif.Props.RawParse
open Verif.Model Verif.Model.Bytes Verif.Model.Steim Verif.Model.Mem Verif.Model.RawParse Verif.Model.Record3
open Verif.Proof.RawParse Verif.Proof.Mem Verif.Spec Verif.Spec.Detect Verif.Spec.RawParse

theorem kept_fields (h : Bool) (align : Nat) (mem : List UInt8) (m m' : Msr) (data : Bool)
    (e : withSamples h align mem m data = .ok (.record m')) :
    m'.sid = m.sid ∧ m'.reclen = m.reclen ∧ m'.starttime = m.starttime := by
  unfold withSamples at e
  split at e
  · split at e
    · have := Parsed.record.inj (Res.ok.inj e)
      subst this
      exact ⟨rfl, rfl, rfl⟩
    · cases e
    · cases e
    · cases e
  · have := Parsed.record.inj (Res.ok.inj e)
    subst this
    exact ⟨rfl, rfl, rfl⟩

/-- A time made of accepted fields is their instant. -/
theorem accepted_instant (f : Fields) (h : Accepted f) (t : Int)
    (e : time2nstime f.year f.yday f.hour f.min f.sec f.nsec = .ok t) : f.instant = t := by
  obtain ⟨hy, vy, vh, vm, vs, vn⟩ := h
  unfold time2nstime at e
  have a1 : validYear f.year = true := by unfold validYear; simpa using hy
  have a2 : validYearDay f.year f.yday = true := (Proof.validYearDay_iff _ _).2 vy
  have a3 : validHour f.hour = true := by unfold validHour; simpa using vh
  have a4 : validMin f.min = true := by unfold validMin; simpa using vm
  have a5 : validSec f.sec = true := by unfold validSec; simp; omega
  have a6 : validNano f.nsec = true := by unfold validNano; simp; omega
  simp only [a1, a2, a3, a4, a5, a6, Bool.not_true, Bool.false_eq_true, if_false] at e
  rw [Proof.time2nstimeInt_eq] at e
  split at e
  · exact Out.ok.inj e
  · cases e

/-- What reading a version 3 record says about its header. -/
theorem read_header (h : Bool) (align : Nat) (mem mem' : List UInt8) (reclen : Int) (crc data : Bool) (m : Msr)
    (e : unpack3 h align mem reclen crc data = .ok (.record m, mem')) :
    40 ≤ reclen ∧ 40 + m.sid.length ≤ mem.length ∧ m.reclen = reclen ∧ m.sid.length = u8 mem 33 ∧
    u8 mem 0 = 77 ∧ u8 mem 1 = 83 ∧ u8 mem 2 = 3 ∧
    Accepted ⟨u16 false mem 8, u16 false mem 10, u8 mem 12, u8 mem 13, u8 mem 14, u32le mem 4⟩ ∧
    (Fields.mk (u16 false mem 8) (u16 false mem 10) (u8 mem 12) (u8 mem 13) (u8 mem 14) (u32le mem 4)).instant = m.starttime := by
  unfold unpack3 at e
  by_cases hr : reclen < 40 ∨ reclen > 10485760
  · rw [if_pos hr] at e
    cases e
  rw [if_neg hr, bind_eq_ok] at e
  obtain ⟨x, hx, e⟩ := e
  split at e
  · cases e
  rename_i hv
  rw [bind_eq_ok] at e
  obtain ⟨sl, hsl, e⟩ := e
  split at e
  · rw [bind_eq_ok] at e
    obtain ⟨_, _, e⟩ := e
    cases e
  rw [bind_eq_ok] at e
  obtain ⟨⟨good, mem2⟩, hg, e⟩ := e
  have hm : mem2 = mem := by
    split at hg
    · exact Verif.Proof.Record3.checkCrc_mem h align mem mem2 reclen good hg
    · exact (Prod.mk.inj (Res.ok.inj hg)).2.symm
  subst hm
  simp only at e
  split at e
  · rw [bind_eq_ok] at e
    obtain ⟨_, _, e⟩ := e
    cases e
  rw [bind_eq_ok] at e
  obtain ⟨p, hp, e⟩ := e
  obtain ⟨rfl, _⟩ := Prod.mk.inj (Res.ok.inj e)
  have hl33 := (load_lt hsl).2
  rw [load_u8 h mem2 33 (by omega)] at hsl
  have hsl := Res.ok.inj hsl
  unfold unpackFields at hp
  rw [load_u8 h mem2 2 (by omega), bind_ok, load_u8 h mem2 3 (by omega), bind_ok, bind_eq_ok] at hp
  obtain ⟨sid, hsid, hp⟩ := hp
  obtain ⟨hsl2, _, hsl3⟩ := peek_eq hsid
  rw [load_le2 h mem2 8 (by omega), bind_ok, load_le2 h mem2 10 (by omega), bind_ok, load_u8 h mem2 12 (by omega), bind_ok,
    load_u8 h mem2 13 (by omega), bind_ok, load_u8 h mem2 14 (by omega), bind_ok, load_le4 h mem2 4 (by omega), bind_ok,
    bind_eq_ok] at hp
  obtain ⟨t, ht, hp⟩ := hp
  split at hp
  · cases hp
  rename_i hne
  simp only [bind_eq_ok] at hp
  obtain ⟨_, _, _, _, _, _, _, _, _, _, _, _, _, _, _, _, hp⟩ := hp
  have hm : m.sid = sid ∧ m.reclen = reclen ∧ m.starttime = t := by
    exact kept_fields h align mem2 _ m data hp
  obtain ⟨m1, m2, m3⟩ := hm
  have ht' : time2nstime (u16 false mem2 8) (u16 false mem2 10) (u8 mem2 12) (u8 mem2 13) (u8 mem2 14) (u32le mem2 4) = .ok t := by
    revert ht
    unfold ofOut
    split
    · rename_i w hw
      intro ht
      rw [hw, Res.ok.inj ht]
    · intro ht
      cases ht
  have hacc : Accepted ⟨u16 false mem2 8, u16 false mem2 10, u8 mem2 12, u8 mem2 13, u8 mem2 14, u32le mem2 4⟩ := by
    refine Classical.byContradiction fun hn => hne ?_
    have := (C55_error_value ⟨u16 false mem2 8, u16 false mem2 10, u8 mem2 12, u8 mem2 13, u8 mem2 14, u32le mem2 4⟩ (Int.natCast_nonneg _)).2 (.inl hn)
    rw [ht'] at this
    exact Out.ok.inj this
  have hinst := accepted_instant _ hacc t ht'
  have hv2 : Detect.validHeader3 x = true := by simpa using hv
  obtain ⟨_, hx2, _⟩ := peek_eq hx
  rw [List.drop_zero] at hx2
  subst hx2
  unfold Detect.validHeader3 at hv2
  simp only [byte_take _ _ _ (show 0 < 15 by omega), byte_take _ _ _ (show 1 < 15 by omega),
    byte_take _ _ _ (show 2 < 15 by omega), Bool.and_eq_true, beq_iff_eq] at hv2
  refine ⟨by omega, by rw [m1]; omega, m2, by rw [m1, hsl]; exact hsl3, hv2.1.1.1.1.1, hv2.1.1.1.1.2, hv2.1.1.1.2, hacc, by rw [m3]; exact hinst⟩

/-- **C123 (records read).** The header check finds nothing wrong with a version 3 record that the library reads exactly if the
identifier has at least 4 characters and ends within the record, and the year is one from 1900 to 2100. -/
theorem C123_read (h : Bool) (align : Nat) (mem mem' : List UInt8) (reclen : Int) (crc data : Bool) (m : Msr) (details : Int)
    (e : unpack3 h align mem reclen crc data = .ok (.record m, mem')) (hl : reclen ≤ mem.length) :
    raw3 h mem reclen.toNat details = .ok ⟨0, []⟩ ↔
      4 ≤ m.sid.length ∧ 40 + m.sid.length ≤ m.reclen ∧ 1900 ≤ u16 false mem 8 ∧ u16 false mem 8 ≤ 2100 := by
  obtain ⟨r1, r2, r3, r4, r5, r6, r7, r8, _⟩ := read_header h align mem mem' reclen crc data m e
  obtain ⟨a1, a2, a3, a4, a5, a6⟩ := r8
  simp only at a1 a2 a3 a4 a5 a6
  have hyl := Proof.yearLen_cases (u16 false mem 8)
  rw [C121_sound h mem _ details (by omega) (by omega)]
  constructor
  · intro ⟨s1, s2, s3, s4⟩
    omega
  · intro hh
    exact ⟨by omega, ⟨r5, r6, r7⟩, by omega, by omega⟩

theorem single {ms l : List Message} {x : Message} (h : ∀ m ∈ ms, m ∈ l) (hz : ∀ m ∈ l, m = x ∨ ms.count m = 0)
    (h1 : ms.count x = 1) : ms = [x] := by
  have all : ∀ m ∈ ms, m = x := by
    intro m hm
    refine Classical.byContradiction fun hn => ?_
    exact absurd hm (List.count_eq_zero.1 ((hz m (h m hm)).resolve_left hn))
  have e := List.eq_replicate_iff.2 ⟨rfl, all⟩
  rw [e, List.count_replicate_self] at h1
  rw [e, h1]
  rfl

theorem divides_each {P : Nat → Nat → List UInt8 → Prop} (rs : List (List UInt8)) : ∀ a b, Pack.Divides P a rs b →
    ∀ r ∈ rs, ∃ off n, off < b ∧ P off n r := by
  induction rs with
  | nil => intro a b _ r hr; cases hr
  | cons x rs ih =>
    intro a b ⟨n, h1, h2, h3⟩ r hr
    have hle := (SampleTime.divides_bound _ _ _ h3).1
    rcases List.mem_cons.1 hr with rfl | hr
    · exact ⟨a, n, by omega, h2⟩
    · exact ih _ _ h3 r hr

/-- **C123 (messages).** About a record that the library reads the check says nothing but that the identifier is too short or cut, or
that the year is not one from 1900 to 2100. -/
theorem C123_messages (h : Bool) (align : Nat) (mem mem' : List UInt8) (reclen : Int) (crc data : Bool) (m : Msr) (details : Int)
    (e : unpack3 h align mem reclen crc data = .ok (.record m, mem')) (hl : reclen ≤ mem.length) :
    ∃ r, raw3 h mem reclen.toNat details = .ok r ∧
      r.messages = if m.sid.length < 4 then [.identifier] else if m.reclen < 40 + m.sid.length then [.cut]
        else if u16 false mem 8 < 1900 ∨ 2100 < u16 false mem 8 then [.year] else [] := by
  obtain ⟨r1, r2, r3, r4, r5, r6, r7, r8, _⟩ := read_header h align mem mem' reclen crc data m e
  obtain ⟨a1, a2, a3, a4, a5, a6⟩ := r8
  simp only at a1 a2 a3 a4 a5 a6
  have hyl := Proof.yearLen_cases (u16 false mem 8)
  obtain ⟨r, e1, t, _⟩ := C121_told h mem reclen.toNat details (by omega) (by omega)
  refine ⟨r, e1, ?_⟩
  obtain ⟨t1, t2, t3, t4, t5, t6, t7, t8, t9, t10, t11⟩ := t
  by_cases c1 : m.sid.length < 4
  · rw [if_pos c1]
    refine single t11 ?_ (by rw [t1]; exact if_pos (by omega))
    simp only [List.forall_mem_cons, reduceCtorEq, true_or, false_or, true_and, List.not_mem_nil, false_implies, implies_true, and_true, t2, t3, t4, t5, t6, t7, t8, t9, t10, once_zero]
    omega
  rw [if_neg c1]
  by_cases c2 : m.reclen < 40 + m.sid.length
  · rw [if_pos c2]
    refine single t11 ?_ (by rw [t2]; exact if_pos (by omega))
    simp only [List.forall_mem_cons, reduceCtorEq, true_or, false_or, true_and, List.not_mem_nil, false_implies, implies_true, and_true, t1, t3, t4, t5, t6, t7, t8, t9, t10, once_zero]
    omega
  rw [if_neg c2]
  by_cases c3 : u16 false mem 8 < 1900 ∨ 2100 < u16 false mem 8
  · rw [if_pos c3]
    refine single t11 ?_ (by rw [t5]; exact if_pos (by omega))
    simp only [List.forall_mem_cons, reduceCtorEq, true_or, false_or, true_and, List.not_mem_nil, false_implies, implies_true, and_true, t1, t2, t3, t4, t6, t7, t8, t9, t10, once_zero]
    omega
  rw [if_neg c3]
  refine nil_of t11 ?_
  simp only [List.forall_mem_cons, List.not_mem_nil, false_implies, implies_true, and_true, t1, t2, t3, t4, t5, t6, t7, t8, t9, t10, once_zero]
  omega

/-- A small record is read, and its header is sound. -/
example : ∃ m, unpack3 false 0 Record3.sample.bytes Record3.sample.bytes.length false true = .ok (.record m, Record3.sample.bytes) ∧
    4 ≤ m.sid.length ∧ 40 + m.sid.length ≤ m.reclen := by
  have e : (match unpack3 false 0 Record3.sample.bytes Record3.sample.bytes.length false true with
    | .ok (.record m, b) => decide (b = Record3.sample.bytes ∧ 4 ≤ m.sid.length ∧ 40 + m.sid.length ≤ m.reclen)
    | _ => false) = true := by decide +kernel
  split at e
  · rename_i m b hb
    obtain ⟨e0, e⟩ := of_decide_eq_true e
    exact ⟨m, e0 ▸ hb, e⟩
  · cases e

/-- The year of a time between the first second of 1900 and the end of 2100. -/
theorem year_of (f : Fields) (a : Accepted f) (h1 : (Fields.mk 1900 1 0 0 1 0).instant ≤ f.instant)
    (h2 : f.instant < (Fields.mk 2101 1 0 0 0 0).instant) : 1900 ≤ f.year ∧ f.year ≤ 2100 := by
  obtain ⟨_, vy, vh, vm, vs, vn⟩ := a
  constructor
  · refine Classical.byContradiction fun hn => ?_
    have := Proof.jan1_mono (a := f.year) (b := 1900) (by omega)
    unfold Fields.instant at h1
    simp only at h1
    omega
  · refine Classical.byContradiction fun hn => ?_
    have hm : jan1 2101 ≤ jan1 f.year := by
      by_cases he : f.year = 2101
      · rw [he]; exact Int.le_refl _
      · have := Proof.jan1_mono (a := 2101) (b := f.year) (by omega)
        have := Proof.yearLen_cases 2101
        omega
    unfold Fields.instant at h2
    simp only at h2
    omega

open Verif.Props.Pack in
/-- **C123 (version 3 records made).** The header check finds nothing wrong with any of the records that packing makes, if the
identifier has at least 4 characters and the samples are of the years 1900 to 2100. -/
theorem C123_packed (nr : Nat → Nat) (sampletime : Int → Nat → Nat → Out Int) (h : Bool) (m : Msr) (flush : Bool)
    (junk : List UInt8) (i : Input nr sampletime m)
    (hroom : 40 + m.sid.length + m.extra.length ≤ (packReclen m.reclen).toNat)
    (hj : (packReclen m.reclen).toNat - 40 ≤ junk.length) (p : Pack.Packing)
    (hp : Pack.msrPack nr sampletime h m flush junk (m.samples.count + 1) = .ok p) (hs : 4 ≤ m.sid.length)
    (ht : ∀ k t, k < m.samples.count → timeOf sampletime m k = .ok t →
      (Fields.mk 1900 1 0 0 1 0).instant ≤ t ∧ t < (Fields.mk 2101 1 0 0 0 0).instant) :
    ∀ r ∈ p.records, ∀ h2 rest details, raw3 h2 (r ++ rest) r.length details = .ok ⟨0, []⟩ := by
  intro r hr h2 rest details
  rcases Proof.PackRead.packed_records nr sampletime h m flush junk i hroom hj with ⟨p', q1, q2, q3, _⟩ | ⟨q1, _⟩
  · rw [hp] at q1
    cases q1
    obtain ⟨off, n, hoff, ⟨hread, _⟩⟩ := divides_each p.records 0 p.packed q2 r hr
    obtain ⟨m', ⟨_, _, w1, w2, _⟩, u⟩ := hread h2
    have g1 := (u 0 rest).1
    have g0 := (u 0 []).1
    rw [List.append_nil] at g0
    have g2 := read_header h2 0 _ _ _ _ _ m' g0
    have g3 := read_header h2 0 _ _ _ _ _ m' g1
    have hi := (ht off _ (by omega) w1)
    obtain ⟨y1, y2⟩ := year_of _ g3.2.2.2.2.2.2.2.1 (by rw [g3.2.2.2.2.2.2.2.2]; exact hi.1) (by rw [g3.2.2.2.2.2.2.2.2]; exact hi.2)
    simp only at y1 y2
    have key := (C123_read h2 0 _ _ _ _ _ m' details g1 (by rw [List.length_append]; omega)).2 ⟨by rw [w2]; exact hs, by omega, by omega, by omega⟩
    simpa using key
  · rw [hp] at q1
    cases q1

/-- Seven samples of 2012 in three records. -/
example : Pack.Input id Pack.everyTenth Pack.seven ∧ 4 ≤ Pack.seven.sid.length ∧
    (∃ p, Pack.msrPack id Pack.everyTenth false Pack.seven true (List.replicate 60 0) 8 = .ok p ∧ p.records.length = 3) ∧
    ∀ k t, k < Pack.seven.samples.count → Pack.timeOf Pack.everyTenth Pack.seven k = .ok t →
      (Fields.mk 1900 1 0 0 1 0).instant ≤ t ∧ t < (Fields.mk 2101 1 0 0 0 0).instant := by
  refine ⟨Pack.seven_input, by decide, ?_, ?_⟩
  · have e : (match Verif.Model.Pack.msrPack id Pack.everyTenth false Pack.seven true (List.replicate 60 0) 8 with
      | .ok p => decide (p.records.length = 3)
      | _ => false) = true := by decide +kernel
    split at e
    · rename_i p hp
      exact ⟨p, hp, of_decide_eq_true e⟩
    · cases e
  · intro k t hk e
    have hk : k < 7 := hk
    have e1 : (Fields.mk 1900 1 0 0 1 0).instant = -2208988799000000000 := by decide +kernel
    have e2 : (Fields.mk 2101 1 0 0 0 0).instant = 4133980800000000000 := by decide +kernel
    have e3 : t = 1325376000000000005 + k * 100000000 := by
      unfold Pack.timeOf at e
      split at e
      · rename_i h0
        rw [← Out.ok.inj e, h0]
        rfl
      · exact (Out.ok.inj e).symm
    omega

end Verif.Props.RawParse
