import Verif.Proof.Record2
/-!
# Properties of reading version 2 records: C71, C72 and C29 for version 2

The specification of the records is `Verif.Spec.Record2`.  In the hypotheses `h` is the byte order of
the host (`true` for big-endian).
-/
namespace Verif.Props.Record2
open Verif.Model Verif.Model.Bytes Verif.Model.Steim Verif.Model.Mem Verif.Model.Record3
open Verif.Model.Record2 Verif.Proof.Record2 Verif.Proof.Mem
open Verif.Model.Detect hiding Blkt
open Verif.Spec Verif.Spec.Record2 Verif.Spec.Detect

/-- The flags of a record: bit 0 calibration signals, bit 1 time tag questionable, bit 2 clock
locked. -/
def flagsOf (r : Rec) : Nat :=
  (if r.activity.toNat.testBit 0 then 1 else 0) + (if r.dq.toNat.testBit 7 then 2 else 0) +
  (if r.io.toNat.testBit 5 then 4 else 0)

/-- The extra headers of a record: a flag for every set bit of the table, the leap second bits, the
correction if there is one, the timing qualities and the blockettes for events, calibrations and timing in their
order. -/
structure HeadersOf (r : Rec) (hs : List Header) : Prop where
  flag : ∀ path, Header.flag path ∈ hs ↔
    ∃ e ∈ flagNames, e.2.2 = path ∧ (r.flagByte e.1).toNat.testBit e.2.1 = true
  leap : ∀ x, Header.leapSecond x ∈ hs ↔ (x = 1 ∧ r.activity.toNat.testBit 4 = true) ∨
    (x = -1 ∧ r.activity.toNat.testBit 5 = true)
  correction : ∀ x, Header.correction x ∈ hs ↔ (x = r.correction ∧ x ≠ 0)
  quality : (hs.filterMap fun | .quality q => some q | _ => none) =
    r.chain.filterMap fun b => (b.1.timing?).map fun t => t.1.toNat
  blockette : (hs.filterMap fun | .blockette n fs => some (n, fs) | _ => none) =
    r.chain.filterMap fun b => (b.1.mapped?).map fun m => (m.type, fieldsOf m)
  once : (hs.filter fun | .quality _ => false | .blockette _ _ => false | _ => true).Nodup

/-- What the fields of a record mean; `widen` is the conversion of a 32-bit float to a double,
`nominal` the rate for a factor and a multiplier, `json` the text of the extra headers. -/
def meaning (env : Env) (h : Bool) (r : Rec) (hs : List Header) : Msr :=
  { sid := r.sid
    reclen := r.bytes.length
    swapHeader := r.be != h
    swapPayload := r.dataBE != h
    formatversion := 2
    flags := flagsOf r
    starttime := r.start
    samprate := match r.last Blkt.float? with
      | some f => env.widen f
      | none => env.nominal r.factor r.multiplier
    encoding := match r.last Blkt.data? with
      | some (e, _, _) => e.toNat
      | none => -1
    pubversion := r.version
    samplecnt := r.numsamples
    crc := 0
    extra := if hs = [] then [] else env.json hs
    datalength := if r.dataoffset = 0 then 0 else r.bytes.length - r.dataoffset }

theorem flags_eq (r : Rec) : mapFlags r.activity.toNat r.io.toNat r.dq.toNat = flagsOf r := by
  unfold mapFlags flagsOf
  cases r.activity.toNat.testBit 0 <;> cases r.io.toNat.testBit 5 <;>
    cases r.dq.toNat.testBit 7 <;> rfl

theorem meaning_eq (env : Env) (h : Bool) (r : Rec) (hs : List Header) :
    msr2 env h r hs = meaning env h r hs := by
  have e1 : ((r.last Blkt.float?).map env.widen).getD (env.nominal r.factor r.multiplier) =
      match r.last Blkt.float? with
      | some f => env.widen f
      | none => env.nominal r.factor r.multiplier := by
    cases r.last Blkt.float? <;> rfl
  have e2 : ((r.last Blkt.data?).map fun d => (d.1.toNat : Int)).getD (-1) =
      match r.last Blkt.data? with
      | some (e, _, _) => (e.toNat : Int)
      | none => -1 := by
    cases r.last Blkt.data? <;> rfl
  unfold msr2 meaning
  rw [e1, e2, flags_eq]

theorem mem_ite {α : Type} (c : Bool) (x y : α) :
    x ∈ (if c = true then [y] else []) ↔ c = true ∧ x = y := by
  cases c <;> simp

theorem quality_map (l : List (Blkt × List UInt8)) :
    ((l.filterMap fun b => headerOf b.1).filterMap fun | .quality q => some q | _ => none) =
      l.filterMap fun b => (b.1.timing?).map fun t => t.1.toNat := by
  induction l with
  | nil => rfl
  | cons a l ih =>
    obtain ⟨b, pad⟩ := a
    cases b <;> simp [headerOf, Blkt.timing?] at ih ⊢ <;> exact ih

theorem blockette_map (l : List (Blkt × List UInt8)) :
    ((l.filterMap fun b => headerOf b.1).filterMap fun | .blockette n fs => some (n, fs) | _ => none) =
      l.filterMap fun b => (b.1.mapped?).map fun m => (m.type, fieldsOf m) := by
  induction l with
  | nil => rfl
  | cons a l ih =>
    obtain ⟨b, pad⟩ := a
    cases b <;> simp [headerOf, Blkt.mapped?] at ih ⊢ <;> exact ih

/-- The headers of the flag bytes with their conditions. -/
def flagPairs (act io dq : Nat) : List (Bool × Header) :=
  [ (act.testBit 2, .flag "/FDSN/Event/Begin"), (act.testBit 3, .flag "/FDSN/Event/End"),
    (act.testBit 4, .leapSecond 1), (act.testBit 5, .leapSecond (-1)),
    (act.testBit 6, .flag "/FDSN/Event/InProgress"),
    (io.testBit 0, .flag "/FDSN/Flags/StationVolumeParityError"),
    (io.testBit 1, .flag "/FDSN/Flags/LongRecordRead"),
    (io.testBit 2, .flag "/FDSN/Flags/ShortRecordRead"),
    (io.testBit 3, .flag "/FDSN/Flags/StartOfTimeSeries"),
    (io.testBit 4, .flag "/FDSN/Flags/EndOfTimeSeries"),
    (dq.testBit 0, .flag "/FDSN/Flags/AmplifierSaturation"),
    (dq.testBit 1, .flag "/FDSN/Flags/DigitizerClipping"), (dq.testBit 2, .flag "/FDSN/Flags/Spikes"),
    (dq.testBit 3, .flag "/FDSN/Flags/Glitches"), (dq.testBit 4, .flag "/FDSN/Flags/MissingData"),
    (dq.testBit 5, .flag "/FDSN/Flags/TelemetrySyncError"),
    (dq.testBit 6, .flag "/FDSN/Flags/FilterCharging") ]

theorem filter_ite {α : Type} (c : Bool) (x : α) (l : List (Bool × α)) :
    ((((c, x) :: l).filter (·.1)).map (·.2)) =
      (if c = true then [x] else []) ++ ((l.filter (·.1)).map (·.2)) := by
  cases c <;> simp

theorem flagPairs_eq (act io dq : Nat) :
    flagHeaders act io dq = ((flagPairs act io dq).filter (·.1)).map (·.2) := by
  unfold flagPairs
  simp only [filter_ite]
  simp only [flagHeaders, List.append_assoc, List.filter_nil, List.map_nil, List.append_nil]

theorem mem_pairs (act io dq : Nat) (x : Header) :
    x ∈ flagHeaders act io dq ↔ (true, x) ∈ flagPairs act io dq := by
  rw [flagPairs_eq]
  simp only [List.mem_map, List.mem_filter]
  constructor
  · rintro ⟨⟨a, b⟩, ⟨h1, h2⟩, rfl⟩
    simp only at h2
    rw [← h2]
    exact h1
  · intro h
    exact ⟨_, ⟨h, rfl⟩, rfl⟩

theorem flags_nodup (act io dq : Nat) : (flagHeaders act io dq).Nodup := by
  rw [flagPairs_eq]
  have h1 : ((flagPairs act io dq).map (·.2)).Nodup := by
    have : (flagPairs act io dq).map (·.2) = (flagPairs 0 0 0).map (·.2) := rfl
    rw [this]
    decide
  exact List.Sublist.nodup (List.Sublist.map _ List.filter_sublist) h1

theorem headers_ok (r : Rec) : HeadersOf r (headers2 r) := by
  have hq : ∀ x ∈ r.chain.filterMap (fun b => headerOf b.1), (∃ q, x = .quality q) ∨ ∃ n fs, x = .blockette n fs := by
    intro x hx
    obtain ⟨⟨b, pad⟩, _, hb⟩ := List.mem_filterMap.1 hx
    cases b <;> simp [headerOf] at hb
    · exact Or.inl ⟨_, hb.symm⟩
    · exact Or.inr ⟨_, _, hb.symm⟩
  have hc : ∀ x, x ∈ (if r.correction ≠ 0 then [Header.correction r.correction] else []) ↔
      x = .correction r.correction ∧ r.correction ≠ 0 := by
    intro x
    by_cases h : r.correction = 0 <;> simp [h]
  have hm : ∀ x, x ∈ headers2 r ↔
      (true, x) ∈ flagPairs r.activity.toNat r.io.toNat r.dq.toNat ∨
      (x = .correction r.correction ∧ r.correction ≠ 0) ∨
      x ∈ r.chain.filterMap (fun b => headerOf b.1) := by
    intro x
    unfold headers2
    rw [List.mem_append, List.mem_append, mem_pairs, hc, or_assoc]
  have nq : ∀ x, (∀ q, x ≠ .quality q) → (∀ n fs, x ≠ .blockette n fs) →
      (x ∉ r.chain.filterMap fun b => headerOf b.1) := by
    intro x hx hx2 hmx
    rcases hq x hmx with ⟨q, rfl⟩ | ⟨n, fs, rfl⟩
    · exact hx q rfl
    · exact hx2 n fs rfl
  constructor
  · intro path
    rw [hm]
    have := nq (.flag path) (by simp) (by simp)
    simp only [this, or_false, reduceCtorEq, false_and]
    simp only [flagPairs, flagNames, List.mem_cons, Prod.mk.injEq, Header.flag.injEq,
      List.not_mem_nil, or_false, exists_eq_or_imp, Rec.flagByte, reduceCtorEq, and_false, false_or,
      exists_eq_left]
    simp only [and_comm, eq_comm]
  · intro x
    rw [hm]
    have := nq (.leapSecond x) (by simp) (by simp)
    simp only [this, or_false, reduceCtorEq, false_and]
    simp only [flagPairs, List.mem_cons, Prod.mk.injEq, Header.leapSecond.injEq,
      List.not_mem_nil, or_false, reduceCtorEq, and_false, false_or]
    simp only [and_comm, eq_comm]
  · intro x
    rw [hm]
    have := nq (.correction x) (by simp) (by simp)
    simp only [this, or_false, Header.correction.injEq]
    simp only [flagPairs, List.mem_cons, Prod.mk.injEq,
      List.not_mem_nil, or_false, reduceCtorEq, and_false, false_or]
    constructor
    · rintro ⟨rfl, h⟩; exact ⟨rfl, h⟩
    · rintro ⟨rfl, h⟩; exact ⟨rfl, h⟩
  · unfold headers2
    rw [List.filterMap_append, List.filterMap_append, quality_map]
    have h1 : (flagHeaders r.activity.toNat r.io.toNat r.dq.toNat).filterMap
        (fun | Header.quality q => some q | _ => none) = [] := by
      rw [List.filterMap_eq_nil_iff]
      intro x hx
      rw [mem_pairs] at hx
      simp only [flagPairs, List.mem_cons, Prod.mk.injEq, List.not_mem_nil, or_false] at hx
      rcases hx with h|h|h|h|h|h|h|h|h|h|h|h|h|h|h|h|h <;> rw [h.2]
    have h2 : (if r.correction ≠ 0 then [Header.correction r.correction] else []).filterMap
        (fun | Header.quality q => some q | _ => none) = [] := by
      rw [List.filterMap_eq_nil_iff]
      intro x hx
      rw [((hc x).1 hx).1]
    rw [h1, h2]
    rfl
  · unfold headers2
    rw [List.filterMap_append, List.filterMap_append, blockette_map]
    have h1 : (flagHeaders r.activity.toNat r.io.toNat r.dq.toNat).filterMap
        (fun | Header.blockette n fs => some (n, fs) | _ => none) = [] := by
      rw [List.filterMap_eq_nil_iff]
      intro x hx
      rw [mem_pairs] at hx
      simp only [flagPairs, List.mem_cons, Prod.mk.injEq, List.not_mem_nil, or_false] at hx
      rcases hx with h|h|h|h|h|h|h|h|h|h|h|h|h|h|h|h|h <;> rw [h.2]
    have h2 : (if r.correction ≠ 0 then [Header.correction r.correction] else []).filterMap
        (fun | Header.blockette n fs => some (n, fs) | _ => none) = [] := by
      rw [List.filterMap_eq_nil_iff]
      intro x hx
      rw [((hc x).1 hx).1]
    rw [h1, h2]
    rfl
  · unfold headers2
    rw [List.filter_append]
    have h1 : (r.chain.filterMap fun b => headerOf b.1).filter
        (fun | Header.quality _ => false | Header.blockette _ _ => false | _ => true) = [] := by
      rw [List.filter_eq_nil_iff]
      intro x hx
      rcases hq x hx with ⟨q, rfl⟩ | ⟨n, fs, rfl⟩ <;> simp
    rw [h1, List.append_nil]
    apply List.Sublist.nodup List.filter_sublist
    rw [List.nodup_append]
    refine ⟨flags_nodup .., ?_, ?_⟩
    · split <;> simp
    · intro a ha b hb hab
      rw [hc] at hb
      rw [mem_pairs, hab, hb.1] at ha
      simp [flagPairs] at ha

end Verif.Props.Record2
