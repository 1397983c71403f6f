import Verif.Proof.ReadTrace
import Verif.Props.Reader
import Verif.Props.SampleTime
/-!
# Reading records into trace lists: C75 and C100
-/
namespace Verif.Props.ReadTrace
open Verif.Model Verif.Model.Steim Verif.Model.Samples Verif.Model.Record3 Verif.Model.Reader
open Verif.Model.ReadTrace
open Verif.Model.Trace (Arrival Seg Source)
open Verif.Model.TraceList (TraceList addMsr)
open Verif.Props.Reader Verif.Props.TracePack Verif.Props.Trace Verif.Props.TraceList
open Verif.Proof.Mem Verif.Proof.Reader Verif.Proof.ReadTrace
open Verif.Props.Record3 (sample sample_valid)
open Verif.Props.Record2 (env0 head2)

/-! ## C75: reading a buffer -/

/-- A record of a buffer or file: a valid one, accepted by `msr3_parse`, of more than 40 bytes, and with
record lists its data has bounds. -/
structure Sound (env : Record2.Env) (h vc ud keep : Bool) (e : Entry) : Prop where
  version : (h = false ∧ Version3 e.bytes) ∨ Version2 h e.bytes
  alone : Alone env h vc e.bytes e.msr
  full : Full env h vc ud e.bytes e.msr e.full
  bounded : keep = true → Bounded h e.bytes e.full
  long : 40 < e.bytes.length

theorem sound_piece {env : Record2.Env} {h vc ud keep : Bool} {e : Entry} (s : Sound env h vc ud keep e) :
    Piece env h vc ud e.bytes e.msr e.full := by
  rcases s.version with ⟨rfl, h3⟩ | h2
  · exact piece_full (piece_of3 h3 s.alone).1 s.full
  · exact piece_full (piece_of2 h2 s.alone) s.full

/-- The entry as an item of the reader. -/
def item (ud : Bool) (sel : Option (Msr → Bool)) (e : Entry) : Item :=
  ⟨e.junk, e.bytes, if (ud && sel.isNone) = true then e.full else e.msr, e.full⟩

theorem items_records (env : Record2.Env) (h : Bool) (base : Nat) (vc ud skip : Bool)
    (sel : Option (Msr → Bool)) (l : List Entry) :
    ((l.map (item ud sel)).filter fun i => chosen (opts env h base vc ud skip sel) i.m).map (·.m') =
      records sel l := by
  unfold records
  induction l with
  | nil => rfl
  | cons e l ih =>
    have hc : chosen (opts env h base vc ud skip sel) (item ud sel e).m = wanted sel e.msr :=
      chosen_full env h base vc ud skip sel e.msr e.full
    rw [List.map_cons]
    cases hw : wanted sel e.msr with
    | false =>
      rw [List.filter_cons_of_neg (by simp [hc, hw]), List.filter_cons_of_neg (by simp [hw])]
      exact ih
    | true =>
      rw [List.filter_cons_of_pos (p := fun i : Item => chosen _ i.m) (hc.trans hw),
        List.filter_cons_of_pos (p := fun e : Entry => wanted sel e.msr) hw, List.map_cons, List.map_cons, ih]
      rfl

theorem items_cat (ud : Bool) (sel : Option (Msr → Bool)) (l : List Entry) (tail : List UInt8) :
    cat (l.map (item ud sel)) ++ tail = fileOf l tail := by
  unfold cat fileOf
  rw [List.flatMap_map]
  rfl

/-- What may follow the last record: at most 40 bytes, or the beginning of a version 3 record. -/
def Rest (h : Bool) (tail : List UInt8) : Prop :=
  tail.length ≤ 40 ∨ (h = false ∧ ∃ b k, Version3 b ∧ k < b.length ∧ tail = b.take k)

theorem rest_leaves {env : Record2.Env} {h : Bool} {base : Nat} {vc ud skip eof : Bool}
    {sel : Option (Msr → Bool)} {tail : List UInt8} (ht : Rest h tail) :
    Leaves (opts env h base vc ud skip sel) eof tail := by
  rcases ht with ht | ⟨rfl, b, k, hb, hk, rfl⟩
  · exact Or.inl ht
  by_cases h40 : (b.take k).length ≤ 40
  · exact Or.inl h40
  · refine Or.inr fun off => ?_
    obtain ⟨r, v, rfl, hl⟩ := hb
    rw [List.length_take] at h40
    exact ⟨_, need_piece (by omega) hk hl (Or.inr (detect3_take r v hl k (by omega))) _ _ _⟩

/-- Reading a buffer is adding the records asked for one after the other. -/
theorem buffer_added (env : Record2.Env) (h : Bool) (base : Nat) (vc ud skip : Bool)
    (sel : Option (Msr → Bool)) (c : Adding) (hc : c.hostBE = h) (split keep eof : Bool) (l : List Entry)
    (hl : ∀ e ∈ l, e.junk = [] ∧ Sound env h vc ud keep e) (tail : List UInt8) (ht : Rest h tail)
    (tl tl' : TraceList Rat) (ha : AddedAll c split keep tl (records sel l) tl') :
    readBuffer c (opts env h base vc ud skip sel) split keep eof (fileOf l tail) tl =
      .ok (.count (records sel l).length, tl') := by
  rw [← items_cat ud sel, ← items_records env h base vc ud skip sel l]
  rw [← items_records env h base vc ud skip sel l] at ha
  rw [List.length_map]
  refine readBuffer_items (rest_leaves ht) _ ?_ tl tl' ha
  intro i hi
  obtain ⟨e, he, rfl⟩ := List.mem_map.1 hi
  obtain ⟨hj, hs⟩ := hl e he
  exact ⟨hj, hs.long, good_piece base skip sel 0 (sound_piece hs) (Or.inl rfl)
    (fun k h40 _ hk => by rw [Nat.zero_dvd] at hk; omega), fun hk => by rw [hc]; exact hs.bounded hk⟩

/-- **C75** (part).  A buffer of valid records, one after the other, of either version, is read completely:
each record asked for is added to the trace list, once and in order, with its identifier, version, times,
rate and samples, as if `mstl3_addmsr` had been called with it, and their number is returned.  The list may
hold records already.  Bytes behind the last record, up to 40 of them or the beginning of a version 3
record, are not reported.

Missing: the records a source refuses, for it has samples of another type (`C75_no_samples_violated`), or
with versions split and a version of 0 (C69); a record of exactly 40 bytes at the end
(`C75_short_record_violated`). -/
theorem C75_buffer_read_partial (env : Record2.Env) (h : Bool) (base : Nat) (vc ud skip : Bool)
    (sel : Option (Msr → Bool)) (c : Adding) (hc : c.hostBE = h) (split keep eof : Bool) (l : List Entry)
    (hl : ∀ e ∈ l, e.junk = [] ∧ Sound env h vc ud keep e) (tail : List UInt8) (ht : Rest h tail)
    (as : List (Arrival Rat)) (hd : Each (Describes c) (records sel l) as)
    (hist : List (Arrival Rat × Bool)) (tl : TraceList Rat) (hL : Listed c.sim split true keep hist tl)
    (hv : split = true → (∀ y ∈ hist, y.1.pub ≠ 0) ∧ ∀ a ∈ as, a.pub ≠ 0) (T : List UInt8 → Char)
    (hT : ∀ y ∈ hist, OfType (T y.1.sid) y.1) (hT' : ∀ a ∈ as, OfType (T a.sid) a) :
    ∃ tl', readBuffer c (opts env h base vc ud skip sel) split keep eof (fileOf l tail) tl =
        .ok (.count as.length, tl') ∧
      Listed c.sim split true keep (hist ++ as.map fun a => (a, true)) tl' := by
  obtain ⟨tl', h1, h2⟩ := added_all (records sel l) as hd hist tl hL hv hT hT'
  refine ⟨tl', ?_, h2⟩
  rw [buffer_added env h base vc ud skip sel c hc split keep eof l hl tail ht tl tl' h1, each_length hd]

/-- **C75** (samples).  Then every source of the list holds the samples of exactly those records, among the
ones before and the ones asked for in the buffer, that belong to it. -/
theorem C75_samples_kept_partial (env : Record2.Env) (h : Bool) (base : Nat) (vc ud skip : Bool)
    (sel : Option (Msr → Bool)) (c : Adding) (hc : c.hostBE = h) (split keep eof : Bool) (l : List Entry)
    (hl : ∀ e ∈ l, e.junk = [] ∧ Sound env h vc ud keep e) (tail : List UInt8) (ht : Rest h tail)
    (as : List (Arrival Rat)) (hd : Each (Describes c) (records sel l) as)
    (hist : List (Arrival Rat × Bool)) (tl : TraceList Rat) (hL : Listed c.sim split true keep hist tl)
    (hv : split = true → (∀ y ∈ hist, y.1.pub ≠ 0) ∧ ∀ a ∈ as, a.pub ≠ 0) (T : List UInt8 → Char)
    (hT : ∀ y ∈ hist, OfType (T y.1.sid) y.1) (hT' : ∀ a ∈ as, OfType (T a.sid) a) :
    ∃ tl', readBuffer c (opts env h base vc ud skip sel) split keep eof (fileOf l tail) tl =
        .ok (.count as.length, tl') ∧
      ∀ p s, tl'.sources p = some s → ∃ k, Linked s k ∧
        ((segments s k).map Seg.samplecnt).sum = (((hist.map Prod.fst ++ as).filter
          (Belongs split s.sid s.pub)).map Arrival.samplecnt).sum ∧
        ((segments s k).flatMap Seg.data).Perm
          (((hist.map Prod.fst ++ as).filter (Belongs split s.sid s.pub)).flatMap Arrival.data) := by
  obtain ⟨tl', h1, h2⟩ := C75_buffer_read_partial env h base vc ud skip sel c hc split keep eof l hl tail ht as
    hd hist tl hL hv T hT hT'
  refine ⟨tl', h1, ?_⟩
  have hk := (C37_each_source_keeps_samples (T := T) h2 (by
    intro hs y hy
    rcases List.mem_append.1 hy with hy | hy
    · exact (hv hs).1 y hy
    · obtain ⟨a, ha, rfl⟩ := List.mem_map.1 hy
      exact (hv hs).2 a ha) (by
    intro y hy
    rcases List.mem_append.1 hy with hy | hy
    · exact hT y hy
    · obtain ⟨a, ha, rfl⟩ := List.mem_map.1 hy
      exact hT' a ha)).2
  rw [List.map_append, List.map_map, show (Prod.fst ∘ fun a : Arrival Rat => (a, true)) = id from rfl,
    List.map_id] at hk
  exact hk

/-- **C75** (end).  Reading a buffer of less than 2^31 bytes, of whatever contents and into whatever list,
ends. -/
theorem C75_ends (env : Record2.Env) (h : Bool) (base : Nat) (vc ud skip : Bool)
    (sel : Option (Msr → Bool)) (c : Adding) (split keep eof : Bool) (buf : List UInt8)
    (hb : buf.length < 2147483648) (hist : List (Arrival Rat × Bool)) (tl : TraceList Rat)
    (hL : Listed c.sim split true keep hist tl) :
    readBuffer c (opts env h base vc ud skip sel) split keep eof buf tl ≠ .err :=
  bufferLoop_ends (opts_ends env h base vc ud skip sel) eof _ buf 0 0 hL hb (by omega) (by omega)

/-- A library with exact arithmetic, no leap seconds and one sample per second whatever the record says. -/
def exact1 : Adding := { rnd := fun x => x, leaps := [], rate := fun _ => 1 }

/-- An empty list. -/
def empty : TraceList Rat := { TraceList.init with prng := 1 }

theorem empty_listed (split keep : Bool) : Listed exact1.sim split true keep [] empty := .init 1

/-- The record of `sample` without and with its samples. -/
def sampleMsr (s : Samples) : Msr :=
  { Proof.Record3.header false sample sample.payload.length sample.bytes.length 1325383384000000005 with
    samples := s }

/-- The record `sample` as it is found in a buffer. -/
def sampleEntry : Entry :=
  ⟨[], sample.bytes, Proof.Record3.header false sample sample.payload.length sample.bytes.length
    1325383384000000005, sampleMsr (.text [65, 66, 67, 68])⟩

theorem sampleEntry_sound : Sound env0 false false true false sampleEntry := by
  have ha := alone3 env0 sample sample_valid (by decide +kernel) (by decide) 1325383384000000005
    (by decide +kernel) (by decide)
  refine ⟨Or.inl ⟨rfl, sample_version3⟩, ha, ?_, by simp, by decide +kernel⟩
  intro align t eof
  show parse _ _ _ (sample.bytes ++ t) _ _ _ = Res.ok (Parsed.record (sampleMsr _), sample.bytes ++ t)
  unfold sampleMsr
  generalize hm : Proof.Record3.header false sample sample.payload.length sample.bytes.length
    1325383384000000005 = m at ha ⊢
  rw [(piece3 sample_valid (by decide +kernel) ha).2.1 align t true eof]
  unfold withSamples
  have := Proof.Pack.unpackData_packed false false false align sample t 1325383384000000005 (by decide)
    (by decide) (by decide +kernel) (.text [65, 66, 67, 68]) 4 trivial (by decide) (by decide)
    (by decide) rfl (by decide +kernel)
  rw [hm] at this
  rw [if_pos ⟨rfl, by rw [← hm]; decide⟩, this, show assumed m.encoding = m.encoding by rw [← hm]; rfl]
  rfl

/-- What is added of `sample`: four samples, one per second. -/
def sampleArrival : Arrival Rat :=
  { sid := [70, 68, 83, 78, 58, 88], pub := 1, start := 1325383384000000005, stop := 1325383387000000005,
    period := 1000000000, tol := 500000000, rate := 1, samplecnt := 4, sampletype := 't',
    data := [65, 66, 67, 68] }

theorem sample_described : Describes exact1 (sampleMsr (.text [65, 66, 67, 68])) sampleArrival := by
  constructor
  · decide +kernel
  · decide +kernel
  · decide +kernel
  · decide +kernel
  · decide +kernel
  · decide +kernel
  · decide +kernel
  · decide +kernel
  · decide +kernel
  · rfl
  · rfl

/-- The number of segments of the first source after records are added one by one. -/
def segmentsAfter (c : Adding) (ms : List Msr) : Res (Option Int) :=
  (ms.foldl (fun (r : Res (TraceList Rat)) m => r.bind fun tl =>
    (addRecord c false true false tl m).bind fun r => Res.ok r.1) (.ok empty)).bind fun tl => .ok ((tl.sources 1).map (·.numsegments))

/-- **C42** (violated, in a list).  Two records of one source, of which the second begins a sample period after the end
of the first, are one segment; with a rate tolerance of 1/2 they are two, though their rates are equal. -/
theorem C42_list_violated :
    segmentsAfter exact1 [sampleMsr (.text [65, 66, 67, 68]),
      { sampleMsr (.text [65, 66, 67, 68]) with starttime := 1325383388000000005 }] = .ok (some 1) ∧
    segmentsAfter { exact1 with ratetol := 1 / 2 } [sampleMsr (.text [65, 66, 67, 68]),
      { sampleMsr (.text [65, 66, 67, 68]) with starttime := 1325383388000000005 }] = .ok (some 2) := by
  decide +kernel

/-- Two records of the same source and time, added to an empty list, with three bytes behind them. -/
example : (∀ e ∈ [sampleEntry, sampleEntry], e.junk = [] ∧ Sound env0 false false true false e) ∧
    Rest false [1, 2, 3] ∧
    Each (Describes exact1) (records none [sampleEntry, sampleEntry]) [sampleArrival, sampleArrival] ∧
    Listed exact1.sim true true false [] empty ∧
    (∀ a ∈ [sampleArrival, sampleArrival], a.pub ≠ 0 ∧ OfType 't' a) :=
  ⟨by simp [sampleEntry_sound, show sampleEntry.junk = [] from rfl], Or.inl (by decide),
   ⟨sample_described, sample_described, trivial⟩, empty_listed _ _, by
    intro a ha
    simp only [List.mem_cons, List.not_mem_nil, or_false, or_self] at ha
    subst ha
    exact ⟨by decide, rfl, Or.inr (by decide)⟩⟩

/-- **C75** (refusal).  A record that is not taken ends the reading: `MS_GENERROR` is returned, and the list has
the records before it. -/
theorem C75_refused (env : Record2.Env) (h : Bool) (base : Nat) (vc ud skip : Bool)
    (sel : Option (Msr → Bool)) (c : Adding) (hc : c.hostBE = h) (split keep eof : Bool) (l : List Entry)
    (hl : ∀ e ∈ l, e.junk = [] ∧ Sound env h vc ud keep e) (x : Entry) (hx : x.junk = [] ∧ Sound env h vc ud false x)
    (hw : wanted sel x.msr = true) (tail : List UInt8) (tl tl' tl2 : TraceList Rat)
    (ha : AddedAll c split keep tl (records sel l) tl') (hr : Refused c split keep tl' x.full tl2) :
    readBuffer c (opts env h base vc ud skip sel) split keep eof (fileOf (l ++ [x]) tail) tl =
      .ok (.genError, tl2) := by
  rw [← items_cat ud sel, List.map_append, List.map_cons, List.map_nil]
  rw [← items_records env h base vc ud skip sel l] at ha
  have good : ∀ (keep : Bool) (e : Entry), Sound env h vc ud keep e →
      Good (opts env h base vc ud skip sel) 0 (item ud sel e).b (item ud sel e).m (item ud sel e).m' :=
    fun keep e hs => good_piece base skip sel 0 (sound_piece hs) (Or.inl rfl)
      (fun k h40 _ hk => by rw [Nat.zero_dvd] at hk; omega)
  refine readBuffer_refused tail _ (item ud sel x) ?_ hx.1 hx.2.long (good false x hx.2) ?_ tl tl' tl2 ha hr
  · intro i hi
    obtain ⟨e, he, rfl⟩ := List.mem_map.1 hi
    obtain ⟨hj, hs⟩ := hl e he
    exact ⟨hj, hs.long, good keep e hs, fun hk => by rw [hc]; exact hs.bounded hk⟩
  · exact (chosen_full env h base vc ud skip sel x.msr x.full).trans hw

/-- Four samples, the last at the instant that stands for the error value, 1 January 1902. -/
def unlucky : Spec.Record3.Rec :=
  { sample with year := 1901, day := 365, hour := 23, minute := 59, second := 57, nsec := 0 }

/-- The record `unlucky` as it is found in a buffer, without its samples. -/
def unluckyEntry : Entry :=
  ⟨[], unlucky.bytes, Proof.Record3.header false unlucky unlucky.payload.length unlucky.bytes.length
    (-2145916803000000000), Proof.Record3.header false unlucky unlucky.payload.length unlucky.bytes.length
    (-2145916803000000000)⟩

/-- The first record is read, the second refused. -/
example : (∀ e ∈ [sampleEntry], e.junk = [] ∧ Sound env0 false false true false e) ∧
    Refused exact1 true false empty unluckyEntry.full empty ∧
    Alone env0 false false unlucky.bytes unluckyEntry.msr :=
  ⟨by simp [sampleEntry_sound, show sampleEntry.junk = [] from rfl],
   Or.inl ⟨by decide +kernel, rfl⟩,
   alone3 env0 unlucky (by constructor <;> decide) (by decide +kernel) (by decide) _ (by decide +kernel) (by decide)⟩

/-- **C75** (tolerance).  Without a tolerance function the time tolerance is half of the sample period, for
every rounding of `double` and periods up to 2^52 nanoseconds. -/
theorem C75_default_tolerance (c : Adding) (hr : Spec.Rounding c.rnd) (hd : c.timetol = none) (m : Msr)
    (a : Arrival Rat) (h : Describes c m a) (h0 : 0 ≤ a.period) (h1 : a.period ≤ 2 ^ 52) :
    a.tol = a.period / 2 := by
  have ht := h.tol
  rw [hd] at ht
  simp only at ht
  rw [hr.exact a.period (by omega) (by omega)] at ht
  generalize a.period = p at *
  have hlo := hr.mono (((p / 2 : Int) : Int) : Rat) (1 / 2 * (p : Rat)) (by
    have : (((p / 2 : Int) : Int) : Rat) * 2 ≤ (p : Rat) := by exact_mod_cast (by omega : p / 2 * 2 ≤ p)
    grind)
  rw [hr.exact (p / 2) (by omega) (by omega)] at hlo
  have hx0 : (0 : Rat) ≤ (p : Rat) := by exact_mod_cast h0
  have hx1 : (p : Rat) ≤ ((4503599627370496 : Int) : Rat) := Rat.intCast_le_intCast.2 h1
  have hhi := (hr.near (1 / 2 * (p : Rat)) (by grind)).2
  have hup : (p : Rat) ≤ ((p / 2 : Int) : Rat) * 2 + 1 := by exact_mod_cast (by omega : p ≤ p / 2 * 2 + 1)
  have hq0 : (0 : Rat) ≤ ((p / 2 : Int) : Rat) := by exact_mod_cast (by omega : 0 ≤ p / 2)
  generalize c.rnd (1 / 2 * (p : Rat)) = y at *
  unfold SampleTime.toInt64 at ht
  simp only at ht
  have hy : ¬ y < 0 := by grind
  rw [if_neg hy] at ht
  have hf : y.floor = p / 2 := by
    have h1 : p / 2 ≤ y.floor := Rat.le_floor_iff.2 hlo
    have h2 : y.floor < p / 2 + 1 := by
      rw [Rat.floor_lt_iff]
      have : (((p / 2 + 1 : Int) : Int) : Rat) = ((p / 2 : Int) : Rat) + 1 := by simp
      rw [this]
      grind
    omega
  rw [hf] at ht
  split at ht
  · exact (Out.ok.inj ht).symm
  · cases ht

example : exact1.timetol = none ∧ Spec.Rounding exact1.rnd ∧ sampleArrival.period = 10 ^ 9 ∧
    Describes exact1 (sampleMsr (.text [65, 66, 67, 68])) sampleArrival :=
  ⟨rfl, Spec.rounding_id, rfl, sample_described⟩

/-- Return value and number of sources. -/
def summary : Res (Code × TraceList Rat) → Res (Code × Nat)
  | .ok (ret, tl) => .ok (ret, tl.numtraceids)
  | .err => .err
  | .ub => .ub
  | .oob => .oob

/-- A record of 40 bytes: without identifier, extra headers and samples. -/
def short : Spec.Record3.Rec := { sample with sid := [], extra := [], payload := [], numsamples := 0 }

/-- **C75** (violated).  A valid record of 40 bytes at the end of the buffer, here the only one, is not
read, although `msr3_parse` accepts it. -/
theorem C75_short_record_violated : short.Valid ∧ short.bytes.length = 40 ∧
    (∃ m, Alone env0 false false short.bytes m) ∧
    summary (readBuffer exact1 (opts env0 false 0 false false false none) false false false short.bytes empty) =
      .ok (.count 0, 0) :=
  ⟨by constructor <;> decide, by decide +kernel,
   ⟨_, alone3 env0 short (by constructor <;> decide) (by decide +kernel) (by decide) 1325383384000000005
     (by decide +kernel) (by decide)⟩, by decide +kernel⟩

/-- A record without samples. -/
def header : Spec.Record3.Rec := { sample with payload := [], numsamples := 0 }

/-- Four samples a second later. -/
def later : Spec.Record3.Rec := { sample with second := 5 }

/-- **C75** (violated).  A record without samples is added with no sample type: the next record of the
source, that follows it in time and has samples, is refused and reading stops with an error.  Alone each of
them is read, and so are both in the other order. -/
theorem C75_no_samples_violated : header.Valid ∧ later.Valid ∧
    summary (readBuffer exact1 (opts env0 false 0 false true false none) false false false
      (header.bytes ++ later.bytes) empty) = .ok (.genError, 1) ∧
    summary (readBuffer exact1 (opts env0 false 0 false true false none) false false false
      header.bytes empty) = .ok (.count 1, 1) ∧
    summary (readBuffer exact1 (opts env0 false 0 false true false none) false false false
      (later.bytes ++ header.bytes) empty) = .ok (.count 2, 1) :=
  ⟨by constructor <;> decide, by constructor <;> decide, by decide +kernel, by decide +kernel,
   by decide +kernel⟩

/-- **C75** (violated).  A record of version 2 with a second blockette 1000 that announces a longer or a
negative length moves the position behind or before the buffer, where reading goes on. -/
theorem C75_second_blockette_violated :
    summary (readBuffer exact1 (opts env0 false 0 false false false none) false false false (twice 7) empty) =
      .ok (.count 1, 1) ∧
    summary (readBuffer exact1 (opts env0 false 0 false false false none) false false false (twice 20) empty) =
      .oob ∧
    summary (readBuffer exact1 (opts env0 false 0 false false false none) false false false (twice 31) empty) =
      .oob :=
  ⟨by decide +kernel, by decide +kernel, by decide +kernel⟩

/-! ## C100: reading a file -/

/-- Reading a file of records is adding the records asked for one after the other. -/
theorem file_added (env : Record2.Env) (h : Bool) (base : Nat) (vc ud skip : Bool)
    (sel : Option (Msr → Bool)) (c : Adding) (hc : c.hostBE = h) (split keep : Bool) (l : List Entry)
    (tail : List UInt8) (hk : Kinds h skip l tail)
    (hp : ∀ e ∈ l, Alone env h vc e.bytes e.msr ∧ Full env h vc ud e.bytes e.msr e.full)
    (hb : keep = true → ∀ e ∈ l, Bounded h e.bytes e.full)
    (tl tl' : TraceList Rat) (ha : AddedAll c split keep tl (records sel l) tl') :
    readTraceList c (opts env h base vc ud skip sel) split keep (opened (fileOf l tail) 0 0) tl =
      .ok (if records sel l = [] then .notSeed else .count 0, tl') := by
  have htakes := kinds_takes (base := base) (sel := sel) hk hp
  obtain ⟨_, _, _, _, _, hpiece⟩ := kinds_cut hk hp
  have hrec : ∀ (pos : Int) (l : List Entry), (expectedBytes pos (ofFile sel l)).map (·.2.1) = records sel l := by
    intro pos l
    unfold ofFile records
    induction l generalizing pos with
    | nil => rfl
    | cons e l ih =>
      simp only [List.map_cons, expectedBytes]
      cases hw : wanted sel e.msr with
      | false =>
        rw [List.filter_cons_of_neg (by simp [hw])]
        simp only [Bool.false_eq_true, if_false]
        exact ih _
      | true =>
        rw [List.filter_cons_of_pos (p := fun e : Entry => wanted sel e.msr) hw]
        simp only [if_true, List.map_cons]
        rw [ih]
  have hmem : ∀ (pos : Int) (l : List Entry), ∀ x ∈ expectedBytes pos (ofFile sel l),
      ∃ e ∈ l, x.2.1 = e.full ∧ x.2.2 = e.bytes := by
    intro pos l
    unfold ofFile
    induction l generalizing pos with
    | nil => intro x hx; cases hx
    | cons e l ih =>
      intro x hx
      simp only [List.map_cons, expectedBytes] at hx
      have rest : ∀ x, x ∈ expectedBytes (pos + e.junk.length + e.bytes.length)
          (l.map fun e => (e.junk, e.bytes, wanted sel e.msr, e.full)) →
          ∃ e' ∈ e :: l, x.2.1 = e'.full ∧ x.2.2 = e'.bytes := by
        intro x hx
        obtain ⟨e', h1, h2⟩ := ih _ x hx
        exact ⟨e', by simp [h1], h2⟩
      split at hx
      · rcases List.mem_cons.1 hx with rfl | hx
        · exact ⟨e, by simp, rfl, rfl⟩
        · exact rest x hx
      · exact rest x hx
  have hlen : (records sel l).length ≤ (fileOf l tail).length := by
    have h1 : (records sel l).length ≤ l.length := by
      unfold records
      rw [List.length_map]
      exact List.length_filter_le _ _
    have h2 := cat_length (l.map (item ud sel)) (by
      intro i hi
      obtain ⟨e, he, rfl⟩ := List.mem_map.1 hi
      exact (hpiece e he).1.low)
    have h3 := congrArg List.length (items_cat ud sel l tail)
    rw [List.length_append] at h3
    rw [List.length_map] at h2
    omega
  have hr := hrec 0 l
  have hn : (expectedBytes 0 (ofFile sel l)).length = (records sel l).length := by
    rw [← hr, List.length_map]
  rw [← hr] at ha
  unfold readTraceList
  rw [fileLoop_takes htakes (by
    intro hk x hx
    obtain ⟨e, he, e1, e2⟩ := hmem 0 l x hx
    rw [e1, e2, hc]
    exact hb hk e he) _ (by
      rw [hn]
      show _ < ((fileOf l tail).drop 0).length + 0 + 1
      rw [List.drop_zero]
      omega) tl tl' ha]
  rw [hn]
  unfold code
  by_cases h0 : records sel l = []
  · rw [if_pos h0, h0]; rfl
  · rw [if_neg h0, if_neg (by
      intro hz
      exact h0 (List.eq_nil_of_length_eq_zero hz))]
    rfl

/-- **C100** (part).  A file of valid records of the kinds that the reader is shown to read (C34) is read into the trace
list: each record asked for is added, once and in the order of the file, and `MS_NOERROR` returned, or `MS_NOTSEED` if
there was none.  If skipping is asked for there may be other bytes before the records and after the last, otherwise
up to 39 bytes after the last.

Records that a source refuses are in `C100_refused`.  Missing: other files with version 2 records (C34). -/
theorem C100_file_read_partial (env : Record2.Env) (h : Bool) (base : Nat) (vc ud skip : Bool)
    (sel : Option (Msr → Bool)) (c : Adding) (hc : c.hostBE = h) (split keep : Bool) (l : List Entry)
    (tail : List UInt8) (hk : Kinds h skip l tail)
    (hp : ∀ e ∈ l, Alone env h vc e.bytes e.msr ∧ Full env h vc ud e.bytes e.msr e.full)
    (hb : keep = true → ∀ e ∈ l, Bounded h e.bytes e.full)
    (as : List (Arrival Rat)) (hd : Each (Describes c) (records sel l) as)
    (hist : List (Arrival Rat × Bool)) (tl : TraceList Rat) (hL : Listed c.sim split true keep hist tl)
    (hv : split = true → (∀ y ∈ hist, y.1.pub ≠ 0) ∧ ∀ a ∈ as, a.pub ≠ 0) (T : List UInt8 → Char)
    (hT : ∀ y ∈ hist, OfType (T y.1.sid) y.1) (hT' : ∀ a ∈ as, OfType (T a.sid) a) :
    ∃ tl', readTraceList c (opts env h base vc ud skip sel) split keep (opened (fileOf l tail) 0 0) tl =
        .ok (if as = [] then .notSeed else .count 0, tl') ∧
      Listed c.sim split true keep (hist ++ as.map fun a => (a, true)) tl' := by
  obtain ⟨tl', h1, h2⟩ := added_all (records sel l) as hd hist tl hL hv hT hT'
  refine ⟨tl', ?_, h2⟩
  rw [file_added env h base vc ud skip sel c hc split keep l tail hk hp hb tl tl' h1]
  have := each_length hd
  by_cases h0 : as = []
  · rw [if_pos h0, if_pos (List.eq_nil_of_length_eq_zero (by rw [this, h0]; rfl))]
  · rw [if_neg h0, if_neg (by intro hz; rw [hz] at this; exact h0 (List.eq_nil_of_length_eq_zero this.symm))]

/-- **C100** (refusal).  A record that is asked for and not taken ends the reading of a file too. -/
theorem C100_refused (env : Record2.Env) (h : Bool) (base : Nat) (vc ud skip : Bool)
    (sel : Option (Msr → Bool)) (c : Adding) (hc : c.hostBE = h)
    (split keep : Bool) (l : List Entry) (x : Entry) (rest : List Entry)
    (tail : List UInt8) (hk : Kinds h skip (l ++ x :: rest) tail)
    (hp : ∀ e ∈ l ++ x :: rest, Alone env h vc e.bytes e.msr ∧ Full env h vc ud e.bytes e.msr e.full)
    (hb : keep = true → ∀ e ∈ l, Bounded h e.bytes e.full)
    (hw : wanted sel x.msr = true) (tl tl' tl2 : TraceList Rat) (ha : AddedAll c split keep tl (records sel l) tl')
    (hr : Refused c split keep tl' x.full tl2) :
    readTraceList c (opts env h base vc ud skip sel) split keep (opened (fileOf (l ++ x :: rest) tail) 0 0) tl =
      .ok (.genError, tl2) := by
  have htakes := kinds_takes (base := base) (sel := sel) hk hp
  obtain ⟨_, _, _, _, _, hpiece⟩ := kinds_cut hk hp
  have hsplit : ∀ (l : List Entry) (pos : Int), ∃ l1 y l2,
      expectedBytes pos (ofFile sel (l ++ x :: rest)) = l1 ++ y :: l2 ∧ y.2.1 = x.full ∧
      l1.map (fun z => (z.2.1, z.2.2)) = (l.filter fun e => wanted sel e.msr).map fun e => (e.full, e.bytes) := by
    intro l
    induction l with
    | nil =>
      intro pos
      refine ⟨[], (pos + x.junk.length, x.full, x.bytes), expectedBytes (pos + x.junk.length + x.bytes.length)
        (ofFile sel rest), ?_, rfl, rfl⟩
      simp only [ofFile, List.nil_append, List.map_cons, expectedBytes, hw, if_true]
    | cons e l ih =>
      intro pos
      obtain ⟨l1, y, l2, e1, e2, e3⟩ := ih (pos + e.junk.length + e.bytes.length)
      cases hwe : wanted sel e.msr with
      | true =>
        refine ⟨(pos + e.junk.length, e.full, e.bytes) :: l1, y, l2, ?_, e2, by
          rw [List.filter_cons_of_pos (p := fun e : Entry => wanted sel e.msr) hwe, List.map_cons, List.map_cons, e3]⟩
        rw [List.cons_append, List.cons_append, ← e1]
        simp only [ofFile, List.map_cons, expectedBytes, hwe, if_true]
      | false =>
        refine ⟨l1, y, l2, ?_, e2, by rw [List.filter_cons_of_neg (by simp [hwe]), e3]⟩
        rw [List.cons_append, ← e1]
        simp only [ofFile, List.map_cons, expectedBytes, hwe, Bool.false_eq_true, if_false]
  obtain ⟨l1, y, l2, e1, e2, e3⟩ := hsplit l 0
  have hl1 : l1.length ≤ l.length := by
    have h1 := congrArg List.length e3
    rw [List.length_map, List.length_map] at h1
    rw [h1]
    exact List.length_filter_le _ _
  have hms : l1.map (·.2.1) = records sel l := by
    have := congrArg (List.map Prod.fst) e3
    unfold records
    simpa [List.map_map, Function.comp_def] using this
  have hcl := cat_length ((l ++ x :: rest).map (item ud sel)) (by
    intro i hi
    obtain ⟨e, he, rfl⟩ := List.mem_map.1 hi
    exact (hpiece e he).1.low)
  have hfl := congrArg List.length (items_cat ud sel (l ++ x :: rest) tail)
  unfold readTraceList
  refine fileLoop_refused htakes l1 y l2 e1 ?_ _ ?_ tl tl' tl2 (by rw [hms]; exact ha) (by rw [e2]; exact hr)
  · intro hk z hz
    have hm : (z.2.1, z.2.2) ∈ (l.filter fun e => wanted sel e.msr).map fun e => (e.full, e.bytes) := by
      rw [← e3]; exact List.mem_map.2 ⟨z, hz, rfl⟩
    obtain ⟨e, he, e4⟩ := List.mem_map.1 hm
    injection e4 with e5 e6
    rw [← e5, ← e6, hc]
    exact hb hk e (List.mem_filter.1 he).1
  · show l1.length < ((fileOf (l ++ x :: rest) tail).drop 0).length + 0 + 1
    rw [List.drop_zero]
    rw [List.length_map] at hcl
    rw [List.length_append] at hfl
    simp only [List.length_append, List.length_cons] at hcl
    omega

/-- A file with one record that is refused. -/
example : Kinds false false ([] ++ unluckyEntry :: []) [] ∧ wanted (some fun _ => true) unluckyEntry.msr = true ∧
    Refused exact1 true false empty unluckyEntry.full empty ∧
    Alone env0 false false unluckyEntry.bytes unluckyEntry.msr ∧
    Full env0 false false false unluckyEntry.bytes unluckyEntry.msr unluckyEntry.full := by
  have ha : Alone env0 false false unlucky.bytes unluckyEntry.msr :=
    alone3 env0 unlucky (by constructor <;> decide) (by decide +kernel) (by decide) _ (by decide +kernel) (by decide)
  refine ⟨.inl ⟨?_, by simp [show unluckyEntry.junk = [] from rfl], .inl (by decide)⟩, rfl,
    Or.inl ⟨by decide +kernel, rfl⟩, ha, rfl⟩
  intro e he
  have he : e ∈ [unluckyEntry] := he
  rw [List.mem_singleton.1 he]
  exact ⟨rfl, unlucky, by constructor <;> decide, rfl, by decide +kernel⟩

/-- **C100** (agreement).  Reading a buffer or a file with the same records makes the same trace list. -/
theorem C100_as_buffer (env : Record2.Env) (h : Bool) (base base' : Nat) (vc ud skip eof : Bool)
    (sel : Option (Msr → Bool)) (c : Adding) (hc : c.hostBE = h) (split keep : Bool) (l : List Entry)
    (hl : ∀ e ∈ l, e.junk = [] ∧ Sound env h vc ud keep e)
    (tail : List UInt8) (ht : tail.length < 40) (hk : Kinds h skip l tail) (tl tl' : TraceList Rat)
    (ha : AddedAll c split keep tl (records sel l) tl') :
    readBuffer c (opts env h base vc ud skip sel) split keep eof (fileOf l tail) tl =
      .ok (.count (records sel l).length, tl') ∧
    readTraceList c (opts env h base' vc ud skip sel) split keep (opened (fileOf l tail) 0 0) tl =
      .ok (if records sel l = [] then .notSeed else .count 0, tl') :=
  ⟨buffer_added env h base vc ud skip sel c hc split keep eof l hl
    tail (Or.inl (by omega)) tl tl' ha,
   file_added env h base' vc ud skip sel c hc split keep l tail hk
    (fun e he => ⟨(hl e he).2.alone, (hl e he).2.full⟩) (fun hk e he => (hl e he).2.bounded hk) tl tl' ha⟩

example : (∀ e ∈ [sampleEntry, sampleEntry], e.junk = [] ∧ Sound env0 false false true false e) ∧
    Kinds false false [sampleEntry, sampleEntry] [] ∧
    ∃ tl', AddedAll exact1 false false empty (records none [sampleEntry, sampleEntry]) tl' := by
  refine ⟨by simp [sampleEntry_sound, show sampleEntry.junk = [] from rfl],
    .inl ⟨by simp [show Version3 sampleEntry.bytes from sample_version3],
      by simp [show sampleEntry.junk = [] from rfl], .inl (by decide)⟩, ?_⟩
  obtain ⟨tl', h1, -⟩ := added_all (records none [sampleEntry, sampleEntry]) [sampleArrival, sampleArrival]
    ⟨sample_described, sample_described, trivial⟩ [] empty (empty_listed false false) (by simp)
    (T := fun _ => 't') (by simp) (by
      intro a ha
      simp only [List.mem_cons, List.not_mem_nil, or_false, or_self] at ha
      subst ha
      exact ⟨rfl, Or.inr (by decide)⟩)
  exact ⟨tl', h1⟩

end Verif.Props.ReadTrace
