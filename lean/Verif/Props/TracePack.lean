import Verif.Proof.TracePack
/-!
# Packing trace lists (C91 to C94)

`mstl3_pack` followed by a reader of the records handed to the record handler.  The terms are defined in
`Verif.Props.TracePackDefs`.
-/
namespace Verif.Props.TracePack
open Verif.Model Verif.Model.Steim Verif.Model.Samples Verif.Model.Record3 Verif.Model.Pack Verif.Model.Pack2
  Verif.Model.TracePack
open Verif.Model.Trace (Seg Arrival addMsrToSeg)
open Verif.Spec.Steim (isInt32)
open Verif.Proof.Mem Verif.Proof.TracePack
open Verif.Proof.Pack (GoodTime)
open Verif.Proof.Pack2 (Head Input2)
open Verif.Proof.PackRead (steps_drop)
open Verif.Props.Samples Verif.Props.Record3 Verif.Props.Pack Verif.Props.Pack2

section
variable (c : Packers) (maintain : Bool) (reclen encoding : Int) (extra : List UInt8) (traces : List Trace)

theorem mstlPack_eq (ver2 flush : Bool) (hx : extra.length ≤ 65535) :
    mstlPack c ver2 flush maintain reclen encoding extra traces =
      packTraces c ver2 flush maintain reclen encoding extra traces { records := [], ret := 0, packed := 0 } := by
  unfold mstlPack
  rw [if_neg (by omega)]

theorem sums {α : Type} {P : Seg Nat → Packing × α → Prop}
    (hP : ∀ s q, P s q → q.1.packed = s.data.length ∧ q.1.ret = q.1.records.length) :
    ∀ {traces : List Trace} {qss}, Each (fun (tr : Trace) qs => Each P tr.segs qs) traces qss →
    ((qss.flatten.map (·.1)).map (·.packed)).sum = ((traces.flatMap (·.segs)).map (·.data.length)).sum ∧
    ((qss.flatten.map (·.1)).map (·.ret)).sum = ((qss.flatten.map (·.1)).map (·.records)).flatten.length := by
  have one : ∀ {segs : List (Seg Nat)} {qs}, Each P segs qs →
      ((qs.map (·.1)).map (·.packed)).sum = (segs.map (·.data.length)).sum ∧
      ((qs.map (·.1)).map (·.ret)).sum = ((qs.map (·.1)).map (·.records)).flatten.length := by
    intro segs
    induction segs with
    | nil => intro qs h; cases qs with
      | nil => exact ⟨rfl, rfl⟩
      | cons => exact h.elim
    | cons s segs ih => intro qs h; cases qs with
      | nil => exact h.elim
      | cons q qs =>
        obtain ⟨h1, h2⟩ := hP _ _ h.1
        obtain ⟨h3, h4⟩ := ih h.2
        simp only [List.map_cons, List.sum_cons, List.flatten_cons, List.length_append]
        omega
  intro traces
  induction traces with
  | nil => intro qss h; cases qss with
    | nil => exact ⟨rfl, rfl⟩
    | cons => exact h.elim
  | cons tr traces ih => intro qss h; cases qss with
    | nil => exact h.elim
    | cons qs qss =>
      obtain ⟨h1, h2⟩ := one h.1
      obtain ⟨h3, h4⟩ := ih h.2
      simp only [List.flatten_cons, List.map_append, List.sum_append_nat, List.flatMap_cons, List.flatten_append,
        List.length_append, List.sum_append_int]
      omega

/-- All segments are packed with flush. -/
theorem packs_all {reads : Reading} {Q : Msr → Nat → Msr → Prop} (ver2 : Bool)
    (hone : ∀ tr ∈ traces, ∀ s ∈ tr.segs, ∃ p, packSeg c ver2 true reclen encoding extra tr.sid tr.pub s = .ok p ∧
      p.ret = p.records.length ∧ p.packed = s.data.length ∧
      Carries reads s.sampletype (Q (recordOf reclen encoding extra tr.sid tr.pub s)) 0 p.records s.data)
    (hx : extra.length ≤ 65535) :
    ∃ traces' t gss, mstlPack c ver2 true maintain reclen encoding extra traces = .ok (traces', t) ∧
      Each (fun (tr : Trace) gs => Each (fun s g =>
        Carries reads s.sampletype (Q (recordOf reclen encoding extra tr.sid tr.pub s)) 0 g s.data) tr.segs gs) traces gss ∧
      t.records = gss.flatten.flatten ∧ t.ret = t.records.length ∧
      t.packed = ((traces.flatMap (·.segs)).map (·.data.length)).sum := by
  have hq : ∀ tr ∈ traces, ∃ qs, Each (fun s (q : Packing × Seg Nat) =>
      One c ver2 true maintain reclen encoding extra tr.sid tr.pub s q ∧ q.1.ret = q.1.records.length ∧
      q.1.packed = s.data.length ∧
      Carries reads s.sampletype (Q (recordOf reclen encoding extra tr.sid tr.pub s)) 0 q.1.records s.data) tr.segs qs := by
    intro tr htr
    refine each_exists fun s hs => ?_
    obtain ⟨p, h1, h2, h3, h4⟩ := hone tr htr s hs
    have : ∃ s', removed c maintain s p.packed = .ok s' := by
      unfold removed startAfter
      rw [if_pos h3]
      split <;> exact ⟨_, rfl⟩
    obtain ⟨s', hs'⟩ := this
    exact ⟨(p, s'), ⟨h1, hs'⟩, h2, h3, h4⟩
  obtain ⟨qss, hqss⟩ := each_exists hq
  rw [mstlPack_eq _ _ _ _ _ _ _ _ hx]
  refine ⟨_, _, qss.map (·.map (·.1.records)), (packTraces_ok _ _ _ _ _ _ _ _ _ _ _).2 ⟨qss, ?_, rfl, rfl⟩, ?_, ?_⟩
  · exact each_mono (fun tr _ qs h => each_mono (fun s _ q h => h.1) h) hqss
  · exact each_map _ (each_mono (fun tr _ qs h => each_map (fun q : Packing × Seg Nat => q.1.records)
      (each_mono (fun s _ q h => h.2.2.2) h)) hqss)
  · obtain ⟨s1, s2⟩ := sums (P := fun s (q : Packing × Seg Nat) => q.1.packed = s.data.length ∧
      q.1.ret = q.1.records.length) (fun _ _ h => h)
      (each_mono (fun tr _ qs h => each_mono (fun s _ q h => ⟨h.2.2.1, h.2.1⟩) h) hqss)
    rw [fold_plus]
    refine ⟨?_, ?_, ?_⟩
    · simp only [List.nil_append, List.map_flatten, List.map_map, Function.comp_def]
    · show (0 : Int) + _ = (([] ++ _ : List (List UInt8)).length : Int)
      rw [List.nil_append, s2, Int.zero_add]
    · show 0 + _ = _
      rw [s1, Nat.zero_add]

/-- **C91.** Packing a trace list with flush, all segments having samples that the encoding can represent: the
records made are those of the segments in order, the records of each segment carry exactly its samples in
order under its identifier and version, each at the time of its first sample; the number of records is
returned and the number of samples reported is that of all segments.  Missing: segments without samples
(`C92_emptied_violated`), 2^32 or more samples in a segment (C31) and what the encoding cannot represent. -/
theorem C91_all_packed_partial (hx : extra.length ≤ 65535)
    (hp : ∀ tr ∈ traces, ∀ s ∈ tr.segs, Known s.sampletype ∧ s.data ≠ [] ∧
      Packable3 c (recordOf reclen encoding extra tr.sid tr.pub s) ∧
      Encodable (recordOf reclen encoding extra tr.sid tr.pub s)) :
    ∃ traces' t gss, mstlPack c false true maintain reclen encoding extra traces = .ok (traces', t) ∧
      Each (fun (tr : Trace) gs => Each (fun s g => Carries Reads s.sampletype
        (Tells3 c (recordOf reclen encoding extra tr.sid tr.pub s)) 0 g s.data) tr.segs gs) traces gss ∧
      t.records = gss.flatten.flatten ∧ t.ret = t.records.length ∧
      t.packed = ((traces.flatMap (·.segs)).map (·.data.length)).sum := by
  refine packs_all c maintain reclen encoding extra traces false ?_ hx
  intro tr htr s hs
  obtain ⟨k1, k2, k3, k4⟩ := hp tr htr s hs
  obtain ⟨p, h1, h2⟩ := pack3_ok c true reclen encoding extra tr.sid tr.pub s k1 k2 k3 k4
  obtain ⟨h3, h4, h5⟩ := pack3 c true reclen encoding extra tr.sid tr.pub s k1 k2 k3 p h1
  have hall : p.packed = s.data.length := by
    rcases h5 with h5 | h5
    · have := h5.1; omega
    · exact h5.2 rfl
  rw [hall, List.take_length] at h4
  exact ⟨p, h1, h2, hall, h4⟩

/-- **C91**, version 2 records: the same with times to 0.1 milliseconds (C86).  Missing: as above, and the
segments excluded by `Packable2` (C85). -/
theorem C91_all_packed2_partial (hx : extra.length ≤ 65535)
    (hp : ∀ tr ∈ traces, ∀ s ∈ tr.segs, Known s.sampletype ∧ s.data ≠ [] ∧
      ∃ net sta loc band source position d,
        Packable2 c (recordOf reclen encoding extra tr.sid tr.pub s) net sta loc band source position d ∧
        Encodable2 (recordOf reclen encoding extra tr.sid tr.pub s) d) :
    ∃ traces' t gss, mstlPack c true true maintain reclen encoding extra traces = .ok (traces', t) ∧
      Each (fun (tr : Trace) gs => Each (fun s g => Carries reads2 s.sampletype
        (Tells2 c (recordOf reclen encoding extra tr.sid tr.pub s)) 0 g s.data) tr.segs gs) traces gss ∧
      t.records = gss.flatten.flatten ∧ t.ret = t.records.length ∧
      t.packed = ((traces.flatMap (·.segs)).map (·.data.length)).sum := by
  refine packs_all c maintain reclen encoding extra traces true ?_ hx
  intro tr htr s hs
  obtain ⟨k1, k2, net, sta, loc, band, source, position, d, k3, k4⟩ := hp tr htr s hs
  obtain ⟨p, h1, h2⟩ := pack2_ok c true reclen encoding extra tr.sid tr.pub s k1 k2 k3 k4
  obtain ⟨h3, h4, h5⟩ := pack2 c true reclen encoding extra tr.sid tr.pub s k1 k2 k3 p h1
  have hall : p.packed = s.data.length := by
    rcases h5 with h5 | h5
    · have := h5.1; omega
    · exact h5.2 rfl
  rw [hall, List.take_length] at h4
  exact ⟨p, h1, h2, hall, h4⟩

/-- What has to be true of a segment and what has become of it. -/
structure Rest (flush maintain : Bool) (sampletime : Int → Nat → Nat → Out Int) (m : Msr)
    (carries : List (List UInt8) → List Int → Prop) (s : Seg Nat) (d : Done) : Prop where
  count : d.count ≤ s.data.length
  records : carries d.records (s.data.take d.count)
  flushed : flush = true → d.failed = false → d.count = s.data.length
  error : d.failed = true → d.count < s.data.length
  kept : maintain = true → d.after = s
  data : maintain = false → d.after.data = s.data.drop d.count
  samplecnt : maintain = false → d.after.samplecnt = s.samplecnt - d.count
  same : d.after.stop = s.stop ∧ d.after.rate = s.rate ∧ d.after.sampletype = s.sampletype
  start : maintain = false → d.count < s.data.length → timeOf sampletime m d.count = .ok d.after.start

theorem rest_of (flush : Bool) (m : Msr) (carries : List (List UInt8) → List Int → Prop) (s s' : Seg Nat)
    (p : Packing) (hms : m.starttime = s.start) (hmr : m.samprate = s.rate) (h1 : p.packed ≤ s.data.length)
    (h2 : carries p.records (s.data.take p.packed))
    (h3 : (p.ret = -1 ∧ p.packed < s.data.length) ∨
      (p.ret = p.records.length ∧ (flush = true → p.packed = s.data.length)))
    (h4 : removed c maintain s p.packed = .ok s') :
    Rest flush maintain c.sampletime m carries s
      { records := p.records, count := p.packed, failed := decide (p.ret < 0), after := s' } := by
  unfold removed at h4
  have hret : p.ret = -1 ∨ 0 ≤ p.ret := by omega
  split at h4
  · rename_i hc
    obtain ⟨start, g1, g2⟩ := bind_eq_ok.1 h4
    cases g2
    refine ⟨h1, h2, ?_, ?_, ?_, fun _ => rfl, fun _ => rfl, ⟨rfl, rfl, rfl⟩, ?_⟩
    · intro f g
      simp only [decide_eq_false_iff_not] at g
      rcases h3 with h3 | h3
      · omega
      · exact h3.2 f
    · intro g
      simp only [decide_eq_true_eq] at g
      rcases h3 with h3 | h3
      · exact h3.2
      · omega
    · intro h; rw [hc.1] at h; cases h
    · intro _ hlt
      simp only at hlt
      unfold startAfter at g1
      rw [if_neg (by omega)] at g1
      unfold timeOf
      rw [if_neg (by show p.packed ≠ 0; omega), hms, hmr]
      revert g1
      show ofOut (c.sampletime s.start p.packed s.rate) = .ok start → c.sampletime s.start p.packed s.rate = .ok start
      cases c.sampletime s.start p.packed s.rate with
      | ok t => intro h; cases h; rfl
      | ub => intro h; cases h
  · rename_i hc
    cases h4
    have hz : maintain = false → p.packed = 0 := fun hm => by
      rcases Nat.eq_zero_or_pos p.packed with h | h
      · exact h
      · exact absurd ⟨hm, h⟩ hc
    refine ⟨h1, h2, ?_, ?_, fun _ => rfl, ?_, ?_, ⟨rfl, rfl, rfl⟩, ?_⟩
    · intro f g
      simp only [decide_eq_false_iff_not] at g
      rcases h3 with h3 | h3
      · omega
      · exact h3.2 f
    · intro g
      simp only [decide_eq_true_eq] at g
      rcases h3 with h3 | h3
      · exact h3.2
      · omega
    · intro hm
      show s.data = s.data.drop p.packed
      rw [hz hm]; rfl
    · intro hm
      show s.samplecnt = s.samplecnt - (p.packed : Nat)
      rw [hz hm]; simp
    · intro hm _
      show timeOf c.sampletime m p.packed = .ok s.start
      rw [hz hm]
      unfold timeOf
      rw [if_pos rfl, hms]

/-- The results of the segments make up the result of the list. -/
theorem rests {carries : Trace → Seg Nat → List (List UInt8) → List Int → Prop} (ver2 flush : Bool)
    (hx : extra.length ≤ 65535) (traces' : List Trace) (t : Total)
    (hone : ∀ tr ∈ traces, ∀ s ∈ tr.segs, ∀ p,
      packSeg c ver2 flush reclen encoding extra tr.sid tr.pub s = .ok p →
      p.packed ≤ s.data.length ∧ carries tr s p.records (s.data.take p.packed) ∧
      ((p.ret = -1 ∧ p.packed < s.data.length) ∨
        (p.ret = p.records.length ∧ (flush = true → p.packed = s.data.length))))
    (h : mstlPack c ver2 flush maintain reclen encoding extra traces = .ok (traces', t)) :
    ∃ dss : List (List Done),
      Each (fun (tr : Trace) ds => Each (fun s d => Rest flush maintain c.sampletime
        (recordOf reclen encoding extra tr.sid tr.pub s) (carries tr s) s d) tr.segs ds) traces dss ∧
      traces' = List.zipWith (fun (tr : Trace) ds => { tr with segs := ds.map (·.after) }) traces dss ∧
      t.records = (dss.flatten.map (·.records)).flatten ∧
      t.packed = (dss.flatten.map (·.count)).sum ∧
      t.ret = (dss.flatten.map fun d => if d.failed then -1 else (d.records.length : Int)).sum := by
  rw [mstlPack_eq _ _ _ _ _ _ _ _ hx] at h
  obtain ⟨qss, h1, h2, h3⟩ := (packTraces_ok _ _ _ _ _ _ _ _ _ _ _).1 h
  let f : Packing × Seg Nat → Done := fun q =>
    { records := q.1.records, count := q.1.packed, failed := decide (q.1.ret < 0), after := q.2 }
  have hall : Each (fun (tr : Trace) qs => Each (fun s (q : Packing × Seg Nat) =>
      Rest flush maintain c.sampletime (recordOf reclen encoding extra tr.sid tr.pub s) (carries tr s) s (f q) ∧
      q.1.ret = if (f q).failed then -1 else ((f q).records.length : Int)) tr.segs qs) traces qss := by
    refine each_mono (fun tr htr qs h => each_mono (fun s hs q hq => ?_) h) h1
    obtain ⟨g1, g2⟩ := hq
    obtain ⟨k1, k2, k3⟩ := hone tr htr s hs q.1 g1
    refine ⟨rest_of c maintain flush _ _ s q.2 q.1 rfl rfl k1 k2 k3 g2, ?_⟩
    show q.1.ret = if decide (q.1.ret < 0) = true then -1 else (q.1.records.length : Int)
    rcases k3 with k3 | k3
    · rw [if_pos (by simp; omega)]; exact k3.1
    · rw [if_neg (by simp; omega)]; exact k3.1
  have hret : ((qss.flatten.map (·.1)).map (·.ret)).sum = ((qss.flatten.map f).map fun d =>
      if d.failed then -1 else (d.records.length : Int)).sum := by
    have : ∀ {segs : List (Seg Nat)} {qs} {P : Seg Nat → Packing × Seg Nat → Prop},
        Each (fun s q => P s q ∧ q.1.ret = if (f q).failed then -1 else ((f q).records.length : Int)) segs qs →
        (qs.map fun q => q.1.ret).sum = (qs.map fun q => if (f q).failed then -1 else ((f q).records.length : Int)).sum := by
      intro segs
      induction segs with
      | nil => intro qs P h; cases qs with
        | nil => rfl
        | cons => exact h.elim
      | cons s segs ih => intro qs P h; cases qs with
        | nil => exact h.elim
        | cons q qs => rw [List.map_cons, List.map_cons, List.sum_cons, List.sum_cons, ih h.2, h.1.2]
    rw [List.map_map, List.map_map]
    show (qss.flatten.map fun q => q.1.ret).sum = (qss.flatten.map fun q =>
      if (f q).failed then -1 else ((f q).records.length : Int)).sum
    clear h h1 h2 h3 hone
    induction traces generalizing qss with
    | nil => cases qss with
      | nil => rfl
      | cons => exact hall.elim
    | cons tr traces ih => cases qss with
      | nil => exact hall.elim
      | cons qs qss =>
        simp only [List.flatten_cons, List.map_append, List.sum_append_int]
        rw [this hall.1, ih qss hall.2]
  refine ⟨qss.map (·.map f), each_map _ (each_mono (fun tr _ qs h => each_map f (each_mono (fun s _ q h => h.1) h)) hall),
    ?_, ?_, ?_, ?_⟩
  · rw [h2, List.zipWith_map_right]
    simp only [List.map_map]
    rfl
  all_goals rw [h3, fold_plus, ← List.map_flatten]
  · simp only [List.nil_append, List.map_map]
    rfl
  · simp only [Nat.zero_add, List.map_map]
    rfl
  · show 0 + _ = _
    rw [hret, Int.zero_add]

/-- **C92.** Packing a trace list, with or without flush: the records made are those of the segments in order,
the records of each segment carry a first part of its samples, and without `MSF_MAINTAINMSTL` the segment
keeps exactly the other samples, its number of samples reduced accordingly, and begins at the time of the
first of them, while its end time, rate and type stay; with `MSF_MAINTAINMSTL` it is unchanged.  Missing: the
start time if no sample is left (`C94_start_time_violated`); segments without samples (`C92_emptied_violated`). -/
theorem C92_rest_stays_partial (flush : Bool) (hx : extra.length ≤ 65535) (traces' : List Trace) (t : Total)
    (hp : ∀ tr ∈ traces, ∀ s ∈ tr.segs, Known s.sampletype ∧ s.data ≠ [] ∧
      Packable3 c (recordOf reclen encoding extra tr.sid tr.pub s))
    (h : mstlPack c false flush maintain reclen encoding extra traces = .ok (traces', t)) :
    ∃ dss : List (List Done),
      Each (fun (tr : Trace) ds => Each (fun s d => Rest flush maintain c.sampletime
        (recordOf reclen encoding extra tr.sid tr.pub s) (Carries Reads s.sampletype
          (Tells3 c (recordOf reclen encoding extra tr.sid tr.pub s)) 0) s d) tr.segs ds) traces dss ∧
      traces' = List.zipWith (fun (tr : Trace) ds => { tr with segs := ds.map (·.after) }) traces dss ∧
      t.records = (dss.flatten.map (·.records)).flatten ∧
      t.packed = (dss.flatten.map (·.count)).sum ∧
      t.ret = (dss.flatten.map fun d => if d.failed then -1 else (d.records.length : Int)).sum := by
  refine rests c maintain reclen encoding extra traces false flush hx traces' t ?_ h
  intro tr htr s hs p h1
  obtain ⟨k1, k2, k3⟩ := hp tr htr s hs
  exact pack3 c flush reclen encoding extra tr.sid tr.pub s k1 k2 k3 p h1

/-- **C92**, version 2 records.  Missing: as above, and the segments excluded by `Packable2` (C85). -/
theorem C92_rest_stays2_partial (flush : Bool) (hx : extra.length ≤ 65535) (traces' : List Trace) (t : Total)
    (hp : ∀ tr ∈ traces, ∀ s ∈ tr.segs, Known s.sampletype ∧ s.data ≠ [] ∧
      ∃ net sta loc band source position d,
        Packable2 c (recordOf reclen encoding extra tr.sid tr.pub s) net sta loc band source position d)
    (h : mstlPack c true flush maintain reclen encoding extra traces = .ok (traces', t)) :
    ∃ dss : List (List Done),
      Each (fun (tr : Trace) ds => Each (fun s d => Rest flush maintain c.sampletime
        (recordOf reclen encoding extra tr.sid tr.pub s) (Carries reads2 s.sampletype
          (Tells2 c (recordOf reclen encoding extra tr.sid tr.pub s)) 0) s d) tr.segs ds) traces dss ∧
      traces' = List.zipWith (fun (tr : Trace) ds => { tr with segs := ds.map (·.after) }) traces dss ∧
      t.records = (dss.flatten.map (·.records)).flatten ∧
      t.packed = (dss.flatten.map (·.count)).sum ∧
      t.ret = (dss.flatten.map fun d => if d.failed then -1 else (d.records.length : Int)).sum := by
  refine rests c maintain reclen encoding extra traces true flush hx traces' t ?_ h
  intro tr htr s hs p h1
  obtain ⟨k1, k2, net, sta, loc, band, source, position, d, k3⟩ := hp tr htr s hs
  exact pack2 c flush reclen encoding extra tr.sid tr.pub s k1 k2 k3 p h1

/-- **C92 (violated).** A segment all of whose samples have been packed stays in the list, and every further call
makes a record without samples of it. -/
theorem C92_emptied_violated (flush : Bool) (sid : List UInt8) (pub : Nat) (s : Seg Nat) (hx : extra.length ≤ 65535)
    (hk : Known s.sampletype) (hd : s.data = [])
    (hp : Packable3 c (recordOf reclen encoding extra sid pub s)) :
    ∃ r, mstlPack c false flush maintain reclen encoding extra [{ sid, pub, segs := [s] }] =
        .ok ([{ sid, pub, segs := [s] }], { records := [r], ret := 1, packed := 0 }) ∧
      Reads r (fun m' => m'.samplecnt = 0 ∧ m'.sid = sid ∧ m'.starttime = s.start) := by
  obtain ⟨r, h1, h2⟩ := pack3_empty c flush reclen encoding extra sid pub s hk hd hp
  refine ⟨r, ?_, h2⟩
  rw [mstlPack_eq _ _ _ _ _ _ _ _ hx]
  refine (packTraces_ok _ _ _ _ _ _ _ _ _ _ _).2 ⟨[[({ records := [r], packed := 0, ret := 1 }, s)]],
    ⟨⟨⟨h1, ?_⟩, True.intro⟩, True.intro⟩, rfl, rfl⟩
  show removed c maintain s 0 = .ok s
  unfold removed
  rw [if_neg (by omega)]

/-- **C93.** If the samples of all segments can be encoded, the number of records made is returned.  Missing:
-1 if the packing of a segment fails (`C93_error_violated`). -/
theorem C93_records_returned_partial (flush : Bool) (hx : extra.length ≤ 65535) (traces' : List Trace) (t : Total)
    (hp : ∀ tr ∈ traces, ∀ s ∈ tr.segs, Known s.sampletype ∧ s.data ≠ [] ∧
      Packable3 c (recordOf reclen encoding extra tr.sid tr.pub s) ∧
      Encodable (recordOf reclen encoding extra tr.sid tr.pub s))
    (h : mstlPack c false flush maintain reclen encoding extra traces = .ok (traces', t)) :
    t.ret = t.records.length := by
  rw [mstlPack_eq _ _ _ _ _ _ _ _ hx] at h
  obtain ⟨qss, h1, h2, h3⟩ := (packTraces_ok _ _ _ _ _ _ _ _ _ _ _).1 h
  have hall : Each (fun (tr : Trace) qs => Each (fun (_ : Seg Nat) (q : Packing × Seg Nat) =>
      q.1.ret = q.1.records.length) tr.segs qs) traces qss := by
    refine each_mono (fun tr htr qs h => each_mono (fun s hs q hq => ?_) h) h1
    obtain ⟨k1, k2, k3, k4⟩ := hp tr htr s hs
    obtain ⟨p, g1, g2⟩ := pack3_ok c flush reclen encoding extra tr.sid tr.pub s k1 k2 k3 k4
    rw [hq.1] at g1
    cases g1
    exact g2
  rw [h3, fold_plus]
  show 0 + ((qss.flatten.map (·.1)).map (·.ret)).sum = (([] ++ _ : List (List UInt8)).length : Int)
  rw [Int.zero_add, List.nil_append]
  clear h h1 h2 h3 hp
  have one : ∀ {segs : List (Seg Nat)} {qs},
      Each (fun (_ : Seg Nat) (q : Packing × Seg Nat) => q.1.ret = q.1.records.length) segs qs →
      ((qs.map (·.1)).map (·.ret)).sum = ((qs.map (·.1)).map (·.records)).flatten.length := by
    intro segs
    induction segs with
    | nil => intro qs h; cases qs with
      | nil => rfl
      | cons => exact h.elim
    | cons s segs ih => intro qs h; cases qs with
      | nil => exact h.elim
      | cons q qs =>
        have h1 := h.1
        have h2 := ih h.2
        simp only [List.map_cons, List.sum_cons, List.flatten_cons, List.length_append]
        omega
  induction traces generalizing qss with
  | nil => cases qss with
    | nil => rfl
    | cons => exact hall.elim
  | cons tr traces ih => cases qss with
    | nil => exact hall.elim
    | cons qs qss =>
      have h1 := one hall.1
      have h2 := ih qss hall.2
      simp only [List.flatten_cons, List.map_append, List.flatten_append, List.length_append,
        List.sum_append_int]
      omega

end

/-! ## A segment as a buffer -/

theorem steps_take : ∀ (v : List Int) (n : Nat), ∀ d ∈ (v.take n).tail.zip (v.take n), d ∈ v.tail.zip v
  | [], n, d, hd => by simp at hd
  | [x], n, d, hd => by cases n <;> simp at hd
  | x :: y :: v, n, d, hd => by
    match n with
    | 0 => simp at hd
    | 1 => simp at hd
    | n + 2 =>
      simp only [List.take_succ_cons, List.tail_cons, List.zip_cons_cons, List.mem_cons] at hd ⊢
      rcases hd with hd | hd
      · exact Or.inl hd
      · right
        have := steps_take (y :: v) (n + 1) d
        simp only [List.take_succ_cons, List.tail_cons] at this
        exact this hd

theorem steps_part (ty : Char) (v : List Int) (a n : Nat) :
    ∀ d ∈ steps (typed ty ((v.drop a).take n)), d ∈ steps (typed ty v) := by
  unfold typed
  split
  · intro d hd; exact hd
  · split
    · intro d hd
      simp only [steps, List.mem_map] at hd ⊢
      obtain ⟨p, h1, h2⟩ := hd
      exact ⟨p, steps_drop v a p (steps_take _ n p h1), h2⟩
    · split <;> (intro d hd; exact hd)

theorem representable_part (ty : Char) (v : List Int) (a n enc : Nat) (h : representable (typed ty v) enc) :
    representable (typed ty ((v.drop a).take n)) enc := by
  rw [← slice_typed]
  generalize typed ty v = src at h
  have hm : ∀ {α : Type} (l : List α) x, x ∈ (l.drop a).take n → x ∈ l := fun l x hx =>
    List.mem_of_mem_drop (List.mem_of_mem_take hx)
  unfold representable at h
  split at h <;> first
    | exact h.elim
    | exact True.intro
    | exact fun x hx => h x (hm _ x hx)

section
variable (c : Packers) (reclen encoding : Int) (extra sid : List UInt8) (pub : Nat)

/-- What the samples of all rounds together need to be packed. -/
structure Buffered (ok : Nat → Int → Prop) (s : Seg Nat) (all : List Int) : Prop where
  known : Known s.sampletype
  few : all.length < 2 ^ 32
  timely : Timely c.sampletime s.rate ok
  packable : Packable c.negRecip (recordOf reclen encoding extra sid pub s)
  default : reclen < 0 → reclen = -1
  extraText : ∀ b ∈ extra, b ≠ 0
  memory : (packReclen reclen).toNat - 40 ≤ c.junk.length
  fits : representable (typed s.sampletype all)
    (packEncoding (recordOf reclen encoding extra sid pub s).encoding)
  encodable : Encodable (recordOf reclen encoding extra sid pub { s with data := all })

variable {c reclen encoding extra sid pub}

/-- A part of the samples can be packed. -/
theorem Buffered.part {ok : Nat → Int → Prop} {s0 : Seg Nat} {all : List Int}
    (b : Buffered c reclen encoding extra sid pub ok s0 all) (s : Seg Nat) (hrate : s.rate = s0.rate)
    (hty : s.sampletype = s0.sampletype) (a n : Nat) (hd : s.data = (all.drop a).take n) (N : Nat)
    (hN : s.data.length ≤ N) (hok : ok N s.start) :
    Packable3 c (recordOf reclen encoding extra sid pub s) ∧
    Encodable (recordOf reclen encoding extra sid pub s) := by
  have g := b.timely.good _ _ hok
  have pk : Packable c.negRecip (recordOf reclen encoding extra sid pub s) := by
    have := b.packable
    refine ⟨this.flags, this.pubversion, ?_, this.sid, this.sidText, this.extra, this.reclen, g.range,
      g.from1678, g.noError⟩
    have h2 := this.rate
    show storedRate c.negRecip s.rate < _
    rw [hrate]
    exact h2
  have hcount : (recordOf reclen encoding extra sid pub s).samples.count = s.data.length :=
    typed_count _ _
  have henc : (recordOf reclen encoding extra sid pub s).encoding =
      (recordOf reclen encoding extra sid pub s0).encoding := by
    show (if s.sampletype = 't' then (0 : Int) else _) = _
    rw [hty]
    rfl
  have e := b.encodable
  constructor
  · refine ⟨fun h0 => ⟨pk, b.default, b.extraText, ?_, ?_, ?_, ?_⟩, pk, b.default, e.header, b.memory⟩
    · omega
    · rw [hcount, hd]
      have := b.few
      simp only [List.length_take, List.length_drop]
      omega
    · rw [henc]
      show representable (typed s.sampletype s.data) _
      rw [hty, hd]
      exact representable_part _ _ _ _ _ b.fits
    · intro k h1 h2
      rw [hcount] at h2
      have := b.timely.next N s.start k hok h1 (by omega)
      obtain ⟨t', h3, h4⟩ := this
      refine ⟨t', ?_, b.timely.good _ _ h4⟩
      show c.sampletime s.start k s.rate = _
      rw [hrate]
      exact h3
  · have henc' : (recordOf reclen encoding extra sid pub s).encoding =
      (recordOf reclen encoding extra sid pub { s0 with data := all }).encoding := henc
    have hst : ∀ d ∈ steps (recordOf reclen encoding extra sid pub s).samples,
        d ∈ steps (recordOf reclen encoding extra sid pub { s0 with data := all }).samples := by
      intro d hds
      have hds : d ∈ steps (typed s.sampletype s.data) := hds
      rw [hty, hd] at hds
      exact steps_part _ _ _ _ d hds
    refine ⟨e.header, ?_, ?_, ?_⟩
    · rw [henc']; exact e.room
    · rw [henc']; exact fun h d hds => e.steim1 h d (hst d hds)
    · rw [henc']; exact fun h d hds => e.steim2 h d (hst d hds)

/-- One round: the list with one segment is packed. -/
theorem round {ok : Nat → Int → Prop} {s0 : Seg Nat} {all : List Int}
    (b : Buffered c reclen encoding extra sid pub ok s0 all) (s : Seg Nat) (hrate : s.rate = s0.rate)
    (hty : s.sampletype = s0.sampletype) (a n : Nat) (hd : s.data = (all.drop a).take n) (N : Nat)
    (hN : s.data.length ≤ N) (hok : ok N s.start) (hstop : ok N s.stop) (hne : s.data ≠ []) (flush : Bool) :
    ∃ s' t j, mstlPack c false flush false reclen encoding extra [{ sid, pub, segs := [s] }] =
        .ok ([{ sid, pub, segs := [s'] }], t) ∧ j ≤ s.data.length ∧
      Carries Reads s0.sampletype (fun _ m' => m'.sid = sid ∧ m'.pubversion = pub ∧ m'.extra = extra) 0 t.records
        (s.data.take j) ∧ (flush = true → j = s.data.length) ∧ s'.data = s.data.drop j ∧ s'.rate = s.rate ∧
      s'.sampletype = s.sampletype ∧ s'.stop = s.stop ∧ ok (N - j) s'.start := by
  obtain ⟨p3, e3⟩ := b.part s hrate hty a n hd N hN hok
  have hk : Known s.sampletype := by rw [hty]; exact b.known
  obtain ⟨p, h1, h2⟩ := pack3_ok c flush reclen encoding extra sid pub s hk hne p3 e3
  obtain ⟨h3, h4, h5⟩ := pack3 c flush reclen encoding extra sid pub s hk hne p3 p h1
  have hx : extra.length ≤ 65535 := by
    have : extra.length < 65536 := b.packable.extra
    omega
  have hrem : ∃ s', removed c false s p.packed = .ok s' ∧ s'.data = s.data.drop p.packed ∧ s'.rate = s.rate ∧
      s'.sampletype = s.sampletype ∧ s'.stop = s.stop ∧ ok (N - p.packed) s'.start := by
    unfold removed
    rcases Nat.eq_zero_or_pos p.packed with hz | hz
    · rw [if_neg (by omega)]
      exact ⟨s, rfl, by rw [hz]; rfl, rfl, rfl, rfl, by rw [hz]; exact hok⟩
    · rw [if_pos ⟨rfl, hz⟩]
      unfold startAfter
      split
      · exact ⟨_, rfl, rfl, rfl, rfl, rfl, b.timely.less _ _ _ hstop (by omega)⟩
      · obtain ⟨t', g1, g2⟩ := b.timely.next N s.start p.packed hok hz (by omega)
        rw [hrate, g1]
        exact ⟨_, rfl, rfl, rfl, rfl, rfl, g2⟩
  obtain ⟨s', r1, r2, r3, r4, r5, r6⟩ := hrem
  refine ⟨s', [p].foldl Total.plus { records := [], ret := 0, packed := 0 }, p.packed, ?_, h3, ?_, ?_, r2, r3, r4, r5, r6⟩
  rotate_left
  · show Carries Reads s0.sampletype _ 0 ((List.foldl Total.plus _ [p]).records) _
    rw [fold_plus, ← hty]
    show Carries Reads s.sampletype _ 0 ([] ++ ([p.records] : List _).flatten) _
    rw [List.nil_append, List.flatten_singleton]
    exact carries_mono reads_mono3 (fun _ _ w => ⟨w.1, w.2.1, w.2.2.1⟩) _ _ _ h4
  · intro hf
    rcases h5 with h5 | h5
    · have := h5.1; omega
    · exact h5.2 hf
  · rw [mstlPack_eq _ _ _ _ _ _ _ _ hx]
    exact (packTraces_ok _ _ _ _ _ _ _ _ _ _ _).2 ⟨[[(p, s')]], ⟨⟨⟨h1, r1⟩, True.intro⟩, True.intro⟩, rfl, rfl⟩

end

/-- **C94.** A segment as a rolling buffer: however many records are appended to it and however often the list is
packed in between, with or without flush, the records made, read in order, carry a first part of all samples
in order, each sample once, and the segment holds exactly the others; after a round with flush there are
none.  Missing: the times of the records (`C94_start_time_violated`). -/
theorem C94_rolling_partial (c : Packers) (reclen encoding : Int) (extra sid : List UInt8) (pub : Nat)
    (ok : Nat → Int → Prop) (s : Seg Nat) (rounds : List (Arrival Nat × Bool)) (all : List Int)
    (hall : all = s.data ++ (rounds.map (·.1.data)).flatten)
    (b : Buffered c reclen encoding extra sid pub ok s all) (hstart : ok all.length s.start)
    (ha : ∀ a ∈ rounds, a.1.sampletype = s.sampletype ∧ a.1.data ≠ [] ∧ ok all.length a.1.stop) :
    ∃ s' rs k, rolling c reclen encoding extra sid pub rounds s = .ok (s', rs) ∧ k ≤ all.length ∧
      Carries Reads s.sampletype (fun _ m' => m'.sid = sid ∧ m'.pubversion = pub ∧ m'.extra = extra) 0 rs
        (all.take k) ∧ s'.data = all.drop k ∧ (rounds.getLast?.map (·.2) = some true → k = all.length) := by
  suffices H : ∀ (rounds : List (Arrival Nat × Bool)) (s1 : Seg Nat) (before : Nat),
      all.drop before = s1.data ++ (rounds.map (·.1.data)).flatten → s1.rate = s.rate →
      s1.sampletype = s.sampletype → ok (all.length - before) s1.start →
      (∀ a ∈ rounds, a.1.sampletype = s.sampletype ∧ a.1.data ≠ [] ∧ ok all.length a.1.stop) →
      ∃ s' rs k, rolling c reclen encoding extra sid pub rounds s1 = .ok (s', rs) ∧ k ≤ all.length - before ∧
        Carries Reads s.sampletype (fun _ m' => m'.sid = sid ∧ m'.pubversion = pub ∧ m'.extra = extra) 0 rs
          ((all.drop before).take k) ∧ s'.data = all.drop (before + k) ∧
        (rounds.getLast?.map (·.2) = some true → before + k = all.length) by
    obtain ⟨s', rs, k, h1, h2, h3, h4, h5⟩ := H rounds s 0 hall rfl rfl hstart ha
    exact ⟨s', rs, k, h1, h2, h3, by simpa using h4, by simpa using h5⟩
  intro rounds
  induction rounds with
  | nil =>
    intro s1 before hd _ _ _ _
    refine ⟨s1, [], 0, rfl, by omega, by rw [List.take_zero]; exact rfl, ?_, fun h => by simp at h⟩
    rw [Nat.add_zero, hd]
    simp
  | cons ab rounds ih =>
    intro s1 before hd hrate hty hok ha
    obtain ⟨a, flush⟩ := ab
    obtain ⟨a1, a2, a3⟩ := ha _ (List.mem_cons_self ..)
    have hlen := congrArg List.length hd
    simp only [List.length_drop, List.length_append, List.map_cons, List.flatten_cons] at hlen
    simp only [List.map_cons, List.flatten_cons] at hd
    have hsz : sampleSize a.sampletype ≠ 0 := by
      rw [a1]
      rcases b.known with h | h | h | h <;> rw [h] <;> decide
    have hadd : ∃ s2, addMsrToSeg false s1 a true = some s2 ∧ s2.data = s1.data ++ a.data ∧ s2.rate = s1.rate ∧
        s2.sampletype = s1.sampletype ∧ s2.start = s1.start ∧ s2.stop = a.stop := by
      unfold addMsrToSeg
      rw [if_neg (fun h => h.2 (by rw [hty]; exact a1)), if_neg (fun h => hsz h.2), if_pos rfl]
      exact ⟨_, rfl, rfl, rfl, rfl, rfl, rfl⟩
    obtain ⟨s2, d1, d2, d3, d4, d5, d6⟩ := hadd
    have hpart : s2.data = (all.drop before).take s2.data.length := by
      rw [hd, ← List.append_assoc, ← d2, List.take_left]
    have hl2 : s2.data.length = s1.data.length + a.data.length := by rw [d2, List.length_append]
    obtain ⟨s3, t, j, r1, r2, r3, r4, r5, r6, r7, r8, r9⟩ := round b s2 (d3.trans hrate) (d4.trans hty) before
      s2.data.length hpart (all.length - before) (by omega) (by rw [d5]; exact hok)
      (by rw [d6]; exact b.timely.less _ _ _ a3 (by omega))
      (by rw [d2]; intro h; exact a2 (List.append_eq_nil_iff.1 h).2) flush
    have hnext : all.drop (before + j) = s3.data ++ (rounds.map (·.1.data)).flatten := by
      rw [← List.drop_drop, hd, ← List.append_assoc, ← d2, List.drop_append_of_le_length r2, ← r5]
    obtain ⟨s', rs, k, i1, i2, i3, i4, i5⟩ := ih s3 (before + j) hnext (by rw [r6, d3, hrate])
      (by rw [r7, d4, hty]) (by rw [show all.length - (before + j) = all.length - before - j by omega]; exact r9)
      (fun x hx => ha x (List.mem_cons_of_mem _ hx))
    refine ⟨s', t.records ++ rs, j + k, ?_, by omega, ?_, ?_, ?_⟩
    · unfold rolling
      rw [d1]
      simp only
      rw [r1, bind_ok]
      simp only
      rw [i1, bind_ok]
    · have := carries_append _ _ _ _ 0 0 r3 i3
      rw [List.take_add, List.drop_drop, hd, ← List.append_assoc, ← d2, List.take_append_of_le_length r2]
      exact this
    · rw [i4]; congr 1; omega
    · intro hl
      cases rounds with
      | nil =>
        have hf : flush = true := by simpa using hl
        have := r4 hf
        simp only [List.map_nil, List.flatten_nil, List.length_nil] at hlen
        have hle : before ≤ all.length := by
          rcases Nat.lt_or_ge all.length before with h | h
          · have : 0 < a.data.length := List.length_pos_iff.2 a2
            omega
          · exact h
        omega
      | cons x xs =>
        rw [List.getLast?_cons_cons] at hl
        have := i5 hl
        omega

/-! ## Concrete cases -/

/-- A little-endian host, ten samples per second. -/
def packers0 : Packers := ⟨id, everyTenth, rates0 false, fun _ => none, false, List.replicate 128 0⟩

/-- A segment of integers at ten samples per second. -/
def segment (start : Int) (data : List Int) : Seg Nat :=
  { start, stop := start + (data.length - 1) * 100000000, rate := 0x4024000000000000, samplecnt := data.length,
    sampletype := 'i', data, records := [] }

/-- A record with integers at ten samples per second. -/
def arrival (start : Int) (data : List Int) : Arrival Nat :=
  { sid := [88], pub := 1, start, stop := start + (data.length - 1) * 100000000, period := 100000000,
    tol := 50000000, rate := 0x4024000000000000, samplecnt := data.length, sampletype := 'i', data }

theorem segment_packable (data : List Int) (h1 : 1 ≤ data.length) (h2 : data.length < 1000)
    (h3 : ∀ x ∈ data, isInt32 x) :
    Packable3 packers0 (recordOf 128 11 [123, 125] [88] 1 (segment 1325376000000000005 data)) := by
  have h0 : Packable id (recordOf 128 11 [123, 125] [88] 1 (segment 1325376000000000005 [])) := by
    constructor <;> decide +kernel
  have hp : Packable id (recordOf 128 11 [123, 125] [88] 1 (segment 1325376000000000005 data)) :=
    ⟨h0.flags, h0.pubversion, h0.rate, h0.sid, h0.sidText, h0.extra, h0.reclen, h0.time, h0.time1678, h0.noError⟩
  refine ⟨fun _ => ⟨hp, ?_, ?_, ?_, ?_, ?_, ?_⟩, hp, ?_, ?_, ?_⟩
  · show (128 : Int) < 0 → (128 : Int) = -1
    decide
  · show ∀ b ∈ ([123, 125] : List UInt8), b ≠ 0
    decide
  · exact h1
  · show data.length < _
    omega
  · exact h3
  · intro k _ hk
    have hk : k < data.length := hk
    refine ⟨_, rfl, ?_⟩
    constructor
    · show Spec.InInt64 (1325376000000000005 + (k : Int) * 100000000)
      unfold Spec.InInt64; omega
    · show (Spec.Fields.mk 1678 1 0 0 0 0).instant ≤ 1325376000000000005 + (k : Int) * 100000000
      have : (Spec.Fields.mk 1678 1 0 0 0 0).instant = -9214560000000000000 := by decide +kernel
      omega
    · show 1325376000000000005 + (k : Int) * 100000000 ≠ NSTERROR
      unfold NSTERROR; omega
  · show (128 : Int) < 0 → (128 : Int) = -1
    decide
  · show 40 + 1 + 2 ≤ 128
    decide
  · show 128 - 40 ≤ (List.replicate 128 (0 : UInt8)).length
    decide +kernel

theorem segment_encodable (data : List Int) (h : ∀ d ∈ steps (.ints data), -536870912 ≤ d ∧ d ≤ 536870911) :
    Encodable (recordOf 128 11 [123, 125] [88] 1 (segment 1325376000000000005 data)) := by
  refine ⟨?_, ?_, ?_, fun _ => h⟩
  · show 40 + 1 + 2 ≤ 128
    decide
  · show 64 ≤ 128 - (40 + 1 + 2)
    decide
  · intro h
    have : (11 : Nat) = 10 := h
    omega

/-- The hypotheses of C91, C92 and C93 can be met: two segments. -/
example : ∀ tr ∈ [({ sid := [88], pub := 1, segs := [segment 1325376000000000005 [1, -2, 70000],
      segment 1325376000000000005 [4, 5]] } : Trace)], ∀ s ∈ tr.segs, Known s.sampletype ∧ s.data ≠ [] ∧
    Packable3 packers0 (recordOf 128 11 [123, 125] tr.sid tr.pub s) ∧
    Encodable (recordOf 128 11 [123, 125] tr.sid tr.pub s) := by
  intro tr htr s hs
  rw [List.mem_singleton] at htr
  subst htr
  simp only [List.mem_cons, List.not_mem_nil, or_false] at hs
  rcases hs with rfl | rfl
  · exact ⟨by decide, by decide, segment_packable _ (by decide) (by decide) (by decide),
      segment_encodable _ (by decide)⟩
  · exact ⟨by decide, by decide, segment_packable _ (by decide) (by decide) (by decide),
      segment_encodable _ (by decide)⟩

/-- The hypotheses of `C92_emptied_violated` can be met. -/
example : Packable3 packers0 (recordOf 128 11 [123, 125] [88] 1 (segment 1325376000000000005 [])) := by
  refine ⟨fun h => absurd rfl h, ?_, by decide, by decide, by decide +kernel⟩
  constructor <;> decide +kernel

/-- The samples of `thirty`. -/
def thirtySegment : Seg Nat :=
  { start := 1325376000000050000, stop := 1325376000003675000, rate := 0x40BF400000000000, samplecnt := 30,
    sampletype := 'i', data := (List.replicate 15 [0, 100000]).flatten, records := [] }

/-- The hypotheses of the version 2 theorems can be met. -/
example : Known thirtySegment.sampletype ∧ thirtySegment.data ≠ [] ∧
    Packable2 { packers0 with sampletime := every125 } (recordOf 128 10 [] sid0 3 thirtySegment)
      [88, 88] [65, 78, 77, 79] [48, 48] 66 72 90 (head30 50000 false 7) ∧
    Encodable2 (recordOf 128 10 [] sid0 3 thirtySegment) (head30 50000 false 7) := by
  have i := thirty_input
  refine ⟨by decide, by decide, ⟨⟨i.names, i.exponent, i.reclen, i.default, i.start, i.time, i.factors, i.factor,
    i.multiplier, i.poor, i.float, i.extra, i.correction, i.times, i.stores, i.more, i.fits⟩, fun _ => ⟨thirty_some.some, thirty_some.few,
    thirty_some.fits⟩, ⟨Or.inl (Or.inl rfl), fun _ => Or.inl ⟨rfl, fun h => nomatch h⟩⟩, by decide +kernel⟩,
    ⟨fun _ h => (nomatch h), fun h => absurd rfl h, Or.inl (by decide), fun _ => by decide +kernel, fun h => (nomatch h)⟩⟩

/-- The hypotheses of C94 can be met. -/
example : ∃ ok, Buffered packers0 128 11 [123, 125] [88] 1 ok (segment 1325376000000000005 [1]) [1, 2, 3, 4] ∧
    ok 4 (segment 1325376000000000005 [1]).start ∧
    ∀ a ∈ [(arrival 1325376000100000005 [2, 3], true), (arrival 1325376000300000005 [4], false)],
      a.1.sampletype = 'i' ∧ a.1.data ≠ [] ∧ ok 4 a.1.stop := by
  refine ⟨fun n t => n ≤ 4 ∧ 1325376000000000000 ≤ t ∧ t + n * 100000000 ≤ 1325376001000000005, ?_, by decide,
    by decide⟩
  have hb := segment_packable [1] (by decide) (by decide) (by decide)
  refine ⟨by decide, by decide, ⟨?_, ?_, ?_⟩, hb.packable, by decide, by decide, by decide +kernel, ?_, ?_⟩
  · rintro n t ⟨h1, h2, h3⟩
    constructor
    · unfold Spec.InInt64; omega
    · have : (Spec.Fields.mk 1678 1 0 0 0 0).instant = -9214560000000000000 := by decide +kernel
      omega
    · unfold NSTERROR; omega
  · rintro n t k ⟨h1, h2, h3⟩ h4 h5
    refine ⟨_, rfl, ?_⟩
    omega
  · rintro n m t ⟨h1, h2, h3⟩ h4
    omega
  · show ∀ x ∈ [1, 2, 3, 4], isInt32 x
    decide
  · have h := segment_encodable [1, 2, 3, 4] (by decide)
    exact ⟨h.header, h.room, h.steim1, h.steim2⟩

/-- The totals, for examples. -/
def totalOf : Res (List Trace × Total) → Option Total
  | .ok (_, t) => some t
  | _ => none

theorem totalOf_some {x : Res (List Trace × Total)} {t : Total} (h : totalOf x = some t) :
    ∃ traces, x = .ok (traces, t) := by
  cases x with
  | ok p => cases h; exact ⟨p.1, rfl⟩
  | _ => cases h

/-- The second segment cannot be packed, its difference being too large for Steim-2. -/
def twoSegments : List Trace :=
  [{ sid := [88], pub := 1, segs :=
      [segment 1325376000000000005 [1, 2, 3], segment 1325376900000000005 [0, 2147483647]] }]

/-- **C93 (violated).** The result is 0, although the packing of the second segment has failed and a record has
been made of the first. -/
theorem C93_error_violated : ∃ traces r,
    packSeg packers0 false true 128 11 [] [88] 1 (segment 1325376900000000005 [0, 2147483647]) =
      .ok { records := [], packed := 0, ret := -1 } ∧
    mstlPack packers0 false true false 128 11 [] twoSegments =
      .ok (traces, { records := [r], ret := 0, packed := 3 }) := by
  have h : totalOf (mstlPack packers0 false true false 128 11 [] twoSegments) =
      some { records := [((totalOf (mstlPack packers0 false true false 128 11 [] twoSegments)).map
        (·.records.headD [])).getD []], ret := 0, packed := 3 } := by decide +kernel
  obtain ⟨tr, h⟩ := totalOf_some h
  exact ⟨tr, _, by decide +kernel, h⟩

/-- The records of a buffer, for examples. -/
def bufferRecords : Res (Seg Nat × List (List UInt8)) → Option (List (List UInt8))
  | .ok (_, rs) => some rs
  | _ => none

theorem bufferRecords_some {x : Res (Seg Nat × List (List UInt8))} {rs : List (List UInt8)}
    (h : bufferRecords x = some rs) : ∃ s, x = .ok (s, rs) := by
  cases x with
  | ok p => cases h; exact ⟨p.1, rfl⟩
  | _ => cases h

/-- A buffer of one sample to which five are appended, with flush after two and at the end. -/
def buffer6 : Res (Seg Nat × List (List UInt8)) :=
  rolling packers0 128 11 [] [88] 1 [(arrival 1325376000100000005 [2, 3], true),
    (arrival 1325376000300000005 [4, 5, 6], true)] (segment 1325376000000000005 [1])

/-- The last record of `buffer6`. -/
def last6 : List UInt8 := ((bufferRecords buffer6).getD []).getD 1 []

/-- The description read, for examples. -/
def readOf3 (r : List UInt8) : Msr :=
  match unpack3 false 0 r r.length true true with
  | .ok (.record m, _) => m
  | _ => {}

/-- **C94 (violated, times).** Samples appended after a flush get the time of the last sample packed before: the
last record of this buffer, with the samples of the second arrival, begins one sample too early. -/
theorem C94_start_time_violated : ∃ s' r1 r2 m', buffer6 = .ok (s', [r1, r2]) ∧
    unpack3 false 0 r2 r2.length true true = .ok (.record m', r2) ∧ m'.samples = .ints [4, 5, 6] ∧
    m'.starttime = (arrival 1325376000300000005 [4, 5, 6]).start - 100000000 := by
  have h : bufferRecords buffer6 = some [((bufferRecords buffer6).getD []).getD 0 [], last6] := by decide +kernel
  obtain ⟨s', h⟩ := bufferRecords_some h
  refine ⟨s', _, _, readOf3 last6, h, ?_⟩
  decide +kernel

end Verif.Props.TracePack
