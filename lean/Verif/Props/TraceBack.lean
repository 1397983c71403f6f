import Verif.Proof.TraceBack
import Verif.Props.TracePack
import Verif.Props.ReadTrace
/-!
# Writing and reading trace lists: C102
-/
namespace Verif.Props.TraceBack
open Verif.Model Verif.Model.Steim Verif.Model.Samples Verif.Model.Record3 Verif.Model.TracePack
  Verif.Model.Reader
open Verif.Model.ReadTrace
open Verif.Model.Trace (Seg Source Arrival)
open Verif.Model.TraceList (TraceList)
open Verif.Spec (Rounding)
open Verif.Spec.Leap (HasPeriod)
open Verif.Props.TracePack Verif.Props.Trace Verif.Props.TraceList Verif.Props.SampleTime Verif.Props.ReadTrace
  Verif.Props.Reader
open Verif.Proof.Mem Verif.Proof.Reader Verif.Proof.ReadTrace Verif.Proof.TraceBack

section
variable (c : Packers) (ad : Adding) (hr : Rounding ad.rnd) (ht : ad.timetol = none) (htol : ad.ratetol ≤ 0)
  (hb : ad.hostBE = false) (split maintain keep : Bool) (reclen encoding : Int) (extra : List UInt8)
  (T : List UInt8 → Char) (traces : List Trace)
include hr ht htol

/-- The records of the list, and the list that is made of them. -/
theorem packed_back (env : Record2.Env) (base : Nat) (skip : Bool) (hx : extra.length ≤ 65535)
    (hw : ∀ tr ∈ traces, Written c ad split reclen encoding extra T tr) (hord : traces.Pairwise (Ahead split))
    (seed : Nat) :
    ∃ traces' t its as tl, mstlPack c false true maintain reclen encoding extra traces = .ok (traces', t) ∧
      t.ret = t.records.length ∧ InBuffer ad (opts env false base true true skip none) t.records its as ∧
      AddedAll ad split keep { TraceList.init with prng := seed } (its.map (·.m')) tl ∧ SameList c ad traces tl := by
  obtain ⟨traces', t, gss, h1, h2, h3, h4, -⟩ := C91_all_packed_partial c maintain reclen encoding extra traces hx
    fun tr htr s hs => (hw tr htr).packed s hs
  obtain ⟨its, asss, h5, h6⟩ := list_back env base skip hr ht traces gss hw h2
  have hty := all_typed hw h6
  obtain ⟨tl, h7, h8⟩ := added_all (keep := keep) (its.map (·.m')) asss.flatten.flatten h5.adds []
    { TraceList.init with prng := seed } (Listed.init (split := split) seed)
    (fun hs => ⟨by simp, fun a ha => (hty a ha).2.1 hs⟩) (by simp) (fun a ha => (hty a ha).2.2)
  rw [List.nil_append] at h8
  rw [← h3] at h5
  exact ⟨traces', t, its, _, tl, h1, h4, h5, h7, same_list hr htol hw hord h6 h8⟩

include hb

/-- **C102** (buffer, part).  A trace list packed with flush into version 3 records, and the records read from
a buffer into an empty list, gives the same list: the same sources in the same order with their identifiers
and versions, each with the same segments: times, number, type and values of the samples are the same, the
rate is the one stored.  The number of records packed is returned by both.  With or without splitting
versions and record lists.

Missing: segments of more than 2^49 nanoseconds, with a leap second or a period that is not a whole number of
nanoseconds (C09 does not give exact times), overlapping or closer than one and a half periods, or of
different rates; identifiers with different sample types; what cannot be packed (C91). -/
theorem C102_buffer_partial (env : Record2.Env) (base : Nat) (skip eof : Bool) (hx : extra.length ≤ 65535)
    (hw : ∀ tr ∈ traces, Written c ad split reclen encoding extra T tr) (hord : traces.Pairwise (Ahead split))
    (seed : Nat) :
    ∃ traces' t tl, mstlPack c false true maintain reclen encoding extra traces = .ok (traces', t) ∧
      t.ret = t.records.length ∧
      readBuffer ad (opts env false base true true skip none) split keep eof t.records.flatten
        { TraceList.init with prng := seed } = .ok (.count t.records.length, tl) ∧
      SameList c ad traces tl := by
  obtain ⟨traces', t, its, as, tl, h1, h2, h3, h4, h5⟩ := packed_back c ad hr ht htol split maintain keep reclen
    encoding extra T traces env base skip hx hw hord seed
  refine ⟨traces', t, tl, h1, h2, ?_, h5⟩
  have hf : (its.filter fun i => chosen (opts env false base true true skip none) i.m) = its :=
    List.filter_eq_self.2 fun i _ => rfl
  have := readBuffer_items (c := ad) (o := opts env false base true true skip none) (split := split) (keep := keep)
    (eof := eof) (tail := []) (Or.inl (by simp)) its (fun i hi => by
      obtain ⟨a1, a2, a3, a4⟩ := h3.fine i hi
      exact ⟨a1, a2, good_zero a3, fun _ => by rw [hb]; exact a4⟩) { TraceList.init with prng := seed } tl
      (by rw [hf]; exact h4)
  rw [hf, h3.count, h3.bytes, List.append_nil] at this
  exact this

/-- **C102** (file, part).  The same for the records in a file, read by `ms3_readtracelist`.  `MS_NOERROR` is
returned if the list has sources. -/
theorem C102_file_partial (env : Record2.Env) (base : Nat) (skip : Bool) (hx : extra.length ≤ 65535)
    (hw : ∀ tr ∈ traces, Written c ad split reclen encoding extra T tr) (hord : traces.Pairwise (Ahead split))
    (hne : traces ≠ []) (seed : Nat) :
    ∃ traces' t tl, mstlPack c false true maintain reclen encoding extra traces = .ok (traces', t) ∧
      t.ret = t.records.length ∧
      readTraceList ad (opts env false base true true skip none) split keep (opened t.records.flatten 0 0)
        { TraceList.init with prng := seed } = .ok (.count 0, tl) ∧
      SameList c ad traces tl := by
  obtain ⟨traces', t, its, as, tl, h1, h2, h3, h4, h5⟩ := packed_back c ad hr ht htol split maintain keep reclen
    encoding extra T traces env base skip hx hw hord seed
  refine ⟨traces', t, tl, h1, h2, ?_, h5⟩
  have hits : its ≠ [] := by
    rintro rfl
    have he : ({ TraceList.init with prng := seed } : TraceList Rat) = tl := by cases h4; rfl
    subst he
    obtain ⟨l, hwalk, he⟩ := h5
    have hl : l = [] := List.eq_nil_of_length_eq_zero hwalk.count.symm
    subst hl
    cases traces with
    | nil => exact hne rfl
    | cons tr traces => exact he
  have hmap : ∀ (pos : Int) (its : List Item),
      (expectedBytes pos (items (opts env false base true true skip none) its)).map (fun x => (x.2.1, x.2.2)) =
        its.map fun i => (i.m', i.b) := by
    intro pos its
    induction its generalizing pos with
    | nil => rfl
    | cons i its ih =>
      show (expectedBytes pos ((i.j, i.b, true, i.m') :: items (opts env false base true true skip none) its)).map _ = _
      rw [expectedBytes, if_pos rfl, List.map_cons, ih]
      rfl
  have htakes := file_takes (opts_ends env false base true true skip none)
    (tail_short (opts env false base true true skip none) [] (d := 1) (Or.inr (Nat.one_dvd _)) (by simp)) its
    (fun i hi => ⟨(h3.fine i hi).2.2.1, Or.inl (h3.fine i hi).1⟩) (Or.inr (Nat.one_dvd _))
  rw [List.append_nil, h3.bytes] at htakes
  have hlen : (expectedBytes 0 (items (opts env false base true true skip none) its)).length = its.length := by
    have := congrArg List.length (hmap 0 its)
    simpa using this
  have hms : (expectedBytes 0 (items (opts env false base true true skip none) its)).map (·.2.1) =
      its.map (·.m') := by
    have := congrArg (List.map Prod.fst) (hmap 0 its)
    simpa [List.map_map, Function.comp_def] using this
  have hcl := cat_length its fun i hi => by have := (h3.fine i hi).2.1; omega
  unfold readTraceList
  rw [fileLoop_takes htakes (by
    intro _ x hx
    have hm : (x.2.1, x.2.2) ∈ its.map fun i => (i.m', i.b) := by
      rw [← hmap 0 its]; exact List.mem_map.2 ⟨x, hx, rfl⟩
    obtain ⟨i, hi, e⟩ := List.mem_map.1 hm
    injection e with e1 e2
    rw [← e1, ← e2, hb]
    exact (h3.fine i hi).2.2.2) _ (by
      rw [hlen]
      show _ < (t.records.flatten.drop 0).length + 0 + 1
      rw [List.drop_zero, ← h3.bytes]
      omega) _ tl (by rw [hms]; exact h4)]
  rw [hlen]
  unfold code
  rw [if_neg (by intro hz; exact hits (List.eq_nil_of_length_eq_zero hz))]
  rfl

end

/-- **C102** (rate).  For rates of 1 Hertz and above the rate read is the rate written. -/
theorem C102_rate (c : Packers) (ad : Adding) (s : Seg Nat) (s' : Seg Rat) (h : SameSeg c ad s s')
    (h1 : 0x3FF0000000000000 ≤ s.rate) (h2 : 0 ≤ ad.rate s.rate) : s'.rate = ad.rate s.rate := by
  have he : storedRate c.negRecip s.rate = s.rate := by
    unfold storedRate
    rw [if_neg (by omega)]
  rw [h.rate, he, if_neg (by grind)]

/-! ## An example -/

/-- Ten samples per second, whatever the record says, in exact arithmetic and without leap seconds. -/
def exact10 : Adding := { rnd := fun x => x, leaps := [], rate := fun _ => 10 }

/-- The packer of the same library. -/
def packers10 : Packers :=
  { packers0 with sampletime := fun t k b => SampleTime.sampletime exact10.rnd exact10.leaps t k (exact10.rate b) }

theorem ten : HasPeriod 100000000 10 := by refine .inl ?_; decide +kernel

theorem time10 (start : Int) (h0 : 1000000000000000000 ≤ start) (h1 : start ≤ 2000000000000000000) (k : Nat)
    (hk : k < 1000) (b : Nat) : packers10.sampletime start k b = .ok (start + (k : Int) * 100000000) :=
  C09_exact Spec.rounding_id [] start k 100000000 10 (by omega) ten (by omega) (by omega) (by omega)
    (by intro l hl; cases hl)

theorem packable10 (extra : List UInt8) (he : extra.length ≤ 2) (hz : ∀ b ∈ extra, b ≠ 0) (sid : List UInt8) (hs : sid.length ≤ 8) (hs' : ∀ b ∈ sid, b ≠ 0) (pub : Nat) (hp : pub < 256)
    (start : Int) (h0 : 1000000000000000000 ≤ start) (h1 : start ≤ 2000000000000000000) (data : List Int)
    (h2 : 1 ≤ data.length) (h3 : data.length < 1000) (h4 : ∀ x ∈ data, Spec.Steim.isInt32 x) :
    Packable3 packers10 (recordOf 128 11 extra sid pub (segment start data)) := by
  have hp : Record3.Packable id (recordOf 128 11 extra sid pub (segment start data)) := by
    refine ⟨show (0 : Nat) < 256 by decide, hp, show storedRate id 0x4024000000000000 < 18446744073709551616 by decide +kernel,
      by show sid.length ≤ 63; omega, hs', by show extra.length < 65536; omega,
      show (128 : Int) < 0 ∨ 40 ≤ (128 : Int) ∧ (128 : Int) ≤ 10485760 by decide, ?_, ?_, ?_⟩
    · show Spec.InInt64 start
      unfold Spec.InInt64; omega
    · show (Spec.Fields.mk 1678 1 0 0 0 0).instant ≤ start
      have : (Spec.Fields.mk 1678 1 0 0 0 0).instant = -9214560000000000000 := by decide +kernel
      omega
    · show start ≠ NSTERROR
      unfold NSTERROR; omega
  refine ⟨fun _ => ⟨hp, ?_, ?_, h2, ?_, h4, ?_⟩, hp, ?_, ?_, ?_⟩
  · show (128 : Int) < 0 → (128 : Int) = -1
    decide
  · exact hz
  · show data.length < _
    omega
  · intro k _ hk
    have hk : k < data.length := hk
    refine ⟨_, time10 start h0 h1 k (by omega) _, ?_, ?_, ?_⟩
    · unfold Spec.InInt64; omega
    · have : (Spec.Fields.mk 1678 1 0 0 0 0).instant = -9214560000000000000 := by decide +kernel
      omega
    · unfold NSTERROR; omega
  · show (128 : Int) < 0 → (128 : Int) = -1
    decide
  · show 40 + sid.length + extra.length ≤ 128
    omega
  · show (packReclen 128).toNat - 40 ≤ packers0.junk.length
    decide +kernel

theorem regular10 (start : Int) (h0 : 1000000000000000000 ≤ start) (h1 : start ≤ 2000000000000000000)
    (data : List Int) (h2 : 1 ≤ data.length) (h3 : data.length < 1000) :
    Regular packers10 exact10 100000000 (segment start data) := by
  refine ⟨by decide, ten, ten, rfl, rfl, ?_, ?_, ?_, fun k => rfl, ?_⟩
  · show data.length * 100000000 ≤ 2 ^ 49
    omega
  · show start + ((data.length : Int) - 1) * 100000000 ≤ 9223372036854775807
    omega
  · intro l hl; cases hl
  · intro x _
    exact ⟨fun h => absurd (show 'i' = 't' from h) (by decide),
      fun h => absurd (show 'i' = 'f' ∨ 'i' = 'd' from h) (by decide)⟩

/-- Two sources, the first with a gap after three samples. -/
def twoSources : List Trace :=
  [{ sid := [88], pub := 1, segs := [segment 1325376000000000005 [1, -2, 70000], segment 1325376001000000005 [4, 5]] },
   { sid := [88, 89], pub := 2, segs := [segment 1325376000000000005 [7]] }]

theorem encodable10 (extra : List UInt8) (he : extra.length ≤ 2) (sid : List UInt8) (hs : sid.length ≤ 8) (pub : Nat) (start : Int) (data : List Int)
    (h : ∀ d ∈ Pack.steps (.ints data), -536870912 ≤ d ∧ d ≤ 536870911) :
    Pack.Encodable (recordOf 128 11 extra sid pub (segment start data)) := by
  refine ⟨?_, ?_, ?_, fun _ => h⟩
  · show 40 + sid.length + extra.length ≤ 128
    omega
  · show 64 ≤ 128 - (40 + sid.length + extra.length)
    omega
  · intro h
    have : (11 : Nat) = 10 := h
    omega

theorem twoSources_written (extra : List UInt8) (he : extra.length ≤ 2) (hz : ∀ b ∈ extra, b ≠ 0) :
    (∀ tr ∈ twoSources, Written packers10 exact10 true 128 11 extra (fun _ => 'i') tr) ∧
    twoSources.Pairwise (Ahead true) ∧ Rounding exact10.rnd ∧ exact10.ratetol ≤ 0 := by
  refine ⟨?_, ?_, Spec.rounding_id, by decide +kernel⟩
  · intro tr htr
    simp only [twoSources, List.mem_cons, List.not_mem_nil, or_false] at htr
    rcases htr with rfl | rfl
    · refine ⟨by simp, by simp, ?_, ?_, ?_, 100000000, ?_, ?_⟩
      · intro s hs t ht
        simp only [List.mem_cons, List.not_mem_nil, or_false] at hs ht
        rcases hs with rfl | rfl <;> rcases ht with rfl | rfl <;> rfl
      · intro s hs
        simp only [List.mem_cons, List.not_mem_nil, or_false] at hs
        rcases hs with rfl | rfl <;> rfl
      · intro s hs
        simp only [List.mem_cons, List.not_mem_nil, or_false] at hs
        rcases hs with rfl | rfl
        · exact ⟨by decide, by decide, packable10 extra he hz _ (by decide) (by decide) _ (by decide) _ (by decide) (by decide) _
            (by decide) (by decide) (by decide), encodable10 extra he _ (by decide) _ _ _ (by decide)⟩
        · exact ⟨by decide, by decide, packable10 extra he hz _ (by decide) (by decide) _ (by decide) _ (by decide) (by decide) _
            (by decide) (by decide) (by decide), encodable10 extra he _ (by decide) _ _ _ (by decide)⟩
      · intro s hs
        simp only [List.mem_cons, List.not_mem_nil, or_false] at hs
        rcases hs with rfl | rfl
        · exact regular10 _ (by decide) (by decide) _ (by decide) (by decide)
        · exact regular10 _ (by decide) (by decide) _ (by decide) (by decide)
      · exact ⟨by decide, trivial⟩
    · refine ⟨by simp, by simp, ?_, ?_, ?_, 100000000, ?_, trivial⟩
      · intro s hs t ht
        simp only [List.mem_cons, List.not_mem_nil, or_false] at hs ht
        rw [hs, ht]
      · intro s hs
        simp only [List.mem_cons, List.not_mem_nil, or_false] at hs
        rw [hs]; rfl
      · intro s hs
        simp only [List.mem_cons, List.not_mem_nil, or_false] at hs
        subst hs
        exact ⟨by decide, by decide, packable10 extra he hz _ (by decide) (by decide) _ (by decide) _ (by decide) (by decide) _
            (by decide) (by decide) (by decide), encodable10 extra he _ (by decide) _ _ _ (by decide)⟩
      · intro s hs
        simp only [List.mem_cons, List.not_mem_nil, or_false] at hs
        subst hs
        exact regular10 _ (by decide) (by decide) _ (by decide) (by decide)
  · unfold twoSources Ahead
    decide

/-- The hypotheses of C102 can be met. -/
example : (∀ tr ∈ twoSources, Written packers10 exact10 true 128 11 [123, 125] (fun _ => 'i') tr) ∧
    twoSources.Pairwise (Ahead true) ∧ Rounding exact10.rnd ∧ exact10.ratetol ≤ 0 :=
  twoSources_written _ (by decide) (by decide)

end Verif.Props.TraceBack
