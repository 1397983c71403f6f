import Verif.Proof.WriteFile
import Verif.Props.WriteFileDefs
import Verif.Props.TraceBack
import Verif.Props.Reader
/-!
# Writing files: C118
-/
namespace Verif.Props.WriteFile
open Verif.Model Verif.Model.Steim Verif.Model.Samples Verif.Model.Record3 Verif.Model.TracePack Verif.Model.WriteFile
  Verif.Model.Pack Verif.Model.Reader
open Verif.Model.ReadTrace
open Verif.Model.TraceList (TraceList)
open Verif.Spec (Rounding)
open Verif.Props.Reader Verif.Props.TraceBack Verif.Props.Pack
open Verif.Proof.Mem Verif.Proof.Reader Verif.Proof.WriteFile

theorem open_file {d : Disk} {path : List UInt8} (overwrite : Bool) (hp : path ≠ [45]) (ho : d.opens path = true) :
    standard path = false ∧ d.open path overwrite = .ok (some
      { d with files := fun p => if p = path then some (before d path overwrite) else d.files p }) := by
  have hs : standard path = false := by unfold standard; simpa using hp
  refine ⟨hs, ?_⟩
  unfold Disk.open
  rw [hs, ho]
  simp only [Bool.false_eq_true, if_false, if_true]
  congr 3
  funext p
  unfold before
  split
  · next e => rw [e]
  · rfl

/-- What is in the file after the records have been written, as long as there is room. -/
theorem written {d : Disk} {path : List UInt8} {overwrite : Bool} {rs : List (List UInt8)} {d1 d' : Disk} (hs : standard path = false)
    (hd : d1 = { d with files := fun p => if p = path then some (before d path overwrite) else d.files p })
    (h : d' = (d1.putAll path rs).close path) :
    Leaves path d d' ∧ d'.opens = d.opens ∧ (d.room = none → d'.room = none ∧ d'.files path = some (before d path overwrite ++ rs.flatten)) := by
  have hc : d' = d1.putAll path rs := by
    rw [h]; unfold Disk.close; rw [hs]; rfl
  obtain ⟨h1, h2, h3, h4⟩ := putAll_others hs rs d1
  rw [← hc] at h1 h2 h3 h4
  refine ⟨⟨fun p hne => ?_, h2.trans (by rw [hd]), h3.trans (by rw [hd])⟩, h4.trans (by rw [hd]), ?_⟩
  · rw [h1 p hne, hd]
    exact if_neg hne
  · intro hr
    have := putAll_room hs rs d1 (before d path overwrite) (by rw [hd]; exact hr) (by rw [hd]; exact if_pos rfl)
    rw [hc, this]
    exact ⟨by rw [hd]; exact hr, if_pos rfl⟩

/-- **C118** (contents).  Whatever list is written, to a file that can be opened and has room: the file has what it had
(nothing if it is overwritten) and behind it the records that packing all data of the list makes, in order; the result is
that of packing; the list stays as it is, and so do all other files and the standard output. -/
theorem C118_list_contents (c : Packers) (d : Disk) (traces traces' : List TracePack.Trace) (path : List UInt8) (overwrite : Bool)
    (reclen encoding : Int) (ver2 : Bool) (hp : path ≠ [45]) (ho : d.opens path = true) (n : Int) (d' : Disk)
    (h : mstlWrite c d traces path overwrite reclen encoding ver2 = .ok (n, traces', d')) :
    traces' = traces ∧ Leaves path d d' ∧
      ∃ t, mstlPack c ver2 true true reclen encoding [] traces = .ok (traces, t) ∧ n = t.ret ∧
        (d.room = none → d'.files path = some (before d path overwrite ++ t.records.flatten)) := by
  obtain ⟨hs, h1⟩ := open_file overwrite hp ho
  unfold mstlWrite at h
  rw [h1, bind_ok] at h
  obtain ⟨⟨l, t⟩, h2, h3⟩ := bind_eq_ok.1 h
  have h3 := Res.ok.inj h3
  simp only [Prod.mk.injEq] at h3
  obtain ⟨h4, h5, h6⟩ := h3
  have hl := mstlPack_same h2
  obtain ⟨k1, -, k2⟩ := written hs rfl h6.symm
  refine ⟨h5.symm.trans hl, k1, t, ?_, h4.symm, fun hr => (k2 hr).2⟩
  rw [h2, hl]

/-- The same for a record. -/
theorem C118_record_contents (c : Packers) (d : Disk) (m : Msr) (path : List UInt8) (overwrite flush ver2 : Bool)
    (hp : path ≠ [45]) (ho : d.opens path = true) (n : Int) (d' : Disk)
    (h : msrWrite c d m path overwrite flush ver2 = .ok (n, d')) :
    Leaves path d d' ∧ ∃ p, callPack c (ver2 || m.formatversion == 2) flush m = .ok p ∧ n = p.ret ∧
      (d.room = none → d'.files path = some (before d path overwrite ++ p.records.flatten)) := by
  obtain ⟨hs, h1⟩ := open_file overwrite hp ho
  unfold msrWrite at h
  rw [h1, bind_ok] at h
  obtain ⟨p, h2, h3⟩ := bind_eq_ok.1 h
  have h3 := Res.ok.inj h3
  simp only [Prod.mk.injEq] at h3
  obtain ⟨k1, -, k2⟩ := written hs rfl h3.2.symm
  exact ⟨k1, p, h2, h3.1.symm, fun hr => (k2 hr).2⟩

/-- **C118** (refused).  If the file cannot be opened -1 is returned, and nothing changes. -/
theorem C118_refused (c : Packers) (d : Disk) (traces : List TracePack.Trace) (m : Msr) (path : List UInt8)
    (overwrite flush ver2 : Bool) (reclen encoding : Int) (hp : path ≠ [45]) (ho : d.opens path = false) :
    mstlWrite c d traces path overwrite reclen encoding ver2 = .ok (-1, traces, d) ∧
      msrWrite c d m path overwrite flush ver2 = .ok (-1, d) := by
  have h1 : d.open path overwrite = .ok none := by
    unfold Disk.open standard
    rw [if_neg (by simpa using hp), ho]
    rfl
  unfold mstlWrite msrWrite
  rw [h1, bind_ok, bind_ok]
  exact ⟨rfl, rfl⟩

/-- **C118** (read back, part).  A list written to a file that is new or overwritten, then read by `ms3_readtracelist` into an
empty list, is the same list; the number of records is returned.  Missing: as for C102. -/
theorem C118_list_back_partial (c : Packers) (ad : Adding) (hr : Rounding ad.rnd) (ht : ad.timetol = none) (htol : ad.ratetol ≤ 0)
    (hb : ad.hostBE = false) (split keep : Bool) (reclen encoding : Int) (T : List UInt8 → Char) (traces : List TracePack.Trace)
    (env : Record2.Env) (base : Nat) (skip : Bool)
    (hw : ∀ tr ∈ traces, Written c ad split reclen encoding [] T tr) (hord : traces.Pairwise (Ahead split))
    (hne : traces ≠ []) (seed : Nat) (d : Disk) (path : List UInt8) (overwrite : Bool) (hp : path ≠ [45])
    (ho : d.opens path = true) (hroom : d.room = none) (hnew : before d path overwrite = []) :
    ∃ (rs : List (List UInt8)) (d' : Disk) (tl : TraceList Rat),
      mstlWrite c d traces path overwrite reclen encoding false = .ok ((rs.length : Int), traces, d') ∧
      d'.files path = some rs.flatten ∧ Leaves path d d' ∧
      readTraceList ad (opts env false base true true skip none) split keep (opened rs.flatten 0 0)
        { TraceList.init with prng := seed } = .ok (.count 0, tl) ∧ SameList c ad traces tl := by
  obtain ⟨traces', t, tl, h1, h2, h3, h4⟩ := C102_file_partial c ad hr ht htol hb split true keep reclen encoding [] T traces
    env base skip (by decide) hw hord hne seed
  have hl := mstlPack_same h1
  subst hl
  obtain ⟨hs, h5⟩ := open_file overwrite hp ho
  refine ⟨t.records, (({ d with files := fun p => if p = path then some (before d path overwrite) else d.files p } : Disk).putAll
    path t.records).close path, tl, ?_, ?_, ?_, h3, h4⟩
  · unfold mstlWrite
    rw [h5, bind_ok]
    simp only
    rw [h1, bind_ok, h2]
  · have := ((written (d := d) (overwrite := overwrite) (rs := t.records) hs rfl rfl).2.2 hroom).2
    rw [this, hnew, List.nil_append]
  · exact (written (overwrite := overwrite) hs rfl rfl).1

/-- The items of a series. -/
theorem series_items (env : Record2.Env) (base : Nat) (skip : Bool) (nr : Nat → Nat)
    (sampletime : Int → Nat → Nat → Out Int) (h : Bool) (m : Msr) (junk : List UInt8)
    (i : Input nr sampletime m) (e : Encodable m) (hj : (packReclen m.reclen).toNat - 40 ≤ junk.length) :
    ∃ p l, msrPack nr sampletime h m true junk (m.samples.count + 1) = .ok p ∧ p.ret = l.length ∧
      cat l = p.records.flatten ∧ (∀ x ∈ l, Fine (opts env false base true true skip none) 1 x) ∧
      ∀ pos, Covers m.samples (timeOf sampletime m) 0 (expected pos (items (opts env false base true true skip none) l))
        m.samples.count := by
  obtain ⟨p, h1, h5, h6, h4⟩ := Pack.C31_pack_keeps_samples_partial nr sampletime h m junk i e hj
  rcases Proof.PackRead.packed_records nr sampletime h m true junk i e.header hj with ⟨p', h1', h2, -, h3⟩ | ⟨h1', -⟩
  · rw [h1] at h1'
    have hp := Res.ok.inj h1'
    subst hp
    rw [h5] at h2
    obtain ⟨l, hc, hlen, hf, hcov⟩ := items_divides env base skip m.samples (timeOf sampletime m) _
      (fun a n r hr => by
        intro h2
        obtain ⟨m', w, u⟩ := hr.1 h2
        exact ⟨m', ⟨w.2.1, w.1, w.2.2.1⟩, u⟩) p.records 0 m.samples.count h2
    exact ⟨p, l, h1, h6.trans (by rw [hlen]), hc, hf, hcov⟩
  · rw [h1] at h1'
    cases h1'

/-- Writing a series adds its records to the file. -/
theorem series_written {c : Packers} {d : Disk} {m : Msr} {path : List UInt8} {overwrite : Bool} {p : Packing}
    (hv : m.formatversion ≠ 2) (hp : path ≠ [45]) (ho : d.opens path = true) (hroom : d.room = none)
    (h : msrPack c.negRecip c.sampletime c.hostBE m true c.junk (m.samples.count + 1) = .ok p) :
    ∃ d', msrWrite c d m path overwrite true false = .ok (p.ret, d') ∧ Leaves path d d' ∧ d'.opens = d.opens ∧
      d'.room = none ∧ d'.files path = some (before d path overwrite ++ p.records.flatten) := by
  obtain ⟨hs, h5⟩ := open_file overwrite hp ho
  obtain ⟨k1, k2, k3⟩ := written (d := d) (overwrite := overwrite) (rs := p.records) hs rfl rfl
  refine ⟨_, ?_, k1, k2, k3 hroom⟩
  unfold msrWrite
  rw [h5, bind_ok]
  simp only
  unfold callPack
  rw [if_neg (by simpa using hv), h, bind_ok]

/-- The series that can be written and read back. -/
structure Series (c : Packers) (m : Msr) : Prop where
  version : m.formatversion ≠ 2
  input : Input c.negRecip c.sampletime m
  encodable : Encodable m
  junk : (packReclen m.reclen).toNat - 40 ≤ c.junk.length

theorem expected_append (o : Opts) : ∀ (l1 l2 : List Item) (pos : Int), ∃ pos', expected pos (items o (l1 ++ l2)) =
    expected pos (items o l1) ++ expected pos' (items o l2)
  | [], l2, pos => ⟨pos, rfl⟩
  | x :: l1, l2, pos => by
    obtain ⟨pos', h⟩ := expected_append o l1 l2 (pos + x.j.length + x.b.length)
    refine ⟨pos', ?_⟩
    unfold items at h ⊢
    simp only [List.cons_append, List.map_cons]
    rw [expected, expected]
    split
    · rw [h]; rfl
    · exact h

theorem expected_length {o : Opts} (hc : ∀ m, chosen o m = true) : ∀ (l : List Item) (pos : Int),
    (expected pos (items o l)).length = l.length
  | [], _ => rfl
  | x :: l, pos => by
    unfold items
    simp only [List.map_cons]
    unfold expected
    rw [if_pos (hc _), List.length_cons, List.length_cons]
    exact congrArg (· + 1) (expected_length hc l _)

/-- **C118** (appended).  Series of samples written one after the other to a file with flush, the first replacing what was in
the file: reading the file with unpacking and validation of the CRC returns records that have all samples of all series in
order, each record with the time of its first sample, and then the end of the file.  Each call returns the number of its
records; other files stay. -/
theorem C118_series_back_partial (c : Packers) (env : Record2.Env) (base : Nat) (skip : Bool) (path : List UInt8)
    (hp : path ≠ [45]) (m : Msr) (ms : List Msr) (hs : ∀ x ∈ m :: ms, Series c x) (d : Disk) (ho : d.opens path = true)
    (hroom : d.room = none) :
    ∃ ns d' file l, writeSeries c path true (m :: ms) d = .ok (ns, d') ∧ Leaves path d d' ∧ d'.files path = some file ∧
      Calls (opts env false base true true skip none) (opened file 0 0) l .endOfFile ∧
      CoversAll (timeOf c.sampletime) (m :: ms) l ∧ ns.sum = l.length := by
  have key : ∀ (ms : List Msr), (∀ x ∈ ms, Series c x) → ∀ (d : Disk) (overwrite : Bool), d.opens path = true → d.room = none →
      ∃ ns d' its, writeSeries c path overwrite ms d = .ok (ns, d') ∧ Leaves path d d' ∧
        (ms ≠ [] → d'.files path = some (before d path overwrite ++ cat its)) ∧
        (∀ x ∈ its, Fine (opts env false base true true skip none) 1 x) ∧
        (∀ pos, CoversAll (timeOf c.sampletime) ms (expected pos (items (opts env false base true true skip none) its))) ∧
        ns.sum = its.length ∧ (ms = [] → its = [] ∧ d' = d) := by
    intro ms
    induction ms with
    | nil => exact fun _ d _ _ _ => ⟨[], d, [], rfl, ⟨fun _ _ => rfl, rfl, rfl⟩, fun h => absurd rfl h, by simp,
        fun _ => rfl, rfl, fun _ => ⟨rfl, rfl⟩⟩
    | cons m ms ih =>
      intro hs d overwrite ho hroom
      have s := hs m (List.mem_cons_self ..)
      obtain ⟨p, l, h1, h2, h3, h4, h5⟩ := series_items env base skip c.negRecip c.sampletime c.hostBE m c.junk s.input s.encodable
        s.junk
      obtain ⟨d1, k1, k2, k3, k4, k5⟩ := series_written (overwrite := overwrite) s.version hp ho hroom h1
      obtain ⟨ns, d', its, j1, j2, j3, j4, j5, j6, j7⟩ := ih (fun x hx => hs x (List.mem_cons_of_mem _ hx)) d1 false
        (by rw [k3]; exact ho) k4
      refine ⟨p.ret :: ns, d', l ++ its, ?_, ?_, fun _ => ?_, ?_, ?_, ?_, fun h => absurd h (by simp)⟩
      · unfold writeSeries
        rw [k1, bind_ok]
        simp only
        rw [j1, bind_ok]
      · exact ⟨fun q hq => (j2.files q hq).trans (k2.files q hq), j2.out.trans k2.out, j2.outOpen.trans k2.outOpen⟩
      · have hcat : cat (l ++ its) = cat l ++ cat its := by unfold cat; simp
        by_cases hm : ms = []
        · obtain ⟨e1, e2⟩ := j7 hm
          rw [e2, k5, e1, List.append_nil, h3]
        · rw [j3 hm, hcat, h3, ← List.append_assoc]
          unfold before
          simp only [Bool.false_eq_true, if_false]
          rw [k5]
          rfl
      · intro x hx
        rcases List.mem_append.1 hx with hx | hx
        · exact h4 x hx
        · exact j4 x hx
      · intro pos
        obtain ⟨pos', e⟩ := expected_append (opts env false base true true skip none) l its pos
        exact ⟨_, _, e, h5 pos, j5 pos'⟩
      · rw [List.sum_cons, h2, j6, List.length_append]
        omega
  obtain ⟨ns, d', its, h1, h2, h3, h4, h5, h6, -⟩ := key (m :: ms) hs d true ho hroom
  have hlen := expected_length (o := opts env false base true true skip none) (fun _ => rfl) its 0
  refine ⟨ns, d', cat its, expected 0 (items (opts env false base true true skip none) its), h1, h2, h3 (by simp), ?_, h5 0,
    h6.trans (by rw [hlen])⟩
  have := file_calls (opts_ends env false base true true skip none)
    (tail_short (opts env false base true true skip none) [] (d := 1) (Or.inr (Nat.one_dvd _))
      (by simp)) its h4 (Or.inr (Nat.one_dvd _))
  rw [List.append_nil, code_length] at this
  have hne : expected 0 (items (opts env false base true true skip none) its) ≠ [] := by
    intro hn
    obtain ⟨l1, l2, e, hc, -⟩ := h5 0
    rw [hn] at e
    have e1 : l1 = [] := by cases l1 with
      | nil => rfl
      | cons _ _ => cases e
    subst e1
    have := (hs m (List.mem_cons_self ..)).input.some
    unfold Covers at hc
    omega
  unfold lastCode at this
  rw [if_neg hne] at this
  exact this

/-! ## Examples -/

/-- No files, any file can be written. -/
def blank : Disk := { files := fun _ => none }

/-- The hypotheses of `C118_list_back_partial` can be met. -/
example : (∀ tr ∈ twoSources, Written packers10 exact10 true 128 11 [] (fun _ => 'i') tr) ∧
    twoSources.Pairwise (Ahead true) ∧ Rounding exact10.rnd ∧ exact10.ratetol ≤ 0 ∧ ([97] : List UInt8) ≠ [45] ∧
    blank.opens [97] = true ∧ blank.room = none ∧ before blank [97] false = [] :=
  have h := twoSources_written [] (by decide) (by decide)
  ⟨h.1, h.2.1, h.2.2.1, h.2.2.2, by decide, rfl, rfl, rfl⟩

/-- The hypotheses of `C118_series_back_partial` can be met. -/
example : Series Props.TracePack.packers0 seven :=
  ⟨by decide, seven_input, seven_encodable, by decide +kernel⟩

/-- A file with a byte, to which the seven samples are appended in three records of at most 60 bytes. -/
example : (match msrWrite Props.TracePack.packers0 { blank with files := fun _ => some [9] } seven [97] false true false with
    | .ok (n, d) => n == 3 && ((d.files [97]).map (·.length)) == some 173 && d.files [98] == some [9]
    | _ => false) = true := by decide +kernel

/-- A disk on which a file cannot be opened. -/
example : ({ blank with opens := fun _ => false } : Disk).opens [97] = false := rfl

/-- The outcome of writing, if a check of it succeeds. -/
def passes (f : Disk → Bool) (n : Int) : Res (Int × Disk) → Bool
  | .ok (k, d) => k == n && f d
  | _ => false

theorem passes_ok {f : Disk → Bool} {n : Int} {r : Res (Int × Disk)} (h : passes f n r = true) :
    ∃ d, r = .ok (n, d) ∧ f d = true := by
  unfold passes at h
  split at h
  · next k d =>
    simp only [Bool.and_eq_true, beq_iff_eq] at h
    exact ⟨d, by rw [h.1], h.2⟩
  · cases h

/-- **C118** is violated on a full disk: the number of records is returned as if they had been written, while the file stays
empty. -/
theorem C118_full_disk_violated : ∃ (d d' : Disk), d.room = some 0 ∧
    msrWrite Props.TracePack.packers0 d seven [97] true true false = .ok (3, d') ∧ d'.files [97] = some [] := by
  obtain ⟨d', h1, h2⟩ := passes_ok (f := fun d => d.files [97] == some []) (n := 3)
    (r := msrWrite Props.TracePack.packers0 { blank with room := some 0 } seven [97] true true false) (by decide +kernel)
  exact ⟨_, d', rfl, h1, by simpa using h2⟩

/-- **C118** is violated for the standard output: it is closed after the first list or record written to it, so that writing a
second one is undefined. -/
theorem C118_standard_output_violated :
    ∃ d', msrWrite Props.TracePack.packers0 blank seven [45] false true false = .ok (3, d') ∧
      ∀ c m overwrite flush ver2, msrWrite c d' m [45] overwrite flush ver2 = .ub := by
  obtain ⟨d', h1, h2⟩ := passes_ok (f := fun d => !d.outOpen) (n := 3)
    (r := msrWrite Props.TracePack.packers0 blank seven [45] false true false) (by decide +kernel)
  refine ⟨d', h1, fun c m overwrite flush ver2 => ?_⟩
  have h2 : d'.outOpen = false := by simpa using h2
  unfold msrWrite Disk.open standard
  rw [h2]
  rfl

end Verif.Props.WriteFile
