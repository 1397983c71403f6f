import Verif.Model.SelectRead
import Verif.Props.Select
import Verif.Props.ReadTrace
/-!
# Reading with selections (C135)
-/
namespace Verif.Props.SelectRead
open Verif.Model Verif.Model.Steim Verif.Model.Record3 Verif.Model.Reader Verif.Model.ReadTrace Verif.Model.SelectRead
open Verif.Model.SampleTime (endtime)
open Verif.Model.Trace (Arrival)
open Verif.Model.TraceList (TraceList)
open Verif.Model.Select (nstUnset matchSelect)
open Verif.Model.Glob (charVal)
open Verif.Spec.Select Verif.Props.Reader Verif.Props.ReadTrace
open Verif.Props.Record2 (env0)
open Verif.Proof.Reader Verif.Proof.Mem

/-- A record as selections see it, with the time of its last sample. -/
def seen (m : Msr) (stop : Int) : Record :=
  { sid := m.sid.takeWhile (· ≠ 0), start := m.starttime, stop := stop, version := m.pubversion }

/-- The time of the last sample can be computed, and the times are in order and no reserved values. -/
def Timed (t : Testing) (m : Msr) (stop : Int) : Prop :=
  endtime t.rnd t.leaps m.starttime m.samplecnt (t.rate m.samprate) = .ok stop ∧ Select.Proper (seen m stop)

/-- The records of the file that one of the requests selects, as returned; `stop` are the times of their last samples. -/
def chosenBy (code : UInt8 → Int) (qs : List Request) (stop : Msr → Int) (keep : Entry → Bool) (l : List Entry) : Prop :=
  ∀ e ∈ l, keep e = true ↔ ∃ q ∈ qs, Selects code q (seen e.msr (stop e.msr))

/-- **C135** (test, partial) The test of a record is defined and finds a record selected exactly if one of the requests
selects it, by its identifier, version and the times of its first and last sample.  Missing: what is missing in
`C44_selected_iff_requested_partial`. -/
theorem C135_test_partial (t : Testing) {qs : List Request} (hq : ∀ q ∈ qs, Select.Valid q) {m : Msr} {stop : Int}
    (hm : Timed t m stop) :
    (∃ x, matchRecord t (Select.build qs) m = .ok x) ∧
    (test t (Select.build qs) m = true ↔ ∃ q ∈ qs, Selects (charVal t.signed) q (seen m stop)) := by
  obtain ⟨x, hx, hiff⟩ := Select.C44_selected_iff_requested_partial t.signed hq hm.2
  have he : matchRecord t (Select.build qs) m = .ok x := by
    unfold matchRecord
    rw [hm.1]
    exact hx
  refine ⟨⟨x, he⟩, ?_⟩
  rw [← hiff]
  unfold test
  rw [he]
  cases x <;> simp

/-- **C135** (records, partial) Reading the records of a file with selections returns exactly the records that one of
the requests selects, each once, in order and with its offset.  Missing: as for `C34` and `C44`. -/
theorem C135_records_partial (t : Testing) {qs : List Request} (hq : ∀ q ∈ qs, Select.Valid q) {env : Record2.Env}
    {h vc ud skip : Bool} {base : Nat} {l : List Entry} {tail : List UInt8} (hk : Kinds h skip l tail)
    (hp : ∀ e ∈ l, Alone env h vc e.bytes e.msr ∧ Full env h vc ud e.bytes e.msr e.full) (stop : Msr → Int)
    (hs : ∀ e ∈ l, Timed t e.msr (stop e.msr)) :
    ∃ f : Msr → Bool, (∀ e ∈ l, f e.msr = true ↔ ∃ q ∈ qs, Selects (charVal t.signed) q (seen e.msr (stop e.msr))) ∧
      Calls (opts env h base vc ud skip (some (test t (Select.build qs)))) (opened (fileOf l tail) 0 0)
        (expected 0 (l.map fun e => (e.junk, e.bytes, f e.msr, e.full)))
        (lastCode (expected 0 (l.map fun e => (e.junk, e.bytes, f e.msr, e.full)))) :=
  ⟨test t (Select.build qs), fun e he => (C135_test_partial t hq (hs e he)).2, kinds_calls hk hp⟩

theorem records_chosen (t : Testing) {qs : List Request} (hq : ∀ q ∈ qs, Select.Valid q) {l : List Entry}
    (stop : Msr → Int) (hs : ∀ e ∈ l, Timed t e.msr (stop e.msr)) {f : Entry → Bool}
    (hf : chosenBy (charVal t.signed) qs stop f l) :
    records (some (test t (Select.build qs))) l = (l.filter f).map (·.full) := by
  have hfil : (l.filter fun e => wanted (some (test t (Select.build qs))) e.msr) = l.filter f := by
    refine List.filter_congr fun e he => ?_
    have h1 := (C135_test_partial t hq (hs e he)).2
    rw [← hf e he] at h1
    show test t (Select.build qs) e.msr = f e
    cases ht : test t (Select.build qs) e.msr <;> cases hfe : f e <;> simp_all
  unfold records
  rw [hfil]

/-- **C135** (list, partial) Reading a file into a trace list with selections adds exactly the records that one of the
requests selects, in order.  If there is none the function returns the error for a file without records.
Missing: as for `C100` and `C44`. -/
theorem C135_list_partial (t : Testing) {qs : List Request} (hq : ∀ q ∈ qs, Select.Valid q) {env : Record2.Env}
    {h vc ud skip : Bool} {base : Nat} {l : List Entry} {tail : List UInt8} (hk : Kinds h skip l tail)
    (hp : ∀ e ∈ l, Alone env h vc e.bytes e.msr ∧ Full env h vc ud e.bytes e.msr e.full) (stop : Msr → Int)
    (hs : ∀ e ∈ l, Timed t e.msr (stop e.msr)) (c : Adding) (hc : c.hostBE = h) (split keep : Bool)
    (hb : keep = true → ∀ e ∈ l, Bounded h e.bytes e.full) (tl tl' : TraceList Rat) (f : Entry → Bool)
    (hf : chosenBy (charVal t.signed) qs stop f l) (ha : AddedAll c split keep tl ((l.filter f).map (·.full)) tl') :
    readTraceList c (opts env h base vc ud skip (some (test t (Select.build qs)))) split keep
        (opened (fileOf l tail) 0 0) tl =
      .ok (if l.filter f = [] then .notSeed else .count 0, tl') := by
  have hrec := records_chosen t hq stop hs hf
  have := file_added env h base vc ud skip (some (test t (Select.build qs))) c hc split keep l tail hk hp hb tl tl' (by
    rw [hrec]; exact ha)
  rw [this, hrec]
  simp only [List.map_eq_nil_iff]

/-- **C135** (buffer, partial) The same for records in memory; the number of selected records is returned.
Missing: as for `C75` and `C44`. -/
theorem C135_buffer_partial (t : Testing) {qs : List Request} (hq : ∀ q ∈ qs, Select.Valid q) {env : Record2.Env}
    {h vc ud skip eof : Bool} {base : Nat} {l : List Entry} {tail : List UInt8} (ht : Rest h tail) (stop : Msr → Int)
    (hs : ∀ e ∈ l, Timed t e.msr (stop e.msr)) (c : Adding) (hc : c.hostBE = h) (split keep : Bool)
    (hl : ∀ e ∈ l, e.junk = [] ∧ Sound env h vc ud keep e) (tl tl' : TraceList Rat) (f : Entry → Bool)
    (hf : chosenBy (charVal t.signed) qs stop f l) (ha : AddedAll c split keep tl ((l.filter f).map (·.full)) tl') :
    readBuffer c (opts env h base vc ud skip (some (test t (Select.build qs)))) split keep eof (fileOf l tail) tl =
      .ok (.count (l.filter f).length, tl') := by
  have hrec := records_chosen t hq stop hs hf
  have := buffer_added env h base vc ud skip (some (test t (Select.build qs))) c hc split keep eof l hl tail ht tl tl' (by
    rw [hrec]; exact ha)
  rw [this, hrec, List.length_map]

/-- Any identifier is matched by a star. -/
theorem any_matches (code : UInt8 → Int) (s : List UInt8) : Spec.Glob.Matches code [.star] s := by
  induction s with
  | nil => exact .starEmpty .nil
  | cons c s ih => exact .starMore ih

/-- **C135** (window) Reading a file into a trace list with a time window, open where a time is not given, adds
exactly the records with a point in time in the window between the first and the last sample, of all sources and
versions. -/
theorem C135_window_partial (t : Testing) {first last : Option Int}
    (hq : Select.Valid { pattern := [.star], first, last, version := 0 }) {env : Record2.Env}
    {h vc ud skip : Bool} {base : Nat} {l : List Entry} {tail : List UInt8} (hk : Kinds h skip l tail)
    (hp : ∀ e ∈ l, Alone env h vc e.bytes e.msr ∧ Full env h vc ud e.bytes e.msr e.full) (stop : Msr → Int)
    (hs : ∀ e ∈ l, Timed t e.msr (stop e.msr)) (c : Adding) (hc : c.hostBE = h) (split keep : Bool)
    (hb : keep = true → ∀ e ∈ l, Bounded h e.bytes e.full) (tl tl' : TraceList Rat) (f : Entry → Bool)
    (hf : ∀ e ∈ l, f e = true ↔ Overlaps first last (seen e.msr (stop e.msr)))
    (ha : AddedAll c split keep tl ((l.filter f).map (·.full)) tl') :
    readTimewin t c (opts env h base vc ud skip) (first.getD nstUnset) (last.getD nstUnset) split keep
        (opened (fileOf l tail) 0 0) tl =
      .ok (if l.filter f = [] then .notSeed else .count 0, tl') := by
  refine C135_list_partial t (qs := [{ pattern := [.star], first, last, version := 0 }]) (by simpa using hq) hk hp stop
    hs c hc split keep hb tl tl' f (fun e he => ?_) ha
  rw [hf e he]
  simp only [List.mem_singleton, exists_eq_left]
  exact ⟨fun ho => ⟨any_matches _ _, .inl rfl, ho⟩, fun ho => ho.2.2⟩

/-- Exact arithmetic, one sample per second. -/
def exactT : Testing := { signed := true, rnd := fun x => x, leaps := [], rate := fun _ => 1 }

theorem sample_timed : Timed exactT sampleEntry.msr 1325383387000000005 :=
  ⟨by decide +kernel, ⟨by decide, by decide⟩, ⟨by decide, by decide⟩, by decide⟩

theorem sample_kinds : Kinds false false [sampleEntry] [] :=
  .inl ⟨by simp [show Version3 sampleEntry.bytes from sample_version3],
      by simp [show sampleEntry.junk = [] from rfl], .inl (by decide)⟩

/-- A window that begins in the record and one behind it. -/
example : Overlaps (some 1325383385000000000) none (seen sampleEntry.msr 1325383387000000005) ∧
    ¬ Overlaps (some 1325383387000000006) none (seen sampleEntry.msr 1325383387000000005) := by
  refine ⟨⟨1325383385000000000, by decide, by decide, by simp, by simp⟩, ?_⟩
  rintro ⟨t, -, h2, h3, -⟩
  have := h3 _ rfl
  have : t ≤ 1325383387000000005 := h2
  omega

theorem valid_from (f : Int) (h1 : f ≠ Model.Select.nstError) (h2 : f ≠ nstUnset) :
    Select.Valid { pattern := [.star], first := some f, last := none, version := 0 } :=
  ⟨by simp [Spec.Glob.Tok.WF], by simp, by show (Spec.Glob.render [.star]).length < 100; decide, by simp [h1, h2], by simp, by simp⟩

/-- The hypotheses of the theorems hold for a file of one record and such windows. -/
example : Kinds false false [sampleEntry] [] ∧
    (∀ e ∈ [sampleEntry], Alone env0 false false e.bytes e.msr ∧ Full env0 false false true e.bytes e.msr e.full) ∧
    (∀ e ∈ [sampleEntry], Timed exactT e.msr 1325383387000000005) ∧
    Select.Valid { pattern := [.star], first := some 1325383385000000000, last := none, version := 0 } :=
  ⟨sample_kinds, by simp [sampleEntry_sound.alone, sampleEntry_sound.full], by simp [sample_timed],
    valid_from _ (by decide) (by decide)⟩

/-- **C135** (violated) A file with a valid record, none of which is in the window: it is reported not to be a file of
records at all. -/
theorem C135_none_selected_violated :
    ∃ (first : Int), (∃ m, Alone env0 false false sampleEntry.bytes m) ∧
      readTimewin exactT exact1 (opts env0 false 0 false true false) first nstUnset false false
        (opened (fileOf [sampleEntry] []) 0 0) empty = .ok (.notSeed, empty) := by
  refine ⟨1325383387000000006, ⟨_, sampleEntry_sound.alone⟩, ?_⟩
  refine C135_window_partial (first := some 1325383387000000006) (last := none) exactT
    (valid_from _ (by decide) (by decide)) sample_kinds
    (by simp [sampleEntry_sound.alone, sampleEntry_sound.full]) (fun _ => 1325383387000000005) (by simp [sample_timed])
    exact1 rfl false false (by simp) empty empty (fun _ => false) (fun e he => ?_) ?_
  · rw [List.mem_singleton.1 he]
    refine ⟨by simp, ?_⟩
    rintro ⟨t, -, h2, h3, -⟩
    have := h3 _ rfl
    have : t ≤ 1325383387000000005 := h2
    omega
  · exact .nil _

end Verif.Props.SelectRead
