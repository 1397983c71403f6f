import Verif.Props.Report
import Verif.Props.TraceRuns
import Verif.Props.ReadTrace
import Verif.Props.Options
/-!
# Properties of the lists the program prints of its files (C106)
-/
namespace Verif.Props.MsiReport
open Verif.Model Verif.Model.Steim Verif.Model.Trace Verif.Model.TraceList Verif.Model.Report Verif.Model.Record3
open Verif.Model.Samples (Samples)
open Verif.Props.Trace Verif.Props.TraceList Verif.Props.Report Verif.Props.TraceRuns
open Verif.Props.Msi (Run InFile Taken processed)
open Verif.Props.ReadTrace (Describes)
open Verif.Props.TracePack (Each)
open Verif.Model.Options (Options reports)
open Verif.Model.Msi (main world)

/-- How the records are to be put together: times may differ by what `-tt` says, rates by what `-rt` says, both
as `number` reads them; without these options the defaults of the library hold. -/
def asked (rnd : Rat → Rat) (leaps : List SampleTime.Leap) (rate : Nat → Rat) (number : List UInt8 → Rat)
    (o : Options) : ReadTrace.Adding where
  rnd := rnd
  leaps := leaps
  rate := rate
  timetol := match o.timetol with
    | none => none
    | some v => some fun _ => number v
  ratetol := match o.sampratetol with
    | none => -1
    | some v => number v

theorem adding_asked (rnd : Rat → Rat) (leaps : List SampleTime.Leap) (rate : Nat → Rat) (number : List UInt8 → Rat)
    (o : Options) : adding rnd leaps rate number o = asked rnd leaps rate number o := by
  unfold adding asked
  cases o.timetol <;> cases o.sampratetol <;> rfl

/-- Adding described records makes a history of them. -/
theorem addAll_listed {c : ReadTrace.Adding} {split : Bool} : ∀ (ms : List Msr) (as : List (Arrival Rat))
    (hist : List (Arrival Rat × Bool)) (tl : TraceList Rat), Each (Describes c) ms as →
    Listed c.sim split true false hist tl →
    ∃ hist' tl', Report.addAll c split ms tl = .ok tl' ∧ Listed c.sim split true false hist' tl' ∧
      hist'.map Prod.fst = hist.map Prod.fst ++ as
  | [], [], hist, tl, _, h => ⟨hist, tl, rfl, h, by simp⟩
  | [], _ :: _, _, _, hd, _ => hd.elim
  | _ :: _, [], _, _, hd, _ => hd.elim
  | m :: ms, a :: as, hist, tl, hd, h => by
    obtain ⟨tl1, res, e⟩ := C39_additions_safe h a
    obtain ⟨hist', tl', e1, h1, h2⟩ := addAll_listed ms as _ tl1 hd.2 (Listed.add hist tl a tl1 res h e)
    refine ⟨hist', tl', ?_, h1, by rw [h2]; simp⟩
    unfold Report.addAll ReadTrace.addRecord
    rw [Verif.Proof.ReadTrace.arrival_described hd.1, Verif.Proof.Mem.bind_ok]
    simp only
    rw [e, Verif.Proof.Mem.bind_ok, Verif.Proof.Mem.bind_ok]
    exact e1

/-- The lists that are asked for (C97), without the totals. -/
def lists (o : Options) : List Options.Report := (reports o).filter fun r => decide (r ≠ .totals)

theorem reportTexts_lists (rnd : Rat → Rat) (number : List UInt8 → Rat) (day : List UInt8) (tl : TraceList Rat) :
    ∀ rs : List Options.Report, reportTexts rnd number day tl rs =
      reportTexts rnd number day tl (rs.filter fun r => decide (r ≠ .totals))
  | [] => rfl
  | r :: rs => by
    by_cases hr : r = .totals
    · subst hr
      rw [List.filter_cons_of_neg (by decide), ← reportTexts_lists rnd number day tl rs, reportTexts]
      show (Res.ok []).bind _ = _
      rw [Verif.Proof.Mem.bind_ok]
      cases reportTexts rnd number day tl rs <;> rfl
    · rw [List.filter_cons_of_pos (by simpa using hr), reportTexts, reportTexts, ← reportTexts_lists rnd number day tl rs]

/-- The links of a source can be walked in one way. -/
theorem linked_unique {R : Type} {id : Source R} {l l' : List Nat} (h : Linked id l) (h' : Linked id l') : l = l' := by
  apply List.ext_getElem?
  intro i
  induction i with
  | zero =>
    rw [← List.head?_eq_getElem?, ← List.head?_eq_getElem?, h.head, h'.head]
  | succ i ih =>
    cases hi : l[i]? with
    | none =>
      have a := List.getElem?_eq_none_iff.1 hi
      rw [hi] at ih
      have b := List.getElem?_eq_none_iff.1 ih.symm
      rw [List.getElem?_eq_none_iff.2 (by omega), List.getElem?_eq_none_iff.2 (by omega)]
    | some a =>
      have e1 := h.next i a hi
      rw [hi] at ih
      have e2 := h'.next i a ih.symm
      rw [e1] at e2
      exact Option.some.inj e2

theorem walk_unique {R : Type} {tl : TraceList R} {l l' : List Nat} (h : Walk tl l) (h' : Walk tl l') : l = l' := by
  apply List.ext_getElem?
  intro i
  induction i with
  | zero =>
    rw [← List.head?_eq_getElem?, ← List.head?_eq_getElem?, ← h.first, ← h'.first]
  | succ i ih =>
    cases hi : l[i]? with
    | none =>
      have a := List.getElem?_eq_none_iff.1 hi
      rw [hi] at ih
      have b := List.getElem?_eq_none_iff.1 ih.symm
      rw [List.getElem?_eq_none_iff.2 (by omega), List.getElem?_eq_none_iff.2 (by omega)]
    | some a =>
      rw [hi] at ih
      rw [← h.next i a hi, ← h'.next i a ih.symm]

theorem reached_some {R : Type} {sim : R → R → Bool} {autoheal keep : Bool} {hist : List (Arrival R × Bool)}
    {id : Source R} (h : Reached sim autoheal keep hist id) : hist ≠ [] := by
  cases h with
  | new => simp
  | add => simp

/-- What the rows are. -/
theorem contents_rows {R : Type} {sim : R → R → Bool} {split autoheal keep : Bool}
    {hist : List (Arrival R × Bool)} {tl : TraceList R} (h : Listed sim split autoheal keep hist tl)
    {rows : List (Source R × List (Seg R))} (hc : Contents tl rows) :
    (rows.map Prod.fst).Pairwise (Before split) ∧
    ∀ a s, tl.sources a = some s → ∃ y ∈ rows, y.1 = s := by
  obtain ⟨l, segs, hw, _, e⟩ := hc
  obtain ⟨l', hw', _, hp⟩ := C39_listed_once_in_order h
  rw [walk_unique hw' hw] at hp
  constructor
  · have : rows.map Prod.fst = l.filterMap tl.sources := by
      rw [e, List.map_filterMap]
      congr 1
      funext a
      cases tl.sources a <;> rfl
    rw [this]
    exact hp
  · intro a s hs
    have ha := (hw.source a).2 (by rw [hs]; rfl)
    refine ⟨(s, segments s (segs a)), ?_, rfl⟩
    rw [e]
    exact List.mem_filterMap.2 ⟨a, ha, by rw [hs]; rfl⟩

variable {env : Record2.Env} {be : Bool} {base : Nat} {rnd : Rat → Rat} {rate : Nat → Rat}
  {leaps : List SampleTime.Leap} {signed : Bool} {files : List UInt8 → Option (List UInt8)}
  {o : Options} {mp rp : Option (List Spec.Glob.Tok)} {l : List InFile} {stop : Taken → Int}
  {keep : Taken → Bool} {x : Taken → Samples} {number : List UInt8 → Rat} {as : List (Arrival Rat)}

/-- The lists printed of the files are those of the history of the records processed. -/
theorem lists_of_files (h : Run env be base rnd rate leaps signed files o.config mp rp l stop keep x)
    (ht : o.tracegapsum ≠ 0 ∨ o.tracegaponly ≠ 0)
    (hd : Each (Describes (asked rnd leaps rate number o)) ((processed o.config keep l).map fun e => e.2.1) as)
    (fuel : Nat) (hf : ∀ f ∈ l, f.recs.length < fuel) (day : List UInt8) (seed : Nat) :
    ∃ s hist tl, main (world env be base rnd rate leaps signed files o.config) o.config fuel (l.map InFile.path) =
        .ok (true, s) ∧
      Listed (asked rnd leaps rate number o).sim o.splitversion true false hist tl ∧ hist.map Prod.fst = as ∧
      finalText rnd leaps rate number day seed o s.traces = reportTexts rnd number day tl (lists o) := by
  obtain ⟨s, h1, _, h2, _⟩ := Verif.Props.Msi.C84_outputs h fuel hf
  have hc : (o.config.tracegapsum || o.config.tracegaponly) = true := by
    show (o.tracegapsum != 0 || o.tracegaponly != 0) = true
    rcases ht with ht | ht <;> simp [ht]
  rw [hc] at h2
  simp only [if_true] at h2
  obtain ⟨hist, tl, e, hl, hm⟩ := addAll_listed _ as [] _ hd
    (Listed.init (sim := (asked rnd leaps rate number o).sim) (split := o.splitversion) (autoheal := true)
      (keep := false) seed)
  refine ⟨s, hist, tl, h1, hl, by simpa using hm, ?_⟩
  unfold finalText
  rw [h2, adding_asked, e, Verif.Proof.Mem.bind_ok, reportTexts_lists]
  rfl

/-- The records are ordinary and their samples can be counted. -/
def UsualRecords (as : List (Arrival Rat)) : Prop :=
  (∀ a ∈ as, Ordinary a) ∧ (as.map fun a => a.samplecnt).sum < 2 ^ 63

theorem usual_of {hist : List (Arrival Rat × Bool)} (hm : hist.map Prod.fst = as) (hu : UsualRecords as) :
    Usual hist := by
  refine ⟨fun y hy => hu.1 y.1 (hm ▸ List.mem_map_of_mem hy), ?_⟩
  have : (hist.map fun y => y.1.samplecnt) = (hist.map Prod.fst).map fun a => a.samplecnt := by
    rw [List.map_map]; rfl
  rw [this, hm]
  exact hu.2

theorem each_join {α β γ : Type} {P : α → β → Prop} {Q : β → γ → Prop} : ∀ {a : List α} {b : List β} {c : List γ},
    Each P a b → Each Q b c → Each (fun x z => ∃ y, P x y ∧ Q y z) a c
  | [], [], [], _, _ => trivial
  | [], [], _ :: _, _, h => h.elim
  | [], _ :: _, _, h, _ => h.elim
  | _ :: _, [], _, h, _ => h.elim
  | _ :: _, _ :: _, [], _, h => h.elim
  | _ :: _, _ :: _, _ :: _, h1, h2 => ⟨⟨_, h1.1, h2.1⟩, each_join h1.2 h2.2⟩

theorem each_imp {α β : Type} {P Q : α → β → Prop} (h : ∀ x y, P x y → Q x y) : ∀ {a : List α} {b : List β},
    Each P a b → Each Q a b
  | [], [], _ => trivial
  | [], _ :: _, h => h.elim
  | _ :: _, [], h => h.elim
  | _ :: _, _ :: _, he => ⟨h _ _ he.1, each_imp h he.2⟩

theorem each_flatMap {α β γ : Type} {P : β → γ → Prop} (f : α → List β) (g : α → List γ) : ∀ (l : List α),
    (∀ a ∈ l, Each P (f a) (g a)) → Each P (l.flatMap f) (l.flatMap g)
  | [], _ => trivial
  | a :: t, h => by
    rw [List.flatMap_cons, List.flatMap_cons]
    exact Verif.Proof.TraceRuns.each_append (h a (by simp))
      (each_flatMap f g t fun b hb => h b (List.mem_cons_of_mem _ hb))

theorem each_pairs {α β : Type} {P : α → β → Prop} : ∀ (p : Option β) {a : List α} {b : List β},
    Each P a b → Each (fun x y => P x y.2) a (pairs p b)
  | _, [], [], _ => trivial
  | _, [], _ :: _, h => h.elim
  | _, _ :: _, [], h => h.elim
  | _, _ :: _, y :: _, h => ⟨h.1, each_pairs (some y) h.2⟩

theorem each_maps {α β γ δ : Type} {P : α → β → Prop} {Q : γ → δ → Prop} (f : α → γ) (g : β → δ)
    (h : ∀ x y, P x y → Q (f x) (g y)) : ∀ {a : List α} {b : List β}, Each P a b → Each Q (a.map f) (b.map g)
  | [], [], _ => trivial
  | [], _ :: _, h => h.elim
  | _ :: _, [], h => h.elim
  | _ :: _, _ :: _, he => ⟨h _ _ he.1, each_maps f g h he.2⟩

/-- **C106** (trace list of files).  If the trace list is asked for, the program prints after the files a heading,
one line for each segment of the list of exactly the records processed (C84), and a last line with the numbers of
sources and segments. -/
theorem C106_trace_list_of_files (h : Run env be base rnd rate leaps signed files o.config mp rp l stop keep x)
    (ht : o.tracegapsum ≠ 0 ∨ o.tracegaponly ≠ 0)
    (hd : Each (Describes (asked rnd leaps rate number o)) ((processed o.config keep l).map fun e => e.2.1) as)
    (hu : UsualRecords as) (fuel : Nat) (hf : ∀ f ∈ l, f.recs.length < fuel) (day : List UInt8) (seed : Nat)
    {gaps versions : Bool} {fmt : TimeStr.Format} (hr : lists o = [.traces gaps versions fmt]) :
    ∃ s hist tl rows heading lines,
      main (world env be base rnd rate leaps signed files o.config) o.config fuel (l.map InFile.path) =
        .ok (true, s) ∧
      Listed (asked rnd leaps rate number o).sim o.splitversion true false hist tl ∧ hist.map Prod.fst = as ∧
      Contents tl rows ∧
      finalText rnd leaps rate number day seed o s.traces = .ok (heading :: lines ++
        [ascii s!"Total: {rows.length} trace(s) with {lines.length} segment(s)\n".toList]) ∧
      Each (fun y line => TraceRow rnd fmt true gaps (name versions y.1) y.2.1 y.2.2 line) (entries rows) lines := by
  obtain ⟨s, hist, tl, h1, h2, h3, h4⟩ := lists_of_files h ht hd fuel hf day seed
  obtain ⟨rows, heading, lines, c1, c2, _, c4⟩ := C103_trace_list h2 (usual_of h3 hu) h.rounding fmt true gaps versions
  refine ⟨s, hist, tl, rows, heading, lines, h1, h2, h3, c1, ?_, c4⟩
  rw [h4, hr]
  unfold reportTexts
  have e : reportText rnd number day tl (.traces gaps versions fmt) = printTraceList rnd fmt true gaps versions tl := rfl
  rw [e, c2, Verif.Proof.Mem.bind_ok]
  unfold reportTexts
  rw [Verif.Proof.Mem.bind_ok, List.append_nil]
  rfl

/-- **C106** (gap list of files).  If the gap list is asked for, the program prints after the files a heading,
one line for each gap of the list of exactly the records processed that is inside the limits, and a line with the
number of these lines. -/
theorem C106_gap_list_of_files (h : Run env be base rnd rate leaps signed files o.config mp rp l stop keep x)
    (hg : Grained rnd) (ht : o.tracegapsum ≠ 0 ∨ o.tracegaponly ≠ 0)
    (hd : Each (Describes (asked rnd leaps rate number o)) ((processed o.config keep l).map fun e => e.2.1) as)
    (hu : UsualRecords as) (fuel : Nat) (hf : ∀ f ∈ l, f.recs.length < fuel) (day : List UInt8) (seed : Nat)
    {min max : Option (List UInt8)} {fmt : TimeStr.Format} (hr : lists o = [.gaps min max fmt]) :
    ∃ s hist tl rows heading lines,
      main (world env be base rnd rate leaps signed files o.config) o.config fuel (l.map InFile.path) =
        .ok (true, s) ∧
      Listed (asked rnd leaps rate number o).sim o.splitversion true false hist tl ∧ hist.map Prod.fst = as ∧
      Contents tl rows ∧
      finalText rnd leaps rate number day seed o s.traces = .ok (heading :: lines ++
        [ascii s!"Total: {lines.length} gap(s)\n".toList]) ∧
      Each (GapRow fmt) (rows.flatMap fun y => Gaps.between rnd (min.map number) (max.map number) y.1.sid y.2)
        lines := by
  obtain ⟨s, hist, tl, h1, h2, h3, h4⟩ := lists_of_files h ht hd fuel hf day seed
  obtain ⟨rows, heading, lines, c1, c2, _, c4⟩ := C105_gap_list h2 (usual_of h3 hu) h.rounding hg fmt
    (min.map number) (max.map number)
  refine ⟨s, hist, tl, rows, heading, lines, h1, h2, h3, c1, ?_, c4⟩
  rw [h4, hr]
  unfold reportTexts
  have e : reportText rnd number day tl (.gaps min max fmt) =
    printGapText rnd fmt (min.map number) (max.map number) tl := rfl
  rw [e, c2, Verif.Proof.Mem.bind_ok]
  unfold reportTexts
  rw [Verif.Proof.Mem.bind_ok, List.append_nil]

/-- **C106** (SYNC list of files, part).  If the SYNC list is asked for and the identifiers are made of codes of at
most 10 characters (C104), the program prints after the files a heading and one line for each segment of the list
of exactly the records processed. -/
theorem C106_sync_list_of_files_partial (h : Run env be base rnd rate leaps signed files o.config mp rp l stop keep x)
    (ht : o.tracegapsum ≠ 0 ∨ o.tracegaponly ≠ 0)
    (hd : Each (Describes (asked rnd leaps rate number o)) ((processed o.config keep l).map fun e => e.2.1) as)
    (hu : UsualRecords as) (hn : ∀ a ∈ as, ∃ net sta loc chan, Named a.sid net sta loc chan)
    (fuel : Nat) (hf : ∀ f ∈ l, f.recs.length < fuel) (day : List UInt8)
    (hday : day.length ≤ 31) (seed : Nat) (hr : lists o = [.sync]) :
    ∃ s hist tl rows lines,
      main (world env be base rnd rate leaps signed files o.config) o.config fuel (l.map InFile.path) =
        .ok (true, s) ∧
      Listed (asked rnd leaps rate number o).sim o.splitversion true false hist tl ∧ hist.map Prod.fst = as ∧
      Contents tl rows ∧
      finalText rnd leaps rate number day seed o s.traces = .ok (fields [ascii "DCC".toList, day] :: lines) ∧
      Each (fun y line => SyncRow .micro day y.1.sid y.2 line) (rows.flatMap fun y => y.2.map fun u => (y.1, u))
        lines := by
  obtain ⟨s, hist, tl, h1, h2, h3, h4⟩ := lists_of_files h ht hd fuel hf day seed
  obtain ⟨rows, lines, c1, c2, c4⟩ := C104_sync_list_partial h2 (usual_of h3 hu)
    (fun y hy => hn y.1 (h3 ▸ List.mem_map_of_mem hy)) none (by decide) .micro day hday
  refine ⟨s, hist, tl, rows, lines, h1, h2, h3, c1, ?_, c4⟩
  rw [h4, hr]
  unfold reportTexts
  have e : reportText rnd number day tl .sync = printSyncList none .micro day tl := rfl
  rw [e, c2, Verif.Proof.Mem.bind_ok]
  unfold reportTexts
  rw [Verif.Proof.Mem.bind_ok, List.append_nil]
  rfl

/-- The records come in time order in each source: `G` gives for each source its runs without a gap. -/
structure Ordered (sim : Rat → Rat → Bool) (split : Bool) (as : List (Arrival Rat)) (T : List UInt8 → Char)
    (P B : List UInt8 → Int) (G : List UInt8 → Nat → List (List (Arrival Rat))) : Prop where
  versions : split = true → ∀ a ∈ as, a.pub ≠ 0
  types : ∀ a ∈ as, OfType (T a.sid) a
  bound : ∀ a ∈ as, 0 ≤ B a.sid ∧ B a.sid < P a.sid
  runs : ∀ a ∈ as, ∀ pub, Belongs split a.sid pub a = true → Runs (P a.sid) (B a.sid) (G a.sid pub) ∧
    as.filter (Belongs split a.sid pub) = (G a.sid pub).flatten
  uniform : ∀ a ∈ as, Uniform (P a.sid) (B a.sid) (T a.sid) a
  rates : ∀ a ∈ as, ∀ b ∈ as, a.sid = b.sid → sim a.rate b.rate = true

/-- **C106** (runs, part).  If the records of each source come in time order, there is one line for each run of
records without a gap, with the start of the first record of the run, the end of the last and the number of all
samples. -/
theorem C106_one_line_per_run_partial (h : Run env be base rnd rate leaps signed files o.config mp rp l stop keep x)
    (ht : o.tracegapsum ≠ 0 ∨ o.tracegaponly ≠ 0)
    (hd : Each (Describes (asked rnd leaps rate number o)) ((processed o.config keep l).map fun e => e.2.1) as)
    (hu : UsualRecords as) (fuel : Nat) (hf : ∀ f ∈ l, f.recs.length < fuel) (day : List UInt8) (seed : Nat)
    {gaps versions : Bool} {fmt : TimeStr.Format} (hr : lists o = [.traces gaps versions fmt])
    {T : List UInt8 → Char} {P B : List UInt8 → Int} {G : List UInt8 → Nat → List (List (Arrival Rat))}
    (ho : Ordered (asked rnd leaps rate number o).sim o.splitversion as T P B G) :
    ∃ s heading total lines, ∃ rows : List (Source Rat × List (Seg Rat)),
      main (world env be base rnd rate leaps signed files o.config) o.config fuel (l.map InFile.path) =
        .ok (true, s) ∧
      (rows.map Prod.fst).Pairwise (Before o.splitversion) ∧
      (∀ a ∈ as, ∃ y ∈ rows, Belongs o.splitversion y.1.sid y.1.pub a = true) ∧
      finalText rnd leaps rate number day seed o s.traces = .ok (heading :: lines ++ [total]) ∧
      Each (fun y line => ∃ p u, Made false y.2 u ∧ TraceRow rnd fmt true gaps (name versions y.1) p u line)
        (rows.flatMap fun y => (G y.1.sid y.1.pub).map fun g => (y.1, g)) lines := by
  obtain ⟨s, hist, tl, rows, heading, lines, h1, h2, h3, h4, h5, h6⟩ :=
    C106_trace_list_of_files h ht hd hu fuel hf day seed hr
  have hmem : ∀ y ∈ hist, y.1 ∈ as := fun y hy => h3 ▸ List.mem_map_of_mem hy
  have hv : o.splitversion = true → ∀ y ∈ hist, y.1.pub ≠ 0 := fun hs y hy => ho.versions hs _ (hmem y hy)
  have hT : ∀ y ∈ hist, OfType (T y.1.sid) y.1 := fun y hy => ho.types _ (hmem y hy)
  have hall := none_refused h2 hv hT
  refine ⟨s, heading, _, lines, rows, h1, ?_, ?_, h5, ?_⟩
  · exact (contents_rows h2 h4).1
  · intro a ha
    rw [← h3] at ha
    obtain ⟨y, hy, rfl⟩ := List.mem_map.1 ha
    obtain ⟨b, u, hs, hb⟩ := (C69_sources_independent_partial h2 hv).2 y hy (hall y hy)
    obtain ⟨z, hz, rfl⟩ := (contents_rows h2 h4).2 b u hs
    exact ⟨z, hz, hb⟩
  have key : ∀ y ∈ rows, Each (Made false) (G y.1.sid y.1.pub) y.2 := by
    intro y hy
    obtain ⟨a, k, hs, hlk, e⟩ := Verif.Proof.TraceFacts.Contents.source h4 hy
    have hre := (C69_sources_independent_partial h2 hv).1 a y.1 hs
    have hown := own_all o.splitversion y.1.sid y.1.pub hall
    rw [h3] at hown
    obtain ⟨r, hr, hb⟩ : ∃ r ∈ as, Belongs o.splitversion y.1.sid y.1.pub r = true := by
      have hne := reached_some hre
      cases hq : own o.splitversion y.1.sid y.1.pub hist with
      | nil => exact absurd hq hne
      | cons z t =>
        rw [hq] at hown
        have : z.1 ∈ as.filter (Belongs o.splitversion y.1.sid y.1.pub) := by rw [← hown]; simp
        exact ⟨z.1, (List.mem_filter.1 this).1, (List.mem_filter.1 this).2⟩
    have hsid : r.sid = y.1.sid := by
      unfold Belongs at hb
      simp at hb
      exact hb.1
    obtain ⟨hruns, hfil⟩ := ho.runs r hr y.1.pub (hsid ▸ hb)
    rw [hsid] at hruns hfil
    have hG : ∀ b ∈ (G y.1.sid y.1.pub).flatten, b ∈ as ∧ b.sid = y.1.sid := by
      intro b hb
      rw [← hfil] at hb
      obtain ⟨h7, h8⟩ := List.mem_filter.1 hb
      unfold Belongs at h8
      simp at h8
      exact ⟨h7, h8.1⟩
    obtain ⟨k', hl', hmade, _⟩ := C101_each_source_partial h2 hv hT a y.1 hs
      (hsid ▸ (ho.bound r hr).1) (hsid ▸ (ho.bound r hr).2) hruns (by rw [h3]; exact hfil)
      (fun b hb => (hG b hb).2 ▸ ho.uniform b (hG b hb).1)
      (fun b hb c hc => ho.rates b (hG b hb).1 c (hG c hc).1 ((hG b hb).2.trans (hG c hc).2.symm))
    rw [e, linked_unique hlk hl']
    exact hmade
  have hjoin := (each_join (Q := fun (z : Source Rat × Option (Seg Rat) × Seg Rat) line =>
    TraceRow rnd fmt true gaps (name versions z.1) z.2.1 z.2.2 line)
    (P := fun (y : Source Rat × List (Arrival Rat)) (z : Source Rat × Option (Seg Rat) × Seg Rat) =>
      y.1 = z.1 ∧ Made false y.2 z.2.2)
    (a := rows.flatMap fun y => (G y.1.sid y.1.pub).map fun g => (y.1, g)) ?_ h6)
  · refine each_imp ?_ hjoin
    rintro y line ⟨z, ⟨e, hm⟩, hrow⟩
    exact ⟨z.2.1, z.2.2, hm, e ▸ hrow⟩
  · refine each_flatMap _ _ rows fun y hy => ?_
    exact each_maps (fun g => (y.1, g)) (fun q => (y.1, q)) (fun g q hq => ⟨rfl, hq⟩)
      (each_pairs none (key y hy))

/-! ## The hypotheses are met -/

open Verif.Props.Msi (checked checkedMsr checked_valid checked_alone)
open Verif.Props.Reader
open Verif.Props.Record2 (env0)

/-- The record after `checked`, four seconds later, with a right CRC. -/
def follower : Spec.Record3.Rec := { checked with second := 8, crc := 0x7afaec89 }

theorem follower_valid : follower.Valid := by
  constructor <;> decide

/-- What it is parsed to. -/
def followerMsr : Msr := Proof.Record3.header false follower follower.payload.length follower.bytes.length
  1325383388000000005

theorem follower_alone : Alone env0 false true follower.bytes followerMsr := by
  have := Record3.C30_crc_decides (Record2.unpack2 env0 false 0) 0 follower follower_valid (by decide)
    (by decide +kernel) [] false false
  rw [List.append_nil] at this
  unfold Alone
  have h1 : Model.Crc.msCrc32c false 0 (({ follower with crc := 0 } : Spec.Record3.Rec).bytes ++ [])
      ({ follower with crc := 0 } : Spec.Record3.Rec).bytes.length 0 = some 0x7afaec89#32 := by
    decide +kernel
  rw [Props.Crc.C17_is_crc32c_partial false 0 _ [] 0 (by decide) (Or.inr (Or.inl rfl))] at h1
  rw [this, Option.some.inj h1, if_pos (show follower.crc = (0x7afaec89#32).toNat from rfl)]
  exact Proof.Reader.alone3 env0 follower follower_valid (by decide +kernel) (by decide) _
    (by decide +kernel) (by decide)

/-- A file of the two records. -/
def inOrder : List InFile :=
  [⟨[97], [⟨[], checked.bytes, checkedMsr, checkedMsr⟩, ⟨[], follower.bytes, followerMsr, followerMsr⟩], [], none⟩]

/-- The name of the file. -/
def disk (path : List UInt8) : Option (List UInt8) :=
  if path = [97] then some (checked.bytes ++ follower.bytes) else none

theorem inOrder_valid : ∀ f ∈ inOrder, f.Valid env0 false false disk := by
  intro f hf
  simp only [inOrder, List.mem_cons, List.not_mem_nil, or_false] at hf
  subst hf
  refine ⟨by decide, by decide, by simp [InFile.name, disk, fileOf], by simp [InFile.recs, ofFile, expectedBytes, wanted], ?_, Or.inl ⟨?_, ?_, Or.inl (by decide)⟩⟩
  · intro e he
    simp only [List.mem_cons, List.not_mem_nil, or_false] at he
    rcases he with rfl | rfl
    · exact ⟨checked_alone, rfl⟩
    · exact ⟨follower_alone, rfl⟩
  · intro e he
    simp only [List.mem_cons, List.not_mem_nil, or_false] at he
    rcases he with rfl | rfl
    · exact ⟨rfl, checked, checked_valid, rfl, by decide +kernel⟩
    · exact ⟨rfl, follower, follower_valid, rfl, by decide +kernel⟩
  · intro e he
    simp only [List.mem_cons, List.not_mem_nil, or_false] at he
    rcases he with rfl | rfl <;> exact Or.inl rfl

theorem inOrder_recs : ∀ f ∈ inOrder, f.recs =
    [(0, checkedMsr, checked.bytes), ((checked.bytes.length : Int), followerMsr, follower.bytes)] := by
  intro f hf
  simp only [inOrder, List.mem_cons, List.not_mem_nil, or_false] at hf
  subst hf
  simp [InFile.recs, ofFile, expectedBytes, wanted]

/-- `-T -tg` -/
def onlyTraces : Options := { tracegaponly := 1, tracegaps := true }

/-- What is added of a record of the file. -/
def four (t : Int) : Arrival Rat :=
  { sid := [70, 68, 83, 78, 58, 88], pub := 1, start := t, stop := t + 3000000000,
    period := 1000000000, tol := 500000000, rate := 1, samplecnt := 4, sampletype := '\x00', data := [] }

/-- The options of the other lists. -/
example : lists { tracegaponly := 2, mingap := some [49] } = [.gaps (some [49]) none .isoMonthDayZ] ∧
    lists { tracegaponly := 3, basicsum := true } = [.sync] ∧ Grained Verif.Spec.Binary.binary64 :=
  ⟨by decide, by decide, grained_binary64⟩

/-- The hypotheses of C106. -/
example : Run env0 false 0 (fun x => x) (fun _ => 1) [] true disk onlyTraces.config none none inOrder
      (fun e => e.2.1.starttime + 3000000000) (fun _ => true) (fun _ => .text []) ∧
    (onlyTraces.tracegapsum ≠ 0 ∨ onlyTraces.tracegaponly ≠ 0) ∧
    Each (Describes (asked (fun x => x) [] (fun _ => 1) (fun _ => 0) onlyTraces))
      ((processed onlyTraces.config (fun _ => true) inOrder).map fun e => e.2.1)
      [four 1325383384000000005, four 1325383388000000005] ∧
    UsualRecords [four 1325383384000000005, four 1325383388000000005] ∧
    lists onlyTraces = [.traces true false .isoMonthDayZ] ∧
    Ordered (asked (fun x => x) [] (fun _ => 1) (fun _ => 0) onlyTraces).sim onlyTraces.splitversion
      [four 1325383384000000005, four 1325383388000000005] (fun _ => '\x00') (fun _ => 1000000000)
      (fun _ => 500000000) (fun _ _ => [[four 1325383384000000005, four 1325383388000000005]]) := by
  refine ⟨?_, Or.inr (by decide), ?_, ?_, by decide, ?_⟩
  · refine ⟨Spec.rounding_id, ⟨by simp, by simp, rfl, rfl⟩, inOrder_valid, ?_, ?_, ?_, ?_⟩
    · intro f hf e he
      rw [inOrder_recs f hf] at he
      simp only [List.mem_cons, List.not_mem_nil, or_false] at he
      rcases he with rfl | rfl <;> decide +kernel
    · have h0 : Msi.given onlyTraces.config.starttime = none := by decide
      intro a b ha
      rw [h0] at ha
      cases ha
    · have h0 : Msi.given onlyTraces.config.starttime = none := by decide
      have h1 : Msi.given onlyTraces.config.endtime = none := by decide
      intro f hf e he
      refine ⟨fun _ => ⟨⟨e.2.1.starttime, by omega, ?_, ?_, ?_⟩, ?_, ?_⟩, fun _ => rfl⟩
      · show e.2.1.starttime ≤ e.2.1.starttime + 3000000000
        omega
      · intro a ha; rw [h0] at ha; cases ha
      · intro a ha; rw [h1] at ha; cases ha
      · simp
      · simp
    · intro h; exact absurd h (by decide)
  · have e : processed onlyTraces.config (fun _ => true) inOrder =
        [(0, checkedMsr, checked.bytes), ((checked.bytes.length : Int), followerMsr, follower.bytes)] := by
      unfold processed
      have : inOrder.flatMap InFile.recs = [(0, checkedMsr, checked.bytes),
          ((checked.bytes.length : Int), followerMsr, follower.bytes)] := by
        have := inOrder_recs _ (show _ ∈ inOrder from List.mem_cons_self)
        show InFile.recs _ ++ [] = _
        rw [this]; rfl
      rw [this]
      rfl
    rw [e]
    refine ⟨?_, ?_, trivial⟩
    · constructor <;> first | decide +kernel | rfl
    · constructor <;> first | decide +kernel | rfl
  · have hrate : Sensible 1 := by
      right
      constructor
      · have : (10 : Rat) ^ (-400 : Int) ≤ 10 ^ (0 : Int) := Verif.Proof.Printf.zmono (by decide)
        rwa [Rat.zpow_zero] at this
      · decide +kernel
    refine ⟨?_, by decide⟩
    intro a ha
    simp only [List.mem_cons, List.not_mem_nil, or_false] at ha
    rcases ha with rfl | rfl <;>
      exact ⟨by unfold Modern; decide, by unfold Modern; decide, by decide, by decide, hrate, by decide, by decide,
        by decide⟩
  · have hmem : ∀ a ∈ [four 1325383384000000005, four 1325383388000000005],
        ∃ t, a = four t := by
      simp only [List.mem_cons, List.not_mem_nil, or_false, forall_eq_or_imp, forall_eq]
      exact ⟨⟨_, rfl⟩, ⟨_, rfl⟩⟩
    refine ⟨by decide, ?_, fun _ _ => by decide, ?_, ?_, ?_⟩
    · intro a ha
      obtain ⟨t, rfl⟩ := hmem a ha
      exact ⟨rfl, Or.inl rfl⟩
    · intro a ha pub _
      obtain ⟨t, rfl⟩ := hmem a ha
      refine ⟨.near [] [] (four 1325383384000000005) (four 1325383388000000005) (.first _) (by decide) (by decide), rfl⟩
    · intro a ha
      obtain ⟨t, rfl⟩ := hmem a ha
      exact ⟨by show t ≤ t + 3000000000; omega, rfl, rfl, rfl, Or.inl rfl⟩
    · intro a ha b hb _
      obtain ⟨t, rfl⟩ := hmem a ha
      obtain ⟨u, rfl⟩ := hmem b hb
      show (asked (fun x => x) [] (fun _ => 1) (fun _ => 0) onlyTraces).sim 1 1 = true
      decide +kernel

end Verif.Props.MsiReport
