import Verif.Proof.Screen
import Verif.Props.MsiReport
/-!
# Properties C119 and C120: the text printed for records and by the program
-/
namespace Verif.Props.Screen
open Verif.Model Verif.Model.Steim Verif.Model.Samples Verif.Model.Record3 Verif.Model.Msi Verif.Model.Report Verif.Model.Screen
open Verif.Model.Options (Options)
open Verif.Model.Reader (Ret)
open Verif.Props.Report Verif.Props.Msi Verif.Proof.Screen Verif.Spec Verif.Spec.Msi
open Verif.Model.ReadTrace (hertz)
open Verif.Spec.Decimal (HasDigits)

/-! ## C119 -/

/-- **C119.** The text of a record is whole: without details the line with the identifier, publication version,
length, number of samples, rate and start time; with details the lines with these and the format, CRC, lengths and
encoding; with more details the flags and the extra headers (C114) too.  The rate is the one in Hz to ten digits and
the time is the start time of the record (C08). -/
theorem C119_text (c : Texts) (m : Msr) (hf : Fields (hertz c.rnd (c.rate m.samprate)) m) (details : Int) :
    ∃ t, printRecord c details m = .ok t ∧
      RecordText details (hertz c.rnd (c.rate m.samprate)) m (ExtraHeaders.print m.extra 16) t :=
  printRecord_ok hf details

/-- **C119.** The line of a record tells its identifier, publication version, length, number of samples, start
time to the nanosecond, and rate if it has at most ten digits: records with the same line agree in them. -/
theorem C119_line_tells {c : Texts} {m m' : Msr} (hf : Fields (hertz c.rnd (c.rate m.samprate)) m)
    (hf' : Fields (hertz c.rnd (c.rate m'.samprate)) m') {details : Int} (hd : details ≤ 0)
    (e : printRecord c details m = printRecord c details m') :
    ident m = ident m' ∧ m.pubversion = m'.pubversion ∧ m.reclen = m'.reclen ∧ m.samplecnt = m'.samplecnt ∧
      m.starttime = m'.starttime ∧
      (HasDigits 10 (hertz c.rnd (c.rate m.samprate)) → HasDigits 10 (hertz c.rnd (c.rate m'.samprate)) →
        hertz c.rnd (c.rate m.samprate) = hertz c.rnd (c.rate m'.samprate)) := by
  obtain ⟨t, h1, h2⟩ := printRecord_ok hf details
  obtain ⟨t', h1', h2'⟩ := printRecord_ok hf' details
  rw [h1, h1'] at e
  have e := Res.ok.inj e
  subst e
  unfold RecordText at h2 h2'
  rw [if_neg (by omega)] at h2 h2'
  exact summary_inj hf.start hf'.start h2 h2'

/-- **C119.** With details the text also tells the format version, CRC, the lengths of the extra headers and of the
data and the encoding; with more details the flags and the text of the extra headers too.  The identifiers have no
newline. -/
theorem C119_details_tell {c : Texts} {m m' : Msr} (hf : Fields (hertz c.rnd (c.rate m.samprate)) m)
    (hf' : Fields (hertz c.rnd (c.rate m'.samprate)) m') (hn : (10 : UInt8) ∉ ident m) (hn' : (10 : UInt8) ∉ ident m')
    {details : Int} (hd : 0 < details) (e : printRecord c details m = printRecord c details m') :
    ident m = ident m' ∧ m.pubversion = m'.pubversion ∧ m.reclen = m'.reclen ∧ m.samplecnt = m'.samplecnt ∧
      m.starttime = m'.starttime ∧ m.formatversion = m'.formatversion ∧ m.crc = m'.crc ∧
      m.extra.length = m'.extra.length ∧ m.datalength = m'.datalength ∧ m.encoding = m'.encoding ∧
      (1 < details → m.flags = m'.flags ∧ (m.extra ≠ [] → ExtraHeaders.print m.extra 16 = ExtraHeaders.print m'.extra 16)) ∧
      (HasDigits 10 (hertz c.rnd (c.rate m.samprate)) → HasDigits 10 (hertz c.rnd (c.rate m'.samprate)) →
        hertz c.rnd (c.rate m.samprate) = hertz c.rnd (c.rate m'.samprate)) := by
  obtain ⟨t, h1, h2⟩ := printRecord_ok hf details
  obtain ⟨t', h1', h2'⟩ := printRecord_ok hf' details
  rw [h1, h1'] at e
  have e := Res.ok.inj e
  subst e
  unfold RecordText at h2 h2'
  rw [if_pos (by omega)] at h2 h2'
  have := details_inj hf.start hf'.start hn hn' hf.flags hf'.flags h2 h2'
  obtain ⟨a1, a2, a3, a4, a5, a6, a7, a8, a9, a10, a11, a12⟩ := this
  exact ⟨a1, a2, a3, a4, a5, a6, a7, a8, a9, a10, fun h => a11 (by simpa using h), a12⟩

/-- Rates of more digits are not told: 100 and 100.00000001 samples a second are both shown as 100. -/
example : ∃ (c : Texts) (m m' : Msr), Fields (hertz c.rnd (c.rate m.samprate)) m ∧
    Fields (hertz c.rnd (c.rate m'.samprate)) m' ∧ hertz c.rnd (c.rate m.samprate) ≠ hertz c.rnd (c.rate m'.samprate) ∧
    printRecord c 0 m = printRecord c 0 m' := by
  refine ⟨⟨fun x => x, fun n => 100 + n / 100000000, fun _ => 0⟩, { samprate := 0 }, { samprate := 1 }, ?_, ?_, ?_, ?_⟩
  · constructor <;> decide +kernel
  · constructor <;> decide +kernel
  · decide +kernel
  · decide +kernel

/-- A record of 7 bytes of data. -/
def shownRecord : Msr :=
  { sid := [70, 68, 83, 78, 58, 88, 0], formatversion := 3, flags := 5, starttime := -1, pubversion := 2, samprate := 10,
    samplecnt := 7, reclen := 59, crc := 48879, datalength := 7, encoding := 3, extra := [123, 125] }

/-- How it is shown. -/
example : Fields (hertz (fun x => x) ((fun n => (n : Rat)) shownRecord.samprate)) shownRecord ∧
    printRecord ⟨fun x => x, fun n => n, fun _ => 0⟩ 0 shownRecord =
      .ok (txt "FDSN:X, 2, 59, 7 samples, 10 Hz, 1969-12-31T23:59:59.999999999Z (365)\n") ∧
    printRecord ⟨fun x => x, fun n => n, fun _ => 0⟩ 2 shownRecord =
      .ok (txt ("FDSN:X, version 2, 59 bytes (format: 3)\n" ++
        "             start time: 1969-12-31T23:59:59.999999999Z (365)\n" ++
        "      number of samples: 7\n" ++
        "       sample rate (Hz): 10\n" ++
        "                  flags: [00000101] 8 bits\n" ++
        "                         [Bit 0] Calibration signals present\n" ++
        "                         [Bit 2] Clock locked\n" ++
        "                    CRC: 0xBEEF\n" ++
        "    extra header length: 2 bytes\n" ++
        "    data payload length: 7 bytes\n" ++
        "       payload encoding: 32-bit integer (val: 3)\n" ++
        "          extra headers:\n") ++ ExtraHeaders.print [123, 125] 16) := by
  refine ⟨?_, by decide +kernel, by decide +kernel⟩
  constructor <;> decide +kernel

/-! ## C120 -/

variable {env : Record2.Env} {be : Bool} {base : Nat} {leaps : List SampleTime.Leap} {signed : Bool}
  {files : List UInt8 → Option (List UInt8)} {o : Options} {mp rp : Option (List Spec.Glob.Tok)} {l : List InFile}
  {stop : Taken → Int} {keep : Taken → Bool} {x : Taken → Samples} {c : Texts}

/-- The records have the values of their types and the totals those of 64 bits. -/
structure Counted (c : Texts) (files : Nat) (l : List Taken) : Prop where
  fields : ∀ e ∈ l, Fields (hertz c.rnd (c.rate e.2.1.samprate)) e.2.1
  files : files < 2 ^ 63
  recs : l.length < 2 ^ 63
  samples : (l.map fun e : Taken => e.2.1.samplecnt).sum.natAbs < 2 ^ 63

/-- The line with the totals. -/
def totalsLine (files : Nat) (l : List Taken) : List UInt8 :=
  txt "Files: " ++ dec files ++ txt ", Records: " ++ dec l.length ++ txt ", Samples: " ++
    dec (l.map fun e : Taken => e.2.1.samplecnt).sum ++ txt "\n"

/-- The text of what is printed for records: each as C119 says, with the offset in ten columns before it if it is
asked for, and its samples after it. -/
def RecordsText (c : Texts) (details : Int) (lines : List Line) (t : List UInt8) : Prop :=
  Row (LineShown c.value details (fun m => hertz c.rnd (c.rate m.samprate)) (fun m => ExtraHeaders.print m.extra 16)) lines t

theorem rows_no_record (v : List Cell) (p : Option Int) (m : Msr) : ∀ (k n : Nat), Line.record p m ∉ rows v k n
  | 0, _ => by simp [rows]
  | k + 1, n => by
    rw [rows]
    intro h
    rcases List.mem_cons.1 h with h | h
    · cases h
    · exact rows_no_record v p m k _ h

theorem samples_no_record (k : Nat) (y : Samples) (p : Option Int) (m : Msr) : Line.record p m ∉ sampleLines k y := by
  intro h
  unfold sampleLines at h
  split at h
  · simp at h
  · simp only at h
    split at h
    · exact rows_no_record _ p m _ _ (List.mem_of_mem_take h)
    · exact rows_no_record _ p m _ _ h

theorem lines_fields {cf : Config} {ls : List Taken} (h : ∀ e ∈ ls, Fields (hertz c.rnd (c.rate e.2.1.samprate)) e.2.1) :
    ∀ p m, Line.record p m ∈ ls.flatMap (linesOf cf x) → Fields (rateOf c m) m := by
  intro p m hm
  obtain ⟨e, he, hm⟩ := List.mem_flatMap.1 hm
  unfold linesOf at hm
  split at hm
  · simp at hm
  · rcases List.mem_cons.1 hm with hm | hm
    · injection hm with _ hm
      rw [hm]
      exact h e he
    · split at hm
      · exact absurd hm (samples_no_record _ _ _ _)
      · simp at hm

/-- **C120.** Everything the program prints for files it can read: the text of each record processed in the order of
the files, with its samples; then, if they are asked for, the totals: the number of files, of the records processed
and of their samples; then the lists (C106). -/
theorem C120_printed (h : Run env be base c.rnd c.rate leaps signed files o.config mp rp l stop keep x) (fuel : Nat)
    (hf : ∀ f ∈ l, f.recs.length < fuel) (hc : Counted c l.length (processed o.config keep l)) (number : List UInt8 → Rat)
    (day : List UInt8) (seed : Nat) :
    ∃ s t, main (world env be base c.rnd c.rate leaps signed files o.config) o.config fuel (l.map InFile.path) = .ok (true, s) ∧
      RecordsText c o.ppackets ((processed o.config keep l).flatMap (linesOf o.config x)) t ∧
      ∀ lists, finalText c.rnd leaps c.rate number day seed o s.traces = .ok lists →
        screen c leaps number day seed o true s =
          .ok (t ++ (if o.basicsum then totalsLine l.length (processed o.config keep l) else []) ++ lists.flatten) := by
  obtain ⟨s, h1, h2, h3⟩ := run_all h fuel hf
  have hp : s.printed = (processed o.config keep l).flatMap (linesOf o.config x) := h2.printed
  have hr : s.recs = ((processed o.config keep l).length : Int) := by rw [h2.recs]; simp
  have hs : s.samps = ((processed o.config keep l).map fun e => e.2.1.samplecnt).sum := by rw [h2.samps]; simp
  obtain ⟨t, e1, e2⟩ := lines_ok (c := c) (details := o.ppackets) (lines_fields (cf := o.config) (x := x) hc.fields)
  refine ⟨s, t, h1, e2, fun lists hl => ?_⟩
  have ht := totals_ok (s := s) (by rw [h3]; have := hc.files; omega) (by rw [hr]; have := hc.recs; omega)
    (by rw [hs]; have := hc.samples; omega)
  unfold screen
  rw [hp, e1, Verif.Proof.Mem.bind_ok, if_pos rfl, hl, Verif.Proof.Mem.bind_ok, ht, h3, hr, hs]
  rfl

/-- `-s -p -O -D` -/
def allPrinted : Options := { basicsum := true, ppackets := 1, printoffset := true, printdata := 2 }

theorem two_run : Run Verif.Props.Record2.env0 false 0 (fun x => x) (fun _ => 1) [] true Verif.Props.Msi.disk allPrinted.config none none two
    (fun _ => 1325383387000000005) (fun _ => true) (fun _ => .text [65, 66, 67, 68]) where
  rounding := Spec.rounding_id
  patterns := ⟨by simp, by simp, rfl, rfl⟩
  valid := two_valid
  ends := by
    intro f hf e he
    obtain ⟨pos, rfl⟩ := two_recs f hf e he
    exact checked_end
  window := by
    have h0 : given allPrinted.config.starttime = none := by decide
    intro a b ha
    rw [h0] at ha
    cases ha
  wanted := by
    have h0 : given allPrinted.config.starttime = none := by decide
    have h1 : given allPrinted.config.endtime = none := by decide
    intro f hf e he
    obtain ⟨pos, rfl⟩ := two_recs f hf e he
    refine ⟨fun _ => ⟨⟨1325383386000000005, by
      show checkedMsr.starttime ≤ _
      rw [checked_start]; decide, by
      show (1325383386000000005 : Int) ≤ 1325383387000000005
      decide, ?_, ?_⟩, ?_, ?_⟩, fun _ => rfl⟩
    · intro a ha; rw [h0] at ha; cases ha
    · intro a ha; rw [h1] at ha; cases ha
    · simp
    · simp
  samples := by
    intro _ f hf e he
    obtain ⟨pos, rfl⟩ := two_recs f hf e he
    refine checked_decodes _ (fun off mem m => ?_) pos
    show withSamples false (0 + off) mem m true = _
    rw [Nat.zero_add]

theorem checked_fields : Fields (hertz (fun x => x) 1) checkedMsr := by
  constructor <;> decide +kernel

/-- The hypotheses of C120: two files with three records of which all is printed. -/
example : Run Verif.Props.Record2.env0 false 0 (fun x => x) (fun _ => 1) [] true Verif.Props.Msi.disk allPrinted.config none none two
      (fun _ => 1325383387000000005) (fun _ => true) (fun _ => .text [65, 66, 67, 68]) ∧
    Counted ⟨fun x => x, fun _ => 1, fun _ => 0⟩ two.length (processed allPrinted.config (fun _ => true) two) ∧
    (processed allPrinted.config (fun _ => true) two).length = 3 ∧ allPrinted.tracegapsum = 0 ∧ allPrinted.tracegaponly = 0 ∧
    totalsLine two.length (processed allPrinted.config (fun _ => true) two) = txt "Files: 2, Records: 3, Samples: 12\n" := by
  have hp : processed allPrinted.config (fun _ => true) two = two.flatMap InFile.recs := by
    unfold processed limit
    rw [if_pos (by decide), List.filter_eq_self]
    simp
  have hl : two.flatMap InFile.recs = [(0, checkedMsr, checked.bytes), ((checked.bytes.length : Int), checkedMsr, checked.bytes),
      (0, checkedMsr, checked.bytes)] := by
    simp [two, InFile.recs, Verif.Props.Reader.ofFile, Verif.Props.Reader.expectedBytes, Verif.Props.Reader.wanted]
  refine ⟨two_run, ⟨?_, by decide, ?_, ?_⟩, ?_, rfl, rfl, ?_⟩
  · intro e he
    rw [hp, hl] at he
    simp only [List.mem_cons, List.not_mem_nil, or_false] at he
    rcases he with rfl | rfl | rfl <;> exact checked_fields
  · rw [hp, hl]
    decide
  · rw [hp, hl]
    decide +kernel
  · rw [hp, hl]
    rfl
  · rw [hp, hl]
    decide +kernel

/-- **C120** (no lists).  Without lists the text of the records and the totals are everything. -/
theorem C120_without_lists (h : Run env be base c.rnd c.rate leaps signed files o.config mp rp l stop keep x) (fuel : Nat)
    (hf : ∀ f ∈ l, f.recs.length < fuel) (hc : Counted c l.length (processed o.config keep l)) (number : List UInt8 → Rat)
    (day : List UInt8) (seed : Nat) (hl : o.tracegapsum = 0 ∧ o.tracegaponly = 0) :
    ∃ s t, main (world env be base c.rnd c.rate leaps signed files o.config) o.config fuel (l.map InFile.path) = .ok (true, s) ∧
      RecordsText c o.ppackets ((processed o.config keep l).flatMap (linesOf o.config x)) t ∧
      screen c leaps number day seed o true s =
        .ok (t ++ if o.basicsum then totalsLine l.length (processed o.config keep l) else []) := by
  obtain ⟨s, t, h1, h2, h3⟩ := C120_printed h fuel hf hc number day seed
  refine ⟨s, t, h1, h2, ?_⟩
  obtain ⟨s', h1', -, h4, -⟩ := C84_outputs h fuel hf
  rw [h1] at h1'
  have e : s = s' := (Prod.mk.inj (Res.ok.inj h1')).2
  subst e
  have hcf : (o.config.tracegapsum || o.config.tracegaponly) = false := by
    show (o.tracegapsum != 0 || o.tracegaponly != 0) = false
    simp [hl.1, hl.2]
  rw [hcf] at h4
  have hfin : finalText c.rnd leaps c.rate number day seed o s.traces = .ok [] := by
    unfold finalText
    rw [h4]
    show (Res.ok _).bind _ = _
    rw [Verif.Proof.Mem.bind_ok, Verif.Props.MsiReport.reportTexts_lists]
    have : (Options.reports o).filter (fun r => decide (r ≠ .totals)) = [] := by
      unfold Options.reports
      rw [hl.1, hl.2]
      cases o.basicsum <;> rfl
    rw [this]
    rfl
  rw [h3 [] hfin, List.flatten_nil, List.append_nil]

/-- **C120** (errors).  If a file cannot be read to its end, the program prints the records processed until then and
neither totals nor lists. -/
theorem C120_until_error {w : World} {ls : List Source} (hi : Inputs w o.config keep x ls) (fuel : Nat)
    (hf : ∀ f ∈ ls, f.recs.length < fuel) (he : Fails o.config.count (keptOf keep ls))
    (hc : ∀ e ∈ limit o.config.count (upto (keptOf keep ls)), Fields (hertz c.rnd (c.rate e.2.1.samprate)) e.2.1)
    (number : List UInt8 → Rat) (day : List UInt8) (seed : Nat) :
    ∃ s t, main w o.config fuel (ls.map Source.path) = .ok (false, s) ∧ screen c leaps number day seed o false s = .ok t ∧
      RecordsText c o.ppackets ((limit o.config.count (upto (keptOf keep ls))).flatMap (linesOf o.config x)) t := by
  obtain ⟨ok, s, h1, h2, h3, -⟩ := Verif.Proof.Msi.processFiles_spec fuel ls hi hf { count := o.config.count }
  have hok : ok = false := by
    cases ok with
    | false => rfl
    | true => exact absurd he (h2.1 rfl)
  subst hok
  have hp : s.printed = (limit o.config.count (upto (keptOf keep ls))).flatMap (linesOf o.config x) := h3.printed
  obtain ⟨t, e1, e2⟩ := lines_ok (c := c) (details := o.ppackets) (lines_fields (cf := o.config) (x := x) hc)
  refine ⟨s, t, h1, ?_, e2⟩
  unfold screen
  rw [hp, e1, Verif.Proof.Mem.bind_ok]
  rfl

/-- A file that is missing after one that is there. -/
example : ∃ ls : List Source,
    Inputs (world Verif.Props.Record2.env0 false 0 (fun x => x) (fun _ => 1) [] true Verif.Props.Msi.disk allPrinted.config)
      allPrinted.config (fun _ => true) (fun _ => .text [65, 66, 67, 68]) ls ∧
    Fails allPrinted.config.count (keptOf (fun _ => true) ls) ∧
    (limit allPrinted.config.count (upto (keptOf (fun _ => true) ls))).length = 3 := by
  have h := Verif.Proof.Msi.inputs_valid (base := 0) (rate := fun _ => 1) (leaps := []) (signed := true) two_run.rounding
    two_run.patterns two two_run.valid (fun _ => 1325383387000000005) two_run.ends
    two_run.window _ two_run.wanted _ two_run.samples
  refine ⟨two.map Verif.Proof.Msi.source ++ [⟨[99], [], .genError⟩], ⟨?_, ?_, ?_⟩, ⟨⟨([], false), ?_, rfl⟩, Or.inl (by decide)⟩, ?_⟩
  · intro f hf
    rcases List.mem_append.1 hf with hf | hf
    · exact h.read f hf
    · rw [List.mem_singleton] at hf
      subst hf
      exact Or.inr ⟨by decide +kernel, rfl, rfl⟩
  · intro f hf e he
    rcases List.mem_append.1 hf with hf | hf
    · exact h.window f hf e he
    · rw [List.mem_singleton] at hf
      subst hf
      simp at he
  · intro hq f hf e he
    rcases List.mem_append.1 hf with hf | hf
    · exact h.samples hq f hf e he
    · rw [List.mem_singleton] at hf
      subst hf
      simp at he
  · unfold keptOf
    rw [List.map_append]
    exact List.mem_append_right _ (by simp [Source.complete])
  · unfold limit
    rw [if_pos (by decide)]
    simp [two, keptOf, upto, Verif.Proof.Msi.source, InFile.recs, Verif.Props.Reader.ofFile,
      Verif.Props.Reader.expectedBytes, Verif.Props.Reader.wanted, Source.complete]

end Verif.Props.Screen
