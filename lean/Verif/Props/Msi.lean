import Verif.Proof.MsiFile
import Verif.Props.Reader
import Verif.Props.Crc
/-!
# The program msi: C45, C46, C47, C48, C83 and C84

`main w c fuel paths` is the program with the options `c` on the files named `paths`: whether it ends
normally, and the totals and the output.  `fuel` bounds the records read from each file.
-/
namespace Verif.Props.Msi
open Verif.Model Verif.Model.Steim Verif.Model.Record3 Verif.Model.Reader Verif.Model.Samples
  Verif.Model.Msi
open Verif.Props.Reader Verif.Proof.Msi Verif.Proof.Mem
open Verif.Spec.Msi
open Verif.Spec (Rounding)
open Verif.Props.Record3 (sample sample_valid)
open Verif.Props.Record2 (env0)

variable {env : Record2.Env} {be : Bool} {base : Nat} {rnd : Rat → Rat} {rate : Nat → Rat}
  {leaps : List SampleTime.Leap} {signed : Bool} {files : List UInt8 → Option (List UInt8)}
  {c : Config} {mp rp : Option (List Spec.Glob.Tok)} {l : List InFile} {stop : Taken → Int}
  {keep : Taken → Bool} {x : Taken → Samples}

/-- The whole run. -/
theorem run_all (h : Run env be base rnd rate leaps signed files c mp rp l stop keep x) (fuel : Nat)
    (hf : ∀ f ∈ l, f.recs.length < fuel) :
    ∃ s, main (world env be base rnd rate leaps signed files c) c fuel (l.map InFile.path) =
        .ok (true, s) ∧ Processed c x { count := c.count } (processed c keep l) s ∧
      s.files = l.length := by
  have hi := inputs_valid (base := base) h.rounding h.patterns l h.valid stop h.ends h.window keep
    h.wanted x h.samples
  obtain ⟨ok, s, h1, h2, h3, h4, -⟩ := processFiles_spec fuel (l.map source) hi (by
    intro f hf'
    obtain ⟨g, hg, rfl⟩ := List.mem_map.1 hf'
    exact hf g hg) { count := c.count }
  obtain ⟨u1, u2⟩ := upto_complete keep l
  rw [u1] at h3
  have hok : ok = true := h2.2 (u2 _)
  subst hok
  refine ⟨s, ?_, h3, ?_⟩
  · have : (l.map source).map Source.path = l.map InFile.path := by rw [List.map_map]; rfl
    rw [this] at h1
    exact h1
  · have := h4 rfl
    simp only [List.length_map, Int.zero_add] at this
    exact this

/-! ## C45 -/

/-- **C45 (partial).** With `-o`, the output file has exactly the bytes of the records that are wanted
(and within the limit of `-n`), in the order of the input over all files, each once.  Missing:
reversed time windows, version 2 records of other kinds in
files beyond the read buffer. -/
theorem C45_output_file_partial (h : Run env be base rnd rate leaps signed files c mp rp l stop keep x)
    (ho : c.outfile = true) (fuel : Nat) (hf : ∀ f ∈ l, f.recs.length < fuel) :
    ∃ s, main (world env be base rnd rate leaps signed files c) c fuel (l.map InFile.path) =
        .ok (true, s) ∧ s.output = (processed c keep l).flatMap fun e => e.2.2 := by
  obtain ⟨s, h1, h2, -⟩ := run_all h fuel hf
  refine ⟨s, h1, ?_⟩
  rw [h2.output, if_pos ho]
  rfl

/-- **C45 (no filter).** Without filters and byte ranges the output file has all the records of the input: it is the
input files one after the other, without what belongs to no record. -/
theorem C45_all (h : Run env be base rnd rate leaps signed files c none none l stop keep x)
    (ho : c.outfile = true) (h1 : c.starttime = NSTERROR) (h2 : c.endtime = NSTERROR)
    (h3 : c.count < 0) (h4 : ∀ f ∈ l, f.range = none) (fuel : Nat)
    (hf : ∀ f ∈ l, f.recs.length < fuel) :
    ∃ s, main (world env be base rnd rate leaps signed files c) c fuel (l.map InFile.path) =
        .ok (true, s) ∧ s.output = l.flatMap fun f => f.entries.flatMap fun e => e.bytes := by
  obtain ⟨s, a1, a2⟩ := C45_output_file_partial h ho fuel hf
  refine ⟨s, a1, ?_⟩
  have hall : (l.flatMap InFile.recs).filter keep = l.flatMap InFile.recs := by
    rw [List.filter_eq_self]
    intro e he
    obtain ⟨f, hf, hef⟩ := List.mem_flatMap.1 he
    rw [h.wanted f hf e hef]
    have hst := h.ends f hf e hef
    have h0 : e.2.1.starttime ≤ stop e := (SampleTime.C09_end h.rounding _ _ _ _).2 _ hst
    refine ⟨?_, by simp, by simp⟩
    unfold given Meets
    simp only [h1, h2]
    exact ⟨e.2.1.starttime, by omega, h0, by simp, by simp⟩
  have hb : ∀ (l : List Entry) pos, (expectedBytes pos (ofFile none l)).flatMap (fun e => e.2.2) =
      l.flatMap fun e => e.bytes := by
    intro l
    induction l with
    | nil => intro pos; rfl
    | cons a l ih =>
      intro pos
      simp only [ofFile, List.map_cons, expectedBytes]
      rw [if_pos (show wanted none a.msr = true from rfl)]
      rw [List.flatMap_cons, List.flatMap_cons]
      congr 1
      exact ih _
  rw [a2]
  unfold processed limit
  rw [if_pos h3, hall, List.flatMap_assoc]
  rw [List.flatMap_def, List.flatMap_def]
  congr 1
  refine List.map_congr_left fun f hf => ?_
  unfold InFile.recs
  rw [h4 f hf]
  exact hb _ _

/-- **C45 (errors).** Whatever the files are: as long as the library gives records, those that are
kept are written in order; if a file ends otherwise than with the end of the file, or cannot be opened,
and the limit is not reached, the program stops with an error, and the output file has exactly the kept
records before the error. -/
theorem C45_until_error (w : World) (keep : Taken → Bool) (x : Taken → Samples) (l : List Source)
    (hi : Inputs w c keep x l) (fuel : Nat) (hf : ∀ f ∈ l, f.recs.length < fuel)
    (ho : c.outfile = true) :
    ∃ ok s, main w c fuel (l.map Source.path) = .ok (ok, s) ∧
      (ok = true ↔ ¬ Fails c.count (keptOf keep l)) ∧
      s.output = (limit c.count (upto (keptOf keep l))).flatMap fun e => e.2.2 := by
  obtain ⟨ok, s, h1, h2, h3, -⟩ := processFiles_spec fuel l hi hf { count := c.count }
  refine ⟨ok, s, h1, h2, ?_⟩
  rw [h3.output, if_pos ho]
  rfl

/-! ## C46 -/

/-- **C46.** With `-n N` the first N of the wanted records of all files are processed, or all if there
are fewer; the total of records is that number. -/
theorem C46_limit (h : Run env be base rnd rate leaps signed files c mp rp l stop keep x)
    (hn : 0 ≤ c.count) (fuel : Nat) (hf : ∀ f ∈ l, f.recs.length < fuel) :
    ∃ s, main (world env be base rnd rate leaps signed files c) c fuel (l.map InFile.path) =
        .ok (true, s) ∧
      (c.outfile = true →
        s.output = (((l.flatMap InFile.recs).filter keep).take c.count.toNat).flatMap fun e => e.2.2) ∧
      s.recs = min c.count ((l.flatMap InFile.recs).filter keep).length := by
  obtain ⟨s, h1, h2, -⟩ := run_all h fuel hf
  have e : processed c keep l = ((l.flatMap InFile.recs).filter keep).take c.count.toNat := by
    unfold processed limit
    rw [if_neg (by omega)]
  rw [e] at h2
  refine ⟨s, h1, fun ho => ?_, ?_⟩
  · rw [h2.output, if_pos ho]
    rfl
  · rw [h2.recs, List.length_take]
    simp only
    omega

/-- **C46 (files behind the limit).** Once the limit is reached nothing more is read: files that follow
need not exist, and the program ends normally. -/
theorem C46_stops (w : World) (keep : Taken → Bool) (x : Taken → Samples) (l : List Source)
    (hi : Inputs w c keep x l) (fuel : Nat) (hf : ∀ f ∈ l, f.recs.length < fuel) (hn : 0 ≤ c.count)
    (hl : c.count ≤ (upto (keptOf keep l)).length) (more : List (List UInt8)) :
    ∃ s, main w c fuel (l.map Source.path ++ more) = .ok (true, s) ∧ s.recs = c.count ∧
      Processed c x { count := c.count } ((upto (keptOf keep l)).take c.count.toNat) s := by
  obtain ⟨ok, s, h1, h2, h3, -, h5⟩ := processFiles_spec fuel l hi hf { count := c.count }
  have hok : ok = true := by
    rw [h2]
    rintro ⟨-, h⟩
    simp only at h
    omega
  subst hok
  have hlim : limit c.count (upto (keptOf keep l)) = (upto (keptOf keep l)).take c.count.toNat := by
    unfold limit
    rw [if_neg (by omega)]
  simp only at h3 h5
  rw [hlim] at h3 h5
  have hz : s.count = 0 := by
    rw [h5, List.length_take]
    unfold down
    rw [if_neg (by omega)]
    omega
  refine ⟨{ s with files := s.files + more.length }, ?_, ?_, ?_⟩
  · unfold main
    rw [processFiles_append, h1, bind_ok]
    simp only [if_true]
    exact processFiles_zero w c fuel more s hz
  · simp only
    rw [h3.recs, List.length_take]
    simp only
    omega
  · exact ⟨h3.recs, h3.samps, h3.printed, h3.traces, h3.binary, h3.output⟩

/-! ## C47 -/

/-- **C47.** The totals that `-s` prints are the number of records processed, the sum of their numbers
of samples, and the number of files given. -/
theorem C47_totals (h : Run env be base rnd rate leaps signed files c mp rp l stop keep x)
    (fuel : Nat) (hf : ∀ f ∈ l, f.recs.length < fuel) :
    ∃ s, main (world env be base rnd rate leaps signed files c) c fuel (l.map InFile.path) =
        .ok (true, s) ∧ s.recs = (processed c keep l).length ∧
      s.samps = ((processed c keep l).map fun e => e.2.1.samplecnt).sum ∧ s.files = l.length := by
  obtain ⟨s, h1, h2, h3⟩ := run_all h fuel hf
  refine ⟨s, h1, ?_, ?_, h3⟩
  · rw [h2.recs]; simp
  · rw [h2.samps]; simp

/-! ## C48 -/

/-- **C48 (partial).** The test of `-ts` and `-te` keeps a record exactly when its time span, from the
first to the last sample, has an instant in common with the window, both closed.  Missing: windows
whose start is after their end, see `C48_reversed_window_violated`. -/
theorem C48_window_partial (hr : Rounding rnd) (m : Msr) (stop : Int)
    (hs : SampleTime.endtime rnd leaps m.starttime m.samplecnt (rate m.samprate) = .ok stop)
    (hab : ∀ a b, given c.starttime = some a → given c.endtime = some b → a ≤ b) :
    ∃ b, inWindow (world env be base rnd rate leaps signed files c) c m = .ok b ∧
      (b = true ↔ Meets (given c.starttime) (given c.endtime) m.starttime stop) := by
  have h0 : m.starttime ≤ stop := (SampleTime.C09_end hr _ _ _ _).2 _ hs
  obtain ⟨b, h1, h2⟩ := inWindow_eq (w := world env be base rnd rate leaps signed files c) (c := c)
    (m := m) (stop := stop) (fun _ => hs) h0
  exact ⟨b, h1, by rw [h2, meets_iff h0 hab]⟩

/-- **C48 (violated).** A window whose start is after its end keeps the records that span both times,
though it has no instant at all: `-ts 20 -te 10` keeps a record from 5 to 25. -/
theorem C48_reversed_window_violated :
    let c : Config := { starttime := 20000000000, endtime := 10000000000 }
    let m : Msr := { starttime := 5000000000, samplecnt := 21 }
    let w := world env0 false 0 (fun x => x) (fun _ => 1) [] true (fun _ => none) c
    w.endtime m = .ok 25000000000 ∧ inWindow w c m = .ok true ∧
      ¬ Meets (given c.starttime) (given c.endtime) m.starttime 25000000000 := by
  refine ⟨by decide +kernel, by decide +kernel, ?_⟩
  rintro ⟨x, -, -, h1, h2⟩
  have := h1 20000000000 (by decide)
  have := h2 10000000000 (by decide)
  omega

example : ∃ (m : Msr) (c : Config) (stop : Int), Rounding (fun x => x) ∧
    SampleTime.endtime (fun x => x) [] m.starttime m.samplecnt 1 = .ok stop ∧
    given c.starttime = some 7 ∧ given c.endtime = some 9 ∧ m.starttime < 7 ∧ 9 < stop :=
  ⟨{ starttime := 5, samplecnt := 3 }, { starttime := 7, endtime := 9 }, 2000000005,
    Spec.rounding_id, by decide +kernel, by decide, by decide, by decide, by decide⟩

/-! ## C83 -/

/-- **C83 (-D).** Printing all samples prints each once, in order, in lines of up to 6; there are
`n / 6 + 1` lines, so the last is blank if the number of samples is a multiple of 6. -/
theorem C83_all_samples :
    (∀ v : List Int, v ≠ [] → (sampleLines 2 (.ints v)).flatMap cellsOf = v.map .int ∧
      (sampleLines 2 (.ints v)).length = v.length / 6 + 1) ∧
    (∀ v : List Nat, v ≠ [] → (sampleLines 2 (.floats v)).flatMap cellsOf = v.map .float ∧
      (sampleLines 2 (.floats v)).length = v.length / 6 + 1) ∧
    (∀ v : List Nat, v ≠ [] → (sampleLines 2 (.doubles v)).flatMap cellsOf = v.map .double ∧
      (sampleLines 2 (.doubles v)).length = v.length / 6 + 1) ∧
    ∀ x : Samples, (∀ b, x ≠ .text b) → ∀ r ∈ sampleLines 2 x, ∃ v : List Cell,
      r = .row v ∧ v.length ≤ 6 := by
  have hlen : ∀ (l : List Cell) k cnt, (rows l k cnt).length = k := by
    intro l k
    induction k with
    | zero => intro cnt; rfl
    | succ k ih => intro cnt; rw [rows, List.length_cons, ih]
  have hall : ∀ l : List Cell, (rows l (l.length / 6 + 1) 0).flatMap cellsOf = l := by
    intro l
    rw [rows_cells, List.drop_zero, List.take_of_length_le (by omega)]
  refine ⟨fun v _ => ⟨?_, ?_⟩, fun v _ => ⟨?_, ?_⟩, fun v _ => ⟨?_, ?_⟩, fun x hx r hr => ?_⟩
  · have := hall (v.map .int)
    rw [List.length_map] at this
    exact this
  · exact hlen _ _ _
  · have := hall (v.map .float)
    rw [List.length_map] at this
    exact this
  · exact hlen _ _ _
  · have := hall (v.map .double)
    rw [List.length_map] at this
    exact this
  · exact hlen _ _ _
  · cases x with
    | text b => exact absurd rfl (hx b)
    | _ => exact rows_mem _ _ _ r hr

/-- **C83 (-d).** Without `-D` only one line, with the first 6 samples, is printed. -/
theorem C83_first_samples :
    (∀ v : List Int, sampleLines 1 (.ints v) = [.row ((v.take 6).map .int)]) ∧
    (∀ v : List Nat, sampleLines 1 (.floats v) = [.row ((v.take 6).map .float)]) ∧
    ∀ v : List Nat, sampleLines 1 (.doubles v) = [.row ((v.take 6).map .double)] := by
  refine ⟨fun v => ?_, fun v => ?_, fun v => ?_⟩ <;>
    simp [sampleLines, cells, rows, List.map_take]

/-- **C83 (partial, text).** Text without NUL is printed completely after a title and with a newline
at the end, with `-d` and with `-D`.  Missing: texts with NUL and texts whose length is a multiple of
199, see the next two theorems. -/
theorem C83_text_partial (k : Nat) (b : List UInt8) (h0 : (0 : UInt8) ∉ b)
    (hl : b.length % 199 ≠ 0 ∨ b = []) :
    sampleLines k (.text b) = [.text ("Text Data:\n".toList.map (fun c => c.toNat.toUInt8) ++ b ++ [10])] := by
  have ht : "Text Data:\n".toList.map (fun c => c.toNat.toUInt8) = textTitle := by decide
  rw [ht]
  unfold sampleLines
  simp only
  rw [textPieces_eq b h0, if_neg (by rintro ⟨h1, h2⟩; exact hl.elim (fun h => h h1) h2),
    List.append_assoc]

/-- **C83 (violated for text of 199 bytes or a multiple).** The newline after the text is lost, so
that what follows is on the same line. -/
theorem C83_text_newline_violated (k : Nat) (b : List UInt8) (h0 : (0 : UInt8) ∉ b) (hb : b ≠ [])
    (hl : b.length % 199 = 0) :
    sampleLines k (.text b) = [.text ("Text Data:\n".toList.map (fun c => c.toNat.toUInt8) ++ b)] := by
  have ht : "Text Data:\n".toList.map (fun c => c.toNat.toUInt8) = textTitle := by decide
  rw [ht]
  unfold sampleLines
  simp only
  rw [textPieces_eq b h0, if_pos ⟨hl, hb⟩]

/-- **C83 (violated for text with a NUL).** What follows a NUL in the text (up to the next piece of 199
bytes) is not printed: of "AB", NUL, "CD" only "AB" is. -/
theorem C83_text_nul_violated : sampleLines 2 (.text [65, 66, 0, 67, 68]) =
    [.text ("Text Data:\n".toList.map (fun c => c.toNat.toUInt8) ++ [65, 66, 10])] := by
  rw [show sampleLines 2 (.text [65, 66, 0, 67, 68]) =
    [.text (textTitle ++ textPieces [65, 66, 0, 67, 68])] from rfl, textPieces]
  decide

example : (0 : UInt8) ∉ List.replicate 398 (65 : UInt8) ∧ (List.replicate 398 (65 : UInt8)).length % 199 = 0 ∧
    List.replicate 398 (65 : UInt8) ≠ [] ∧ (List.replicate 397 (65 : UInt8)).length % 199 ≠ 0 := by
  refine ⟨?_, by rw [List.length_replicate], by rw [Ne, List.replicate_eq_nil_iff]; decide,
    by rw [List.length_replicate]; decide⟩
  intro h
  exact absurd (List.eq_of_mem_replicate h) (by decide)

/-! ## C84 -/

/-- **C84.** What the program prints, writes to the file of samples and adds to the trace list is
made of exactly the records to be processed, in their order: with `-O` each record line has the offset
of the record in its file, the samples follow the record they belong to, with `-b` the samples of
all records that have some are written, and with `-T` and the like every record is added once. -/
theorem C84_outputs (h : Run env be base rnd rate leaps signed files c mp rp l stop keep x)
    (fuel : Nat) (hf : ∀ f ∈ l, f.recs.length < fuel) :
    ∃ s, main (world env be base rnd rate leaps signed files c) c fuel (l.map InFile.path) =
        .ok (true, s) ∧
      s.printed = (processed c keep l).flatMap (linesOf c x) ∧
      s.traces = (if c.tracegapsum || c.tracegaponly then
        (processed c keep l).map fun e => e.2.1 else []) ∧
      s.binary = (if c.binfile then
        ((processed c keep l).map x).filter fun y => decide (y.count > 0) else []) := by
  obtain ⟨s, h1, h2, -⟩ := run_all h fuel hf
  refine ⟨s, h1, ?_, ?_, ?_⟩
  · rw [h2.printed]; rfl
  · rw [h2.traces]; rfl
  · rw [h2.binary]; rfl

/-! ## The hypotheses are met -/

/-- A record with a right CRC. -/
def checked : Spec.Record3.Rec := { sample with crc := 0x668df61a }

theorem checked_valid : checked.Valid := by
  constructor <;> decide

/-- What it is parsed to. -/
def checkedMsr : Msr := Proof.Record3.header false checked checked.payload.length checked.bytes.length
  1325383384000000005

theorem checked_start : checkedMsr.starttime = 1325383384000000005 := by decide +kernel

theorem checked_count : checkedMsr.samplecnt > 0 := by decide +kernel

theorem checked_sid : checkedMsr.sid.takeWhile (· != 0) = [70, 68, 83, 78, 58, 88] := by decide +kernel

theorem checked_end : SampleTime.endtime (fun x => x) [] checkedMsr.starttime checkedMsr.samplecnt 1 =
    .ok 1325383387000000005 := by decide +kernel

theorem checked_alone : Alone env0 false true checked.bytes checkedMsr := by
  have := Record3.C30_crc_decides (Record2.unpack2 env0 false 0) 0 checked checked_valid (by decide)
    (by decide +kernel) [] false false
  rw [List.append_nil] at this
  unfold Alone
  have h1 : Model.Crc.msCrc32c false 0 (sample.bytes ++ []) sample.bytes.length 0 = some 0x668df61a#32 := by
    decide +kernel
  rw [Props.Crc.C17_is_crc32c_partial false 0 sample.bytes [] 0 (by decide) (Or.inr (Or.inl rfl))] at h1
  have h2 : ({ checked with crc := 0 } : Spec.Record3.Rec).bytes = sample.bytes := rfl
  rw [this, h2, Option.some.inj h1, if_pos (show checked.crc = (0x668df61a#32).toNat from rfl)]
  exact Proof.Reader.alone3 env0 checked checked_valid (by decide +kernel) (by decide) _
    (by decide +kernel) (by decide)

theorem checked_decodes (o : Opts) (ho : ∀ off mem m, o.unpack off mem m = withSamples false off mem m true)
    (pos : Int) : Decodes o (pos, checkedMsr, checked.bytes) (.text [65, 66, 67, 68]) := by
  intro off t
  left
  refine ⟨{ checkedMsr with samples := .text [65, 66, 67, 68] }, ?_, rfl⟩
  rw [ho]
  unfold withSamples
  have := Proof.Pack.unpackData_packed false false false off checked t 1325383384000000005 (by decide)
    (by decide) (by decide +kernel) (.text [65, 66, 67, 68]) 4 trivial (by decide) (by decide)
    (by decide) rfl (by decide +kernel)
  rw [if_pos ⟨rfl, checked_count⟩]
  simp only
  unfold checkedMsr
  rw [this]
  rfl

/-- Two files, with two records and with one. -/
def two : List InFile :=
  [⟨[97], [⟨[], checked.bytes, checkedMsr, checkedMsr⟩, ⟨[], checked.bytes, checkedMsr, checkedMsr⟩], [], none⟩,
   ⟨[98], [⟨[], checked.bytes, checkedMsr, checkedMsr⟩], [1, 2], none⟩]

/-- The names of these files. -/
def disk (path : List UInt8) : Option (List UInt8) :=
  if path = [97] then some (checked.bytes ++ checked.bytes)
  else if path = [98] then some (checked.bytes ++ [1, 2]) else none

theorem two_valid : ∀ f ∈ two, f.Valid env0 false false disk := by
  have h3 : Version3 checked.bytes := ⟨checked, checked_valid, rfl, by decide +kernel⟩
  intro f hf
  simp only [two, List.mem_cons, List.not_mem_nil, or_false] at hf
  rcases hf with rfl | rfl
  · refine ⟨by decide, by decide, by simp [InFile.name, disk, fileOf], by simp [InFile.recs, ofFile, expectedBytes, wanted], ?_, Or.inl ⟨?_, ?_, Or.inl (by decide)⟩⟩
    · intro e he
      simp only [List.mem_cons, List.not_mem_nil, or_false, or_self] at he
      subst he
      exact ⟨checked_alone, rfl⟩
    · intro e he
      simp only [List.mem_cons, List.not_mem_nil, or_false, or_self] at he
      subst he
      exact ⟨rfl, h3⟩
    · intro e he
      simp only [List.mem_cons, List.not_mem_nil, or_false, or_self] at he
      subst he
      exact Or.inl rfl
  · refine ⟨by decide, by decide, by simp [InFile.name, disk, fileOf], by simp [InFile.recs, ofFile, expectedBytes, wanted], ?_, Or.inl ⟨?_, ?_, Or.inl (by decide)⟩⟩
    · intro e he
      simp only [List.mem_cons, List.not_mem_nil, or_false] at he
      subst he
      exact ⟨checked_alone, rfl⟩
    · intro e he
      simp only [List.mem_cons, List.not_mem_nil, or_false] at he
      subst he
      exact ⟨rfl, h3⟩
    · intro e he
      simp only [List.mem_cons, List.not_mem_nil, or_false] at he
      subst he
      exact Or.inl rfl

/-- Options: a window around the third sample, a pattern, a limit, all outputs. -/
def options : Config :=
  { starttime := 1325383386000000000, endtime := 1325383386000000006, count := 2, printdata := 2,
    printoffset := true, binfile := true, outfile := true, tracegapsum := true,
    matching := some [42, 58, 63, 42], reject := some [42, 81, 42] }

theorem two_recs : ∀ f ∈ two, ∀ e ∈ f.recs, ∃ pos, e = (pos, checkedMsr, checked.bytes) := by
  intro f hf e he
  simp only [two, List.mem_cons, List.not_mem_nil, or_false] at hf
  rcases hf with rfl | rfl
  · simp only [InFile.recs, ofFile, List.map_cons, List.map_nil, expectedBytes] at he
    rw [if_pos (by rfl), if_pos (by rfl)] at he
    simp only [List.mem_cons, List.not_mem_nil, or_false] at he
    rcases he with rfl | rfl <;> exact ⟨_, rfl⟩
  · simp only [InFile.recs, ofFile, List.map_cons, List.map_nil, expectedBytes] at he
    rw [if_pos (by rfl)] at he
    simp only [List.mem_cons, List.not_mem_nil, or_false] at he
    exact ⟨_, he⟩

/-- A run: the third sample of each record is in the window, the pattern `:?` matches and `Q`
does not. -/
theorem two_run : Run env0 false 0 (fun x => x) (fun _ => 1) [] true disk options (some [.lit 58, .any])
    (some [.lit 81]) two (fun _ => 1325383387000000005) (fun _ => true)
    (fun _ => .text [65, 66, 67, 68]) where
  rounding := Spec.rounding_id
  patterns := by
    refine ⟨fun p hp => ?_, fun p hp => ?_, rfl, rfl⟩
    · cases hp
      intro t ht
      simp only [List.mem_cons, List.not_mem_nil, or_false] at ht
      rcases ht with rfl | rfl
      · exact by simp [Spec.Glob.Tok.WF]
      · trivial
    · cases hp
      intro t ht
      simp only [List.mem_cons, List.not_mem_nil, or_false] at ht
      rcases ht with rfl
      exact by simp [Spec.Glob.Tok.WF]
  valid := two_valid
  ends := by
    intro f hf e he
    obtain ⟨pos, rfl⟩ := two_recs f hf e he
    exact checked_end
  window := by
    intro a b ha hb
    have ha : a = 1325383386000000000 := by
      have := ha.symm.trans (show given options.starttime = some 1325383386000000000 by decide)
      exact Option.some.inj this
    have hb : b = 1325383386000000006 := by
      have := hb.symm.trans (show given options.endtime = some 1325383386000000006 by decide)
      exact Option.some.inj this
    omega
  wanted := by
    intro f hf e he
    obtain ⟨pos, rfl⟩ := two_recs f hf e he
    refine ⟨fun _ => ⟨⟨1325383386000000005, by
      show checkedMsr.starttime ≤ _
      rw [checked_start]; decide, by
      show (1325383386000000005 : Int) ≤ 1325383387000000005
      decide, ?_, ?_⟩, ?_, ?_⟩, fun _ => rfl⟩
    · intro t ht
      have := ht.symm.trans (show given options.starttime = some 1325383386000000000 by decide)
      rw [Option.some.inj this]
      decide
    · intro t ht
      have := ht.symm.trans (show given options.endtime = some 1325383386000000006 by decide)
      rw [Option.some.inj this]
      decide
    · intro p hp
      cases hp
      exact ⟨[70, 68, 83, 78], [58, 88], [], checked_sid, .char rfl (.char trivial .nil)⟩
    · intro p hp
      cases hp
      rintro ⟨a, m, c, h1, h2⟩
      cases h2 with
      | char h3 h4 =>
        cases h4
        change _ = _ at h3
        subst h3
        have hm : (81 : UInt8) ∈ checkedMsr.sid.takeWhile (· != 0) := by
          simp only at h1
          rw [h1]
          simp
        rw [checked_sid] at hm
        revert hm
        decide
  samples := by
    intro _ f hf e he
    obtain ⟨pos, rfl⟩ := two_recs f hf e he
    refine checked_decodes _ (fun off mem m => ?_) pos
    show withSamples false (0 + off) mem m true = _
    rw [Nat.zero_add]

/-- The run ends normally with the first two of the three records in the output. -/
example : ∃ s, main (world env0 false 0 (fun x => x) (fun _ => 1) [] true disk options) options 3
    [[97], [98]] = .ok (true, s) ∧ s.output = checked.bytes ++ checked.bytes := by
  obtain ⟨s, h1, h2⟩ := C45_output_file_partial two_run rfl 3 (by
    intro f hf
    simp only [two, List.mem_cons, List.not_mem_nil, or_false] at hf
    rcases hf with rfl | rfl <;> simp [InFile.recs, ofFile, expectedBytes, wanted])
  refine ⟨s, h1, ?_⟩
  rw [h2]
  simp [processed, limit, options, two, InFile.recs, ofFile, expectedBytes, wanted]

/-- The hypotheses of `C45_all`: the same files without options. -/
example : Run env0 false 0 (fun x => x) (fun _ => 1) [] true disk { outfile := true } none none two
    (fun _ => 1325383387000000005) (fun _ => true) (fun _ => .text []) where
  rounding := Spec.rounding_id
  patterns := ⟨by simp, by simp, rfl, rfl⟩
  valid := two_valid
  ends := two_run.ends
  window := by simp [given]
  wanted := by
    intro f hf e he
    obtain ⟨pos, rfl⟩ := two_recs f hf e he
    refine ⟨fun _ => ⟨⟨1325383386000000005, by
      show checkedMsr.starttime ≤ _
      rw [checked_start]; decide, by
      show (1325383386000000005 : Int) ≤ 1325383387000000005
      decide, ?_, ?_⟩, ?_, ?_⟩, fun _ => rfl⟩ <;>
      simp [given]
  samples := by simp

/-- The byte range `a@52-104` of the first file: the second record. -/
def second : InFile :=
  ⟨[97, 64, 53, 50, 45, 49, 48, 52], [⟨[], checked.bytes, checkedMsr, checkedMsr⟩,
    ⟨[], checked.bytes, checkedMsr, checkedMsr⟩], [], some ⟨[97], [53, 50, 45, 49, 48, 52], [53, 50], [49, 48, 52]⟩⟩

theorem second_recs : second.recs = [(52, checkedMsr, checked.bytes)] := by
  have e : (checked.bytes.length : Int) = 52 := by decide +kernel
  unfold InFile.recs second
  simp only [ofFile, List.map_cons, List.map_nil, expectedBytes, e, List.length_nil]
  rw [if_pos (by rfl), if_pos (by rfl)]
  rw [List.filter_cons_of_neg, List.filter_cons_of_pos]
  · rfl
  · simp only [decide_eq_true_eq, Cut.Has]
    decide +kernel
  · simp only [decide_eq_true_eq, Cut.Has]
    decide +kernel

theorem second_valid : second.Valid env0 false false disk := by
  have v := two_valid _ List.mem_cons_self
  refine ⟨⟨rfl, ⟨⟨by simp [Spec.PathRange.Digit], by decide⟩, ⟨by simp [Spec.PathRange.Digit], by decide⟩, Or.inr ⟨rfl, by decide⟩⟩, by decide, by decide,
    [⟨[], checked.bytes, checkedMsr, checkedMsr⟩], [⟨[], checked.bytes, checkedMsr, checkedMsr⟩], 0, rfl,
    Or.inl rfl, ?_⟩, by decide, v.exist, ?_, v.parsed, v.kind⟩
  · simp only [fileOf, List.flatMap_cons, List.flatMap_nil, List.append_nil, List.nil_append]
    decide +kernel
  · rw [second_recs]
    simp

/-- The hypotheses of `C45_output_file_partial` for a byte range. -/
example : Run env0 false 0 (fun x => x) (fun _ => 1) [] true disk { outfile := true } none none [second]
    (fun _ => 1325383387000000005) (fun _ => true) (fun _ => .text []) := by
  have hr : ∀ f ∈ [second], ∀ e ∈ f.recs, e = (52, checkedMsr, checked.bytes) := by
    intro f hf e he
    rw [List.mem_singleton] at hf
    subst hf
    rw [second_recs, List.mem_singleton] at he
    exact he
  refine ⟨Spec.rounding_id, ⟨by simp, by simp, rfl, rfl⟩, ?_, ?_, by simp [given], ?_, by simp⟩
  · intro f hf
    rw [List.mem_singleton] at hf
    exact hf ▸ second_valid
  · intro f hf e he
    rw [hr f hf e he]
    exact two_run.ends _ List.mem_cons_self (0, checkedMsr, checked.bytes)
      (by simp [InFile.recs, ofFile, expectedBytes, wanted])
  · intro f hf e he
    rw [hr f hf e he]
    refine ⟨fun _ => ⟨⟨1325383386000000005, by
      show checkedMsr.starttime ≤ _
      rw [checked_start]; decide, by
      show (1325383386000000005 : Int) ≤ 1325383387000000005
      decide, ?_, ?_⟩, ?_, ?_⟩, fun _ => rfl⟩ <;>
      simp [given]

/-- The hypotheses of `C45_until_error` and `C46_stops`: the first file as before, the second one
does not exist. -/
example : ∃ l : List Source,
    Inputs (world env0 false 0 (fun x => x) (fun _ => 1) [] true disk { count := 2 }) { count := 2 }
      (fun _ => true) (fun _ => .text []) l ∧ Fails 3 (keptOf (fun _ => true) l) ∧
    (2 : Int) ≤ (upto (keptOf (fun _ => true) l)).length := by
  refine ⟨[source ⟨[97], [⟨[], checked.bytes, checkedMsr, checkedMsr⟩,
    ⟨[], checked.bytes, checkedMsr, checkedMsr⟩], [], none⟩, ⟨[99], [], .genError⟩], ⟨?_, ?_, by simp⟩, ?_, ?_⟩
  · intro f hf
    simp only [List.mem_cons, List.not_mem_nil, or_false] at hf
    rcases hf with rfl | rfl
    · have v := two_valid _ (List.mem_cons_self)
      exact Or.inl (read_valid (w := world env0 false 0 (fun x => x) (fun _ => 1) [] true disk
        { count := 2 }) 0 v)
    · exact Or.inr ⟨by decide +kernel, rfl, rfl⟩
  · intro f hf e he
    exact ⟨true, rfl, fun _ => rfl, by simp⟩
  · refine ⟨⟨([], false), by simp [keptOf, Source.complete], rfl⟩, ?_⟩
    simp [keptOf, upto, source, InFile.recs, ofFile, expectedBytes, wanted, Source.complete]
  · simp [keptOf, upto, source, InFile.recs, ofFile, expectedBytes, wanted, Source.complete]

end Verif.Props.Msi
