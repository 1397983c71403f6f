import Verif.Proof.ReaderTop
import Verif.Props.Pack
/-!
# Reading files: C34, C35, C76 and C77

`Calls o (opened file 0 0) l ret`: calling `ms3_readmsr_selection` until no record is returned gives
the records `l`, each with its offset in the file, and then the return code `ret`.  `h` is the byte
order of the host (`true` for big-endian), `vc` and `skip` are `MSF_VALIDATECRC` and
`MSF_SKIPNOTDATA`, `sel` is the test of the selections if there are any.
-/
namespace Verif.Props.Reader
open Verif.Model Verif.Model.Bytes Verif.Model.Steim Verif.Model.Mem Verif.Model.Record3
  Verif.Model.Reader
open Verif.Model.Pack (msrPack)
open Verif.Proof.Reader Verif.Proof.Mem
open Verif.Props.Record3 (sample sample_valid)
open Verif.Props.Record2 (sample2 sample2_valid env0 head2)
open Verif.Props.Pack (Input Encodable timeOf seven everyTenth seven_input seven_encodable)
open Verif.Spec.Record3 (Signature2 Signature3)

/-! ## C34 -/

/-- **C34 (termination).** Every call on an open file ends, whatever the file holds and wherever the
reader is. -/
theorem C34_terminates (env : Record2.Env) (h : Bool) (base : Nat) (vc ud skip : Bool)
    (sel : Option (Msr → Bool)) (r : Reader) (h0 : 0 ≤ r.readoffset) :
    readmsr (opts env h base vc ud skip sel) r ≠ .err :=
  readmsr_ends _ (opts_ends env h base vc ud skip sel) r h0

example : 0 ≤ (opened [1, 2, 3] 0 0).readoffset := by decide

/-- **C34 (version 3).** A file of valid version 3 records, of any number, sizes and total length,
is read completely, with or without
unpacking of the samples: every record that is asked for is returned once, in the order of the file and
with its offset, then the end of the file is reported (or, if there was no record, that this is not a
file of records).  If skipping is asked for there may be any bytes in which no record begins before
the records and after the last; otherwise only up to 39 bytes after the last. -/
theorem C34_version3_records (env : Record2.Env) (base : Nat) (vc ud skip : Bool)
    (sel : Option (Msr → Bool)) (l : List Entry)
    (h3 : ∀ e ∈ l, Version3 e.bytes ∧ Alone env false vc e.bytes e.msr ∧
      Full env false vc ud e.bytes e.msr e.full)
    (hj : ∀ e ∈ l, e.junk = [] ∨ (skip = true ∧ NoRecord e.junk e.bytes))
    (tail : List UInt8) (ht : tail.length < 40 ∨ (skip = true ∧ NoRecord tail [])) :
    Calls (opts env false base vc ud skip sel) (opened (fileOf l tail) 0 0)
      (expected 0 (ofFile sel l)) (lastCode (expected 0 (ofFile sel l))) := by
  rw [← code_length]
  exact calls_entries (d := 1) l (Or.inl (by omega))
    (fun e he => piece_full (piece_of3 (h3 e he).1 (h3 e he).2.1).1 (h3 e he).2.2) (fun _ _ => Or.inr (Nat.one_dvd _))
    (fun e he k hk _ _ => Or.inr ((piece_of3 (h3 e he).1 (h3 e he).2.1).2 k hk)) hj
    (tail_any (Or.inl (by omega)) (Or.inr (Nat.one_dvd _)) ht) (Or.inr (Nat.one_dvd _))

/-- **C34 (partial, records in multiples of 64 bytes).** The same for a file of valid records of both versions whose lengths
are multiples of 64 bytes, version 2 with the blockette 1000 as first blockette and in either byte order on either
host, with up to 39 bytes after the last record.  Missing: records of other lengths or with another
first blockette in files beyond the size of the read buffer, for which `C34_boundary_violated`. -/
theorem C34_version2_records_partial (env : Record2.Env) (h : Bool) (base : Nat) (vc ud skip : Bool)
    (sel : Option (Msr → Bool)) (l : List Entry)
    (h2 : ∀ e ∈ l, ((h = false ∧ Version3 e.bytes) ∨ Version2First h e.bytes) ∧ Alone env h vc e.bytes e.msr ∧
      Full env h vc ud e.bytes e.msr e.full)
    (h64 : ∀ e ∈ l, 64 ∣ e.bytes.length) (hj : ∀ e ∈ l, e.junk = [])
    (tail : List UInt8) (ht : tail.length < 40) :
    Calls (opts env h base vc ud skip sel) (opened (fileOf l tail) 0 0)
      (expected 0 (ofFile sel l)) (lastCode (expected 0 (ofFile sel l))) :=
  kinds_calls (.inr (.inl ⟨fun e he => ⟨(h2 e he).1, h64 e he, hj e he⟩, ht⟩)) fun e he => (h2 e he).2

/-- **C34 (partial, mixed files).** Records of both versions, version 2 with any chain of
blockettes, with any bytes in which no record begins between them if skipping is asked for, in a file
smaller than the read buffer of 10 MiB. -/
theorem C34_mixed_records_partial (env : Record2.Env) (h : Bool) (base : Nat) (vc ud skip : Bool)
    (sel : Option (Msr → Bool)) (l : List Entry)
    (h23 : ∀ e ∈ l, ((h = false ∧ Version3 e.bytes) ∨ Version2 h e.bytes) ∧ Alone env h vc e.bytes e.msr ∧
      Full env h vc ud e.bytes e.msr e.full)
    (hj : ∀ e ∈ l, e.junk = [] ∨ (skip = true ∧ NoRecord e.junk e.bytes))
    (tail : List UInt8) (ht : tail.length < 40 ∨ (skip = true ∧ NoRecord tail []))
    (hs : (fileOf l tail).length < 10485760) :
    Calls (opts env h base vc ud skip sel) (opened (fileOf l tail) 0 0)
      (expected 0 (ofFile sel l)) (lastCode (expected 0 (ofFile sel l))) :=
  kinds_calls (.inr (.inr ⟨fun e he => (h23 e he).1, ⟨hj, ht⟩, hs⟩)) fun e he => (h23 e he).2

/-- **C34 (truncated file).** If the file ends within a record (after its header) the records before
it are returned, then the end of the file is reported. -/
theorem C34_truncated (env : Record2.Env) (base : Nat) (vc ud skip : Bool)
    (sel : Option (Msr → Bool)) (l : List Entry)
    (h3 : ∀ e ∈ l, Version3 e.bytes ∧ Alone env false vc e.bytes e.msr ∧
      Full env false vc ud e.bytes e.msr e.full)
    (hj : ∀ e ∈ l, e.junk = [] ∨ (skip = true ∧ NoRecord e.junk e.bytes))
    (b : List UInt8) (hb : Version3 b) (k : Nat) (h40 : 40 ≤ k) (hk : k < b.length) :
    Calls (opts env false base vc ud skip sel) (opened (fileOf l (b.take k)) 0 0)
      (expected 0 (ofFile sel l)) .endOfFile :=
  calls_entries (d := 1) l (Or.inl (by omega))
    (fun e he => piece_full (piece_of3 (h3 e he).1 (h3 e he).2.1).1 (h3 e he).2.2) (fun _ _ => Or.inr (Nat.one_dvd _))
    (fun e he k hk _ _ => Or.inr ((piece_of3 (h3 e he).1 (h3 e he).2.1).2 k hk)) hj
    (last := fun _ => .endOfFile) (tail_within hb h40 hk) (Or.inr (Nat.one_dvd _))

theorem sample_alone : ∃ m, Alone env0 false false sample.bytes m :=
  ⟨_, alone3 env0 sample sample_valid (by decide +kernel) (by decide) 1325383384000000005
    (by decide +kernel) (by decide)⟩

theorem sample_full : ∃ m m', Alone env0 false false sample.bytes m ∧
    Full env0 false false true sample.bytes m m' ∧ m'.samples = .text [65, 66, 67, 68] := by
  have ha := alone3 env0 sample sample_valid (by decide +kernel) (by decide) 1325383384000000005
    (by decide +kernel) (by decide)
  generalize hm : Proof.Record3.header false sample sample.payload.length sample.bytes.length
    1325383384000000005 = m at ha
  refine ⟨m, { m with samples := .text [65, 66, 67, 68] }, ha, ?_, rfl⟩
  intro align t eof
  rw [(piece3 sample_valid (by decide +kernel) ha).2.1 align t true eof]
  unfold withSamples
  have := Proof.Pack.unpackData_packed false false false align sample t 1325383384000000005 (by decide)
    (by decide) (by decide +kernel) (.text [65, 66, 67, 68]) 4 trivial (by decide) (by decide)
    (by decide) rfl (by decide +kernel)
  rw [hm] at this
  rw [if_pos ⟨rfl, by rw [← hm]; decide⟩, this, show assumed m.encoding = m.encoding by rw [← hm]; rfl]
  rfl

theorem sample_version3 : Version3 sample.bytes :=
  ⟨sample, sample_valid, rfl, by decide +kernel⟩

theorem sample2_first : Version2First false sample2.bytes :=
  ⟨sample2, sample2_valid, by decide, by decide +kernel, ⟨_, _, _, _, _, _, rfl⟩, rfl⟩

theorem sample2_version2 : Version2 false sample2.bytes :=
  ⟨sample2, sample2_valid, by decide, by decide +kernel, by decide +kernel, rfl⟩

theorem sample2_alone : ∃ m, Alone env0 false false sample2.bytes m := by
  obtain ⟨hs, -, h⟩ := Record2.C71_version2_fields env0 false 0 sample2 sample2_valid (by decide)
    (by decide +kernel) (by decide +kernel) [] false false
  rw [List.append_nil] at h
  exact ⟨_, h⟩

theorem junk_noRecord (b : List UInt8) : NoRecord [88, 88] b := by
  intro k hk
  have : k = 0 ∨ k = 1 := by simp at hk; omega
  refine ⟨?_, ?_⟩
  · rintro ⟨a, q, z, _, _, _, _, t, h, hl, ha, -⟩
    match a, hl with
    | x :: a, _ =>
      have hx := ha x (by simp)
      rcases this with rfl | rfl <;> (simp at h; rw [← h.1] at hx; revert hx; decide)
  · rintro ⟨a, q, z, t, h, -⟩
    rcases this with rfl | rfl <;> simp at h

/-- Two records of version 3 with two bytes of something else before each. -/
example : ∃ l : List Entry, l.length = 2 ∧
    (∀ e ∈ l, Version3 e.bytes ∧ Alone env0 false false e.bytes e.msr ∧
      Full env0 false false false e.bytes e.msr e.full) ∧
    ∀ e ∈ l, e.junk ≠ [] ∧ NoRecord e.junk e.bytes := by
  obtain ⟨m, hm⟩ := sample_alone
  refine ⟨[⟨[88, 88], sample.bytes, m, m⟩, ⟨[88, 88], sample.bytes, m, m⟩], rfl, ?_, ?_⟩ <;>
  · intro e he
    simp only [List.mem_cons, List.not_mem_nil, or_false, or_self] at he
    subst he
    first
      | exact ⟨sample_version3, hm, rfl⟩
      | exact ⟨by simp, junk_noRecord _⟩

/-- A record of version 2 of 128 bytes with a blockette 1000 first. -/
example : ∃ m, Version2First false sample2.bytes ∧ Version2 false sample2.bytes ∧
    Alone env0 false false sample2.bytes m ∧ 64 ∣ sample2.bytes.length := by
  obtain ⟨m, hm⟩ := sample2_alone
  exact ⟨m, sample2_first, sample2_version2, hm, by decide +kernel⟩

/-- Records of both versions in one file. -/
example : ∃ l : List Entry, l.length = 3 ∧ Kinds false false l [] ∧ ∀ e ∈ l, Alone env0 false false e.bytes e.msr ∧
    Full env0 false false false e.bytes e.msr e.full := by
  obtain ⟨m, hm⟩ := sample2_alone
  obtain ⟨m3, hm3⟩ := sample_alone
  refine ⟨[⟨[], sample2.bytes, m, m⟩, ⟨[], sample.bytes, m3, m3⟩, ⟨[], sample2.bytes, m, m⟩], rfl,
    .inr (.inr ⟨?_, ⟨by simp, .inl (by decide)⟩, ?_⟩), ?_⟩
  · intro e he
    simp only [List.mem_cons, List.not_mem_nil, or_false] at he
    rcases he with rfl | rfl | rfl
    · exact .inr sample2_version2
    · exact .inl ⟨rfl, sample_version3⟩
    · exact .inr sample2_version2
  · show ([] ++ sample2.bytes ++ ([] ++ sample.bytes ++ ([] ++ sample2.bytes ++ [])) ++ []).length < 10485760
    decide +kernel
  · intro e he
    simp only [List.mem_cons, List.not_mem_nil, or_false] at he
    rcases he with rfl | rfl | rfl
    · exact ⟨hm, rfl⟩
    · exact ⟨hm3, rfl⟩
    · exact ⟨hm, rfl⟩

example : 40 ≤ 45 ∧ 45 < sample.bytes.length := by decide +kernel

/-- A version 3 record that leaves 44 bytes of the read buffer. -/
def large : Spec.Record3.Rec := { sample with payload := List.replicate 10485668 65 }

theorem large_length : large.bytes.length = 10485716 := by
  have h0 := Proof.Repack.bytes_length large
  have h1 : large.sid.length = 6 := rfl
  have h2 : large.extra.length = 2 := rfl
  have h3 : large.payload.length = 10485668 := List.length_replicate
  omega

theorem large_valid : large.Valid := by
  constructor
  case payload =>
    show (List.replicate 10485668 (65 : UInt8)).length < _
    rw [List.length_replicate]
    decide
  all_goals (simp only [large]; decide)

/-- **C34 (violated at the end of the read buffer).** If 40 to 47 bytes of a version 2 record are at
the end of the full read buffer, detecting its length reads beyond the buffer: here a version 3
record of 10485716 bytes is followed by a version 2 record, and the second call reads outside the
buffer. -/
theorem C34_boundary_violated : ∃ b q m m2, Version3 b ∧ Alone env0 false false b m ∧
    Version2First false q ∧ Alone env0 false false q m2 ∧
    ∃ r', readmsr (opts env0 false 0 false false false none) (opened (b ++ q) 0 0) =
        .ok (.record m, r') ∧
      readmsr (opts env0 false 0 false false false none) r' = .oob := by
  have hM : MAXRECLEN = 10485760 := rfl
  have hl := large_length
  have hm := alone3 env0 large large_valid (by omega) (by show sample.sid.length ≤ 63; decide)
    1325383384000000005 (by show time2nstime 2012 1 2 3 4 5 = _; decide +kernel) (by decide)
  generalize Proof.Record3.header false large _ _ _ = m at hm
  have h3 : Version3 large.bytes := ⟨large, large_valid, rfl, by omega⟩
  obtain ⟨m2, hm2⟩ := sample2_alone
  refine ⟨large.bytes, sample2.bytes, m, m2, h3, hm, sample2_first, hm2, ?_⟩
  refine boundary (j := 44) (piece_of3 h3 hm).1 (by omega) (by omega) (by omega) (by decide +kernel) ?_
  exact (Proof.Detect.sig2_iff _ (by decide +kernel)).1 (by decide +kernel)

/-! ## C35 -/

/-- **C35 (partial).** Whatever a file holds, if no version 2 record begins anywhere in it, each
record returned is the one that the file has at the offset given by the stream position, the records
do not overlap and are in the order of the file, and no offset is before the start of the range that
is read.  Missing: files with version 2 records, see `C35_second_blockette_violated` (for valid
records of both versions the offsets are in `C34_mixed_records_partial`). -/
theorem C35_offsets_partial (env : Record2.Env) (h : Bool) (base : Nat) (vc ud skip : Bool)
    (sel : Option (Msr → Bool)) (file : List UInt8) (start stop : Int)
    (hno : ∀ p, ¬ Signature2 (file.drop p)) (l : List (Int × Msr)) (ret : Ret)
    (hc : Calls (opts env h base vc ud skip sel) (opened file start stop) l ret) :
    Placed (opts env h base vc ud skip sel) file start l := by
  have h1 := calls_placed (opts_ends env h base vc ud skip sel) (sane3 hno) _ l ret
    (sync_opened file start stop) hc
  cases l with
  | nil => trivial
  | cons a l =>
    refine ⟨?_, h1.2⟩
    have := h1.1
    simp only [opened] at this
    split at this <;> omega

/-- No version 2 record begins in a file of a version 3 record. -/
example : ∀ p, ¬ Signature2 (sample.bytes.drop p) := by
  intro p hs
  by_cases hp : p < 53
  · have hh : ∀ p, p < 53 → 27 ≤ (sample.bytes.drop p).length →
        Model.Detect.validHeader2 ((sample.bytes.drop p).take 27) = false := by decide +kernel
    have h27 : 27 ≤ (sample.bytes.drop p).length := by
      obtain ⟨a, q, z, b, c, d, e, t, hb, h1, -, -, -, h2, -⟩ := hs
      rw [hb]; simp; omega
    have h40 : 40 ≤ (sample.bytes.drop p ++ List.replicate 40 0).length := by simp
    have := (Proof.Detect.sig2_iff _ h40).2 (sig2_append _ hs)
    rw [List.take_append_of_le_length h27, hh p hp h27] at this
    cases this
  · rw [List.drop_of_length_le (by rw [show sample.bytes.length = 52 by decide +kernel]; omega)] at hs
    obtain ⟨a, q, z, b, c, d, e, t, hb, -⟩ := hs
    simp at hb

/-- The return code of the second call. -/
def second (o : Opts) (r : Reader) : Res Ret :=
  (readmsr o r).bind fun p => (readmsr o p.2).bind fun p => .ok p.1

/-- A version 2 record of 128 bytes with a second blockette 1000 with another length. -/
def twice (exponent : UInt8) : List UInt8 :=
  head2 ++ [3, 232, 0, 56, 3, 1, 7, 0] ++ [3, 232, 0, 0, 3, 1, exponent, 0] ++ List.replicate 64 0

/-- **C35 (violated).** The length of a second blockette 1000 moves the stream position: the record
that follows is lost, or the position is negative and the next call has undefined behaviour. -/
theorem C35_second_blockette_violated :
    second (opts env0 false 0 false false false none) (opened (twice 7 ++ twice 7) 0 0) ≠
        .ok .endOfFile ∧
      second (opts env0 false 0 false false false none) (opened (twice 20 ++ twice 7) 0 0) =
        .ok .endOfFile ∧
      second (opts env0 false 0 false false false none) (opened (twice 31 ++ twice 7) 0 0) = .ub := by
  decide +kernel

/-! ## C76: the return code at the end -/

/-- **C76 (partial).** After the records of a file of version 3 records of which at least one is
asked for, the end of the file is reported.  Missing: files of which no record is asked for, see
`C76_none_selected_violated`. -/
theorem C76_end_of_file_partial (env : Record2.Env) (base : Nat) (vc ud : Bool)
    (sel : Option (Msr → Bool)) (l : List Entry)
    (h3 : ∀ e ∈ l, Version3 e.bytes ∧ Alone env false vc e.bytes e.msr ∧
      Full env false vc ud e.bytes e.msr e.full) (hj : ∀ e ∈ l, e.junk = [])
    (hsome : ∃ e ∈ l, wanted sel e.msr = true) :
    Calls (opts env false base vc ud false sel) (opened (fileOf l []) 0 0)
      (expected 0 (ofFile sel l)) .endOfFile := by
  have := C34_version3_records env base vc ud false sel l h3 (fun e he => Or.inl (hj e he)) []
    (Or.inl (by simp))
  have hne : ∀ (l : List Entry) pos, (∃ e ∈ l, wanted sel e.msr = true) →
      expected pos (ofFile sel l) ≠ [] := by
    intro l
    induction l with
    | nil => rintro _ ⟨_, he, -⟩; cases he
    | cons a l ih =>
      rintro pos ⟨e, he, hw⟩
      show (if wanted sel a.msr then _ else _) ≠ _
      split
      · simp
      · rename_i hn
        rcases List.mem_cons.1 he with rfl | he
        · exact absurd hw hn
        · exact ih _ ⟨e, he, hw⟩
  unfold lastCode at this
  rw [if_neg (hne l 0 hsome)] at this
  exact this

example : ∃ e : Entry, Version3 e.bytes ∧ Alone env0 false false e.bytes e.msr ∧ e.junk = [] ∧
    wanted none e.msr = true := by
  obtain ⟨m, hm⟩ := sample_alone
  exact ⟨⟨[], sample.bytes, m, m⟩, sample_version3, hm, rfl, rfl⟩

/-- **C76 (violated).** If the selections match no record of a file of valid records, the reader
reports that the file has no records. -/
theorem C76_none_selected_violated : ∃ b m, Version3 b ∧ Alone env0 false false b m ∧
    Calls (opts env0 false 0 false false false (some fun _ => false)) (opened b 0 0) [] .notSeed := by
  obtain ⟨m, hm⟩ := sample_alone
  refine ⟨sample.bytes, m, sample_version3, hm, ?_⟩
  have := C34_version3_records env0 0 false false false (some fun _ => false) [⟨[], sample.bytes, m, m⟩]
    (by intro e he; simp only [List.mem_cons, List.not_mem_nil, or_false] at he; subst he
        exact ⟨sample_version3, hm, rfl⟩)
    (by intro e he; simp only [List.mem_cons, List.not_mem_nil, or_false] at he; subst he
        exact Or.inl rfl) [] (Or.inl (by simp))
  have e : fileOf [⟨[], sample.bytes, m, m⟩] [] = sample.bytes := by simp [fileOf]
  rw [e] at this
  exact this

/-! ## C77: from the packer to a file and back -/

/-- **C77.** The version 3 records that `msr3_pack` makes of a series of samples with flushing, one
after the other in a file, are read back with unpacking and validation of the CRC as records that
have all the samples in order, each with the time of its first sample, and then the end of the
file. -/
theorem C77_pack_and_read (env : Record2.Env) (base : Nat) (skip : Bool) (nr : Nat → Nat)
    (sampletime : Int → Nat → Nat → Out Int) (h : Bool) (m : Msr) (junk : List UInt8)
    (i : Input nr sampletime m) (e : Encodable m)
    (hj : (packReclen m.reclen).toNat - 40 ≤ junk.length) :
    ∃ p l, msrPack nr sampletime h m true junk (m.samples.count + 1) = .ok p ∧
      Calls (opts env false base true true skip none) (opened p.records.flatten 0 0) l .endOfFile ∧
      Covers m.samples (timeOf sampletime m) 0 l m.samples.count := by
  obtain ⟨p, h1, -, -, h4⟩ := Pack.C31_pack_keeps_samples_partial nr sampletime h m junk i e hj
  rcases Proof.PackRead.packed_records nr sampletime h m true junk i e.header hj with
    ⟨p', h1', h2, -, h3⟩ | ⟨h1', -⟩
  · rw [h1] at h1'
    injection h1' with hp
    subst hp
    have hpk : p.packed = m.samples.count := by
      obtain ⟨p', h1', h5, -⟩ := Pack.C31_pack_keeps_samples_partial nr sampletime h m junk i e hj
      rw [h1] at h1'
      injection h1' with hp
      rw [hp]; exact h5
    rw [hpk] at h2
    obtain ⟨l, hc, -, hf, hcov⟩ := items_divides env base skip m.samples (timeOf sampletime m) _
      (fun a n r hr => by
        intro h2
        obtain ⟨m', w, u⟩ := hr.1 h2
        exact ⟨m', ⟨w.2.1, w.1, w.2.2.1⟩, u⟩) p.records 0 m.samples.count h2
    refine ⟨p, expected 0 (items (opts env false base true true skip none) l), h1, ?_, hcov 0⟩
    have := file_calls (opts_ends env false base true true skip none)
      (tail_short (opts env false base true true skip none) [] (d := 1) (Or.inr (Nat.one_dvd _))
        (by simp)) l hf (Or.inr (Nat.one_dvd _))
    rw [List.append_nil, hc, code_length] at this
    have hne : expected 0 (items (opts env false base true true skip none) l) ≠ [] := by
      intro hn
      have := hcov 0
      rw [hn] at this
      have hs := i.some
      unfold Covers at this
      omega
    unfold lastCode at this
    rw [if_neg hne] at this
    exact this
  · rw [h1] at h1'
    cases h1'

example : Input id everyTenth seven ∧ Encodable seven := ⟨seven_input, seven_encodable⟩

end Verif.Props.Reader
