import Verif.Proof.SelectFile
/-!
# Selection files (C90)

`ms3_readselectionsfile` on the text of a file, and the records selected afterwards.  The terms are defined
in `Verif.Spec.SelectFile` and `Verif.Props.SelectFileDefs`.
-/
namespace Verif.Props.SelectFile
open Verif.Model.Glob hiding Res
open Verif.Model.Select Verif.Model.SelectFile
open Verif.Spec Verif.Spec.Glob Verif.Spec.Select Verif.Spec.TimeStr Verif.Spec.SelectFile
open Verif.Props.Select Verif.Proof.SelectFile

/-- **C90.** Reading a file of well-formed lines adds exactly what its lines ask for: the value returned is
the number of lines that ask for something, and afterwards a record is selected exactly if it was requested
before or one of the lines asks for it.  Lines may end in any white space, the last one without newline.

Missing: lines of more than 197 bytes (`C90_long_line_violated`), times that cannot be converted
(`C90_bad_time_violated`), lines in neither format (`C90_unrecognized_line_violated`), and what C44 and C70
leave out. -/
theorem C90_file_requests_partial (signed : Bool) (rnd : Rat → Rat) (hr : Rounding rnd) (last : Bool)
    {qs : List Request} (hqs : ∀ q ∈ qs, Valid q) {l : List (List UInt8 × Option Request)}
    (hline : ∀ p ∈ l, Line p.1 p.2) (htext : ∀ p ∈ l, LineText p.1)
    (hvalid : ∀ q ∈ l.filterMap (·.2), Valid q) :
    ∃ sels, readselectionsfile signed rnd (build qs) (some (fileText (l.map (·.1)) last)) =
        .ok { sels, ret := (l.filterMap (·.2)).length } ∧
      ∀ r, Proper r → ∃ x, matchSelect signed sels r.sid r.start r.stop r.version = .ok x ∧
        (x.isSome = true ↔ (∃ q ∈ l.filterMap (·.2), Selects (charVal signed) q r) ∨
          ∃ q ∈ qs, Selects (charVal signed) q r) := by
  have hmem : ∀ p ∈ l, ∀ q ∈ p.2, q ∈ l.filterMap (·.2) := by
    intro p hp q hq
    exact List.mem_filterMap.2 ⟨p, hp, hq⟩
  have hl : Lines l := ⟨hline, htext, fun p hp q hq f hf => ((hvalid q (hmem p hp q hq)).first f hf).2,
    fun p hp q hq f hf => ((hvalid q (hmem p hp q hq)).last f hf).2⟩
  refine ⟨build ((l.filterMap (·.2)).reverse ++ qs), ?_, ?_⟩
  · unfold readselectionsfile
    simp only
    rw [readLines_file signed rnd hr last l (build qs) 0 _ hl (by omega), after_build]
    simp [List.filterMap_map, Function.comp_def]
  · intro r hp
    have hall : ∀ q ∈ (l.filterMap (·.2)).reverse ++ qs, Valid q := by
      intro q hq
      rcases List.mem_append.1 hq with hq | hq
      · exact hvalid q (List.mem_reverse.1 hq)
      · exact hqs q hq
    obtain ⟨x, hx, hi⟩ := C44_selected_iff_requested_partial signed hall hp
    refine ⟨x, hx, hi.trans ?_⟩
    constructor
    · rintro ⟨q, hq, hs⟩
      rcases List.mem_append.1 hq with hq | hq
      · exact Or.inl ⟨q, List.mem_reverse.1 hq, hs⟩
      · exact Or.inr ⟨q, hq, hs⟩
    · rintro (⟨q, hq, hs⟩ | ⟨q, hq, hs⟩)
      · exact ⟨q, List.mem_append_left _ (List.mem_reverse.2 hq), hs⟩
      · exact ⟨q, List.mem_append_right _ hq, hs⟩

/-! ## Examples -/

/-- The bytes of an ASCII text. -/
def bytes (s : String) : List UInt8 := s.toList.map fun c => UInt8.ofNat c.toNat

/-- `FDSN:IU_*` -/
def patternIU : List Tok :=
  [.lit 70, .lit 68, .lit 83, .lit 78, .lit 58, .lit 73, .lit 85, .lit 95, .star]

/-- The request of the line `FDSN:IU_* 2010-01-01 2011,001,00:00:00.5 2`. -/
def requestIU : Request :=
  ⟨patternIU, some (Fields.instant ⟨2010, daysBeforeMonth 2010 1 + 1, 0, 0, 0, 0⟩),
    some (Fields.instant ⟨2011, 1, 0, 0, 0, 500000000⟩), 2⟩

/-- The request of the line `IU ANMO -- BH? M 2012/1/5T10:30Z`. -/
def requestANMO : Request :=
  ⟨sidToks [.lit 73, .lit 85] [.lit 65, .lit 78, .lit 77, .lit 79] [] (.lit 66) (.lit 72) .any,
    some (Fields.instant ⟨2012, daysBeforeMonth 2012 1 + 5, 10, 30, 0, 0⟩), none, 0⟩

/-- A file of four lines. -/
def sample : List (List UInt8 × Option Request) :=
  [(bytes "# Selections", none), (bytes "FDSN:IU_*\t2010-01-01 2011,001,00:00:00.5  2", some requestIU),
   (bytes "", none), (bytes " IU ANMO -- BH? M 2012/1/5T10:30Z ", some requestANMO)]

theorem blank_of (s : List UInt8) (h : s.all (fun b => decide (Space b)) = true) : Blank s := by
  intro b hb
  exact of_decide_eq_true (List.all_eq_true.1 h b hb)

theorem field_of (f : List UInt8) (h : (!f.isEmpty && f.all fun b => !decide (Space b)) = true) :
    Field f := by
  simp only [Bool.and_eq_true, List.all_eq_true] at h
  refine ⟨?_, fun b hb => by simpa using h.2 b hb⟩
  rintro rfl
  simp at h

theorem space_of (s : List UInt8) (h : (s.head?.all fun b => decide (Space b)) = true) :
    ∀ b u, s = b :: u → Space b := by
  rintro b u rfl
  simpa using h

/-- The hypotheses of C90 are met by this file. -/
theorem sample_lines : (∀ p ∈ sample, Line p.1 p.2) ∧ (∀ p ∈ sample, LineText p.1) ∧
    ∀ q ∈ sample.filterMap (·.2), Valid q := by
  refine ⟨?_, ?_, ?_⟩
  · intro p hp
    simp only [sample, List.mem_cons, List.not_mem_nil, or_false] at hp
    rcases hp with rfl | rfl | rfl | rfl
    · exact Line.comment (ws := []) (t := bytes " Selections") (blank_of _ (by decide))
    · refine Line.request (fs := [render patternIU, bytes "2010-01-01", bytes "2011,001,00:00:00.5", bytes "2"])
        ?_ (by rintro f t h; cases h; decide) (.sidVersion ?_ ?_ ?_ (by decide))
      · exact .cons (ws := []) (rest := bytes "\t2010-01-01 2011,001,00:00:00.5  2") (blank_of _ (by decide))
          (field_of _ (by decide)) (space_of _ (by decide))
          (.cons (ws := bytes "\t") (rest := bytes " 2011,001,00:00:00.5  2") (blank_of _ (by decide))
            (field_of _ (by decide)) (space_of _ (by decide))
            (.cons (ws := bytes " ") (rest := bytes "  2") (blank_of _ (by decide))
              (field_of _ (by decide)) (space_of _ (by decide))
              (.cons (ws := bytes "  ") (rest := []) (blank_of _ (by decide))
                (field_of _ (by decide)) (space_of _ (by decide)) (.nil (blank_of _ (by decide))))))
      · exact TimeText.monthDay (ys := "2010".toList) (ms := "01".toList) (ds := "01".toList) (clk := [])
          (z := []) (a := '-') (b := '-') (y := 2010) (mo := 1) (d := 1) (h := 0) (m := 0) (s := 0) (n := 0)
          rfl ⟨by decide, by decide, by decide⟩ ⟨by decide, by decide, by decide⟩
          ⟨by decide, by decide, by decide⟩ (Or.inl rfl) (Or.inl rfl) .none (Or.inl rfl) (by decide)
          (by decide) (by decide) ⟨by decide, by decide⟩ (by decide) (by decide) (by decide)
          (by unfold InInt64; decide +kernel)
      · exact TimeText.seed (ys := "2011".toList) (ds := "001".toList) (clk := ",00:00:00.5".toList)
          (z := []) (y := 2011) (d := 1) (h := 0) (m := 0) (s := 0) (n := 500000000)
          rfl ⟨by decide, by decide, by decide⟩ ⟨by decide, by decide, by decide⟩
          (@Clock.fraction _ _ ',' ['0', '0'] 0 ':' ['0', '0'] 0 ':' ['0', '0'] 0 ['5'] 5 (by decide)
            ⟨by decide, by decide, by decide⟩ (by decide) ⟨by decide, by decide, by decide⟩ (by decide)
            ⟨by decide, by decide, by decide⟩ ⟨by decide, by decide, by decide⟩ (by decide))
          (Or.inl rfl) (by decide) (by decide) ⟨by decide, by decide⟩ (by decide) (by decide) (by decide)
          (by unfold InInt64; decide +kernel)
      · exact ⟨by decide, by decide, by decide⟩
    · exact Line.blank (blank_of _ (by decide))
    · refine Line.request (fs := [bytes "IU", bytes "ANMO", bytes "--", render [.lit 66, .lit 72, .any],
        bytes "M", bytes "2012/1/5T10:30Z"]) ?_ (by rintro f t h; cases h; decide) (.codesFrom (.seed
          (Or.inr ⟨rfl, by decide⟩) (Or.inr ⟨rfl, by decide⟩) (Or.inl ⟨rfl, rfl⟩) (by simp [Place])
          (by simp [Place]) trivial) ?_ ?_ (Or.inr ⟨⟨77, by decide, by decide⟩, rfl⟩) ?_)
      · exact .cons (ws := bytes " ") (rest := bytes " ANMO -- BH? M 2012/1/5T10:30Z ")
          (blank_of _ (by decide)) (field_of _ (by decide)) (space_of _ (by decide))
          (.cons (ws := bytes " ") (rest := bytes " -- BH? M 2012/1/5T10:30Z ") (blank_of _ (by decide))
            (field_of _ (by decide)) (space_of _ (by decide))
            (.cons (ws := bytes " ") (rest := bytes " BH? M 2012/1/5T10:30Z ") (blank_of _ (by decide))
              (field_of _ (by decide)) (space_of _ (by decide))
              (.cons (ws := bytes " ") (rest := bytes " M 2012/1/5T10:30Z ") (blank_of _ (by decide))
                (field_of _ (by decide)) (space_of _ (by decide))
                (.cons (ws := bytes " ") (rest := bytes " 2012/1/5T10:30Z ") (blank_of _ (by decide))
                  (field_of _ (by decide)) (space_of _ (by decide))
                  (.cons (ws := bytes " ") (rest := bytes " ") (blank_of _ (by decide))
                    (field_of _ (by decide)) (space_of _ (by decide)) (.nil (blank_of _ (by decide))))))))
      · rintro ⟨a, b, c, d, s, e, u, h, h1, _⟩
        cases h
      · rintro ⟨a, b, c, d, s, e, u, h, h1, _⟩
        cases h
      · exact TimeText.monthDay (ys := "2012".toList) (ms := "1".toList) (ds := "5".toList)
          (clk := "T10:30".toList) (z := ['Z']) (a := '/') (b := '/') (y := 2012) (mo := 1) (d := 5) (h := 10)
          (m := 30) (s := 0) (n := 0) rfl ⟨by decide, by decide, by decide⟩ ⟨by decide, by decide, by decide⟩
          ⟨by decide, by decide, by decide⟩ (Or.inr rfl) (Or.inr rfl)
          (@Clock.minute _ _ 'T' ['1', '0'] 10 ':' ['3', '0'] 30 (by decide)
            ⟨by decide, by decide, by decide⟩ (by decide) ⟨by decide, by decide, by decide⟩)
          (Or.inr (Or.inl rfl)) (by decide) (by decide) (by decide) ⟨by decide, by decide⟩ (by decide)
          (by decide) (by decide) (by unfold InInt64; decide +kernel)
  · have h : ∀ p ∈ sample, (p.1.all fun b => decide (1 ≤ b.toNat ∧ b.toNat ≤ 127 ∧ b ≠ 10)) = true ∧
        p.1.length ≤ 197 := by decide
    intro p hp
    obtain ⟨h1, h2⟩ := h p hp
    exact ⟨fun b hb => of_decide_eq_true (List.all_eq_true.1 h1 b hb), h2⟩
  · intro q hq
    have : q = requestIU ∨ q = requestANMO := by simpa [sample] using hq
    rcases this with rfl | rfl
    · refine ⟨?_, ?_, by decide, ?_, ?_, ?_⟩
      · simp [requestIU, patternIU, Tok.WF]
      · simp [requestIU, patternIU]
      · rintro f h; cases h; decide +kernel
      · rintro f h; cases h; decide +kernel
      · rintro f h g h'; cases h; cases h'; decide +kernel
    · refine ⟨?_, ?_, by decide, ?_, ?_, ?_⟩
      · simp [requestANMO, sidToks, Tok.WF]
      · simp [requestANMO, sidToks]
      · rintro f h; cases h; decide +kernel
      · rintro f h; cases h
      · rintro f h g h'; cases h'

/-! ## Violations -/

/-- What the lines of a file do, for a file of one line. -/
theorem one_line (signed : Bool) (rnd : Rat → Rat) (s : List UInt8) (sels sels' : List Entry)
    (h : fgets 198 (s ++ [10]) = (s ++ [10], []))
    (hs : lineStep signed rnd sels (s ++ [10]) = .ok (.count sels')) :
    readselectionsfile signed rnd sels (some (s ++ [10])) = .ok { sels := sels', ret := 1 } := by
  unfold readselectionsfile
  simp only
  rw [readLines, h]
  simp only [List.append_eq_nil_iff, List.cons_ne_self, and_false, if_false]
  rw [hs, Verif.Proof.Mem.bind_ok]
  simp only [List.length_append, List.length_cons, List.length_nil]
  simp [readLines, fgets]

/-- **C90 is violated for a time that cannot be converted**: the month 13 does not make reading fail, although
the conversion does; the selection is added without a limit, so a record of 1970 is selected. -/
theorem C90_bad_time_violated (rnd : Rat → Rat) (hr : Rounding rnd) :
    ∃ sels x, readselectionsfile true rnd [] (some (bytes "FDSN:XX_* 2020-13-01\n")) =
        .ok { sels, ret := 1 } ∧
      Model.TimeStr.timestr2nstime rnd "2020-13-01".toList = .ok nstError ∧
      matchSelect true sels (bytes "FDSN:XX_A") 0 10 1 = .ok (some x) := by
  have ht : Model.TimeStr.timestr2nstime rnd "2020-13-01".toList = .ok nstError :=
    Verif.Props.TimeStr.C79_refuses_month_day_partial rnd hr (ys := "2020".toList) (ms := "13".toList)
      (ds := "01".toList) (clk := []) (z := []) (a := '-') (b := '-') (y := 2020) (mo := 13) (d := 1) (h := 0)
      (m := 0) (s := 0) (n := 0) ⟨by decide, by decide, by decide⟩ ⟨by decide, by decide, by decide⟩
      ⟨by decide, by decide, by decide⟩ (Or.inl rfl) (Or.inl rfl) .none (Or.inl rfl) (by decide) (by decide)
      (by decide) (by decide) (by decide) (by decide) (by decide) (by decide) (by decide)
  refine ⟨[⟨bytes "FDSN:XX_*", [⟨nstError, nstUnset⟩], 0⟩], (0, some ⟨nstError, nstUnset⟩), ?_, ht,
    by decide +kernel⟩
  refine one_line true rnd (bytes "FDSN:XX_* 2020-13-01") [] _ (by decide +kernel) ?_
  have hf : fieldTime rnd (bytes "2020-13-01") = .ok nstError := by
    have e : (bytes "2020-13-01").map (fun b => Char.ofNat b.toNat) = "2020-13-01".toList := by
      decide +kernel
    unfold fieldTime
    rw [e, ht]
  have h1 : trim true ((bytes "FDSN:XX_* 2020-13-01" ++ [10]).takeWhile (· != 0)) =
      .ok (bytes "FDSN:XX_* 2020-13-01") := by decide +kernel
  have h2 : split true 0 false (bytes "FDSN:XX_* 2020-13-01") =
      .ok ([], [bytes "FDSN:XX_*", bytes "2020-13-01"]) := by decide +kernel
  have h3 : isDate true (some (bytes "2020-13-01")) = .ok true := by decide +kernel
  have h4 : isDate true none = .ok false := rfl
  unfold lineStep
  rw [h1, Verif.Proof.Mem.bind_ok, if_neg (by decide +kernel), h2, Verif.Proof.Mem.bind_ok]
  unfold fieldsStep
  simp only [List.getElem?_cons_succ, List.getElem?_cons_zero, List.getElem?_nil, h3, h4,
    Verif.Proof.Mem.bind_ok, lineTime, if_true, hf]
  rw [if_neg (by decide)]
  rfl

/-- **C90 is violated for lines in neither format**: two fields without a time are reported and passed over,
but counted as a selection. -/
theorem C90_unrecognized_line_violated (rnd : Rat → Rat) :
    readselectionsfile true rnd [] (some (bytes "IU ANMO\n")) = .ok { sels := [], ret := 1 } := by
  refine one_line true rnd (bytes "IU ANMO") [] _ (by decide +kernel) ?_
  have h1 : trim true ((bytes "IU ANMO" ++ [10]).takeWhile (· != 0)) = .ok (bytes "IU ANMO") := by
    decide +kernel
  have h2 : split true 0 false (bytes "IU ANMO") = .ok ([], [bytes "IU", bytes "ANMO"]) := by decide +kernel
  have h3 : isDate true (some (bytes "ANMO")) = .ok false := by decide +kernel
  have h4 : isDate true none = .ok false := rfl
  unfold lineStep
  rw [h1, Verif.Proof.Mem.bind_ok, if_neg (by decide +kernel), h2, Verif.Proof.Mem.bind_ok]
  unfold fieldsStep
  simp only [List.getElem?_cons_succ, List.getElem?_cons_zero, List.getElem?_nil, h3, h4,
    Verif.Proof.Mem.bind_ok, lineTime]
  rfl

/-- **C90 is violated for long lines**: the end of a comment of 199 bytes is taken for another line, here one
that selects every record. -/
theorem C90_long_line_violated (rnd : Rat → Rat) :
    ∃ sels x, readselectionsfile true rnd [] (some (35 :: (List.replicate 197 45 ++ [42, 10]))) =
        .ok { sels, ret := 1 } ∧
      matchSelect true sels (bytes "FDSN:XX_A") 0 10 1 = .ok (some x) := by
  refine ⟨[⟨[42], [⟨nstUnset, nstUnset⟩], 0⟩], (0, some ⟨nstUnset, nstUnset⟩), ?_, by decide +kernel⟩
  unfold readselectionsfile
  have h1 : fgets 198 (35 :: (List.replicate 197 45 ++ [42, 10])) = (35 :: List.replicate 197 45, [42, 10]) := by
    decide +kernel
  have h2 : lineStep true rnd [] (35 :: List.replicate 197 45) = .ok .skip := by
    have : trim true ((35 :: List.replicate 197 45).takeWhile (· != 0)) = .ok (35 :: List.replicate 197 45) := by
      decide +kernel
    unfold lineStep
    rw [this, Verif.Proof.Mem.bind_ok, if_pos (by decide +kernel)]
  have h3 : lineStep true rnd [] ([42] ++ [10]) = .ok (.count [⟨[42], [⟨nstUnset, nstUnset⟩], 0⟩]) := by
    have h1 : trim true (([42] ++ [10] : List UInt8).takeWhile (· != 0)) = .ok [42] := by decide +kernel
    have h2 : split true 0 false [42] = .ok ([], [[42]]) := by decide +kernel
    have h4 : isDate true none = .ok false := rfl
    unfold lineStep
    rw [h1, Verif.Proof.Mem.bind_ok, if_neg (by decide), h2, Verif.Proof.Mem.bind_ok]
    unfold fieldsStep
    simp only [List.getElem?_cons_succ, List.getElem?_nil, h4, Verif.Proof.Mem.bind_ok, lineTime]
    rfl
  have hlen : (35 :: (List.replicate 197 45 ++ [42, 10]) : List UInt8).length + 1 = 200 + 1 := by decide +kernel
  simp only
  rw [hlen, readLines, h1]
  simp only
  rw [if_neg (by simp), h2, Verif.Proof.Mem.bind_ok]
  simp only
  rw [readLines, show fgets 198 [42, 10] = ([42] ++ [10], []) by decide]
  simp only [List.append_eq_nil_iff, List.cons_ne_self, and_false, if_false]
  rw [h3, Verif.Proof.Mem.bind_ok]
  simp [readLines, fgets]

end Verif.Props.SelectFile
