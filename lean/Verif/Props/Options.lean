import Verif.Proof.Options
import Verif.Props.Msi
/-!
# The command line of msi: C95 to C99

`processparam h args` is what the program makes of its arguments: `run o`, with the options `o`, or `exit`
with a status.  `program` is the whole program.
-/
namespace Verif.Props.Options
open Verif.Model Verif.Model.Steim Verif.Model.Msi Verif.Model.Options
open Verif.Spec Verif.Spec.Options
open Verif.Spec.SelectFile (text fileText DigitByte)
open Verif.Proof.Options Verif.Proof.Mem

/-! ## C95 -/

/-- **C95 (partial).** A command line of documented options, files and list files is accepted, and each
option has the effect of its last value, wherever it is among the others.  Missing: numbers of `-n` from
2^31 on and negative numbers of `-gmin` and `-gmax` with a fraction, see below; the conversion of the real
numbers. -/
theorem C95_options_partial {h : Host} {lines : List UInt8 → List (List UInt8)} {items : List Item}
    (hv : Valid h lines items) :
    processparam h (line items) = .ok (.run (meaning h.rnd lines items)) := processparam_valid hv

/-- **C95 (nothing else).** A command line that is accepted consists of documented options with their
values, files and list files; no option is taken for a value or a file, all times could be read, all list
files exist, and there is an input file.  (The letters `v` and `p` may be followed by other text.) -/
theorem C95_accepted {h : Host} {args : List (List UInt8)} {o : Options}
    (hr : processparam h args = .ok (.run o)) :
    ∃ items, line items = args ∧ (∀ i ∈ items, i.Written) ∧
      (∀ k v, .value k v ∈ items → k = .after ∨ k = .before →
        ∃ t, TimeStr.timestr2nstime h.rnd (text v) = .ok t ∧ t ≠ NSTERROR) ∧
      (∀ name, .list name ∈ items → ∃ s, h.files name = some s) ∧ o.files ≠ [] ∧
      ∀ lines, o = { meaning h.rnd lines items with
        count := o.count, timeformat := o.timeformat, files := o.files } := by
  unfold processparam at hr
  obtain ⟨e, he, hr⟩ := bind_eq_ok.1 hr
  cases e with
  | exit c => cases hr
  | run o1 =>
    obtain ⟨items, h1, h2, h3, h4⟩ := params_inv h _ args {} o1 (Nat.le_refl _) he
    refine ⟨items, h1, h2, fun k v hi => h3 _ hi, fun name hi => ?_, ?_⟩
    · have : h.files name ≠ none := h3 _ hi
      cases hn : h.files name with
      | none => exact absurd hn this
      | some s => exact ⟨s, rfl⟩
    · have hr := Res.ok.inj hr
      unfold finish at hr
      split at hr
      · cases hr
      · split at hr
        · cases hr
        · rename_i f hf hne
          injection hr with hr
          refine ⟨by rw [← hr]; exact hne, fun lines => ?_⟩
          rw [← hr, h4, fold_all h lines items]
          have e : ∀ v : Option (List UInt8), v.map wildcards =
              v.map fun v => ascii "*" ++ v ++ ascii "*" := by
            intro v
            cases v with
            | none => rfl
            | some v => simp only [Option.map_some, wildcards_eq]
          simp only
          rw [e, e]
          unfold meaning
          simp only

/-- **C95 (unknown options).** After other arguments, an option that is not known ends the program with
the status 1. -/
theorem C95_unknown_option {h : Host} {lines : List UInt8 → List (List UInt8)} {items : List Item}
    (hv : Valid h lines items) (arg : List UInt8) (rest : List (List UInt8))
    (ha : arg.head? = some 45) (h1 : arg.length > 1) (hV : arg ≠ ascii "-V") (hh : arg ≠ ascii "-h")
    (hvp : arg.take 2 ≠ ascii "-v" ∧ arg.take 2 ≠ ascii "-p") (hf : ∀ f : Flag, arg ≠ f.name)
    (hk : ∀ k : Key, arg ≠ k.name) :
    processparam h (line items ++ arg :: rest) = .ok (.exit 1) := by
  obtain ⟨hp, hfine⟩ := fine_of hv
  unfold processparam
  rw [params_line h items _ {} hv.written hp hfine]
  have : ∀ o, param h o arg rest = .ok (.exit 1) := by
    intro o
    unfold param
    have k1 := hk .after; have k2 := hk .before; have k3 := hk .containing; have k4 := hk .without
    have k5 := hk .count; have k6 := hk .timeTolerance; have k7 := hk .rateTolerance
    have k8 := hk .minGap; have k9 := hk .maxGap; have k10 := hk .timeFormat
    have k11 := hk .samplesTo; have k12 := hk .recordsTo
    have f1 := hf .skipOther; have f2 := hf .offsets; have f3 := hf .latency; have f4 := hf .summary
    have f5 := hf .firstSamples; have f6 := hf .allSamples; have f7 := hf .raw; have f8 := hf .traces
    have f9 := hf .onlyTraces; have f10 := hf .estimates; have f11 := hf .gaps; have f12 := hf .onlyGaps
    have f13 := hf .sync; have f14 := hf .versions; have f15 := hf .qualities
    simp only [Key.name, Flag.name, lit_eq] at *
    rw [if_neg hV, if_neg hh, if_neg hvp.1, if_neg k1, if_neg k2, if_neg k3, if_neg k4, if_neg k5,
      if_neg f1, if_neg hvp.2, if_neg f2, if_neg f3, if_neg f4, if_neg f5, if_neg f6, if_neg f7, if_neg f8,
      if_neg f9, if_neg f10, if_neg k6, if_neg k7, if_neg f11, if_neg f12, if_neg f13, if_neg k8,
      if_neg k9, if_neg (fun e => e.elim f15 f14), if_neg k10, if_neg k11, if_neg k12,
      if_pos ⟨ha, h1⟩]
  have hs : ∀ o, params h false (arg :: rest) o = .ok (.exit 1) := by
    intro o
    show (param h o arg rest).bind _ = _
    rw [this, bind_ok]
  rw [hs, bind_ok]

/-- **C95 (missing values).** An option without its value, at the end or before another option, ends
the program with the status 1. -/
theorem C95_missing_value {h : Host} {lines : List UInt8 → List (List UInt8)} {items : List Item}
    (hv : Valid h lines items) (k : Key) (rest : List (List UInt8))
    (hr : ∀ w rest', rest = w :: rest' → ¬ ValueText k w ∧ ∀ b ∈ w, b.toNat < 128) :
    processparam h (line items ++ k.name :: rest) = .ok (.exit 1) := by
  obtain ⟨hp, hfine⟩ := fine_of hv
  have hno : notOption rest = none := by
    cases hn : notOption rest with
    | none => rfl
    | some v =>
      obtain ⟨r, h1, h2⟩ := notOption_inv hn
      exact absurd (.inl h2) (hr v r h1).1
  have hget : getoptval h.signed k.name rest = .ok none := by
    unfold getoptval
    split
    · rename_i hk
      have hk' : k = .recordsTo := by
        obtain ⟨-, -, -, l1, l2, l3, l4, l5, -, -, -, -, -, -, -, -, -, -, -, l6, l7, -, -, -, l8, l9, -, -,
          l10, l11, l12, l13, -⟩ := lits
        have := hk.1
        rw [l12] at this
        cases k <;> simp [Key.name, lit_eq, *] at this ⊢
      cases rest with
      | nil => simp at hk
      | cons w rest =>
        have : w = lit "-" := by simpa using hk.2
        have l13 : lit "-" = [45] := by decide +kernel
        exact absurd (.inr (.inl ⟨hk', by rw [this, l13]⟩)) (hr w rest rfl).1
    · split
      · split
        · rfl
        · rename_i hk _ w rest _
          obtain ⟨b, hb⟩ := lisnumber_total h.signed (hr w rest rfl).2
          rw [hb, bind_ok]
          cases b with
          | false =>
            simp only [Bool.false_eq_true, if_false]
            rw [hno]
          | true =>
            have hk' : k = .minGap ∨ k = .maxGap := by
              obtain ⟨-, -, -, l1, l2, l3, l4, l5, -, -, -, -, -, -, -, -, -, -, -, l6, l7, -, -, -, l8, l9,
                -, -, l10, l11, l12, l13, -⟩ := lits
              rw [l8, l9] at hk
              cases k <;> simp [Key.name, lit_eq, *] at hk ⊢
            refine absurd ?_ (hr w rest rfl).1
            unfold lisnumber at hb
            split at hb
            · exact .inr (.inr ⟨hk', _, rfl, isInteger_true hb⟩)
            · have hd := isInteger_true hb
              refine .inl ?_
              intro e
              cases w with
              | nil => cases e
              | cons c a =>
                injection e with e
                have := hd c (by simp)
                rw [e] at this
                unfold DigitByte at this
                simp at this
      · rw [hno]
  have hval : ∀ f, valued h k.name rest f = .ok (.exit 1) := by
    intro f
    unfold valued
    rw [hget, bind_ok]
  have hparam : ∀ o, param h o k.name rest = .ok (.exit 1) := by
    intro o
    obtain ⟨a1, a2, a3, a4, a5, a6, a7, a8, a9, b1, b2, b3, b4, b5, b6, b7, b8, b9, c1, c2, c3, c4, c5, c6,
      c7, c8, c9, d1, d2, d3, d4, d5, d6⟩ := lits
    clear hget
    unfold param
    cases k <;> simp only [Key.name, lit_eq] at hval ⊢ <;>
      simp only [a1, a2, a3, a4, a5, a6, a7, a8, a9, b1, b2, b3, b4, b5, b6, b7, b8, b9, c1, c2, c3, c4, c5,
        c6, c7, c8, c9, d1, d2, d3, d4, d5, d6] at hval ⊢ <;>
      simp [hval]
  unfold processparam
  rw [params_line h items _ {} hv.written hp hfine]
  have hs : ∀ o, params h false (k.name :: rest) o = .ok (.exit 1) := by
    intro o
    show (param h o k.name rest).bind _ = _
    rw [hparam, bind_ok]
  rw [hs, bind_ok]

/-- **C95 (help).** `-V` and `-h` end the program with the status 0, whatever follows. -/
theorem C95_help {h : Host} {lines : List UInt8 → List (List UInt8)} {items : List Item}
    (hv : Valid h lines items) (arg : List UInt8) (ha : arg = ascii "-V" ∨ arg = ascii "-h")
    (rest : List (List UInt8)) : processparam h (line items ++ arg :: rest) = .ok (.exit 0) := by
  obtain ⟨hp, hfine⟩ := fine_of hv
  unfold processparam
  rw [params_line h items _ {} hv.written hp hfine]
  have hs : ∀ o, params h false (arg :: rest) o = .ok (.exit 0) := by
    intro o
    show (param h o arg rest).bind _ = _
    have : param h o arg rest = .ok (.exit 0) := by
      unfold param
      rcases ha with rfl | rfl
      · rw [if_pos (show ascii "-V" = lit "-V" by decide +kernel)]
      · rw [if_neg (show ¬ ascii "-h" = lit "-V" by decide +kernel),
          if_pos (show ascii "-h" = lit "-h" by decide +kernel)]
    rw [this, bind_ok]
  rw [hs, bind_ok]

/-- What the tests below have in common: a file named `a`. -/
def host0 (rnd : Rat → Rat) : Host := ⟨true, rnd, fun _ => none⟩

/-- The number of records in the result. -/
def countOf : Res End → Option Int
  | .ok (.run o) => some o.count
  | _ => none

theorem digits_numeral {d : List UInt8} {n : Nat} (h : TimeStr.Numeral (text d) n) : digits d = n := by
  have hd := Proof.SelectFile.numeral_digits h
  unfold digits
  have ht := List.takeWhile_append_of_pos (l₂ := []) fun b hb => digitByte_of (hd b hb)
  rw [List.append_nil, List.takeWhile_nil, List.append_nil] at ht
  rw [ht]
  obtain ⟨-, -, hv⟩ := h
  rw [← hv]
  unfold TimeStr.value text
  rw [List.foldl_map]
  congr 1
  funext a b
  rw [Proof.SelectFile.text_byte]

theorem dropWhile_blanks (blanks : List UInt8) (hb : ∀ b ∈ blanks, b = 32 ∨ b = 9) (c : UInt8) (s : List UInt8)
    (hc : spaceByte c = false) : (blanks ++ c :: s).dropWhile spaceByte = c :: s := by
  induction blanks with
  | nil => exact List.dropWhile_cons_of_neg (by simp [hc])
  | cons a l ih =>
    have : spaceByte a = true := by
      rcases hb a (by simp) with rfl | rfl <;> decide
    rw [List.cons_append, List.dropWhile_cons_of_pos this]
    exact ih fun b h => hb b (by simp [h])

theorem count_of (h : Host) (v name : List UInt8) (hv : v.head? ≠ some 45) (hn : FileText name) :
    countOf (processparam h [ascii "-n", v, name]) = some (intOf v) := by
  have h1 := params_line h [.value .count v, .file name] [] {}
    (by intro i hi; simp only [List.mem_cons, List.not_mem_nil, or_false] at hi
        rcases hi with rfl | rfl
        · exact .inl hv
        · exact hn)
    (by intro i hi; simp only [List.mem_cons, List.not_mem_nil, or_false] at hi
        rcases hi with rfl | rfl
        · intro h; rcases h with h | h <;> cases h
        · trivial)
    (by intro i hi; simp only [List.mem_cons, List.not_mem_nil, or_false] at hi
        rcases hi with rfl | rfl
        · intro h; rcases h with h | h <;> cases h
        · trivial)
  have h2 : ∀ o, params h false [] o = .ok (.run o) := fun _ => rfl
  have h3 : line [.value .count v, .file name] ++ [] = [ascii "-n", v, name] := rfl
  rw [h3, h2] at h1
  unfold processparam
  rw [h1, bind_ok]
  rfl

/-- **C95 (signs and blanks).** The number of records may have blanks and a sign before its digits; a minus sign
counts only behind a blank, as the value would be an option otherwise. -/
theorem C95_signed_count (h : Host) (blanks d name : List UInt8) (n : Nat) (hb : ∀ b ∈ blanks, b = 32 ∨ b = 9)
    (hd : TimeStr.Numeral (text d) n) (hn : n < 2 ^ 31) (hf : FileText name) :
    countOf (processparam h [ascii "-n", blanks ++ d, name]) = some (n : Int) ∧
    countOf (processparam h [ascii "-n", blanks ++ 43 :: d, name]) = some (n : Int) ∧
    (blanks ≠ [] → countOf (processparam h [ascii "-n", blanks ++ 45 :: d, name]) = some (- (n : Int))) := by
  have hdig := digits_numeral hd
  have hhead : ∀ l : List UInt8, (blanks ≠ [] ∨ l.head? ≠ some 45) → (blanks ++ l).head? ≠ some 45 := by
    intro l hl
    cases blanks with
    | nil => rcases hl with hl | hl; exact absurd rfl hl; exact hl
    | cons a t =>
      rcases hb a (by simp) with rfl | rfl <;> simp
  have hdd := Proof.SelectFile.numeral_digits hd
  refine ⟨?_, ?_, ?_⟩
  · cases d with
    | nil => exact absurd rfl hd.1
    | cons a t =>
      have ha := hdd a (by simp)
      unfold DigitByte at ha
      rw [count_of h _ _ (hhead _ (.inr (by
        intro e; injection e with e; rw [e] at ha; simp at ha))) hf]
      have e : strtol (blanks ++ a :: t) = strtol (a :: t) := by
        unfold strtol
        rw [dropWhile_blanks blanks hb a t (by unfold spaceByte; simp; omega),
          List.dropWhile_cons_of_neg (by unfold spaceByte; simp; omega)]
      have := intOf_numeral hd hn
      unfold intOf at this ⊢
      rw [e, this]
  · rw [count_of h _ _ (hhead _ (.inr (by simp))) hf]
    have e : strtol (blanks ++ 43 :: d) = (min n (2 ^ 63 - 1) : Nat) := by
      unfold strtol
      rw [dropWhile_blanks blanks hb 43 d (by decide)]
      simp only [hdig]
    have e' : intOf (blanks ++ 43 :: d) = (n : Int) := by
      unfold intOf
      rw [e, Int.bmod_def]
      split <;> omega
    rw [e']
  · intro hne
    rw [count_of h _ _ (hhead _ (.inl hne)) hf]
    have e : strtol (blanks ++ 45 :: d) = - (min n (2 ^ 63) : Nat) := by
      unfold strtol
      rw [dropWhile_blanks blanks hb 45 d (by decide)]
      simp only [hdig]
    have e' : intOf (blanks ++ 45 :: d) = - (n : Int) := by
      unfold intOf
      rw [e, Int.bmod_def]
      split <;> omega
    rw [e']

example (rnd : Rat → Rat) : countOf (processparam (host0 rnd) [ascii "-n", ascii " -12", ascii "a"]) = some (-12) ∧
    TimeStr.Numeral (text (ascii "12")) 12 ∧ FileText (ascii "a") :=
  ⟨rfl, ⟨by decide +kernel, by decide +kernel, by decide +kernel⟩, ⟨by decide +kernel, by decide +kernel⟩⟩

/-- **C95 is violated by large numbers of records**: `-n 4294967296` is accepted and is the limit 0, so
that nothing is processed, and `-n 4294967297` is the limit 1. -/
theorem C95_large_count_violated (rnd : Rat → Rat) :
    countOf (processparam (host0 rnd) [ascii "-n", ascii "4294967296", ascii "a"]) = some 0 ∧
    countOf (processparam (host0 rnd) [ascii "-n", ascii "4294967297", ascii "a"]) = some 1 ∧
    countOf (processparam (host0 rnd) [ascii "-n", ascii "2147483648", ascii "a"]) = some (-2147483648) := by
  refine ⟨?_, ?_, ?_⟩ <;> rfl

/-- **C95 is violated by words for numbers**: `-n ten` is accepted and is the limit 0. -/
theorem C95_word_count_violated (rnd : Rat → Rat) :
    countOf (processparam (host0 rnd) [ascii "-n", ascii "ten", ascii "a"]) = some 0 := rfl

/-- **C95 is violated by options that begin like others**: `-version` and `-paths`, which do not exist,
are accepted like `-v` and `-p`. -/
theorem C95_prefix_violated (rnd : Rat → Rat) :
    processparam (host0 rnd) [ascii "-version", ascii "-paths", ascii "a"] =
      processparam (host0 rnd) [ascii "-v", ascii "-p", ascii "a"] ∧
    countOf (processparam (host0 rnd) [ascii "-version", ascii "-paths", ascii "a"]) = some (-1) :=
  ⟨rfl, rfl⟩

/-- **C95 is violated by negative gaps with a fraction** (overlaps): `-gmin -1` is accepted, `-gmin -1.5`
is refused.  A minus sign alone is accepted. -/
theorem C95_negative_gap_violated (rnd : Rat → Rat) :
    countOf (processparam (host0 rnd) [ascii "-gmin", ascii "-1", ascii "a"]) = some (-1) ∧
    processparam (host0 rnd) [ascii "-gmin", ascii "-1.5", ascii "a"] = .ok (.exit 1) ∧
    countOf (processparam (host0 rnd) [ascii "-gmin", ascii "-", ascii "a"]) = some (-1) :=
  ⟨rfl, rfl, rfl⟩

/-- **C95 is violated by `-b -`**: the program can write the samples to the standard output, but the
name `-` for it is refused as the value of `-b`, unlike that of `-o`. -/
theorem C95_standard_output_violated (rnd : Rat → Rat) :
    processparam (host0 rnd) [ascii "-b", ascii "-", ascii "a"] = .ok (.exit 1) ∧
    countOf (processparam (host0 rnd) [ascii "-o", ascii "-", ascii "a"]) = some (-1) :=
  ⟨rfl, rfl⟩

/-! ## C96 -/

/-- **C96 (partial).** The input files are those of the command line in order, with the lines of a list
file in its place; empty lines and comments are passed over.  Missing: lines of more than 1023 bytes and
lines with NUL. -/
theorem C96_input_files_partial {h : Host} {lines : List UInt8 → List (List UInt8)} {items : List Item}
    (hv : Valid h lines items) :
    ∃ o, processparam h (line items) = .ok (.run o) ∧ o.files = inputs lines items :=
  ⟨_, C95_options_partial hv, rfl⟩

/-- **C96 (list files).** Whatever a list file is: if it cannot be opened the program ends with the
status 1. -/
theorem C96_no_list {h : Host} {lines : List UInt8 → List (List UInt8)} {items : List Item}
    (hv : Valid h lines items) (name : List UInt8) (hn : h.files name = none)
    (rest : List (List UInt8)) :
    processparam h (line items ++ (ascii "@" ++ name) :: rest) = .ok (.exit 1) := by
  obtain ⟨hp, hfine⟩ := fine_of hv
  have ea : ascii "@" ++ name = 64 :: name := by
    have : ascii "@" = [64] := by decide +kernel
    rw [this]
    rfl
  rw [ea]
  unfold processparam
  rw [params_line h items _ {} hv.written hp hfine]
  have hs : ∀ o, params h false ((64 :: name) :: rest) o = .ok (.exit 1) := by
    intro o
    show (param h o (64 :: name) rest).bind _ = _
    rw [param_input h o _ rest (.inl (by simp)), bind_ok]
    simp [input, addlistfile, hn]
  rw [hs, bind_ok]

/-- The input files in the result. -/
def filesOf : Res End → Option (List (List UInt8))
  | .ok (.run o) => some o.files
  | _ => none

theorem listLoop_long (n m : Nat) : listLoop (n + 3) (List.replicate (1023 + (m + 1)) 97) =
    List.replicate 1023 97 :: listLoop (n + 2) (List.replicate (m + 1) 97) := by
  have h1 := fgets_full (List.replicate 1023 97) (List.replicate (m + 1) 97) (by
    intro c hc
    rw [List.eq_of_mem_replicate hc]
    decide)
  rw [List.length_replicate, List.replicate_append_replicate] at h1
  have h2 : (List.replicate 1023 (97 : UInt8)) ≠ [] := by
    intro e
    have := congrArg List.length e
    rw [List.length_replicate, List.length_nil] at this
    omega
  have h3 := listEntry_of (s := List.replicate 1023 97) (by
    intro c hc
    rw [List.eq_of_mem_replicate hc]
    decide) [] (.inl rfl)
  rw [List.append_nil] at h3
  have h4 : names [List.replicate 1023 (97 : UInt8)] = [List.replicate 1023 97] := by
    unfold names
    rw [List.filter_cons_of_pos]
    · rfl
    · rw [List.replicate_succ]
      rfl
  show (let p := SelectFile.fgets 1023 (List.replicate (1023 + (m + 1)) 97)
    if p.1 = [] then [] else (listEntry p.1).toList ++ listLoop (n + 2) p.2) = _
  rw [h1]
  simp only
  rw [if_neg h2, h3, h4]
  rfl

/-- **C96 is violated by long lines**: a name of 1024 letters in a list file becomes two files, the
second named by the last letter. -/
theorem C96_long_line_violated (rnd : Rat → Rat) :
    filesOf (processparam ⟨true, rnd, fun _ => some (List.replicate 1024 97)⟩ [ascii "@list"]) =
      some [List.replicate 1023 97, [97]] := by
  have ea : ascii "@list" = 64 :: ascii "list" := by decide +kernel
  have e1 := listLoop_long 1022 0
  have e2 : listLoop 1024 (List.replicate (0 + 1) 97) = [[97]] := by
    show (let p := SelectFile.fgets 1023 [97]
      if p.1 = [] then [] else (listEntry p.1).toList ++ listLoop 1023 p.2) = _
    have : SelectFile.fgets 1023 [97] = ([97], []) := by decide +kernel
    rw [this]
    have h3 : listLoop 1023 [] = [] := rfl
    simp only
    rw [if_neg (by simp), h3]
    rfl
  rw [e2] at e1
  have hp : param ⟨true, rnd, fun _ => some (List.replicate 1024 97)⟩ {} (64 :: ascii "list") [] =
      .ok (.next { files := [List.replicate 1023 97, [97]] }) := by
    rw [param_input _ _ _ _ (.inl (by simp))]
    simp only [input, addlistfile, Option.map_some, List.length_replicate]
    rw [show (1024 : Nat) + 1 = 1022 + 3 from rfl,
      show List.replicate 1024 (97 : UInt8) = List.replicate (1023 + (0 + 1)) 97 from rfl, e1]
    rfl
  unfold processparam
  rw [ea]
  have hs : params ⟨true, rnd, fun _ => some (List.replicate 1024 97)⟩ false [64 :: ascii "list"] {} =
      .ok (.run { files := [List.replicate 1023 97, [97]] }) := by
    show (param _ _ _ _).bind _ = _
    rw [hp, bind_ok]
    rfl
  rw [hs, bind_ok]
  rfl

/-- **C96 is violated by lines with a carriage return**: it is part of the name. -/
theorem C96_carriage_return_violated (rnd : Rat → Rat) :
    filesOf (processparam ⟨true, rnd, fun _ => some [97, 13, 10, 98, 13, 10]⟩ [ascii "@list"]) =
      some [[97, 13], [98, 13]] := rfl

/-! ## C97 -/

/-- The options are given at most once, and of those that exclude each other only one: `-d` and `-D`, `-t`
and `-g`, `-T`, `-G` and `-S`; with `-tg` there is none of these lists but `-T`. -/
structure Once (items : List Item) : Prop where
  values : ∀ k, (items.filterMap (valueOf k)).length ≤ 1
  samples : (items.filterMap samplesOf).length ≤ 1
  after : (items.filterMap afterwards).length ≤ 1
  only : (items.filterMap (instead false)).length ≤ 1
  estimates : .flag .estimates ∈ items → .flag .traces ∉ items ∧ .flag .gaps ∉ items ∧
    .flag .onlyGaps ∉ items ∧ .flag .sync ∉ items

theorem filterMap_congr' {α β : Type} {f g : α → Option β} {l : List α} (h : ∀ x ∈ l, f x = g x) :
    l.filterMap f = l.filterMap g := by
  induction l with
  | nil => rfl
  | cons a l ih =>
    rw [List.filterMap_cons, List.filterMap_cons, h a (by simp), ih fun x hx => h x (by simp [hx])]

theorem perm_short {α : Type} {l l' : List α} (h : l.Perm l') (hl : l.length ≤ 1) : l = l' := by
  match l, hl with
  | [], _ => exact h.nil_eq
  | [a], _ => exact List.singleton_perm.1 h

/-- The list instead of the records without `-tg`. -/
theorem insteadOf_plain {items : List Item} (h : .flag .estimates ∉ items) :
    insteadOf items = ((items.filterMap (instead false)).getLast?).getD 0 := by
  unfold insteadOf
  simp only
  have e : (items.takeWhile fun i => (afterwards i).isNone).filterMap (instead true) =
      (items.takeWhile fun i => (afterwards i).isNone).filterMap (instead false) := by
    apply filterMap_congr'
    intro i hi
    have hi := (List.takeWhile_sublist _).subset hi
    rcases i with f | _ | _ | _ | _ | _
    · cases f <;> first | rfl | exact absurd hi h
    all_goals rfl
  rw [e, ← List.filterMap_append, List.takeWhile_append_dropWhile]

/-- With `-tg` and neither `-t`, `-g`, `-G` nor `-S` it is the trace list. -/
theorem insteadOf_estimates {items : List Item} (h : .flag .estimates ∈ items)
    (h1 : .flag .traces ∉ items) (h2 : .flag .gaps ∉ items) (h3 : .flag .onlyGaps ∉ items)
    (h4 : .flag .sync ∉ items) : insteadOf items = 1 := by
  have hall : ∀ i ∈ items, (afterwards i).isNone = true := by
    intro i hi
    rcases i with f | _ | _ | _ | _ | _
    · cases f <;> first | rfl | exact absurd hi h1 | exact absurd hi h2
    all_goals rfl
  have htw : (items.takeWhile fun i => (afterwards i).isNone) = items := by
    have := List.takeWhile_append_of_pos (l₂ := []) hall
    rw [List.append_nil, List.takeWhile_nil, List.append_nil] at this
    exact this
  have hdw : (items.dropWhile fun i => (afterwards i).isNone) = [] := by
    have := List.takeWhile_append_dropWhile (p := fun i => (afterwards i).isNone) (l := items)
    rw [htw] at this
    exact List.append_right_eq_self.1 this
  unfold insteadOf
  simp only
  rw [htw, hdw, List.filterMap_nil, List.append_nil]
  have hm : 1 ∈ items.filterMap (instead true) := List.mem_filterMap.2 ⟨_, h, rfl⟩
  have hv : ∀ x ∈ items.filterMap (instead true), x = 1 := by
    intro x hx
    obtain ⟨i, hi, he⟩ := List.mem_filterMap.1 hx
    rcases i with f | _ | _ | _ | _ | _
    · cases f <;> simp [instead] at he <;> first | exact he.symm | exact absurd hi h3 | exact absurd hi h4
    all_goals simp [instead] at he
  cases hl : (items.filterMap (instead true)).getLast? with
  | none =>
    rw [List.getLast?_eq_none_iff.1 hl] at hm
    cases hm
  | some x => exact hv x (List.mem_of_getLast? hl)

theorem meaning_perm {rnd : Rat → Rat} {lines : List UInt8 → List (List UInt8)} {items items' : List Item}
    (hp : items.Perm items') (hin : inputs lines items = inputs lines items') (ho : Once items) :
    meaning rnd lines items = meaning rnd lines items' := by
  have hlast : ∀ k, last k items = last k items' := by
    intro k
    unfold last
    rw [perm_short (hp.filterMap _) (ho.values k)]
  have hmem : ∀ i, decide (i ∈ items) = decide (i ∈ items') := by
    intro i
    simp only [hp.mem_iff]
  have hlet : ∀ f, letters f items = letters f items' := by
    intro f
    unfold letters
    rw [(hp.filterMap f).sum_nat]
  have hsam : lastOf samplesOf items = lastOf samplesOf items' := by
    unfold lastOf
    rw [perm_short (hp.filterMap _) ho.samples]
  have haft : lastOf afterwards items = lastOf afterwards items' := by
    unfold lastOf
    rw [perm_short (hp.filterMap _) ho.after]
  have hins : insteadOf items = insteadOf items' := by
    by_cases he : .flag .estimates ∈ items
    · obtain ⟨e1, e2, e3, e4⟩ := ho.estimates he
      rw [insteadOf_estimates he e1 e2 e3 e4]
      rw [hp.mem_iff] at he e1 e2 e3 e4
      rw [insteadOf_estimates he e1 e2 e3 e4]
    · rw [insteadOf_plain he, perm_short (hp.filterMap _) ho.only]
      rw [hp.mem_iff] at he
      rw [insteadOf_plain he]
  unfold meaning
  simp only [hlast, hlet, hsam, haft, hins, hin, hp.mem_iff]

/-- **C97 (partial).** The order of the options does not matter, nor do files between them, as long as
the files are in the same order.  Missing: options given more than once or of a group in which the last
counts, and `-tg` with lists other than `-T`, see below. -/
theorem C97_order_partial {h : Host} {lines : List UInt8 → List (List UInt8)} {items items' : List Item}
    (hv : Valid h lines items) (hp : items.Perm items')
    (hin : inputs lines items = inputs lines items') (ho : Once items) :
    processparam h (line items') = processparam h (line items) := by
  have hlast : ∀ k, last k items = last k items' := by
    intro k
    unfold last
    rw [perm_short (hp.filterMap _) (ho.values k)]
  have hv' : Valid h lines items' := by
    refine ⟨fun i hi => hv.written i (hp.mem_iff.2 hi), fun k v hi => hv.plain k v (hp.mem_iff.2 hi),
      fun k v hi => hv.times k v (hp.mem_iff.2 hi), ?_, ?_, fun n hn => hv.lists n (hp.mem_iff.2 hn), ?_⟩
    · intro v
      rw [← hlast]
      exact hv.count v
    · intro v
      rw [← hlast]
      exact hv.format v
    · rw [← hin]
      exact hv.inputs
  rw [C95_options_partial hv, C95_options_partial hv', meaning_perm hp hin ho]

/-- The lists in the result, with whether records are printed. -/
def listsOf : Res End → Option (List Report × Bool)
  | .ok (.run o) => some (reports o, o.tracegaponly == 0)
  | _ => none

/-- **C97 is violated by `-tg`**: after `-t` it adds the gaps to the trace list that follows the records;
before `-t` the same option suppresses the records. -/
theorem C97_estimates_violated (rnd : Rat → Rat) :
    listsOf (processparam (host0 rnd) [ascii "-t", ascii "-tg", ascii "a"]) =
      some ([.traces true false .isoMonthDayZ], true) ∧
    listsOf (processparam (host0 rnd) [ascii "-tg", ascii "-t", ascii "a"]) =
      some ([.traces true false .isoMonthDayZ], false) := ⟨rfl, rfl⟩

/-! ## C98 -/

/-- **C98 (partial).** The whole program on a command line: it processes the files that are named, in
order, keeps the records that are wanted by `-ts`, `-te`, `-m`, `-r` and `-n`, writes them to the file of
`-o`, prints the reports that are asked for, and ends with the status 0.  `Run` says that the files can be
read and what is wanted.  Missing: as for C45 and C95; opening of the output files. -/
theorem C98_program_partial {env : Record2.Env} {be : Bool} {base : Nat} {rate : Nat → Rat}
    {leaps : List SampleTime.Leap} {h : Host} {lines : List UInt8 → List (List UInt8)}
    {items : List Item} (hv : Valid h lines items) {mp rp : Option (List Spec.Glob.Tok)}
    {l : List Props.Msi.InFile} {stop : Props.Msi.Taken → Int} {keep : Props.Msi.Taken → Bool}
    {x : Props.Msi.Taken → Samples.Samples}
    (hr : Props.Msi.Run env be base h.rnd rate leaps h.signed h.files (meaning h.rnd lines items).config mp rp l
      stop keep x) (hl : l.map Props.Msi.InFile.path = inputs lines items) (fuel : Nat)
    (hf : ∀ f ∈ l, f.recs.length < fuel) :
    ∃ s, program env be base rate leaps h fuel (line items) =
        .ok { code := 0, state := some s, reports := reports (meaning h.rnd lines items) } ∧
      s.output = (if last .recordsTo items = none then []
        else ((match last .count items with
          | none => (l.flatMap Props.Msi.InFile.recs).filter keep
          | some v => ((l.flatMap Props.Msi.InFile.recs).filter keep).take (TimeStr.value (text v))).flatMap
            fun (e : Props.Msi.Taken) => e.2.2)) ∧
      s.files = (inputs lines items).length := by
  obtain ⟨s, h1, h2, h3⟩ := Props.Msi.run_all hr fuel hf
  refine ⟨s, ?_, ?_, ?_⟩
  · unfold program
    rw [C95_options_partial hv, bind_ok]
    simp only
    have e : (meaning h.rnd lines items).files = l.map Props.Msi.InFile.path := hl.symm
    rw [e, h1, bind_ok]
    rfl
  · rw [h2.output]
    show [] ++ _ = _
    rw [List.nil_append]
    have e1 : (meaning h.rnd lines items).config.outfile = (last .recordsTo items).isSome := rfl
    rw [e1]
    cases ho : last .recordsTo items with
    | none => simp
    | some v =>
      rw [Option.isSome_some, if_pos rfl, if_neg (by simp)]
      unfold Props.Msi.processed Spec.Msi.limit
      have e2 : (meaning h.rnd lines items).config.count =
        match last .count items with | none => -1 | some v => (TimeStr.value (text v) : Int) := rfl
      rw [e2]
      cases last .count items with
      | none => rfl
      | some v =>
        simp only
        rw [if_neg (by omega), Int.toNat_natCast]
  · rw [h3, ← hl, List.length_map]

/-! ## C99 -/

/-- The options that ask for a list. -/
def listFlag : Item → Option Flag
  | .flag .traces => some .traces
  | .flag .gaps => some .gaps
  | .flag .onlyTraces => some .onlyTraces
  | .flag .onlyGaps => some .onlyGaps
  | .flag .sync => some .sync
  | _ => none

/-- The list that an option asks for. -/
def listOf (items : List Item) (f : Flag) : Report :=
  if f = .traces ∨ f = .onlyTraces then
    .traces (decide (.flag .estimates ∈ items)) (decide (.flag .versions ∈ items ∨ .flag .qualities ∈ items))
      (formatOf (last .timeFormat items))
  else if f = .sync then .sync
  else .gaps (last .minGap items) (last .maxGap items) (formatOf (last .timeFormat items))

/-- **C99 (partial).** If one of `-t`, `-T`, `-g`, `-G` and `-S` is given, and `-tg` only with `-t` or
`-T`, exactly that list is printed after the files, and before it the totals if `-s` is given; the records
are printed if that option is `-t` or `-g`, and `-tg` is not there.  Missing: more than one of them,
see below. -/
theorem C99_lists_partial {rnd : Rat → Rat} {lines : List UInt8 → List (List UInt8)} {items : List Item}
    {f : Flag} (hf : items.filterMap listFlag = [f])
    (ht : .flag .estimates ∈ items → f = .traces ∨ f = .onlyTraces) :
    reports (meaning rnd lines items) =
      (if .flag .summary ∈ items then [.totals] else []) ++ [listOf items f] ∧
    (.flag .estimates ∉ items →
      ((meaning rnd lines items).tracegaponly = 0 ↔ f = .traces ∨ f = .gaps)) := by
  have hmem : ∀ i ∈ items, ∀ g, listFlag i = some g → g = f := by
    intro i hi g hg
    have : g ∈ items.filterMap listFlag := List.mem_filterMap.2 ⟨i, hi, hg⟩
    rw [hf] at this
    simpa using this
  obtain ⟨i0, hi0, hf0⟩ := List.mem_filterMap.1 (show f ∈ items.filterMap listFlag by rw [hf]; simp)
  have haft : items.filterMap afterwards = [f].filterMap (fun g => afterwards (.flag g)) := by
    rw [← hf, List.filterMap_filterMap]
    apply filterMap_congr'
    intro i _
    rcases i with g | _ | _ | _ | _ | _
    · cases g <;> rfl
    all_goals rfl
  have hfalse : items.filterMap (instead false) = [f].filterMap (fun g => instead false (.flag g)) := by
    rw [← hf, List.filterMap_filterMap]
    apply filterMap_congr'
    intro i _
    rcases i with g | _ | _ | _ | _ | _
    · cases g <;> rfl
    all_goals rfl
  have hsum : (meaning rnd lines items).tracegapsum = (([f].filterMap (fun g => afterwards (.flag g))).getLast?).getD 0 := by
    show (lastOf afterwards items).getD 0 = _
    unfold lastOf
    rw [haft]
  have hlf : f = .traces ∨ f = .gaps ∨ f = .onlyTraces ∨ f = .onlyGaps ∨ f = .sync := by
    rcases i0 with g | _ | _ | _ | _ | _
    · cases g <;> simp [listFlag] at hf0 <;> simp [← hf0]
    all_goals simp [listFlag] at hf0
  have honly : .flag .estimates ∉ items → (meaning rnd lines items).tracegaponly =
      (([f].filterMap (fun g => instead false (.flag g))).getLast?).getD 0 := by
    intro he
    show insteadOf items = _
    rw [insteadOf_plain he, hfalse]
  have hb : (meaning rnd lines items).basicsum = decide (.flag .summary ∈ items) := rfl
  have hg : (meaning rnd lines items).tracegaps = decide (.flag .estimates ∈ items) := rfl
  have hs : (meaning rnd lines items).splitversion =
    decide (.flag .versions ∈ items ∨ .flag .qualities ∈ items) := rfl
  have htf : (meaning rnd lines items).timeformat = formatOf (last .timeFormat items) := rfl
  have hmi : (meaning rnd lines items).mingap = last .minGap items := rfl
  have hma : (meaning rnd lines items).maxgap = last .maxGap items := rfl
  constructor
  · by_cases he : .flag .estimates ∈ items
    · -- the list instead of the records is none or the trace list
      have hle : (meaning rnd lines items).tracegaponly = 0 ∨ (meaning rnd lines items).tracegaponly = 1 := by
        show insteadOf items = 0 ∨ insteadOf items = 1
        have hval : ∀ b, ∀ y ∈ items.filterMap (instead b), y = 1 := by
          intro b y hy
          obtain ⟨i, hi, hy⟩ := List.mem_filterMap.1 hy
          rcases i with g | _ | _ | _ | _ | _
          · cases g <;> simp [instead] at hy
            · exact hy.symm
            · exact hy.2.symm
            · rcases ht he with e | e <;> exact absurd (hmem _ hi _ rfl) (by rw [e]; decide)
            · rcases ht he with e | e <;> exact absurd (hmem _ hi _ rfl) (by rw [e]; decide)
          all_goals simp [instead] at hy
        unfold insteadOf
        simp only
        cases hl : ((items.takeWhile fun i => (afterwards i).isNone).filterMap (instead true) ++
          (items.dropWhile fun i => (afterwards i).isNone).filterMap (instead false)).getLast? with
        | none => exact .inl rfl
        | some y =>
          refine .inr ?_
          show y = 1
          rcases List.mem_append.1 (List.mem_of_getLast? hl) with hy | hy
          · exact hval true y (((List.takeWhile_sublist _).filterMap _).subset hy)
          · exact hval false y (((List.dropWhile_sublist _).filterMap _).subset hy)
      have hone : (meaning rnd lines items).tracegapsum = 1 ∨ (meaning rnd lines items).tracegaponly = 1 := by
        rcases ht he with rfl | rfl
        · exact .inl hsum
        · refine .inr ?_
          have hsum0 : (meaning rnd lines items).tracegapsum = 0 := hsum
          have : insteadOf items = 1 := by
            refine insteadOf_estimates he ?_ ?_ ?_ ?_ <;>
              exact fun hi => absurd (hmem _ hi _ rfl) (by decide)
          exact this
      have hsum2 : (meaning rnd lines items).tracegapsum ≠ 2 := by
        rcases ht he with rfl | rfl <;> rw [hsum] <;> decide
      unfold reports
      rw [hb, hg, hs, htf, if_pos hone,
        if_neg (show ¬ ((meaning rnd lines items).tracegapsum = 2 ∨ (meaning rnd lines items).tracegaponly = 2)
          by omega), if_neg (show ¬ (meaning rnd lines items).tracegaponly = 3 by omega)]
      unfold listOf
      rw [if_pos (ht he)]
      simp
    · have ho := honly he
      unfold reports
      rw [hsum, ho, hb, hg, hs, htf, hmi, hma]
      unfold listOf
      rcases hlf with rfl | rfl | rfl | rfl | rfl <;> simp [afterwards, instead]
  · intro he
    rw [honly he]
    rcases hlf with rfl | rfl | rfl | rfl | rfl <;> simp [instead]

/-- **C99 is violated by two lists**: with `-t -g` only the gap list is printed, with `-G -tg` only the
trace list. -/
theorem C99_two_lists_violated (rnd : Rat → Rat) :
    listsOf (processparam (host0 rnd) [ascii "-t", ascii "-g", ascii "a"]) =
      some ([.gaps none none .isoMonthDayZ], true) ∧
    listsOf (processparam (host0 rnd) [ascii "-G", ascii "-tg", ascii "a"]) =
      some ([.traces true false .isoMonthDayZ], false) := ⟨rfl, rfl⟩

/-! ## Examples -/

/-- `-ts 2012-01-01T02:03:06 -te 2012-01-01T02:03:06.000000006 -m :? -r Q -n 2 -D -O -b x -o y -t a b` -/
def words : List Item :=
  [.value .after (ascii "2012-01-01T02:03:06"), .value .before (ascii "2012-01-01T02:03:06.000000006"),
   .value .containing (ascii ":?"), .value .without (ascii "Q"), .value .count (ascii "2"),
   .flag .allSamples, .flag .offsets, .value .samplesTo (ascii "x"), .value .recordsTo (ascii "y"),
   .flag .traces, .file (ascii "a"), .file (ascii "b")]

/-- The host with the files of the example for C45. -/
def hostOf (files : List UInt8 → Option (List UInt8)) : Host := ⟨true, fun x => x, files⟩

/-- The hypotheses of C95, C96 and C98 are met. -/
theorem words_valid : Valid (hostOf Props.Msi.disk) (fun _ => []) words where
  written := by
    intro i hi
    simp only [words, List.mem_cons, List.not_mem_nil, or_false] at hi
    rcases hi with rfl | rfl | rfl | rfl | rfl | rfl | rfl | rfl | rfl | rfl | rfl | rfl
    all_goals first
      | exact trivial
      | exact .inl (show _ ≠ _ by decide +kernel)
      | exact ⟨.inl (show _ ≠ _ by decide +kernel), show _ ≠ _ by decide +kernel⟩
  plain := by
    intro k v hi hk
    simp only [words, List.mem_cons, List.not_mem_nil, or_false, Item.value.injEq, reduceCtorEq, false_or] at hi
    rcases hk with rfl | rfl <;> simp at hi
  times := by
    intro k v hi hk
    simp only [words, List.mem_cons, List.not_mem_nil, or_false, Item.value.injEq, reduceCtorEq, false_or] at hi
    rcases hk with rfl | rfl
    · simp only [reduceCtorEq, false_and, or_false, true_and] at hi
      subst hi
      exact ⟨1325383386000000000, by decide +kernel, by decide⟩
    · simp only [reduceCtorEq, false_and, or_false, true_and, false_or] at hi
      subst hi
      exact ⟨1325383386000000006, by decide +kernel, by decide⟩
  count := by
    intro v hv
    have : last .count words = some (ascii "2") := by decide +kernel
    rw [this] at hv
    cases hv
    exact ⟨2, ⟨by decide +kernel, by decide +kernel, by decide +kernel⟩, by decide⟩
  format := by
    intro v hv
    have : last .timeFormat words = none := by decide +kernel
    rw [this] at hv
    cases hv
  lists := by
    intro n hn
    simp [words] at hn
  inputs := by decide +kernel

theorem words_config : (meaning (fun x => x) (fun _ => []) words).config = Props.Msi.options := by
  decide +kernel

/-- The whole program on this command line: the output file has two of the three records. -/
example : ∃ s, program Props.Record2.env0 false 0 (fun _ => 1) [] (hostOf Props.Msi.disk) 3 (line words) =
      .ok { code := 0, state := some s, reports := [.traces false false .isoMonthDayZ] } ∧
    s.output = Props.Msi.checked.bytes ++ Props.Msi.checked.bytes ∧ s.files = 2 := by
  have hr : Props.Msi.Run Props.Record2.env0 false 0 (hostOf Props.Msi.disk).rnd (fun _ => 1) []
      (hostOf Props.Msi.disk).signed (hostOf Props.Msi.disk).files
      (meaning (hostOf Props.Msi.disk).rnd (fun _ => []) words).config (some [.lit 58, .any])
      (some [.lit 81]) Props.Msi.two (fun _ => 1325383387000000005) (fun _ => true)
      (fun _ => .text [65, 66, 67, 68]) := by
    show Props.Msi.Run _ _ _ _ _ _ _ _ (meaning (fun x => x) (fun _ => []) words).config _ _ _ _ _ _
    rw [words_config]
    exact Props.Msi.two_run
  have hl : Props.Msi.two.map Props.Msi.InFile.path = inputs (fun _ => []) words := by decide +kernel
  obtain ⟨s, h1, h2, h3⟩ := C98_program_partial words_valid hr hl 3 (by
    intro f hf
    simp only [Props.Msi.two, List.mem_cons, List.not_mem_nil, or_false] at hf
    rcases hf with rfl | rfl <;>
      simp [Props.Msi.InFile.recs, Props.Reader.ofFile, Props.Reader.expectedBytes, Props.Reader.wanted])
  refine ⟨s, ?_, ?_, ?_⟩
  · rw [h1]
    have : reports (meaning (hostOf Props.Msi.disk).rnd (fun _ => []) words) =
      [.traces false false .isoMonthDayZ] := by decide +kernel
    rw [this]
  · have e1 : last .recordsTo words = some (ascii "y") := by decide +kernel
    have e2 : last .count words = some (ascii "2") := by decide +kernel
    have e3 : TimeStr.value (text (ascii "2")) = 2 := by decide +kernel
    rw [h2, e1, e2, if_neg (by simp)]
    simp only
    rw [e3]
    simp [Props.Msi.two, Props.Msi.InFile.recs, Props.Reader.ofFile, Props.Reader.expectedBytes,
      Props.Reader.wanted]
  · rw [h3]
    decide +kernel

/-- `-G c @l b -s`, and `-s -G c @l b`, the list file having an empty line, a comment and the names
`d` and `-e`. -/
def listed : List Item :=
  [.flag .onlyGaps, .file (ascii "c"), .list (ascii "l"), .file (ascii "b"), .flag .summary]

/-- See `listed`. -/
def listed' : List Item :=
  [.flag .summary, .flag .onlyGaps, .file (ascii "c"), .list (ascii "l"), .file (ascii "b")]

/-- See `listed`. -/
def listLines (_ : List UInt8) : List (List UInt8) := [ascii "d", [], ascii "# f", ascii "-e"]

theorem listed_valid : Valid (hostOf fun n => if n = ascii "l" then some (ascii "d\n\n# f\n-e\n") else none)
    listLines listed where
  written := by
    intro i hi
    simp only [listed, List.mem_cons, List.not_mem_nil, or_false] at hi
    rcases hi with rfl | rfl | rfl | rfl | rfl
    all_goals first
      | exact trivial
      | exact ⟨.inl (show _ ≠ _ by decide +kernel), show _ ≠ _ by decide +kernel⟩
  plain := by simp [listed]
  times := by simp [listed]
  count := by
    intro v hv
    have : last .count listed = none := by decide +kernel
    rw [this] at hv
    cases hv
  format := by
    intro v hv
    have : last .timeFormat listed = none := by decide +kernel
    rw [this] at hv
    cases hv
  lists := by
    intro n hn
    have : n = ascii "l" := by simpa [listed] using hn
    subst this
    refine ⟨⟨true, by decide +kernel⟩, ?_⟩
    intro s hs
    simp only [listLines, List.mem_cons, List.not_mem_nil, or_false] at hs
    rcases hs with rfl | rfl | rfl | rfl <;> exact ⟨by decide +kernel, by decide +kernel⟩
  inputs := by decide +kernel

/-- The input files; the hypotheses of C97 and C99. -/
example : inputs listLines listed = [ascii "c", ascii "d", ascii "-e", ascii "b"] ∧
    listed.Perm listed' ∧ inputs listLines listed = inputs listLines listed' ∧ Once listed ∧
    listed.filterMap listFlag = [.onlyGaps] := by
  refine ⟨by decide +kernel, by decide +kernel, by decide +kernel, ⟨?_, by decide, by decide, by decide, ?_⟩,
    by decide +kernel⟩
  · intro k
    cases k <;> decide
  · simp [listed]

/-- The hypotheses of `C95_unknown_option`, with the option `-x`. -/
example : (ascii "-x").head? = some 45 ∧ (ascii "-x").length > 1 ∧ ascii "-x" ≠ ascii "-V" ∧
    ascii "-x" ≠ ascii "-h" ∧ ((ascii "-x").take 2 ≠ ascii "-v" ∧ (ascii "-x").take 2 ≠ ascii "-p") ∧
    (∀ f : Flag, ascii "-x" ≠ f.name) ∧ ∀ k : Key, ascii "-x" ≠ k.name := by
  refine ⟨by decide +kernel, by decide +kernel, by decide +kernel, by decide +kernel,
    ⟨by decide +kernel, by decide +kernel⟩, ?_, ?_⟩
  · intro f
    cases f <;> decide +kernel
  · intro k
    cases k <;> decide +kernel

/-- The hypotheses of `C95_missing_value`, with `-n -t`. -/
example : ∀ w rest', [ascii "-t"] = w :: rest' → ¬ ValueText .count w ∧ ∀ b ∈ w, b.toNat < 128 := by
  intro w rest' e
  injection e with e1 e2
  subst e1
  refine ⟨?_, by decide +kernel⟩
  rintro (h | ⟨h, -⟩ | ⟨h | h, -⟩)
  · exact h (by decide +kernel)
  · cases h
  · cases h
  · cases h

end Verif.Props.Options
