import Verif.Proof.PathRange
import Verif.Proof.ReaderRange
import Verif.Props.Reader
/-!
# Byte ranges in path names: C36 and C78
-/
namespace Verif.Props.PathRange
open Verif.Model Verif.Model.Steim Verif.Model.Record3 Verif.Model.Reader Verif.Model.PathRange
open Verif.Spec.PathRange Verif.Proof.PathRange Verif.Proof.Reader Verif.Proof.Mem Verif.Props.Reader
open Verif.Props.Record2 (env0)
open Verif.Props.Record3 (sample sample_valid)

theorem toInt64_small {n : Nat} (h : n < 2 ^ 63) : toInt64 n = n := by
  unfold toInt64
  rw [if_pos h]

theorem offset_of {s : List UInt8} (h : value s < 2 ^ 63) :
    (if s.length ≠ 0 then toInt64 (strtoull s) else 0) = (value s : Int) := by
  split
  · rw [strtoull_value s (by omega), toInt64_small h]
  · rename_i hl
    have : s = [] := List.eq_nil_of_length_eq_zero (by omega)
    rw [this]; rfl

/-- A documented or incomplete range in the form the proofs use. -/
theorem range_form {s a b : List UInt8} (h : Range s a b) :
    Number a ∧ Number b ∧ ∃ dash, (dash = false → b = []) ∧
      s = a ++ if dash then 45 :: b else [] := by
  obtain ⟨ha, hb, ⟨hs, -, hn⟩ | ⟨hs, -⟩⟩ := h
  · exact ⟨ha, hb, false, fun _ => hn, by rw [hs]; simp⟩
  · exact ⟨ha, hb, true, by simp, by rw [hs]; simp⟩

/-- **C36 (partial).** A path `FILE@START`, `FILE@START-END` or `FILE@-END`, with whatever FILE of at
most 511 bytes (further `@` included) and numbers below 2^63, opens FILE with these offsets, 0 for a
number not given.  Missing: longer names and larger numbers, see the violations below. -/
theorem C36_range_partial (p s a b : List UInt8) (hr : Range s a b) (hp : p.length ≤ 511)
    (ha : value a < 2 ^ 63) (hb : value b < 2 ^ 63) :
    opening true (p ++ 64 :: s) = .ok ⟨p, value a, value b⟩ := by
  obtain ⟨h1, h2, dash, h3, rfl⟩ := range_form hr
  unfold opening
  rw [if_pos rfl, parseRange_form p a b dash h1 h2 h3, bind_ok]
  simp only
  rw [if_pos (by omega), offset_of ha, offset_of hb, List.take_take, Nat.min_eq_left hp,
    List.take_left]

/-- The path "a@b@12-345". -/
example : Range [49, 50, 45, 51, 52, 53] [49, 50] [51, 52, 53] ∧ value [49, 50] = 12 ∧
    value [51, 52, 53] = 345 ∧
    opening true ([97, 64, 98] ++ 64 :: [49, 50, 45, 51, 52, 53]) = .ok ⟨[97, 64, 98], 12, 345⟩ := by
  refine ⟨⟨⟨?_, by decide⟩, ⟨?_, by decide⟩, Or.inr ⟨rfl, by decide⟩⟩, by decide, by decide,
    by decide +kernel⟩ <;>
  · intro c hc
    simp only [List.mem_cons, List.not_mem_nil, or_false] at hc
    unfold Digit
    rcases hc with rfl | rfl | rfl <;> decide

/-- **C36 (partial).** A path of at most 511 bytes that has no range at its end, nor an incomplete
one, is opened unchanged and without offsets; what follows the last `@` must be ASCII. -/
theorem C36_no_range_partial (string : List UInt8) (hl : string.length ≤ 511)
    (hascii : ∀ p s, string = p ++ 64 :: s → (64 : UInt8) ∉ s → ∀ c ∈ s, c.toNat < 128)
    (hno : ∀ p s a b, string = p ++ 64 :: s → ¬ Range s a b ∧ ¬ Incomplete s a) :
    opening true string = .ok ⟨string, 0, 0⟩ := by
  unfold opening
  rw [if_pos rfl, parseRange_none string 0 0 hascii ?_, bind_ok]
  · simp only
    rw [List.take_of_length_le hl]
  · intro p a b ha hb
    constructor
    · intro hs
      have := hno p a a [] hs
      by_cases ha0 : a = []
      · exact this.2 ⟨ha, Or.inl ⟨ha0, ha0⟩⟩
      · exact this.1 ⟨ha, ⟨by simp, by simp⟩, Or.inl ⟨rfl, ha0, rfl⟩⟩
    · intro hs
      have := hno p (a ++ 45 :: b) a b hs
      by_cases hb0 : b = []
      · exact this.2 ⟨ha, Or.inr (by rw [hb0])⟩
      · exact this.1 ⟨ha, hb, Or.inr ⟨rfl, hb0⟩⟩

/-- The path "a@b". -/
example : (∀ p s, [97, 64, 98] = p ++ (64 : UInt8) :: s → s = [98]) ∧
    ∀ a b, ¬ Range [98] a b ∧ ¬ Incomplete [98] a := by
  have h98 : ¬ Digit 98 := by unfold Digit; decide
  refine ⟨?_, ?_⟩
  · intro p s h
    rcases p with _ | ⟨x, _ | ⟨y, _ | ⟨z, p⟩⟩⟩ <;> simp at h
    exact h.2.symm
  · intro a b
    refine ⟨?_, ?_⟩
    · rintro ⟨ha, -, ⟨h, -⟩ | ⟨h, -⟩⟩
      · exact h98 (ha.1 98 (by rw [← h]; simp))
      · rcases a with _ | ⟨x, a⟩
        · simp at h
        · rw [List.cons_append] at h
          injection h with h1 _
          exact h98 (ha.1 98 (by rw [h1]; simp))
    · rintro ⟨ha, ⟨h, -⟩ | h⟩
      · cases h
      · rcases a with _ | ⟨x, a⟩
        · simp at h
        · rw [List.cons_append] at h
          injection h with h1 _
          exact h98 (ha.1 98 (by rw [h1]; simp))

/-- **C36.** Without the flag for ranges, a path of at most 511 bytes is opened unchanged. -/
theorem C36_flag_off (string : List UInt8) (hl : string.length ≤ 511) :
    opening false string = .ok ⟨string, 0, 0⟩ := by
  unfold opening
  simp only [Bool.false_eq_true, if_false, bind_ok]
  rw [List.take_of_length_le hl]

example : opening false [97, 64, 49] = .ok ⟨[97, 64, 49], 0, 0⟩ := by decide +kernel

/-- **C36 (memory).** Looking for a range never writes outside the arrays for the digits. -/
theorem C36_digits_in_bounds (string : List UInt8) (x y : Int) : parseRange string x y ≠ .oob := by
  unfold parseRange
  split
  · simp
  · refine bind_ne_oob (walk_ne_oob _ _ (by simp) (by simp)) fun r _ => ?_
    cases r <;> simp

/-- **C36 (violated).** An incomplete range is removed from the path: `a@`, `a@-` and `a@5-`. -/
theorem C36_incomplete_violated :
    opening true [97, 64] = .ok ⟨[97], 0, 0⟩ ∧ opening true [97, 64, 45] = .ok ⟨[97], 0, 0⟩ ∧
    opening true [97, 64, 53, 45] = .ok ⟨[97], 5, 0⟩ ∧
    (∀ a b, ¬ Range [] a b) ∧ (∀ a b, ¬ Range [45] a b) := by
  refine ⟨by decide +kernel, by decide +kernel, by decide +kernel, ?_, ?_⟩
  · rintro a b ⟨-, -, ⟨h, hn, -⟩ | ⟨h, -⟩⟩
    · exact hn h.symm
    · simp at h
  · rintro a b ⟨ha, -, ⟨h, -, -⟩ | ⟨h, hn⟩⟩
    · have := ha.1 45 (by rw [← h]; simp)
      unfold Digit at this
      revert this
      decide
    · rcases a with _ | ⟨x, a⟩
      · simp at h; exact hn h
      · simp at h

/-- **C36 (violated).** Every START of 2^63 or more, up to 2^64 - 1, becomes negative, and the file is
read from its beginning. -/
theorem C36_large_offset_violated (files : List UInt8 → List UInt8) (p a : List UInt8) (ha : Number a)
    (hp : p.length ≤ 511) (h1 : 2 ^ 63 ≤ value a) (h2 : value a < 2 ^ 64) :
    ∃ r, openFile files true (p ++ 64 :: a) = .ok r ∧ r.unread = files p ∧ r.streampos = 0 := by
  have hne : a.length ≠ 0 := by
    intro h
    have : a = [] := List.eq_nil_of_length_eq_zero h
    rw [this] at h1
    revert h1
    decide
  have := parseRange_form p a [] false ha ⟨by simp, by simp⟩ (fun _ => rfl) 0 0
  simp only [Bool.false_eq_true, if_false, List.append_nil] at this
  unfold openFile opening
  rw [if_pos rfl, this, bind_ok]
  simp only
  rw [if_pos (by omega), bind_ok, if_pos hne, strtoull_value a h2]
  refine ⟨_, rfl, ?_, ?_⟩
  · show (files _).drop (toInt64 (value a)).toNat = _
    have : (toInt64 (value a)).toNat = 0 := by
      unfold toInt64
      rw [if_neg (by omega)]
      omega
    rw [this, List.take_take, Nat.min_eq_left hp, List.take_left]
    rfl
  · show (if toInt64 (value a) > 0 then toInt64 (value a) else 0) = 0
    rw [if_neg]
    unfold toInt64
    rw [if_neg (by omega)]
    omega

/-- 9223372036854775808, which is 2^63. -/
example : value [57, 50, 50, 51, 51, 55, 50, 48, 51, 54, 56, 53, 52, 55, 55, 53, 56, 48, 56] = 2 ^ 63 := by
  decide +kernel

/-- **C36 (violated).** A range after a name of 512 bytes or more writes a NUL behind the path. -/
theorem C36_long_path_violated (p s a b : List UInt8) (hr : Range s a b) (hp : 512 ≤ p.length) :
    opening true (p ++ 64 :: s) = .oob := by
  obtain ⟨h1, h2, dash, h3, rfl⟩ := range_form hr
  unfold opening
  rw [if_pos rfl, parseRange_form p a b dash h1 h2 h3, bind_ok]
  simp only
  rw [if_neg (by omega)]

example : ∃ p : List UInt8, 512 ≤ p.length := ⟨List.replicate 512 65, by decide +kernel⟩

/-- **C36 (violated).** Without a range, a name of 512 bytes or more is cut: another file is opened. -/
theorem C36_long_name_violated (string : List UInt8) (hl : 512 ≤ string.length) :
    ∃ q, opening false string = .ok ⟨q, 0, 0⟩ ∧ q.length = 511 := by
  refine ⟨string.take 511, by simp [opening, bind_ok], by rw [List.length_take]; omega⟩

/-- **C36 (violated).** A byte of 128 or more after the last `@` is a negative `char`, for which
`isdigit` is not defined: `a@é` in Latin-1. -/
theorem C36_not_ascii_violated : opening true [97, 64, 233] = .ub := by decide +kernel

/-! ## C78: the records of a range -/

/-- The records of the file from `start` on whose first 40 bytes end at `stop` or before (`stop` 0
for no end). -/
def within (start stop : Int) (l : List (Int × Msr)) : List (Int × Msr) :=
  l.filter fun e => decide (start ≤ e.1 ∧ (stop = 0 ∨ e.1 + 39 ≤ stop))

theorem expectedBytes_lt (sel : Option (Msr → Bool)) (l : List Entry) (hb : ∀ e ∈ l, 40 ≤ e.bytes.length) (pos : Int) :
    ∀ e ∈ expectedBytes pos (ofFile sel l), e.1 < pos + (fileOf l []).length := by
  induction l generalizing pos with
  | nil => intro e he; cases he
  | cons a l ih =>
    intro e he
    have h1 := ih (fun e he => hb e (by simp [he])) (pos + a.junk.length + a.bytes.length)
    have h2 := hb a (by simp)
    simp only [ofFile, List.map_cons, expectedBytes] at he h1
    simp only [fileOf, List.flatMap_cons, List.append_nil, List.length_append] at h1 ⊢
    by_cases hw : wanted sel a.msr = true
    · rw [if_pos hw] at he
      rcases List.mem_cons.1 he with rfl | he
      · simp only; omega
      · have := h1 e he; omega
    · rw [if_neg hw] at he
      have := h1 e he; omega

/-- The parts from the byte number `k` of the bytes before the first record. -/
def from' (k : Nat) : List Entry → List Entry
  | [] => []
  | e :: l => { e with junk := e.junk.drop k } :: l

theorem from_mem {k : Nat} {l : List Entry} {e : Entry} (h : e ∈ from' k l) :
    ∃ e0 ∈ l, ∃ j, e = { e0 with junk := e0.junk.drop j } := by
  cases l with
  | nil => cases h
  | cons a l =>
    rcases List.mem_cons.1 h with rfl | h
    · exact ⟨a, by simp, k, rfl⟩
    · exact ⟨e, by simp [h], 0, by simp⟩

theorem from_file (k : Nat) (l : List Entry) (tail : List UInt8) (hk : k = 0 ∨ ∃ e l', l = e :: l' ∧ k ≤ e.junk.length) :
    fileOf (from' k l) tail = (fileOf l tail).drop k := by
  cases l with
  | nil =>
    rcases hk with rfl | ⟨e, l', h, -⟩
    · rfl
    · cases h
  | cons a l =>
    have h : k ≤ a.junk.length := by
      rcases hk with rfl | ⟨e, l', h, hk⟩
      · omega
      · cases h; exact hk
    unfold fileOf from'
    simp only [List.flatMap_cons, List.append_assoc]
    rw [List.drop_append_of_le_length h]

theorem from_expectedBytes (sel : Option (Msr → Bool)) (k : Nat) (l : List Entry) (pos : Int)
    (hk : k = 0 ∨ ∃ e l', l = e :: l' ∧ k ≤ e.junk.length) :
    expectedBytes (pos + k) (ofFile sel (from' k l)) = expectedBytes pos (ofFile sel l) := by
  cases l with
  | nil => rfl
  | cons a l =>
    have h : k ≤ a.junk.length := by
      rcases hk with rfl | ⟨e, l', h, hk⟩
      · omega
      · cases h; exact hk
    have e1 : pos + (k : Int) + ((a.junk.drop k).length : Nat) = pos + a.junk.length := by
      rw [List.length_drop]; omega
    simp only [from', ofFile, List.map_cons, expectedBytes, e1]

theorem noRecord_drop {j b : List UInt8} (h : NoRecord j b) (k : Nat) : NoRecord (j.drop k) b := by
  intro i hi
  rw [List.length_drop] at hi
  have := h (k + i) (by omega)
  rw [← List.drop_drop, List.drop_append_of_le_length (by omega)] at this
  exact this

/-- The same with the bytes of the records. -/
def withinBytes (start stop : Int) (l : List (Int × Msr × List UInt8)) : List (Int × Msr × List UInt8) :=
  l.filter fun e => decide (start ≤ e.1 ∧ (stop = 0 ∨ e.1 + 39 ≤ stop))

theorem withinBytes_map (start stop : Int) (l : List (Int × Msr × List UInt8)) :
    (withinBytes start stop l).map (fun e => (e.1, e.2.1)) = within start stop (l.map fun e => (e.1, e.2.1)) := by
  unfold withinBytes within
  rw [List.filter_map]
  rfl

theorem expectedBytes_append (sel : Option (Msr → Bool)) (l0 l : List Entry) (pos : Int) :
    expectedBytes pos (ofFile sel (l0 ++ l)) =
      expectedBytes pos (ofFile sel l0) ++ expectedBytes (pos + (fileOf l0 []).length) (ofFile sel l) := by
  induction l0 generalizing pos with
  | nil => simp [ofFile, fileOf, expectedBytes]
  | cons a l0 ih =>
    have := ih (pos + a.junk.length + a.bytes.length)
    simp only [ofFile, fileOf, List.cons_append, List.map_cons, expectedBytes, List.flatMap_cons,
      List.append_nil, List.length_append] at this ⊢
    have e : pos + ((a.junk.length + a.bytes.length + (List.flatMap (fun e => e.junk ++ e.bytes) l0).length : Nat) : Int) =
        pos + a.junk.length + a.bytes.length + (List.flatMap (fun e => e.junk ++ e.bytes) l0).length := by omega
    rw [this, e]
    split <;> rfl

/-- Reading a range of a file, with the bytes of the records. -/
theorem range_file (env : Record2.Env) (h : Bool) (base : Nat) (vc ud skip : Bool)
    (sel : Option (Msr → Bool)) (start stop : Nat) (l0 l : List Entry) (tail : List UInt8)
    (hk : Kinds h skip (l0 ++ l) tail)
    (h3 : ∀ e ∈ l0 ++ l, Alone env h vc e.bytes e.msr ∧ Full env h vc ud e.bytes e.msr e.full) (k : Nat)
    (hin : k = 0 ∨ ∃ e l', l = e :: l' ∧ k ≤ e.junk.length)
    (hstart : start = (fileOf l0 []).length + k) :
    ∃ ret, Takes (opts env h base vc ud skip sel) (opened (fileOf (l0 ++ l) tail) (start : Int) (stop : Int))
        (withinBytes start stop (expectedBytes 0 (ofFile sel (l0 ++ l)))) ret ∧
      (ret = .endOfFile ∨ withinBytes start stop (expectedBytes 0 (ofFile sel (l0 ++ l))) = []) := by
  have e0 : fileOf (l0 ++ l) tail = fileOf l0 [] ++ fileOf l tail := by
    simp [fileOf, List.flatMap_append]
  have e1 : (fileOf (l0 ++ l) tail).drop (start) = fileOf (from' k l) tail := by
    rw [hstart, e0, ← List.drop_drop, List.drop_left, from_file k l tail hin]
  obtain ⟨d, hd1, hfit, hft, ⟨hgap, htail⟩, hpiece⟩ := kinds_cut hk h3
  let o := opts env h base vc ud skip sel
  let r := opened (fileOf (l0 ++ l) tail) (start : Int) (stop : Int)
  let L : List Item := (from' k l).map fun e => ⟨e.junk, e.bytes, if (ud && sel.isNone) = true then e.full else e.msr, e.full⟩
  have hcat : cat L ++ tail = fileOf (from' k l) tail := by
    unfold cat fileOf
    rw [List.flatMap_map]
  have hitems : items o L = ofFile sel (from' k l) := by
    show List.map _ (List.map _ _) = List.map _ _
    rw [List.map_map]
    refine List.map_congr_left fun e _ => ?_
    show (e.junk, e.bytes, chosen _ (if (ud && sel.isNone) = true then e.full else e.msr), e.full) = _
    rw [chosen_full]
  have hunread : r.unread = fileOf (from' k l) tail := by
    show (fileOf (l0 ++ l) tail).drop (start : Int).toNat = _
    rw [Int.toNat_natCast, e1]
  have hholds : Holds d (cat L ++ tail) r := by
    rw [hcat, ← hunread]
    exact ⟨by simp [r, opened], by simp [r, opened], by simp [r, opened], by simp [r, opened],
      by simp [r, opened], by simp [r, opened]⟩
  have hpos : r.streampos = (start : Int) := by
    show (if (start : Int) > 0 then (start : Int) else 0) = _
    split <;> omega
  obtain ⟨ret, hret, hc⟩ := range_takes (opts_ends env h base vc ud skip sel) (d := d) (tail := tail)
    (by
      rcases htail with ht | ⟨hs, hn⟩
      · exact Or.inl ht
      · rcases hd1 with hd1 | hd1
        · exact Or.inr ⟨hs, hd1, fun k hk => tail_bad hn k hk⟩
        · exact Or.inl hd1.2) hft L
    (by
      intro i hi
      obtain ⟨e', he', rfl⟩ := List.mem_map.1 hi
      obtain ⟨e, he, j, rfl⟩ := from_mem he'
      obtain ⟨h1, h2, h3⟩ := hpiece e (List.mem_append_right _ he)
      refine ⟨good_piece base skip sel d h1 h2 h3, ?_⟩
      rcases hgap e (List.mem_append_right _ he) with hj | ⟨hs, hn⟩
      · left
        show e.junk.drop j = []
        rw [hj, List.drop_nil]
      · rcases hd1 with hd1 | hd1
        · exact Or.inr ⟨hd1, hs, fun k hk t => junk_bad (noRecord_drop hn j) h1.low k hk t⟩
        · left
          show e.junk.drop j = []
          rw [hd1.1 e (List.mem_append_right _ he), List.drop_nil]) r hholds (hfit.mono (by
        rw [hcat, ← e1, List.length_drop]
        omega))
  have hsame : insideBytes r.endoffset (expectedBytes r.streampos (items o L)) =
      withinBytes start stop (expectedBytes 0 (ofFile sel (l0 ++ l))) := by
    rw [expectedBytes_append, hitems, hpos]
    unfold withinBytes insideBytes
    rw [List.filter_append]
    have h1 : (expectedBytes 0 (ofFile sel l0)).filter
        (fun e : Int × Msr × List UInt8 => decide ((start : Int) ≤ e.1 ∧ ((stop : Int) = 0 ∨ e.1 + 39 ≤ (stop : Int)))) = [] := by
      rw [List.filter_eq_nil_iff]
      intro e he
      have := expectedBytes_lt sel l0 (fun e he => (hpiece e (List.mem_append_left _ he)).1.low) 0 e he
      simp only [decide_eq_true_eq]
      omega
    have h2 : (start : Int) = 0 + (fileOf l0 []).length + k := by omega
    rw [h1, List.nil_append, ← from_expectedBytes sel k l _ hin, ← h2]
    refine List.filter_congr fun e he => ?_
    have := expectedBytes_ge _ _ e he
    have hend : r.endoffset = (stop : Int) := rfl
    rw [hend, decide_eq_decide]
    omega
  rw [hsame] at hc hret
  refine ⟨ret, hc, ?_⟩
  rcases hret with h | ⟨-, -, h⟩
  · exact Or.inl h
  · exact Or.inr h

/-- **C78.** Reading `FILE@START-END` (or `FILE@START`, `FILE@-END`), where FILE is a file
of the kinds that the reader is shown to read (C34), if skipping is asked for with other bytes between the records, and
START is where a record begins or in the bytes before it, gives
exactly the records asked for of the file that begin
at START or later and whose first 40 bytes end at END or before, each with its offset in the file,
and then the end of the file (if there are such records). -/
theorem C78_range_records (env : Record2.Env) (h : Bool) (base : Nat) (vc ud skip : Bool)
    (sel : Option (Msr → Bool))
    (files : List UInt8 → List UInt8) (p s a b : List UInt8) (hr : Range s a b) (hp : p.length ≤ 511)
    (ha : value a < 2 ^ 63) (hb : value b < 2 ^ 63) (l0 l : List Entry) (tail : List UInt8)
    (hk : Kinds h skip (l0 ++ l) tail)
    (h3 : ∀ e ∈ l0 ++ l, Alone env h vc e.bytes e.msr ∧ Full env h vc ud e.bytes e.msr e.full)
    (hfile : files p = fileOf (l0 ++ l) tail) (k : Nat)
    (hin : k = 0 ∨ ∃ e l', l = e :: l' ∧ k ≤ e.junk.length)
    (hstart : value a = (fileOf l0 []).length + k) :
    ∃ r ret, openFile files true (p ++ 64 :: s) = .ok r ∧
      Calls (opts env h base vc ud skip sel) r
        (within (value a) (value b) (expected 0 (ofFile sel (l0 ++ l)))) ret ∧
      (ret = .endOfFile ∨
        within (value a) (value b) (expected 0 (ofFile sel (l0 ++ l))) = []) := by
  obtain ⟨ret, h1, h2⟩ := range_file env h base vc ud skip sel (value a) (value b) l0 l tail hk h3 k hin hstart
  have h1 := takes_calls h1
  rw [withinBytes_map, expectedBytes_map] at h1
  refine ⟨opened (fileOf (l0 ++ l) tail) (value a : Int) (value b : Int), ret, ?_, h1, ?_⟩
  · unfold openFile
    rw [C36_range_partial p s a b hr hp ha hb, bind_ok]
    simp only [hfile]
  · rcases h2 with h2 | h2
    · exact Or.inl h2
    · right
      rw [← expectedBytes_map, ← withinBytes_map, h2]
      rfl

/-- Two records of 52 bytes with two bytes between them, and the range from the second of these bytes on, `a@53`. -/
example : ∃ l0 l : List Entry, l0.length = 1 ∧ l.length = 1 ∧
    Kinds false true (l0 ++ l) [] ∧ (∀ e ∈ l0 ++ l, Alone env0 false false e.bytes e.msr ∧
      Full env0 false false true e.bytes e.msr e.full) ∧ (∃ e l', l = e :: l' ∧ 1 ≤ e.junk.length) ∧
    value [53, 51] = (fileOf l0 []).length + 1 := by
  obtain ⟨m, m', h1, h2, -⟩ := sample_full
  refine ⟨[⟨[], sample.bytes, m, m'⟩], [⟨[88, 88], sample.bytes, m, m'⟩], rfl, rfl,
    .inl ⟨by simp [sample_version3], ?_, .inl (by decide)⟩, ?_, ⟨_, _, rfl, by show 1 ≤ 2; omega⟩, ?_⟩
  · intro e he
    simp only [List.cons_append, List.nil_append, List.mem_cons, List.not_mem_nil, or_false] at he
    rcases he with rfl | rfl
    · exact .inl rfl
    · exact .inr ⟨rfl, junk_noRecord _⟩
  · intro e he
    simp only [List.cons_append, List.nil_append, List.mem_cons, List.not_mem_nil, or_false] at he
    rcases he with rfl | rfl <;> exact ⟨h1, h2⟩
  · simp only [fileOf, List.flatMap_cons, List.flatMap_nil, List.append_nil, List.nil_append]
    decide +kernel

end Verif.Props.PathRange
