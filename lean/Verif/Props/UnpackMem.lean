import Verif.Model.UnpackMem
/-!
# Theorems on the memory and the streams used to unpack a record list

C148: everything used for a time is given back.
-/
namespace Verif.Props.UnpackMem
open Verif.Model.UnpackMem

/-- The blocks and streams are those of the beginning, `b` and `k`, those in the list, the file buffer, and `lost` that nothing
points to. -/
structure Holds (b k lost : Nat) (s : State) : Prop where
  blocks : s.blocks = b + s.files.length + (if s.buffer then 1 else 0) + lost
  streams : s.streams = k + s.files.length

/-- What a part of the call does: it goes on with nothing lost, or stops with at most one block lost, and none if all requests
for memory are met and all files can be opened. -/
def Keeps (w : World) (b k : Nat) (t : State × Bool) : Prop :=
  ∃ lost, Holds b k lost t.1 ∧ lost ≤ 1 ∧ (t.2 = true → lost = 0) ∧ ((∀ n, w.alloc n = true) ∧ (∀ p, w.opens p = true) → lost = 0)

theorem keeps_of {w : World} {b k : Nat} {s : State} (h : Holds b k 0 s) (c : Bool) : Keeps w b k (s, c) :=
  ⟨0, h, by omega, fun _ => rfl, fun _ => rfl⟩

theorem openFile_keeps (w : World) (p b k : Nat) (s : State) (h : Holds b k 0 s) : Keeps w b k (openFile w p s) := by
  obtain ⟨h1, h2⟩ := h
  unfold openFile
  split
  · exact keeps_of ⟨h1, h2⟩ _
  split
  · refine keeps_of (Holds.mk ?_ ?_) _
    · exact h1
    · exact h2
  split
  · rename_i hf
    refine ⟨1, ⟨by simp only; omega, h2⟩, by omega, by simp, fun hw => ?_⟩
    rw [hw.2 p] at hf
    simp at hf
  · exact keeps_of ⟨by simp only [List.length_cons]; omega, by simp only [List.length_cons]; omega⟩ _

theorem room_keeps (w : World) (n b k : Nat) (s : State) (h : Holds b k 0 s) : Keeps w b k (room w n s) := by
  obtain ⟨h1, h2⟩ := h
  unfold room
  split
  · split
    · rename_i ha
      refine ⟨if s.buffer then 1 else 0, ⟨?_, h2⟩, by split <;> omega, by simp, fun hw => ?_⟩
      · simp only [h1]
        simp
      · rw [hw.1] at ha
        simp at ha
    · refine keeps_of (Holds.mk ?_ ?_) _
      · simp only [h1]
        cases s.buffer <;> simp
      · exact h2
  · exact keeps_of ⟨h1, h2⟩ _

theorem fetch_keeps (w : World) (r : Rec) (b k : Nat) (s : State) (h : Holds b k 0 s) : Keeps w b k (fetch w r s) := by
  obtain ⟨lost, h1, h2, h3, h4⟩ := room_keeps w r.reclen b k s h
  refine ⟨lost, h1, h2, fun hc => h3 ?_, h4⟩
  simp only [fetch, Bool.and_eq_true] at hc
  exact hc.1

theorem locate_keeps (w : World) (r : Rec) (b k : Nat) (s : State) (h : Holds b k 0 s) : Keeps w b k (locate w r s) := by
  unfold locate
  split
  · exact keeps_of h _
  · exact fetch_keeps w r b k s h
  · rename_i p _
    have ho := openFile_keeps w p b k s h
    simp only
    split
    · rename_i ht
      obtain ⟨lost, h1, -, h3, -⟩ := ho
      rw [h3 ht] at h1
      exact fetch_keeps w r b k _ h1
    · exact ho
  · exact keeps_of h _

theorem loop_keeps (w : World) (b k : Nat) : ∀ (rs : List Rec) (s : State), Holds b k 0 s → Keeps w b k (loop w rs s)
  | [], s, h => keeps_of h _
  | r :: rs, s, h => by
    unfold loop
    split
    · exact loop_keeps w b k rs s h
    split
    · exact keeps_of h _
    · obtain ⟨lost, h1, h2, h3, h4⟩ := locate_keeps w r b k s h
      simp only
      split
      · rename_i ht
        rw [h3 ht.1] at h1
        exact loop_keeps w b k rs _ h1
      · exact ⟨lost, h1, h2, by simp, h4⟩

theorem finish_holds {b k lost : Nat} {s : State} (h : Holds b k lost s) : (finish s).blocks = b + lost ∧ (finish s).streams = k := by
  obtain ⟨h1, h2⟩ := h
  unfold finish
  simp only
  constructor
  · cases hb : s.buffer <;> simp [hb] at h1 ⊢ <;> omega
  · omega

/-- The result of a call in terms of what is lost. -/
theorem unpack_keeps (w : World) (output : Bool) (rs : List Rec) (b k : Nat) :
    ∃ lost, (unpack w output rs b k).1.streams = k ∧
      (unpack w output rs b k).1.blocks = b + lost + (if output = false ∧ (unpack w output rs b k).2 = true then 1 else 0) ∧ lost ≤ 1 ∧
      ((unpack w output rs b k).2 = true → lost = 0) ∧ ((∀ n, w.alloc n = true) ∧ (∀ p, w.opens p = true) → lost = 0) := by
  unfold unpack
  cases output with
  | true =>
    simp only [if_true]
    obtain ⟨lost, h1, h2, h3, h4⟩ := loop_keeps w b k rs { blocks := b, streams := k } ⟨by simp, by simp⟩
    obtain ⟨f1, f2⟩ := finish_holds h1
    exact ⟨lost, f2, by simp [f1], h2, h3, h4⟩
  | false =>
    simp only [Bool.false_eq_true, if_false]
    split
    · exact ⟨0, rfl, by simp, by omega, fun _ => rfl, fun _ => rfl⟩
    · obtain ⟨lost, h1, h2, h3, h4⟩ := loop_keeps w (b + 1) k rs { blocks := b + 1, streams := k, asked := 1 } ⟨by simp, by simp⟩
      obtain ⟨f1, f2⟩ := finish_holds h1
      split
      · rename_i ht
        refine ⟨lost, f2, ?_, h2, fun _ => h3 ht, h4⟩
        simp only [f1, and_self, if_true]
        omega
      · refine ⟨lost, f2, ?_, h2, by simp, h4⟩
        simp only [f1]
        simp

/-- **C148 (streams).** Whatever the records, the files and the memory, after the call exactly the streams are open that were before,
and at most one block of memory is lost. -/
theorem C148_streams (w : World) (output : Bool) (rs : List Rec) (b k : Nat) :
    (unpack w output rs b k).1.streams = k ∧ b ≤ (unpack w output rs b k).1.blocks ∧ (unpack w output rs b k).1.blocks ≤ b + 1 := by
  obtain ⟨lost, h1, h2, h3, h4, -⟩ := unpack_keeps w output rs b k
  refine ⟨h1, by omega, ?_⟩
  rw [h2]
  split
  · rename_i hc
    rw [h4 hc.2]
    omega
  · omega

/-- Three records of two files: both files are opened and closed. -/
def three : List Rec := [{ place := .name 1 }, { place := .name 2, reclen := 4096 }, { place := .name 1 }]

example : (unpack ⟨fun _ => true, fun _ => true⟩ false three 5 3) = ({ blocks := 6, streams := 3, size := 8192, asked := 5 }, true) := by
  decide +kernel

/-- **C148 (memory, partial).** If the call succeeds, or if it fails though all requests for memory are met and all files can be opened,
the blocks in use are those from before, and the samples if the call made room for them and succeeded.  Missing: files that cannot
be opened and memory that is short, for which it is false. -/
theorem C148_memory_partial (w : World) (output : Bool) (rs : List Rec) (b k : Nat)
    (h : (unpack w output rs b k).2 = true ∨ ((∀ n, w.alloc n = true) ∧ (∀ p, w.opens p = true))) :
    (unpack w output rs b k).1.blocks = b + if output = false ∧ (unpack w output rs b k).2 = true then 1 else 0 := by
  obtain ⟨lost, -, h2, -, h4, h5⟩ := unpack_keeps w output rs b k
  have : lost = 0 := h.elim h4 h5
  omega

/-- A record that cannot be read: the call fails, and everything is given back. -/
example : (unpack ⟨fun _ => true, fun _ => true⟩ false ({ place := .name 3, readable := false } :: three) 5 3) =
    ({ blocks := 5, streams := 3, size := 1024, asked := 3 }, false) := by decide +kernel

/-- Calls one after another with the same arguments: the blocks in use afterwards. -/
def again (w : World) (output : Bool) (rs : List Rec) (k : Nat) : Nat → Nat → Nat
  | 0, b => b
  | n + 1, b => again w output rs k n (unpack w output rs b k).1.blocks

/-- **C148 is violated by a file that cannot be opened**: the entry made for it is lost, a block with every call, although there is
memory enough. -/
theorem C148_missing_file_violated (w : World) (ha : ∀ n, w.alloc n = true) (p : Nat) (hp : w.opens p = false) (output : Bool) (rs : List Rec)
    (k : Nat) : ∀ n b, again w output ({ place := .name p } :: rs) k n b = b + n := by
  have one : ∀ b, (unpack w output ({ place := .name p } :: rs) b k).1.blocks = b + 1 := by
    intro b
    cases output <;> simp [unpack, loop, locate, openFile, ha, hp, finish]
  intro n
  induction n with
  | zero => intro b; rfl
  | succ n ih => intro b; rw [again, one, ih]; omega

example : again ⟨fun _ => true, fun p => decide (p ≠ 1)⟩ false three 3 4 5 = 9 := by decide +kernel

/-- **C148 is violated if a file buffer cannot be enlarged**: the one for the record before is lost. -/
theorem C148_buffer_violated :
    (unpack ⟨fun n => decide (n ≠ 2), fun _ => true⟩ true [{ place := .name 1 }, { place := .name 1, reclen := 4096 }] 5 3) =
      ({ blocks := 6, streams := 3, size := 1024, asked := 3 }, false) := by decide +kernel

end Verif.Props.UnpackMem
