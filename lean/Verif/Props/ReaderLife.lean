import Verif.Model.ReaderLife
import Verif.Props.ExtraMem
import Verif.Props.PathRange
/-!
# Life of a reader (C139)
-/
namespace Verif.Props.ReaderLife
open Verif.Model.ReaderLife Verif.Model.Steim
open Verif.Model.ExtraMem (Heap Ptr alloc free freePtr touch)
open Verif.Model.PathRange (parseRange opening)
open Verif.Props.ExtraMem (Exactly exactly_perm alloc_cases free_ok freePtr_ok touch_ok)
open Verif.Proof.Mem (bind_ok)

/-- The blocks of a reader. -/
def blocks : Option Param → List Nat
  | none => []
  | some p => p.self.toList ++ p.buffer.toList

/-- The stream of a reader. -/
def stream : Option Param → List Nat
  | none => []
  | some p => p.handle.toList ++ p.handle2.toList

theorem blocks_some (p : Param) : blocks (some p) = p.self.toList ++ p.buffer.toList := rfl

theorem stream_some (p : Param) : stream (some p) = p.handle.toList ++ p.handle2.toList := rfl

/-- The memory in use is that of the record, that of the reader and other, and the open streams are that of the reader
and others. -/
def Owns (w : World) (others rest : List Nat) : Prop :=
  Exactly w.heap (w.msr.toList ++ (blocks w.param ++ others)) ∧ Exactly w.streams (stream w.param ++ rest) ∧
    ∀ p, w.param = some p → p.handle = none → p.handle2 = none

/-- The call reads the standard input. -/
def standard : Op → Bool
  | .read _ path => path == [45]
  | _ => false

/-- Paths are ASCII of at most 511 bytes. -/
def Plain : Op → Prop
  | .read _ path => path.length ≤ 511 ∧ ∀ c ∈ path, c.toNat < 128
  | _ => True

macro "perm" : tactic => `(tactic| (rw [List.perm_iff_count]; intro b; simp only [List.count_append, List.count_cons, List.count_nil, blocks, stream, Option.toList_some, Option.toList_none, List.nil_append, List.append_nil]; all_goals omega))

theorem lastIndex_lt (c : UInt8) (l : List UInt8) {i : Nat} (h : Model.PathRange.lastIndex c l = some i) :
    i < l.length := by
  induction l generalizing i with
  | nil => cases h
  | cons x t ih =>
    unfold Model.PathRange.lastIndex at h
    cases e : Model.PathRange.lastIndex c t with
    | some j =>
      rw [e] at h
      injection h with h
      have := ih e
      simp only [List.length_cons]
      omega
    | none =>
      rw [e] at h
      simp only at h
      split at h
      · injection h with h; simp only [List.length_cons]; omega
      · cases h

theorem parse_ok (s : List UInt8) (x y : Int) (ha : ∀ c ∈ s, c.toNat < 128) :
    ∃ f, parseRange s x y = .ok f ∧ ∀ i, f.at? = some i → i < s.length := by
  unfold parseRange
  cases e : Model.PathRange.lastIndex 64 s with
  | none => exact ⟨_, rfl, fun i h => by cases h⟩
  | some i =>
    obtain ⟨r, hr⟩ := Proof.PathRange.walk_ok (s.drop (i + 1)) {} (fun c hc => ha c (List.mem_of_mem_drop hc))
      (by decide) (by decide)
    simp only
    rw [hr, bind_ok]
    cases r with
    | none => exact ⟨_, rfl, fun i h => by cases h⟩
    | some st =>
      refine ⟨_, rfl, fun j h => ?_⟩
      injection h with h
      subst h
      exact lastIndex_lt _ _ e

theorem store_ok (range : Bool) (path : List UInt8) (p : Param) (hl : path.length ≤ 511)
    (ha : ∀ c ∈ path, c.toNat < 128) :
    ∃ q, store range path p = .ok q ∧ q.self = p.self ∧ q.buffer = p.buffer ∧ q.handle = p.handle ∧
      q.handle2 = p.handle2 := by
  unfold store
  have : ∃ f, (if range then parseRange path p.start p.stop else .ok ⟨none, p.start, p.stop⟩) = .ok f ∧
      ∀ i, f.at? = some i → i < path.length := by
    cases range with
    | true => exact parse_ok path p.start p.stop ha
    | false => exact ⟨_, rfl, fun i h => by cases h⟩
  obtain ⟨f, e, hi⟩ := this
  rw [e, bind_ok]
  obtain ⟨at?, a, b⟩ := f
  cases at? with
  | none => exact ⟨_, rfl, rfl, rfl, rfl, rfl⟩
  | some i =>
    have := hi i rfl
    simp only
    rw [if_pos (by omega)]
    exact ⟨_, rfl, rfl, rfl, rfl, rfl⟩

theorem openUrl_ok (k : Luck) (p : Param) (s : Heap) (rest : List Nat) (hs : Exactly s rest) (h1 : p.handle = none)
    (h2 : p.handle2 = none) :
    ∃ b q s', openUrl k p s = (b, q, s') ∧ Exactly s' (stream (some q) ++ rest) ∧ q.self = p.self ∧
      q.buffer = p.buffer ∧ (q.handle = none → q.handle2 = none) ∧ (b = true → q.handle ≠ none) := by
  unfold openUrl
  rcases alloc_cases k.opens hs with ⟨-, i, s1, ea, x1⟩ | ⟨-, ea⟩
  · simp only [ea]
    have x1' : Exactly s1 (stream (some { p with handle := some i }) ++ rest) := by
      simp only [stream_some, h2]
      exact x1
    split
    · exact ⟨_, _, _, rfl, x1', rfl, rfl, by simp, by simp⟩
    · rcases alloc_cases k.multi x1 with ⟨-, j, s2, eb, x2⟩ | ⟨-, eb⟩
      · simp only [eb]
        split
        · exact ⟨_, _, _, rfl, exactly_perm x2 (by perm), rfl, rfl, by simp, by simp⟩
        · exact ⟨_, _, _, rfl, exactly_perm x2 (by perm), rfl, rfl, by simp, by simp⟩
      · simp only [eb]
        exact ⟨_, _, _, rfl, x1', rfl, rfl, by simp, by simp⟩
  · simp only [ea]
    refine ⟨_, _, _, rfl, ?_, rfl, rfl, fun _ => h2, by simp⟩
    simp only [stream_some, h1, h2]
    exact hs

/-- Opening: the stream is open afterwards, unless opening failed. -/
theorem openStream_ok (k : Luck) (range : Bool) (path : List UInt8) (p : Param) (s : Heap) (rest : List Nat)
    (hl : path.length ≤ 511) (ha : ∀ c ∈ path, c.toNat < 128) (hs : Exactly s (stream (some p) ++ rest))
    (h2 : p.handle = none → p.handle2 = none) (h0 : path = [45] → p.handle = none → 0 ∈ rest) :
    ∃ b q s' rest', openStream k range path p s = .ok (b, q, s') ∧ Exactly s' (stream (some q) ++ rest') ∧
      q.self = p.self ∧ q.buffer = p.buffer ∧
      (rest' = rest ∨ (path = [45] ∧ rest' = rest.erase 0 ∧ stream (some q) = [0])) ∧
      (p.handle ≠ none → q = p) ∧ (q.handle = none → q.handle2 = none) := by
  unfold openStream
  by_cases hh : p.handle ≠ none
  · rw [if_pos hh]
    exact ⟨_, _, _, rest, rfl, hs, rfl, rfl, .inl rfl, fun _ => rfl, h2⟩
  · rw [if_neg hh]
    have hn : p.handle = none := Decidable.of_not_not hh
    have hn2 := h2 hn
    obtain ⟨q, e, e1, e2, e3, e4⟩ := store_ok range path p hl ha
    rw [e, bind_ok]
    have q1 : q.handle = none := by rw [e3, hn]
    have q2 : q.handle2 = none := by rw [e4, hn2]
    have hs : Exactly s rest := by
      have : stream (some p) = [] := by rw [stream_some, hn, hn2]; rfl
      rwa [this] at hs
    have hadd : ∀ i s1 pl, Exactly s1 (i :: rest) →
        Exactly s1 (stream (some { q with handle := some i, place := pl }) ++ rest) := by
      intro i s1 pl x1
      simp only [stream_some, q2]
      exact x1
    by_cases hp : path = [45]
    · rw [if_pos hp]
      have hm := h0 hp hn
      have est : stream (some { q with handle := some 0 }) = [0] := by simp only [stream_some, q2]; rfl
      refine ⟨_, _, _, rest.erase 0, rfl, ?_, e1, e2, .inr ⟨hp, rfl, est⟩, fun h => absurd hn h, by simp⟩
      rw [est]
      exact exactly_perm hs (List.perm_cons_erase hm)
    · rw [if_neg hp]
      by_cases hu : isUrl q.path = true
      · rw [if_pos hu]
        obtain ⟨b, q', s', eu, x, u1, u2, u3, -⟩ := openUrl_ok k q s rest hs q1 q2
        rw [eu]
        exact ⟨_, _, _, rest, rfl, x, u1.trans e1, u2.trans e2, .inl rfl, fun h => absurd hn h, u3⟩
      · rw [if_neg hu]
        rcases alloc_cases k.opens hs with ⟨-, i, s1, ea, x1⟩ | ⟨-, ea⟩
        · rw [ea]
          simp only
          split
          · split
            · exact ⟨_, _, _, rest, rfl, hadd _ _ _ x1, e1, e2, .inl rfl, fun h => absurd hn h, by simp⟩
            · exact ⟨_, _, _, rest, rfl, hadd _ _ q.place x1, e1, e2, .inl rfl, fun h => absurd hn h, by simp⟩
          · exact ⟨_, _, _, rest, rfl, hadd _ _ q.place x1, e1, e2, .inl rfl, fun h => absurd hn h, by simp⟩
        · rw [ea]
          refine ⟨_, _, _, rest, rfl, ?_, e1, e2, .inl rfl, fun h => absurd hn h, fun _ => q2⟩
          have : stream (some q) = [] := by rw [stream_some, q1, q2]; rfl
          rw [this]
          exact hs

theorem search_ok (k : Luck) (p : Param) (msr : Ptr) (h s : Heap) (others rest : List Nat)
    (hh : Exactly h (msr.toList ++ (blocks (some p) ++ others))) (hs : Exactly s (stream (some p) ++ rest)) :
    ∃ b m h', search k p msr h s = .ok (b, m, h') ∧ Exactly h' (m.toList ++ (blocks (some p) ++ others)) ∧
      (b = false → m = none) ∧ (b = true → m ≠ none) := by
  unfold search
  rw [touch_ok hs (by intro b e; simp only [stream_some]; rw [e]; simp), bind_ok,
    touch_ok hs (by intro b e; simp only [stream_some]; rw [e]; simp), bind_ok,
    touch_ok hh (by intro b e; simp only [blocks_some]; rw [e]; simp), bind_ok,
    touch_ok hh (by intro b e; rw [e]; simp), bind_ok]
  simp only
  have key : ∃ m h', (if k.found = true ∧ msr = none then alloc k.record h else (msr, h)) = (m, h') ∧
      Exactly h' (m.toList ++ (blocks (some p) ++ others)) := by
    split
    · rename_i hc
      rw [hc.2] at hh
      rcases alloc_cases k.record hh with ⟨-, i, s1, ea, x1⟩ | ⟨-, ea⟩
      · exact ⟨_, _, ea, x1⟩
      · exact ⟨_, _, ea, hh⟩
    · exact ⟨_, _, rfl, hh⟩
  obtain ⟨m, h', e, x⟩ := key
  rw [e]
  simp only
  split
  · rename_i hc
    exact ⟨_, _, _, rfl, x, by simp, fun _ => hc.2.2⟩
  · obtain ⟨h2, e2, x2⟩ := freePtr_ok (p := m) (m := blocks (some p) ++ others) x (.refl _)
    rw [e2, bind_ok]
    exact ⟨_, _, _, rfl, x2, fun _ => rfl, by simp⟩

theorem paramOf_ok (k : Luck) (w : World) (others rest : List Nat) (hw : Owns w others rest) :
    (w.param = none ∧ k.param = false ∧ paramOf k w.param w.heap = (none, w.heap)) ∨
    ∃ p h, paramOf k w.param w.heap = (some p, h) ∧ Exactly h (w.msr.toList ++ (blocks (some p) ++ others)) ∧
      stream (some p) = stream w.param ∧ (p.handle = none → p.handle2 = none) ∧ (∀ q, w.param = some q → p = q) := by
  obtain ⟨param, msr, heap, streams⟩ := w
  obtain ⟨h1, h2, h3⟩ := hw
  cases param with
  | some p => exact .inr ⟨p, heap, rfl, h1, rfl, h3 p rfl, fun q h => by injection h⟩
  | none =>
    rcases alloc_cases k.param h1 with ⟨-, i, s1, ea, x1⟩ | ⟨ek, ea⟩
    · refine .inr ⟨{ self := some i }, s1, ?_, exactly_perm x1 (by perm), rfl, fun _ => rfl, fun q h => by cases h⟩
      unfold paramOf
      simp only [ea]
    · refine .inl ⟨rfl, ek, ?_⟩
      unfold paramOf
      simp only [ea]

theorem close_ok (k : Luck) (w : World) (others rest : List Nat) (hw : Owns w others rest) :
    ∃ b w', close k w = .ok (b, w') ∧ Owns w' others rest ∧ stream w'.param = [] ∧
      (b = false → w.param = none ∧ k.param = false) ∧
      (b = true → w'.msr = none ∧ blocks w'.param = []) := by
  unfold close
  rcases paramOf_ok k w others rest hw with ⟨hn, hk, e⟩ | ⟨p, h, e, x, es, e2h, -⟩
  · rw [e]
    refine ⟨_, _, rfl, hw, ?_, fun _ => ⟨hn, hk⟩, by simp⟩
    show stream w.param = []
    rw [hn]
    rfl
  · rw [e]
    simp only
    obtain ⟨h1, e1, x1⟩ := freePtr_ok (p := w.msr) x (.refl _)
    rw [e1, bind_ok]
    have hs : Exactly w.streams (p.handle.toList ++ (p.handle2.toList ++ rest)) := by
      have := hw.2.1
      rw [← es, stream_some, List.append_assoc] at this
      exact this
    obtain ⟨s0, e0, x0⟩ := freePtr_ok (p := p.handle) hs (.refl _)
    rw [e0, bind_ok]
    obtain ⟨s1, e2, x2⟩ := freePtr_ok (p := p.handle2) x0 (.refl _)
    rw [e2, bind_ok]
    obtain ⟨h2, e3, x3⟩ := freePtr_ok (p := p.buffer) (m := p.self.toList ++ others) x1 (by perm)
    rw [e3, bind_ok, touch_ok x3 (by intro b e; rw [e]; simp), bind_ok]
    obtain ⟨h3, e4, x4⟩ := freePtr_ok (p := p.self) x3 (.refl _)
    rw [e4, bind_ok]
    have hb : blocks (if p.self = none then some {} else none) = [] := by split <;> rfl
    have hst : stream (if p.self = none then some {} else none) = [] := by split <;> rfl
    refine ⟨_, _, rfl, ⟨?_, ?_, ?_⟩, hst, by simp, fun _ => ⟨rfl, hb⟩⟩
    · simp only [hb]; exact x4
    · simp only [hst]; exact x2
    · intro q hq _
      simp only at hq
      split at hq
      · injection hq with hq; subst hq; rfl
      · cases hq

theorem read_ok (k : Luck) (range : Bool) (path : List UInt8) (w : World) (others rest : List Nat)
    (hw : Owns w others rest) (hl : path.length ≤ 511) (ha : ∀ c ∈ path, c.toNat < 128)
    (h0 : path = [45] → stream w.param = [] → 0 ∈ rest) :
    ∃ b w' rest', readmsr k range path w = .ok (b, w') ∧ Owns w' others rest' ∧
      (rest' = rest ∨ (path = [45] ∧ rest' = rest.erase 0 ∧ stream w'.param = [0])) ∧
      (stream w.param ≠ [] → stream w'.param = stream w.param) ∧
      (b = false → k.param = true → k.buffer = true → w'.msr = none) ∧ (b = true → w'.msr ≠ none) := by
  unfold readmsr
  rcases paramOf_ok k w others rest hw with ⟨hn, hk, e⟩ | ⟨p, h, e, x, es, e2h, -⟩
  · rw [e]
    exact ⟨_, _, rest, rfl, hw, .inl rfl, fun _ => rfl, fun _ h => (by rw [hk] at h; cases h), by simp⟩
  · rw [e]
    simp only
    rw [touch_ok x (by intro b e; simp only [blocks_some]; rw [e]; simp), bind_ok]
    have hs : Exactly w.streams (stream (some p) ++ rest) := by
      have := hw.2.1
      rwa [← es] at this
    have key : (k.buffer = false ∧ ∃ h1, bufferOf k p h = (false, p, h1) ∧
          Exactly h1 (w.msr.toList ++ (blocks (some p) ++ others))) ∨
        ∃ q h1, bufferOf k p h = (true, q, h1) ∧ Exactly h1 (w.msr.toList ++ (blocks (some q) ++ others)) ∧
          q.handle = p.handle ∧ q.handle2 = p.handle2 := by
      unfold bufferOf
      cases eb : p.buffer with
      | some b => exact .inr ⟨_, _, rfl, x, rfl, rfl⟩
      | none =>
        rcases alloc_cases k.buffer x with ⟨-, i, s1, ea, x1⟩ | ⟨ek, ea⟩
        · simp only [ea]
          refine .inr ⟨_, _, rfl, exactly_perm x1 ?_, rfl, rfl⟩
          simp only [blocks_some]
          rw [eb]
          perm
        · simp only [ea]
          exact .inl ⟨ek, _, rfl, x⟩
    rcases key with ⟨hk, h1, e1, x1⟩ | ⟨q, h1, e1, x1, eh, eh2⟩
    · rw [e1]
      exact ⟨_, _, rest, rfl, ⟨x1, hs, fun q hq => by injection hq with hq; subst hq; exact e2h⟩, .inl rfl, fun _ => es, fun _ _ h => (by rw [hk] at h; cases h), by simp⟩
    · rw [e1]
      simp only
      have esq : stream (some q) = stream (some p) := by simp only [stream_some]; rw [eh, eh2]
      have q2h : q.handle = none → q.handle2 = none := by rw [eh, eh2]; exact e2h
      obtain ⟨b, q2, s2, rest', e2, x2, a1, a2, hst, a4, a5⟩ := openStream_ok k range path q w.streams rest hl ha
        (by rw [esq]; exact hs) q2h (by
          intro hp hq
          refine h0 hp ?_
          rw [← es, ← esq, stream_some, hq, q2h hq]
          rfl)
      rw [e2, bind_ok]
      have hbl : blocks (some q2) = blocks (some q) := by simp only [blocks_some]; rw [a1, a2]
      have x1 : Exactly h1 (w.msr.toList ++ (blocks (some q2) ++ others)) := by rw [hbl]; exact x1
      have a5' : ∀ p, some q2 = some p → p.handle = none → p.handle2 = none := by
        intro p hp
        injection hp with hp
        subst hp
        exact a5
      have hkeep : stream w.param ≠ [] → stream (some q2) = stream w.param := by
        intro hne
        rw [← es, ← esq] at hne ⊢
        rw [a4 (by intro e; rw [stream_some, e, q2h e] at hne; exact hne rfl)]
      cases b with
      | false =>
        simp only [if_true]
        obtain ⟨h2, e3, x3⟩ := freePtr_ok (p := w.msr) x1 (.refl _)
        rw [e3, bind_ok]
        exact ⟨_, _, rest', rfl, ⟨x3, x2, a5'⟩, hst, hkeep, fun _ _ _ => rfl, by simp⟩
      | true =>
        simp only [Bool.true_eq_false, if_false]
        obtain ⟨b, m, h2, e3, x3, c1, c2⟩ := search_ok k q2 w.msr h1 s2 others rest' x1 x2
        rw [e3, bind_ok]
        exact ⟨_, _, rest', rfl, ⟨x3, x2, a5'⟩, hst, hkeep, fun h _ _ => c1 h, c2⟩

theorem initFd_ok (k : Luck) (w : World) (others rest : List Nat) (hw : Owns w others rest) :
    ∃ b w', initFd k w = .ok (b, w') ∧ Owns w' others rest ∧ (stream w.param ≠ [] → stream w'.param = stream w.param) := by
  unfold initFd
  obtain ⟨param, msr, heap, streams⟩ := w
  cases param with
  | some p =>
    rw [if_pos (by simp)]
    exact ⟨_, _, rfl, hw, fun _ => rfl⟩
  | none =>
    rw [if_neg (by simp)]
    obtain ⟨h1, h2, hinv⟩ := hw
    rcases alloc_cases k.param h1 with ⟨-, i, s1, ea, x1⟩ | ⟨ek, ea⟩
    · simp only [ea]
      rcases alloc_cases k.opens h2 with ⟨-, j, s2, eb, x2⟩ | ⟨-, eb⟩
      · simp only [eb]
        exact ⟨_, _, rfl, ⟨exactly_perm x1 (by perm), x2, fun q hq h => by injection hq with hq; subst hq; cases h⟩, fun h => absurd rfl h⟩
      · simp only [eb]
        obtain ⟨h3, e3, x3⟩ := free_ok x1 (.refl _)
        rw [e3, bind_ok]
        exact ⟨_, _, rfl, ⟨x3, h2, hinv⟩, fun h => absurd rfl h⟩
    · simp only [ea]
      exact ⟨_, _, rfl, ⟨h1, h2, hinv⟩, fun h => absurd rfl h⟩

/-- What a call keeps. -/
theorem step_ok (k : Luck) (op : Op) (w : World) (others rest : List Nat) (hw : Owns w others rest) (hp : Plain op)
    (h0 : standard op = true → stream w.param = [] → 0 ∈ rest) :
    ∃ b w' rest', step k w op = .ok (b, w') ∧ Owns w' others rest' ∧
      (rest' = rest ∨ (standard op = true ∧ rest' = rest.erase 0 ∧ stream w'.param = [0])) ∧
      (op ≠ .close → stream w.param ≠ [] → stream w'.param = stream w.param) := by
  cases op with
  | read range path =>
    obtain ⟨b, w', rest', e, x, c, d, -, -⟩ := read_ok k range path w others rest hw hp.1 hp.2
      (fun h => h0 (by unfold standard; simp [h]))
    refine ⟨b, w', rest', e, x, ?_, fun _ => d⟩
    rcases c with c | ⟨c1, c2⟩
    · exact .inl c
    · exact .inr ⟨by unfold standard; simp [c1], c2⟩
  | close =>
    obtain ⟨b, w', e, x, -, -, -⟩ := close_ok k w others rest hw
    exact ⟨b, w', rest, e, x, .inl rfl, fun h => absurd rfl h⟩
  | initFd =>
    obtain ⟨b, w', e, x, c⟩ := initFd_ok k w others rest hw
    exact ⟨b, w', rest, e, x, .inl rfl, fun _ => c⟩

/-- Calls that do not read the standard input. -/
theorem run_files (calls : List (Luck × Op)) (w : World) (others rest : List Nat) (hw : Owns w others rest)
    (hp : ∀ x ∈ calls, Plain x.2) (hs : ∀ x ∈ calls, standard x.2 = false) :
    ∃ w', run calls w = .ok w' ∧ Owns w' others rest := by
  induction calls generalizing w with
  | nil => exact ⟨w, rfl, hw⟩
  | cons x l ih =>
    have hx := hs x (by simp)
    obtain ⟨b, w1, rest1, e1, x1, c1, -⟩ := step_ok x.1 x.2 w others rest hw (hp x (by simp))
      (fun h => by rw [hx] at h; cases h)
    rcases c1 with rfl | ⟨h, -⟩
    · obtain ⟨w2, e2, x2⟩ := ih w1 x1 (fun y hy => hp y (by simp [hy])) (fun y hy => hs y (by simp [hy]))
      refine ⟨w2, ?_, x2⟩
      show (step x.1 w x.2).bind _ = _
      rw [e1, bind_ok, e2]
    · rw [hx] at h; cases h

/-- Calls of one session, which may read the standard input. -/
theorem run_session (calls : List (Luck × Op)) (w : World) (others rest : List Nat) (hw : Owns w others rest)
    (hp : ∀ x ∈ calls, Plain x.2) (hc : ∀ x ∈ calls, x.2 ≠ .close) (h0 : 0 ∈ rest ∨ stream w.param = [0]) :
    ∃ w' rest', run calls w = .ok w' ∧ Owns w' others rest' ∧ (rest' = rest ∨ rest' = rest.erase 0 ∧ 0 ∈ rest) := by
  induction calls generalizing w rest with
  | nil => exact ⟨w, rest, rfl, hw, .inl rfl⟩
  | cons x l ih =>
    obtain ⟨b, w1, rest1, e1, x1, c1, d1⟩ := step_ok x.1 x.2 w others rest hw (hp x (by simp)) (by
      intro _ h
      rcases h0 with h0 | h0
      · exact h0
      · rw [h0] at h; cases h)
    have hrun : ∀ w2, run l w1 = .ok w2 → run (x :: l) w = .ok w2 := by
      intro w2 e2
      show (step x.1 w x.2).bind _ = _
      rw [e1, bind_ok, e2]
    have hl := fun y hy => hp y (List.mem_cons_of_mem x hy)
    have hlc := fun y hy => hc y (List.mem_cons_of_mem x hy)
    rcases c1 with rfl | ⟨-, c2, c3⟩
    · have h1 : 0 ∈ rest1 ∨ stream w1.param = [0] := by
        rcases h0 with h0 | h0
        · exact .inl h0
        · exact .inr (by rw [d1 (hc x (by simp)) (by rw [h0]; simp), h0])
      obtain ⟨w2, rest2, e2, x2, c⟩ := ih w1 rest1 x1 hl hlc h1
      exact ⟨w2, rest2, hrun w2 e2, x2, c⟩
    · obtain ⟨w2, rest2, e2, x2, c⟩ := ih w1 rest1 x1 hl hlc (.inr c3)
      refine ⟨w2, rest2, hrun w2 e2, x2, ?_⟩
      have hnot : 0 ∉ rest1 := by
        intro hm
        have hn := x1.2.1.1.nodup_iff.1 x1.2.1.2.1
        rw [c3] at hn
        exact (List.nodup_cons.1 hn).1 hm
      have hr : rest2 = rest1 := by
        rcases c with c | ⟨-, c⟩
        · exact c
        · exact absurd c hnot
      rw [hr]
      by_cases hm : 0 ∈ rest
      · exact .inr ⟨c2, hm⟩
      · exact .inl (by rw [c2, List.erase_of_not_mem hm])

theorem run_append (a b : List (Luck × Op)) (w : World) : run (a ++ b) w = (run a w).bind (run b) := by
  induction a generalizing w with
  | nil => rfl
  | cons y a ih =>
    show (step y.1 w y.2).bind (fun r => run (a ++ b) r.2) = ((step y.1 w y.2).bind fun r => run a r.2).bind _
    cases step y.1 w y.2 with
    | ok r => exact ih r.2
    | _ => rfl

/-- **C139** (part).  Whatever memory, the system and the files do, no sequence of calls that open, read and close,
with the standard input in one session at most, uses or closes a stream that is not open, frees a block twice or uses
a freed one; after a last call that closes, nothing is allocated and no stream is open but those from before (without
the standard input if it was read).

Missing: reading the standard input again after closing it, `C139_standard_twice_violated`. -/
theorem C139_no_leak_partial (a b c : List (Luck × Op)) (k : Luck) (w : World) (others rest : List Nat)
    (hw : Owns w others rest) (h0 : 0 ∈ rest) (hp : ∀ x ∈ a ++ b ++ c, Plain x.2)
    (ha : ∀ x ∈ a, standard x.2 = false) (hb : ∀ x ∈ b, x.2 ≠ .close) (hc : ∀ x ∈ c, standard x.2 = false)
    (hk : k.param = true) :
    ∃ w', run (a ++ b ++ c ++ [(k, .close)]) w = .ok w' ∧ w'.msr = none ∧ Exactly w'.heap others ∧
      (Exactly w'.streams rest ∨ Exactly w'.streams (rest.erase 0) ∧ ∃ x ∈ b, standard x.2 = true) := by
  obtain ⟨w1, e1, x1⟩ := run_files a w others rest hw (fun x hx => hp x (by simp [hx])) ha
  have hsess : ∃ w2 rest2, run b w1 = .ok w2 ∧ Owns w2 others rest2 ∧
      (rest2 = rest ∨ rest2 = rest.erase 0 ∧ ∃ x ∈ b, standard x.2 = true) := by
    by_cases hstd : ∃ x ∈ b, standard x.2 = true
    · obtain ⟨w2, rest2, e2, x2, c2⟩ := run_session b w1 others rest x1 (fun x hx => hp x (by simp [hx])) hb (.inl h0)
      refine ⟨w2, rest2, e2, x2, ?_⟩
      rcases c2 with c2 | ⟨c2, -⟩
      · exact .inl c2
      · exact .inr ⟨c2, hstd⟩
    · obtain ⟨w2, e2, x2⟩ := run_files b w1 others rest x1 (fun x hx => hp x (by simp [hx])) (fun x hx => by
        cases e : standard x.2 with
        | false => rfl
        | true => exact absurd ⟨x, hx, e⟩ hstd)
      exact ⟨w2, rest, e2, x2, .inl rfl⟩
  obtain ⟨w2, rest2, e2, x2, c2⟩ := hsess
  obtain ⟨w3, e3, x3⟩ := run_files c w2 others rest2 x2 (fun x hx => hp x (by simp [hx])) hc
  obtain ⟨b4, w4, e4, x4, s4, f4, t4⟩ := close_ok k w3 others rest2 x3
  have hb4 : b4 = true := by
    cases b4 with
    | true => rfl
    | false => rw [(f4 rfl).2] at hk; cases hk
  obtain ⟨m4, bl4⟩ := t4 hb4
  refine ⟨w4, ?_, m4, ?_, ?_⟩
  · rw [run_append, run_append, run_append, e1, bind_ok, e2, bind_ok, e3, bind_ok]
    show (close k w3).bind _ = _
    rw [e4, bind_ok]
    rfl
  · have := x4.1
    rwa [m4, bl4] at this
  · have := x4.2.1
    rw [s4] at this
    rcases c2 with rfl | ⟨rfl, hx⟩
    · exact .inl this
    · exact .inr ⟨this, hx⟩

/-- A call in which nothing fails. -/
def well : Luck := {}

/-- A program that has a block and an open file of its own besides the standard input. -/
def start : World := { heap := ⟨[5], 6⟩, streams := ⟨[0, 3], 4⟩ }

example : Owns start [5] [0, 3] ∧
    run ([(well, .read true [97, 64, 53, 45, 57]), ({ well with good := false }, .read true [97]), (well, .close)] ++
      [(well, .read false [45]), (well, .read false [45])] ++
      [({ well with good := false }, .read false [45]), (well, .close), (well, .initFd), ({ well with found := false }, .read false [97])] ++
      [(well, .close)]) start = .ok { heap := ⟨[5], 14⟩, streams := ⟨[3], 6⟩ } := by
  refine ⟨⟨⟨.refl _, by decide, by decide⟩, ⟨.refl _, by decide, by decide⟩, fun _ h => by cases h⟩, by decide +kernel⟩

/-- **C139** (the record).  A call that reads gives a record if it returns no error, and none if it does, unless
there is no memory for the reader itself. -/
theorem C139_record_partial (k : Luck) (range : Bool) (path : List UInt8) (w : World) (others rest : List Nat)
    (hw : Owns w others rest) (hp : Plain (.read range path)) (h0 : 0 ∈ rest)
    (hk : k.param = true ∧ k.buffer = true) :
    ∃ b w', step k w (.read range path) = .ok (b, w') ∧ (b = true ↔ w'.msr ≠ none) := by
  obtain ⟨b, w', rest', e, -, -, -, c, d⟩ := read_ok k range path w others rest hw hp.1 hp.2 (fun _ _ => h0)
  refine ⟨b, w', e, d, fun h => ?_⟩
  cases b with
  | true => rfl
  | false => exact absurd (c rfl hk.1 hk.2) h

example : step { good := false } { start with msr := some 5 } (.read false [97]) =
    .ok (false, ⟨some { self := some 6, buffer := some 7, handle := some 4, path := [97] }, none, ⟨[7, 6], 8⟩, ⟨[4, 0, 3], 5⟩⟩) := by decide +kernel

/-- **C139** (violated).  Without memory for the buffer the call returns an error, but the record variable is not set
to NULL. -/
theorem C139_record_violated (k : Luck) (range : Bool) (path : List UInt8) (w : World) (p : Param)
    (hp : w.param = some p) (hs : p.self = none) (hb : p.buffer = none) (hk : k.buffer = false) :
    step k w (.read range path) = .ok (false, w) := by
  obtain ⟨param, msr, heap, streams⟩ := w
  simp only at hp
  subst hp
  show readmsr k range path ⟨some p, msr, heap, streams⟩ = _
  unfold readmsr paramOf
  simp only [hs]
  show (Res.ok heap).bind _ = _
  rw [bind_ok]
  unfold bufferOf
  simp only [hb, hk]
  rfl

example : step { buffer := false } { param := some {}, msr := some 0, heap := ⟨[0], 1⟩ } (.read false [97]) =
    .ok (false, { param := some {}, msr := some 0, heap := ⟨[0], 1⟩ }) := by decide +kernel

/-- Letters without their case. -/
def small (c : UInt8) : UInt8 := if 65 ≤ c ∧ c ≤ 90 then c + 32 else c

/-- The path names something on a server: there is `://` in it, but not after `file` at its beginning. -/
def Remote (path : List UInt8) : Prop :=
  (∃ a b, path = a ++ [58, 47, 47] ++ b) ∧ ∀ a b, path = a ++ b → a.map small ≠ [102, 105, 108, 101, 58, 47, 47]

theorem hasScheme_iff (path : List UInt8) : hasScheme path = true ↔ ∃ a b, path = a ++ [58, 47, 47] ++ b := by
  induction path with
  | nil => simp [hasScheme]
  | cons c t ih =>
    unfold hasScheme
    rw [Bool.or_eq_true, ih, beq_iff_eq]
    constructor
    · rintro (h | ⟨a, b, h⟩)
      · exact ⟨[], (c :: t).drop 3, by rw [List.nil_append, ← h, List.take_append_drop]⟩
      · exact ⟨c :: a, b, by rw [h]; rfl⟩
    · rintro ⟨a, b, h⟩
      cases a with
      | nil => left; rw [h]; rfl
      | cons x a =>
        right
        injection h with _ h
        exact ⟨a, b, h⟩

theorem small_lower (c : UInt8) : lower c = small c := by
  unfold lower small
  simp only [UInt8.le_iff_toNat_le]
  rfl

theorem remote_iff (path : List UInt8) : isUrl path = true ↔ Remote path := by
  unfold isUrl Remote
  rw [Bool.and_eq_true, hasScheme_iff, bne_iff_ne, funext small_lower, and_comm]
  refine and_congr_right fun _ => ⟨fun h a b e ha => ?_, fun h => h _ _ (List.take_append_drop 7 path).symm⟩
  have hl : a.length = 7 := by rw [← List.length_map (f := small), ha]; rfl
  apply h
  rw [e, List.take_append_of_le_length (by omega), List.take_of_length_le (by omega), ha]

/-- **C139** (a new reader).  The first call of a reader opens the file and goes to the offset that the path says:
as in C36, with which `opening` is described;
it is opened as a URL exactly if the path names something on a server. -/
theorem C139_first_range (k : Luck) (range : Bool) (path : List UInt8) (w : World) (others rest : List Nat)
    (hw : Owns w others rest) (hn : w.param = none ∨ w.param = some {}) (hstd : path ≠ [45]) (o : Model.PathRange.Opening) (ho : opening range path = .ok o) (b : Bool) (w' : World)
    (hr : step k w (.read range path) = .ok (b, w')) :
    ∀ p, w'.param = some p → p.handle ≠ none →
      p.path = o.path ∧ p.start = o.start ∧ p.stop = o.stop ∧ (b = true → p.place = max 0 o.start) ∧
      (b = true → (p.handle2 ≠ none ↔ Remote o.path)) := by
  have hr : readmsr k range path w = .ok (b, w') := hr
  unfold readmsr at hr
  have hpar : (paramOf k w.param w.heap).1 = none ∨
      ∃ q h, paramOf k w.param w.heap = (some q, h) ∧ q.handle = none ∧ q.start = 0 ∧ q.stop = 0 ∧ q.place = 0 ∧ q.handle2 = none ∧
        Exactly h (w.msr.toList ++ (blocks (some q) ++ others)) := by
    rcases paramOf_ok k w others rest hw with ⟨-, -, e⟩ | ⟨q, h, e, x, -, -, c⟩
    · exact .inl (by rw [e])
    · refine .inr ⟨q, h, e, ?_⟩
      rcases hn with hn | hn
      · rw [hn] at e
        unfold paramOf at e
        simp only at e
        cases ea : alloc k.param w.heap with
        | mk i s =>
          rw [ea] at e
          cases i with
          | none => simp at e
          | some i =>
            simp only at e
            injection e with e _
            injection e with e
            subst e
            exact ⟨rfl, rfl, rfl, rfl, rfl, x⟩
      · rw [c _ hn]
        rw [c _ hn] at x
        exact ⟨rfl, rfl, rfl, rfl, rfl, x⟩
  have hst : ∀ q : Param, q.start = 0 → q.stop = 0 →
      store range path q = .ok { q with path := o.path, start := o.start, stop := o.stop } := by
    intro q h1 h2
    unfold opening at ho
    unfold store
    rw [h1, h2]
    cases ef : (if range then parseRange path 0 0 else .ok ⟨none, 0, 0⟩ : Res Model.PathRange.Found) with
    | ok f =>
      rw [ef, bind_ok] at ho
      rw [bind_ok]
      obtain ⟨at?, s, t⟩ := f
      cases at? with
      | none => injection ho with ho; subst ho; rfl
      | some i =>
        simp only at ho ⊢
        split at ho
        · rename_i hi
          rw [if_pos hi]
          injection ho with ho; subst ho; rfl
        · cases ho
    | _ => rw [ef] at ho; cases ho
  rcases hpar with hpar | ⟨q, h, e, q1, q2, q3, q4, q5, x⟩
  · cases ep : paramOf k w.param w.heap with
    | mk i s =>
      rw [ep] at hpar hr
      simp only at hpar
      subst hpar
      injection hr with hr
      injection hr with _ hr
      intro p hp1 hp2
      rw [← hr] at hp1
      rcases hn with hn | hn
      · rw [hn] at hp1; cases hp1
      · rw [hn] at ep; cases ep
  · rw [e] at hr
    simp only at hr
    rw [touch_ok x (by intro b e; simp only [blocks_some]; rw [e]; simp), bind_ok] at hr
    have hbuf : ∀ r q' h', bufferOf k q h = (r, q', h') →
        q'.handle = none ∧ q'.start = 0 ∧ q'.stop = 0 ∧ q'.place = 0 ∧ q'.handle2 = none := by
      intro r q' h' eb
      unfold bufferOf at eb
      cases ebq : q.buffer with
      | some y =>
        rw [ebq] at eb
        injection eb with _ eb
        injection eb with eb _
        subst eb
        exact ⟨q1, q2, q3, q4, q5⟩
      | none =>
        rw [ebq] at eb
        simp only at eb
        cases ea : alloc k.buffer h with
        | mk i s =>
          rw [ea] at eb
          cases i with
          | none =>
            injection eb with _ eb
            injection eb with eb _
            subst eb
            exact ⟨q1, q2, q3, q4, q5⟩
          | some i =>
            injection eb with _ eb
            injection eb with eb _
            subst eb
            exact ⟨q1, q2, q3, q4, q5⟩
    cases eb : bufferOf k q h with
    | mk r z =>
      obtain ⟨q', h'⟩ := z
      obtain ⟨c1, c2, c3, c4, c5⟩ := hbuf _ _ _ eb
      rw [eb] at hr
      cases r with
      | false =>
        injection hr with hr
        injection hr with _ hr
        intro p hp1 hp2
        rw [← hr] at hp1
        injection hp1 with hp1
        rw [← hp1, c1] at hp2
        exact absurd rfl hp2
      | true =>
        simp only at hr
        have key : ∃ bo po so, openStream k range path q' w.streams = .ok (bo, po, so) ∧ (po.handle ≠ none →
            po.path = o.path ∧ po.start = o.start ∧ po.stop = o.stop ∧ (bo = true → po.place = max 0 o.start) ∧
            (bo = true → (po.handle2 ≠ none ↔ Remote o.path))) := by
          unfold openStream
          rw [if_neg (by simp [c1]), hst q' c2 c3, bind_ok, if_neg hstd]
          by_cases hu : isUrl o.path = true
          · rw [if_pos hu]
            unfold openUrl
            cases ea : alloc k.opens w.streams with
            | mk i s =>
              cases i with
              | none => exact ⟨_, _, _, rfl, fun h => absurd c1 h⟩
              | some i =>
                simp only
                split
                · exact ⟨_, _, _, rfl, fun _ => ⟨rfl, rfl, rfl, by simp, by simp⟩⟩
                · cases eb : alloc k.multi s with
                  | mk j s =>
                    cases j with
                    | none => exact ⟨_, _, _, rfl, fun _ => ⟨rfl, rfl, rfl, by simp, by simp⟩⟩
                    | some j =>
                      simp only
                      split
                      · exact ⟨_, _, _, rfl, fun _ => ⟨rfl, rfl, rfl, by simp, by simp⟩⟩
                      · exact ⟨_, _, _, rfl, fun _ => ⟨rfl, rfl, rfl, fun _ => rfl, fun _ => ⟨fun _ => (remote_iff _).1 hu, fun _ => by simp⟩⟩⟩
          · rw [if_neg hu]
            cases ea : alloc k.opens w.streams with
            | mk i s =>
              cases i with
              | none => exact ⟨_, _, _, rfl, fun h => absurd c1 h⟩
              | some i =>
                simp only
                split
                · rename_i hpos
                  split
                  · exact ⟨_, _, _, rfl, fun _ => ⟨rfl, rfl, rfl, fun _ => by simp only; omega, fun _ => ⟨fun h => absurd c5 h, fun h => absurd ((remote_iff _).2 h) hu⟩⟩⟩
                  · exact ⟨_, _, _, rfl, fun _ => ⟨rfl, rfl, rfl, by simp, by simp⟩⟩
                · rename_i hpos
                  exact ⟨_, _, _, rfl, fun _ => ⟨rfl, rfl, rfl, fun _ => by simp only [c4]; omega,
                    fun _ => ⟨fun h => absurd c5 h, fun h => absurd ((remote_iff _).2 h) hu⟩⟩⟩
        obtain ⟨bo, po, so, eo, ko⟩ := key
        rw [eo, bind_ok] at hr
        intro p hp1 hp2
        cases bo with
        | false =>
          simp only [if_true] at hr
          cases ef : freePtr w.msr h' with
          | ok h2 =>
            rw [ef, bind_ok] at hr
            injection hr with hr
            injection hr with hb hr
            rw [← hr] at hp1
            injection hp1 with hp1
            subst hp1
            obtain ⟨k1, k2, k3, -, -⟩ := ko hp2
            exact ⟨k1, k2, k3, fun h => absurd (hb.trans h) (by decide), fun h => absurd (hb.trans h) (by decide)⟩
          | _ => rw [ef] at hr; cases hr
        | true =>
          simp only [Bool.true_eq_false, if_false] at hr
          cases ef : search k po w.msr h' so with
          | ok y =>
            rw [ef, bind_ok] at hr
            injection hr with hr
            injection hr with hb hr
            rw [← hr] at hp1
            injection hp1 with hp1
            subst hp1
            obtain ⟨k1, k2, k3, k4, k5⟩ := ko hp2
            exact ⟨k1, k2, k3, fun _ => k4 rfl, fun _ => k5 rfl⟩
          | _ => rw [ef] at hr; cases hr

example : Remote [104, 58, 47, 47, 120] ∧ ¬ Remote [70, 105, 108, 101, 58, 47, 47, 97] ∧ ¬ Remote [97, 58, 47] := by
  simp only [← remote_iff]
  decide

example : opening true [97, 64, 53, 45, 57] = .ok ⟨[97], 5, 9⟩ ∧
    step well start (.read true [97, 64, 53, 45, 57]) = .ok (true,
      ⟨some { self := some 6, buffer := some 7, handle := some 4, path := [97], start := 5, stop := 9, place := 5 },
        some 8, ⟨[8, 7, 6, 5], 9⟩, ⟨[4, 0, 3], 5⟩⟩) := by decide +kernel

/-- **C139** (violated).  Reading the standard input a second time, after it was read and closed, uses a stream that
is closed: undefined behaviour, as for `msi - -`. -/
theorem C139_standard_twice_violated :
    run [(well, .read false [45]), ({ well with good := false }, .read false [45]), (well, .close), (well, .read false [45])] start = .ub ∧
    run [(well, .read false [45]), ({ well with good := false }, .read false [45]), (well, .close)] start =
      .ok { heap := ⟨[5], 9⟩, streams := ⟨[3], 4⟩ } := by decide +kernel

/-- **C139** (violated).  After a path with a range that could not be opened, the next file is read in that range,
though its path has none: `a@5-9` and `b`. -/
theorem C139_range_kept_violated : ∃ w1 w2 p, step { opens := false } start (.read true [97, 64, 53, 45, 57]) = .ok (false, w1) ∧
    step well w1 (.read true [98]) = .ok (true, w2) ∧ w2.param = some p ∧ p.path = [98] ∧ p.place = 5 ∧ p.stop = 9 ∧
    opening true [98] = .ok ⟨[98], 0, 0⟩ := by
  refine ⟨_, _, _, rfl, rfl, rfl, ?_⟩
  decide +kernel

/-- **C139** (violated).  If the file cannot be positioned the call returns an error, but the next call reads it from
its beginning: `a@5-9`, of which the bytes 0 to 9 are read. -/
theorem C139_seek_violated : ∃ w1 w2 p, step { seeks := false } start (.read true [97, 64, 53, 45, 57]) = .ok (false, w1) ∧
    step well w1 (.read true [97, 64, 53, 45, 57]) = .ok (true, w2) ∧ w2.param = some p ∧ p.place = 0 ∧ p.start = 5 := by
  refine ⟨_, _, _, rfl, rfl, rfl, ?_⟩
  decide +kernel

/-- **C139** (violated).  After a URL that the server refused, as `h://x`, the next path is not opened: the reader goes
on with the URL.  (A file that cannot be opened does not have this effect.) -/
theorem C139_url_kept_violated : ∃ w1 w2 p, step { answers := false } start (.read false [104, 58, 47, 47, 120]) = .ok (false, w1) ∧
    step { good := false } w1 (.read false [98]) = .ok (false, w2) ∧ w2.param = some p ∧ p.path = [104, 58, 47, 47, 120] ∧
    (∃ w3 w4 q, step { opens := false } start (.read false [97]) = .ok (false, w3) ∧
      step well w3 (.read false [98]) = .ok (true, w4) ∧ w4.param = some q ∧ q.path = [98]) := by
  refine ⟨_, _, _, rfl, rfl, rfl, ?_, _, _, _, rfl, rfl, rfl, ?_⟩ <;> decide +kernel

end Verif.Props.ReaderLife
