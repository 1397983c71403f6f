import Verif.Model.ExtraMem
import Verif.Proof.Mem
/-!
# Memory of parsed extra headers (C138)
-/
namespace Verif.Props.ExtraMem
open Verif.Model.ExtraMem Verif.Model.Steim
open Verif.Proof.Mem (bind_ok)

/-- The blocks of a state. -/
def blocks : Option Parsed → List Nat
  | none => []
  | some p => p.self :: (p.doc.toList ++ p.edit.toList)

/-- The blocks in use are exactly these, each of them once. -/
def Exactly (h : Heap) (l : List Nat) : Prop :=
  h.live.Perm l ∧ h.live.Nodup ∧ ∀ b ∈ h.live, b < h.next

/-- The blocks in use are those of the record, those of the state, and others. -/
def Owns (w : World) (others : List Nat) : Prop :=
  Exactly w.heap (w.extra.toList ++ (blocks w.state ++ others))

/-- A call that may lose memory: it may find that the extra headers or the memory do not allow to read them, or it
replaces the extra headers by a text. -/
def wasteful : Luck × Op → Bool
  | (k, .get _ _) => !k.read
  | (k, .set _ _ _) => !k.read
  | (_, .replace json) => json
  | _ => false

macro "perm" : tactic => `(tactic| (rw [List.perm_iff_count]; intro b; simp only [List.count_append, List.count_cons, List.count_nil, blocks, Option.toList_some, Option.toList_none, List.nil_append, List.append_nil]; all_goals omega))

theorem exactly_perm {h : Heap} {l m : List Nat} (he : Exactly h l) (hp : l.Perm m) : Exactly h m :=
  ⟨he.1.trans hp, he.2⟩

theorem alloc_cases (ok : Bool) {h : Heap} {l : List Nat} (he : Exactly h l) :
    (ok = true ∧ ∃ b h1, alloc ok h = (some b, h1) ∧ Exactly h1 (b :: l)) ∨
    (ok = false ∧ alloc ok h = (none, h)) := by
  cases ok with
  | false => exact .inr ⟨rfl, rfl⟩
  | true =>
    refine .inl ⟨rfl, h.next, _, rfl, he.1.cons _, ?_, ?_⟩
    · exact List.nodup_cons.2 ⟨fun hm => Nat.lt_irrefl _ (he.2.2 _ hm), he.2.1⟩
    · intro b hb
      rcases List.mem_cons.1 hb with rfl | hb
      · exact Nat.lt_succ_self _
      · exact Nat.lt_succ_of_lt (he.2.2 b hb)

theorem free_ok {h : Heap} {b : Nat} {l m : List Nat} (he : Exactly h l) (hp : l.Perm (b :: m)) :
    ∃ h1, free b h = .ok h1 ∧ Exactly h1 m := by
  have hm : b ∈ h.live := (he.1.trans hp).mem_iff.2 List.mem_cons_self
  refine ⟨{ h with live := h.live.erase b }, by unfold free; rw [if_pos hm], ?_, he.2.1.erase b, ?_⟩
  · have := (he.1.trans hp).erase b
    rwa [List.erase_cons_head] at this
  · intro c hc
    exact he.2.2 c (List.mem_of_mem_erase hc)

theorem freePtr_ok {h : Heap} {p : Ptr} {l m : List Nat} (he : Exactly h l) (hp : l.Perm (p.toList ++ m)) :
    ∃ h1, freePtr p h = .ok h1 ∧ Exactly h1 m := by
  cases p with
  | none => exact ⟨h, rfl, exactly_perm he hp⟩
  | some b => exact free_ok he hp

theorem touch_ok {h : Heap} {p : Ptr} {l : List Nat} (he : Exactly h l) (hp : ∀ b, p = some b → b ∈ l) :
    touch p h = .ok h := by
  cases p with
  | none => rfl
  | some b =>
    unfold touch
    simp only
    rw [if_pos (he.1.mem_iff.2 (hp b rfl))]

theorem freeState_ok {h : Heap} {s : Option Parsed} {l m : List Nat} (he : Exactly h l)
    (hp : l.Perm (blocks s ++ m)) : ∃ h1, freeState s h = .ok h1 ∧ Exactly h1 m := by
  cases s with
  | none => exact ⟨h, rfl, exactly_perm he hp⟩
  | some p =>
    have he := exactly_perm he hp
    unfold freeState
    simp only
    rw [touch_ok he (by intro b hb; cases hb; simp [blocks]), bind_ok]
    obtain ⟨h1, e1, x1⟩ := freePtr_ok (p := p.doc) (m := p.self :: (p.edit.toList ++ m)) he (by perm)
    rw [e1, bind_ok]
    obtain ⟨h2, e2, x2⟩ := freePtr_ok (p := p.edit) (m := p.self :: m) x1 (by perm)
    rw [e2, bind_ok]
    exact free_ok x2 (.refl _)

theorem keep_ok (place : Bool) {p : Parsed} {h : Heap} {l m : List Nat} (he : Exactly h l)
    (hp : l.Perm (blocks (some p) ++ m)) :
    ∃ s h1, keep place p h = .ok (s, h1) ∧ Exactly h1 (blocks s ++ m) ∧ (place = false → s = none) := by
  cases place with
  | true => exact ⟨some p, h, rfl, exactly_perm he hp, by simp⟩
  | false =>
    obtain ⟨h1, e1, x1⟩ := freeState_ok he hp
    refine ⟨none, h1, ?_, x1, fun _ => rfl⟩
    unfold keep
    rw [if_neg (by decide), e1, bind_ok]

theorem parsedOf_ok (k : Luck) (text : Bool) (st : Option Parsed) {h : Heap} {l m : List Nat} (he : Exactly h l)
    (hp : l.Perm (blocks st ++ m)) :
    ∃ r h1, parsedOf k text st h = .ok (r, h1) ∧ ((∃ p, r = some p ∧ Exactly h1 (blocks r ++ m)) ∨
      (r = none ∧ st = none ∧ ∃ lost : List Nat, Exactly h1 (lost ++ m) ∧ lost.length ≤ 1 ∧
        (k.read = true → lost = []))) := by
  have he := exactly_perm he hp
  cases st with
  | some p =>
    refine ⟨some p, h, ?_, .inl ⟨p, rfl, he⟩⟩
    unfold parsedOf
    simp only
    rw [touch_ok he (by intro b hb; cases hb; simp [blocks]), bind_ok]
  | none =>
    show ∃ r h1, parseJson k text none h = _ ∧ _
    unfold parseJson
    simp only
    rcases alloc_cases k.state he with ⟨-, b, h1, e1, x1⟩ | ⟨-, e1⟩
    · rw [e1]
      simp only
      unfold parseText
      cases text with
      | false => exact ⟨some ⟨b, none, none⟩, h1, rfl, .inl ⟨_, rfl, x1⟩⟩
      | true =>
        rw [if_neg (by decide)]
        show ∃ r h2, (match alloc k.read h1 with
          | (none, h) => Res.ok (none, h)
          | (some d, h) => Res.ok (some (Parsed.mk b (some d) none), h)) = Res.ok (r, h2) ∧ _
        rcases alloc_cases k.read x1 with ⟨-, d, h2, e2, x2⟩ | ⟨hr, e2⟩
        · rw [e2]
          exact ⟨_, h2, rfl, .inl ⟨_, rfl, exactly_perm x2 (by perm)⟩⟩
        · rw [e2]
          exact ⟨_, h1, rfl, .inr ⟨rfl, trivial, [b], x1, by simp, fun h => by rw [hr] at h; cases h⟩⟩
    · rw [e1]
      exact ⟨_, h, rfl, .inr ⟨rfl, trivial, [], he, by simp, fun _ => rfl⟩⟩

/-- What a call leaves: nothing else is lost but `lost`. -/
def Left (k : Luck) (h1 : Heap) (m : List Nat) : Prop :=
  ∃ lost : List Nat, Exactly h1 (m ++ lost) ∧ lost.length ≤ (if k.read then 0 else 1)

theorem left_of {k : Luck} {h : Heap} {m : List Nat} (he : Exactly h m) : Left k h m :=
  ⟨[], by rwa [List.append_nil], by simp⟩

theorem getPtr_ok (k : Luck) (text rooted place : Bool) (st : Option Parsed) {h : Heap} {m : List Nat}
    (hst : place = false → st = none) (he : Exactly h (blocks st ++ m)) :
    ∃ s h1, getPtr k text rooted place st h = .ok (s, h1) ∧ Left k h1 (blocks s ++ m) ∧
      (place = false → s = none) := by
  unfold getPtr
  by_cases h0 : text = false ∨ rooted = false
  · rw [if_pos h0]
    exact ⟨st, h, rfl, left_of he, hst⟩
  · rw [if_neg h0]
    have es : (if place then st else none) = st := by
      cases place
      · rw [hst rfl]; rfl
      · rfl
    rw [es]
    obtain ⟨r, h1, e1, x1⟩ := parsedOf_ok k text st he (.refl _)
    rw [e1, bind_ok]
    rcases x1 with ⟨p, rfl, x1⟩ | ⟨rfl, -, lost, x1, l1, l2⟩
    · simp only
      split
      · rename_i hh
        rw [touch_ok x1 (by intro b hb; simp [blocks, hb]), bind_ok]
        rcases alloc_cases k.imut x1 with ⟨-, d, h2, e2, x2⟩ | ⟨-, e2⟩
        · rw [e2]
          simp only
          rw [touch_ok x2 (by intro b hb; cases hb; simp), bind_ok]
          have hd := hh.2
          obtain ⟨s, h3, e3, x3, n3⟩ := keep_ok place (p := { p with doc := some d }) (m := m) x2 (by
            rw [List.perm_iff_count]; intro b
            simp only [List.count_append, List.count_cons, List.count_nil, blocks, hd, Option.toList_some,
              Option.toList_none]
            omega)
          exact ⟨s, h3, e3, left_of x3, n3⟩
        · rw [e2]
          simp only
          obtain ⟨s, h3, e3, x3, n3⟩ := keep_ok place (p := p) (m := m) x1 (.refl _)
          exact ⟨s, h3, e3, left_of x3, n3⟩
      · rw [touch_ok x1 (by intro b hb; simp [blocks, hb]), bind_ok]
        obtain ⟨s, h3, e3, x3, n3⟩ := keep_ok place (p := p) (m := m) x1 (.refl _)
        exact ⟨s, h3, e3, left_of x3, n3⟩
    · refine ⟨none, h1, rfl, ⟨lost, exactly_perm x1 List.perm_append_comm, ?_⟩, fun _ => rfl⟩
      cases hr : k.read with
      | true => rw [l2 hr]; simp
      | false => simpa using l1

theorem serialize_ok (k : Luck) (extra : Ptr) (st : Option Parsed) {h : Heap} {l m : List Nat} (he : Exactly h l)
    (hp : l.Perm (extra.toList ++ (blocks st ++ m))) :
    ∃ x h1, serialize k extra st h = .ok (x, h1) ∧ Exactly h1 (x.toList ++ (blocks st ++ m)) := by
  have he := exactly_perm he hp
  cases st with
  | none => exact ⟨extra, h, rfl, he⟩
  | some p =>
    unfold serialize
    simp only
    rw [touch_ok he (by intro b hb; cases hb; simp [blocks]), bind_ok]
    split
    · exact ⟨extra, h, rfl, he⟩
    · rw [touch_ok he (by intro b hb; simp [blocks, hb]), bind_ok]
      rcases alloc_cases k.write he with ⟨-, t, h2, e2, x2⟩ | ⟨-, e2⟩
      · rw [e2]
        simp only
        split
        · obtain ⟨h3, e3, x3⟩ := free_ok x2 (.refl _)
          exact ⟨extra, h3, by rw [e3, bind_ok], x3⟩
        · obtain ⟨h3, e3, x3⟩ := freePtr_ok (p := extra) (m := t :: (blocks (some p) ++ m)) x2 (by perm)
          exact ⟨some t, h3, by rw [e3, bind_ok], x3⟩
      · rw [e2]
        exact ⟨extra, h, rfl, he⟩

theorem patch_ok (k : Luck) {h : Heap} {m : List Nat} (he : Exactly h m) :
    ∃ c h1, patch k h = .ok (c, h1) ∧ Exactly h1 m := by
  unfold patch
  rcases alloc_cases k.patchRead he with ⟨-, i, h1, e1, x1⟩ | ⟨-, e1⟩
  · rw [e1]
    simp only
    rcases alloc_cases k.patchCopy x1 with ⟨-, j, h2, e2, x2⟩ | ⟨-, e2⟩
    · rw [e2]
      simp only
      obtain ⟨h3, e3, x3⟩ := free_ok (b := i) (m := j :: m) x2 (by perm)
      rw [e3, bind_ok]
      obtain ⟨h4, e4, x4⟩ := free_ok x3 (.refl _)
      exact ⟨k.change, h4, by rw [e4, bind_ok], x4⟩
    · rw [e2]
      simp only
      obtain ⟨h3, e3, x3⟩ := free_ok x1 (.refl _)
      exact ⟨false, h3, by rw [e3, bind_ok], x3⟩
  · rw [e1]
    exact ⟨false, h, rfl, he⟩

theorem mutable_ok (k : Luck) (p : Parsed) {h : Heap} {m : List Nat} (he : Exactly h (blocks (some p) ++ m)) :
    (∃ q h1, mutable k p h = .ok (some q, h1) ∧ Exactly h1 (blocks (some q) ++ m)) ∨
    (mutable k p h = .ok (none, h)) := by
  unfold mutable
  split
  · exact .inl ⟨p, h, rfl, he⟩
  · rename_i hn
    have hn : p.edit = none := by simpa using hn
    rw [touch_ok he (by intro b hb; simp [blocks, hb]), bind_ok]
    rcases alloc_cases (if p.doc = none then k.fresh else k.copy) he with ⟨-, i, h1, e1, x1⟩ | ⟨-, e1⟩
    · rw [e1]
      refine .inl ⟨{ p with edit := some i }, h1, rfl, exactly_perm x1 ?_⟩
      rw [List.perm_iff_count]; intro b
      simp only [List.count_append, List.count_cons, List.count_nil, blocks, hn, Option.toList_some,
        Option.toList_none]
      omega
    · rw [e1]
      exact .inr rfl

theorem setPtr_ok (k : Luck) (text rooted merge place : Bool) (extra : Ptr) (st : Option Parsed) {h : Heap}
    {m : List Nat} (hst : place = false → st = none) (he : Exactly h (extra.toList ++ (blocks st ++ m))) :
    ∃ x s h1, setPtr k text rooted merge place extra st h = .ok (x, s, h1) ∧
      Left k h1 (x.toList ++ (blocks s ++ m)) ∧ (place = false → s = none) := by
  unfold setPtr
  by_cases h0 : rooted = false ∧ merge = false
  · rw [if_pos h0]
    exact ⟨extra, st, h, rfl, left_of he, hst⟩
  · rw [if_neg h0]
    have es : (if place then st else none) = st := by
      cases place
      · rw [hst rfl]; rfl
      · rfl
    rw [es]
    obtain ⟨r, h1, e1, x1⟩ := parsedOf_ok k text st (m := extra.toList ++ m) he (by perm)
    rw [e1, bind_ok]
    rcases x1 with ⟨p, rfl, x1⟩ | ⟨rfl, -, lost, x1, l1, l2⟩
    · simp only
      rcases mutable_ok k p x1 with ⟨q, h2, e2, x2⟩ | e2
      · rw [e2, bind_ok]
        simp only
        rw [touch_ok x2 (by intro b hb; simp [blocks, hb]), bind_ok]
        obtain ⟨c, h3, e3, x3⟩ : ∃ c h3, (if merge = true then patch k h2 else .ok (k.change, h2)) = .ok (c, h3) ∧
            Exactly h3 (blocks (some q) ++ (extra.toList ++ m)) := by
          cases merge with
          | true => exact patch_ok k x2
          | false => exact ⟨k.change, h2, rfl, x2⟩
        rw [e3, bind_ok]
        simp only
        split
        · rename_i hpl
          obtain ⟨x, h4, e4, x4⟩ := serialize_ok k extra (some q) (m := m) x3 (by perm)
          rw [e4, bind_ok]
          obtain ⟨h5, e5, x5⟩ := freeState_ok (s := some q) (m := x.toList ++ m) x4 (by perm)
          exact ⟨x, none, h5, by rw [e5, bind_ok], left_of x5, fun _ => rfl⟩
        · rename_i hpl
          split
          · obtain ⟨h4, e4, x4⟩ := freePtr_ok (p := q.doc)
              (m := extra.toList ++ (blocks (some { q with doc := none }) ++ m)) x3 (by perm)
            exact ⟨extra, _, h4, by rw [e4, bind_ok], left_of x4, fun h => absurd h hpl⟩
          · exact ⟨extra, _, h3, rfl, left_of (exactly_perm x3 (by perm)), fun h => absurd h hpl⟩
      · rw [e2, bind_ok]
        simp only
        obtain ⟨s, h3, e3, x3, n3⟩ := keep_ok place (p := p) (m := extra.toList ++ m) x1 (.refl _)
        exact ⟨extra, s, h3, by rw [e3, bind_ok], left_of (exactly_perm x3 (by perm)), n3⟩
    · refine ⟨extra, none, h1, rfl, ⟨lost, exactly_perm x1 (by perm), ?_⟩, fun _ => rfl⟩
      cases hr : k.read with
      | true => rw [l2 hr]; simp
      | false => simpa using l1

theorem replace_ok (k : Luck) (json : Bool) (extra : Ptr) {h : Heap} {m : List Nat}
    (he : Exactly h (extra.toList ++ m)) :
    ∃ x h1 lost, replace k json extra h = .ok (x, h1) ∧ Exactly h1 (x.toList ++ (m ++ lost)) ∧
      lost.length = (if json && k.read then 1 else 0) := by
  unfold replace
  cases json with
  | false =>
    obtain ⟨h1, e1, x1⟩ := freePtr_ok he (.refl _)
    exact ⟨none, h1, [], by rw [if_pos rfl, e1, bind_ok], by simpa using x1, rfl⟩
  | true =>
    rw [if_neg (by decide)]
    rcases alloc_cases k.read he with ⟨hr, d, h1, e1, x1⟩ | ⟨hr, e1⟩
    · rw [e1]
      simp only
      rw [touch_ok x1 (by intro b hb; cases hb; simp), bind_ok]
      rcases alloc_cases k.write x1 with ⟨-, t, h2, e2, x2⟩ | ⟨-, e2⟩
      · rw [e2]
        simp only
        split
        · obtain ⟨h3, e3, x3⟩ := free_ok x2 (.refl _)
          exact ⟨extra, h3, [d], by rw [e3, bind_ok], exactly_perm x3 (by perm), by rw [hr]; rfl⟩
        · obtain ⟨h3, e3, x3⟩ := freePtr_ok (p := extra) (m := t :: (m ++ [d])) x2 (by perm)
          exact ⟨some t, h3, [d], by rw [e3, bind_ok], x3, by rw [hr]; rfl⟩
      · rw [e2]
        exact ⟨extra, h1, [d], rfl, exactly_perm x1 (by perm), by rw [hr]; rfl⟩
    · rw [e1]
      exact ⟨extra, h, [], rfl, by simpa using he, by rw [hr]; rfl⟩

theorem step_ok (k : Luck) (op : Op) (w : World) (others : List Nat) (hw : Owns w others) :
    ∃ w' lost, step k w op = .ok w' ∧ Owns w' (others ++ lost) ∧
      lost.length ≤ (if wasteful (k, op) then 1 else 0) := by
  obtain ⟨extra, state, heap⟩ := w
  have hw : Exactly heap (extra.toList ++ (blocks state ++ others)) := hw
  cases op with
  | get rooted place =>
    cases place with
    | true =>
      obtain ⟨s, h1, e1, ⟨lost, x1, l1⟩, -⟩ := getPtr_ok k extra.isSome rooted true state
        (m := extra.toList ++ others) (by simp) (exactly_perm hw (by perm))
      refine ⟨⟨extra, s, h1⟩, lost, ?_, exactly_perm x1 (by perm), ?_⟩
      · show (getPtr k extra.isSome rooted true state heap).bind _ = _
        rw [e1, bind_ok]
        rfl
      · unfold wasteful
        cases hr : k.read <;> simpa [hr] using l1
    | false =>
      obtain ⟨s, h1, e1, ⟨lost, x1, l1⟩, n1⟩ := getPtr_ok k extra.isSome rooted false none
        (m := extra.toList ++ (blocks state ++ others)) (by simp) (exactly_perm hw (by perm))
      refine ⟨⟨extra, state, h1⟩, lost, ?_, ?_, ?_⟩
      · show (getPtr k extra.isSome rooted false none heap).bind _ = _
        rw [e1, bind_ok]
        rfl
      · rw [n1 rfl] at x1
        exact exactly_perm x1 (by perm)
      · unfold wasteful
        cases hr : k.read <;> simpa [hr] using l1
  | set rooted merge place =>
    cases place with
    | true =>
      obtain ⟨x, s, h1, e1, ⟨lost, x1, l1⟩, -⟩ := setPtr_ok k extra.isSome rooted merge true extra state
        (m := others) (by simp) hw
      refine ⟨⟨x, s, h1⟩, lost, ?_, exactly_perm x1 (by perm), ?_⟩
      · show (setPtr k extra.isSome rooted merge true extra state heap).bind _ = _
        rw [e1, bind_ok]
        rfl
      · unfold wasteful
        cases hr : k.read <;> simpa [hr] using l1
    | false =>
      obtain ⟨x, s, h1, e1, ⟨lost, x1, l1⟩, n1⟩ := setPtr_ok k extra.isSome rooted merge false extra none
        (m := blocks state ++ others) (by simp) hw
      refine ⟨⟨x, state, h1⟩, lost, ?_, ?_, ?_⟩
      · show (setPtr k extra.isSome rooted merge false extra none heap).bind _ = _
        rw [e1, bind_ok]
        rfl
      · rw [n1 rfl] at x1
        exact exactly_perm x1 (by perm)
      · unfold wasteful
        cases hr : k.read <;> simpa [hr] using l1
  | serialize =>
    obtain ⟨x, h1, e1, x1⟩ := serialize_ok k extra state (m := others) hw (.refl _)
    refine ⟨⟨x, state, h1⟩, [], ?_, exactly_perm x1 (by perm), by simp⟩
    show (serialize k extra state heap).bind _ = _
    rw [e1, bind_ok]
  | freeState =>
    obtain ⟨h1, e1, x1⟩ := freeState_ok (s := state) (m := extra.toList ++ others) hw (by perm)
    refine ⟨⟨extra, none, h1⟩, [], ?_, exactly_perm x1 (by perm), by simp⟩
    show (freeState state heap).bind _ = _
    rw [e1, bind_ok]
  | replace json =>
    obtain ⟨x, h1, lost, e1, x1, l1⟩ := replace_ok k json extra hw
    refine ⟨⟨x, state, h1⟩, lost, ?_, exactly_perm x1 (by perm), ?_⟩
    · show (replace k json extra heap).bind _ = _
      rw [e1, bind_ok]
    · rw [l1]
      show _ ≤ (if json = true then 1 else 0)
      cases json <;> cases k.read <;> decide

/-- C138: whatever the allocator and yyjson do, no sequence of calls frees a block twice, frees or uses one that is
not allocated, or frees one of the program's own (`others`), and at most one block is lost by each wasteful
call. -/
theorem C138_safe (calls : List (Luck × Op)) (w : World) (others : List Nat) (hw : Owns w others) :
    ∃ w' lost, run calls w = .ok w' ∧ Owns w' (others ++ lost) ∧ lost.length ≤ calls.countP wasteful := by
  induction calls generalizing w others with
  | nil => exact ⟨w, [], rfl, by simpa using hw, by simp⟩
  | cons x l ih =>
    obtain ⟨w1, lost1, e1, x1, l1⟩ := step_ok x.1 x.2 w others hw
    obtain ⟨w2, lost2, e2, x2, l2⟩ := ih w1 _ x1
    refine ⟨w2, lost1 ++ lost2, ?_, by rwa [← List.append_assoc], ?_⟩
    · show (step x.1 w x.2).bind _ = _
      rw [e1, bind_ok, e2]
    · rw [List.length_append, List.countP_cons]
      have : (x.1, x.2) = x := rfl
      rw [this] at l1
      omega

/-- **C138** (part).  If no call is wasteful, then after the state is freed nothing is allocated besides the
record's extra headers and what was before.

Missing: calls that find extra headers that cannot be read, `C138_unreadable_violated`, and replacements by a text,
`C138_replace_violated`. -/
theorem C138_no_leak_partial (calls : List (Luck × Op)) (k : Luck) (w : World) (others : List Nat) (hw : Owns w others)
    (hn : ∀ x ∈ calls, wasteful x = false) :
    ∃ w', run (calls ++ [(k, .freeState)]) w = .ok w' ∧ w'.state = none ∧
      Exactly w'.heap (w'.extra.toList ++ others) := by
  obtain ⟨w1, lost, e1, x1, l1⟩ := C138_safe calls w others hw
  have hc : calls.countP wasteful = 0 := List.countP_eq_zero.2 (fun x hx => by simp [hn x hx])
  have hl : lost = [] := List.length_eq_zero_iff.1 (by omega)
  subst hl
  rw [List.append_nil] at x1
  obtain ⟨h2, e2, x2⟩ := freeState_ok (s := w1.state) (m := w1.extra.toList ++ others) x1 (by perm)
  have happ : ∀ (a b : List (Luck × Op)) (w : World), run (a ++ b) w = (run a w).bind (run b) := by
    intro a b
    induction a with
    | nil => intro w; rfl
    | cons y a ih =>
      intro w
      show (step y.1 w y.2).bind (fun w => run (a ++ b) w) = ((step y.1 w y.2).bind fun w => run a w).bind (run b)
      cases step y.1 w y.2 with
      | ok v => exact ih v
      | err => rfl
      | ub => rfl
      | oob => rfl
  refine ⟨{ w1 with state := none, heap := h2 }, ?_, rfl, x2⟩
  rw [happ, e1, bind_ok]
  show ((freeState w1.state w1.heap).bind fun h => .ok { w1 with state := none, heap := h }).bind (run []) = _
  rw [e2, bind_ok, bind_ok]
  rfl

/-- Everything succeeds. -/
def lucky : Luck := ⟨true, true, true, true, true, true, true, true, true, true⟩

/-- A record that gets extra headers, with and without a state, and by a patch, while block 5 is the program's. -/
example : Owns { heap := ⟨[5], 6⟩ } [5] ∧
    (∀ x ∈ [(lucky, Op.set true false true), (lucky, .serialize), (lucky, .get true true), (lucky, .set true true true),
      ({ lucky with short := false }, .serialize), (lucky, .set true false false)], wasteful x = false) ∧
    run ([(lucky, Op.set true false true), (lucky, .serialize), (lucky, .get true true), (lucky, .set true true true),
      ({ lucky with short := false }, .serialize), (lucky, .set true false false)] ++ [(lucky, .freeState)])
      { heap := ⟨[5], 6⟩ } = .ok { extra := some 16, state := none, heap := ⟨[16, 5], 17⟩ } := by
  refine ⟨⟨.refl _, by decide, by decide⟩, by decide, by decide +kernel⟩

/-- **C138** (violated).  Looking for a value in extra headers that cannot be read loses a block, and so does
setting one. -/
theorem C138_unreadable_violated (k : Luck) (w : World) (others : List Nat) (hw : Owns w others)
    (ht : w.extra ≠ none) (hs : w.state = none) (hk : k.state = true ∧ k.read = false) (op : Op)
    (ho : (∃ place, op = .get true place) ∨ ∃ merge place, op = .set true merge place) :
    ∃ w' b, step k w op = .ok w' ∧ w'.extra = w.extra ∧ w'.state = none ∧ Owns w' (b :: others) := by
  obtain ⟨extra, state, heap⟩ := w
  simp only at hs ht
  subst hs
  obtain ⟨t, rfl⟩ := Option.ne_none_iff_exists'.1 ht
  have hw : Exactly heap ([t] ++ ([] ++ others)) := hw
  have key : ∃ b h1, parsedOf k true none heap = .ok (none, h1) ∧ Exactly h1 (b :: ([t] ++ ([] ++ others))) := by
    rcases alloc_cases k.state hw with ⟨-, b, h1, e1, x1⟩ | ⟨h0, -⟩
    · refine ⟨b, h1, ?_, x1⟩
      show parseJson k true none heap = _
      unfold parseJson
      simp only
      rw [e1]
      simp only
      unfold parseText
      rw [if_neg (by decide)]
      show (match alloc k.read h1 with
          | (none, h) => Res.ok (none, h)
          | (some d, h) => Res.ok (some (Parsed.mk b (some d) none), h)) = _
      rw [hk.2]
      rfl
    · rw [hk.1] at h0; cases h0
  obtain ⟨b, h1, e1, x1⟩ := key
  refine ⟨⟨some t, none, h1⟩, b, ?_, rfl, rfl, exactly_perm x1 (by perm)⟩
  rcases ho with ⟨place, rfl⟩ | ⟨merge, place, rfl⟩
  · have : getPtr k true true place none heap = .ok (none, h1) := by
      unfold getPtr
      rw [if_neg (by decide), show (if place = true then none else none) = (none : Option Parsed) by cases place <;> rfl,
        e1, bind_ok]
    cases place <;>
    · show (getPtr k true true _ none heap).bind _ = _
      rw [this, bind_ok]
      rfl
  · have : setPtr k true true merge place (some t) none heap = .ok (some t, none, h1) := by
      unfold setPtr
      rw [if_neg (by simp), show (if place = true then none else none) = (none : Option Parsed) by cases place <;> rfl,
        e1, bind_ok]
    cases place <;>
    · show (setPtr k true true merge _ (some t) none heap).bind _ = _
      rw [this, bind_ok]
      rfl

example : Owns { extra := some 0, heap := ⟨[0], 1⟩ } [] := ⟨.refl _, by decide, by decide⟩

/-- **C138** (violated).  Replacing the extra headers by any text that can be read loses a block, also if the call
succeeds. -/
theorem C138_replace_violated (k : Luck) (w : World) (others : List Nat) (hw : Owns w others) (hk : k.read = true) :
    ∃ w' b, step k w (.replace true) = .ok w' ∧ w'.state = w.state ∧ Owns w' (b :: others) := by
  obtain ⟨extra, state, heap⟩ := w
  obtain ⟨x, h1, lost, e1, x1, l1⟩ := replace_ok k true extra hw
  rw [hk] at l1
  match lost, l1 with
  | [b], _ =>
    refine ⟨⟨x, state, h1⟩, b, ?_, rfl, exactly_perm x1 (by perm)⟩
    show (replace k true extra heap).bind _ = _
    rw [e1, bind_ok]

example : Owns { extra := some 0, heap := ⟨[0], 1⟩ } [] ∧ lucky.read = true := ⟨⟨.refl _, by decide, by decide⟩, rfl⟩

end Verif.Props.ExtraMem
