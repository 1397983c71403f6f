import Verif.Props.SegMemDefs
import Verif.Proof.AllocTrim
/-! Lemmas on the buffers of segments. -/
namespace Verif.Proof.SegMem
open Verif.Model Verif.Model.Steim Verif.Model.Alloc Verif.Model.SegMem
open Verif.Props.Alloc Verif.Props.SegMem
open Verif.Proof.Alloc
open Verif.Proof.Mem (bind_ok)

theorem resized_length (junk : Nat → UInt8) (b : List UInt8) (n : Nat) : (resized junk b n).length = n := by
  unfold resized
  rw [List.length_append, List.length_take, List.length_map, List.length_range]
  omega

theorem resized_take (junk : Nat → UInt8) (b : List UInt8) {n k : Nat} (h1 : k ≤ n) (h2 : k ≤ b.length) :
    (resized junk b n).take k = b.take k := by
  unfold resized
  rw [List.take_append_of_le_length (by rw [List.length_take]; omega), List.take_take, Nat.min_eq_left h1]

/-- What making a buffer of at least `n` bytes at `p` larger does. -/
structure Grown (h h' : Heap) (p : Option Nat) (d : Option (List UInt8)) (n : Nat) (q : Nat) (b' : List UInt8) : Prop where
  cell : h'.cell q = some (.bytes b')
  length : n ≤ b'.length
  kept : ∀ k, k ≤ n → k ≤ (d.getD []).length → b'.take k = (d.getD []).take k
  fails : h'.fails = h.fails
  fresh : Fresh h'
  next : h.next ≤ h'.next
  place : q ∈ p.toList ∨ h.next ≤ q
  low : q < h'.next
  rest : ∀ y, y ∉ p.toList → y ≠ q → h'.cell y = h.cell y
  gone : ∀ y ∈ p.toList, y ≠ q → h'.cell y = none

theorem reallocTo_ok (junk : Nat → UInt8) {h : Heap} {p : Option Nat} {d : Option (List UInt8)} (hf : Fresh h)
    (hp : Held h p d) (n : Nat) :
    ∃ x h', reallocTo junk h p n = .ok (x, h') ∧
      (x = none → h'.cell = h.cell ∧ h'.next = h.next ∧ h'.fails = h.fails ∧ ∃ k, h.fails k = true) ∧
      ∀ q, x = some q → ∃ b', Grown h h' p d n q b' := by
  unfold reallocTo
  cases p with
  | none =>
    cases d with
    | some b => exact hp.elim
    | none =>
      simp only
      rcases malloc_cases h (.bytes (resized junk [] n)) with ⟨h1, hm, hcell, hnx, hfa, hfail⟩ | ⟨h1, hm, hnx, hfa, hcell, -⟩
      · rw [hm]
        exact ⟨none, h1, rfl, fun _ => ⟨hcell, hnx, hfa, _, hfail⟩, by simp⟩
      · rw [hm]
        refine ⟨some h.next, h1, rfl, by simp, fun q hq => ?_⟩
        obtain rfl : h.next = q := Option.some.inj hq
        refine ⟨resized junk [] n, by rw [hcell, if_pos rfl], Nat.le_of_eq (resized_length _ _ _).symm,
          fun k h1 h2 => resized_take junk [] h1 h2, hfa, fun x hx => ?_, by omega, .inr (Nat.le_refl _), by omega,
          fun y _ hy => by rw [hcell, if_neg hy], by simp⟩
        rw [hcell, if_neg (by omega)]
        exact hf x (by omega)
  | some a =>
    cases d with
    | none => exact hp.elim
    | some b =>
      have hb : h.cell a = some (.bytes b) := hp
      have ha : a < h.next := live_low hf (by rw [hb]; simp)
      simp only [hb]
      rcases malloc_cases h (.bytes (resized junk b n)) with ⟨h1, hm, hcell, hnx, hfa, hfail⟩ | ⟨h1, hm, hnx, hfa, hcell, -⟩
      · rw [hm]
        exact ⟨none, h1, rfl, fun _ => ⟨hcell, hnx, hfa, _, hfail⟩, by simp⟩
      · rw [hm]
        simp only
        rw [free_ok (by rw [hcell, if_neg (by omega), hb]; simp), bind_ok]
        refine ⟨some h.next, _, rfl, by simp, fun q hq => ?_⟩
        obtain rfl : h.next = q := Option.some.inj hq
        have hc : ∀ x, (without h1 [a]).cell x = if x = a then none else if x = h.next then some (.bytes (resized junk b n)) else h.cell x := by
          intro x
          unfold without
          simp only [List.mem_singleton, hcell]
        refine ⟨resized junk b n, by rw [hc, if_neg (by omega), if_pos rfl], Nat.le_of_eq (resized_length _ _ _).symm,
          fun k h1 h2 => resized_take junk b h1 h2, hfa, fun x hx => ?_, by show h.next ≤ h1.next; omega,
          .inr (Nat.le_refl _), by show h.next < h1.next; omega, fun y hy1 hy2 => ?_, fun y hy1 hy2 => ?_⟩
        · have hx : h1.next ≤ x := hx
          rw [hc, if_neg (by omega), if_neg (by omega)]
          exact hf x (by omega)
        · rw [hc, if_neg (by simpa using hy1), if_neg hy2]
        · rw [hc, if_pos (by simpa using hy1)]

theorem addBlocks_ok (block size : Nat) (hb : 0 < block) : ∀ new,
    size ≤ addBlocks block size new ∧ ∃ k, addBlocks block size new = new + k * block := by
  intro new
  induction new using addBlocks.induct block size with
  | case1 new h ih =>
    rw [addBlocks, if_pos h]
    obtain ⟨h1, k, h2⟩ := ih
    refine ⟨h1, k + 1, ?_⟩
    rw [h2, Nat.add_mul, Nat.one_mul]
    omega
  | case2 new h =>
    rw [addBlocks, if_neg h]
    exact ⟨by omega, 0, by omega⟩

theorem grow_ok (junk : Nat → UInt8) (block : Nat) {h : Heap} {p : Option Nat} {d : Option (List UInt8)} {n cur : Nat}
    (hf : Fresh h) (hp : Held h p d) (hc : ∀ b, d = some b → cur ≤ b.length) (he : d = none → cur = 0) :
    ∃ x cur' h', grow junk block h p n cur = .ok (x, cur', h') ∧
      (x = none → h'.cell = h.cell ∧ h'.next = h.next ∧ h'.fails = h.fails ∧ ∃ k, h.fails k = true) ∧
      ∀ q, x = some q → Sized block n cur cur' ∧ n ≤ cur' ∧ ∃ b', Grown h h' p d n q b' ∧ cur' ≤ b'.length := by
  unfold grow
  by_cases hb : block = 0
  · rw [if_neg (by simp [hb])]
    obtain ⟨x, h', h1, h2, h3⟩ := reallocTo_ok junk hf hp n
    rw [h1, bind_ok]
    refine ⟨x, n, h', rfl, h2, fun q hq => ⟨⟨fun _ => rfl, fun h => absurd hb h⟩, Nat.le_refl _, ?_⟩⟩
    obtain ⟨b', hb'⟩ := h3 q hq
    exact ⟨b', hb', hb'.length⟩
  · rw [if_pos hb]
    unfold prealloc
    rw [if_neg hb]
    by_cases hn : n < cur
    · rw [if_pos hn]
      refine ⟨p, cur, h, rfl, fun hx => ?_, fun q hq => ⟨⟨fun h => absurd h hb, fun _ => ⟨by omega, 0, by omega⟩⟩, by omega, ?_⟩⟩
      · exfalso
        cases d with
        | none => have := he rfl; omega
        | some b => subst hx; exact hp.elim
      · subst hq
        cases d with
        | none => exact hp.elim
        | some b =>
          have hq : h.cell q = some (.bytes b) := hp
          have := hc b rfl
          exact ⟨b, ⟨hq, by omega, fun k _ _ => rfl, rfl, hf, Nat.le_refl _, .inl (by simp),
            live_low hf (by rw [hq]; simp), fun _ _ _ => rfl, fun y hy1 hy2 => absurd (by simpa using hy1) hy2⟩, this⟩
    · rw [if_neg hn]
      obtain ⟨a1, k, a2⟩ := addBlocks_ok block n (by omega) (cur + block)
      obtain ⟨x, h', h1, h2, h3⟩ := reallocTo_ok junk hf hp (addBlocks block n (cur + block))
      simp only
      rw [h1, bind_ok]
      cases x with
      | none => exact ⟨none, cur, h', rfl, h2, by simp⟩
      | some q =>
        refine ⟨some q, _, h', rfl, by simp, fun q' hq => ?_⟩
        obtain rfl : q = q' := Option.some.inj hq
        obtain ⟨b', g⟩ := h3 q rfl
        refine ⟨⟨fun h => absurd h hb, fun _ => ⟨a1, k + 1, by rw [a2, Nat.add_mul, Nat.one_mul]; omega⟩⟩, a1, b',
          ⟨g.cell, Nat.le_trans a1 g.length, fun j h1 h2 => g.kept j (by omega) h2, g.fails, g.fresh, g.next, g.place, g.low,
            g.rest, g.gone⟩, g.length⟩

theorem step_put {h h' : Heap} {S S' : List Nat} (hs : Step h h' S S') {x : Nat} (hx : x ∈ S') (o : Obj) :
    Step h (h'.put x o) S S' where
  fresh := fun y hy => by
    have h1 := hs.low x hx
    have h2 : h'.next ≤ y := hy
    show (if y = x then some o else h'.cell y) = none
    rw [if_neg (by omega)]
    exact hs.fresh y h2
  next := hs.next
  fails := hs.fails
  old := hs.old
  low := hs.low
  rest := fun y h1 h2 => by
    show (if y = x then some o else h'.cell y) = _
    rw [if_neg (by rintro rfl; exact h2 hx)]
    exact hs.rest y h1 h2
  gone := fun y h1 h2 => by
    show (if y = x then some o else h'.cell y) = _
    rw [if_neg (by rintro rfl; exact h2 hx)]
    exact hs.gone y h1 h2
  nodup := hs.nodup

theorem needed_eq (n : Int) (t : Char) : needed n t = n.toNat * Samples.sampleSize t := by
  unfold needed
  rw [width_eq]

theorem makeRoom_ok (junk : Nat → UInt8) (block : Nat) {h : Heap} {a : Nat} {s : Seg} {d : Option (List UInt8)} {m : More}
    (hf : Fresh h) (hs : SegBuf h a s d) (ht : m.type = s.sampletype) (hw : width s.sampletype ≠ 0) (hm : 0 < m.number)
    (hl : needed (s.numsamples + m.number) s.sampletype < 2 ^ 63) :
    ∃ x h', makeRoom junk block h a s m = .ok (x, h') ∧
      (x = none → (∀ y, h'.cell y = if y = a then some (.seg { s with datasize := 0 }) else h.cell y) ∧
        h'.next = h.next ∧ h'.fails = h.fails ∧ ∃ k, h.fails k = true) ∧
      ∀ s', x = some s' → ∃ q cur b', s' = { s with datasamples := some q, datasize := cur } ∧
        h'.cell a = some (.seg s') ∧ h'.cell q = some (.bytes b') ∧ q ≠ a ∧
        needed (s.numsamples + m.number) s.sampletype ≤ cur ∧ cur ≤ b'.length ∧
        b'.take (needed s.numsamples s.sampletype) = samplesOf s d ∧
        Sized block (needed (s.numsamples + m.number) s.sampletype) s.datasize cur ∧
        Step h h' (ownedSeg a s) (ownedSeg a s') := by
  have hsz : Samples.sampleSize m.type = width s.sampletype := by rw [ht, width_eq]
  have hn0 := hs.nonneg
  have hnew : ((s.numsamples + m.number) * (Samples.sampleSize m.type : Nat) : Int) =
      (needed (s.numsamples + m.number) s.sampletype : Nat) := by
    unfold needed
    rw [hsz, Int.natCast_mul, Int.toNat_of_nonneg (by omega)]
  have hal : a < h.next := live_low hf (by rw [hs.cell]; simp)
  have hpa : ∀ y ∈ s.datasamples.toList, y ≠ a := by
    intro y hy he
    obtain ⟨b, hb⟩ := held_mem hs.data y hy
    rw [he, hs.cell] at hb
    cases hb
  unfold makeRoom
  rw [if_neg (by simp [ht])]
  simp only
  rw [if_neg (by rw [hsz]; exact hw), hnew, if_neg (by omega), Int.toNat_natCast]
  obtain ⟨x, cur, h1, e1, e2, e3⟩ := grow_ok junk block (n := needed (s.numsamples + m.number) s.sampletype) hf hs.data hs.size
    fun h => (hs.empty h).2
  rw [e1, bind_ok]
  cases x with
  | none =>
    obtain ⟨g1, g2, g3, g4⟩ := e2 rfl
    refine ⟨none, _, rfl, fun _ => ⟨fun y => ?_, g2, g3, g4⟩, by simp⟩
    show (if y = a then _ else h1.cell y) = _
    rw [g1]
  | some q =>
    obtain ⟨k1, k2, b', g, k3⟩ := e3 q rfl
    refine ⟨some _, _, rfl, by simp, fun s' hs' => ?_⟩
    have hs' := Option.some.inj hs'
    have hqa : q ≠ a := by
      rcases g.place with h | h
      · exact hpa q h
      · omega
    have hnx : h1.next = (h1.put a (.seg s')).next := rfl
    have hcell : ∀ y, (h1.put a (.seg s')).cell y = if y = a then some (.seg s') else h1.cell y := fun _ => rfl
    have hfa : (h1.put a (.seg s')).fails = h.fails := g.fails
    have hfr := g.fresh
    have hlow := g.low
    have hnxt := g.next
    have hown : ownedSeg a s' = [q] ++ [a] := by rw [← hs']; rfl
    rw [hs']
    generalize h1.put a (.seg s') = h2 at hnx hcell hfa
    refine ⟨q, cur, b', hs'.symm, by rw [hcell, if_pos rfl], by rw [hcell, if_neg hqa]; exact g.cell, hqa, k2, k3, ?_, k1, ?_⟩
    · unfold samplesOf
      refine g.kept _ ?_ ?_
      · unfold needed
        exact Nat.mul_le_mul_right _ (by omega)
      · cases d with
        | none =>
          unfold needed
          rw [(hs.empty rfl).1]
          simp
        | some b =>
          have h1 := hs.room (by simp)
          have h2 := hs.size b rfl
          simp only [Option.getD_some]
          omega
    · refine ⟨fun y hy => ?_, by omega, hfa, fun y hy => ?_, fun y hy => ?_, fun y g1 g2 => ?_, fun y g1 g2 => ?_, ?_⟩
      · rw [hcell, if_neg (by omega)]
        exact hfr y (by omega)
      · rw [hown] at hy
        simp only [List.mem_append, List.mem_singleton] at hy
        unfold ownedSeg
        simp only [List.mem_append, List.mem_singleton]
        rcases hy with rfl | rfl
        · rcases g.place with h | h
          · exact .inl (.inl h)
          · exact .inr h
        · exact .inl (.inr rfl)
      · rw [hown] at hy
        simp only [List.mem_append, List.mem_singleton] at hy
        omega
      · rw [hown] at g2
        unfold ownedSeg at g1
        simp only [List.mem_append, List.mem_singleton, not_or] at g1 g2
        rw [hcell, if_neg g2.2]
        exact g.rest y g1.1 g2.1
      · rw [hown] at g2
        unfold ownedSeg at g1
        simp only [List.mem_append, List.mem_singleton, not_or] at g1 g2
        rw [hcell, if_neg g2.2]
        exact g.gone y (by
          rcases g1 with h | h
          · exact h
          · exact absurd h g2.2) g2.1
      · rw [hown]
        simp [hqa]

/-- What has been written. -/
theorem writeAt_ok {h : Heap} {q off : Nat} {b c : List UInt8} (hc : h.cell q = some (.bytes c)) (hl : off + b.length ≤ c.length) :
    writeAt h q off b = .ok (h.put q (.bytes (c.take off ++ b ++ c.drop (off + b.length)))) := by
  unfold writeAt
  rw [hc]
  simp only
  rw [if_pos hl]

theorem copyBehind_ok {h : Heap} {s : Seg} {m : More} {q : Nat} {b' v : List UInt8} (hq : s.datasamples = some q)
    (hb : h.cell q = some (.bytes b')) (hv : h.cell m.data = some (.bytes v)) (ht : m.type = s.sampletype)
    (hm : 0 < m.number) (hn : 0 ≤ s.numsamples) (hl : needed m.number m.type ≤ v.length)
    (hr : needed (s.numsamples + m.number) s.sampletype ≤ b'.length) :
    ∃ c, copyBehind h s m = .ok (h.put q (.bytes c)) ∧ c.length = b'.length ∧
      c.take (needed (s.numsamples + m.number) s.sampletype) =
        b'.take (needed s.numsamples s.sampletype) ++ v.take (needed m.number m.type) := by
  have hadd : needed (s.numsamples + m.number) s.sampletype = needed s.numsamples s.sampletype + needed m.number m.type := by
    unfold needed
    rw [ht, ← Nat.add_mul]
    congr 1
    omega
  unfold copyBehind
  simp only [hq]
  have hst : s.numsamples.toNat * Samples.sampleSize m.type = needed s.numsamples s.sampletype := by rw [ht, needed_eq]
  rw [readBytes_ok hv (by rw [← needed_eq]; exact hl), bind_ok, ← needed_eq m.number m.type, hst]
  have hlen : (v.take (needed m.number m.type)).length = needed m.number m.type := by
    rw [List.length_take]; omega
  refine ⟨_, writeAt_ok hb (by rw [hlen]; omega), ?_, ?_⟩
  · rw [List.length_append, List.length_append, List.length_drop, hlen, List.length_take]
    omega
  · rw [hadd, List.take_append_of_le_length, List.take_of_length_le]
    · rw [List.length_append, hlen, List.length_take]; omega
    · rw [List.length_append, hlen, List.length_take]; omega

theorem copyBefore_ok {h : Heap} {s : Seg} {m : More} {q : Nat} {b' v : List UInt8} (hq : s.datasamples = some q)
    (hb : h.cell q = some (.bytes b')) (hv : h.cell m.data = some (.bytes v)) (hqm : m.data ≠ q) (ht : m.type = s.sampletype)
    (hm : 0 < m.number) (hn : 0 ≤ s.numsamples) (hl : needed m.number m.type ≤ v.length)
    (hr : needed (s.numsamples + m.number) s.sampletype ≤ b'.length) :
    ∃ c h', copyBefore h s m = .ok h' ∧ (∃ c0, h' = (h.put q (.bytes c0)).put q (.bytes c)) ∧ c.length = b'.length ∧
      c.take (needed (s.numsamples + m.number) s.sampletype) =
        v.take (needed m.number m.type) ++ b'.take (needed s.numsamples s.sampletype) := by
  have hadd : needed (s.numsamples + m.number) s.sampletype = needed s.numsamples s.sampletype + needed m.number m.type := by
    unfold needed
    rw [ht, ← Nat.add_mul]
    congr 1
    omega
  unfold copyBefore
  simp only [hq]
  have hst : s.numsamples.toNat * Samples.sampleSize m.type = needed s.numsamples s.sampletype := by rw [ht, needed_eq]
  rw [← needed_eq m.number m.type, hst]
  have hlen : (v.take (needed m.number m.type)).length = needed m.number m.type := by
    rw [List.length_take]; omega
  have hlen2 : (b'.take (needed s.numsamples s.sampletype)).length = needed s.numsamples s.sampletype := by
    rw [List.length_take]; omega
  rw [readBytes_ok hb (by omega), bind_ok, writeAt_ok hb (by rw [hlen2]; omega), bind_ok, hlen2]
  generalize hc0 : b'.take (needed m.number m.type) ++ b'.take (needed s.numsamples s.sampletype) ++
    b'.drop (needed m.number m.type + needed s.numsamples s.sampletype) = c0
  have hl0 : c0.length = b'.length := by
    rw [← hc0, List.length_append, List.length_append, List.length_drop, hlen2, List.length_take]
    omega
  have hq1 : (h.put q (.bytes c0)).cell q = some (.bytes c0) := by
    show (if q = q then _ else _) = _
    rw [if_pos rfl]
  have hv1 : (h.put q (.bytes c0)).cell m.data = some (.bytes v) := by
    show (if m.data = q then _ else _) = _
    rw [if_neg hqm]
    exact hv
  rw [readBytes_ok hv1 hl, bind_ok, writeAt_ok hq1 (by rw [hlen]; omega)]
  refine ⟨_, _, rfl, ⟨c0, rfl⟩, ?_, ?_⟩
  · rw [List.length_append, List.length_append, List.length_drop, hlen, List.take_zero, List.length_nil]
    omega
  · rw [List.take_zero, List.nil_append, hlen, Nat.zero_add, hadd]
    rw [List.take_append, hlen, List.take_of_length_le (by rw [hlen]; omega)]
    congr 1
    have : needed s.numsamples s.sampletype + needed m.number m.type - needed m.number m.type = needed s.numsamples s.sampletype := by
      omega
    rw [this, ← hc0, List.append_assoc]
    have hl1 : (b'.take (needed m.number m.type)).length = needed m.number m.type := by
      rw [List.length_take]; omega
    rw [List.drop_append_of_le_length (by omega), List.drop_of_length_le (by omega), List.nil_append,
      List.take_append_of_le_length (by omega), List.take_of_length_le (by omega)]

/-- Only what belongs to the segment changes. -/
theorem step_keeps {h h' : Heap} {S S' : List Nat} (hf : Fresh h) (hs : Step h h' S S') {x : Nat} (hx : x ∉ S)
    (hl : h.cell x ≠ none) : x ∉ S' ∧ h'.cell x = h.cell x := by
  have h1 : x ∉ S' := fun h => by
    rcases hs.old x h with h | h
    · exact hx h
    · exact hl (hf x h)
  exact ⟨h1, hs.rest x hx h1⟩

/-- Samples behind: the room, the copy and the new members. -/
theorem added_of {block : Nat} {h h2 h4 : Heap} {a : Nat} {s s'' : Seg} {m : More} {q cur : Nat} {c all : List UInt8}
    (hs0 : 0 ≤ s.numsamples) (hm : 0 < m.number) (hqa : q ≠ a)
    (hstep : Step h h2 (ownedSeg a s) [q, a])
    (hst : Step h h2 (ownedSeg a s) [q, a] → Step h h4 (ownedSeg a s) [q, a])
    (hq : h4.cell q = some (.bytes c)) (ha : h4.cell a = some (.seg s''))
    (hsame : s'' = { s with
      starttime := s''.starttime, endtime := s''.endtime, samplecnt := s''.samplecnt, numsamples := s.numsamples + m.number,
      datasamples := some q, datasize := cur })
    (h1 : needed (s.numsamples + m.number) s.sampletype ≤ cur) (h2' : cur ≤ c.length)
    (hall : c.take (needed (s.numsamples + m.number) s.sampletype) = all)
    (hsz : Sized block (needed (s.numsamples + m.number) s.sampletype) s.datasize cur) :
    Added block h h4 a s m.number all s'' (some c) := by
  have e1 : s''.numsamples = s.numsamples + m.number := by rw [hsame]
  have e2 : s''.datasamples = some q := by rw [hsame]
  have e3 : s''.datasize = cur := by rw [hsame]
  have e4 : s''.sampletype = s.sampletype := by rw [hsame]
  refine ⟨⟨ha, by rw [e2]; exact hq, fun b hb => ?_, fun _ => by rw [e1, e3, e4]; exact h1, by simp, by omega⟩, ?_, ?_, ?_, ?_⟩
  · rw [← Option.some.inj hb, e3]; exact h2'
  · rw [e2, e3]; exact hsame
  · unfold samplesOf
    rw [e1, e4]
    exact hall
  · rw [if_neg (by omega), e3]
    exact hsz
  · have : ownedSeg a s'' = [q, a] := by unfold ownedSeg; rw [e2]; rfl
    rw [this]
    exact hst hstep

theorem added_behind (junk : Nat → UInt8) (block : Nat) {h : Heap} {a : Nat} {s : Seg} {d : Option (List UInt8)} {m : More}
    {v : List UInt8} (hf : Fresh h) (hs : SegBuf h a s d) (hfit : Fits s m.type m.number (some v)) (hm : 0 < m.number)
    (hv : h.cell m.data = some (.bytes v)) (hap : m.data ∉ ownedSeg a s) :
    ∃ x h', makeRoom junk block h a s m = .ok (x, h') ∧ (x = none → Kept h h' a s) ∧
      ∀ s', x = some s' → ∃ h3, copyBehind h' s' m = .ok h3 ∧ s' = { s with datasamples := s'.datasamples, datasize := s'.datasize } ∧
        ∀ st en cnt, ∃ c, Added block h (h3.put a (.seg { s' with starttime := st, endtime := en, samplecnt := cnt, numsamples := s'.numsamples + m.number })) a s m.number
          (samplesOf s d ++ v.take (needed m.number m.type))
          { s' with starttime := st, endtime := en, samplecnt := cnt, numsamples := s'.numsamples + m.number } (some c) := by
  obtain ⟨x, h1, e1, e2, e3⟩ := makeRoom_ok junk block hf hs hfit.type (by rw [← hfit.type]; exact hfit.known) hm hfit.total
  refine ⟨x, h1, e1, fun hx => ⟨(e2 hx).1, (e2 hx).2.1, (e2 hx).2.2.2⟩, fun s' hx => ?_⟩
  obtain ⟨q, cur, b', hs', ha, hq, hqa, hn, hc, hk, hsz, hst⟩ := e3 s' hx
  have hst' : Step h h1 (ownedSeg a s) [q, a] := by rw [hs'] at hst; exact hst
  have hsn := hs.nonneg
  have hv1 : h1.cell m.data = some (.bytes v) := by
    rw [(step_keeps hf hst' hap (by rw [hv]; simp)).2]; exact hv
  obtain ⟨c, g1, g2, g3⟩ := copyBehind_ok (s := s') (by rw [hs']) hq hv1 (by rw [hs']; exact hfit.type) hm (by rw [hs']; exact hsn)
    (hfit.inside v rfl) (by rw [hs']; show needed (s.numsamples + m.number) s.sampletype ≤ _; omega)
  refine ⟨_, g1, by rw [hs'], fun st en cnt => ⟨c, ?_⟩⟩
  refine added_of (m := m) (q := q) (cur := cur) hsn hm hqa hst'
    (fun hst' => step_put (step_put hst' (by simp) _) (by simp) _) ?_ ?_ ?_ hn (by omega) ?_ hsz
  · show (if q = a then _ else if q = q then _ else _) = _
    rw [if_neg hqa, if_pos rfl]
  · show (if a = a then _ else _) = _
    rw [if_pos rfl]
  · rw [hs']
  · have g3 := g3
    rw [hs'] at g3
    simp only at g3
    rw [g3, hk]

theorem added_before (junk : Nat → UInt8) (block : Nat) {h : Heap} {a : Nat} {s : Seg} {d : Option (List UInt8)} {m : More}
    {v : List UInt8} (hf : Fresh h) (hs : SegBuf h a s d) (hfit : Fits s m.type m.number (some v)) (hm : 0 < m.number)
    (hv : h.cell m.data = some (.bytes v)) (hap : m.data ∉ ownedSeg a s) :
    ∃ x h', makeRoom junk block h a s m = .ok (x, h') ∧ (x = none → Kept h h' a s) ∧
      ∀ s', x = some s' → ∃ h3, copyBefore h' s' m = .ok h3 ∧ s' = { s with datasamples := s'.datasamples, datasize := s'.datasize } ∧
        ∀ st en cnt, ∃ c, Added block h (h3.put a (.seg { s' with starttime := st, endtime := en, samplecnt := cnt, numsamples := s'.numsamples + m.number })) a s m.number
          (v.take (needed m.number m.type) ++ samplesOf s d)
          { s' with starttime := st, endtime := en, samplecnt := cnt, numsamples := s'.numsamples + m.number } (some c) := by
  obtain ⟨x, h1, e1, e2, e3⟩ := makeRoom_ok junk block hf hs hfit.type (by rw [← hfit.type]; exact hfit.known) hm hfit.total
  refine ⟨x, h1, e1, fun hx => ⟨(e2 hx).1, (e2 hx).2.1, (e2 hx).2.2.2⟩, fun s' hx => ?_⟩
  obtain ⟨q, cur, b', hs', ha, hq, hqa, hn, hc, hk, hsz, hst⟩ := e3 s' hx
  have hst' : Step h h1 (ownedSeg a s) [q, a] := by rw [hs'] at hst; exact hst
  have hsn := hs.nonneg
  have hkeep := step_keeps hf hst' hap (by rw [hv]; simp)
  have hv1 : h1.cell m.data = some (.bytes v) := by rw [hkeep.2]; exact hv
  obtain ⟨c, h3, g1, ⟨c0, g0⟩, g2, g3⟩ := copyBefore_ok (s := s') (by rw [hs']) hq hv1
    (fun e => hkeep.1 (by rw [e]; simp)) (by rw [hs']; exact hfit.type) hm (by rw [hs']; exact hsn)
    (hfit.inside v rfl) (by rw [hs']; show needed (s.numsamples + m.number) s.sampletype ≤ _; omega)
  refine ⟨_, g1, by rw [hs'], fun st en cnt => ⟨c, ?_⟩⟩
  rw [g0]
  refine added_of (m := m) (q := q) (cur := cur) hsn hm hqa hst'
    (fun hst' => step_put (step_put (step_put hst' (by simp) _) (by simp) _) (by simp) _) ?_ ?_ ?_ hn (by omega) ?_ hsz
  · show (if q = a then _ else if q = q then _ else _) = _
    rw [if_neg hqa, if_pos rfl]
  · show (if a = a then _ else _) = _
    rw [if_pos rfl]
  · rw [hs']
  · have g3 := g3
    rw [hs'] at g3
    simp only at g3
    rw [g3, hk]

/-- Nothing but times and counts changes. -/
theorem added_none (block : Nat) {h : Heap} {a : Nat} {s : Seg} {d : Option (List UInt8)} (hf : Fresh h) (hs : SegBuf h a s d)
    (st en cnt : Int) :
    Added block h (h.put a (.seg { s with starttime := st, endtime := en, samplecnt := cnt })) a s 0 (samplesOf s d)
      { s with starttime := st, endtime := en, samplecnt := cnt } d := by
  have hpa : ∀ y ∈ s.datasamples.toList, y ≠ a := by
    intro y hy he
    obtain ⟨b, hb⟩ := held_mem hs.data y hy
    rw [he, hs.cell] at hb
    cases hb
  have hal : a < h.next := live_low hf (by rw [hs.cell]; simp)
  refine ⟨⟨?_, held_frame hs.data fun x hx => ?_, hs.size, hs.room, hs.empty, hs.nonneg⟩, by simp, rfl, by simp, ?_⟩
  · show (if a = a then _ else _) = _
    rw [if_pos rfl]
  · show (if x = a then _ else _) = _
    rw [if_neg (hpa x hx)]
  · refine step_put ?_ (by unfold ownedSeg; simp) _
    refine ⟨hf, Nat.le_refl _, rfl, fun x hx => .inl hx, fun x hx => ?_, fun _ _ _ => rfl, fun x h1 h2 => absurd h1 h2, ?_⟩
    · have hx : x ∈ s.datasamples.toList ++ [a] := hx
      simp only [List.mem_append, List.mem_singleton] at hx
      rcases hx with hx | rfl
      · obtain ⟨b, hb⟩ := held_mem hs.data x hx
        exact live_low hf (by rw [hb]; simp)
      · exact hal
    · show (s.datasamples.toList ++ [a]).Nodup
      rw [List.nodup_append]
      refine ⟨?_, by simp, fun x hx y hy he => hpa x hx (by rw [he]; simpa using hy)⟩
      cases s.datasamples <;> simp

end Verif.Proof.SegMem
