import Verif.Proof.AllocTrim
/-!
# Allocated memory (C124 to C127)
-/
namespace Verif.Props.Alloc
open Verif.Model Verif.Model.Steim Verif.Model.Alloc
open Verif.Proof.Alloc
open Verif.Proof.Mem (bind_ok)

/-! ## Examples of memory -/

/-- The memory with the objects at the addresses from 0, all allocations from the `n`-th fail. -/
def memory (l : List Obj) (n : Nat) : Heap :=
  { cell := fun x => l[x]?, next := l.length, fails := fun k => decide (n ≤ k) }

theorem memory_fresh (l : List Obj) (n : Nat) : Fresh (memory l n) := fun x hx => by
  show l[x]? = none
  exact List.getElem?_eq_none hx

/-- The memory with the objects at the addresses from 0, no allocation fails. -/
def sound (l : List Obj) : Heap := { memory l 0 with fails := fun _ => false }

theorem sound_fresh (l : List Obj) : Fresh (sound l) := memory_fresh l 0

/-- A record with two characters of extra headers and three samples in a buffer for five. -/
def three : Record :=
  { reclen := 100, samplecnt := 3, extralength := 2, extra := some 1, datasamples := some 2, datasize := 20,
    numsamples := 3, sampletype := 'i' }

def threeObjs : List Obj :=
  [.record three, .bytes [123, 125], .bytes [1, 0, 0, 0, 2, 0, 0, 0, 3, 0, 0, 0, 9, 9, 9, 9, 9, 9, 9, 9]]

theorem three_has (h : Heap) (hc : h.cell = (sound threeObjs).cell) : HasRecord h 0 three (some [123, 125])
    (some [1, 0, 0, 0, 2, 0, 0, 0, 3, 0, 0, 0, 9, 9, 9, 9, 9, 9, 9, 9]) := by
  refine ⟨by rw [hc]; rfl, ?_, ?_, ?_, ?_, ?_⟩
  · show h.cell 1 = _
    rw [hc]; rfl
  · show h.cell 2 = _
    rw [hc]; rfl
  · intro b hb
    rw [← Option.some.inj hb]; decide
  · intro b hb
    rw [← Option.some.inj hb]; decide
  · intro p hp he
    have h1 : some 1 = some p := hp
    have h2 : some 2 = some p := he
    rw [← h1] at h2
    cases h2

/-- What the theorems below rest on: in this memory giving back a block a second time is undefined
behaviour, so that a function that ends normally has given back each block at most once. -/
theorem free_twice {h h' : Heap} {a : Nat} (hf : free h a = .ok h') : free h' a = .ub := by
  unfold free at hf
  split at hf
  · rw [← Res.ok.inj hf]
    unfold free
    simp
  · cases hf

/-! ## C124 -/

/-- **C124 (partial).** `msr3_duplicate` gives a copy of the record, with the extra headers and, if
asked for, the samples in memory of its own: the header fields are the same, writing or freeing one
does not concern the other, freeing the copy gives the memory back; if an allocation fails there is no
copy and no memory is lost.  Missing: records whose buffer of samples has no size
(`C124_no_size_violated`). -/
theorem C124_copy_partial {h : Heap} {a : Nat} {r : Record} {e d : Option (List UInt8)}
    (hr : HasRecord h a r e d) (hf : Fresh h) (dup : Bool) (hz : d ≠ none → r.numsamples > 0 → r.datasize > 0) :
    ∃ x h', duplicate h (some a) dup = .ok (x, h') ∧
      (x = none → h'.cell = h.cell ∧ ∃ n, h.fails n = true) ∧
      ∀ b, x = some b → ∃ r' e' d', IsCopy h h' r e d dup b r' e' d' ∧
        d' = (if dup = true ∧ r.numsamples > 0 then d.map (·.take r.datasize) else none) ∧
        HasRecord h' a r e d ∧
        (∃ h2, msrFree h' (some b) = .ok h2 ∧ h2.cell = h.cell) ∧
        ∃ h2, msrFree h' (some a) = .ok h2 ∧ HasRecord h2 b r' e' d' := by
  obtain ⟨x, h', h1, h2, h3⟩ := duplicate_ok hr hf dup
  refine ⟨x, h', h1, h2, fun b hb => ?_⟩
  obtain ⟨r', e', d', hc⟩ := h3 b hb
  have hapart : ∀ y ∈ ownedRecord a r, y ∉ ownedRecord b r' := fun y hy hm =>
    record_live hr y hy (hc.fresh y hm)
  have hr' : HasRecord h' a r e d := record_frame hr fun y hy => hc.other y (hapart y hy)
  refine ⟨r', e', d', hc, ?_, hr', ⟨_, msrFree_ok hc.has, ?_⟩, _, msrFree_ok hr', ?_⟩
  · rw [hc.data]
    by_cases g1 : dup = true ∧ r.numsamples > 0
    · rw [if_pos g1]
      cases d with
      | none => simp
      | some v => rw [if_pos ⟨g1.1, g1.2, hz (by simp) g1.2⟩]
    · rw [if_neg g1, if_neg fun g => g1 ⟨g.1, g.2.1⟩]
  · funext y
    show (if y ∈ ownedRecord b r' then none else h'.cell y) = _
    by_cases hy : y ∈ ownedRecord b r'
    · rw [if_pos hy, hc.fresh y hy]
    · rw [if_neg hy, hc.other y hy]
  · exact record_frame hc.has fun y hy => without_cell fun hm => hapart y hm hy

/-- A record with extra headers and samples, with and without an allocation that fails. -/
example : HasRecord (memory threeObjs 2) 0 three (some [123, 125])
      (some [1, 0, 0, 0, 2, 0, 0, 0, 3, 0, 0, 0, 9, 9, 9, 9, 9, 9, 9, 9]) ∧
    Fresh (memory threeObjs 2) ∧ three.datasize > 0 ∧
    (match duplicate (memory threeObjs 2) (some 0) true with | .ok (x, _) => x == none | _ => false) = true ∧
    (match duplicate (memory threeObjs 3) (some 0) true with | .ok (x, _) => x == some 3 | _ => false) = true := by
  refine ⟨three_has _ rfl, memory_fresh _ _, by decide, by decide +kernel, by decide +kernel⟩

/-- **C124 is violated** for records whose samples the caller has provided without setting `datasize`,
as in the library's example program lm_pack (libmseed/example/lm_pack.c:192-229): the copy silently has none. -/
theorem C124_no_size_violated :
    ∃ r : Record, r.numsamples = 3 ∧ HasRecord (sound [.record r, .bytes [1, 2, 3]]) 0 r none (some [1, 2, 3]) ∧
      ∃ b h' r', duplicate (sound [.record r, .bytes [1, 2, 3]]) (some 0) true = .ok (some b, h') ∧
        h'.cell b = some (.record r') ∧ r'.numsamples = 0 ∧ r'.datasamples = none := by
  refine ⟨{ numsamples := 3, datasamples := some 1, sampletype := 't' }, rfl,
    ⟨rfl, trivial, rfl, by simp, by intro b _; exact Nat.zero_le _, by simp⟩, 2, _, _, rfl, rfl, rfl, rfl⟩

/-! ## C125 -/

/-- **C125 (free).** `msr3_free` gives back the record, its extra headers and its samples, each once,
and nothing else; without a record it does nothing. -/
theorem C125_free {h : Heap} {a : Nat} {r : Record} {e d : Option (List UInt8)} (hr : HasRecord h a r e d) :
    (∃ h', msrFree h (some a) = .ok h' ∧
      ∀ x, h'.cell x = if x = a ∨ r.extra = some x ∨ r.datasamples = some x then none else h.cell x) ∧
    msrFree h none = .ok h := by
  refine ⟨⟨_, msrFree_ok hr, fun x => ?_⟩, rfl⟩
  show (if x ∈ ownedRecord a r then none else h.cell x) = _
  have : x ∈ ownedRecord a r ↔ (x = a ∨ r.extra = some x ∨ r.datasamples = some x) := by
    simp only [ownedRecord, List.mem_append, List.mem_singleton, Option.mem_toList]
    constructor
    · rintro ((h | h) | h)
      · exact .inr (.inl h)
      · exact .inr (.inr h)
      · exact .inl h
    · rintro (h | h | h)
      · exact .inr h
      · exact .inl (.inl h)
      · exact .inl (.inr h)
  simp only [this]

/-- **C125 (init).** `msr3_init` of a record gives back its extra headers, keeps its buffer of samples
and resets everything else; without a record it allocates one. -/
theorem C125_init {h : Heap} {a : Nat} {r : Record} {e d : Option (List UInt8)} (hr : HasRecord h a r e d)
    (hf : Fresh h) :
    (∃ h' r', init h (some a) = .ok (some a, h') ∧ HasRecord h' a r' none d ∧
      r' = { reclen := -1, samplecnt := -1, encoding := -1, datasamples := r.datasamples, datasize := r.datasize } ∧
      ∀ x, x ≠ a → h'.cell x = if r.extra = some x then none else h.cell x) ∧
    ∃ x h', init h none = .ok (x, h') ∧ (x = none → h'.cell = h.cell ∧ h.fails h.calls = true) ∧
      ∀ b, x = some b → h.cell b = none ∧
        HasRecord h' b { reclen := -1, samplecnt := -1, encoding := -1 } none none ∧
        ∀ y, y ≠ b → h'.cell y = h.cell y := by
  constructor
  · have hx := held_mem hr.extra
    have hd := held_mem hr.data
    have hcell : ∀ (o : Obj) x, ((without h r.extra.toList).put a o).cell x =
        if x = a then some o else if r.extra = some x then none else h.cell x := by
      intro o x
      show (if x = a then some o else if x ∈ r.extra.toList then none else h.cell x) = _
      simp only [Option.mem_toList]
    refine ⟨(without h r.extra.toList).put a (.record
        { reclen := -1, samplecnt := -1, encoding := -1, datasamples := r.datasamples, datasize := r.datasize }),
      { reclen := -1, samplecnt := -1, encoding := -1, datasamples := r.datasamples, datasize := r.datasize },
      ?_, ⟨?_, trivial, ?_, by simp, hr.datasize, by simp⟩, rfl, ?_⟩
    · unfold init
      simp only
      rw [getRecord_ok hr.cell, bind_ok, freeOpt_ok fun x h1 => by obtain ⟨b, hb⟩ := hx x h1; rw [hb]; simp, bind_ok]
    · rw [hcell, if_pos rfl]
    · refine held_frame (p := r.datasamples) hr.data fun x h1 => ?_
      rw [hcell, if_neg, if_neg]
      · exact fun h2 => hr.apart x h2 (Option.mem_toList.1 h1)
      · intro h2
        obtain ⟨b, hb⟩ := hd x h1
        rw [h2, hr.cell] at hb
        cases hb
    · intro x h1
      rw [hcell, if_neg h1]
  · unfold init
    simp only
    rcases malloc_cases h (.record { reclen := -1, samplecnt := -1, encoding := -1 }) with
      ⟨h1, hm, hcell, -, -, hfail⟩ | ⟨h1, hm, -, -, hcell, -⟩
    · rw [hm]
      exact ⟨none, h1, rfl, fun _ => ⟨hcell, hfail⟩, by simp⟩
    · rw [hm]
      refine ⟨some h.next, h1, rfl, by simp, fun b hb => ?_⟩
      have hb : h.next = b := Option.some.inj hb
      subst hb
      refine ⟨hf _ (Nat.le_refl _), ⟨by rw [hcell, if_pos rfl], trivial, trivial, by simp, by simp, by simp⟩,
        fun y hy => by rw [hcell, if_neg hy]⟩

example : HasRecord (sound threeObjs) 0 three (some [123, 125])
    (some [1, 0, 0, 0, 2, 0, 0, 0, 3, 0, 0, 0, 9, 9, 9, 9, 9, 9, 9, 9]) ∧ Fresh (sound threeObjs) :=
  ⟨three_has _ rfl, sound_fresh _⟩

/-! ## C126 -/

/-- **C126 (records, partial).** `msr3_resize_buffer` gives the record a buffer of exactly the size of
its samples and keeps these; nothing else changes and the memory that is no longer needed is given
back.  Missing: allocations that fail (`C126_failure_violated`). -/
theorem C126_record_partial {h : Heap} {a : Nat} {r : Record} {e d : Option (List UInt8)} (hf : Fresh h)
    (hs : ∀ k, h.fails k = false) (hv : HasRecord h a r e d) (hr : Room r.numsamples r.sampletype r.datasize d) :
    ∃ h' r' d', resizeRecord h (some a) = .ok (true, h') ∧ HasRecord h' a r' e d' ∧
      r' = { r with datasamples := r'.datasamples, datasize := r'.datasize } ∧
      Trim r.numsamples r.sampletype r.datasize d r'.datasize d' ∧
      Step h h' (ownedRecord a r) (ownedRecord a r') :=
  resizeRecord_ok hf hs hv hr

/-- **C126 (lists, partial).** `mstl3_resize_buffers` does the same for all segments of all sources. -/
theorem C126_list_partial {prvt : Bool} {h : Heap} {a : Nat} {l : List IdV} {fuel : Nat} (hf : Fresh h)
    (hs : ∀ k, h.fails k = false) (hl : HasList h prvt a l) (hn : (ownedList prvt a l).Nodup)
    (hr : ∀ v ∈ l, ∀ s ∈ v.segs, Room s.seg.numsamples s.seg.sampletype s.seg.datasize s.data)
    (hfu : (ownedList prvt a l).length ≤ fuel) :
    ∃ h' l', resizeList fuel h (some a) = .ok (true, h') ∧ HasList h' prvt a l' ∧ Pairs IdV.Trimmed l l' ∧
      Step h h' (ownedList prvt a l) (ownedList prvt a l') :=
  resizeList_ok hf hs hl hn hr hfu

example : Fresh (sound threeObjs) ∧ (∀ k, (sound threeObjs).fails k = false) ∧
    HasRecord (sound threeObjs) 0 three (some [123, 125])
      (some [1, 0, 0, 0, 2, 0, 0, 0, 3, 0, 0, 0, 9, 9, 9, 9, 9, 9, 9, 9]) ∧
    Room three.numsamples three.sampletype three.datasize
      (some [1, 0, 0, 0, 2, 0, 0, 0, 3, 0, 0, 0, 9, 9, 9, 9, 9, 9, 9, 9]) ∧
    needed three.numsamples three.sampletype < three.datasize :=
  ⟨sound_fresh _, fun _ => rfl, three_has _ rfl, ⟨by decide, fun _ => by decide⟩, by decide⟩

/-- **C126 is violated** if an allocation fails: the samples can no longer be reached and their memory
is not given back, although the function reports an error: the pointer has been overwritten. -/
theorem C126_failure_violated :
    ∃ h' r', resizeRecord (memory threeObjs 0) (some 0) = .ok (false, h') ∧ h'.cell 0 = some (.record r') ∧
      r'.datasamples = none ∧ r'.numsamples = 3 ∧ r'.datasize = 20 ∧
      h'.cell 2 = some (.bytes [1, 0, 0, 0, 2, 0, 0, 0, 3, 0, 0, 0, 9, 9, 9, 9, 9, 9, 9, 9]) ∧
      ∃ h2, msrFree h' (some 0) = .ok h2 ∧ h2.cell 2 ≠ none := by
  refine ⟨_, _, rfl, rfl, rfl, rfl, rfl, rfl, _, rfl, ?_⟩
  intro he
  cases he

/-! ## C127 -/

/-- **C127.** `mstl3_free` gives back everything that belongs to a trace list, each piece once, and
nothing else: the list, the sources, the segments with their samples and record lists, and the private
data if asked for; it always ends. -/
theorem C127_free {prvt : Bool} {a : Nat} {l : List IdV} {h : Heap} {fuel : Nat} (hl : HasList h prvt a l)
    (hn : (ownedList prvt a l).Nodup) (hf : (ownedList prvt a l).length ≤ fuel) :
    ∃ h', listFree fuel h (some a) prvt = .ok h' ∧ Released h h' (ownedList prvt a l) :=
  ⟨_, listFree_ok hl hn hf, fun _ => rfl⟩

/-- **C127 (init).** `mstl3_init` of a list gives back everything that belongs to it and gives an empty
list, or none if the allocation fails. -/
theorem C127_init {a : Nat} {l : List IdV} {h : Heap} {fuel : Nat} (hfr : Fresh h) (hl : HasList h true a l)
    (hn : (ownedList true a l).Nodup) (hf : (ownedList true a l).length ≤ fuel) :
    ∃ x h', listInit fuel h (some a) = .ok (x, h') ∧
      (x = none → Released h h' (ownedList true a l) ∧ ∃ n, h.fails n = true) ∧
      ∀ b, x = some b → h.cell b = none ∧ HasList h' true b [] ∧
        ∀ y, y ≠ b → h'.cell y = if y ∈ ownedList true a l then none else h.cell y := by
  unfold listInit
  simp only
  rw [listFree_ok hl hn hf, bind_ok]
  rcases malloc_cases (without h (ownedList true a l)) (.list none) with
    ⟨h1, hm, hcell, -, -, hfail⟩ | ⟨h1, hm, -, -, hcell, -⟩
  · rw [hm]
    refine ⟨none, h1, rfl, fun _ => ⟨fun x => by rw [hcell]; rfl, _, hfail⟩, by simp⟩
  · rw [hm]
    refine ⟨_, h1, rfl, by simp, fun b hb => ?_⟩
    have hb : h.next = b := Option.some.inj hb
    subst hb
    have hcell : ∀ x, h1.cell x = if x = h.next then some (.list none) else
        if x ∈ ownedList true a l then none else h.cell x := hcell
    refine ⟨hfr _ (Nat.le_refl _), ⟨none, by rw [hcell, if_pos rfl], rfl⟩, fun y hy => ?_⟩
    rw [hcell, if_neg hy]

/-- **C127 (init of a new list).** Without a list `mstl3_init` allocates an empty one, or gives none if
that fails. -/
theorem C127_init_new {h : Heap} {fuel : Nat} (hfr : Fresh h) :
    ∃ x h', listInit fuel h none = .ok (x, h') ∧ (x = none → h'.cell = h.cell ∧ ∃ n, h.fails n = true) ∧
      ∀ b, x = some b → h.cell b = none ∧ HasList h' true b [] ∧ ∀ y, y ≠ b → h'.cell y = h.cell y := by
  unfold listInit
  simp only
  rw [bind_ok]
  rcases malloc_cases h (.list none) with ⟨h1, hm, hcell, -, -, hfail⟩ | ⟨h1, hm, -, -, hcell, -⟩
  · rw [hm]
    exact ⟨none, h1, rfl, fun _ => ⟨hcell, _, hfail⟩, by simp⟩
  · rw [hm]
    refine ⟨_, h1, rfl, by simp, fun b hb => ?_⟩
    have hb : h.next = b := Option.some.inj hb
    subst hb
    exact ⟨hfr _ (Nat.le_refl _), ⟨none, by rw [hcell, if_pos rfl], rfl⟩, fun y hy => by rw [hcell, if_neg hy]⟩

example : Fresh (sound listObjs) := sound_fresh _

/-- A list of one source with two segments; the first has samples and private data, the second a record
list of an entry with a record. -/
def listObjs : List Obj :=
  [.list (some 1), .id none (some 2) none,
   .seg { datasamples := some 3, datasize := 8, numsamples := 1, sampletype := 'i', prvtptr := some 4, next := some 5 },
   .bytes [1, 0, 0, 0, 9, 9, 9, 9], .bytes [7], .seg { recordlist := some 6 }, .recordlist (some 7) (some 7) 1,
   .recordptr (some 8) none none 0, .record { extra := some 9, extralength := 2 }, .bytes [123, 125]]

def listIds : List IdV :=
  [{ addr := 1, segs :=
    [{ addr := 2, seg := { datasamples := some 3, datasize := 8, numsamples := 1, sampletype := 'i', prvtptr := some 4, next := some 5 },
       data := some [1, 0, 0, 0, 9, 9, 9, 9] },
     { addr := 5, seg := { recordlist := some 6 },
       recs := some [{ addr := 7, msr := some (8, { extra := some 9, extralength := 2 }, some [123, 125], none) }] }] }]

theorem list_has : HasList (sound listObjs) true 0 listIds := by
  refine ⟨some 1, rfl, rfl, none, ⟨some 2, rfl, ⟨rfl, some 5, ⟨rfl, rfl, rfl, ?_, trivial, ?_⟩, rfl, none,
    ⟨rfl, rfl, trivial, by simp, ⟨some 7, some 7, 1, rfl, rfl, none, ⟨rfl, ?_, ?_⟩, rfl⟩, ?_⟩, rfl⟩, ?_⟩, rfl⟩
  · intro b hb
    rw [← Option.some.inj hb]; decide
  · intro _ a ha
    have : some 4 = some a := ha
    rw [← Option.some.inj this]
    intro hc
    cases hc
  · intro a r e d hm
    simp only [Option.some.injEq, Prod.mk.injEq] at hm
    obtain ⟨rfl, rfl, rfl, rfl⟩ := hm
    exact ⟨rfl, rfl, trivial, fun b hb => by rw [← Option.some.inj hb]; decide, by simp, by simp⟩
  · intro _ a ha; cases ha
  · intro _ a ha; cases ha
  · intro _ a ha; cases ha

example : HasList (sound listObjs) true 0 listIds ∧ (ownedList true 0 listIds).Nodup ∧
    (ownedList true 0 listIds).length = 10 ∧ Fresh (sound listObjs) ∧
    ∀ v ∈ listIds, ∀ s ∈ v.segs, Room s.seg.numsamples s.seg.sampletype s.seg.datasize s.data := by
  refine ⟨list_has, by decide +kernel, by decide +kernel, sound_fresh _, ?_⟩
  intro v hv s hs
  simp only [listIds, List.mem_singleton] at hv
  subst hv
  simp only [List.mem_cons, List.not_mem_nil, or_false] at hs
  rcases hs with rfl | rfl
  · exact ⟨by decide, fun _ => by decide⟩
  · exact ⟨by decide, fun h => absurd rfl h⟩

/-- **C127 is violated** for a pointer to no list: `msr3_free` accepts `NULL`, `mstl3_free` reads through
it. -/
theorem C127_null_violated (fuel : Nat) (h : Heap) (prvt : Bool) : listFree fuel h none prvt = .oob := rfl

end Verif.Props.Alloc
