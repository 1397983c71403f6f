import Verif.Proof.RecMemJoin
import Verif.Props.SegMem
/-!
# Record lists in memory: theorems (C134)
-/
namespace Verif.Props.RecMem
open Verif.Model.Steim Verif.Model.Alloc Verif.Model.SegMem Verif.Model.RecMem
open Verif.Props.Alloc Verif.Props.SegMem
open Verif.Proof.Mem Verif.Proof.Alloc Verif.Proof.SegMem Verif.Proof.RecMem

/-- **C134** A record added to the record list of a segment: if an entry is returned, it is the last one of the list
(the first one if so asked), it holds a copy of the header of the record, without samples, and the given time;
all other entries, in their order, and the record itself are as they were, the list knows its first and last entry
and their number, and nothing else in memory has changed. -/
theorem C134_add {h h' : Heap} {a b p : Nat} {endtime whence : Int} {prvt : Bool} {s : Seg} {l : List PtrV} {r : Record}
    {e d : Option (List UInt8)} (hf : Fresh h) (ha : h.cell a = some (.seg s)) (hl : RecList h prvt s.recordlist l)
    (hb : HasRecord h b r e d) (hn : (a :: ownedRecs prvt s.recordlist l).Nodup)
    (hx : addRecordptr h a b endtime whence = .ok (some p, h')) :
    (s.recordlist = none ∨ whence = 1 ∨ whence = 2) ∧ ∃ list v c r' e',
      v = { addr := p, msr := some (c, r', e', none), prvt := none, endtime := endtime } ∧
      HeaderCopy r e r' e' ∧ (s.recordlist ≠ none → list = s.recordlist) ∧
      h'.cell a = some (.seg { s with recordlist := list }) ∧
      RecList h' prvt list (if whence = 2 then v :: l else l ++ [v]) ∧ HasRecord h' b r e d ∧
      Adds h h' (a :: ownedRecs prvt s.recordlist l)
        (a :: ownedRecs prvt list (if whence = 2 then v :: l else l ++ [v])) := by
  obtain ⟨x, h2, he, -, hs⟩ := add_ok (endtime := endtime) (whence := whence) hf ha hl hb hn
  rw [hx] at he
  obtain ⟨rfl, rfl⟩ := Prod.mk.inj (Res.ok.inj he)
  exact hs p rfl

/-- **C134** (partial) The addition never has undefined behaviour, and it only fails if an allocation fails or the
place is none of those known; everything in memory is then as it was, and nothing more is allocated if the segment
already has a record list.  Missing: that nothing more is allocated if it has none, which is false
(`C134_leak_violated`). -/
theorem C134_refused_partial {h : Heap} {a b : Nat} {endtime whence : Int} {prvt : Bool} {s : Seg} {l : List PtrV}
    {r : Record} {e d : Option (List UInt8)} (hf : Fresh h) (ha : h.cell a = some (.seg s))
    (hl : RecList h prvt s.recordlist l) (hb : HasRecord h b r e d)
    (hn : (a :: ownedRecs prvt s.recordlist l).Nodup) :
    ∃ x h', addRecordptr h a b endtime whence = .ok (x, h') ∧
      (x = none → Fresh h' ∧ (∀ y, h.cell y ≠ none → h'.cell y = h.cell y) ∧
        (s.recordlist ≠ none → h'.cell = h.cell) ∧
        ((s.recordlist ≠ none ∧ whence ≠ 1 ∧ whence ≠ 2) ∨ ∃ k, h.fails k = true)) := by
  obtain ⟨x, h2, he, hs, -⟩ := add_ok (endtime := endtime) (whence := whence) hf ha hl hb hn
  exact ⟨x, h2, he, hs⟩

/-- A segment without records at 0 and a record at 1; the allocations for which `fails` is true fail. -/
def one (fails : Nat → Bool) : Heap where
  cell := fun x => if x = 0 then some (.seg {}) else if x = 1 then some (.record { extra := some 2, extralength := 2 })
    else if x = 2 then some (.bytes [123, 125]) else none
  next := 3
  fails := fails
  calls := 0

theorem one_fresh (f : Nat → Bool) : Fresh (one f) := by
  intro x hx
  have hx : 3 ≤ x := hx
  simp only [one]
  rw [if_neg (by omega), if_neg (by omega), if_neg (by omega)]

theorem one_record (f : Nat → Bool) :
    HasRecord (one f) 1 { extra := some 2, extralength := 2 } (some [123, 125]) none where
  cell := rfl
  extra := rfl
  data := trivial
  extralength := by intro b hb; rw [← Option.some.inj hb]; decide
  datasize := by intro b hb; cases hb
  apart := by decide

example : Fresh (one fun _ => false) ∧ (one fun _ => false).cell 0 = some (.seg {}) ∧
    RecList (one fun _ => false) false ({} : Seg).recordlist [] ∧
    HasRecord (one fun _ => false) 1 { extra := some 2, extralength := 2 } (some [123, 125]) none ∧
    (0 :: ownedRecs false ({} : Seg).recordlist []).Nodup ∧
    ∃ h', addRecordptr (one fun _ => false) 0 1 7 1 = .ok (some 3, h') :=
  ⟨one_fresh _, rfl, rfl, one_record _, by decide, _, rfl⟩

/-- **C134** violated: if the allocation of the list itself fails, the copy of the record is never given back; it is
still in memory although nothing refers to it. -/
theorem C134_leak_violated :
    ∃ h', addRecordptr (one fun k => k == 3) 0 1 7 1 = .ok (none, h') ∧
      (one fun k => k == 3).cell 4 = none ∧ h'.cell 4 ≠ none ∧ h'.cell 0 = some (.seg {}) :=
  ⟨_, rfl, by decide, by decide, rfl⟩

/-- **C134** Two segments joined by the record between them: the samples of the first are then its own followed by
those of the second, likewise the entries of its record list, with all their records, private pointers and their
number; what belonged to the second segment alone is given back, and nothing else in memory is changed. -/
theorem C134_heal (junk : Nat → UInt8) (block : Nat) {h : Heap} {a b : Nat} {prvt : Bool} {s r : Seg}
    {d v : Option (List UInt8)} {l m : List PtrV} (hf : Fresh h) (hs : SegBuf h a s d) (hr : SegBuf h b r v)
    (hfit : present r.numsamples v ≠ 0 → Fits s r.sampletype r.numsamples v)
    (hl : RecList h prvt s.recordlist l) (hm : RecList h prvt r.recordlist m)
    (hp : ∀ x ∈ r.prvtptr.toList, h.cell x ≠ none)
    (hn : (ownedSeg a s ++ (ownedSeg b r ++ (r.prvtptr.toList ++
      (ownedRecs prvt s.recordlist l ++ ownedRecs prvt r.recordlist m)))).Nodup) :
    ∃ ok h', heal junk block h a b = .ok (ok, h') ∧ (ok = false → Kept h h' a s) ∧
      (ok = true → Fresh h' ∧ ∃ s' d', SegBuf h' a s' d' ∧ samplesOf s' d' = samplesOf s d ++ samplesOf r v ∧
        s' = { s with
          endtime := r.endtime, samplecnt := s.samplecnt + r.samplecnt,
          numsamples := s.numsamples + present r.numsamples v, datasamples := s'.datasamples,
          datasize := s'.datasize, recordlist := s.recordlist.or r.recordlist } ∧
        RecList h' prvt s'.recordlist (l ++ m) ∧
        (∀ x ∈ dropped b r s.recordlist, h'.cell x = none) ∧
        (∀ x, x ∉ ownedSeg a s → x ∉ ownedSeg a s' → x ∉ dropped b r s.recordlist →
          x ∉ ownedRecs prvt s.recordlist l → h'.cell x = h.cell x)) := by
  have hll := recList_live hl
  have hml := recList_live hm
  have hbl : ∀ x ∈ ownedSeg b r, h.cell x ≠ none := by
    intro x hx
    simp only [ownedSeg, List.mem_append, List.mem_singleton] at hx
    rcases hx with hx | rfl
    · obtain ⟨y, hy⟩ := held_mem hr.data x hx; rw [hy]; simp
    · rw [hr.cell]; simp
  rw [List.nodup_append] at hn
  obtain ⟨-, hn, hA⟩ := hn
  rw [List.nodup_append] at hn
  obtain ⟨hnB, hn, hB⟩ := hn
  rw [List.nodup_append] at hn
  obtain ⟨hnP, hnLM, hP⟩ := hn
  have hlmn := hnLM
  rw [List.nodup_append] at hlmn
  obtain ⟨hnL, hnM, hLM⟩ := hlmn
  obtain ⟨ok, h1, he, hb1, hk, ht⟩ := C130_merge junk block hf hs hr (fun x hx h2 => hA x h2 x (List.mem_append_left _ hx) rfl) hfit
  unfold heal
  rw [he, bind_ok]
  cases ok with
  | false => exact ⟨false, h1, rfl, fun _ => hk rfl, by simp⟩
  | true =>
    simp only
    obtain ⟨s1, d1, hadd, hcnt, hst, hen⟩ := ht rfl
    have hstep := hadd.step
    -- all that is not of the first segment is as it was
    have hkeep : ∀ x, h.cell x ≠ none → x ∉ ownedSeg a s → x ∉ ownedSeg a s1 ∧ h1.cell x = h.cell x :=
      fun x hx hxa => step_keeps hf hstep hxa hx
    have hrl : s1.recordlist = s.recordlist := by rw [hadd.same]
    have hnotA : ∀ x ∈ ownedSeg b r ++ (r.prvtptr.toList ++ (ownedRecs prvt s.recordlist l ++ ownedRecs prvt r.recordlist m)),
        x ∉ ownedSeg a s := fun x hx h2 => hA x h2 x hx rfl
    have hlive : ∀ x ∈ ownedSeg b r ++ (r.prvtptr.toList ++ (ownedRecs prvt s.recordlist l ++ ownedRecs prvt r.recordlist m)),
        h.cell x ≠ none := by
      intro x hx
      simp only [List.mem_append] at hx
      rcases hx with hx | hx | hx | hx
      · exact hbl x (by simpa using hx)
      · exact hp x hx
      · exact hll x hx
      · exact hml x hx
    have hk1 : ∀ x ∈ ownedSeg b r ++ (r.prvtptr.toList ++ (ownedRecs prvt s.recordlist l ++ ownedRecs prvt r.recordlist m)),
        x ∉ ownedSeg a s1 ∧ h1.cell x = h.cell x := fun x hx => hkeep x (hlive x hx) (hnotA x hx)
    have haA1 : a ∈ ownedSeg a s1 := by simp [ownedSeg]
    have hmL : ∀ x ∈ ownedRecs prvt s.recordlist l, x ∈ ownedSeg b r ++ (r.prvtptr.toList ++ (ownedRecs prvt s.recordlist l ++ ownedRecs prvt r.recordlist m)) := by
      intro x hx; simp only [List.mem_append]; exact .inr (.inr (.inl hx))
    have hmM : ∀ x ∈ ownedRecs prvt r.recordlist m, x ∈ ownedSeg b r ++ (r.prvtptr.toList ++ (ownedRecs prvt s.recordlist l ++ ownedRecs prvt r.recordlist m)) := by
      intro x hx; simp only [List.mem_append]; exact .inr (.inr (.inr hx))
    have hmP : ∀ x ∈ r.prvtptr.toList, x ∈ ownedSeg b r ++ (r.prvtptr.toList ++ (ownedRecs prvt s.recordlist l ++ ownedRecs prvt r.recordlist m)) := by
      intro x hx; simp only [List.mem_append]; exact .inr (.inl hx)
    have hmB : ∀ x ∈ ownedSeg b r, x ∈ ownedSeg b r ++ (r.prvtptr.toList ++ (ownedRecs prvt s.recordlist l ++ ownedRecs prvt r.recordlist m)) := by
      intro x hx; exact List.mem_append_left _ hx
    have hbB : b ∈ ownedSeg b r := by simp [ownedSeg]
    have hab : a ≠ b := by rintro rfl; exact (hk1 a (hmB a hbB)).1 haA1
    have hl1 : RecList h1 prvt s1.recordlist l := by
      rw [hrl]; exact recList_frame hl fun x hx => (hk1 x (hmL x hx)).2
    have hm1 : RecList h1 prvt r.recordlist m := recList_frame hm fun x hx => (hk1 x (hmM x hx)).2
    obtain ⟨h2, list, left, hj, hg, hca, hcb, hrec, hlist, hleft, hleftl, hrest⟩ :=
      join_ok (a := a) (b := b) hstep.fresh hadd.buf.cell hb1.cell hl1 hm1 hab
        (fun hx => by
          rw [hrl] at hx
          rcases List.mem_append.1 hx with hx | hx
          · exact (hk1 a (hmL a hx)).1 haA1
          · exact (hk1 a (hmM a hx)).1 haA1)
        (fun hx => by
          rw [hrl] at hx
          exact hB b hbB b (List.mem_append_right _ hx) rfl)
        (by rw [hrl]; exact hnLM)
    rw [hrl] at hlist hleft hrest
    -- what is given back
    have hleftM : ∀ x ∈ left.toList, x ∈ r.recordlist.toList := by
      intro x hx
      rw [hleft] at hx
      split at hx
      · simp at hx
      · exact hx
    have hrM : ∀ x ∈ r.recordlist.toList, x ∈ ownedRecs prvt r.recordlist m := fun x hx => List.mem_append_right _ hx
    have hds : ∀ x ∈ r.datasamples.toList, x ∈ ownedSeg b r := fun x hx => List.mem_append_left _ hx
    have hbds : b ∉ r.datasamples.toList := by
      intro hx
      rw [ownedSeg, List.nodup_append] at hnB
      exact hnB.2.2 b hx b (by simp) rfl
    have hD : dropped b r s.recordlist = r.datasamples.toList ++ left.toList ++ r.prvtptr.toList ++ [b] := by
      unfold dropped
      rw [hleft]
      split <;> rfl
    have hDm : ∀ x ∈ dropped b r s.recordlist, x ∈ ownedSeg b r ++ (r.prvtptr.toList ++ (ownedRecs prvt s.recordlist l ++ ownedRecs prvt r.recordlist m)) := by
      intro x hx
      rw [hD] at hx
      simp only [List.mem_append, List.mem_singleton] at hx
      rcases hx with ((hx | hx) | hx) | rfl
      · exact hmB x (hds x hx)
      · exact hmM x (hrM x (hleftM x hx))
      · exact hmP x hx
      · exact hmB x hbB
    have hDL : ∀ x ∈ dropped b r s.recordlist, x ∉ ownedRecs prvt s.recordlist l := by
      intro x hx hx2
      rw [hD] at hx
      simp only [List.mem_append, List.mem_singleton] at hx
      rcases hx with ((hx | hx) | hx) | rfl
      · exact hB x (hds x hx) x (by simp only [List.mem_append]; exact .inr (.inl hx2)) rfl
      · exact hLM x hx2 x (hrM x (hleftM x hx)) rfl
      · exact hP x hx x (List.mem_append_left _ hx2) rfl
      · exact hB x hbB x (by simp only [List.mem_append]; exact .inr (.inl hx2)) rfl
    have hDE : ∀ x ∈ dropped b r s.recordlist, x ∉ m.flatMap (PtrV.owned prvt) := by
      intro x hx hx2
      have hx3 : x ∈ ownedRecs prvt r.recordlist m := List.mem_append_left _ hx2
      rw [hD] at hx
      simp only [List.mem_append, List.mem_singleton] at hx
      rcases hx with ((hx | hx) | hx) | rfl
      · exact hB x (hds x hx) x (by simp only [List.mem_append]; exact .inr (.inr hx3)) rfl
      · rw [ownedRecs, List.nodup_append] at hnM
        exact hnM.2.2 x hx2 x (hleftM x hx) rfl
      · exact hP x hx x (List.mem_append_right _ hx3) rfl
      · exact hB x hbB x (by simp only [List.mem_append]; exact .inr (.inr hx3)) rfl
    have hdrop := drop_ok (h := h2) (b := b) hcb (fun x hx => by
        simp only [List.mem_append] at hx
        rcases hx with (hx | hx) | hx
        · rw [hrest x, (hk1 x (hmB x (hds x hx))).2]
          · exact hbl x (hds x hx)
          · intro h3
            rw [List.mem_cons, List.mem_cons] at h3
            rcases h3 with rfl | rfl | h3
            · exact (hk1 x (hmB x (hds x hx))).1 haA1
            · exact hbds hx
            · exact hB x (hds x hx) x (by simp only [List.mem_append]; exact .inr (.inl h3)) rfl
        · exact hleftl x hx
        · rw [hrest x, (hk1 x (hmP x hx)).2]
          · exact hp x hx
          · intro h3
            rw [List.mem_cons, List.mem_cons] at h3
            rcases h3 with rfl | rfl | h3
            · exact (hk1 x (hmP x hx)).1 haA1
            · exact hB x hbB x (List.mem_append_left _ hx) rfl
            · exact hP x hx x (List.mem_append_left _ h3) rfl)
      (by
        show (r.datasamples.toList ++ left.toList ++ r.prvtptr.toList ++ [b]).Nodup
        have one : ∀ p : Option Nat, p.toList.Nodup := by intro p; cases p <;> simp
        rw [List.nodup_append, List.nodup_append, List.nodup_append]
        refine ⟨⟨⟨one _, one _, ?_⟩, one _, ?_⟩, by simp, ?_⟩
        · rintro x hx y hy rfl
          exact hB x (hds x hx) x (by simp only [List.mem_append]; exact .inr (.inr (hrM x (hleftM x hy)))) rfl
        · rintro x hx y hy rfl
          rcases List.mem_append.1 hx with hx | hx
          · exact hB x (hds x hx) x (List.mem_append_left _ hy) rfl
          · exact hP x hy x (List.mem_append_right _ (hrM x (hleftM x hx))) rfl
        · rintro x hx y hy rfl
          rw [List.mem_singleton] at hy
          subst hy
          simp only [List.mem_append] at hx
          rcases hx with (hx | hx) | hx
          · exact hbds hx
          · exact hB x hbB x (by simp only [List.mem_append]; exact .inr (.inr (hrM x (hleftM x hx)))) rfl
          · exact hB x hbB x (List.mem_append_left _ hx) rfl)
    have hdrop' : dropSeg h2 b = .ok (without h2 (dropped b r s.recordlist)) := by rw [hD]; exact hdrop
    rw [hj, bind_ok, hdrop', bind_ok]
    have hD1 : ∀ x ∈ ownedSeg a s1, x ∉ dropped b r s.recordlist := fun x hx h3 => (hk1 x (hDm x h3)).1 hx
    refine ⟨true, _, rfl, by simp, fun _ => ⟨?_, { s1 with recordlist := list }, d1, ?_, hadd.samples, ?_, ?_, ?_, ?_⟩⟩
    · intro x hx
      show (if x ∈ _ then none else h2.cell x) = none
      split
      · rfl
      · exact hg.1 x hx
    · refine ⟨by rw [without_cell (hD1 a haA1)]; exact hca, ?_, hadd.buf.size, hadd.buf.room, hadd.buf.empty, hadd.buf.nonneg⟩
      refine held_frame hadd.buf.data fun x hx => ?_
      have hxA : x ∈ ownedSeg a s1 := List.mem_append_left _ hx
      rw [without_cell (hD1 x hxA)]
      refine hrest x fun h3 => ?_
      rw [List.mem_cons, List.mem_cons] at h3
      rcases h3 with rfl | rfl | h3
      · obtain ⟨y, hy⟩ := held_mem hadd.buf.data x hx
        rw [hadd.buf.cell] at hy
        cases hy
      · exact (hk1 x (hmB x hbB)).1 hxA
      · exact (hk1 x (hmL x h3)).1 hxA
    · have e := hadd.same
      rw [hcnt, hst, hen] at e
      have e2 := congrArg (fun z : Seg => { z with recordlist := list }) e
      rw [hlist] at e2 ⊢
      exact e2
    · refine recList_frame hrec fun x hx => without_cell fun h3 => ?_
      simp only [ownedRecs, List.flatMap_append, List.mem_append] at hx
      rcases hx with (hx | hx) | hx
      · exact hDL x h3 (List.mem_append_left _ hx)
      · exact hDE x h3 hx
      · rw [hlist] at hx
        cases hsr : s.recordlist with
        | some z =>
          rw [hsr] at hx
          exact hDL x h3 (by rw [hsr]; exact List.mem_append_right _ hx)
        | none =>
          rw [hsr, Option.none_or] at hx
          unfold dropped at h3
          rw [hsr, if_pos rfl] at h3
          simp only [List.append_nil, List.mem_append, List.mem_singleton] at h3
          have hxM := hrM x hx
          rcases h3 with (h3 | h3) | rfl
          · exact hB x (hds x h3) x (by simp only [List.mem_append]; exact .inr (.inr hxM)) rfl
          · exact hP x h3 x (List.mem_append_right _ hxM) rfl
          · exact hB x hbB x (by simp only [List.mem_append]; exact .inr (.inr hxM)) rfl
    · intro x hx
      show (if x ∈ _ then none else h2.cell x) = none
      rw [if_pos hx]
    · intro x h3 h4 h5 h6
      rw [without_cell h5, hrest x, hstep.rest x h3 h4]
      intro h7
      rw [List.mem_cons, List.mem_cons] at h7
      rcases h7 with rfl | rfl | h7
      · exact h4 (by simp [ownedSeg])
      · exact h5 (by rw [hD]; simp)
      · exact h6 h7

/-- Two segments, each with a list of one record, the second with a private pointer. -/
def two : Heap where
  cell := fun x => match x with
    | 0 => some (.seg { recordlist := some 2 })
    | 1 => some (.seg { recordlist := some 4, prvtptr := some 6 })
    | 2 => some (.recordlist (some 3) (some 3) 1)
    | 3 => some (.recordptr none none none 5)
    | 4 => some (.recordlist (some 5) (some 5) 1)
    | 5 => some (.recordptr none none none 9)
    | 6 => some (.bytes [1])
    | _ => none
  next := 7
  fails := fun _ => false
  calls := 0

example : Fresh two ∧ SegBuf two 0 { recordlist := some 2 } none ∧
    SegBuf two 1 { recordlist := some 4, prvtptr := some 6 } none ∧
    RecList two false (some 2) [{ addr := 3, endtime := 5 }] ∧ RecList two false (some 4) [{ addr := 5, endtime := 9 }] ∧
    (ownedSeg 0 { recordlist := some 2 } ++ (ownedSeg 1 { recordlist := some 4, prvtptr := some 6 } ++ ((some 6).toList ++
      (ownedRecs false (some 2) [{ addr := 3, endtime := 5 }] ++ ownedRecs false (some 4) [{ addr := 5, endtime := 9 }])))).Nodup := by
  refine ⟨?_, ⟨rfl, trivial, by simp, by simp, by simp, by decide⟩, ⟨rfl, trivial, by simp, by simp, by simp, by decide⟩,
    ⟨by simp, some 3, rfl, rfl, none, ⟨rfl, by simp, by intro h; cases h⟩, rfl⟩,
    ⟨by simp, some 5, rfl, rfl, none, ⟨rfl, by simp, by intro h; cases h⟩, rfl⟩, by decide⟩
  intro x hx
  have hx : 7 ≤ x := hx
  obtain ⟨y, rfl⟩ := Nat.exists_eq_add_of_le hx
  rw [Nat.add_comm]
  rfl

end Verif.Props.RecMem
