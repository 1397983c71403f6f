import Verif.Props.AllocDefs
import Verif.Proof.Mem
/-! Lemmas on allocated memory. -/
namespace Verif.Proof.Alloc
open Verif.Model.Steim Verif.Model.Alloc
open Verif.Props.Alloc
open Verif.Proof.Mem (bind_ok)

/-- The memory without what is at the addresses. -/
def without (h : Heap) (S : List Nat) : Heap :=
  { h with cell := fun x => if x ∈ S then none else h.cell x }

theorem without_nil (h : Heap) : without h [] = h := by
  unfold without
  simp

theorem without_without (h : Heap) (S T : List Nat) : without (without h S) T = without h (S ++ T) := by
  unfold without
  congr 1
  funext x
  simp only [List.mem_append]
  by_cases h1 : x ∈ S <;> by_cases h2 : x ∈ T <;> simp [h1, h2]

theorem without_cell {h : Heap} {S : List Nat} {x : Nat} (hx : x ∉ S) : (without h S).cell x = h.cell x := by
  unfold without
  simp [hx]

theorem free_ok {h : Heap} {a : Nat} (ha : h.cell a ≠ none) : free h a = .ok (without h [a]) := by
  unfold free without
  cases e : h.cell a with
  | none => exact absurd e ha
  | some o => simp

theorem freeOpt_ok {h : Heap} {p : Option Nat} (hp : ∀ a ∈ p.toList, h.cell a ≠ none) :
    freeOpt h p = .ok (without h p.toList) := by
  cases p with
  | none => rw [Option.toList_none, without_nil]; rfl
  | some a => exact free_ok (hp a (by simp))

theorem held_mem {h : Heap} {p : Option Nat} {v : Option (List UInt8)} (hh : Held h p v) :
    ∀ a ∈ p.toList, ∃ b, h.cell a = some (.bytes b) := by
  intro a ha
  cases p with
  | none => simp at ha
  | some q =>
    cases v with
    | none => exact hh.elim
    | some b =>
      simp only [Option.toList_some, List.mem_singleton] at ha
      exact ⟨b, ha ▸ hh⟩

theorem held_frame {h h' : Heap} {p : Option Nat} {v : Option (List UInt8)} (hh : Held h p v)
    (hf : ∀ x ∈ p.toList, h'.cell x = h.cell x) : Held h' p v := by
  cases p <;> cases v <;> simp only [Held] at hh ⊢
  rw [hf _ (by simp)]
  exact hh

theorem record_frame {h h' : Heap} {a : Nat} {r : Record} {e d : Option (List UInt8)}
    (hr : HasRecord h a r e d) (hf : ∀ x ∈ ownedRecord a r, h'.cell x = h.cell x) :
    HasRecord h' a r e d where
  cell := by rw [hf _ (by simp [ownedRecord])]; exact hr.cell
  extra := held_frame hr.extra fun x hx => hf x (by simp only [ownedRecord, List.mem_append]; exact .inl (.inl hx))
  data := held_frame hr.data fun x hx => hf x (by simp only [ownedRecord, List.mem_append]; exact .inl (.inr hx))
  extralength := hr.extralength
  datasize := hr.datasize
  apart := hr.apart

theorem getRecord_ok {h : Heap} {a : Nat} {r : Record} (hr : h.cell a = some (.record r)) :
    getRecord h a = .ok r := by
  unfold getRecord
  rw [hr]

theorem msrFree_ok {h : Heap} {a : Nat} {r : Record} {e d : Option (List UInt8)}
    (hr : HasRecord h a r e d) : msrFree h (some a) = .ok (without h (ownedRecord a r)) := by
  have he := held_mem hr.extra
  have hd := held_mem hr.data
  have hx : ∀ x ∈ r.datasamples.toList, x ∉ r.extra.toList := by
    intro x h1 h2
    rw [Option.mem_toList] at h1 h2
    exact hr.apart x h2 h1
  have ha : a ∉ r.extra.toList ++ r.datasamples.toList := by
    intro h1
    rcases List.mem_append.1 h1 with h1 | h1
    · obtain ⟨b, hb⟩ := he a h1
      rw [hr.cell] at hb
      cases hb
    · obtain ⟨b, hb⟩ := hd a h1
      rw [hr.cell] at hb
      cases hb
  unfold msrFree
  simp only [getRecord_ok hr.cell, bind_ok]
  rw [freeOpt_ok (fun x hx => by obtain ⟨b, hb⟩ := he x hx; rw [hb]; simp), bind_ok,
    freeOpt_ok (fun x h1 => by
      obtain ⟨b, hb⟩ := hd x h1
      rw [without_cell (hx x h1), hb]; simp), bind_ok, without_without,
    free_ok (by rw [without_cell ha, hr.cell]; simp), without_without]
  rfl

theorem prvt_ok {h : Heap} {prvt : Bool} {p : Option Nat} (hp : HasPrvt h prvt p) :
    (if prvt then freeOpt h p else .ok h) = .ok (without h (ownedPrvt prvt p)) := by
  unfold ownedPrvt
  cases prvt with
  | false => simp [without_nil]
  | true =>
    rw [if_pos rfl, if_pos rfl, freeOpt_ok fun a ha => hp rfl a (Option.mem_toList.1 ha)]

theorem prvt_frame {h h' : Heap} {prvt : Bool} {p : Option Nat} (hp : HasPrvt h prvt p)
    (hf : ∀ x ∈ ownedPrvt prvt p, h'.cell x = h.cell x) : HasPrvt h' prvt p := by
  intro h1 a ha
  rw [hf a (by unfold ownedPrvt; rw [if_pos h1, ha]; simp)]
  exact hp h1 a ha

theorem chain_frame {V : Type} {addr : V → Nat} {has has' : V → Option Nat → Prop} :
    ∀ {l : List V} {p : Option Nat}, Chain addr has p l → (∀ v ∈ l, ∀ next, has v next → has' v next) →
      Chain addr has' p l
  | [], _, hc, _ => hc
  | v :: l, _, ⟨h1, next, h2, h3⟩, hf =>
    ⟨h1, next, hf v List.mem_cons_self next h2,
      chain_frame h3 fun w hw => hf w (List.mem_cons_of_mem _ hw)⟩

theorem ptr_frame {h h' : Heap} {prvt : Bool} {v : PtrV} {next : Option Nat} (hv : HasPtr h prvt v next)
    (hf : ∀ x ∈ v.owned prvt, h'.cell x = h.cell x) : HasPtr h' prvt v next := by
  obtain ⟨h1, h2, h3⟩ := hv
  unfold PtrV.owned at hf
  simp only [List.mem_append] at hf
  refine ⟨by rw [hf _ (.inr (by simp))]; exact h1, fun a r e d hm => ?_, prvt_frame h3 fun x hx => hf x (.inl (.inr hx))⟩
  refine record_frame (h2 a r e d hm) fun x hx => hf x (.inl (.inl ?_))
  unfold PtrV.ownedMsr
  rw [hm]
  exact hx

/-- What is freed one after the other: parts that are apart. -/
theorem apart_of {S T : List Nat} (hn : (S ++ T).Nodup) {x : Nat} (hx : x ∈ T) : x ∉ S := by
  intro h1
  exact (List.nodup_append.1 hn).2.2 x h1 x hx rfl

theorem freePtrs_ok (prvt : Bool) : ∀ (l : List PtrV) (fuel : Nat) (h : Heap) (first : Option Nat),
    Chain PtrV.addr (HasPtr h prvt) first l → (l.flatMap (PtrV.owned prvt)).Nodup →
    (l.flatMap (PtrV.owned prvt)).length ≤ fuel →
    freePtrs prvt fuel h first = .ok (without h (l.flatMap (PtrV.owned prvt)))
  | [], fuel, h, first, hc, _, _ => by
    obtain rfl : first = none := hc
    rw [List.flatMap_nil, without_nil]
    cases fuel <;> rfl
  | v :: l, 0, h, first, hc, hn, hl => by
    simp only [List.flatMap_cons, List.length_append, PtrV.owned, List.length_cons, List.length_nil] at hl
    omega
  | v :: l, fuel + 1, h, first, ⟨h1, next, h2, h3⟩, hn, hl => by
    subst h1
    rw [List.flatMap_cons] at hn hl ⊢
    have hlen : 1 ≤ (v.owned prvt).length := by
      simp only [PtrV.owned, List.length_append, List.length_cons, List.length_nil]
      omega
    rw [List.length_append] at hl
    have ih := freePtrs_ok prvt l fuel (without h (v.owned prvt)) next
      (chain_frame h3 fun w hw next hh => ptr_frame hh fun x hx =>
        without_cell (apart_of hn (List.mem_flatMap.2 ⟨w, hw, hx⟩)))
      (List.nodup_append.1 hn).2.1 (by omega)
    rw [without_without] at ih
    have hnv := (List.nodup_append.1 hn).1
    obtain ⟨c1, c2, c3⟩ := h2
    rw [freePtrs]
    simp only [c1]
    have hm : msrFree h (v.msr.map fun x => x.1) =
        .ok (without h v.ownedMsr) := by
      unfold PtrV.ownedMsr
      cases hv : v.msr with
      | none => simp only [Option.map_none]; rw [without_nil]; rfl
      | some y =>
        obtain ⟨a, r, e, d⟩ := y
        simp only [Option.map_some]
        exact msrFree_ok (c2 a r e d hv)
    unfold PtrV.owned at hnv
    rw [hm, bind_ok, prvt_ok (prvt_frame c3 fun x hx => without_cell (apart_of (List.nodup_append.1 hnv).1 hx)), bind_ok,
      without_without, free_ok (by rw [without_cell (apart_of hnv (by simp)), c1]; simp), bind_ok, without_without]
    exact ih

theorem recs_frame {h h' : Heap} {prvt : Bool} {p : Option Nat} {v : Option (List PtrV)} (hv : HasRecs h prvt p v)
    (hf : ∀ x ∈ (v.getD []).flatMap (PtrV.owned prvt) ++ p.toList, h'.cell x = h.cell x) : HasRecs h' prvt p v := by
  cases p <;> cases v <;> simp only [HasRecs] at hv ⊢
  obtain ⟨first, last, cnt, h1, h2⟩ := hv
  refine ⟨first, last, cnt, by rw [hf _ (by simp)]; exact h1, chain_frame h2 fun w hw next hh => ptr_frame hh fun x hx => hf x ?_⟩
  exact List.mem_append_left _ (List.mem_flatMap.2 ⟨w, hw, hx⟩)

theorem seg_frame {h h' : Heap} {prvt : Bool} {v : SegV} {next : Option Nat} (hv : HasSeg h prvt v next)
    (hf : ∀ x ∈ v.owned prvt, h'.cell x = h.cell x) : HasSeg h' prvt v next := by
  obtain ⟨h1, h2, h3, h4, h5, h6⟩ := hv
  unfold SegV.owned at hf
  simp only [List.mem_append] at hf
  refine ⟨by rw [hf _ (.inr (by simp))]; exact h1, h2, held_frame h3 fun x hx => hf x (.inl (.inl (.inr hx))), h4,
    recs_frame h5 fun x hx => hf x (.inl (.inr (List.mem_append.1 hx))),
    prvt_frame h6 fun x hx => hf x (.inl (.inl (.inl hx)))⟩

theorem freeSegs_ok (prvt : Bool) : ∀ (l : List SegV) (fuel : Nat) (h : Heap) (first : Option Nat),
    Chain SegV.addr (HasSeg h prvt) first l → (l.flatMap (SegV.owned prvt)).Nodup →
    (l.flatMap (SegV.owned prvt)).length ≤ fuel →
    freeSegs prvt fuel h first = .ok (without h (l.flatMap (SegV.owned prvt)))
  | [], fuel, h, first, hc, _, _ => by
    obtain rfl : first = none := hc
    rw [List.flatMap_nil, without_nil]
    cases fuel <;> rfl
  | v :: l, 0, h, first, hc, hn, hl => by
    simp only [List.flatMap_cons, List.length_append, SegV.owned, List.length_cons, List.length_nil] at hl
    omega
  | v :: l, fuel + 1, h, first, ⟨h1, next, h2, h3⟩, hn, hl => by
    subst h1
    rw [List.flatMap_cons] at hn hl ⊢
    rw [List.length_append] at hl
    have hlen : ((v.recs.getD []).flatMap (PtrV.owned prvt)).length + 1 ≤ (v.owned prvt).length := by
      simp only [SegV.owned, List.length_append, List.length_cons, List.length_nil]
      omega
    have ih := freeSegs_ok prvt l fuel (without h (v.owned prvt)) next
      (chain_frame h3 fun w hw next hh => seg_frame hh fun x hx =>
        without_cell (apart_of hn (List.mem_flatMap.2 ⟨w, hw, hx⟩)))
      (List.nodup_append.1 hn).2.1 (by omega)
    rw [without_without] at ih
    have hnv := (List.nodup_append.1 hn).1
    obtain ⟨c1, c2, c3, c4, c5, c6⟩ := h2
    rw [freeSegs]
    simp only [c1, c2]
    unfold SegV.owned at hnv
    have hn1 := (List.nodup_append.1 hnv).1
    have hn2 := (List.nodup_append.1 hn1).1
    rw [prvt_ok c6, bind_ok, freeOpt_ok (fun x hx => by
      rw [without_cell (apart_of hn2 hx)]
      obtain ⟨b, hb⟩ := held_mem c3 x hx
      rw [hb]; simp), bind_ok, without_without]
    have hr := recs_frame (h' := without h (ownedPrvt prvt v.seg.prvtptr ++ v.seg.datasamples.toList)) c5
      fun x hx => without_cell (apart_of hn1 hx)
    have hn3 := (List.nodup_append.1 hn1).2.1
    have hrec : (match v.seg.recordlist with
        | some a =>
          match (without h (ownedPrvt prvt v.seg.prvtptr ++ v.seg.datasamples.toList)).cell a with
          | some (.recordlist first _ _) =>
            (freePtrs prvt fuel (without h (ownedPrvt prvt v.seg.prvtptr ++ v.seg.datasamples.toList)) first).bind
              fun h => free h a
          | _ => .ub
        | none => .ok (without h (ownedPrvt prvt v.seg.prvtptr ++ v.seg.datasamples.toList))) =
        .ok (without h (ownedPrvt prvt v.seg.prvtptr ++ v.seg.datasamples.toList ++
          ((v.recs.getD []).flatMap (PtrV.owned prvt) ++ v.seg.recordlist.toList))) := by
      cases hp : v.seg.recordlist with
      | none =>
        cases hv : v.recs with
        | none => simp
        | some y => rw [hp, hv] at hr; exact hr.elim
      | some a =>
        cases hv : v.recs with
        | none => rw [hp, hv] at hr; exact hr.elim
        | some y =>
          rw [hp, hv] at hr hn3
          rw [hv] at hlen
          obtain ⟨first, last, cnt, d1, d2⟩ := hr
          simp only [Option.getD_some] at hn3 hlen ⊢
          simp only [d1]
          rw [freePtrs_ok prvt y fuel _ first d2 (List.nodup_append.1 hn3).1 (by omega), bind_ok,
            free_ok (by rw [without_cell (apart_of hn3 (by simp)), d1]; simp), without_without, without_without,
            Option.toList_some, List.append_assoc]
    refine (congrArg (fun x => Res.bind x _) hrec).trans ?_
    rw [bind_ok, free_ok (by rw [without_cell (apart_of hnv (by simp)), c1]; simp), bind_ok, without_without]
    exact ih

theorem id_frame {h h' : Heap} {prvt : Bool} {v : IdV} {next : Option Nat} (hv : HasId h prvt v next)
    (hf : ∀ x ∈ v.owned prvt, h'.cell x = h.cell x) : HasId h' prvt v next := by
  obtain ⟨first, h1, h2, h3⟩ := hv
  unfold IdV.owned at hf
  simp only [List.mem_append] at hf
  refine ⟨first, by rw [hf _ (.inr (by simp))]; exact h1,
    chain_frame h2 fun w hw next hh => seg_frame hh fun x hx => hf x (.inl (.inl (List.mem_flatMap.2 ⟨w, hw, hx⟩))),
    prvt_frame h3 fun x hx => hf x (.inl (.inr hx))⟩

theorem freeIds_ok (prvt : Bool) : ∀ (l : List IdV) (fuel : Nat) (h : Heap) (first : Option Nat),
    Chain IdV.addr (HasId h prvt) first l → (l.flatMap (IdV.owned prvt)).Nodup →
    (l.flatMap (IdV.owned prvt)).length ≤ fuel →
    freeIds prvt fuel h first = .ok (without h (l.flatMap (IdV.owned prvt)))
  | [], fuel, h, first, hc, _, _ => by
    obtain rfl : first = none := hc
    rw [List.flatMap_nil, without_nil]
    cases fuel <;> rfl
  | v :: l, 0, h, first, hc, hn, hl => by
    simp only [List.flatMap_cons, List.length_append, IdV.owned, List.length_cons, List.length_nil] at hl
    omega
  | v :: l, fuel + 1, h, first, ⟨h1, next, h2, h3⟩, hn, hl => by
    subst h1
    rw [List.flatMap_cons] at hn hl ⊢
    rw [List.length_append] at hl
    have hlen : (v.segs.flatMap (SegV.owned prvt)).length + 1 ≤ (v.owned prvt).length := by
      simp only [IdV.owned, List.length_append, List.length_cons, List.length_nil]
      omega
    have ih := freeIds_ok prvt l fuel (without h (v.owned prvt)) next
      (chain_frame h3 fun w hw next hh => id_frame hh fun x hx =>
        without_cell (apart_of hn (List.mem_flatMap.2 ⟨w, hw, hx⟩)))
      (List.nodup_append.1 hn).2.1 (by omega)
    rw [without_without] at ih
    have hnv := (List.nodup_append.1 hn).1
    obtain ⟨fst, c1, c2, c3⟩ := h2
    rw [freeIds]
    simp only [c1]
    unfold IdV.owned at hnv
    have hn1 := (List.nodup_append.1 hnv).1
    rw [freeSegs_ok prvt v.segs fuel h fst c2 (List.nodup_append.1 hn1).1 (by omega), bind_ok,
      prvt_ok (prvt_frame c3 fun x hx => without_cell (apart_of hn1 hx)), bind_ok, without_without,
      free_ok (by rw [without_cell (apart_of hnv (by simp)), c1]; simp), bind_ok, without_without]
    exact ih

theorem listFree_ok {prvt : Bool} {a : Nat} {l : List IdV} {h : Heap} {fuel : Nat} (hl : HasList h prvt a l)
    (hn : (ownedList prvt a l).Nodup) (hf : (ownedList prvt a l).length ≤ fuel) :
    listFree fuel h (some a) prvt = .ok (without h (ownedList prvt a l)) := by
  obtain ⟨first, h1, h2⟩ := hl
  unfold listFree
  simp only [h1]
  unfold ownedList at hn hf ⊢
  rw [List.length_append] at hf
  rw [freeIds_ok prvt l fuel h first h2 (List.nodup_append.1 hn).1 (by omega), bind_ok,
    free_ok (by rw [without_cell (apart_of hn (by simp)), h1]; simp), without_without]

end Verif.Proof.Alloc
