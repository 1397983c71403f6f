import Verif.Proof.RecMemAdd
/-!
# Two record lists are joined
-/
namespace Verif.Proof.RecMem
open Verif.Model.Steim Verif.Model.Alloc Verif.Model.SegMem Verif.Model.RecMem
open Verif.Props.Alloc Verif.Props.SegMem Verif.Props.RecMem
open Verif.Proof.Mem Verif.Proof.Alloc

theorem getSeg_ok {h : Heap} {a : Nat} {s : Seg} (ha : h.cell a = some (.seg s)) : getSeg h a = .ok s := by
  unfold getSeg
  rw [ha]

theorem join_ok {h : Heap} {a b : Nat} {prvt : Bool} {s r : Seg} {l m : List PtrV} (hf : Fresh h)
    (ha : h.cell a = some (.seg s)) (hb : h.cell b = some (.seg r)) (hl : RecList h prvt s.recordlist l)
    (hm : RecList h prvt r.recordlist m) (hab : a ≠ b)
    (han : a ∉ ownedRecs prvt s.recordlist l ++ ownedRecs prvt r.recordlist m)
    (hbn : b ∉ ownedRecs prvt s.recordlist l ++ ownedRecs prvt r.recordlist m)
    (hn : (ownedRecs prvt s.recordlist l ++ ownedRecs prvt r.recordlist m).Nodup) :
    ∃ h' list left, joinLists h a b = .ok h' ∧ Grows h h' ∧
      h'.cell a = some (.seg { s with recordlist := list }) ∧
      h'.cell b = some (.seg { r with recordlist := left }) ∧
      RecList h' prvt list (l ++ m) ∧ list = s.recordlist.or r.recordlist ∧
      left = (if s.recordlist = none then none else r.recordlist) ∧
      (∀ x ∈ left.toList, h'.cell x ≠ none) ∧
      (∀ x, x ∉ a :: b :: ownedRecs prvt s.recordlist l → h'.cell x = h.cell x) := by
  have halive : h.cell a ≠ none := by rw [ha]; simp
  have hblive : h.cell b ≠ none := by rw [hb]; simp
  have hlow : ∀ x, h.cell x ≠ none → x < h.next := fun x hx => live_low hf hx
  unfold joinLists
  rw [getSeg_ok ha, bind_ok, getSeg_ok hb, bind_ok]
  cases hr : r.recordlist with
  | none =>
    rw [hr] at hm
    obtain rfl : m = [] := hm
    refine ⟨h, s.recordlist, none, rfl, grows_refl hf, ha, ?_, by rw [List.append_nil]; exact hl, by simp, by simp,
      by simp, fun _ _ => rfl⟩
    rw [hb, ← hr]
  | some mm =>
    rw [hr] at hm hn han hbn
    cases hs : s.recordlist with
    | none =>
      rw [hs] at hl hn han hbn
      obtain rfl : l = [] := hl
      simp only
      refine ⟨_, some mm, none, rfl, ?_, ?_, ?_, ?_, rfl, rfl, by simp, ?_⟩
      · have g := fun o => put_grows (o := o) hf (hlow a halive)
        exact grows_trans (g _) (put_grows (g _).1 (hlow b hblive))
      · rw [put_cell, if_neg hab, put_cell, if_pos rfl]
      · rw [put_cell, if_pos rfl]
      · refine recList_frame hm fun x hx => ?_
        rw [put_cell, if_neg, put_cell, if_neg]
        · rintro rfl; exact han (List.mem_append_right _ hx)
        · rintro rfl; exact hbn (List.mem_append_right _ hx)
      · intro x hx
        simp only [List.mem_cons, not_or] at hx
        rw [put_cell, if_neg hx.2.1, put_cell, if_neg hx.1]
    | some ll =>
      rw [hs] at hl hn han hbn
      obtain ⟨hne, first, hlc, hch⟩ := hl
      obtain ⟨hne2, first', hmc, hch2⟩ := hm
      obtain ⟨w, hw1, hw2, hw3⟩ := last_some hne
      have hwp := chain_last l first hch w hw1
      rw [hw1, Option.map_some] at hlc
      simp only [hlc, hmc, hwp.1]
      have hll : h.cell ll ≠ none := by rw [hlc]; simp
      have hmm : h.cell mm ≠ none := by rw [hmc]; simp
      have hww : h.cell w.addr ≠ none := by rw [hwp.1]; simp
      have hwll : w.addr ≠ ll := by intro hx; have h1 := hwp.1; rw [hx, hlc] at h1; cases h1
      have hall : a ≠ ll := by intro hx; rw [hx, hlc] at ha; cases ha
      have hbll : b ≠ ll := by intro hx; rw [hx, hlc] at hb; cases hb
      have haw : a ≠ w.addr := by intro hx; rw [hx, hwp.1] at ha; cases ha
      have hbw : b ≠ w.addr := by intro hx; rw [hx, hwp.1] at hb; cases hb
      have hwl : w.addr ∈ l.flatMap (PtrV.owned prvt) := List.mem_flatMap.2 ⟨w, hw2, by simp [PtrV.owned]⟩
      rw [List.nodup_append] at hn
      obtain ⟨hn1, hn2, hn3⟩ := hn
      have hmx : ∀ x ∈ ownedRecs prvt (some mm) m, x ≠ ll ∧ x ≠ w.addr := fun x hx =>
        ⟨fun h1 => hn3 ll (by simp [ownedRecs]) x hx h1.symm,
          fun h1 => hn3 w.addr (List.mem_append_left _ hwl) x hx h1.symm⟩
      have hcell : ∀ (o o' : Obj) (x : Nat), ((h.put w.addr o).put ll o').cell x = if x = ll then some o' else if x = w.addr then some o else h.cell x := by
        intro o o' x
        rw [put_cell, put_cell]
      have hmmx := hmx mm (by simp [ownedRecs])
      have hlmm : ∀ x ∈ l.flatMap (PtrV.owned prvt), x ≠ ll := by
        intro x hx hxm
        rw [ownedRecs, List.nodup_append] at hn1
        exact hn1.2.2 x hx ll (by simp) hxm
      refine ⟨_, some ll, some mm, rfl, ?_, ?_, ?_, ?_, rfl, by simp, ?_, ?_⟩
      · have g := fun o => put_grows (o := o) hf (hlow w.addr hww)
        exact grows_trans (g _) (put_grows (g _).1 (hlow ll hll))
      · rw [hcell, if_neg hall, if_neg haw, ha, ← hs]
      · rw [hcell, if_neg hbll, if_neg hbw, hb, ← hr]
      · refine link_ok (h := h) (first := first) (first' := first') (w := w) hne2 hch hw1 hw3 hn1 ?_ ?_ ?_ ?_
        · refine chain_frame hch2 fun u hu next hh => ptr_frame hh fun x hx => ?_
          have := hmx x (List.mem_append_left _ (List.mem_flatMap.2 ⟨u, hu, hx⟩))
          rw [hcell, if_neg this.1, if_neg this.2]
        · rw [hcell, if_neg hwll, if_pos rfl]
        · rw [hcell, if_pos rfl]
        · intro x hx hxw
          rw [hcell, if_neg (hlmm x hx), if_neg hxw]
      · intro x hx
        rw [Option.toList_some, List.mem_singleton] at hx
        rw [hx, hcell, if_neg hmmx.1, if_neg hmmx.2]
        exact hmm
      · intro x hx
        simp only [List.mem_cons, not_or] at hx
        rw [hcell, if_neg, if_neg]
        · rintro rfl; exact hx.2.2 (List.mem_append_left _ hwl)
        · rintro rfl; exact hx.2.2 (by simp [ownedRecs])

theorem drop_ok {h : Heap} {b : Nat} {r : Seg} (hb : h.cell b = some (.seg r))
    (hl : ∀ x ∈ r.datasamples.toList ++ r.recordlist.toList ++ r.prvtptr.toList, h.cell x ≠ none)
    (hn : (r.datasamples.toList ++ r.recordlist.toList ++ r.prvtptr.toList ++ [b]).Nodup) :
    dropSeg h b = .ok (without h (r.datasamples.toList ++ r.recordlist.toList ++ r.prvtptr.toList ++ [b])) := by
  have hn0 := hn
  rw [List.nodup_append] at hn
  obtain ⟨hn1, -, hn2⟩ := hn
  rw [List.nodup_append] at hn1
  obtain ⟨hn3, -, hn4⟩ := hn1
  rw [List.nodup_append] at hn3
  obtain ⟨-, -, hn5⟩ := hn3
  unfold dropSeg
  rw [getSeg_ok hb, bind_ok]
  rw [freeOpt_ok fun x hx => hl x (by simp only [List.mem_append]; exact .inl (.inl hx)), bind_ok]
  rw [freeOpt_ok fun x hx => by
    rw [without_cell fun h1 => hn5 x h1 x hx rfl]
    exact hl x (by simp only [List.mem_append]; exact .inl (.inr hx)), bind_ok]
  rw [without_without]
  rw [freeOpt_ok fun x hx => by
    rw [without_cell fun h1 => hn4 x h1 x hx rfl]
    exact hl x (by simp only [List.mem_append]; exact .inr hx), bind_ok]
  rw [without_without]
  rw [free_ok (by
    rw [without_cell fun h1 => hn2 b h1 b (by simp) rfl, hb]; simp)]
  rw [without_without]

end Verif.Proof.RecMem
