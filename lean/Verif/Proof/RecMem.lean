import Verif.Model.RecMem
import Verif.Proof.SegMem
import Verif.Proof.AllocDup
import Verif.Props.RecMemDefs
/-!
# Lemmas on record lists in memory
-/
namespace Verif.Proof.RecMem
open Verif.Model.Steim Verif.Model.Alloc Verif.Model.SegMem Verif.Model.RecMem
open Verif.Props.Alloc Verif.Props.SegMem Verif.Props.RecMem
open Verif.Proof.Mem Verif.Proof.Alloc

/-! ## What is never given out remains free -/

/-- The memory grows at its end only. -/
def Grows (h h' : Heap) : Prop := Fresh h' ∧ h.next ≤ h'.next ∧ h'.fails = h.fails

theorem grows_refl {h : Heap} (hf : Fresh h) : Grows h h := ⟨hf, Nat.le_refl _, rfl⟩

theorem grows_trans {h h1 h2 : Heap} (g1 : Grows h h1) (g2 : Grows h1 h2) : Grows h h2 :=
  ⟨g2.1, Nat.le_trans g1.2.1 g2.2.1, g2.2.2.trans g1.2.2⟩

theorem malloc_grows {h h' : Heap} {o : Obj} {x : Option Nat} (hf : Fresh h) (hm : malloc h o = (x, h')) :
    Grows h h' ∧ ∀ a, x = some a → a < h'.next := by
  rcases malloc_cases h o with ⟨h1, e, hc, hn, hfa, -⟩ | ⟨h1, e, hn, hfa, hc, -⟩
  · rw [e] at hm
    obtain ⟨rfl, rfl⟩ := Prod.mk.inj hm
    exact ⟨⟨fun y hy => by rw [hc]; exact hf y (by omega), by omega, hfa⟩, by simp⟩
  · rw [e] at hm
    obtain ⟨rfl, rfl⟩ := Prod.mk.inj hm
    refine ⟨⟨fun y hy => ?_, by omega, hfa⟩, fun a ha => ?_⟩
    · rw [hc, if_neg (by omega)]; exact hf y (by omega)
    · have := Option.some.inj ha; omega

theorem put_grows {h : Heap} {a : Nat} {o : Obj} (hf : Fresh h) (ha : a < h.next) : Grows h (h.put a o) := by
  refine ⟨fun y hy => ?_, Nat.le_refl _, rfl⟩
  have hy : h.next ≤ y := hy
  show (if y = a then _ else _) = _
  rw [if_neg (by omega)]
  exact hf y hy

theorem free_grows {h h' : Heap} {a : Nat} (hf : Fresh h) (he : free h a = .ok h') : Grows h h' := by
  unfold free at he
  split at he
  · obtain rfl := Res.ok.inj he
    refine ⟨fun y hy => ?_, Nat.le_refl _, rfl⟩
    show (if y = a then _ else _) = _
    split
    · rfl
    · exact hf y hy
  · cases he

theorem freeOpt_grows {h h' : Heap} {p : Option Nat} (hf : Fresh h) (he : freeOpt h p = .ok h') : Grows h h' := by
  cases p with
  | none => obtain rfl := Res.ok.inj he; exact grows_refl hf
  | some a => exact free_grows hf he

theorem msrFree_grows {h h' : Heap} {p : Option Nat} (hf : Fresh h) (he : msrFree h p = .ok h') : Grows h h' := by
  cases p with
  | none => obtain rfl := Res.ok.inj he; exact grows_refl hf
  | some a =>
    unfold msrFree at he
    simp only at he
    obtain ⟨r, -, he⟩ := bind_eq_ok.1 he
    obtain ⟨h1, e1, he⟩ := bind_eq_ok.1 he
    obtain ⟨h2, e2, he⟩ := bind_eq_ok.1 he
    have g1 := freeOpt_grows hf e1
    have g2 := freeOpt_grows g1.1 e2
    exact grows_trans g1 (grows_trans g2 (free_grows g2.1 he))

theorem dupSamples_grows {h h' : Heap} {r r' : Record} {b : Nat} {dup : Bool} {x : Option Nat} (hf : Fresh h)
    (hb : b < h.next) (he : dupSamples h r r' b dup = .ok (x, h')) : Grows h h' := by
  unfold dupSamples at he
  split at he
  · split at he
    · obtain ⟨d, -, he⟩ := bind_eq_ok.1 he
      split at he
      · rename_i hm
        obtain ⟨h2, e2, he⟩ := bind_eq_ok.1 he
        obtain ⟨-, rfl⟩ := Prod.mk.inj (Res.ok.inj he)
        have g1 := (malloc_grows hf hm).1
        exact grows_trans g1 (msrFree_grows g1.1 e2)
      · rename_i hm
        obtain ⟨-, rfl⟩ := Prod.mk.inj (Res.ok.inj he)
        have g1 := (malloc_grows hf hm).1
        exact grows_trans g1 (put_grows g1.1 (by have := g1.2.1; omega))
    · obtain ⟨-, rfl⟩ := Prod.mk.inj (Res.ok.inj he)
      exact grows_refl hf
  · obtain ⟨-, rfl⟩ := Prod.mk.inj (Res.ok.inj he)
    exact grows_refl hf

theorem duplicate_grows {h h' : Heap} {a : Nat} {dup : Bool} {x : Option Nat} (hf : Fresh h)
    (he : duplicate h (some a) dup = .ok (x, h')) : Grows h h' := by
  unfold duplicate at he
  simp only [init, bind_ok] at he
  split at he
  · rename_i hm
    obtain ⟨-, rfl⟩ := Prod.mk.inj (Res.ok.inj he)
    exact (malloc_grows hf hm).1
  · rename_i b h1 hm
    obtain ⟨g1, gb⟩ := malloc_grows hf hm
    have gb := gb b rfl
    obtain ⟨r, -, he⟩ := bind_eq_ok.1 he
    have g2 := put_grows (a := b) (o := .record (bare r)) g1.1 gb
    have g12 := grows_trans g1 g2
    have hb2 : b < (h1.put b (.record (bare r))).next := gb
    split at he
    · split at he
      · obtain ⟨e, -, he⟩ := bind_eq_ok.1 he
        split at he
        · rename_i hm2
          obtain ⟨h3, e3, he⟩ := bind_eq_ok.1 he
          obtain ⟨-, rfl⟩ := Prod.mk.inj (Res.ok.inj he)
          have g3 := (malloc_grows g12.1 hm2).1
          exact grows_trans g12 (grows_trans g3 (msrFree_grows g3.1 e3))
        · rename_i hm2
          have g3 := (malloc_grows g12.1 hm2).1
          have hb3 := g3.2.1
          have g4 := fun o => put_grows (a := b) (o := o) g3.1 (by omega)
          exact grows_trans g12 (grows_trans g3 (grows_trans (g4 _) (dupSamples_grows (g4 _).1
            (Nat.lt_of_lt_of_le hb2 hb3) he)))
      · exact grows_trans g12 (dupSamples_grows g12.1 hb2 he)
    · exact grows_trans g12 (dupSamples_grows g12.1 hb2 he)

/-! ## Chains -/

/-- Two chains, the last entry of the first of which is changed to point to the second. -/
theorem chain_join {has has' : PtrV → Option Nat → Prop} {l2 : List PtrV} {first' : Option Nat}
    (h2 : Chain PtrV.addr has' first' l2) :
    ∀ (l : List PtrV) (p : Option Nat), Chain PtrV.addr has p l → l ≠ [] →
      (∀ w ∈ l.dropLast, ∀ next, has w next → has' w next) →
      (∀ w, l.getLast? = some w → has w none → has' w first') →
      Chain PtrV.addr has' p (l ++ l2)
  | [], _, _, hne, _, _ => absurd rfl hne
  | [w], _, ⟨h1, next, g1, g2⟩, _, _, hl => by
    obtain rfl : next = none := g2
    exact ⟨h1, first', hl w rfl g1, h2⟩
  | w :: w2 :: l, _, ⟨h1, next, g1, g2⟩, _, hd, hl =>
    ⟨h1, next, hd w (by simp) next g1,
      chain_join h2 (w2 :: l) next g2 (by simp) (fun x hx => hd x (by
        rw [List.dropLast_cons_of_ne_nil (by simp)]; exact List.mem_cons_of_mem _ hx)) (fun x hx => hl x (by
        rw [List.getLast?_cons_cons]; exact hx))⟩

/-- The last entry of a chain. -/
theorem chain_last {has : PtrV → Option Nat → Prop} :
    ∀ (l : List PtrV) (p : Option Nat), Chain PtrV.addr has p l → ∀ w, l.getLast? = some w → has w none
  | [], _, _, w, hw => by cases hw
  | [v], _, ⟨_, next, g1, g2⟩, w, hw => by
    obtain rfl : next = none := g2
    obtain rfl : v = w := Option.some.inj hw
    exact g1
  | v :: v2 :: l, _, ⟨_, next, _, g2⟩, w, hw =>
    chain_last (v2 :: l) next g2 w (by rw [List.getLast?_cons_cons] at hw; exact hw)

theorem last_some {l : List PtrV} (hl : l ≠ []) : ∃ w, l.getLast? = some w ∧ w ∈ l ∧ l = l.dropLast ++ [w] := by
  refine ⟨l.getLast hl, List.getLast?_eq_some_getLast hl, List.getLast_mem hl, ?_⟩
  exact (List.dropLast_concat_getLast hl).symm

/-- Another entry that points to a changed address. -/
theorem recList_live {h : Heap} {prvt : Bool} {p : Option Nat} {l : List PtrV} (hl : RecList h prvt p l) :
    ∀ x ∈ ownedRecs prvt p l, h.cell x ≠ none := by
  intro x hx
  unfold ownedRecs at hx
  rw [List.mem_append] at hx
  cases p with
  | none =>
    obtain rfl : l = [] := hl
    simp at hx
  | some a =>
    obtain ⟨-, first, h1, h2⟩ := hl
    rcases hx with hx | hx
    · exact chain_live (fun v next hv => ptr_live hv) h2 x hx
    · rw [Option.toList_some, List.mem_singleton] at hx
      subst hx
      rw [h1]; simp

theorem recList_frame {h h' : Heap} {prvt : Bool} {p : Option Nat} {l : List PtrV} (hl : RecList h prvt p l)
    (hf : ∀ x ∈ ownedRecs prvt p l, h'.cell x = h.cell x) : RecList h' prvt p l := by
  cases p with
  | none => exact hl
  | some a =>
    obtain ⟨hne, first, h1, h2⟩ := hl
    refine ⟨hne, first, by rw [hf a (by simp [ownedRecs])]; exact h1, chain_frame h2 fun w hw next hh => ptr_frame hh fun x hx => hf x ?_⟩
    exact List.mem_append_left _ (List.mem_flatMap.2 ⟨w, hw, hx⟩)

end Verif.Proof.RecMem
