import Verif.Props.SelectMemDefs
import Verif.Proof.AllocTrim
import Verif.Proof.TraceList
/-! Lemmas on selections in memory. -/
namespace Verif.Proof.SelectMem
open Verif.Model.Steim Verif.Model.Alloc Verif.Model.SelectMem
open Verif.Props.Alloc Verif.Props.SelectMem
open Verif.Proof.Alloc
open Verif.Proof.Mem (bind_ok)
open Verif.Model.Select (Entry Window)

theorem select_frame {h h' : Heap} {v : SelV} {next : Option Nat} (hv : HasSelect h v next)
    (hf : ∀ x ∈ v.owned, h'.cell x = h.cell x) : HasSelect h' v next := by
  obtain ⟨tw, h1, h2⟩ := hv
  unfold SelV.owned at hf
  refine ⟨tw, by rw [hf _ (by simp)]; exact h1, chain_frame h2 fun w hw next hh => ?_⟩
  unfold HasWindow at hh ⊢
  rw [hf _ (List.mem_append_left _ (List.mem_map.2 ⟨w, hw, rfl⟩))]
  exact hh

theorem selects_frame {h h' : Heap} {first : Option Nat} {l : List SelV} (hl : HasSelects h first l)
    (hf : ∀ x ∈ ownedSelects l, h'.cell x = h.cell x) : HasSelects h' first l :=
  chain_frame hl fun v hv _ hh => select_frame hh fun x hx => hf x (List.mem_flatMap.2 ⟨v, hv, hx⟩)

theorem windows_live {h : Heap} : ∀ {l : List (Nat × Window)} {p : Option Nat},
    Chain (fun v : Nat × Window => v.1) (HasWindow h) p l → ∀ x ∈ l.map (·.1), h.cell x ≠ none
  | [], _, _, x, hx => by simp at hx
  | v :: l, _, ⟨_, _, h2, h3⟩, x, hx => by
    rw [List.map_cons] at hx
    rcases List.mem_cons.1 hx with rfl | hx
    · unfold HasWindow at h2
      rw [h2]; simp
    · exact windows_live h3 x hx

theorem selects_live {h : Heap} : ∀ {l : List SelV} {p : Option Nat}, HasSelects h p l →
    ∀ x ∈ ownedSelects l, h.cell x ≠ none
  | [], _, _, x, hx => by simp [ownedSelects] at hx
  | v :: l, _, ⟨_, _, ⟨tw, h1, h2⟩, h3⟩, x, hx => by
    unfold ownedSelects at hx
    rw [List.flatMap_cons] at hx
    rcases List.mem_append.1 hx with hx | hx
    · rcases List.mem_append.1 hx with hx | hx
      · exact windows_live h2 x hx
      · rw [List.mem_singleton.1 hx, h1]; simp
    · exact selects_live h3 x hx

theorem freeWindows_ok : ∀ (l : List (Nat × Window)) (fuel : Nat) (h : Heap) (first : Option Nat),
    Chain (fun v : Nat × Window => v.1) (HasWindow h) first l → (l.map (·.1)).Nodup → l.length ≤ fuel →
    freeWindows fuel h first = .ok (without h (l.map (·.1)))
  | [], fuel, h, first, hc, _, _ => by
    obtain rfl : first = none := hc
    rw [List.map_nil, without_nil]
    cases fuel <;> rfl
  | v :: l, 0, h, first, hc, hn, hl => by simp at hl
  | v :: l, fuel + 1, h, first, ⟨h1, next, h2, h3⟩, hn, hl => by
    subst h1
    rw [List.map_cons] at hn ⊢
    unfold HasWindow at h2
    have ih := freeWindows_ok l fuel (without h [v.1]) next
      (chain_frame h3 fun w hw next hh => by
        unfold HasWindow at hh ⊢
        rw [without_cell]
        · exact hh
        · intro hm
          rw [List.mem_singleton] at hm
          exact (List.nodup_cons.1 hn).1 (hm ▸ List.mem_map.2 ⟨w, hw, rfl⟩))
      (List.nodup_cons.1 hn).2 (by simp at hl; omega)
    rw [without_without] at ih
    rw [freeWindows]
    simp only [h2]
    rw [free_ok (by rw [h2]; simp), bind_ok]
    exact ih

theorem freeSelects_ok : ∀ (l : List SelV) (fuel : Nat) (h : Heap) (first : Option Nat),
    HasSelects h first l → (ownedSelects l).Nodup → (ownedSelects l).length ≤ fuel →
    freeSelects fuel h first = .ok (without h (ownedSelects l))
  | [], fuel, h, first, hc, _, _ => by
    obtain rfl : first = none := hc
    unfold ownedSelects
    rw [List.flatMap_nil, without_nil]
    cases fuel <;> rfl
  | v :: l, 0, h, first, hc, hn, hl => by
    simp only [ownedSelects, List.flatMap_cons, List.length_append, SelV.owned, List.length_cons, List.length_nil] at hl
    omega
  | v :: l, fuel + 1, h, first, ⟨h1, next, h2, h3⟩, hn, hl => by
    subst h1
    unfold ownedSelects at hn hl ⊢
    rw [List.flatMap_cons] at hn hl ⊢
    rw [List.length_append] at hl
    have hlen : v.wins.length + 1 ≤ v.owned.length := by
      simp only [SelV.owned, List.length_append, List.length_map, List.length_cons, List.length_nil]
      omega
    have ih := freeSelects_ok l fuel (without h v.owned) next
      (selects_frame h3 fun x hx => without_cell (apart_of hn hx))
      (List.nodup_append.1 hn).2.1 (by unfold ownedSelects; omega)
    rw [without_without] at ih
    have hnv := (List.nodup_append.1 hn).1
    obtain ⟨tw, c1, c2⟩ := h2
    rw [freeSelects]
    simp only [c1]
    unfold SelV.owned at hnv
    rw [freeWindows_ok v.wins fuel h tw c2 (List.nodup_append.1 hnv).1 (by omega), bind_ok,
      free_ok (by rw [without_cell (apart_of hnv (by simp)), c1]; simp), bind_ok, without_without]
    exact ih

theorem findSelect_ok (pattern : List UInt8) (pub : Nat) : ∀ (l : List SelV) (fuel : Nat) (h : Heap) (first : Option Nat),
    HasSelects h first l → l.length ≤ fuel →
    (findSelect pattern pub fuel h first = .ok none ∧ ∀ v ∈ l, ¬ Same pattern pub v.entry) ∨
    ∃ l1 v l2, l = l1 ++ v :: l2 ∧ Same pattern pub v.entry ∧ (∀ x ∈ l1, ¬ Same pattern pub x.entry) ∧
      findSelect pattern pub fuel h first = .ok (some v.addr)
  | [], fuel, h, first, hc, _ => by
    obtain rfl : first = none := hc
    exact .inl ⟨by cases fuel <;> rfl, by simp⟩
  | v :: l, 0, h, first, hc, hl => by simp at hl
  | v :: l, fuel + 1, h, first, ⟨h1, next, h2, h3⟩, hl => by
    subst h1
    obtain ⟨tw, c1, c2⟩ := h2
    rw [findSelect]
    simp only [c1]
    by_cases hs : Same pattern pub v.entry
    · refine .inr ⟨[], v, l, rfl, hs, by simp, ?_⟩
      rw [if_pos ⟨(Verif.Proof.TraceList.strcmp_eq _ _).2 hs.1, hs.2⟩]
    · rw [if_neg fun hc => hs ⟨(Verif.Proof.TraceList.strcmp_eq _ _).1 hc.1, hc.2⟩]
      rcases findSelect_ok pattern pub l fuel h next h3 (by simp at hl; omega) with ⟨g1, g2⟩ | ⟨l1, w, l2, rfl, g2, g3, g4⟩
      · refine .inl ⟨g1, fun x hx => ?_⟩
        rcases List.mem_cons.1 hx with rfl | hx
        · exact hs
        · exact g2 x hx
      · refine .inr ⟨v :: l1, w, l2, rfl, g2, fun x hx => ?_, g4⟩
        rcases List.mem_cons.1 hx with rfl | hx
        · exact hs
        · exact g3 x hx

/-- The entry with one more time window. -/
def withWindow (v : SelV) (w : Nat) (x : Window) : SelV := { v with wins := (w, x) :: v.wins }

theorem link_ok {h h' : Heap} {w : Nat} {x : Window} {v : SelV} : ∀ {l1 l2 : List SelV} {first : Option Nat},
    HasSelects h first (l1 ++ v :: l2) → (ownedSelects (l1 ++ v :: l2)).Nodup → w ∉ ownedSelects (l1 ++ v :: l2) →
    (∀ y, y ≠ w → y ≠ v.addr → h'.cell y = h.cell y) →
    (∀ p tw nx pb, h.cell v.addr = some (.select p tw nx pb) → h'.cell v.addr = some (.select p (some w) nx pb) ∧
      h'.cell w = some (.window x.start x.stop tw)) →
    HasSelects h' first (l1 ++ withWindow v w x :: l2)
  | [], l2, first, ⟨h1, next, ⟨tw, c1, c2⟩, h3⟩, hn, hw, hf, hl => by
    obtain ⟨g1, g2⟩ := hl _ _ _ _ c1
    rw [List.nil_append] at hn hw
    unfold ownedSelects at hn hw
    rw [List.flatMap_cons] at hn hw
    refine ⟨h1, next, ⟨some w, g1, rfl, tw, g2, chain_frame c2 fun y hy nx hh => ?_⟩, selects_frame h3 fun y hy => hf y ?_ ?_⟩
    · have hm : y.1 ∈ v.wins.map (·.1) := List.mem_map.2 ⟨y, hy, rfl⟩
      unfold HasWindow at hh ⊢
      rw [hf]
      · exact hh
      · intro he
        exact hw (List.mem_append_left _ (List.mem_append_left _ (he ▸ hm)))
      · intro he
        have := (List.nodup_append.1 hn).1
        exact (List.nodup_append.1 this).2.2 y.1 hm v.addr (by simp) he
    · intro he
      exact hw (List.mem_append_right _ (he ▸ hy))
    · intro he
      exact (List.nodup_append.1 hn).2.2 v.addr (by simp [SelV.owned]) y hy he.symm
  | u :: l1, l2, first, ⟨h1, next, h2, h3⟩, hn, hw, hf, hl => by
    rw [List.cons_append] at hn hw
    unfold ownedSelects at hn hw
    rw [List.flatMap_cons] at hn hw
    refine ⟨h1, next, select_frame h2 fun y hy => hf y ?_ ?_,
      link_ok h3 (List.nodup_append.1 hn).2.1 (fun hm => hw (List.mem_append_right _ hm)) hf hl⟩
    · intro he
      exact hw (List.mem_append_left _ (he ▸ hy))
    · intro he
      exact (List.nodup_append.1 hn).2.2 y hy v.addr (by simp [SelV.owned]) he

theorem link_perm (w : Nat) (x : Window) (v : SelV) : ∀ (l1 l2 : List SelV),
    (ownedSelects (l1 ++ withWindow v w x :: l2)).Perm (w :: ownedSelects (l1 ++ v :: l2))
  | [], l2 => by
    rw [List.nil_append, List.nil_append]
    unfold ownedSelects
    rw [List.flatMap_cons, List.flatMap_cons]
    exact List.Perm.refl _
  | u :: l1, l2 => by
    have ih := link_perm w x v l1 l2
    rw [List.cons_append, List.cons_append]
    unfold ownedSelects at ih ⊢
    rw [List.flatMap_cons, List.flatMap_cons]
    exact (List.Perm.append_left _ ih).trans List.perm_middle

theorem length_owned (l : List SelV) : l.length ≤ (ownedSelects l).length := by
  induction l with
  | nil => simp
  | cons v l ih =>
    unfold ownedSelects at ih ⊢
    rw [List.flatMap_cons, List.length_append, List.length_cons]
    have : 1 ≤ v.owned.length := by
      simp only [SelV.owned, List.length_append, List.length_cons, List.length_nil]
      omega
    omega

theorem addSelect_ok {h : Heap} {first : Option Nat} {l : List SelV} {fuel : Nat} (hf : Fresh h)
    (hl : HasSelects h first l) (hn : (ownedSelects l).Nodup) (hfu : l.length ≤ fuel) (pattern : List UInt8)
    (start stop : Int) (pub : Nat) :
    ∃ ok first' h', addSelect fuel h first pattern start stop pub = .ok (ok, first', h') ∧ Fresh h' ∧
      h'.fails = h.fails ∧
      (ok = true → ∃ l', HasSelects h' first' l' ∧
        Added pattern pub ⟨start, stop⟩ (l.map SelV.entry) (l'.map SelV.entry) ∧
        (ownedSelects l').length ≤ (ownedSelects l).length + 2 ∧
        Step h h' (ownedSelects l) (ownedSelects l')) ∧
      (ok = false → first' = first ∧ HasSelects h' first l ∧ (∃ n, h.fails n = true) ∧
        ∀ x, x < h.next → h'.cell x = h.cell x) := by
  have hlow : ∀ x ∈ ownedSelects l, x < h.next := fun x hx => live_low hf (selects_live hl x hx)
  unfold addSelect
  rcases malloc_cases h (.window start stop none) with ⟨h1, hm, hcell, hnx, hfa, hfail⟩ | ⟨h1, hm, hnx, hfa, hcell, hok⟩
  · rw [hm]
    refine ⟨false, first, h1, rfl, fun x hx => ?_, hfa, by simp, fun _ => ⟨rfl, selects_frame hl fun x _ => by rw [hcell], ⟨_, hfail⟩, fun x _ => by rw [hcell]⟩⟩
    rw [hcell]
    exact hf x (by omega)
  rw [hm]
  simp only
  have hf1 : Fresh h1 := fun x hx => by
    rw [hcell, if_neg (by omega)]
    exact hf x (by omega)
  have hold : ∀ x, x < h.next → h1.cell x = h.cell x := fun x hx => by rw [hcell, if_neg (by omega)]
  have hl1 : HasSelects h1 first l := selects_frame hl fun x hx => hold x (hlow x hx)
  have hw1 : h1.cell h.next = some (.window start stop none) := by rw [hcell, if_pos rfl]
  -- a new entry
  have hnew : (∀ v ∈ l, ¬ Same pattern pub v.entry) → ∃ ok first' h', newSelect h1 pattern pub h.next first = (ok, first', h') ∧ Fresh h' ∧
      h'.fails = h.fails ∧
      (ok = true → ∃ l', HasSelects h' first' l' ∧
        Added pattern pub ⟨start, stop⟩ (l.map SelV.entry) (l'.map SelV.entry) ∧
        (ownedSelects l').length ≤ (ownedSelects l).length + 2 ∧
        Step h h' (ownedSelects l) (ownedSelects l')) ∧
      (ok = false → first' = first ∧ HasSelects h' first l ∧ (∃ n, h.fails n = true) ∧
        ∀ x, x < h.next → h'.cell x = h.cell x) := by
    intro hno
    unfold newSelect
    rcases malloc_cases h1 (.select (Verif.Model.Select.copied pattern) (some h.next) first pub) with
      ⟨h2, hm2, hcell2, hnx2, hfa2, hfail2⟩ | ⟨h2, hm2, hnx2, hfa2, hcell2, -⟩
    · rw [hm2]
      refine ⟨false, first, h2, rfl, fun x hx => ?_, by rw [hfa2, hfa], by simp, fun _ => ⟨rfl,
        selects_frame hl1 fun x _ => by rw [hcell2], ⟨_, by rw [← hfa]; exact hfail2⟩, fun x hx => by rw [hcell2]; exact hold x hx⟩⟩
      rw [hcell2]
      exact hf1 x (by omega)
    · rw [hm2]
      have hown : ownedSelects (⟨h1.next, pattern.take 99, pub, [(h.next, ⟨start, stop⟩)]⟩ :: l) =
          h.next :: h1.next :: ownedSelects l := by
        unfold ownedSelects
        rw [List.flatMap_cons]
        rfl
      have hf2 : Fresh h2 := fun x hx => by
        rw [hcell2, if_neg (by omega)]
        exact hf1 x (by omega)
      refine ⟨true, some h1.next, h2, rfl, hf2, by rw [hfa2, hfa], fun _ =>
        ⟨⟨h1.next, pattern.take 99, pub, [(h.next, ⟨start, stop⟩)]⟩ :: l, ⟨rfl, first, ⟨some h.next, ?_, rfl, none, ?_, rfl⟩, ?_⟩,
          .inr ⟨?_, rfl⟩, ?_, ⟨hf2, by omega, by rw [hfa2, hfa], ?_, ?_, ?_, ?_, ?_⟩⟩, by simp⟩
      · rw [hcell2, if_pos rfl]; rfl
      · show h2.cell h.next = _
        rw [hcell2, if_neg (by omega), hw1]
      · exact selects_frame hl1 fun x hx => by
          have := hlow x hx
          rw [hcell2, if_neg (by omega)]
      · intro x hx
        obtain ⟨v, hv, rfl⟩ := List.mem_map.1 hx
        exact hno v hv
      · rw [hown]; simp
      · intro x hx
        rw [hown] at hx
        rcases List.mem_cons.1 hx with rfl | hx
        · exact .inr (Nat.le_refl _)
        · rcases List.mem_cons.1 hx with rfl | hx
          · exact .inr (by omega)
          · exact .inl hx
      · intro x hx
        rw [hown] at hx
        rcases List.mem_cons.1 hx with rfl | hx
        · omega
        · rcases List.mem_cons.1 hx with rfl | hx
          · omega
          · have := hlow x hx; omega
      · intro x g1 g2
        rw [hown] at g2
        simp only [List.mem_cons, not_or] at g2
        rw [hcell2, if_neg g2.2.1, hcell, if_neg g2.1]
      · intro x g1 g2
        rw [hown] at g2
        simp only [List.mem_cons, not_or] at g2
        exact absurd g1 g2.2.2
      · rw [hown]
        refine List.nodup_cons.2 ⟨fun hm => ?_, List.nodup_cons.2 ⟨fun hm => ?_, hn⟩⟩
        · rcases List.mem_cons.1 hm with hm | hm
          · omega
          · have := hlow _ hm; omega
        · have := hlow _ hm; omega
  cases first with
  | none =>
    have hnil : l = [] := by
      cases l with
      | nil => rfl
      | cons v l => obtain ⟨h1, -⟩ := hl; cases h1
    obtain ⟨ok, first', h', g1, g2⟩ := hnew (by rw [hnil]; simp)
    exact ⟨ok, first', h', by simp only; rw [g1], g2⟩
  | some f =>
    simp only
    rcases findSelect_ok pattern pub l fuel h1 (some f) hl1 hfu with ⟨g1, g2⟩ | ⟨l1, v, l2, rfl, g2, g3, g4⟩
    · rw [g1, bind_ok]
      obtain ⟨ok, first', h', g1, g3⟩ := hnew g2
      exact ⟨ok, first', h', by simp only; rw [g1], g3⟩
    · rw [g4, bind_ok]
      simp only
      have hva : v.addr ∈ ownedSelects (l1 ++ v :: l2) :=
        List.mem_flatMap.2 ⟨v, by simp, by simp [SelV.owned]⟩
      have hvl := hlow _ hva
      obtain ⟨p, tw, nx, pb, hc⟩ : ∃ p tw nx pb, h1.cell v.addr = some (.select p tw nx pb) := by
        have : ∀ (l1 : List SelV) first, HasSelects h1 first (l1 ++ v :: l2) →
            ∃ p tw nx pb, h1.cell v.addr = some (.select p tw nx pb) := by
          intro l1
          induction l1 with
          | nil => intro first hx; obtain ⟨-, nx, ⟨tw, hx, -⟩, -⟩ := hx; exact ⟨_, _, _, _, hx⟩
          | cons u l1 ih => intro first hx; obtain ⟨-, nx, -, hx⟩ := hx; exact ih nx hx
        exact this l1 _ hl1
      unfold linkWindow
      rw [hc]
      simp only
      rw [bind_ok]
      have hput : ∀ x, ((h1.put h.next (.window start stop tw)).put v.addr (.select p (some h.next) nx pb)).cell x =
          if x = v.addr then some (.select p (some h.next) nx pb) else if x = h.next then some (.window start stop tw)
          else h1.cell x := fun _ => rfl
      have hn2 : ((h1.put h.next (.window start stop tw)).put v.addr (.select p (some h.next) nx pb)).next = h1.next := rfl
      have hfa2 : ((h1.put h.next (.window start stop tw)).put v.addr (.select p (some h.next) nx pb)).fails = h1.fails := rfl
      generalize (h1.put h.next (.window start stop tw)).put v.addr (.select p (some h.next) nx pb) = h2 at hput hn2 hfa2
      have hperm := link_perm h.next ⟨start, stop⟩ v l1 l2
      have hwn : h.next ∉ ownedSelects (l1 ++ v :: l2) := fun hm => by have := hlow _ hm; omega
      have hf2 : Fresh h2 := fun x hx => by
        rw [hput, if_neg (by omega), if_neg (by omega)]
        exact hf1 x (by omega)
      refine ⟨true, some f, h2, rfl, hf2, by rw [hfa2, hfa], fun _ => ⟨l1 ++ withWindow v h.next ⟨start, stop⟩ :: l2,
        link_ok hl1 hn hwn ?_ ?_, .inl ⟨l1.map SelV.entry, v.entry, l2.map SelV.entry, by simp, g2, ?_, by simp [withWindow, SelV.entry]⟩, ?_,
        ⟨hf2, by omega, by rw [hfa2, hfa], ?_, ?_, ?_, ?_, ?_⟩⟩, by simp⟩
      · intro y hy1 hy2
        rw [hput, if_neg hy2, if_neg hy1]
      · intro p' tw' nx' pb' hc'
        rw [hc] at hc'
        cases hc'
        exact ⟨by rw [hput, if_pos rfl], by rw [hput, if_neg (by omega), if_pos rfl]⟩
      · intro x hx
        obtain ⟨u, hu, rfl⟩ := List.mem_map.1 hx
        exact g3 u hu
      · rw [hperm.length_eq]; simp
      · intro x hx
        rcases List.mem_cons.1 (hperm.mem_iff.1 hx) with rfl | hx
        · exact .inr (Nat.le_refl _)
        · exact .inl hx
      · intro x hx
        rcases List.mem_cons.1 (hperm.mem_iff.1 hx) with rfl | hx
        · omega
        · have := hlow x hx; omega
      · intro x g1 g2
        have hx1 : x ≠ v.addr := fun he => g1 (he ▸ hva)
        have hx2 : x ≠ h.next := fun he => g2 (hperm.mem_iff.2 (he ▸ List.mem_cons_self))
        rw [hput, if_neg hx1, if_neg hx2, hcell, if_neg hx2]
      · intro x g1 g2
        exact absurd (hperm.mem_iff.2 (List.mem_cons_of_mem _ g1)) g2
      · exact hperm.nodup_iff.2 (List.nodup_cons.2 ⟨hwn, hn⟩)

end Verif.Proof.SelectMem
