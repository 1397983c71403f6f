import Verif.Model.TraceAdd
import Verif.Props.TraceList
/-!
# C145: adding an entry to a list with `mstl3_addID` alone
-/
namespace Verif.Props.TraceAdd
open Verif.Model.Steim Verif.Model.Trace Verif.Model.TraceList Verif.Model.TraceAdd Verif.Props.Trace Verif.Props.TraceList
open Verif.Proof.TraceList Verif.Proof.Mem

variable {R : Type}

theorem connect_all {a : Nat} {prev : Nat → Option Nat} : ∀ (n : Nat) {tl tl' : TraceList R},
    connect tl a prev n = .ok (some tl') → connectAll tl a prev n = .ok (tl', true)
  | 0, tl, tl', h => by
    unfold connect at h
    injection h with h
    injection h with h
    rw [← h]; rfl
  | n + 1, tl, tl', h => by
    unfold connect at h
    unfold connectAll
    split at h
    · injection h with h; cases h
    · rename_i p hp
      rw [hp]
      obtain ⟨x, h1, h2⟩ := bind_eq_ok.1 h
      dsimp only
      rw [h1, bind_ok]
      exact connect_all n h2

/-- **C145** (part).  An entry whose identifier is not in the list is added, in whatever way the list was made and
whatever the heights: walking the list visits the entries it had before and the new one, each once and in order.

Missing: an identifier that is in the list, `C145_known_source_violated`. -/
theorem C145_new_source_partial {sim : R → R → Bool} {split autoheal keep : Bool} {hist : List (Arrival R × Bool)}
    {tl : TraceList R} (h : Listed sim split autoheal keep hist tl) (s : Source R)
    (hs : ∀ a t, tl.sources a = some t → t.sid ≠ s.sid) :
    ∃ tl' l, addAlone tl s = .ok (tl', true) ∧ Walk tl' l ∧ (l.filterMap tl'.sources).Pairwise (Before split) ∧
      (∃ a, tl.sources a = none ∧ tl'.sources a = some s ∧ ∀ b, b ≠ a → tl'.sources b = tl.sources b) := by
  obtain ⟨l, hgt, hrep, -⟩ := listed_inv h
  obtain ⟨l1, l0, l2, e, h1, h0, h2⟩ := split3 (sid := s.sid) (pub := 0) (fun _ => rfl) hrep.sorted
  obtain ⟨res, prev, ef, hres⟩ := findID_rep hrep e h1 h0 h2
  have hno : ∀ x ∈ l, x.2.sid ≠ s.sid := fun x hx => hs x.1 x.2 (hrep.here x hx)
  have hl0 : l0 = [] := by
    cases l0 with
    | nil => rfl
    | cons x t =>
      exact absurd ((compareId_eq _ _ _).1 (h0 x (List.mem_cons_self ..))).1 (hno x (by rw [e]; simp))
  rcases hres with ⟨b, t, -, hb⟩ | ⟨-, -, hprev⟩
  · rw [hl0] at hb; cases hb
  have el : l = l1 ++ l2 := by rw [e, hl0, List.append_nil]
  have hb1 : ∀ x ∈ l1, Before split x.2 s := by
    intro x hx
    rcases (compareId_lt _ _ _).1 (h1 x hx) with h | h
    · exact Or.inl h
    · exact absurd rfl h.2.1
  have hb2 : ∀ x ∈ l2, Before split s x.2 := by
    intro x hx
    rcases (compareId_gt _ _ _).1 (h2 x hx) with h | h
    · exact Or.inl h
    · exact absurd rfl h.2.1
  have hrep0 := hrep
  rw [el] at hrep
  obtain ⟨tl', hgt', ea, hrep'⟩ := addID_rep hrep hprev hb1 hb2
  refine ⟨tl', (l1 ++ (tl.fresh, s) :: l2).map Prod.fst, ?_, walk_of_rep hrep', ?_, tl.fresh, ?_, ?_, ?_⟩
  · unfold addAlone
    rw [ef, bind_ok]
    unfold addID at ea
    dsimp only at ea ⊢
    obtain ⟨r, e1, e2⟩ := bind_eq_ok.1 ea
    cases r with
    | none => injection e2 with e2; cases e2
    | some t =>
      rw [connect_all _ e1, bind_ok]
      injection e2 with e2
      injection e2 with e2
      injection e2 with e2 _
      dsimp only
      rw [if_pos rfl, e2]
  · have e : ∀ m : List (Nat × Source R), (∀ x ∈ m, tl'.sources x.1 = some x.2) →
        (m.map Prod.fst).filterMap tl'.sources = m.map Prod.snd := by
      intro m
      induction m with
      | nil => intro _; rfl
      | cons x t ih =>
        intro hm
        rw [List.map_cons, List.filterMap_cons, hm x (by simp)]
        simp only [List.map_cons]
        rw [ih fun y hy => hm y (List.mem_cons_of_mem _ hy)]
    rw [e _ hrep'.here, List.pairwise_map]
    exact hrep'.sorted
  · cases hf : tl.sources tl.fresh with
    | none => rfl
    | some t =>
      obtain ⟨x, hx, hxa⟩ := List.mem_map.1 (hrep.only tl.fresh (by rw [hf]; rfl))
      have := (hrep.addr x hx).2.1
      omega
  · exact hrep'.here (tl.fresh, s) (by simp)
  · intro b hb
    cases hf : tl.sources b with
    | some t =>
      obtain ⟨x, hx, hxa⟩ := List.mem_map.1 (hrep.only b (by rw [hf]; rfl))
      have g := hrep.here x hx
      rw [hxa, hf] at g
      injection g with g
      have := hrep'.here x (by
        rcases List.mem_append.1 hx with h | h
        · exact List.mem_append_left _ h
        · exact List.mem_append_right _ (List.mem_cons_of_mem _ h))
      rw [← hxa, this, g]
    | none =>
      cases hf' : tl'.sources b with
      | none => rfl
      | some t =>
        obtain ⟨x, hx, hxa⟩ := List.mem_map.1 (hrep'.only b (by rw [hf']; rfl))
        rcases List.mem_append.1 hx with hx | hx
        · have := hrep.here x (List.mem_append_left _ hx)
          rw [hxa, hf] at this; cases this
        · rcases List.mem_cons.1 hx with e | hx
          · rw [e] at hxa; exact absurd hxa.symm hb
          · have := hrep.here x (List.mem_append_right _ hx)
            rw [hxa, hf] at this; cases this

/-- An entry as a caller makes it. -/
def entry (sid : List UInt8) : Source Nat :=
  { sid, pub := 1, earliest := 0, latest := 0, numsegments := 0, first := 0, last := 0, fresh := 0, heap := fun _ => none }

/-- Three sources, another one is not among them. -/
example : ∃ hist tl, Listed same false true false hist tl ∧ hist.length = 5 ∧
    ∀ a t, tl.sources a = some t → t.sid ≠ (entry [70]).sid := by
  obtain ⟨hist, tl, h, e⟩ := threeSources false
  refine ⟨hist, tl, h, by have := congrArg List.length e; simpa using this, ?_⟩
  intro a t ht
  obtain ⟨l, hgt, hrep, -, -, hfrom⟩ := listed_inv h
  obtain ⟨x, hx, hxa⟩ := List.mem_map.1 (hrep.only a (by rw [ht]; rfl))
  have g := hrep.here x hx
  rw [hxa, ht] at g
  injection g with g
  obtain ⟨y, hy, -, hy2, -⟩ := hfrom x hx
  have : y.1 ∈ hist.map Prod.fst := List.mem_map.2 ⟨y, hy, rfl⟩
  rw [e] at this
  rw [g, ← hy2]
  simp only [List.mem_cons, List.not_mem_nil, or_false] at this
  rcases this with h | h | h | h | h <;> rw [h] <;> decide

/-- The list of three sources that is made from the seed of `mstl3_init`. -/
def threeList : Option (TraceList Nat) :=
  match addMsr same false true false (init : TraceList Nat) (from' [66] 1 0) with
  | .ok (tl, _) =>
    match addMsr same false true false tl (from' [67] 1 0) with
    | .ok (tl, _) =>
      match addMsr same false true false tl (from' [68] 1 0) with
      | .ok (tl, _) => some tl
      | _ => none
    | _ => none
  | _ => none

/-- What happens when the first source is added again. -/
def summary (l : Option (TraceList Nat)) : Option (Nat × Bool × Bool × Nat × Nat × List (Option Nat)) :=
  match l with
  | some tl =>
    match addAlone tl (entry [66]) with
    | .ok (tl', done) => some (tl.fresh, (tl.sources tl.fresh).isNone, done, tl'.numtraceids, tl'.fresh,
        [tl'.next 0 7, tl'.next 0 6, tl'.next 0 5, tl'.next 0 4, tl'.next 0 3, tl'.next 0 2])
    | _ => none
  | none => none

set_option synthInstance.maxSize 1024 in
/-- **C145** is violated.  Adding an entry for a source that a list of three has already fails with NULL after the entry
has been linked at the upper levels, since the search ends at the level where it finds the source.  When the caller gives
back the entry that was not added, any search in the list reads the memory given back. -/
theorem C145_known_source_violated : ∃ tl tl', threeList = some tl ∧ (tl.sources tl.fresh).isNone = true ∧
    addAlone tl (entry [66]) = .ok (tl', false) ∧ tl'.numtraceids = 3 ∧ tl'.next 0 2 = some tl.fresh ∧
    ∀ sid, findID (release tl' tl.fresh) sid 0 = .ub := by
  have hd : summary threeList = some (4, true, false, 3, 5, [none, none, none, none, none, some 4]) := by decide +kernel
  cases e : threeList with
  | none => rw [e] at hd; cases hd
  | some tl =>
    rw [e] at hd
    unfold summary at hd
    dsimp only at hd
    cases e2 : addAlone tl (entry [66]) with
    | ok x =>
      obtain ⟨tl', done⟩ := x
      rw [e2] at hd
      simp only [Option.some.injEq, Prod.mk.injEq, List.cons.injEq, and_true] at hd
      obtain ⟨hf, hn, hdone, hc, hf', n7, n6, n5, n4, n3, n2⟩ := hd
      subst hdone
      refine ⟨tl, tl', rfl, hn, e2, hc, by rw [n2, hf], ?_⟩
      intro sid
      unfold findID
      rw [show (release tl' tl.fresh).fresh = 5 from hf', show maxHeight = 8 from rfl]
      have step : ∀ fuel lv prev, tl'.next 0 lv = none → findLoop (release tl' tl.fresh) sid 0 (fuel + 1) 0 (lv + 1) prev =
          findLoop (release tl' tl.fresh) sid 0 fuel 0 lv (fun i => if i = lv then some 0 else prev i) := by
        intro fuel lv prev hlv
        rw [findLoop]
        have : nextOf (release tl' tl.fresh) 0 lv = .ok none := by
          unfold nextOf; rw [if_pos (Or.inl rfl)]; exact congrArg _ hlv
        rw [this, bind_ok]
      rw [step 13 7 _ n7, step 12 6 _ n6, step 11 5 _ n5, step 10 4 _ n4, step 9 3 _ n3, findLoop]
      have : nextOf (release tl' tl.fresh) 0 2 = .ok (some 4) := by
        unfold nextOf; rw [if_pos (Or.inl rfl)]; exact congrArg _ n2
      rw [this, bind_ok]
      dsimp only
      have : source (release tl' tl.fresh) 4 = .ub := by
        unfold source release
        dsimp only
        rw [if_pos hf.symm]
      rw [this]
      rfl
    | _ => rw [e2] at hd; cases hd

end Verif.Props.TraceAdd
