import Verif.Props.TraceRunsDefs
import Verif.Props.TracePackDefs
import Verif.Proof.TraceOrder
/-!
# Lemmas on records in time order
-/
namespace Verif.Proof.TraceRuns
open Verif.Model.Steim Verif.Model.Trace Verif.Props.Trace Verif.Props.TraceRuns Verif.Proof.Trace
open Verif.Props.TracePack (Each)

variable {R : Type}

theorem each_append {α β : Type} {P : α → β → Prop} {a a' : List α} {b b' : List β} (h : Each P a b)
    (h' : Each P a' b') : Each P (a ++ a') (b ++ b') := by
  induction a generalizing b with
  | nil =>
    cases b with
    | nil => exact h'
    | cons y t => exact absurd h id
  | cons x t ih =>
    cases b with
    | nil => exact absurd h id
    | cons y u => exact ⟨h.1, ih h.2⟩

theorem each_snoc {α β : Type} {P : α → β → Prop} {a : List α} {x : α} {b : List β} (h : Each P (a ++ [x]) b) :
    ∃ b' y, b = b' ++ [y] ∧ Each P a b' ∧ P x y := by
  induction a generalizing b with
  | nil =>
    match b, h with
    | [], h => exact absurd h id
    | [y], h => exact ⟨[], y, rfl, trivial, h.1⟩
    | y :: z :: u, h => exact absurd h.2 id
  | cons w t ih =>
    match b, h with
    | [], h => exact absurd h id
    | y :: u, h =>
      obtain ⟨b', z, rfl, h1, h2⟩ := ih h.2
      exact ⟨y :: b', z, rfl, ⟨h.1, h1⟩, h2⟩

/-- The segments are far apart. -/
def Apart (P B : Int) (l : List (Nat × Seg R)) : Prop :=
  l.Pairwise fun x y => x.2.stop + P + B < y.2.start

theorem apart_sorted {P B : Int} (h0 : 0 ≤ P + B) {l : List (Nat × Seg R)} (h : Apart P B l)
    (hl : ∀ y ∈ l, y.2.start ≤ y.2.stop) : l.Pairwise fun x y => x.2.start < y.2.start := by
  refine List.Pairwise.imp_of_mem ?_ h
  intro x y hx _ hxy
  have := hl x hx
  omega

/-- Two orders of the same segments that are both by start are the same. -/
theorem sorted_eq {l m : List (Nat × Seg R)} (hp : l.Perm m) (hs : Sorted l)
    (hm : m.Pairwise fun x y => x.2.start < y.2.start) : l = m := by
  have hle : ∀ {l : List (Nat × Seg R)}, Sorted l → l.Pairwise fun x y => x.2.start ≤ y.2.start := by
    intro l h
    refine List.Pairwise.imp ?_ h
    intro x y h
    refine Classical.byContradiction fun hn => ?_
    have : behind x.2 y.2 = true := (behind_iff _ _).2 (Or.inl (by omega))
    rw [h] at this
    cases this
  refine List.Perm.eq_of_pairwise ?_ (hle hs) (hm.imp fun h => by omega) hp
  intro a b ha hb hab hba
  have ha' := hp.mem_iff.1 ha
  have he : a.2.start = b.2.start := by omega
  clear hab hba ha hp hs hle
  induction hm with
  | nil => cases hb
  | cons h1 _ ih =>
    rcases List.mem_cons.1 ha' with rfl | h2 <;> rcases List.mem_cons.1 hb with rfl | h3
    · rfl
    · have := h1 _ h3; omega
    · have := h1 _ h2; omega
    · exact ih h3 h2

/-- The last element of a list with a given last address. -/
theorem last_eq {id : Source R} {l0 : List (Nat × Seg R)} {y : Nat × Seg R} (hr : Rep id (l0 ++ [y])) :
    id.last = y.1 := by
  obtain ⟨l0', s, e⟩ := split_last (l0 ++ [y]) hr.ne_nil id.last none hr.last
  have := congrArg List.getLast? e
  simp only [List.getLast?_append, List.getLast?_singleton, Option.some_or, Option.some.injEq] at this
  rw [this]

/-- What holds after records in time order. -/
structure State (keep : Bool) (P B : Int) (T : Char) (chain : List (Arrival R)) (gs : List (List (Arrival R)))
    (id : Source R) (l : List (Nat × Seg R)) : Prop where
  rep : Rep id l
  made : Each (Made keep) gs (l.map Prod.snd)
  types : Types T l
  rates : Rates chain l
  apart : Apart P B l
  long : ∀ y ∈ l, y.2.start ≤ y.2.stop
  latest : ∀ l0 y, l = l0 ++ [y] → id.latest = y.2.stop

theorem made_ends {keep : Bool} {g : List (Arrival R)} {x : Arrival R} {s : Seg R} (h : Made keep (g ++ [x]) s) :
    s.stop = x.stop := by
  have := h.stop
  simp only [List.getLast?_append, List.getLast?_singleton, Option.some_or, Option.map_some,
    Option.some.injEq] at this
  exact this.symm

/-- All segments begin and end before the end of the last one. -/
theorem before_last {P B : Int} (h0 : 0 ≤ P + B) {l0 : List (Nat × Seg R)} {y : Nat × Seg R}
    (ha : Apart P B (l0 ++ [y])) (hl : ∀ z ∈ l0 ++ [y], z.2.start ≤ z.2.stop) :
    (∀ z ∈ l0, z.2.stop + P + B < y.2.start) ∧
    ∀ z ∈ l0 ++ [y], z.2.start ≤ y.2.stop ∧ z.2.stop ≤ y.2.stop := by
  have h1 : ∀ z ∈ l0, z.2.stop + P + B < y.2.start := fun z hz =>
    (List.pairwise_append.1 ha).2.2 z hz y (by simp)
  refine ⟨h1, fun z hz => ?_⟩
  have hy := hl y (by simp)
  have hz' := hl z hz
  rcases List.mem_append.1 hz with hz | hz
  · have := h1 z hz
    omega
  · rw [List.mem_singleton] at hz
    subst hz
    omega

theorem near_step {sim : R → R → Bool} {autoheal keep : Bool} {P B : Int} {T : Char} (hB : 0 ≤ B) (hP : B < P)
    {chain : List (Arrival R)} (hsim : ∀ a ∈ chain, ∀ b ∈ chain, sim a.rate b.rate = true)
    {gs : List (List (Arrival R))} {g : List (Arrival R)} {a x : Arrival R} {id id' : Source R}
    {l : List (Nat × Seg R)} {res : Option Nat} (st : State keep P B T chain (gs ++ [g ++ [a]]) id l)
    (hx : x ∈ chain) (hu : Uniform P B T x) (h1 : -B ≤ x.start - (a.stop + P))
    (h2 : x.start - (a.stop + P) ≤ B) (ha : addToId sim autoheal keep id x = .ok (id', res)) :
    res.isSome = true ∧ ∃ l', State keep P B T chain (gs ++ [g ++ [a, x]]) id' l' := by
  obtain ⟨L0, s, el, hE, hmade⟩ := each_snoc st.made
  obtain ⟨l0, ly, rfl, rfl, ely⟩ := List.map_eq_append_iff.1 el
  obtain ⟨y, ly', rfl, rfl, ely'⟩ := List.map_eq_cons_iff.1 ely
  have : ly' = [] := List.map_eq_nil_iff.1 ely'
  subst this
  have hstop := made_ends hmade
  obtain ⟨hb1, hb2⟩ := before_last (by omega) st.apart st.long
  have hper := hu.period
  have htol := hu.tol
  have hlong := hu.long
  have hfo : Follows sim x y.2 := by
    refine ⟨?_, ?_⟩
    · unfold fits
      simp only [decide_eq_true_eq]
      omega
    · obtain ⟨r, hr, e⟩ := st.rates y (by simp)
      rw [e]
      exact hsim x hx r hr
  obtain ⟨id2, res2, l', e, hr', stp, htr, _⟩ := addToId_step sim autoheal keep st.rep x
  rw [ha] at e
  cases e
  obtain ⟨hty', hsome⟩ := step_types stp hu.type st.types
  have hra' := step_rates stp hx st.rates
  have hlat := (htr hsome).latest
  have hlat0 := st.latest l0 y rfl
  have hlast := last_eq st.rep
  have hyl := st.long y (by simp)
  have nop : ∀ u : Nat × Seg R, u ∈ l0 ++ [y] → ¬ Precedes sim x u.2 := by
    intro u hu' hp
    have := hp.1
    unfold fits at this
    simp only [decide_eq_true_eq] at this
    have := (hb2 u hu').1
    omega
  have hsorted0 : Sorted l0 := by
    have := (List.pairwise_append.1 st.apart).1
    refine List.Pairwise.imp_of_mem ?_ (apart_sorted (P := P) (B := B) (by omega) this
      fun z hz => st.long z (by simp [hz]))
    intro p q _ _ hpq
    refine Classical.byContradiction fun hn => ?_
    have := (behind_iff p.2 q.2).1 (by
      cases hb : behind p.2 q.2 with
      | true => rfl
      | false => exact absurd hb hn)
    omega
  generalize hl : l0 ++ [y] = l at *
  cases stp with
  | fail => exact absurd rfl hsome
  | half => exact absurd rfl hsome
  | front l1 l2 b u u' l' hf hm hp _ _ => exact absurd hf (nop (b, u) (by simp))
  | join l m b u u' u'' c t l' _ _ hpre _ _ hp _ _ _ =>
    exact absurd hpre (nop (c, t) (hp.mem_iff.2 (by simp)))
  | new l u l' _ _ _ hnl _ => exact absurd hfo (hnl y hlast.symm (by rw [← hl]; simp))
  | back l1 l2 b u u' l' hf hm hp hso _ =>
    have hin : (b, u) ∉ l0 := by
      intro hin
      have := hb1 (b, u) hin
      have := hf.1
      unfold fits at this
      simp only [decide_eq_true_eq] at this
      simp only at *
      omega
    have hl2 : l2 = [] := by
      refine Classical.byContradiction fun hne => ?_
      rw [← List.dropLast_concat_getLast hne, ← List.cons_append, ← List.append_assoc] at hl
      have := (List.append_inj' hl rfl).1
      exact hin (by rw [this]; simp)
    subst hl2
    obtain ⟨e1, e2⟩ := List.append_inj' hl rfl
    subst e1
    simp only [List.cons.injEq, and_true] at e2
    subst e2
    have hmade' := made_back hmade hfo hm
    rw [List.append_assoc, List.singleton_append] at hmade'
    have hst' : u'.start = u.start ∧ u'.stop = x.stop := by
      unfold addMsrToSeg at hm
      split at hm
      · cases hm
      · split at hm
        · cases hm
        · rw [if_pos rfl] at hm
          cases hm
          exact ⟨rfl, rfl⟩
    have hap : Apart P B (l0 ++ [(b, u')]) := by
      refine List.pairwise_append.2 ⟨(List.pairwise_append.1 st.apart).1, List.pairwise_singleton _ _, ?_⟩
      intro z hz w hw
      rw [List.mem_singleton] at hw
      subst hw
      have := hb1 z hz
      simp only at *
      omega
    have hlo : ∀ z ∈ l0 ++ [(b, u')], z.2.start ≤ z.2.stop := by
      intro z hz
      rcases List.mem_append.1 hz with hz | hz
      · exact st.long z (by simp [hz])
      · rw [List.mem_singleton] at hz
        subst hz
        simp only at *
        omega
    have hl' : l' = l0 ++ [(b, u')] :=
      sorted_eq hp (hso (by rw [List.append_nil]; exact hsorted0)) (apart_sorted (by omega) hap hlo)
    subst hl'
    refine ⟨rfl, _, hr', ?_, hty', hra', hap, hlo, ?_⟩
    · rw [List.map_append]
      exact each_append hE ⟨hmade', trivial⟩
    · intro l0' y' e
      have := (List.append_inj' e rfl).2
      simp only [List.cons.injEq, and_true] at this
      subst this
      rw [hlat, hlat0]
      simp only at *
      omega

theorem far_step {sim : R → R → Bool} {autoheal keep : Bool} {P B : Int} {T : Char} (hB : 0 ≤ B) (hP : B < P)
    {chain : List (Arrival R)}
    {gs : List (List (Arrival R))} {g : List (Arrival R)} {a x : Arrival R} {id id' : Source R}
    {l : List (Nat × Seg R)} {res : Option Nat} (st : State keep P B T chain (gs ++ [g ++ [a]]) id l)
    (hx : x ∈ chain) (hu : Uniform P B T x) (h1 : B < x.start - (a.stop + P))
    (ha : addToId sim autoheal keep id x = .ok (id', res)) :
    res.isSome = true ∧ ∃ l', State keep P B T chain (gs ++ [g ++ [a], [x]]) id' l' := by
  have st0 := st
  obtain ⟨L0, s, el, hE, hmade⟩ := each_snoc st.made
  obtain ⟨l0, ly, rfl, rfl, ely⟩ := List.map_eq_append_iff.1 el
  obtain ⟨y, ly', rfl, rfl, ely'⟩ := List.map_eq_cons_iff.1 ely
  have : ly' = [] := List.map_eq_nil_iff.1 ely'
  subst this
  have hstop := made_ends hmade
  obtain ⟨hb1, hb2⟩ := before_last (by omega) st.apart st.long
  have hper := hu.period
  have htol := hu.tol
  have hlong := hu.long
  obtain ⟨id2, res2, l', e, hr', stp, htr, _⟩ := addToId_step sim autoheal keep st.rep x
  rw [ha] at e
  cases e
  obtain ⟨hty', hsome⟩ := step_types stp hu.type st.types
  have hra' := step_rates stp hx st.rates
  have hlat := (htr hsome).latest
  have hlat0 := st.latest l0 y rfl
  have hyl := st.long y (by simp)
  have nop : ∀ u : Nat × Seg R, u ∈ l0 ++ [y] → ¬ Precedes sim x u.2 := by
    intro u hu' hp
    have := hp.1
    unfold fits at this
    simp only [decide_eq_true_eq] at this
    have := (hb2 u hu').1
    omega
  have nof : ∀ u : Nat × Seg R, u ∈ l0 ++ [y] → ¬ Follows sim x u.2 := by
    intro u hu' hp
    have := hp.1
    unfold fits at this
    simp only [decide_eq_true_eq] at this
    have := (hb2 u hu').2
    omega
  have hsorted : Sorted (l0 ++ [y]) := by
    refine List.Pairwise.imp_of_mem ?_ (apart_sorted (P := P) (B := B) (by omega) st.apart st.long)
    intro p q _ _ hpq
    refine Classical.byContradiction fun hn => ?_
    have := (behind_iff p.2 q.2).1 (by
      cases hb : behind p.2 q.2 with
      | true => rfl
      | false => exact absurd hb hn)
    omega
  generalize hl : l0 ++ [y] = l at *
  cases stp with
  | fail => exact absurd rfl hsome
  | half => exact absurd rfl hsome
  | front l1 l2 b u u' l' hf hm hp _ _ => exact absurd hf (nop (b, u) (by simp))
  | back l1 l2 b u u' l' hf hm hp _ _ => exact absurd hf (nof (b, u) (by simp))
  | join l m b u u' u'' c t l' _ _ hpre _ _ hp _ _ _ =>
    exact absurd hpre (nop (c, t) (hp.mem_iff.2 (by simp)))
  | new l u l' hm hp hso hnl _ =>
    have hmade' := made_new hm
    have hs1 := hmade'.start
    have hs2 := hmade'.stop
    simp only [List.head?_cons, List.getLast?_singleton, Option.map_some, Option.some.injEq] at hs1 hs2
    have hap : Apart P B (l ++ [(id.fresh, u)]) := by
      refine List.pairwise_append.2 ⟨st.apart, List.pairwise_singleton _ _, ?_⟩
      intro z hz w hw
      rw [List.mem_singleton] at hw
      subst hw
      have := (hb2 z hz).2
      simp only at *
      omega
    have hlo : ∀ z ∈ l ++ [(id.fresh, u)], z.2.start ≤ z.2.stop := by
      intro z hz
      rcases List.mem_append.1 hz with hz | hz
      · exact st.long z hz
      · rw [List.mem_singleton] at hz
        subst hz
        simp only at *
        omega
    have hl' : l' = l ++ [(id.fresh, u)] :=
      sorted_eq (hp.trans (List.perm_append_singleton _ _).symm) (hso hsorted) (apart_sorted (by omega) hap hlo)
    subst hl'
    refine ⟨rfl, _, hr', ?_, hty', hra', hap, hlo, ?_⟩
    · rw [List.map_append, show gs ++ [g ++ [a], [x]] = (gs ++ [g ++ [a]]) ++ [[x]] by simp]
      exact each_append st0.made ⟨hmade', trivial⟩
    · intro l0' y' e
      have := (List.append_inj' e rfl).2
      simp only [List.cons.injEq, and_true] at this
      subst this
      rw [hlat, hlat0]
      simp only at *
      omega

/-- A history of more than one record ends with an addition. -/
theorem reached_snoc {sim : R → R → Bool} {autoheal keep : Bool} {hist : List (Arrival R × Bool)} {id : Source R}
    (h : Reached sim autoheal keep hist id) {l : List (Arrival R)} {x : Arrival R} (hl : l ≠ [])
    (hm : hist.map Prod.fst = l ++ [x]) :
    ∃ hist0 id0 res, hist = hist0 ++ [(x, res.isSome)] ∧ Reached sim autoheal keep hist0 id0 ∧
      hist0.map Prod.fst = l ∧ addToId sim autoheal keep id0 x = .ok (id, res) := by
  cases h with
  | new r id hn =>
    cases l with
    | nil => exact absurd rfl hl
    | cons y t => simp at hm
  | add hist id r id' res hre ha =>
    rw [List.map_append] at hm
    obtain ⟨e1, e2⟩ := List.append_inj' hm rfl
    simp only [List.map_cons, List.map_nil, List.cons.injEq, and_true] at e2
    subst e2
    exact ⟨hist, id, res, rfl, hre, e1, ha⟩

theorem runs_state {sim : R → R → Bool} {autoheal keep : Bool} {P B : Int} {T : Char} (hB : 0 ≤ B) (hP : B < P)
    {chain : List (Arrival R)} (hsim : ∀ a ∈ chain, ∀ b ∈ chain, sim a.rate b.rate = true)
    (hu : ∀ r ∈ chain, Uniform P B T r) {gs : List (List (Arrival R))} (hg : Runs P B gs)
    {hist : List (Arrival R × Bool)} {id : Source R} (h : Reached sim autoheal keep hist id)
    (hm : hist.map Prod.fst = gs.flatten) (hsub : ∀ x ∈ hist, x.1 ∈ chain) :
    (∀ x ∈ hist, x.2 = true) ∧ ∃ l, State keep P B T chain gs id l := by
  induction hg generalizing hist id with
  | first x =>
    cases h with
    | new r id hn =>
      have e : r = x := by simpa using hm
      subst e
      obtain ⟨s, hms, hr, _, _, _, hlat⟩ := newId_rep keep r id hn
      have hrc : r ∈ chain := hsub (r, true) (by simp)
      obtain ⟨s1, e1, e2⟩ := msr2seg_type (keep := keep) (hu r hrc).type
      rw [hms] at e1
      cases e1
      have hmade := made_new hms
      have hst := hmade.start
      have hsp := hmade.stop
      simp only [List.head?_cons, List.getLast?_singleton, Option.map_some, Option.some.injEq] at hst hsp
      refine ⟨by simp, [(0, s)], hr, ⟨hmade, trivial⟩, types_cons e2 (fun y hy => by cases hy), ?_, ?_, ?_, ?_⟩
      · intro y hy
        simp only [List.mem_singleton] at hy
        subst hy
        refine ⟨r, hrc, ?_⟩
        unfold msr2seg at hms
        split at hms
        · cases hms
        · cases hms; rfl
      · exact List.pairwise_singleton _ _
      · intro y hy
        simp only [List.mem_singleton] at hy
        subst hy
        have := (hu r hrc).long
        simp only
        omega
      · intro l0 y e
        have := congrArg List.getLast? e
        simp only [List.getLast?_append, List.getLast?_singleton, Option.some_or, Option.some.injEq] at this
        rw [← this, hlat, hsp]
    | add hist id r id' res hre ha =>
      exfalso
      have hl := congrArg List.length hm
      simp only [List.map_append, List.length_append, List.length_map, List.length_cons, List.length_nil,
        List.flatten_cons, List.flatten_nil] at hl
      cases hre with
      | new => simp at hl
      | add => simp at hl
  | near gs g a x hg h1 h2 ih =>
    obtain ⟨hist0, id0, res, rfl, hre, hm0, ha⟩ := reached_snoc h (l := (gs ++ [g ++ [a]]).flatten) (by simp)
      (x := x) (by rw [hm]; simp)
    obtain ⟨hall, l, st⟩ := ih hre hm0 fun y hy => hsub y (by simp [hy])
    have hx := hsub (x, res.isSome) (by simp)
    obtain ⟨hres, hst⟩ := near_step hB hP hsim st hx (hu x hx) h1 h2 ha
    refine ⟨fun y hy => ?_, hst⟩
    rcases List.mem_append.1 hy with hy | hy
    · exact hall y hy
    · rw [List.mem_singleton] at hy
      subst hy
      exact hres
  | far gs g a x hg h1 ih =>
    obtain ⟨hist0, id0, res, rfl, hre, hm0, ha⟩ := reached_snoc h (l := (gs ++ [g ++ [a]]).flatten) (by simp)
      (x := x) (by rw [hm]; simp)
    obtain ⟨hall, l, st⟩ := ih hre hm0 fun y hy => hsub y (by simp [hy])
    have hx := hsub (x, res.isSome) (by simp)
    obtain ⟨hres, hst⟩ := far_step hB hP st hx (hu x hx) h1 ha
    refine ⟨fun y hy => ?_, hst⟩
    rcases List.mem_append.1 hy with hy | hy
    · exact hall y hy
    · rw [List.mem_singleton] at hy
      subst hy
      exact hres

end Verif.Proof.TraceRuns
