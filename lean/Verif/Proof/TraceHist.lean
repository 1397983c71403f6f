import Verif.Proof.Trace
import Verif.Props.TraceDefs
/-!
# Lemmas about histories of additions
-/
namespace Verif.Proof.Trace
open Verif.Model.Steim Verif.Model.Samples Verif.Model.Trace Verif.Props.Trace
open Verif.Proof.Mem

variable {R : Type}

/-! ## Lists -/

theorem links_get (h : Heap R) (l : List (Nat × Seg R)) : ∀ (p : Option Nat), Links h p l none →
    ∀ i a s, l[i]? = some (a, s) →
      h a = some ⟨s, (addrs l)[i + 1]?, if i = 0 then p else (addrs l)[i - 1]?⟩ := by
  induction l with
  | nil => intro p _ i a s h; simp at h
  | cons x t ih =>
    intro p hl i a s hi
    obtain ⟨b, u⟩ := x
    cases i with
    | zero =>
      simp only [List.getElem?_cons_zero, Option.some.injEq, Prod.mk.injEq] at hi
      obtain ⟨rfl, rfl⟩ := hi
      rw [hl.1]
      congr 2
      cases t with
      | nil => rfl
      | cons y v => rfl
    | succ i =>
      rw [List.getElem?_cons_succ] at hi
      rw [ih _ hl.2 i a s hi]
      congr 2
      cases i with
      | zero => simp
      | succ i => simp

theorem getLast?_addrs (l : List (Nat × Seg R)) : ∀ p, lastAddr l p =
    match (addrs l).getLast? with
    | some a => some a
    | none => p := by
  induction l with
  | nil => intro p; rfl
  | cons x t ih =>
    intro p
    simp only [lastAddr, ih, addrs_cons]
    rw [List.getLast?_cons]
    cases h : (addrs t).getLast? with
    | none => rfl
    | some a => rfl

theorem linked_of_rep {id : Source R} {l : List (Nat × Seg R)} (r : Rep id l) : Linked id (addrs l) := by
  refine ⟨r.nodup, ?_, ?_, ?_, ?_, ?_⟩
  · have := r.first
    cases l with
    | nil => cases this
    | cons x t => exact this
  · have := r.last
    rw [getLast?_addrs] at this
    cases h : (addrs l).getLast? with
    | none => rw [h] at this; cases this
    | some a => rw [h] at this; exact this
  · rw [r.count]; unfold addrs; rw [List.length_map]
  · intro i a hi
    unfold addrs at hi
    rw [List.getElem?_map] at hi
    cases hx : l[i]? with
    | none => rw [hx] at hi; cases hi
    | some x =>
      rw [hx] at hi
      obtain ⟨b, s⟩ := x
      cases hi
      rw [links_get _ _ _ r.links i b s hx]
      rfl
  · intro i a hi
    unfold addrs at hi
    rw [List.getElem?_map] at hi
    cases hx : l[i]? with
    | none => rw [hx] at hi; cases hi
    | some x =>
      rw [hx] at hi
      obtain ⟨b, s⟩ := x
      cases hi
      rw [links_get _ _ _ r.links i b s hx]
      rfl

theorem segments_of_rep {id : Source R} {l : List (Nat × Seg R)} (r : Rep id l) :
    segments id (addrs l) = l.map Prod.snd := by
  have h : ∀ m : List (Nat × Seg R), (∀ x ∈ m, x ∈ l) → segments id (addrs m) = m.map Prod.snd := by
    intro m
    induction m with
    | nil => intro _; rfl
    | cons x t ih =>
      intro hx
      obtain ⟨b, s⟩ := x
      obtain ⟨n, p, e⟩ := node_mem r (hx (b, s) (by simp))
      have ih' := ih fun y hy => hx y (List.mem_cons_of_mem _ hy)
      unfold segments at ih' ⊢
      rw [addrs_cons, List.filterMap_cons]
      have : segAt id b = some s := by unfold segAt; rw [e]; rfl
      simp only [this, ih', List.map_cons]
  exact h l fun _ h => h

theorem inOrder_iff (l : List (Nat × Seg R)) : InOrder (l.map Prod.snd) ↔ Sorted l := by
  unfold InOrder Sorted
  rw [List.pairwise_map]
  constructor
  · intro h; exact h.imp (fun {a b} h => (before_iff a.2 b.2).2 h)
  · intro h; exact h.imp (fun {a b} h => (before_iff a.2 b.2).1 h)

theorem newId_rep (keep : Bool) (r : Arrival R) (id : Source R) (h : newId keep r = some id) :
    ∃ s, msr2seg keep r = some s ∧ Rep id [(0, s)] ∧ id.sid = r.sid ∧ id.pub = r.pub ∧
      id.earliest = r.start ∧ id.latest = r.stop := by
  unfold newId at h
  cases hm : msr2seg keep r with
  | none => rw [hm] at h; cases h
  | some s =>
    rw [hm] at h
    cases h
    refine ⟨s, rfl, ⟨by simp, ⟨?_, trivial⟩, rfl, rfl, by simp, rfl, ?_⟩, rfl, rfl, rfl, rfl⟩
    · rfl
    · intro a ha
      simp only [addrs_cons, addrs_nil, List.mem_singleton] at ha
      exact if_neg ha

theorem segAt_iff {id : Source R} {l : List (Nat × Seg R)} (r : Rep id l) (a : Nat) (s : Seg R) :
    segAt id a = some s ↔ (a, s) ∈ l := by
  constructor
  · intro h
    have hm : a ∈ addrs l := by
      refine Classical.byContradiction fun hn => ?_
      unfold segAt at h
      rw [r.only a hn] at h
      cases h
    obtain ⟨⟨b, t⟩, hy, e⟩ := List.mem_map.1 hm
    simp only at e
    subst e
    obtain ⟨n, p, hc⟩ := node_mem r hy
    unfold segAt at h
    rw [hc] at h
    cases h
    exact hy
  · intro h
    obtain ⟨n, p, hc⟩ := node_mem r h
    unfold segAt
    rw [hc]
    rfl

theorem segAt_none {id : Source R} {l : List (Nat × Seg R)} (r : Rep id l) (a : Nat) :
    segAt id a = none ↔ a ∉ addrs l := by
  constructor
  · intro h hm
    obtain ⟨⟨b, t⟩, hy, e⟩ := List.mem_map.1 hm
    simp only at e
    subst e
    rw [(segAt_iff r b t).2 hy] at h
    cases h
  · intro h
    unfold segAt
    rw [r.only a h]
    rfl

/-! ## Chains of records -/

theorem adjacent_append {α : Type} (P : α → α → Prop) (l m : List α) (hl : Adjacent P l)
    (hm : Adjacent P m) (h : ∀ a b, l.getLast? = some a → m.head? = some b → P a b) :
    Adjacent P (l ++ m) := by
  induction l with
  | nil => exact hm
  | cons x t ih =>
    cases t with
    | nil =>
      cases m with
      | nil => trivial
      | cons y u => exact ⟨h x y rfl rfl, hm⟩
    | cons z u =>
      refine ⟨hl.1, ih hl.2 ?_⟩
      intro a b ha hb
      exact h a b (by rw [List.getLast?_cons_cons]; exact ha) hb

theorem sum_perm {l m : List Int} (h : l.Perm m) : l.sum = m.sum := by
  induction h with
  | nil => rfl
  | cons x _ ih => simp only [List.sum_cons, ih]
  | swap x y l => simp only [List.sum_cons]; omega
  | trans _ _ h1 h2 => exact h1.trans h2

theorem made_new {keep : Bool} {x : Arrival R} {s : Seg R} (h : msr2seg keep x = some s) :
    Made keep [x] s := by
  unfold msr2seg at h
  split at h
  · cases h
  · cases h
    exact ⟨rfl, rfl, by simp, by simp, trivial, rfl⟩

theorem made_back {sim : R → R → Bool} {keep : Bool} {x : Arrival R} {s s' : Seg R}
    {rs : List (Arrival R)} (hm : Made keep rs s) (hf : Follows sim x s)
    (h : addMsrToSeg keep s x true = some s') : Made keep (rs ++ [x]) s' := by
  have h1 := hm.stop
  unfold addMsrToSeg at h
  split at h
  · cases h
  · split at h
    · cases h
    · simp only [if_true, Option.some.injEq] at h
      subst h
      refine ⟨?_, ?_, ?_, ?_, ?_, ?_⟩
      · have := hm.start
        cases rs with
        | nil => cases this
        | cons y t => exact this
      · simp
      · simp only [List.map_append, List.sum_append, hm.samplecnt]; simp
      · simp only [List.flatMap_append, hm.data]; simp
      · refine adjacent_append _ _ _ hm.near trivial ?_
        intro a b ha hb
        simp only [List.head?_cons, Option.some.injEq] at hb
        subst hb
        rw [ha] at h1
        simp only [Option.map_some, Option.some.injEq] at h1
        have hg := hf.1
        unfold fits at hg
        simp only [decide_eq_true_eq] at hg
        rw [← h1] at hg
        exact ⟨x, Or.inr rfl, hg.1, hg.2⟩
      · simp only [hm.records]
        cases keep <;> simp

theorem made_front {sim : R → R → Bool} {keep : Bool} {x : Arrival R} {s s' : Seg R}
    {rs : List (Arrival R)} (hm : Made keep rs s) (hf : Precedes sim x s)
    (h : addMsrToSeg keep s x false = some s') : Made keep (x :: rs) s' := by
  have h1 := hm.start
  unfold addMsrToSeg at h
  split at h
  · cases h
  · split at h
    · cases h
    · simp only [Bool.false_eq_true, if_false, Option.some.injEq] at h
      subst h
      refine ⟨rfl, ?_, ?_, ?_, ?_, ?_⟩
      · have := hm.stop
        cases rs with
        | nil => cases this
        | cons y t => rw [List.getLast?_cons_cons]; exact this
      · simp only [List.map_cons, List.sum_cons, hm.samplecnt]; omega
      · simp only [List.flatMap_cons, hm.data]
      · refine adjacent_append _ [x] _ trivial hm.near ?_
        intro a b ha hb
        simp only [List.getLast?_singleton, Option.some.injEq] at ha
        subst ha
        rw [hb] at h1
        simp only [Option.map_some, Option.some.injEq] at h1
        have hg := hf.1
        unfold fits at hg
        simp only [decide_eq_true_eq] at hg
        rw [← h1] at hg
        exact ⟨x, Or.inl rfl, hg.1, hg.2⟩
      · simp only [hm.records]
        cases keep <;> simp

theorem made_join {sim : R → R → Bool} {keep : Bool} {x : Arrival R} {s t s'' : Seg R}
    {rs ts : List (Arrival R)} (hs : Made keep (rs ++ [x]) s) (ht : Made keep ts t)
    (hp : Precedes sim x t) (h : addSegToSeg s t = some s'') : Made keep (rs ++ [x] ++ ts) s'' := by
  have h1 := ht.start
  have h2 := ht.stop
  unfold addSegToSeg at h
  split at h
  · cases h
  · split at h
    · cases h
    · cases h
      refine ⟨?_, ?_, ?_, ?_, ?_, ?_⟩
      · have := hs.start
        cases rs with
        | nil => exact this
        | cons y t => exact this
      · rw [List.getLast?_append]
        cases hl : ts.getLast? with
        | none => rw [hl] at h2; cases h2
        | some z => rw [hl] at h2; exact h2
      · have e1 := hs.samplecnt
        have e2 := ht.samplecnt
        simp only [List.map_append, List.sum_append] at e1 e2 ⊢
        simp only [e1, e2]
      · have e1 := hs.data
        have e2 := ht.data
        rw [List.flatMap_append, ← e1, ← e2]
      · refine adjacent_append _ _ _ hs.near ht.near ?_
        intro a b ha hb
        simp only [List.getLast?_append, List.getLast?_singleton, Option.some_or,
          Option.some.injEq] at ha
        subst ha
        rw [hb] at h1
        simp only [Option.map_some, Option.some.injEq] at h1
        have hg := hp.1
        unfold fits at hg
        simp only [decide_eq_true_eq] at hg
        rw [← h1] at hg
        exact ⟨x, Or.inl rfl, hg.1, hg.2⟩
      · simp only [hs.records, ht.records]
        cases keep <;> simp

/-! ## The record lists of the segments, by address -/

/-- The records in the segments. -/
def records (g : Nat → List (Arrival R)) (l : List (Nat × Seg R)) : List (Arrival R) :=
  l.flatMap fun y => g y.1

theorem records_congr (g g' : Nat → List (Arrival R)) (l : List (Nat × Seg R))
    (h : ∀ a ∈ addrs l, g' a = g a) : records g' l = records g l := by
  induction l with
  | nil => rfl
  | cons x t ih =>
    unfold records at ih ⊢
    rw [List.flatMap_cons, List.flatMap_cons, ih fun a ha => h a (by simp [ha]), h x.1 (by simp)]

def update (g : Nat → List (Arrival R)) (a : Nat) (v : List (Arrival R)) : Nat → List (Arrival R) :=
  fun b => if b = a then v else g b

theorem update_same (g : Nat → List (Arrival R)) (a : Nat) (v : List (Arrival R)) :
    update g a v a = v := if_pos rfl

theorem update_other (g : Nat → List (Arrival R)) {a b : Nat} (v : List (Arrival R)) (h : b ≠ a) :
    update g a v b = g b := if_neg h

/-- The segments are chains of records, and hold the records `added`. -/
def Holds (keep : Bool) (g : Nat → List (Arrival R)) (l : List (Nat × Seg R))
    (added : List (Arrival R)) : Prop :=
  (∀ y ∈ l, Made keep (g y.1) y.2) ∧ (records g l).Perm added

theorem Holds.perm {keep : Bool} {g : Nat → List (Arrival R)} {l l' : List (Nat × Seg R)}
    {added : List (Arrival R)} (h : Holds keep g l added) (p : l'.Perm l) : Holds keep g l' added :=
  ⟨fun y hy => h.1 y (p.mem_iff.1 hy), (p.flatMap_right _).trans h.2⟩

theorem holds_update {keep : Bool} {g : Nat → List (Arrival R)} {m : List (Nat × Seg R)} {a : Nat}
    {s s' : Seg R} {added new : List (Arrival R)} (x : Arrival R)
    (h : Holds keep g ((a, s) :: m) added) (hn : a ∉ addrs m) (hmade : Made keep new s')
    (hp : new.Perm (x :: g a)) : Holds keep (update g a new) ((a, s') :: m) (x :: added) := by
  constructor
  · intro y hy
    rcases List.mem_cons.1 hy with hy | hy
    · subst hy; simp only; rw [update_same]; exact hmade
    · have : y.1 ∈ addrs m := List.mem_map.2 ⟨y, hy, rfl⟩
      rw [update_other _ _ (by intro e; rw [e] at this; exact hn this)]
      exact h.1 y (List.mem_cons_of_mem _ hy)
  · have e : records (update g a new) m = records g m := records_congr _ _ _ fun b hb =>
      update_other _ _ (by intro e; subst e; exact hn hb)
    unfold records at e ⊢
    rw [List.flatMap_cons, e, update_same]
    have h2 := h.2
    unfold records at h2
    rw [List.flatMap_cons] at h2
    exact (hp.append_right _).trans (h2.cons x)

theorem holds_join {keep : Bool} {g : Nat → List (Arrival R)} {m : List (Nat × Seg R)} {a c : Nat}
    {s t s' : Seg R} {added : List (Arrival R)} (x : Arrival R)
    (h : Holds keep g ((a, s) :: (c, t) :: m) added) (hn : a ∉ addrs m)
    (hmade : Made keep (g a ++ [x] ++ g c) s') :
    Holds keep (update g a (g a ++ [x] ++ g c)) ((a, s') :: m) (x :: added) := by
  constructor
  · intro y hy
    rcases List.mem_cons.1 hy with hy | hy
    · subst hy; simp only; rw [update_same]; exact hmade
    · have : y.1 ∈ addrs m := List.mem_map.2 ⟨y, hy, rfl⟩
      rw [update_other _ _ (by intro e; rw [e] at this; exact hn this)]
      exact h.1 y (List.mem_cons_of_mem _ (List.mem_cons_of_mem _ hy))
  · have e : records (update g a (g a ++ [x] ++ g c)) m = records g m := records_congr _ _ _ fun b hb =>
      update_other _ _ (by intro e; subst e; exact hn hb)
    unfold records at e ⊢
    rw [List.flatMap_cons, e, update_same]
    have h2 := h.2
    unfold records at h2
    rw [List.flatMap_cons, List.flatMap_cons] at h2
    simp only [List.append_assoc, List.singleton_append]
    exact List.perm_middle.trans (h2.cons x)

/-- One addition, in terms of the records in the segments. -/
theorem step_holds {sim : R → R → Bool} {autoheal keep : Bool} {id : Source R} {x : Arrival R}
    {l l' : List (Nat × Seg R)} {res : Option Nat} {added : List (Arrival R)}
    {g : Nat → List (Arrival R)} (st : Step sim autoheal keep id x l res l') (r : Rep id l)
    (h : Holds keep g l added) :
    ∃ g' added', Holds keep g' l' added' ∧ (added' = x :: added ∨ (added' = added ∧ res = none)) := by
  have hnd := r.nodup
  have hfr := fresh_not_mem r
  cases st with
  | fail _ _ => exact ⟨g, added, h, Or.inr ⟨rfl, rfl⟩⟩
  | half l1 l2 a s s' t hf hm _ _ =>
    have h' := h.perm List.perm_middle.symm
    have made := made_back (h.1 (a, s) (by simp)) hf hm
    obtain ⟨_, _, n1, n2, _⟩ := nodup_mid hnd
    refine ⟨_, _, (holds_update x h' (by simp [n1, n2]) made
      (List.perm_append_singleton _ _)).perm List.perm_middle, Or.inl rfl⟩
  | back l1 l2 a s s' l' hf hm hp _ _ =>
    have h' := h.perm List.perm_middle.symm
    have made := made_back (h.1 (a, s) (by simp)) hf hm
    obtain ⟨_, _, n1, n2, _⟩ := nodup_mid hnd
    refine ⟨_, _, (holds_update x h' (by simp [n1, n2]) made
      (List.perm_append_singleton _ _)).perm (hp.trans List.perm_middle), Or.inl rfl⟩
  | front l1 l2 a s s' l' hf hm hp _ _ =>
    have h' := h.perm List.perm_middle.symm
    have made := made_front (h.1 (a, s) (by simp)) hf hm
    obtain ⟨_, _, n1, n2, _⟩ := nodup_mid hnd
    refine ⟨_, _, (holds_update x h' (by simp [n1, n2]) made (List.Perm.refl _)).perm
      (hp.trans List.perm_middle), Or.inl rfl⟩
  | join l m a s s' s'' c t l' _ hf hpr hm hj hp hp' _ _ =>
    have h' := h.perm hp.symm
    have made := made_join (made_back (h'.1 (a, s) (by simp)) hf hm) (h'.1 (c, t) (by simp)) hpr hj
    have hnd' : (addrs ((a, s) :: (c, t) :: m)).Nodup := (hp.map Prod.fst).nodup hnd
    simp only [addrs_cons, List.nodup_cons, List.mem_cons, not_or] at hnd'
    exact ⟨_, _, (holds_join x h' hnd'.1.2 made).perm hp', Or.inl rfl⟩
  | new l s l' hm hp _ _ _ =>
    refine ⟨update g id.fresh [x], x :: added, Holds.perm ⟨?_, ?_⟩ hp, Or.inl rfl⟩
    · intro y hy
      rcases List.mem_cons.1 hy with hy | hy
      · subst hy; simp only; rw [update_same]; exact made_new hm
      · have : y.1 ∈ addrs l := List.mem_map.2 ⟨y, hy, rfl⟩
        rw [update_other _ _ (by intro e; rw [e] at this; exact hfr this)]
        exact h.1 y hy
    · have e : records (update g id.fresh [x]) l = records g l := records_congr _ _ _ fun b hb =>
        update_other _ _ (by intro e; subst e; exact hfr hb)
      unfold records at e ⊢
      rw [List.flatMap_cons, e, update_same]
      exact h.2.cons x

/-! ## Histories -/

theorem accepted_append (h : List (Arrival R × Bool)) (x : Arrival R) (b : Bool) :
    accepted (h ++ [(x, b)]) = accepted h ++ if b then [x] else [] := by
  unfold accepted
  cases b <;> simp

/-- What holds after every history. -/
theorem reached_inv {sim : R → R → Bool} {autoheal keep : Bool} {hist : List (Arrival R × Bool)}
    {id : Source R} (h : Reached sim autoheal keep hist id) :
    ∃ l g added, Rep id l ∧ Holds keep g l added ∧
      (∃ sub, added.Perm sub ∧ (accepted hist).Sublist sub ∧ sub.Sublist (hist.map Prod.fst)) ∧
      ((∀ x ∈ hist, x.2 = true) → Sorted l) := by
  induction h with
  | new r id hn =>
    obtain ⟨s, hm, hr, _⟩ := newId_rep keep r id hn
    refine ⟨[(0, s)], fun _ => [r], [r], hr, ⟨?_, ?_⟩, ⟨[r], List.Perm.refl _, ?_, ?_⟩, ?_⟩
    · intro y hy
      simp only [List.mem_singleton] at hy
      subst hy
      exact made_new hm
    · simp [records]
    · simp [accepted]
    · simp
    · intro _
      unfold Sorted
      exact List.pairwise_singleton _ _
  | add hist id x id' res _ ha ih =>
    obtain ⟨l, g, added, hr, hh, ⟨sub, p1, p2, p3⟩, hso⟩ := ih
    obtain ⟨id2, res2, l', e, hr', st, _⟩ := addToId_step sim autoheal keep hr x
    rw [ha] at e
    cases e
    obtain ⟨g', added', hh', hcase⟩ := step_holds st hr hh
    refine ⟨l', g', added', hr', hh', ?_, ?_⟩
    · rcases hcase with hc | ⟨hc, hn⟩
      · refine ⟨sub ++ [x], ?_, ?_, ?_⟩
        · rw [hc]
          exact (p1.cons x).trans (List.perm_append_singleton _ _).symm
        · rw [accepted_append]
          refine p2.append ?_
          cases res.isSome <;> simp
        · rw [List.map_append]
          exact p3.append (List.Sublist.refl _)
      · refine ⟨sub, by rw [hc]; exact p1, ?_, ?_⟩
        · rw [accepted_append, hn]
          simpa using p2
        · rw [List.map_append]
          exact p3.trans (List.sublist_append_left _ _)
    · intro hall
      have h1 := hso fun y hy => hall y (List.mem_append.2 (Or.inl hy))
      have h2 : res.isSome = true := hall (x, res.isSome) (by simp)
      cases st with
      | fail => cases h2
      | half => cases h2
      | back l1 l2 a s s' l' _ _ _ hs _ =>
        exact hs (h1.sublist (List.Sublist.append_left (List.sublist_cons_self _ _) _))
      | front l1 l2 a s s' l' _ _ _ hs _ =>
        exact hs (h1.sublist (List.Sublist.append_left (List.sublist_cons_self _ _) _))
      | join _ _ _ _ _ _ _ _ _ _ _ _ _ _ _ _ hs hs2 => exact hs (hs2 h1)
      | new _ _ _ _ _ hs _ _ => exact hs h1

/-- The bookkeeping after every history. -/
theorem reached_tracked {sim : R → R → Bool} {autoheal keep : Bool} {hist : List (Arrival R × Bool)}
    {id : Source R} (h : Reached sim autoheal keep hist id) :
    ((∀ r ∈ accepted hist, id.earliest ≤ r.start) ∧ ∃ r ∈ accepted hist, id.earliest = r.start) ∧
    ((∀ r ∈ accepted hist, r.stop ≤ id.latest) ∧ ∃ r ∈ accepted hist, id.latest = r.stop) ∧
    ((∀ r ∈ accepted hist, r.pub ≤ id.pub) ∧ ∃ r ∈ accepted hist, id.pub = r.pub) := by
  induction h with
  | new r id hn =>
    obtain ⟨s, hm, hr, _, e1, e2, e3⟩ := newId_rep keep r id hn
    simp [accepted, e1, e2, e3]
  | add hist id x id' res hre ha ih =>
    obtain ⟨l, g, added, hr, _⟩ := reached_inv hre
    obtain ⟨id2, res2, l', e, hr', _, ht, hs⟩ := addToId_step sim autoheal keep hr x
    rw [ha] at e
    cases e
    rw [accepted_append]
    obtain ⟨⟨i1, r1, m1, i2⟩, ⟨i3, r2, m2, i4⟩, i5, r3, m3, i6⟩ := ih
    cases res with
    | none =>
      have hs := hs rfl
      simp only [Option.isSome_none, Bool.false_eq_true, if_false, List.append_nil, hs.earliest,
        hs.latest, hs.pub]
      exact ⟨⟨i1, r1, m1, i2⟩, ⟨i3, r2, m2, i4⟩, i5, r3, m3, i6⟩
    | some a =>
      have ht := ht (by simp)
      simp only [Option.isSome_some, if_true, ht.earliest, ht.latest, ht.pub]
      have split : ∀ {P : Arrival R → Prop}, (∀ r ∈ accepted hist, P r) → P x →
          ∀ r ∈ accepted hist ++ [x], P r := by
        intro P h1 h2 r hr
        rcases List.mem_append.1 hr with h | h
        · exact h1 r h
        · simp only [List.mem_singleton] at h; subst h; exact h2
      refine ⟨⟨split (fun r hr => ?_) ?_, ?_⟩, ⟨split (fun r hr => ?_) ?_, ?_⟩,
        split (fun r hr => ?_) ?_, ?_⟩
      · have := i1 r hr; omega
      · omega
      · by_cases hc : x.start < id.earliest
        · exact ⟨x, by simp, by omega⟩
        · exact ⟨r1, by simp [m1], by omega⟩
      · have := i3 r hr; omega
      · omega
      · by_cases hc : id.latest < x.stop
        · exact ⟨x, by simp, by omega⟩
        · exact ⟨r2, by simp [m2], by omega⟩
      · have := i5 r hr; omega
      · omega
      · by_cases hc : id.pub < x.pub
        · exact ⟨x, by simp, by omega⟩
        · exact ⟨r3, by simp [m3], by omega⟩

end Verif.Proof.Trace
