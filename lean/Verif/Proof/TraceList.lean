import Verif.Proof.TraceHist
import Verif.Props.TraceListDefs
/-!
# Lemmas on the skip list of sources
-/
namespace Verif.Proof.TraceList
open Verif.Model.Steim Verif.Model.Trace Verif.Model.TraceList Verif.Props.Trace
open Verif.Proof.Trace hiding Before
open Verif.Props.TraceList

variable {R : Type}

/-! ## Comparison -/

theorem strcmp_eq (s t : List UInt8) : strcmp s t = 0 ↔ s = t := by
  fun_induction strcmp s t <;> simp_all <;> (try split) <;> simp_all

theorem lt_irrefl (s : List UInt8) : ¬ s < s := List.lt_irrefl s

theorem lt_trans' {s t u : List UInt8} (h : s < t) (h' : t < u) : s < u := List.lt_trans h h'

theorem strcmp_lt (s t : List UInt8) : strcmp s t < 0 ↔ s < t := by
  fun_induction strcmp s t with
  | case1 => simp
  | case2 => simp
  | case3 => simp
  | case4 a s t ih => simp [List.cons_lt_cons_iff, ih]
  | case5 a s b t h h' => simp [List.cons_lt_cons_iff, h']
  | case6 a s b t h h' => simp [List.cons_lt_cons_iff, h, h']

theorem strcmp_gt (s t : List UInt8) : 0 < strcmp s t ↔ t < s := by
  fun_induction strcmp s t with
  | case1 => simp
  | case2 => simp
  | case3 => simp
  | case4 a s t ih => simp [List.cons_lt_cons_iff, ih]
  | case5 a s b t h h' =>
    simp only [List.cons_lt_cons_iff]
    have : ¬ b < a := fun h'' => absurd (UInt8.lt_trans h' h'') (UInt8.lt_irrefl _)
    simp [this, Ne.symm h]
  | case6 a s b t h h' =>
    have : b < a := by
      rcases UInt8.lt_or_lt_of_ne h with h | h
      · exact absurd h h'
      · exact h
    simp [List.cons_lt_cons_iff, this]

/-- What the comparison of an entry means. -/
theorem compareId_lt (s : Source R) (sid : List UInt8) (pub : Nat) : compareId s sid pub < 0 ↔
    s.sid < sid ∨ (s.sid = sid ∧ pub ≠ 0 ∧ s.pub < pub) := by
  unfold compareId
  have h1 := strcmp_lt s.sid sid
  have h2 := strcmp_eq s.sid sid
  have h3 := lt_irrefl sid
  simp only
  by_cases he : s.sid = sid
  · rw [he] at h1 h2 ⊢
    simp only [h2.2 rfl] at *
    by_cases hp : pub ≠ 0 ∧ s.pub ≠ pub
    · rw [if_pos ⟨trivial, hp⟩]
      split <;> rename_i hlt
      · simp only [Int.reduceNeg, Int.reduceLT, true_iff]; exact Or.inr ⟨trivial, hp.1, hlt⟩
      · simp [h3, hlt]
    · rw [if_neg (fun h => hp h.2)]
      simp only [Int.lt_irrefl, h3, true_and, false_or, false_iff, not_and]
      omega
  · rw [if_neg (fun h => he (h2.1 h.1)), h1]
    simp [he]

theorem compareId_eq (s : Source R) (sid : List UInt8) (pub : Nat) : compareId s sid pub = 0 ↔
    s.sid = sid ∧ (pub ≠ 0 → s.pub = pub) := by
  unfold compareId
  have h2 := strcmp_eq s.sid sid
  simp only
  by_cases he : s.sid = sid
  · rw [he] at h2 ⊢
    simp only [h2.2 rfl, true_and]
    by_cases hp : pub ≠ 0 ∧ s.pub ≠ pub
    · rw [if_pos hp]
      split
      · simp only [Int.reduceNeg, Int.reduceEq, false_iff]; intro h; exact hp.2 (h hp.1)
      · simp only [Int.reduceEq, false_iff]; intro h; exact hp.2 (h hp.1)
    · rw [if_neg hp]
      simp only [true_iff]
      intro h
      exact Decidable.byContradiction fun h' => hp ⟨h, h'⟩
  · rw [if_neg (fun h => he (h2.1 h.1)), h2]
    simp [he]

theorem compareId_gt (s : Source R) (sid : List UInt8) (pub : Nat) : 0 < compareId s sid pub ↔
    sid < s.sid ∨ (s.sid = sid ∧ pub ≠ 0 ∧ pub < s.pub) := by
  unfold compareId
  have h1 := strcmp_gt s.sid sid
  have h2 := strcmp_eq s.sid sid
  have h3 := lt_irrefl sid
  simp only
  by_cases he : s.sid = sid
  · rw [he] at h1 h2 ⊢
    simp only [h2.2 rfl] at *
    by_cases hp : pub ≠ 0 ∧ s.pub ≠ pub
    · rw [if_pos ⟨trivial, hp⟩]
      split <;> rename_i hlt
      · simp only [h3, true_and, false_or]; omega
      · simp only [h3, true_and, false_or]; omega
    · rw [if_neg (fun h => hp h.2)]
      simp only [Int.lt_irrefl, h3, true_and, false_or, false_iff, not_and]
      omega
  · rw [if_neg (fun h => he (h2.1 h.1)), h1]
    simp [he]

/-- The comparison follows the order of the list. -/
theorem compareId_mono {split : Bool} {s t : Source R} (h : Before split s t) (sid : List UInt8)
    {pub : Nat} (hs : split = false → pub = 0) :
    (compareId t sid pub < 0 → compareId s sid pub < 0) ∧
    (compareId t sid pub = 0 → compareId s sid pub ≤ 0) := by
  have e : compareId s sid pub ≤ 0 ↔ compareId s sid pub < 0 ∨ compareId s sid pub = 0 := by omega
  rw [e, compareId_lt, compareId_lt, compareId_eq, compareId_eq]
  unfold Before at h
  constructor
  · rintro (h1 | ⟨h1, h2, h3⟩)
    · left
      rcases h with h | ⟨_, h, _⟩
      · exact lt_trans' h h1
      · rw [h]; exact h1
    · rw [← h1]
      rcases h with h | ⟨_, h, h'⟩
      · exact Or.inl h
      · exact Or.inr ⟨h, h2, by omega⟩
  · rintro ⟨h1, h2⟩
    rw [← h1]
    rcases h with h | ⟨hsp, h, h'⟩
    · exact Or.inl (Or.inl h)
    · by_cases hp : pub = 0
      · exact Or.inr ⟨h, fun h => absurd hp h⟩
      · exact Or.inl (Or.inr ⟨h, hp, by have := h2 hp; omega⟩)

/-- Smaller, matching and greater entries. -/
theorem split3 {split : Bool} {sid : List UInt8} {pub : Nat} (hs : split = false → pub = 0) :
    ∀ {l : List (Nat × Source R)}, l.Pairwise (fun x y => Before split x.2 y.2) →
    ∃ l1 l0 l2, l = l1 ++ l0 ++ l2 ∧ (∀ x ∈ l1, compareId x.2 sid pub < 0) ∧
      (∀ x ∈ l0, compareId x.2 sid pub = 0) ∧ ∀ x ∈ l2, 0 < compareId x.2 sid pub := by
  intro l
  induction l with
  | nil => intro _; exact ⟨[], [], [], rfl, by simp, by simp, by simp⟩
  | cons x t ih =>
    intro hp
    obtain ⟨hx, ht⟩ := List.pairwise_cons.1 hp
    obtain ⟨l1, l0, l2, e, h1, h0, h2⟩ := ih ht
    have hmem : ∀ y, y ∈ l1 ∨ y ∈ l0 → Before split x.2 y.2 := by
      intro y hy
      refine hx y ?_
      rw [e]
      rcases hy with h | h <;> simp [h]
    rcases Int.lt_trichotomy (compareId x.2 sid pub) 0 with hc | hc | hc
    · refine ⟨x :: l1, l0, l2, by rw [e]; rfl, ?_, h0, h2⟩
      intro y hy
      rcases List.mem_cons.1 hy with rfl | hy
      · exact hc
      · exact h1 y hy
    · have : l1 = [] := by
        cases l1 with
        | nil => rfl
        | cons y u =>
          have := (compareId_mono (hmem y (Or.inl (by simp))) sid hs).1 (h1 y (by simp))
          omega
      subst this
      refine ⟨[], x :: l0, l2, by rw [e]; rfl, by simp, ?_, h2⟩
      intro y hy
      rcases List.mem_cons.1 hy with rfl | hy
      · exact hc
      · exact h0 y hy
    · have e1 : l1 = [] := by
        cases l1 with
        | nil => rfl
        | cons y u =>
          have := (compareId_mono (hmem y (Or.inl (by simp))) sid hs).1 (h1 y (by simp))
          omega
      have e0 : l0 = [] := by
        cases l0 with
        | nil => rfl
        | cons y u =>
          have := (compareId_mono (hmem y (Or.inr (by simp))) sid hs).2 (h0 y (by simp))
          omega
      subst e1 e0
      refine ⟨[], [], x :: l2, by rw [e]; rfl, by simp, by simp, ?_⟩
      intro y hy
      rcases List.mem_cons.1 hy with rfl | hy
      · exact hc
      · exact h2 y hy

/-! ## Heights -/

theorem flips_range (left height state : Nat) :
    height ≤ (flips left height state).1 ∧ (flips left height state).1 ≤ height + left := by
  induction left generalizing height state with
  | zero => exact ⟨Nat.le_refl _, Nat.le_refl _⟩
  | succ n ih =>
    unfold flips
    simp only
    split
    · have := ih (height + 1) (lcg state).1
      omega
    · simp only; omega

theorem randomHeight_range (state : Nat) :
    1 ≤ (randomHeight maxHeight state).1 ∧ (randomHeight maxHeight state).1 ≤ 8 := by
  have := flips_range (maxHeight - 1) 1 state
  unfold randomHeight
  unfold maxHeight at *
  omega

/-! ## Chains -/

/-- Following `next[i]` from `a` visits `l`. -/
def Chain (nx : Nat → Nat → Option Nat) (i : Nat) : Nat → List Nat → Prop
  | a, [] => nx a i = none
  | a, b :: t => nx a i = some b ∧ Chain nx i b t

def lastOf : Nat → List Nat → Nat
  | a, [] => a
  | _, b :: t => lastOf b t

theorem lastOf_snoc (a : Nat) (p : List Nat) (b : Nat) : lastOf a (p ++ [b]) = b := by
  induction p generalizing a with
  | nil => rfl
  | cons x t ih => exact ih x

theorem lastOf_mem (a : Nat) (p : List Nat) : lastOf a p ∈ a :: p := by
  induction p generalizing a with
  | nil => simp [lastOf]
  | cons x t ih => exact List.mem_cons_of_mem _ (ih x)

theorem chain_next {nx : Nat → Nat → Option Nat} {i : Nat} {a : Nat} {p d : List Nat}
    (h : Chain nx i a (p ++ d)) : nx (lastOf a p) i = d.head? := by
  induction p generalizing a with
  | nil =>
    cases d with
    | nil => exact h
    | cons b t => exact h.1
  | cons x t ih => exact ih h.2

theorem chain_congr {nx nx' : Nat → Nat → Option Nat} {i : Nat} {a : Nat} {p : List Nat}
    (h : Chain nx i a p) (e : ∀ x ∈ a :: p, nx' x i = nx x i) : Chain nx' i a p := by
  induction p generalizing a with
  | nil => exact (e a (by simp)).trans h
  | cons b t ih =>
    exact ⟨(e a (by simp)).trans h.1, ih h.2 fun x hx => e x (List.mem_cons_of_mem _ hx)⟩

theorem chain_insert {nx nx' : Nat → Nat → Option Nat} {i : Nat} {c a : Nat} {p d : List Nat}
    (h : Chain nx i c (p ++ d)) (hn : (c :: (p ++ d)).Nodup) (ha : a ∉ c :: (p ++ d))
    (e : ∀ x, nx' x i = if x = lastOf c p then some a else if x = a then nx (lastOf c p) i
      else nx x i) : Chain nx' i c (p ++ a :: d) := by
  induction p generalizing c with
  | nil =>
    have e : ∀ x, nx' x i = if x = c then some a else if x = a then nx c i else nx x i := e
    refine ⟨by rw [e c, if_pos rfl], ?_⟩
    have hac : a ≠ c := fun h => ha (by simp [h])
    have h1 : nx' a i = nx c i := by
      rw [e a, if_neg hac, if_pos rfl]
    cases d with
    | nil => exact h1.trans h
    | cons b t =>
      refine ⟨h1.trans h.1, chain_congr h.2 ?_⟩
      intro x hx
      have hxc : x ≠ c := fun h => (List.nodup_cons.1 hn).1 (h ▸ hx)
      have hxa : x ≠ a := fun h => ha (List.mem_cons_of_mem _ (h ▸ hx))
      rw [e x, if_neg hxc, if_neg hxa]
  | cons x t ih =>
    obtain ⟨hn1, hn2⟩ := List.nodup_cons.1 hn
    refine ⟨?_, ih h.2 hn2 (fun h => ha (List.mem_cons_of_mem _ h)) e⟩
    have hlast : lastOf c (x :: t) ∈ x :: t := lastOf_mem x t
    have h1 : c ≠ lastOf c (x :: t) := by
      intro h'
      apply hn1
      rw [h']
      exact List.mem_append.2 (Or.inl hlast)
    have h2 : c ≠ a := fun h => ha (by simp [h])
    rw [e c, if_neg h1, if_neg h2]
    exact h.1

/-! ## The skip list -/

/-- The entries reaching above level `i`. -/
def tower (hgt : Nat → Nat) (i : Nat) (l : List (Nat × Source R)) : List Nat :=
  (l.filter fun x => decide (i < hgt x.1)).map Prod.fst

theorem tower_append (hgt : Nat → Nat) (i : Nat) (l m : List (Nat × Source R)) :
    tower hgt i (l ++ m) = tower hgt i l ++ tower hgt i m := by
  simp [tower]

/-- `tl` holds the entries `l`, with heights `hgt`. -/
structure LRep (split : Bool) (tl : TraceList R) (l : List (Nat × Source R)) (hgt : Nat → Nat) :
    Prop where
  chain : ∀ i, i < 8 → Chain tl.next i 0 (tower hgt i l)
  here : ∀ x ∈ l, tl.sources x.1 = some x.2
  only : ∀ a, (tl.sources a).isSome = true → a ∈ l.map Prod.fst
  addr : ∀ x ∈ l, 0 < x.1 ∧ x.1 < tl.fresh ∧ 0 < hgt x.1
  nodup : (l.map Prod.fst).Nodup
  sorted : l.Pairwise fun x y => Before split x.2 y.2
  count : tl.numtraceids = l.length
  room : l.length < tl.fresh

theorem tower_sub (hgt : Nat → Nat) (i : Nat) (l : List (Nat × Source R)) :
    (tower hgt i l).Sublist (l.map Prod.fst) :=
  (List.filter_sublist).map _

theorem tower_zero {split : Bool} {tl : TraceList R} {l : List (Nat × Source R)} {hgt : Nat → Nat}
    (h : LRep split tl l hgt) : tower hgt 0 l = l.map Prod.fst := by
  unfold tower
  rw [List.filter_eq_self.2]
  intro x hx
  simpa using (h.addr x hx).2.2

/-- The step of the search at one level. -/
theorem findLoop_rep {split : Bool} {tl : TraceList R} {l l1 l0 l2 : List (Nat × Source R)}
    {hgt : Nat → Nat} (h : LRep split tl l hgt) {sid : List UInt8} {pub : Nat}
    (hl : l = l1 ++ l0 ++ l2) (h1 : ∀ x ∈ l1, compareId x.2 sid pub < 0)
    (h0 : ∀ x ∈ l0, compareId x.2 sid pub = 0) (h2 : ∀ x ∈ l2, 0 < compareId x.2 sid pub) :
    ∀ (fuel cur lv : Nat) (prev : Nat → Option Nat) (A C : List (Nat × Source R)),
    l1 = A ++ C → lv ≤ 8 →
    ((cur = 0 ∧ A = []) ∨ ∃ A' s, A = A' ++ [(cur, s)] ∧ lv ≤ hgt cur) →
    lv + C.length < fuel →
    (∀ j, lv ≤ j → j < 8 → prev j = some (lastOf 0 (tower hgt j l1))) →
    (lv = 0 → l0 = []) →
    ∃ res prev', findLoop tl sid pub fuel cur lv prev = .ok (res, prev') ∧
      ((∃ b s, res = some b ∧ (b, s) ∈ l0) ∨
       (res = none ∧ l0 = [] ∧ ∀ j, j < 8 → prev' j = some (lastOf 0 (tower hgt j l1)))) := by
  intro fuel
  induction fuel with
  | zero => intro cur lv prev A C _ _ _ hf; omega
  | succ fuel ih =>
    intro cur lv prev A C hA hlv hpos hf hprev hz
    cases lv with
    | zero => exact ⟨none, prev, rfl, Or.inr ⟨rfl, hz rfl, fun j hj => hprev j (Nat.zero_le _) hj⟩⟩
    | succ lv =>
      -- the current entry is the last of those passed at this level
      have hcur : ∀ j, j ≤ lv → lastOf 0 (tower hgt j A) = cur := by
        intro j hj
        rcases hpos with ⟨e1, e2⟩ | ⟨A', s, e, hh⟩
        · rw [e1, e2]; rfl
        · rw [e, tower_append]
          have : tower hgt j [(cur, s)] = [cur] := by
            unfold tower
            rw [List.filter_cons_of_pos (by simp; omega)]
            rfl
          rw [this, lastOf_snoc]
      have halloc : cur = 0 ∨ (tl.sources cur).isSome = true := by
        rcases hpos with ⟨e1, e2⟩ | ⟨A', s, e, hh⟩
        · exact Or.inl e1
        · right
          rw [h.here (cur, s) (by rw [hl, hA, e]; simp)]
          rfl
      have hn : nextOf tl cur lv = .ok (tl.next cur lv) := by
        unfold nextOf
        rw [if_pos halloc]
      have hnext : tl.next cur lv = (tower hgt lv (C ++ l0 ++ l2)).head? := by
        have hc := h.chain lv (by omega)
        rw [hl, hA, List.append_assoc, List.append_assoc, tower_append] at hc
        rw [← hcur lv (Nat.le_refl _), List.append_assoc]
        exact chain_next hc
      unfold findLoop
      simp only [hn, Verif.Proof.Mem.bind_ok, hnext]
      generalize hpr : (fun i => if i = lv then some cur else prev i) = prev1
      have hdrop : tower hgt lv C = [] →
          ∀ j, lv ≤ j → j < 8 → prev1 j = some (lastOf 0 (tower hgt j l1)) := by
        intro hC j hj hj8
        rw [← hpr]
        simp only
        split
        · rename_i ej
          rw [ej, hA, tower_append, hC, List.append_nil, hcur lv (Nat.le_refl _)]
        · exact hprev j (by omega) hj8
      have hposd : (cur = 0 ∧ A = []) ∨ ∃ A' s, A = A' ++ [(cur, s)] ∧ lv ≤ hgt cur := by
        rcases hpos with hp | ⟨A', s, e, hh⟩
        · exact Or.inl hp
        · exact Or.inr ⟨A', s, e, by omega⟩
      have hzero : tower hgt lv l0 = [] → lv = 0 → l0 = [] := by
        intro ht hlv0
        cases l0 with
        | nil => rfl
        | cons x t =>
          have hx : 0 < hgt x.1 := (h.addr x (by rw [hl]; simp)).2.2
          unfold tower at ht
          rw [List.filter_cons_of_pos (by simp; omega)] at ht
          cases ht
      -- the first entry of this level behind the current one
      cases hC : C.filter (fun x => decide (lv < hgt x.1)) with
      | cons b t =>
        obtain ⟨bb, bs⟩ := b
        obtain ⟨C1, C2, eC, hC1, hb, _⟩ := List.filter_eq_cons_iff.1 hC
        have hhead : (tower hgt lv (C ++ l0 ++ l2)).head? = some bb := by
          unfold tower
          rw [List.append_assoc, List.filter_append, hC]
          rfl
        rw [hhead]
        have hmem : (bb, bs) ∈ l1 := by rw [hA, eC]; simp
        have hsrc : source tl bb = .ok bs := by
          unfold source
          rw [h.here (bb, bs) (by rw [hl]; simp [hmem])]
        have hcmp := h1 (bb, bs) hmem
        simp only [hsrc, Verif.Proof.Mem.bind_ok]
        simp only at hcmp
        rw [if_neg (by omega), if_neg (by omega)]
        refine ih bb (lv + 1) prev1 (A ++ C1 ++ [(bb, bs)]) C2 (by rw [hA, eC]; simp) hlv
          (Or.inr ⟨A ++ C1, bs, rfl, (of_decide_eq_true hb : lv < hgt bb)⟩) ?_ ?_ (by omega)
        · rw [eC] at hf
          simp at hf
          omega
        · intro j hj hj8
          rw [← hpr]
          simp only
          rw [if_neg (by omega)]
          exact hprev j hj hj8
      | nil =>
        have htC : tower hgt lv C = [] := by unfold tower; rw [hC]; rfl
        cases h0' : l0.filter (fun x => decide (lv < hgt x.1)) with
        | cons b t =>
          obtain ⟨bb, bs⟩ := b
          have hmem : (bb, bs) ∈ l0 := (List.mem_filter.1 (h0' ▸ List.mem_cons_self)).1
          have hhead : (tower hgt lv (C ++ l0 ++ l2)).head? = some bb := by
            unfold tower
            rw [List.append_assoc, List.filter_append, hC, List.filter_append, h0']
            rfl
          rw [hhead]
          have hsrc : source tl bb = .ok bs := by
            unfold source
            rw [h.here (bb, bs) (by rw [hl]; simp [hmem])]
          have hcmp := h0 (bb, bs) hmem
          simp only [hsrc, Verif.Proof.Mem.bind_ok]
          simp only at hcmp
          rw [if_pos hcmp]
          exact ⟨some bb, prev1, rfl, Or.inl ⟨bb, bs, rfl, hmem⟩⟩
        | nil =>
          have ht0 : tower hgt lv l0 = [] := by unfold tower; rw [h0']; rfl
          have hgo := ih cur lv prev1 A C hA (by omega) hposd (by omega) (hdrop htC) (hzero ht0)
          cases h2' : l2.filter (fun x => decide (lv < hgt x.1)) with
          | nil =>
            have hhead : (tower hgt lv (C ++ l0 ++ l2)).head? = none := by
              unfold tower
              rw [List.append_assoc, List.filter_append, hC, List.filter_append, h0', h2']
              rfl
            rw [hhead]
            exact hgo
          | cons b t =>
            obtain ⟨bb, bs⟩ := b
            have hmem : (bb, bs) ∈ l2 := (List.mem_filter.1 (h2' ▸ List.mem_cons_self)).1
            have hhead : (tower hgt lv (C ++ l0 ++ l2)).head? = some bb := by
              unfold tower
              rw [List.append_assoc, List.filter_append, hC, List.filter_append, h0', h2']
              rfl
            rw [hhead]
            have hsrc : source tl bb = .ok bs := by
              unfold source
              rw [h.here (bb, bs) (by rw [hl]; simp [hmem])]
            have hcmp := h2 (bb, bs) hmem
            simp only [hsrc, Verif.Proof.Mem.bind_ok]
            simp only at hcmp
            rw [if_neg (by omega), if_pos hcmp]
            exact hgo

theorem findID_rep {split : Bool} {tl : TraceList R} {l l1 l0 l2 : List (Nat × Source R)}
    {hgt : Nat → Nat} (h : LRep split tl l hgt) {sid : List UInt8} {pub : Nat}
    (hl : l = l1 ++ l0 ++ l2) (h1 : ∀ x ∈ l1, compareId x.2 sid pub < 0)
    (h0 : ∀ x ∈ l0, compareId x.2 sid pub = 0) (h2 : ∀ x ∈ l2, 0 < compareId x.2 sid pub) :
    ∃ res prev', findID tl sid pub = .ok (res, prev') ∧
      ((∃ b s, res = some b ∧ (b, s) ∈ l0) ∨
       (res = none ∧ l0 = [] ∧ ∀ j, j < 8 → prev' j = some (lastOf 0 (tower hgt j l1)))) := by
  refine findLoop_rep h hl h1 h0 h2 _ 0 maxHeight _ [] l1 rfl (Nat.le_refl _) (Or.inl ⟨rfl, rfl⟩) ?_
    ?_ ?_
  · have := h.room
    rw [hl] at this
    simp at this
    unfold maxHeight
    omega
  · intro j hj hj8
    unfold maxHeight at hj
    omega
  · intro h'; cases h'

/-- Connecting a new entry. -/
theorem connect_ok (a : Nat) (prev : Nat → Option Nat) (n : Nat) : ∀ (tl : TraceList R),
    (∀ i, i < n → ∃ p, prev i = some p ∧ p ≠ a ∧ (p = 0 ∨ (tl.sources p).isSome = true)) →
    ∃ tl', connect tl a prev n = .ok (some tl') ∧ tl'.sources = tl.sources ∧
      tl'.numtraceids = tl.numtraceids ∧ tl'.fresh = tl.fresh ∧
      (∀ i, n ≤ i → ∀ x, tl'.next x i = tl.next x i) ∧
      (∀ i p, i < n → prev i = some p → ∀ x, tl'.next x i =
        if x = p then some a else if x = a then tl.next p i else tl.next x i) := by
  induction n with
  | zero => intro tl _; exact ⟨tl, rfl, rfl, rfl, rfl, fun _ _ _ => rfl, fun i p hi => by omega⟩
  | succ n ih =>
    intro tl hp
    obtain ⟨p, e, hpa, halloc⟩ := hp n (by omega)
    unfold connect
    rw [e]
    simp only
    have hn : nextOf tl p n = .ok (tl.next p n) := by
      unfold nextOf
      rw [if_pos halloc]
    rw [hn, Verif.Proof.Mem.bind_ok]
    obtain ⟨tl', e1, e2, e3, e4, e5, e6⟩ := ih
      { tl with next := setLink (setLink tl.next a n (tl.next p n)) p n (some a) }
      (fun i hi => hp i (by omega))
    refine ⟨tl', e1, e2, e3, e4, ?_, ?_⟩
    · intro i hi x
      rw [e5 i (by omega) x]
      simp only [setLink]
      rw [if_neg (by omega), if_neg (by omega)]
    · intro i q hi hq x
      by_cases hin : i = n
      · subst hin
        rw [e] at hq
        cases hq
        rw [e5 i (Nat.le_refl _) x]
        simp only [setLink, and_true]
      · rw [e6 i q (by omega) hq x]
        simp only [setLink, hin, and_false, if_false]

/-- Adding a source. -/
theorem addID_rep {split : Bool} {tl : TraceList R} {l1 l2 : List (Nat × Source R)}
    {hgt : Nat → Nat} (h : LRep split tl (l1 ++ l2) hgt) {s : Source R} {prev : Nat → Option Nat}
    (hprev : ∀ j, j < 8 → prev j = some (lastOf 0 (tower hgt j l1)))
    (h1 : ∀ x ∈ l1, Before split x.2 s) (h2 : ∀ x ∈ l2, Before split s x.2) :
    ∃ tl' hgt', addID tl s prev = .ok (some (tl', tl.fresh)) ∧
      LRep split tl' (l1 ++ (tl.fresh, s) :: l2) hgt' := by
  have hr := randomHeight_range tl.prng
  unfold addID
  simp only
  generalize (randomHeight maxHeight tl.prng).2 = prng
  generalize (randomHeight maxHeight tl.prng).1 = n at hr
  have hfree : tl.fresh ∉ (l1 ++ l2).map Prod.fst := by
    intro hm
    obtain ⟨x, hx, e⟩ := List.mem_map.1 hm
    have := (h.addr x hx).2.1
    omega
  have hf0 : tl.fresh ≠ 0 := by have := h.room; omega
  have hpm : ∀ i, lastOf 0 (tower hgt i l1) = 0 ∨ lastOf 0 (tower hgt i l1) ∈ l1.map Prod.fst := by
    intro i
    rcases List.mem_cons.1 (lastOf_mem 0 (tower hgt i l1)) with h | h
    · exact Or.inl h
    · exact Or.inr ((tower_sub hgt i l1).subset h)
  have hpne : ∀ i, lastOf 0 (tower hgt i l1) ≠ tl.fresh := by
    intro i e
    rcases hpm i with h' | h'
    · omega
    · rw [e] at h'
      exact hfree (by simp [h'])
  obtain ⟨tl', e1, e2, e3, e4, e5, e6⟩ := connect_ok tl.fresh prev n
    { tl with sources := fun x => if x = tl.fresh then some s else tl.sources x,
              next := fun x i => if x = tl.fresh then none else tl.next x i,
              prng, fresh := tl.fresh + 1 } (by
      intro i hi
      refine ⟨_, hprev i (by omega), hpne i, ?_⟩
      rcases hpm i with h' | h'
      · exact Or.inl h'
      · right
        obtain ⟨x, hx, e⟩ := List.mem_map.1 h'
        simp only
        rw [if_neg (hpne i), ← e, h.here x (by simp [hx])]
        rfl)
  refine ⟨{ tl' with numtraceids := tl'.numtraceids + 1 },
    fun x => if x = tl.fresh then n else hgt x, ?_, ?_⟩
  · rw [e1, Verif.Proof.Mem.bind_ok]
  · -- towers of the new list
    have htow : ∀ i (m : List (Nat × Source R)), tl.fresh ∉ m.map Prod.fst →
        tower (fun x => if x = tl.fresh then n else hgt x) i m = tower hgt i m := by
      intro i m hm
      unfold tower
      congr 1
      apply List.filter_congr
      intro x hx
      have : x.1 ≠ tl.fresh := fun e => hm (List.mem_map.2 ⟨x, hx, e⟩)
      simp [this]
    have hf1 : tl.fresh ∉ l1.map Prod.fst := fun h => hfree (by simp [h])
    have hf2 : tl.fresh ∉ l2.map Prod.fst := fun h => hfree (by simp [h])
    constructor
    · intro i hi
      have hc := h.chain i hi
      rw [tower_append] at hc
      have hsub : ∀ x, x ∈ 0 :: (tower hgt i l1 ++ tower hgt i l2) → x ≠ tl.fresh := by
        intro x hx e
        rcases List.mem_cons.1 hx with h' | h'
        · omega
        · rw [e] at h'
          rcases List.mem_append.1 h' with h' | h'
          · exact hf1 ((tower_sub hgt i l1).subset h')
          · exact hf2 ((tower_sub hgt i l2).subset h')
      rw [tower_append, htow i l1 hf1]
      have hcons : tower (fun x => if x = tl.fresh then n else hgt x) i ((tl.fresh, s) :: l2)
          = if i < n then tl.fresh :: tower hgt i l2 else tower hgt i l2 := by
        rw [← htow i l2 hf2]
        unfold tower
        by_cases hin : i < n
        · rw [List.filter_cons_of_pos (by simp [hin]), if_pos hin]; rfl
        · rw [List.filter_cons_of_neg (by simp [hin]), if_neg hin]
      rw [hcons]
      by_cases hin : i < n
      · rw [if_pos hin]
        refine chain_insert hc ?_ (fun h' => hsub _ h' rfl) ?_
        · rw [List.nodup_cons, ← tower_append]
          refine ⟨?_, (tower_sub hgt i _).nodup h.nodup⟩
          intro h'
          obtain ⟨x, hx, e⟩ := List.mem_map.1 ((tower_sub hgt i _).subset h')
          have := (h.addr x hx).1
          omega
        · intro x
          have := e6 i _ hin (hprev i hi) x
          simp only at this ⊢
          rw [this, if_neg (hpne i)]
          split
          · rfl
          · split
            · rfl
            · rfl
      · rw [if_neg hin]
        refine chain_congr hc ?_
        intro x hx
        have := e5 i (by omega) x
        simp only at this ⊢
        rw [this, if_neg (hsub x hx)]
    · intro x hx
      simp only [e2]
      rcases List.mem_append.1 hx with hx | hx
      · rw [if_neg (fun e => hf1 (List.mem_map.2 ⟨x, hx, e⟩))]
        exact h.here x (by simp [hx])
      · rcases List.mem_cons.1 hx with rfl | hx
        · simp
        · rw [if_neg (fun e => hf2 (List.mem_map.2 ⟨x, hx, e⟩))]
          exact h.here x (by simp [hx])
    · intro a ha
      simp only [e2] at ha
      by_cases hfa : a = tl.fresh
      · subst hfa; simp
      · rw [if_neg hfa] at ha
        have := h.only a ha
        simp only [List.map_append, List.mem_append, List.map_cons, List.mem_cons] at this ⊢
        rcases this with h' | h'
        · exact Or.inl h'
        · exact Or.inr (Or.inr h')
    · intro x hx
      simp only [e4]
      rcases List.mem_append.1 hx with hx | hx
      · have := h.addr x (by simp [hx])
        rw [if_neg (by omega)]
        omega
      · rcases List.mem_cons.1 hx with rfl | hx
        · simp; omega
        · have := h.addr x (by simp [hx])
          rw [if_neg (by omega)]
          omega
    · have := h.nodup
      rw [List.map_append, List.map_cons]
      rw [List.map_append] at this hfree
      exact (List.perm_middle.nodup_iff).2 (List.nodup_cons.2 ⟨hfree, this⟩)
    · have := h.sorted
      rw [List.pairwise_append] at this ⊢
      obtain ⟨p1, p2, p3⟩ := this
      refine ⟨p1, List.pairwise_cons.2 ⟨h2, p2⟩, ?_⟩
      intro x hx y hy
      rcases List.mem_cons.1 hy with rfl | hy
      · exact h1 x hx
      · exact p3 x hx y hy
    · have := h.count
      simp only [e3, this, List.length_append, List.length_cons]
      omega
    · have := h.room
      simp only [e4, List.length_append, List.length_cons] at this ⊢
      omega

/-- Replacing a source by one with the same key. -/
theorem update_rep {split : Bool} {tl : TraceList R} {l1 l2 : List (Nat × Source R)}
    {hgt : Nat → Nat} {a : Nat} {s s' : Source R} (h : LRep split tl (l1 ++ (a, s) :: l2) hgt)
    (hsid : s'.sid = s.sid) (hpub : split = true → s'.pub = s.pub) :
    LRep split { tl with sources := fun x => if x = a then some s' else tl.sources x }
      (l1 ++ (a, s') :: l2) hgt := by
  have hmap : (l1 ++ (a, s') :: l2).map Prod.fst = (l1 ++ (a, s) :: l2).map Prod.fst := by simp
  have hnd := h.nodup
  rw [List.map_append, List.map_cons, List.perm_middle.nodup_iff, List.nodup_cons] at hnd
  simp only [List.mem_append, not_or] at hnd
  have hbl : ∀ t : Source R, Before split t s ↔ Before split t s' := by
    intro t
    unfold Before
    rw [hsid]
    constructor <;> (rintro (h | ⟨h, h', h''⟩); exact Or.inl h; exact Or.inr ⟨h, h', by have := hpub h; omega⟩)
  have hbr : ∀ t : Source R, Before split s t ↔ Before split s' t := by
    intro t
    unfold Before
    rw [hsid]
    constructor <;> (rintro (h | ⟨h, h', h''⟩); exact Or.inl h; exact Or.inr ⟨h, h', by have := hpub h; omega⟩)
  constructor
  · intro i hi
    have := h.chain i hi
    have e : tower hgt i (l1 ++ (a, s') :: l2) = tower hgt i (l1 ++ (a, s) :: l2) := by
      rw [tower_append, tower_append]
      congr 1
      unfold tower
      by_cases hh : i < hgt a
      · rw [List.filter_cons_of_pos (by simp [hh]), List.filter_cons_of_pos (by simp [hh])]; rfl
      · rw [List.filter_cons_of_neg (by simp [hh]), List.filter_cons_of_neg (by simp [hh])]
    rw [e]
    exact this
  · intro x hx
    simp only
    rcases List.mem_append.1 hx with hx | hx
    · rw [if_neg (fun e => hnd.1.1 (List.mem_map.2 ⟨x, hx, e⟩))]
      exact h.here x (by simp [hx])
    · rcases List.mem_cons.1 hx with rfl | hx
      · simp
      · rw [if_neg (fun e => hnd.1.2 (List.mem_map.2 ⟨x, hx, e⟩))]
        exact h.here x (by simp [hx])
  · intro b hb
    simp only at hb
    rw [hmap]
    by_cases hba : b = a
    · subst hba; simp
    · rw [if_neg hba] at hb
      exact h.only b hb
  · intro x hx
    simp only
    rcases List.mem_append.1 hx with hx | hx
    · exact h.addr x (by simp [hx])
    · rcases List.mem_cons.1 hx with rfl | hx
      · exact h.addr (a, s) (by simp)
      · exact h.addr x (by simp [hx])
  · rw [hmap]; exact h.nodup
  · have := h.sorted
    rw [List.pairwise_append, List.pairwise_cons] at this ⊢
    obtain ⟨p1, ⟨p2, p2'⟩, p3⟩ := this
    refine ⟨p1, ⟨fun x hx => (hbr x.2).1 (p2 x hx), p2'⟩, ?_⟩
    intro x hx y hy
    rcases List.mem_cons.1 hy with rfl | hy
    · exact (hbl x.2).1 (p3 x hx (a, s) (by simp))
    · exact p3 x hx y (List.mem_cons_of_mem _ hy)
  · have := h.count
    simpa using this
  · have := h.room
    simpa using this

/-- The record belongs to this entry as far as the search is concerned. -/
def Matches (split : Bool) (r : Arrival R) (s : Source R) : Prop :=
  s.sid = r.sid ∧ (split = true → r.pub ≠ 0 → s.pub = r.pub)

theorem matches_iff (split : Bool) (r : Arrival R) (s : Source R) :
    compareId s r.sid (if split then r.pub else 0) = 0 ↔ Matches split r s := by
  rw [compareId_eq]
  unfold Matches
  cases split <;> simp

theorem newId_key {keep : Bool} {r : Arrival R} {s : Source R} (h : newId keep r = some s) :
    s.sid = r.sid ∧ s.pub = r.pub := by
  unfold newId at h
  split at h
  · cases h
  · cases h; exact ⟨rfl, rfl⟩

theorem addMsr_step {sim : R → R → Bool} {split autoheal keep : Bool} {tl : TraceList R}
    {l : List (Nat × Source R)} {hgt : Nat → Nat} (h : LRep split tl l hgt)
    (hre : ∀ x ∈ l, ∃ hist, Reached sim autoheal keep hist x.2) (r : Arrival R) :
    ∃ tl' res l' hgt', addMsr sim split autoheal keep tl r = .ok (tl', res) ∧
      LRep split tl' l' hgt' ∧
      ((∃ l1 l2 s, l = l1 ++ l2 ∧ l' = l1 ++ (tl.fresh, s) :: l2 ∧ newId keep r = some s ∧
          res = some (tl.fresh, 0) ∧ ∀ x ∈ l, ¬ Matches split r x.2) ∨
       (newId keep r = none ∧ l' = l ∧ res = none ∧ ∀ x ∈ l, ¬ Matches split r x.2) ∨
       (∃ l1 l2 a s s' seg, l = l1 ++ (a, s) :: l2 ∧ l' = l1 ++ (a, s') :: l2 ∧
          addToId sim autoheal keep s r = .ok (s', seg) ∧ res = seg.map (fun g => (a, g)) ∧
          Matches split r s ∧ s'.sid = s.sid ∧ (split = true → s'.pub = s.pub))) := by
  obtain ⟨l1, l0, l2, e, h1, h0, h2⟩ := split3 (sid := r.sid) (pub := if split then r.pub else 0)
    (by intro hs; rw [hs]; rfl) h.sorted
  obtain ⟨res, prev, ef, hres⟩ := findID_rep h e h1 h0 h2
  have hm : ∀ x, x ∈ l0 → Matches split r x.2 := fun x hx => (matches_iff _ _ _).1 (h0 x hx)
  unfold addMsr
  rw [ef, Verif.Proof.Mem.bind_ok]
  rcases hres with ⟨b, s, hr, hb⟩ | ⟨hr, hl0, hprev⟩
  · rw [hr]
    simp only
    have hmem : (b, s) ∈ l := by rw [e]; simp [hb]
    have hsrc : source tl b = .ok s := by unfold source; rw [h.here (b, s) hmem]
    rw [hsrc, Verif.Proof.Mem.bind_ok]
    obtain ⟨hist, hh⟩ := hre (b, s) hmem
    obtain ⟨ls, _, _, hrep, _⟩ := reached_inv hh
    obtain ⟨s', seg, ls', ea, _, _, ht, hn⟩ := addToId_step sim autoheal keep hrep r
    simp only at ea ht hn
    rw [ea, Verif.Proof.Mem.bind_ok]
    obtain ⟨m1, m2, em⟩ := List.append_of_mem hmem
    have hms := hm (b, s) hb
    have hkey : s'.sid = s.sid ∧ (split = true → s'.pub = s.pub) := by
      cases seg with
      | none =>
        have := hn rfl
        exact ⟨this.sid, fun _ => this.pub⟩
      | some g =>
        have := ht (by simp)
        refine ⟨this.sid, fun hs => ?_⟩
        rw [this.pub]
        by_cases hz : r.pub = 0
        · rw [hz]; exact Nat.max_eq_left (Nat.zero_le _)
        · have := hms.2 hs hz
          simp only at this
          omega
    refine ⟨_, _, m1 ++ (b, s') :: m2, hgt, rfl, ?_, Or.inr (Or.inr
      ⟨m1, m2, b, s, s', seg, em, rfl, ea, rfl, hms, hkey.1, hkey.2⟩)⟩
    rw [em] at h
    exact update_rep h hkey.1 hkey.2
  · rw [hr]
    simp only
    subst hl0
    rw [List.append_nil] at e
    have hno : ∀ x ∈ l, ¬ Matches split r x.2 := by
      intro x hx hmx
      have hc := (matches_iff _ _ _).2 hmx
      rw [e] at hx
      rcases List.mem_append.1 hx with hx | hx
      · have := h1 x hx; omega
      · have := h2 x hx; omega
    cases hn : newId keep r with
    | none => exact ⟨tl, none, l, hgt, rfl, h, Or.inr (Or.inl ⟨rfl, rfl, rfl, hno⟩)⟩
    | some s =>
      simp only
      obtain ⟨k1, k2⟩ := newId_key hn
      have hb1 : ∀ x ∈ l1, Before split x.2 s := by
        intro x hx
        have := (compareId_lt _ _ _).1 (h1 x hx)
        unfold Before
        rw [k1, k2]
        rcases this with h' | ⟨h', hp, h''⟩
        · exact Or.inl h'
        · cases split with
          | false => exact absurd rfl hp
          | true => exact Or.inr ⟨rfl, h', h''⟩
      have hb2 : ∀ x ∈ l2, Before split s x.2 := by
        intro x hx
        have := (compareId_gt _ _ _).1 (h2 x hx)
        unfold Before
        rw [k1, k2]
        rcases this with h' | ⟨h', hp, h''⟩
        · exact Or.inl h'
        · cases split with
          | false => exact absurd rfl hp
          | true => exact Or.inr ⟨rfl, h'.symm, h''⟩
      have hrep := h
      rw [e] at hrep
      obtain ⟨tl', hgt', ea, hrep'⟩ := addID_rep hrep hprev hb1 hb2
      rw [ea, Verif.Proof.Mem.bind_ok]
      exact ⟨tl', _, _, hgt', rfl, hrep', Or.inl ⟨l1, l2, s, e, rfl, rfl, rfl, hno⟩⟩

theorem init_rep (split : Bool) (seed : Nat) :
    LRep split ({ init with prng := seed } : TraceList R) [] fun _ => 1 := by
  refine ⟨fun i _ => rfl, by simp, ?_, by simp, by simp, by simp, rfl, Nat.zero_lt_one⟩
  intro a ha
  cases ha

theorem reached_ne {sim : R → R → Bool} {autoheal keep : Bool} {hist : List (Arrival R × Bool)}
    {id : Source R} (h : Reached sim autoheal keep hist id) : hist ≠ [] := by
  cases h <;> simp

theorem own_other {split : Bool} {sid : List UInt8} {pub : Nat} {hist : List (Arrival R × Bool)}
    {r : Arrival R} {b : Bool} (h : Belongs split sid pub r = false) :
    own split sid pub (hist ++ [(r, b)]) = own split sid pub hist := by
  unfold own
  rw [List.filter_append, List.filter_cons_of_neg (by simp [h]), List.filter_nil, List.append_nil]

theorem own_snoc {split : Bool} {sid : List UInt8} {pub : Nat} {hist : List (Arrival R × Bool)}
    {r : Arrival R} {b : Bool} (h : Belongs split sid pub r = true)
    (hne : own split sid pub hist ≠ []) :
    own split sid pub (hist ++ [(r, b)]) = own split sid pub hist ++ [(r, b)] := by
  unfold own at *
  rw [List.filter_append, List.filter_cons_of_pos (by simp [h]), List.filter_nil, List.dropWhile_append]
  rw [if_neg (by simpa using hne)]

theorem dropWhile_nil {α : Type} {p : α → Bool} {l : List α} (h : ∀ y ∈ l, p y = true) :
    l.dropWhile p = [] := by
  induction l with
  | nil => rfl
  | cons x t ih =>
    rw [List.dropWhile_cons, if_pos (h x (by simp))]
    exact ih fun y hy => h y (List.mem_cons_of_mem _ hy)

theorem own_new {split : Bool} {sid : List UInt8} {pub : Nat} {hist : List (Arrival R × Bool)}
    {r : Arrival R} (h : Belongs split sid pub r = true)
    (hno : ∀ y ∈ hist, Belongs split sid pub y.1 = true → y.2 = false) :
    own split sid pub (hist ++ [(r, true)]) = [(r, true)] := by
  unfold own
  rw [List.filter_append, List.filter_cons_of_pos (by simp [h]), List.filter_nil, List.dropWhile_append]
  have : (List.dropWhile (fun y => !y.2) (hist.filter fun y => Belongs split sid pub y.1)) = [] := by
    refine dropWhile_nil ?_
    intro y hy
    rw [hno y (List.mem_filter.1 hy).1 (List.mem_filter.1 hy).2]
    rfl
  rw [this]
  rfl

theorem belongs_iff (split : Bool) (sid : List UInt8) (pub : Nat) (r : Arrival R) :
    Belongs split sid pub r = true ↔ r.sid = sid ∧ (split = true → r.pub = pub) := by
  unfold Belongs
  cases split <;> simp

theorem before_ne {split : Bool} {s t : Source R} (h : Before split s t) :
    ¬ (s.sid = t.sid ∧ (split = true → s.pub = t.pub)) := by
  rintro ⟨h1, h2⟩
  rcases h with h | ⟨h, _, h'⟩
  · rw [h1] at h; exact lt_irrefl _ h
  · have := h2 h; omega

theorem own_key {split : Bool} {sid sid' : List UInt8} {pub pub' : Nat}
    (h : sid' = sid) (h' : split = true → pub' = pub) (hist : List (Arrival R × Bool)) :
    own split sid' pub' hist = own split sid pub hist := by
  unfold own Belongs
  cases split with
  | false => rw [h]; simp
  | true => rw [h, h' rfl]

/-- The invariant of all histories. -/
theorem listed_inv {sim : R → R → Bool} {split autoheal keep : Bool}
    {hist : List (Arrival R × Bool)} {tl : TraceList R}
    (h : Listed sim split autoheal keep hist tl) :
    ∃ l hgt, LRep split tl l hgt ∧
      (∀ x ∈ l, ∃ hs, Reached sim autoheal keep hs x.2 ∧
        ((split = true → ∀ y ∈ hist, y.1.pub ≠ 0) → hs = own split x.2.sid x.2.pub hist)) ∧
      (∀ y ∈ hist, y.2 = true → ∃ x ∈ l, Matches split y.1 x.2) ∧
      (∀ x ∈ l, ∃ y ∈ hist, y.2 = true ∧ y.1.sid = x.2.sid ∧ (split = true → y.1.pub = x.2.pub)) := by
  induction h with
  | init seed => exact ⟨[], _, init_rep split seed, by simp, by simp, by simp⟩
  | add hist tl r tl' res hl ha ih =>
    obtain ⟨l, hgt, hrep, hre, hin, hfrom⟩ := ih
    obtain ⟨tl2, res2, l', hgt', e, hrep', hcase⟩ := addMsr_step (sim := sim) (autoheal := autoheal)
      (keep := keep) hrep (fun x hx => ⟨_, (hre x hx).choose_spec.1⟩) r
    rw [ha] at e
    cases e
    refine ⟨l', hgt', hrep', ?_⟩
    have hold : ∀ {b : Bool}, (split = true → ∀ y ∈ hist ++ [(r, b)], y.1.pub ≠ 0) →
        split = true → ∀ y ∈ hist, y.1.pub ≠ 0 :=
      fun h hs y hy => h hs y (by simp [hy])
    rcases hcase with ⟨l1, l2, s, e1, e2, e3, e4, e5⟩ | ⟨e1, e2, e3, e4⟩ |
      ⟨l1, l2, a, s, s', seg, e1, e2, e3, e4, e5, e6, e7⟩
    · -- a new source
      obtain ⟨k1, k2⟩ := newId_key e3
      rw [e4]
      simp only [Option.isSome_some]
      have hmem : ∀ x, x ∈ l' ↔ x = (tl.fresh, s) ∨ x ∈ l := by
        intro x
        rw [e1, e2]
        simp only [List.mem_append, List.mem_cons]
        constructor
        · rintro (h | h | h)
          · exact Or.inr (Or.inl h)
          · exact Or.inl h
          · exact Or.inr (Or.inr h)
        · rintro (h | h | h)
          · exact Or.inr (Or.inl h)
          · exact Or.inl h
          · exact Or.inr (Or.inr h)
      refine ⟨?_, ?_, ?_⟩
      · intro x hx
        rcases (hmem x).1 hx with rfl | hx
        · refine ⟨[(r, true)], Reached.new r s e3, ?_⟩
          intro hz
          refine (own_new ((belongs_iff _ _ _ _).2 ⟨k1.symm, fun _ => k2.symm⟩) ?_).symm
          intro y hy hb
          cases hy2 : y.2 with
          | false => rfl
          | true =>
            exfalso
            obtain ⟨x, hx, hmx⟩ := hin y hy hy2
            obtain ⟨b1, b2⟩ := (belongs_iff _ _ _ _).1 hb
            refine e5 x hx ⟨hmx.1.trans (b1.trans k1), fun hs _ => ?_⟩
            rw [hmx.2 hs (hz hs y (by simp [hy])), b2 hs]
            exact k2
        · obtain ⟨hs, h1, h2⟩ := hre x hx
          refine ⟨hs, h1, fun hz => ?_⟩
          rw [own_other, h2 (hold hz)]
          cases hb : Belongs split x.2.sid x.2.pub r with
          | false => rfl
          | true =>
            obtain ⟨b1, b2⟩ := (belongs_iff _ _ _ _).1 hb
            exact absurd ⟨b1.symm, fun hs _ => (b2 hs).symm⟩ (e5 x hx)
      · intro y hy hy2
        rcases List.mem_append.1 hy with hy | hy
        · obtain ⟨x, hx, hmx⟩ := hin y hy hy2
          exact ⟨x, (hmem x).2 (Or.inr hx), hmx⟩
        · simp only [List.mem_singleton] at hy
          subst hy
          exact ⟨(tl.fresh, s), (hmem _).2 (Or.inl rfl), k1, fun _ _ => k2⟩
      · intro x hx
        rcases (hmem x).1 hx with rfl | hx
        · exact ⟨(r, true), by simp, rfl, k1.symm, fun _ => k2.symm⟩
        · obtain ⟨y, hy, h⟩ := hfrom x hx
          exact ⟨y, by simp [hy], h⟩
    · -- refused
      subst e2
      rw [e3]
      simp only [Option.isSome_none]
      refine ⟨?_, ?_, ?_⟩
      · intro x hx
        obtain ⟨hs, h1, h2⟩ := hre x hx
        refine ⟨hs, h1, fun hz => ?_⟩
        rw [own_other, h2 (hold hz)]
        cases hb : Belongs split x.2.sid x.2.pub r with
        | false => rfl
        | true =>
          obtain ⟨b1, b2⟩ := (belongs_iff _ _ _ _).1 hb
          exact absurd ⟨b1.symm, fun hs _ => (b2 hs).symm⟩ (e4 x hx)
      · intro y hy hy2
        rcases List.mem_append.1 hy with hy | hy
        · exact hin y hy hy2
        · simp only [List.mem_singleton] at hy
          subst hy
          cases hy2
      · intro x hx
        obtain ⟨y, hy, h⟩ := hfrom x hx
        exact ⟨y, by simp [hy], h⟩
    · -- added to a source
      have hres : res.isSome = seg.isSome := by rw [e4]; cases seg <;> rfl
      rw [hres]
      have hmem : ∀ x, x ∈ l → x = (a, s) ∨ (x ∈ l' ∧ x ∈ l1 ++ l2) := by
        intro x hx
        rw [e1] at hx
        rw [e2]
        simp only [List.mem_append, List.mem_cons] at hx ⊢
        rcases hx with h | h | h
        · exact Or.inr ⟨Or.inl h, Or.inl h⟩
        · exact Or.inl h
        · exact Or.inr ⟨Or.inr (Or.inr h), Or.inr h⟩
      have hmem' : ∀ x, x ∈ l' → x = (a, s') ∨ (x ∈ l ∧ x ∈ l1 ++ l2) := by
        intro x hx
        rw [e2] at hx
        rw [e1]
        simp only [List.mem_append, List.mem_cons] at hx ⊢
        rcases hx with h | h | h
        · exact Or.inr ⟨Or.inl h, Or.inl h⟩
        · exact Or.inl h
        · exact Or.inr ⟨Or.inr (Or.inr h), Or.inr h⟩
      have hself : (a, s') ∈ l' := by rw [e2]; simp
      refine ⟨?_, ?_, ?_⟩
      · intro x hx
        rcases hmem' x hx with rfl | ⟨hx, hx'⟩
        · obtain ⟨hs, h1, h2⟩ := hre (a, s) (by rw [e1]; simp)
          refine ⟨hs ++ [(r, seg.isSome)], Reached.add hs s r s' seg h1 e3, fun hz => ?_⟩
          have hh := h2 (hold hz)
          rw [own_key e6 e7]
          simp only at hh
          rw [own_snoc, hh]
          · refine (belongs_iff _ _ _ _).2 ⟨e5.1.symm, fun hs => ?_⟩
            exact (e5.2 hs (hz hs (r, seg.isSome) (by simp))).symm
          · rw [← hh]
            exact reached_ne h1
        · obtain ⟨hs, h1, h2⟩ := hre x hx
          refine ⟨hs, h1, fun hz => ?_⟩
          rw [own_other, h2 (hold hz)]
          cases hb : Belongs split x.2.sid x.2.pub r with
          | false => rfl
          | true =>
            exfalso
            obtain ⟨b1, b2⟩ := (belongs_iff _ _ _ _).1 hb
            have hk : x.2.sid = s.sid ∧ (split = true → x.2.pub = s.pub) :=
              ⟨b1.symm.trans e5.1.symm, fun hs => (b2 hs).symm.trans
                (e5.2 hs (hz hs (r, seg.isSome) (by simp))).symm⟩
            have hso := hrep.sorted
            rw [e1, List.pairwise_append, List.pairwise_cons] at hso
            rcases List.mem_append.1 hx' with hx' | hx'
            · exact before_ne (hso.2.2 x hx' (a, s) (by simp)) hk
            · exact before_ne (hso.2.1.1 x hx') ⟨hk.1.symm, fun hs => (hk.2 hs).symm⟩
      · intro y hy hy2
        rcases List.mem_append.1 hy with hy | hy
        · obtain ⟨x, hx, hmx⟩ := hin y hy hy2
          rcases hmem x hx with rfl | ⟨hx, _⟩
          · refine ⟨(a, s'), hself, e6.trans hmx.1, fun hs hp => ?_⟩
            rw [e7 hs]
            exact hmx.2 hs hp
          · exact ⟨x, hx, hmx⟩
        · simp only [List.mem_singleton] at hy
          subst hy
          refine ⟨(a, s'), hself, e6.trans e5.1, fun hs hp => ?_⟩
          rw [e7 hs]
          exact e5.2 hs hp
      · intro x hx
        rcases hmem' x hx with rfl | ⟨hx, _⟩
        · obtain ⟨y, hy, h1, h2, h3⟩ := hfrom (a, s) (by rw [e1]; simp)
          exact ⟨y, by simp [hy], h1, h2.trans e6.symm, fun hs => (h3 hs).trans (e7 hs).symm⟩
        · obtain ⟨y, hy, h⟩ := hfrom x hx
          exact ⟨y, by simp [hy], h⟩

/-- Every addition ends well. -/
theorem listed_next {sim : R → R → Bool} {split autoheal keep : Bool}
    {hist : List (Arrival R × Bool)} {tl : TraceList R}
    (h : Listed sim split autoheal keep hist tl) (r : Arrival R) :
    ∃ tl' res, addMsr sim split autoheal keep tl r = .ok (tl', res) := by
  obtain ⟨l, hgt, hrep, hre, _⟩ := listed_inv h
  obtain ⟨tl', res, _, _, e, _⟩ := addMsr_step (sim := sim) (autoheal := autoheal) (keep := keep) hrep
    (fun x hx => ⟨_, (hre x hx).choose_spec.1⟩) r
  exact ⟨tl', res, e⟩

theorem chain_walk {nx : Nat → Nat → Option Nat} : ∀ {l : List Nat} {c : Nat}, Chain nx 0 c l →
    nx c 0 = l.head? ∧ ∀ i a, l[i]? = some a → nx a 0 = l[i + 1]? := by
  intro l
  induction l with
  | nil => intro c h; exact ⟨h, fun i a h => by simp at h⟩
  | cons b t ih =>
    intro c h
    obtain ⟨h1, h2⟩ := ih h.2
    refine ⟨h.1, ?_⟩
    intro i a hi
    cases i with
    | zero =>
      simp only [List.getElem?_cons_zero, Option.some.injEq] at hi
      subst hi
      rw [h1]
      simp [List.head?_eq_getElem?]
    | succ i => simpa using h2 i a (by simpa using hi)

theorem walk_of_rep {split : Bool} {tl : TraceList R} {l : List (Nat × Source R)} {hgt : Nat → Nat}
    (h : LRep split tl l hgt) : Walk tl (l.map Prod.fst) := by
  have hc := h.chain 0 (by omega)
  rw [tower_zero h] at hc
  obtain ⟨h1, h2⟩ := chain_walk hc
  refine ⟨h.nodup, by simpa using h.count, h1, h2, ?_⟩
  intro a
  constructor
  · intro ha
    obtain ⟨x, hx, e⟩ := List.mem_map.1 ha
    rw [← e, h.here x hx]
    rfl
  · exact h.only a

/-- Lists of records make histories. -/
theorem listings (sim : R → R → Bool) (split autoheal keep : Bool) (rs : List (Arrival R)) :
    ∃ hist tl, Listed sim split autoheal keep hist tl ∧ hist.map Prod.fst = rs := by
  have key : ∀ (rs : List (Arrival R)) hist tl, Listed sim split autoheal keep hist tl →
      ∃ hist' tl', Listed sim split autoheal keep hist' tl' ∧
        hist'.map Prod.fst = hist.map Prod.fst ++ rs := by
    intro rs
    induction rs with
    | nil => intro hist tl h; exact ⟨hist, tl, h, by simp⟩
    | cons r t ih =>
      intro hist tl h
      obtain ⟨tl', res, e⟩ := listed_next h r
      obtain ⟨hist', tl'', h', e'⟩ := ih _ _ (Listed.add hist tl r tl' res h e)
      exact ⟨hist', tl'', h', by rw [e']; simp⟩
  exact key rs [] _ (Listed.init 1)

end Verif.Proof.TraceList
