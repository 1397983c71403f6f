import Verif.Proof.TraceHist
/-!
# Lemmas about additions in any order
-/
namespace Verif.Proof.Trace
open Verif.Model.Steim Verif.Model.Samples Verif.Model.Trace Verif.Props.Trace
open Verif.Proof.Mem

variable {R : Type}

/-! ## Sample types -/

/-- The segments have samples of type `T`. -/
def Types (T : Char) (l : List (Nat × Seg R)) : Prop :=
  ∀ y ∈ l, y.2.sampletype = T ∧ (y.2.data = [] ∨ sampleSize T ≠ 0)

theorem types_perm {T : Char} {l l' : List (Nat × Seg R)} (h : Types T l) (p : l'.Perm l) : Types T l' :=
  fun y hy => h y (p.mem_iff.1 hy)

theorem types_cons {T : Char} {a : Nat} {s : Seg R} {m : List (Nat × Seg R)}
    (hs : s.sampletype = T ∧ (s.data = [] ∨ sampleSize T ≠ 0)) (h : Types T m) :
    Types T ((a, s) :: m) := by
  intro y hy
  rcases List.mem_cons.1 hy with hy | hy
  · subst hy; exact hs
  · exact h y hy

theorem msr2seg_type {T : Char} {keep : Bool} {x : Arrival R} (hx : OfType T x) :
    ∃ s, msr2seg keep x = some s ∧ s.sampletype = T ∧ (s.data = [] ∨ sampleSize T ≠ 0) := by
  unfold msr2seg
  rw [if_neg]
  · exact ⟨_, rfl, hx.1, hx.2⟩
  · rintro ⟨h1, h2⟩
    rw [hx.1] at h2
    rcases hx.2 with h | h
    · exact h1 h
    · exact h h2

theorem addMsr_type {T : Char} {keep : Bool} {x : Arrival R} (hx : OfType T x) {s : Seg R}
    (hs : s.sampletype = T ∧ (s.data = [] ∨ sampleSize T ≠ 0)) (w : Bool) :
    ∃ s', addMsrToSeg keep s x w = some s' ∧ s'.sampletype = T ∧ (s'.data = [] ∨ sampleSize T ≠ 0) := by
  unfold addMsrToSeg
  rw [if_neg, if_neg]
  · cases w with
    | true =>
      refine ⟨_, rfl, hs.1, ?_⟩
      simp only
      rcases hs.2 with h | h
      · rcases hx.2 with h' | h'
        · left; rw [h, h']; rfl
        · right; exact h'
      · right; exact h
    | false =>
      refine ⟨_, rfl, hs.1, ?_⟩
      simp only
      rcases hs.2 with h | h
      · rcases hx.2 with h' | h'
        · left; rw [h, h']; rfl
        · right; exact h'
      · right; exact h
  · rintro ⟨h1, h2⟩
    rw [hx.1] at h2
    rcases hx.2 with h | h
    · exact h1 h
    · exact h h2
  · rintro ⟨_, h2⟩
    exact h2 (hx.1.trans hs.1.symm)

theorem addSeg_type {T : Char} {s t : Seg R}
    (hs : s.sampletype = T ∧ (s.data = [] ∨ sampleSize T ≠ 0))
    (ht : t.sampletype = T ∧ (t.data = [] ∨ sampleSize T ≠ 0)) :
    ∃ s', addSegToSeg s t = some s' ∧ s'.sampletype = T ∧ (s'.data = [] ∨ sampleSize T ≠ 0) := by
  unfold addSegToSeg
  rw [if_neg, if_neg]
  · refine ⟨_, rfl, hs.1, ?_⟩
    simp only
    rcases hs.2 with h | h
    · rcases ht.2 with h' | h'
      · left; rw [h, h']; rfl
      · right; exact h'
    · right; exact h
  · rintro ⟨h1, h2⟩
    rw [hs.1] at h2
    rcases ht.2 with h | h
    · exact h1 h
    · exact h h2
  · rintro ⟨_, h2⟩
    exact h2 (ht.1.trans hs.1.symm)

/-- Records of one sample type are all accepted. -/
theorem step_types {sim : R → R → Bool} {autoheal keep : Bool} {id : Source R} {x : Arrival R}
    {l l' : List (Nat × Seg R)} {res : Option Nat} {T : Char}
    (st : Step sim autoheal keep id x l res l') (hx : OfType T x) (h : Types T l) :
    Types T l' ∧ res ≠ none := by
  cases st with
  | fail _ why =>
    exfalso
    rcases why with e | ⟨y, hy, w, e⟩
    · obtain ⟨s, e', _⟩ := msr2seg_type (keep := keep) hx
      rw [e] at e'; cases e'
    · obtain ⟨s, e', _⟩ := addMsr_type (keep := keep) hx (h y hy) w
      rw [e] at e'; cases e'
  | half l1 l2 a s s' t hf hm ht hj =>
    exfalso
    obtain ⟨s1, e1, e2⟩ := addMsr_type (keep := keep) hx (h (a, s) (by simp)) true
    rw [hm] at e1
    cases e1
    obtain ⟨s2, e3, _⟩ := addSeg_type e2 (h t (by
      rcases List.mem_append.1 ht with h | h <;> simp [h]))
    rw [hj] at e3
    cases e3
  | back l1 l2 a s s' l' hf hm hp _ _ =>
    obtain ⟨s1, e1, e2⟩ := addMsr_type (keep := keep) hx (h (a, s) (by simp)) true
    rw [hm] at e1
    cases e1
    have hm' : Types T (l1 ++ l2) := fun y hy => h y (by
      rcases List.mem_append.1 hy with h | h <;> simp [h])
    exact ⟨types_perm (types_cons e2 hm') (hp.trans List.perm_middle), by simp⟩
  | front l1 l2 a s s' l' hf hm hp _ _ =>
    obtain ⟨s1, e1, e2⟩ := addMsr_type (keep := keep) hx (h (a, s) (by simp)) false
    rw [hm] at e1
    cases e1
    have hm' : Types T (l1 ++ l2) := fun y hy => h y (by
      rcases List.mem_append.1 hy with h | h <;> simp [h])
    exact ⟨types_perm (types_cons e2 hm') (hp.trans List.perm_middle), by simp⟩
  | join l m a s s' s'' c t l' _ hf hpr hm hj hp hp' _ _ =>
    have h' := types_perm h hp.symm
    obtain ⟨s1, e1, e2⟩ := addMsr_type (keep := keep) hx (h' (a, s) (by simp)) true
    rw [hm] at e1
    cases e1
    obtain ⟨s2, e3, e4⟩ := addSeg_type e2 (h' (c, t) (by simp))
    rw [hj] at e3
    cases e3
    exact ⟨types_perm (types_cons e4 fun y hy => h' y (by simp [hy])) hp', by simp⟩
  | new l s l' hm hp _ _ _ =>
    obtain ⟨s1, e1, e2⟩ := msr2seg_type (keep := keep) hx
    rw [hm] at e1
    cases e1
    exact ⟨types_perm (types_cons e2 h) hp, by simp⟩

/-! ## Contiguous records -/

theorem adjacent_mem {α : Type} {P : α → α → Prop} {l : List α} (h : Adjacent P l) {a : α}
    (ha : a ∈ l) : l.getLast? = some a ∨ ∃ b ∈ l, P a b := by
  induction l with
  | nil => cases ha
  | cons x t ih =>
    cases t with
    | nil =>
      simp only [List.mem_singleton] at ha
      subst ha
      exact Or.inl rfl
    | cons y u =>
      rcases List.mem_cons.1 ha with ha | ha
      · subst ha
        exact Or.inr ⟨y, by simp, h.1⟩
      · rcases ih h.2 ha with h' | ⟨b, hb, hp⟩
        · left; rw [List.getLast?_cons_cons]; exact h'
        · exact Or.inr ⟨b, List.mem_cons_of_mem _ hb, hp⟩

theorem adjacent_mem_back {α : Type} {P : α → α → Prop} {l : List α} (h : Adjacent P l) {b : α}
    (hb : b ∈ l) : l.head? = some b ∨ ∃ a ∈ l, P a b := by
  induction l with
  | nil => cases hb
  | cons x t ih =>
    cases t with
    | nil =>
      simp only [List.mem_singleton] at hb
      subst hb
      exact Or.inl rfl
    | cons y u =>
      rcases List.mem_cons.1 hb with hb | hb
      · subst hb
        exact Or.inl rfl
      · rcases ih h.2 hb with h' | ⟨a, ha, hp⟩
        · right
          simp only [List.head?_cons, Option.some.injEq] at h'
          subst h'
          exact ⟨x, by simp, h.1⟩
        · exact Or.inr ⟨a, List.mem_cons_of_mem _ ha, hp⟩

theorem adjacent_imp {α : Type} {P Q : α → α → Prop} {l : List α} (h : Adjacent P l)
    (hpq : ∀ a ∈ l, ∀ b ∈ l, P a b → Q a b) : Adjacent Q l := by
  induction l with
  | nil => trivial
  | cons x t ih =>
    cases t with
    | nil => trivial
    | cons y u =>
      exact ⟨hpq x (by simp) y (by simp) h.1, ih h.2 fun a ha b hb =>
        hpq a (List.mem_cons_of_mem _ ha) b (List.mem_cons_of_mem _ hb)⟩

/-- Later in a chain means later in time, and only the next record follows at one period. -/
theorem chain_times {P : Int} {T : Char} {chain : List (Arrival R)} (h : Contiguous P T chain) :
    chain.Pairwise fun a b => a.stop + P ≤ b.start := by
  obtain ⟨h1, h2, h3, h4, _⟩ := h
  induction chain with
  | nil => exact List.Pairwise.nil
  | cons x t ih =>
    have hl := h2 x (by simp)
    have ht := h4 x (by simp)
    cases t with
    | nil => exact List.pairwise_singleton _ _
    | cons y u =>
      have ih' := ih h1.2 (fun r hr => h2 r (List.mem_cons_of_mem _ hr))
        (fun r hr => h3 r (List.mem_cons_of_mem _ hr)) (fun r hr => h4 r (List.mem_cons_of_mem _ hr))
        (by intro r hr; exact ‹∀ r ∈ x :: y :: u, OfType T r› r (List.mem_cons_of_mem _ hr))
      refine List.pairwise_cons.2 ⟨?_, ih'⟩
      have hxy : y.start = x.stop + P := h1.1
      intro b hb
      rcases List.mem_cons.1 hb with hb | hb
      · subst hb; omega
      · have := List.rel_of_pairwise_cons ih' hb
        have := h2 y (by simp)
        omega

/-- Two records of a list with a relation: equal or related one way or the other. -/
theorem pairwise_cases {α : Type} {P : α → α → Prop} {l : List α} (h : l.Pairwise P) {a b : α}
    (ha : a ∈ l) (hb : b ∈ l) : a = b ∨ P a b ∨ P b a := by
  induction h with
  | nil => cases ha
  | cons hx _ ih =>
    rcases List.mem_cons.1 ha with ha | ha <;> rcases List.mem_cons.1 hb with hb | hb
    · left; rw [ha, hb]
    · right; left; rw [ha]; exact hx b hb
    · right; right; rw [hb]; exact hx a ha
    · exact ih ha hb

theorem chain_start_inj {P : Int} {T : Char} {chain : List (Arrival R)} (h : Contiguous P T chain)
    {a b : Arrival R} (ha : a ∈ chain) (hb : b ∈ chain) (e : a.start = b.start) : a = b := by
  have hla := h.long a ha
  have hlb := h.long b hb
  have ht := h.tol a ha
  rcases pairwise_cases (chain_times h) ha hb with h | h | h
  · exact h
  · omega
  · omega

theorem chain_stop_inj {P : Int} {T : Char} {chain : List (Arrival R)} (h : Contiguous P T chain)
    {a b : Arrival R} (ha : a ∈ chain) (hb : b ∈ chain) (e : a.stop = b.stop) : a = b := by
  have hla := h.long a ha
  have hlb := h.long b hb
  have ht := h.tol a ha
  rcases pairwise_cases (chain_times h) ha hb with h | h | h
  · exact h
  · omega
  · omega

theorem chain_nodup {P : Int} {T : Char} {chain : List (Arrival R)} (h : Contiguous P T chain) :
    chain.Nodup := by
  refine List.Pairwise.imp_of_mem ?_ (chain_times h)
  intro a b ha hb hab e
  subst e
  have := h.long a ha
  have := h.tol a ha
  omega

/-- Records of a chain that are near one another follow one another. -/
theorem chain_near {P : Int} {T : Char} {chain : List (Arrival R)} (h : Contiguous P T chain)
    {a b : Arrival R} (ha : a ∈ chain) (hb : b ∈ chain) (hn : Near a b) : b.start = a.stop + P := by
  have hla := h.long a ha
  have hlb := h.long b hb
  obtain ⟨x, hx, n1, n2⟩ := hn
  have hxm : x ∈ chain := by rcases hx with e | e <;> rw [e] <;> assumption
  have hp := h.period x hxm
  have ht := h.tol x hxm
  rw [hp] at n1 n2
  rcases pairwise_cases (chain_times h) ha hb with e | e | e
  · subst e; omega
  · -- b is later than a: it is the next one, or after the next one
    rcases adjacent_mem_back h.follow hb with hh | ⟨c, hc, hcb⟩
    · -- b is first, but a is before it
      exfalso
      cases hch : chain with
      | nil => rw [hch] at ha; cases ha
      | cons z zs =>
        rw [hch] at hh
        simp only [List.head?_cons, Option.some.injEq] at hh
        subst hh
        have hpw := chain_times h
        rw [hch] at ha hpw
        rcases List.mem_cons.1 ha with ha | ha
        · subst ha; omega
        · have := List.rel_of_pairwise_cons hpw ha
          omega
    · rcases pairwise_cases (chain_times h) ha hc with e' | e' | e'
      · subst e'; exact hcb
      · have := h.long c hc; omega
      · have := h.long c hc; omega
  · omega

/-! ## No two segments touch -/

/-- No segment begins where another one ends. -/
def Apart (P : Int) (l : List (Nat × Seg R)) : Prop :=
  ∀ y ∈ l, ∀ z ∈ l, z.2.start ≠ y.2.stop + P

/-- The ends of a segment are those of records. -/
theorem made_ends {keep : Bool} {rs : List (Arrival R)} {s : Seg R} (h : Made keep rs s) :
    ∃ a ∈ rs, ∃ b ∈ rs, a.start = s.start ∧ b.stop = s.stop := by
  have h1 := h.start
  have h2 := h.stop
  cases ha : rs.head? with
  | none => rw [ha] at h1; cases h1
  | some a =>
    cases hb : rs.getLast? with
    | none => rw [hb] at h2; cases h2
    | some b =>
      rw [ha] at h1
      rw [hb] at h2
      exact ⟨a, List.mem_of_head? ha, b, List.mem_of_getLast? hb, Option.some.inj h1, Option.some.inj h2⟩

/-- A segment made of records of a chain does not end before it begins. -/
theorem made_long {P : Int} {T : Char} {chain : List (Arrival R)} (h : Contiguous P T chain)
    {keep : Bool} {rs : List (Arrival R)} {s : Seg R} (hm : Made keep rs s)
    (hsub : ∀ r ∈ rs, r ∈ chain) : s.start ≤ s.stop := by
  have main : ∀ (rs : List (Arrival R)), (∀ r ∈ rs, r ∈ chain) → Adjacent Near rs → ∀ a b,
      rs.head? = some a → rs.getLast? = some b → a.start ≤ b.stop := by
    intro rs
    induction rs with
    | nil => intro _ _ a b ha; cases ha
    | cons x t ih =>
      intro hsub had a b ha hb
      simp only [List.head?_cons, Option.some.injEq] at ha
      subst ha
      have hlx := h.long x (hsub x (by simp))
      have htx := h.tol x (hsub x (by simp))
      cases t with
      | nil =>
        simp only [List.getLast?_singleton, Option.some.injEq] at hb
        subst hb
        exact hlx
      | cons y u =>
        rw [List.getLast?_cons_cons] at hb
        have h1 := ih (fun r hr => hsub r (List.mem_cons_of_mem _ hr)) had.2 y b rfl hb
        have h2 := chain_near h (hsub x (by simp)) (hsub y (by simp)) had.1
        omega
  have h1 := hm.start
  have h2 := hm.stop
  cases ha : rs.head? with
  | none => rw [ha] at h1; cases h1
  | some a =>
    cases hb : rs.getLast? with
    | none => rw [hb] at h2; cases h2
    | some b =>
      rw [ha] at h1
      rw [hb] at h2
      have := main rs hsub hm.near a b ha hb
      rw [← Option.some.inj h1, ← Option.some.inj h2]
      exact this

/-- What one addition of a record of the chain keeps. -/
theorem step_apart {sim : R → R → Bool} {keep : Bool} {id : Source R} {x : Arrival R}
    {l l' : List (Nat × Seg R)} {res : Option Nat} {P : Int} {T : Char} {chain : List (Arrival R)}
    (hc : Contiguous P T chain) (hx : x ∈ chain) (hsim : ∀ y ∈ l, sim x.rate y.2.rate = true)
    (st : Step sim true keep id x l res l') (hres : res ≠ none) (hso : Sorted l)
    (hlong : ∀ y ∈ l, y.2.start ≤ y.2.stop) (hne : NotExact x l)
    (hearly : ∀ y ∈ l, id.earliest ≤ y.2.start) (hlate : ∀ y ∈ l, y.2.stop ≤ id.latest)
    (ha : Apart P l) : Apart P l' := by
  have hxl := hc.long x hx
  have hxp := hc.period x hx
  have hxt := hc.tol x hx
  have follows : ∀ s, Follows sim x s → s.stop < x.start := by
    intro s h
    have := h.1
    unfold fits at this
    simp only [decide_eq_true_eq] at this
    omega
  have precedes : ∀ s, Precedes sim x s → x.stop < s.start := by
    intro s h
    have := h.1
    unfold fits at this
    simp only [decide_eq_true_eq] at this
    omega
  have isFollows : ∀ y ∈ l, x.start = y.2.stop + P → Follows sim x y.2 := by
    intro y hy e
    refine ⟨?_, hsim y hy⟩
    unfold fits
    simp only [decide_eq_true_eq]
    omega
  have isPrecedes : ∀ y ∈ l, y.2.start = x.stop + P → Precedes sim x y.2 := by
    intro y hy e
    refine ⟨?_, hsim y hy⟩
    unfold fits
    simp only [decide_eq_true_eq]
    omega
  have perm : ∀ {m m' : List (Nat × Seg R)}, m'.Perm m → Apart P m → Apart P m' :=
    fun p h y hy z hz => h y (p.mem_iff.1 hy) z (p.mem_iff.1 hz)
  cases st with
  | fail => exact absurd rfl hres
  | half => exact absurd rfl hres
  | back l1 l2 a s s' l' hf hm hp _ hcomp =>
    have hs : (a, s) ∈ l1 ++ (a, s) :: l2 := by simp
    have hsl := hlong _ hs
    have hfs := follows s hf
    -- nothing begins behind the record
    have hnone : ∀ z ∈ l1 ++ (a, s) :: l2, z.2.start ≠ x.stop + P := by
      intro z hz e
      rcases hcomp with h0 | h0
      · subst h0
        have hle : z.2.start ≤ s.start := by
          rcases List.mem_append.1 hz with h | h
          · have := (List.pairwise_append.1 hso).2.2 z h (a, s) (by simp)
            rw [before_iff] at this
            simp only at this
            omega
          · simp only [List.mem_singleton] at h; subst h; exact Int.le_refl _
        simp only at hsl
        omega
      · rcases h0 rfl hne with h1 | h1
        · have := precedes s h1
          simp only at hsl
          omega
        · exact h1 z hz (isPrecedes z hz e)
    have hs' : s'.start = s.start ∧ s'.stop = x.stop := by
      unfold addMsrToSeg at hm
      split at hm
      · cases hm
      · split at hm
        · cases hm
        · simp only [if_true, Option.some.injEq] at hm; subst hm; exact ⟨rfl, rfl⟩
    refine perm (hp.trans List.perm_middle) ?_
    have hmem : ∀ y ∈ l1 ++ l2, y ∈ l1 ++ (a, s) :: l2 := by
      intro y hy
      rcases List.mem_append.1 hy with h | h <;> simp [h]
    intro y hy z hz
    rcases List.mem_cons.1 hy with hy | hy <;> rcases List.mem_cons.1 hz with hz | hz
    · subst hy; subst hz
      simp only [hs'.1, hs'.2]
      simp only at hsl
      omega
    · subst hy
      simp only [hs'.2]
      exact hnone z (hmem z hz)
    · subst hz
      simp only [hs'.1]
      exact ha y (hmem y hy) (a, s) hs
    · exact ha y (hmem y hy) z (hmem z hz)
  | front l1 l2 a s s' l' hf hm hp _ hcomp =>
    have hs : (a, s) ∈ l1 ++ (a, s) :: l2 := by simp
    have hsl := hlong _ hs
    have hfs := precedes s hf
    have hnone : ∀ y ∈ l1 ++ (a, s) :: l2, x.start ≠ y.2.stop + P := by
      intro z hz e
      have hzl := hlong z hz
      rcases hcomp with h0 | h0
      · subst h0
        have hle : s.start ≤ z.2.start := by
          rcases List.mem_cons.1 hz with h | h
          · subst h; exact Int.le_refl _
          · have := List.rel_of_pairwise_cons hso h
            rw [before_iff] at this
            simp only at this
            omega
        simp only at hsl
        omega
      · exact h0 rfl hne z hz (isFollows z hz e)
    have hs' : s'.start = x.start ∧ s'.stop = s.stop := by
      unfold addMsrToSeg at hm
      split at hm
      · cases hm
      · split at hm
        · cases hm
        · simp only [Bool.false_eq_true, if_false, Option.some.injEq] at hm; subst hm; exact ⟨rfl, rfl⟩
    refine perm (hp.trans List.perm_middle) ?_
    have hmem : ∀ y ∈ l1 ++ l2, y ∈ l1 ++ (a, s) :: l2 := by
      intro y hy
      rcases List.mem_append.1 hy with h | h <;> simp [h]
    intro y hy z hz
    rcases List.mem_cons.1 hy with hy | hy <;> rcases List.mem_cons.1 hz with hz | hz
    · subst hy; subst hz
      simp only [hs'.1, hs'.2]
      simp only at hsl
      omega
    · subst hy
      simp only [hs'.2]
      exact ha (a, s) hs z (hmem z hz)
    · subst hz
      simp only [hs'.1]
      exact hnone y (hmem y hy)
    · exact ha y (hmem y hy) z (hmem z hz)
  | join l m a s s' s'' c t l' _ hf hpr hm hj hp hp' _ _ =>
    have h' := perm hp.symm ha
    have hs' : s''.start = s.start ∧ s''.stop = t.stop := by
      have h1 : s'.start = s.start := by
        unfold addMsrToSeg at hm
        split at hm
        · cases hm
        · split at hm
          · cases hm
          · simp only [if_true, Option.some.injEq] at hm; subst hm; rfl
      unfold addSegToSeg at hj
      split at hj
      · cases hj
      · split at hj
        · cases hj
        · cases hj; exact ⟨h1, rfl⟩
    refine perm hp' ?_
    intro y hy z hz
    rcases List.mem_cons.1 hy with hy | hy <;> rcases List.mem_cons.1 hz with hz | hz
    · subst hy; subst hz
      simp only [hs'.1, hs'.2]
      exact h' (c, t) (by simp) (a, s) (by simp)
    · subst hy
      simp only [hs'.2]
      exact h' (c, t) (by simp) z (by simp [hz])
    · subst hz
      simp only [hs'.1]
      exact h' y (by simp [hy]) (a, s) (by simp)
    · exact h' y (by simp [hy]) z (by simp [hz])
  | new l s l' hm hp _ _ hwhy =>
    have hs' : s.start = x.start ∧ s.stop = x.stop := by
      unfold msr2seg at hm
      split at hm
      · cases hm
      · cases hm; exact ⟨rfl, rfl⟩
    have hnone : ∀ y ∈ l, x.start ≠ y.2.stop + P ∧ y.2.start ≠ x.stop + P := by
      intro y hy
      have e1 := hearly y hy
      have e2 := hlate y hy
      have e3 := hlong y hy
      rcases hwhy with h | h | h | ⟨_, z, hz, h⟩
      · omega
      · omega
      · exact ⟨fun e => (h y hy).1 (isFollows y hy e), fun e => (h y hy).2 (isPrecedes y hy e)⟩
      · exact absurd h (hne z hz)
    refine perm hp ?_
    intro y hy z hz
    rcases List.mem_cons.1 hy with hy | hy <;> rcases List.mem_cons.1 hz with hz | hz
    · subst hy; subst hz
      simp only [hs'.1, hs'.2]
      omega
    · subst hy
      simp only [hs'.2]
      exact (hnone z hz).2
    · subst hz
      simp only [hs'.1]
      exact (hnone y hy).1
    · exact ha y hy z hz

/-! ## Histories of records of a chain -/

/-- Segments have the rates of records. -/
def Rates (chain : List (Arrival R)) (l : List (Nat × Seg R)) : Prop :=
  ∀ y ∈ l, ∃ r ∈ chain, y.2.rate = r.rate

theorem addMsr_rate {keep : Bool} {s s' : Seg R} {x : Arrival R} {w : Bool}
    (h : addMsrToSeg keep s x w = some s') : s'.rate = s.rate := by
  unfold addMsrToSeg at h
  split at h
  · cases h
  · split at h
    · cases h
    · cases w
      · simp only [Bool.false_eq_true, if_false, Option.some.injEq] at h; subst h; rfl
      · simp only [if_true, Option.some.injEq] at h; subst h; rfl

theorem step_rates {sim : R → R → Bool} {autoheal keep : Bool} {id : Source R} {x : Arrival R}
    {l l' : List (Nat × Seg R)} {res : Option Nat} {chain : List (Arrival R)}
    (st : Step sim autoheal keep id x l res l') (hx : x ∈ chain) (h : Rates chain l) :
    Rates chain l' := by
  have perm : ∀ {m m' : List (Nat × Seg R)}, m'.Perm m → Rates chain m → Rates chain m' :=
    fun p h y hy => h y (p.mem_iff.1 hy)
  have cons : ∀ {m : List (Nat × Seg R)} {a : Nat} {s : Seg R}, (∃ r ∈ chain, s.rate = r.rate) →
      Rates chain m → Rates chain ((a, s) :: m) := by
    intro m a s hs hm y hy
    rcases List.mem_cons.1 hy with hy | hy
    · subst hy; exact hs
    · exact hm y hy
  have mid : ∀ {l1 l2 : List (Nat × Seg R)} {a : Nat} {s s' : Seg R},
      Rates chain (l1 ++ (a, s) :: l2) → s'.rate = s.rate → Rates chain (l1 ++ (a, s') :: l2) := by
    intro l1 l2 a s s' h e
    have h' := perm List.perm_middle.symm h
    refine perm List.perm_middle (cons ?_ fun y hy => h' y (List.mem_cons_of_mem _ hy))
    rw [e]
    exact h' (a, s) (by simp)
  cases st with
  | fail => exact h
  | half l1 l2 a s s' t _ hm _ _ => exact mid h (addMsr_rate hm)
  | back l1 l2 a s s' l' _ hm hp _ _ => exact perm hp (mid h (addMsr_rate hm))
  | front l1 l2 a s s' l' _ hm hp _ _ => exact perm hp (mid h (addMsr_rate hm))
  | join l m a s s' s'' c t l' _ _ _ hm hj hp hp' _ _ =>
    have h' := perm hp.symm h
    refine perm hp' (cons ?_ fun y hy => h' y (by simp [hy]))
    have e1 := addMsr_rate hm
    have e2 : s''.rate = s'.rate := by
      unfold addSegToSeg at hj
      split at hj
      · cases hj
      · split at hj
        · cases hj
        · cases hj; rfl
    rw [e2, e1]
    exact h' (a, s) (by simp)
  | new l s l' hm hp _ _ _ =>
    refine perm hp (cons ⟨x, hx, ?_⟩ h)
    unfold msr2seg at hm
    split at hm
    · cases hm
    · cases hm; rfl

/-- What holds after every history of distinct records of a chain. -/
theorem chain_inv {sim : R → R → Bool} {keep : Bool} {P : Int} {T : Char} {chain : List (Arrival R)}
    (hc : Contiguous P T chain) (hsim : ∀ a ∈ chain, ∀ b ∈ chain, sim a.rate b.rate = true)
    {hist : List (Arrival R × Bool)} {id : Source R} (h : Reached sim true keep hist id)
    (hsub : ∀ x ∈ hist, x.1 ∈ chain) (hnd : (hist.map Prod.fst).Nodup) :
    ∃ l g, Rep id l ∧ Holds keep g l (hist.map Prod.fst) ∧ Sorted l ∧ Types T l ∧ Rates chain l ∧
      Apart P l ∧ ∀ x ∈ hist, x.2 = true := by
  induction h with
  | new r id hn =>
    obtain ⟨s, hm, hr, _⟩ := newId_rep keep r id hn
    have hrc : r ∈ chain := hsub (r, true) (by simp)
    have hl := hc.long r hrc
    have ht := hc.tol r hrc
    obtain ⟨s1, e1, e2⟩ := msr2seg_type (keep := keep) (hc.type r hrc)
    rw [hm] at e1
    cases e1
    have hsv : s.start = r.start ∧ s.stop = r.stop ∧ s.rate = r.rate := by
      unfold msr2seg at hm
      split at hm
      · cases hm
      · cases hm; exact ⟨rfl, rfl, rfl⟩
    refine ⟨[(0, s)], fun _ => [r], hr, ⟨?_, by simp [records]⟩, List.pairwise_singleton _ _,
      types_cons e2 (fun y hy => by cases hy), ?_, ?_, by simp⟩
    · intro y hy
      simp only [List.mem_singleton] at hy
      subst hy
      exact made_new hm
    · intro y hy
      simp only [List.mem_singleton] at hy
      subst hy
      exact ⟨r, hrc, hsv.2.2⟩
    · intro y hy z hz
      simp only [List.mem_singleton] at hy hz
      subst hy; subst hz
      simp only [hsv.1, hsv.2.1]
      omega
  | add hist id x id' res hre ha ih =>
    rw [List.map_append, List.nodup_append] at hnd
    obtain ⟨nd1, _, nd3⟩ := hnd
    obtain ⟨l, g, hr, hh, hso, hty, hra, hap, hall⟩ := ih
      (fun y hy => hsub y (List.mem_append.2 (Or.inl hy))) nd1
    have hxc : x ∈ chain := hsub (x, res.isSome) (by simp)
    have hxn : x ∉ hist.map Prod.fst := fun h => nd3 x h x (by simp) rfl
    have hrec : ∀ y ∈ l, ∀ r ∈ g y.1, r ∈ hist.map Prod.fst := by
      intro y hy r hr
      exact hh.2.mem_iff.1 (List.mem_flatMap.2 ⟨y, hy, hr⟩)
    have hchain : ∀ y ∈ l, ∀ r ∈ g y.1, r ∈ chain := by
      intro y hy r hr
      obtain ⟨z, hz, e⟩ := List.mem_map.1 (hrec y hy r hr)
      rw [← e]
      exact hsub z (List.mem_append.2 (Or.inl hz))
    obtain ⟨id2, res2, l', e, hr', st, _⟩ := addToId_step sim true keep hr x
    rw [ha] at e
    cases e
    obtain ⟨hty', hsome⟩ := step_types st (hc.type x hxc) hty
    have hsim' : ∀ y ∈ l, sim x.rate y.2.rate = true := by
      intro y hy
      obtain ⟨r, hr, e⟩ := hra y hy
      rw [e]
      exact hsim x hxc r hr
    have hlong : ∀ y ∈ l, y.2.start ≤ y.2.stop := fun y hy =>
      made_long hc (hh.1 y hy) (hchain y hy)
    have hne : NotExact x l := by
      intro y hy ⟨h1, _⟩
      obtain ⟨a, ha, _, _, e1, _⟩ := made_ends (hh.1 y hy)
      have := chain_start_inj hc hxc (hchain y hy a ha) (h1.trans e1.symm)
      subst this
      exact hxn (hrec y hy x ha)
    have hacc : accepted hist = hist.map Prod.fst := by
      unfold accepted
      rw [List.filter_eq_self.2 hall]
    obtain ⟨⟨t1, _⟩, ⟨t2, _⟩, _⟩ := reached_tracked hre
    rw [hacc] at t1 t2
    have hearly : ∀ y ∈ l, id.earliest ≤ y.2.start := by
      intro y hy
      obtain ⟨a, ha, _, _, e1, _⟩ := made_ends (hh.1 y hy)
      rw [← e1]
      exact t1 a (hrec y hy a ha)
    have hlate : ∀ y ∈ l, y.2.stop ≤ id.latest := by
      intro y hy
      obtain ⟨_, _, b, hb, _, e2⟩ := made_ends (hh.1 y hy)
      rw [← e2]
      exact t2 b (hrec y hy b hb)
    have hap' := step_apart hc hxc hsim' st hsome hso hlong hne hearly hlate hap
    obtain ⟨g', added', hh', hcase⟩ := step_holds st hr hh
    have hadd : added' = x :: hist.map Prod.fst := by
      rcases hcase with h | ⟨_, h⟩
      · exact h
      · exact absurd h hsome
    subst hadd
    have hres : res.isSome = true := by
      cases res with
      | none => exact absurd rfl hsome
      | some _ => rfl
    refine ⟨l', g', hr', ⟨hh'.1, hh'.2.trans ?_⟩, ?_, hty', step_rates st hxc hra, hap', ?_⟩
    · rw [List.map_append]
      exact (List.perm_append_singleton _ _).symm
    · cases st with
      | fail => cases hres
      | half => cases hres
      | back l1 l2 a s s' l' _ _ _ hs _ =>
        exact hs (hso.sublist (List.Sublist.append_left (List.sublist_cons_self _ _) _))
      | front l1 l2 a s s' l' _ _ _ hs _ =>
        exact hs (hso.sublist (List.Sublist.append_left (List.sublist_cons_self _ _) _))
      | join _ _ _ _ _ _ _ _ _ _ _ _ _ _ _ _ hs hs2 => exact hs (hs2 hso)
      | new _ _ _ _ _ hs _ _ => exact hs hso
    · intro y hy
      rcases List.mem_append.1 hy with h | h
      · exact hall y h
      · simp only [List.mem_singleton] at h; subst h; exact hres

theorem flatMap_disjoint {g : Nat → List (Arrival R)} {l : List (Nat × Seg R)}
    (h : (records g l).Nodup) {y z : Nat × Seg R} (hy : y ∈ l) (hz : z ∈ l) {r : Arrival R}
    (h1 : r ∈ g y.1) (h2 : r ∈ g z.1) : y = z := by
  induction l with
  | nil => cases hy
  | cons x t ih =>
    unfold records at h
    rw [List.flatMap_cons, List.nodup_append] at h
    obtain ⟨_, n2, n3⟩ := h
    rcases List.mem_cons.1 hy with hy | hy <;> rcases List.mem_cons.1 hz with hz | hz
    · rw [hy, hz]
    · rw [hy] at h1
      exact absurd rfl (n3 r h1 r (List.mem_flatMap.2 ⟨z, hz, h2⟩))
    · rw [hz] at h2
      exact absurd rfl (n3 r h2 r (List.mem_flatMap.2 ⟨y, hy, h1⟩))
    · exact ih n2 hy hz

/-- Strictly sorted lists with the same elements are equal. -/
theorem eq_of_perm_sorted {P : Int} {T : Char} {chain rs : List (Arrival R)}
    (hc : Contiguous P T chain) (hp : rs.Perm chain)
    (had : Adjacent (fun a b => b.start = a.stop + P) rs) : rs = chain := by
  have h1 := chain_times hc
  have hr : Contiguous P T rs := ⟨had, fun r h => hc.long r (hp.mem_iff.1 h),
    fun r h => hc.period r (hp.mem_iff.1 h), fun r h => hc.tol r (hp.mem_iff.1 h),
    fun r h => hc.type r (hp.mem_iff.1 h)⟩
  refine List.Perm.eq_of_pairwise ?_ (chain_times hr) h1 hp
  intro a b ha hb hab hba
  have e1 := hc.long a (hp.mem_iff.1 ha)
  have e2 := hc.long b hb
  have e3 := hc.tol b hb
  omega

/-- All records of a chain have arrived: there is one segment, the chain. -/
theorem chain_complete {sim : R → R → Bool} {keep : Bool} {P : Int} {T : Char}
    {chain : List (Arrival R)} (hc : Contiguous P T chain)
    (hsim : ∀ a ∈ chain, ∀ b ∈ chain, sim a.rate b.rate = true)
    {hist : List (Arrival R × Bool)} {id : Source R} (h : Reached sim true keep hist id)
    (hp : (hist.map Prod.fst).Perm chain) :
    ∃ a s, Rep id [(a, s)] ∧ Made keep chain s ∧ ∀ x ∈ hist, x.2 = true := by
  have hnd : (hist.map Prod.fst).Nodup := hp.nodup_iff.2 (chain_nodup hc)
  obtain ⟨l, g, hr, hh, hso, hty, hra, hap, hall⟩ := chain_inv hc hsim h
    (fun x hx => hp.mem_iff.1 (List.mem_map.2 ⟨x, hx, rfl⟩)) hnd
  have hperm := hh.2.trans hp
  have hnd' : (records g l).Nodup := hperm.nodup_iff.2 (chain_nodup hc)
  have hin : ∀ y ∈ l, ∀ r ∈ g y.1, r ∈ chain := fun y hy r hr =>
    hperm.mem_iff.1 (List.mem_flatMap.2 ⟨y, hy, hr⟩)
  have hout : ∀ r ∈ chain, ∃ y ∈ l, r ∈ g y.1 := fun r hr =>
    List.mem_flatMap.1 (hperm.mem_iff.2 hr)
  -- with a record, a segment has the next one
  have next : ∀ y ∈ l, ∀ a ∈ g y.1, ∀ b ∈ chain, b.start = a.stop + P → b ∈ g y.1 := by
    intro y hy a ha b hb hab
    rcases adjacent_mem (hh.1 y hy).near ha with hlast | ⟨b', hb', hn⟩
    · obtain ⟨z, hz, hbz⟩ := hout b hb
      rcases adjacent_mem_back (hh.1 z hz).near hbz with hfirst | ⟨a', ha', hn⟩
      · exfalso
        have e1 := (hh.1 y hy).stop
        have e2 := (hh.1 z hz).start
        rw [hlast] at e1
        rw [hfirst] at e2
        simp only [Option.map_some, Option.some.injEq] at e1 e2
        apply hap y hy z hz
        omega
      · have e := chain_near hc (hin z hz a' ha') hb hn
        have : a' = a := chain_stop_inj hc (hin z hz a' ha') (hin y hy a ha) (by omega)
        subst this
        have hyz := flatMap_disjoint hnd' hy hz ha ha'
        rw [hyz]
        exact hbz
    · have e := chain_near hc (hin y hy a ha) (hin y hy b' hb') hn
      have : b' = b := chain_start_inj hc (hin y hy b' hb') hb (by omega)
      subst this
      exact hb'
  -- from its first record on, a segment has them all
  have rest : ∀ y ∈ l, ∀ (t : List (Arrival R)) (a : Arrival R), (∀ r ∈ a :: t, r ∈ chain) →
      Adjacent (fun a b => b.start = a.stop + P) (a :: t) → a ∈ g y.1 → ∀ r ∈ a :: t, r ∈ g y.1 := by
    intro y hy t
    induction t with
    | nil =>
      intro a _ _ ha r hr
      simp only [List.mem_singleton] at hr
      rw [hr]; exact ha
    | cons b u ih =>
      intro a hsub had ha r hr
      rcases List.mem_cons.1 hr with hr | hr
      · rw [hr]; exact ha
      · exact ih b (fun r hr => hsub r (List.mem_cons_of_mem _ hr)) had.2
          (next y hy a ha b (hsub b (by simp)) had.1) r hr
  cases hch : chain with
  | nil =>
    exfalso
    have hne := hr.ne_nil
    cases hl : l with
    | nil => exact hne hl
    | cons y t =>
      obtain ⟨a, ha, _⟩ := made_ends (hh.1 y (by rw [hl]; simp))
      have := hin y (by rw [hl]; simp) a ha
      rw [hch] at this
      cases this
  | cons c0 ct =>
    obtain ⟨y, hy, hc0⟩ := hout c0 (by rw [hch]; simp)
    have hfollow := hc.follow
    rw [hch] at hfollow
    have hally : ∀ r ∈ chain, r ∈ g y.1 := by
      rw [hch]
      exact rest y hy ct c0 (by rw [hch]; exact fun r hr => hr) hfollow hc0
    have hone : ∀ z ∈ l, z = y := by
      intro z hz
      obtain ⟨a, ha, _⟩ := made_ends (hh.1 z hz)
      exact flatMap_disjoint hnd' hz hy ha (hally a (hin z hz a ha))
    have hl : l = [y] := by
      have hndl : l.Nodup := by
        have := hr.nodup
        unfold addrs at this
        exact (List.pairwise_map.1 this).imp fun h e => h (by rw [e])
      cases l with
      | nil => cases hy
      | cons z t =>
        have e1 := hone z (by simp)
        cases t with
        | nil => rw [e1]
        | cons w u =>
          have e2 := hone w (by simp)
          rw [List.nodup_cons] at hndl
          exact absurd (by rw [e1, ← e2]; simp) hndl.1
    subst hl
    obtain ⟨a, s⟩ := y
    have hmade := hh.1 (a, s) (by simp)
    have hpg : (g a).Perm chain := by
      have := hperm
      unfold records at this
      simpa using this
    have e : g a = chain := eq_of_perm_sorted hc hpg
      (adjacent_imp hmade.near fun p hp q hq hn =>
        chain_near hc (hpg.mem_iff.1 hp) (hpg.mem_iff.1 hq) hn)
    simp only [e] at hmade
    rw [hch] at hmade
    exact ⟨a, s, hr, hmade, hall⟩

/-! ## Records in order -/

theorem adjacent_snoc {α : Type} {P : α → α → Prop} {l : List α} {x : α} (h : Adjacent P (l ++ [x])) :
    Adjacent P l ∧ ∀ a, l.getLast? = some a → P a x := by
  induction l with
  | nil => exact ⟨trivial, fun a ha => by cases ha⟩
  | cons y t ih =>
    cases t with
    | nil =>
      refine ⟨trivial, fun a ha => ?_⟩
      simp only [List.getLast?_singleton, Option.some.injEq] at ha
      subst ha
      exact h.1
    | cons z u =>
      obtain ⟨h1, h2⟩ := ih h.2
      exact ⟨⟨h.1, h1⟩, fun a ha => h2 a (by rw [List.getLast?_cons_cons] at ha; exact ha)⟩

/-- Records of a chain in the order of the chain make one segment, healing or not. -/
theorem chain_inorder {sim : R → R → Bool} {autoheal keep : Bool} {P : Int} {T : Char}
    {chain : List (Arrival R)} (hsim : ∀ a ∈ chain, ∀ b ∈ chain, sim a.rate b.rate = true)
    {hist : List (Arrival R × Bool)} {id : Source R} (h : Reached sim autoheal keep hist id)
    (hsub : ∀ x ∈ hist, x.1 ∈ chain) (hc : Contiguous P T (hist.map Prod.fst)) :
    ∃ a s, Rep id [(a, s)] ∧ Made keep (hist.map Prod.fst) s ∧ (∀ x ∈ hist, x.2 = true) ∧
      Types T [(a, s)] ∧ Rates chain [(a, s)] := by
  induction h with
  | new r id hn =>
    obtain ⟨s, hm, hr, _⟩ := newId_rep keep r id hn
    have hrc : r ∈ chain := hsub (r, true) (by simp)
    obtain ⟨s1, e1, e2⟩ := msr2seg_type (keep := keep) (hc.type r (by simp))
    rw [hm] at e1
    cases e1
    refine ⟨0, s, hr, made_new hm, by simp, types_cons e2 (fun y hy => by cases hy), ?_⟩
    intro y hy
    simp only [List.mem_singleton] at hy
    subst hy
    refine ⟨r, hrc, ?_⟩
    unfold msr2seg at hm
    split at hm
    · cases hm
    · cases hm; rfl
  | add hist id x id' res hre ha ih =>
    have hmap : (hist ++ [(x, res.isSome)]).map Prod.fst = hist.map Prod.fst ++ [x] := by simp
    rw [hmap] at hc ⊢
    have hxc : x ∈ chain := hsub (x, res.isSome) (by simp)
    obtain ⟨hadj, hlast⟩ := adjacent_snoc hc.follow
    have hmem : ∀ r ∈ hist.map Prod.fst, r ∈ hist.map Prod.fst ++ [x] := fun r hr =>
      List.mem_append.2 (Or.inl hr)
    have hc0 : Contiguous P T (hist.map Prod.fst) := ⟨hadj, fun r hr => hc.long r (hmem r hr),
      fun r hr => hc.period r (hmem r hr), fun r hr => hc.tol r (hmem r hr),
      fun r hr => hc.type r (hmem r hr)⟩
    obtain ⟨a, s, hr, hmade, hall, hty, hra⟩ := ih
      (fun y hy => hsub y (List.mem_append.2 (Or.inl hy))) hc0
    have hxm : x ∈ hist.map Prod.fst ++ [x] := by simp
    have hxl := hc.long x hxm
    have hxp := hc.period x hxm
    have hxt := hc.tol x hxm
    have hsl := made_long hc0 hmade fun r hr => hr
    have hsx : x.start = s.stop + P := by
      have h2 := hmade.stop
      cases hb : (hist.map Prod.fst).getLast? with
      | none => rw [hb] at h2; cases h2
      | some b =>
        rw [hb] at h2
        have := hlast b hb
        simp only [Option.map_some, Option.some.injEq] at h2
        omega
    have hfo : Follows sim x s := by
      refine ⟨?_, ?_⟩
      · unfold fits
        simp only [decide_eq_true_eq]
        omega
      · obtain ⟨r, hr, e⟩ := hra (a, s) (by simp)
        simp only at e
        rw [e]
        exact hsim x hxc r hr
    obtain ⟨id2, res2, l', e, hr', st, _⟩ := addToId_step sim autoheal keep hr x
    rw [ha] at e
    cases e
    obtain ⟨hty', hsome⟩ := step_types st (hc.type x hxm) hty
    have hra' := step_rates st hxc hra
    have hlastaddr : id.last = a := by
      have := hr.last
      simp only [lastAddr, Option.some.injEq] at this
      exact this.symm
    have hres : res.isSome = true := by
      cases res with
      | none => exact absurd rfl hsome
      | some _ => rfl
    have hall' : ∀ y ∈ hist ++ [(x, res.isSome)], y.2 = true := by
      intro y hy
      rcases List.mem_append.1 hy with h | h
      · exact hall y h
      · simp only [List.mem_singleton] at h; subst h; exact hres
    generalize hl : [(a, s)] = l at st
    cases st with
    | fail => cases hres
    | half => cases hres
    | back l1 l2 b u u' l' hf hm hp _ _ =>
      have h1 : l1 = [] ∧ b = a ∧ u = s ∧ l2 = [] := by
        cases l1 with
        | nil => simp only [List.nil_append, List.cons.injEq, Prod.mk.injEq] at hl
                 exact ⟨rfl, hl.1.1.symm, hl.1.2.symm, hl.2.symm⟩
        | cons z t => simp at hl
      obtain ⟨rfl, rfl, rfl, rfl⟩ := h1
      have e : l' = [(b, u')] := List.perm_singleton.1 hp
      subst e
      exact ⟨b, u', hr', made_back hmade hfo hm, hall', hty', hra'⟩
    | front l1 l2 b u u' l' hf hm hp _ _ =>
      exfalso
      have h1 : u = s := by
        cases l1 with
        | nil => simp only [List.nil_append, List.cons.injEq, Prod.mk.injEq] at hl
                 exact hl.1.2.symm
        | cons z t => simp at hl
      subst h1
      have := hf.1
      unfold fits at this
      simp only [decide_eq_true_eq] at this
      omega
    | join l m b u u' u'' c t l' _ _ _ _ _ hp _ _ _ =>
      exfalso
      have := hp.length_eq
      rw [← hl] at this
      simp at this
    | new l u l' _ _ _ hnl _ =>
      exfalso
      refine hnl (a, s) hlastaddr.symm ?_ hfo
      rw [← hl]
      simp

/-- Every nonempty list of arrivals, the first with a known sample type, gives a history. -/
theorem histories (sim : R → R → Bool) (autoheal keep : Bool) (r : Arrival R)
    (h : newId keep r ≠ none) (rs : List (Arrival R)) :
    ∃ hist id, Reached sim autoheal keep hist id ∧ hist.map Prod.fst = r :: rs := by
  have main : ∀ (n : Nat) (rs : List (Arrival R)), rs.length = n →
      ∃ hist id, Reached sim autoheal keep hist id ∧ hist.map Prod.fst = r :: rs := by
    intro n
    induction n with
    | zero =>
      intro rs hn
      have : rs = [] := List.length_eq_zero_iff.1 hn
      subst this
      cases hid : newId keep r with
      | none => exact absurd hid h
      | some id => exact ⟨[(r, true)], id, Reached.new r id hid, rfl⟩
    | succ n ih =>
      intro rs hn
      have hne : rs ≠ [] := by intro e; subst e; simp at hn
      obtain ⟨hist, id, hre, hmap⟩ := ih rs.dropLast (by simp [hn])
      obtain ⟨l, _, _, hr, _⟩ := reached_inv hre
      obtain ⟨id', res, l', e, _⟩ := addToId_step sim autoheal keep hr (rs.getLast hne)
      refine ⟨_, id', Reached.add hist id _ id' res hre e, ?_⟩
      simp only [List.map_append, hmap, List.map_cons, List.map_nil, List.cons_append]
      rw [List.dropLast_concat_getLast]
  exact main rs.length rs rfl

end Verif.Proof.Trace
