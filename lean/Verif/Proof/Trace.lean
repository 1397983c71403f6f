import Verif.Model.Trace
import Verif.Proof.Mem
/-!
# Lemmas about the doubly linked list of segments
-/
namespace Verif.Proof.Trace
open Verif.Model.Steim Verif.Model.Samples Verif.Model.Trace
open Verif.Proof.Mem

variable {R : Type}

/-- The address of the first node, or what follows. -/
def headAddr : List (Nat × Seg R) → Option Nat → Option Nat
  | [], n => n
  | (a, _) :: _, _ => some a

/-- The address of the last node, or what precedes. -/
def lastAddr : List (Nat × Seg R) → Option Nat → Option Nat
  | [], p => p
  | (a, _) :: t, _ => lastAddr t (some a)

/-- The nodes are in memory, linked to one another, to `p` before and `n` behind. -/
def Links (h : Heap R) : Option Nat → List (Nat × Seg R) → Option Nat → Prop
  | _, [], _ => True
  | p, (a, s) :: t, n => h a = some ⟨s, headAddr t n, p⟩ ∧ Links h (some a) t n

def addrs (l : List (Nat × Seg R)) : List Nat := l.map Prod.fst

@[simp] theorem addrs_nil : addrs ([] : List (Nat × Seg R)) = [] := rfl
@[simp] theorem addrs_cons (x : Nat × Seg R) (l : List (Nat × Seg R)) :
    addrs (x :: l) = x.1 :: addrs l := rfl
@[simp] theorem addrs_append (l m : List (Nat × Seg R)) : addrs (l ++ m) = addrs l ++ addrs m := by
  unfold addrs; exact List.map_append

theorem headAddr_cons (a : Nat) (s : Seg R) (t : List (Nat × Seg R)) (n : Option Nat) :
    headAddr ((a, s) :: t) n = some a := rfl

theorem headAddr_nil (n : Option Nat) : headAddr ([] : List (Nat × Seg R)) n = n := rfl

theorem headAddr_append (l m : List (Nat × Seg R)) (n : Option Nat) :
    headAddr (l ++ m) n = headAddr l (headAddr m n) := by
  cases l with
  | nil => rfl
  | cons x t => rfl

theorem lastAddr_append (l m : List (Nat × Seg R)) : ∀ p, 
    lastAddr (l ++ m) p = lastAddr m (lastAddr l p) := by
  induction l with
  | nil => intro p; rfl
  | cons x t ih => intro p; exact ih _

theorem links_append (h : Heap R) (l m : List (Nat × Seg R)) (n : Option Nat) : ∀ p,
    Links h p (l ++ m) n ↔ Links h p l (headAddr m n) ∧ Links h (lastAddr l p) m n := by
  induction l with
  | nil => intro p; simp [Links, lastAddr]
  | cons x t ih =>
    intro p
    obtain ⟨a, s⟩ := x
    simp only [List.cons_append, Links, lastAddr, headAddr_append, ih]
    exact and_assoc.symm

theorem links_frame (h h' : Heap R) (n : Option Nat) (l : List (Nat × Seg R)) : ∀ p,
    (∀ x ∈ addrs l, h' x = h x) → Links h p l n → Links h' p l n := by
  induction l with
  | nil => intro p _ _; trivial
  | cons x t ih =>
    intro p hf hl
    obtain ⟨a, s⟩ := x
    refine ⟨?_, ih _ (fun x hx => hf x (by simp [hx])) hl.2⟩
    rw [hf a (by simp)]
    exact hl.1

theorem lastAddr_mem : ∀ (l : List (Nat × Seg R)) (p : Option Nat) (a : Nat), l ≠ [] →
    lastAddr l p = some a → a ∈ addrs l := by
  intro l
  induction l with
  | nil => intro p a h; exact absurd rfl h
  | cons x t ih =>
    intro p a _ h
    cases t with
    | nil => simp only [lastAddr] at h; cases h; simp
    | cons y u => have := ih (some x.1) a (by simp) h; simp at this ⊢; exact Or.inr this

theorem lastAddr_some : ∀ (l : List (Nat × Seg R)) (p : Option Nat), l ≠ [] →
    ∃ a, lastAddr l p = some a := by
  intro l
  induction l with
  | nil => intro p h; exact absurd rfl h
  | cons x t ih =>
    intro p _
    cases t with
    | nil => exact ⟨_, rfl⟩
    | cons y u => exact ih (some x.1) (by simp)

theorem headAddr_mem (l : List (Nat × Seg R)) (n : Option Nat) (a : Nat) (hne : l ≠ [])
    (h : headAddr l n = some a) : a ∈ addrs l := by
  cases l with
  | nil => exact absurd rfl hne
  | cons x t => simp only [headAddr] at h; cases h; simp

/-! ## Assignments -/

theorem get_some {h : Heap R} {a : Nat} {n : Node R} (e : h a = some n) : fetch h a = .ok n := by
  unfold fetch; rw [e]

theorem put_same (h : Heap R) (a : Nat) (n : Node R) : put h a n a = some n := by
  unfold put; rw [if_pos rfl]

theorem put_other (h : Heap R) {a x : Nat} (n : Node R) (hx : x ≠ a) : put h a n x = h x := by
  unfold put; rw [if_neg hx]

theorem setNext_ok {h : Heap R} {a : Nat} {n : Node R} (e : h a = some n) (p : Option Nat) :
    setNext h a p = .ok (put h a { n with next := p }) := by
  unfold setNext; rw [get_some e, bind_ok]

theorem setPrev_ok {h : Heap R} {a : Nat} {n : Node R} (e : h a = some n) (p : Option Nat) :
    setPrev h a p = .ok (put h a { n with prev := p }) := by
  unfold setPrev; rw [get_some e, bind_ok]

theorem setSeg_ok {h : Heap R} {a : Nat} {n : Node R} (e : h a = some n) (s : Seg R) :
    setSeg h a s = .ok (put h a { n with seg := s }) := by
  unfold setSeg; rw [get_some e, bind_ok]

/-- Changing what the last node of a list points to. -/
theorem links_setNext (h : Heap R) (q : Option Nat) (l : List (Nat × Seg R)) : ∀ (p n : Option Nat),
    (addrs l).Nodup → Links h p l n → (l = [] → p = none) →
    ∃ h', setNextOf h (lastAddr l p) q = .ok h' ∧ Links h' p l q ∧
      ∀ x, x ∉ addrs l → h' x = h x := by
  induction l with
  | nil =>
    intro p n _ _ hp
    rw [hp rfl]
    exact ⟨h, rfl, trivial, fun _ _ => rfl⟩
  | cons x t ih =>
    intro p n hnd hl _
    obtain ⟨a, s⟩ := x
    simp only [addrs_cons, List.nodup_cons] at hnd
    cases t with
    | nil =>
      simp only [Links, headAddr] at hl
      refine ⟨put h a ⟨s, q, p⟩, ?_, ?_, ?_⟩
      · simp only [lastAddr, setNextOf]
        rw [setNext_ok hl.1]
      · exact ⟨put_same _ _ _, trivial⟩
      · intro x hx
        exact put_other _ _ (by simpa using hx)
    | cons y u =>
      obtain ⟨h', e1, e2, e3⟩ := ih (some a) n hnd.2 hl.2 (by simp)
      refine ⟨h', e1, ⟨?_, e2⟩, ?_⟩
      · rw [e3 a hnd.1]
        exact hl.1
      · intro x hx
        exact e3 x (by simp at hx ⊢; exact hx.2)

/-- Changing what the first node of a list points back to. -/
theorem links_setPrev (h : Heap R) (q : Option Nat) (l : List (Nat × Seg R)) (p n : Option Nat)
    (hnd : (addrs l).Nodup) (hl : Links h p l n) (hn : l = [] → n = none) :
    ∃ h', setPrevOf h (headAddr l n) q = .ok h' ∧ Links h' q l n ∧
      ∀ x, x ∉ addrs l → h' x = h x := by
  cases l with
  | nil =>
    rw [hn rfl]
    exact ⟨h, rfl, trivial, fun _ _ => rfl⟩
  | cons x t =>
    obtain ⟨a, s⟩ := x
    simp only [addrs_cons, List.nodup_cons] at hnd
    refine ⟨put h a ⟨s, headAddr t n, q⟩, ?_, ⟨put_same _ _ _, ?_⟩, ?_⟩
    · exact setPrev_ok hl.1 q
    · refine links_frame h _ n t _ ?_ hl.2
      intro x hx
      exact put_other _ _ (by intro e; subst e; exact hnd.1 hx)
    · intro x hx
      exact put_other _ _ (by simp at hx; exact hx.1)

/-! ## The list of a source -/

/-- The segments of a source in memory are those of `l`, in order. -/
structure Rep (id : Source R) (l : List (Nat × Seg R)) : Prop where
  nodup : (addrs l).Nodup
  links : Links id.heap none l none
  first : headAddr l none = some id.first
  last : lastAddr l none = some id.last
  old : ∀ a ∈ addrs l, a < id.fresh
  count : id.numsegments = l.length
  only : ∀ a, a ∉ addrs l → id.heap a = none

theorem Rep.ne_nil {id : Source R} {l : List (Nat × Seg R)} (r : Rep id l) : l ≠ [] := by
  intro h
  have := r.first
  rw [h] at this
  cases this

/-- The node of a segment in the middle. -/
theorem node_at {h : Heap R} {l1 l2 : List (Nat × Seg R)} {a : Nat} {s : Seg R} {p n : Option Nat}
    (hl : Links h p (l1 ++ (a, s) :: l2) n) :
    h a = some ⟨s, headAddr l2 n, lastAddr l1 p⟩ :=
  (((links_append _ _ _ _ _).1 hl).2).1

theorem put_links {h : Heap R} {l1 l2 : List (Nat × Seg R)} {a : Nat} {s s' : Seg R}
    {p n : Option Nat} (hnd : (addrs (l1 ++ (a, s) :: l2)).Nodup)
    (hl : Links h p (l1 ++ (a, s) :: l2) n) :
    setSeg h a s' = .ok (put h a ⟨s', headAddr l2 n, lastAddr l1 p⟩) ∧
    Links (put h a ⟨s', headAddr l2 n, lastAddr l1 p⟩) p (l1 ++ (a, s') :: l2) n := by
  refine ⟨setSeg_ok (node_at hl) _, ?_⟩
  simp only [addrs_append, addrs_cons] at hnd
  rw [List.nodup_append] at hnd
  obtain ⟨_, n2, n3⟩ := hnd
  rw [List.nodup_cons] at n2
  obtain ⟨k1, k2⟩ := (links_append _ _ _ _ _).1 hl
  rw [links_append]
  refine ⟨?_, put_same _ _ _, ?_⟩
  · refine links_frame h _ _ _ _ ?_ k1
    intro x hx
    exact put_other _ _ (n3 x hx a (by simp))
  · refine links_frame h _ _ _ _ ?_ k2.2
    intro x hx
    exact put_other _ _ (by intro e; subst e; exact n2.1 hx)

/-- Replacing a segment. -/
theorem setSeg_rep {id : Source R} {l1 l2 : List (Nat × Seg R)} {a : Nat} {s : Seg R} (s' : Seg R)
    (r : Rep id (l1 ++ (a, s) :: l2)) :
    ∃ h, setSeg id.heap a s' = .ok h ∧ ∀ e t p, Rep { id with heap := h, earliest := e, latest := t, pub := p }
      (l1 ++ (a, s') :: l2) := by
  obtain ⟨q1, q2⟩ := put_links (s' := s') r.nodup r.links
  refine ⟨_, q1, fun e t p => ⟨?_, q2, ?_, ?_, ?_, ?_, ?_⟩⟩
  · have := r.nodup; simpa using this
  · have := r.first; rw [headAddr_append] at this ⊢; exact this
  · have := r.last; rw [lastAddr_append] at this ⊢; exact this
  · have := r.old; simpa using this
  · have := r.count; simpa using this
  · intro x hx
    have hx' : x ∉ addrs (l1 ++ (a, s) :: l2) := by simpa using hx
    have hxa : x ≠ a := by simp at hx; exact hx.2.1
    exact (put_other _ _ hxa).trans (r.only x hx')

theorem track_rep {id : Source R} {l : List (Nat × Seg R)} (r : Rep id l) (x : Arrival R) :
    Rep (track id x) l := ⟨r.nodup, r.links, r.first, r.last, r.old, r.count, r.only⟩

/-- A new node. -/
theorem alloc_links {h : Heap R} {l : List (Nat × Seg R)} {p n : Option Nat} {a : Nat} (nd : Node R)
    (hl : Links h p l n) (ha : a ∉ addrs l) : Links (put h a nd) p l n := by
  refine links_frame h _ _ _ _ ?_ hl
  intro x hx
  exact put_other _ _ (by intro e; subst e; exact ha hx)

theorem fresh_not_mem {id : Source R} {l : List (Nat × Seg R)} (r : Rep id l) : id.fresh ∉ addrs l := by
  intro h
  have := r.old _ h
  omega

theorem split_last (l : List (Nat × Seg R)) (h : l ≠ []) (a : Nat) (p : Option Nat)
    (ha : lastAddr l p = some a) : ∃ l' s, l = l' ++ [(a, s)] := by
  induction l generalizing p with
  | nil => exact absurd rfl h
  | cons x t ih =>
    cases t with
    | nil =>
      simp only [lastAddr] at ha
      cases ha
      exact ⟨[], x.2, rfl⟩
    | cons y u =>
      obtain ⟨l', s, e⟩ := ih (by simp) (some x.1) ha
      exact ⟨x :: l', s, by rw [e]; rfl⟩

/-- tracelist.c:502-512 -/
theorem appendSeg_rep {id : Source R} {l : List (Nat × Seg R)} (r : Rep id l) (x : Arrival R) (s : Seg R) :
    ∃ id', appendSeg id x s = .ok (id', id.fresh) ∧ Rep id' (l ++ [(id.fresh, s)]) ∧
      id'.sid = id.sid ∧ id'.pub = id.pub ∧ id'.earliest = id.earliest ∧
      id'.latest = (if x.stop > id.latest then x.stop else id.latest) := by
  have hf := fresh_not_mem r
  unfold appendSeg
  simp only
  have hl := alloc_links ⟨s, none, none⟩ r.links hf
  obtain ⟨h1, e1, e2, e3⟩ := links_setNext _ (some id.fresh) l none none r.nodup hl (fun _ => rfl)
  rw [r.last] at e1
  simp only [setNextOf] at e1
  rw [e1, bind_ok, setPrev_ok (n := ⟨s, none, none⟩) (by rw [e3 _ hf, put_same]), bind_ok]
  refine ⟨_, rfl, ⟨?_, ?_, ?_, ?_, ?_, ?_, ?_⟩, rfl, rfl, rfl, rfl⟩
  · simp only [addrs_append, addrs_cons, addrs_nil]
    rw [List.nodup_append]
    refine ⟨r.nodup, by simp, ?_⟩
    intro a ha b hb
    simp at hb
    subst hb
    intro e; subst e; exact hf ha
  · dsimp only
    rw [links_append]
    refine ⟨alloc_links _ e2 hf, ?_, trivial⟩
    rw [r.last]
    exact put_same _ _ _
  · rw [headAddr_append]
    have := r.first
    cases l with
    | nil => exact absurd rfl r.ne_nil
    | cons y u => exact this
  · rw [lastAddr_append]; rfl
  · intro a ha
    simp only [addrs_append, addrs_cons, addrs_nil, List.mem_append, List.mem_singleton] at ha
    show a < id.fresh + 1
    rcases ha with ha | ha
    · have := r.old a ha; omega
    · omega
  · show id.numsegments + 1 = _
    rw [r.count]; simp
  · intro y hy
    simp only [addrs_append, addrs_cons, addrs_nil, List.mem_append, List.mem_singleton, not_or] at hy
    exact (put_other _ _ hy.2).trans ((e3 y hy.1).trans ((put_other _ _ hy.2).trans (r.only y hy.1)))

/-- tracelist.c:521-531 -/
theorem prependSeg_rep {id : Source R} {l : List (Nat × Seg R)} (r : Rep id l) (x : Arrival R) (s : Seg R) :
    ∃ id', prependSeg id x s = .ok (id', id.fresh) ∧ Rep id' ((id.fresh, s) :: l) ∧
      id'.sid = id.sid ∧ id'.pub = id.pub ∧
      id'.earliest = (if x.start < id.earliest then x.start else id.earliest) ∧
      id'.latest = id.latest := by
  have hf := fresh_not_mem r
  unfold prependSeg
  simp only
  have hl := alloc_links ⟨s, none, none⟩ r.links hf
  obtain ⟨h1, e1, e2, e3⟩ := links_setPrev _ (some id.fresh) l none none r.nodup hl (fun _ => rfl)
  rw [r.first] at e1
  simp only [setPrevOf] at e1
  rw [e1, bind_ok, setNext_ok (n := ⟨s, none, none⟩) (by rw [e3 _ hf, put_same]), bind_ok]
  refine ⟨_, rfl, ⟨?_, ?_, ?_, ?_, ?_, ?_, ?_⟩, rfl, rfl, rfl, rfl⟩
  · rw [addrs_cons, List.nodup_cons]
    exact ⟨hf, r.nodup⟩
  · refine ⟨?_, alloc_links _ e2 hf⟩
    rw [r.first]
    exact put_same _ _ _
  · rfl
  · have := r.last
    cases l with
    | nil => exact absurd rfl r.ne_nil
    | cons y u => exact this
  · intro a ha
    simp only [addrs_cons, List.mem_cons] at ha
    show a < id.fresh + 1
    rcases ha with ha | ha
    · omega
    · have := r.old a ha; omega
  · show id.numsegments + 1 = _
    rw [r.count]; simp
  · intro y hy
    simp only [addrs_cons, List.mem_cons, not_or] at hy
    exact (put_other _ _ hy.1).trans ((e3 y hy.2).trans ((put_other _ _ hy.1).trans (r.only y hy.2)))

/-- tracelist.c:688-696: as the first segment. -/
theorem insertSeg_first {id : Source R} {l : List (Nat × Seg R)} (r : Rep id l) (s : Seg R) :
    ∃ id', insertSeg id s none = .ok (id', id.fresh) ∧ Rep id' ((id.fresh, s) :: l) ∧
      id'.sid = id.sid ∧ id'.pub = id.pub ∧ id'.earliest = id.earliest ∧ id'.latest = id.latest := by
  have hf := fresh_not_mem r
  unfold insertSeg
  simp only
  have hl := alloc_links ⟨s, some id.first, none⟩ (alloc_links ⟨s, none, none⟩ r.links hf) hf
  rw [setNext_ok (n := ⟨s, none, none⟩) (put_same _ _ _), bind_ok]
  obtain ⟨h1, e1, e2, e3⟩ := links_setPrev _ (some id.fresh) l none none r.nodup hl (fun _ => rfl)
  rw [r.first] at e1
  simp only [setPrevOf] at e1
  rw [e1, bind_ok]
  refine ⟨_, rfl, ⟨?_, ?_, ?_, ?_, ?_, ?_, ?_⟩, rfl, rfl, rfl, rfl⟩
  · rw [addrs_cons, List.nodup_cons]
    exact ⟨hf, r.nodup⟩
  · refine ⟨?_, e2⟩
    rw [r.first]
    exact (e3 _ hf).trans (put_same _ _ _)
  · rfl
  · have := r.last
    cases l with
    | nil => exact absurd rfl r.ne_nil
    | cons y u => exact this
  · intro a ha
    simp only [addrs_cons, List.mem_cons] at ha
    show a < id.fresh + 1
    rcases ha with ha | ha
    · omega
    · have := r.old a ha; omega
  · show id.numsegments + 1 = _
    rw [r.count]; simp
  · intro y hy
    simp only [addrs_cons, List.mem_cons, not_or] at hy
    exact (e3 y hy.2).trans ((put_other _ _ hy.1).trans ((put_other _ _ hy.1).trans (r.only y hy.2)))

theorem nodup_mid {l1 l2 : List (Nat × Seg R)} {a : Nat} {s : Seg R}
    (h : (addrs (l1 ++ (a, s) :: l2)).Nodup) :
    (addrs l1).Nodup ∧ (addrs l2).Nodup ∧ a ∉ addrs l1 ∧ a ∉ addrs l2 ∧
      ∀ x, x ∈ addrs l1 → x ∉ addrs l2 := by
  simp only [addrs_append, addrs_cons] at h
  rw [List.nodup_append] at h
  obtain ⟨n1, n2, n3⟩ := h
  rw [List.nodup_cons] at n2
  refine ⟨n1, n2.2, ?_, n2.1, ?_⟩
  · intro h; exact n3 a h a (by simp) rfl
  · intro x hx hy
    exact n3 x hx x (by simp [hy]) rfl

theorem headAddr_ne (l : List (Nat × Seg R)) (n m : Option Nat) (h : l ≠ []) :
    headAddr l n = headAddr l m := by
  cases l with
  | nil => exact absurd rfl h
  | cons x t => rfl

theorem lastAddr_ne (l : List (Nat × Seg R)) (n m : Option Nat) (h : l ≠ []) :
    lastAddr l n = lastAddr l m := by
  cases l with
  | nil => exact absurd rfl h
  | cons x t => rfl

/-- tracelist.c:697-708: behind another segment. -/
theorem insertSeg_after {id : Source R} {l1 l2 : List (Nat × Seg R)} {f : Nat} {t : Seg R}
    (r : Rep id (l1 ++ (f, t) :: l2)) (s : Seg R) :
    ∃ id', insertSeg id s (some f) = .ok (id', id.fresh) ∧
      Rep id' (l1 ++ (f, t) :: (id.fresh, s) :: l2) ∧
      id'.sid = id.sid ∧ id'.pub = id.pub ∧ id'.earliest = id.earliest ∧ id'.latest = id.latest := by
  have hf := fresh_not_mem r
  have hold := r.old
  have hnd := nodup_mid r.nodup
  obtain ⟨n1, n2, n3, n4, n5⟩ := hnd
  have hne : f ≠ id.fresh := by
    intro e; apply hf; rw [← e]; simp
  have hf1 : id.fresh ∉ addrs l1 := fun h => hf (by simp [h])
  have hf2 : id.fresh ∉ addrs l2 := fun h => hf (by simp [h])
  unfold insertSeg
  simp only
  have hl := alloc_links ⟨s, none, none⟩ r.links hf
  have hnf := node_at hl
  rw [get_some hnf, bind_ok]
  simp only
  rw [setNext_ok (n := ⟨s, none, none⟩) (put_same _ _ _), bind_ok,
    setPrev_ok (n := ⟨s, headAddr l2 none, none⟩) (put_same _ _ _), bind_ok]
  have hl := alloc_links ⟨s, headAddr l2 none, some f⟩
    (alloc_links ⟨s, headAddr l2 none, none⟩ hl hf) hf
  obtain ⟨k1, k2, k3⟩ := (links_append _ _ _ _ _).1 hl
  obtain ⟨h1, e1, e2, e3⟩ := links_setPrev _ (some id.fresh) l2 (some f) none n2 k3 (fun _ => rfl)
  have hfn := k2
  rw [← e3 f n4] at hfn
  rw [e1, bind_ok, setNext_ok hfn, bind_ok]
  refine ⟨_, rfl, ⟨?_, ?_, ?_, ?_, ?_, ?_, ?_⟩, rfl, rfl, rfl, rfl⟩
  · have := r.nodup
    simp only [addrs_append, addrs_cons] at this ⊢
    rw [List.nodup_append] at this ⊢
    refine ⟨n1, ?_, ?_⟩
    · rw [List.nodup_cons, List.nodup_cons]
      refine ⟨?_, hf2, n2⟩
      simp only [List.mem_cons]
      intro h
      rcases h with h | h
      · exact hne h
      · exact n4 h
    · intro a ha b hb
      simp only [List.mem_cons] at hb
      rcases hb with hb | hb | hb
      · intro e; subst e; subst hb; exact n3 ha
      · intro e; subst e; subst hb; exact hf1 ha
      · intro e; subst e; exact n5 a ha hb
  · dsimp only
    rw [links_append]
    refine ⟨?_, ?_, ?_, ?_⟩
    · refine links_frame _ _ _ _ _ ?_ k1
      intro x hx
      rw [put_other _ _ (by intro e; subst e; exact n3 hx), e3 x (n5 x hx)]
    · rw [put_same]; rfl
    · rw [put_other _ _ hne.symm, e3 _ hf2, put_same]
    · refine links_frame _ _ _ _ _ ?_ e2
      intro x hx
      exact put_other _ _ (by intro e; subst e; exact n4 hx)
  · have := r.first
    rw [headAddr_append] at this ⊢
    exact this
  · have := r.last
    rw [lastAddr_append] at this ⊢
    simp only [lastAddr] at this ⊢
    by_cases h0 : l2 = []
    · subst h0
      simp only [lastAddr] at this ⊢
      cases this
      rw [if_pos rfl]
    · rw [lastAddr_ne l2 _ (some f) h0, this]
      have hm := lastAddr_mem l2 _ _ h0 this
      rw [if_neg (by intro e; subst e; exact n4 hm)]
  · intro a ha
    simp only [addrs_append, addrs_cons, List.mem_append, List.mem_cons] at ha hold
    show a < id.fresh + 1
    rcases ha with ha | ha | ha | ha
    · have := hold a (Or.inl ha); omega
    · have := hold a (Or.inr (Or.inl ha)); omega
    · omega
    · have := hold a (Or.inr (Or.inr ha)); omega
  · show id.numsegments + 1 = _
    rw [r.count]
    simp only [List.length_append, List.length_cons]
    omega
  · intro y hy
    simp only [addrs_append, addrs_cons, List.mem_append, List.mem_cons, not_or] at hy
    obtain ⟨y1, y2, y3, y4⟩ := hy
    refine (put_other _ _ y2).trans ((e3 y y4).trans ((put_other _ _ y3).trans ((put_other _ _ y3).trans
      ((put_other _ _ y3).trans (r.only y ?_)))))
    simp only [addrs_append, addrs_cons, List.mem_append, List.mem_cons, not_or]
    exact ⟨y1, y2, y4⟩

/-- tracelist.c:630-652: remove a segment that is not the first. -/
theorem removeSeg_rep {id : Source R} {l1 l2 : List (Nat × Seg R)} {c : Nat} {t : Seg R}
    (r : Rep id (l1 ++ (c, t) :: l2)) (hne : l1 ≠ []) :
    ∃ id', removeSeg id c = .ok id' ∧ Rep id' (l1 ++ l2) ∧
      id'.sid = id.sid ∧ id'.pub = id.pub ∧ id'.earliest = id.earliest ∧ id'.latest = id.latest ∧
      id'.fresh = id.fresh := by
  have hold := r.old
  obtain ⟨n1, n2, n3, n4, n5⟩ := nodup_mid r.nodup
  obtain ⟨p, hp⟩ := lastAddr_some l1 none hne
  have hc := node_at r.links
  have hlast := r.last
  rw [lastAddr_append] at hlast
  simp only [lastAddr] at hlast
  have hfin : newLast id c = .ok (if l2 = [] then p else id.last) := by
    unfold newLast
    by_cases h0 : l2 = []
    · subst h0
      simp only [lastAddr] at hlast
      cases hlast
      rw [if_pos rfl, get_some hc, bind_ok]
      simp only [hp, if_true]
    · have hm := lastAddr_mem l2 _ _ h0 hlast
      rw [if_neg (by intro e; rw [e] at n4; exact n4 hm), if_neg h0]
  unfold removeSeg
  rw [hfin, bind_ok, get_some hc, bind_ok]
  simp only
  obtain ⟨k1, k2, k3⟩ := (links_append _ _ _ _ _).1 r.links
  obtain ⟨h1, e1, e2, e3⟩ := links_setNext _ (headAddr l2 none) l1 none _ n1 k1 (fun _ => rfl)
  rw [e1, bind_ok]
  have hc1 : h1 c = some ⟨t, headAddr l2 none, lastAddr l1 none⟩ := by rw [e3 c n3]; exact hc
  rw [get_some hc1, bind_ok]
  simp only
  have k3' : Links h1 (some c) l2 none := by
    refine links_frame _ _ _ _ _ ?_ k3
    intro x hx
    exact e3 x (fun h => n5 x h hx)
  obtain ⟨h2, f1, f2, f3⟩ := links_setPrev _ (lastAddr l1 none) l2 (some c) none n2 k3' (fun _ => rfl)
  rw [f1, bind_ok]
  have hc2 : h2 c = some ⟨t, headAddr l2 none, lastAddr l1 none⟩ := by rw [f3 c n4]; exact hc1
  rw [get_some hc2, bind_ok]
  refine ⟨_, rfl, ⟨?_, ?_, ?_, ?_, ?_, ?_, ?_⟩, rfl, rfl, rfl, rfl, rfl⟩
  · simp only [addrs_append]
    rw [List.nodup_append]
    refine ⟨n1, n2, ?_⟩
    intro a ha b hb e
    subst e
    exact n5 a ha hb
  · rw [links_append]
    constructor
    · refine links_frame h1 _ _ _ _ ?_ e2
      intro x hx
      show free h2 c x = h1 x
      unfold free
      rw [if_neg (by intro e; subst e; exact n3 hx), f3 x (n5 x hx)]
    · refine links_frame h2 _ _ _ _ ?_ f2
      intro x hx
      show free h2 c x = h2 x
      unfold free
      rw [if_neg (by intro e; subst e; exact n4 hx)]
  · have := r.first
    rw [headAddr_append] at this ⊢
    exact (headAddr_ne l1 _ _ hne).trans this
  · rw [lastAddr_append]
    by_cases h0 : l2 = []
    · subst h0
      simp only [lastAddr, if_true]
      exact hp
    · rw [lastAddr_ne l2 _ (some c) h0, hlast, if_neg h0]
  · intro a ha
    apply hold
    simp only [addrs_append, addrs_cons, List.mem_append, List.mem_cons] at ha ⊢
    rcases ha with ha | ha
    · exact Or.inl ha
    · exact Or.inr (Or.inr ha)
  · show id.numsegments - 1 = _
    rw [r.count]
    simp only [List.length_append, List.length_cons]
    omega
  · intro y hy
    simp only [addrs_append, List.mem_append, not_or] at hy
    show free h2 c y = none
    unfold free
    by_cases hyc : y = c
    · rw [if_pos hyc]
    · rw [if_neg hyc, f3 y hy.2, e3 y hy.1]
      apply r.only
      simp only [addrs_append, addrs_cons, List.mem_append, List.mem_cons, not_or]
      exact ⟨hy.1, hyc, hy.2⟩

/-- tracelist.c:731-751 -/
theorem moveDown_rep {id : Source R} {l1 l2 : List (Nat × Seg R)} {a b : Nat} {s t : Seg R}
    (r : Rep id (l1 ++ (a, s) :: (b, t) :: l2)) :
    ∃ id', moveDown id a b = .ok id' ∧ Rep id' (l1 ++ (b, t) :: (a, s) :: l2) ∧
      id'.sid = id.sid ∧ id'.pub = id.pub ∧ id'.earliest = id.earliest ∧ id'.latest = id.latest ∧
      id'.fresh = id.fresh := by
  obtain ⟨n1, n2, n3, n4, n5⟩ := nodup_mid r.nodup
  simp only [addrs_cons, List.nodup_cons, List.mem_cons, not_or] at n2 n4
  have n5' : ∀ x, x ∈ addrs l1 → x ≠ b ∧ x ∉ addrs l2 := by
    intro x hx
    have := n5 x hx
    simp only [addrs_cons, List.mem_cons, not_or] at this
    exact this
  obtain ⟨k1, k2, k3, k4⟩ := (links_append _ _ _ _ _).1 r.links
  simp only [headAddr] at k1 k2
  unfold moveDown
  rw [get_some k2, bind_ok]
  simp only
  obtain ⟨h1, e1, e2, e3⟩ := links_setNext _ (some b) l1 none _ n1 k1 (fun _ => rfl)
  rw [e1, bind_ok]
  have hb1 : h1 b = _ := (e3 b (fun h => (n5' b h).1 rfl)).trans k3
  rw [get_some hb1, bind_ok]
  simp only
  have k4' : Links h1 (some b) l2 none := by
    refine links_frame _ _ _ _ _ ?_ k4
    intro x hx
    exact e3 x (fun h => (n5' x h).2 hx)
  obtain ⟨h2, f1, f2, f3⟩ := links_setPrev _ (some a) l2 (some b) none n2.2 k4' (fun _ => rfl)
  rw [f1, bind_ok]
  have ha2 : h2 a = some ⟨s, some b, lastAddr l1 none⟩ := by
    rw [f3 a n4.2, e3 a n3]; exact k2
  have hb2 : h2 b = some ⟨t, headAddr l2 none, some a⟩ := by
    rw [f3 b n2.1]; exact hb1
  rw [get_some ha2, bind_ok]
  simp only
  have hab : a ≠ b := n4.1
  rw [setPrev_ok hb2, bind_ok, setPrev_ok (n := ⟨s, some b, lastAddr l1 none⟩)
    (by rw [put_other _ _ hab]; exact ha2), bind_ok,
    get_some (n := ⟨t, headAddr l2 none, lastAddr l1 none⟩) (by
      rw [put_other _ _ hab.symm, put_same]), bind_ok,
    setNext_ok (n := ⟨s, some b, some b⟩) (put_same _ _ _), bind_ok,
    setNext_ok (n := ⟨t, headAddr l2 none, lastAddr l1 none⟩) (by
      rw [put_other _ _ hab.symm, put_other _ _ hab.symm, put_same]), bind_ok]
  refine ⟨_, rfl, ⟨?_, ?_, ?_, ?_, ?_, ?_, ?_⟩, rfl, rfl, rfl, rfl, rfl⟩
  · have := r.nodup
    simp only [addrs_append, addrs_cons] at this ⊢
    exact (List.Perm.append_left _ (List.Perm.swap _ _ _)).nodup this
  · have other : ∀ x, x ≠ a → x ≠ b → ∀ m1 m2 m3 m4, put (put (put (put h2 b m1) a m2) a m3) b m4 x
        = h2 x := by
      intro x xa xb m1 m2 m3 m4
      rw [put_other _ _ xb, put_other _ _ xa, put_other _ _ xa, put_other _ _ xb]
    dsimp only
    rw [links_append]
    refine ⟨?_, ?_, ?_, ?_⟩
    · refine links_frame h1 _ _ _ _ ?_ e2
      intro x hx
      rw [other x (by intro e; subst e; exact n3 hx) (n5' x hx).1, f3 x (n5' x hx).2]
    · rw [put_same]; rfl
    · rw [put_other _ _ hab, put_same]
    · refine links_frame h2 _ _ _ _ ?_ f2
      intro x hx
      exact other x (by intro e; subst e; exact n4.2 hx) (by intro e; subst e; exact n2.1 hx) _ _ _ _
  · have := r.first
    rw [headAddr_append] at this ⊢
    simp only [headAddr_cons] at this ⊢
    by_cases h0 : l1 = []
    · subst h0
      simp only [headAddr_nil] at this ⊢
      cases this
      rw [if_pos rfl]
    · rw [headAddr_ne l1 _ (some a) h0, this]
      have hm := headAddr_mem l1 _ _ h0 this
      rw [if_neg (by intro e; rw [e] at hm; exact n3 hm)]
  · have := r.last
    rw [lastAddr_append] at this ⊢
    simp only [lastAddr] at this ⊢
    by_cases h0 : l2 = []
    · subst h0
      simp only [lastAddr] at this ⊢
      cases this
      rw [if_pos rfl]
    · rw [lastAddr_ne l2 _ (some b) h0, this]
      have hm := lastAddr_mem l2 _ _ h0 this
      rw [if_neg (by intro e; rw [e] at hm; exact n2.1 hm)]
  · intro x hx
    apply r.old
    simp only [addrs_append, addrs_cons, List.mem_append, List.mem_cons] at hx ⊢
    rcases hx with h | h | h | h
    · exact Or.inl h
    · exact Or.inr (Or.inr (Or.inl h))
    · exact Or.inr (Or.inl h)
    · exact Or.inr (Or.inr (Or.inr h))
  · show id.numsegments = _
    rw [r.count]
    simp only [List.length_append, List.length_cons]
  · intro y hy
    simp only [addrs_append, addrs_cons, List.mem_append, List.mem_cons, not_or] at hy
    obtain ⟨y1, y2, y3, y4⟩ := hy
    refine (put_other _ _ y2).trans ((put_other _ _ y3).trans ((put_other _ _ y3).trans
      ((put_other _ _ y2).trans ((f3 y y4).trans ((e3 y y1).trans (r.only y ?_))))))
    simp only [addrs_append, addrs_cons, List.mem_append, List.mem_cons, not_or]
    exact ⟨y1, y3, y2, y4⟩

/-- tracelist.c:756-775 -/
theorem moveUp_rep {id : Source R} {l1 l2 : List (Nat × Seg R)} {a b : Nat} {s t : Seg R}
    (r : Rep id (l1 ++ (b, t) :: (a, s) :: l2)) :
    ∃ id', moveUp id a b = .ok id' ∧ Rep id' (l1 ++ (a, s) :: (b, t) :: l2) ∧
      id'.sid = id.sid ∧ id'.pub = id.pub ∧ id'.earliest = id.earliest ∧ id'.latest = id.latest ∧
      id'.fresh = id.fresh := by
  obtain ⟨n1, n2, n3, n4, n5⟩ := nodup_mid r.nodup
  simp only [addrs_cons, List.nodup_cons, List.mem_cons, not_or] at n2 n4
  have n5' : ∀ x, x ∈ addrs l1 → x ≠ a ∧ x ∉ addrs l2 := by
    intro x hx
    have := n5 x hx
    simp only [addrs_cons, List.mem_cons, not_or] at this
    exact this
  obtain ⟨k1, k2, k3, k4⟩ := (links_append _ _ _ _ _).1 r.links
  simp only [headAddr] at k1 k2
  unfold moveUp
  rw [get_some k3, bind_ok]
  simp only
  obtain ⟨h1, e1, e2, e3⟩ := links_setPrev _ (some b) l2 (some a) none n2.2 k4 (fun _ => rfl)
  rw [e1, bind_ok]
  have hb1 : h1 b = _ := (e3 b n4.2).trans k2
  rw [get_some hb1, bind_ok]
  simp only
  have k1' : Links h1 none l1 (some b) := by
    refine links_frame _ _ _ _ _ ?_ k1
    intro x hx
    exact e3 x (n5' x hx).2
  obtain ⟨h2, f1, f2, f3⟩ := links_setNext _ (some a) l1 none _ n1 k1' (fun _ => rfl)
  rw [f1, bind_ok]
  have ha1 : a ∉ addrs l1 := fun h => (n5' a h).1 rfl
  have ha2 : h2 a = some ⟨s, headAddr l2 none, some b⟩ := by
    rw [f3 a ha1, e3 a n2.1]; exact k3
  have hb2 : h2 b = some ⟨t, some a, lastAddr l1 none⟩ := by
    rw [f3 b n3]; exact hb1
  rw [get_some ha2, bind_ok]
  simp only
  have hab : a ≠ b := fun e => n4.1 e.symm
  rw [setNext_ok hb2, bind_ok, setNext_ok (n := ⟨s, headAddr l2 none, some b⟩)
    (by rw [put_other _ _ hab]; exact ha2), bind_ok,
    get_some (n := ⟨t, headAddr l2 none, lastAddr l1 none⟩) (by
      rw [put_other _ _ hab.symm, put_same]), bind_ok,
    setPrev_ok (n := ⟨s, some b, some b⟩) (put_same _ _ _), bind_ok,
    setPrev_ok (n := ⟨t, headAddr l2 none, lastAddr l1 none⟩) (by
      rw [put_other _ _ hab.symm, put_other _ _ hab.symm, put_same]), bind_ok]
  refine ⟨_, rfl, ⟨?_, ?_, ?_, ?_, ?_, ?_, ?_⟩, rfl, rfl, rfl, rfl, rfl⟩
  · have := r.nodup
    simp only [addrs_append, addrs_cons] at this ⊢
    exact (List.Perm.append_left _ (List.Perm.swap _ _ _)).nodup this
  · have other : ∀ x, x ≠ a → x ≠ b → ∀ m1 m2 m3 m4, put (put (put (put h2 b m1) a m2) a m3) b m4 x
        = h2 x := by
      intro x xa xb m1 m2 m3 m4
      rw [put_other _ _ xb, put_other _ _ xa, put_other _ _ xa, put_other _ _ xb]
    dsimp only
    rw [links_append]
    refine ⟨?_, ?_, ?_, ?_⟩
    · refine links_frame h2 _ _ _ _ ?_ f2
      intro x hx
      exact other x (n5' x hx).1 (by intro e; subst e; exact n3 hx) _ _ _ _
    · rw [put_other _ _ hab, put_same]; rfl
    · rw [put_same]
    · refine links_frame h1 _ _ _ _ ?_ e2
      intro x hx
      rw [other x (by intro e; subst e; exact n2.1 hx) (by intro e; subst e; exact n4.2 hx),
        f3 x (fun h => (n5' x h).2 hx)]
  · have := r.first
    rw [headAddr_append] at this ⊢
    simp only [headAddr_cons] at this ⊢
    by_cases h0 : l1 = []
    · subst h0
      simp only [headAddr_nil] at this ⊢
      cases this
      rw [if_pos rfl]
    · rw [headAddr_ne l1 _ (some b) h0, this]
      have hm := headAddr_mem l1 _ _ h0 this
      rw [if_neg (by intro e; rw [e] at hm; exact n3 hm)]
  · have := r.last
    rw [lastAddr_append] at this ⊢
    simp only [lastAddr] at this ⊢
    by_cases h0 : l2 = []
    · subst h0
      simp only [lastAddr] at this ⊢
      cases this
      rw [if_pos rfl]
    · rw [lastAddr_ne l2 _ (some a) h0, this]
      have hm := lastAddr_mem l2 _ _ h0 this
      rw [if_neg (by intro e; rw [e] at hm; exact n2.1 hm)]
  · intro x hx
    apply r.old
    simp only [addrs_append, addrs_cons, List.mem_append, List.mem_cons] at hx ⊢
    rcases hx with h | h | h | h
    · exact Or.inl h
    · exact Or.inr (Or.inr (Or.inl h))
    · exact Or.inr (Or.inl h)
    · exact Or.inr (Or.inr (Or.inr h))
  · show id.numsegments = _
    rw [r.count]
    simp only [List.length_append, List.length_cons]
  · intro y hy
    simp only [addrs_append, addrs_cons, List.mem_append, List.mem_cons, not_or] at hy
    obtain ⟨y1, y2, y3, y4⟩ := hy
    refine (put_other _ _ y3).trans ((put_other _ _ y2).trans ((put_other _ _ y2).trans
      ((put_other _ _ y3).trans ((f3 y y1).trans ((e3 y y4).trans (r.only y ?_))))))
    simp only [addrs_append, addrs_cons, List.mem_append, List.mem_cons, not_or]
    exact ⟨y1, y3, y2, y4⟩

/-! ## Sorting -/

/-- `s` may stand before `t`. -/
def Before (s t : Seg R) : Prop := behind s t = false

theorem behind_iff (s t : Seg R) :
    behind s t = true ↔ (t.start < s.start ∨ (s.start = t.start ∧ s.stop < t.stop)) := by
  unfold behind
  simp

theorem before_iff (s t : Seg R) :
    Before s t ↔ (s.start < t.start ∨ (s.start = t.start ∧ t.stop ≤ s.stop)) := by
  unfold Before
  rw [Bool.eq_false_iff, ne_eq, behind_iff]
  omega

theorem before_trans {s t u : Seg R} (h1 : Before s t) (h2 : Before t u) : Before s u := by
  rw [before_iff] at *
  omega

theorem before_of_behind {s t : Seg R} (h : behind s t = true) : Before t s := by
  rw [behind_iff] at h
  rw [before_iff]
  omega

/-- The segments of a list are in order. -/
def Sorted (l : List (Nat × Seg R)) : Prop := l.Pairwise fun x y => Before x.2 y.2

/-- Everything but the list of segments is the same. -/
structure Same (id id' : Source R) : Prop where
  sid : id'.sid = id.sid
  pub : id'.pub = id.pub
  earliest : id'.earliest = id.earliest
  latest : id'.latest = id.latest
  fresh : id'.fresh = id.fresh

theorem Same.refl (id : Source R) : Same id id := ⟨rfl, rfl, rfl, rfl, rfl⟩

theorem Same.trans {a b c : Source R} (h1 : Same a b) (h2 : Same b c) : Same a c :=
  ⟨h2.sid.trans h1.sid, h2.pub.trans h1.pub, h2.earliest.trans h1.earliest,
    h2.latest.trans h1.latest, h2.fresh.trans h1.fresh⟩

theorem sortDown_rep (a : Nat) (s : Seg R) (l2 : List (Nat × Seg R)) :
    ∀ (fuel : Nat) (id : Source R) (l1 : List (Nat × Seg R)), Rep id (l1 ++ (a, s) :: l2) →
    l2.length < fuel →
    ∃ id' m l2', sortDown fuel id a = .ok id' ∧ Same id id' ∧ l2 = m ++ l2' ∧
      Rep id' (l1 ++ m ++ (a, s) :: l2') ∧ (∀ y ∈ m, behind s y.2 = true) ∧
      (∀ y, l2'.head? = some y → Before s y.2) := by
  induction l2 with
  | nil =>
    intro fuel id l1 r hf
    cases fuel with
    | zero => omega
    | succ fuel =>
      unfold sortDown
      rw [get_some (node_at r.links), bind_ok]
      refine ⟨id, [], [], rfl, Same.refl id, rfl, by simpa using r, by simp, by simp⟩
  | cons x t ih =>
    intro fuel id l1 r hf
    obtain ⟨b, u⟩ := x
    cases fuel with
    | zero => omega
    | succ fuel =>
      unfold sortDown
      have hb : id.heap b = _ := node_at (l1 := l1 ++ [(a, s)]) (by simpa using r.links)
      rw [get_some (node_at r.links), bind_ok]
      simp only [headAddr_cons]
      rw [get_some hb, bind_ok]
      by_cases hc : behind s u = true
      · rw [if_pos hc]
        obtain ⟨id1, e1, r1, f1, f2, f3, f4, f5⟩ := moveDown_rep r
        rw [e1, bind_ok]
        obtain ⟨id2, m, l2', g1, g2, g3, g4, g5, g6⟩ := ih fuel id1 (l1 ++ [(b, u)]) (by simpa using r1)
          (by simp at hf; omega)
        refine ⟨id2, (b, u) :: m, l2', g1, Same.trans ⟨f1, f2, f3, f4, f5⟩ g2, by rw [g3]; rfl,
          by simpa using g4, ?_, g6⟩
        intro y hy
        rcases List.mem_cons.1 hy with h | h
        · subst h; exact hc
        · exact g5 y h
      · rw [if_neg hc]
        refine ⟨id, [], (b, u) :: t, rfl, Same.refl id, rfl, by simpa using r, by simp, ?_⟩
        intro y hy
        simp at hy
        subst hy
        exact Bool.eq_false_iff.2 hc

theorem sortUp_rep (a : Nat) (s : Seg R) (n : Nat) :
    ∀ (fuel : Nat) (id : Source R) (l1 l2 : List (Nat × Seg R)), l1.length = n →
    Rep id (l1 ++ (a, s) :: l2) → l1.length < fuel →
    ∃ id' m l1', sortUp fuel id a = .ok id' ∧ Same id id' ∧ l1 = l1' ++ m ∧
      Rep id' (l1' ++ (a, s) :: (m ++ l2)) ∧ (∀ y ∈ m, behind y.2 s = true) ∧
      (∀ y, l1'.getLast? = some y → Before y.2 s) := by
  induction n with
  | zero =>
    intro fuel id l1 l2 hn r hf
    have h0 : l1 = [] := List.length_eq_zero_iff.1 hn
    subst h0
    cases fuel with
    | zero => omega
    | succ fuel =>
      unfold sortUp
      rw [get_some (node_at r.links), bind_ok]
      refine ⟨id, [], [], rfl, Same.refl id, rfl, by simpa using r, by simp, by simp⟩
  | succ n ih =>
    intro fuel id l1 l2 hn r hf
    have hne : l1 ≠ [] := by intro h; subst h; simp at hn
    obtain ⟨b, hb⟩ := lastAddr_some l1 none hne
    obtain ⟨l0, u, hl0⟩ := split_last l1 hne b none hb
    subst hl0
    cases fuel with
    | zero => omega
    | succ fuel =>
      unfold sortUp
      have r' : Rep id (l0 ++ (b, u) :: (a, s) :: l2) := by simpa using r
      rw [get_some (node_at r.links), bind_ok]
      simp only [hb]
      rw [get_some (node_at r'.links), bind_ok]
      by_cases hc : behind u s = true
      · rw [if_pos hc]
        obtain ⟨id1, e1, r1, f1, f2, f3, f4, f5⟩ := moveUp_rep r'
        rw [e1, bind_ok]
        obtain ⟨id2, m, l1', g1, g2, g3, g4, g5, g6⟩ := ih fuel id1 l0 ((b, u) :: l2)
          (by simp at hn; omega) r1 (by simp at hf; omega)
        refine ⟨id2, m ++ [(b, u)], l1', g1, Same.trans ⟨f1, f2, f3, f4, f5⟩ g2,
          by rw [g3]; simp, by simpa using g4, ?_, g6⟩
        intro y hy
        rcases List.mem_append.1 hy with h | h
        · exact g5 y h
        · simp at h; subst h; exact hc
      · rw [if_neg hc]
        refine ⟨id, [], l0 ++ [(b, u)], rfl, Same.refl id, by simp, by simpa using r, by simp, ?_⟩
        intro y hy
        simp at hy
        subst hy
        exact Bool.eq_false_iff.2 hc

theorem nodup_length (n : Nat) : ∀ (l : List Nat), l.Nodup → (∀ a ∈ l, a < n) → l.length ≤ n := by
  induction n with
  | zero =>
    intro l _ h
    cases l with
    | nil => simp
    | cons x t => have := h x (by simp); omega
  | succ n ih =>
    intro l hn h
    have h1 : (l.erase n).length ≤ n := by
      apply ih
      · exact hn.erase n
      · intro a ha
        have := (List.Nodup.mem_erase_iff hn).1 ha
        have := h a this.2
        omega
    have h2 := List.length_erase (a := n) (l := l)
    rw [h2] at h1
    split at h1 <;> omega

theorem Rep.length_le {id : Source R} {l : List (Nat × Seg R)} (r : Rep id l) :
    l.length ≤ id.fresh := by
  have := nodup_length id.fresh (addrs l) r.nodup r.old
  unfold addrs at this
  rw [List.length_map] at this
  exact this

/-- tracelist.c:714-777: the end of an addition keeps the segments and leaves them in order if all
others were. -/
theorem settle_rep {id : Source R} {l1 l2 : List (Nat × Seg R)} {a : Nat} {s : Seg R}
    (r : Rep id (l1 ++ (a, s) :: l2)) (x : Arrival R) :
    ∃ id' l', settle id x a = .ok (id', some a) ∧ Same (track id x) id' ∧ Rep id' l' ∧
      List.Perm l' (l1 ++ (a, s) :: l2) ∧ (Sorted (l1 ++ l2) → Sorted l') := by
  unfold settle
  simp only
  have rt := track_rep r x
  have hlen := rt.length_le
  simp only [List.length_append, List.length_cons] at hlen
  obtain ⟨id1, m1, k2, e1, e2, e3, e4, e5, e6⟩ := sortDown_rep a s l2 ((track id x).fresh + 1)
    (track id x) l1 rt (by omega)
  rw [e1, bind_ok]
  have hlen1 := e4.length_le
  simp only [List.length_append, List.length_cons] at hlen1
  obtain ⟨id2, m2, k1, f1, f2, f3, f4, f5, f6⟩ := sortUp_rep a s (l1 ++ m1).length (id1.fresh + 1)
    id1 (l1 ++ m1) k2 rfl e4 (by simp only [List.length_append]; omega)
  rw [f1, bind_ok]
  refine ⟨id2, _, rfl, Same.trans e2 f2, f4, ?_, ?_⟩
  · have p1 : (k1 ++ (a, s) :: (m2 ++ k2)).Perm ((a, s) :: (k1 ++ (m2 ++ k2))) := List.perm_middle
    have p2 : (l1 ++ (a, s) :: l2).Perm ((a, s) :: (l1 ++ l2)) := List.perm_middle
    have e : k1 ++ (m2 ++ k2) = l1 ++ l2 := by
      rw [← List.append_assoc, ← f3, e3, List.append_assoc]
    rw [e] at p1
    exact p1.trans p2.symm
  · intro hs
    have e : l1 ++ l2 = k1 ++ (m2 ++ k2) := by
      rw [← List.append_assoc k1, ← f3, e3, List.append_assoc]
    rw [e] at hs
    unfold Sorted at hs ⊢
    rw [List.pairwise_append] at hs ⊢
    obtain ⟨s1, s2, s3⟩ := hs
    have hafter : ∀ y ∈ m2 ++ k2, Before s y.2 := by
      intro y hy
      rcases List.mem_append.1 hy with h | h
      · exact before_of_behind (f5 y h)
      · cases k2 with
        | nil => cases h
        | cons z zs =>
          have hz := e6 z rfl
          rcases List.mem_cons.1 h with h | h
          · subst h; exact hz
          · have := (List.pairwise_append.1 s2).2.1
            exact before_trans hz (List.rel_of_pairwise_cons this h)
    have hbefore : ∀ y ∈ k1, Before y.2 s := by
      intro y hy
      have hne : k1 ≠ [] := by intro h; subst h; cases hy
      obtain ⟨k0, z, hk⟩ : ∃ k0 z, k1 = k0 ++ [z] :=
        ⟨_, _, (List.dropLast_concat_getLast hne).symm⟩
      have hz := f6 z (by rw [hk]; simp)
      rw [hk] at hy s1
      rcases List.mem_append.1 hy with h | h
      · exact before_trans ((List.pairwise_append.1 s1).2.2 y h z (by simp)) hz
      · simp at h; subst h; exact hz
    refine ⟨s1, List.pairwise_cons.2 ⟨hafter, s2⟩, ?_⟩
    intro y hy z hz
    rcases List.mem_cons.1 hz with h | h
    · subst h; exact hbefore y hy
    · exact s3 y hy z h

/-! ## The search -/

/-- A record follows a segment. -/
def Follows (sim : R → R → Bool) (x : Arrival R) (s : Seg R) : Prop :=
  fits x (x.start - s.stop - x.period) = true ∧ sim x.rate s.rate = true

/-- A record precedes a segment. -/
def Precedes (sim : R → R → Bool) (x : Arrival R) (s : Seg R) : Prop :=
  fits x (s.start - x.stop - x.period) = true ∧ sim x.rate s.rate = true

/-- What the search may return. -/
structure Hit (sim : R → R → Bool) (x : Arrival R) (l : List (Nat × Seg R)) (f : Found) : Prop where
  before : ∀ b, f.before = some b → ∃ s, (b, s) ∈ l ∧ Follows sim x s
  after : ∀ c, f.after = some c → ∃ s, (c, s) ∈ l ∧ Precedes sim x s
  follow : ∀ g, f.follow = some g → ∃ s, (g, s) ∈ l

theorem search_rep (sim : R → R → Bool) (autoheal : Bool) (x : Arrival R) (h : Heap R)
    (l2 : List (Nat × Seg R)) :
    ∀ (fuel : Nat) (l1 : List (Nat × Seg R)) (f : Found), Links h none (l1 ++ l2) none →
    l2.length < fuel + 1 → Hit sim x (l1 ++ l2) f →
    ∃ f', search sim autoheal x h fuel (headAddr l2 none) f = .ok f' ∧ Hit sim x (l1 ++ l2) f' ∧
      (f'.before = none → f.before = none) ∧ (f'.after = none → f.after = none) ∧
      (f'.before = none → f'.after = none →
        (∀ y ∈ l2, ¬ Follows sim x y.2 ∧ ¬ Precedes sim x y.2) ∨
        (autoheal = true ∧ ∃ y ∈ l2, x.start = y.2.start ∧ x.stop = y.2.stop)) ∧
      (autoheal = true → (∀ y ∈ l2, ¬ (x.start = y.2.start ∧ x.stop = y.2.stop)) →
        (f'.before = none → ∀ y ∈ l2, ¬ Follows sim x y.2) ∧
        (f'.after = none → ∀ y ∈ l2, ¬ Precedes sim x y.2)) := by
  induction l2 with
  | nil =>
    intro fuel l1 f _ _ hh
    refine ⟨f, ?_, hh, id, id, fun _ _ => Or.inl (by simp), fun _ _ => ⟨by simp, by simp⟩⟩
    unfold search headAddr
    rfl
  | cons p t ih =>
    intro fuel l1 f hl hf hh
    obtain ⟨a, s⟩ := p
    cases fuel with
    | zero => simp at hf
    | succ fuel =>
      rw [headAddr_cons]
      unfold search
      have hmem : (a, s) ∈ l1 ++ (a, s) :: t := by simp
      rw [get_some (node_at hl), bind_ok]
      simp only
      by_cases hx : autoheal = true ∧ x.start = s.start ∧ x.stop = s.stop
      · rw [if_pos hx]
        refine ⟨_, rfl, ⟨hh.before, hh.after, ?_⟩, id, id,
          fun _ _ => Or.inr ⟨hx.1, (a, s), by simp, hx.2⟩,
          fun _ hno => absurd hx.2 (hno (a, s) (by simp))⟩
        intro g hg
        cases hg
        exact ⟨s, hmem⟩
      · rw [if_neg hx]
        generalize hb : (if f.before = none ∧ fits x (x.start - s.stop - x.period) = true ∧
          sim x.rate s.rate = true then some a else f.before) = before
        generalize ha : (if f.after = none ∧ fits x (s.start - x.stop - x.period) = true ∧
          sim x.rate s.rate = true then some a else f.after) = after
        generalize hg : (if x.start > s.start then some a else f.follow) = follow
        have hit : Hit sim x (l1 ++ (a, s) :: t) ⟨before, after, follow⟩ := by
          refine ⟨?_, ?_, ?_⟩
          · intro b e
            simp only at e
            rw [e] at hb
            split at hb
            · rename_i hc
              cases hb
              exact ⟨s, hmem, hc.2⟩
            · exact hh.before b hb
          · intro c e
            simp only at e
            rw [e] at ha
            split at ha
            · rename_i hc
              cases ha
              exact ⟨s, hmem, hc.2⟩
            · exact hh.after c ha
          · intro g e
            simp only at e
            rw [e] at hg
            split at hg
            · cases hg; exact ⟨s, hmem⟩
            · exact hh.follow g hg
        have nb : before = none → f.before = none ∧ ¬ Follows sim x s := by
          intro e
          rw [e] at hb
          split at hb
          · cases hb
          · rename_i hc
            exact ⟨hb, fun h => hc ⟨hb, h⟩⟩
        have na : after = none → f.after = none ∧ ¬ Precedes sim x s := by
          intro e
          rw [e] at ha
          split at ha
          · cases ha
          · rename_i hc
            exact ⟨ha, fun h => hc ⟨ha, h⟩⟩
        by_cases c1 : before.isSome = true ∧ after.isSome = true
        · rw [if_pos c1]
          refine ⟨_, rfl, hit, fun e => (nb e).1, fun e => (na e).1, ?_, fun _ _ => ⟨?_, ?_⟩⟩
          · intro e _
            simp only at e
            rw [e] at c1
            exact absurd c1.1 (by simp)
          · intro e
            simp only at e
            rw [e] at c1
            exact absurd c1.1 (by simp)
          · intro e
            simp only at e
            rw [e] at c1
            exact absurd c1.2 (by simp)
        · rw [if_neg c1]
          by_cases c2 : autoheal = false ∧ (before.isSome = true ∨ after.isSome = true)
          · rw [if_pos c2]
            refine ⟨_, rfl, hit, fun e => (nb e).1, fun e => (na e).1, ?_,
              fun h => absurd (c2.1.symm.trans h) (by simp)⟩
            intro e e'
            simp only at e e'
            rw [e, e'] at c2
            exact absurd c2.2 (by simp)
          · rw [if_neg c2]
            obtain ⟨f', g1, g2, g3, g4, g5, g6⟩ := ih fuel (l1 ++ [(a, s)]) ⟨before, after, follow⟩
              (by simpa using hl) (by simp at hf; omega) (by simpa using hit)
            refine ⟨f', g1, by simpa using g2, fun e => (nb (g3 e)).1, fun e => (na (g4 e)).1, ?_, ?_⟩
            · intro e e'
              rcases g5 e e' with h | ⟨h1, y, h2, h3⟩
              · left
                intro y hy
                rcases List.mem_cons.1 hy with hy | hy
                · subst hy
                  exact ⟨(nb (g3 e)).2, (na (g4 e')).2⟩
                · exact h y hy
              · exact Or.inr ⟨h1, y, List.mem_cons_of_mem _ h2, h3⟩
            · intro hah hno
              obtain ⟨q1, q2⟩ := g6 hah fun y hy => hno y (List.mem_cons_of_mem _ hy)
              refine ⟨?_, ?_⟩
              · intro e y hy
                rcases List.mem_cons.1 hy with hy | hy
                · subst hy; exact (nb (g3 e)).2
                · exact q1 e y hy
              · intro e y hy
                rcases List.mem_cons.1 hy with hy | hy
                · subst hy; exact (na (g4 e)).2
                · exact q2 e y hy

/-! ## One addition -/

/-- The record does not cover exactly what one of the segments does. -/
def NotExact (x : Arrival R) (l : List (Nat × Seg R)) : Prop :=
  ∀ y ∈ l, ¬ (x.start = y.2.start ∧ x.stop = y.2.stop)

/-- What one addition does to the segments (`l` before, `l'` after, in the order of the list). -/
inductive Step (sim : R → R → Bool) (autoheal keep : Bool) (id : Source R) (x : Arrival R) :
    List (Nat × Seg R) → Option Nat → List (Nat × Seg R) → Prop
  /-- An error before anything is changed. -/
  | fail (l) : (msr2seg keep x = none ∨ ∃ y ∈ l, ∃ w, addMsrToSeg keep y.2 x w = none) →
      Step sim autoheal keep id x l none l
  /-- An error in joining two segments: the record has been added to the first of them. -/
  | half (l1 l2 a s s' t) : Follows sim x s → addMsrToSeg keep s x true = some s' →
      t ∈ l1 ++ l2 → addSegToSeg s' t.2 = none →
      Step sim autoheal keep id x (l1 ++ (a, s) :: l2) none (l1 ++ (a, s') :: l2)
  /-- Added behind a segment. -/
  | back (l1 l2 a s s' l') : Follows sim x s → addMsrToSeg keep s x true = some s' →
      l'.Perm (l1 ++ (a, s') :: l2) → (Sorted (l1 ++ l2) → Sorted l') →
      (l2 = [] ∨ (autoheal = true → NotExact x (l1 ++ (a, s) :: l2) →
        Precedes sim x s ∨ ∀ y ∈ l1 ++ (a, s) :: l2, ¬ Precedes sim x y.2)) →
      Step sim autoheal keep id x (l1 ++ (a, s) :: l2) (some a) l'
  /-- Added before a segment. -/
  | front (l1 l2 a s s' l') : Precedes sim x s → addMsrToSeg keep s x false = some s' →
      l'.Perm (l1 ++ (a, s') :: l2) → (Sorted (l1 ++ l2) → Sorted l') →
      (l1 = [] ∨ (autoheal = true → NotExact x (l1 ++ (a, s) :: l2) →
        ∀ y ∈ l1 ++ (a, s) :: l2, ¬ Follows sim x y.2)) →
      Step sim autoheal keep id x (l1 ++ (a, s) :: l2) (some a) l'
  /-- Added between two segments, which are joined. -/
  | join (l m a s s' s'' c t l') : autoheal = true → Follows sim x s → Precedes sim x t →
      addMsrToSeg keep s x true = some s' → addSegToSeg s' t = some s'' →
      l.Perm ((a, s) :: (c, t) :: m) →
      l'.Perm ((a, s'') :: m) → (Sorted m → Sorted l') → (Sorted l → Sorted m) →
      Step sim autoheal keep id x l (some a) l'
  /-- A new segment. -/
  | new (l s l') : msr2seg keep x = some s → l'.Perm ((id.fresh, s) :: l) → (Sorted l → Sorted l') →
      (∀ y, y.1 = id.last → y ∈ l → ¬ Follows sim x y.2) →
      (x.start - x.period - x.tol > id.latest ∨ x.stop + x.period + x.tol < id.earliest ∨
        (∀ y ∈ l, ¬ Follows sim x y.2 ∧ ¬ Precedes sim x y.2) ∨
        (autoheal = true ∧ ∃ y ∈ l, x.start = y.2.start ∧ x.stop = y.2.stop)) →
      Step sim autoheal keep id x l (some id.fresh) l'

/-- The bookkeeping of a source after an addition. -/
structure Tracked (x : Arrival R) (id id' : Source R) : Prop where
  sid : id'.sid = id.sid
  pub : id'.pub = max id.pub x.pub
  earliest : id'.earliest = min id.earliest x.start
  latest : id'.latest = max id.latest x.stop

theorem tracked_of (x : Arrival R) (id id1 id' : Source R) (hs : id1.sid = id.sid)
    (hp : id1.pub = id.pub)
    (he : id1.earliest = id.earliest ∨ id1.earliest = if x.start < id.earliest then x.start else id.earliest)
    (hl : id1.latest = id.latest ∨ id1.latest = if x.stop > id.latest then x.stop else id.latest)
    (h : Same (track id1 x) id') : Tracked x id id' := by
  refine ⟨h.sid.trans hs, h.pub.trans ?_, h.earliest.trans ?_, h.latest.trans ?_⟩
  · show (if x.pub > id1.pub then x.pub else id1.pub) = _
    rw [hp]
    split <;> omega
  · show (if x.start < id1.earliest then x.start else id1.earliest) = _
    rcases he with he | he <;> rw [he] <;> split <;> (try split) <;> omega
  · show (if x.stop > id1.latest then x.stop else id1.latest) = _
    rcases hl with hl | hl <;> rw [hl] <;> split <;> (try split) <;> omega

theorem split_first {l : List (Nat × Seg R)} {a : Nat} (h : headAddr l none = some a) :
    ∃ s t, l = (a, s) :: t := by
  cases l with
  | nil => cases h
  | cons x t =>
    obtain ⟨b, s⟩ := x
    rw [headAddr_cons] at h
    cases h
    exact ⟨s, t, rfl⟩

theorem unique {l : List (Nat × Seg R)} (hn : (addrs l).Nodup) {a : Nat} {s t : Seg R}
    (hs : (a, s) ∈ l) (ht : (a, t) ∈ l) : s = t := by
  induction l with
  | nil => cases hs
  | cons x u ih =>
    rw [addrs_cons, List.nodup_cons] at hn
    have hm : ∀ v, (a, v) ∈ u → a ∈ addrs u := fun v hv =>
      List.mem_map.2 ⟨(a, v), hv, rfl⟩
    rcases List.mem_cons.1 hs with hs | hs <;> rcases List.mem_cons.1 ht with ht | ht
    · rw [← hs] at ht; cases ht; rfl
    · exact absurd (by rw [← hs]; exact hm _ ht) hn.1
    · exact absurd (by rw [← ht]; exact hm _ hs) hn.1
    · exact ih hn.2 hs ht

/-- What the searches and the sorting do not touch. -/
theorem settle_step {id0 id : Source R} {l1 l2 : List (Nat × Seg R)} {a : Nat} {s : Seg R}
    (r : Rep id (l1 ++ (a, s) :: l2)) (x : Arrival R) (hs : id.sid = id0.sid) (hp : id.pub = id0.pub)
    (he : id.earliest = id0.earliest ∨
      id.earliest = if x.start < id0.earliest then x.start else id0.earliest)
    (hl : id.latest = id0.latest ∨ id.latest = if x.stop > id0.latest then x.stop else id0.latest) :
    ∃ id' l', settle id x a = .ok (id', some a) ∧ Rep id' l' ∧ Tracked x id0 id' ∧
      List.Perm l' (l1 ++ (a, s) :: l2) ∧ (Sorted (l1 ++ l2) → Sorted l') := by
  obtain ⟨id', l', e1, e2, e3, e4, e5⟩ := settle_rep r x
  exact ⟨id', l', e1, e3, tracked_of x id0 id id' hs hp he hl e2, e4, e5⟩

theorem node_mem {id : Source R} {l : List (Nat × Seg R)} (r : Rep id l) {c : Nat} {t : Seg R}
    (h : (c, t) ∈ l) : ∃ n p, id.heap c = some ⟨t, n, p⟩ := by
  obtain ⟨u1, u2, hu⟩ := List.append_of_mem h
  have rc : Rep id (u1 ++ (c, t) :: u2) := by rw [← hu]; exact r
  exact ⟨_, _, node_at rc.links⟩

theorem join_remove {id : Source R} {k1 k2 : List (Nat × Seg R)} {b c : Nat} {s t : Seg R}
    (r : Rep id (k1 ++ (b, s) :: k2)) (h : (c, t) ∈ k1 ∨ (c, t) ∈ k2) (hf : c ≠ id.first) :
    ∃ id' m1 m2, removeSeg id c = .ok id' ∧ Rep id' (m1 ++ (b, s) :: m2) ∧ Same id id' ∧
      (k1 ++ k2).Perm ((c, t) :: (m1 ++ m2)) ∧ (m1 ++ m2).Sublist (k1 ++ k2) := by
  rcases h with h | h
  · obtain ⟨u, v, hu⟩ := List.append_of_mem h
    subst hu
    have r' : Rep id (u ++ (c, t) :: (v ++ (b, s) :: k2)) := by simpa using r
    have hne : u ≠ [] := by
      intro e
      subst e
      have := r'.first
      rw [List.nil_append, headAddr_cons] at this
      cases this
      exact hf rfl
    obtain ⟨id', e1, e2, f1, f2, f3, f4, f5⟩ := removeSeg_rep r' hne
    refine ⟨id', u ++ v, k2, e1, by simpa using e2, ⟨f1, f2, f3, f4, f5⟩, ?_, ?_⟩
    · simp only [List.append_assoc, List.cons_append]
      exact List.perm_middle
    · simp only [List.append_assoc, List.cons_append]
      exact List.Sublist.append_left (List.sublist_cons_self _ _) _
  · obtain ⟨u, v, hu⟩ := List.append_of_mem h
    subst hu
    have r' : Rep id ((k1 ++ (b, s) :: u) ++ (c, t) :: v) := by simpa using r
    obtain ⟨id', e1, e2, f1, f2, f3, f4, f5⟩ := removeSeg_rep r' (by simp)
    refine ⟨id', k1, u ++ v, e1, by simpa using e2, ⟨f1, f2, f3, f4, f5⟩, ?_, ?_⟩
    · have : k1 ++ (u ++ (c, t) :: v) = (k1 ++ u) ++ (c, t) :: v := by simp
      rw [this, ← List.append_assoc]
      exact List.perm_middle
    · exact List.Sublist.append_left (List.Sublist.append_left (List.sublist_cons_self _ _) _) _

theorem addToId_step (sim : R → R → Bool) (autoheal keep : Bool) {id : Source R}
    {l : List (Nat × Seg R)} (r : Rep id l) (x : Arrival R) :
    ∃ id' res l', addToId sim autoheal keep id x = .ok (id', res) ∧ Rep id' l' ∧
      Step sim autoheal keep id x l res l' ∧ (res ≠ none → Tracked x id id') ∧
      (res = none → Same id id') := by
  have stay : (msr2seg keep x = none ∨ ∃ y ∈ l, ∃ w, addMsrToSeg keep y.2 x w = none) →
      ∃ id' res l', (Res.ok (id, none) : Res (Source R × Option Nat)) = .ok (id', res) ∧
      Rep id' l' ∧ Step sim autoheal keep id x l res l' ∧ (res ≠ none → Tracked x id id') ∧
      (res = none → Same id id') :=
    fun why => ⟨id, none, l, rfl, r, Step.fail l why, fun h => absurd rfl h, fun _ => Same.refl id⟩
  obtain ⟨l0, sl, hlast⟩ := split_last l r.ne_nil id.last none r.last
  obtain ⟨sf, l1, hfirst⟩ := split_first r.first
  have rl : Rep id (l0 ++ (id.last, sl) :: []) := by rw [← hlast]; exact r
  have rf : Rep id ([] ++ (id.first, sf) :: l1) := by rw [List.nil_append, ← hfirst]; exact r
  unfold addToId
  rw [get_some (node_at rl.links), bind_ok, get_some (node_at rf.links), bind_ok]
  simp only
  by_cases c1 : fits x (x.start - sl.stop - x.period) = true ∧ sim x.rate sl.rate = true
  · rw [if_pos c1]
    cases hm : addMsrToSeg keep sl x true with
    | none => exact stay (Or.inr ⟨(id.last, sl), by rw [hlast]; simp, true, hm⟩)
    | some s' =>
      simp only
      obtain ⟨h, e1, e2⟩ := setSeg_rep s' rl
      rw [e1, bind_ok]
      obtain ⟨id', l', f1, f2, f3, f4, f5⟩ := settle_step (id0 := id) (e2 id.earliest
        (if x.stop > id.latest then x.stop else id.latest) id.pub) x rfl rfl (Or.inl rfl) (Or.inr rfl)
      refine ⟨id', some id.last, l', f1, f2, ?_, fun _ => f3, fun h => by cases h⟩
      rw [hlast]
      exact Step.back l0 [] id.last sl s' l' c1 hm f4 f5 (Or.inl rfl)
  · rw [if_neg c1]
    have hnl : ∀ y, y.1 = id.last → y ∈ l → ¬ Follows sim x y.2 := by
      intro y hy hy2 hfo
      apply c1
      obtain ⟨b, t⟩ := y
      simp only at hy
      subst hy
      have : t = sl := unique r.nodup hy2 (by rw [hlast]; simp)
      rw [← this]
      exact hfo
    by_cases c2 : x.start - x.period - x.tol > id.latest
    · rw [if_pos c2]
      cases hm : msr2seg keep x with
      | none => exact stay (Or.inl hm)
      | some s =>
        simp only
        obtain ⟨id1, e1, e2, e3, e4, e5, e6⟩ := appendSeg_rep r x s
        rw [e1, bind_ok]
        simp only
        obtain ⟨id', l', f1, f2, f3, f4, f5⟩ := settle_step (id0 := id) e2 x e3 e4 (Or.inl e5)
          (Or.inr e6)
        refine ⟨id', some id.fresh, l', f1, f2, ?_, fun _ => f3, fun h => by cases h⟩
        rw [List.append_nil] at f5
        exact Step.new l s l' hm (f4.trans (List.perm_append_singleton _ _)) f5 hnl (Or.inl c2)
    · rw [if_neg c2]
      by_cases c3 : x.stop + x.period + x.tol < id.earliest
      · rw [if_pos c3]
        cases hm : msr2seg keep x with
        | none => exact stay (Or.inl hm)
        | some s =>
          simp only
          obtain ⟨id1, e1, e2, e3, e4, e5, e6⟩ := prependSeg_rep r x s
          rw [e1, bind_ok]
          simp only
          obtain ⟨id', l', f1, f2, f3, f4, f5⟩ := settle_step (id0 := id) (l1 := []) e2 x e3 e4
            (Or.inr e5) (Or.inl e6)
          refine ⟨id', some id.fresh, l', f1, f2, ?_, fun _ => f3, fun h => by cases h⟩
          exact Step.new l s l' hm f4 f5 hnl (Or.inr (Or.inl c3))
      · rw [if_neg c3]
        by_cases c4 : fits x (sf.start - x.stop - x.period) = true ∧ sim x.rate sf.rate = true
        · rw [if_pos c4]
          cases hm : addMsrToSeg keep sf x false with
          | none => exact stay (Or.inr ⟨(id.first, sf), by rw [hfirst]; simp, false, hm⟩)
          | some s' =>
            simp only
            obtain ⟨h, e1, e2⟩ := setSeg_rep s' rf
            rw [e1, bind_ok]
            obtain ⟨id', l', f1, f2, f3, f4, f5⟩ := settle_step (id0 := id)
              (e2 (if x.start < id.earliest then x.start else id.earliest) id.latest id.pub) x rfl rfl
              (Or.inr rfl) (Or.inl rfl)
            refine ⟨id', some id.first, l', f1, f2, ?_, fun _ => f3, fun h => by cases h⟩
            rw [hfirst]
            exact Step.front [] l1 id.first sf s' l' c4 hm f4 f5 (Or.inl rfl)
        · rw [if_neg c4]
          have hlen := r.length_le
          obtain ⟨f, g1, g2, _, _, g5, g6⟩ := search_rep sim autoheal x id.heap l (id.fresh + 1) []
            ⟨none, none, none⟩ r.links (by omega)
            ⟨fun _ h => (by cases h), fun _ h => (by cases h), fun _ h => (by cases h)⟩
          rw [r.first] at g1
          rw [g1, bind_ok]
          rw [List.nil_append] at g2
          cases hb : f.before with
          | some b =>
            obtain ⟨s, hs, hfo⟩ := g2.before b hb
            obtain ⟨k1, k2, hk⟩ := List.append_of_mem hs
            have rb : Rep id (k1 ++ (b, s) :: k2) := by rw [← hk]; exact r
            simp only
            rw [get_some (node_at rb.links), bind_ok]
            simp only
            cases hm : addMsrToSeg keep s x true with
            | none => exact stay (Or.inr ⟨(b, s), hs, true, hm⟩)
            | some s' =>
              simp only
              obtain ⟨h, e1, e2⟩ := setSeg_rep s' rb
              rw [e1, bind_ok]
              have r1 := e2 id.earliest id.latest id.pub
              have plain : (autoheal = true → NotExact x l →
                  Precedes sim x s ∨ ∀ y ∈ l, ¬ Precedes sim x y.2) → ∃ id' res l', settle { id with heap := h } x b = .ok (id', res) ∧
                  Rep id' l' ∧ Step sim autoheal keep id x l res l' ∧
                  (res ≠ none → Tracked x id id') ∧ (res = none → Same id id') := by
                intro hcomp
                obtain ⟨id', l', f1, f2, f3, f4, f5⟩ := settle_step (id0 := id) r1 x rfl rfl
                  (Or.inl rfl) (Or.inl rfl)
                refine ⟨id', some b, l', f1, f2, ?_, fun _ => f3, fun h => by cases h⟩
                rw [hk] at hcomp ⊢
                exact Step.back k1 k2 b s s' l' hfo hm f4 f5 (Or.inr hcomp)
              cases ha : f.after with
              | none => exact plain fun hah hno => Or.inr ((g6 hah hno).2 ha)
              | some c =>
                simp only
                by_cases c5 : autoheal = true ∧ b ≠ c
                · rw [if_pos c5]
                  obtain ⟨t, ht, hpr⟩ := g2.after c ha
                  have ht' : (c, t) ∈ k1 ∨ (c, t) ∈ k2 := by
                    rw [hk] at ht
                    rcases List.mem_append.1 ht with h | h
                    · exact Or.inl h
                    · rcases List.mem_cons.1 h with h | h
                      · cases h; exact absurd rfl c5.2
                      · exact Or.inr h
                  have hnf : c ≠ id.first := by
                    intro e
                    subst e
                    apply c4
                    have : t = sf := unique r.nodup ht (by rw [hfirst]; simp)
                    rw [← this]
                    exact hpr
                  rw [get_some (node_at r1.links), bind_ok]
                  simp only
                  have hm2 : (c, t) ∈ k1 ++ (b, s') :: k2 := by
                    rcases ht' with h | h <;> simp [h]
                  obtain ⟨n, p, hcn⟩ := node_mem r1 hm2
                  rw [get_some hcn, bind_ok]
                  simp only
                  cases hj : addSegToSeg s' t with
                  | none =>
                    refine ⟨_, none, _, rfl, r1, ?_, fun h => absurd rfl h,
                      fun _ => ⟨rfl, rfl, rfl, rfl, rfl⟩⟩
                    rw [hk]
                    exact Step.half k1 k2 b s s' (c, t) hfo hm (List.mem_append.2 ht') hj
                  | some s'' =>
                    simp only
                    obtain ⟨h2, e3, e4⟩ := setSeg_rep s'' r1
                    rw [e3, bind_ok]
                    obtain ⟨id3, m1, m2, q1, q2, q3, q4, q5⟩ := join_remove
                      (e4 id.earliest id.latest id.pub) ht' hnf
                    rw [q1, bind_ok]
                    obtain ⟨id', l', f1, f2, f3, f4, f5⟩ := settle_step (id0 := id) q2 x q3.sid q3.pub
                      (Or.inl q3.earliest) (Or.inl q3.latest)
                    refine ⟨id', some b, l', f1, f2, ?_, fun _ => f3, fun h => by cases h⟩
                    refine Step.join l (m1 ++ m2) b s s' s'' c t l' c5.1 hfo hpr hm hj ?_
                      (f4.trans List.perm_middle) f5 ?_
                    · rw [hk]
                      exact List.perm_middle.trans (q4.cons _)
                    · intro hso
                      rw [hk] at hso
                      have : (k1 ++ k2).Sublist (k1 ++ (b, s) :: k2) :=
                        List.Sublist.append_left (List.sublist_cons_self _ _) _
                      exact (hso.sublist this).sublist q5
                · rw [if_neg c5]
                  refine plain fun hah _ => ?_
                  have hbc : b = c := Decidable.byContradiction fun h => c5 ⟨hah, h⟩
                  obtain ⟨t, ht, hpr⟩ := g2.after c ha
                  rw [← hbc] at ht
                  rw [unique r.nodup hs ht]
                  exact Or.inl hpr
          | none =>
            cases ha : f.after with
            | some c =>
              obtain ⟨t, ht, hpr⟩ := g2.after c ha
              obtain ⟨k1, k2, hk⟩ := List.append_of_mem ht
              have rc : Rep id (k1 ++ (c, t) :: k2) := by rw [← hk]; exact r
              simp only
              rw [get_some (node_at rc.links), bind_ok]
              simp only
              cases hm : addMsrToSeg keep t x false with
              | none => exact stay (Or.inr ⟨(c, t), ht, false, hm⟩)
              | some s' =>
                simp only
                obtain ⟨h, e1, e2⟩ := setSeg_rep s' rc
                rw [e1, bind_ok]
                obtain ⟨id', l', f1, f2, f3, f4, f5⟩ := settle_step (id0 := id)
                  (e2 id.earliest id.latest id.pub) x rfl rfl (Or.inl rfl) (Or.inl rfl)
                refine ⟨id', some c, l', f1, f2, ?_, fun _ => f3, fun h => by cases h⟩
                rw [hk]
                refine Step.front k1 k2 c t s' l' hpr hm f4 f5 (Or.inr ?_)
                intro hah hno
                rw [← hk] at hno ⊢
                exact (g6 hah hno).1 hb
            | none =>
              simp only
              cases hm : msr2seg keep x with
              | none => exact stay (Or.inl hm)
              | some s =>
                simp only
                cases hg : f.follow with
                | none =>
                  obtain ⟨id1, e1, e2, e3, e4, e5, e6⟩ := insertSeg_first r s
                  rw [e1, bind_ok]
                  simp only
                  obtain ⟨id', l', f1, f2, f3, f4, f5⟩ := settle_step (id0 := id) (l1 := []) e2 x e3 e4
                    (Or.inl e5) (Or.inl e6)
                  refine ⟨id', some id.fresh, l', f1, f2, ?_, fun _ => f3, fun h => by cases h⟩
                  exact Step.new l s l' hm f4 f5 hnl (Or.inr (Or.inr (g5 hb ha)))
                | some g =>
                  obtain ⟨t, ht⟩ := g2.follow g hg
                  obtain ⟨k1, k2, hk⟩ := List.append_of_mem ht
                  have rg : Rep id (k1 ++ (g, t) :: k2) := by rw [← hk]; exact r
                  obtain ⟨id1, e1, e2, e3, e4, e5, e6⟩ := insertSeg_after rg s
                  rw [e1, bind_ok]
                  simp only
                  obtain ⟨id', l', f1, f2, f3, f4, f5⟩ := settle_step (id0 := id)
                    (l1 := k1 ++ [(g, t)]) (by simpa using e2) x e3 e4 (Or.inl e5) (Or.inl e6)
                  refine ⟨id', some id.fresh, l', f1, f2, ?_, fun _ => f3, fun h => by cases h⟩
                  have hkk : k1 ++ [(g, t)] ++ k2 = l := by rw [hk]; simp
                  rw [hkk] at f5
                  refine Step.new l s l' hm (f4.trans ?_) f5 hnl (Or.inr (Or.inr (g5 hb ha)))
                  rw [← hkk]
                  exact List.perm_middle

end Verif.Proof.Trace
