import Verif.Proof.TraceOrder
/-!
# Properties of the trace segments of a source (C37, C38, C40, C41, C67, C68)
-/
namespace Verif.Props.Trace
open Verif.Model.Steim Verif.Model.Samples Verif.Model.Trace Verif.Proof.Trace

variable {R : Type}

/-! ## Records used in the examples -/

/-- A record of three samples at times `t`, `t + 1`, `t + 2`. -/
def three (t : Int) : Arrival Nat :=
  { sid := [], pub := 2, start := t, stop := t + 2, period := 1, tol := 0, rate := 1, samplecnt := 3,
    sampletype := 'i', data := [t, t + 1, t + 2] }

/-- A record from `a` to `b` with one sample of type `c`. -/
def span (a b : Int) (c : Char) : Arrival Nat :=
  { sid := [], pub := 1, start := a, stop := b, period := 1, tol := 0, rate := 1, samplecnt := b - a + 1,
    sampletype := c, data := [a] }

/-- Rates are similar if they are equal. -/
def same (a b : Nat) : Bool := a == b

theorem three_ofType (t : Int) : OfType 'i' (three t) := ⟨rfl, Or.inr (by decide)⟩

theorem chain3 : Contiguous 1 'i' [three 0, three 3, three 6] := by
  refine ⟨⟨rfl, rfl, trivial⟩, ?_, ?_, ?_, ?_⟩
  all_goals
    intro r hr
    simp only [List.mem_cons, List.not_mem_nil, or_false] at hr
    rcases hr with rfl | rfl | rfl
  all_goals first | exact three_ofType _ | decide

theorem chain3_rates : ∀ a ∈ [three 0, three 3, three 6], ∀ b ∈ [three 0, three 3, three 6],
    same a.rate b.rate = true := by
  intro a ha b hb
  simp only [List.mem_cons, List.not_mem_nil, or_false] at ha hb
  rcases ha with rfl | rfl | rfl <;> rcases hb with rfl | rfl | rfl <;> rfl

/-- A history: the middle of three adjoining records arrives last. -/
theorem gapFilled (autoheal keep : Bool) : ∃ hist id, Reached same autoheal keep hist id ∧
    hist.map Prod.fst = [three 6, three 0, three 3] :=
  histories same autoheal keep (three 6) (by cases keep <;> decide) [three 0, three 3]

/-! ## C37: samples are conserved -/

/-- **C37**.  After any history, the sample counts of the segments add up to those of the records
added, and the samples of the segments are the samples of the records added, each exactly once.  The
records added are all those accepted, and possibly some for which the function returned NULL. -/
theorem C37_samples_conserved {sim : R → R → Bool} {autoheal keep : Bool}
    {hist : List (Arrival R × Bool)} {id : Source R} (h : Reached sim autoheal keep hist id) :
    ∃ l added, Linked id l ∧
      ((segments id l).map Seg.samplecnt).sum = (added.map Arrival.samplecnt).sum ∧
      ((segments id l).flatMap Seg.data).Perm (added.flatMap Arrival.data) ∧
      (accepted hist).Sublist added ∧ added.Sublist (hist.map Prod.fst) := by
  obtain ⟨l, g, added, hr, hh, ⟨sub, p1, p2, p3⟩, _⟩ := reached_inv h
  refine ⟨addrs l, sub, linked_of_rep hr, ?_, ?_, p2, p3⟩
  · rw [segments_of_rep hr]
    have e : ∀ m : List (Nat × Seg R), (∀ y ∈ m, Made keep (g y.1) y.2) →
        ((m.map Prod.snd).map Seg.samplecnt).sum = ((records g m).map Arrival.samplecnt).sum := by
      intro m
      induction m with
      | nil => intro _; rfl
      | cons y t ih =>
        intro hm
        unfold records at ih ⊢
        simp only [List.map_cons, List.sum_cons, List.flatMap_cons, List.map_append, List.sum_append]
        rw [ih fun z hz => hm z (List.mem_cons_of_mem _ hz), (hm y (by simp)).samplecnt]
    rw [e l hh.1]
    exact sum_perm ((hh.2.trans p1).map _)
  · rw [segments_of_rep hr]
    have e : ∀ m : List (Nat × Seg R), (∀ y ∈ m, Made keep (g y.1) y.2) →
        (m.map Prod.snd).flatMap Seg.data = (records g m).flatMap Arrival.data := by
      intro m
      induction m with
      | nil => intro _; rfl
      | cons y t ih =>
        intro hm
        unfold records at ih ⊢
        simp only [List.map_cons, List.flatMap_cons, List.flatMap_append]
        rw [ih fun z hz => hm z (List.mem_cons_of_mem _ hz), (hm y (by simp)).data]
    rw [e l hh.1]
    exact (hh.2.trans p1).flatMap_right _

example : ∃ hist id, Reached same true false hist id ∧ hist.map Prod.fst = [three 6, three 0, three 3] :=
  gapFilled true false

/-- **C37** (records of one type).  If the records have the same sample type, of known size if they
have samples, none is refused: the segments hold the samples of exactly the records passed. -/
theorem C37_one_type_all_kept {sim : R → R → Bool} {autoheal keep : Bool} {T : Char}
    {hist : List (Arrival R × Bool)} {id : Source R} (h : Reached sim autoheal keep hist id)
    (ht : ∀ x ∈ hist, OfType T x.1) :
    (∀ x ∈ hist, x.2 = true) ∧ ∃ l, Linked id l ∧
      ((segments id l).map Seg.samplecnt).sum = (hist.map fun x => x.1.samplecnt).sum ∧
      ((segments id l).flatMap Seg.data).Perm (hist.flatMap fun x => x.1.data) := by
  have hall : (∀ x ∈ hist, x.2 = true) ∧ ∃ l, Rep id l ∧ Types T l := by
    induction h with
    | new r id hn =>
      obtain ⟨s, hm, hr, _⟩ := newId_rep keep r id hn
      obtain ⟨s1, e1, e2⟩ := msr2seg_type (keep := keep) (ht (r, true) (by simp))
      rw [hm] at e1
      cases e1
      exact ⟨by simp, _, hr, types_cons e2 (fun y hy => by cases hy)⟩
    | add hist id x id' res hre ha ih =>
      obtain ⟨i1, l, i2, i3⟩ := ih fun y hy => ht y (List.mem_append.2 (Or.inl hy))
      obtain ⟨id2, res2, l', e, hr', st, _⟩ := addToId_step sim autoheal keep i2 x
      rw [ha] at e
      cases e
      obtain ⟨q1, q2⟩ := step_types st (ht (x, res.isSome) (by simp)) i3
      refine ⟨?_, l', hr', q1⟩
      intro y hy
      rcases List.mem_append.1 hy with h | h
      · exact i1 y h
      · simp only [List.mem_singleton] at h
        subst h
        cases res with
        | none => exact absurd rfl q2
        | some _ => rfl
  refine ⟨hall.1, ?_⟩
  obtain ⟨l, added, h1, h2, h3, h4, h5⟩ := C37_samples_conserved h
  have hacc : accepted hist = hist.map Prod.fst := by
    unfold accepted
    rw [List.filter_eq_self.2 hall.1]
  rw [hacc] at h4
  have hadd : added = hist.map Prod.fst := h5.eq_of_length_le h4.length_le
  refine ⟨l, h1, ?_, ?_⟩
  · rw [h2, hadd, List.map_map]; rfl
  · rw [hadd, List.flatMap_map] at h3
    exact h3

example : ∃ hist id, Reached same true false hist id ∧ hist.length = 3 ∧
    ∀ x ∈ hist, OfType 'i' x.1 := by
  obtain ⟨hist, id, h, e⟩ := gapFilled true false
  refine ⟨hist, id, h, by have := congrArg List.length e; simpa using this, ?_⟩
  intro x hx
  have : x.1 ∈ [three 6, three 0, three 3] := by rw [← e]; exact List.mem_map.2 ⟨x, hx, rfl⟩
  simp only [List.mem_cons, List.not_mem_nil, or_false] at this
  rcases this with h | h | h <;> rw [h] <;> exact three_ofType _

/-! ## C38: safety, links and order -/

/-- **C38** (safety).  Whatever was added before, adding a record ends, and follows no pointer to
released memory nor a null pointer. -/
theorem C38_additions_safe {sim : R → R → Bool} {autoheal keep : Bool}
    {hist : List (Arrival R × Bool)} {id : Source R} (h : Reached sim autoheal keep hist id)
    (r : Arrival R) : ∃ id' res, addToId sim autoheal keep id r = .ok (id', res) := by
  obtain ⟨l, _, _, hr, _⟩ := reached_inv h
  obtain ⟨id', res, _, e, _⟩ := addToId_step sim autoheal keep hr r
  exact ⟨id', res, e⟩

example : ∃ hist id, Reached same true true hist id ∧ hist.length = 3 ∧
    ∃ id' res, addToId same true true id (span 4 20 'f') = .ok (id', res) := by
  obtain ⟨hist, id, h, e⟩ := gapFilled true true
  exact ⟨hist, id, h, by have := congrArg List.length e; simpa using this, C38_additions_safe h _⟩

/-- **C38** (part).  After any history the segments form a proper doubly linked list, no other segment
is allocated, and they are in order if no addition failed.

Missing: the order if an addition failed, which does not hold: `C38_order_violated`. -/
theorem C38_linked_in_order_partial {sim : R → R → Bool} {autoheal keep : Bool}
    {hist : List (Arrival R × Bool)} {id : Source R} (h : Reached sim autoheal keep hist id) :
    ∃ l, Linked id l ∧ (∀ a, a ∉ l → segAt id a = none) ∧
      (segments id l).length = l.length ∧
      ((∀ x ∈ hist, x.2 = true) → InOrder (segments id l)) := by
  obtain ⟨l, _, _, hr, _, _, hs⟩ := reached_inv h
  refine ⟨addrs l, linked_of_rep hr, fun a ha => (segAt_none hr a).2 ha, ?_, ?_⟩
  · rw [segments_of_rep hr]; simp [addrs]
  · intro hall
    rw [segments_of_rep hr, inOrder_iff]
    exact hs hall

example : ∃ hist id l, Reached same false true hist id ∧ Linked id l ∧ InOrder (segments id l) := by
  obtain ⟨hist, id, h, e⟩ := gapFilled false true
  obtain ⟨l, h1, _, _, h4⟩ := C38_linked_in_order_partial h
  refine ⟨hist, id, l, h, h1, h4 ?_⟩
  refine (C37_one_type_all_kept (T := 'i') h ?_).1
  intro x hx
  have : x.1 ∈ [three 6, three 0, three 3] := by rw [← e]; exact List.mem_map.2 ⟨x, hx, rfl⟩
  simp only [List.mem_cons, List.not_mem_nil, or_false] at this
  rcases this with h | h | h <;> rw [h] <;> exact three_ofType _

/-- The source after adding records one by one. -/
def addAll (sim : R → R → Bool) (autoheal keep : Bool) : Source R → List (Arrival R) →
    Res (Source R × List Bool)
  | id, [] => .ok (id, [])
  | id, r :: rs =>
    (addToId sim autoheal keep id r).bind fun (id, res) =>
    (addAll sim autoheal keep id rs).bind fun (id, bs) => .ok (id, res.isSome :: bs)

theorem addAll_reached {sim : R → R → Bool} {autoheal keep : Bool} (rs : List (Arrival R)) :
    ∀ {hist : List (Arrival R × Bool)} {id id' : Source R} {bs : List Bool},
    Reached sim autoheal keep hist id → addAll sim autoheal keep id rs = .ok (id', bs) →
    Reached sim autoheal keep (hist ++ rs.zip bs) id' := by
  induction rs with
  | nil =>
    intro hist id id' bs h e
    cases e
    simpa using h
  | cons r rs ih =>
    intro hist id id' bs h e
    unfold addAll at e
    cases h1 : addToId sim autoheal keep id r with
    | err => rw [h1] at e; cases e
    | ub => rw [h1] at e; cases e
    | oob => rw [h1] at e; cases e
    | ok p =>
      obtain ⟨id1, res⟩ := p
      rw [h1, Verif.Proof.Mem.bind_ok] at e
      simp only at e
      cases h2 : addAll sim autoheal keep id1 rs with
      | err => rw [h2] at e; cases e
      | ub => rw [h2] at e; cases e
      | oob => rw [h2] at e; cases e
      | ok p =>
        obtain ⟨id2, bs'⟩ := p
        rw [h2, Verif.Proof.Mem.bind_ok] at e
        cases e
        have := ih (Reached.add hist id r id1 res h h1) h2
        simpa using this

/-- What a source looks like: the first and last segments, their number and the (start, end) times of
segments met by following `next`. -/
def shape (id : Source R) : Nat → Option Nat → List (Nat × Int × Int)
  | 0, _ => []
  | _, none => []
  | fuel + 1, some a =>
    match id.heap a with
    | none => []
    | some n => (a, n.seg.start, n.seg.stop) :: shape id fuel n.next

/-- **C38** (violated).  Two segments begin at 0, the longer first, and one with another sample type
begins at 21.  A record from 6 to 20 is added to the shorter one, making it the longer; joining it with
the segment behind fails because of the sample types; the function returns NULL without sorting. -/
theorem C38_order_violated : ∃ (hist : List (Arrival Nat × Bool)) (id : Source Nat) (l : List Nat),
    Reached same true false hist id ∧ Linked id l ∧ ¬ InOrder (segments id l) := by
  have hdec : (match newId false (span 0 10 'i') with
      | none => none
      | some id =>
        match addAll same true false id [span 0 5 'i', span 21 25 'f', span 6 20 'i'] with
        | .ok (id', bs) => some (bs, shape id' 4 (some id'.first))
        | _ => none) = some ([true, true, false], [(0, 0, 10), (1, 0, 20), (2, 21, 25)]) := by
    decide +kernel
  cases hn : newId false (span 0 10 'i') with
  | none => rw [hn] at hdec; cases hdec
  | some id0 =>
    rw [hn] at hdec
    simp only at hdec
    cases ha : addAll same true false id0 [span 0 5 'i', span 21 25 'f', span 6 20 'i'] with
    | err => rw [ha] at hdec; cases hdec
    | ub => rw [ha] at hdec; cases hdec
    | oob => rw [ha] at hdec; cases hdec
    | ok p =>
      obtain ⟨id, bs⟩ := p
      rw [ha] at hdec
      simp only [Option.some.injEq, Prod.mk.injEq] at hdec
      have hre := addAll_reached _ (Reached.new _ _ hn) ha
      obtain ⟨l, _, _, hr, _⟩ := reached_inv hre
      refine ⟨_, id, addrs l, hre, linked_of_rep hr, ?_⟩
      rw [segments_of_rep hr]
      -- the walk visits the segments of the list
      have walk : ∀ (m : List (Nat × Seg Nat)) (p : Option Nat), Links id.heap p m none →
          ∀ fuel, m.length ≤ fuel → shape id fuel (headAddr m none)
            = m.map fun y => (y.1, y.2.start, y.2.stop) := by
        intro m
        induction m with
        | nil => intro p _ fuel _; cases fuel <;> rfl
        | cons y t ih =>
          intro p hl fuel hf
          obtain ⟨b, s⟩ := y
          cases fuel with
          | zero => simp at hf
          | succ fuel =>
            simp only [headAddr_cons, shape, hl.1, List.map_cons]
            rw [ih _ hl.2 fuel (by simpa using hf)]
      have bounded : ∀ (m : List (Nat × Seg Nat)) (p : Option Nat), Links id.heap p m none →
          ∀ fuel, fuel < m.length → (shape id fuel (headAddr m none)).length = fuel := by
        intro m
        induction m with
        | nil => intro p _ fuel hf; simp at hf
        | cons y t ih =>
          intro p hl fuel hf
          obtain ⟨b, s⟩ := y
          cases fuel with
          | zero => rfl
          | succ fuel =>
            simp only [headAddr_cons, shape, hl.1, List.length_cons]
            rw [ih _ hl.2 fuel (by simpa using hf)]
      have hw : l.length ≤ 4 := by
        refine Decidable.byContradiction fun hlt => ?_
        have := bounded l none hr.links 4 (by omega)
        rw [hr.first, hdec.2] at this
        cases this
      have hsh := walk l none hr.links 4 hw
      rw [hr.first, hdec.2] at hsh
      intro hord
      have h2 : (l.map fun y => (y.1, y.2.start, y.2.stop)).Pairwise fun a b =>
          a.2.1 < b.2.1 ∨ (a.2.1 = b.2.1 ∧ b.2.2 ≤ a.2.2) := by
        unfold InOrder at hord
        rw [List.pairwise_map] at hord ⊢
        exact hord
      rw [← hsh] at h2
      revert h2
      decide

/-! ## C40: extremes -/

/-- **C40**.  After any history the earliest time of the source is the least start of the records
accepted, the latest the greatest end, and the version the greatest version. -/
theorem C40_extremes {sim : R → R → Bool} {autoheal keep : Bool}
    {hist : List (Arrival R × Bool)} {id : Source R} (h : Reached sim autoheal keep hist id) :
    ((∀ r ∈ accepted hist, id.earliest ≤ r.start) ∧ ∃ r ∈ accepted hist, id.earliest = r.start) ∧
    ((∀ r ∈ accepted hist, r.stop ≤ id.latest) ∧ ∃ r ∈ accepted hist, id.latest = r.stop) ∧
    ((∀ r ∈ accepted hist, r.pub ≤ id.pub) ∧ ∃ r ∈ accepted hist, id.pub = r.pub) :=
  reached_tracked h

example : ∃ hist id, Reached same false false hist id ∧
    hist.map Prod.fst = [three 6, three 0, three 3] := gapFilled false false

/-! ## C67: segments are chains of records -/

/-- **C67**.  After any history the segments are chains of records: a segment begins with the first and
ends with the last of its records, holds their samples in order, each record beginning one sample
period after the end of the one before within tolerance; every record added is in exactly one segment;
and with record lists kept, the record list of a segment is this chain. -/
theorem C67_segments_are_chains {sim : R → R → Bool} {autoheal keep : Bool}
    {hist : List (Arrival R × Bool)} {id : Source R} (h : Reached sim autoheal keep hist id) :
    ∃ (l : List Nat) (chain : Nat → List (Arrival R)) (added : List (Arrival R)), Linked id l ∧
      (∀ a ∈ l, ∃ s, segAt id a = some s ∧ Made keep (chain a) s) ∧
      (l.flatMap chain).Perm added ∧
      (accepted hist).Sublist added ∧ added.Sublist (hist.map Prod.fst) := by
  obtain ⟨l, g, added, hr, hh, ⟨sub, p1, p2, p3⟩, _⟩ := reached_inv h
  refine ⟨addrs l, g, sub, linked_of_rep hr, ?_, ?_, p2, p3⟩
  · intro a ha
    obtain ⟨⟨b, s⟩, hy, e⟩ := List.mem_map.1 ha
    simp only at e
    subst e
    exact ⟨s, (segAt_iff hr b s).2 hy, hh.1 (b, s) hy⟩
  · have : (addrs l).flatMap g = records g l := by
      unfold addrs records
      rw [List.flatMap_map]
    rw [this]
    exact hh.2.trans p1

example : ∃ hist id, Reached same true true hist id ∧
    hist.map Prod.fst = [three 6, three 0, three 3] := gapFilled true true

/-! ## C41: tolerance -/

/-- The gap is one sample period of the record within its time tolerance. -/
def Within (x : Arrival R) (gap : Int) : Prop :=
  x.period - x.tol ≤ gap ∧ gap ≤ x.period + x.tol

theorem within_of_fits {x : Arrival R} {gap : Int} (h : fits x (gap - x.period) = true) :
    Within x gap := by
  unfold fits at h
  simp only [decide_eq_true_eq] at h
  exact ⟨by omega, by omega⟩

theorem others {id id' : Source R} {l l' m : List (Nat × Seg R)} {a : Nat} {s s' : Seg R}
    (r : Rep id l) (r' : Rep id' l') (hp : l.Perm ((a, s) :: m)) (hp' : l'.Perm ((a, s') :: m)) :
    segAt id a = some s ∧ segAt id' a = some s' ∧ ∀ b, b ≠ a → segAt id' b = segAt id b := by
  refine ⟨(segAt_iff r a s).2 (hp.mem_iff.2 (by simp)),
    (segAt_iff r' a s').2 (hp'.mem_iff.2 (by simp)), ?_⟩
  intro b hb
  have key : ∀ t, (b, t) ∈ l' ↔ (b, t) ∈ l := by
    intro t
    rw [hp.mem_iff, hp'.mem_iff]
    simp [hb]
  cases h : segAt id b with
  | none =>
    cases h' : segAt id' b with
    | none => rfl
    | some t =>
      rw [(segAt_iff r b t).2 ((key t).1 ((segAt_iff r' b t).1 h'))] at h
      cases h
  | some t => exact (segAt_iff r' b t).2 ((key t).2 ((segAt_iff r b t).1 h))

/-- **C41** (only within tolerance).  An accepted record is either a new segment of its own; or it is
added behind one segment (`a`) or before it, or between two (if healing), the gaps being one sample
period within tolerance and the rates similar.  No other segment changes. -/
theorem C41_joined_only_within_tolerance {sim : R → R → Bool} {autoheal keep : Bool}
    {hist : List (Arrival R × Bool)} {id id' : Source R} (h : Reached sim autoheal keep hist id)
    {x : Arrival R} {a : Nat} (hadd : addToId sim autoheal keep id x = .ok (id', some a)) :
    (segAt id a = none ∧ (∃ s', segAt id' a = some s' ∧ s'.start = x.start ∧ s'.stop = x.stop ∧
        s'.samplecnt = x.samplecnt ∧ s'.data = x.data) ∧ ∀ b, b ≠ a → segAt id' b = segAt id b) ∨
    (∃ s s', segAt id a = some s ∧ segAt id' a = some s' ∧ sim x.rate s.rate = true ∧
        ((Within x (x.start - s.stop) ∧ s'.start = s.start ∧ s'.stop = x.stop ∧
            s'.data = s.data ++ x.data) ∨
         (Within x (s.start - x.stop) ∧ s'.start = x.start ∧ s'.stop = s.stop ∧
            s'.data = x.data ++ s.data)) ∧
        ∀ b, b ≠ a → segAt id' b = segAt id b) ∨
    (autoheal = true ∧ ∃ s s' c t, c ≠ a ∧ segAt id a = some s ∧ segAt id c = some t ∧
        segAt id' a = some s' ∧ segAt id' c = none ∧
        sim x.rate s.rate = true ∧ sim x.rate t.rate = true ∧
        Within x (x.start - s.stop) ∧ Within x (t.start - x.stop) ∧
        s'.start = s.start ∧ s'.stop = t.stop ∧ s'.data = s.data ++ x.data ++ t.data ∧
        ∀ b, b ≠ a → b ≠ c → segAt id' b = segAt id b) := by
  obtain ⟨l, _, _, hr, _⟩ := reached_inv h
  obtain ⟨id2, res2, l', e, hr', st, _⟩ := addToId_step sim autoheal keep hr x
  rw [hadd] at e
  cases e
  cases st with
  | back l1 l2 _ s s' l' hf hm hp _ _ =>
    right; left
    obtain ⟨o1, o2, o3⟩ := others hr hr' List.perm_middle (hp.trans List.perm_middle)
    refine ⟨s, s', o1, o2, hf.2, Or.inl ⟨within_of_fits hf.1, ?_⟩, o3⟩
    unfold addMsrToSeg at hm
    split at hm
    · cases hm
    · split at hm
      · cases hm
      · simp only [if_true, Option.some.injEq] at hm; subst hm; exact ⟨rfl, rfl, rfl⟩
  | front l1 l2 _ s s' l' hf hm hp _ _ =>
    right; left
    obtain ⟨o1, o2, o3⟩ := others hr hr' List.perm_middle (hp.trans List.perm_middle)
    refine ⟨s, s', o1, o2, hf.2, Or.inr ⟨within_of_fits hf.1, ?_⟩, o3⟩
    unfold addMsrToSeg at hm
    split at hm
    · cases hm
    · split at hm
      · cases hm
      · simp only [Bool.false_eq_true, if_false, Option.some.injEq] at hm; subst hm; exact ⟨rfl, rfl, rfl⟩
  | join l m _ s s' s'' c t l' hah hf hpr hm hj hp hp' _ _ =>
    right; right
    have hnd : (addrs ((a, s) :: (c, t) :: m)).Nodup := (hp.map Prod.fst).nodup hr.nodup
    simp only [addrs_cons, List.nodup_cons, List.mem_cons, not_or] at hnd
    have hca : c ≠ a := fun e => hnd.1.1 e.symm
    refine ⟨hah, s, s'', c, t, hca, (segAt_iff hr a s).2 (hp.mem_iff.2 (by simp)),
      (segAt_iff hr c t).2 (hp.mem_iff.2 (by simp)), (segAt_iff hr' a s'').2 (hp'.mem_iff.2 (by simp)),
      ?_, hf.2, hpr.2, within_of_fits hf.1, within_of_fits hpr.1, ?_⟩
    · rw [segAt_none hr']
      intro hmem
      have : c ∈ addrs ((a, s'') :: m) := (hp'.map Prod.fst).mem_iff.1 hmem
      simp only [addrs_cons, List.mem_cons] at this
      rcases this with h | h
      · exact hca h
      · exact hnd.2.1 h
    · have h1 : s'.start = s.start ∧ s'.data = s.data ++ x.data := by
        unfold addMsrToSeg at hm
        split at hm
        · cases hm
        · split at hm
          · cases hm
          · simp only [if_true, Option.some.injEq] at hm; subst hm; exact ⟨rfl, rfl⟩
      have h2 : s''.start = s'.start ∧ s''.stop = t.stop ∧ s''.data = s'.data ++ t.data := by
        unfold addSegToSeg at hj
        split at hj
        · cases hj
        · split at hj
          · cases hj
          · cases hj; exact ⟨rfl, rfl, rfl⟩
      refine ⟨h2.1.trans h1.1, h2.2.1, by rw [h2.2.2, h1.2], ?_⟩
      intro b hb hbc
      have key : ∀ u, (b, u) ∈ l' ↔ (b, u) ∈ l := by
        intro u
        rw [hp.mem_iff, hp'.mem_iff]
        simp [hb, hbc]
      cases h : segAt id b with
      | none =>
        cases h' : segAt id' b with
        | none => rfl
        | some u =>
          rw [(segAt_iff hr b u).2 ((key u).1 ((segAt_iff hr' b u).1 h'))] at h
          cases h
      | some u => exact (segAt_iff hr' b u).2 ((key u).2 ((segAt_iff hr b u).1 h))
  | new l s l' hm hp _ _ _ =>
    left
    have hfr := fresh_not_mem hr
    refine ⟨(segAt_none hr _).2 hfr, ⟨s, (segAt_iff hr' _ s).2 (hp.mem_iff.2 (by simp)), ?_⟩, ?_⟩
    · unfold msr2seg at hm
      split at hm
      · cases hm
      · cases hm; exact ⟨rfl, rfl, rfl, rfl⟩
    · intro b hb
      have key : ∀ u, (b, u) ∈ l' ↔ (b, u) ∈ l := by
        intro u
        rw [hp.mem_iff]
        simp [hb]
      cases h : segAt id b with
      | none =>
        cases h' : segAt id' b with
        | none => rfl
        | some u =>
          rw [(segAt_iff hr b u).2 ((key u).1 ((segAt_iff hr' b u).1 h'))] at h
          cases h
      | some u => exact (segAt_iff hr' b u).2 ((key u).2 ((segAt_iff hr b u).1 h))

example : ∃ hist id id' a, Reached same true true hist id ∧
    addToId same true true id (three 9) = .ok (id', some a) := by
  obtain ⟨hist, id, h, e⟩ := gapFilled true true
  obtain ⟨id', res, e'⟩ := C38_additions_safe h (three 9)
  obtain ⟨a1, s1, hr, hm, hall⟩ := chain_complete chain3 chain3_rates h (by
    rw [e]
    exact (List.Perm.swap _ _ _).trans (List.Perm.cons _ (List.Perm.swap _ _ _)))
  cases res with
  | some a => exact ⟨hist, id, id', a, h, e'⟩
  | none =>
    exfalso
    have hre := Reached.add hist id _ id' none h e'
    have := (C37_one_type_all_kept (T := 'i') hre (by
      intro x hx
      rcases List.mem_append.1 hx with hx | hx
      · have : x.1 ∈ [three 6, three 0, three 3] := by rw [← e]; exact List.mem_map.2 ⟨x, hx, rfl⟩
        simp only [List.mem_cons, List.not_mem_nil, or_false] at this
        rcases this with h | h | h <;> rw [h] <;> exact three_ofType _
      · simp only [List.mem_singleton] at hx
        subst hx
        exact three_ofType _)).1 (three 9, (none : Option Nat).isSome) (by simp)
    cases this

/-- **C41** (whenever within tolerance).  If no addition failed so far and times are sensible, a record
becomes a segment of its own only if it fits behind or before no segment (exact duplicates of a segment
excepted, which healing keeps apart). -/
theorem C41_apart_only_beyond_tolerance {sim : R → R → Bool} {autoheal keep : Bool}
    {hist : List (Arrival R × Bool)} {id id' : Source R} (h : Reached sim autoheal keep hist id)
    (hall : ∀ y ∈ hist, y.2 = true) (hlong : ∀ y ∈ hist, y.1.start ≤ y.1.stop)
    {x : Arrival R} (hx : x.start ≤ x.stop) (hp : 0 ≤ x.period)
    (hdup : autoheal = true → ∀ b s, segAt id b = some s → ¬ (x.start = s.start ∧ x.stop = s.stop))
    {a : Nat} (hadd : addToId sim autoheal keep id x = .ok (id', some a)) (hnew : segAt id a = none) :
    ∀ b s, segAt id b = some s → sim x.rate s.rate = true →
      ¬ Within x (x.start - s.stop) ∧ ¬ Within x (s.start - x.stop) := by
  obtain ⟨l, g, added, hr, hh, ⟨sub, p1, p2, p3⟩, _⟩ := reached_inv h
  obtain ⟨⟨he, _⟩, ⟨hl, _⟩, _⟩ := reached_tracked h
  obtain ⟨id2, res2, l', e, hr', st, _⟩ := addToId_step sim autoheal keep hr x
  rw [hadd] at e
  cases e
  have hacc : ∀ r ∈ hist.map Prod.fst, r ∈ accepted hist := by
    intro r hr
    obtain ⟨y, hy, rfl⟩ := List.mem_map.1 hr
    exact List.mem_map.2 ⟨y, List.mem_filter.2 ⟨hy, hall y hy⟩, rfl⟩
  -- the records of a segment are records of the history
  have hrec : ∀ b s, (b, s) ∈ l → ∀ r ∈ g b, r ∈ hist.map Prod.fst := by
    intro b s hb r hg
    refine p3.subset (p1.mem_iff.1 (hh.2.mem_iff.1 ?_))
    unfold records
    exact List.mem_flatMap.2 ⟨(b, s), hb, hg⟩
  have hlim : ∀ b s, (b, s) ∈ l → s.stop ≤ id.latest ∧ s.start ≤ id.latest ∧ id.earliest ≤ s.start ∧
      id.earliest ≤ s.stop := by
    intro b s hb
    have hm : Made keep (g b) s := hh.1 (b, s) hb
    obtain ⟨f, hf, hf'⟩ := Option.map_eq_some_iff.1 hm.start
    obtain ⟨t, ht, ht'⟩ := Option.map_eq_some_iff.1 hm.stop
    have mf := hrec b s hb f (List.mem_of_head? hf)
    have mt := hrec b s hb t (List.mem_of_getLast? ht)
    have a1 := he f (hacc f mf)
    have a2 := he t (hacc t mt)
    have a3 := hl f (hacc f mf)
    have a4 := hl t (hacc t mt)
    obtain ⟨y, hy, ey⟩ := List.mem_map.1 mf
    obtain ⟨z, hz, ez⟩ := List.mem_map.1 mt
    have b1 := hlong y hy
    have b2 := hlong z hz
    rw [ey] at b1
    rw [ez] at b2
    omega
  have fits_of : ∀ gap, Within x gap → fits x (gap - x.period) = true := by
    intro gap hw
    unfold Within at hw
    unfold fits
    simp only [decide_eq_true_eq]
    omega
  intro b s hs hsim
  have hb := (segAt_iff hr b s).1 hs
  have old : ∀ u, (a, u) ∈ l → False := by
    intro u hu
    rw [(segAt_iff hr a u).2 hu] at hnew
    cases hnew
  cases st with
  | back l1 l2 _ s1 _ _ _ _ _ _ _ => exact absurd (by simp) (old s1)
  | front l1 l2 _ s1 _ _ _ _ _ _ _ => exact absurd (by simp) (old s1)
  | join _ m _ s1 _ _ c t _ _ _ _ _ _ hp _ _ _ => exact absurd (hp.mem_iff.2 (by simp)) (old s1)
  | new _ s1 _ _ _ _ _ hwhy =>
    have := hlim b s hb
    rcases hwhy with hw | hw | hw | ⟨ha, y, hy, e1, e2⟩
    · constructor <;> (intro hc; unfold Within at hc; omega)
    · constructor <;> (intro hc; unfold Within at hc; omega)
    · obtain ⟨w1, w2⟩ := hw (b, s) hb
      exact ⟨fun hc => w1 ⟨fits_of _ hc, hsim⟩, fun hc => w2 ⟨fits_of _ hc, hsim⟩⟩
    · exact absurd ⟨e1, e2⟩ (hdup ha y.1 y.2 ((segAt_iff hr y.1 y.2).2 hy))

/-- A record two periods behind the end of another becomes a segment of its own. -/
example : ∃ (hist : List (Arrival Nat × Bool)) (id id' : Source Nat), Reached same true true hist id ∧
    (∀ y ∈ hist, y.2 = true) ∧ (∀ y ∈ hist, y.1.start ≤ y.1.stop) ∧
    addToId same true true id (three 4) = .ok (id', some 1) ∧ segAt id 1 = none := by
  cases hn : newId true (three 0) with
  | none => exact absurd hn (by decide)
  | some id =>
    have hre : Reached same true true _ id := Reached.new _ _ hn
    obtain ⟨id', res, e⟩ := C38_additions_safe hre (three 4)
    have hres : res = some 1 := by
      have hdec : (match newId true (three 0) with
          | none => none
          | some id =>
            match addToId same true true id (three 4) with
            | .ok (_, r) => r
            | _ => none) = some 1 := by decide +kernel
      rw [hn] at hdec
      simp only [e] at hdec
      exact hdec
    subst hres
    refine ⟨_, id, id', hre, by simp, by simp [three], e, ?_⟩
    unfold newId at hn
    split at hn
    · cases hn
    · cases hn; rfl

/-- **C41** (in time order).  Records that follow one another exactly, at similar rates and with time
tolerances below the sample period, arriving in this order, make one segment, with or without
healing. -/
theorem C41_contiguous_joined {sim : R → R → Bool} {autoheal keep : Bool} {P : Int} {T : Char}
    {hist : List (Arrival R × Bool)} {id : Source R} (h : Reached sim autoheal keep hist id)
    (hc : Contiguous P T (hist.map Prod.fst))
    (hsim : ∀ x ∈ hist, ∀ y ∈ hist, sim x.1.rate y.1.rate = true) :
    Linked id [id.first] ∧ (∃ s, segAt id id.first = some s ∧ Made keep (hist.map Prod.fst) s) ∧
      ∀ x ∈ hist, x.2 = true := by
  obtain ⟨a, s, hr, hm, hall, _⟩ := chain_inorder (chain := hist.map Prod.fst) (by
      intro a ha b hb
      obtain ⟨x, hx, rfl⟩ := List.mem_map.1 ha
      obtain ⟨y, hy, rfl⟩ := List.mem_map.1 hb
      exact hsim x hx y hy) h (fun x hx => List.mem_map.2 ⟨x, hx, rfl⟩) hc
  have hl := linked_of_rep hr
  have hf := hr.first
  rw [headAddr_cons] at hf
  cases hf
  exact ⟨hl, ⟨s, (segAt_iff hr _ s).2 (by simp), hm⟩, hall⟩

example : ∃ hist id, Reached same false false hist id ∧ Contiguous 1 'i' (hist.map Prod.fst) ∧
    (∀ x ∈ hist, ∀ y ∈ hist, same x.1.rate y.1.rate = true) := by
  obtain ⟨hist, id, h, e⟩ := histories same false false (three 0) (by decide) [three 3, three 6]
  refine ⟨hist, id, h, by rw [e]; exact chain3, ?_⟩
  intro x hx y hy
  exact chain3_rates x.1 (by rw [← e]; exact List.mem_map.2 ⟨x, hx, rfl⟩) y.1
    (by rw [← e]; exact List.mem_map.2 ⟨y, hy, rfl⟩)

/-! ## C68: the order of arrival does not matter -/

/-- **C68**.  Records that follow one another exactly, at similar rates and with time tolerances below
the sample period, arriving in any order with healing, end as one segment with all samples in time
order. -/
theorem C68_arrival_order_irrelevant {sim : R → R → Bool} {keep : Bool} {P : Int} {T : Char}
    {chain : List (Arrival R)} (hc : Contiguous P T chain)
    (hsim : ∀ a ∈ chain, ∀ b ∈ chain, sim a.rate b.rate = true)
    {hist : List (Arrival R × Bool)} {id : Source R} (h : Reached sim true keep hist id)
    (hp : (hist.map Prod.fst).Perm chain) :
    Linked id [id.first] ∧ (∃ s, segAt id id.first = some s ∧ Made keep chain s) ∧
      ∀ x ∈ hist, x.2 = true := by
  obtain ⟨a, s, hr, hm, hall⟩ := chain_complete hc hsim h hp
  have hl := linked_of_rep hr
  have hf := hr.first
  rw [headAddr_cons] at hf
  cases hf
  exact ⟨hl, ⟨s, (segAt_iff hr _ s).2 (by simp), hm⟩, hall⟩

example : ∃ hist id s, Reached same true true hist id ∧
    hist.map Prod.fst = [three 6, three 0, three 3] ∧ segAt id id.first = some s ∧
    s.data = [0, 1, 2, 3, 4, 5, 6, 7, 8] := by
  obtain ⟨hist, id, h, e⟩ := gapFilled true true
  obtain ⟨_, ⟨s, hs, hm⟩, _⟩ := C68_arrival_order_irrelevant chain3 chain3_rates h (by
    rw [e]
    exact (List.Perm.swap _ _ _).trans (List.Perm.cons _ (List.Perm.swap _ _ _)))
  exact ⟨hist, id, s, h, e, hs, hm.data.trans (by decide)⟩

end Verif.Props.Trace
