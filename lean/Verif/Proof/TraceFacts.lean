import Verif.Proof.TraceOrder
import Verif.Proof.TraceList
import Verif.Props.ReportDefs
/-!
# What the sources and segments of a list have of the records added
-/
namespace Verif.Proof.TraceFacts
open Verif.Model.Steim Verif.Model.Trace Verif.Model.TraceList
open Verif.Props.Trace Verif.Props.TraceList Verif.Props.Report Verif.Proof.Trace Verif.Proof.TraceList

variable {R : Type}

/-- The records of each source are among those added, in the order they were added in. -/
theorem listed_from {sim : R → R → Bool} {split autoheal keep : Bool}
    {hist : List (Arrival R × Bool)} {tl : TraceList R} (h : Listed sim split autoheal keep hist tl) :
    ∃ l hgt, LRep split tl l hgt ∧
      ∀ x ∈ l, (∃ hs, Reached sim autoheal keep hs x.2 ∧ hs.Sublist hist) ∧ ∃ y ∈ hist, y.1.sid = x.2.sid := by
  induction h with
  | init seed => exact ⟨[], _, init_rep split seed, by simp⟩
  | add hist tl r tl' res hl ha ih =>
    obtain ⟨l, hgt, hrep, hre⟩ := ih
    obtain ⟨tl2, res2, l', hgt', e, hrep', hcase⟩ := addMsr_step (sim := sim) (autoheal := autoheal)
      (keep := keep) hrep (fun x hx => ⟨_, (hre x hx).1.choose_spec.1⟩) r
    rw [ha] at e
    cases e
    have old : ∀ x ∈ l, (∃ hs, Reached sim autoheal keep hs x.2 ∧ hs.Sublist (hist ++ [(r, res.isSome)])) ∧
        ∃ y ∈ hist ++ [(r, res.isSome)], y.1.sid = x.2.sid := by
      intro x hx
      obtain ⟨⟨hs, h1, h2⟩, y, hy, e⟩ := hre x hx
      exact ⟨⟨hs, h1, h2.trans (List.sublist_append_left _ _)⟩, y, List.mem_append_left _ hy, e⟩
    refine ⟨l', hgt', hrep', ?_⟩
    rcases hcase with ⟨l1, l2, s, e1, e2, e3, e4, e5⟩ | ⟨e1, e2, e3, e4⟩ |
      ⟨l1, l2, a, s, s', seg, e1, e2, e3, e4, e5, e6, e7⟩
    · intro x hx
      rw [e2] at hx
      rcases List.mem_append.1 hx with hx | hx
      · exact old x (by rw [e1]; exact List.mem_append_left _ hx)
      · rcases List.mem_cons.1 hx with rfl | hx
        · refine ⟨⟨[(r, true)], Reached.new r s e3, ?_⟩, (r, res.isSome), by simp, (newId_key e3).1.symm⟩
          rw [e4]
          exact List.sublist_append_right _ _
        · exact old x (by rw [e1]; exact List.mem_append_right _ hx)
    · rw [e2]
      exact old
    · intro x hx
      rw [e2] at hx
      rcases List.mem_append.1 hx with hx | hx
      · exact old x (by rw [e1]; exact List.mem_append_left _ hx)
      · rcases List.mem_cons.1 hx with rfl | hx
        · obtain ⟨⟨hs, h1, h2⟩, y, hy, e⟩ := hre (a, s) (by rw [e1]; simp)
          refine ⟨⟨hs ++ [(r, seg.isSome)], Reached.add hs s r s' seg h1 e3, ?_⟩, y, List.mem_append_left _ hy,
            e.trans e6.symm⟩
          have hres : res.isSome = seg.isSome := by rw [e4]; cases seg <;> rfl
          rw [hres]
          exact h2.append (List.Sublist.refl _)
        · exact old x (by rw [e1]; exact List.mem_append_right _ (List.mem_cons_of_mem _ hx))

/-- Segments have the rates of records, a source has the version of one. -/
theorem reached_rates {sim : R → R → Bool} {autoheal keep : Bool} {hist : List (Arrival R × Bool)}
    {id : Source R} (h : Reached sim autoheal keep hist id) :
    (∃ l, Rep id l ∧ Rates (hist.map Prod.fst) l) ∧ ∃ y ∈ hist, id.pub = y.1.pub := by
  induction h with
  | new r id hn =>
    obtain ⟨s, hm, hr, _⟩ := newId_rep keep r id hn
    refine ⟨⟨[(0, s)], hr, ?_⟩, (r, true), by simp, (newId_key hn).2⟩
    intro y hy
    simp only [List.mem_singleton] at hy
    subst hy
    refine ⟨r, by simp, ?_⟩
    unfold msr2seg at hm
    split at hm
    · cases hm
    · cases hm; rfl
  | add hist id x id' res _ ha ih =>
    obtain ⟨⟨l, hr, hq⟩, y, hy, ep⟩ := ih
    obtain ⟨id2, res2, l', e, hr', st, ht, hn⟩ := addToId_step sim autoheal keep hr x
    rw [ha] at e
    cases e
    refine ⟨⟨l', hr', step_rates st (by simp) ?_⟩, ?_⟩
    · intro y hy
      obtain ⟨r, h1, h2⟩ := hq y hy
      exact ⟨r, by rw [List.map_append]; exact List.mem_append_left _ h1, h2⟩
    · cases res with
      | none => exact ⟨y, List.mem_append_left _ hy, (hn rfl).pub.trans ep⟩
      | some g =>
        have := (ht (by simp)).pub
        by_cases hle : id.pub ≤ x.pub
        · exact ⟨(x, true), by simp, this.trans (Nat.max_eq_right hle)⟩
        · exact ⟨y, List.mem_append_left _ hy, (this.trans (Nat.max_eq_left (by omega))).trans ep⟩

theorem sum_sublist {l m : List (Arrival R)} (h : l.Sublist m) (hp : ∀ r ∈ m, 0 ≤ r.samplecnt) :
    (l.map Arrival.samplecnt).sum ≤ (m.map Arrival.samplecnt).sum ∧ 0 ≤ (l.map Arrival.samplecnt).sum := by
  induction h with
  | slnil => simp
  | cons a _ ih =>
    have := ih fun r hr => hp r (List.mem_cons_of_mem _ hr)
    have := hp a (by simp)
    simp only [List.map_cons, List.sum_cons]
    omega
  | cons_cons a _ ih =>
    have := ih fun r hr => hp r (List.mem_cons_of_mem _ hr)
    have := hp a (by simp)
    simp only [List.map_cons, List.sum_cons]
    omega

theorem sum_perm {l m : List (Arrival R)} (h : l.Perm m) :
    (l.map Arrival.samplecnt).sum = (m.map Arrival.samplecnt).sum := by
  induction h with
  | nil => rfl
  | cons _ _ ih => simp [ih]
  | swap a b l => simp only [List.map_cons, List.sum_cons]; omega
  | trans _ _ ih1 ih2 => exact ih1.trans ih2

theorem sum_part {α : Type} (f : α → List (Arrival R)) (l : List α) (x : α) (hx : x ∈ l)
    (hp : ∀ y ∈ l, ∀ r ∈ f y, 0 ≤ r.samplecnt) :
    ((f x).map Arrival.samplecnt).sum ≤ ((l.flatMap f).map Arrival.samplecnt).sum := by
  obtain ⟨l1, l2, e⟩ := List.append_of_mem hx
  have hs : (f x).Sublist (l.flatMap f) := by
    rw [e, List.flatMap_append, List.flatMap_cons]
    exact (List.sublist_append_left _ _).trans (List.sublist_append_right _ _)
  refine (sum_sublist hs ?_).1
  intro r hr
  obtain ⟨y, hy, hr⟩ := List.mem_flatMap.1 hr
  exact hp y hy r hr

/-- A segment of a source: its times, rate and samples are of records added. -/
theorem reached_segment {sim : R → R → Bool} {autoheal keep : Bool} {hs : List (Arrival R × Bool)}
    {id : Source R} (h : Reached sim autoheal keep hs id) : ∃ l, Rep id l ∧ ∀ y ∈ l,
      (∃ r ∈ hs, y.2.start = r.1.start) ∧ (∃ r ∈ hs, y.2.stop = r.1.stop) ∧ (∃ r ∈ hs, y.2.rate = r.1.rate) ∧
      ((∀ r ∈ hs, 0 ≤ r.1.samplecnt) →
        0 ≤ y.2.samplecnt ∧ y.2.samplecnt ≤ (hs.map fun r => r.1.samplecnt).sum) := by
  obtain ⟨l, g, added, hr, hh, ⟨sub, p1, _, p3⟩, _⟩ := reached_inv h
  obtain ⟨⟨l', hr', hq⟩, _⟩ := reached_rates h
  refine ⟨l, hr, ?_⟩
  have hin : ∀ y ∈ l, ∀ r ∈ g y.1, r ∈ hs.map Prod.fst := by
    intro y hy r hrr
    refine p3.subset (p1.mem_iff.1 (hh.2.mem_iff.1 ?_))
    exact List.mem_flatMap.2 ⟨y, hy, hrr⟩
  intro y hy
  have hm := hh.1 y hy
  refine ⟨?_, ?_, ?_, ?_⟩
  · have := hm.start
    cases hg : (g y.1).head? with
    | none => rw [hg] at this; cases this
    | some r =>
      rw [hg] at this
      simp only [Option.map_some, Option.some.injEq] at this
      obtain ⟨z, hz, e⟩ := List.mem_map.1 (hin y hy r (List.mem_of_mem_head? (by rw [hg]; rfl)))
      exact ⟨z, hz, by rw [e, this]⟩
  · have := hm.stop
    cases hg : (g y.1).getLast? with
    | none => rw [hg] at this; cases this
    | some r =>
      rw [hg] at this
      simp only [Option.map_some, Option.some.injEq] at this
      obtain ⟨z, hz, e⟩ := List.mem_map.1 (hin y hy r (List.mem_of_getLast? hg))
      exact ⟨z, hz, by rw [e, this]⟩
  · have hy' : y ∈ l' := (segAt_iff hr' y.1 y.2).1 ((segAt_iff hr y.1 y.2).2 hy)
    obtain ⟨r, hrr, e⟩ := hq y hy'
    obtain ⟨z, hz, e'⟩ := List.mem_map.1 hrr
    exact ⟨z, hz, by rw [e, e']⟩
  · intro hp
    have hp' : ∀ r ∈ hs.map Prod.fst, 0 ≤ r.samplecnt := by
      intro r hrr
      obtain ⟨z, hz, e⟩ := List.mem_map.1 hrr
      rw [← e]
      exact hp z hz
    rw [hm.samplecnt]
    have e : (hs.map fun r => r.1.samplecnt).sum = ((hs.map Prod.fst).map Arrival.samplecnt).sum := by
      rw [List.map_map]; rfl
    rw [e]
    have h1 := sum_part (fun y : Nat × Seg R => g y.1) l y hy fun z hz r hrr => hp' r (hin z hz r hrr)
    have h2 := sum_perm (hh.2.trans p1)
    have h3 := sum_sublist p3 hp'
    have h4 := (sum_sublist (List.Sublist.refl (g y.1)) fun r hrr => hp' r (hin y hy r hrr)).2
    have h5 : (l.flatMap fun y : Nat × Seg R => g y.1) = Verif.Proof.Trace.records g l := rfl
    rw [h5] at h1
    exact ⟨h4, by omega⟩

/-- The sources of a list and their segments. -/
theorem listed_rows {sim : R → R → Bool} {split autoheal keep : Bool}
    {hist : List (Arrival R × Bool)} {tl : TraceList R} (h : Listed sim split autoheal keep hist tl) :
    ∃ (l : List (Nat × Source R)) (pick : Nat → List (Nat × Seg R)) (hgt : Nat → Nat), LRep split tl l hgt ∧
      (∀ x ∈ l, Rep x.2 (pick x.1)) ∧ Contents tl (l.map fun x => (x.2, (pick x.1).map Prod.snd)) ∧
      ∀ x ∈ l, (∃ hs, Reached sim autoheal keep hs x.2 ∧ hs.Sublist hist) ∧ (∃ y ∈ hist, y.1.sid = x.2.sid) := by
  obtain ⟨l, hgt, hrep, hre⟩ := listed_from h
  have hrs : ∀ a s, tl.sources a = some s → ∃ ls, Rep s ls := by
    intro a s hs
    obtain ⟨x, hx, e⟩ := List.mem_map.1 (hrep.only a (by rw [hs]; rfl))
    have hh := hrep.here x hx
    rw [e, hs] at hh
    cases hh
    obtain ⟨⟨_, h1, _⟩, _⟩ := hre x hx
    obtain ⟨ls, _, _, hr, _⟩ := reached_inv h1
    exact ⟨ls, hr⟩
  let pick : Nat → List (Nat × Seg R) := fun a =>
    match hs : tl.sources a with
    | none => []
    | some s => (hrs a s hs).choose
  have hpick : ∀ a s, tl.sources a = some s → Rep s (pick a) := by
    intro a s hs
    show Rep s (match hs : tl.sources a with
      | none => []
      | some s => (hrs a s hs).choose)
    split
    · rename_i hn; rw [hs] at hn; cases hn
    · rename_i s2 hs2
      have hs3 := hs2
      rw [hs] at hs3
      cases hs3
      exact (hrs a s hs2).choose_spec
  refine ⟨l, pick, hgt, hrep, fun x hx => hpick x.1 x.2 (hrep.here x hx), ?_, hre⟩
  refine ⟨l.map Prod.fst, fun a => addrs (pick a), walk_of_rep hrep,
    fun a s hs => linked_of_rep (hpick a s hs), ?_⟩
  have : ∀ m : List (Nat × Source R), (∀ x ∈ m, tl.sources x.1 = some x.2) →
      m.map (fun x => (x.2, (pick x.1).map Prod.snd))
        = (m.map Prod.fst).filterMap fun a => (tl.sources a).map fun s => (s, segments s (addrs (pick a))) := by
    intro m hm
    induction m with
    | nil => rfl
    | cons x t ih =>
      have hx := hm x (by simp)
      rw [List.map_cons, List.map_cons, List.filterMap_cons, hx]
      simp only [Option.map_some, segments_of_rep (hpick x.1 x.2 hx)]
      rw [ih fun y hy => hm y (List.mem_cons_of_mem _ hy)]
  exact this l hrep.here

theorem Contents.source {tl : TraceList R} {rows : List (Source R × List (Seg R))} (h : Contents tl rows)
    {x : Source R × List (Seg R)} (hx : x ∈ rows) :
    ∃ a l, tl.sources a = some x.1 ∧ Linked x.1 l ∧ x.2 = segments x.1 l := by
  obtain ⟨l, segs, _, hl, e⟩ := h
  rw [e] at hx
  obtain ⟨a, _, ha⟩ := List.mem_filterMap.1 hx
  cases hs : tl.sources a with
  | none => rw [hs] at ha; cases ha
  | some s =>
    rw [hs] at ha
    simp only [Option.map_some, Option.some.injEq] at ha
    subst ha
    exact ⟨a, segs a, hs, hl a s hs, rfl⟩

/-- A chain of records with tolerances no larger than the period. -/
theorem chain_order : ∀ (rs : List (Arrival R)) (a b : Arrival R),
    (∀ r ∈ rs, r.start ≤ r.stop ∧ r.tol ≤ r.period) → Adjacent Near rs → rs.head? = some a →
    rs.getLast? = some b → a.start ≤ b.stop
  | [], _, _, _, _, h, _ => by cases h
  | [x], a, b, h, _, ha, hb => by
    simp only [List.head?_cons, Option.some.injEq] at ha
    simp only [List.getLast?_singleton, Option.some.injEq] at hb
    subst ha; subst hb
    exact (h x (by simp)).1
  | x :: y :: t, a, b, h, hadj, ha, hb => by
    have := chain_order (y :: t) y b (fun r hr => h r (List.mem_cons_of_mem _ hr)) hadj.2 rfl
      (by rw [List.getLast?_cons_cons] at hb; exact hb)
    simp only [List.head?_cons, Option.some.injEq] at ha
    subst ha
    obtain ⟨z, hz, h1, h2⟩ := hadj.1
    have hx := h x (by simp)
    have hzt : z.tol ≤ z.period := by
      rcases hz with rfl | rfl
      · exact hx.2
      · exact (h z (by simp)).2
    omega

theorem reached_order {sim : R → R → Bool} {autoheal keep : Bool} {hs : List (Arrival R × Bool)}
    {id : Source R} (h : Reached sim autoheal keep hs id)
    (ho : ∀ r ∈ hs, r.1.start ≤ r.1.stop ∧ r.1.tol ≤ r.1.period) :
    ∃ l, Rep id l ∧ ∀ y ∈ l, y.2.start ≤ y.2.stop := by
  obtain ⟨l, g, added, hr, hh, ⟨sub, p1, _, p3⟩, _⟩ := reached_inv h
  refine ⟨l, hr, ?_⟩
  intro y hy
  have hm := hh.1 y hy
  have hin : ∀ r ∈ g y.1, r ∈ hs.map Prod.fst := fun r hrr =>
    p3.subset (p1.mem_iff.1 (hh.2.mem_iff.1 (List.mem_flatMap.2 ⟨y, hy, hrr⟩)))
  have hso := hm.start
  have hst := hm.stop
  cases hg : (g y.1).head? with
  | none => rw [hg] at hso; cases hso
  | some a =>
    cases hg' : (g y.1).getLast? with
    | none => rw [hg'] at hst; cases hst
    | some b =>
      rw [hg] at hso
      rw [hg'] at hst
      simp only [Option.map_some, Option.some.injEq] at hso hst
      rw [← hso, ← hst]
      refine chain_order _ a b ?_ hm.near hg hg'
      intro r hrr
      obtain ⟨z, hz, e⟩ := List.mem_map.1 (hin r hrr)
      rw [← e]
      exact ho z hz

/-- Usual records make a tidy list. -/
theorem usual_tidy {sim : Rat → Rat → Bool} {split autoheal keep : Bool}
    {hist : List (Arrival Rat × Bool)} {tl : TraceList Rat} (h : Listed sim split autoheal keep hist tl)
    (hu : Usual hist) : Tidy tl := by
  intro rows hrows x hx
  obtain ⟨l, pick, hgt, hrep, hpick, _, hre⟩ := listed_rows h
  obtain ⟨a, ls, hs, hlk, e⟩ := Contents.source hrows hx
  obtain ⟨z, hz, ez⟩ := List.mem_map.1 (hrep.only a (by rw [hs]; rfl))
  have hh := hrep.here z hz
  rw [ez, hs] at hh
  have hzx : z.2 = x.1 := (Option.some.inj hh).symm
  obtain ⟨⟨hist', h1, hsub⟩, y, hy, ey⟩ := hre z hz
  rw [hzx] at h1 ey
  have ho := fun r (hr : r ∈ hist') => hu.1 r (hsub.subset hr)
  obtain ⟨l1, hr1, hseg⟩ := reached_segment h1
  obtain ⟨l2, hr2, hord⟩ := reached_order h1 fun r hr => ⟨(ho r hr).order, (ho r hr).tol⟩
  obtain ⟨_, p, hp, ep⟩ := reached_rates h1
  refine ⟨by rw [← ey]; exact (hu.1 y hy).sid, by rw [ep]; exact (ho p hp).pub, ?_⟩
  intro s hs
  rw [e] at hs
  obtain ⟨b, _, hb⟩ := List.mem_filterMap.1 hs
  have m1 := (segAt_iff hr1 b s).1 hb
  have m2 := (segAt_iff hr2 b s).1 hb
  obtain ⟨⟨r1, g1, q1⟩, ⟨r2, g2, q2⟩, ⟨r3, g3, q3⟩, hc⟩ := hseg _ m1
  have hcnt := hc fun r hr => (ho r hr).samples
  have hsum : (hist'.map fun r => r.1.samplecnt).sum ≤ (hist.map fun r => r.1.samplecnt).sum := by
    have := (sum_sublist (hsub.map Prod.fst) (fun r hr => by
      obtain ⟨z, hz, e⟩ := List.mem_map.1 hr
      rw [← e]
      exact (hu.1 z hz).samples)).1
    rw [List.map_map, List.map_map] at this
    exact this
  have := hu.2
  simp only at hcnt
  exact ⟨q1 ▸ (ho r1 g1).start, q2 ▸ (ho r2 g2).stop, hord _ m2, q3 ▸ (ho r3 g3).rate, hcnt.1, by omega⟩

end Verif.Proof.TraceFacts
