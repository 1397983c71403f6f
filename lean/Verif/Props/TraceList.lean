import Verif.Proof.TraceList
import Verif.Props.Trace
/-!
# Properties of lists of sources (C39, C69)
-/
namespace Verif.Props.TraceList
open Verif.Model.Steim Verif.Model.Trace Verif.Model.TraceList Verif.Props.Trace
open Verif.Proof.TraceList

variable {R : Type}

/-- A record of three samples of a source. -/
def from' (sid : List UInt8) (pub : Nat) (t : Int) : Arrival Nat := { three t with sid, pub }

/-- A history with three sources. -/
theorem threeSources (split : Bool) : ∃ hist tl, Listed same split true false hist tl ∧
    hist.map Prod.fst = [from' [66] 1 0, from' [65] 2 0, from' [66, 66] 1 0, from' [66] 1 3,
      from' [65] 3 0] :=
  listings same split true false _

/-- **C39** (safety).  Adding a record to a list ends and follows no bad pointer, whatever was added
before and whatever the heights. -/
theorem C39_additions_safe {sim : R → R → Bool} {split autoheal keep : Bool}
    {hist : List (Arrival R × Bool)} {tl : TraceList R}
    (h : Listed sim split autoheal keep hist tl) (r : Arrival R) :
    ∃ tl' res, addMsr sim split autoheal keep tl r = .ok (tl', res) :=
  listed_next h r

example : ∃ hist tl, Listed same false true false hist tl ∧ hist.length = 5 := by
  obtain ⟨hist, tl, h, e⟩ := threeSources false
  exact ⟨hist, tl, h, by have := congrArg List.length e; simpa using this⟩

/-- **C39** (order).  Walking the list visits each source once, in the order of the identifiers and, if
versions are split, of the versions. -/
theorem C39_listed_once_in_order {sim : R → R → Bool} {split autoheal keep : Bool}
    {hist : List (Arrival R × Bool)} {tl : TraceList R}
    (h : Listed sim split autoheal keep hist tl) :
    ∃ l, Walk tl l ∧ (l.filterMap tl.sources).length = l.length ∧
      (l.filterMap tl.sources).Pairwise (Before split) := by
  obtain ⟨l, hgt, hrep, _⟩ := listed_inv h
  refine ⟨l.map Prod.fst, walk_of_rep hrep, ?_⟩
  have e : ∀ m : List (Nat × Source R), (∀ x ∈ m, tl.sources x.1 = some x.2) →
      (m.map Prod.fst).filterMap tl.sources = m.map Prod.snd := by
    intro m
    induction m with
    | nil => intro _; rfl
    | cons x t ih =>
      intro hm
      rw [List.map_cons, List.filterMap_cons, hm x (by simp)]
      simp only [List.map_cons]
      rw [ih fun y hy => hm y (List.mem_cons_of_mem _ hy)]
  rw [e l hrep.here]
  refine ⟨by simp, ?_⟩
  rw [List.pairwise_map]
  exact hrep.sorted

example : ∃ hist tl, Listed same true true false hist tl ∧ hist.length = 5 := by
  obtain ⟨hist, tl, h, e⟩ := threeSources true
  exact ⟨hist, tl, h, by have := congrArg List.length e; simpa using this⟩

/-- **C39** (finding).  The search for an identifier (and version, if versions are split) ends and
returns an entry exactly if a record with it was accepted, and then an entry of this identifier and
version. -/
theorem C39_found_iff_added {sim : R → R → Bool} {split autoheal keep : Bool}
    {hist : List (Arrival R × Bool)} {tl : TraceList R}
    (h : Listed sim split autoheal keep hist tl) (sid : List UInt8) (version : Nat)
    (hv : split = false → version = 0) :
    ∃ res prev, findID tl sid version = .ok (res, prev) ∧
      (∀ a, res = some a → ∃ s, tl.sources a = some s ∧ s.sid = sid ∧ (version ≠ 0 → s.pub = version)) ∧
      (res.isSome = true ↔
        ∃ y ∈ hist, y.2 = true ∧ y.1.sid = sid ∧ (version ≠ 0 → y.1.pub = version)) := by
  obtain ⟨l, hgt, hrep, hre, hin, hfrom⟩ := listed_inv h
  obtain ⟨l1, l0, l2, e, h1, h0, h2⟩ := split3 (sid := sid) hv hrep.sorted
  obtain ⟨res, prev, ef, hres⟩ := findID_rep hrep e h1 h0 h2
  have hfound : ∀ b s, (b, s) ∈ l0 → s.sid = sid ∧ (version ≠ 0 → s.pub = version) :=
    fun b s hb => (compareId_eq _ _ _).1 (h0 (b, s) hb)
  refine ⟨res, prev, ef, ?_, ?_⟩
  · intro a ha
    rcases hres with ⟨b, s, hr, hb⟩ | ⟨hr, _⟩
    · rw [hr] at ha
      cases ha
      exact ⟨s, hrep.here (a, s) (by rw [e]; simp [hb]), hfound a s hb⟩
    · rw [hr] at ha; cases ha
  · constructor
    · intro hs
      rcases hres with ⟨b, s, hr, hb⟩ | ⟨hr, _⟩
      · obtain ⟨k1, k2⟩ := hfound b s hb
        obtain ⟨y, hy, hy2, e1, e2⟩ := hfrom (b, s) (by rw [e]; simp [hb])
        refine ⟨y, hy, hy2, e1.trans k1, fun hz => ?_⟩
        cases hsp : split with
        | false => exact absurd (hv hsp) hz
        | true => exact (e2 hsp).trans (k2 hz)
      · rw [hr] at hs; cases hs
    · rintro ⟨y, hy, hy2, e1, e2⟩
      rcases hres with ⟨b, s, hr, hb⟩ | ⟨hr, hl0, _⟩
      · rw [hr]; rfl
      · exfalso
        obtain ⟨x, hx, hm⟩ := hin y hy hy2
        have hc : compareId x.2 sid version = 0 := by
          rw [compareId_eq]
          refine ⟨hm.1.trans e1, fun hz => ?_⟩
          cases hsp : split with
          | false => exact absurd (hv hsp) hz
          | true =>
            have := e2 hz
            rw [← this]
            exact hm.2 hsp (by omega)
        rw [e, hl0, List.append_nil] at hx
        rcases List.mem_append.1 hx with hx | hx
        · have := h1 x hx; omega
        · have := h2 x hx; omega

example : ∃ hist tl, Listed same true true false hist tl ∧
    ∃ a prev, findID tl [66] 1 = .ok (some a, prev) := by
  cases hi : addMsr same true true false ({ init with prng := 1 } : TraceList Nat) (from' [66] 1 0) with
  | err => exact absurd (hi ▸ listed_next (Listed.init 1) (from' [66] 1 0)) (by simp)
  | ub => exact absurd (hi ▸ listed_next (Listed.init 1) (from' [66] 1 0)) (by simp)
  | oob => exact absurd (hi ▸ listed_next (Listed.init 1) (from' [66] 1 0)) (by simp)
  | ok p =>
    obtain ⟨tl, res⟩ := p
    have hres : res.isSome = true := by
      have : (match addMsr same true true false ({ init with prng := 1 } : TraceList Nat)
            (from' [66] 1 0) with
          | .ok (_, res) => res.isSome
          | _ => false) = true := by decide +kernel
      rw [hi] at this
      exact this
    have hl := Listed.add [] _ _ tl res (Listed.init 1) hi
    obtain ⟨r, prev, e, _, h⟩ := C39_found_iff_added hl [66] 1 (by simp)
    cases r with
    | some a => exact ⟨_, tl, hl, a, prev, e⟩
    | none =>
      have := h.2 ⟨(from' [66] 1 0, res.isSome), by simp, hres, rfl, fun _ => rfl⟩
      cases this

/-! ## C69: sources are independent -/

/-- **C69** (part).  Every source holds exactly what it would hold if its own records alone had been
added, in the same order: records of other sources, and if versions are split, of other versions, make
no difference.  Every record accepted belongs to a source of the list.  With versions split, versions
must not be zero.

Missing: records of version zero with versions split, `C69_zero_version_violated`. -/
theorem C69_sources_independent_partial {sim : R → R → Bool} {split autoheal keep : Bool}
    {hist : List (Arrival R × Bool)} {tl : TraceList R}
    (h : Listed sim split autoheal keep hist tl)
    (hv : split = true → ∀ y ∈ hist, y.1.pub ≠ 0) :
    (∀ a s, tl.sources a = some s → Reached sim autoheal keep (own split s.sid s.pub hist) s) ∧
    (∀ y ∈ hist, y.2 = true → ∃ a s, tl.sources a = some s ∧ Belongs split s.sid s.pub y.1 = true) := by
  obtain ⟨l, hgt, hrep, hre, hin, hfrom⟩ := listed_inv h
  constructor
  · intro a s hs
    obtain ⟨x, hx, e⟩ := List.mem_map.1 (hrep.only a (by rw [hs]; rfl))
    have := hrep.here x hx
    rw [e, hs] at this
    cases this
    obtain ⟨hs', h1, h2⟩ := hre x hx
    rw [← h2 hv]
    exact h1
  · intro y hy hy2
    obtain ⟨x, hx, hm⟩ := hin y hy hy2
    exact ⟨x.1, x.2, hrep.here x hx, (belongs_iff _ _ _ _).2 ⟨hm.1.symm, fun hs =>
      (hm.2 hs (hv hs y hy)).symm⟩⟩

example : ∃ hist tl, Listed same true true false hist tl ∧ hist.length = 5 ∧
    (true = true → ∀ y ∈ hist, y.1.pub ≠ 0) := by
  obtain ⟨hist, tl, h, e⟩ := threeSources true
  refine ⟨hist, tl, h, by have := congrArg List.length e; simpa using this, fun _ y hy => ?_⟩
  have : y.1 ∈ hist.map Prod.fst := List.mem_map.2 ⟨y, hy, rfl⟩
  rw [e] at this
  simp only [List.mem_cons, List.not_mem_nil, or_false] at this
  rcases this with h | h | h | h | h <;> rw [h] <;> decide

/-- **C69** (violated).  With versions split, a record of version 0 is put into the entry of version 2
of the same source. -/
theorem C69_zero_version_violated : ∃ (hist : List (Arrival Nat × Bool)) (tl : TraceList Nat),
    Listed same true true false hist tl ∧ tl.numtraceids = 1 ∧
    ∃ y ∈ hist, ∃ z ∈ hist, y.2 = true ∧ z.2 = true ∧ y.1.pub ≠ z.1.pub := by
  have hdec : (match addMsr same true true false ({ init with prng := 1 } : TraceList Nat)
        (from' [66] 2 0) with
      | .ok (tl, r1) =>
        match addMsr same true true false tl (from' [66] 0 3) with
        | .ok (tl, r2) => some (r1.isSome, r2.isSome, tl.numtraceids)
        | _ => none
      | _ => none) = some (true, true, 1) := by decide +kernel
  obtain ⟨tl1, r1, e1⟩ := listed_next (sim := same) (split := true) (autoheal := true) (keep := false)
    (Listed.init 1) (from' [66] 2 0)
  have h1 := Listed.add [] _ _ tl1 r1 (Listed.init 1) e1
  obtain ⟨tl2, r2, e2⟩ := listed_next h1 (from' [66] 0 3)
  have h2 := Listed.add _ _ _ tl2 r2 h1 e2
  simp only [e1, e2, Option.some.injEq, Prod.mk.injEq] at hdec
  exact ⟨_, tl2, h2, hdec.2.2, (from' [66] 2 0, r1.isSome), by simp, (from' [66] 0 3, r2.isSome),
    by simp, hdec.1, hdec.2.1, (by decide : (2 : Nat) ≠ 0)⟩

/-- A record that is refused is not of the type of its source. -/
theorem none_refused {sim : R → R → Bool} {split autoheal keep : Bool} {T : List UInt8 → Char}
    {hist : List (Arrival R × Bool)} {tl : TraceList R}
    (h : Listed sim split autoheal keep hist tl) (hv : split = true → ∀ y ∈ hist, y.1.pub ≠ 0)
    (ht : ∀ y ∈ hist, OfType (T y.1.sid) y.1) : ∀ y ∈ hist, y.2 = true := by
  induction h with
  | init seed => intro y hy; cases hy
  | add hist tl r tl' res hl ha ih =>
    have hv' : split = true → ∀ y ∈ hist, y.1.pub ≠ 0 :=
      fun hs y hy => hv hs y (List.mem_append.2 (Or.inl hy))
    have ht' : ∀ y ∈ hist, OfType (T y.1.sid) y.1 := fun y hy => ht y (List.mem_append.2 (Or.inl hy))
    have htr : OfType (T r.sid) r := ht (r, res.isSome) (by simp)
    intro y hy
    rcases List.mem_append.1 hy with hy | hy
    · exact ih hv' ht' y hy
    rw [List.mem_singleton] at hy
    subst hy
    obtain ⟨found, prev, ef, hf, -⟩ := C39_found_iff_added hl r.sid (if split then r.pub else 0)
      (fun hs => by rw [hs]; rfl)
    unfold addMsr at ha
    rw [ef] at ha
    cases found with
    | none =>
      simp only [Res.bind] at ha
      cases hn : newId keep r with
      | none =>
        exfalso
        unfold newId at hn
        obtain ⟨s, e, -⟩ := Verif.Proof.Trace.msr2seg_type (keep := keep) htr
        rw [e] at hn
        cases hn
      | some s =>
        rw [hn] at ha
        simp only at ha
        cases hd : addID tl s prev with
        | ok d =>
          rw [hd] at ha
          cases d with
          | none => cases ha
          | some p => cases ha; rfl
        | err => rw [hd] at ha; cases ha
        | ub => rw [hd] at ha; cases ha
        | oob => rw [hd] at ha; cases ha
    | some a =>
      obtain ⟨s, es, e1, e2⟩ := hf a rfl
      simp only [Res.bind, source, es] at ha
      cases hd : addToId sim autoheal keep s r with
      | ok d =>
        rw [hd] at ha
        cases ha
        have hre := Reached.add _ _ _ _ _ ((C69_sources_independent_partial hl hv').1 a s es) hd
        have := (C37_one_type_all_kept (T := T r.sid) hre (by
          intro x hx
          rcases List.mem_append.1 hx with hx | hx
          · unfold own at hx
            obtain ⟨k1, k2⟩ := List.mem_filter.1 ((List.dropWhile_sublist _).subset hx)
            have hb : x.1.sid = s.sid := by
              unfold Belongs at k2
              simp only [Bool.and_eq_true, beq_iff_eq] at k2
              exact k2.1
            rw [← e1, ← hb]
            exact ht' x k1
          · rw [List.mem_singleton] at hx
            subst hx
            exact htr)).1 (r, d.2.isSome) (by simp)
        rw [Option.isSome_map]
        exact this
      | err => rw [hd] at ha; cases ha
      | ub => rw [hd] at ha; cases ha
      | oob => rw [hd] at ha; cases ha

/-- If none was refused, the records of a source are all that belong to it. -/
theorem own_all (split : Bool) (sid : List UInt8) (pub : Nat) {hist : List (Arrival R × Bool)}
    (hall : ∀ y ∈ hist, y.2 = true) :
    (own split sid pub hist).map Prod.fst = (hist.map Prod.fst).filter (Belongs split sid pub) := by
  unfold own
  have hd : ∀ l : List (Arrival R × Bool), (∀ y ∈ l, y.2 = true) → l.dropWhile (fun y => !y.2) = l := by
    intro l hl
    cases l with
    | nil => rfl
    | cons y t =>
      rw [List.dropWhile_cons_of_neg]
      rw [hl y (by simp)]
      simp
  rw [hd _ fun y hy => hall y (List.mem_filter.1 hy).1, List.filter_map]
  rfl

/-- **C37** (in a list of sources).  If the records of each source have the same sample type, of known size
if they have samples, none is refused and every source holds the samples of exactly its own records. -/
theorem C37_each_source_keeps_samples {sim : R → R → Bool} {split autoheal keep : Bool}
    {T : List UInt8 → Char} {hist : List (Arrival R × Bool)} {tl : TraceList R}
    (h : Listed sim split autoheal keep hist tl) (hv : split = true → ∀ y ∈ hist, y.1.pub ≠ 0)
    (ht : ∀ y ∈ hist, OfType (T y.1.sid) y.1) :
    (∀ y ∈ hist, y.2 = true) ∧
    ∀ a s, tl.sources a = some s → ∃ l, Linked s l ∧
      ((segments s l).map Seg.samplecnt).sum = (((hist.map Prod.fst).filter
        (Belongs split s.sid s.pub)).map Arrival.samplecnt).sum ∧
      ((segments s l).flatMap Seg.data).Perm
        (((hist.map Prod.fst).filter (Belongs split s.sid s.pub)).flatMap Arrival.data) := by
  have hall := none_refused h hv ht
  refine ⟨hall, ?_⟩
  intro a s hs
  have hown := own_all split s.sid s.pub hall
  have hr := (C69_sources_independent_partial h hv).1 a s hs
  have hmem : ∀ x ∈ own split s.sid s.pub hist, x ∈ hist ∧ x.1.sid = s.sid := by
    intro x hx
    unfold own at hx
    obtain ⟨k1, k2⟩ := List.mem_filter.1 ((List.dropWhile_sublist _).subset hx)
    unfold Belongs at k2
    simp only [Bool.and_eq_true, beq_iff_eq] at k2
    exact ⟨k1, k2.1⟩
  obtain ⟨l, h1, h2, h3⟩ := (C37_one_type_all_kept (T := T s.sid) hr fun x hx => by
    obtain ⟨k1, k2⟩ := hmem x hx
    rw [← k2]
    exact ht x k1).2
  refine ⟨l, h1, ?_, ?_⟩
  · rw [h2, ← hown, List.map_map]
    rfl
  · rw [← hown, List.flatMap_map]
    exact h3

example : ∃ hist tl, Listed same false true false hist tl ∧ hist.length = 5 ∧
    ∀ y ∈ hist, OfType ((fun _ => 'i') y.1.sid) y.1 := by
  obtain ⟨hist, tl, h, e⟩ := threeSources false
  refine ⟨hist, tl, h, by have := congrArg List.length e; simpa using this, fun y hy => ?_⟩
  have : y.1 ∈ hist.map Prod.fst := List.mem_map.2 ⟨y, hy, rfl⟩
  rw [e] at this
  simp only [List.mem_cons, List.not_mem_nil, or_false] at this
  rcases this with h | h | h | h | h <;> rw [h] <;> exact three_ofType _

end Verif.Props.TraceList
