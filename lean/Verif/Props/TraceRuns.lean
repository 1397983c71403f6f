import Verif.Proof.TraceRuns
import Verif.Props.Trace
import Verif.Props.TraceList
/-!
# Records in time order: C101
-/
namespace Verif.Props.TraceRuns
open Verif.Model.Steim Verif.Model.Trace Verif.Model.TraceList Verif.Props.Trace Verif.Props.TraceList
open Verif.Props.TracePack (Each)
open Verif.Proof.Trace Verif.Proof.TraceList Verif.Proof.TraceRuns

variable {R : Type}

/-- **C101** (one source, part).  Records of one source that arrive in time order, with the same period,
sample type and time tolerance, the latter below the period, make exactly one segment for each run of
records without a gap, in order: with the start of the first, the end of the last and the samples of all
records of the run, its type, and the rate of one of the records.  None is refused.  With or without
healing.

Missing: records of different rates, tolerances of a period or more and overlapping records. -/
theorem C101_runs_are_segments_partial {sim : R → R → Bool} {autoheal keep : Bool} {P B : Int} {T : Char}
    (hB : 0 ≤ B) (hP : B < P) {gs : List (List (Arrival R))} (hg : Runs P B gs)
    {hist : List (Arrival R × Bool)} {id : Source R} (h : Reached sim autoheal keep hist id)
    (hm : hist.map Prod.fst = gs.flatten) (hu : ∀ r ∈ gs.flatten, Uniform P B T r)
    (hsim : ∀ a ∈ gs.flatten, ∀ b ∈ gs.flatten, sim a.rate b.rate = true) :
    (∀ x ∈ hist, x.2 = true) ∧ ∃ l, Linked id l ∧ Each (Made keep) gs (segments id l) ∧
      ∀ s ∈ segments id l, s.sampletype = T ∧ ∃ r ∈ gs.flatten, s.rate = r.rate := by
  obtain ⟨h1, l, st⟩ := runs_state hB hP hsim hu hg h hm fun x hx => by
    rw [← hm]; exact List.mem_map.2 ⟨x, hx, rfl⟩
  refine ⟨h1, addrs l, linked_of_rep st.rep, ?_⟩
  rw [segments_of_rep st.rep]
  refine ⟨st.made, fun s hs => ?_⟩
  obtain ⟨y, hy, rfl⟩ := List.mem_map.1 hs
  exact ⟨(st.types y hy).1, st.rates y hy⟩

theorem three_uniform (t : Int) : Uniform 1 0 'i' (three t) :=
  ⟨by show t ≤ t + 2; omega, rfl, rfl, three_ofType t⟩

/-- Two runs: 0 to 5 and 9 to 11. -/
theorem twoRuns : Runs 1 0 [[three 0, three 3], [three 9]] :=
  .far [] [three 0] (three 3) (three 9) (.near [] [] (three 0) (three 3) (.first _) (by decide) (by decide))
    (by decide)

example : ∃ hist id, Reached same true false hist id ∧ hist.map Prod.fst = [[three 0, three 3], [three 9]].flatten :=
  histories same true false (three 0) (by decide) [three 3, three 9]

/-- **C101** (list of sources, part).  The same for each source of a list, whatever is added for other
sources in between. -/
theorem C101_each_source_partial {sim : R → R → Bool} {split autoheal keep : Bool} {T : List UInt8 → Char}
    {hist : List (Arrival R × Bool)} {tl : TraceList R} (h : Listed sim split autoheal keep hist tl)
    (hv : split = true → ∀ y ∈ hist, y.1.pub ≠ 0) (ht : ∀ y ∈ hist, OfType (T y.1.sid) y.1)
    (a : Nat) (s : Source R) (hs : tl.sources a = some s) {P B : Int} (hB : 0 ≤ B) (hP : B < P)
    {gs : List (List (Arrival R))} (hg : Runs P B gs)
    (hm : (hist.map Prod.fst).filter (Belongs split s.sid s.pub) = gs.flatten)
    (hu : ∀ r ∈ gs.flatten, Uniform P B (T s.sid) r)
    (hsim : ∀ a ∈ gs.flatten, ∀ b ∈ gs.flatten, sim a.rate b.rate = true) :
    ∃ l, Linked s l ∧ Each (Made keep) gs (segments s l) ∧
      ∀ u ∈ segments s l, u.sampletype = T s.sid ∧ ∃ r ∈ gs.flatten, u.rate = r.rate :=
  (C101_runs_are_segments_partial hB hP hg ((C69_sources_independent_partial h hv).1 a s hs)
    ((own_all split s.sid s.pub (none_refused h hv ht)).trans hm) hu hsim).2

/-- Two sources, with records of one between those of the other. -/
example : ∃ hist tl, Listed same false true false hist tl ∧
    (hist.map Prod.fst).filter (Belongs false [66] 1) =
      [[from' [66] 1 0, from' [66] 1 3], [from' [66] 1 9]].flatten ∧
    Runs 1 0 [[from' [66] 1 0, from' [66] 1 3], [from' [66] 1 9]] := by
  obtain ⟨hist, tl, h, e⟩ := listings same false true false
    [from' [66] 1 0, from' [65] 1 3, from' [66] 1 3, from' [65] 1 0, from' [66] 1 9]
  refine ⟨hist, tl, h, by rw [e]; rfl, ?_⟩
  exact .far [] [from' [66] 1 0] (from' [66] 1 3) (from' [66] 1 9)
    (.near [] [] (from' [66] 1 0) (from' [66] 1 3) (.first _) (by decide) (by decide)) (by decide)

/-- A record from `a` to `b` with a time tolerance of 60 periods. -/
def tolerant (a b : Int) : Arrival Nat := { span a b 'i' with tol := 60 }

/-- **C101** (violated for tolerances above the period).  With a time tolerance of 60 periods, a record from
50 to 52 is joined to the end of one from 0 to 100: the one segment then ends at 52. -/
theorem C101_large_tolerance_violated : ∃ hist id l s, Reached same true false hist id ∧
    hist.map Prod.fst = [tolerant 0 100, tolerant 50 52] ∧ Linked id l ∧ segments id l = [s] ∧
    s.start = 0 ∧ s.stop = 52 := by
  cases hn : newId false (tolerant 0 100) with
  | none => exact absurd hn (by decide)
  | some id =>
    have h0 := Reached.new (sim := same) (autoheal := true) (keep := false) _ _ hn
    obtain ⟨id', res, e⟩ := C38_additions_safe h0 (tolerant 50 52)
    have h1 := Reached.add _ _ _ _ _ h0 e
    obtain ⟨l, _, _, hr, _⟩ := reached_inv h1
    have hdec : ((newId false (tolerant 0 100)).map fun id =>
        match addToId same true false id (tolerant 50 52) with
        | .ok (id', _) => (id'.numsegments, id'.first, (segAt id' 0).map fun s => (s.start, s.stop))
        | _ => (0, 0, none)) = some (1, 0, some (0, 52)) := by decide +kernel
    rw [hn] at hdec
    simp only [Option.map_some, e, Option.some.injEq, Prod.mk.injEq] at hdec
    obtain ⟨d1, d2, d3⟩ := hdec
    have hc := hr.count
    rw [d1] at hc
    match l, hc, hr with
    | [(a, s)], _, hr =>
      have hf := hr.first
      rw [headAddr_cons, d2] at hf
      cases hf
      rw [(segAt_iff hr 0 s).2 (by simp)] at d3
      simp only [Option.map_some, Option.some.injEq, Prod.mk.injEq] at d3
      exact ⟨_, id', _, s, h1, rfl, linked_of_rep hr, by rw [segments_of_rep hr]; rfl, d3.1, d3.2⟩
    | [], hc, _ => simp at hc
    | _ :: _ :: _, hc, _ => simp at hc; omega

end Verif.Props.TraceRuns
