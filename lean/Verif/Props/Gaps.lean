import Verif.Model.Gaps
import Verif.Spec.Rounding
import Verif.Props.TraceList
import Verif.Props.Rate
import Verif.Proof.TraceFacts
/-!
# The gap list (C43)
-/
namespace Verif.Props.Gaps
open Verif.Model.Steim Verif.Model.Trace Verif.Model.TraceList Verif.Model.Gaps Verif.Model.Rate
open Verif.Props.Trace Verif.Props.TraceList Verif.Props.Report Verif.Spec

/-! ## What should be printed -/

/-- The line for two neighbouring segments, if there is to be one: the gap is inside the limits and the
first has a sample rate. -/
def line (rnd : Rat → Rat) (mingap maxgap : Option Rat) (sid : List UInt8) (s t : Seg Rat) :
    Option Line :=
  if s.rate ≠ 0 ∧ (mingap.all fun m => m ≤ gapOf rnd s t) = true ∧
      (maxgap.all fun m => gapOf rnd s t ≤ m) = true then
    some { sid, before := s.stop, after := t.start, gap := gapOf rnd s t,
           nsamples := samplesOf rnd (gapOf rnd s t) s.rate }
  else none

/-- The lines for a list of segments: one for each pair of neighbours. -/
def between (rnd : Rat → Rat) (mingap maxgap : Option Rat) (sid : List UInt8) (segs : List (Seg Rat)) :
    List Line :=
  (segs.zip segs.tail).filterMap fun x => line rnd mingap maxgap sid x.1 x.2

theorem between_cons (rnd : Rat → Rat) (mingap maxgap : Option Rat) (sid : List UInt8) (s u : Seg Rat)
    (t : List (Seg Rat)) : between rnd mingap maxgap sid (s :: u :: t)
      = (line rnd mingap maxgap sid s u).toList ++ between rnd mingap maxgap sid (u :: t) := by
  unfold between
  simp only [List.tail_cons, List.zip_cons_cons, List.filterMap_cons]
  cases line rnd mingap maxgap sid s u <;> rfl

theorem wanted_iff (mingap maxgap : Option Rat) (gap : Rat) : wanted mingap maxgap gap = true ↔
    (mingap.all fun m => m ≤ gap) = true ∧ (maxgap.all fun m => gap ≤ m) = true := by
  unfold wanted
  cases mingap <;> cases maxgap <;> simp [Rat.not_lt]

theorem gapChecked_modern (rnd : Rat → Rat) {s t : Seg Rat} (hs : Modern s.start ∧ Modern s.stop)
    (ht : Modern t.start ∧ Modern t.stop) : gapChecked rnd s t = .ok (gapOf rnd s t) := by
  unfold Modern at hs ht
  unfold gapChecked
  rw [if_pos]
  unfold Verif.Model.fitsInt64
  simp only [Bool.and_eq_true, decide_eq_true_eq]
  omega

theorem gapsOf_ok (rnd : Rat → Rat) (mingap maxgap : Option Rat) (id : Source Rat) :
    ∀ (l : List (Nat × Seg Rat)) (a : Nat) (s : Seg Rat) (p : Option Nat) (fuel : Nat),
    Verif.Proof.Trace.Links id.heap p ((a, s) :: l) none → l.length < fuel →
    (∀ y ∈ (a, s) :: l, Modern y.2.start ∧ Modern y.2.stop) →
    gapsOf rnd mingap maxgap id fuel a
      = .ok (between rnd mingap maxgap id.sid (s :: l.map Prod.snd)) := by
  intro l
  induction l with
  | nil =>
    intro a s p fuel h hf _
    cases fuel with
    | zero => omega
    | succ fuel =>
      have hn : id.heap a = some ⟨s, none, p⟩ := h.1
      unfold gapsOf fetch
      rw [hn]
      rfl
  | cons y t ih =>
    intro a s p fuel h hf ht
    obtain ⟨b, u⟩ := y
    cases fuel with
    | zero => omega
    | succ fuel =>
      have hn : id.heap a = some ⟨s, some b, p⟩ := h.1
      have hb : ∃ n, id.heap b = some ⟨u, n, some a⟩ := ⟨_, h.2.1⟩
      obtain ⟨n, hb⟩ := hb
      have e1 : fetch id.heap a = .ok ⟨s, some b, p⟩ := by unfold fetch; rw [hn]
      have e2 : fetch id.heap b = .ok ⟨u, n, some a⟩ := by unfold fetch; rw [hb]
      have hrest := ih b u (some a) fuel h.2 (by simp at hf; omega)
        fun y hy => ht y (List.mem_cons_of_mem _ hy)
      have hc := gapChecked_modern rnd (ht (a, s) (by simp)) (ht (b, u) (by simp))
      simp only at hc
      unfold gapsOf
      simp only [e1, e2, hrest, hc, Verif.Proof.Mem.bind_ok]
      rw [List.map_cons, between_cons]
      unfold line
      by_cases hr : s.rate = 0
      · rw [if_pos hr, if_neg (fun h => h.1 hr)]
        rfl
      · rw [if_neg hr]
        by_cases hw : wanted mingap maxgap (gapOf rnd s u) = true
        · rw [if_pos hw, if_pos ⟨hr, (wanted_iff _ _ _).1 hw⟩]
          rfl
        · rw [if_neg hw, if_neg (fun h => hw ((wanted_iff _ _ _).2 h.2))]
          rfl

theorem allGaps_ok (rnd : Rat → Rat) (mingap maxgap : Option Rat) (tl : TraceList Rat)
    (lines : Nat → List Line) : ∀ (l : List Nat) (fuel : Nat) (a : Option Nat),
    (∀ a ∈ l, ∃ s, tl.sources a = some s ∧
      gapsOf rnd mingap maxgap s (s.fresh + 1) s.first = .ok (lines a)) →
    a = l.head? → (∀ i b, l[i]? = some b → tl.next b 0 = l[i + 1]?) → l.length ≤ fuel →
    allGaps rnd mingap maxgap tl fuel a = .ok (l.flatMap lines) := by
  intro l
  induction l with
  | nil => intro fuel a _ ha _ _; subst ha; cases fuel <;> rfl
  | cons b t ih =>
    intro fuel a hl ha hn hf
    subst ha
    cases fuel with
    | zero => simp at hf
    | succ fuel =>
      obtain ⟨s, hs, hg⟩ := hl b (by simp)
      have e1 : source tl b = .ok s := by unfold source; rw [hs]
      have e2 : nextOf tl b 0 = .ok (tl.next b 0) := by
        unfold nextOf; rw [if_pos (Or.inr (by rw [hs]; rfl))]
      have hnb : tl.next b 0 = t.head? := by
        have := hn 0 b rfl
        rw [this]
        simp [List.head?_eq_getElem?]
      have := ih fuel t.head? (fun a ha => hl a (List.mem_cons_of_mem _ ha)) rfl
        (fun i c hi => by simpa using hn (i + 1) c (by simpa using hi)) (by simpa using hf)
      simp only [List.head?_cons, allGaps, e1, hg, e2, hnb, this, Verif.Proof.Mem.bind_ok]
      rfl

/-- **C43** (lines).  For every history of additions of records with times within 146 years of 1970, the gap
list is made source by source, in order, of one line for each pair of neighbouring segments with a gap inside
the limits (the first having a sample rate), and the total is the number of lines. -/
theorem C43_lines_are_gaps_partial {sim : Rat → Rat → Bool} {split autoheal keep : Bool}
    {hist : List (Arrival Rat × Bool)} {tl : TraceList Rat}
    (h : Listed sim split autoheal keep hist tl) (ht : ∀ y ∈ hist, Modern y.1.start ∧ Modern y.1.stop)
    (rnd : Rat → Rat) (mingap maxgap : Option Rat) :
    ∃ (rows : List (Source Rat × List (Seg Rat))) (lines : List Line), Contents tl rows ∧
      printGapList rnd mingap maxgap tl = .ok (lines, lines.length) ∧
      lines = rows.flatMap fun x => between rnd mingap maxgap x.1.sid x.2 := by
  obtain ⟨l, pick, hgt, hrep, hpick, hcon, hre⟩ := Verif.Proof.TraceFacts.listed_rows h
  have hw := Verif.Proof.TraceList.walk_of_rep hrep
  refine ⟨_, _, hcon, ?_, rfl⟩
  have hsrc : ∀ x ∈ l, tl.sources x.1 = some x.2 := hrep.here
  unfold printGapList
  rw [allGaps_ok rnd mingap maxgap tl (fun a =>
        match tl.sources a with
        | none => []
        | some s => between rnd mingap maxgap s.sid ((pick a).map Prod.snd))
      (l.map Prod.fst) (tl.fresh + 1) (tl.next 0 0) ?_ hw.first hw.next ?_]
  · have : ((l.map Prod.fst).flatMap fun a =>
        match tl.sources a with
        | none => []
        | some s => between rnd mingap maxgap s.sid ((pick a).map Prod.snd))
        = (l.map fun x => (x.2, (pick x.1).map Prod.snd)).flatMap
            fun x => between rnd mingap maxgap x.1.sid x.2 := by
      clear hrep hre hw hcon hpick
      induction l with
      | nil => rfl
      | cons x t ih =>
        rw [List.map_cons, List.map_cons, List.flatMap_cons, List.flatMap_cons, hsrc x (by simp),
          ih fun y hy => hsrc y (List.mem_cons_of_mem _ hy)]
    rw [this]
    rfl
  · intro a ha
    obtain ⟨x, hx, e⟩ := List.mem_map.1 ha
    refine ⟨x.2, by rw [← e]; exact hsrc x hx, ?_⟩
    have hr := hpick x hx
    obtain ⟨⟨hs, hreach, hsub⟩, _⟩ := hre x hx
    obtain ⟨l', hr', hseg⟩ := Verif.Proof.TraceFacts.reached_segment hreach
    have hmod : ∀ y ∈ pick x.1, Modern y.2.start ∧ Modern y.2.stop := by
      intro y hy
      have hy' := (Verif.Proof.Trace.segAt_iff hr' y.1 y.2).1
        ((Verif.Proof.Trace.segAt_iff hr y.1 y.2).2 hy)
      obtain ⟨⟨r, h1, e1⟩, ⟨r', h2, e2⟩, _⟩ := hseg y hy'
      rw [e1, e2]
      exact ⟨(ht r (hsub.subset h1)).1, (ht r' (hsub.subset h2)).2⟩
    have hlen := hr.length_le
    rw [← e, hsrc x hx]
    simp only
    generalize pick x.1 = m at hr hlen hmod
    cases m with
    | nil => exact absurd rfl hr.ne_nil
    | cons y t =>
      obtain ⟨b, u⟩ := y
      have hf := hr.first
      rw [Verif.Proof.Trace.headAddr_cons] at hf
      cases hf
      simp only [List.length_cons] at hlen
      exact gapsOf_ok rnd mingap maxgap x.2 t _ u none _ hr.links (by omega) hmod
  · have := hrep.room
    simp only [List.length_map]
    omega

/-- Two segments of a source with a gap. -/
def rec' (t : Int) : Arrival Rat :=
  { sid := [65], pub := 1, start := t, stop := t + 9000000000, period := 1000000000, tol := 500000000,
    rate := 1, samplecnt := 10, sampletype := 'i', data := [] }

example : ∃ hist tl, Listed (fun a b => a == b) false true false hist tl ∧
    hist.map Prod.fst = [rec' 0, rec' 20000000000, rec' 15000000000] ∧
    ∀ r ∈ [rec' 0, rec' 20000000000, rec' 15000000000], Modern r.start ∧ Modern r.stop := by
  obtain ⟨hist, tl, h1, h2⟩ := Verif.Proof.TraceList.listings (fun a b : Rat => a == b) false true false
    [rec' 0, rec' 20000000000, rec' 15000000000]
  refine ⟨hist, tl, h1, h2, ?_⟩
  unfold Modern
  simp [rec']

/-- A list after the addition of records, and whether printing its gaps is undefined behaviour. -/
def overflows (rs : List (Arrival Rat)) : Bool :=
  let step := fun (x : Res (TraceList Rat)) r => x.bind fun tl =>
    (addMsr (fun a b => a == b) false true false tl r).bind fun y => .ok y.1
  match (rs.foldl step (.ok init)).bind fun tl => printGapList id none none tl with
  | .ub => true
  | _ => false

/-- **C43 violated** (overflow).  With two records 300 years apart, whose times are valid (1824 and 2125), the
difference of the times is undefined behaviour. -/
theorem C43_overflow_violated :
    overflows [rec' (-4600000000000000000), rec' 4891372800000000000] = true ∧
    overflows [rec' (-4300000000000000000), rec' 4891372800000000000] = false := by
  decide +kernel

theorem seconds_bounds {rnd : Rat → Rat} (h : Rounding rnd) (n : Int) :
    (0 ≤ n → (n : Rat) / 1000000000 - (n : Rat) / 1000000000 / 2 ^ 51 ≤ seconds rnd n ∧
      seconds rnd n ≤ (n : Rat) / 1000000000 + (n : Rat) / 1000000000 / 2 ^ 51) ∧
    (n ≤ 0 → (n : Rat) / 1000000000 + (n : Rat) / 1000000000 / 2 ^ 51 ≤ seconds rnd n ∧
      seconds rnd n ≤ (n : Rat) / 1000000000 - (n : Rat) / 1000000000 / 2 ^ 51) := by
  unfold seconds
  have key : ∀ x : Rat, 0 ≤ x →
      x / 1000000000 - x / 1000000000 / 2 ^ 51 ≤ rnd (rnd x / 1000000000) ∧
      rnd (rnd x / 1000000000) ≤ x / 1000000000 + x / 1000000000 / 2 ^ 51 := by
    intro x hx
    have h1 := h.near x hx
    have h2 := h.near (rnd x / 1000000000) (by grind)
    grind
  constructor
  · intro hn
    exact key n (by exact_mod_cast hn)
  · intro hn
    have hx : (0 : Rat) ≤ -(n : Rat) := by
      have : (n : Rat) ≤ 0 := by exact_mod_cast hn
      grind
    have := key _ hx
    rw [h.odd] at this
    have e : -rnd (n : Rat) / 1000000000 = -(rnd (n : Rat) / 1000000000) := by grind
    rw [e, h.odd] at this
    grind

/-- **C43** (values).  The gap reported for two neighbouring segments has the sign of the time from
the end of the first to the start of the second.  For a gap it is that time in seconds.  For an overlap
it is the overlap or, if that is longer, the time covered by the second segment with one sample
period; all up to the rounding of the calculation. -/
theorem C43_gap_value {rnd : Rat → Rat} (h : Rounding rnd) (s t : Seg Rat)
    (hcov : t.start ≤ t.stop) (hrate : 0 < t.rate) :
    let d : Rat := ((t.start - s.stop : Int) : Rat) / 1000000000
    let c : Rat := ((t.stop - t.start : Int) : Rat) / 1000000000 + 1 / t.rate
    let g := gapOf rnd s t
    (0 ≤ d → d - d / 2 ^ 51 ≤ g ∧ g ≤ d + d / 2 ^ 51) ∧
    (d < 0 → g < 0 ∧ -g ≤ -d - d / 2 ^ 51 ∧ -g ≤ c + c / 2 ^ 50 ∧
      (-d + d / 2 ^ 51 ≤ -g ∨ c - c / 2 ^ 50 ≤ -g)) := by
  intro d c g
  have hs := seconds_bounds h (t.start - s.stop)
  have hc := (seconds_bounds h (t.stop - t.start)).1 (by omega)
  have hinv : 0 < 1 / t.rate := by
    rw [Rat.lt_div_iff hrate]; grind
  have hd := h.near (1 / t.rate) (by grind)
  have hcr : (0 : Rat) ≤ ((t.stop - t.start : Int) : Rat) := by
    have : 0 ≤ t.stop - t.start := by omega
    exact_mod_cast this
  have hz : ∀ n : Int, 0 ≤ n ↔ (0 : Rat) ≤ (n : Rat) := by
    intro n
    constructor
    · intro h; exact_mod_cast h
    · intro h; exact_mod_cast h
  have hz' : ∀ n : Int, n < 0 ↔ (n : Rat) < 0 := by
    intro n
    constructor
    · intro h; exact_mod_cast h
    · intro h; exact_mod_cast h
  have hg : g = if seconds rnd (t.start - s.stop) < 0 then
      (if -seconds rnd (t.start - s.stop)
          > rnd (seconds rnd (t.stop - t.start) + rnd (1 / t.rate))
        then -rnd (seconds rnd (t.stop - t.start) + rnd (1 / t.rate))
        else seconds rnd (t.start - s.stop))
      else seconds rnd (t.start - s.stop) := by
    show gapOf rnd s t = _
    unfold gapOf
    have hne : t.rate ≠ 0 := by grind
    simp only [hne, ne_eq, not_false_eq_true, if_true]
  rw [hg]
  have hcc := h.near (seconds rnd (t.stop - t.start) + rnd (1 / t.rate)) (by grind)
  have hpos := hz (t.start - s.stop)
  have hneg := hz' (t.start - s.stop)
  show (0 ≤ ((t.start - s.stop : Int) : Rat) / 1000000000 → _) ∧
    (((t.start - s.stop : Int) : Rat) / 1000000000 < 0 → _)
  have ed : d = ((t.start - s.stop : Int) : Rat) / 1000000000 := rfl
  have ec : c = ((t.stop - t.start : Int) : Rat) / 1000000000 + 1 / t.rate := rfl
  rw [ed, ec]
  generalize seconds rnd (t.start - s.stop) = x at *
  generalize rnd (seconds rnd (t.stop - t.start) + rnd (1 / t.rate)) = y at *
  generalize seconds rnd (t.stop - t.start) = z at *
  generalize rnd (1 / t.rate) = w at *
  generalize 1 / t.rate = v at *
  generalize ((t.stop - t.start : Int) : Rat) = p at *
  have hx1 := hs.1
  have hx2 := hs.2
  clear hs hg
  constructor
  · intro hd0
    have h0 : 0 ≤ t.start - s.stop := hpos.2 (by grind)
    have hb := hx1 h0
    generalize ((t.start - s.stop : Int) : Rat) = q at *
    have : ¬ x < 0 := by grind
    rw [if_neg this]
    exact hb
  · intro hd0
    have h0 : t.start - s.stop < 0 := hneg.2 (by grind)
    have hb := hx2 (by omega)
    generalize ((t.start - s.stop : Int) : Rat) = q at *
    have : x < 0 := by grind
    rw [if_pos this]
    split <;> grind

example : ∃ s t : Seg Rat, t.start ≤ t.stop ∧ 0 < t.rate ∧ t.start < s.stop := by
  refine ⟨⟨0, 100, 1, 0, 'i', [], []⟩, ⟨50, 60, 2, 0, 'i', [], []⟩, by decide, ?_, by decide⟩
  show (0 : Rat) < 2
  grind

/-- **C43** (samples).  The number of samples reported for a gap is the gap times the rate less one,
for an overlap the overlap times the rate and one more, up to the rounding of the calculation. -/
theorem C43_sample_count {rnd : Rat → Rat} (h : Rounding rnd) (g rate : Rat) (hr : 0 ≤ rate) :
    (0 < g → g * rate - 1 - (3 * (g * rate) + 3) / 2 ^ 53 ≤ samplesOf rnd g rate ∧
      samplesOf rnd g rate ≤ g * rate - 1 + (3 * (g * rate) + 3) / 2 ^ 53) ∧
    (g ≤ 0 → -g * rate + 1 - (3 * (-g * rate) + 3) / 2 ^ 53 ≤ samplesOf rnd g rate ∧
      samplesOf rnd g rate ≤ -g * rate + 1 + (3 * (-g * rate) + 3) / 2 ^ 53) := by
  have key : ∀ p : Rat, 0 ≤ p →
      (p - 1 - (3 * p + 3) / 2 ^ 53 ≤ rnd (rnd p - 1) ∧
        rnd (rnd p - 1) ≤ p - 1 + (3 * p + 3) / 2 ^ 53) ∧
      (p + 1 - (3 * p + 3) / 2 ^ 53 ≤ rnd (rnd p + 1) ∧
        rnd (rnd p + 1) ≤ p + 1 + (3 * p + 3) / 2 ^ 53) := by
    intro p hp
    have h1 := h.near p hp
    have h2 := Verif.Props.Rate.rnd_bounds h (rnd p - 1)
    have h3 := Verif.Props.Rate.rnd_bounds h (rnd p + 1)
    generalize rnd (rnd p - 1) = u at *
    generalize rnd (rnd p + 1) = v at *
    generalize rnd p = q at *
    constructor
    · by_cases hq : 0 ≤ q - 1
      · have := h2.1 hq; clear h2 h3 h; grind
      · have := h2.2 (by clear h2 h3 h; grind); clear h2 h3 h; grind
    · have := h3.1 (by clear h2 h3 h; grind); clear h2 h3 h; grind
  constructor
  · intro hg
    have hp : 0 ≤ g * rate := Rat.mul_nonneg (Rat.le_of_lt hg) hr
    have := (key _ hp).1
    unfold samplesOf fabs
    rw [if_neg (Rat.not_lt.2 (Rat.le_of_lt hg)), if_pos hg]
    exact this
  · intro hg
    have hg' : 0 ≤ -g := by clear key h; grind
    have hp : 0 ≤ -g * rate := Rat.mul_nonneg hg' hr
    have := (key _ hp).2
    unfold samplesOf fabs
    rw [if_neg (Rat.not_lt.2 hg : ¬ g > 0)]
    by_cases h0 : g < 0
    · rw [if_pos h0]; exact this
    · rw [if_neg h0]
      have e2 : -g = g := by clear key this h; grind
      rw [e2] at this
      rw [e2]
      exact this

example : ∃ g rate : Rat, 0 ≤ rate ∧ 0 < g ∧ g * rate = 3 / 2 :=
  ⟨3, 1 / 2, by grind, by grind, by grind⟩

end Verif.Props.Gaps
