import Verif.Proof.SegMem
import Verif.Props.Alloc
/-!
# The buffers of segments (C130)
-/
namespace Verif.Props.SegMem
open Verif.Model Verif.Model.Steim Verif.Model.Alloc Verif.Model.SegMem
open Verif.Props.Alloc
open Verif.Proof.Alloc Verif.Proof.SegMem
open Verif.Proof.Mem (bind_ok)

theorem present_pos {n : Int} {d : Option (List UInt8)} (h : present n d ≠ 0) : 0 < n ∧ ∃ b, d = some b := by
  cases d with
  | none => exact absurd rfl h
  | some b =>
    refine ⟨?_, b, rfl⟩
    unfold present at h
    simp only at h
    omega

theorem bytes_none {n : Int} {t : Char} {d : Option (List UInt8)} (h : present n d = 0) : (d.getD []).take (needed n t) = [] := by
  cases d with
  | none => simp
  | some b =>
    unfold present at h
    simp only at h
    have : needed n t = 0 := by
      unfold needed
      have : n.toNat = 0 := by omega
      rw [this, Nat.zero_mul]
    rw [this, List.take_zero]

theorem moreOf_some {h : Heap} {r : Record} {b : List UInt8} (hd : Held h r.datasamples (some b)) (hn : 0 < r.numsamples) :
    ∃ p, r.datasamples = some p ∧ h.cell p = some (.bytes b) ∧ moreOf r = some ⟨r.sampletype, r.numsamples, p⟩ := by
  unfold moreOf
  cases hp : r.datasamples with
  | none => rw [hp] at hd; exact hd.elim
  | some p =>
    rw [hp] at hd
    refine ⟨p, rfl, hd, ?_⟩
    simp only
    rw [if_pos (by omega)]

theorem moreOf_none {h : Heap} {r : Record} {d : Option (List UInt8)} (hd : Held h r.datasamples d)
    (hn : present r.numsamples d = 0) : moreOf r = none := by
  unfold moreOf
  cases hp : r.datasamples with
  | none => rfl
  | some p =>
    simp only
    cases d with
    | none => rw [hp] at hd; exact hd.elim
    | some b =>
      unfold present at hn
      simp only at hn
      rw [if_neg (by omega)]

/-- **C130** Adding the coverage of a record to the end (1) or to the beginning (2) of a segment: the samples
of the segment are then those it had, followed or preceded by those of the record, in a buffer that is large
enough and whose size is recorded; start or end and the count are updated, everything else of the segment
stays, and no other memory is touched: nothing is lost and nothing of the record is shared.  Only if an
allocation fails is nothing added; the samples are kept then. -/
theorem C130_append (junk : Nat → UInt8) (block : Nat) {h : Heap} {a b : Nat} {s : Seg} {r : Record}
    {d e v : Option (List UInt8)} {endtime whence : Int} (hf : Fresh h) (hs : SegBuf h a s d) (hr : HasRecord h b r e v)
    (hap : ∀ x ∈ ownedRecord b r, x ∉ ownedSeg a s) (hfit : present r.numsamples v ≠ 0 → Fits s r.sampletype r.numsamples v)
    (hw : whence = 1 ∨ whence = 2) :
    ∃ ok h', addmsrtoseg junk block h a b endtime whence = .ok (ok, h') ∧ HasRecord h' b r e v ∧
      (ok = false → Kept h h' a s) ∧
      (ok = true → ∃ s' d', Added block h h' a s (present r.numsamples v)
          (if whence = 1 then samplesOf s d ++ (v.getD []).take (needed r.numsamples r.sampletype)
           else (v.getD []).take (needed r.numsamples r.sampletype) ++ samplesOf s d) s' d' ∧
        s'.samplecnt = s.samplecnt + r.samplecnt ∧
        s'.starttime = (if whence = 1 then s.starttime else r.starttime) ∧
        s'.endtime = (if whence = 1 then endtime else s.endtime)) := by
  have hkeep : ∀ {h'} {S'}, Step h h' (ownedSeg a s) S' → HasRecord h' b r e v := fun hst =>
    record_frame hr fun x hx => (step_keeps hf hst (hap x hx) (record_live hr x hx)).2
  have hkept : ∀ {h'}, Kept h h' a s → HasRecord h' b r e v := fun hk =>
    record_frame hr fun x hx => by
      rw [hk.1, if_neg]
      rintro rfl
      exact hap x hx (by unfold ownedSeg; simp)
  unfold addmsrtoseg getSeg
  rw [hs.cell]
  simp only
  rw [bind_ok, getRecord_ok hr.cell, bind_ok]
  by_cases hp : present r.numsamples v = 0
  · rw [moreOf_none hr.data hp, bytes_none hp, List.append_nil, List.nil_append, hp]
    simp only
    unfold addCoverage
    rcases hw with rfl | rfl
    · rw [if_pos rfl]
      have := added_none block hf hs s.starttime endtime (s.samplecnt + r.samplecnt)
      refine ⟨true, _, rfl, hkeep this.step, by simp, fun _ => ⟨{ s with
        starttime := s.starttime, endtime := endtime, samplecnt := s.samplecnt + r.samplecnt }, d, ?_, rfl, rfl, rfl⟩⟩
      rw [if_pos rfl]
      exact this
    · rw [if_neg (by decide), if_pos rfl]
      have := added_none block hf hs r.starttime s.endtime (s.samplecnt + r.samplecnt)
      refine ⟨true, _, rfl, hkeep this.step, by simp, fun _ => ⟨{ s with
        starttime := r.starttime, endtime := s.endtime, samplecnt := s.samplecnt + r.samplecnt }, d, ?_, rfl, rfl, rfl⟩⟩
      rw [if_neg (by decide)]
      exact this
  · obtain ⟨hn, v, rfl⟩ := present_pos hp
    obtain ⟨p, h1, h2, h3⟩ := moreOf_some hr.data hn
    have hpa : p ∉ ownedSeg a s := hap p (by unfold ownedRecord; rw [h1]; simp)
    have hpr : present r.numsamples (some v) = r.numsamples := by
      unfold present
      simp only
      omega
    rw [h3, hpr]
    simp only
    unfold addCoverage
    rcases hw with rfl | rfl
    · simp only [if_pos]
      obtain ⟨x, h1, e1, e2, e3⟩ := added_behind (m := ⟨r.sampletype, r.numsamples, p⟩) junk block hf hs (hfit hp) hn h2 hpa
      rw [e1, bind_ok]
      cases x with
      | none => exact ⟨false, _, rfl, hkept (e2 rfl), fun _ => e2 rfl, by simp⟩
      | some s' =>
        obtain ⟨h3, g1, g2, g3⟩ := e3 s' rfl
        obtain ⟨c, g3⟩ := g3 s'.starttime endtime (s'.samplecnt + r.samplecnt)
        simp only
        rw [g1, bind_ok]
        exact ⟨true, _, rfl, hkeep g3.step, by simp, fun _ => ⟨_, _, g3, by rw [g2], by rw [g2], rfl⟩⟩
    · simp only [if_neg (show ¬(2 : Int) = 1 by decide), if_pos]
      obtain ⟨x, h1, e1, e2, e3⟩ := added_before (m := ⟨r.sampletype, r.numsamples, p⟩) junk block hf hs (hfit hp) hn h2 hpa
      rw [e1, bind_ok]
      cases x with
      | none => exact ⟨false, _, rfl, hkept (e2 rfl), fun _ => e2 rfl, by simp⟩
      | some s' =>
        obtain ⟨h3, g1, g2, g3⟩ := e3 s' rfl
        obtain ⟨c, g3⟩ := g3 r.starttime s'.endtime (s'.samplecnt + r.samplecnt)
        simp only
        rw [g1, bind_ok]
        exact ⟨true, _, rfl, hkeep g3.step, by simp, fun _ => ⟨_, _, g3, by rw [g2], rfl, by rw [g2]⟩⟩

theorem moreOfSeg_some {h : Heap} {r : Seg} {b : List UInt8} (hd : Held h r.datasamples (some b)) (hn : 0 < r.numsamples) :
    ∃ p, r.datasamples = some p ∧ h.cell p = some (.bytes b) ∧ moreOfSeg r = some ⟨r.sampletype, r.numsamples, p⟩ := by
  unfold moreOfSeg
  cases hp : r.datasamples with
  | none => rw [hp] at hd; exact hd.elim
  | some p =>
    rw [hp] at hd
    refine ⟨p, rfl, hd, ?_⟩
    simp only
    rw [if_pos (by omega)]

theorem moreOfSeg_none {h : Heap} {r : Seg} {d : Option (List UInt8)} (hd : Held h r.datasamples d)
    (hn : present r.numsamples d = 0) : moreOfSeg r = none := by
  unfold moreOfSeg
  cases hp : r.datasamples with
  | none => rfl
  | some p =>
    simp only
    cases d with
    | none => rw [hp] at hd; exact hd.elim
    | some b =>
      unfold present at hn
      simp only at hn
      rw [if_neg (by omega)]

/-- **C130** Adding the coverage of a second segment: the samples of the first are then its own followed by
those of the second, which is left as it is; nothing is lost. -/
theorem C130_merge (junk : Nat → UInt8) (block : Nat) {h : Heap} {a b : Nat} {s r : Seg} {d v : Option (List UInt8)}
    (hf : Fresh h) (hs : SegBuf h a s d) (hr : SegBuf h b r v) (hap : ∀ x ∈ ownedSeg b r, x ∉ ownedSeg a s)
    (hfit : present r.numsamples v ≠ 0 → Fits s r.sampletype r.numsamples v) :
    ∃ ok h', addsegtoseg junk block h a b = .ok (ok, h') ∧ SegBuf h' b r v ∧
      (ok = false → Kept h h' a s) ∧
      (ok = true → ∃ s' d', Added block h h' a s (present r.numsamples v) (samplesOf s d ++ samplesOf r v) s' d' ∧
        s'.samplecnt = s.samplecnt + r.samplecnt ∧ s'.starttime = s.starttime ∧ s'.endtime = r.endtime) := by
  have hlive : ∀ x ∈ ownedSeg b r, h.cell x ≠ none := by
    intro x hx
    simp only [ownedSeg, List.mem_append, List.mem_singleton] at hx
    rcases hx with hx | hx
    · obtain ⟨c, hc⟩ := held_mem hr.data x hx; rw [hc]; simp
    · rw [hx, hr.cell]; simp
  have hframe : ∀ {h'}, (∀ x ∈ ownedSeg b r, h'.cell x = h.cell x) → SegBuf h' b r v := fun hx =>
    ⟨by rw [hx b (by unfold ownedSeg; simp)]; exact hr.cell, held_frame hr.data fun x hx' => hx x (by
      unfold ownedSeg
      rw [List.mem_append]
      exact .inl hx'), hr.size, hr.room, hr.empty, hr.nonneg⟩
  have hkeep : ∀ {h'} {S'}, Step h h' (ownedSeg a s) S' → SegBuf h' b r v := fun hst =>
    hframe fun x hx => (step_keeps hf hst (hap x hx) (hlive x hx)).2
  have hkept : ∀ {h'}, Kept h h' a s → SegBuf h' b r v := fun hk =>
    hframe fun x hx => by
      rw [hk.1, if_neg]
      rintro rfl
      exact hap x hx (by unfold ownedSeg; simp)
  unfold addsegtoseg getSeg
  rw [hs.cell, hr.cell]
  simp only
  rw [bind_ok, bind_ok]
  by_cases hp : present r.numsamples v = 0
  · have hb : samplesOf r v = [] := bytes_none hp
    rw [moreOfSeg_none hr.data hp, hb, List.append_nil, hp]
    simp only
    have := added_none block hf hs s.starttime r.endtime (s.samplecnt + r.samplecnt)
    exact ⟨true, _, rfl, hkeep this.step, by simp, fun _ => ⟨_, d, this, rfl, rfl, rfl⟩⟩
  · obtain ⟨hn, v, rfl⟩ := present_pos hp
    obtain ⟨p, h1, h2, h3⟩ := moreOfSeg_some hr.data hn
    have hpa : p ∉ ownedSeg a s := hap p (by unfold ownedSeg; rw [h1]; simp)
    have hpr : present r.numsamples (some v) = r.numsamples := by
      unfold present
      simp only
      omega
    rw [h3, hpr]
    simp only
    obtain ⟨x, h1, e1, e2, e3⟩ := added_behind (m := ⟨r.sampletype, r.numsamples, p⟩) junk block hf hs (hfit hp) hn h2 hpa
    rw [e1, bind_ok]
    cases x with
    | none => exact ⟨false, _, rfl, hkept (e2 rfl), fun _ => e2 rfl, by simp⟩
    | some s' =>
      obtain ⟨h3, g1, g2, g3⟩ := e3 s' rfl
      obtain ⟨c, g3⟩ := g3 s'.starttime r.endtime (s'.samplecnt + r.samplecnt)
      simp only
      rw [g1, bind_ok]
      exact ⟨true, _, rfl, hkeep g3.step, by simp, fun _ => ⟨_, _, g3, by rw [g2], by rw [g2], rfl⟩⟩

/-- **C130** A new segment from a record: it has the times, the counts and a copy of the samples of the
record, in memory of its own of exactly the size of the samples; the record and all other memory stay.
Missing: that nothing is lost if memory is short (see `C130_leak_violated`), and samples of unknown types. -/
theorem C130_new_partial {h : Heap} {b : Nat} {r : Record} {e v : Option (List UInt8)} {rate : Nat} {endtime : Int}
    (hf : Fresh h) (hr : HasRecord h b r e v) (hn : 0 ≤ r.numsamples) (hnone : v = none → r.numsamples = 0)
    (hk : v ≠ none → width r.sampletype ≠ 0) (hi : ∀ c, v = some c → needed r.numsamples r.sampletype ≤ c.length) :
    ∃ x h', msr2seg h b rate endtime = .ok (x, h') ∧ HasRecord h' b r e v ∧
      (x = none → ∃ k, h.fails k = true) ∧
      ∀ a, x = some a → ∃ s d, SegBuf h' a s d ∧ Step h h' [] (ownedSeg a s) ∧
        s = { starttime := r.starttime, endtime := endtime, samprate := rate, samplecnt := r.samplecnt,
              sampletype := r.sampletype, numsamples := r.numsamples, datasamples := s.datasamples,
              datasize := needed r.numsamples r.sampletype } ∧
        d.getD [] = (v.getD []).take (needed r.numsamples r.sampletype) ∧
        (r.numsamples = 0 → s.datasamples = none) := by
  unfold msr2seg
  rw [getRecord_ok hr.cell, bind_ok]
  have hne : r.numsamples = 0 → needed r.numsamples r.sampletype = 0 := fun h => by
    unfold needed; rw [h]; simp
  generalize hs : ({ starttime := r.starttime, endtime := endtime, samprate := rate, samplecnt := r.samplecnt,
                     sampletype := r.sampletype, numsamples := r.numsamples } : Seg) = s
  simp only
  have hsn : s.numsamples = r.numsamples := by rw [← hs]
  have hst : s.sampletype = r.sampletype := by rw [← hs]
  have hsz : s.datasize = 0 := by rw [← hs]
  have hsd : s.datasamples = none := by rw [← hs]
  rcases malloc_cases h (.seg s) with ⟨h1, hm, hcell, hnx, hfa, hfail⟩ | ⟨h1, hm, hnx, hfa, hcell, -⟩
  · rw [hm]
    refine ⟨none, h1, rfl, record_frame hr fun x _ => by rw [hcell], fun _ => ⟨_, hfail⟩, by simp⟩
  · rw [hm]
    simp only
    have hlow : ∀ x ∈ ownedRecord b r, x < h.next := fun x hx => live_low hf (record_live hr x hx)
    have hr1 : HasRecord h1 b r e v := record_frame hr fun x hx => by
      have := hlow x hx
      rw [hcell, if_neg (by omega)]
    have hempty : r.numsamples = 0 → ∃ s' d, SegBuf h1 h.next s' d ∧ Step h h1 [] (ownedSeg h.next s') ∧
        s' = { starttime := r.starttime, endtime := endtime, samprate := rate, samplecnt := r.samplecnt,
               sampletype := r.sampletype, numsamples := r.numsamples, datasamples := s'.datasamples,
               datasize := needed r.numsamples r.sampletype } ∧
        d.getD [] = (v.getD []).take (needed r.numsamples r.sampletype) ∧ (r.numsamples = 0 → s'.datasamples = none) := by
      intro h0
      refine ⟨s, none, ⟨by rw [hcell, if_pos rfl], by rw [hsd]; exact trivial, by simp, by simp, fun _ => ⟨by omega, hsz⟩, by omega⟩, ?_, ?_, ?_, fun _ => hsd⟩
      · unfold ownedSeg
        rw [hsd]
        refine ⟨fun x hx => ?_, by omega, hfa, ?_, ?_, ?_, by simp, by simp⟩
        · rw [hcell, if_neg (by omega)]; exact hf x (by omega)
        · intro x hx
          simp at hx
          omega
        · intro x hx
          simp at hx
          omega
        · intro x _ hx
          simp at hx
          rw [hcell, if_neg hx]
      · rw [hsd, hne h0, ← hs]
      · rw [hne h0]; simp
    cases hp : r.datasamples with
    | none =>
      simp only
      have hv : v = none := by
        cases v with
        | none => rfl
        | some c => have := hr.data; rw [hp] at this; exact this.elim
      refine ⟨_, h1, rfl, hr1, by simp, fun a ha => ?_⟩
      rw [← Option.some.inj ha]
      exact hempty (hnone hv)
    | some p =>
      simp only
      obtain ⟨c, rfl⟩ : ∃ c, v = some c := by
        cases v with
        | none => have := hr.data; rw [hp] at this; exact this.elim
        | some c => exact ⟨c, rfl⟩
      have hpc : h.cell p = some (.bytes c) := by have := hr.data; rw [hp] at this; exact this
      have hpl : p < h.next := live_low hf (by rw [hpc]; simp)
      by_cases h0 : r.numsamples = 0
      · rw [if_pos h0]
        refine ⟨_, h1, rfl, hr1, by simp, fun a ha => ?_⟩
        rw [← Option.some.inj ha]
        exact hempty h0
      · rw [if_neg h0, if_neg (by omega), if_neg (by rw [width_eq]; exact hk (by simp)), ← needed_eq,
          readBytes_ok (by rw [hcell, if_neg (by omega)]; exact hpc) (hi c rfl), bind_ok]
        rcases malloc_cases h1 (.bytes (c.take (needed r.numsamples r.sampletype))) with
          ⟨h2, hm, hcell2, hnx2, hfa2, hfail2⟩ | ⟨h2, hm, hnx2, hfa2, hcell2, -⟩
        · rw [hm]
          refine ⟨none, h2, rfl, record_frame hr1 fun x _ => by rw [hcell2], fun _ => ⟨_, by rw [← hfa]; exact hfail2⟩, by simp⟩
        · rw [hm]
          simp only
          generalize hs' : ({ s with datasamples := some h1.next, datasize := needed r.numsamples r.sampletype } : Seg) = s'
          have hput : ∀ x, (h2.put h.next (.seg s')).cell x = if x = h.next then some (.seg s') else h2.cell x := fun _ => rfl
          have hpn : (h2.put h.next (.seg s')).next = h2.next := rfl
          have hpf : (h2.put h.next (.seg s')).fails = h2.fails := rfl
          generalize h2.put h.next (.seg s') = h3 at hput hpn hpf
          have hs1 : s'.datasamples = some h1.next := by rw [← hs']
          refine ⟨_, h3, rfl, record_frame hr1 fun x hx => ?_, by simp, fun a ha => ?_⟩
          · have := hlow x hx
            rw [hput, if_neg (by omega), hcell2, if_neg (by omega)]
          · obtain rfl : h.next = a := Option.some.inj ha
            have hlen : (c.take (needed r.numsamples r.sampletype)).length = needed r.numsamples r.sampletype := by
              have := hi c rfl
              rw [List.length_take]; omega
            refine ⟨s', some (c.take (needed r.numsamples r.sampletype)), ⟨by rw [hput, if_pos rfl], ?_, ?_, ?_, by simp, ?_⟩,
              ?_, ?_, rfl, fun h => absurd h h0⟩
            · rw [hs1]
              show h3.cell h1.next = _
              rw [hput, if_neg (by omega), hcell2, if_pos rfl]
            · intro b' hb'
              rw [← Option.some.inj hb', hlen, ← hs']
              exact Nat.le_refl _
            · intro _
              rw [← hs']
              show needed s.numsamples s.sampletype ≤ needed r.numsamples r.sampletype
              rw [hsn, hst]
              exact Nat.le_refl _
            · rw [← hs']
              show 0 ≤ s.numsamples
              omega
            · unfold ownedSeg
              rw [hs1]
              refine ⟨fun x hx => ?_, by omega, by rw [hpf, hfa2, hfa], ?_, ?_, ?_, by simp, ?_⟩
              · rw [hput, if_neg (by omega), hcell2, if_neg (by omega), hcell, if_neg (by omega)]
                exact hf x (by omega)
              · intro x hx
                simp at hx
                omega
              · intro x hx
                simp at hx
                omega
              · intro x _ hx
                simp at hx
                rw [hput, if_neg hx.2, hcell2, if_neg hx.1, hcell, if_neg hx.2]
              · simp
                omega
            · rw [← hs', ← hs]

/-- **C130, violated** If there is no memory for the samples, the segment that has been made for them is
lost: the caller is given nothing, and one more block of memory stays in use. -/
theorem C130_leak_violated :
    ∃ h', msr2seg (memory threeObjs 1) 0 0 0 = .ok (none, h') ∧ (memory threeObjs 1).cell 3 = none ∧
      h'.cell 3 ≠ none := by
  refine ⟨_, rfl, rfl, ?_⟩
  intro h
  have : ((some 1 : Option Nat).isSome) = false := by
    have h2 := congrArg Option.isSome h
    exact h2
  cases this

/-! ## Examples -/

/-- A segment with two samples in a buffer for three, and one record with three samples. -/
def twoSeg : Seg :=
  { starttime := 0, endtime := 1000000000, samprate := 0, samplecnt := 2, datasamples := some 4, datasize := 12, numsamples := 2, sampletype := 'i' }

def segObjs : List Obj := threeObjs ++ [.seg twoSeg, .bytes [8, 0, 0, 0, 9, 0, 0, 0, 7, 7, 7, 7]]

theorem twoSeg_has : SegBuf (sound segObjs) 3 twoSeg (some [8, 0, 0, 0, 9, 0, 0, 0, 7, 7, 7, 7]) := by
  refine ⟨rfl, rfl, ?_, fun _ => by decide, by simp, by decide⟩
  intro b hb
  rw [← Option.some.inj hb]; decide

theorem three_fits : Fits twoSeg three.sampletype three.numsamples
    (some [1, 0, 0, 0, 2, 0, 0, 0, 3, 0, 0, 0, 9, 9, 9, 9, 9, 9, 9, 9]) :=
  ⟨rfl, by decide, fun b hb => by rw [← Option.some.inj hb]; decide, by decide⟩

example : ∃ ok h', addmsrtoseg (fun _ => 85) 0 (sound segObjs) 3 0 4000000000 2 = .ok (ok, h') ∧
    HasRecord h' 0 three (some [123, 125]) (some [1, 0, 0, 0, 2, 0, 0, 0, 3, 0, 0, 0, 9, 9, 9, 9, 9, 9, 9, 9]) := by
  have hr : HasRecord (sound segObjs) 0 three (some [123, 125])
      (some [1, 0, 0, 0, 2, 0, 0, 0, 3, 0, 0, 0, 9, 9, 9, 9, 9, 9, 9, 9]) := by
    refine ⟨rfl, rfl, rfl, ?_, ?_, ?_⟩
    · intro b hb
      rw [← Option.some.inj hb]; decide
    · intro b hb
      rw [← Option.some.inj hb]; decide
    · intro p hp he
      have h1 : some 1 = some p := hp
      have h2 : some 2 = some p := he
      rw [← h1] at h2
      cases h2
  obtain ⟨ok, h', h1, h2, -⟩ := C130_append (fun _ => 85) 0 (endtime := 4000000000) (whence := 2) (sound_fresh _) twoSeg_has hr
    (by decide) (fun _ => three_fits) (.inr rfl)
  exact ⟨ok, h', h1, h2⟩

/-- The samples afterwards: those of the record first. -/
example : (match addmsrtoseg (fun _ => 85) 0 (sound segObjs) 3 0 4000000000 2 with
    | .ok (true, h) => (match h.cell 5 with | some (.bytes b) => b | _ => [])
    | _ => []) = [1, 0, 0, 0, 2, 0, 0, 0, 3, 0, 0, 0, 8, 0, 0, 0, 9, 0, 0, 0] := by decide +kernel

/-- And with blocks of sixteen bytes, behind. -/
example : (match addmsrtoseg (fun _ => 85) 16 (sound segObjs) 3 0 4000000000 1 with
    | .ok (true, h) => (match h.cell 5 with | some (.bytes b) => b | _ => [])
    | _ => []) = [8, 0, 0, 0, 9, 0, 0, 0, 1, 0, 0, 0, 2, 0, 0, 0, 3, 0, 0, 0, 85, 85, 85, 85, 85, 85, 85, 85] := by decide +kernel

/-- Two segments. -/
def segObjs2 : List Obj :=
  [.seg { twoSeg with datasamples := some 1 }, .bytes [8, 0, 0, 0, 9, 0, 0, 0, 7, 7, 7, 7],
   .seg { twoSeg with starttime := 2000000000, endtime := 3000000000, datasamples := some 3, datasize := 8 }, .bytes [5, 0, 0, 0, 6, 0, 0, 0]]

example : ∃ ok h', addsegtoseg (fun _ => 85) 0 (sound segObjs2) 0 2 = .ok (ok, h') := by
  have h1 : SegBuf (sound segObjs2) 0 { twoSeg with datasamples := some 1 } (some [8, 0, 0, 0, 9, 0, 0, 0, 7, 7, 7, 7]) := by
    refine ⟨rfl, rfl, ?_, fun _ => by decide, by simp, by decide⟩
    intro b hb
    rw [← Option.some.inj hb]; decide
  have h2 : SegBuf (sound segObjs2) 2
      { twoSeg with starttime := 2000000000, endtime := 3000000000, datasamples := some 3, datasize := 8 } (some [5, 0, 0, 0, 6, 0, 0, 0]) := by
    refine ⟨rfl, rfl, ?_, fun _ => by decide, by simp, by decide⟩
    intro b hb
    rw [← Option.some.inj hb]; decide
  obtain ⟨ok, h', g, -⟩ := C130_merge (fun _ => 85) 0 (sound_fresh _) h1 h2 (by decide) fun _ =>
    ⟨rfl, by decide, fun b hb => by rw [← Option.some.inj hb]; decide, by decide⟩
  exact ⟨ok, h', g⟩

example : ∃ x h', msr2seg (sound threeObjs) 0 0 2000000000 = .ok (x, h') := by
  obtain ⟨x, h', g, -⟩ := C130_new_partial (rate := 0) (endtime := 2000000000) (sound_fresh _) (three_has (sound threeObjs) rfl)
    (by decide) (by simp) (fun _ => by decide) (fun c hc => by rw [← Option.some.inj hc]; decide)
  exact ⟨x, h', g⟩

end Verif.Props.SegMem
