import Verif.Proof.Blockettes2
/-!
# Lemmas about the blockettes for entries of extra headers
-/
namespace Verif.Proof.Blockettes2
open Verif.Spec.Json Verif.Spec.Record2 Verif.Props.ExtraHeaders Verif.Props.Headers2 Verif.Props.Blockettes2
open Verif.Model Verif.Model.Steim Verif.Model.Mem Verif.Model.Pack2 Verif.Model.Blockettes2
open Verif.Model.ExtraHeaders (lit)
open Verif.Proof.Mem Verif.Proof.Pack2 Verif.Proof.Record2
open Verif.Proof.Headers2 (fieldNames)

/-- The step makes the blockette. -/
def Made (s : Step) (m : Mapped) : Prop :=
  ∃ ws ps, s = .add m.type (Blkt.mapped m).size ws ∧ Fill 4 ws ps ∧ ps.flatten = (m.parts true).flatten

theorem stores_made {s : Step} {m : Mapped} (h : Made s m) (hv : m.Valid) {ss : List Step} {ms : List Mapped} (hs : Stores ss ms) :
    Stores (s :: ss) (m :: ms) := by
  obtain ⟨ws, ps, rfl, hf, hp⟩ := h
  refine .add m ws ss ms ?_ hs
  have hl := congrArg List.sum (parts_sizes true m hv)
  have hz : (Blkt.mapped m).size - 4 = ps.flatten.length := by
    rw [hp, List.length_flatten, hl]
    show 4 + _ - 4 = _
    omega
  rw [hz, writeAll_fill hf _ (by simp [num_length]), hp]
  rfl

macro "mem" : tactic => `(tactic| repeat (first | exact List.Mem.head _ | apply List.Mem.tail))

theorem event_made {h : Bool} {n : Headers2.Numbers} {k : Numbers} (hi : Inverse n k) {a p b : Nat} {flags r : UInt8} {t : BTime}
    {d : Label} (hv : (Mapped.event a p b flags r t d).Valid) (hc : Canonical (.event a p b flags r t d)) {e : Json}
    {fs : Fields} (hd : detection n not (.event a p b flags r t d) = some fs) (hH : Has fs e) :
    Made (detectionStep h k e) (.event a p b flags r t d) := by
  cases hd
  obtain ⟨v1, v2, v3, v4, v5⟩ := hv
  obtain ⟨c1, c2, c3, c4, c5, c6, c7, c8⟩ := hc
  have hmur : isLike e "/Type" "MURDOCK" = false := by
    unfold isLike
    rw [finds_one (hH "Type" _ (by mem) _ (by decide +kernel)) (by decide +kernel)]
    decide +kernel
  have hW : getStr (some e) "/Wave" = if flags.toNat.testBit 2 then none else
      some (if flags.toNat.testBit 0 then name "DILATATION" else name "COMPRESSION") := by
    have hw := hH "Wave" _ (by mem) "/Wave" (by decide +kernel)
    cases h2 : flags.toNat.testBit 2 <;> rw [h2] at hw
    · refine finds_two (fun v => ?_) (by decide +kernel)
      rw [hw]
      simp
    · unfold getStr
      rw [finds_none hw fun v hv => by simp at hv]
      rfl
  have hU := finds_two (hH "Units" _ (by mem) "/Units" (by decide +kernel)) (by decide +kernel)
  have hflags : UInt8.ofNat (eventFlags false e) = flags := by
    have : eventFlags false e = (if flags.toNat.testBit 2 then 4 else bit 1 (flags.toNat.testBit 0)) +
        bit 2 (flags.toNat.testBit 1) := by
      unfold eventFlags
      rw [hW, hU]
      generalize flags.toNat.testBit 0 = b0
      generalize flags.toNat.testBit 1 = b1
      generalize flags.toNat.testBit 2 = b2
      revert b0 b1 b2
      decide +kernel
    rw [this]
    have key : ∀ x, x < 8 → ¬ (x.testBit 2 = true ∧ x.testBit 0 = true) →
        (if x.testBit 2 then 4 else bit 1 (x.testBit 0)) + bit 2 (x.testBit 1) = x := by decide
    rw [key _ c4 c5, UInt8.ofNat_toNat]
  unfold detectionStep
  simp only [hmur, hflags, Bool.false_eq_true, if_false, List.append_assoc, List.cons_append, List.nil_append]
  refine ⟨_, Mapped.parts true (.event a p b flags r t d), rfl, ?_, rfl⟩
  show Fill 4 _ [_, _, _, _, _, _, _]
  refine Fill.opt (sets_float hi (hH "SignalAmplitude" _ (by mem) _ (by decide +kernel)) c1 v1) ?_
  refine Fill.opt (sets_float hi (hH "SignalPeriod" _ (by mem) _ (by decide +kernel)) c2 v2) ?_
  refine Fill.opt (sets_float hi (hH "BackgroundEstimate" _ (by mem) _ (by decide +kernel)) c3 v3) ?_
  refine Fill.one (Fill.zero c6 ?_)
  refine Fill.opt (sets_time hi.rnd (hH "OnsetTime" _ (by mem) _ (by decide +kernel)) v4 c7) ?_
  exact Fill.last (sets_label (hH "Detector" _ (by mem) _ (by decide +kernel)) v5 c8)

theorem ratios_eq {k : Numbers} (hb : ∀ b : Nat, b < 256 → k.byte (k.int b) = some b) {e : Json} {s0 s1 s2 s3 s4 s5 : UInt8}
    (hf : Finds e "/MEDSNR" fun v => (∃ b ∈ [s0, s1, s2, s3, s4, s5], b ≠ 0) ∧
      v = .arr ([s0, s1, s2, s3, s4, s5].map fun b => .int b.toNat)) :
    (ratios k e = [] ∧ s0 = 0 ∧ s1 = 0 ∧ s2 = 0 ∧ s3 = 0 ∧ s4 = 0 ∧ s5 = 0) ∨
    ratios k e = [(28, .ok [s0]), (29, .ok [s1]), (30, .ok [s2]), (31, .ok [s3]), (32, .ok [s4]), (33, .ok [s5])] := by
  have hbyte : ∀ s : UInt8, k.byte (k.int s.toNat) = some s.toNat := fun s => hb _ s.toNat_lt
  by_cases hz : ∃ b ∈ [s0, s1, s2, s3, s4, s5], b ≠ 0
  · right
    unfold ratios
    rw [(hf _).2 ⟨hz, rfl⟩]
    simp [toNum, hbyte, List.zipIdx]
  · left
    refine ⟨?_, ?_⟩
    · unfold ratios
      rw [finds_none hf fun v hv => hz hv.1]
    · have : ∀ b ∈ [s0, s1, s2, s3, s4, s5], b = 0 := fun b hb => Classical.byContradiction fun hn => hz ⟨b, hb, hn⟩
      simpa using this

theorem murdock_made {h : Bool} {n : Headers2.Numbers} {k : Numbers} (hi : Inverse n k) {a p b : Nat} {flags r : UInt8} {t : BTime}
    {s0 s1 s2 s3 s4 s5 lb pa : UInt8} {d : Label} (hv : (Mapped.murdock a p b flags r t s0 s1 s2 s3 s4 s5 lb pa d).Valid)
    (hc : Canonical (.murdock a p b flags r t s0 s1 s2 s3 s4 s5 lb pa d)) {e : Json}
    {fs : Fields} (hd : detection n not (.murdock a p b flags r t s0 s1 s2 s3 s4 s5 lb pa d) = some fs) (hH : Has fs e) :
    Made (detectionStep h k e) (.murdock a p b flags r t s0 s1 s2 s3 s4 s5 lb pa d) := by
  cases hd
  obtain ⟨v1, v2, v3, v4, v5⟩ := hv
  obtain ⟨c1, c2, c3, c4, c6, c7, c8, c9, c10⟩ := hc
  have hmur : isLike e "/Type" "MURDOCK" = true := by
    unfold isLike
    rw [finds_one (hH "Type" _ (by mem) _ (by decide +kernel)) (by decide +kernel)]
    decide +kernel
  have hW := finds_two (hH "Wave" _ (by mem) "/Wave" (by decide +kernel)) (by decide +kernel)
  have hflags : UInt8.ofNat (eventFlags true e) = flags := by
    have : eventFlags true e = bit 1 (flags.toNat.testBit 0) := by
      unfold eventFlags
      rw [hW]
      simp only [if_true, Nat.add_zero]
      generalize flags.toNat.testBit 0 = b0
      revert b0
      decide +kernel
    rw [this]
    have key : ∀ x, x < 2 → bit 1 (x.testBit 0) = x := by decide
    rw [key _ c4, UInt8.ofNat_toNat]
  have h254 : ∀ x : UInt8, x ≠ 255 → x.toNat ≤ 254 := by
    intro x hx
    have := x.toNat_lt
    refine Classical.byContradiction fun hn => hx ?_
    have : x.toNat = (255 : UInt8).toNat := by
      have : (255 : UInt8).toNat = 255 := rfl
      omega
    exact UInt8.toNat_inj.1 this
  have hend : ∀ (off : Nat), off = 34 → Fill off (opt 34 (small 254 e "/MEDLookback") ++ (opt 35 (small 254 e "/MEDPickAlgorithm") ++
      opt 36 (label 24 (some e) "/Detector"))) [[lb], [pa], d.bytes] := by
    rintro _ rfl
    refine Fill.opt (sets_small (hH "MEDLookback" _ (by mem) _ (by decide +kernel)) (h254 _ c8)) ?_
    refine Fill.opt (sets_small (hH "MEDPickAlgorithm" _ (by mem) _ (by decide +kernel)) (h254 _ c9)) ?_
    exact Fill.last (sets_label (hH "Detector" _ (by mem) _ (by decide +kernel)) v5 c10)
  unfold detectionStep
  simp only [hmur, hflags, if_true, List.append_assoc, List.cons_append, List.nil_append]
  refine ⟨_, Mapped.parts true (.murdock a p b flags r t s0 s1 s2 s3 s4 s5 lb pa d), rfl, ?_, rfl⟩
  show Fill 4 _ [_, _, _, _, _, _, _, _, _, _, _, _, _, _, _]
  refine Fill.opt (sets_float hi (hH "SignalAmplitude" _ (by mem) _ (by decide +kernel)) c1 v1) ?_
  refine Fill.opt (sets_float hi (hH "SignalPeriod" _ (by mem) _ (by decide +kernel)) c2 v2) ?_
  refine Fill.opt (sets_float hi (hH "BackgroundEstimate" _ (by mem) _ (by decide +kernel)) c3 v3) ?_
  refine Fill.one (Fill.zero c6 ?_)
  refine Fill.opt (sets_time hi.rnd (hH "OnsetTime" _ (by mem) _ (by decide +kernel)) v4 c7) ?_
  rcases ratios_eq hi.byte (hH "MEDSNR" _ (by mem) _ (by decide +kernel)) with ⟨hr, z0, z1, z2, z3, z4, z5⟩ | hr
  · rw [hr, List.nil_append]
    exact Fill.zero z0 (Fill.zero z1 (Fill.zero z2 (Fill.zero z3 (Fill.zero z4 (Fill.zero z5 (hend _ rfl))))))
  · rw [hr]
    exact Fill.one (Fill.one (Fill.one (Fill.one (Fill.one (Fill.one (hend _ rfl))))))

/-- The flags for the trigger and for continued calibrations. -/
theorem trigger_eq {e : Json} {c d : Bool} (h1 : Finds e "/Trigger" (choice [(c, "AUTOMATIC"), (true, "MANUAL")]))
    (h2 : Finds e "/Continued" fun v => d = true ∧ v = .bool true) : triggerFlags e = bit 4 c + bit 8 d := by
  unfold triggerFlags
  rw [finds_trigger h1, finds_true h2]

theorem step_made {h : Bool} {n : Headers2.Numbers} {k : Numbers} (hi : Inverse n k) {t : BTime} {st flags : UInt8} {du it a : Nat}
    {ch : Label} {r : UInt8} {rf : Nat} {cp ro : Label} (hv : (Mapped.step t st flags du it a ch r rf cp ro).Valid)
    (hc : Canonical (.step t st flags du it a ch r rf cp ro)) {e : Json} {fs : Fields}
    (hd : calibration n (.step t st flags du it a ch r rf cp ro) = some fs) (hH : Has fs e) :
    Made (calibrationStep h k e) (.step t st flags du it a ch r rf cp ro) := by
  cases hd
  obtain ⟨v1, v2, v3, v4, v5, v6, v7, v8⟩ := hv
  obtain ⟨c1, c2, c3, c4, c5, c6, c7⟩ := hc
  have hflags : UInt8.ofNat (bit 1 (Blockettes2.isTrue e "/StepFirstPulsePositive") + bit 2 (Blockettes2.isTrue e "/StepAlternateSign") +
      triggerFlags e) = flags := by
    rw [trigger_eq (hH "Trigger" _ (by mem) _ (by decide +kernel)) (hH "Continued" _ (by mem) _ (by decide +kernel)),
      finds_true (hH "StepFirstPulsePositive" _ (by mem) _ (by decide +kernel)),
      finds_true (hH "StepAlternateSign" _ (by mem) _ (by decide +kernel))]
    have key : ∀ x, x < 16 → bit 1 (x.testBit 0) + bit 2 (x.testBit 1) + (bit 4 (x.testBit 2) + bit 8 (x.testBit 3)) = x := by decide
    rw [key _ c2, UInt8.ofNat_toNat]
  unfold calibrationStep
  rw [finds_one (hH "Type" _ (by mem) _ (by decide +kernel)) (by decide +kernel)]
  simp only
  rw [if_pos (by decide +kernel)]
  unfold stepStep
  simp only [hflags, List.append_assoc, List.cons_append, List.nil_append]
  refine ⟨_, Mapped.parts true (.step t st flags du it a ch r rf cp ro), rfl, ?_, rfl⟩
  show Fill 4 _ [_, _, _, _, _, _, _, _, _, _, _]
  refine Fill.opt (sets_time hi.rnd (hH "BeginTime" _ (by mem) _ (by decide +kernel)) v1 c1) ?_
  refine Fill.opt (sets_small (hH "Steps" _ (by mem) _ (by decide +kernel)) (by have := st.toNat_lt; omega)) ?_
  refine Fill.one ?_
  refine Fill.opt (sets_tenths hi (hH "Duration" _ (by mem) _ (by decide +kernel)) v2) ?_
  refine Fill.opt (sets_tenths hi (hH "StepBetween" _ (by mem) _ (by decide +kernel)) v3) ?_
  refine Fill.opt (sets_float hi (hH "Amplitude" _ (by mem) _ (by decide +kernel)) c3 v4) ?_
  refine Fill.opt (sets_label (hH "InputChannel" _ (by mem) _ (by decide +kernel)) v5 c4) (Fill.zero c5 ?_)
  refine Fill.opt (sets_whole hi (hH "ReferenceAmplitude" _ (by mem) _ (by decide +kernel)) v6) ?_
  refine Fill.opt (sets_label (hH "Coupling" _ (by mem) _ (by decide +kernel)) v7 c6) ?_
  exact Fill.last (sets_label (hH "Rolloff" _ (by mem) _ (by decide +kernel)) v8 c7)

theorem sine_made {h : Bool} {n : Headers2.Numbers} {k : Numbers} (hi : Inverse n k) {t : BTime} {r1 flags : UInt8} {du pe a : Nat}
    {ch : Label} {r : UInt8} {rf : Nat} {cp ro : Label} (hv : (Mapped.sine t r1 flags du pe a ch r rf cp ro).Valid)
    (hc : Canonical (.sine t r1 flags du pe a ch r rf cp ro)) {e : Json} {fs : Fields}
    (hd : calibration n (.sine t r1 flags du pe a ch r rf cp ro) = some fs) (hH : Has fs e) :
    Made (calibrationStep h k e) (.sine t r1 flags du pe a ch r rf cp ro) := by
  cases hd
  obtain ⟨v1, v2, v3, v4, v5, v6, v7, v8⟩ := hv
  obtain ⟨c1, c2, c3, c4, c5, c6, c7, c8, c9, c10⟩ := hc
  obtain ⟨q1, q2, q3⟩ := finds_range (hH "AmplitudeRange" _ (by mem) _ (by decide +kernel))
  have hflags : UInt8.ofNat (triggerFlags e + bit 16 (isLike e "/AmplitudeRange" "PEAKTOPEAK") +
      bit 32 (isLike e "/AmplitudeRange" "ZEROTOPEAK") + bit 64 (isLike e "/AmplitudeRange" "RMS")) = flags := by
    rw [trigger_eq (hH "Trigger" _ (by mem) _ (by decide +kernel)) (hH "Continued" _ (by mem) _ (by decide +kernel)), q1, q2, q3]
    have key : ∀ x, x < 256 → x / 4 % 4 * 4 + x / 16 * 16 = x → x / 16 ∈ [0, 1, 2, 4] →
        bit 4 (x.testBit 2) + bit 8 (x.testBit 3) + bit 16 (x.testBit 4) + bit 32 (!x.testBit 4 && x.testBit 5) +
          bit 64 (!x.testBit 4 && !x.testBit 5 && x.testBit 6) = x := by decide +kernel
    rw [key _ flags.toNat_lt c3 c4, UInt8.ofNat_toNat]
  unfold calibrationStep
  rw [finds_one (hH "Type" _ (by mem) _ (by decide +kernel)) (by decide +kernel)]
  simp only
  rw [if_neg (by decide +kernel), if_pos (by decide +kernel)]
  unfold sineStep
  simp only [hflags, List.append_assoc, List.cons_append, List.nil_append]
  refine ⟨_, Mapped.parts true (.sine t r1 flags du pe a ch r rf cp ro), rfl, ?_, rfl⟩
  show Fill 4 _ [_, _, _, _, _, _, _, _, _, _, _]
  refine Fill.opt (sets_time hi.rnd (hH "BeginTime" _ (by mem) _ (by decide +kernel)) v1 c1) (Fill.zero c2 ?_)
  refine Fill.one ?_
  refine Fill.opt (sets_tenths hi (hH "Duration" _ (by mem) _ (by decide +kernel)) v2) ?_
  refine Fill.opt (sets_float hi (hH "SinePeriod" _ (by mem) _ (by decide +kernel)) c5 v3) ?_
  refine Fill.opt (sets_float hi (hH "Amplitude" _ (by mem) _ (by decide +kernel)) c6 v4) ?_
  refine Fill.opt (sets_label (hH "InputChannel" _ (by mem) _ (by decide +kernel)) v5 c7) (Fill.zero c8 ?_)
  refine Fill.opt (sets_whole hi (hH "ReferenceAmplitude" _ (by mem) _ (by decide +kernel)) v6) ?_
  refine Fill.opt (sets_label (hH "Coupling" _ (by mem) _ (by decide +kernel)) v7 c9) ?_
  exact Fill.last (sets_label (hH "Rolloff" _ (by mem) _ (by decide +kernel)) v8 c10)

theorem random_made {h : Bool} {n : Headers2.Numbers} {k : Numbers} (hi : Inverse n k) {t : BTime} {r1 flags : UInt8} {du a : Nat}
    {ch : Label} {r : UInt8} {rf : Nat} {cp ro no : Label} (hv : (Mapped.random t r1 flags du a ch r rf cp ro no).Valid)
    (hc : Canonical (.random t r1 flags du a ch r rf cp ro no)) {e : Json} {fs : Fields}
    (hd : calibration n (.random t r1 flags du a ch r rf cp ro no) = some fs) (hH : Has fs e) :
    Made (calibrationStep h k e) (.random t r1 flags du a ch r rf cp ro no) := by
  cases hd
  obtain ⟨v1, v2, v4, v5, v6, v7, v8, v9⟩ := hv
  obtain ⟨c1, c2, c3, c6, c7, c8, c9, c10, c11⟩ := hc
  have hflags : UInt8.ofNat (triggerFlags e + bit 16 (isLike e "/AmplitudeRange" "RANDOM")) = flags := by
    rw [trigger_eq (hH "Trigger" _ (by mem) _ (by decide +kernel)) (hH "Continued" _ (by mem) _ (by decide +kernel)),
      finds_random (hH "AmplitudeRange" _ (by mem) _ (by decide +kernel))]
    have key : ∀ x, x < 256 → x / 4 % 8 * 4 = x →
        bit 4 (x.testBit 2) + bit 8 (x.testBit 3) + bit 16 (x.testBit 4) = x := by decide +kernel
    rw [key _ flags.toNat_lt c3, UInt8.ofNat_toNat]
  unfold calibrationStep
  rw [finds_one (hH "Type" _ (by mem) _ (by decide +kernel)) (by decide +kernel)]
  simp only
  rw [if_neg (by decide +kernel), if_neg (by decide +kernel), if_pos (by decide +kernel)]
  unfold randomStep
  simp only [hflags, List.append_assoc, List.cons_append, List.nil_append]
  refine ⟨_, Mapped.parts true (.random t r1 flags du a ch r rf cp ro no), rfl, ?_, rfl⟩
  show Fill 4 _ [_, _, _, _, _, _, _, _, _, _, _]
  refine Fill.opt (sets_time hi.rnd (hH "BeginTime" _ (by mem) _ (by decide +kernel)) v1 c1) (Fill.zero c2 ?_)
  refine Fill.one ?_
  refine Fill.opt (sets_tenths hi (hH "Duration" _ (by mem) _ (by decide +kernel)) v2) ?_
  refine Fill.opt (sets_float hi (hH "Amplitude" _ (by mem) _ (by decide +kernel)) c6 v4) ?_
  refine Fill.opt (sets_label (hH "InputChannel" _ (by mem) _ (by decide +kernel)) v5 c7) (Fill.zero c8 ?_)
  refine Fill.opt (sets_whole hi (hH "ReferenceAmplitude" _ (by mem) _ (by decide +kernel)) v6) ?_
  refine Fill.opt (sets_label (hH "Coupling" _ (by mem) _ (by decide +kernel)) v7 c9) ?_
  refine Fill.opt (sets_label (hH "Rolloff" _ (by mem) _ (by decide +kernel)) v8 c10) ?_
  exact Fill.last (sets_label (hH "Noise" _ (by mem) _ (by decide +kernel)) v9 c11)

theorem generic_made {h : Bool} {n : Headers2.Numbers} {k : Numbers} (hi : Inverse n k) {t : BTime} {r1 flags : UInt8} {du a : Nat}
    {ch : Label} {r : UInt8} (hv : (Mapped.generic t r1 flags du a ch r).Valid)
    (hc : Canonical (.generic t r1 flags du a ch r)) {e : Json} {fs : Fields}
    (hd : calibration n (.generic t r1 flags du a ch r) = some fs) (hH : Has fs e) :
    Made (calibrationStep h k e) (.generic t r1 flags du a ch r) := by
  cases hd
  obtain ⟨v1, v2, v4, v5⟩ := hv
  obtain ⟨c1, c2, c3, c6, c7, c8⟩ := hc
  have hflags : UInt8.ofNat (triggerFlags e) = flags := by
    rw [trigger_eq (hH "Trigger" _ (by mem) _ (by decide +kernel)) (hH "Continued" _ (by mem) _ (by decide +kernel))]
    have key : ∀ x, x < 256 → x / 4 % 4 * 4 = x → bit 4 (x.testBit 2) + bit 8 (x.testBit 3) = x := by decide +kernel
    rw [key _ flags.toNat_lt c3, UInt8.ofNat_toNat]
  unfold calibrationStep
  rw [finds_one (hH "Type" _ (by mem) _ (by decide +kernel)) (by decide +kernel)]
  simp only
  rw [if_neg (by decide +kernel), if_neg (by decide +kernel), if_neg (by decide +kernel), if_pos (by decide +kernel)]
  unfold genericStep
  simp only [hflags, List.append_assoc, List.cons_append, List.nil_append]
  refine ⟨_, Mapped.parts true (.generic t r1 flags du a ch r), rfl, ?_, rfl⟩
  show Fill 4 _ [_, _, _, _, _, _, _]
  refine Fill.opt (sets_time hi.rnd (hH "BeginTime" _ (by mem) _ (by decide +kernel)) v1 c1) (Fill.zero c2 ?_)
  refine Fill.one ?_
  refine Fill.opt (sets_tenths hi (hH "Duration" _ (by mem) _ (by decide +kernel)) v2) ?_
  refine Fill.opt (sets_float hi (hH "Amplitude" _ (by mem) _ (by decide +kernel)) c6 v4) ?_
  have := Fill.opt (off := 24) (sets_label (hH "InputChannel" _ (by mem) "/InputChannel" (by decide +kernel)) v5 c7)
    (Fill.zero c8 (.nil _))
  rwa [List.append_nil] at this

theorem abort_made {h : Bool} {k : Numbers} (hr : Verif.Spec.Rounding k.rnd) {t : BTime} (hv : t.Valid) (ho : Ordinary t)
    {e : Json} (hf : Finds e "/EndTime" (Verif.Props.ExtraHeaders.time t.instant)) :
    ∃ s, endSteps h k e = [s] ∧ Made s (.abort t 0 0) := by
  have hs := sets_time (h := h) (k := k) hr hf hv ho
  have h0 : t.instant + ((0 : Nat) : Int) * 1000 = t.instant := by omega
  obtain ⟨f, month, mday, hd, hg⟩ := getStr_time (micro := 0) (by rw [h0]; exact hf) hv (by omega)
  refine ⟨_, by unfold endSteps; rw [hg], ?_⟩
  refine ⟨_, Mapped.parts true (.abort t 0 0), rfl, ?_, rfl⟩
  show Fill 4 _ [_, _, _]
  have := Fill.opt (off := 4) hs (Fill.zero (b := 0) rfl (Fill.zero (b := 0) rfl (.nil _)))
  rwa [List.append_nil] at this

theorem clock_made {h : Bool} {n : Headers2.Numbers} {k : Numbers} (hi : Inverse n k) {c : Nat} {t : BTime} {mi : Int} {q : UInt8}
    {ct : Nat} {ty mo stt : Label} (hv : (Mapped.clock c t mi q ct ty mo stt).Valid) (hc : Canonical (.clock c t mi q ct ty mo stt))
    {e : Json} {fs : Fields} (hd : exception n (.clock c t mi q ct ty mo stt) = some fs) (hH : Has fs e) {root : Option Json}
    (hm : look root "/FDSN/Clock/Model" = some (.str mo.s)) :
    Made (exceptionStep h k root e) (.clock c t mi q ct ty mo stt) := by
  cases hd
  obtain ⟨v1, v2, v3, v4, v5, v6, v7, v8⟩ := hv
  obtain ⟨c1, c2, c3, c4, c5, c6, c7, c8⟩ := hc
  obtain ⟨mi, rfl⟩ : ∃ x : Nat, mi = x := ⟨mi.toNat, by omega⟩
  have hz : ∀ x ∈ mo.s, x ≠ 0 := by
    intro x hx he
    have := (v7.ascii x hx).1
    rw [he] at this
    exact absurd this (by decide)
  have hcorr : Sets 4 (float h k e "/VCOCorrection") (num true 4 c) := by
    refine ⟨num_length _ _ _, .inr ?_⟩
    unfold float getNum
    rw [(hH "VCOCorrection" _ (by mem) "/VCOCorrection" (by decide +kernel) (.real (n.widen c))).2
      (And.intro (hi.widen_sign c c2 c1) rfl)]
    show some (Res.ok (big h 4 (k.narrow (n.widen c)))) = _
    rw [hi.narrow c v1 c1, big_eq]
  have hcount : Sets 4 (match getUint (some e) "/Count" with
      | some u => if u ≤ 4294967295 then some (.ok (big h 4 u)) else none
      | none => none) (num true 4 ct) := by
    refine ⟨num_length _ _ _, ?_⟩
    have hf := hH "Count" _ (by mem) "/Count" (by decide +kernel)
    unfold getUint
    by_cases h0 : ct = 0
    · left
      rw [finds_none hf fun v hv => by have := hv.1; omega, h0, num_zero]
      exact ⟨rfl, rfl⟩
    · right
      rw [(hf (.int ct)).2 ⟨by omega, rfl⟩]
      simp only [Int.natCast_nonneg, if_true, Int.toNat_natCast]
      rw [if_pos (by omega), big_eq]
  have hmodel : Sets 32 (label 32 root "/FDSN/Clock/Model") mo.bytes := by
    refine ⟨v7.length, .inr ?_⟩
    unfold label getStr
    rw [hm]
    show some (openField (mo.s.takeWhile (· != 0)) 32) = _
    rw [takeWhile_text hz, openField_label v7 c7]
  unfold exceptionStep
  simp only [List.append_assoc]
  refine ⟨_, [num true 4 c, t.bytes true ++ [UInt8.ofNat mi], [q], num true 4 ct, ty.bytes, mo.bytes, stt.bytes], rfl, ?_, ?_⟩
  · refine Fill.opt hcorr ?_
    refine Fill.opt (sets_timeMicro hi.rnd (by omega) (hH "Time" _ (by mem) _ (by decide +kernel)) v2 c3) ?_
    refine Fill.opt (sets_small (hH "ReceptionQuality" _ (by mem) _ (by decide +kernel)) (by have := q.toNat_lt; omega)) ?_
    refine Fill.opt hcount ?_
    refine Fill.opt (sets_label (hH "Type" _ (by mem) _ (by decide +kernel)) v6 c6) ?_
    refine Fill.opt hmodel ?_
    exact Fill.last (sets_label (hH "ClockStatus" _ (by mem) _ (by decide +kernel)) v8 c8)
  · have : twos 1 (mi : Int) = mi := by unfold twos; omega
    simp only [Mapped.parts, this]
    simp

end Verif.Proof.Blockettes2
