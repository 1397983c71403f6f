import Verif.Proof.Headers2
/-!
# Lemmas about the entries for blockettes
-/
namespace Verif.Proof.Headers2
open Verif.Spec.Json Verif.Model.ExtraHeaders Verif.Model.Headers2 Verif.Proof.Json Verif.Proof.ExtraHeaders
open Verif.Props.ExtraHeaders Verif.Props.Headers2
open Verif.Props.Record2 (fieldsOf)
open Verif.Spec.Record2 hiding Label
open Verif.Model.Record2 (Header)

/-- The same fields, but for some that have no value. -/
inductive Sub : Fields → Fields → Prop
  | nil : Sub [] []
  | keep {n P Q f g} : (∀ v, P v ↔ Q v) → Sub f g → Sub ((n, P) :: f) ((n, Q) :: g)
  | drop {n P f g} : (∀ v, ¬ P v) → Sub f g → Sub ((n, P) :: f) g

theorem sub_iff {f g : Fields} (h : Sub f g) (k : List UInt8) (v : Json) :
    (∃ n P, (n, P) ∈ f ∧ k = name n ∧ P v) ↔ ∃ n P, (n, P) ∈ g ∧ k = name n ∧ P v := by
  induction h with
  | nil => exact Iff.rfl
  | @keep n P Q f g hpq _ ih =>
    constructor
    · rintro ⟨m, R, hm, hk, hv⟩
      rcases List.mem_cons.1 hm with he | hm
      · cases he; exact ⟨n, Q, List.mem_cons_self, hk, (hpq v).1 hv⟩
      · obtain ⟨m, R, hm, h⟩ := ih.1 ⟨m, R, hm, hk, hv⟩
        exact ⟨m, R, List.mem_cons_of_mem _ hm, h⟩
    · rintro ⟨m, R, hm, hk, hv⟩
      rcases List.mem_cons.1 hm with he | hm
      · cases he; exact ⟨n, P, List.mem_cons_self, hk, (hpq v).2 hv⟩
      · obtain ⟨m, R, hm, h⟩ := ih.2 ⟨m, R, hm, hk, hv⟩
        exact ⟨m, R, List.mem_cons_of_mem _ hm, h⟩
  | @drop n P f g hno _ ih =>
    rw [← ih]
    constructor
    · rintro ⟨m, R, hm, hk, hv⟩
      rcases List.mem_cons.1 hm with he | hm
      · cases he; exact absurd hv (hno v)
      · exact ⟨m, R, hm, hk, hv⟩
    · rintro ⟨m, R, hm, h⟩
      exact ⟨m, R, List.mem_cons_of_mem _ hm, h⟩

theorem entry_sub {f g : Fields} (h : Sub f g) {e : Json} (he : Entry f e) : Entry g e := by
  obtain ⟨l, h1, h2, h3⟩ := he
  exact ⟨l, h1, h2, fun k v => (h3 k v).trans (sub_iff h k v)⟩

theorem sub_refl (n : String) (P : Json → Prop) {f g : Fields} (h : Sub f g) : Sub ((n, P) :: f) ((n, P) :: g) :=
  .keep (fun _ => Iff.rfl) h

theorem text_lit {s : String} (h : name s ≠ []) (v : Json) : text (lit s) v ↔ choice [(true, s)] v := by
  simp [text, choice, lit_name, h]

theorem text_two {a b : String} (c : Bool) (ha : name a ≠ []) (hb : name b ≠ []) (v : Json) :
    text (if c = true then lit a else lit b) v ↔ choice [(c, a), (true, b)] v := by
  cases c <;> simp [text, choice, lit_name, ha, hb]

theorem text_trigger (flags : UInt8) (v : Json) :
    text (trigger flags.toNat) v ↔ choice [(flags.toNat.testBit 2, "AUTOMATIC"), (true, "MANUAL")] v := by
  unfold trigger
  generalize flags.toNat.testBit 2 = c
  have ha : name "AUTOMATIC" ≠ [] := by decide +kernel
  have hb : name "MANUAL" ≠ [] := by decide +kernel
  cases c <;> simp [text, choice, lit_name, ha, hb]

theorem truth_flag (flags : UInt8) (b : Nat) (v : Json) :
    truth (flag flags.toNat b) v ↔ flags.toNat.testBit b = true ∧ v = .bool true := by
  unfold truth flag
  generalize flags.toNat.testBit b = c
  cases c <;> simp

theorem truth_no (v : Json) : ¬ truth (-1) v := fun h => by have := h.1; omega
theorem count_no (v : Json) : ¬ count (-1) v := fun h => by have := h.1; omega
theorem text_no (v : Json) : ¬ text [] v := fun h => h.1 rfl
theorem number_no (v : Json) : ¬ number 0 v := fun h => h.1 (by decide)
theorem time_no (v : Json) : ¬ time Verif.Model.NSTERROR v := fun h => h.1 rfl
theorem count_nat (i : Nat) (v : Json) : count i v ↔ v = .int i := ⟨fun h => h.2, fun h => ⟨by omega, h⟩⟩

theorem btime_int64 {t : BTime} (v : t.Valid) : Verif.Spec.InInt64 t.instant := by
  have := Verif.Proof.Record2.instant_bounds t v
  unfold Verif.Spec.InInt64
  omega

theorem nsterror_int64 : Verif.Spec.InInt64 Verif.Model.NSTERROR := by
  unfold Verif.Spec.InInt64 Verif.Model.NSTERROR; omega

/-- How the library takes bit 2 of blockette 200. -/
def asSet : Bool → Bool := id

/-- What a blockette is mapped to. -/
inductive MappedTo (n : Numbers) (m : Mapped) : Prop
  | event {v fs} : Entry fs v → detection n asSet m = some fs → calibration n m = none → exception n m = none →
      clockModel (.mapped m) = none →
      edits n (.blockette m.type (fieldsOf m)) = [("/FDSN/Event/Detection", .append v)] → MappedTo n m
  | calibration {v fs} : Entry fs v → detection n asSet m = none → calibration n m = some fs → exception n m = none →
      clockModel (.mapped m) = none →
      edits n (.blockette m.type (fieldsOf m)) = [("/FDSN/Calibration/Sequence", .append v)] → MappedTo n m
  | exception {v fs s} : Entry fs v → detection n asSet m = none → calibration n m = none → exception n m = some fs →
      clockModel (.mapped m) = some s →
      edits n (.blockette m.type (fieldsOf m)) = [("/FDSN/Time/Exception", .append v), ("/FDSN/Clock/Model", .put (.str s))] →
      MappedTo n m

theorem mapped_to (n : Numbers) (m : Mapped) (hv : m.Valid) :
    MappedTo n m ∧ ∀ x, mapping n m.type (fieldsOf m) = some x → Mapping.Ok x := by
  have l1 : name "GENERIC" ≠ [] := by decide +kernel
  have l2 : name "MURDOCK" ≠ [] := by decide +kernel
  have l3 : name "DILATATION" ≠ [] := by decide +kernel
  have l4 : name "COMPRESSION" ≠ [] := by decide +kernel
  have l5 : name "DECONVOLVED" ≠ [] := by decide +kernel
  have l6 : name "COUNTS" ≠ [] := by decide +kernel
  have l7 : name "STEP" ≠ [] := by decide +kernel
  have l8 : name "SINE" ≠ [] := by decide +kernel
  have l9 : name "PSEUDORANDOM" ≠ [] := by decide +kernel
  have l10 : name "ABORT" ≠ [] := by decide +kernel
  have l11 : name "PEAKTOPEAK" ≠ [] := by decide +kernel
  have l12 : name "ZEROTOPEAK" ≠ [] := by decide +kernel
  have l13 : name "RMS" ≠ [] := by decide +kernel
  have l14 : name "RANDOM" ≠ [] := by decide +kernel
  have ev : ∀ e x, mapping n m.type (fieldsOf m) = some (.event e) → eventEntry e = some x →
      edits n (.blockette m.type (fieldsOf m)) = [("/FDSN/Event/Detection", .append x)] ∧
      ∀ y, mapping n m.type (fieldsOf m) = some y → Mapping.Ok y := by
    intro e x h1 h2
    refine ⟨?_, ?_⟩
    · unfold edits; simp only; rw [h1]; simp only; rw [h2]; rfl
    · intro y hy
      rw [h1] at hy
      cases hy
      show (eventEntry e).isSome = true
      rw [h2]; rfl
  have ca : ∀ e x, mapping n m.type (fieldsOf m) = some (.calibration e) → calibrationEntry e = some x →
      edits n (.blockette m.type (fieldsOf m)) = [("/FDSN/Calibration/Sequence", .append x)] ∧
      ∀ y, mapping n m.type (fieldsOf m) = some y → Mapping.Ok y := by
    intro e x h1 h2
    refine ⟨?_, ?_⟩
    · unfold edits; simp only; rw [h1]; simp only; rw [h2]; rfl
    · intro y hy
      rw [h1] at hy
      cases hy
      show (calibrationEntry e).isSome = true
      rw [h2]; rfl
  have ex : ∀ e s x, mapping n m.type (fieldsOf m) = some (.exception e s) → exceptionEntry e = some x →
      edits n (.blockette m.type (fieldsOf m)) = [("/FDSN/Time/Exception", .append x), ("/FDSN/Clock/Model", .put (.str s))] ∧
      ∀ y, mapping n m.type (fieldsOf m) = some y → Mapping.Ok y := by
    intro e s x h1 h2
    refine ⟨?_, ?_⟩
    · unfold edits; simp only; rw [h1]; simp only; rw [h2]; rfl
    · intro y hy
      rw [h1] at hy
      cases hy
      show (exceptionEntry e).isSome = true
      rw [h2]; rfl
  cases m with
  | event a p b f _ t d =>
    obtain ⟨x, h1, h2⟩ := event_entry (e := _) (show (Item.event {
      type := lit "GENERIC", detector := d.s,
      signalamplitude := n.widen a, signalperiod := n.widen p, backgroundestimate := n.widen b,
      wave := if f.toNat.testBit 2 then (if f.toNat.testBit 0 then lit "DILATATION" else lit "COMPRESSION") else [],
      units := if f.toNat.testBit 1 then lit "DECONVOLVED" else lit "COUNTS", onsettime := t.instant,
      medsnr := [0, 0, 0, 0, 0, 0], medlookback := -1, medpickalgorithm := -1 }).Typed from ⟨btime_int64 hv.2.2.2.1, rfl⟩)
    obtain ⟨h3, h4⟩ := ev _ _ rfl h1
    refine ⟨.event (entry_sub ?_ h2) rfl rfl rfl rfl h3, h4⟩
    refine .keep (text_lit l1) (sub_refl _ _ (sub_refl _ _ (sub_refl _ _ (.keep (fun v => ?_) (.keep (text_two _ l5 l6)
      (sub_refl _ _ (.drop (fun v hv => ?_) (.drop count_no (.drop count_no (sub_refl _ _ .nil))))))))))
    · show text (if f.toNat.testBit 2 = true then (if f.toNat.testBit 0 = true then lit "DILATATION" else lit "COMPRESSION") else []) v ↔ _
      rw [← text_two _ l3 l4]
      unfold asSet
      cases f.toNat.testBit 2 <;> simp [text]
    · obtain ⟨⟨c, hc, hne⟩, _⟩ := hv
      simp at hc
      exact hne hc
  | murdock a p b f _ t s0 s1 s2 s3 s4 s5 l k d =>
    obtain ⟨x, h1, h2⟩ := event_entry (e := _) (show (Item.event {
      type := lit "MURDOCK", detector := d.s,
      signalamplitude := n.widen a, signalperiod := n.widen p, backgroundestimate := n.widen b,
      wave := if f.toNat.testBit 0 then lit "DILATATION" else lit "COMPRESSION",
      units := [], onsettime := t.instant,
      medsnr := [s0.toNat, s1.toNat, s2.toNat, s3.toNat, s4.toNat, s5.toNat].map UInt8.ofNat, medlookback := l.toNat,
      medpickalgorithm := k.toNat }).Typed from ⟨btime_int64 hv.2.2.2.1, rfl⟩)
    obtain ⟨h3, h4⟩ := ev _ _ rfl h1
    refine ⟨.event (entry_sub ?_ h2) rfl rfl rfl rfl h3, h4⟩
    refine .keep (text_lit l2) (sub_refl _ _ (sub_refl _ _ (sub_refl _ _ (.keep (text_two _ l3 l4) (.drop text_no
      (sub_refl _ _ (.keep (fun v => ?_) (.keep (count_nat _) (.keep (count_nat _) (sub_refl _ _ .nil))))))))))
    simp only [List.map_cons, List.map_nil, UInt8.ofNat_toNat]
  | step t st f d i a c _ r co ro =>
    obtain ⟨x, h1, h2⟩ := calibration_entry (e := _) (show (Item.calibration {
      type := lit "STEP", begintime := t.instant, endtime := Verif.Model.NSTERROR, steps := st.toNat
      firstpulsepositive := flag f.toNat 0, alternatesign := flag f.toNat 1, trigger := trigger f.toNat
      continued := flag f.toNat 3, amplitude := n.widen a, inputunits := [], amplituderange := []
      duration := n.tenths d, sineperiod := 0, stepbetween := n.tenths i, inputchannel := c.s
      refamplitude := n.num r, coupling := co.s, rolloff := ro.s, noise := [] }).Typed from ⟨btime_int64 hv.1, nsterror_int64⟩)
    obtain ⟨h3, h4⟩ := ca _ _ rfl h1
    refine ⟨.calibration (entry_sub ?_ h2) rfl rfl rfl rfl h3, h4⟩
    exact .keep (text_lit l7) (sub_refl _ _ (.drop time_no (.keep (count_nat _) (.keep (truth_flag _ _) (.keep (truth_flag _ _)
      (.keep (text_trigger _) (.keep (truth_flag _ _) (sub_refl _ _ (.drop text_no (.drop text_no (sub_refl _ _ (.drop number_no
      (sub_refl _ _ (sub_refl _ _ (sub_refl _ _ (sub_refl _ _ (sub_refl _ _ (.drop text_no .nil))))))))))))))))))
  | sine t _ f d p a c _ r co ro =>
    obtain ⟨x, h1, h2⟩ := calibration_entry (e := _) (show (Item.calibration {
      type := lit "SINE", begintime := t.instant, endtime := Verif.Model.NSTERROR, steps := -1
      firstpulsepositive := -1, alternatesign := -1, trigger := trigger f.toNat
      continued := flag f.toNat 3, amplitude := n.widen a, inputunits := [],
      amplituderange := if f.toNat.testBit 4 then lit "PEAKTOPEAK" else if f.toNat.testBit 5 then lit "ZEROTOPEAK" else if f.toNat.testBit 6 then lit "RMS" else [],
      duration := n.tenths d, sineperiod := n.widen p, stepbetween := 0, inputchannel := c.s
      refamplitude := n.num r, coupling := co.s, rolloff := ro.s, noise := [] }).Typed from ⟨btime_int64 hv.1, nsterror_int64⟩)
    obtain ⟨h3, h4⟩ := ca _ _ rfl h1
    refine ⟨.calibration (entry_sub ?_ h2) rfl rfl rfl rfl h3, h4⟩
    refine .keep (text_lit l8) (sub_refl _ _ (.drop time_no (.drop count_no (.drop truth_no (.drop truth_no
      (.keep (text_trigger _) (.keep (truth_flag _ _) (sub_refl _ _ (.drop text_no (.keep (fun v => ?_) (sub_refl _ _ (sub_refl _ _
      (.drop number_no (sub_refl _ _ (sub_refl _ _ (sub_refl _ _ (sub_refl _ _ (.drop text_no .nil))))))))))))))))))
    simp only
    cases f.toNat.testBit 4 <;> cases f.toNat.testBit 5 <;> cases f.toNat.testBit 6 <;>
      simp [text, choice, lit_name, l11, l12, l13]
  | random t _ f d a c _ r co ro no =>
    obtain ⟨x, h1, h2⟩ := calibration_entry (e := _) (show (Item.calibration {
      type := lit "PSEUDORANDOM", begintime := t.instant, endtime := Verif.Model.NSTERROR, steps := -1
      firstpulsepositive := -1, alternatesign := -1, trigger := trigger f.toNat
      continued := flag f.toNat 3, amplitude := n.widen a, inputunits := [],
      amplituderange := if f.toNat.testBit 4 then lit "RANDOM" else [],
      duration := n.tenths d, sineperiod := 0, stepbetween := 0, inputchannel := c.s
      refamplitude := n.num r, coupling := co.s, rolloff := ro.s, noise := no.s }).Typed from ⟨btime_int64 hv.1, nsterror_int64⟩)
    obtain ⟨h3, h4⟩ := ca _ _ rfl h1
    refine ⟨.calibration (entry_sub ?_ h2) rfl rfl rfl rfl h3, h4⟩
    refine .keep (text_lit l9) (sub_refl _ _ (.drop time_no (.drop count_no (.drop truth_no (.drop truth_no
      (.keep (text_trigger _) (.keep (truth_flag _ _) (sub_refl _ _ (.drop text_no (.keep (fun v => ?_) (sub_refl _ _ (.drop number_no
      (.drop number_no (sub_refl _ _ (sub_refl _ _ (sub_refl _ _ (sub_refl _ _ (sub_refl _ _ .nil))))))))))))))))))
    simp only
    cases f.toNat.testBit 4 <;> simp [text, choice, lit_name, l14]
  | generic t _ f d a c _ =>
    obtain ⟨x, h1, h2⟩ := calibration_entry (e := _) (show (Item.calibration {
      type := lit "GENERIC", begintime := t.instant, endtime := Verif.Model.NSTERROR, steps := -1
      firstpulsepositive := -1, alternatesign := -1, trigger := trigger f.toNat
      continued := flag f.toNat 3, amplitude := n.widen a, inputunits := [],
      amplituderange := [],
      duration := n.tenths d, sineperiod := 0, stepbetween := 0, inputchannel := c.s
      refamplitude := 0, coupling := [], rolloff := [], noise := [] }).Typed from ⟨btime_int64 hv.1, nsterror_int64⟩)
    obtain ⟨h3, h4⟩ := ca _ _ rfl h1
    refine ⟨.calibration (entry_sub ?_ h2) rfl rfl rfl rfl h3, h4⟩
    exact .keep (text_lit l1) (sub_refl _ _ (.drop time_no (.drop count_no (.drop truth_no (.drop truth_no
      (.keep (text_trigger _) (.keep (truth_flag _ _) (sub_refl _ _ (.drop text_no (.drop text_no (sub_refl _ _ (.drop number_no
      (.drop number_no (sub_refl _ _ (.drop number_no (.drop text_no (.drop text_no (.drop text_no .nil))))))))))))))))))
  | abort t _ _ =>
    obtain ⟨x, h1, h2⟩ := calibration_entry (e := _) (show (Item.calibration {
      type := lit "ABORT", begintime := Verif.Model.NSTERROR, endtime := t.instant, steps := -1
      firstpulsepositive := -1, alternatesign := -1, trigger := []
      continued := -1, amplitude := 0, inputunits := [],
      amplituderange := [],
      duration := 0, sineperiod := 0, stepbetween := 0, inputchannel := []
      refamplitude := 0, coupling := [], rolloff := [], noise := [] }).Typed from ⟨nsterror_int64, btime_int64 hv⟩)
    obtain ⟨h3, h4⟩ := ca _ _ rfl h1
    refine ⟨.calibration (entry_sub ?_ h2) rfl rfl rfl rfl h3, h4⟩
    exact .keep (text_lit l10) (.drop time_no (sub_refl _ _ (.drop count_no (.drop truth_no (.drop truth_no
      (.drop text_no (.drop truth_no (.drop number_no (.drop text_no (.drop text_no (.drop number_no (.drop number_no
      (.drop number_no (.drop text_no (.drop number_no (.drop text_no (.drop text_no (.drop text_no .nil))))))))))))))))))
  | clock c t u q k ty mo st =>
    obtain ⟨x, h1, h2⟩ := exception_entry (e := _) (show (Item.exception {
      time := t.instant + u * 1000, vcocorrection := n.widen c, receptionquality := q.toNat, count := k,
      type := ty.s, clockstatus := st.s }).Typed from by
        have := Verif.Proof.Record2.instant_bounds t hv.2.1
        have h3 := hv.2.2.1
        have h4 := hv.2.2.2.1
        show Verif.Spec.InInt64 _
        unfold Verif.Spec.InInt64
        simp only
        omega)
    obtain ⟨h3, h4⟩ := ex _ _ _ rfl h1
    refine ⟨.exception (entry_sub ?_ h2) rfl rfl rfl rfl h3, h4⟩
    exact sub_refl _ _ (sub_refl _ _ (.keep (count_nat _) (sub_refl _ _ (sub_refl _ _ (sub_refl _ _ .nil)))))

end Verif.Proof.Headers2
