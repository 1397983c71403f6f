import Verif.Proof.Blockettes2Doc
import Verif.Proof.Pack2Back
import Verif.Props.Pack2Defs
/-!
# Lemmas about the places that entries of extra headers are written to
-/
namespace Verif.Proof.Blockettes2
open Verif.Spec.Json Verif.Props.ExtraHeaders Verif.Props.Blockettes2
open Verif.Model Verif.Model.Steim Verif.Model.Mem Verif.Model.Pack2 Verif.Model.Blockettes2
open Verif.Proof.Mem Verif.Proof.Pack2 Verif.Proof.Record2
open Verif.Props.Pack2 (Within)

/-- All writes are inside of the first `size` bytes. -/
def Inside (size : Nat) (ws : List (Nat × Res (List UInt8))) : Prop :=
  ∀ w ∈ ws, w.2 ≠ .oob ∧ ∀ b, w.2 = .ok b → w.1 + b.length ≤ size

/-- A field of `n` bytes, if there is a value. -/
structure Field (n : Nat) (o : Option (Res (List UInt8))) : Prop where
  out : ∀ r, o = some r → r ≠ .oob ∧ ∀ b, r = .ok b → b.length = n

theorem Inside.append {size : Nat} {a b : List (Nat × Res (List UInt8))} (ha : Inside size a) (hb : Inside size b) :
    Inside size (a ++ b) := by
  intro w hw
  rcases List.mem_append.1 hw with h | h
  · exact ha w h
  · exact hb w h

theorem inside_opt {size off n : Nat} {o : Option (Res (List UInt8))} (h : Field n o) (hs : off + n ≤ size) :
    Inside size (opt off o) := by
  cases o with
  | none => intro w hw; cases hw
  | some r =>
    intro w hw
    rw [List.mem_singleton.1 hw]
    obtain ⟨h1, h2⟩ := h.out r rfl
    exact ⟨h1, fun b hb => by rw [h2 b hb]; exact hs⟩

theorem inside_one {size off : Nat} {b : UInt8} (hs : off + 1 ≤ size) : Inside size [(off, .ok [b])] := by
  intro w hw
  rw [List.mem_singleton.1 hw]
  refine ⟨nofun, ?_⟩
  intro b hb
  cases hb
  exact hs

theorem big_length (h : Bool) (n v : Nat) : (big h n v).length = n := by rw [big_eq, num_length]

theorem field_float (h : Bool) (k : Numbers) (e : Json) (p : String) : Field 4 (float h k e p) := by
  refine ⟨fun r hr => ?_⟩
  obtain ⟨d, _, rfl⟩ := Option.map_eq_some_iff.1 hr
  refine ⟨nofun, ?_⟩
  intro b hb
  cases hb
  exact big_length _ _ _

theorem field_long (h : Bool) (k : Numbers) (c : UInt64 → Option Nat) (e : Json) (p : String) : Field 4 (long h k c e p) := by
  refine ⟨fun r hr => ?_⟩
  obtain ⟨d, _, rfl⟩ := Option.map_eq_some_iff.1 hr
  cases hc : c d with
  | none =>
    simp only
    exact ⟨nofun, nofun⟩
  | some v =>
    simp only
    refine ⟨nofun, ?_⟩
    intro b hb
    cases hb
    exact big_length _ _ _

theorem field_small (l : Nat) (e : Json) (p : String) : Field 1 (small l e p) := by
  refine ⟨fun r hr => ?_⟩
  unfold small at hr
  split at hr
  · split at hr
    · cases hr
      refine ⟨nofun, ?_⟩
      intro b hb
      cases hb
      rfl
    · cases hr
  · cases hr

theorem field_label (n : Nat) (v : Option Json) (p : String) : Field n (label n v p) := by
  refine ⟨fun r hr => ?_⟩
  obtain ⟨d, _, rfl⟩ := Option.map_eq_some_iff.1 hr
  obtain ⟨f, h1, h2⟩ := openField_ok d n
  rw [h1]
  refine ⟨nofun, ?_⟩
  intro b hb
  cases hb
  exact h2

theorem btime_oob (k : Numbers) (s : List UInt8) : btime k s ≠ .oob := by
  unfold btime
  split
  · split
    · exact nofun
    · split <;> exact nofun
  · exact nofun
  · exact nofun

theorem btimeBytes_length (h : Bool) (t : DateTime) : (btimeBytes h t).length = 10 := by
  unfold btimeBytes
  simp [big_length]

theorem bind_field {n : Nat} {x : Res DateTime} {f : DateTime → List UInt8} (hx : x ≠ .oob) (hf : ∀ t, (f t).length = n) :
    x.bind (fun t => .ok (f t)) ≠ .oob ∧ ∀ b, x.bind (fun t => .ok (f t)) = .ok b → b.length = n := by
  cases x with
  | ok t =>
    rw [bind_ok]
    refine ⟨nofun, ?_⟩
    intro b hb
    cases hb
    exact hf t
  | err => exact ⟨nofun, nofun⟩
  | ub => exact ⟨nofun, nofun⟩
  | oob => exact absurd rfl hx

theorem field_time (h : Bool) (k : Numbers) (e : Json) (p : String) : Field 10 (Blockettes2.time h k e p) := by
  refine ⟨fun r hr => ?_⟩
  obtain ⟨d, _, rfl⟩ := Option.map_eq_some_iff.1 hr
  exact bind_field (btime_oob k d) (btimeBytes_length h)

theorem field_timeMicro (h : Bool) (k : Numbers) (e : Json) (p : String) : Field 11 (timeMicro h k e p) := by
  refine ⟨fun r hr => ?_⟩
  obtain ⟨d, _, rfl⟩ := Option.map_eq_some_iff.1 hr
  exact bind_field (btime_oob k d) fun t => by rw [List.length_append, btimeBytes_length]; rfl

theorem field_count (h : Bool) (e : Json) (p : String) : Field 4 (match getUint (some e) p with
      | some u => if u ≤ 4294967295 then some (.ok (big h 4 u)) else none
      | none => none) := by
  refine ⟨fun r hr => ?_⟩
  split at hr
  · split at hr
    · cases hr
      refine ⟨nofun, ?_⟩
      intro b hb
      cases hb
      exact big_length _ _ _
    · cases hr
  · cases hr

/-- A step is within its blockette. -/
def Good : Step → Prop
  | .add _ size ws => 4 ≤ size ∧ Inside size ws
  | _ => True

theorem good_exception (h : Bool) (k : Numbers) (root : Option Json) (e : Json) : Good (exceptionStep h k root e) := by
  refine ⟨by decide, ?_⟩
  exact (((((((inside_opt (field_float ..) (by decide)).append (inside_opt (field_timeMicro ..) (by decide))).append
    (inside_opt (field_small ..) (by decide))).append (inside_opt (field_count ..) (by decide))).append
    (inside_opt (field_label ..) (by decide))).append (inside_opt (field_label ..) (by decide))).append
    (inside_opt (field_label ..) (by decide)))

theorem inside_ratios (k : Numbers) (e : Json) (hr : ∀ r, At (some e) (name "/MEDSNR") (.arr r) → r.length ≤ 32) :
    Inside 60 (ratios k e) := by
  unfold ratios
  split
  · rename_i l hl
    have hlen := hr l ((look_at _ _ _).1 hl)
    have hf := List.length_filterMap_le (toNum k) l
    intro w hw
    obtain ⟨⟨d, i⟩, hi, rfl⟩ := List.mem_map.1 hw
    have := (List.mem_zipIdx hi).2.1
    simp only
    cases hb : k.byte d with
    | none =>
      simp only
      exact ⟨nofun, nofun⟩
    | some b =>
      simp only
      refine ⟨nofun, ?_⟩
      intro c hc
      cases hc
      simp only [List.length_cons, List.length_nil]
      omega
  · intro w hw; cases hw

theorem good_detection (h : Bool) (k : Numbers) (e : Json) (hr : ∀ r, At (some e) (name "/MEDSNR") (.arr r) → r.length ≤ 32) :
    Good (detectionStep h k e) := by
  unfold detectionStep
  have first : ∀ size, 28 ≤ size → Inside size (opt 4 (float h k e "/SignalAmplitude") ++ opt 8 (float h k e "/SignalPeriod") ++
      opt 12 (float h k e "/BackgroundEstimate") ++
      [(16, .ok [UInt8.ofNat (eventFlags (isLike e "/Type" "MURDOCK") e)])] ++ opt 18 (Blockettes2.time h k e "/OnsetTime")) := by
    intro size hs
    exact ((((inside_opt (field_float ..) (by omega)).append (inside_opt (field_float ..) (by omega))).append
      (inside_opt (field_float ..) (by omega))).append (inside_one (by omega))).append (inside_opt (field_time ..) (by omega))
  simp only
  split
  · exact ⟨by decide, ((((first 60 (by decide)).append (inside_ratios k e hr)).append (inside_opt (field_small ..) (by decide))).append
      (inside_opt (field_small ..) (by decide))).append (inside_opt (field_label ..) (by decide))⟩
  · exact ⟨by decide, (first 52 (by decide)).append (inside_opt (field_label ..) (by decide))⟩

theorem good_calibration (h : Bool) (k : Numbers) (e : Json) : Good (calibrationStep h k e) := by
  unfold calibrationStep
  split
  · split
    · refine ⟨by decide, ?_⟩
      exact (((((((((inside_opt (field_time ..) (by decide)).append (inside_opt (field_small ..) (by decide))).append
        (inside_one (by decide))).append (inside_opt (field_long ..) (by decide))).append (inside_opt (field_long ..) (by decide))).append
        (inside_opt (field_float ..) (by decide))).append (inside_opt (field_label ..) (by decide))).append
        (inside_opt (field_long ..) (by decide))).append (inside_opt (field_label ..) (by decide))).append
        (inside_opt (field_label ..) (by decide))
    · split
      · refine ⟨by decide, ?_⟩
        exact ((((((((inside_opt (field_time ..) (by decide)).append
          (inside_one (by decide))).append (inside_opt (field_long ..) (by decide))).append (inside_opt (field_float ..) (by decide))).append
          (inside_opt (field_float ..) (by decide))).append (inside_opt (field_label ..) (by decide))).append
          (inside_opt (field_long ..) (by decide))).append (inside_opt (field_label ..) (by decide))).append
          (inside_opt (field_label ..) (by decide))
      · split
        · refine ⟨by decide, ?_⟩
          exact ((((((((inside_opt (field_time ..) (by decide)).append
            (inside_one (by decide))).append (inside_opt (field_long ..) (by decide))).append
            (inside_opt (field_float ..) (by decide))).append (inside_opt (field_label ..) (by decide))).append
            (inside_opt (field_long ..) (by decide))).append (inside_opt (field_label ..) (by decide))).append
            (inside_opt (field_label ..) (by decide))).append (inside_opt (field_label ..) (by decide))
        · split
          · refine ⟨by decide, ?_⟩
            exact ((((inside_opt (field_time ..) (by decide)).append
              (inside_one (by decide))).append (inside_opt (field_long ..) (by decide))).append
              (inside_opt (field_float ..) (by decide))).append (inside_opt (field_label ..) (by decide))
          · trivial
  · split <;> trivial

theorem good_end (h : Bool) (k : Numbers) (e : Json) : ∀ s ∈ endSteps h k e, Good s := by
  unfold endSteps
  split
  · intro s hs
    rw [List.mem_singleton.1 hs]
    exact ⟨by decide, inside_opt (field_time ..) (by decide)⟩
  · intro s hs; cases hs

theorem objects_mem {v : Option Json} {p : String} {e : Json} (h : e ∈ objects v p) : ∃ l, At v (name p) (.arr l) ∧ e ∈ l := by
  unfold objects at h
  split at h
  · rename_i l hl
    exact ⟨l, (look_at _ _ _).1 hl, (List.mem_filter.1 h).1⟩
  · cases h

theorem steps_within (h : Bool) (k : Numbers) (v : Option Json)
    (hr : ∀ l, At v (name "/FDSN/Event/Detection") (.arr l) → ∀ e ∈ l, ∀ r, At (some e) (name "/MEDSNR") (.arr r) → r.length ≤ 32) :
    Within (steps h k v) := by
  have key : ∀ s ∈ steps h k v, Good s := by
    intro s hs
    unfold steps at hs
    rcases List.mem_append.1 hs with hs | hs
    · rcases List.mem_append.1 hs with hs | hs
      · rcases List.mem_append.1 hs with hs | hs
        · unfold overflow at hs
          split at hs
          · split at hs
            · rw [List.mem_singleton.1 hs]; trivial
            · cases hs
          · cases hs
        · obtain ⟨e, _, rfl⟩ := List.mem_map.1 hs
          exact good_exception ..
      · obtain ⟨e, he, rfl⟩ := List.mem_map.1 hs
        obtain ⟨l, hl, hel⟩ := objects_mem he
        exact good_detection h k e (hr l hl e hel)
    · obtain ⟨e, _, hs⟩ := List.mem_flatMap.1 hs
      rcases List.mem_cons.1 hs with rfl | hs
      · exact good_calibration ..
      · exact good_end h k e s hs
  intro type size ws hs
  exact key _ hs

end Verif.Proof.Blockettes2
