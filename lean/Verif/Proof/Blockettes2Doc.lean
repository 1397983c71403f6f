import Verif.Proof.Blockettes2Steps
/-!
# Lemmas about the blockettes for extra headers
-/
namespace Verif.Proof.Blockettes2
open Verif.Spec.Json Verif.Spec.Record2 Verif.Props.ExtraHeaders Verif.Props.Headers2 Verif.Props.Blockettes2
open Verif.Model Verif.Model.Steim Verif.Model.Mem Verif.Model.Pack2 Verif.Model.Blockettes2
open Verif.Model.ExtraHeaders (lit)
open Verif.Proof.Mem Verif.Proof.Pack2 Verif.Proof.Record2
open Verif.Proof.Headers2 (fieldNames)

theorem look_at (v : Option Json) (p : String) (u : Json) : look v p = some u ↔ At v (name p) u :=
  Verif.Proof.ExtraHeaders.docGet_at v (lit p) u

theorem look_none (v : Option Json) (p : String) : look v p = none ↔ ∀ u, ¬ At v (name p) u :=
  Verif.Proof.ExtraHeaders.docGet_none v (lit p)

/-- The members have names that are known, and none of them twice. -/
def Named (fs : Fields) : Prop := (∀ s ∈ fs.map Prod.fst, s ∈ fieldNames) ∧ (fs.map Prod.fst).Nodup

theorem detection_named {n : Headers2.Numbers} {c : Bool → Bool} {m : Mapped} {fs : Fields} (h : detection n c m = some fs) : Named fs := by
  cases m <;> cases h <;> exact ⟨by simp only [List.map]; decide, by simp only [List.map]; decide⟩

theorem exception_named {n : Headers2.Numbers} {m : Mapped} {fs : Fields} (h : exception n m = some fs) : Named fs := by
  cases m <;> cases h <;> exact ⟨by simp only [List.map]; decide, by simp only [List.map]; decide⟩

theorem calibration_named {n : Headers2.Numbers} {m : Mapped} {fs : Fields} (h : calibration n m = some fs)
    (ha : ∀ t a b, m ≠ .abort t a b) : Named fs ∧ "EndTime" ∉ fs.map Prod.fst := by
  cases m
  case abort t a b => exact absurd rfl (ha t a b)
  all_goals
    cases h <;>
    exact ⟨⟨by simp only [List.map]; decide, by simp only [List.map]; decide⟩, by simp only [List.map]; decide⟩

theorem named_end {fs : Fields} {P : Json → Prop} (h : Named fs) (he : "EndTime" ∉ fs.map Prod.fst) :
    Named (fs ++ [("EndTime", P)]) := by
  constructor
  · intro s hs
    rw [List.map_append, List.mem_append] at hs
    rcases hs with hs | hs
    · exact h.1 s hs
    · rw [List.mem_singleton.1 hs]
      show "EndTime" ∈ fieldNames
      decide
  · rw [List.map_append, List.nodup_append]
    refine ⟨h.2, by simp, ?_⟩
    intro a ha b hb hab
    rw [List.mem_singleton.1 hb] at hab
    exact he ((show a = "EndTime" from hab) ▸ ha)

/-- A member that is not there is not found. -/
theorem absent {fs : Fields} {e : Json} (he : Entry fs e) (hn : Named fs) {s p : String} (hs : s ∈ fieldNames)
    (hp : lit p = pointer [name s]) (ha : s ∉ fs.map Prod.fst) : look (some e) p = none := by
  cases h : look (some e) p with
  | none => rfl
  | some v =>
    obtain ⟨P, hP, _⟩ := (entry_look he (fun f hf => hn.1 _ (List.mem_map.2 ⟨f, hf, rfl⟩)) hs hp v).1 h
    exact absurd (List.mem_map.2 ⟨_, hP, rfl⟩) ha

/-- The steps for a list of entries make the blockettes. -/
theorem stores_list {α : Type} (F : α → Option Fields) (g : Json → List Step) (b : α → List Mapped) :
    ∀ (xs : List α) (l : List Json), (∀ x ∈ xs, (F x).isSome) → l.length = (xs.filterMap F).length →
    (∀ (i : Nat) e f, l[i]? = some e → (xs.filterMap F)[i]? = some f → Entry f e) →
    (∀ x ∈ xs, ∀ e f, F x = some f → Entry f e → ∀ ss ms, Stores ss ms → Stores (g e ++ ss) (b x ++ ms)) →
    ∀ ss ms, Stores ss ms → Stores (l.flatMap g ++ ss) (xs.flatMap b ++ ms)
  | [], l, _, hl, _, _, ss, ms, hs => by
    have : l = [] := List.length_eq_zero_iff.1 hl
    subst this
    exact hs
  | x :: xs, l, hx, hl, he, hg, ss, ms, hs => by
    obtain ⟨f, hf⟩ := Option.isSome_iff_exists.1 (hx x (.head _))
    rw [List.filterMap_cons, hf] at hl he
    cases l with
    | nil => cases hl
    | cons e l =>
      have h0 : Entry f e := he 0 e f rfl rfl
      have hr := stores_list F g b xs l (fun y hy => hx y (.tail _ hy)) (Nat.succ.inj hl)
        (fun i e' f' h1 h2 => he (i + 1) e' f' h1 h2) (fun y hy => hg y (.tail _ hy)) ss ms hs
      have := hg x (.head _) e f hf h0 _ _ hr
      simpa only [List.flatMap_cons, List.append_assoc] using this

theorem entry_object {fs : Fields} {e : Json} (h : Entry fs e) : ∃ l, e = .obj l := by
  obtain ⟨l, h, _⟩ := h
  exact ⟨l, h⟩

theorem objects_listing {v : Option Json} {p : String} {fs : List Fields} (h : Listing v p fs) :
    (objects v p).length = fs.length ∧ ∀ (i : Nat) e f, (objects v p)[i]? = some e → fs[i]? = some f → Entry f e := by
  unfold objects
  by_cases hn : fs = []
  · rw [(look_none v p).2 (h.1 hn), hn]
    exact ⟨rfl, fun i e f he => by simp at he⟩
  · obtain ⟨l, h1, h2, h3⟩ := h.2 hn
    rw [(look_at v p (.arr l)).2 ((h1 _).2 rfl)]
    suffices hq : ∀ q : Json → Bool, (∀ o, q (.obj o) = true) → l.filter q = l by
      simp only
      rw [hq _ fun o => rfl]
      exact ⟨h2, h3⟩
    intro q hq
    have : ∀ e ∈ l, q e = true := by
      intro e he
      obtain ⟨i, hi, rfl⟩ := List.mem_iff_getElem.1 he
      obtain ⟨o, ho⟩ := entry_object (h3 i l[i] fs[i] (List.getElem?_eq_getElem hi) (List.getElem?_eq_getElem (h2 ▸ hi)))
      rw [ho]
      exact hq o
    exact List.filter_eq_self.2 this

/-- The steps for a calibration. -/
def shotSteps (h : Bool) (k : Numbers) (e : Json) : List Step := calibrationStep h k e :: endSteps h k e

theorem shot_made {h : Bool} {n : Headers2.Numbers} {k : Numbers} (hi : Inverse n k) {m : Mapped} (hv : m.Valid) (hc : Canonical m)
    (ha : ∀ t a b, m ≠ .abort t a b) {fs : Fields} (hm : calibration n m = some fs) {e : Json} (hH : Has fs e) :
    Made (calibrationStep h k e) m := by
  cases m with
  | abort t a b => exact absurd rfl (ha t a b)
  | step => exact step_made hi hv hc hm hH
  | sine => exact sine_made hi hv hc hm hH
  | random => exact random_made hi hv hc hm hH
  | generic => exact generic_made hi hv hc hm hH
  | event => cases hm
  | murdock => cases hm
  | clock => cases hm

theorem total_abort (t : BTime) (ms : List Mapped) : 16 ≤ total (.abort t 0 0 :: ms) := by
  have : total (.abort t 0 0 :: ms) = (Blkt.mapped (.abort t 0 0)).size + total ms := rfl
  rw [this]
  have : (Blkt.mapped (.abort t 0 0)).size = 16 := rfl
  omega

theorem end_stores {h : Bool} {k : Numbers} (hr : Verif.Spec.Rounding k.rnd) {t : BTime} (hv : (Mapped.abort t 0 0).Valid)
    (hc : Canonical (.abort t 0 0)) {e : Json} (hf : Finds e "/EndTime" (Verif.Props.ExtraHeaders.time t.instant))
    {ss : List Step} {ms : List Mapped} (hs : Stores ss ms) : Stores (endSteps h k e ++ ss) (.abort t 0 0 :: ms) := by
  obtain ⟨s, h1, h2⟩ := abort_made (h := h) (k := k) hr (t := t) hv hc.1 hf
  rw [h1]
  exact stores_made h2 hv hs

theorem endSteps_none {h : Bool} {k : Numbers} {e : Json} (hl : look (some e) "/EndTime" = none) : endSteps h k e = [] := by
  unfold endSteps getStr
  rw [hl]

theorem calibrated_stores {h : Bool} {n : Headers2.Numbers} {k : Numbers} (hi : Inverse n k) {c : Calibrated}
    (hv : ∀ m ∈ c.blockettes, m.Valid ∧ Canonical m) {e : Json} {f : Fields} (hf : c.fields n = some f) (he : Entry f e)
    (ss : List Step) (ms : List Mapped) (hs : Stores ss ms) :
    Stores (shotSteps h k e ++ ss) (c.blockettes ++ ms) := by
  unfold shotSteps
  rw [List.cons_append]
  have hE : lit "/EndTime" = pointer [name "EndTime"] := by decide +kernel
  have hT : lit "/Type" = pointer [name "Type"] := by decide +kernel
  cases c with
  | stop t =>
    have hf : f = [("EndTime", Verif.Props.ExtraHeaders.time t.instant)] := (Option.some.inj hf).symm
    subst hf
    have hn : Named [("EndTime", Verif.Props.ExtraHeaders.time t.instant)] :=
      ⟨by simp only [List.map]; decide, by simp only [List.map]; decide⟩
    have hH := has_entry he hn.1 hn.2 "EndTime" _ (.head _) "/EndTime" hE
    have hty := absent he hn (s := "Type") (by decide) hT (by simp only [List.map]; decide)
    obtain ⟨v1, v2⟩ := hv _ (.head _)
    have hcal : calibrationStep h k e = .room 16 := by
      unfold calibrationStep getStr
      rw [hty]
      simp only
      rw [if_pos]
      have h0 : t.instant + ((0 : Nat) : Int) * 1000 = t.instant := by omega
      obtain ⟨_, _, _, _, hg⟩ := getStr_time (micro := 0) (by rw [h0]; exact hH) v1 (by omega)
      cases hl : look (some e) "/EndTime" with
      | none => unfold getStr at hg; rw [hl] at hg; cases hg
      | some _ => rfl
    rw [hcal]
    exact .room 16 _ _ (total_abort t ms) (end_stores hi.rnd v1 v2 hH hs)
  | shot m stop =>
    have ha : ∀ t a b, m ≠ .abort t a b := by
      rintro t a b rfl
      cases hf
    cases stop with
    | none =>
      have hm : calibration n m = some f := by
        cases m <;> first | exact hf | cases hf
      obtain ⟨hn, hx⟩ := calibration_named hm ha
      obtain ⟨v1, v2⟩ := hv m (.head _)
      rw [endSteps_none (absent he hn (by decide) hE hx)]
      exact stores_made (shot_made hi v1 v2 ha hm (has_entry he hn.1 hn.2)) v1 hs
    | some t =>
      have hm : (calibration n m).map (· ++ [("EndTime", Verif.Props.ExtraHeaders.time t.instant)]) = some f := by
        cases m <;> first | exact hf | cases hf
      obtain ⟨f0, hf0, rfl⟩ := Option.map_eq_some_iff.1 hm
      obtain ⟨hn, hx⟩ := calibration_named hf0 ha
      have hn' := named_end (P := Verif.Props.ExtraHeaders.time t.instant) hn hx
      have hH := has_entry he hn'.1 hn'.2
      obtain ⟨v1, v2⟩ := hv m (.head _)
      obtain ⟨w1, w2⟩ := hv _ (.tail _ (.head _))
      refine stores_made (shot_made hi v1 v2 ha hf0 hH.left) v1 ?_
      exact end_stores hi.rnd w1 w2 (hH "EndTime" _ (List.mem_append_right _ (.head _)) _ hE) hs

/-- The steps for the entries of extra headers make their blockettes. -/
theorem steps_stores {h : Bool} {n : Headers2.Numbers} {k : Numbers} (hi : Inverse n k) {v : Option Json}
    {clocks events : List Mapped} {shots : List Calibrated} (hd : Describes n v clocks events shots)
    (hv : ∀ m ∈ blockettes clocks events shots, m.Valid ∧ Canonical m) (ho : overflow k v = []) :
    Stores (steps h k v) (blockettes clocks events shots) := by
  have hb : blockettes clocks events shots =
      clocks.flatMap (fun m => [m]) ++ (events.flatMap (fun m => [m]) ++ (shots.flatMap Calibrated.blockettes ++ [])) := by
    unfold blockettes
    simp
  have hs : steps h k v = (objects v "/FDSN/Time/Exception").flatMap (fun e => [exceptionStep h k v e]) ++
      ((objects v "/FDSN/Event/Detection").flatMap (fun e => [detectionStep h k e]) ++
        ((objects v "/FDSN/Calibration/Sequence").flatMap (shotSteps h k) ++ [])) := by
    unfold steps
    rw [ho]
    simp only [List.nil_append, List.append_nil, List.append_assoc, List.map_eq_flatMap]
    rfl
  have mem1 : ∀ m ∈ clocks, m ∈ blockettes clocks events shots := fun m hm =>
    List.mem_append_left _ (List.mem_append_left _ hm)
  have mem2 : ∀ m ∈ events, m ∈ blockettes clocks events shots := fun m hm =>
    List.mem_append_left _ (List.mem_append_right _ hm)
  rw [hb, hs]
  obtain ⟨a1, a2⟩ := objects_listing hd.exceptions.2
  obtain ⟨b1, b2⟩ := objects_listing hd.detections.2
  obtain ⟨c1, c2⟩ := objects_listing hd.calibrations.2
  refine stores_list _ _ _ clocks _ hd.exceptions.1 a1 a2 ?_ _ _ ?_
  · intro m hm e f hf he ss ms hss
    have hn := exception_named hf
    have hH := has_entry he hn.1 hn.2
    obtain ⟨v1, v2⟩ := hv m (mem1 m hm)
    cases m with
    | clock c t mi q ct ty mo st =>
      exact stores_made (clock_made hi v1 v2 hf hH ((look_at v _ _).2 (hd.model _ hm _ rfl))) v1 hss
    | _ => cases hf
  · refine stores_list _ _ _ events _ hd.detections.1 b1 b2 ?_ _ _ ?_
    · intro m hm e f hf he ss ms hss
      have hn := detection_named hf
      have hH := has_entry he hn.1 hn.2
      obtain ⟨v1, v2⟩ := hv m (mem2 m hm)
      cases m with
      | event => exact stores_made (event_made hi v1 v2 hf hH) v1 hss
      | murdock => exact stores_made (murdock_made hi v1 v2 hf hH) v1 hss
      | _ => cases hf
    · refine stores_list _ _ _ shots _ hd.calibrations.1 c1 c2 ?_ _ _ .nil
      intro c hc e f hf he ss ms hss
      refine calibrated_stores hi (fun m hm => hv m ?_) hf he ss ms hss
      exact List.mem_append_right _ (List.mem_flatMap.2 ⟨c, hc, hm⟩)

end Verif.Proof.Blockettes2
