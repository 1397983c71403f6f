import Verif.Proof.JsonProper
import Verif.Proof.ExtraHeaders
import Verif.Props.Record2Defs
import Verif.Props.Headers2Defs
/-!
# Lemmas about the extra headers of version 2 records
-/
namespace Verif.Proof.Headers2
open Verif.Spec.Json Verif.Model.ExtraHeaders Verif.Model.Headers2 Verif.Proof.Json Verif.Proof.ExtraHeaders
open Verif.Props.ExtraHeaders Verif.Props.Headers2
open Verif.Model.JsonText (Reals write)
open Verif.Model.Json
open Verif.Model.Record2 (Header)

/-! ## Paths -/

/-- The tokens of a path. -/
def toks (p : String) : List Token :=
  ((name p).foldr (fun c (s : List UInt8 × List Token) => if c = 47 then ([], s.1 :: s.2) else (c :: s.1, s.2)) ([], [])).2

/-- What is needed of a path. -/
def goodPath (p : String) : Bool :=
  decide (pointer (toks p) = name p) && decide ((toks p).length = 3) &&
  (toks p).all fun t => t.all (fun c => decide (c.toNat < 128)) && decide (58 ≤ (t.head?.getD 0).toNat)

theorem paths_good : paths.all goodPath = true := by decide +kernel

theorem paths_nodup : (paths.map toks).Nodup := by decide +kernel

theorem disjoint : ∀ p ∈ singles, p ∉ lists := by decide +kernel

theorem path_good {p : String} (h : p ∈ paths) : pointer (toks p) = name p ∧ (toks p).length = 3 ∧
    ∀ t ∈ toks p, (∀ c ∈ t, c.toNat < 128) ∧ 58 ≤ (t.head?.getD 0).toNat := by
  have := List.all_eq_true.1 paths_good p h
  unfold goodPath at this
  simp only [Bool.and_eq_true, decide_eq_true_eq, List.all_eq_true] at this
  exact ⟨this.1.1, this.1.2, fun t ht => this.2 t ht⟩

theorem toks_inj {p q : String} (hp : p ∈ paths) (hq : q ∈ paths) (h : toks p = toks q) : p = q := by
  have := paths_nodup
  generalize paths = l at this hp hq
  induction l with
  | nil => cases hp
  | cons a l ih =>
    rw [List.map_cons, List.nodup_cons] at this
    rcases List.mem_cons.1 hp with rfl | hp' <;> rcases List.mem_cons.1 hq with rfl | hq'
    · rfl
    · exact absurd (List.mem_map.2 ⟨q, hq', h.symm⟩) this.1
    · exact absurd (List.mem_map.2 ⟨p, hp', h⟩) this.1
    · exact ih this.2 hp' hq'

theorem toks_cons {p : String} (h : p ∈ paths) : ∃ t ts, toks p = t :: ts := by
  have := (path_good h).2.1
  cases ht : toks p with
  | nil => rw [ht] at this; cases this
  | cons t ts => exact ⟨t, ts, rfl⟩

theorem paths_apart {p q : String} (hp : p ∈ paths) (hq : q ∈ paths) (h : p ≠ q) : Apart (toks p) (toks q) := by
  have l : (toks p).length = (toks q).length := by rw [(path_good hp).2.1, (path_good hq).2.1]
  exact ⟨fun hc => h (toks_inj hp hq (hc.eq_of_length l)), fun hc => h (toks_inj hp hq (hc.eq_of_length l.symm).symm)⟩

theorem not_index {t : Token} (h : 58 ≤ (t.head?.getD 0).toNat) (i : Nat) : index i ≠ t := by
  rintro rfl
  have := index_digit i
  cases hi : index i with
  | nil => rw [hi] at h; simp at h
  | cons c s =>
    rw [hi] at h this
    have := (this c List.mem_cons_self).2
    simp at h
    omega

theorem not_element {t : Token} (h : 58 ≤ (t.head?.getD 0).toNat) (l : List Json) : element t l = none := by
  cases he : element t l with
  | none => rfl
  | some v =>
    obtain ⟨i, hi, _⟩ := element_some.1 he
    grind [not_index]

theorem lit_name (p : String) : lit p = name p := rfl

theorem at_iff {p : String} (h : p ∈ paths) (v : Option Json) (u : Json) : At v (name p) u ↔ v.bind (resolve (toks p)) = some u := by
  rw [← (path_good h).1]
  constructor
  · rintro ⟨r, ts, rfl, he, hr⟩
    rw [pointer_inj he]
    exact hr
  · intro hb
    obtain ⟨r, hr, hu⟩ := Option.bind_eq_some_iff.1 hb
    exact ⟨r, _, hr, rfl, hu⟩

/-! ## Edits -/

/-- What is done at a path. -/
inductive Edit where
  | put (v : Json)
  | append (v : Json)

/-- The value of an edit. -/
def Edit.val : Edit → Json
  | .put v => v
  | .append v => v

/-- What is there after an edit. -/
def Edit.on : Edit → Option Json → Json
  | .put v, _ => v
  | .append e, some (.arr l) => .arr (l ++ [e])
  | .append e, _ => .arr [e]

abbrev Edits := List (String × Edit)

/-- Single values are put, and entries are appended to lists. -/
def Edit.Fit : String × Edit → Prop
  | (p, .put _) => p ∈ singles
  | (p, .append _) => p ∈ lists

/-- The edits at a path. -/
def there (es : Edits) (p : String) : List Edit := es.filterMap fun x => if x.1 = p then some x.2 else none

/-- What is at a path after edits. -/
def value (es : Edits) (p : String) : Option Json := (there es p).foldl (fun a e => some (e.on a)) none

theorem there_append (es fs : Edits) (p : String) : there (es ++ fs) p = there es p ++ there fs p := by
  unfold there; rw [List.filterMap_append]

theorem value_same (es : Edits) (p : String) (e : Edit) : value (es ++ [(p, e)]) p = some (e.on (value es p)) := by
  unfold value
  rw [there_append]
  simp [there]

theorem value_other (es : Edits) {p q : String} (e : Edit) (h : p ≠ q) : value (es ++ [(p, e)]) q = value es q := by
  unfold value
  rw [there_append]
  simp [there, h]

theorem fit_mem {x : String × Edit} (h : Edit.Fit x) : x.1 ∈ paths := by
  obtain ⟨p, e⟩ := x
  cases e with
  | put v => exact List.mem_append_left _ h
  | append v => exact List.mem_append_right _ h

theorem there_mem {es : Edits} {p : String} {e : Edit} : e ∈ there es p ↔ (p, e) ∈ es := by
  unfold there
  rw [List.mem_filterMap]
  constructor
  · rintro ⟨⟨q, f⟩, h1, h2⟩
    by_cases hq : q = p
    · simp only [hq, if_true, Option.some.injEq] at h2
      rw [← hq, ← h2]
      exact h1
    · simp [hq] at h2
  · intro h
    exact ⟨_, h, by simp⟩

theorem foldl_put (l : List Edit) (h : ∀ e ∈ l, ∃ v, e = .put v) (a : Option Json) :
    l.foldl (fun a e => some (e.on a)) a = ((l.map Edit.val).getLast?).or a := by
  induction l generalizing a with
  | nil => rfl
  | cons e l ih =>
    obtain ⟨v, rfl⟩ := h e List.mem_cons_self
    rw [List.foldl_cons, ih fun e he => h e (List.mem_cons_of_mem _ he)]
    cases hl : (l.map Edit.val).getLast? with
    | none => 
      have : l.map Edit.val = [] := List.getLast?_eq_none_iff.1 hl
      rw [List.map_cons, this]; rfl
    | some x => rw [List.map_cons, List.getLast?_cons, hl]; rfl

theorem foldl_append (l : List Edit) (h : ∀ e ∈ l, ∃ v, e = .append v) (m : List Json) :
    l.foldl (fun a e => some (e.on a)) (some (.arr m)) = some (.arr (m ++ l.map Edit.val)) := by
  induction l generalizing m with
  | nil => simp
  | cons e l ih =>
    obtain ⟨v, rfl⟩ := h e List.mem_cons_self
    rw [List.foldl_cons]
    show l.foldl _ (some (Json.arr (m ++ [v]))) = _
    rw [ih fun e he => h e (List.mem_cons_of_mem _ he)]
    simp [Edit.val]

theorem value_put {es : Edits} (hf : ∀ x ∈ es, Edit.Fit x) {p : String} (hp : p ∈ singles) :
    value es p = ((there es p).map Edit.val).getLast? := by
  unfold value
  rw [foldl_put]
  · simp
  · intro e he
    cases e with
    | put v => exact ⟨v, rfl⟩
    | append v => exact absurd (hf _ (there_mem.1 he)) (disjoint p hp)

theorem value_list {es : Edits} (hf : ∀ x ∈ es, Edit.Fit x) {p : String} (hp : p ∈ lists) :
    value es p = if there es p = [] then none else some (.arr ((there es p).map Edit.val)) := by
  have ha : ∀ e ∈ there es p, ∃ v, e = .append v := by
    intro e he
    cases e with
    | append v => exact ⟨v, rfl⟩
    | put v => exact absurd hp (disjoint p (hf _ (there_mem.1 he)))
  unfold value
  cases hl : there es p with
  | nil => rfl
  | cons e l =>
    rw [hl] at ha
    obtain ⟨v, rfl⟩ := ha e List.mem_cons_self
    rw [List.foldl_cons, if_neg (by simp)]
    show l.foldl _ (some (Json.arr [v])) = _
    rw [foldl_append l fun e he => ha e (List.mem_cons_of_mem _ he)]
    rfl

theorem value_none {es : Edits} {p : String} (h : there es p = []) : value es p = none := by
  unfold value; rw [h]; rfl

/-! ## Values with edits -/

/-- Everything outside the paths is an object. -/
def Only (w : Json) : Prop := ∀ ts u, resolve ts w = some u → (∃ l, u = .obj l) ∨ ∃ p ∈ paths, toks p <+: ts

/-- The value after edits. -/
structure Good (v : Option Json) (es : Edits) : Prop where
  fit : ∀ x ∈ es, Edit.Fit x
  vals : ∀ p ∈ paths, v.bind (resolve (toks p)) = value es p
  only : ∀ w, v = some w → Only w
  proper : (∀ x ∈ es, Proper x.2.val) → ∀ w, v = some w → Proper w
  some : v = none ↔ es = []

theorem only_nil : Only (.obj []) := by
  intro ts u h
  cases ts with
  | nil => cases h; exact .inl ⟨_, rfl⟩
  | cons t ts => cases h

theorem good_nil : Good none [] :=
  ⟨by simp, fun p _ => rfl, (by simp), (by simp), ⟨fun _ => rfl, fun _ => rfl⟩⟩

theorem good_start {v : Option Json} {es : Edits} (g : Good v es) : Only (v.getD (.obj [])) := by
  cases v with
  | none => exact only_nil
  | some w => exact g.only w rfl

theorem good_at {v : Option Json} {es : Edits} (g : Good v es) {p : String} (h : p ∈ paths) :
    resolve (toks p) (v.getD (.obj [])) = value es p := by
  rw [← g.vals p h]
  cases v with
  | none =>
    obtain ⟨t, ts, e⟩ := toks_cons h
    rw [e]; rfl
  | some w => rfl

theorem settable_of : ∀ (p : List Token) (v : Json),
    (∀ ts u, ts.length < p.length → resolve ts v = some u → ∃ l, u = .obj l) → Settable p v
  | [], _, _ => trivial
  | k :: ks, v, h => by
    obtain ⟨l, rfl⟩ := h [] v (by simp) rfl
    intro u hu
    refine settable_of ks u fun ts w hl hw => h (k :: ts) w (by simpa using hl) ?_
    rw [resolve_obj, hu]; exact hw

theorem only_settable {w : Json} (h : Only w) {p : String} (hp : p ∈ paths) : Settable (toks p) w := by
  refine settable_of _ _ fun ts u hl hu => ?_
  rcases h ts u hu with h | ⟨q, hq, hpre⟩
  · exact h
  · have := hpre.length_le
    rw [(path_good hq).2.1] at this
    rw [(path_good hp).2.1] at hl
    omega

theorem resolve_append (a b : List Token) (v : Json) : resolve (a ++ b) v = (resolve a v).bind (resolve b) := by
  induction a generalizing v with
  | nil => rfl
  | cons t a ih =>
    show (child t v).bind (resolve (a ++ b)) = ((child t v).bind (resolve a)).bind (resolve b)
    cases child t v with
    | none => rfl
    | some u => exact ih u

theorem only_placed {v w new : Json} (h : Only v) {p : String} (hp : p ∈ paths) (hw : Placed (toks p) new v w) : Only w := by
  intro ts u hu
  by_cases h1 : toks p <+: ts
  · exact .inr ⟨p, hp, h1⟩
  by_cases h2 : ts <+: toks p
  · obtain ⟨rest, he⟩ := h2
    cases rest with
    | nil => rw [List.append_nil] at he; exact absurd (he ▸ List.prefix_refl _) h1
    | cons k ks =>
      have ht := hw.there
      rw [← he, resolve_append, hu, Option.bind_some] at ht
      have hk : 58 ≤ (k.head?.getD 0).toNat := ((path_good hp).2.2 k (by rw [← he]; simp)).2
      cases u with
      | obj l => exact .inl ⟨l, rfl⟩
      | arr l => rw [resolve_arr, not_element hk] at ht; cases ht
      | _ => cases ht
  · rw [hw.apart ts ⟨h1, h2⟩] at hu
    exact h ts u hu

/-- An edit. -/
theorem good_step {v : Option Json} {es : Edits} (g : Good v es) {p : String} {e : Edit} (hf : Edit.Fit (p, e)) {w : Json}
    (hw : Placed (toks p) (e.on (value es p)) (v.getD (.obj [])) w)
    (hp : (∀ u, v = some u → Proper u) → Proper e.val → Proper w) : Good (some w) (es ++ [(p, e)]) where
  fit x hx := by
    rcases List.mem_append.1 hx with hx | hx
    · exact g.fit x hx
    · rw [List.mem_singleton.1 hx]; exact hf
  vals q hq := by
    show resolve (toks q) w = _
    by_cases h : p = q
    · subst h
      rw [hw.there, value_same]
    · rw [hw.apart _ (paths_apart (fit_mem hf) hq h), value_other _ _ h, good_at g hq]
  only := by
    rintro _ ⟨⟩
    exact only_placed (good_start g) (fit_mem hf) hw
  proper := by
    rintro hx _ ⟨⟩
    refine hp (g.proper fun x h => hx x (List.mem_append_left _ h)) (hx _ (List.mem_append_right _ (List.mem_singleton.2 rfl)))
  some := by simp

/-! ## The calls -/

theorem setr_put {reals : Reals} {extra : List UInt8} {st : Option State} {h : Held} (hi : Inv reals extra st h) {es : Edits}
    (g : Good h.current es) {p : String} (hp : p ∈ singles) {val : Value} {new : Json} (hg : given val = some new) :
    ∃ w, setr (codec reals) extra st (lit p) val = (0, some ⟨none, some (some w)⟩) ∧ Good (some w) (es ++ [(p, .put new)]) := by
  have hpp : p ∈ paths := List.mem_append_left _ hp
  obtain ⟨t, ts, ht⟩ := toks_cons hpp
  have hptr : lit p = pointer (t :: ts) := by rw [← ht, (path_good hpp).1]; rfl
  obtain ⟨s, hs, hi'⟩ := inv_state hi
  have hroot : s.edit.getD s.doc = h.current := by
    rcases hi'.2.2 with ⟨h1, _⟩ | ⟨h1, h2, _⟩
    · rw [h1]; rfl
    · rw [h1]; exact h2
  have hset := only_settable (good_start g) hpp
  rw [ht] at hset
  obtain ⟨w, hw, hpl⟩ := (docSet_pointer h.current t ts new).1 hset
  have hc : change (codec reals) h.current (pointer (t :: ts)) val = some w := by
    cases val with
    | merge _ => cases hg
    | append _ => cases hg
    | other => cases hg
    | _ => cases hg; exact hw
  refine ⟨w, ?_, good_step g hp (e := .put new) (by rw [ht]; exact hpl) fun hv hn => ?_⟩
  · unfold setr
    rw [if_neg (by rw [hptr, pointer_cons]; simp), hs]
    simp only
    rw [hroot, hptr, hc]
  · exact docSet_proper (fun k hk => utf8_ascii k ((path_good hpp).2.2 k (ht ▸ hk)).1) hv hn hw

theorem setr_append {reals : Reals} {extra : List UInt8} {st : Option State} {h : Held} (hi : Inv reals extra st h) {es : Edits}
    (g : Good h.current es) {p : String} (hp : p ∈ lists) (e : Json) :
    ∃ w, setr (codec reals) extra st (lit p) (.append e) = (0, some ⟨none, some (some w)⟩) ∧
      Good (some w) (es ++ [(p, .append e)]) := by
  have hpp : p ∈ paths := List.mem_append_right _ hp
  obtain ⟨t, ts, ht⟩ := toks_cons hpp
  have hptr : lit p = pointer (t :: ts) := by rw [← ht, (path_good hpp).1]; rfl
  obtain ⟨s, hs, hi'⟩ := inv_state hi
  have hroot : s.edit.getD s.doc = h.current := by
    rcases hi'.2.2 with ⟨h1, _⟩ | ⟨h1, h2, _⟩
    · rw [h1]; rfl
    · rw [h1]; exact h2
  have hfin : ∀ w, change (codec reals) h.current (pointer (t :: ts)) (.append e) = some w →
      setr (codec reals) extra st (lit p) (.append e) = (0, some ⟨none, some (some w)⟩) := by
    intro w hc
    unfold setr
    rw [if_neg (by rw [hptr, pointer_cons]; simp), hs]
    simp only
    rw [hroot, hptr, hc]
  have hd : docGet h.current (pointer (t :: ts)) = value es p := by
    rw [docGet_pointer, ← ht, g.vals p hpp]
  have hu : ∀ k ∈ t :: ts, Utf8 k := fun k hk => utf8_ascii k ((path_good hpp).2.2 k (ht ▸ hk)).1
  have hv := value_list g.fit hp
  by_cases hn : there es p = []
  · rw [if_pos hn] at hv
    have hset := only_settable (good_start g) hpp
    rw [ht] at hset
    obtain ⟨w, hw, hpl⟩ := (docSet_pointer h.current t ts (.arr [e])).1 hset
    refine ⟨w, hfin w ?_, good_step g (e := .append e) hp (by rw [ht, hv]; exact hpl) fun hv hn => ?_⟩
    · show (match docGet h.current (pointer (t :: ts)) with
        | none => _
        | some _ => _) = _
      rw [hd, hv]
      exact hw
    · exact docSet_proper hu hv (by rw [proper_arr]; intro x hx; rw [List.mem_singleton.1 hx]; exact hn) hw
  · rw [if_neg hn] at hv
    generalize (there es p).map Edit.val = a at hv
    cases hc : h.current with
    | none =>
      have := g.vals p hpp
      rw [hc, hv] at this
      cases this
    | some r =>
      have hr : resolve (t :: ts) r = some (.arr a) := by
        have := g.vals p hpp
        rw [hc, hv, ht] at this
        exact this
      obtain ⟨w, hw, hpl⟩ := appendx_pointer e a ts (pointer (t :: ts)).length r t
        (by have := pointer_length (t :: ts); simp only [List.length_cons] at this; omega) hr
      refine ⟨w, hfin w ?_, good_step (hc ▸ g) (e := .append e) hp (by rw [ht, hv]; exact hpl) fun hv hn => ?_⟩
      · show (match docGet h.current (pointer (t :: ts)) with
          | none => _
          | some _ => _) = _
        rw [hd, hv, hc]
        exact hw
      · exact appendx_proper e hn ts _ r t w (hv r rfl) hw

/-! ## Headers -/

abbrev qualityPath : String := "/FDSN/Time/Quality"

/-- The edits for a header. -/
def edits (n : Numbers) : Header → Edits
  | .flag path => [(path, .put (.bool true))]
  | .leapSecond v => [("/FDSN/Time/LeapSecond", .put (.int v))]
  | .correction v => [("/FDSN/Time/Correction", .put (.real (n.tenths v)))]
  | .quality q => [(qualityPath, .put (.int q))]
  | .blockette type fields =>
    match mapping n type fields with
    | some (.event e) => (eventEntry e).toList.map fun v => ("/FDSN/Event/Detection", .append v)
    | some (.calibration e) => (calibrationEntry e).toList.map fun v => ("/FDSN/Calibration/Sequence", .append v)
    | some (.exception e model) => ((exceptionEntry e).toList.map fun v => ("/FDSN/Time/Exception", .append v)) ++
        [("/FDSN/Clock/Model", .put (.str model))]
    | none => []

/-- Entries can be made of the structures. -/
def Mapping.Ok : Mapping → Prop
  | .event e => (eventEntry e).isSome
  | .calibration e => (calibrationEntry e).isSome
  | .exception e _ => (exceptionEntry e).isSome

/-- What is needed of a header. -/
def Ok (n : Numbers) : Header → Prop
  | .flag path => path ∈ singles
  | .blockette type fields => ∀ m, mapping n type fields = some m → Mapping.Ok m
  | _ => True

/-- The state of the record and the edits so far. -/
structure Stand (reals : Reals) (s : Stage) (es : Edits) (h : Held) : Prop where
  inv : Inv reals s.1 s.2 h
  good : Good h.current es
  state : (s.2 = none ∧ ∀ x ∈ es, x.1 = qualityPath) ∨ ∃ w, s.2 = some ⟨none, some (some w)⟩ ∧ h.current = some w
  text : h.record = none ∨ ∃ q : Nat, (qualityPath, Edit.put (.int q)) ∈ es ∧ h.record = some (onlyQuality q)

theorem chars_ascii : ∀ (s : List UInt8), (∀ c ∈ s, 32 ≤ c.toNat ∧ c.toNat < 128 ∧ c.toNat ≠ 34 ∧ c.toNat ≠ 92) → Chars s s
  | [], _ => .nil
  | c :: s, h => by
    have hc := h c List.mem_cons_self
    have := Chars.plain (n := c.toNat) (.inl (by omega)) hc.1 hc.2.2.1 hc.2.2.2
      (chars_ascii s fun d hd => h d (List.mem_cons_of_mem _ hd))
    have e : utf8 c.toNat = [c] := by
      unfold utf8
      rw [if_pos (by omega), UInt8.ofNat_toNat]
    rw [e] at this
    exact this

theorem quality_document (reals : Reals) (q : Nat) (hq : q < 2 ^ 64) : Document reals.read (onlyQuality q) (qualityText q) := by
  have ha : ∀ s ∈ ["FDSN", "Time", "Quality"], Chars (name s) (name s) := by
    intro s hs
    refine chars_ascii _ ?_
    revert s
    decide +kernel
  have w : White [] := by intro c hc; cases hc
  have hint : Text reals.read (.value (.int (q : Int))) (index q) := by
    have := Text.int (reals := reals.read) (neg := false) (n := q) (by unfold Fits signed; simp; omega)
    exact this
  have h3 := Text.obj (Text.lastMember w w w w (ha "Quality" (by simp)) hint)
  have h2 := Text.obj (Text.lastMember w w w w (ha "Time" (by simp)) h3)
  have h1 := Text.obj (Text.lastMember w w w w (ha "FDSN" (by simp)) h2)
  refine ⟨[], _, [], w, h1, w, ?_⟩
  have e1 : lit "{\"FDSN\":{\"Time\":{\"Quality\":" = 123 :: 34 :: (name "FDSN" ++ 34 :: 58 :: 123 :: 34 :: (name "Time" ++
    34 :: 58 :: 123 :: 34 :: (name "Quality" ++ [34, 58]))) := by decide +kernel
  have e2 : lit "}}}" = [125, 125, 125] := by decide +kernel
  unfold qualityText
  rw [e1, e2]
  show _ ++ index q ++ _ = _
  simp only [List.append_assoc, List.cons_append, List.nil_append, List.append_nil]

theorem quality_good {v : Option Json} {es : Edits} (g : Good v es) (he : ∀ x ∈ es, x.1 = qualityPath) (q : Nat) (hq : q < 2 ^ 64) :
    Good (some (onlyQuality q)) (es ++ [(qualityPath, .put (.int q))]) where
  fit x hx := by
    rcases List.mem_append.1 hx with hx | hx
    · exact g.fit x hx
    · rw [List.mem_singleton.1 hx]
      show qualityPath ∈ singles
      decide +kernel
  vals p hp := by
    show resolve (toks p) (onlyQuality q) = _
    have hq : toks qualityPath = [name "FDSN", name "Time", name "Quality"] := by decide +kernel
    by_cases h : qualityPath = p
    · subst h
      rw [value_same, hq]
      simp [onlyQuality, resolve, child, member, Edit.on]
    · rw [value_other _ _ h, value_none (by
        unfold there
        rw [List.filterMap_eq_nil_iff]
        intro x hx
        rw [he x hx, if_neg h])]
      cases hr : resolve (toks p) (onlyQuality q) with
      | none => rfl
      | some u =>
        exfalso
        have hne : toks p ≠ toks qualityPath := fun hc => h (toks_inj (by decide +kernel) hp hc.symm)
        have hlen := (path_good hp).2.1
        rw [hq] at hne
        match ht : toks p with
        | [a, b, c] =>
          rw [ht] at hr hne
          simp only [onlyQuality, resolve, child, member_cons, member_nil] at hr
          by_cases h1 : name "FDSN" = a
          · rw [if_pos h1] at hr
            simp only [Option.bind_some, child, member_cons, member_nil] at hr
            by_cases h2 : name "Time" = b
            · rw [if_pos h2] at hr
              simp only [Option.bind_some, child, member_cons, member_nil] at hr
              by_cases h3 : name "Quality" = c
              · exact hne (by rw [← h1, ← h2, ← h3])
              · rw [if_neg h3] at hr; cases hr
            · rw [if_neg h2] at hr; cases hr
          · rw [if_neg h1] at hr; cases hr
        | [] => rw [ht] at hlen; cases hlen
        | [_] => rw [ht] at hlen; cases hlen
        | [_, _] => rw [ht] at hlen; cases hlen
        | _ :: _ :: _ :: _ :: _ => rw [ht] at hlen; simp at hlen
  only := by
    rintro _ ⟨⟩ ts u hu
    match ts with
    | [] => cases hu; exact .inl ⟨_, rfl⟩
    | a :: ts =>
      simp only [onlyQuality, resolve, child, member_cons, member_nil] at hu
      by_cases h1 : name "FDSN" = a
      · rw [if_pos h1] at hu
        match ts with
        | [] => cases hu; exact .inl ⟨_, rfl⟩
        | b :: ts =>
          simp only [Option.bind_some, resolve, child, member_cons, member_nil] at hu
          by_cases h2 : name "Time" = b
          · rw [if_pos h2] at hu
            match ts with
            | [] => cases hu; exact .inl ⟨_, rfl⟩
            | c :: ts =>
              simp only [Option.bind_some, resolve, child, member_cons, member_nil] at hu
              by_cases h3 : name "Quality" = c
              · refine .inr ⟨qualityPath, by decide +kernel, ?_⟩
                have hq : toks qualityPath = [name "FDSN", name "Time", name "Quality"] := by decide +kernel
                rw [hq, h1, h2, h3]
                exact ⟨ts, rfl⟩
              · rw [if_neg h3] at hu; cases hu
          · rw [if_neg h2] at hu; cases hu
      · rw [if_neg h1] at hu; cases hu
  proper := by
    rintro - _ ⟨⟩
    have ha : ∀ s ∈ ["FDSN", "Time", "Quality"], Utf8 (name s) := by
      intro s hs
      refine utf8_ascii _ ?_
      revert s
      decide +kernel
    simp only [onlyQuality, Proper, ProperMembers, and_true]
    exact ⟨ha _ (by simp), ha _ (by simp), ha _ (by simp), by unfold Fits; omega⟩
  some := by simp

theorem stand_setting {reals : Reals} {s : Stage} {es : Edits} {h : Held} (st : Stand reals s es h) {p : String} (hp : p ∈ singles) {val : Value}
    {new : Json} (hg : given val = some new) : ∃ h', Stand reals (setting (codec reals) s p val) (es ++ [(p, .put new)]) h' := by
  obtain ⟨w, hw, g⟩ := setr_put st.inv st.good hp hg
  refine ⟨⟨h.record, some w⟩, ⟨?_, g, ?_, ?_⟩⟩
  · unfold setting
    rw [hw]
    exact ⟨st.inv.1, fun _ => by simp, .inl ⟨rfl, .inl rfl⟩⟩
  · unfold setting
    rw [hw]
    exact .inr ⟨w, rfl, rfl⟩
  · rcases st.text with h | ⟨q, h1, h2⟩
    · exact .inl h
    · exact .inr ⟨q, List.mem_append_left _ h1, h2⟩

theorem stand_append {reals : Reals} {s : Stage} {es : Edits} {h : Held} (st : Stand reals s es h) {p : String} (hp : p ∈ lists) (e : Json) :
    ∃ h' st', setr (codec reals) s.1 s.2 (lit p) (.append e) = (0, st') ∧ Stand reals (s.1, st') (es ++ [(p, .append e)]) h' := by
  obtain ⟨w, hw, g⟩ := setr_append st.inv st.good hp e
  refine ⟨⟨h.record, some w⟩, _, hw, ⟨⟨st.inv.1, fun _ => by simp, .inl ⟨rfl, .inl rfl⟩⟩, g, .inr ⟨w, rfl, rfl⟩, ?_⟩⟩
  rcases st.text with h | ⟨q, h1, h2⟩
  · exact .inl h
  · exact .inr ⟨q, List.mem_append_left _ h1, h2⟩

theorem mapped_stand {reals : Reals} {s : Stage} {es : Edits} {h : Held} (st : Stand reals s es h) {p : String} (hp : p ∈ lists)
    {entry : Option Json} (he : entry.isSome) : ∃ h' s2,
      addr (codec reals) s.1 s.2 p none entry = (0, s2) ∧
      Stand reals (s.1, s2) (es ++ entry.toList.map fun v => (p, Edit.append v)) h' := by
  obtain ⟨e, rfl⟩ := Option.isSome_iff_exists.1 he
  obtain ⟨h', st', h1, h2⟩ := stand_append st hp e
  refine ⟨h', st', ?_, h2⟩
  show (let r := setr (codec reals) s.1 s.2 (lit p) (.append e); (if r.1 ≠ 0 then generror else 0, r.2)) = _
  rw [h1]
  rfl

theorem put_stand {reals : Reals} {n : Numbers} {s : Stage} {es : Edits} {h : Held} (st : Stand reals s es h) {x : Header} (hx : Ok n x)
    (hq : ∀ q, x = .quality q → q < 2 ^ 64) : ∃ s' h', put (codec reals) n s x = some s' ∧ Stand reals s' (es ++ edits n x) h' := by
  cases x with
  | flag path =>
    obtain ⟨h', hs⟩ := stand_setting st (val := .bool 1) hx rfl
    exact ⟨_, h', rfl, hs⟩
  | leapSecond v =>
    obtain ⟨h', hs⟩ := stand_setting st (p := "/FDSN/Time/LeapSecond") (val := .int v) (by decide +kernel) rfl
    exact ⟨_, h', rfl, hs⟩
  | correction v =>
    obtain ⟨h', hs⟩ := stand_setting st (p := "/FDSN/Time/Correction") (val := .number (n.tenths v)) (by decide +kernel) rfl
    exact ⟨_, h', rfl, hs⟩
  | quality q =>
    rcases st.state with ⟨h1, h2⟩ | ⟨w, h1, h2⟩
    · refine ⟨(qualityText q, none), ⟨some (onlyQuality q), some (onlyQuality q)⟩, ?_, ?_⟩
      · unfold put
        rw [h1]
      · exact ⟨inv_start (quality_document reals q (hq q rfl)), quality_good st.good h2 q (hq q rfl),
          .inl ⟨rfl, fun x hx => by
            rcases List.mem_append.1 hx with hx | hx
            · exact h2 x hx
            · rw [List.mem_singleton.1 hx]⟩,
          .inr ⟨q, List.mem_append_right _ (List.mem_singleton.2 rfl), rfl⟩⟩
    · obtain ⟨h', hs⟩ := stand_setting st (p := qualityPath) (val := .int q) (by decide +kernel) rfl
      refine ⟨_, h', ?_, hs⟩
      unfold put
      rw [h1]
  | blockette type fields =>
    unfold put edits
    simp only
    have hx : ∀ m, mapping n type fields = some m → Mapping.Ok m := hx
    cases hm : mapping n type fields with
    | none => exact ⟨s, h, rfl, by simpa using st⟩
    | some m =>
      have hx := hx m hm
      cases m with
      | event e =>
        obtain ⟨h', s2, h1, h2⟩ := mapped_stand st (p := "/FDSN/Event/Detection") (by decide +kernel) hx
        refine ⟨(s.1, s2), h', ?_, h2⟩
        unfold mapped addEventDetection
        simp only
        rw [h1]
        rfl
      | calibration e =>
        obtain ⟨h', s2, h1, h2⟩ := mapped_stand st (p := "/FDSN/Calibration/Sequence") (by decide +kernel) hx
        refine ⟨(s.1, s2), h', ?_, h2⟩
        unfold mapped addCalibration
        simp only
        rw [h1]
        rfl
      | exception e model =>
        obtain ⟨h', s2, h1, h2⟩ := mapped_stand st (p := "/FDSN/Time/Exception") (by decide +kernel) hx
        obtain ⟨h'', hs⟩ := stand_setting h2 (p := "/FDSN/Clock/Model") (val := .str model) (by decide +kernel) rfl
        refine ⟨_, h'', ?_, by rw [← List.append_assoc]; exact hs⟩
        unfold mapped addTimingException
        simp only
        rw [h1]
        rfl

theorem putAll_stand {reals : Reals} {n : Numbers} : ∀ (hs : List Header) {s : Stage} {es : Edits} {h : Held}, Stand reals s es h →
    (∀ x ∈ hs, Ok n x ∧ ∀ q, x = .quality q → q < 2 ^ 64) →
    ∃ s' h', putAll (codec reals) n s hs = some s' ∧ Stand reals s' (es ++ hs.flatMap (edits n)) h'
  | [], s, es, h, st, _ => ⟨s, h, rfl, by simpa using st⟩
  | x :: hs, s, es, h, st, hx => by
    obtain ⟨s', h', h1, h2⟩ := put_stand st (hx x List.mem_cons_self).1 (hx x List.mem_cons_self).2
    obtain ⟨s'', h'', h3, h4⟩ := putAll_stand hs h2 fun y hy => hx y (List.mem_cons_of_mem _ hy)
    refine ⟨s'', h'', ?_, by rw [List.flatMap_cons, ← List.append_assoc]; exact h4⟩
    show (put (codec reals) n s x).bind _ = _
    rw [h1]
    exact h3

theorem stand_start (reals : Reals) : Stand reals ([], none) [] ⟨none, none⟩ :=
  ⟨inv_start rfl, good_nil, .inl ⟨rfl, by simp⟩, .inl rfl⟩

/-- The text for the headers. -/
theorem extraText_stand {reals : Reals} (hl : Verif.Props.JsonText.LawfulReals reals) {n : Numbers} {hs : List Header}
    (hx : ∀ x ∈ hs, Ok n x ∧ ∀ q, x = .quality q → q < 2 ^ 64) :
    ∃ t v, extraText (codec reals) n hs = some t ∧ Good v (hs.flatMap (edits n)) ∧
      (Holds reals.read t v ∨
        ∃ w, v = some w ∧ (Proper w → ∃ u, write reals w = some u ∧ 65535 < u.length) ∧
          (t = [] ∨ ∃ q : Nat, (qualityPath, Edit.put (.int q)) ∈ hs.flatMap (edits n) ∧ Document reals.read (onlyQuality q) t)) := by
  obtain ⟨s, h, h1, st⟩ := putAll_stand hs (stand_start reals) hx
  rw [List.nil_append] at st
  have e : extraText (codec reals) n hs = some (serialize (codec reals) s.1 s.2).2 := by
    unfold extraText
    rw [h1]
    rfl
  rw [e]
  refine ⟨_, h.current, rfl, st.good, ?_⟩
  rcases st.state with ⟨h2, -⟩ | ⟨w, h2, h3⟩
  · rw [h2]
    left
    have hi := st.inv
    unfold Verif.Proof.ExtraHeaders.Inv at hi
    rw [h2] at hi
    show Holds reals.read s.1 h.current
    rw [hi.2.2]
    exact hi.1
  · rw [h2, h3]
    have e : serialize (codec reals) s.1 (some ⟨none, some (some w)⟩) = (match write reals w with
      | none => (generror, s.1)
      | some t => if t.length > 65535 then (generror, s.1) else (t.length, t)) := rfl
    have old : s.1 = [] ∨ ∃ q : Nat, (qualityPath, Edit.put (.int q)) ∈ hs.flatMap (edits n) ∧
        Document reals.read (onlyQuality q) s.1 := by
      have hh := st.inv.1
      rcases st.text with ht | ⟨q, hq, ht⟩
      · rw [ht] at hh; exact .inl hh
      · rw [ht] at hh; exact .inr ⟨q, hq, hh⟩
    rw [e]
    cases hw : write reals w with
    | none =>
      refine .inr ⟨w, rfl, fun hp => ?_, old⟩
      obtain ⟨t, ht⟩ := write_complete hl w hp
      rw [ht] at hw
      cases hw
    | some t =>
      simp only
      by_cases ht : t.length > 65535
      · rw [if_pos ht]
        exact .inr ⟨w, rfl, fun _ => ⟨t, hw, ht⟩, old⟩
      · rw [if_neg ht]
        exact .inl ((read_document reals w t).1 (read_write hl hw))

end Verif.Proof.Headers2
