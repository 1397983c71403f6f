import Verif.Proof.Blockettes2Doc
import Verif.Proof.Pack2Back
/-!
# Lemmas about the headers that carry extra headers
-/
namespace Verif.Proof.Blockettes2
open Verif.Spec.Json Verif.Spec.Record2 Verif.Props.ExtraHeaders Verif.Props.Headers2 Verif.Props.Blockettes2
open Verif.Model Verif.Model.Steim Verif.Model.Mem Verif.Model.Pack2 Verif.Model.Blockettes2
open Verif.Model.Record3 (Msr packEncoding)
open Verif.Proof.Mem Verif.Proof.Pack2 Verif.Proof.Record2

theorem getNum_iff (k : Numbers) (v : Option Json) (p : String) (d : UInt64) : getNum k v p = some d ↔ Number k v p d := by
  unfold getNum Number
  rw [← look_at]
  constructor
  · intro h
    obtain ⟨u, hu, hd⟩ := Option.bind_eq_some_iff.1 h
    cases u with
    | int i => exact .inr ⟨i, (look_at _ _ _).1 hu, (Option.some.inj hd).symm⟩
    | real e =>
      have : e = d := Option.some.inj hd
      exact .inl (this ▸ hu)
    | _ => cases hd
  · rintro (h | ⟨i, h, rfl⟩)
    · rw [h]; rfl
    · rw [(look_at _ _ _).2 h]; rfl

theorem getNum_none {k : Numbers} {v : Option Json} {p : String} (h : getNum k v p = none) (d : UInt64) : ¬ Number k v p d := by
  intro hd
  rw [(getNum_iff k v p d).2 hd] at h
  cases h

theorem overflow_nil {k : Numbers} {v : Option Json} (hc : Corrected k v) : overflow k v = [] := by
  unfold overflow
  split
  · rename_i d hd
    obtain ⟨c, h, _⟩ := hc d ((getNum_iff _ _ _ _).1 hd)
    rw [h, if_neg (by simp)]
  · rfl

theorem headD_takeWhile (s : List UInt8) : (s.takeWhile (· != 0)).headD 0 = s.headD 0 := by
  cases s with
  | nil => rfl
  | cons a s =>
    by_cases h : a = 0
    · subst h; rfl
    · rw [List.takeWhile_cons, if_pos (by simpa using h)]; rfl

theorem extra_meant (h : Bool) {k : Numbers} {v : Option Json} (hc : Corrected k v) : Meant k v (extra h k v) := by
  constructor
  · intro path
    rw [← look_at]
    show (getBool v path == some true) = true ↔ _
    unfold getBool
    split
    · rename_i b hb
      rw [hb]
      cases b <;> simp
    · rename_i hn
      constructor
      · intro hx; simp at hx
      · intro hx; exact absurd hx (hn true)
  · intro c
    show (getStr v _).map _ = some c ↔ _
    unfold getStr
    constructor
    · intro hx
      split at hx
      · rename_i s hs
        exact ⟨s, (look_at _ _ _).1 hs, by rw [← headD_takeWhile]; exact (Option.some.inj hx).symm⟩
      · cases hx
    · rintro ⟨s, hs, rfl⟩
      rw [(look_at _ _ _).2 hs, ← headD_takeWhile]
      rfl
  · show (∃ d, _ ∧ ((getNum k v "/FDSN/Time/LeapSecond").map k.sign).getD 0 = k.sign d) ∨
      (_ ∧ ((getNum k v "/FDSN/Time/LeapSecond").map k.sign).getD 0 = 0)
    cases hn : getNum k v "/FDSN/Time/LeapSecond" with
    | some d => exact .inl ⟨d, (getNum_iff _ _ _ _).1 hn, rfl⟩
    | none => exact .inr ⟨getNum_none hn, rfl⟩
  · intro c
    show (getNum k v "/FDSN/Time/Correction").map (fun d => (k.shift d).getD 0) = some c ↔ _
    constructor
    · intro hx
      obtain ⟨d, hd, hx⟩ := Option.map_eq_some_iff.1 hx
      have hd' := (getNum_iff _ _ _ _).1 hd
      obtain ⟨c', hc', _⟩ := hc d hd'
      rw [hc'] at hx
      have : c' = c := hx
      exact ⟨d, hd', this ▸ hc'⟩
    · rintro ⟨d, hd, hx⟩
      rw [(getNum_iff _ _ _ _).2 hd]
      show some ((k.shift d).getD 0) = some c
      rw [hx]
      rfl
  · intro q
    show getUint v _ = some q ↔ _
    rw [← look_at]
    unfold getUint
    split
    · rename_i i hi
      rw [hi]
      constructor
      · intro hx
        split at hx
        · cases hx
          congr 2
          omega
        · cases hx
      · intro hx
        have : i = q := by simpa using hx
        subst this
        rw [if_pos (by omega)]
        simp
    · rename_i hn
      constructor
      · intro hx; cases hx
      · intro hx; exact absurd hx (hn _)

/-- The extra headers as read from a text. -/
theorem json_text {reals : JsonText.Reals} {h : Bool} {k : Numbers} {v : Json} {t : List UInt8} (ht : Document reals.read v t) :
    json reals h k t = some (extra h k (some v)) ∧ extraOf (json reals h k) t = some (extra h k (some v)) := by
  have hr := (Verif.Proof.Json.read_document reals v t).2 ht
  have h1 : json reals h k t = some (extra h k (some v)) := by unfold json; rw [hr]; rfl
  refine ⟨h1, ?_⟩
  unfold extraOf
  rw [h1]
  cases t with
  | nil => exact absurd hr (by rw [show JsonText.read reals [] = none from rfl]; simp)
  | cons => rfl

theorem last_quality (d : Head) (enc : Nat) (r : Rec) (hr : r.chain = d.chain enc) : r.last quality =
    if d.timed then some d.timing else none := by
  have ht := timings d enc
  unfold Rec.last
  rw [hr]
  have e : ((d.chain enc).filterMap fun b => quality b.1) =
      ((d.chain enc).filterMap fun b => b.1.timing?).map fun t => t.1.toNat := by
    rw [List.map_filterMap]
    congr 1
    funext b
    cases b.1 <;> rfl
  rw [e, ht]
  have : d.timing ≤ 255 := by
    unfold Head.timing
    split
    · split <;> omega
    · omega
  split
  · simp only [List.map_cons, List.map_nil, List.getLast?_singleton]
    rw [ofNat_toNat (by omega)]
  · rfl

theorem head_carries {k : Numbers} {v : Option Json} {m : Msr} {net sta loc : List UInt8} {band source position : UInt8} {d : Head}
    {rest : List UInt8} (hm : Meant k v d.extra) (hc : Corrected k v) (ht : microOffset d.time = m.starttime / 1000 % 100) :
    Carries k v m.starttime d.more (headRec m net sta loc band source position d rest) := by
  obtain ⟨a0, a1, a2, a3, a4, a5, a6, a7⟩ := act_bits m.flags d.extra
  obtain ⟨i0, i1, i2, i3, i4, i5, i6⟩ := io_bits m.flags d.extra
  obtain ⟨q0, q1, q2, q3, q4, q5, q6, q7, q8⟩ := dq_bits m.flags d.extra
  have num1 : ∀ p d e, Number k v p d → Number k v p e → d = e := by
    intro p d e h1 h2
    have := ((getNum_iff _ _ _ _).2 h1).symm.trans ((getNum_iff _ _ _ _).2 h2)
    exact Option.some.inj this
  constructor
  · rfl
  · exact chain_mapped d _
  · have hall : ∀ e ∈ flagNames, ((headRec m net sta loc band source position d rest).flagByte e.1).toNat.testBit e.2.1 =
        d.extra.flag e.2.2 := by
      simp only [flagNames, List.mem_cons, List.not_mem_nil, or_false, forall_eq_or_imp, forall_eq,
        Rec.flagByte, headRec, a0, i0, q0, a3, a4, a7, i1, i2, i3, i4, i5,
        q1, q2, q3, q4, q5, q6, q7, and_self]
    intro e he
    rw [hall e he]
    exact hm.flag _
  · show (UInt8.ofNat (actFlags m.flags d.extra)).toNat.testBit 4 = true ↔ _
    rw [a0, a5, decide_eq_true_eq]
    rcases hm.leap with ⟨x, hx, hl⟩ | ⟨hx, hl⟩
    · rw [hl]
      exact ⟨fun h => ⟨x, hx, h⟩, fun ⟨y, hy, h⟩ => num1 _ _ _ hx hy ▸ h⟩
    · rw [hl]
      exact ⟨fun h => by omega, fun ⟨y, hy, h⟩ => absurd hy (hx y)⟩
  · show (UInt8.ofNat (actFlags m.flags d.extra)).toNat.testBit 5 = true ↔ _
    rw [a0, a6, decide_eq_true_eq]
    rcases hm.leap with ⟨x, hx, hl⟩ | ⟨hx, hl⟩
    · rw [hl]
      exact ⟨fun h => ⟨x, hx, h⟩, fun ⟨y, hy, h⟩ => num1 _ _ _ hx hy ▸ h⟩
    · rw [hl]
      exact ⟨fun h => by omega, fun ⟨y, hy, h⟩ => absurd hy (hx y)⟩
  · show (UInt8.ofNat (actFlags m.flags d.extra)).toNat.testBit 1 = true ↔ _
    rw [a0, a2]
    constructor
    · intro h
      obtain ⟨c, hc'⟩ := Option.isSome_iff_exists.1 h
      obtain ⟨x, hx, _⟩ := (hm.correction c).1 hc'
      exact ⟨x, hx⟩
    · rintro ⟨x, hx⟩
      obtain ⟨c, hs, _⟩ := hc x hx
      rw [(hm.correction c).2 ⟨x, hx, hs⟩]
      rfl
  · show (∃ e, _ ∧ k.shift e = some (d.extra.correction.getD 0)) ∨ (_ ∧ d.extra.correction.getD 0 = 0)
    cases h : d.extra.correction with
    | some c => exact .inl ((hm.correction c).1 h)
    | none =>
      right
      refine ⟨fun x hx => ?_, rfl⟩
      obtain ⟨c, hs, _⟩ := hc x hx
      rw [(hm.correction c).2 ⟨x, hx, hs⟩] at h
      cases h
  · rw [last_quality d _ _ (show (headRec m net sta loc band source position d rest).chain = d.chain (packEncoding m.encoding) from rfl)]
    unfold Head.timed Head.timing
    cases h : d.extra.timing with
    | some q =>
      left
      exact ⟨q, (hm.timing q).1 h, by simp⟩
    | none =>
      right
      refine ⟨fun q hq => ?_, ?_⟩
      · rw [(hm.timing q).2 hq] at h
        cases h
      · simp only [Option.isSome_none, Bool.false_or, decide_eq_true_eq]
        by_cases h0 : microOffset d.time = 0
        · rw [if_neg (by omega), if_pos (by omega)]
        · rw [if_pos h0, if_neg (by omega)]

theorem sizes_split (f : Mapped → Nat) : ∀ l : List Mapped,
    ((l.filter (·.type = 500) ++ l.filter (·.type = 201) ++ l.filter (·.type ∈ [300, 310, 320, 390])).map f).sum ≤ (l.map f).sum
  | [] => Nat.le_refl _
  | a :: l => by
    have ih := sizes_split f l
    simp only [List.filter_cons, List.map_append, List.sum_append] at ih ⊢
    by_cases h1 : a.type = 500
    · simp [h1] at ih ⊢
      omega
    · by_cases h2 : a.type = 201
      · simp [h2] at ih ⊢
        omega
      · by_cases h3 : a.type = 300 ∨ a.type = 310 ∨ a.type = 320 ∨ a.type = 390
        · simp [h1, h2, h3] at ih ⊢
          omega
        · simp [h1, h2, h3] at ih ⊢
          omega

theorem filterMap_filter_types {β : Type} (f : Mapped → Option β) (p : Mapped → Bool) : ∀ l : List Mapped,
    (∀ m ∈ l, p m = false → f m = none) → (l.filter p).filterMap f = l.filterMap f
  | [], _ => rfl
  | a :: l, h => by
    have ih := filterMap_filter_types f p l fun m hm => h m (.tail _ hm)
    rw [List.filter_cons, List.filterMap_cons]
    cases hp : p a with
    | true => rw [if_pos rfl, List.filterMap_cons, ih]
    | false => rw [if_neg (by simp), h a (.head _) hp, ih]

theorem entries_mapped (r : Rec) (f : Mapped → Option Fields) : entries r f = (mapped r).filterMap f := by
  unfold entries mapped
  rw [List.filterMap_filterMap]

theorem describes_converted {n : Headers2.Numbers} {known : Bool → Bool} {r : Rec} {v : Option Json} (hd : Documented n known r v)
    (hr : Convertible r) : Describes n v ((mapped r).filter (·.type = 500)) ((mapped r).filter (·.type = 201))
      (((mapped r).filter (·.type ∈ [300, 310, 320, 390])).map fun m => .shot m none) := by
  constructor
  · refine ⟨?_, ?_⟩
    · intro m hm
      obtain ⟨_, h⟩ := List.mem_filter.1 hm
      cases m <;> first | rfl | (simp [Mapped.type] at h; done)
    · rw [filterMap_filter_types, ← entries_mapped]
      · exact hd.exceptions
      · intro m _ h
        cases m <;> first | rfl | (simp [Mapped.type] at h; done)
  · intro m hm s hs
    rw [hd.model]
    exact ⟨s, hr.model m (List.mem_filter.1 hm).1 s hs, rfl⟩
  · refine ⟨?_, ?_⟩
    · intro m hm
      obtain ⟨_, h⟩ := List.mem_filter.1 hm
      cases m <;> first | rfl | (simp [Mapped.type] at h; done)
    · rw [filterMap_filter_types]
      · have : entries r (detection n known) = (mapped r).filterMap (detection n not) := by
          rw [entries_mapped]
          have key : ∀ l : List Mapped, (∀ m ∈ l, m.type ≠ 200) → l.filterMap (detection n known) = l.filterMap (detection n not) := by
            intro l
            induction l with
            | nil => intro _; rfl
            | cons a l ih =>
              intro hl
              rw [List.filterMap_cons, List.filterMap_cons, ih fun m hm => hl m (.tail _ hm)]
              have ha := hl a (.head _)
              cases a <;> first | rfl | (exact absurd rfl ha)
          exact key _ fun m hm => (hr.types m hm).1
        rw [← this]
        exact hd.detections
      · intro m hm h
        have := (hr.types m hm).1
        cases m <;> first | rfl | (simp [Mapped.type] at h; done) | (exact absurd rfl this)
  · refine ⟨?_, ?_⟩
    · intro c hc
      obtain ⟨m, hm, rfl⟩ := List.mem_map.1 hc
      obtain ⟨_, h⟩ := List.mem_filter.1 hm
      cases m <;> first | rfl | (simp [Mapped.type] at h; done)
    · rw [List.filterMap_map]
      have : ((mapped r).filter (·.type ∈ [300, 310, 320, 390])).filterMap (Calibrated.fields n ∘ fun m => .shot m none) =
          (mapped r).filterMap (calibration n) := by
        have key : ∀ l : List Mapped, (∀ m ∈ l, m.type ≠ 395) → (l.filter (·.type ∈ [300, 310, 320, 390])).filterMap
            (Calibrated.fields n ∘ fun m => .shot m none) = l.filterMap (calibration n) := by
          intro l
          induction l with
          | nil => intro _; rfl
          | cons a l ih =>
            intro hl
            have ih := ih fun m hm => hl m (.tail _ hm)
            have ha := hl a (.head _)
            cases a with
            | abort => exact absurd rfl ha
            | event => exact ih
            | murdock => exact ih
            | clock => exact ih
            | step => exact congrArg _ ih
            | sine => exact congrArg _ ih
            | random => exact congrArg _ ih
            | generic => exact congrArg _ ih
        exact key _ fun m hm => (hr.types m hm).2
      rw [this, ← entries_mapped]
      exact hd.calibrations

end Verif.Proof.Blockettes2
