import Verif.Proof.JsonWrite
import Verif.Proof.JsonPointer
import Verif.Proof.Mem
import Verif.Props.TimeStr
import Verif.Props.ExtraHeadersDefs
/-!
# Lemmas about extra headers
-/
namespace Verif.Proof.ExtraHeaders
open Verif.Spec.Json Verif.Model.ExtraHeaders Verif.Proof.Json Verif.Props.ExtraHeaders
open Verif.Model.JsonText (Reals write)
open Verif.Model.Json Verif.Model.Steim

theorem read_nil (reals : Reals) : Verif.Model.JsonText.read reals [] = none := by
  cases h : Verif.Model.JsonText.read reals [] with
  | none => rfl
  | some v =>
    obtain ⟨w, u, x, _, hu, _, e⟩ := (read_document reals v []).1 h
    obtain ⟨c, t, hc, _⟩ := text_head hu
    rw [hc] at e
    have := congrArg List.length e
    simp at this

theorem holds_nil {reals : Reals} {r : Option Json} (h : Holds reals.read [] r) : r = none := by
  cases r with
  | none => rfl
  | some v =>
    have := (read_document reals v []).2 h
    rw [read_nil] at this
    cases this

theorem holds_none {reals : Reals} {extra : List UInt8} (h : Holds reals.read extra none) : extra = [] := h

theorem holds_iff {reals : Reals} {extra : List UInt8} {r : Option Json} : Holds reals.read extra r ↔
    parseJson (codec reals) extra = some ⟨r, none⟩ := by
  unfold parseJson
  by_cases he : extra = []
  · rw [if_pos he]
    constructor
    · intro h
      rw [he] at h
      rw [holds_nil h]
    · intro h
      simp only [Option.some.injEq, State.mk.injEq] at h
      rw [← h.1]
      exact he
  · rw [if_neg he]
    show _ ↔ (match Verif.Model.JsonText.read reals extra with
      | none => none
      | some v => some (State.mk (some v) none)) = _
    constructor
    · intro h
      cases r with
      | none => exact absurd h he
      | some v => rw [(read_document reals v extra).2 h]
    · intro h
      cases hr : Verif.Model.JsonText.read reals extra with
      | none => rw [hr] at h; cases h
      | some v =>
        rw [hr] at h
        simp only [Option.some.injEq, State.mk.injEq] at h
        rw [← h.1]
        exact (read_document reals v extra).1 hr

theorem parse_none {reals : Reals} {extra : List UInt8} (h : ∀ r, ¬ Holds reals.read extra r) :
    parseJson (codec reals) extra = none := by
  cases hp : parseJson (codec reals) extra with
  | none => rfl
  | some s =>
    exfalso
    have : s = ⟨s.doc, none⟩ := by
      unfold parseJson at hp
      by_cases he : extra = []
      · rw [if_pos he] at hp
        rw [← Option.some.inj hp]
      · rw [if_neg he] at hp
        split at hp
        · cases hp
        · rw [← Option.some.inj hp]
    exact h s.doc (holds_iff.2 (by rw [hp, ← this]))

/-! ## Queries -/

theorem docGet_at (v : Option Json) (ptr : List UInt8) (u : Json) : docGet v ptr = some u ↔ At v ptr u := by
  constructor
  · intro h
    have hp : ∃ ts, ptr = pointer ts := by
      rcases docGet_spelled h with e | ⟨t, ts, e⟩
      · exact ⟨[], e⟩
      · exact ⟨_, e⟩
    obtain ⟨ts, rfl⟩ := hp
    rw [docGet_pointer] at h
    obtain ⟨r, hr, hu⟩ := Option.bind_eq_some_iff.1 h
    exact ⟨r, ts, hr, rfl, hu⟩
  · rintro ⟨r, ts, rfl, rfl, hu⟩
    rw [docGet_pointer]
    exact hu

theorem docGet_none (v : Option Json) (ptr : List UInt8) : docGet v ptr = none ↔ ∀ u, ¬ At v ptr u := by
  constructor
  · intro h u hu
    rw [(docGet_at v ptr u).2 hu] at h
    cases h
  · intro h
    cases hd : docGet v ptr with
    | none => rfl
    | some u => exact absurd ((docGet_at v ptr u).1 hd) (h u)

theorem takeWhile_all {p : UInt8 → Bool} : ∀ (l : List UInt8), (∀ c ∈ l, p c = true) → l.takeWhile p = l
  | [], _ => rfl
  | c :: t, h => by
    rw [List.takeWhile_cons, if_pos (h c (List.mem_cons_self ..)), takeWhile_all t fun d hd => h d (List.mem_cons_of_mem _ hd)]

theorem takeWhile_mem {p : UInt8 → Bool} : ∀ (l : List UInt8), ∀ c ∈ l.takeWhile p, p c = true
  | [], c, h => by cases h
  | d :: t, c, h => by
    rw [List.takeWhile_cons] at h
    by_cases hd : p d = true
    · rw [if_pos hd] at h
      rcases List.mem_cons.1 h with rfl | h
      · exact hd
      · exact takeWhile_mem t c h
    · rw [if_neg hd] at h
      cases h

theorem copyStr_copied {s : List UInt8} {n : Nat} {b : List UInt8} (h : copyStr s n = .ok b) : Copied s n b := by
  unfold copyStr at h
  by_cases hn : n = 0
  · rw [if_pos hn] at h; cases h
  rw [if_neg hn] at h
  have h := (Res.ok.inj h).symm
  have hl : ((s.takeWhile (· ≠ 0)).take (n - 1)).length ≤ n - 1 := by
    rw [List.length_take]; exact Nat.min_le_left _ _
  have hm : ∀ c ∈ (s.takeWhile (· ≠ 0)).take (n - 1), (decide (c ≠ 0)) = true := fun c hc =>
    takeWhile_mem s c (List.mem_of_mem_take hc)
  generalize hk : (s.takeWhile (· ≠ 0)).take (n - 1) = k at h hl hm
  have hz : n - k.length = (n - k.length - 1) + 1 := by omega
  refine ⟨?_, ?_, ?_⟩
  · rw [h, List.length_append, List.length_replicate]; omega
  · rw [h, hk, hz, List.replicate_succ, List.takeWhile_append_of_pos hm, List.takeWhile_cons]
    simp
  · rw [h, hz, List.replicate_succ', ← List.append_assoc, List.getLast?_concat]

theorem bmod_small {i : Int} (h : -(2 ^ 31) ≤ i ∧ i < 2 ^ 31) : i.bmod (2 ^ 32) = i := by
  apply Int.bmod_eq_of_le <;> omega

theorem fetch_answer {num : Int → UInt64} {v : Option Json} {ptr : List UInt8} {type : UInt8} {wanted : Bool}
    {maxlength : Nat} {ret : Int} {got : Got} (hp : ptr.head? = some 47)
    (h : fetch num (docGet v ptr) type wanted maxlength = .ok (ret, got)) :
    Answer num v ptr type wanted maxlength ret got := by
  unfold fetch at h
  cases hd : docGet v ptr with
  | none =>
    rw [hd] at h
    cases h
    exact .missing hp ((docGet_none v ptr).1 hd)
  | some u =>
    have ha := (docGet_at v ptr u).1 hd
    rw [hd] at h
    simp only at h
    have other : ¬ OfType type u → (Res.ok (if wanted then (2, Got.nothing) else (0, Got.nothing)) : Res (Int × Got)) =
        .ok (ret, got) → Answer num v ptr type wanted maxlength ret got := by
      intro ho h
      cases wanted with
      | true => cases h; exact .unlike hp ha rfl ho
      | false => cases h; exact .there hp ha rfl
    by_cases h1 : type = 110
    · rw [if_pos h1] at h
      subst h1
      cases u with
      | real d =>
        cases wanted with
        | true => cases h; exact .copied hp ha rfl .real
        | false => cases h; exact .there hp ha rfl
      | int d =>
        cases wanted with
        | true => cases h; exact .copied hp ha rfl .number
        | false => cases h; exact .there hp ha rfl
      | _ => exact other (by simp [OfType]) h
    rw [if_neg h1] at h
    by_cases h2 : type = 105
    · rw [if_pos h2] at h
      subst h2
      cases u with
      | int d =>
        cases wanted with
        | true => cases h; exact .copied hp ha rfl (.int bmod_small)
        | false => cases h; exact .there hp ha rfl
      | _ => exact other (by simp [OfType]) h
    rw [if_neg h2] at h
    by_cases h3 : type = 115
    · rw [if_pos h3] at h
      subst h3
      cases u with
      | str s =>
        cases wanted with
        | true =>
          simp only [if_true] at h
          obtain ⟨b, hb, h⟩ := Verif.Proof.Mem.bind_eq_ok.1 h
          cases h
          exact .copied hp ha rfl (.str (copyStr_copied hb))
        | false => cases h; exact .there hp ha rfl
      | _ => exact other (by simp [OfType]) h
    rw [if_neg h3] at h
    by_cases h4 : type = 98
    · rw [if_pos h4] at h
      subst h4
      cases u with
      | bool b =>
        cases wanted with
        | true => cases h; exact .copied hp ha rfl .bool
        | false => cases h; exact .there hp ha rfl
      | _ => exact other (by simp [OfType]) h
    rw [if_neg h4] at h
    refine other ?_ h
    intro ho
    unfold OfType at ho
    split at ho <;> simp_all

/-- What a query touches beyond the buffer: only a string for a buffer of no bytes. -/
theorem fetch_total (num : Int → UInt64) (v : Option Json) (type : UInt8) (wanted : Bool) (maxlength : Nat)
    (h : type = 115 → wanted = true → maxlength ≠ 0) : ∃ r, fetch num v type wanted maxlength = .ok r := by
  unfold fetch
  cases v with
  | none => exact ⟨_, rfl⟩
  | some u =>
    simp only
    by_cases h1 : type = 110
    · rw [if_pos h1]; cases u <;> exact ⟨_, rfl⟩
    rw [if_neg h1]
    by_cases h2 : type = 105
    · rw [if_pos h2]; cases u <;> exact ⟨_, rfl⟩
    rw [if_neg h2]
    by_cases h3 : type = 115
    · rw [if_pos h3]
      cases u with
      | str s =>
        cases wanted with
        | false => exact ⟨_, rfl⟩
        | true =>
          simp only [if_true]
          unfold copyStr
          rw [if_neg (h h3 rfl)]
          exact ⟨_, rfl⟩
      | _ => exact ⟨_, rfl⟩
    rw [if_neg h3]
    by_cases h4 : type = 98
    · rw [if_pos h4]; cases u <;> exact ⟨_, rfl⟩
    rw [if_neg h4]
    exact ⟨_, rfl⟩

/-! ## Changes -/

theorem docSet_put {v : Option Json} {ptr : List UInt8} (hp : ptr.head? = some 47) (new : Json) :
    Put v ptr new (docSet v ptr new) := by
  cases hd : docSet v ptr new with
  | some w =>
    rcases docSet_spelled hd with e | ⟨t, ts, e⟩
    · rw [e] at hp; cases hp
    · subst e
      by_cases hs : Settable (t :: ts) (v.getD (.obj []))
      · obtain ⟨w', hw, hpl⟩ := (docSet_pointer v t ts new).1 hs
        rw [hw] at hd
        cases hd
        exact .placed rfl hs hpl
      · rw [(docSet_pointer v t ts new).2 hs] at hd
        cases hd
  | none =>
    refine .refused fun t ts e hs => ?_
    subst e
    obtain ⟨w', hw, _⟩ := (docSet_pointer v t ts new).1 hs
    rw [hw] at hd
    cases hd

theorem change_edited {reals : Reals} {v : Option Json} {ptr : List UInt8} {value : Value}
    (hp : (∀ p, value ≠ .merge p) → ptr.head? = some 47) :
    Edited reals.read v ptr value (change (codec reals) v ptr value) := by
  cases value with
  | number d => exact .put rfl (docSet_put (hp (by simp)) _)
  | int d => exact .put rfl (docSet_put (hp (by simp)) _)
  | str d => exact .put rfl (docSet_put (hp (by simp)) _)
  | bool d => exact .put rfl (docSet_put (hp (by simp)) _)
  | put d => exact .put rfl (docSet_put (hp (by simp)) _)
  | other => exact .other
  | append e =>
    have hp := hp (by simp)
    unfold change
    cases hd : docGet v ptr with
    | none => exact .newList ((docGet_none v ptr).1 hd) (docSet_put hp _)
    | some u =>
      obtain ⟨r, ts, rfl, rfl, hu⟩ := (docGet_at v ptr u).1 hd
      cases ts with
      | nil => cases hp
      | cons t ts =>
        simp only
        by_cases ha : ∃ a, u = .arr a
        · obtain ⟨a, rfl⟩ := ha
          obtain ⟨w, hw, hpl⟩ := appendx_pointer e a ts (pointer (t :: ts)).length r t
            (by have := pointer_length (t :: ts); simp only [List.length_cons] at this; omega) hu
          rw [hw]
          exact .appended rfl rfl hu hpl
        · rw [appendx_refused e ts _ r t (fun a h => ha ⟨a, by rw [hu] at h; exact Option.some.inj h⟩)]
          exact .notList ⟨r, t :: ts, rfl, rfl, hu⟩ fun a h => ha ⟨a, h⟩
  | merge patch =>
    unfold change
    show Edited reals.read v ptr (.merge patch) (match Verif.Model.JsonText.read reals patch with
      | none => none
      | some p => match docGet v ptr with
        | none => none
        | some target => docReplace v ptr (mergePatch (some target) p))
    cases hr : Verif.Model.JsonText.read reals patch with
    | none =>
      refine .notMerged fun p u h => ?_
      rw [(read_document reals p patch).2 h] at hr
      cases hr
    | some p =>
      simp only
      cases hd : docGet v ptr with
      | none => exact .notMerged fun _ u _ => (docGet_none v ptr).1 hd u
      | some u =>
        obtain ⟨r, ts, rfl, rfl, hu⟩ := (docGet_at v ptr u).1 hd
        obtain ⟨w, hw, hpl⟩ := docReplace_pointer (mergePatch (some u) p) hu
        simp only
        rw [hw]
        exact .merged ((read_document reals p patch).1 hr) rfl rfl hu (mergePatch_merged (some u) p) hpl

/-! ## Entries -/

/-- One member, or none. -/
def Part (m : Members) (n : String) (P : Json → Prop) : Prop :=
  (m = [] ∧ ∀ v, ¬ P v) ∨ ∃ w, m = [(name n, w)] ∧ ∀ v, P v ↔ v = w

/-- The members in some order. -/
inductive Parts : Members → Fields → Prop
  | nil : Parts [] []
  | cons {m n P l f} : Part m n P → Parts l f → Parts (m ++ l) ((n, P) :: f)

theorem parts_keys {l : Members} {f : Fields} (h : Parts l f) : ∀ k ∈ l.map Prod.fst, k ∈ f.map (fun x => name x.1) := by
  induction h with
  | nil => intro k hk; cases hk
  | @cons m n P l f hp _ ih =>
    intro k hk
    rw [List.map_append, List.mem_append] at hk
    rcases hk with hk | hk
    · rcases hp with ⟨rfl, _⟩ | ⟨w, rfl, _⟩
      · cases hk
      · simp at hk
        rw [hk]; exact List.mem_cons_self ..
    · exact List.mem_cons_of_mem _ (ih k hk)

theorem parts_entry {l : Members} {f : Fields} (h : Parts l f) (hn : (f.map fun x => name x.1).Nodup) :
    Entry f (.obj l) := by
  refine ⟨l, rfl, ?_⟩
  induction h with
  | nil => exact ⟨List.nodup_nil, fun k v => ⟨fun h => (by cases h), fun ⟨_, _, h, _⟩ => (by cases h)⟩⟩
  | @cons m n P l f hp hl ih =>
    rw [List.map_cons, List.nodup_cons] at hn
    obtain ⟨ih1, ih2⟩ := ih hn.2
    have hk : name n ∉ l.map Prod.fst := fun h => hn.1 (parts_keys hl _ h)
    have hnone : ∀ w Q, (w, Q) ∈ f → name w ≠ name n := fun w Q hw e =>
      hn.1 (e ▸ List.mem_map.2 ⟨(w, Q), hw, rfl⟩)
    rcases hp with ⟨rfl, hno⟩ | ⟨w, rfl, hw⟩
    · refine ⟨by simpa using ih1, fun k v => ?_⟩
      show member k l = some v ↔ _
      rw [ih2]
      constructor
      · rintro ⟨n', Q, hm, e, hq⟩
        exact ⟨n', Q, List.mem_cons_of_mem _ hm, e, hq⟩
      · rintro ⟨n', Q, hm, e, hq⟩
        rcases List.mem_cons.1 hm with h | h
        · cases h; exact absurd hq (hno v)
        · exact ⟨n', Q, h, e, hq⟩
    · refine ⟨by simp only [List.cons_append, List.nil_append, List.map_cons, List.nodup_cons]; exact ⟨hk, ih1⟩,
        fun k v => ?_⟩
      show member k ((name n, w) :: l) = some v ↔ _
      rw [member_cons]
      by_cases hkn : name n = k
      · rw [if_pos hkn]
        constructor
        · intro h
          exact ⟨n, P, List.mem_cons_self .., hkn.symm, (hw v).2 (Option.some.inj h).symm⟩
        · rintro ⟨n', Q, hm, e, hq⟩
          rcases List.mem_cons.1 hm with h | h
          · cases h; rw [(hw v).1 hq]
          · exact absurd (e.symm.trans hkn.symm) (hnone n' Q h)
      · rw [if_neg hkn, ih2]
        constructor
        · rintro ⟨n', Q, hm, e, hq⟩
          exact ⟨n', Q, List.mem_cons_of_mem _ hm, e, hq⟩
        · rintro ⟨n', Q, hm, e, hq⟩
          rcases List.mem_cons.1 hm with h | h
          · cases h; exact absurd e.symm hkn
          · exact ⟨n', Q, h, e, hq⟩

theorem part_str (n : String) (s : List UInt8) : Part (strMember n s) n (text s) := by
  unfold strMember
  by_cases h : s = []
  · rw [if_pos h]; exact .inl ⟨rfl, fun v hv => hv.1 h⟩
  · rw [if_neg h]; exact .inr ⟨_, rfl, fun v => ⟨fun hv => hv.2, fun hv => ⟨h, hv⟩⟩⟩

theorem nonzero_iff (d : UInt64) : nonzero d = true ↔ d.toNat % 2 ^ 63 ≠ 0 := by
  unfold nonzero
  rw [decide_eq_true_iff]
  have h0 : d = 0 ↔ d.toNat = 0 := ⟨fun h => by rw [h]; rfl, fun h => UInt64.toNat_inj.1 (by rw [h]; rfl)⟩
  have h1 : d = 0x8000000000000000 ↔ d.toNat = 2 ^ 63 :=
    ⟨fun h => by rw [h]; decide, fun h => UInt64.toNat_inj.1 (by rw [h]; decide)⟩
  have := UInt64.toNat_lt d
  rw [Ne, Ne, h0, h1]
  omega

theorem part_real (n : String) (d : UInt64) : Part (realMember n d) n (number d) := by
  unfold realMember
  by_cases h : nonzero d = true
  · rw [if_pos h]; exact .inr ⟨_, rfl, fun v => ⟨fun hv => hv.2, fun hv => ⟨(nonzero_iff d).1 h, hv⟩⟩⟩
  · rw [if_neg h]; exact .inl ⟨rfl, fun v hv => h ((nonzero_iff d).2 hv.1)⟩

theorem part_int (n : String) (i : Int) : Part (intMember n i) n (count i) := by
  unfold intMember
  by_cases h : i ≥ 0
  · rw [if_pos h]; exact .inr ⟨_, rfl, fun v => ⟨fun hv => hv.2, fun hv => ⟨h, hv⟩⟩⟩
  · rw [if_neg h]; exact .inl ⟨rfl, fun v hv => h hv.1⟩

theorem part_bool (n : String) (i : Int) : Part (boolMember n i) n (truth i) := by
  unfold boolMember
  by_cases h : i ≥ 0
  · rw [if_pos h]; exact .inr ⟨_, rfl, fun v => ⟨fun hv => hv.2, fun hv => ⟨h, hv⟩⟩⟩
  · rw [if_neg h]; exact .inl ⟨rfl, fun v hv => h hv.1⟩

theorem dated_text {t : Int} (ht : Verif.Spec.InInt64 t) {f month mday f' month' mday'} (h : Verif.Props.TimeStr.Dated t f month mday)
    (h' : Verif.Props.TimeStr.Dated t f' month' mday') (sub : Verif.Model.TimeStr.Sub) :
    Verif.Props.TimeStr.shown .isoMonthDayZ (Verif.Props.TimeStr.fractionDigits sub t) f month mday =
      Verif.Props.TimeStr.shown .isoMonthDayZ (Verif.Props.TimeStr.fractionDigits sub t) f' month' mday' := by
  have hc : Verif.Props.TimeStr.Calendar .isoMonthDayZ := ⟨by decide, by decide⟩
  have a := Verif.Props.TimeStr.C08_calendar_text t ht f month mday h .isoMonthDayZ hc sub
  have b := Verif.Props.TimeStr.C08_calendar_text t ht f' month' mday' h' .isoMonthDayZ hc sub
  rw [a] at b
  simp only [Verif.Model.TimeStr.Printed.mk.injEq, Option.some.injEq, true_and] at b
  exact b

theorem part_time (n : String) {t : Int} (ht : Verif.Spec.InInt64 t) : ∃ m, timeMember n t = some m ∧ Part m n (time t) := by
  unfold timeMember
  by_cases h : t ≠ Verif.Model.NSTERROR ∧ t ≠ Verif.Model.NSTUNSET
  · rw [if_pos h]
    obtain ⟨f, month, mday, hd⟩ := Verif.Props.TimeStr.dated_exists t ht
    rw [Verif.Props.TimeStr.C08_calendar_text t ht f month mday hd .isoMonthDayZ ⟨by decide, by decide⟩ .nanoMicroNone]
    refine ⟨_, rfl, .inr ⟨_, rfl, fun v => ⟨?_, ?_⟩⟩⟩
    · rintro ⟨_, _, f', month', mday', hd', rfl⟩
      rw [dated_text ht hd' hd]
      rfl
    · rintro rfl
      exact ⟨h.1, h.2, f, month, mday, hd, rfl⟩
  · rw [if_neg h]
    exact ⟨[], rfl, .inl ⟨rfl, fun v hv => h ⟨hv.1, hv.2.1⟩⟩⟩

theorem geZero_iff (d : UInt64) : geZero d = true ↔ d.toNat ≤ 2047 * 2 ^ 52 ∨ d.toNat = 2 ^ 63 := by
  unfold geZero
  rw [decide_eq_true_iff]
  have h1 : d = 0x8000000000000000 ↔ d.toNat = 2 ^ 63 :=
    ⟨fun h => by rw [h]; decide, fun h => UInt64.toNat_inj.1 (by rw [h]; decide)⟩
  rw [h1]

theorem part_if (n : String) {c : Prop} [Decidable c] {w : Json} {P : Json → Prop} (h : ∀ v, P v ↔ c ∧ v = w) :
    Part (if c then [(lit n, w)] else []) n P := by
  by_cases hc : c
  · rw [if_pos hc]; exact .inr ⟨w, rfl, fun v => ⟨fun hv => ((h v).1 hv).2, fun hv => (h v).2 ⟨hc, hv⟩⟩⟩
  · rw [if_neg hc]; exact .inl ⟨rfl, fun v hv => hc ((h v).1 hv).1⟩

theorem parts_last {m : Members} {n : String} {P : Json → Prop} (h : Part m n P) : Parts m [(n, P)] := by
  have := Parts.cons h .nil
  rw [List.append_nil] at this
  exact this

theorem medsnr_zero (l : List UInt8) (h : l.length = 6) : l ≠ [0, 0, 0, 0, 0, 0] ↔ ∃ b ∈ l, b ≠ 0 := by
  constructor
  · intro hne
    refine Decidable.not_not.1 fun hno => hne ?_
    have : ∀ b ∈ l, b = 0 := fun b hb => Decidable.not_not.1 fun hb' => hno ⟨b, hb, hb'⟩
    rw [List.eq_replicate_of_mem this, h]
    rfl
  · rintro ⟨b, hb, hne⟩ e
    rw [e] at hb
    simp at hb
    exact hne hb

theorem event_entry {e : EventDetection} (h : (Item.event e).Typed) : ∃ v, eventEntry e = some v ∧ Entry (eventFields e) v := by
  obtain ⟨m, hm, hp⟩ := part_time "OnsetTime" h.1
  unfold eventEntry
  rw [hm]
  refine ⟨_, rfl, parts_entry ?_ (by
    show (["Type", "SignalAmplitude", "SignalPeriod", "BackgroundEstimate", "Wave", "Units", "OnsetTime", "MEDSNR", "MEDLookback", "MEDPickAlgorithm", "Detector"].map name).Nodup
    decide +kernel)⟩
  simp only [List.append_assoc]
  exact .cons (part_str _ _) (.cons (part_real _ _) (.cons (part_real _ _) (.cons (part_real _ _) (.cons (part_str _ _)
    (.cons (part_str _ _) (.cons hp (.cons (part_if _ fun v => by rw [medsnr_zero _ h.2]) (.cons (part_int _ _)
    (.cons (part_int _ _) (parts_last (part_str _ _)))))))))))

theorem calibration_entry {e : Calibration} (h : (Item.calibration e).Typed) :
    ∃ v, calibrationEntry e = some v ∧ Entry (calibrationFields e) v := by
  obtain ⟨m, hm, hp⟩ := part_time "BeginTime" h.1
  obtain ⟨m', hm', hp'⟩ := part_time "EndTime" h.2
  unfold calibrationEntry
  rw [hm, Option.bind_some, hm']
  refine ⟨_, rfl, parts_entry ?_ (by
    show (["Type", "BeginTime", "EndTime", "Steps", "StepFirstPulsePositive", "StepAlternateSign", "Trigger", "Continued", "Amplitude", "InputUnits", "AmplitudeRange", "Duration", "SinePeriod", "StepBetween", "InputChannel", "ReferenceAmplitude", "Coupling", "Rolloff", "Noise"].map name).Nodup
    decide +kernel)⟩
  simp only [List.append_assoc]
  exact .cons (part_str _ _) (.cons hp (.cons hp' (.cons (part_int _ _) (.cons (part_bool _ _) (.cons (part_bool _ _)
    (.cons (part_str _ _) (.cons (part_bool _ _) (.cons (part_real _ _) (.cons (part_str _ _) (.cons (part_str _ _)
    (.cons (part_real _ _) (.cons (part_real _ _) (.cons (part_real _ _) (.cons (part_str _ _) (.cons (part_real _ _)
    (.cons (part_str _ _) (.cons (part_str _ _) (parts_last (part_str _ _)))))))))))))))))))

theorem exception_entry {e : TimingException} (h : (Item.exception e).Typed) :
    ∃ v, exceptionEntry e = some v ∧ Entry (exceptionFields e) v := by
  obtain ⟨m, hm, hp⟩ := part_time "Time" h
  unfold exceptionEntry
  rw [hm]
  refine ⟨_, rfl, parts_entry ?_ (by
    show (["Time", "VCOCorrection", "ReceptionQuality", "Count", "Type", "ClockStatus"].map name).Nodup
    decide +kernel)⟩
  simp only [List.append_assoc]
  exact .cons hp (.cons (part_if _ fun v => by rw [geZero_iff]) (.cons (part_int _ _) (.cons (part_if _ fun v => Iff.rfl)
    (.cons (part_str _ _) (parts_last (part_str _ _))))))

theorem recenter_entry {e : Recenter} (h : (Item.recenter e).Typed) :
    ∃ v, recenterEntry e = some v ∧ Entry (recenterFields e) v := by
  obtain ⟨m, hm, hp⟩ := part_time "BeginTime" h.1
  obtain ⟨m', hm', hp'⟩ := part_time "EndTime" h.2
  unfold recenterEntry
  rw [hm, Option.bind_some, hm']
  refine ⟨_, rfl, parts_entry ?_ (by
    show (["Type", "BeginTime", "EndTime", "Trigger"].map name).Nodup
    decide +kernel)⟩
  simp only [List.append_assoc]
  exact .cons (part_str _ _) (.cons hp (.cons hp' (parts_last (part_str _ _))))

/-- What is added is an entry, appended. -/
theorem item_add {item : Item} (h : item.Typed) (c : Codec) (extra : List UInt8) (state : Option State)
    (ptr : Option (List UInt8)) : ∃ v, Entry item.fields v ∧
      item.add c extra state ptr = (let r := setr c extra state (ptr.getD (pointer item.list)) (.append v)
        (if r.1 ≠ 0 then generror else 0, r.2)) := by
  cases item with
  | event e =>
    obtain ⟨v, hv, he⟩ := event_entry h
    have hp : pointer [name "FDSN", name "Event", name "Detection"] = lit "/FDSN/Event/Detection" := by decide +kernel
    exact ⟨v, he, by unfold Item.list; rw [hp]; show addr _ _ _ _ _ _ = _; rw [hv]; rfl⟩
  | calibration e =>
    obtain ⟨v, hv, he⟩ := calibration_entry h
    have hp : pointer [name "FDSN", name "Calibration", name "Sequence"] = lit "/FDSN/Calibration/Sequence" := by decide +kernel
    exact ⟨v, he, by unfold Item.list; rw [hp]; show addr _ _ _ _ _ _ = _; rw [hv]; rfl⟩
  | exception e =>
    obtain ⟨v, hv, he⟩ := exception_entry h
    have hp : pointer [name "FDSN", name "Time", name "Exception"] = lit "/FDSN/Time/Exception" := by decide +kernel
    exact ⟨v, he, by unfold Item.list; rw [hp]; show addr _ _ _ _ _ _ = _; rw [hv]; rfl⟩
  | recenter e =>
    obtain ⟨v, hv, he⟩ := recenter_entry h
    have hp : pointer [name "FDSN", name "Recenter", name "Sequence"] = lit "/FDSN/Recenter/Sequence" := by decide +kernel
    exact ⟨v, he, by unfold Item.list; rw [hp]; show addr _ _ _ _ _ _ = _; rw [hv]; rfl⟩

/-! ## States -/

/-- A state of a record: nothing yet, the value read from the record's text, or a value that was changed. -/
def Inv (reals : Reals) (extra : List UInt8) (state : Option State) (h : Held) : Prop :=
  Holds reals.read extra h.record ∧ (h.record ≠ none → h.current ≠ none) ∧
  match state with
  | none => h.current = h.record
  | some s => (s.edit = some h.current ∧ (s.doc = none ∨ s.doc = h.current)) ∨
      (s.edit = none ∧ s.doc = h.current ∧ h.current = h.record)

theorem inv_start {reals : Reals} {extra : List UInt8} {r : Option Json} (h : Holds reals.read extra r) :
    Inv reals extra none ⟨r, r⟩ := ⟨h, id, rfl⟩

/-- The state used by a call. -/
theorem inv_state {reals : Reals} {extra : List UInt8} {state : Option State} {h : Held} (hi : Inv reals extra state h) :
    ∃ s, parsed (codec reals) extra state = some s ∧ Inv reals extra (some s) h := by
  cases state with
  | some s => exact ⟨s, rfl, hi⟩
  | none =>
    refine ⟨⟨h.record, none⟩, holds_iff.1 hi.1, hi.1, hi.2.1, .inr ⟨rfl, hi.2.2.symm, hi.2.2⟩⟩

theorem getr_does {reals : Reals} {num : Int → UInt64} {extra : List UInt8} {state : Option State} {h : Held}
    (hi : Inv reals extra state h) {ptr : List UInt8} {type : UInt8} {wanted : Bool} {maxlength : Nat} {ret : Int}
    {got : Got} {st : Option State}
    (hg : getr (codec reals) num extra state ptr type wanted maxlength = .ok (ret, got, st)) :
    Does reals num h (.get ptr type wanted maxlength) ret got h ∧ Inv reals extra st h := by
  unfold getr at hg
  by_cases he : extra = []
  · rw [if_pos he] at hg
    cases hg
    have hr : h.record = none := holds_nil (he ▸ hi.1)
    exact ⟨.noHeaders hr, hi⟩
  rw [if_neg he] at hg
  have hr : h.record ≠ none := by
    intro e
    have := hi.1
    rw [e] at this
    exact he this
  by_cases hp : ptr.head? ≠ some 47
  · rw [if_pos hp] at hg
    cases hg
    exact ⟨.get hr (.malformed hp), hi⟩
  rw [if_neg hp] at hg
  obtain ⟨s, hs, hi'⟩ := inv_state hi
  rw [hs] at hg
  simp only at hg
  obtain ⟨v, hv⟩ := Option.ne_none_iff_exists'.1 (hi.2.1 hr)
  have him : ∃ s', immutable s = some s' ∧ s'.doc = h.current ∧ Inv reals extra (some s') h := by
    obtain ⟨_, _, hc⟩ := hi'
    unfold immutable
    obtain ⟨doc, edit⟩ := s
    rcases hc with ⟨h1, h2⟩ | ⟨h1, h2, h3⟩
    · simp only at h1 h2
      subst h1
      rcases h2 with rfl | rfl
      · rw [hv]
        exact ⟨⟨some v, some (some v)⟩, rfl, rfl, hi.1, hi.2.1, .inl ⟨by rw [hv], .inr hv.symm⟩⟩
      · rw [hv]
        exact ⟨⟨some v, some (some v)⟩, rfl, rfl, hi.1, hi.2.1, .inl ⟨by rw [hv], .inr hv.symm⟩⟩
    · simp only at h1 h2
      subst h1 h2
      exact ⟨_, rfl, rfl, hi.1, hi.2.1, .inr ⟨rfl, rfl, h3⟩⟩
  obtain ⟨s', h1, h2, h3⟩ := him
  rw [h1] at hg
  simp only at hg
  obtain ⟨r, hf, hr'⟩ := Verif.Proof.Mem.bind_eq_ok.1 hg
  cases hr'
  rw [h2] at hf
  exact ⟨.get hr (fetch_answer (Decidable.not_not.1 hp) hf), h3⟩

theorem setr_does {reals : Reals} {num : Int → UInt64} {extra : List UInt8} {state : Option State} {h : Held}
    (hi : Inv reals extra state h) (ptr : List UInt8) (value : Value) :
    ∃ h', Does reals num h (.set ptr value) (setr (codec reals) extra state ptr value).1 .nothing h' ∧
      Inv reals extra (setr (codec reals) extra state ptr value).2 h' := by
  unfold setr
  by_cases hm : ptr.head? ≠ some 47 ∧ value.isMerge = false
  · rw [if_pos hm]
    refine ⟨h, .refused ?_, hi⟩
    have hput : ∀ new, Put h.current ptr new none := fun new => .refused fun t ts e => by
      subst e
      exact absurd (by rw [pointer_cons]; rfl) hm.1
    cases value with
    | merge p => cases hm.2
    | append e => exact .root hm.1
    | other => exact .other
    | number d => exact .put rfl (hput _)
    | int d => exact .put rfl (hput _)
    | str d => exact .put rfl (hput _)
    | bool d => exact .put rfl (hput _)
    | put d => exact .put rfl (hput _)
  rw [if_neg hm]
  have hp : (∀ p, value ≠ .merge p) → ptr.head? = some 47 := by
    intro hv
    refine Decidable.not_not.1 fun hc => hm ⟨hc, ?_⟩
    cases value with
    | merge p => exact absurd rfl (hv p)
    | _ => rfl
  obtain ⟨s, hs, hi'⟩ := inv_state hi
  rw [hs]
  simp only
  have hroot : s.edit.getD s.doc = h.current := by
    rcases hi'.2.2 with ⟨h1, _⟩ | ⟨h1, h2, _⟩
    · rw [h1]; rfl
    · rw [h1]; exact h2
  rw [hroot]
  have hc := change_edited (reals := reals) (v := h.current) (ptr := ptr) hp
  cases hch : change (codec reals) h.current ptr value with
  | none =>
    rw [hch] at hc
    refine ⟨h, .refused hc, hi.1, hi.2.1, .inl ⟨rfl, ?_⟩⟩
    rcases hi'.2.2 with ⟨_, h2⟩ | ⟨_, h2, _⟩
    · exact h2
    · exact .inr h2
  | some w =>
    rw [hch] at hc
    exact ⟨⟨h.record, some w⟩, .set hc, hi.1, fun _ => by simp, .inl ⟨rfl, .inl rfl⟩⟩

theorem serialize_does {reals : Reals} (hl : Verif.Props.JsonText.LawfulReals reals) {num : Int → UInt64} {extra : List UInt8} {state : Option State}
    {h : Held} (hi : Inv reals extra state h) :
    ∃ h', Does reals num h .serialize (serialize (codec reals) extra state).1 .nothing h' ∧
      Inv reals (serialize (codec reals) extra state).2 state h' := by
  unfold serialize
  cases state with
  | none => exact ⟨h, .unchanged hi.2.2.symm, hi⟩
  | some s =>
    simp only
    rcases hi.2.2 with ⟨h1, h2⟩ | ⟨h1, h2, h3⟩
    · rw [h1]
      simp only
      have e : (h.current.bind (codec reals).write) = h.current.bind (write reals) := rfl
      rw [e]
      cases hc : h.current with
      | none =>
        refine ⟨h, .unwritten fun v hv => ?_, hi⟩
        rw [hc] at hv; cases hv
      | some v =>
        rw [Option.bind_some]
        cases hw : write reals v with
        | none =>
          refine ⟨h, .unwritten fun v' hv hp => ?_, hi⟩
          rw [hc] at hv
          cases hv
          obtain ⟨t, ht⟩ := write_complete hl v hp
          rw [ht] at hw
          cases hw
        | some t =>
          simp only
          by_cases ht : t.length > 65535
          · rw [if_pos ht]
            refine ⟨h, .unwritten fun v' hv hp => ?_, hi⟩
            rw [hc] at hv
            cases hv
            exact ⟨t, hw, ht⟩
          · rw [if_neg ht]
            have hd : Document reals.read v t := (read_document reals v t).1 (read_write hl hw)
            refine ⟨⟨h.current, h.current⟩, .serialized hc hd (by omega), ?_, id, .inl ⟨h1, h2⟩⟩
            show Holds reals.read t h.current
            rw [hc]
            exact hd
    · rw [h1]
      exact ⟨h, .unchanged h3.symm, hi⟩

theorem setr_edits {reals : Reals} {num : Int → UInt64} {extra : List UInt8} {state : Option State} {h : Held}
    (hi : Inv reals extra state h) (ptr : List UInt8) (value : Value) :
    ∃ r, Edited reals.read h.current ptr value r ∧
      (setr (codec reals) extra state ptr value).1 = (match r with | none => -1 | some _ => 0) ∧
      Inv reals extra (setr (codec reals) extra state ptr value).2 (match r with | none => h | some w => ⟨h.record, some w⟩) := by
  obtain ⟨h', hd, hi'⟩ := setr_does (num := num) hi ptr value
  generalize setr (codec reals) extra state ptr value = q at hd hi'
  obtain ⟨ret, st⟩ := q
  simp only at hd hi'
  cases hd with
  | set he => exact ⟨_, he, rfl, hi'⟩
  | refused he => exact ⟨_, he, rfl, hi'⟩

theorem add_does {reals : Reals} {num : Int → UInt64} {extra : List UInt8} {state : Option State} {h : Held}
    (hi : Inv reals extra state h) (ptr : Option (List UInt8)) {item : Item} (ht : item.Typed) :
    ∃ h', Does reals num h (.add ptr item) (item.add (codec reals) extra state ptr).1 .nothing h' ∧
      Inv reals extra (item.add (codec reals) extra state ptr).2 h' := by
  obtain ⟨v, he, ha⟩ := item_add ht (codec reals) extra state ptr
  obtain ⟨r, hr, h1, h2⟩ := setr_edits (num := num) hi (ptr.getD (pointer item.list)) (.append v)
  rw [ha]
  simp only
  rw [h1]
  cases r with
  | none => exact ⟨h, .notAdded he hr, h2⟩
  | some w => exact ⟨_, .added he hr, h2⟩

theorem call_does {reals : Reals} (hl : Verif.Props.JsonText.LawfulReals reals) {num : Int → UInt64} {extra : List UInt8} {state : Option State}
    {h : Held} (hi : Inv reals extra state h) {op : Op} (ht : op.Typed) {ret : Int} {got : Got} {extra' : List UInt8}
    {state' : Option State} (hc : call reals num extra state op = .ok (ret, got, extra', state')) :
    ∃ h', Does reals num h op ret got h' ∧ Inv reals extra' state' h' := by
  cases op with
  | get ptr type wanted maxlength =>
    obtain ⟨⟨a, b, c⟩, hr, he⟩ := Verif.Proof.Mem.bind_eq_ok.1 hc
    cases he
    exact ⟨h, getr_does hi hr⟩
  | set ptr value =>
    cases hc
    exact setr_does hi ptr value
  | add ptr item =>
    cases hc
    exact add_does hi ptr ht
  | serialize =>
    cases hc
    exact serialize_does hl hi

theorem calls_session {reals : Reals} (hl : Verif.Props.JsonText.LawfulReals reals) {num : Int → UInt64} : ∀ (ops : List Op)
    {extra : List UInt8} {state : Option State} {h : Held}, Inv reals extra state h → (∀ op ∈ ops, op.Typed) → ∀ {l : List (Op × Int × Got)}
    {extra' : List UInt8} {state' : Option State}, calls reals num extra state ops = .ok (l, extra', state') →
    l.map Prod.fst = ops ∧ ∃ h', Session reals num h l h' ∧ Inv reals extra' state' h'
  | [], extra, state, h, hi, ht, l, extra', state', hc => by
    cases hc
    exact ⟨rfl, h, .nil, hi⟩
  | op :: ops, extra, state, h, hi, ht, l, extra', state', hc => by
    obtain ⟨⟨ret, got, e1, s1⟩, h1, h2⟩ := Verif.Proof.Mem.bind_eq_ok.1 hc
    obtain ⟨⟨m, e2, s2⟩, h3, h4⟩ := Verif.Proof.Mem.bind_eq_ok.1 h2
    cases h4
    obtain ⟨h', hd, hi'⟩ := call_does hl hi (ht op (List.mem_cons_self ..)) h1
    obtain ⟨hm, h'', hs, hi''⟩ := calls_session hl ops hi' (fun o ho => ht o (List.mem_cons_of_mem _ ho)) h3
    exact ⟨by rw [List.map_cons, hm], h'', .cons hd hs, hi''⟩

theorem session_last {reals : Reals} {num : Int → UInt64} {x : Op × Int × Got} : ∀ (l : List (Op × Int × Got)) {h h' : Held},
    Session reals num h (l ++ [x]) h' → ∃ m, Session reals num h l m ∧ Does reals num m x.1 x.2.1 x.2.2 h'
  | [], h, h', hs => by
    cases hs with
    | cons hd hs => cases hs; exact ⟨h, .nil, hd⟩
  | y :: l, h, h', hs => by
    cases hs with
    | cons hd hs =>
      obtain ⟨m, hm, hx⟩ := session_last l hs
      exact ⟨m, .cons hd hm, hx⟩

/-- A call without a state. -/
theorem set_written {reals : Reals} (hl : Verif.Props.JsonText.LawfulReals reals) {extra : List UInt8} {v : Option Json}
    (h : Holds reals.read extra v) (ptr : List UInt8) (value : Value) :
    ∃ r, Edited reals.read v ptr value r ∧
      (Verif.Model.ExtraHeaders.set (codec reals) extra ptr value).1 = (match r with | none => -1 | some _ => 0) ∧
      (match r with
      | none => Holds reals.read (Verif.Model.ExtraHeaders.set (codec reals) extra ptr value).2 v
      | some w => Written reals w extra (Verif.Model.ExtraHeaders.set (codec reals) extra ptr value).2) := by
  obtain ⟨r, hr, h1, h2⟩ := setr_edits (num := fun _ => 0) (inv_start h) ptr value
  refine ⟨r, hr, h1, ?_⟩
  have hs : (Verif.Model.ExtraHeaders.set (codec reals) extra ptr value).2 =
    (serialize (codec reals) extra (setr (codec reals) extra none ptr value).2).2 := rfl
  rw [hs]
  cases r with
  | none =>
    obtain ⟨h', hd, hi⟩ := serialize_does hl (num := fun _ => 0) h2
    simp only
    generalize serialize (codec reals) extra (setr (codec reals) extra none ptr value).2 = q at hd hi
    obtain ⟨ret, e⟩ := q
    cases hd with
    | unchanged _ => exact hi.1
    | serialized _ _ _ => exact hi.1
    | unwritten _ => exact hi.1
  | some w =>
    simp only at h2 ⊢
    generalize hst : (setr (codec reals) extra none ptr value).2 = st at h2
    have hedit : ∃ d, st = some ⟨d, some (some w)⟩ := by
      unfold setr at hst h1
      by_cases hm : ptr.head? ≠ some 47 ∧ value.isMerge = false
      · rw [if_pos hm] at h1; cases h1
      · rw [if_neg hm] at h1 hst
        cases hp : parsed (codec reals) extra none with
        | none => rw [hp] at h1; cases h1
        | some s =>
          rw [hp] at h1 hst
          simp only at h1 hst
          cases hc : change (codec reals) (s.edit.getD s.doc) ptr value with
          | none => rw [hc] at h1; cases h1
          | some w' =>
            rw [hc] at hst
            simp only at hst
            subst hst
            obtain ⟨_, _, h3⟩ := h2
            rcases h3 with ⟨h3, _⟩ | ⟨h3, _⟩
            · have : w' = w := Option.some.inj (Option.some.inj h3)
              exact ⟨none, by rw [this]⟩
            · cases h3
    obtain ⟨d, rfl⟩ := hedit
    have e : serialize (codec reals) extra (some ⟨d, some (some w)⟩) = (match write reals w with
      | none => (generror, extra)
      | some t => if t.length > 65535 then (generror, extra) else (t.length, t)) := rfl
    rw [e]
    cases hw : write reals w with
    | none =>
      refine .inr ⟨rfl, fun hp => ?_⟩
      obtain ⟨t, ht⟩ := write_complete hl w hp
      rw [ht] at hw
      cases hw
    | some t =>
      simp only
      by_cases ht : t.length > 65535
      · rw [if_pos ht]
        exact .inr ⟨rfl, fun _ => ⟨t, hw, ht⟩⟩
      · rw [if_neg ht]
        exact .inl ⟨(read_document reals w t).1 (read_write hl hw), by simp only; omega⟩

theorem item_addNow {item : Item} (h : item.Typed) (c : Codec) (extra : List UInt8)
    (ptr : Option (List UInt8)) : ∃ v, Entry item.fields v ∧
      item.addNow c extra ptr =
        (if (Verif.Model.ExtraHeaders.set c extra (ptr.getD (pointer item.list)) (.append v)).1 ≠ 0 then generror else 0,
          (Verif.Model.ExtraHeaders.set c extra (ptr.getD (pointer item.list)) (.append v)).2) := by
  cases item with
  | event e =>
    obtain ⟨v, hv, he⟩ := event_entry h
    have hp : pointer [name "FDSN", name "Event", name "Detection"] = lit "/FDSN/Event/Detection" := by decide +kernel
    exact ⟨v, he, by unfold Item.list; rw [hp]; show add _ _ _ _ _ = _; rw [hv]; rfl⟩
  | calibration e =>
    obtain ⟨v, hv, he⟩ := calibration_entry h
    have hp : pointer [name "FDSN", name "Calibration", name "Sequence"] = lit "/FDSN/Calibration/Sequence" := by
      decide +kernel
    exact ⟨v, he, by unfold Item.list; rw [hp]; show add _ _ _ _ _ = _; rw [hv]; rfl⟩
  | exception e =>
    obtain ⟨v, hv, he⟩ := exception_entry h
    have hp : pointer [name "FDSN", name "Time", name "Exception"] = lit "/FDSN/Time/Exception" := by decide +kernel
    exact ⟨v, he, by unfold Item.list; rw [hp]; show add _ _ _ _ _ = _; rw [hv]; rfl⟩
  | recenter e =>
    obtain ⟨v, hv, he⟩ := recenter_entry h
    have hp : pointer [name "FDSN", name "Recenter", name "Sequence"] = lit "/FDSN/Recenter/Sequence" := by decide +kernel
    exact ⟨v, he, by unfold Item.list; rw [hp]; show add _ _ _ _ _ = _; rw [hv]; rfl⟩

end Verif.Proof.ExtraHeaders
