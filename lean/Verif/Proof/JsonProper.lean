import Verif.Spec.JsonText
import Verif.Proof.Json
/-!
# Changes keep values writable
-/
namespace Verif.Proof.Json
open Verif.Spec.Json Verif.Model.Json

theorem properMembers_iff (l : List (List UInt8 × Json)) :
    ProperMembers l ↔ ∀ x ∈ l, Utf8 x.1 ∧ Proper x.2 := by
  induction l with
  | nil => simp [ProperMembers]
  | cons y l ih =>
    obtain ⟨k, v⟩ := y
    rw [ProperMembers, ih]
    simp [and_assoc]

theorem properItems_iff (l : List Json) : ProperItems l ↔ ∀ x ∈ l, Proper x := by
  induction l with
  | nil => simp [ProperItems]
  | cons y l ih =>
    rw [ProperItems, ih]
    simp

theorem proper_obj (l : List (List UInt8 × Json)) : Proper (.obj l) ↔ ∀ x ∈ l, Utf8 x.1 ∧ Proper x.2 := by
  rw [Proper, properMembers_iff]

theorem proper_arr (l : List Json) : Proper (.arr l) ↔ ∀ x ∈ l, Proper x := by
  rw [Proper, properItems_iff]

theorem objPut_mem {k : List UInt8} {v : Json} : ∀ {l : List (List UInt8 × Json)} {x}, x ∈ objPut k v l →
    x ∈ l ∨ ∃ w, (x.1, w) ∈ l ∧ x.2 = v
  | [], x, h => by cases h
  | (k', w) :: l, x, h => by
    unfold objPut at h
    split at h
    · rcases List.mem_cons.1 h with rfl | h
      · exact .inr ⟨w, List.mem_cons_self, rfl⟩
      · exact .inl (List.mem_cons_of_mem _ (List.mem_filter.1 h).1)
    · rcases List.mem_cons.1 h with rfl | h
      · exact .inl List.mem_cons_self
      · rcases objPut_mem h with h | ⟨u, h, e⟩
        · exact .inl (List.mem_cons_of_mem _ h)
        · exact .inr ⟨u, List.mem_cons_of_mem _ h, e⟩

theorem inMember_mem {t : Tok} {v : Json} : ∀ {l : List (List UInt8 × Json)} {x}, x ∈ inMember t v l →
    x ∈ l ∨ ∃ w, (x.1, w) ∈ l ∧ x.2 = v
  | [], x, h => by cases h
  | (k', w) :: l, x, h => by
    unfold inMember at h
    split at h
    · rcases List.mem_cons.1 h with rfl | h
      · exact .inr ⟨w, List.mem_cons_self, rfl⟩
      · exact .inl (List.mem_cons_of_mem _ h)
    · rcases List.mem_cons.1 h with rfl | h
      · exact .inl List.mem_cons_self
      · rcases inMember_mem h with h | ⟨u, h, e⟩
        · exact .inl (List.mem_cons_of_mem _ h)
        · exact .inr ⟨u, List.mem_cons_of_mem _ h, e⟩

theorem proper_objPut {k : List UInt8} {v : Json} {l : List (List UInt8 × Json)} (h : Proper (.obj l)) (hv : Proper v) :
    Proper (.obj (objPut k v l)) := by
  rw [proper_obj] at h ⊢
  intro x hx
  rcases objPut_mem hx with hx | ⟨w, hw, e⟩
  · exact h x hx
  · exact ⟨(h _ hw).1, e ▸ hv⟩

theorem proper_inMember {t : Tok} {v : Json} {l : List (List UInt8 × Json)} (h : Proper (.obj l)) (hv : Proper v) :
    Proper (.obj (inMember t v l)) := by
  rw [proper_obj] at h ⊢
  intro x hx
  rcases inMember_mem hx with hx | ⟨w, hw, e⟩
  · exact h x hx
  · exact ⟨(h _ hw).1, e ▸ hv⟩

theorem member_mem {k : Token} {l : List (List UInt8 × Json)} {v : Json} (h : member k l = some v) : (k, v) ∈ l := by
  unfold member at h
  obtain ⟨x, h1, rfl⟩ := Option.map_eq_some_iff.1 h
  have h2 := List.find?_some h1
  simp only [decide_eq_true_eq] at h2
  have h3 := List.mem_of_find?_eq_some h1
  rw [← h2]
  exact h3

theorem proper_member {k : Token} {l : List (List UInt8 × Json)} {v : Json} (h : Proper (.obj l))
    (hm : member k l = some v) : Proper v := ((proper_obj l).1 h _ (member_mem hm)).2

theorem proper_snoc {l : List (List UInt8 × Json)} {k : List UInt8} {v : Json} (h : Proper (.obj l)) (hk : Utf8 k)
    (hv : Proper v) : Proper (.obj (l ++ [(k, v)])) := by
  rw [proper_obj] at h ⊢
  intro x hx
  rcases List.mem_append.1 hx with hx | hx
  · exact h x hx
  · rw [List.mem_singleton.1 hx]; exact ⟨hk, hv⟩

theorem proper_set {l : List Json} {i : Nat} {v : Json} (h : Proper (.arr l)) (hv : Proper v) : Proper (.arr (l.set i v)) := by
  rw [proper_arr] at h ⊢
  intro x hx
  rcases List.mem_or_eq_of_mem_set hx with hx | rfl
  · exact h x hx
  · exact hv

theorem proper_get {l : List Json} {i : Nat} {v : Json} (h : Proper (.arr l)) (hi : l[i]? = some v) : Proper v :=
  (proper_arr l).1 h v (List.mem_of_getElem? hi)

theorem create_proper (new : Json) (hn : Proper new) (ts : List Token) : ∀ (fuel : Nat) (t : Token) (w : Json),
    (∀ k ∈ t :: ts, Utf8 k) → create fuel (pointer (t :: ts)) new = some w → Proper w := by
  induction ts with
  | nil =>
    intro fuel t w hu h
    cases fuel with
    | zero => cases h
    | succ f =>
      obtain ⟨k, h1, h2⟩ := nextToken_pointer t (pointer_after [])
      rw [pointer_cons] at h
      unfold create at h
      rw [h1] at h
      simp only [newKey_spells h2] at h
      rw [if_pos (by simp [pointer])] at h
      cases h
      exact proper_snoc (l := []) (by simp [Proper, ProperMembers]) (hu t List.mem_cons_self) hn
  | cons s ts ih =>
    intro fuel t w hu h
    cases fuel with
    | zero => cases h
    | succ f =>
      obtain ⟨k, h1, h2⟩ := nextToken_pointer t (pointer_after (s :: ts))
      rw [pointer_cons] at h
      unfold create at h
      rw [h1] at h
      simp only [newKey_spells h2] at h
      rw [if_neg (by rw [pointer_nil_iff]; simp)] at h
      obtain ⟨w', h3, rfl⟩ := Option.map_eq_some_iff.1 h
      exact proper_snoc (l := []) (by simp [Proper, ProperMembers]) (hu t List.mem_cons_self)
        (ih f s w' (fun k hk => hu k (List.mem_cons_of_mem _ hk)) h3)

theorem putx_proper (new : Json) (hn : Proper new) (ts : List Token) : ∀ (fuel : Nat) (v : Json) (t : Token) (w : Json),
    (∀ k ∈ t :: ts, Utf8 k) → Proper v → putx fuel v (pointer (t :: ts)) new = some w → Proper w := by
  induction ts with
  | nil =>
    intro fuel v t w hu hv h
    cases fuel with
    | zero => cases h
    | succ f =>
      obtain ⟨k, h1, h2⟩ := nextToken_pointer t (pointer_after [])
      rw [pointer_cons] at h
      unfold putx at h
      rw [h1] at h
      simp only [newKey_spells h2] at h
      cases v with
      | obj l =>
        simp only at h
        cases hg : objGet k l with
        | none =>
          rw [hg] at h
          simp only at h
          rw [if_pos (by simp [pointer])] at h
          cases h
          exact proper_snoc hv (hu t List.mem_cons_self) hn
        | some u =>
          rw [hg] at h
          simp only at h
          rw [if_pos (by simp [pointer])] at h
          cases h
          exact proper_objPut hv hn
      | arr l =>
        simp only at h
        cases hg : arrGet l k with
        | none => rw [hg] at h; cases h
        | some i =>
          rw [hg] at h
          simp only at h
          rw [if_pos (by simp [pointer])] at h
          cases h
          exact proper_set hv hn
      | _ => cases h
  | cons s ts ih =>
    intro fuel v t w hu hv h
    cases fuel with
    | zero => cases h
    | succ f =>
      obtain ⟨k, h1, h2⟩ := nextToken_pointer t (pointer_after (s :: ts))
      have hu' : ∀ k ∈ s :: ts, Utf8 k := fun k hk => hu k (List.mem_cons_of_mem _ hk)
      rw [pointer_cons] at h
      unfold putx at h
      rw [h1] at h
      simp only [newKey_spells h2] at h
      cases v with
      | obj l =>
        simp only at h
        rw [objGet_spells h2] at h
        cases hg : member t l with
        | none =>
          rw [hg] at h
          simp only at h
          rw [if_neg (by rw [pointer_nil_iff]; simp)] at h
          obtain ⟨w', h3, rfl⟩ := Option.map_eq_some_iff.1 h
          exact proper_snoc hv (hu t List.mem_cons_self) (create_proper new hn ts f s w' hu' h3)
        | some u =>
          rw [hg] at h
          simp only at h
          rw [if_neg (by rw [pointer_nil_iff]; simp)] at h
          obtain ⟨w', h3, rfl⟩ := Option.map_eq_some_iff.1 h
          exact proper_inMember hv (ih f u s w' hu' (proper_member hv hg) h3)
      | arr l =>
        simp only at h
        cases hg : arrGet l k with
        | none => rw [hg] at h; cases h
        | some i =>
          rw [hg] at h
          simp only at h
          rw [if_neg (by rw [pointer_nil_iff]; simp)] at h
          obtain ⟨w', h3, rfl⟩ := Option.map_eq_some_iff.1 h
          obtain ⟨u, h4, h5⟩ := Option.bind_eq_some_iff.1 h3
          exact proper_set hv (ih f u s w' hu' (proper_get hv h4) h5)
      | _ => cases h

theorem proper_arr_snoc {a : List Json} {e : Json} (h : Proper (.arr a)) (he : Proper e) : Proper (.arr (a ++ [e])) := by
  rw [proper_arr] at h ⊢
  intro x hx
  rcases List.mem_append.1 hx with hx | hx
  · exact h x hx
  · rw [List.mem_singleton.1 hx]; exact he

theorem appendx_proper (new : Json) (hn : Proper new) (ts : List Token) : ∀ (fuel : Nat) (v : Json) (t : Token) (w : Json),
    Proper v → appendx fuel v (pointer (t :: ts)) new = some w → Proper w := by
  induction ts with
  | nil =>
    intro fuel v t w hv h
    cases fuel with
    | zero => cases h
    | succ f =>
      obtain ⟨k, h1, h2⟩ := nextToken_pointer t (pointer_after [])
      rw [pointer_cons] at h
      unfold appendx at h
      rw [h1] at h
      simp only at h
      cases v with
      | obj l =>
        simp only at h
        rw [objGet_spells h2] at h
        cases hg : member t l with
        | none => rw [hg] at h; cases h
        | some u =>
          rw [hg] at h
          simp only at h
          rw [if_pos (by simp [pointer])] at h
          cases u with
          | arr a => cases h; exact proper_inMember hv (proper_arr_snoc (proper_member hv hg) hn)
          | _ => cases h
      | arr l =>
        simp only at h
        cases hg : arrGet l k with
        | none => rw [hg] at h; cases h
        | some i =>
          rw [hg] at h
          simp only at h
          rw [if_pos (by simp [pointer])] at h
          cases hi : l[i]? with
          | none => rw [hi] at h; cases h
          | some u =>
            rw [hi] at h
            cases u with
            | arr a => cases h; exact proper_set hv (proper_arr_snoc (proper_get hv hi) hn)
            | _ => cases h
      | _ => cases h
  | cons s ts ih =>
    intro fuel v t w hv h
    cases fuel with
    | zero => cases h
    | succ f =>
      obtain ⟨k, h1, h2⟩ := nextToken_pointer t (pointer_after (s :: ts))
      rw [pointer_cons] at h
      unfold appendx at h
      rw [h1] at h
      simp only at h
      cases v with
      | obj l =>
        simp only at h
        rw [objGet_spells h2] at h
        cases hg : member t l with
        | none => rw [hg] at h; cases h
        | some u =>
          rw [hg] at h
          simp only at h
          rw [if_neg (by rw [pointer_nil_iff]; simp)] at h
          obtain ⟨w', h3, rfl⟩ := Option.map_eq_some_iff.1 h
          exact proper_inMember hv (ih f u s w' (proper_member hv hg) h3)
      | arr l =>
        simp only at h
        cases hg : arrGet l k with
        | none => rw [hg] at h; cases h
        | some i =>
          rw [hg] at h
          simp only at h
          rw [if_neg (by rw [pointer_nil_iff]; simp)] at h
          obtain ⟨w', h3, rfl⟩ := Option.map_eq_some_iff.1 h
          obtain ⟨u, h4, h5⟩ := Option.bind_eq_some_iff.1 h3
          exact proper_set hv (ih f u s w' (proper_get hv h4) h5)
      | _ => cases h

theorem docSet_proper {root : Option Json} {t : Token} {ts : List Token} {new w : Json} (hu : ∀ k ∈ t :: ts, Utf8 k)
    (hr : ∀ r, root = some r → Proper r) (hn : Proper new) (h : docSet root (pointer (t :: ts)) new = some w) : Proper w := by
  unfold docSet at h
  rw [if_neg (by rw [pointer_nil_iff]; simp), if_neg (by rw [pointer_cons]; simp)] at h
  refine putx_proper new hn ts _ _ t w hu ?_ h
  cases root with
  | none => simp [Proper, ProperMembers]
  | some r => exact hr r rfl

/-- ASCII texts are texts. -/
theorem utf8_ascii : ∀ (s : List UInt8), (∀ c ∈ s, c.toNat < 128) → Utf8 s
  | [], _ => .nil
  | c :: s, h => by
    have hc := h c List.mem_cons_self
    have := Utf8.char (n := c.toNat) (.inl (by omega)) (utf8_ascii s fun d hd => h d (List.mem_cons_of_mem _ hd))
    have e : utf8 c.toNat = [c] := by
      unfold utf8
      rw [if_pos (by omega), UInt8.ofNat_toNat]
    rw [e] at this
    exact this

end Verif.Proof.Json
