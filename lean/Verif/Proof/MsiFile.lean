import Verif.Proof.Msi
import Verif.Proof.ReaderTop
import Verif.Props.PathRange
import Verif.Props.Glob
import Verif.Props.SampleTime
/-! Lemmas on the program msi: the files and the filters. -/
namespace Verif.Proof.Msi
open Verif.Model Verif.Model.Steim Verif.Model.Mem Verif.Model.Record3 Verif.Model.Reader
  Verif.Model.Samples Verif.Model.Msi
open Verif.Props.Reader Verif.Props.Msi
open Verif.Spec Verif.Spec.Msi
open Verif.Proof.Mem Verif.Proof.Reader

theorem read_valid {w : World} {env : Record2.Env} (base : Nat) {be skip : Bool} {f : InFile}
    (v : f.Valid env be skip w.files) :
    ∃ r, openPath w f.path = .ok (some r) ∧ Takes (opts env be base true false skip none) r
      f.recs .endOfFile := by
  obtain ⟨hp, hn, he, hs, h3, hk⟩ := v
  unfold InFile.name at hn he
  unfold InFile.recs at hs ⊢
  cases hr : f.range with
  | none =>
    simp only [hr] at hp hn he hs ⊢
    have h := Props.PathRange.C36_no_range_partial f.path hn
      (fun p s e => absurd (by rw [e]; simp) hp)
      (fun p s a b e => absurd (by rw [e]; simp) hp)
    refine ⟨opened (fileOf f.entries f.tail) 0 0, ?_, ?_⟩
    · unfold openPath
      rw [h, bind_ok, he]
      rfl
    · have hcode : code (expectedBytes 0 (ofFile none f.entries)).length = .endOfFile := by
        cases hl : expectedBytes 0 (ofFile none f.entries) with
        | nil => exact absurd hl hs
        | cons a l => rfl
      rw [← hcode]
      exact kinds_takes hk h3
  | some c =>
    simp only [hr] at hp hn he hs ⊢
    obtain ⟨h1, h2, ha, hb, l0, l1, k, h4, h5, h6⟩ := hp
    rw [h4] at he hs h3 hk ⊢
    obtain ⟨ret, ht, hret⟩ := Props.PathRange.range_file env be base true false skip none
      (Spec.PathRange.value c.first) (Spec.PathRange.value c.last) l0 l1 f.tail hk
      h3 k h5 h6
    have hret : ret = .endOfFile := hret.resolve_right hs
    subst hret
    refine ⟨_, ?_, ht⟩
    unfold openPath
    rw [h1, Props.PathRange.C36_range_partial c.name c.text c.first c.last h2 hn ha hb, bind_ok]
    simp only [he]
    rfl

theorem given_eq {t : Int} : (∀ x, given t = some x → x = t) ∧ (given t = some t ↔ t ≠ NSTERROR) := by
  unfold given
  by_cases h : t = NSTERROR
  · simp [h]
  · simp only [if_neg h, Option.some.injEq]
    exact ⟨fun x e => e.symm, by simp [h]⟩

theorem inWindow_eq {w : World} {c : Config} {m : Msr} {stop : Int}
    (hs : given c.starttime ≠ none ∨ given c.endtime ≠ none → w.endtime m = .ok stop)
    (h0 : m.starttime ≤ stop) :
    ∃ b, inWindow w c m = .ok b ∧ (b = true ↔ (∀ t, given c.starttime = some t → t ≤ stop) ∧
      ∀ t, given c.endtime = some t → m.starttime ≤ t) := by
  unfold inWindow
  by_cases hc : c.starttime ≠ NSTERROR ∨ c.endtime ≠ NSTERROR
  · rw [if_pos hc]
    have he : w.endtime m = .ok stop := by
      apply hs
      unfold given
      rcases hc with h | h
      · left; simp [h]
      · right; simp [h]
    rw [he, show ofOut (Out.ok stop) = .ok stop from rfl, bind_ok]
    by_cases h1 : c.starttime = NSTERROR <;> by_cases h2 : c.endtime = NSTERROR
    · exact absurd hc (by simp [h1, h2])
    all_goals
      unfold given
      simp only [h1, h2, if_true, if_false, ne_eq, not_true_eq_false, not_false_eq_true, true_and,
        false_and, reduceCtorEq, false_implies, implies_true, and_true, Option.some.injEq, forall_eq',
        GT.gt, GE.ge]
    · by_cases h3 : stop > c.endtime ∧ ¬ (m.starttime ≤ c.endtime ∧ c.endtime ≤ stop)
      · exact ⟨false, by rw [if_pos h3], by simp; omega⟩
      · exact ⟨true, by rw [if_neg h3], by simp; omega⟩
    · by_cases h3 : m.starttime < c.starttime ∧ ¬ (m.starttime ≤ c.starttime ∧ c.starttime ≤ stop)
      · exact ⟨false, by rw [if_pos h3], by simp; omega⟩
      · exact ⟨true, by rw [if_neg h3], by simp; omega⟩
    · by_cases h3 : m.starttime < c.starttime ∧ ¬ (m.starttime ≤ c.starttime ∧ c.starttime ≤ stop)
      · exact ⟨false, by rw [if_pos h3], by simp; omega⟩
      · rw [if_neg h3]
        by_cases h4 : stop > c.endtime ∧ ¬ (m.starttime ≤ c.endtime ∧ c.endtime ≤ stop)
        · exact ⟨false, by rw [if_pos h4], by simp; omega⟩
        · exact ⟨true, by rw [if_neg h4], by simp; omega⟩
  · rw [if_neg hc]
    have h1 : c.starttime = NSTERROR := Classical.not_not.1 fun h => hc (Or.inl h)
    have h2 : c.endtime = NSTERROR := Classical.not_not.1 fun h => hc (Or.inr h)
    refine ⟨true, rfl, ?_⟩
    unfold given
    simp [h1, h2]

theorem meets_iff {a b : Option Int} {start stop : Int} (h0 : start ≤ stop)
    (hab : ∀ x y, a = some x → b = some y → x ≤ y) :
    Meets a b start stop ↔ (∀ t, a = some t → t ≤ stop) ∧ ∀ t, b = some t → start ≤ t := by
  unfold Meets
  constructor
  · rintro ⟨x, h1, h2, h3, h4⟩
    exact ⟨fun t ht => by have := h3 t ht; omega, fun t ht => by have := h4 t ht; omega⟩
  · rintro ⟨h1, h2⟩
    cases a with
    | none => exact ⟨start, by omega, h0, by simp, h2⟩
    | some t =>
      have := h1 t rfl
      refine ⟨max start t, by omega, by omega, by simp; omega, fun u hu => ?_⟩
      have h3 := hab t u rfl hu
      have h4 := h2 u hu
      omega

theorem globbed_eq (w : World) (m : Msr) (p : List Glob.Tok) (hwf : ∀ t ∈ p, t.WF) :
    ∃ b, globbed w m (wildcards (Glob.render p)) = .ok b ∧
      (b = true ↔ Contains (Model.Glob.charVal w.signed) p (m.sid.takeWhile (· != 0))) := by
  obtain ⟨b, h1, h2⟩ := Props.Glob.C14_msi_match_contains w.signed p hwf (m.sid.takeWhile (· != 0))
  unfold globbed wildcards
  rw [h1]
  exact ⟨b, rfl, h2⟩

theorem matched_eq {w : World} {c : Config} {mp rp : Option (List Glob.Tok)} (hp : Patterns c mp rp)
    (m : Msr) :
    ∃ b, matched w c m = .ok b ∧ (b = true ↔
      (∀ p, mp = some p → Contains (Model.Glob.charVal w.signed) p (m.sid.takeWhile (· != 0))) ∧
      ∀ p, rp = some p → ¬ Contains (Model.Glob.charVal w.signed) p (m.sid.takeWhile (· != 0))) := by
  obtain ⟨h1, h2, h3, h4⟩ := hp
  unfold matched
  rw [h3, h4]
  have hr : ∃ b, (match rp.map (fun p => wildcards (Glob.render p)) with
      | some p => (globbed w m p).bind fun b => .ok (!b)
      | none => (.ok true : Res Bool)) = .ok b ∧ (b = true ↔
        ∀ p, rp = some p → ¬ Contains (Model.Glob.charVal w.signed) p (m.sid.takeWhile (· != 0))) := by
    cases rp with
    | none => exact ⟨true, rfl, by simp⟩
    | some p =>
      obtain ⟨b, e1, e2⟩ := globbed_eq w m p (h2 p rfl)
      refine ⟨!b, ?_, ?_⟩
      · simp only [Option.map_some]; rw [e1]; rfl
      · simp only [Option.some.injEq, forall_eq', ← e2]
        cases b <;> simp
  obtain ⟨b2, r1, r2⟩ := hr
  cases mp with
  | none =>
    refine ⟨b2, ?_, ?_⟩
    · simp only [Option.map_none, bind_ok]; rw [if_neg (by simp)]; exact r1
    · rw [r2]; simp
  | some p =>
    obtain ⟨b, e1, e2⟩ := globbed_eq w m p (h1 p rfl)
    simp only [Option.map_some]
    rw [e1, bind_ok]
    cases b with
    | false =>
      refine ⟨false, by rw [if_pos rfl], ?_⟩
      simp only [Option.some.injEq, forall_eq', ← e2]
      simp
    | true =>
      refine ⟨b2, by rw [if_neg (by simp)]; exact r1, ?_⟩
      rw [r2]
      simp only [Option.some.injEq, forall_eq', ← e2]
      simp

/-- The input files as sources. -/
def source (f : InFile) : Source := ⟨f.path, f.recs, .endOfFile⟩

theorem inputs_valid {env : Record2.Env} {be : Bool} {base : Nat} {rnd : Rat → Rat} (hr : Rounding rnd)
    {rate : Nat → Rat} {leaps : List SampleTime.Leap} {signed : Bool}
    {files : List UInt8 → Option (List UInt8)} {c : Config} {mp rp : Option (List Glob.Tok)}
    (hp : Patterns c mp rp) (l : List InFile) (hv : ∀ f ∈ l, f.Valid env be c.skipnotdata files)
    (stop : Taken → Int)
    (hs : ∀ f ∈ l, ∀ e ∈ f.recs, (world env be base rnd rate leaps signed files c).endtime e.2.1 =
      .ok (stop e))
    (hab : ∀ x y, given c.starttime = some x → given c.endtime = some y → x ≤ y)
    (keep : Taken → Bool)
    (hk : ∀ f ∈ l, ∀ e ∈ f.recs, (keep e = true ↔ Wanted c signed mp rp stop e)) (x : Taken → Samples)
    (hx : c.printdata ≠ 0 ∨ c.binfile = true → ∀ f ∈ l, ∀ e ∈ f.recs,
      Decodes (world env be base rnd rate leaps signed files c).opts e (x e)) :
    Inputs (world env be base rnd rate leaps signed files c) c keep x (l.map source) where
  read := by
    intro f hf
    obtain ⟨g, hg, rfl⟩ := List.mem_map.1 hf
    exact Or.inl (read_valid base (hv g hg))
  window := by
    intro f hf e he
    obtain ⟨g, hg, rfl⟩ := List.mem_map.1 hf
    have hst := hs g hg e he
    have h0 : e.2.1.starttime ≤ stop e := (Props.SampleTime.C09_end hr _ _ _ _).2 _ hst
    obtain ⟨b, h1, h2⟩ := inWindow_eq (w := world env be base rnd rate leaps signed files c) (c := c)
      (fun _ => hst) h0
    obtain ⟨b', h3, h4⟩ := matched_eq (w := world env be base rnd rate leaps signed files c) hp e.2.1
    have hk := hk g hg e he
    unfold Wanted at hk
    rw [meets_iff h0 hab, ← h2] at hk
    replace hk := hk.trans (and_congr_right fun _ => h4.symm)
    refine ⟨b, h1, fun hb => ?_, fun hb => ?_⟩
    · rw [h3]
      congr 1
      rw [Bool.eq_iff_iff, hk]
      simp [hb]
    · rw [← Bool.not_eq_true, hk]
      simp [hb]
  samples := by
    intro h f hf e he
    obtain ⟨g, hg, rfl⟩ := List.mem_map.1 hf
    exact hx h g hg e he

theorem upto_complete (keep : Taken → Bool) (l : List InFile) :
    upto (keptOf keep (l.map source)) = (l.flatMap InFile.recs).filter keep ∧
      ∀ n, ¬ Fails n (keptOf keep (l.map source)) := by
  constructor
  · induction l with
    | nil => rfl
    | cons f l ih =>
      rw [List.map_cons, List.flatMap_cons, List.filter_append, ← ih]
      rfl
  · rintro n ⟨⟨f, hf, hn⟩, -⟩
    unfold keptOf at hf
    rw [List.map_map] at hf
    obtain ⟨g, -, rfl⟩ := List.mem_map.1 hf
    cases hn

end Verif.Proof.Msi
