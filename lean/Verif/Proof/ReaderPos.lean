import Verif.Proof.ReaderFile
/-! Lemmas on the file reader: stream positions. -/
namespace Verif.Proof.Reader
open Verif.Model Verif.Model.Steim Verif.Model.Mem Verif.Model.Record3 Verif.Model.Reader
open Verif.Proof.Mem Verif.Props.Reader

theorem refill_any {c : List UInt8} {r r' : Reader} {more b : Bool} (h : Holds 1 c r)
    (e : refill (left r) more r = (b, r')) :
    Holds 1 c r' ∧ r'.streampos = r.streampos ∧ r'.endoffset = r.endoffset ∧
      r'.recordcount = r.recordcount := by
  by_cases hl : left r < MAXRECLEN
  · obtain ⟨r1, h1, h2, h3, h4, h5, -⟩ := refill_holds h (Or.inr (Nat.one_dvd _)) more (fun _ _ => hl)
    rw [h1] at e
    injection e with _ e
    subst e
    exact ⟨h2, h3, h4, h5⟩
  · have hM : MAXRECLEN = 10485760 := rfl
    unfold refill at e
    by_cases hc : r.eof = false ∧ (((left r : Nat) : Int) < 40 ∨ more = true)
    · rw [if_pos hc] at e
      simp only at e
      rw [show (if ((left r : Nat) : Int) ≤ 0 then [] else r.buf.drop r.readoffset.toNat) =
        r.buf.drop r.readoffset.toNat from if_neg (by omega)] at e
      have e0 : (if ((left r : Nat) : Int) ≤ 0 ∨ r.readoffset > 0 then 0 else r.readoffset) = 0 := by
        have := h.low
        split <;> omega
      rw [e0] at e
      have h1 : (r.buf.drop r.readoffset.toNat).length = left r := rfl
      have hdata := h.data
      have hle : left r ≤ r.buf.length := by unfold left; simp
      have hmax := h.max
      generalize r.buf.drop r.readoffset.toNat = x at *
      rw [show MAXRECLEN - x.length = 0 by omega] at e
      simp only [List.take_zero, List.length_nil, Nat.not_lt_zero, decide_false, and_self, if_true,
        List.drop_zero] at e
      injection e with _ e
      subst e
      exact ⟨⟨by simp, by simp, by simp only; omega, by simp [hdata], by simp,
        fun _ => Nat.one_dvd _⟩, rfl, rfl, rfl⟩
    · rw [if_neg hc] at e
      injection e with _ e
      subst e
      exact ⟨h, rfl, rfl, rfl⟩

/-- The reader is at its stream position in the file. -/
def Sync (file : List UInt8) (r : Reader) : Prop :=
  0 ≤ r.streampos ∧ Holds 1 (file.drop r.streampos.toNat) r

/-- What is known of the state and the return value after a pass. -/
def After (o : Opts) (file : List UInt8) (pos : Int) (ret : Ret) (r' : Reader) : Prop :=
  Sync file r' ∧ pos ≤ r'.streampos ∧
    ∀ m, ret = .record m → pos ≤ r'.streampos - m.reclen ∧ Found o file (r'.streampos - m.reclen) m

theorem sync_advance {file : List UInt8} {r : Reader} {k : Int} (h : Sync file r) (h1 : 0 ≤ k)
    (h2 : k ≤ left r) : Sync file (advance k r) := by
  obtain ⟨h0, h⟩ := h
  refine ⟨by show 0 ≤ r.streampos + k; omega, ?_⟩
  have := holds_one (k := k.toNat) (Nat.le_refl _) h (by omega)
  rw [List.drop_drop] at this
  rw [show ((k.toNat : Nat) : Int) = k by omega] at this
  show Holds 1 (file.drop (r.streampos + k).toNat) _
  rwa [show (r.streampos + k).toNat = r.streampos.toNat + k.toNat by omega]

theorem attempt_sync {o : Opts} (ho : Ends o) {file : List UInt8} (hs : Sane o file) {r : Reader} {s : Step}
    (h : Sync file r) (h40 : 40 ≤ left r) (e : attempt o (left r) r = .ok s) :
    (∀ ret r', s = .done ret r' → After o file r.streampos ret r') ∧
    (∀ more r', s = .again more r' → Sync file r' ∧ r.streampos ≤ r'.streampos) := by
  have hold := h.2
  unfold attempt at e
  rw [if_neg (by have := hold.low; omega), bind_eq_ok] at e
  obtain ⟨⟨p, mem⟩, hp, e⟩ := e
  have hmem := ho.same _ _ _ _ _ _ hp
  subst hmem
  simp only [List.take_append_drop] at e
  have hfail : ∀ er, Step.done er r = s ∨ Step.again false (advance 1 r) = s → (∀ m, er ≠ .record m) →
      (∀ ret r', s = .done ret r' → After o file r.streampos ret r') ∧
      (∀ more r', s = .again more r' → Sync file r' ∧ r.streampos ≤ r'.streampos) := by
    intro er hor hne
    rcases hor with rfl | rfl
    · refine ⟨fun ret r' e => ?_, fun more r' e => by cases e⟩
      injection e with e1 e2
      subst e1 e2
      exact ⟨h, Int.le_refl _, fun m hm => absurd hm (hne m)⟩
    · refine ⟨(fun ret r' e => by cases e), fun more r' e => ?_⟩
      injection e with e1 e2
      subst e1 e2
      exact ⟨sync_advance (k := 1) h (by omega) (by omega), by show r.streampos ≤ r.streampos + 1; omega⟩
  have hf' : ∀ er, (.ok (failed o er r) : Res Step) = .ok s → (∀ m, er ≠ .record m) →
      (∀ ret r', s = .done ret r' → After o file r.streampos ret r') ∧
      (∀ more r', s = .again more r' → Sync file r' ∧ r.streampos ≤ r'.streampos) := by
    intro er he hne
    injection he with he
    unfold failed at he
    split at he
    · exact hfail er (Or.inr he) hne
    · exact hfail er (Or.inl he) hne
  cases p with
  | notSeed => exact hf' _ e (by simp)
  | outOfRange => exact hf' _ e (by simp)
  | genError => exact hf' _ e (by simp)
  | invalidCrc => exact hf' _ e (by simp)
  | need k =>
    injection e with e
    unfold wanting at e
    split at e
    · split at e
      · subst e
        refine ⟨(fun ret r' e => by cases e), fun more r' e => ?_⟩
        injection e with e1 e2
        subst e1 e2
        have ha := sync_advance (k := 1) h (by omega) (by omega)
        exact ⟨ha, by show r.streampos ≤ r.streampos + 1; omega⟩
      · exact hfail _ (Or.inl e) (by simp)
    · split at e
      · exact hfail _ (Or.inl e) (by simp)
      · subst e
        refine ⟨(fun ret r' e => by cases e), fun more r' e => ?_⟩
        injection e with e1 e2
        subst e1 e2
        exact ⟨h, Int.le_refl _⟩
  | record m =>
    simp only at e
    obtain ⟨hl1, hl2⟩ := hs.parse r.streampos.toNat _ r.unread _ _ _ _ _ hold.data.symm hp
    have hl2 : m.reclen ≤ left r := hl2
    by_cases hc : chosen o m = true
    · rw [if_pos hc] at e
      unfold Reader.deliver at e
      rw [bind_eq_ok] at e
      obtain ⟨p', hp', e⟩ := e
      cases p' with
      | record m' =>
        simp only at e
        injection e with e
        subst e
        have hor : m' = m ∨ o.unpack r.readoffset.toNat (r.buf.drop r.readoffset.toNat) m = .ok (.record m') := by
          split at hp'
          · exact Or.inr hp'
          · injection hp' with e; injection e with e; exact Or.inl e.symm
        have hlen : m'.reclen = m.reclen := by
          rcases hor with rfl | hor
          · rfl
          · exact hs.unpack _ _ _ _ hor
        have hsync : Sync file (advance m'.reclen { r with recordcount := r.recordcount + 1 }) := by
          have := sync_advance h (by omega : 0 ≤ m'.reclen) (by omega)
          exact ⟨this.1, ⟨this.2.low, this.2.high, this.2.max, this.2.data, this.2.eof, this.2.dvd⟩⟩
        refine ⟨fun ret r' e => ?_, fun more r' e => by cases e⟩
        injection e with e1 e2
        subst e1 e2
        refine ⟨hsync, by show r.streampos ≤ r.streampos + _; omega, fun m'' hm => ?_⟩
        injection hm with hm
        subst hm
        have hpos : (advance m'.reclen { r with recordcount := r.recordcount + 1 }).streampos - m'.reclen =
            r.streampos := by
          show r.streampos + m'.reclen - m'.reclen = _
          omega
        rw [hpos]
        refine ⟨Int.le_refl _, h.1, by omega, r.readoffset.toNat, r.buf.drop r.readoffset.toNat, r.unread,
          r.eof, m, hold.data.symm, hold.eof, ?_, hp, hc, hor⟩
        rw [hlen]
        exact hl2
      | need k => exact hfail .genError (Or.inl (by injection e)) (by simp)
      | notSeed => exact hfail .genError (Or.inl (by injection e)) (by simp)
      | outOfRange => exact hfail .genError (Or.inl (by injection e)) (by simp)
      | genError => exact hfail .genError (Or.inl (by injection e)) (by simp)
      | invalidCrc => exact hfail .genError (Or.inl (by injection e)) (by simp)
    · rw [if_neg hc] at e
      injection e with e
      subst e
      refine ⟨(fun ret r' e => by cases e), fun more r' e => ?_⟩
      injection e with e1 e2
      subst e1 e2
      exact ⟨sync_advance h (by omega) hl2, by show r.streampos ≤ r.streampos + _; omega⟩

theorem finished_sync {o : Opts} {file : List UInt8} {pos : Int} {s s' : Step}
    (h : (∀ ret r', s = .done ret r' → After o file pos ret r') ∧
      (∀ more r', s = .again more r' → Sync file r' ∧ pos ≤ r'.streampos))
    (e : finished s = .ok s') :
    (∀ ret r', s' = .done ret r' → After o file pos ret r') ∧
      (∀ more r', s' = .again more r' → Sync file r' ∧ pos ≤ r'.streampos) := by
  cases s with
  | done ret r =>
    injection e with e
    subst e
    exact h
  | again more r =>
    obtain ⟨h1, h2⟩ := h.2 _ _ rfl
    unfold finished at e
    simp only at e
    split at e
    · rw [bind_eq_ok] at e
      obtain ⟨n, -, e⟩ := e
      split at e
      · injection e with e
        subst e
        refine ⟨fun ret r' e => ?_, fun more r' e => by cases e⟩
        injection e with e1 e2
        subst e1 e2
        exact ⟨h1, h2, fun m hm => absurd hm (code_ne _ m)⟩
      · injection e with e
        subst e
        exact h
    · injection e with e
      subst e
      exact h

theorem step_sync {o : Opts} (ho : Ends o) {file : List UInt8} (hs : Sane o file) {r : Reader} {s : Step}
    {more : Bool} (h : Sync file r) (e : step o more r = .ok s) :
    (∀ ret r', s = .done ret r' → After o file r.streampos ret r') ∧
    (∀ more r', s = .again more r' → Sync file r' ∧ r.streampos ≤ r'.streampos) := by
  unfold step at e
  by_cases hr : r.endoffset ≠ 0 ∧ r.endoffset + 1 - r.streampos < 40
  · rw [if_pos hr] at e
    injection e with e
    subst e
    refine ⟨fun ret r' e => ?_, fun more r' e => by cases e⟩
    injection e with e1 e2
    subst e1 e2
    exact ⟨h, Int.le_refl _, by simp⟩
  · rw [if_neg hr, buflen_holds h.2, bind_ok] at e
    obtain ⟨b, r1, hrf⟩ : ∃ b r1, refill (left r) more r = (b, r1) := ⟨_, _, rfl⟩
    obtain ⟨g1, g2, g3, g4⟩ := refill_any h.2 hrf
    have hs1 : Sync file r1 := ⟨by rw [g2]; exact h.1, by rw [g2]; exact g1⟩
    rw [hrf] at e
    cases b with
    | false =>
      injection e with e
      subst e
      refine ⟨fun ret r' e => ?_, fun more r' e => by cases e⟩
      injection e with e1 e2
      subst e1 e2
      exact ⟨hs1, by omega, by simp⟩
    | true =>
      simp only at e
      rw [buflen_holds g1, bind_ok, bind_eq_ok] at e
      obtain ⟨s1, e1, e2⟩ := e
      refine finished_sync ?_ e2
      by_cases h40 : (left r1 : Int) ≥ 40
      · rw [if_pos h40] at e1
        rw [← g2]
        exact attempt_sync ho hs hs1 (by omega) e1
      · rw [if_neg h40] at e1
        injection e1 with e1
        subst e1
        refine ⟨(fun ret r' e => by cases e), fun more r' e => ?_⟩
        injection e with e1 e2
        subst e1 e2
        exact ⟨hs1, by omega⟩

theorem loop_sync {o : Opts} (ho : Ends o) {file : List UInt8} (hs : Sane o file) (fuel : Nat)
    (more : Bool) (r : Reader) (h : Sync file r) {ret : Ret} {r' : Reader}
    (e : loop o fuel more r = .ok (ret, r')) : After o file r.streampos ret r' := by
  induction fuel generalizing more r with
  | zero => cases e
  | succ fuel ih =>
    rw [loop, bind_eq_ok] at e
    obtain ⟨s, e1, e2⟩ := e
    obtain ⟨hd, ha⟩ := step_sync ho hs h e1
    cases s with
    | done ret1 r1 =>
      injection e2 with e2
      injection e2 with e2 e3
      subst e2 e3
      exact hd _ _ rfl
    | again more1 r1 =>
      obtain ⟨h1, h2⟩ := ha _ _ rfl
      obtain ⟨a1, a2, a3⟩ := ih _ _ h1 e2
      exact ⟨a1, by omega, fun m hm => ⟨by have := (a3 m hm).1; omega, (a3 m hm).2⟩⟩

theorem sync_opened (file : List UInt8) (start stop : Int) : Sync file (opened file start stop) := by
  unfold Sync opened
  simp only
  refine ⟨by split <;> omega, ?_⟩
  have e : (if start > 0 then start else 0).toNat = start.toNat := by split <;> omega
  rw [e]
  exact ⟨by simp, by simp, by simp, by simp, by simp, fun _ => Nat.one_dvd _⟩

theorem calls_placed {o : Opts} (ho : Ends o) {file : List UInt8} (hs : Sane o file) (r : Reader)
    (l : List (Int × Msr)) (ret : Ret) (h : Sync file r) (hc : Calls o r l ret) :
    Placed o file r.streampos l := by
  induction hc with
  | stop => exact trivial
  | next r r' m l ret e _ ih =>
    obtain ⟨a1, a2, a3⟩ := loop_sync ho hs _ _ _ h e
    obtain ⟨b1, b2⟩ := a3 m rfl
    refine ⟨b1, b2, ?_⟩
    rw [show r'.streampos - m.reclen + m.reclen = r'.streampos by omega]
    exact ih a1

end Verif.Proof.Reader
