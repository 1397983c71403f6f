import Verif.Proof.UrlReader
/-! Lemmas on reading records from a URL: objects that are smaller than the read buffer. -/
namespace Verif.Proof.UrlReader
open Verif.Model Verif.Model.Steim Verif.Model.Record3 Verif.Model.Reader Verif.Model.UrlReader
open Verif.Model.Url (Conn Act Rcp fread feof handOver wait perform recvCallback)
open Verif.Proof.Mem Verif.Proof.Reader Verif.Props.Reader
open Verif.Props.Url (content Sound)

theorem handOver_all : ∀ (n : Nat) (c : Conn) (r : Rcp), (content c).length < r.size →
    (handOver n c r).2.got ++ content (handOver n c r).1 = r.got ++ content c ∧
    (content (handOver n c r).1).length < (handOver n c r).2.size ∧ (handOver n c r).1.paused = c.paused ∧
    (handOver n c r).2.isPaused = r.isPaused ∧ (handOver n c r).1.running = c.running
  | 0, c, r, h => by rw [handOver]; exact ⟨rfl, h, rfl, rfl, rfl⟩
  | n + 1, c, r, h => by
    rw [handOver]
    split
    · exact ⟨rfl, h, rfl, rfl, rfl⟩
    · rename_i p t he
      have hl : (content c).length = p.length + t.flatten.length := by
        unfold content; rw [he]; simp
      unfold recvCallback
      rw [if_neg (by omega)]
      simp only
      obtain ⟨h1, h2, h3, h4, h5⟩ := handOver_all n { c with pieces := t } { r with got := r.got ++ p, size := r.size - p.length }
        (by show t.flatten.length < r.size - p.length; omega)
      refine ⟨?_, h2, h3, h4, h5⟩
      rw [h1]
      show r.got ++ p ++ t.flatten = _
      unfold content
      rw [he]
      simp

theorem wait_all {null : Bool} : ∀ (acts : List Act) (c : Conn) (r : Rcp) (c' : Conn) (r' : Rcp) (rest : List Act), Sound acts →
    (content c).length < r.size → c.paused = false → r.isPaused = false → wait null acts c r = some (c', r', rest) →
    r'.got = r.got ++ content c ∧ c'.running = false ∧ content c' = []
  | [], c, r, c', r', rest, _, _, _, _, h => by cases h
  | a :: as, c, r, c', r', rest, hs, hl, hp, hi, h => by
    rw [wait] at h
    unfold perform at h
    rw [if_neg (by simp [hs a (by simp)]), if_neg (by simp [hp])] at h
    simp only at h
    obtain ⟨h1, h2, h3, h4, -⟩ := handOver_all a.pieces c r hl
    rw [hi] at h4
    rw [hp] at h3
    by_cases hfin : (a.finish && (handOver a.pieces c r).1.pieces.isEmpty) = true
    · rw [if_neg (by rw [hfin]; simp)] at h
      cases h
      have he : (handOver a.pieces c r).1.pieces = [] := by
        rw [Bool.and_eq_true] at hfin
        exact List.isEmpty_iff.1 hfin.2
      have hc : content (handOver a.pieces c r).1 = [] := by unfold content; rw [he]; rfl
      rw [hc, List.append_nil] at h1
      exact ⟨h1, by simp only [hfin]; rfl, hc⟩
    · rw [if_pos ⟨by rw [Bool.not_eq_true] at hfin; rw [hfin]; rfl, h4, Or.inl (by omega)⟩] at h
      obtain ⟨g1, g2, g3⟩ := wait_all as
        { (handOver a.pieces c r).1 with running := !(a.finish && (handOver a.pieces c r).1.pieces.isEmpty) } _ c' r' rest
        (fun x hx => hs x (by simp [hx])) h2 h3 h4 h
      exact ⟨g1.trans h1, g2, g3⟩

/-- A read with room for more than there is takes everything. -/
theorem fread_all {size first : Nat} {acts rest : List Act} {c c' : Conn} {b : List UInt8} (hs : Sound acts)
    (hr : c.running = true) (hl : (content c).length < size) (h : fread size first acts c = some (b, c', rest)) :
    b = content c ∧ c'.running = false ∧ content c' = [] := by
  unfold fread at h
  rw [if_neg (by simp [hr])] at h
  simp only at h
  obtain ⟨h1, h2, h3, -, -⟩ := handOver_all first { c with paused := false } { size := size } hl
  cases hw : wait (decide (size = 0)) acts (handOver first { c with paused := false } { size := size }).1
      { (handOver first { c with paused := false } { size := size }).2 with isPaused := false } with
  | none => rw [hw] at h; cases h
  | some y =>
    rw [hw] at h
    obtain ⟨c1, r1, rest1⟩ := y
    simp only [Option.map_some, Option.some.injEq, Prod.mk.injEq] at h
    obtain ⟨rfl, rfl, -⟩ := h
    obtain ⟨g1, g2, g3⟩ := wait_all acts _
      { (handOver first { c with paused := false } { size := size }).2 with isPaused := false } _ _ _ hs h2 h3 rfl hw
    refine ⟨g1.trans ?_, g2, g3⟩
    exact h1

/-! ## The reader -/

theorem finished_eof {x y : Step} (h : finished x = .ok y) :
    (∃ ret r, y = .done ret r ∧ (x = .done ret r ∨ ∃ m, x = .again m r)) ∨ (∃ m r, y = .again m r ∧ x = .again m r) := by
  unfold finished at h
  cases x with
  | done ret r => exact .inl ⟨ret, r, (Res.ok.inj h).symm, .inl rfl⟩
  | again m r =>
    simp only at h
    split at h
    · obtain ⟨n, -, h⟩ := bind_eq_ok.1 h
      split at h
      · exact .inl ⟨_, r, (Res.ok.inj h).symm, .inr ⟨m, rfl⟩⟩
      · exact .inr ⟨m, r, (Res.ok.inj h).symm, rfl⟩
    · exact .inr ⟨m, r, (Res.ok.inj h).symm, rfl⟩

/-- The end-of-file indicator after a step. -/
def eofOf : Step → Bool
  | .done _ r => r.eof
  | .again _ r => r.eof

theorem attempt_eof {o : Opts} {n : Int} {r : Reader} {x : Step} (h : attempt o n r = .ok x) : eofOf x = r.eof := by
  unfold attempt at h
  split at h
  · cases h
  · obtain ⟨⟨p, mem⟩, -, h⟩ := bind_eq_ok.1 h
    simp only at h
    have hfail : ∀ e (r' : Reader), r'.eof = r.eof → eofOf (failed o e r') = r.eof := by
      intro e r' he
      unfold failed
      split <;> exact he
    split at h
    · split at h
      · unfold deliver at h
        obtain ⟨q, -, h⟩ := bind_eq_ok.1 h
        split at h <;> cases h <;> rfl
      · cases h; rfl
    · cases h; exact hfail _ _ rfl
    · cases h; exact hfail _ _ rfl
    · cases h; exact hfail _ _ rfl
    · cases h; exact hfail _ _ rfl
    · cases h
      unfold wanting
      split
      · split <;> rfl
      · split <;> rfl

/-- A reader that has everything, or of an object that is smaller than the read buffer. -/
def Whole (s : State) : Prop :=
  s.r.eof = true ∨ (s.r.eof = false ∧ s.conn.running = true ∧ s.r.unread = content s.conn ∧ s.r.buf = [] ∧ s.r.readoffset = 0 ∧
    s.r.unread.length < MAXRECLEN)

/-- The reader of a state after a pass. -/
def stepOf : Pass → Step
  | .done ret s => .done ret s.r
  | .again more s => .again more s.r

/-- The state after a pass. -/
def stateOf : Pass → State
  | .done _ s => s
  | .again _ s => s

theorem step_same {o : Opts} {w : During} {more : Bool} {s : State} {x : Pass} (h : Whole s) (hw : Sound w.2)
    (hx : UrlReader.step o w more s = .ok x) : Reader.step o more s.r = .ok (stepOf x) ∧ Whole (stateOf x) := by
  unfold UrlReader.step at hx
  unfold Reader.step
  split at hx
  · rename_i hend
    cases hx
    rw [if_pos hend]
    exact ⟨rfl, h⟩
  rename_i hend
  rw [if_neg hend]
  obtain ⟨n, hn, hx⟩ := bind_eq_ok.1 hx
  rw [hn, bind_ok]
  -- after reading
  have tail : ∀ s1 : State, s1.r.eof = true →
      ((buflen s1.r).bind fun n => ((if n ≥ 40 then attempt o n s1.r else .ok (.again more s1.r)).bind finished).bind fun x =>
        .ok (withConn s1.conn x)) = .ok x →
      ((buflen s1.r).bind fun n => (if n ≥ 40 then attempt o n s1.r else .ok (.again more s1.r)).bind finished) = .ok (stepOf x) ∧
        Whole (stateOf x) := by
    intro s1 he hx
    obtain ⟨k, hk, hx⟩ := bind_eq_ok.1 hx
    obtain ⟨y, hy, hx⟩ := bind_eq_ok.1 hx
    rw [hk, bind_ok, hy]
    obtain ⟨z, hz, hf⟩ := bind_eq_ok.1 hy
    have hez : eofOf z = true := by
      split at hz
      · rw [attempt_eof hz, he]
      · cases hz; exact he
    have hey : eofOf y = true := by
      rcases finished_eof hf with ⟨ret, r, rfl, rfl | ⟨m, rfl⟩⟩ | ⟨m, r, rfl, rfl⟩ <;> exact hez
    have := Res.ok.inj hx
    subst this
    cases y with
    | done ret r => exact ⟨rfl, .inl hey⟩
    | again m r => exact ⟨rfl, .inl hey⟩
  rcases h with h | ⟨h1, h2, h3, h4, h5, h6⟩
  · have e1 : UrlReader.refill w n more s = some (true, s) := by
      unfold UrlReader.refill
      rw [if_neg (by simp [h])]
    have e2 : Reader.refill n more s.r = (true, s.r) := by
      unfold Reader.refill
      rw [if_neg (by simp [h])]
    rw [e1] at hx
    rw [e2]
    exact tail s h hx
  · have hn0 : n = 0 := by
      unfold buflen at hn
      rw [h4, h5] at hn
      simp at hn
      exact hn.symm
    subst hn0
    have e2 : Reader.refill 0 more s.r = (true, { s.r with buf := s.r.unread, readoffset := 0, unread := [], eof := true }) := by
      unfold Reader.refill
      rw [if_pos ⟨h1, by simp⟩]
      simp only [Int.le_refl, if_true, true_or, List.length_nil, Nat.sub_zero, List.nil_append]
      rw [List.take_of_length_le (by omega), List.drop_eq_nil_of_le (by omega), decide_eq_true h6]
      simp
    rw [e2]
    unfold UrlReader.refill at hx
    rw [if_pos ⟨h1, by simp⟩] at hx
    simp only [Int.le_refl, if_true, true_or, List.length_nil, Nat.sub_zero, List.nil_append] at hx
    cases hf : fread MAXRECLEN w.1 w.2 s.conn with
    | none => rw [hf] at hx; cases hx
    | some y =>
      obtain ⟨b, c', rest⟩ := y
      obtain ⟨g1, g2, g3⟩ := fread_all hw h2 (by rw [← h3]; exact h6) hf
      have hfe : feof c' = true := by unfold feof; rw [g2]; rfl
      have g3' : c'.pieces.flatten = [] := g3
      rw [hf] at hx
      simp only [Option.map_some, hfe, g3', Bool.not_true, Bool.and_false, Bool.not_false, g1, ← h3] at hx
      exact tail { r := { s.r with buf := s.r.unread, readoffset := 0, unread := [], eof := true }, conn := c' } rfl hx

theorem readmsr_same {o : Opts} : ∀ (ws : List During) (more : Bool) (s : State) (ret : Ret) (s' : State), Whole s →
    (∀ w ∈ ws, Sound w.2) → UrlReader.readmsr o ws more s = .ok (ret, s') → Runs o more s.r (.ok (ret, s'.r)) ∧ Whole s'
  | [], more, s, ret, s', _, _, h => by cases h
  | w :: ws, more, s, ret, s', hs, hw, h => by
    rw [UrlReader.readmsr] at h
    obtain ⟨x, hx, h⟩ := bind_eq_ok.1 h
    obtain ⟨h1, h2⟩ := step_same hs (hw w (by simp)) hx
    cases x with
    | done ret2 s2 =>
      cases h
      exact ⟨runs_done h1, h2⟩
    | again m s2 =>
      obtain ⟨g1, g2⟩ := readmsr_same ws m s2 ret s' h2 (fun w hw' => hw w (by simp [hw'])) h
      exact ⟨runs_again h1 g1, g2⟩

theorem whole_readmsr {o : Opts} (ho : Ends o) {s : State} (h : Whole s) {x : Res (Ret × Reader)} (hr : Runs o false s.r x) :
    Reader.readmsr o s.r = x := by
  by_cases h0 : 0 ≤ s.r.readoffset
  · exact runs_readmsr o ho _ _ h0 hr
  · have he : s.r.eof = true := by
      rcases h with h | ⟨-, -, -, -, h, -⟩
      · exact h
      · omega
    have hno : ∀ m r', Reader.step o false s.r ≠ .ok (.again m r') := by
      intro m r' hst
      unfold Reader.step at hst
      split at hst
      · cases hst
      · obtain ⟨n, hn, hst⟩ := bind_eq_ok.1 hst
        have e2 : Reader.refill n false s.r = (true, s.r) := by
          unfold Reader.refill
          rw [if_neg (by simp [he])]
        rw [e2] at hst
        simp only at hst
        rw [hn, bind_ok] at hst
        split at hst
        · unfold attempt at hst
          rw [if_pos (by omega)] at hst
          cases hst
        · rename_i hlt
          rw [bind_ok] at hst
          unfold finished at hst
          simp only [he, if_true] at hst
          rw [hn, bind_ok, if_pos (by omega)] at hst
          cases hst
    obtain ⟨hx, f, hf⟩ := hr
    unfold Reader.readmsr
    cases f with
    | zero => exact absurd hf.symm hx
    | succ f =>
      rw [loop] at hf
      rw [show 4 * s.r.unread.length + 2 * s.r.buf.length + 6 = (4 * s.r.unread.length + 2 * s.r.buf.length + 5) + 1 from rfl, loop]
      cases hst : Reader.step o false s.r with
      | ok y =>
        rw [hst, bind_ok] at hf
        rw [bind_ok]
        cases y with
        | done ret r => exact hf
        | again m r => exact absurd hst (hno m r)
      | err => rw [hst] at hf; exact hf
      | ub => rw [hst] at hf; exact hf
      | oob => rw [hst] at hf; exact hf

end Verif.Proof.UrlReader
