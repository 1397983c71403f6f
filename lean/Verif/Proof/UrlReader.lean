import Verif.Model.UrlReader
import Verif.Props.Url
import Verif.Proof.ReaderTop
/-! Lemmas on reading records from a URL. -/
namespace Verif.Proof.UrlReader
open Verif.Model Verif.Model.Steim Verif.Model.Record3 Verif.Model.Reader Verif.Model.UrlReader
open Verif.Model.Url (Conn Act Rcp fread feof handOver wait perform recvCallback)
open Verif.Proof.Mem Verif.Proof.Reader Verif.Props.Reader
open Verif.Props.Url (content Sound)

theorem handOver_suffix : ∀ (n : Nat) (c : Conn) (r : Rcp), (handOver n c r).1.pieces <:+ c.pieces
  | 0, c, r => by rw [handOver]; exact List.suffix_refl _
  | n + 1, c, r => by
    rw [handOver]
    split
    · exact List.suffix_refl _
    · rename_i p t he
      unfold recvCallback
      split
      · rename_i r' h
        have := handOver_suffix n { c with pieces := t } r'
        rw [he]
        exact this.trans (List.suffix_cons _ _)
      · exact List.suffix_refl _

theorem wait_suffix {null : Bool} : ∀ (acts : List Act) (c : Conn) (r : Rcp) (c' : Conn) (r' : Rcp) (rest : List Act),
    wait null acts c r = some (c', r', rest) → c'.pieces <:+ c.pieces
  | [], c, r, c', r', rest, h => by cases h
  | a :: as, c, r, c', r', rest, h => by
    rw [wait] at h
    have hp : (perform a c r).1.pieces <:+ c.pieces := by
      unfold perform
      split
      · exact List.suffix_refl _
      · split
        · exact List.suffix_refl _
        · exact handOver_suffix _ _ _
    split at h
    rename_i c1 r1 he
    rw [he] at hp
    split at h
    · exact (wait_suffix as _ _ _ _ _ h).trans hp
    · cases h; exact hp

theorem fread_suffix {size first : Nat} {acts rest : List Act} {c c' : Conn} {b : List UInt8}
    (h : fread size first acts c = some (b, c', rest)) : c'.pieces <:+ c.pieces := by
  unfold fread at h
  split at h
  · cases h; exact List.suffix_refl _
  · simp only at h
    cases hw : wait (decide (size = 0)) acts (handOver first { c with paused := false } { size := size }).1
        { (handOver first { c with paused := false } { size := size }).2 with isPaused := false } with
    | none => rw [hw] at h; cases h
    | some y =>
      rw [hw] at h
      obtain ⟨c1, r1, rest1⟩ := y
      simp only [Option.map_some, Option.some.injEq, Prod.mk.injEq] at h
      obtain ⟨-, rfl, -⟩ := h
      exact (wait_suffix _ _ _ _ _ _ hw).trans (handOver_suffix _ { c with paused := false } _)

/-- libcurl hands over pieces of 1 to 16384 bytes, at most `n` more. -/
structure Link (n : Nat) (s : State) : Prop where
  unread : s.r.unread = content s.conn
  eof : s.r.eof = feof s.conn
  small : ∀ p ∈ s.conn.pieces, p ≠ [] ∧ p.length ≤ 16384
  count : s.conn.pieces.length ≤ n

/-- libcurl hands over a piece whenever it is given control, often enough. -/
def Busy (n : Nat) (w : During) : Prop := (∀ a ∈ w.2, 0 < a.pieces ∧ a.finish = true) ∧ n < w.2.length

theorem refill_url {n : Nat} {c : List UInt8} {s : State} {w : During} (h : Holds 1 c s.r) (hk : Link n s) (more : Bool)
    (hm : more = true → left s.r + 16384 ≤ MAXRECLEN) (hw : Sound w.2) (h1 : w.1 ≤ 1) :
    (UrlReader.refill w (left s.r) more s = none ∧ ¬ Busy n w) ∨
    ∃ s', UrlReader.refill w (left s.r) more s = some (true, s') ∧ Holds 1 c s'.r ∧ Link n s' ∧ s'.r.streampos = s.r.streampos ∧
      s'.r.endoffset = s.r.endoffset ∧ s'.r.recordcount = s.r.recordcount ∧ left s.r ≤ left s'.r ∧
      ((s' = s ∧ (s.r.eof = true ∨ (40 ≤ left s.r ∧ more = false))) ∨
       (s.r.eof = false ∧ (s'.r.eof = true ∨ s'.r.unread.length < s.r.unread.length) ∧ s'.r.unread.length ≤ s.r.unread.length)) := by
  unfold UrlReader.refill
  have hM : MAXRECLEN = 10485760 := rfl
  by_cases hc : s.r.eof = false ∧ (((left s.r : Nat) : Int) < 40 ∨ more = true)
  · rw [if_pos hc]
    simp only
    have hl : left s.r + 16384 ≤ MAXRECLEN := by
      rcases hc.2 with h1 | h1
      · omega
      · exact hm h1
    have eb : (if ((left s.r : Nat) : Int) ≤ 0 then [] else s.r.buf.drop s.r.readoffset.toNat)
        = s.r.buf.drop s.r.readoffset.toNat := by
      split
      · rename_i hz
        exact (List.eq_nil_of_length_eq_zero (by unfold left at hz; omega)).symm
      · rfl
    have e0 : (if ((left s.r : Nat) : Int) ≤ 0 ∨ s.r.readoffset > 0 then 0 else s.r.readoffset) = 0 := by
      have := h.low
      split <;> omega
    rw [eb, e0]
    have hlen : (s.r.buf.drop s.r.readoffset.toNat).length = left s.r := rfl
    have hrun : s.conn.running = true := by
      have := hk.eof
      rw [hc.1] at this
      unfold feof at this
      simpa using this.symm
    have hsm : ∀ p ∈ s.conn.pieces, p ≠ [] ∧ p.length ≤ MAXRECLEN - left s.r := by
      intro p hp
      have := hk.small p hp
      exact ⟨this.1, by omega⟩
    rw [hlen]
    cases hf : fread (MAXRECLEN - left s.r) w.1 w.2 s.conn with
    | none =>
      left
      refine ⟨rfl, fun hb => ?_⟩
      obtain ⟨x, hx⟩ := Props.Url.C131_returns_partial hw hsm h1 hb.1 (Nat.lt_of_le_of_lt hk.count hb.2)
      rw [hf] at hx
      cases hx
    | some x =>
      right
      obtain ⟨b, c', rest⟩ := x
      obtain ⟨k1, k2, k3⟩ := Proof.Url.fread_ok hw (by simp [hrun]) hf
      have k4 := Props.Url.C131_progress_partial (by omega) hw hsm h1 hf
      have hsuf := fread_suffix hf
      have hdata := h.data
      rw [hk.unread, k1] at hdata
      generalize s.r.buf.drop s.r.readoffset.toNat = q at *
      simp only [Option.map_some]
      have hflag : (!(decide (b.length = 0) && !feof c')) = true := by
        rcases k4 with k4 | k4
        · have : b.length ≠ 0 := fun e => k4 (List.eq_nil_of_length_eq_zero e)
          simp [this]
        · simp [k4]
      rw [hflag]
      refine ⟨_, rfl, ⟨by simp, by simp only; omega, ?_, ?_, ?_, fun _ => Nat.one_dvd _⟩, ⟨rfl, rfl, ?_, ?_⟩, rfl, rfl, rfl, ?_,
        Or.inr ⟨hc.1, ?_, ?_⟩⟩
      · simp only [List.length_append]; omega
      · simp only [Int.toNat_zero, List.drop_zero, List.append_assoc]
        exact hdata
      · intro he
        unfold feof at he
        exact k3 (by simpa using he)
      · exact fun p hp => hk.small p (hsuf.subset hp)
      · exact Nat.le_trans hsuf.length_le hk.count
      · show left s.r ≤ ((q ++ b).drop (0 : Int).toNat).length
        simp only [Int.toNat_zero, List.drop_zero, List.length_append]
        omega
      · have e : s.r.unread.length = b.length + (content c').length := by rw [hk.unread, k1, List.length_append]
        rcases k4 with k4 | k4
        · right
          show (content c').length < _
          have : b.length ≠ 0 := fun e => k4 (List.eq_nil_of_length_eq_zero e)
          omega
        · exact Or.inl k4
      · have e : s.r.unread.length = b.length + (content c').length := by rw [hk.unread, k1, List.length_append]
        show (content c').length ≤ _
        omega
  · rw [if_neg hc]
    refine .inr ⟨s, rfl, h, hk, rfl, rfl, rfl, Nat.le_refl _, Or.inl ⟨rfl, ?_⟩⟩
    cases he : s.r.eof <;> cases more <;> simp [he] at hc ⊢ <;> omega

/-- What is left of the file after the last record. -/
def Rest (o : Opts) (tail : List UInt8) : Prop :=
  tail.length < 40 ∨ (o.skip = true ∧ ∀ i, i + 40 ≤ tail.length → Bad o (tail.drop i))

/-- The loop before a pass: the records of `l` and `tail` are still to be read. -/
structure Inv (o : Opts) (n : Nat) (l : List Item) (tail : List UInt8) (more : Bool) (s : State) : Prop where
  holds : Holds 1 (cat l ++ tail) s.r
  link : Link n s
  fine : ∀ i ∈ l, Fine o 1 i ∧ i.b.length + 16384 ≤ MAXRECLEN
  rest : Rest o tail
  open_ : s.r.endoffset = 0 ∨ s.r.endoffset + 1 = s.r.streampos + ((cat l).length + tail.length : Nat)
  pending : more = true → ∃ i l', l = i :: l' ∧ i.j = [] ∧ 40 ≤ left s.r ∧ left s.r < i.b.length

/-- The passes that are left at most. -/
def measure (more : Bool) (s : State) : Nat :=
  2 * s.r.unread.length + 2 * (left s.r + s.r.unread.length) + (if s.r.eof then 0 else 2) + (if more then 0 else 1)

theorem total {o : Opts} {n : Nat} {l : List Item} {tail : List UInt8} {more : Bool} {s : State} (h : Inv o n l tail more s) :
    left s.r + s.r.unread.length = (cat l).length + tail.length := by
  have := congrArg List.length h.holds.data
  rw [List.length_append, List.length_append] at this
  exact this

/-- The code that is returned in the end. -/
def Last (s : State) (ret : Ret) : Prop :=
  ret = code s.r.recordcount ∨ (ret = .endOfFile ∧ s.r.endoffset ≠ 0)

/-- What a pass of the loop does. -/
inductive Does (o : Opts) (n : Nat) (l : List Item) (tail : List UInt8) (more : Bool) (s : State) : Res Pass → Prop
  | again (l' tail' more' s') : Inv o n l' tail' more' s' →
      expected s'.r.streampos (items o l') = expected s.r.streampos (items o l) → s'.r.recordcount = s.r.recordcount →
      s'.r.endoffset = s.r.endoffset → (cat l').length + tail'.length ≤ (cat l).length + tail.length →
      measure more' s' < measure more s → Does o n l tail more s (.ok (.again more' s'))
  | record (i : Item) (l' s') : Inv o n l' tail false s' →
      expected s.r.streampos (items o l) = (s'.r.streampos - i.m'.reclen, i.m') :: expected s'.r.streampos (items o l') →
      s'.r.recordcount = s.r.recordcount + 1 → s'.r.endoffset = s.r.endoffset → (cat l').length ≤ (cat l).length →
      Does o n l tail more s (.ok (.done (.record i.m') s'))
  | stop (ret s') : expected s.r.streampos (items o l) = [] → Last s ret → Does o n l tail more s (.ok (.done ret s'))

theorem expected_cons (o : Opts) (pos : Int) (i : Item) (l : List Item) :
    expected pos (items o (i :: l)) = if chosen o i.m = true then
      (pos + i.j.length, i.m') :: expected (pos + i.j.length + i.b.length) (items o l)
      else expected (pos + i.j.length + i.b.length) (items o l) := rfl

theorem attempt_bad {o : Opts} (hs : o.skip = true) {d : Nat} {c : List UInt8} {r : Reader} (h : Holds d c r) (hb : Bad o c)
    (h40 : 40 ≤ left r) (n : Int) : attempt o n r = .ok (.again false (advance 1 r)) := by
  have hp := hb (r.buf.drop r.readoffset.toNat) r.unread r.readoffset.toNat
    (o.unpackdata && o.select.isNone) r.eof h.data.symm h40
  unfold attempt
  rw [if_neg (by have := h.low; omega), hp, bind_ok]
  simp only [List.take_append_drop]
  unfold failed
  rw [if_pos hs]

theorem link_advance {n : Nat} {s : State} (h : Link n s) (k : Int) : Link n { s with r := advance k s.r } :=
  ⟨h.unread, h.eof, h.small, h.count⟩

theorem step_url {o : Opts} {n : Nat} {l : List Item} {tail : List UInt8} {more : Bool} {s : State} {w : During}
    (h : Inv o n l tail more s) (hw : Sound w.2) (h1 : w.1 ≤ 1) :
    (UrlReader.step o w more s = .err ∧ ¬ Busy n w) ∨ Does o n l tail more s (UrlReader.step o w more s) := by
  have hM : MAXRECLEN = 10485760 := rfl
  unfold UrlReader.step
  by_cases hend : s.r.endoffset ≠ 0 ∧ s.r.endoffset + 1 - s.r.streampos < 40
  · right
    rw [if_pos hend]
    refine .stop _ _ ?_ (.inr ⟨rfl, hend.1⟩)
    cases l with
    | nil => rfl
    | cons i l =>
      have := (h.fine i (by simp)).1.good.low
      rcases h.open_ with e | e
      · exact absurd e hend.1
      · rw [cat_cons, List.length_append, List.length_append] at e
        omega
  rw [if_neg hend, buflen_holds h.holds, bind_ok]
  have hm : more = true → left s.r + 16384 ≤ MAXRECLEN := by
    intro hmore
    obtain ⟨i, l', rfl, -, -, hlt⟩ := h.pending hmore
    have := (h.fine i (by simp)).2
    omega
  rcases refill_url h.holds h.link more hm hw h1 with ⟨hr, hb⟩ | ⟨s1, hr, g1, g2, g3, g4, g5, g6, g7⟩
  · left
    rw [hr]
    exact ⟨rfl, hb⟩
  right
  rw [hr]
  simp only
  rw [buflen_holds g1, bind_ok]
  have hinv : Inv o n l tail false s1 := ⟨g1, g2, h.fine, h.rest, by rw [g3, g4]; exact h.open_, by simp⟩
  have ht0 := total h
  have ht1 := total hinv
  have hall : s1.r.eof = true → left s1.r = (cat l).length + tail.length := by
    intro he
    have := g1.eof he
    rw [this] at ht1
    simpa using ht1
  have heof : (if s1.r.eof then 0 else 2) ≤ (if s.r.eof then 0 else 2) := by
    rcases g7 with ⟨rfl, -⟩ | ⟨e, -⟩
    · exact Nat.le_refl _
    · rw [e]; split <;> simp
  have hun : s1.r.unread.length ≤ s.r.unread.length := by
    rcases g7 with ⟨rfl, -⟩ | ⟨-, -, e⟩
    · exact Nat.le_refl _
    · exact e
  have h40c : ∀ i ∈ l, 40 ≤ i.b.length := fun i hi => (h.fine i hi).1.good.low
  by_cases h40 : left s1.r < 40
  · -- too little to look at
    have hmf : more = false := by
      cases hmore : more with
      | false => rfl
      | true =>
        obtain ⟨i, l', -, -, h40', -⟩ := h.pending hmore
        omega
    subst hmf
    rw [if_neg (by omega), bind_ok, finished_again_eq g1]
    by_cases he : s1.r.eof = true
    · rw [if_pos ⟨he, h40⟩, bind_ok, g5]
      refine .stop _ _ ?_ (.inl rfl)
      cases l with
      | nil => rfl
      | cons i l =>
        have := hall he
        have := h40c i (by simp)
        rw [cat_cons, List.length_append, List.length_append] at *
        omega
    · rw [if_neg (fun e => he e.1), bind_ok]
      refine .again l tail false s1 hinv (by rw [g3]) g5 g4 (Nat.le_refl _) ?_
      unfold Proof.UrlReader.measure
      rcases g7 with ⟨rfl, e | e⟩ | ⟨-, e | e, -⟩
      · exact absurd e he
      · omega
      · exact absurd e he
      · omega
  rw [if_pos (by omega)]
  -- a byte that begins no record
  have skip1 : ∀ (l' : List Item) (tail' : List UInt8), o.skip = true → Bad o (cat l ++ tail) →
      (cat l ++ tail).drop 1 = cat l' ++ tail' → (∀ i ∈ l', Fine o 1 i ∧ i.b.length + 16384 ≤ MAXRECLEN) → Rest o tail' →
      expected (s.r.streampos + 1) (items o l') = expected s.r.streampos (items o l) → (∀ i ∈ l', 40 ≤ i.b.length) →
      Does o n l tail more s ((Res.bind (attempt o (left s1.r) s1.r) finished).bind fun x => .ok (withConn s1.conn x)) := by
    intro l' tail' hs hb hd hf hrest hexp hlow
    have h2 := holds_one (k := 1) (by omega) g1 (by omega)
    rw [hd] at h2
    rw [attempt_bad hs g1 hb (by omega), bind_ok]
    rw [show (advance (1 : Int) s1.r) = advance ((1 : Nat) : Int) s1.r from rfl]
    rw [finished_again_eq h2]
    have hpos : (advance ((1 : Nat) : Int) s1.r).streampos = s.r.streampos + 1 := by
      show s1.r.streampos + 1 = _
      rw [g3]
    by_cases he : (advance ((1 : Nat) : Int) s1.r).eof = true ∧ left (advance ((1 : Nat) : Int) s1.r) < 40
    · rw [if_pos he, bind_ok]
      have hc : (advance ((1 : Nat) : Int) s1.r).recordcount = s.r.recordcount := g5
      rw [hc]
      refine .stop _ _ ?_ (.inl rfl)
      rw [← hexp]
      cases l' with
      | nil => rfl
      | cons i l' =>
        have e := congrArg List.length h2.data
        rw [h2.eof he.1, List.append_nil, List.length_append, cat_cons, List.length_append, List.length_append] at e
        have e' : left (advance ((1 : Nat) : Int) s1.r) = _ := e
        have := hlow i (by simp)
        omega
    · rw [if_neg he, bind_ok]
      have hinv' : Inv o n l' tail' false { s1 with r := advance ((1 : Nat) : Int) s1.r } :=
        ⟨h2, link_advance g2 _, hf, hrest, by
          have hlen := congrArg List.length hd
          rw [List.length_drop, List.length_append, List.length_append] at hlen
          show s1.r.endoffset = 0 ∨ s1.r.endoffset + 1 = (advance ((1 : Nat) : Int) s1.r).streampos + _
          rw [hpos, g4]
          refine h.open_.imp id fun e => ?_
          omega, by simp⟩
      refine .again l' tail' false { s1 with r := advance ((1 : Nat) : Int) s1.r } hinv' (by rw [hpos]; exact hexp) g5 g4 (by
        have hlen := congrArg List.length hd
        rw [List.length_drop, List.length_append, List.length_append] at hlen
        omega) ?_
      have ht2 := total hinv'
      have hlen := congrArg List.length hd
      rw [List.length_drop, List.length_append, List.length_append] at hlen
      unfold Proof.UrlReader.measure
      have e1 : ({ s1 with r := advance ((1 : Nat) : Int) s1.r } : State).r.unread.length = s1.r.unread.length := rfl
      have e2 : ({ s1 with r := advance ((1 : Nat) : Int) s1.r } : State).r.eof = s1.r.eof := rfl
      rw [ht2, e1, e2, ht0]
      have : (if more = true then 0 else 1) ≥ 0 := Nat.zero_le _
      simp only [Bool.false_eq_true, if_false]
      omega
  cases l with
  | nil =>
    have hlen : left s1.r ≤ tail.length := by
      have : (cat []).length = 0 := rfl
      omega
    have hrest := h.rest
    rcases h.rest with hr' | ⟨hs, hb⟩
    · omega
    · refine skip1 [] (tail.drop 1) hs (by simpa [cat] using hb 0 (by omega)) (by simp [cat]) (by simp) ?_ rfl (by simp)
      right
      refine ⟨hs, fun i hi => ?_⟩
      rw [List.length_drop] at hi
      rw [List.drop_drop]
      exact hb _ (by omega)
  | cons i l =>
    obtain ⟨hfi, hbi⟩ := h.fine i (by simp)
    have hi := hfi.good
    have hlow := hi.low
    cases hj : i.j with
    | cons a j =>
      rcases hfi.junk with e | ⟨-, hs, hb⟩
      · rw [e] at hj; cases hj
      · refine skip1 ({ i with j := j } :: l) tail hs ?_ ?_ ?_ h.rest ?_ ?_
        · have := hb 0 (by rw [hj]; simp) (cat l ++ tail)
          rw [List.drop_zero] at this
          rw [cat_cons]
          simpa [List.append_assoc] using this
        · rw [cat_cons, cat_cons, hj]; simp
        · intro k hk
          rcases List.mem_cons.1 hk with rfl | hk
          · refine ⟨⟨hi, ?_⟩, hbi⟩
            right
            refine ⟨by omega, hs, fun k hk t => ?_⟩
            have := hb (k + 1) (by rw [hj]; simp only [List.length_cons]; simp only at hk; omega) t
            rw [hj, List.drop_succ_cons] at this
            exact this
          · exact h.fine k (by simp [hk])
        · rw [expected_cons, expected_cons]
          simp only [hj, List.length_cons]
          rw [show s.r.streampos + 1 + (j.length : Int) = s.r.streampos + ((j.length + 1 : Nat) : Int) by omega]
        · intro k hk
          rcases List.mem_cons.1 hk with rfl | hk
          · exact hlow
          · exact h40c k (by simp [hk])
    | nil =>
      have hcat : cat (i :: l) ++ tail = i.b ++ (cat l ++ tail) := by
        rw [cat_cons, hj]; simp
      rw [hcat] at g1
      have hclen : (cat (i :: l)).length = i.b.length + (cat l).length := by
        rw [cat_cons, hj]; simp
      by_cases hl : i.b.length ≤ left s1.r
      · rw [attempt_good _ hi g1 hl, bind_ok]
        have ha := holds_advance g1 hl (Or.inr (Nat.one_dvd _))
        by_cases hc : chosen o i.m = true
        · rw [if_pos hc, finished_done, bind_ok]
          have hh : Holds 1 (cat l ++ tail) (counted i.b s1.r) := ⟨ha.low, ha.high, ha.max, ha.data, ha.eof, ha.dvd⟩
          refine .record i l { s1 with r := counted i.b s1.r }
            ⟨hh, ⟨g2.unread, g2.eof, g2.small, g2.count⟩, fun k hk => h.fine k (by simp [hk]), h.rest, by
              show s1.r.endoffset = 0 ∨ s1.r.endoffset + 1 = s1.r.streampos + (i.b.length : Int) + _
              rw [g3, g4]
              refine h.open_.imp id fun e => ?_
              omega, by simp⟩ ?_ ?_ g4 (by omega)
          · rw [expected_cons, if_pos hc, hi.reclen', hj]
            have : ({ s1 with r := counted i.b s1.r } : State).r.streampos = s.r.streampos + i.b.length := by
              show s1.r.streampos + _ = _
              rw [g3]
            rw [this]
            simp only [List.length_nil, Int.ofNat_zero, Int.natCast_zero, Int.add_zero]
            congr 2
            omega
          · show s1.r.recordcount + 1 = _
            rw [g5]
        · rw [if_neg hc, finished_again_eq ha]
          have hpos : (advance (i.b.length : Int) s1.r).streampos = s.r.streampos + i.b.length := by
            show s1.r.streampos + _ = _
            rw [g3]
          have hexp : expected s.r.streampos (items o (i :: l)) = expected (s.r.streampos + i.b.length) (items o l) := by
            rw [expected_cons, if_neg hc, hj]; simp
          by_cases he : (advance (i.b.length : Int) s1.r).eof = true ∧ left (advance (i.b.length : Int) s1.r) < 40
          · rw [if_pos he, bind_ok]
            have hcnt : (advance (i.b.length : Int) s1.r).recordcount = s.r.recordcount := g5
            rw [hcnt]
            refine .stop _ _ ?_ (.inl rfl)
            rw [hexp]
            cases l with
            | nil => rfl
            | cons k l =>
              have e := congrArg List.length ha.data
              rw [ha.eof he.1, List.append_nil, List.length_append, cat_cons, List.length_append, List.length_append] at e
              have e' : left (advance (i.b.length : Int) s1.r) = _ := e
              have := h40c k (by simp)
              omega
          · rw [if_neg he, bind_ok]
            have hinv' : Inv o n l tail false { s1 with r := advance (i.b.length : Int) s1.r } :=
              ⟨ha, link_advance g2 _, fun k hk => h.fine k (by simp [hk]), h.rest, by
                show s1.r.endoffset = 0 ∨ s1.r.endoffset + 1 = (advance (i.b.length : Int) s1.r).streampos + _
                rw [hpos, g4]
                refine h.open_.imp id fun e => ?_
                omega, by simp⟩
            refine .again l tail false { s1 with r := advance (i.b.length : Int) s1.r } hinv' (by rw [hpos, hexp]) g5 g4 (by omega) ?_
            have ht2 := total hinv'
            unfold Proof.UrlReader.measure
            have e1 : ({ s1 with r := advance (i.b.length : Int) s1.r } : State).r.unread.length = s1.r.unread.length := rfl
            have e2 : ({ s1 with r := advance (i.b.length : Int) s1.r } : State).r.eof = s1.r.eof := rfl
            rw [ht2, e1, e2, ht0, hclen]
            simp only [Bool.false_eq_true, if_false]
            omega
      · have he : s1.r.eof = false := by
          cases he : s1.r.eof with
          | false => rfl
          | true =>
            have := hall he
            omega
        rw [attempt_cut hi g1 (by omega) (by omega) he, bind_ok]
        have hfin : finished (.again true s1.r) = .ok (.again true s1.r) := by
          unfold finished
          simp only [he, Bool.false_eq_true, if_false]
        rw [hfin, bind_ok]
        refine .again (i :: l) tail true s1
          ⟨hinv.holds, g2, h.fine, h.rest, hinv.open_, fun _ => ⟨i, l, rfl, hj, by omega, by omega⟩⟩ (by rw [g3]) g5 g4 (Nat.le_refl _) ?_
        unfold Proof.UrlReader.measure
        simp only [if_true]
        rcases g7 with ⟨rfl, e | e⟩ | ⟨-, e | e, -⟩
        · rw [he] at e; cases e
        · rw [e.2]
          simp only [Bool.false_eq_true, if_false]
          omega
        · rw [he] at e; cases e
        · omega

/-- What a call does. -/
inductive Gives (o : Opts) (n : Nat) (l : List Item) (tail : List UInt8) (s : State) : Res (Ret × State) → Prop
  | record (i : Item) (l' tail' s') : Inv o n l' tail' false s' →
      expected s.r.streampos (items o l) = (s'.r.streampos - i.m'.reclen, i.m') :: expected s'.r.streampos (items o l') →
      s'.r.recordcount = s.r.recordcount + 1 → s'.r.endoffset = s.r.endoffset →
      (cat l').length + tail'.length ≤ (cat l).length + tail.length → Gives o n l tail s (.ok (.record i.m', s'))
  | stop (ret s') : expected s.r.streampos (items o l) = [] → Last s ret → Gives o n l tail s (.ok (ret, s'))

theorem readmsr_url {o : Opts} {n : Nat} : ∀ (ws : List During) (l : List Item) (tail : List UInt8) (more : Bool) (s : State),
    Inv o n l tail more s → (∀ w ∈ ws, Sound w.2 ∧ w.1 ≤ 1) →
    (UrlReader.readmsr o ws more s = .err ∧ ¬ ((∀ w ∈ ws, Busy n w) ∧ measure more s < ws.length)) ∨ Gives o n l tail s (UrlReader.readmsr o ws more s)
  | [], l, tail, more, s, h, hw => .inl ⟨rfl, by simp⟩
  | w :: ws, l, tail, more, s, h, hw => by
    rw [UrlReader.readmsr]
    obtain ⟨a1, a2⟩ := hw w (by simp)
    rcases step_url h a1 a2 with ⟨e, hb⟩ | hd
    · left
      rw [e]
      exact ⟨rfl, fun hx => hb (hx.1 w (by simp))⟩
    · generalize hst : UrlReader.step o w more s = st at hd
      cases hd with
      | again l' tail' more' s' b1 b2 b3 b5 b6 b4 =>
        rw [bind_ok]
        simp only
        rcases readmsr_url ws l' tail' more' s' b1 (fun w hw' => hw w (by simp [hw'])) with ⟨e, hb⟩ | hg
        · left
          refine ⟨e, fun hx => hb ⟨fun w hw' => hx.1 w (by simp [hw']), ?_⟩⟩
          have := hx.2
          rw [List.length_cons] at this
          omega
        · right
          generalize UrlReader.readmsr o ws more' s' = y at hg
          cases hg with
          | record i l2 t2 s2 c1 c2 c3 c4 c5 => exact .record i l2 t2 s2 c1 (by rw [← b2]; exact c2) (by rw [c3, b3]) (c4.trans b5) (by omega)
          | stop ret s2 c1 c2 =>
            refine .stop ret s2 (by rw [← b2]; exact c1) ?_
            unfold Last at c2 ⊢
            rwa [b3, b5] at c2
      | record i l' s' b1 b2 b3 b4 b5 =>
        rw [bind_ok]
        exact .inr (.record i l' tail s' b1 b2 b3 b4 (by omega))
      | stop ret s' b1 b2 =>
        rw [bind_ok]
        exact .inr (.stop ret s' b1 b2)

end Verif.Proof.UrlReader
