import Verif.Proof.Reader
/-! Lemmas on the file reader: positions, and reading one record after the other. -/
namespace Verif.Proof.Reader
open Verif.Model Verif.Model.Steim Verif.Model.Mem Verif.Model.Record3 Verif.Model.Reader
open Verif.Proof.Mem

theorem loop_more (o : Opts) (f k : Nat) (more : Bool) (r : Reader) (x : Res (Ret × Reader))
    (h : loop o f more r = x) (hx : x ≠ .err) : loop o (f + k) more r = x := by
  induction f generalizing more r with
  | zero => exact absurd h.symm hx
  | succ f ih =>
    rw [show f + 1 + k = (f + k) + 1 by omega, loop]
    rw [loop] at h
    cases hs : step o more r with
    | ok s =>
      rw [hs, bind_ok] at h
      rw [bind_ok]
      cases s with
      | done ret r' => exact h
      | again more' r' => exact ih more' r' h
    | err => rw [hs] at h; exact h
    | ub => rw [hs] at h; exact h
    | oob => rw [hs] at h; exact h

/-- The loop gives this outcome with some fuel. -/
def Runs (o : Opts) (more : Bool) (r : Reader) (x : Res (Ret × Reader)) : Prop :=
  x ≠ .err ∧ ∃ f, loop o f more r = x

theorem runs_readmsr (o : Opts) (ho : Ends o) (r : Reader) (x : Res (Ret × Reader))
    (h0 : 0 ≤ r.readoffset) (h : Runs o false r x) : readmsr o r = x := by
  obtain ⟨hx, f, hf⟩ := h
  have h1 := readmsr_ends o ho r h0
  unfold readmsr at h1 ⊢
  have a := loop_more o f (4 * r.unread.length + 2 * r.buf.length + 6) false r x hf hx
  have b := loop_more o (4 * r.unread.length + 2 * r.buf.length + 6) f false r _ rfl h1
  rw [Nat.add_comm, a] at b
  exact b.symm

theorem runs_done {o : Opts} {more : Bool} {r r' : Reader} {ret : Ret}
    (h : step o more r = .ok (.done ret r')) : Runs o more r (.ok (ret, r')) :=
  ⟨by simp, 1, by rw [loop, h]; rfl⟩

theorem runs_again {o : Opts} {more more' : Bool} {r r' : Reader} {x : Res (Ret × Reader)}
    (h : step o more r = .ok (.again more' r')) (hr : Runs o more' r' x) : Runs o more r x := by
  obtain ⟨hx, f, hf⟩ := hr
  exact ⟨hx, f + 1, by rw [loop, h]; exact hf⟩

/-- The reader holds the bytes `c` in its buffer and the unread file; unless the file is read to its
end, the bytes in the buffer are a multiple of `d`. -/
structure Holds (d : Nat) (c : List UInt8) (r : Reader) : Prop where
  low : 0 ≤ r.readoffset
  high : r.readoffset ≤ r.buf.length
  max : r.buf.length ≤ MAXRECLEN
  data : r.buf.drop r.readoffset.toNat ++ r.unread = c
  eof : r.eof = true → r.unread = []
  dvd : r.eof = false → d ∣ (r.buf.drop r.readoffset.toNat).length

/-- The bytes in the buffer that are not processed. -/
def left (r : Reader) : Nat := (r.buf.drop r.readoffset.toNat).length

theorem buflen_holds {d : Nat} {c : List UInt8} {r : Reader} (h : Holds d c r) :
    buflen r = .ok (left r) := by
  have h1 := h.low
  have h2 := h.high
  have h3 := h.max
  unfold buflen left
  simp only [List.length_drop]
  unfold MAXRECLEN at h3
  rw [if_pos (by omega)]
  congr 1
  omega

/-- The whole file of `n` bytes is read at once (`d = 0`), or reads are of multiples of `d` bytes. -/
def Fits (d n : Nat) : Prop := (d = 0 ∧ n < MAXRECLEN) ∨ d ∣ MAXRECLEN

theorem Fits.mono {d n k : Nat} (h : Fits d n) (hk : k ≤ n) : Fits d k := by
  rcases h with h | h
  · exact Or.inl ⟨h.1, by omega⟩
  · exact Or.inr h

/-- Reading more: everything about the reader afterwards. -/
theorem refill_holds {d : Nat} {c : List UInt8} {r : Reader} (h : Holds d c r)
    (hd : Fits d c.length)
    (more : Bool) (hm : more = true → r.eof = false → left r < MAXRECLEN) :
    ∃ r', refill (left r) more r = (true, r') ∧ Holds d c r' ∧ r'.streampos = r.streampos ∧
      r'.endoffset = r.endoffset ∧ r'.recordcount = r.recordcount ∧
      ((r' = r ∧ (r.eof = true ∨ (40 ≤ left r ∧ more = false))) ∨
       ((r'.eof = true ∨ left r' = MAXRECLEN) ∧ r.eof = false)) := by
  unfold refill
  have hM : MAXRECLEN = 10485760 := rfl
  by_cases hc : r.eof = false ∧ (((left r : Nat) : Int) < 40 ∨ more = true)
  · rw [if_pos hc]
    simp only
    have hl : left r < MAXRECLEN := by
      rcases hc.2 with h1 | h1
      · omega
      · exact hm h1 hc.1
    have eb : (if ((left r : Nat) : Int) ≤ 0 then [] else r.buf.drop r.readoffset.toNat)
        = r.buf.drop r.readoffset.toNat := by
      split
      · rename_i hz
        exact (List.eq_nil_of_length_eq_zero (by unfold left at hz; omega)).symm
      · rfl
    have e0 : (if ((left r : Nat) : Int) ≤ 0 ∨ r.readoffset > 0 then 0 else r.readoffset) = 0 := by
      have := h.low
      split <;> omega
    rw [eb, e0]
    have hlen : (r.buf.drop r.readoffset.toNat).length = left r := rfl
    have hdata := h.data
    generalize r.buf.drop r.readoffset.toNat = b at *
    rw [hlen]
    have hg : ¬ ((r.unread.take (MAXRECLEN - left r)).length = 0 ∧
        decide (r.unread.length < MAXRECLEN - left r) = false) := by
      rw [List.length_take, decide_eq_false_iff_not]
      omega
    rw [if_neg hg]
    refine ⟨_, rfl, ⟨by simp, ?_, ?_, ?_, ?_, ?_⟩, rfl, rfl, rfl, Or.inr ⟨?_, hc.1⟩⟩
    · simp only; omega
    · simp only [List.length_append, List.length_take]; omega
    · simp only [Int.toNat_zero, List.drop_zero, List.append_assoc, List.take_append_drop]
      exact hdata
    · simp only [decide_eq_true_eq]
      intro hlt
      exact List.drop_eq_nil_of_le (by omega)
    · simp only [decide_eq_false_iff_not, Int.toNat_zero, List.drop_zero, List.length_append,
        List.length_take]
      intro hge
      rw [show b.length + min (MAXRECLEN - left r) r.unread.length = MAXRECLEN by omega]
      rcases hd with hd | hd
      · have := congrArg List.length hdata
        rw [List.length_append] at this
        omega
      · exact hd
    · by_cases hlt : r.unread.length < MAXRECLEN - left r
      · exact Or.inl (decide_eq_true hlt)
      · right
        show ((b ++ r.unread.take (MAXRECLEN - left r)).drop (0 : Int).toNat).length = MAXRECLEN
        simp only [Int.toNat_zero, List.drop_zero, List.length_append, List.length_take]
        omega
  · rw [if_neg hc]
    refine ⟨r, rfl, h, rfl, rfl, rfl, Or.inl ⟨rfl, ?_⟩⟩
    cases he : r.eof <;> cases more <;> simp [he] at hc ⊢ <;> omega

theorem holds_advance {d : Nat} {b t : List UInt8} {r : Reader} (h : Holds d (b ++ t) r)
    (hl : b.length ≤ left r) (hd : d = 0 ∨ d ∣ b.length) : Holds d t (advance b.length r) := by
  have h1 := h.low
  have h2 := h.high
  have e : (r.readoffset + (b.length : Int)).toNat = r.readoffset.toNat + b.length := by omega
  have hpre : r.buf.drop r.readoffset.toNat = b ++ (r.buf.drop r.readoffset.toNat).drop b.length := by
    have := congrArg (List.take b.length) h.data
    rw [List.take_append_of_le_length (by exact hl), List.take_left] at this
    conv => lhs; rw [← List.take_append_drop b.length (r.buf.drop r.readoffset.toNat)]
    rw [this]
  refine ⟨?_, ?_, h.max, ?_, h.eof, ?_⟩
  · show 0 ≤ r.readoffset + _
    omega
  · show r.readoffset + (b.length : Int) ≤ _
    unfold left at hl
    rw [List.length_drop] at hl
    change r.readoffset + (b.length : Int) ≤ (r.buf.length : Int)
    omega
  · show r.buf.drop (r.readoffset + (b.length : Int)).toNat ++ r.unread = t
    have := h.data
    rw [hpre, List.append_assoc] at this
    have := List.append_cancel_left this
    rw [e, ← List.drop_drop]
    exact this
  · intro he
    show d ∣ (r.buf.drop (r.readoffset + (b.length : Int)).toNat).length
    have := h.dvd he
    rw [hpre, List.length_append] at this
    rw [e, ← List.drop_drop]
    rcases hd with hd | hd
    · rw [hd, Nat.zero_dvd] at this ⊢
      omega
    · exact (Nat.dvd_add_right hd).1 this

/-- The bytes `b` are read as the record `m`, returned as `m'`. -/
structure Good (o : Opts) (d : Nat) (b : List UInt8) (m m' : Msr) : Prop where
  low : 40 ≤ b.length
  high : b.length ≤ MAXRECLEN
  dvd : d = 0 ∨ d ∣ b.length
  reclen : m.reclen = b.length
  reclen' : m'.reclen = b.length
  parse : ∀ off t eof, o.parse off (b ++ t) (o.unpackdata && o.select.isNone) eof =
    .ok (.record m, b ++ t)
  deliver : chosen o m = true → ∀ off t,
    (if o.unpackdata = true ∧ o.select.isSome = true ∧ m.samplecnt > 0 then o.unpack off (b ++ t) m
     else .ok (.record m)) = .ok (.record m')
  cut : ∀ off k, 40 ≤ k → k < b.length → d ∣ k →
    ∃ n, o.parse off (b.take k) (o.unpackdata && o.select.isNone) false = .ok (.need n, b.take k) ∧
      k + n ≤ MAXRECLEN

theorem take_drop_self (r : Reader) (mem : List UInt8) (h : mem = r.buf.drop r.readoffset.toNat) :
    ({ r with buf := r.buf.take r.readoffset.toNat ++ mem } : Reader) = r := by
  rw [h, List.take_append_drop]

/-- The reader after a record. -/
def counted (b : List UInt8) (r : Reader) : Reader :=
  advance b.length { r with recordcount := r.recordcount + 1 }

theorem attempt_good {o : Opts} {d : Nat} {b t : List UInt8} {m m' : Msr} {r : Reader} (n : Int)
    (g : Good o d b m m') (h : Holds d (b ++ t) r) (hl : b.length ≤ left r) :
    attempt o n r = .ok (if chosen o m then .done (.record m') (counted b r)
      else .again false (advance b.length r)) := by
  have hpre : r.buf.drop r.readoffset.toNat = b ++ (r.buf.drop r.readoffset.toNat).drop b.length := by
    have := congrArg (List.take b.length) h.data
    rw [List.take_append_of_le_length (by exact hl), List.take_left] at this
    conv => lhs; rw [← List.take_append_drop b.length (r.buf.drop r.readoffset.toNat)]
    rw [this]
  have hp := g.parse r.readoffset.toNat ((r.buf.drop r.readoffset.toNat).drop b.length) r.eof
  rw [← hpre] at hp
  unfold attempt
  rw [if_neg (by have := h.low; omega), hp, bind_ok]
  simp only [List.take_append_drop]
  by_cases hc : chosen o m = true
  · rw [if_pos hc, if_pos hc]
    have hdl := g.deliver hc r.readoffset.toNat ((r.buf.drop r.readoffset.toNat).drop b.length)
    rw [← hpre] at hdl
    unfold Reader.deliver
    rw [hdl, bind_ok]
    simp only
    rw [g.reclen']
    rfl
  · rw [if_neg hc, if_neg hc, g.reclen]

theorem attempt_cut {o : Opts} {d : Nat} {b t : List UInt8} {m m' : Msr} {r : Reader}
    (g : Good o d b m m') (h : Holds d (b ++ t) r) (hl : left r < b.length) (h40 : 40 ≤ left r)
    (he : r.eof = false) : attempt o (left r) r = .ok (.again true r) := by
  have hpre : r.buf.drop r.readoffset.toNat = b.take (left r) := by
    have := congrArg (List.take (left r)) h.data
    rw [show left r = (r.buf.drop r.readoffset.toNat).length from rfl, List.take_left,
      List.take_append_of_le_length (by exact Nat.le_of_lt hl)] at this
    exact this
  obtain ⟨k, hk, hle⟩ := g.cut r.readoffset.toNat (left r) h40 hl (h.dvd he)
  rw [← hpre] at hk
  unfold attempt
  rw [if_neg (by have := h.low; omega), show r.eof = false from he, hk, bind_ok]
  simp only [List.take_append_drop]
  unfold wanting
  rw [if_neg (by omega), if_neg (by simp)]
  rw [← he]

/-- The end of a range is not reached. -/
def InRange (r : Reader) : Prop := ¬ (r.endoffset ≠ 0 ∧ r.endoffset + 1 - r.streampos < 40)

theorem finished_done (ret : Ret) (r : Reader) : finished (.done ret r) = .ok (.done ret r) := rfl

theorem step_whole {o : Opts} {d : Nat} {b t : List UInt8} {m m' : Msr} {r : Reader} (more : Bool)
    (g : Good o d b m m') (h : Holds d (b ++ t) r) (hr : InRange r)
    (hd : Fits d (b ++ t).length)
    (hm : more = true → r.eof = false → left r < MAXRECLEN)
    (hw : more = true ∨ b.length ≤ left r ∨ r.eof = true ∨ left r < 40) :
    ∃ r1, Holds d (b ++ t) r1 ∧ b.length ≤ left r1 ∧ r1.streampos = r.streampos ∧
      r1.endoffset = r.endoffset ∧ r1.recordcount = r.recordcount ∧
      step o more r = finished (if chosen o m then .done (.record m') (counted b r1)
        else .again false (advance b.length r1)) := by
  obtain ⟨r1, hf, h1, e1, e2, e3, hc⟩ := refill_holds h hd more hm
  have hlow := g.low
  have hhigh := g.high
  have hall : ∀ r : Reader, Holds d (b ++ t) r → r.eof = true → b.length ≤ left r := by
    intro r h he
    have := congrArg List.length h.data
    rw [h.eof he, List.append_nil, List.length_append] at this
    unfold left
    omega
  have hlen : b.length ≤ left r1 := by
    rcases hc with ⟨rfl, hc⟩ | ⟨hc | hc, -⟩
    · rcases hc with hc | ⟨hc, hmf⟩
      · exact hall _ h hc
      · rcases hw with hw | hw | hw | hw
        · rw [hmf] at hw; cases hw
        · exact hw
        · exact hall _ h hw
        · omega
    · exact hall _ h1 hc
    · omega
  refine ⟨r1, h1, hlen, e1, e2, e3, ?_⟩
  unfold step
  rw [if_neg hr, buflen_holds h, bind_ok, hf]
  simp only
  rw [buflen_holds h1, bind_ok, if_pos (by omega), attempt_good _ g h1 hlen, bind_ok]

theorem left_advance (b : List UInt8) (r : Reader) (h : 0 ≤ r.readoffset) :
    left (advance b.length r) = left r - b.length := by
  unfold left advance
  simp only [List.length_drop]
  omega

/-- One record: it is returned, or left out if it is not chosen. -/
theorem runs_record {o : Opts} {d : Nat} {b t : List UInt8} {m m' : Msr} {r : Reader}
    (g : Good o d b m m') (h : Holds d (b ++ t) r) (hr : InRange r)
    (hd : Fits d (b ++ t).length) :
    ∃ r1, Holds d (b ++ t) r1 ∧ b.length ≤ left r1 ∧ r1.streampos = r.streampos ∧
      r1.endoffset = r.endoffset ∧ r1.recordcount = r.recordcount ∧
      ∀ x, (chosen o m = true → x = .ok (.record m', counted b r1)) →
        (chosen o m = false → (∃ s, finished (.again false (advance b.length r1)) = .ok s ∧
          ((∃ ret, s = .done ret (advance b.length r1) ∧ x = .ok (ret, advance b.length r1)) ∨
           (s = .again false (advance b.length r1) ∧ Runs o false (advance b.length r1) x)))) →
        Runs o false r x := by
  have fin : ∀ more r0 r1, step o more r0 = finished (if chosen o m then .done (.record m') (counted b r1)
      else .again false (advance b.length r1)) → ∀ x,
      (chosen o m = true → x = .ok (.record m', counted b r1)) →
        (chosen o m = false → (∃ s, finished (.again false (advance b.length r1)) = .ok s ∧
          ((∃ ret, s = .done ret (advance b.length r1) ∧ x = .ok (ret, advance b.length r1)) ∨
           (s = .again false (advance b.length r1) ∧ Runs o false (advance b.length r1) x)))) →
        Runs o more r0 x := by
    intro more r0 r1 hs x hx hx'
    by_cases hc : chosen o m = true
    · rw [if_pos hc] at hs
      rw [hx hc]
      exact runs_done hs
    · obtain ⟨s, h1, h2⟩ := hx' (by simpa using hc)
      rw [if_neg hc, h1] at hs
      rcases h2 with ⟨ret, rfl, rfl⟩ | ⟨rfl, h2⟩
      · exact runs_done hs
      · exact runs_again hs h2
  by_cases hw : b.length ≤ left r ∨ r.eof = true ∨ left r < 40
  · obtain ⟨r1, a1, a2, a3, a4, a5, a6⟩ := step_whole false g h hr hd (by simp) (Or.inr hw)
    exact ⟨r1, a1, a2, a3, a4, a5, fin false r r1 a6⟩
  · have he : r.eof = false := by
      cases he : r.eof
      · rfl
      · exact absurd (Or.inr (Or.inl he)) hw
    have hlt : left r < b.length := by omega
    have hhigh := g.high
    obtain ⟨r1, a1, a2, a3, a4, a5, a6⟩ := step_whole true g h hr hd (by omega) (Or.inl rfl)
    refine ⟨r1, a1, a2, a3, a4, a5, fun x hx hx' => ?_⟩
    have hfirst : step o false r = .ok (.again true r) := by
      unfold step
      rw [if_neg hr, buflen_holds h, bind_ok]
      have : refill (left r) false r = (true, r) := by
        unfold refill
        rw [if_neg (by simp; omega)]
      rw [this]
      simp only
      rw [buflen_holds h, bind_ok, if_pos (by omega), attempt_cut g h hlt (by omega) he, bind_ok]
      unfold finished
      simp only [he, Bool.false_eq_true, if_false]
    exact runs_again hfirst (fin true r r1 a6 x hx hx')

/-- The end of the file: less than a header is left. -/
theorem runs_end {o : Opts} {d : Nat} {c : List UInt8} {r : Reader} (h : Holds d c r)
    (hr : InRange r) (hd : Fits d c.length) (hc : c.length < 40) :
    ∃ r', Runs o false r (.ok (if r.recordcount = 0 then .notSeed else .endOfFile, r')) ∧
      Holds d c r' := by
  obtain ⟨r1, hf, h1, e1, e2, e3, hcc⟩ := refill_holds h hd false (by simp)
  have hM : MAXRECLEN = 10485760 := rfl
  have hll : ∀ r, Holds d c r → left r ≤ c.length := by
    intro r h
    have := congrArg List.length h.data
    rw [List.length_append] at this
    unfold left
    omega
  have hl := hll r h
  have hl1 := hll r1 h1
  have he : r1.eof = true := by
    rcases hcc with ⟨rfl, hcc | hcc⟩ | ⟨hcc | hcc, -⟩
    · exact hcc
    · omega
    · exact hcc
    · omega
  refine ⟨r1, runs_done ?_, h1⟩
  unfold step
  rw [if_neg hr, buflen_holds h, bind_ok, hf]
  simp only
  rw [buflen_holds h1, bind_ok, if_neg (by omega), bind_ok]
  unfold finished
  simp only [he, if_true]
  rw [buflen_holds h1, bind_ok, if_pos (by omega), e3]

end Verif.Proof.Reader
