import Verif.Proof.ReaderRead
import Verif.Props.ReaderDefs
/-! Reading a whole file of records. -/
namespace Verif.Proof.Reader
open Verif.Model Verif.Model.Steim Verif.Model.Mem Verif.Model.Record3 Verif.Model.Reader
open Verif.Proof.Mem Verif.Props.Reader

/-- Wherever the buffer ends, there is no record at the beginning of the bytes `c`. -/
def Bad (o : Opts) (c : List UInt8) : Prop :=
  ∀ mem rest off ud eof, c = mem ++ rest → 40 ≤ mem.length →
    o.parse off mem ud eof = .ok (.notSeed, mem)

theorem holds_one {d : Nat} {c : List UInt8} {r : Reader} {k : Nat} (hd : d ≤ 1) (h : Holds d c r)
    (hk : k ≤ left r) : Holds d (c.drop k) (advance k r) := by
  have hl := congrArg List.length h.data
  rw [List.length_append] at hl
  unfold left at hk
  have e : (c.take k).length = k := by rw [List.length_take]; omega
  rw [← List.take_append_drop k c] at h
  have := holds_advance h (by rw [e]; exact hk)
    (by rcases Nat.le_one_iff_eq_zero_or_eq_one.1 hd with rfl | rfl
        · exact Or.inl rfl
        · exact Or.inr (Nat.one_dvd _))
  rwa [e] at this

/-- One byte is skipped where there is no record. -/
theorem step_bad {o : Opts} (hs : o.skip = true) {d : Nat} {c : List UInt8} {r : Reader}
    (h : Holds d c r) (hd : Fits d c.length) (hr : InRange r) (hb : Bad o c) (hc : 40 ≤ c.length) :
    ∃ r1, Holds d c r1 ∧ 40 ≤ left r1 ∧ r1.streampos = r.streampos ∧ r1.endoffset = r.endoffset ∧
      r1.recordcount = r.recordcount ∧ step o false r = finished (.again false (advance 1 r1)) := by
  obtain ⟨r1, hf, h1, e1, e2, e3, hcc⟩ := refill_holds h hd false (by simp)
  have hM : MAXRECLEN = 10485760 := rfl
  have hall : ∀ r : Reader, Holds d c r → r.eof = true → left r = c.length := by
    intro r h he
    have := congrArg List.length h.data
    rw [h.eof he, List.append_nil] at this
    exact this
  have hl : 40 ≤ left r1 := by
    rcases hcc with ⟨rfl, hcc | hcc⟩ | ⟨hcc | hcc, -⟩
    · have := hall _ h hcc; omega
    · omega
    · have := hall _ h1 hcc; omega
    · omega
  refine ⟨r1, h1, hl, e1, e2, e3, ?_⟩
  unfold step
  rw [if_neg hr, buflen_holds h, bind_ok, hf]
  simp only
  rw [buflen_holds h1, bind_ok, if_pos (by omega)]
  have hp := hb (r1.buf.drop r1.readoffset.toNat) r1.unread r1.readoffset.toNat
    (o.unpackdata && o.select.isNone) r1.eof h1.data.symm hl
  unfold attempt
  rw [if_neg (by have := h1.low; omega), hp, bind_ok]
  simp only [List.take_append_drop]
  unfold failed
  rw [if_pos hs, bind_ok]

theorem finished_again_eq {d : Nat} {c : List UInt8} {r : Reader} (h : Holds d c r) :
    finished (.again false r) =
      if r.eof = true ∧ left r < 40 then
        .ok (.done (if r.recordcount = 0 then .notSeed else .endOfFile) r)
      else .ok (.again false r) := by
  unfold finished
  by_cases he : r.eof = true
  · simp only [he, if_true, true_and]
    rw [buflen_holds h, bind_ok]
    by_cases hl : left r < 40
    · rw [if_pos (by omega), if_pos hl]
    · rw [if_neg (by omega), if_neg hl]
  · simp only [he, false_and]
    rfl

/-- Bytes without records are skipped up to the next record. -/
theorem runs_junk {o : Opts} (hs : o.skip = true) {d : Nat} (hd : d ≤ 1) (j c : List UInt8)
    (hft : Fits d (j ++ c).length) (hc : 40 ≤ c.length)
    (hb : ∀ i, i < j.length → Bad o (j.drop i ++ c)) (r : Reader) (h : Holds d (j ++ c) r)
    (hr : r.endoffset = 0) :
    ∃ r1, Holds d c r1 ∧ r1.streampos = r.streampos + j.length ∧ r1.endoffset = r.endoffset ∧
      r1.recordcount = r.recordcount ∧ ∀ x, Runs o false r1 x → Runs o false r x := by
  induction j generalizing r with
  | nil => exact ⟨r, h, by simp, rfl, rfl, fun _ hx => hx⟩
  | cons a j ih =>
    obtain ⟨r1, h1, hl, e1, e2, e3, hst⟩ := step_bad hs h hft (fun hc => hc.1 hr)
      (by simpa using hb 0 (by simp)) (by simp; omega)
    have h2 := holds_one (k := 1) hd h1 (by omega)
    simp only [List.cons_append, List.drop_succ_cons, List.drop_zero] at h2
    obtain ⟨r2, a1, a2, a3, a4, a5⟩ := ih (hft.mono (by simp)) (fun i hi => by
      have := hb (i + 1) (by simp; omega)
      simpa using this) _ h2 (e2.trans hr)
    refine ⟨r2, a1, ?_, a3.trans e2, a4.trans e3, fun x hx => ?_⟩
    · rw [a2]
      show r1.streampos + 1 + _ = _
      rw [e1, List.length_cons]
      omega
    · refine runs_again ?_ (a5 x hx)
      rw [hst]
      rw [finished_again_eq (r := advance 1 r1) h2, if_neg]
      · rfl
      rintro ⟨he, hlt⟩
      have := congrArg List.length h2.data
      rw [h2.eof he, List.append_nil, List.length_append] at this
      have : left (advance 1 r1) = j.length + c.length := this
      omega

/-- The last return code when nothing readable is left. -/
def code (n : Nat) : Ret := if n = 0 then .notSeed else .endOfFile

/-- What is left of a file after its last record, with the code returned there. -/
structure Tail (o : Opts) (d : Nat) (tail : List UInt8) (last : Nat → Ret) : Prop where
  run : ∀ r, Holds d tail r → r.endoffset = 0 → ∃ r', Runs o false r (.ok (last r.recordcount, r'))
  short : tail.length < 40 → last = code
  noRecord : ∀ n m, last n ≠ .record m

theorem code_ne (n : Nat) (m : Msr) : code n ≠ .record m := by unfold code; split <;> simp

theorem tail_short (o : Opts) {d : Nat} (tail : List UInt8) (hd : Fits d tail.length)
    (ht : tail.length < 40) : Tail o d tail code where
  run r h hr := by
    obtain ⟨r', h1, -⟩ := runs_end (o := o) h (fun hc => hc.1 hr) hd ht
    exact ⟨r', h1⟩
  short _ := rfl
  noRecord := code_ne

theorem tail_junk (o : Opts) (hs : o.skip = true) {d : Nat} (hd : d ≤ 1) (tail : List UInt8)
    (hft : Fits d tail.length) (hb : ∀ i, i + 40 ≤ tail.length → Bad o (tail.drop i)) :
    Tail o d tail code where
  run r h hr := by
    induction tail generalizing r with
    | nil =>
      obtain ⟨r', h1, -⟩ := runs_end (o := o) h (fun hc => hc.1 hr) hft (by simp)
      exact ⟨r', h1⟩
    | cons a t ih =>
      by_cases hlt : (a :: t).length < 40
      · obtain ⟨r', h1, -⟩ := runs_end (o := o) h (fun hc => hc.1 hr) hft hlt
        exact ⟨r', h1⟩
      · obtain ⟨r1, h1, hl, e1, e2, e3, hst⟩ := step_bad hs h hft (fun hc => hc.1 hr)
          (by simpa using hb 0 (by omega)) (by omega)
        have h2 := holds_one (k := 1) hd h1 (by omega)
        simp only [List.drop_succ_cons, List.drop_zero] at h2
        have hcount : (advance 1 r1).recordcount = r.recordcount := e3
        by_cases hfin : (advance 1 r1).eof = true ∧ left (advance 1 r1) < 40
        · refine ⟨advance 1 r1, runs_done ?_⟩
          rw [hst, finished_again_eq (r := advance 1 r1) h2, if_pos hfin, hcount]
          rfl
        · obtain ⟨r', hr'⟩ := ih (hft.mono (by simp)) (fun i hi => by
            have := hb (i + 1) (by simp; omega)
            simpa using this) _ h2 (e2.trans hr)
          rw [show (advance (1 : Nat) r1).recordcount = r.recordcount from e3] at hr'
          exact ⟨r', runs_again (by rw [hst, finished_again_eq (r := advance 1 r1) h2, if_neg hfin]; rfl) hr'⟩
  short _ := rfl
  noRecord := code_ne

/-- A record cut off by the end of the file. -/
theorem tail_cut (o : Opts) {d : Nat} (tail : List UInt8) (hd : Fits d tail.length)
    (h40 : 40 ≤ tail.length)
    (hcut : ∀ off k eof, 40 ≤ k → k ≤ tail.length → (k < tail.length → d ∣ k) → ∃ n, 0 < n ∧
      o.parse off (tail.take k) (o.unpackdata && o.select.isNone) eof =
        .ok (.need n, tail.take k) ∧ k + n ≤ MAXRECLEN) :
    Tail o d tail fun _ => .endOfFile where
  run r h hr := by
    have hM : MAXRECLEN = 10485760 := rfl
    have hall : ∀ r : Reader, Holds d tail r → r.eof = true → left r = tail.length := by
      intro r h he
      have := congrArg List.length h.data
      rw [h.eof he, List.append_nil] at this
      exact this
    have key : ∀ more (r : Reader), Holds d tail r → r.endoffset = 0 →
        (more = true → r.eof = false → left r < MAXRECLEN) →
        ∃ r1, Holds d tail r1 ∧ r1.endoffset = 0 ∧ left r1 < MAXRECLEN ∧
          (more = true → r1.eof = true) ∧
          step o more r = .ok (if r1.eof = true then .done .endOfFile r1 else .again true r1) := by
      intro more r h hr hm
      obtain ⟨r1, hf, h1, e1, e2, e3, hcc⟩ := refill_holds h hd more hm
      have hl : 40 ≤ left r1 := by
        rcases hcc with ⟨rfl, hcc | hcc⟩ | ⟨hcc | hcc, -⟩
        · have := hall _ h hcc; omega
        · omega
        · have := hall _ h1 hcc; omega
        · omega
      have hle : left r1 ≤ tail.length := by
        have := congrArg List.length h1.data
        rw [List.length_append] at this
        unfold left
        omega
      have hpre : r1.buf.drop r1.readoffset.toNat = tail.take (left r1) := by
        have := congrArg (List.take (left r1)) h1.data
        rw [show left r1 = (r1.buf.drop r1.readoffset.toNat).length from rfl, List.take_left] at this
        exact this
      have hdv : left r1 < tail.length → d ∣ left r1 := by
        intro hlt
        cases he : r1.eof
        · exact h1.dvd he
        · have := hall _ h1 he; omega
      obtain ⟨n, hn, hp, hle'⟩ := hcut r1.readoffset.toNat (left r1) r1.eof hl hle hdv
      rw [← hpre] at hp
      refine ⟨r1, h1, e2.trans hr, by omega, ?_, ?_⟩
      · intro hmore
        rcases hcc with ⟨rfl, hcc | hcc⟩ | ⟨hcc | hcc, -⟩
        · exact hcc
        · rw [hmore] at hcc; cases hcc.2
        · exact hcc
        · omega
      · unfold step
        rw [if_neg (fun hc => hc.1 hr), buflen_holds h, bind_ok, hf]
        simp only
        rw [buflen_holds h1, bind_ok, if_pos (by omega)]
        unfold attempt
        rw [if_neg (by have := h1.low; omega), hp, bind_ok]
        simp only [List.take_append_drop]
        unfold wanting
        rw [if_neg (by omega), bind_ok]
        by_cases he : r1.eof = true
        · rw [if_pos he]; rfl
        · rw [if_neg he]
          unfold finished
          simp only [he, if_false, Bool.false_eq_true]
    obtain ⟨r1, h1, e1, hl1, -, hs⟩ := key false r h hr (by simp)
    by_cases he : r1.eof = true
    · rw [if_pos he] at hs
      exact ⟨r1, runs_done hs⟩
    · rw [if_neg he] at hs
      obtain ⟨r2, -, -, -, he2, hs2⟩ := key true r1 h1 e1 (fun _ _ => hl1)
      rw [if_pos (he2 rfl)] at hs2
      exact ⟨r2, runs_again hs (runs_done hs2)⟩
  short := by omega
  noRecord := by simp

/-- A record with bytes before it that belong to no record: these bytes, those of the record, the
record as parsed and as returned. -/
structure Item where
  j : List UInt8 := []
  b : List UInt8
  m : Msr
  m' : Msr

/-- The bytes of records one after the other. -/
def cat (l : List Item) : List UInt8 := l.flatMap fun i => i.j ++ i.b

/-- The records to be returned. -/
def items (o : Opts) (l : List Item) : List (List UInt8 × List UInt8 × Bool × Msr) :=
  l.map fun i => (i.j, i.b, chosen o i.m, i.m')

theorem cat_cons (i : Item) (l : List Item) : cat (i :: l) = i.j ++ i.b ++ cat l := rfl

/-- The record is read, and the bytes before it are skipped. -/
structure Fine (o : Opts) (d : Nat) (i : Item) : Prop where
  good : Good o d i.b i.m i.m'
  junk : i.j = [] ∨ (d ≤ 1 ∧ o.skip = true ∧ ∀ k, k < i.j.length → ∀ t, Bad o (i.j.drop k ++ (i.b ++ t)))

theorem runs_item {o : Opts} {d : Nat} (i : Item) (hf : Fine o d i) (t : List UInt8) (r : Reader)
    (hft : Fits d (i.j ++ i.b ++ t).length) (h : Holds d (i.j ++ i.b ++ t) r) (hr : r.endoffset = 0) :
    ∃ r1, Holds d (i.b ++ t) r1 ∧ r1.streampos = r.streampos + i.j.length ∧
      r1.endoffset = 0 ∧ r1.recordcount = r.recordcount ∧
      ∀ x, Runs o false r1 x → Runs o false r x := by
  rcases hf.junk with hj | ⟨hd, hs, hb⟩
  · rw [hj] at h ⊢
    exact ⟨r, h, by simp, hr, rfl, fun _ hx => hx⟩
  · have := hf.good.low
    rw [List.append_assoc] at h hft
    obtain ⟨r1, a1, a2, a3, a4, a5⟩ := runs_junk hs hd i.j (i.b ++ t) hft
      (by rw [List.length_append]; omega) (fun k hk => hb k hk t) r h hr
    exact ⟨r1, a1, a2, a3.trans hr, a4, a5⟩

/-- The bytes `b` are in the buffer before the reading position. -/
def Behind (b : List UInt8) (r : Reader) : Prop :=
  (b.length : Int) ≤ r.readoffset ∧ ∃ t, r.buf.drop (r.readoffset - b.length).toNat = b ++ t

theorem behind_advance {d : Nat} {b c : List UInt8} {r : Reader} (h : Holds d (b ++ c) r)
    (hl : b.length ≤ left r) : Behind b (advance b.length r) := by
  have h0 := h.low
  refine ⟨by show (b.length : Int) ≤ r.readoffset + b.length; omega, ?_⟩
  have e : ((advance (b.length : Int) r).readoffset - b.length).toNat = r.readoffset.toNat := by
    show (r.readoffset + b.length - b.length).toNat = _
    omega
  rw [e]
  show ∃ t, r.buf.drop r.readoffset.toNat = b ++ t
  have hp : b <+: r.buf.drop r.readoffset.toNat :=
    List.prefix_of_prefix_length_le (l₃ := b ++ c) ⟨c, rfl⟩ ⟨r.unread, h.data⟩ hl
  obtain ⟨t, ht⟩ := hp
  exact ⟨t, ht.symm⟩

theorem runs_list {o : Opts} {d : Nat} {tail : List UInt8}
    {last : Nat → Ret} (ht : Tail o d tail last) (l : List Item) (hg : ∀ i ∈ l, Fine o d i)
    (hd : Fits d (cat l ++ tail).length) (r : Reader)
    (h : Holds d (cat l ++ tail) r) (hr : r.endoffset = 0) :
    ∃ ret r', Runs o false r (.ok (ret, r')) ∧
      ((∃ pre i post, l = pre ++ i :: post ∧ (∀ j ∈ pre, chosen o j.m = false) ∧
          chosen o i.m = true ∧ ret = .record i.m' ∧ Holds d (cat post ++ tail) r' ∧
          r'.streampos = r.streampos + (cat pre).length + i.j.length + i.b.length ∧ r'.endoffset = 0 ∧
          r'.recordcount = r.recordcount + 1 ∧ Behind i.b r') ∨
       ((∀ j ∈ l, chosen o j.m = false) ∧
          ret = last r.recordcount)) := by
  induction l generalizing r with
  | nil =>
    obtain ⟨r', h1⟩ := ht.run r (by simpa [cat] using h) hr
    exact ⟨_, r', h1, Or.inr ⟨by simp, rfl⟩⟩
  | cons i l ih =>
    have hfi := hg i List.mem_cons_self
    have hi := hfi.good
    rw [cat_cons, List.append_assoc (i.j ++ i.b)] at h hd
    obtain ⟨r0, h0, f1, f2, f3, hpre⟩ := runs_item i hfi _ r hd h hr
    obtain ⟨r1, h1, h2, e1, e2, e3, hrun⟩ := runs_record hi h0 (fun hc => hc.1 f2)
      (hd.mono (by simp only [List.length_append]; omega))
    have hd' : Fits d (cat l ++ tail).length :=
      hd.mono (by simp only [List.length_append]; omega)
    replace hrun := fun x h1 h2 => hpre x (hrun x h1 h2)
    rw [f1] at e1
    rw [f2] at e2
    rw [f3] at e3
    by_cases hc : chosen o i.m = true
    · refine ⟨_, _, hrun _ (fun _ => rfl) (fun hf => by rw [hc] at hf; cases hf), Or.inl ?_⟩
      refine ⟨[], i, l, rfl, by simp, hc, rfl, ?_, ?_, ?_, ?_, ?_⟩
      · have := holds_advance h1 h2 hi.dvd
        exact ⟨this.low, this.high, this.max, this.data, this.eof, this.dvd⟩
      · show r1.streampos + _ = _
        rw [e1]; simp [cat]
      · show r1.endoffset = 0
        rw [e2]
      · show r1.recordcount + 1 = _
        rw [e3]
      · have := behind_advance h1 h2
        exact this
    · have hc : chosen o i.m = false := by simpa using hc
      have ha := holds_advance h1 h2 hi.dvd
      have hcount : (advance i.b.length r1).recordcount = r.recordcount := e3
      have hpos : (advance (i.b.length : Int) r1).streampos = r.streampos + i.j.length + i.b.length := by
        show r1.streampos + _ = _
        rw [e1]
      by_cases hfin : (advance (i.b.length : Int) r1).eof = true ∧ left (advance (i.b.length : Int) r1) < 40
      · have hl : l = [] := by
          have hlen := congrArg List.length ha.data
          rw [ha.eof hfin.1, List.append_nil, List.length_append] at hlen
          have : left (advance (i.b.length : Int) r1) = (cat l).length + tail.length := hlen
          cases l with
          | nil => rfl
          | cons j l =>
            have := (hg j (by simp)).good.low
            rw [cat_cons, List.length_append, List.length_append] at *
            omega
        have hlt : tail.length < 40 := by
          have hlen := congrArg List.length ha.data
          rw [ha.eof hfin.1, List.append_nil, List.length_append] at hlen
          have : left (advance (i.b.length : Int) r1) = (cat l).length + tail.length := hlen
          omega
        refine ⟨code r.recordcount, _,
          hrun _ (fun hf => by rw [hc] at hf; cases hf) (fun _ => ⟨_, ?_, Or.inl ⟨_, rfl, rfl⟩⟩),
          Or.inr ⟨?_, ?_⟩⟩
        · rw [finished_again_eq ha, if_pos hfin, hcount]; rfl
        · subst hl
          intro j hj
          rw [List.mem_singleton] at hj
          rw [hj]; exact hc
        · rw [ht.short hlt]
      · obtain ⟨ret, r', hr', hres⟩ := ih (fun j hj => hg j (List.mem_cons_of_mem _ hj)) hd'
          (advance i.b.length r1) ha e2
        refine ⟨ret, r', hrun _ (fun hf => by rw [hc] at hf; cases hf)
          (fun _ => ⟨_, by rw [finished_again_eq ha, if_neg hfin], Or.inr ⟨rfl, hr'⟩⟩), ?_⟩
        rcases hres with ⟨pre, j, post, a1, a2, a3, a4, a5, a6, a7, a8, a9⟩ | ⟨a1, a2⟩
        · refine Or.inl ⟨i :: pre, j, post, by rw [a1]; rfl, ?_, a3, a4, a5, ?_, a7, ?_, a9⟩
          · intro k hk
            rcases List.mem_cons.1 hk with rfl | hk
            · exact hc
            · exact a2 k hk
          · rw [a6, hpos, cat_cons, List.length_append, List.length_append]; omega
          · rw [a8, hcount]
        · refine Or.inr ⟨?_, by rw [a2, hcount]⟩
          intro k hk
          rcases List.mem_cons.1 hk with rfl | hk
          · exact hc
          · exact a1 k hk

theorem expectedBytes_none (o : Opts) (l : List Item) (h : ∀ j ∈ l, chosen o j.m = false) (pos : Int) :
    expectedBytes pos (items o l) = [] := by
  induction l generalizing pos with
  | nil => rfl
  | cons i l ih =>
    simp only [items, List.map_cons, expectedBytes]
    rw [if_neg (by rw [h i (by simp)]; simp)]
    exact ih (fun j hj => h j (by simp [hj])) _

theorem expectedBytes_first (o : Opts) (pre post : List Item) (i : Item)
    (h : ∀ j ∈ pre, chosen o j.m = false) (hi : chosen o i.m = true) (pos : Int) :
    expectedBytes pos (items o (pre ++ i :: post)) = (pos + (cat pre).length + i.j.length, i.m', i.b) ::
      expectedBytes (pos + (cat pre).length + i.j.length + i.b.length) (items o post) := by
  induction pre generalizing pos with
  | nil =>
    simp only [items, List.nil_append, List.map_cons, expectedBytes]
    rw [if_pos hi]
    simp [cat, items]
  | cons j pre ih =>
    have := ih (fun k hk => h k (by simp [hk])) (pos + j.j.length + j.b.length)
    simp only [items, List.cons_append, List.map_cons, expectedBytes]
    rw [if_neg (by rw [h j (by simp)]; simp)]
    simp only [items] at this
    rw [this, cat_cons, List.length_append, List.length_append]
    simp only [Int.natCast_add, Int.add_assoc]

theorem takes_list {o : Opts} (ho : Ends o) {d : Nat} {tail : List UInt8}
    {last : Nat → Ret} (ht : Tail o d tail last) (n : Nat) (l : List Item) (hn : l.length ≤ n)
    (hg : ∀ i ∈ l, Fine o d i) (hd : Fits d (cat l ++ tail).length) (r : Reader)
    (h : Holds d (cat l ++ tail) r) (hr : r.endoffset = 0) :
    Takes o r (expectedBytes r.streampos (items o l))
      (last (r.recordcount + (expectedBytes r.streampos (items o l)).length)) := by
  induction n generalizing l r with
  | zero =>
    have hl : l = [] := List.eq_nil_of_length_eq_zero (by omega)
    subst hl
    obtain ⟨ret, r', h1, h2⟩ := runs_list ht [] hg hd r h hr
    rcases h2 with ⟨pre, i, post, a1, -⟩ | ⟨-, rfl⟩
    · simp at a1
    · refine Takes.stop r r' _ ?_ (ht.noRecord _)
      rw [runs_readmsr o ho r _ h.low h1]
      simp [items, expectedBytes]
  | succ n ih =>
    obtain ⟨ret, r', h1, h2⟩ := runs_list ht l hg hd r h hr
    have h1 := runs_readmsr o ho r _ h.low h1
    rcases h2 with ⟨pre, i, post, a1, a2, a3, a4, a5, a6, a7, a8, hb1, t, hb2⟩ | ⟨a1, rfl⟩
    · subst a4
      rw [a1, expectedBytes_first o pre post i a2 a3]
      have hi := (hg i (by rw [a1]; simp)).good
      have hlen := congrArg List.length a1
      rw [List.length_append, List.length_cons] at hlen
      have := ih post (by omega) (fun j hj => hg j (by rw [a1]; simp [hj]))
        (hd.mono (by rw [a1]; simp [cat]; omega)) r' a5 a7
      rw [a8, a6] at this
      have hc := Takes.next r r' i.m' i.b t _ _ h1 hi.reclen' (by rw [hi.reclen']; exact hb1) (by rw [hi.reclen']; exact hb2) this
      rw [hi.reclen', a6] at hc
      rw [show r.streampos + (cat pre).length + i.j.length + i.b.length - i.b.length
        = r.streampos + (cat pre).length + i.j.length by omega] at hc
      rw [List.length_cons]
      rw [show ∀ a b : Nat, a + 1 + b = a + (b + 1) by omega] at hc
      exact hc
    · rw [expectedBytes_none o l a1]
      exact Takes.stop r r' _ h1 (ht.noRecord _)

theorem expectedBytes_map (l : List (List UInt8 × List UInt8 × Bool × Msr)) (pos : Int) :
    (expectedBytes pos l).map (fun e => (e.1, e.2.1)) = expected pos l := by
  induction l generalizing pos with
  | nil => rfl
  | cons a l ih =>
    obtain ⟨j, b, w, m⟩ := a
    simp only [expectedBytes, expected]
    split
    · rw [List.map_cons, ih]
    · exact ih _

theorem takes_calls {o : Opts} {r : Reader} {l : List (Int × Msr × List UInt8)} {ret : Ret}
    (h : Takes o r l ret) : Calls o r (l.map fun e => (e.1, e.2.1)) ret := by
  induction h with
  | stop r r' ret h1 h2 => exact Calls.stop r r' ret h1 h2
  | next r r' m b t l ret h1 _ _ _ _ ih => exact Calls.next r r' m _ ret h1 ih

theorem holds_opened (d : Nat) (file : List UInt8) : Holds d file (opened file 0 0) where
  low := by simp [opened]
  high := by simp [opened]
  max := by simp [opened]
  data := by simp [opened]
  eof := by simp [opened]
  dvd := by simp [opened]

theorem file_takes {o : Opts} (ho : Ends o) {d : Nat} {tail : List UInt8}
    {last : Nat → Ret} (ht : Tail o d tail last) (l : List Item) (hg : ∀ i ∈ l, Fine o d i)
    (hd : Fits d (cat l ++ tail).length) :
    Takes o (opened (cat l ++ tail) 0 0) (expectedBytes 0 (items o l))
      (last (expectedBytes 0 (items o l)).length) := by
  have := takes_list ho ht l.length l (Nat.le_refl _) hg hd _ (holds_opened d _) rfl
  have e : (opened (cat l ++ tail) 0 0).streampos = 0 := rfl
  have e' : (opened (cat l ++ tail) 0 0).recordcount = 0 := rfl
  rw [e, e', Nat.zero_add] at this
  exact this

theorem file_calls {o : Opts} (ho : Ends o) {d : Nat} {tail : List UInt8}
    {last : Nat → Ret} (ht : Tail o d tail last) (l : List Item) (hg : ∀ i ∈ l, Fine o d i)
    (hd : Fits d (cat l ++ tail).length) :
    Calls o (opened (cat l ++ tail) 0 0) (expected 0 (items o l))
      (last (expected 0 (items o l)).length) := by
  have := takes_calls (file_takes ho ht l hg hd)
  rw [expectedBytes_map] at this
  rw [← expectedBytes_map, List.length_map]
  rw [← expectedBytes_map] at this
  exact this

end Verif.Proof.Reader
