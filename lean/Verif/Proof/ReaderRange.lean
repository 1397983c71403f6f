import Verif.Proof.ReaderTop
/-! Lemmas on the file reader: reading a range. -/
namespace Verif.Proof.Reader
open Verif.Model Verif.Model.Steim Verif.Model.Record3 Verif.Model.Reader
open Verif.Proof.Mem Verif.Props.Reader

theorem runs_outside {o : Opts} {r : Reader} (h : ¬ InRange r) : Runs o false r (.ok (.endOfFile, r)) := by
  refine ⟨by simp, 1, ?_⟩
  rw [loop]
  unfold step
  have h : r.endoffset ≠ 0 ∧ r.endoffset + 1 - r.streampos < 40 := Classical.not_not.1 h
  rw [if_pos h, bind_ok]

/-- The records that begin in the range. -/
def insideBytes (stop : Int) (l : List (Int × Msr × List UInt8)) : List (Int × Msr × List UInt8) :=
  l.filter fun e => decide (stop = 0 ∨ e.1 + 39 ≤ stop)

theorem expectedBytes_ge (l : List (List UInt8 × List UInt8 × Bool × Msr)) (pos : Int) :
    ∀ e ∈ expectedBytes pos l, pos ≤ e.1 := by
  induction l generalizing pos with
  | nil => intro e he; cases he
  | cons a l ih =>
    obtain ⟨j, b, w, m⟩ := a
    intro e he
    simp only [expectedBytes] at he
    split at he
    · rcases List.mem_cons.1 he with rfl | he
      · show pos ≤ pos + j.length; omega
      · have := ih _ e he; omega
    · have := ih _ e he; omega

/-- What is taken from a reader is taken from one that runs into it. -/
theorem takes_before {o : Opts} (ho : Ends o) {r r1 : Reader} (h0 : 0 ≤ r.readoffset)
    (hrun : ∀ x, Runs o false r1 x → Runs o false r x) {l : List (Int × Msr × List UInt8)} {ret : Ret}
    (h : Takes o r1 l ret) : Takes o r l ret := by
  have key : ∀ x, readmsr o r1 = .ok x → readmsr o r = .ok x := by
    intro x hx
    exact runs_readmsr o ho r _ h0 (hrun _ ⟨by simp, _, hx⟩)
  cases h with
  | stop _ r' _ h1 h2 => exact Takes.stop r _ _ (key _ h1) h2
  | next _ r' m b t l _ h1 h2 h3 h4 h5 => exact Takes.next r _ m b t _ _ (key _ h1) h2 h3 h4 h5

/-- Bytes without records are skipped up to the next record or up to the end of the range. -/
theorem range_junk {o : Opts} (hs : o.skip = true) {d : Nat} (hd : d ≤ 1) (j c : List UInt8)
    (hft : Fits d (j ++ c).length) (hc : 40 ≤ c.length)
    (hb : ∀ i, i < j.length → Bad o (j.drop i ++ c)) (r : Reader) (h : Holds d (j ++ c) r) :
    (∃ r1, Holds d c r1 ∧ r1.streampos = r.streampos + j.length ∧ r1.endoffset = r.endoffset ∧
      r1.recordcount = r.recordcount ∧ ∀ x, Runs o false r1 x → Runs o false r x) ∨
    (r.endoffset ≠ 0 ∧ r.endoffset < r.streampos + j.length + 39 ∧ ∃ r', Runs o false r (.ok (.endOfFile, r'))) := by
  induction j generalizing r with
  | nil => exact Or.inl ⟨r, h, by simp, rfl, rfl, fun _ hx => hx⟩
  | cons a j ih =>
    by_cases hr : InRange r
    · obtain ⟨r1, h1, hl, e1, e2, e3, hst⟩ := step_bad hs h hft hr
        (by simpa using hb 0 (by simp)) (by simp; omega)
      have h2 := holds_one (k := 1) hd h1 (by omega)
      simp only [List.cons_append, List.drop_succ_cons, List.drop_zero] at h2
      have hgo : step o false r = .ok (.again false (advance 1 r1)) := by
        rw [hst, finished_again_eq (r := advance 1 r1) h2, if_neg]
        rintro ⟨he, hlt⟩
        have := congrArg List.length h2.data
        rw [h2.eof he, List.append_nil, List.length_append] at this
        have : left (advance 1 r1) = j.length + c.length := this
        omega
      have p1 : (advance (1 : Nat) r1).streampos = r.streampos + 1 := by
        show r1.streampos + 1 = _
        rw [e1]
      have p2 : (advance (1 : Nat) r1).endoffset = r.endoffset := e2
      have p3 : (advance (1 : Nat) r1).recordcount = r.recordcount := e3
      rw [List.length_cons]
      rcases ih (hft.mono (by simp)) (fun i hi => by
        have := hb (i + 1) (by simp; omega)
        simpa using this) _ h2 with ⟨r2, a1, a2, a3, a4, a5⟩ | ⟨a1, a2, r', a3⟩
      · exact Or.inl ⟨r2, a1, by rw [a2, p1]; omega, a3.trans p2, a4.trans p3, fun x hx => runs_again hgo (a5 x hx)⟩
      · rw [p2] at a1
        rw [p1, p2] at a2
        exact Or.inr ⟨a1, by omega, r', runs_again hgo a3⟩
    · have hr' : r.endoffset ≠ 0 ∧ r.endoffset + 1 - r.streampos < 40 := Classical.not_not.1 hr
      exact Or.inr ⟨hr'.1, by omega, r, runs_outside hr⟩

/-- What may follow the last record. -/
def Rest (o : Opts) (d : Nat) (tail : List UInt8) : Prop :=
  tail.length < 40 ∨ (o.skip = true ∧ d ≤ 1 ∧ ∀ k, k + 40 ≤ tail.length → Bad o (tail.drop k))

theorem range_tail {o : Opts} {d : Nat} (tail : List UInt8) (ht : Rest o d tail) (hft : Fits d tail.length)
    (r : Reader) (h : Holds d tail r) :
    ∃ r' ret, Runs o false r (.ok (ret, r')) ∧ (ret = .endOfFile ∨ (ret = .notSeed ∧ r.recordcount = 0)) := by
  have hshort : ∀ r, Holds d tail r → tail.length < 40 →
      ∃ r' ret, Runs o false r (.ok (ret, r')) ∧ (ret = .endOfFile ∨ (ret = .notSeed ∧ r.recordcount = 0)) := by
    intro r h hlt
    by_cases hr : InRange r
    · obtain ⟨r', h1, -⟩ := runs_end (o := o) h hr hft hlt
      by_cases h0 : r.recordcount = 0
      · rw [if_pos h0] at h1
        exact ⟨r', _, h1, Or.inr ⟨rfl, h0⟩⟩
      · rw [if_neg h0] at h1
        exact ⟨r', _, h1, Or.inl rfl⟩
    · exact ⟨r, _, runs_outside hr, Or.inl rfl⟩
  rcases ht with ht | ⟨hs, hd, hb⟩
  · exact hshort r h ht
  · clear hshort
    induction tail generalizing r with
    | nil =>
      by_cases hr : InRange r
      · obtain ⟨r', h1, -⟩ := runs_end (o := o) h hr hft (by simp)
        by_cases h0 : r.recordcount = 0
        · rw [if_pos h0] at h1
          exact ⟨r', _, h1, Or.inr ⟨rfl, h0⟩⟩
        · rw [if_neg h0] at h1
          exact ⟨r', _, h1, Or.inl rfl⟩
      · exact ⟨r, _, runs_outside hr, Or.inl rfl⟩
    | cons a t ih =>
      by_cases hr : InRange r
      case neg => exact ⟨r, _, runs_outside hr, Or.inl rfl⟩
      by_cases hlt : (a :: t).length < 40
      · obtain ⟨r', h1, -⟩ := runs_end (o := o) h hr hft hlt
        by_cases h0 : r.recordcount = 0
        · rw [if_pos h0] at h1
          exact ⟨r', _, h1, Or.inr ⟨rfl, h0⟩⟩
        · rw [if_neg h0] at h1
          exact ⟨r', _, h1, Or.inl rfl⟩
      · obtain ⟨r1, h1, hl, e1, e2, e3, hst⟩ := step_bad hs h hft hr
          (by simpa using hb 0 (by omega)) (by omega)
        have h2 := holds_one (k := 1) hd h1 (by omega)
        simp only [List.drop_succ_cons, List.drop_zero] at h2
        have hcount : (advance 1 r1).recordcount = r.recordcount := e3
        by_cases hfin : (advance 1 r1).eof = true ∧ left (advance 1 r1) < 40
        · refine ⟨advance 1 r1, code r.recordcount, runs_done ?_, ?_⟩
          · rw [hst, finished_again_eq (r := advance 1 r1) h2, if_pos hfin, hcount]
            rfl
          · unfold code
            by_cases h0 : r.recordcount = 0
            · rw [if_pos h0]; exact Or.inr ⟨rfl, h0⟩
            · rw [if_neg h0]; exact Or.inl rfl
        · obtain ⟨r', ret, hr', hret⟩ := ih (hft.mono (by simp)) _ h2 (fun i hi => by
            have := hb (i + 1) (by simp; omega)
            simpa using this)
          rw [show (advance (1 : Nat) r1).recordcount = r.recordcount from e3] at hret
          exact ⟨r', ret, runs_again (by rw [hst, finished_again_eq (r := advance 1 r1) h2, if_neg hfin]; rfl) hr', hret⟩

theorem range_takes {o : Opts} (ho : Ends o) {d : Nat} {tail : List UInt8}
    (htail : Rest o d tail) (hft : Fits d tail.length) (l : List Item) (hg : ∀ i ∈ l, Fine o d i)
    (r : Reader) (h : Holds d (cat l ++ tail) r)
    (hd : Fits d (cat l ++ tail).length) :
    ∃ ret, (ret = .endOfFile ∨ (ret = .notSeed ∧ r.recordcount = 0 ∧
        insideBytes r.endoffset (expectedBytes r.streampos (items o l)) = [])) ∧
      Takes o r (insideBytes r.endoffset (expectedBytes r.streampos (items o l))) ret := by
  induction l generalizing r with
  | nil =>
    obtain ⟨r', ret, h1, h2⟩ := range_tail tail htail hft r (by simpa [cat] using h)
    have h1 := runs_readmsr o ho r _ h.low h1
    rcases h2 with rfl | ⟨rfl, h0⟩
    · exact ⟨.endOfFile, Or.inl rfl, Takes.stop r r' _ h1 (by simp)⟩
    · exact ⟨.notSeed, Or.inr ⟨rfl, h0, rfl⟩, Takes.stop r r' _ h1 (by simp)⟩
  | cons i l ih =>
    have hfi := hg i (by simp)
    have hgi := hfi.good
    have hlow := hgi.low
    rw [cat_cons, List.append_assoc (i.j ++ i.b), List.append_assoc] at h hd
    have hitem : (∃ r0, Holds d (i.b ++ (cat l ++ tail)) r0 ∧ r0.streampos = r.streampos + i.j.length ∧ r0.endoffset = r.endoffset ∧
        r0.recordcount = r.recordcount ∧ ∀ x, Runs o false r0 x → Runs o false r x) ∨
        (r.endoffset ≠ 0 ∧ r.endoffset < r.streampos + i.j.length + 39 ∧ ∃ r', Runs o false r (.ok (.endOfFile, r'))) := by
      rcases hfi.junk with hj | ⟨hd1, hs, hb⟩
      · rw [hj] at h ⊢
        exact Or.inl ⟨r, h, by simp, rfl, rfl, fun _ hx => hx⟩
      · exact range_junk hs hd1 i.j _ hd (by rw [List.length_append]; omega) (fun k hk => hb k hk _) r h
    have hge : ∀ e ∈ expectedBytes r.streampos (items o (i :: l)), r.streampos + i.j.length ≤ e.1 := by
      intro e he
      simp only [items, List.map_cons, expectedBytes] at he
      split at he
      · rcases List.mem_cons.1 he with rfl | he
        · exact Int.le_refl _
        · have := expectedBytes_ge _ _ e he; omega
      · have := expectedBytes_ge _ _ e he; omega
    have hnone : r.endoffset ≠ 0 → r.endoffset < r.streampos + i.j.length + 39 →
        insideBytes r.endoffset (expectedBytes r.streampos (items o (i :: l))) = [] := by
      intro h0 h1
      unfold insideBytes
      rw [List.filter_eq_nil_iff]
      intro e he
      have := hge e he
      simp only [decide_eq_true_eq]
      omega
    rcases hitem with ⟨r0, h0, p1, p2, p3, hrun0⟩ | ⟨q1, q2, r', q3⟩
    case inr =>
      rw [hnone q1 q2]
      exact ⟨.endOfFile, Or.inl rfl, Takes.stop r r' _ (runs_readmsr o ho r _ h.low q3) (by simp)⟩
    by_cases hr : InRange r0
    case neg =>
      have hr' : r0.endoffset ≠ 0 ∧ r0.endoffset + 1 - r0.streampos < 40 := Classical.not_not.1 hr
      rw [p1, p2] at hr'
      rw [hnone hr'.1 (by omega)]
      exact ⟨.endOfFile, Or.inl rfl, Takes.stop r r0 _ (runs_readmsr o ho r _ h.low (hrun0 _ (runs_outside hr))) (by simp)⟩
    have hd0 : Fits d (i.b ++ (cat l ++ tail)).length := hd.mono (by simp only [List.length_append]; omega)
    have hd' : Fits d (cat l ++ tail).length := hd.mono (by simp only [List.length_append]; omega)
    obtain ⟨r1, h1, h2, e1, e2, e3, hrun⟩ := runs_record hgi h0 hr hd0
    replace hrun := fun x h1 h2 => hrun0 x (hrun x h1 h2)
    rw [p1] at e1
    rw [p2] at e2
    rw [p3] at e3
    by_cases hcho : chosen o i.m = true
    case neg =>
      have hc : chosen o i.m = false := by simpa using hcho
      have hexp : expectedBytes r.streampos (items o (i :: l)) =
          expectedBytes (r.streampos + i.j.length + i.b.length) (items o l) := by
        simp only [items, List.map_cons, expectedBytes]
        rw [if_neg hcho]
      have ha := holds_advance h1 h2 hgi.dvd
      have hcount : (advance i.b.length r1).recordcount = r.recordcount := e3
      have hpos : (advance (i.b.length : Int) r1).streampos = r.streampos + i.j.length + i.b.length := by
        show r1.streampos + _ = _
        rw [e1]
      have hend : (advance (i.b.length : Int) r1).endoffset = r.endoffset := e2
      by_cases hfin : (advance (i.b.length : Int) r1).eof = true ∧ left (advance (i.b.length : Int) r1) < 40
      · have hl : l = [] := by
          have hlen := congrArg List.length ha.data
          rw [ha.eof hfin.1, List.append_nil, List.length_append] at hlen
          have : left (advance (i.b.length : Int) r1) = (cat l).length + tail.length := hlen
          cases l with
          | nil => rfl
          | cons j l =>
            have := (hg j (by simp)).good.low
            rw [cat_cons, List.length_append, List.length_append] at *
            omega
        subst hl
        have h3 := runs_readmsr o ho r _ h.low (hrun (.ok (code r.recordcount, advance i.b.length r1))
          (fun hf => by rw [hc] at hf; cases hf) (fun _ => ⟨_, by rw [finished_again_eq ha, if_pos hfin, hcount]; rfl,
            Or.inl ⟨_, rfl, rfl⟩⟩))
        refine ⟨code r.recordcount, ?_, ?_⟩
        · unfold code
          by_cases h0 : r.recordcount = 0
          · rw [if_pos h0]
            exact Or.inr ⟨rfl, h0, by rw [hexp]; rfl⟩
          · rw [if_neg h0]
            exact Or.inl rfl
        · rw [hexp]
          refine Takes.stop r _ _ h3 ?_
          unfold code
          split <;> simp
      · obtain ⟨ret, hret, hc'⟩ := ih (fun j hj => hg j (by simp [hj]))
          (advance i.b.length r1) ha hd'
        rw [hpos, hend, ← hexp] at hc' hret
        rw [hcount] at hret
        exact ⟨ret, hret, takes_before ho h.low (fun x hx => hrun x (fun hf => by rw [hc] at hf; cases hf)
          (fun _ => ⟨_, by rw [finished_again_eq ha, if_neg hfin], Or.inr ⟨rfl, hx⟩⟩)) hc'⟩
    have hexp : expectedBytes r.streampos (items o (i :: l)) = (r.streampos + i.j.length, i.m', i.b) ::
        expectedBytes (r.streampos + i.j.length + i.b.length) (items o l) := by
      simp only [items, List.map_cons, expectedBytes]
      rw [if_pos hcho]
    have h3 := runs_readmsr o ho r _ h.low
      (hrun (.ok (.record i.m', counted i.b r1)) (fun _ => rfl) (fun hf => by rw [hcho] at hf; cases hf))
    have ha : Holds d (cat l ++ tail) (counted i.b r1) := by
      have := holds_advance h1 h2 hgi.dvd
      exact ⟨this.low, this.high, this.max, this.data, this.eof, this.dvd⟩
    obtain ⟨ret, hret, hc⟩ := ih (fun j hj => hg j (by simp [hj])) (counted i.b r1) ha hd'
    have hp : (counted i.b r1).streampos = r.streampos + i.j.length + i.b.length := by
      show r1.streampos + _ = _
      rw [e1]
    have hend : (counted i.b r1).endoffset = r.endoffset := e2
    have hcnt : (counted i.b r1).recordcount = r.recordcount + 1 := by
      show r1.recordcount + 1 = _
      rw [e3]
    rw [hp, hend] at hc
    have hin : insideBytes r.endoffset (expectedBytes r.streampos (items o (i :: l))) =
        (r.streampos + i.j.length, i.m', i.b) ::
          insideBytes r.endoffset (expectedBytes (r.streampos + i.j.length + i.b.length) (items o l)) := by
      rw [hexp]
      unfold insideBytes
      rw [List.filter_cons_of_pos]
      unfold InRange at hr
      rw [p1, p2] at hr
      simp only [decide_eq_true_eq]
      omega
    rw [hin]
    have hbe : Behind i.b (counted i.b r1) := by
      have := behind_advance h1 h2
      exact this
    obtain ⟨hb1, t, hb2⟩ := hbe
    have := Takes.next r _ i.m' i.b t _ _ h3 hgi.reclen' (by rw [hgi.reclen']; exact hb1)
      (by rw [hgi.reclen']; exact hb2) hc
    rw [hgi.reclen', hp, show r.streampos + i.j.length + (i.b.length : Int) - i.b.length = r.streampos + i.j.length by omega] at this
    refine ⟨ret, ?_, this⟩
    rcases hret with hret | ⟨-, hret, -⟩
    · exact Or.inl hret
    · omega

/-- The records that begin in the range. -/
def inside (stop : Int) (l : List (Int × Msr)) : List (Int × Msr) :=
  l.filter fun e => decide (stop = 0 ∨ e.1 + 39 ≤ stop)

theorem insideBytes_map (stop : Int) (l : List (Int × Msr × List UInt8)) :
    (insideBytes stop l).map (fun e => (e.1, e.2.1)) = inside stop (l.map fun e => (e.1, e.2.1)) := by
  unfold insideBytes inside
  rw [List.filter_map]
  rfl

theorem expected_ge (l : List (List UInt8 × List UInt8 × Bool × Msr)) (pos : Int) :
    ∀ e ∈ expected pos l, pos ≤ e.1 := by
  rw [← expectedBytes_map]
  intro e he
  obtain ⟨x, hx, rfl⟩ := List.mem_map.1 he
  exact expectedBytes_ge l pos x hx

theorem range_calls {o : Opts} (ho : Ends o) {d : Nat} {tail : List UInt8}
    (htail : Rest o d tail) (hft : Fits d tail.length) (l : List Item) (hg : ∀ i ∈ l, Fine o d i)
    (r : Reader) (h : Holds d (cat l ++ tail) r)
    (hd : Fits d (cat l ++ tail).length) :
    ∃ ret, (ret = .endOfFile ∨ (ret = .notSeed ∧ r.recordcount = 0 ∧
        inside r.endoffset (expected r.streampos (items o l)) = [])) ∧
      Calls o r (inside r.endoffset (expected r.streampos (items o l))) ret := by
  obtain ⟨ret, h1, h2⟩ := range_takes ho htail hft l hg r h hd
  refine ⟨ret, ?_, ?_⟩
  · rcases h1 with h1 | ⟨h1, h3, h4⟩
    · exact Or.inl h1
    · refine Or.inr ⟨h1, h3, ?_⟩
      rw [← expectedBytes_map, ← insideBytes_map, h4]
      rfl
  · have := takes_calls h2
    rwa [insideBytes_map, expectedBytes_map] at this

end Verif.Proof.Reader
