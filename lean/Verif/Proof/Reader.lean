import Verif.Model.Reader
import Verif.Proof.Record2Bounds
/-! Lemmas on the file reader: the loop ends. -/
namespace Verif.Proof.Reader
open Verif.Model Verif.Model.Steim Verif.Model.Mem Verif.Model.Record3 Verif.Model.Reader
open Verif.Proof.Mem

/-- What is needed of the parser for the loop to end. -/
structure Ends (o : Opts) : Prop where
  parse : ∀ off mem ud eof, o.parse off mem ud eof ≠ .err
  unpack : ∀ off mem m, o.unpack off mem m ≠ .err
  same : ∀ off mem ud eof p mem', o.parse off mem ud eof = .ok (p, mem') → mem' = mem
  reclen : ∀ off mem ud eof m mem', o.parse off mem ud eof = .ok (.record m, mem') →
    1 ≤ m.reclen ∨ m.reclen = -2147483648

/-- What is left to be done with a reader. -/
def size (r : Reader) : Nat :=
  2 * r.unread.length + ((r.buf.length : Int) - r.readoffset).toNat + (if r.eof then 0 else 1)

theorem fill_size (n : Int) (more : Bool) (r r' : Reader) (h0 : 0 ≤ r.readoffset)
    (hn : n = (r.buf.length : Int) - r.readoffset) (h : refill n more r = (true, r')) :
    (r' = r ∧ (r.eof = true ∨ (40 ≤ n ∧ more = false))) ∨
      (size r' < size r ∧ r'.readoffset = 0) := by
  unfold refill at h
  split at h
  · rename_i hc
    right
    simp only at h
    generalize hbuf : (if n ≤ 0 then [] else r.buf.drop r.readoffset.toNat) = buf at h
    have hb : buf.length = n.toNat := by
      rw [← hbuf]
      split
      · simp; omega
      · rw [List.length_drop]; omega
    split at h
    · simp at h
    · rename_i hg
      injection h with _ h
      rw [← h]
      have e0 : (if n ≤ 0 ∨ r.readoffset > 0 then 0 else r.readoffset) = 0 := by
        split <;> omega
      refine ⟨?_, e0⟩
      unfold size
      simp only [e0, List.length_append, List.length_drop, List.length_take, hb, hc.1] at hg ⊢
      simp only [decide_eq_true_eq, Bool.false_eq_true, if_false, decide_eq_false_iff_not] at hg ⊢
      have hm : MAXRECLEN = 10485760 := rfl
      split <;> omega
  · rename_i hc
    left
    injection h with _ h
    refine ⟨h.symm, ?_⟩
    cases he : r.eof <;> cases more <;> simp [he] at hc ⊢ <;> omega

/-- The rank of a pass of the loop. -/
def rank (more : Bool) (r : Reader) : Nat := 2 * size r + (if more then 0 else 1)

theorem advance_size (k : Int) (r : Reader) (hk : 1 ≤ k)
    (h : (40 : Int) ≤ (r.buf.length : Int) - r.readoffset) : size (advance k r) < size r := by
  unfold size advance
  simp only
  omega

/-- The reading position has left the buffer backwards, the next use of it overflows. -/
def Dead (r : Reader) : Prop := buflen r = .ub

theorem dead_advance (r : Reader) (h : (40 : Int) ≤ (r.buf.length : Int) - r.readoffset) :
    Dead (advance (-2147483648) r) := by
  unfold Dead buflen advance
  simp only
  rw [if_neg (by omega)]

theorem attempt_again (o : Opts) (ho : Ends o) (n : Int) (r r' : Reader) (more : Bool)
    (h : (40 : Int) ≤ (r.buf.length : Int) - r.readoffset)
    (ha : attempt o n r = .ok (.again more r')) :
    (0 ≤ r.readoffset ∧ 0 ≤ r'.readoffset ∧ (size r' < size r ∨ (r' = r ∧ more = true ∧ r.eof = false)))
      ∨ Dead r' := by
  unfold attempt at ha
  split at ha
  · cases ha
  rename_i h0
  rw [bind_eq_ok] at ha
  obtain ⟨⟨p, mem⟩, hp, ha⟩ := ha
  have hm := ho.same _ _ _ _ _ _ hp
  subst hm
  simp only [List.take_append_drop] at ha
  have e : ({ r with buf := r.buf } : Reader) = r := rfl
  have hf : ∀ e, .ok (failed o e r) = Res.ok (.again more r') →
      size r' < size r ∧ 0 ≤ r'.readoffset := by
    intro e he
    unfold failed at he
    split at he
    · injection he with he; injection he with _ he; subst he
      exact ⟨advance_size 1 r (by omega) h, by simp [advance]; omega⟩
    · injection he with he; cases he
  cases p with
  | record m =>
    simp only at ha
    split at ha
    · unfold deliver at ha
      rw [bind_eq_ok] at ha
      obtain ⟨p, -, ha⟩ := ha
      split at ha <;> simp at ha
    · injection ha with ha; injection ha with _ ha; subst ha
      rcases ho.reclen _ _ _ _ _ _ hp with hr | hr
      · exact Or.inl ⟨by omega, by simp [advance]; omega, Or.inl (advance_size _ r hr h)⟩
      · rw [hr]; exact Or.inr (dead_advance r h)
  | notSeed => obtain ⟨a, b⟩ := hf _ ha; exact Or.inl ⟨by omega, b, Or.inl a⟩
  | outOfRange => obtain ⟨a, b⟩ := hf _ ha; exact Or.inl ⟨by omega, b, Or.inl a⟩
  | genError => obtain ⟨a, b⟩ := hf _ ha; exact Or.inl ⟨by omega, b, Or.inl a⟩
  | invalidCrc => obtain ⟨a, b⟩ := hf _ ha; exact Or.inl ⟨by omega, b, Or.inl a⟩
  | need k =>
    simp only [wanting] at ha
    split at ha
    · split at ha
      · injection ha with ha; injection ha with _ ha; subst ha
        exact Or.inl ⟨by omega, by simp [advance]; omega, Or.inl (advance_size 1 r (by omega) h)⟩
      · injection ha with ha; cases ha
    · split at ha
      · injection ha with ha; cases ha
      · rename_i he
        injection ha with ha; injection ha with hm' ha; subst ha
        exact Or.inl ⟨by omega, (by omega : 0 ≤ r.readoffset), Or.inr ⟨rfl, hm'.symm, by simpa using he⟩⟩

theorem attempt_ne_err (o : Opts) (ho : Ends o) (n : Int) (r : Reader) : attempt o n r ≠ .err := by
  unfold attempt
  split
  · simp
  refine bind_ne_err (ho.parse _ _ _ _) fun ⟨p, mem⟩ _ => ?_
  cases p with
  | record m =>
    simp only
    split
    · unfold deliver
      refine bind_ne_err ?_ fun p _ => ?_
      · split
        · exact ho.unpack _ _ _
        · simp
      · split <;> simp
    · simp
  | _ => simp

theorem finished_again {s : Step} {more : Bool} {r : Reader} (h : finished s = .ok (.again more r)) :
    s = .again more r ∧ (r.eof = true → (40 : Int) ≤ (r.buf.length : Int) - r.readoffset) := by
  unfold finished at h
  split at h
  · cases h
  · split at h
    · rename_i he
      rw [bind_eq_ok] at h
      obtain ⟨n, hn, h⟩ := h
      split at h
      · cases h
      · rename_i hlt
        injection h with h; injection h with h1 h2; subst h1; subst h2
        refine ⟨rfl, fun _ => ?_⟩
        unfold buflen at hn
        simp only at hn
        split at hn
        · injection hn with hn; omega
        · cases hn
    · rename_i he
      injection h with h; injection h with h1 h2; subst h1; subst h2
      exact ⟨rfl, fun hc => absurd hc he⟩

theorem finished_ne_err (s : Step) : finished s ≠ .err := by
  unfold finished
  split
  · simp
  · split
    · refine bind_ne_err ?_ fun n _ => ?_
      · unfold buflen; simp only; split <;> simp
      · split <;> simp
    · simp

theorem buflen_eq {r : Reader} {n : Int} (h : buflen r = .ok n) :
    n = (r.buf.length : Int) - r.readoffset := by
  unfold buflen at h
  simp only at h
  split at h
  · injection h with h; exact h.symm
  · cases h

theorem buflen_ne_err (r : Reader) : buflen r ≠ .err := by
  unfold buflen; simp only; split <;> simp

theorem step_ne_err (o : Opts) (ho : Ends o) (more : Bool) (r : Reader) : step o more r ≠ .err := by
  unfold step
  split
  · simp
  refine bind_ne_err (buflen_ne_err r) fun n _ => ?_
  split
  · simp
  · refine bind_ne_err (buflen_ne_err _) fun n _ => ?_
    refine bind_ne_err ?_ fun s _ => finished_ne_err s
    split
    · exact attempt_ne_err o ho _ _
    · simp

theorem step_again (o : Opts) (ho : Ends o) (more more' : Bool) (r r' : Reader)
    (h0 : 0 ≤ r.readoffset) (h : step o more r = .ok (.again more' r')) :
    (0 ≤ r'.readoffset ∧ rank more' r' < rank more r) ∨ Dead r' := by
  unfold step at h
  split at h
  · cases h
  rw [bind_eq_ok] at h
  obtain ⟨n, hn, h⟩ := h
  have hn := buflen_eq hn
  split at h
  · cases h
  · rename_i r1 hf
    rw [bind_eq_ok] at h
    obtain ⟨n1, hn1, h⟩ := h
    have hn1 := buflen_eq hn1
    rw [bind_eq_ok] at h
    obtain ⟨s, hs, h⟩ := h
    obtain ⟨rfl, hend⟩ := finished_again h
    have hfill := fill_size n more r r1 h0 hn hf
    split at hs
    · rename_i h40
      rcases attempt_again o ho n1 r1 r' more' (by omega) hs with ⟨a, b, hc⟩ | hd
      · refine Or.inl ⟨b, ?_⟩
        unfold rank
        rcases hfill with ⟨rfl, hr⟩ | ⟨hl, -⟩
        · rcases hc with hc | ⟨rfl, rfl, he⟩
          · split <;> split <;> omega
          · rcases hr with hr | ⟨-, rfl⟩
            · rw [he] at hr; cases hr
            · simp
        · have : size r' ≤ size r1 := by
            rcases hc with hc | ⟨rfl, -, -⟩ <;> omega
          split <;> split <;> omega
      · exact Or.inr hd
    · rename_i h40
      injection hs with hs; injection hs with h1 h2; subst h1; subst h2
      rcases hfill with ⟨rfl, hr⟩ | ⟨hl, h0'⟩
      · rcases hr with hr | hr
        · have := hend hr; omega
        · omega
      · refine Or.inl ⟨by omega, ?_⟩
        unfold rank
        omega

theorem loop_dead (o : Opts) (fuel : Nat) (more : Bool) (r : Reader) (h : Dead r) :
    loop o (fuel + 1) more r ≠ .err := by
  rw [loop]
  unfold step
  split
  · simp [Steim.Res.bind]
  · rw [show buflen r = .ub from h]; simp [Steim.Res.bind]

theorem loop_ends (o : Opts) (ho : Ends o) (fuel : Nat) (more : Bool) (r : Reader)
    (h0 : 0 ≤ r.readoffset) (hf : rank more r + 2 ≤ fuel) : loop o fuel more r ≠ .err := by
  induction fuel generalizing more r with
  | zero => omega
  | succ fuel ih =>
    rw [loop]
    refine bind_ne_err (step_ne_err o ho more r) fun s hs => ?_
    cases s with
    | done ret r' => simp
    | again more' r' =>
      rcases step_again o ho more more' r r' h0 hs with ⟨a, b⟩ | hd
      · exact ih more' r' a (by omega)
      · obtain ⟨f, rfl⟩ : ∃ f, fuel = f + 1 := ⟨fuel - 1, by omega⟩
        exact loop_dead o f more' r' hd

theorem readmsr_ends (o : Opts) (ho : Ends o) (r : Reader) (h0 : 0 ≤ r.readoffset) :
    readmsr o r ≠ .err := by
  refine loop_ends o ho _ false r h0 ?_
  unfold rank size
  simp only [Bool.false_eq_true, if_false]
  split <;> omega

end Verif.Proof.Reader
