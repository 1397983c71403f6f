import Verif.Props.ReadTraceDefs
import Verif.Props.TraceList
import Verif.Proof.ReaderTop
/-!
# Lemmas on reading records into trace lists
-/
namespace Verif.Proof.ReadTrace
open Verif.Model Verif.Model.Steim Verif.Model.Samples Verif.Model.Record3 Verif.Model.Reader
open Verif.Model.ReadTrace
open Verif.Model.Trace (Arrival Seg Source)
open Verif.Model.TraceList (TraceList addMsr)
open Verif.Props.Reader Verif.Props.TracePack Verif.Props.ReadTrace Verif.Props.Trace Verif.Props.TraceList
open Verif.Proof.Mem Verif.Proof.Reader

theorem typeOf_described {c : Adding} {m : Msr} {a : Arrival Rat} (d : Describes c m a) :
    typeOf c.floatBits m.samples = (a.sampletype, a.data) := by
  have h1 := d.type
  have h2 := d.data
  unfold Typed at h1
  unfold typeOf
  by_cases h0 : m.samples.count = 0
  · rw [if_pos h0]
    rw [if_pos h0] at h1
    rw [h1]
    cases hs : m.samples with
    | text b =>
      rw [hs] at h2 h0
      have : b = [] := List.eq_nil_of_length_eq_zero h0
      rw [this] at h2
      rw [h2]; rfl
    | ints b =>
      rw [hs] at h2 h0
      have : b = [] := List.eq_nil_of_length_eq_zero h0
      rw [this] at h2
      rw [h2]
    | floats b =>
      rw [hs] at h2 h0
      have : b = [] := List.eq_nil_of_length_eq_zero h0
      rw [this] at h2
      rw [h2]; rfl
    | doubles b =>
      rw [hs] at h2 h0
      have : b = [] := List.eq_nil_of_length_eq_zero h0
      rw [this] at h2
      rw [h2]; rfl
    | quotients b => rw [hs] at h2; exact h2.elim
  · rw [if_neg h0]
    rw [if_neg h0] at h1
    cases hs : m.samples with
    | text b => rw [hs] at h2 h1; rw [h1, h2]; rfl
    | ints b => rw [hs] at h2 h1; rw [h1, h2]
    | floats b => rw [hs] at h2 h1; rw [h1, h2]; rfl
    | doubles b => rw [hs] at h2 h1; rw [h1, h2]; rfl
    | quotients b => rw [hs] at h2; exact h2.elim

theorem arrival_described {c : Adding} {m : Msr} {a : Arrival Rat} (d : Describes c m a) :
    arrival c m = .ok (some a) := by
  unfold arrival
  rw [d.stop]
  show (if a.stop = NSTERROR then _ else _) = _
  rw [if_neg d.valid, d.period]
  have ht : tolerance c m a.period = .ok a.tol := by
    have := d.tol
    unfold tolerance
    cases hc : c.timetol with
    | none => rw [hc] at this; exact this
    | some f => rw [hc] at this; exact this
  show (Record3.ofOut (tolerance c m a.period)).bind _ = _
  rw [ht, typeOf_described d]
  show Res.ok (some _) = _
  unfold hertz
  rw [← d.sid, ← d.pub, ← d.start, ← d.rate, ← d.samplecnt]

/-- Adding described records of the type of their sources. -/
theorem added_all {c : Adding} {split keep : Bool} {T : List UInt8 → Char} (ms : List Msr)
    (as : List (Arrival Rat)) (hd : Each (Describes c) ms as) (hist : List (Arrival Rat × Bool))
    (tl : TraceList Rat) (hL : Listed c.sim split true keep hist tl)
    (hv : split = true → (∀ y ∈ hist, y.1.pub ≠ 0) ∧ ∀ a ∈ as, a.pub ≠ 0)
    (hT : ∀ y ∈ hist, OfType (T y.1.sid) y.1) (hT' : ∀ a ∈ as, OfType (T a.sid) a) :
    ∃ tl', AddedAll c split keep tl ms tl' ∧
      Listed c.sim split true keep (hist ++ as.map fun a => (a, true)) tl' := by
  induction ms generalizing as hist tl with
  | nil =>
    cases as with
    | nil => exact ⟨tl, .nil tl, by simpa using hL⟩
    | cons a as => exact hd.elim
  | cons m ms ih =>
    cases as with
    | nil => exact hd.elim
    | cons a as =>
      obtain ⟨tl1, res, e⟩ := C39_additions_safe hL a
      have hL1 := Listed.add hist tl a tl1 res hL e
      have hv1 : split = true → ∀ y ∈ hist ++ [(a, res.isSome)], y.1.pub ≠ 0 := by
        intro hs y hy
        rcases List.mem_append.1 hy with hy | hy
        · exact (hv hs).1 y hy
        · rw [List.mem_singleton] at hy; subst hy; exact (hv hs).2 a (by simp)
      have hT1 : ∀ y ∈ hist ++ [(a, res.isSome)], OfType (T y.1.sid) y.1 := by
        intro y hy
        rcases List.mem_append.1 hy with hy | hy
        · exact hT y hy
        · rw [List.mem_singleton] at hy; subst hy; exact hT' a (by simp)
      have hres : res.isSome = true := none_refused hL1 hv1 hT1 (a, res.isSome) (by simp)
      rw [hres] at hL1 hv1 hT1
      obtain ⟨tl', h1, h2⟩ := ih as hd.2 _ tl1 hL1
        (fun hs => ⟨hv1 hs, fun b hb => (hv hs).2 b (by simp [hb])⟩) hT1 (fun b hb => hT' b (by simp [hb]))
      refine ⟨tl', .cons tl m tl1 ms tl' ?_ h1, ?_⟩
      · unfold addRecord
        rw [arrival_described hd.1, bind_ok]
        simp only
        rw [e, bind_ok, hres]
      · simpa using h2

theorem each_length {α β : Type} {P : α → β → Prop} : ∀ {as : List α} {bs : List β}, Each P as bs →
    as.length = bs.length
  | [], [], _ => rfl
  | [], _ :: _, h => h.elim
  | _ :: _, [], h => h.elim
  | _ :: as, _ :: bs, h => by simp [each_length h.2]

theorem addChecked_ok {c : Adding} {split keep : Bool} {b t : List UInt8} {tl tl1 : TraceList Rat} {m : Msr}
    (h : addRecord c split true keep tl m = .ok (tl1, true)) (hb : keep = true → Bounded c.hostBE b m) :
    addChecked c split keep (b ++ t) tl m = .ok (tl1, true) := by
  unfold addChecked
  rw [h, bind_ok]
  cases hk : keep with
  | false => simp
  | true =>
    obtain ⟨p, hp⟩ := hb hk t
    simp only [and_self, if_true]
    rw [hp]

/-- A pass of the loop at a record. -/
theorem step_good {c : Adding} {o : Opts} {split keep : Bool} {b : List UInt8} {m m' : Msr}
    (g : Good o 0 b m m') (eof : Bool) (off : Nat) (t : List UInt8) (n : Nat) (tl : TraceList Rat) :
    (chosen o m = false →
      bufferStep c o split keep eof off (b ++ t) n tl = .ok (.next false b.length tl, b ++ t)) ∧
    (chosen o m = true → ∀ tl1, addRecord c split true keep tl m' = .ok (tl1, true) →
      (keep = true → Bounded c.hostBE b m') →
      bufferStep c o split keep eof off (b ++ t) n tl = .ok (.next true b.length tl1, b ++ t)) := by
  unfold bufferStep
  rw [g.parse, bind_ok]
  simp only
  constructor
  · intro hc
    rw [if_neg (by rw [hc]; simp), g.reclen]
  · intro hc tl1 ha hb
    rw [if_pos hc]
    have ht : takeRecord c o split keep off (b ++ t) tl m = .ok (tl1, true) := by
      unfold takeRecord
      rw [g.deliver hc off t, bind_ok]
      exact addChecked_ok ha hb
    rw [ht, bind_ok, if_pos rfl, g.reclen]

/-- What follows the last record is left. -/
def Leaves (o : Opts) (eof : Bool) (tail : List UInt8) : Prop :=
  tail.length ≤ 40 ∨ ∀ off, ∃ k, o.parse off tail (o.unpackdata && o.select.isNone) eof = .ok (.need k, tail)

theorem loop_items {c : Adding} {o : Opts} {split keep eof : Bool} {tail : List UInt8}
    (htail : Leaves o eof tail) (l : List Item)
    (hl : ∀ i ∈ l, i.j = [] ∧ 40 < i.b.length ∧ Good o 0 i.b i.m i.m' ∧
      (keep = true → Bounded c.hostBE i.b i.m'))
    (pre : List UInt8) (fuel n : Nat) (tl tl' : TraceList Rat) (hf : l.length < fuel)
    (ha : AddedAll c split keep tl ((l.filter fun i => chosen o i.m).map (·.m')) tl') :
    bufferLoop c o split keep eof fuel (pre ++ (cat l ++ tail)) pre.length n tl =
      .ok (.count (n + (l.filter fun i => chosen o i.m).length), tl') := by
  induction l generalizing pre fuel n tl with
  | nil =>
    obtain ⟨f, rfl⟩ : ∃ f, fuel = f + 1 := ⟨fuel - 1, by simp at hf; omega⟩
    have he : tl = tl' := by cases ha; rfl
    subst he
    have hc : cat [] ++ tail = tail := rfl
    rw [hc]
    unfold bufferLoop
    rw [if_neg (by rw [List.length_append]; omega), List.length_append]
    rcases htail with ht | ht
    · rw [if_pos (by omega)]
      simp
    · by_cases h40 : tail.length ≤ 40
      · rw [if_pos (by omega)]
        simp
      · rw [if_neg (by omega)]
        obtain ⟨k, hk⟩ := ht pre.length
        have hstep : bufferStep c o split keep eof pre.length tail n tl = .ok (.done (.count n) tl, tail) := by
          unfold bufferStep
          rw [hk, bind_ok]
        simp only [Int.toNat_natCast, List.drop_left]
        rw [hstep, bind_ok]
        simp
  | cons i l ih =>
    obtain ⟨f, rfl⟩ : ∃ f, fuel = f + 1 := ⟨fuel - 1, by simp at hf; omega⟩
    obtain ⟨hj, h40, hg, hb⟩ := hl i (by simp)
    have hc : cat (i :: l) ++ tail = i.b ++ (cat l ++ tail) := by
      rw [cat_cons, hj]; simp
    rw [hc]
    unfold bufferLoop
    rw [if_neg (by simp only [List.length_append]; omega), if_neg (by simp only [List.length_append]; omega)]
    simp only [Int.toNat_natCast, List.drop_left, List.take_left]
    have e : pre ++ (i.b ++ (cat l ++ tail)) = (pre ++ i.b) ++ (cat l ++ tail) := by simp
    have e2 : ((pre.length : Int) + i.b.length) = ((pre ++ i.b).length : Nat) := by simp
    have hf' : l.length < f := by simp at hf; omega
    obtain ⟨s1, s2⟩ := step_good (c := c) (split := split) (keep := keep) hg eof pre.length (cat l ++ tail) n tl
    cases hch : chosen o i.m with
    | false =>
      rw [s1 hch, bind_ok]
      simp only [Bool.false_eq_true, if_false]
      rw [List.filter_cons_of_neg (by simp [hch])] at ha ⊢
      rw [e, e2]
      exact ih (fun x hx => hl x (by simp [hx])) _ _ _ _ hf' ha
    | true =>
      rw [List.filter_cons_of_pos (p := fun i : Item => chosen o i.m) hch] at ha ⊢
      rw [List.map_cons] at ha
      cases ha with
      | cons _ _ tl1 _ _ h1 h2 =>
        rw [s2 hch tl1 h1 hb, bind_ok]
        simp only [if_true]
        rw [e, e2, ih (fun x hx => hl x (by simp [hx])) _ _ _ _ hf' h2]
        simp only [List.length_cons]
        congr 3
        omega

theorem cat_length (l : List Item) (h : ∀ i ∈ l, 40 ≤ i.b.length) : l.length ≤ (cat l).length := by
  induction l with
  | nil => simp
  | cons i l ih =>
    rw [cat_cons]
    have := ih fun x hx => h x (by simp [hx])
    have := h i (by simp)
    simp only [List.length_append, List.length_cons]
    omega

theorem readBuffer_items {c : Adding} {o : Opts} {split keep eof : Bool} {tail : List UInt8}
    (htail : Leaves o eof tail) (l : List Item)
    (hl : ∀ i ∈ l, i.j = [] ∧ 40 < i.b.length ∧ Good o 0 i.b i.m i.m' ∧
      (keep = true → Bounded c.hostBE i.b i.m'))
    (tl tl' : TraceList Rat)
    (ha : AddedAll c split keep tl ((l.filter fun i => chosen o i.m).map (·.m')) tl') :
    readBuffer c o split keep eof (cat l ++ tail) tl =
      .ok (.count (l.filter fun i => chosen o i.m).length, tl') := by
  have := loop_items htail l hl [] ((cat l ++ tail).length + 1) 0 tl tl' (by
    have := cat_length l fun i hi => by have := (hl i hi).2.1; omega
    rw [List.length_append]; omega) ha
  simpa [readBuffer] using this

/-- Reading a file, from the calls of the reader. -/
theorem fileLoop_takes {c : Adding} {o : Opts} {split keep : Bool} {r : Reader}
    {l : List (Int × Msr × List UInt8)} {ret : Ret} (ht : Takes o r l ret)
    (hb : keep = true → ∀ x ∈ l, Bounded c.hostBE x.2.2 x.2.1) (fuel : Nat) (hf : l.length < fuel)
    (tl tl' : TraceList Rat) (ha : AddedAll c split keep tl (l.map (·.2.1)) tl') :
    fileLoop c o split keep fuel r tl = .ok (codeOf ret, tl') := by
  induction ht generalizing fuel tl with
  | stop r r' ret h1 h2 =>
    obtain ⟨f, rfl⟩ : ∃ f, fuel = f + 1 := ⟨fuel - 1, by simp at hf; omega⟩
    cases ha
    unfold fileLoop
    rw [h1, bind_ok]
    cases ret with
    | record m => exact absurd rfl (h2 m)
    | _ => rfl
  | next r r' m b t l ret h1 h2 h3 h4 h5 ih =>
    obtain ⟨f, rfl⟩ : ∃ f, fuel = f + 1 := ⟨fuel - 1, by simp at hf; omega⟩
    rw [List.map_cons] at ha
    cases ha with
    | cons _ _ tl1 _ _ ha1 ha2 =>
      unfold fileLoop
      rw [h1, bind_ok]
      simp only
      rw [if_neg (by omega), h4,
        addChecked_ok ha1 (fun hk => hb hk (_, m, b) (by simp)), bind_ok]
      simp only [if_true]
      exact ih (fun hk x hx => hb hk x (by simp [hx])) f (by simp at hf; omega) tl1 ha2

/-- The loop passes the records before an offset. -/
theorem loop_prefix {c : Adding} {o : Opts} {split keep eof : Bool} (tail : List UInt8) (l : List Item)
    (hl : ∀ i ∈ l, i.j = [] ∧ 40 < i.b.length ∧ Good o 0 i.b i.m i.m' ∧
      (keep = true → Bounded c.hostBE i.b i.m'))
    (pre : List UInt8) (fuel n : Nat) (tl tl' : TraceList Rat)
    (ha : AddedAll c split keep tl ((l.filter fun i => chosen o i.m).map (·.m')) tl') :
    bufferLoop c o split keep eof (l.length + fuel) (pre ++ (cat l ++ tail)) pre.length n tl =
      bufferLoop c o split keep eof fuel ((pre ++ cat l) ++ tail) (pre ++ cat l).length
        (n + (l.filter fun i => chosen o i.m).length) tl' := by
  induction l generalizing pre n tl with
  | nil =>
    have he : tl = tl' := by cases ha; rfl
    subst he
    simp [show cat [] = [] from rfl]
  | cons i l ih =>
    obtain ⟨hj, h40, hg, hb⟩ := hl i (by simp)
    have hci : cat (i :: l) = i.b ++ cat l := by rw [cat_cons, hj]; simp
    have hc : cat (i :: l) ++ tail = i.b ++ (cat l ++ tail) := by rw [hci]; simp
    rw [hc, hci, ← List.append_assoc pre i.b (cat l), show (i :: l).length + fuel = (l.length + fuel) + 1 by
      simp only [List.length_cons]; omega]
    rw [bufferLoop]
    rw [if_neg (by simp only [List.length_append]; omega), if_neg (by simp only [List.length_append]; omega)]
    simp only [Int.toNat_natCast, List.drop_left, List.take_left]
    have e : pre ++ (i.b ++ (cat l ++ tail)) = (pre ++ i.b) ++ (cat l ++ tail) := by simp
    have e2 : ((pre.length : Int) + i.b.length) = ((pre ++ i.b).length : Nat) := by simp
    obtain ⟨s1, s2⟩ := step_good (c := c) (split := split) (keep := keep) hg eof pre.length (cat l ++ tail) n tl
    cases hch : chosen o i.m with
    | false =>
      rw [s1 hch, bind_ok]
      simp only [Bool.false_eq_true, if_false]
      rw [List.filter_cons_of_neg (by simp [hch])] at ha ⊢
      rw [e, e2]
      exact ih (fun x hx => hl x (by simp [hx])) _ _ _ ha
    | true =>
      rw [List.filter_cons_of_pos (p := fun i : Item => chosen o i.m) hch] at ha ⊢
      rw [List.map_cons] at ha
      cases ha with
      | cons _ _ tl1 _ _ h1 h2 =>
        rw [s2 hch tl1 h1 hb, bind_ok]
        simp only [if_true]
        rw [e, e2, ih (fun x hx => hl x (by simp [hx])) _ _ _ h2]
        simp only [List.length_cons]
        congr 1
        omega

/-- A record that is refused. -/
theorem addChecked_refused {c : Adding} {split keep : Bool} {tl tl' : TraceList Rat} {m : Msr}
    (h : Refused c split keep tl m tl') (mem : List UInt8) : addChecked c split keep mem tl m = .ok (tl', false) := by
  have : addRecord c split true keep tl m = .ok (tl', false) := by
    unfold addRecord
    rcases h with ⟨h, rfl⟩ | ⟨a, hd, ha⟩
    · have : arrival c m = .ok none := by
        unfold arrival
        rw [h, show Record3.ofOut (Out.ok NSTERROR) = .ok NSTERROR from rfl, bind_ok]
        simp only [if_true]
      rw [this, bind_ok]
    · rw [arrival_described hd, bind_ok]
      simp only
      rw [ha, bind_ok]
      rfl
  unfold addChecked
  rw [this, bind_ok]
  simp

theorem readBuffer_refused {c : Adding} {o : Opts} {split keep eof : Bool} (tail : List UInt8) (l : List Item)
    (i : Item) (hl : ∀ i ∈ l, i.j = [] ∧ 40 < i.b.length ∧ Good o 0 i.b i.m i.m' ∧
      (keep = true → Bounded c.hostBE i.b i.m'))
    (hj : i.j = []) (h40 : 40 < i.b.length) (hg : Good o 0 i.b i.m i.m') (hch : chosen o i.m = true)
    (tl tl' tl2 : TraceList Rat)
    (ha : AddedAll c split keep tl ((l.filter fun i => chosen o i.m).map (·.m')) tl')
    (hr : Refused c split keep tl' i.m' tl2) :
    readBuffer c o split keep eof (cat (l ++ [i]) ++ tail) tl = .ok (.genError, tl2) := by
  have hcat : cat (l ++ [i]) ++ tail = [] ++ (cat l ++ (i.b ++ tail)) := by
    unfold cat
    simp [hj]
  have hlen := cat_length l fun i hi => by have := (hl i hi).2.1; omega
  unfold readBuffer
  have hfuel : (([] : List UInt8) ++ (cat l ++ (i.b ++ tail))).length + 1 =
      l.length + (((cat l).length - l.length + (i.b ++ tail).length) + 1) := by
    rw [List.nil_append, List.length_append]; omega
  rw [hcat, hfuel]
  have := loop_prefix (c := c) (eof := eof) (i.b ++ tail) l hl []
    (((cat l).length - l.length + (i.b ++ tail).length) + 1) 0 tl tl' ha
  rw [show (0 : Int) = (([] : List UInt8).length : Nat) from rfl, this]
  rw [bufferLoop]
  rw [if_neg (by simp only [List.length_append]; omega), if_neg (by simp only [List.length_append]; omega)]
  simp only [Int.toNat_natCast, List.drop_left, List.take_left]
  have hstep : ∀ off n, bufferStep c o split keep eof off (i.b ++ tail) n tl' = .ok (.done .genError tl2, i.b ++ tail) := by
    intro off n
    unfold bufferStep
    rw [hg.parse, bind_ok]
    simp only
    rw [if_pos hch]
    have ht : takeRecord c o split keep off (i.b ++ tail) tl' i.m = .ok (tl2, false) := by
      unfold takeRecord
      rw [hg.deliver hch off tail, bind_ok]
      exact addChecked_refused hr _
    rw [ht, bind_ok]
    simp
  rw [hstep, bind_ok]

theorem fileLoop_refused {c : Adding} {o : Opts} {split keep : Bool} {r : Reader}
    {l : List (Int × Msr × List UInt8)} {ret : Ret} (ht : Takes o r l ret)
    (l1 : List (Int × Msr × List UInt8)) (x : Int × Msr × List UInt8) (l2 : List (Int × Msr × List UInt8))
    (he : l = l1 ++ x :: l2)
    (hb : keep = true → ∀ x ∈ l1, Bounded c.hostBE x.2.2 x.2.1) (fuel : Nat) (hf : l1.length < fuel)
    (tl tl' tl2 : TraceList Rat) (ha : AddedAll c split keep tl (l1.map (·.2.1)) tl')
    (hr : Refused c split keep tl' x.2.1 tl2) :
    fileLoop c o split keep fuel r tl = .ok (.genError, tl2) := by
  induction ht generalizing l1 fuel tl with
  | stop r r' ret h1 h2 => simp at he
  | next r r' m b t l ret h1 h2 h3 h4 h5 ih =>
    obtain ⟨f, rfl⟩ : ∃ f, fuel = f + 1 := ⟨fuel - 1, by omega⟩
    cases l1 with
    | nil =>
      rw [List.nil_append] at he
      injection he with he1 he2
      subst he1
      have : tl = tl' := by cases ha; rfl
      subst this
      unfold fileLoop
      rw [h1, bind_ok]
      simp only
      rw [if_neg (by omega), addChecked_refused hr, bind_ok]
      simp
    | cons y l1 =>
      rw [List.cons_append] at he
      injection he with he1 he2
      subst he1
      rw [List.map_cons] at ha
      cases ha with
      | cons _ _ tl1 _ _ ha1 ha2 =>
        unfold fileLoop
        rw [h1, bind_ok]
        simp only
        rw [if_neg (by omega), h4,
          addChecked_ok ha1 (fun hk => hb hk (_, m, b) (by simp)), bind_ok]
        simp only [if_true]
        exact ih l1 he2 (fun hk x hx => hb hk x (by simp [hx])) f (by simp at hf; omega) tl1 ha2

theorem ofOut_ne_err {α : Type} (o : Out α) : Record3.ofOut o ≠ .err := by cases o <;> simp [Record3.ofOut]

theorem arrival_ne_err (c : Adding) (m : Msr) : arrival c m ≠ .err := by
  unfold arrival
  refine bind_ne_err (ofOut_ne_err _) fun _ _ => ?_
  split
  · simp
  · refine bind_ne_err (ofOut_ne_err _) fun _ _ => ?_
    exact bind_ne_err (ofOut_ne_err _) fun _ _ => by simp

/-- Adding ends and leaves a list of additions. -/
theorem addRecord_listed {c : Adding} {split autoheal keep : Bool} {hist : List (Arrival Rat × Bool)}
    {tl : TraceList Rat} (hL : Listed c.sim split autoheal keep hist tl) (m : Msr) :
    addRecord c split autoheal keep tl m ≠ .err ∧ ∀ tl1 b, addRecord c split autoheal keep tl m = .ok (tl1, b) →
      ∃ hist1, Listed c.sim split autoheal keep hist1 tl1 := by
  unfold addRecord
  cases ha : arrival c m with
  | err => exact absurd ha (arrival_ne_err c m)
  | ub => exact ⟨by simp [Res.bind], fun _ _ h => by cases h⟩
  | oob => exact ⟨by simp [Res.bind], fun _ _ h => by cases h⟩
  | ok a =>
    rw [bind_ok]
    cases a with
    | none =>
      refine ⟨by simp, fun tl1 b h => ?_⟩
      injection h with h
      injection h with h
      exact ⟨hist, h ▸ hL⟩
    | some a =>
      obtain ⟨tl1, res, e⟩ := C39_additions_safe hL a
      simp only
      rw [e, bind_ok]
      refine ⟨by simp, fun tl2 b h => ?_⟩
      injection h with h
      injection h with h
      exact ⟨_, (show tl1 = tl2 from h) ▸ Listed.add hist tl a tl1 res hL e⟩

theorem addChecked_listed {c : Adding} {split keep : Bool} {hist : List (Arrival Rat × Bool)}
    {tl : TraceList Rat} (hL : Listed c.sim split true keep hist tl) (mem : List UInt8) (m : Msr) :
    addChecked c split keep mem tl m ≠ .err ∧ ∀ tl1 b, addChecked c split keep mem tl m = .ok (tl1, b) →
      ∃ hist1, Listed c.sim split true keep hist1 tl1 := by
  obtain ⟨h1, h2⟩ := addRecord_listed hL m
  unfold addChecked
  cases ha : addRecord c split true keep tl m with
  | err => exact absurd ha h1
  | ub => exact ⟨by simp [Res.bind], fun _ _ h => by cases h⟩
  | oob => exact ⟨by simp [Res.bind], fun _ _ h => by cases h⟩
  | ok r =>
    obtain ⟨tl1, b⟩ := r
    obtain ⟨hist1, hL1⟩ := h2 tl1 b ha
    rw [bind_ok]
    simp only
    split
    · split
      · refine ⟨by simp, fun tl2 b2 h => ?_⟩
        injection h with h; injection h with h; exact ⟨_, h ▸ hL1⟩
      · refine ⟨by simp, fun tl2 b2 h => ?_⟩
        injection h with h; injection h with h; exact ⟨_, h ▸ hL1⟩
      · exact ⟨by simp, fun _ _ h => by cases h⟩
      · exact ⟨by simp, fun _ _ h => by cases h⟩
    · refine ⟨by simp, fun tl2 b2 h => ?_⟩
      injection h with h; injection h with h; exact ⟨_, h ▸ hL1⟩

theorem takeRecord_listed {c : Adding} {o : Opts} (ho : Ends o) {split keep : Bool}
    {hist : List (Arrival Rat × Bool)} {tl : TraceList Rat} (hL : Listed c.sim split true keep hist tl)
    (off : Nat) (mem : List UInt8) (m : Msr) :
    takeRecord c o split keep off mem tl m ≠ .err ∧
    ∀ tl1 b, takeRecord c o split keep off mem tl m = .ok (tl1, b) →
      ∃ hist1, Listed c.sim split true keep hist1 tl1 := by
  unfold takeRecord
  generalize hp : (if o.unpackdata = true ∧ o.select.isSome = true ∧ m.samplecnt > 0 then o.unpack off mem m
    else .ok (.record m)) = x
  have hx : x ≠ .err := by
    rw [← hp]
    split
    · exact ho.unpack _ _ _
    · simp
  cases x with
  | err => exact absurd rfl hx
  | ub => exact ⟨by simp [Res.bind], fun _ _ h => by cases h⟩
  | oob => exact ⟨by simp [Res.bind], fun _ _ h => by cases h⟩
  | ok p =>
    rw [bind_ok]
    cases p with
    | record m' => exact addChecked_listed hL mem m'
    | _ =>
      refine ⟨by simp, fun tl1 b h => ?_⟩
      injection h with h; injection h with h; exact ⟨_, h ▸ hL⟩

theorem bufferStep_listed {c : Adding} {o : Opts} (ho : Ends o) {split keep : Bool} (eof : Bool)
    {hist : List (Arrival Rat × Bool)} {tl : TraceList Rat} (hL : Listed c.sim split true keep hist tl)
    (off : Nat) (mem : List UInt8) (n : Nat) :
    bufferStep c o split keep eof off mem n tl ≠ .err ∧
    ∀ added len tl1 mem', bufferStep c o split keep eof off mem n tl = .ok (.next added len tl1, mem') →
      mem' = mem ∧ (1 ≤ len ∨ len = -2147483648) ∧ ∃ hist1, Listed c.sim split true keep hist1 tl1 := by
  unfold bufferStep
  cases hp : o.parse off mem (o.unpackdata && o.select.isNone) eof with
  | err => exact absurd hp (ho.parse _ _ _ _)
  | ub => exact ⟨by simp [Res.bind], fun _ _ _ _ h => by cases h⟩
  | oob => exact ⟨by simp [Res.bind], fun _ _ _ _ h => by cases h⟩
  | ok q =>
    obtain ⟨p, mem1⟩ := q
    have hm := ho.same _ _ _ _ _ _ hp
    subst hm
    rw [bind_ok]
    cases p with
    | record m =>
      have hr := ho.reclen _ _ _ _ _ _ hp
      simp only
      split
      · obtain ⟨t1, t2⟩ := takeRecord_listed ho hL off mem1 m
        cases ht : takeRecord c o split keep off mem1 tl m with
        | err => exact absurd ht t1
        | ub => exact ⟨by simp [Res.bind], fun _ _ _ _ h => by cases h⟩
        | oob => exact ⟨by simp [Res.bind], fun _ _ _ _ h => by cases h⟩
        | ok r =>
          obtain ⟨tl1, b⟩ := r
          rw [bind_ok]
          simp only
          cases b with
          | true =>
            refine ⟨by simp, fun a len tl2 mem' h => ?_⟩
            rw [if_pos rfl] at h
            injection h with h; injection h with h h'
            injection h with h1 h2 h3
            exact ⟨h'.symm, by rw [← h2]; exact hr, h3 ▸ t2 tl1 true ht⟩
          | false => exact ⟨by simp, fun _ _ _ _ h => by cases h⟩
      · refine ⟨by simp, fun a len tl2 mem' h => ?_⟩
        injection h with h; injection h with h h'
        injection h with h1 h2 h3
        exact ⟨h'.symm, by rw [← h2]; exact hr, hist, h3 ▸ hL⟩
    | _ => exact ⟨by simp, fun _ _ _ _ h => by cases h⟩

theorem bufferLoop_ends {c : Adding} {o : Opts} (ho : Ends o) {split keep : Bool} (eof : Bool) (fuel : Nat)
    (buf : List UInt8) (off : Int) (n : Nat) {hist : List (Arrival Rat × Bool)} {tl : TraceList Rat}
    (hL : Listed c.sim split true keep hist tl) (hb : buf.length < 2147483648) (hf : 0 < fuel)
    (hf' : off ≥ 0 → (buf.length : Int) - off < fuel) :
    bufferLoop c o split keep eof fuel buf off n tl ≠ .err := by
  induction fuel generalizing buf off n hist tl with
  | zero => omega
  | succ f ih =>
    unfold bufferLoop
    split
    · simp
    rename_i h0
    split
    · simp
    rename_i h40
    obtain ⟨s1, s2⟩ := bufferStep_listed (c := c) ho eof hL off.toNat (buf.drop off.toNat) n
    cases hs : bufferStep c o split keep eof off.toNat (buf.drop off.toNat) n tl with
    | err => exact absurd hs s1
    | ub => simp [Res.bind]
    | oob => simp [Res.bind]
    | ok q =>
      obtain ⟨st, mem⟩ := q
      rw [bind_ok]
      cases st with
      | done ret tl1 => simp
      | next added len tl1 =>
        obtain ⟨e, hlen, hist1, hL1⟩ := s2 _ _ _ _ hs
        simp only
        rw [e, List.take_append_drop]
        refine ih buf _ _ hL1 hb (by omega) ?_
        intro hpos
        omega

end Verif.Proof.ReadTrace
