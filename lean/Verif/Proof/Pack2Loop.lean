import Verif.Proof.Pack2Read
/-!
# Lemmas about packing version 2 records: the loop over records
-/
namespace Verif.Proof.Pack2
open Verif.Model Verif.Model.Bytes Verif.Model.Steim Verif.Model.Samples Verif.Model.Mem
  Verif.Model.Record3 Verif.Model.Pack Verif.Model.Pack2
open Verif.Spec Verif.Spec.Record2 Verif.Spec.Detect
open Verif.Proof.Mem Verif.Proof.Record2
open Verif.Proof.Pack (stored Stored passed_eq drop_count drop_representable packData_ne_oob)
open Verif.Props.Samples

/-! ## Times -/

/-- A time that a version 2 record can hold and that is read back: between 1900 and 2100, not on one of
the days whose byte order cannot be told, not in the 0.0001 seconds from the value reserved for errors
on. -/
def GoodTime2 (t : Int) : Prop :=
  ∃ f : Fields, f.Valid ∧ f.instant = t ∧ 1900 ≤ f.year ∧ f.year ≤ 2100 ∧
    ¬ (f.year = 2056 ∧ (f.yday = 1 ∨ f.yday = 256 ∨ f.yday = 257)) ∧
    t / 100000 * 100000 ≠ (Fields.mk 1902 1 0 0 0 0).instant

/-- The fields of a good time. -/
structure TimeOk (t : Int) (dt : DateTime) : Prop where
  time : nstime2time t = some dt
  date : SaneDate dt.year.toNat dt.yday.toNat ∧ (dt.yday.toNat : Int) ≤ yearLen dt.year.toNat
  clock : dt.hour.toNat ≤ 23 ∧ dt.min.toNat ≤ 59 ∧ dt.sec.toNat ≤ 60 ∧ dt.nsec.toNat / 100000 ≤ 9999
  told : ¬ (dt.year.toNat = 2056 ∧ (dt.yday.toNat = 1 ∨ dt.yday.toNat = 256 ∨ dt.yday.toNat = 257))
  instant : (Fields.mk dt.year.toNat dt.yday.toNat dt.hour.toNat dt.min.toNat dt.sec.toNat
    ((dt.nsec.toNat / 100000 : Nat) * 100000)).instant = t / 100000 * 100000
  noError : t / 100000 * 100000 ≠ NSTERROR
  micro : (microOffset dt : Int) = t / 1000 % 100

theorem year_bounds (f : Fields) (hv : f.Valid) (h1 : 1900 ≤ f.year) (h2 : f.year ≤ 2100) :
    InInt64 f.instant := by
  obtain ⟨v1, v2, v3, v4, v5⟩ := hv
  have hj : jan1 f.year = Proof.jc f.year := Proof.jan1_eq _
  unfold Proof.jc at hj
  have hyl := Proof.yearLen_cases f.year
  unfold InInt64 Fields.instant
  omega

theorem good_time2 (t : Int) (g : GoodTime2 t) : ∃ dt, TimeOk t dt := by
  obtain ⟨f, hv, hi, h1, h2, h3, h4⟩ := g
  have h64 : InInt64 t := by rw [← hi]; exact year_bounds f hv h1 h2
  obtain ⟨dt, e1, e2, e3, e4⟩ := Props.C01_nstime2time_gregorian t h64
  have hf := e4 f hv hi
  subst hf
  refine ⟨dt, ?_⟩
  obtain ⟨v1, v2, v3, v4, v5⟩ := hv
  simp only [Props.toFields] at v1 v2 v3 v4 v5 h1 h2 h3 hi
  have hyl := Proof.yearLen_cases dt.year
  have y1 : (dt.year.toNat : Int) = dt.year := Int.toNat_of_nonneg (by omega)
  have y2 : (dt.yday.toNat : Int) = dt.yday := Int.toNat_of_nonneg (by omega)
  have y3 : (dt.hour.toNat : Int) = dt.hour := Int.toNat_of_nonneg (by omega)
  have y4 : (dt.min.toNat : Int) = dt.min := Int.toNat_of_nonneg (by omega)
  have y5 : (dt.sec.toNat : Int) = dt.sec := Int.toNat_of_nonneg (by omega)
  have y6 : (dt.nsec.toNat : Int) = dt.nsec := Int.toNat_of_nonneg (by omega)
  constructor
  · exact e1
  · unfold SaneDate
    rw [y1, y2]
    refine ⟨by omega, by omega⟩
  · omega
  · omega
  · rw [y1, y2, y3, y4, y5]
    unfold Fields.instant at hi ⊢
    simp only at hi ⊢
    generalize (((jan1 dt.year + (dt.yday - 1)) * 24 + dt.hour) * 60 + dt.min) * 60 + dt.sec = A at *
    omega
  · intro hc
    apply h4
    rw [hc]
    decide +kernel
  · unfold microOffset
    unfold Fields.instant at hi
    simp only at hi
    generalize (((jan1 dt.year + (dt.yday - 1)) * 24 + dt.hour) * 60 + dt.min) * 60 + dt.sec = A at *
    omega

/-! ## One record -/

theorem variant_shape {q : Rec} (s : Shape q) (dt : DateTime) (n : Nat) (rest : List UInt8) :
    Shape (variant q dt n rest) := ⟨s.1, s.2, s.3, s.4⟩

theorem bytes_length' (q : Rec) (s : Shape q) :
    q.bytes.length = 48 + (chainBytes q.be 48 q.chain).length + q.rest.length := by
  unfold Rec.bytes
  rw [List.length_append, List.length_append, fixed_length' q s]

/-- Zero bytes. -/
def zeros (n : Nat) : List UInt8 := List.replicate n 0

theorem finishRecord2_eq (h : Bool) (q : Rec) (s : Shape q) (hbe : q.be = true) (dt : DateTime)
    (n0 n : Nat) (pad tail data : List UInt8) (hl : data.length ≤ tail.length) :
    finishRecord2 h (variant q dt n0 (pad ++ tail)).bytes
        (48 + (chainBytes q.be 48 q.chain).length + pad.length + tail.length)
        (48 + (chainBytes q.be 48 q.chain).length + pad.length) data n
      = .ok (variant q dt n (pad ++ (data ++ zeros (tail.length - data.length)))).bytes := by
  have hf := fixed_length' _ (variant_shape s dt n0 (pad ++ tail))
  have hb : (variant q dt n0 (pad ++ tail)).bytes =
      ((variant q dt n0 (pad ++ tail)).fixed ++ (chainBytes q.be 48 q.chain ++ pad)) ++ tail := by
    unfold Rec.bytes
    simp only [List.append_assoc]
    rfl
  unfold finishRecord2
  have p1 := poke_append' (a := (variant q dt n0 (pad ++ tail)).fixed ++
    (chainBytes q.be 48 q.chain ++ pad)) (c := tail) (d := data) hl
  rw [List.length_append, List.length_append, hf, ← Nat.add_assoc] at p1
  rw [hb, p1, bind_ok]
  simp only [List.append_assoc]
  rw [poke_n h _ (variant_shape s dt n0 (pad ++ tail)) hbe n, bind_ok]
  have hg := fixed_length' _ (variant_shape s dt n (pad ++ tail))
  have e1 : ({ variant q dt n0 (pad ++ tail) with numsamples := n } : Rec).fixed =
      (variant q dt n (pad ++ (data ++ zeros (tail.length - data.length)))).fixed := rfl
  have hfin : ∀ z, (variant q dt n (pad ++ (data ++ zeros (tail.length - data.length)))).fixed ++
      (chainBytes q.be 48 q.chain ++ (pad ++ (data ++ z))) =
      ((variant q dt n (pad ++ (data ++ zeros (tail.length - data.length)))).fixed ++
      (chainBytes q.be 48 q.chain ++ (pad ++ data))) ++ z := by
    intro z; simp only [List.append_assoc]
  have hres : (variant q dt n (pad ++ (data ++ zeros (tail.length - data.length)))).bytes =
      ((variant q dt n (pad ++ (data ++ zeros (tail.length - data.length)))).fixed ++
      (chainBytes q.be 48 q.chain ++ (pad ++ data))) ++ zeros (tail.length - data.length) := by
    unfold Rec.bytes
    simp only [List.append_assoc]
    rfl
  rw [e1, hfin, hres]
  have hk := fixed_length' _ (variant_shape s dt n (pad ++ (data ++ zeros (tail.length - data.length))))
  split
  · have p3 := poke_append' (a := (variant q dt n (pad ++ (data ++ zeros (tail.length - data.length)))).fixed ++
      (chainBytes q.be 48 q.chain ++ (pad ++ data))) (c := tail.drop data.length)
      (d := zeros (tail.length - data.length)) (by simp [zeros])
    rw [List.length_append, List.length_append, List.length_append, hk, ← Nat.add_assoc,
      ← Nat.add_assoc] at p3
    rw [show 48 + (chainBytes q.be 48 q.chain).length + pad.length + tail.length -
      (48 + (chainBytes q.be 48 q.chain).length + pad.length + data.length) =
      tail.length - data.length by omega]
    unfold zeros at p3 ⊢
    rw [p3]
    rw [List.drop_of_length_le (l := tail.drop data.length) (by simp), List.append_nil]
  · have : tail.length = data.length := by omega
    rw [List.drop_of_length_le (l := tail) (by omega), this, Nat.sub_self]
    rfl

theorem retime2 (h : Bool) (q : Rec) (s : Shape q) (hbe : q.be = true) (dt dt' : DateTime) (n : Nat)
    (rest : List UInt8) : pokes (variant q dt n rest).bytes (timeWrites2 h dt') =
      .ok (variant q dt' n rest).bytes := by
  have := poke_time2 h (variant q dt n rest) (variant_shape s dt n rest) hbe dt'
    (chainBytes q.be 48 q.chain ++ rest)
  unfold Rec.bytes
  simp only [List.append_assoc]
  exact this

/-! ## The loop -/

/-- A sequence of records holding the samples from `a` to `b`. -/
def Recs2 (start : Nat → Int) (h : Bool) (src : Samples) (enc max lim : Nat) (q : Rec)
    (pad : List UInt8) : Nat → List Rec → Nat → Prop
  | a, [], b => a = b
  | a, r :: rs, b =>
    (∃ dt data, nstime2time (start a) = some dt ∧
      r = variant q dt r.numsamples (pad ++ (data ++ zeros (max - data.length))) ∧
      r.numsamples ≤ 65535 ∧ lim < src.count - a ∧ a + r.numsamples ≤ src.count ∧
      packData h (!h) (dropSamples a src) max enc = .ok (data, r.numsamples)) ∧
    Recs2 start h src enc max lim q pad (a + r.numsamples) rs b

theorem loop2 (next : Nat → Out Int) (start : Nat → Int) (h : Bool) (src : Samples) (q : Rec)
    (s : Shape q) (hbe : q.be = true) (pad : List UInt8) (enc max maxs reclen off : Nat) (flush : Bool)
    (hoff : off = 48 + (chainBytes q.be 48 q.chain).length + pad.length) (hrl : reclen = off + max)
    (hcount : src.count < 2 ^ 32) (hrep : representable src enc)
    (hnext : ∀ k, k < src.count → (0 < k → next k = .ok (start k)) ∧
      ∃ dt, nstime2time (start k) = some dt) :
    ∀ fuel total dt n0 tail, src.count - total < fuel → total < src.count →
    nstime2time (start total) = some dt → tail.length = max →
    match packLoop2 next h src enc reclen maxs off flush fuel (variant q dt n0 (pad ++ tail)).bytes total with
    | .ok p => ∃ rs : List Rec, p.records = rs.map Rec.bytes ∧
        Recs2 start h src enc max (if flush then 0 else maxs) q pad total rs p.packed ∧
        p.packed ≤ src.count ∧
        ((p.ret = -1 ∧ p.packed < src.count ∧
            (packData h (!h) (dropSamples p.packed src) max enc = .err ∨
             ∃ d n, packData h (!h) (dropSamples p.packed src) max enc = .ok (d, n) ∧ 65535 < n)) ∨
         (p.ret = rs.length ∧ (flush = true → p.packed = src.count) ∧
           (p.packed = src.count ∨ src.count - p.packed ≤ maxs)))
    | .err => False
    | .ub => ∃ k, k < src.count ∧ packData h (!h) (dropSamples k src) max enc = .ub
    | .oob => False := by
  intro fuel
  induction fuel with
  | zero => intro total dt n0 tail hf; omega
  | succ fuel ih =>
    intro total dt n0 tail hf ht htime htail
    rw [packLoop2]
    by_cases hc : src.count - total > maxs ∨ flush = true
    · rw [if_pos hc, packRound2]
      have hcnt := drop_count total src
      have hrep' := drop_representable total src _ hrep
      rw [passed_eq _ (by omega), show reclen - off = max by omega]
      cases hp : packData h (!h) (dropSamples total src) max enc with
      | err =>
        exact ⟨[], rfl, rfl, by simp only; omega, Or.inl ⟨rfl, ht, Or.inl hp⟩⟩
      | ub => exact ⟨total, ht, hp⟩
      | oob => exact absurd hp (packData_ne_oob _ _ _ _ _ hrep' (by omega))
      | ok v =>
        obtain ⟨data, n⟩ := v
        have hst := stored h (!h) _ max enc data n hrep' (by omega) hp
        have hn1 := hst.pos
        have hn2 := hst.le
        have hroom := hst.room
        simp only
        by_cases hbig : n > 65535
        · rw [if_pos hbig]
          exact ⟨[], rfl, rfl, by simp only; omega, Or.inl ⟨rfl, ht, Or.inr ⟨data, n, hp, hbig⟩⟩⟩
        rw [if_neg hbig]
        have hfin := finishRecord2_eq h q s hbe dt n0 n pad tail data (by omega)
        rw [← hoff, htail, ← hrl] at hfin
        rw [hfin, bind_ok]
        have hone : ∀ rs b, Recs2 start h src enc max (if flush then 0 else maxs) q pad (total + n) rs b →
            Recs2 start h src enc max (if flush then 0 else maxs) q pad total
              (variant q dt n (pad ++ (data ++ zeros (max - data.length))) :: rs) b := by
          intro rs b hrs
          refine ⟨⟨dt, data, htime, rfl, by show n ≤ 65535; omega, ?_, by show total + n ≤ _; omega, hp⟩, hrs⟩
          rcases hc with hc | hc
          · split <;> omega
          · rw [hc, if_pos rfl]; omega
        by_cases hdone : total + n ≥ src.count
        · rw [if_pos hdone]
          have hfin : total + n = src.count := by omega
          refine ⟨[variant q dt n (pad ++ (data ++ zeros (max - data.length)))], rfl,
            hone [] _ rfl, Nat.le_of_eq hfin, Or.inr ⟨rfl, fun _ => hfin, Or.inl hfin⟩⟩
        · rw [if_neg hdone]
          obtain ⟨g1, dt', g2⟩ := hnext (total + n) (by omega)
          rw [g1 (by omega), ofOut, bind_ok, g2]
          simp only
          rw [retime2 h q s hbe dt dt' n, bind_ok, bind_ok]
          simp only
          have hrec := ih (total + n) dt' n (data ++ zeros (max - data.length)) (by omega)
            (by omega) g2 (by simp [zeros]; omega)
          revert hrec
          generalize packLoop2 next h src enc reclen maxs off flush fuel _ (total + n) = out
          intro hrec
          cases out with
          | err => exact hrec
          | oob => exact hrec
          | ub => exact hrec
          | ok p =>
            simp only [bind_ok] at hrec ⊢
            obtain ⟨rs, r1, r2, r3, r4⟩ := hrec
            refine ⟨_ :: rs, ?_, hone rs _ r2, r3, ?_⟩
            · simp [Packing.after, r1]
            · rcases r4 with ⟨a, b, c⟩ | ⟨a, b, c⟩
              · left
                refine ⟨?_, b, c⟩
                simp only [Packing.after, a]; rfl
              · right
                refine ⟨?_, b, c⟩
                simp only [Packing.after, a, List.length_cons]
                rw [if_neg (by omega)]; omega
    · rw [if_neg hc]
      refine ⟨[], rfl, rfl, by simp only; omega, Or.inr ⟨rfl, ?_, ?_⟩⟩
      · intro hf; exact absurd (Or.inr hf) hc
      · right
        simp only
        omega

end Verif.Proof.Pack2
