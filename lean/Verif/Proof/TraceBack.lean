import Verif.Props.TraceBackDefs
import Verif.Proof.ReadTrace
import Verif.Proof.TracePack
import Verif.Props.TraceRuns
/-!
# Lemmas on writing and reading trace lists
-/
namespace Verif.Proof.TraceBack
open Verif.Model Verif.Model.Steim Verif.Model.Samples Verif.Model.Record3 Verif.Model.TracePack
  Verif.Model.Reader
open Verif.Model.ReadTrace
open Verif.Model.Trace (Seg Source Arrival)
open Verif.Model.TraceList (TraceList)
open Verif.Spec (Rounding)
open Verif.Spec.Leap (HasPeriod)
open Verif.Props.Pack (Reads timeOf)
open Verif.Props.TracePack Verif.Props.Trace Verif.Props.TraceList Verif.Props.SampleTime Verif.Props.ReadTrace
  Verif.Props.TraceRuns Verif.Props.TraceBack
open Verif.Proof.Mem Verif.Proof.Reader Verif.Proof.ReadTrace Verif.Proof.TracePack Verif.Proof.TraceRuns

/-! ## Records -/

theorem unpackData_bounds {h : Bool} {align : Nat} {m : Msr} {mem : List UInt8} {s : Samples}
    (hc : m.samplecnt > 0) (e : unpackData h align m mem = .ok s) :
    40 < m.reclen ∧ ∃ q, dataBounds h m mem = .ok q := by
  unfold unpackData at e
  rw [if_neg (by omega)] at e
  split at e
  · cases e
  split at e
  · cases e
  rw [bind_eq_ok] at e
  obtain ⟨⟨off, size⟩, hd, e⟩ := e
  simp only at e
  split at e
  · cases e
  exact ⟨by omega, _, hd⟩

theorem withSamples_bounds {h : Bool} {align : Nat} {m m' : Msr} {mem : List UInt8}
    (e : withSamples h align mem m true = .ok (.record m')) (hc : m'.samplecnt > 0) (he : 0 ≤ m.encoding) :
    40 < m'.reclen ∧ ∃ q, dataBounds h m' mem = .ok q := by
  unfold withSamples at e
  split at e
  · split at e
    · rename_i hs _ s hd
      injection e with e
      injection e with e
      have ha : assumed m.encoding = m.encoding := if_neg (by omega)
      rw [ha] at e
      subst e
      exact unpackData_bounds hs.2 hd
    · injection e with e; cases e
    · cases e
    · cases e
  · rename_i hs
    injection e with e
    injection e with e
    subst e
    exact absurd ⟨rfl, hc⟩ hs

theorem unpackFields_bounds {h : Bool} {align : Nat} {mem : List UInt8} {reclen : Int} {sl : Nat} {m : Msr}
    (e : unpackFields h align mem reclen sl true = .ok (.record m)) (hc : m.samplecnt > 0) :
    40 < m.reclen ∧ ∃ q, dataBounds h m mem = .ok q := by
  unfold unpackFields at e
  iterate 10
    rw [bind_eq_ok] at e
    obtain ⟨_, -, e⟩ := e
  split at e
  · injection e with e; cases e
  iterate 8
    rw [bind_eq_ok] at e
    obtain ⟨_, -, e⟩ := e
  exact withSamples_bounds e hc (Int.natCast_nonneg _)

theorem unpack3_bounds {h : Bool} {align : Nat} {mem mem' : List UInt8} {reclen : Int} {vc : Bool} {m : Msr}
    (e : unpack3 h align mem reclen vc true = .ok (.record m, mem')) (hc : m.samplecnt > 0) :
    40 < reclen ∧ ∃ q, dataBounds h m mem' = .ok q := by
  have hl := unpack3_reclen e
  unfold unpack3 at e
  split at e
  · injection e with e; cases e
  rw [bind_eq_ok] at e
  obtain ⟨_, -, e⟩ := e
  split at e
  · injection e with e; cases e
  rw [bind_eq_ok] at e
  obtain ⟨_, -, e⟩ := e
  split at e
  · rw [bind_eq_ok] at e
    obtain ⟨_, -, e⟩ := e
    injection e with e; cases e
  rw [bind_eq_ok] at e
  obtain ⟨⟨g, mm⟩, -, e⟩ := e
  simp only at e
  split at e
  · rw [bind_eq_ok] at e
    obtain ⟨_, -, e⟩ := e
    injection e with e; cases e
  · rw [bind_eq_ok] at e
    obtain ⟨p, hp, e⟩ := e
    injection e with e; injection e with e1 e2
    rw [e1] at hp
    subst e2
    have := unpackFields_bounds hp hc
    rw [hl] at this
    exact this

/-- A record with samples that can be read is one in a buffer. -/
theorem item_reads (env : Record2.Env) (base : Nat) (skip : Bool) {b : List UInt8} {Q : Msr → Prop}
    (hQ : ∀ m, Q m → m.samplecnt > 0) (hr : Reads b Q) :
    ∃ m, Q m ∧ 40 < b.length ∧ Good (opts env false base true true skip none) 1 b m m ∧ Bounded false b m := by
  obtain ⟨m, hq, hm⟩ := hr false
  have hb : ∀ t, 40 < (b.length : Int) ∧ ∃ q, dataBounds false m (b ++ t) = .ok q := fun t =>
    unpack3_bounds (hm 0 t).1 (hQ m hq)
  obtain ⟨m1, hq1, hg⟩ := good_reads env base skip hr
  have e1 := hg.parse 0 [] false
  have e2 := (hm (base + 0) []).2 rfl (Record2.unpack2 env false (base + 0)) false
  have he : m1 = m := by
    rw [show (opts env false base true true skip none).parse 0 (b ++ [])
      ((opts env false base true true skip none).unpackdata &&
        (opts env false base true true skip none).select.isNone) false = _ from e2] at e1
    injection e1 with e1
    injection e1 with e1
    injection e1 with e1
    exact e1.symm
  subst he
  exact ⟨m1, hq, by have := (hb []).1; omega, hg, fun t => (hb t).2⟩

theorem good_zero {o : Opts} {b : List UInt8} {m m' : Msr} (g : Good o 1 b m m') : Good o 0 b m m' :=
  ⟨g.low, g.high, Or.inl rfl, g.reclen, g.reclen', g.parse, g.deliver,
   fun _ k h _ hk => by rw [Nat.zero_dvd] at hk; omega⟩

/-! ## What is added -/

theorem half_tolerance {rnd : Rat → Rat} (hr : Rounding rnd) (p : Int) (h0 : 0 ≤ p) (h1 : p ≤ 2 ^ 52) :
    SampleTime.toInt64 (rnd (1 / 2 * rnd p)) = .ok (p / 2) := by
  rw [hr.exact p (by omega) (by omega)]
  have hlo := hr.mono (((p / 2 : Int) : Int) : Rat) (1 / 2 * (p : Rat)) (by
    have : (((p / 2 : Int) : Int) : Rat) * 2 ≤ (p : Rat) := by exact_mod_cast (by omega : p / 2 * 2 ≤ p)
    grind)
  rw [hr.exact (p / 2) (by omega) (by omega)] at hlo
  have hx0 : (0 : Rat) ≤ (p : Rat) := by exact_mod_cast h0
  have hx1 : (p : Rat) ≤ ((4503599627370496 : Int) : Rat) := Rat.intCast_le_intCast.2 h1
  have hhi := (hr.near (1 / 2 * (p : Rat)) (by grind)).2
  have hup : (p : Rat) ≤ ((p / 2 : Int) : Rat) * 2 + 1 := by exact_mod_cast (by omega : p ≤ p / 2 * 2 + 1)
  have hq0 : (0 : Rat) ≤ ((p / 2 : Int) : Rat) := by exact_mod_cast (by omega : 0 ≤ p / 2)
  generalize rnd (1 / 2 * (p : Rat)) = y at *
  have hy : ¬ y < 0 := by grind
  have hf : y.floor = p / 2 := by
    have h1 : p / 2 ≤ y.floor := Rat.le_floor_iff.2 hlo
    have h2 : y.floor < p / 2 + 1 := by
      rw [Rat.floor_lt_iff]
      have : (((p / 2 + 1 : Int) : Int) : Rat) = ((p / 2 : Int) : Rat) + 1 := by simp
      rw [this]
      grind
    omega
  unfold SampleTime.toInt64
  simp only
  rw [if_neg hy, hf, if_pos]
  unfold fitsInt64
  rw [decide_eq_true_eq]
  omega

theorem takeWhile_all {l : List UInt8} (h : ∀ b ∈ l, b ≠ 0) : l.takeWhile (· ≠ 0) = l := by
  have := List.takeWhile_append_of_pos (p := fun b : UInt8 => decide (b ≠ 0)) (l₁ := l) (l₂ := [])
    (fun b hb => by simpa using h b hb)
  simpa using this

theorem count_typed {ty : Char} (v : List Int) : (typed ty v).count = v.length := by
  unfold typed
  split
  · simp [Samples.count]
  split
  · rfl
  split
  · simp [Samples.count]
  · simp [Samples.count]

theorem typed_typed {ty : Char} (hk : Known ty) {v : List Int} (hv : v ≠ []) : Typed (typed ty v) ty := by
  unfold Typed
  rw [count_typed, if_neg (by intro h; exact hv (List.eq_nil_of_length_eq_zero h))]
  rcases hk with rfl | rfl | rfl | rfl <;> rfl

theorem toNat_map {v : List Int} (h : ∀ x ∈ v, 0 ≤ x) :
    v = (v.map Int.toNat).map fun n => ((n : Nat) : Int) := by
  rw [List.map_map]
  conv => lhs; rw [← List.map_id v]
  refine List.map_congr_left fun x hx => ?_
  have := h x hx
  simp only [id, Function.comp_apply]
  omega

theorem values_typed {ty : Char} (hk : Known ty) {v : List Int} (hv : ∀ x ∈ v, HasValue ty x) :
    Values (typed ty v) v := by
  rcases hk with rfl | rfl | rfl | rfl
  · show v = (v.map fun x => UInt8.ofNat x.toNat).map fun x => ((x.toNat : Nat) : Int)
    rw [List.map_map]
    conv => lhs; rw [← List.map_id v]
    refine List.map_congr_left fun x hx => ?_
    have := (hv x hx).1 rfl
    simp only [id, Function.comp_apply, UInt8.toNat_ofNat']
    omega
  · rfl
  · exact toNat_map fun x hx => (hv x hx).2 (Or.inl rfl)
  · exact toNat_map fun x hx => (hv x hx).2 (Or.inr rfl)

/-- The rate read. -/
def hz (c : Packers) (ad : Adding) (bits : Nat) : Rat :=
  if ad.rate (storedRate c.negRecip bits) < 0
    then ad.rnd (-1 / ad.rate (storedRate c.negRecip bits)) else ad.rate (storedRate c.negRecip bits)

/-- What is added of the record with the samples `off` to `off + n - 1` of a segment. -/
def arr (c : Packers) (ad : Adding) (tr : Trace) (p : Nat) (s : Seg Nat) (off n : Nat) : Arrival Rat :=
  { sid := tr.sid, pub := tr.pub, start := s.start + (off : Int) * p,
    stop := s.start + ((off : Int) + n - 1) * p, period := p, tol := (p : Int) / 2, rate := hz c ad s.rate,
    samplecnt := n, sampletype := s.sampletype, data := (s.data.drop off).take n }

section
variable {c : Packers} {ad : Adding} {reclen encoding : Int} {extra : List UInt8} {tr : Trace} {p : Nat} {s : Seg Nat}

theorem none_between {leaps : List SampleTime.Leap} {a b a' b' : Int} (h : NonePassed leaps a b) (h1 : a ≤ a')
    (h2 : b' ≤ b) : NonePassed leaps a' b' := by
  intro l hl hc
  exact h l hl ⟨by omega, by omega⟩

theorem mul_le {k n : Int} {p : Nat} (h : k ≤ n) : k * p ≤ n * p := Int.mul_le_mul_of_nonneg_right h (by omega)

/-- The time of a sample of the segment. -/
theorem time_exact (hr : Rounding ad.rnd) (reg : Regular c ad p s)
    (pk : Packable3 c (recordOf reclen encoding extra tr.sid tr.pub s)) (off k : Nat)
    (hk : off + k < s.data.length) (rate : Rat) (hrate : HasPeriod p rate) :
    SampleTime.sampletime ad.rnd ad.leaps (s.start + (off : Int) * p) k rate =
      .ok (s.start + ((off : Int) + k) * p) := by
  have hstop := reg.stop
  have hlate := reg.late
  have hp := reg.positive
  have h1 : ((k : Nat) : Int) * p ≤ (s.data.length : Int) * p := mul_le (by omega)
  have h2 : ((off : Int) + k) * p ≤ ((s.data.length : Int) - 1) * p := mul_le (by omega)
  have h3 : (0 : Int) ≤ (off : Int) * p := Int.mul_nonneg (by omega) (by omega)
  have h4 : ((off : Int) + k) * p = (off : Int) * p + (k : Int) * p := Int.add_mul ..
  have hshort : ((s.data.length : Int)) * p ≤ 2 ^ 49 := by
    have := reg.short
    exact_mod_cast this
  have hstart : -9214560000000000000 ≤ s.start := by
    have := pk.packable.time1678
    have e : (Spec.Fields.mk 1678 1 0 0 0 0).instant = -9214560000000000000 := by decide +kernel
    rw [e] at this
    exact this
  have := C09_exact hr ad.leaps (s.start + (off : Int) * p) k p rate hp hrate (by omega) (by omega)
    (by omega) (none_between reg.leaps (by omega) (by omega))
  rw [this]
  congr 1
  omega

/-- What is added of a record of the segment. -/
theorem describe_record (hr : Rounding ad.rnd) (ht : ad.timetol = none) (reg : Regular c ad p s)
    (hk : Known s.sampletype)
    (pk : Packable3 c (recordOf reclen encoding extra tr.sid tr.pub s)) (off n : Nat) (hn : 1 ≤ n)
    (hoff : off + n ≤ s.data.length) {m : Msr}
    (h1 : m.samples = typed s.sampletype ((s.data.drop off).take n)) (h2 : m.samplecnt = n)
    (h3 : Tells3 c (recordOf reclen encoding extra tr.sid tr.pub s) off m) :
    Describes ad m (arr c ad tr p s off n) := by
  obtain ⟨t1, t2, -, t4, t5⟩ := h3
  have hp := reg.positive
  have hlen : (recordOf reclen encoding extra tr.sid tr.pub s).samples.count = s.data.length := count_typed _
  have hstart : m.starttime = s.start + (off : Int) * p := by
    unfold timeOf at t5
    split at t5
    · rename_i h0
      subst h0
      have := Out.ok.inj t5
      rw [← this]
      show s.start = _
      simp
    · have e := time_exact hr reg pk 0 off (by omega) _ reg.rate
      have hz : s.start + ((0 : Nat) : Int) * (p : Int) = s.start := by simp
      rw [hz, ← reg.times off] at e
      have t5' : c.sampletime s.start off s.rate = .ok m.starttime := t5
      rw [t5'] at e
      have := Out.ok.inj e
      rw [this]
      simp
  have hshort : (p : Int) ≤ 2 ^ 49 := by
    have h := reg.short
    have h' : 1 * p ≤ s.data.length * p := Nat.mul_le_mul_right p (by omega)
    have : p ≤ 2 ^ 49 := by omega
    exact_mod_cast this
  constructor
  · rw [t1]
    exact (takeWhile_all pk.packable.sidText).symm
  · exact t2.symm
  · exact hstart.symm
  · rw [(C09_end hr ad.leaps m.starttime m.samplecnt _).1 (by omega), hstart, h2, t4]
    have := time_exact hr reg pk off (n - 1) (by omega) _ reg.stored
    rw [show ((n - 1 : Nat) : Int) = (n : Int) - 1 by omega] at this
    rw [show (ad.rate (storedRate c.negRecip (recordOf reclen encoding extra tr.sid tr.pub s).samprate)) =
      ad.rate (storedRate c.negRecip s.rate) from rfl, this]
    show Out.ok _ = Out.ok (s.start + ((off : Int) + n - 1) * p)
    congr 2
    congr 1
    omega
  · show s.start + ((off : Int) + n - 1) * p ≠ NSTERROR
    by_cases h0 : off + n - 1 = 0
    · have : ((off : Int) + n - 1) = 0 := by omega
      rw [this]
      have := pk.packable.noError
      have hh : s.start ≠ NSTERROR := this
      simpa using hh
    · obtain ⟨t, e1, e2⟩ := (pk.input (by rw [hlen]; omega)).times (off + n - 1) (by omega)
        (by rw [hlen]; omega)
      have e1' : c.sampletime s.start (off + n - 1) s.rate = .ok t := e1
      have e := time_exact hr reg pk 0 (off + n - 1) (by omega) _ reg.rate
      have hz : s.start + ((0 : Nat) : Int) * (p : Int) = s.start := by simp
      rw [hz, ← reg.times (off + n - 1), e1'] at e
      have := Out.ok.inj e
      have e2 := e2.noError
      rw [this] at e2
      rw [show ((off : Int) + n - 1) = (((0 : Nat) : Int) + ((off + n - 1 : Nat) : Int)) by omega]
      exact e2
  · rw [t4]
    exact C09_period hr p _ hp (by exact_mod_cast hshort) reg.stored
  · rw [ht]
    exact half_tolerance hr p (by omega) (by omega)
  · rw [t4]; rfl
  · exact h2.symm
  · rw [h1]
    refine typed_typed hk fun h => ?_
    have := congrArg List.length h
    rw [List.length_take, List.length_drop, List.length_nil] at this
    omega
  · rw [h1]
    exact values_typed hk fun x hx => reg.values x (List.mem_of_mem_drop (List.mem_of_mem_take hx))

/-- What is added of the records with `ns` samples each. -/
def arrs (c : Packers) (ad : Adding) (tr : Trace) (p : Nat) (s : Seg Nat) : Nat → List Nat → List (Arrival Rat)
  | _, [] => []
  | off, n :: ns => arr c ad tr p s off n :: arrs c ad tr p s (off + n) ns

/-- The records of a segment. -/
structure Group (c : Packers) (ad : Adding) (tr : Trace) (p : Nat) (s : Seg Nat) (as : List (Arrival Rat)) : Prop where
  start : as.head?.map Arrival.start = some s.start
  stop : as.getLast?.map Arrival.stop = some s.stop
  samplecnt : (as.map Arrival.samplecnt).sum = s.samplecnt
  data : as.flatMap Arrival.data = s.data
  each : ∀ a ∈ as, a.sid = tr.sid ∧ a.pub = tr.pub ∧ a.rate = hz c ad s.rate ∧
    Uniform p ((p : Int) / 2) s.sampletype a
  follow : Adjacent (fun a b : Arrival Rat => b.start = a.stop + p) as

theorem arrs_facts (hk : Known s.sampletype) (hp : 1 ≤ p) (off : Nat) (ns : List Nat) (h1 : ∀ n ∈ ns, 1 ≤ n) :
    (ns ≠ [] → (arrs c ad tr p s off ns).head?.map Arrival.start = some (s.start + (off : Int) * p) ∧
      (arrs c ad tr p s off ns).getLast?.map Arrival.stop = some (s.start + ((off : Int) + ns.sum - 1) * p)) ∧
    ((arrs c ad tr p s off ns).map Arrival.samplecnt).sum = ns.sum ∧
    (arrs c ad tr p s off ns).flatMap Arrival.data = (s.data.drop off).take ns.sum ∧
    (∀ a ∈ arrs c ad tr p s off ns, a.sid = tr.sid ∧ a.pub = tr.pub ∧ a.rate = hz c ad s.rate ∧
      Uniform p ((p : Int) / 2) s.sampletype a) ∧
    Adjacent (fun a b : Arrival Rat => b.start = a.stop + p) (arrs c ad tr p s off ns) := by
  induction ns generalizing off with
  | nil => exact ⟨fun h => absurd rfl h, rfl, by simp [arrs], by simp [arrs], trivial⟩
  | cons n ns ih =>
    obtain ⟨i1, i2, i3, i4, i5⟩ := ih (off + n) fun x hx => h1 x (by simp [hx])
    have hn := h1 n (by simp)
    refine ⟨fun _ => ⟨rfl, ?_⟩, ?_, ?_, ?_, ?_⟩
    · cases ns with
      | nil => simp [arrs, arr]
      | cons n' ns =>
        have := (i1 (by simp)).2
        rw [show arrs c ad tr p s off (n :: n' :: ns) = arr c ad tr p s off n ::
          arr c ad tr p s (off + n) n' :: arrs c ad tr p s (off + n + n') ns from rfl, List.getLast?_cons_cons]
        rw [show arrs c ad tr p s (off + n) (n' :: ns) = arr c ad tr p s (off + n) n' ::
          arrs c ad tr p s (off + n + n') ns from rfl] at this
        rw [this]
        congr 3
        simp only [List.sum_cons]
        omega
    · simp only [arrs, List.map_cons, List.sum_cons, i2, arr]
      omega
    · simp only [arrs, List.flatMap_cons, i3, arr, List.sum_cons]
      rw [← List.drop_drop, List.take_add]
    · intro a ha
      rcases List.mem_cons.1 ha with rfl | ha
      · refine ⟨rfl, rfl, rfl, ?_, rfl, rfl, rfl, Or.inr ?_⟩
        · show s.start + (off : Int) * p ≤ s.start + ((off : Int) + n - 1) * p
          have : (off : Int) * p ≤ ((off : Int) + n - 1) * p := mul_le (by omega)
          omega
        · rcases hk with h | h | h | h <;> rw [h] <;> decide
      · exact i4 a ha
    · cases ns with
      | nil => trivial
      | cons n' ns =>
        refine ⟨?_, i5⟩
        show s.start + ((off + n : Nat) : Int) * p = s.start + ((off : Int) + n - 1) * p + p
        rw [show ((off + n : Nat) : Int) = ((off : Int) + n - 1) + 1 by omega, Int.add_mul ((off : Int) + n - 1)]
        omega

theorem group_of (hk : Known s.sampletype) (reg : Regular c ad p s) (ns : List Nat) (h1 : ∀ n ∈ ns, 1 ≤ n)
    (hd : s.data ≠ []) (hs : ns.sum = s.data.length) : Group c ad tr p s (arrs c ad tr p s 0 ns) := by
  obtain ⟨i1, i2, i3, i4, i5⟩ := arrs_facts (c := c) (ad := ad) (tr := tr) hk reg.positive 0 ns h1
  have hne : ns ≠ [] := by
    rintro rfl
    exact hd (List.eq_nil_of_length_eq_zero hs.symm)
  refine ⟨?_, ?_, ?_, ?_, i4, i5⟩
  · rw [(i1 hne).1]; simp
  · rw [(i1 hne).2, reg.stop, hs]; simp
  · rw [i2, hs, reg.count]
  · rw [i3, hs]; simp

/-- The items in a buffer, all records of it being asked for. -/
structure InBuffer (ad : Adding) (o : Opts) (rs : List (List UInt8)) (its : List Item)
    (as : List (Arrival Rat)) : Prop where
  bytes : cat its = rs.flatten
  count : its.length = rs.length
  fine : ∀ i ∈ its, i.j = [] ∧ 40 < i.b.length ∧ Good o 1 i.b i.m i.m' ∧ Bounded false i.b i.m'
  adds : Each (Describes ad) (its.map (·.m')) as

theorem inBuffer_append {o : Opts} {rs rs' : List (List UInt8)} {its its' : List Item} {as as' : List (Arrival Rat)}
    (h : InBuffer ad o rs its as) (h' : InBuffer ad o rs' its' as') :
    InBuffer ad o (rs ++ rs') (its ++ its') (as ++ as') := by
  refine ⟨?_, ?_, ?_, ?_⟩
  · rw [List.flatten_append, ← h.bytes, ← h'.bytes]
    simp [cat]
  · simp [h.count, h'.count]
  · intro i hi
    rcases List.mem_append.1 hi with hi | hi
    · exact h.fine i hi
    · exact h'.fine i hi
  · rw [List.map_append]
    exact each_append h.adds h'.adds

/-- The records of a segment in a buffer. -/
theorem carried (env : Record2.Env) (base : Nat) (skip : Bool) (hr : Rounding ad.rnd) (ht : ad.timetol = none)
    (reg : Regular c ad p s) (hk : Known s.sampletype)
    (pk : Packable3 c (recordOf reclen encoding extra tr.sid tr.pub s)) (rs : List (List UInt8)) :
    ∀ off, off ≤ s.data.length →
    Carries Reads s.sampletype (Tells3 c (recordOf reclen encoding extra tr.sid tr.pub s)) off rs (s.data.drop off) →
    ∃ ns its, (∀ n ∈ ns, 1 ≤ n) ∧ off + ns.sum = s.data.length ∧
      InBuffer ad (opts env false base true true skip none) rs its (arrs c ad tr p s off ns) := by
  induction rs with
  | nil =>
    intro off hoff h
    have h : s.data.drop off = [] := h
    refine ⟨[], [], by simp, ?_, rfl, rfl, by simp, trivial⟩
    have := congrArg List.length h
    simp only [List.length_drop, List.length_nil] at this
    simp only [List.sum_nil]
    omega
  | cons r rs ih =>
    intro off hoff h
    obtain ⟨n, hn, hle, hread, hrest⟩ := h
    rw [List.length_drop] at hle
    rw [List.drop_drop] at hrest
    obtain ⟨ns, its, h1, h2, h3⟩ := ih (off + n) (by omega) hrest
    obtain ⟨m, ⟨q1, q2, q3⟩, hlen, hg, hb⟩ := item_reads env base skip
      (fun m hm => by have := hm.2.1; omega) hread
    refine ⟨n :: ns, ⟨[], r, m, m⟩ :: its, ?_, ?_, ?_⟩
    · intro x hx
      rcases List.mem_cons.1 hx with rfl | hx
      · exact hn
      · exact h1 x hx
    · simp only [List.sum_cons]; omega
    · refine ⟨?_, by simp [h3.count], ?_, describe_record hr ht reg hk pk off n hn (by omega) q1 q2 q3, h3.adds⟩
      · rw [cat_cons, h3.bytes]; rfl
      · intro i hi
        rcases List.mem_cons.1 hi with rfl | hi
        · exact ⟨rfl, hlen, hg, hb⟩
        · exact h3.fine i hi

/-- The records of a source. -/
theorem source_back (env : Record2.Env) (base : Nat) (skip : Bool) (hr : Rounding ad.rnd) (ht : ad.timetol = none) :
    ∀ (segs : List (Seg Nat)) (gs : List (List (List UInt8))), (∀ s ∈ segs, Known s.sampletype ∧ s.data ≠ [] ∧
      Packable3 c (recordOf reclen encoding extra tr.sid tr.pub s) ∧ Regular c ad p s) →
    Each (fun s g => Carries Reads s.sampletype (Tells3 c (recordOf reclen encoding extra tr.sid tr.pub s)) 0 g s.data)
      segs gs →
    ∃ its ass, InBuffer ad (opts env false base true true skip none) gs.flatten its ass.flatten ∧
      Each (Group c ad tr p) segs ass
  | [], [], _, _ => ⟨[], [], ⟨rfl, rfl, by simp, trivial⟩, trivial⟩
  | [], _ :: _, _, h => h.elim
  | _ :: _, [], _, h => h.elim
  | s :: segs, g :: gs, hs, h => by
    obtain ⟨its, ass, h1, h2⟩ := source_back env base skip hr ht segs gs (fun s hs' => hs s (by simp [hs'])) h.2
    obtain ⟨k1, k2, k3, k4⟩ := hs s (by simp)
    obtain ⟨ns, its1, n1, n2, n3⟩ := carried env base skip hr ht k4 k1 k3 g 0 (by omega) (by simpa using h.1)
    refine ⟨its1 ++ its, arrs c ad tr p s 0 ns :: ass, ?_, group_of k1 k4 ns n1 k2 (by omega), h2⟩
    rw [List.flatten_cons, List.flatten_cons]
    exact inBuffer_append n3 h1

end

/-- The records of a list. -/
theorem list_back {c : Packers} {ad : Adding} {reclen encoding : Int} {extra : List UInt8} {split : Bool}
    {T : List UInt8 → Char} (env : Record2.Env) (base : Nat) (skip : Bool) (hr : Rounding ad.rnd)
    (ht : ad.timetol = none) :
    ∀ (traces : List Trace) (gss : List (List (List (List UInt8)))),
    (∀ tr ∈ traces, Written c ad split reclen encoding extra T tr) →
    Each (fun (tr : Trace) gs => Each (fun s g => Carries Reads s.sampletype
        (Tells3 c (recordOf reclen encoding extra tr.sid tr.pub s)) 0 g s.data) tr.segs gs) traces gss →
    ∃ its asss, InBuffer ad (opts env false base true true skip none) gss.flatten.flatten its asss.flatten.flatten ∧
      Each (fun tr ass => ∃ p : Nat, Each (Group c ad tr p) tr.segs ass ∧
        Adjacent (fun s t : Seg Nat => s.stop + (p : Int) + (p : Int) / 2 < t.start) tr.segs ∧
        ∀ s ∈ tr.segs, Regular c ad p s) traces asss
  | [], [], _, _ => ⟨[], [], ⟨rfl, rfl, by simp, trivial⟩, trivial⟩
  | [], _ :: _, _, h => h.elim
  | _ :: _, [], _, h => h.elim
  | tr :: traces, gs :: gss, hw, h => by
    obtain ⟨its, asss, h1, h2⟩ := list_back env base skip hr ht traces gss (fun s hs' => hw s (by simp [hs'])) h.2
    have w := hw tr (by simp)
    obtain ⟨p, r1, r2⟩ := w.regular
    obtain ⟨its1, ass, n1, n2⟩ := source_back env base skip hr ht tr.segs gs
      (fun s hs => ⟨(w.packed s hs).1, (w.packed s hs).2.1, (w.packed s hs).2.2.1, r1 s hs⟩) h.1
    refine ⟨its1 ++ its, ass :: asss, ?_, ⟨p, n2, r2, r1⟩, h2⟩
    rw [List.flatten_cons, List.flatten_cons, List.flatten_append, List.flatten_append]
    exact inBuffer_append n1 h1

/-! ## Runs -/

section
variable {P B : Int}

theorem runs_chain (hB : 0 ≤ B) (gs : List (List (Arrival Rat))) (as : List (Arrival Rat)) :
    ∀ g a, Runs P B (gs ++ [g ++ [a]]) → Adjacent (fun a b : Arrival Rat => b.start = a.stop + P) (a :: as) →
    Runs P B (gs ++ [g ++ a :: as]) := by
  induction as with
  | nil => intro g a h _; exact h
  | cons x as ih =>
    intro g a h ha
    have hx := ha.1
    have := ih (g ++ [a]) x (by
      have := Runs.near gs g a x h (by omega) (by omega)
      simpa using this) ha.2
    simpa using this

/-- The second group begins more than the tolerance after the first. -/
def FarGroups (P B : Int) (g h : List (Arrival Rat)) : Prop :=
  ∀ a x, g.getLast? = some a → h.head? = some x → B < x.start - (a.stop + P)

theorem runs_groups (hB : 0 ≤ B) (hs : List (List (Arrival Rat))) :
    ∀ gs g, g ≠ [] → Runs P B (gs ++ [g]) →
    (∀ h ∈ hs, h ≠ [] ∧ Adjacent (fun a b : Arrival Rat => b.start = a.stop + P) h) →
    Adjacent (FarGroups P B) (g :: hs) → Runs P B (gs ++ g :: hs) := by
  induction hs with
  | nil => intro gs g _ h _ _; exact h
  | cons h hs ih =>
    intro gs g hg hrun hh hfar
    obtain ⟨h1, h2⟩ := hh h (by simp)
    obtain ⟨x, t, rfl⟩ : ∃ x t, h = x :: t := by
      cases h with
      | nil => exact absurd rfl h1
      | cons x t => exact ⟨x, t, rfl⟩
    obtain ⟨g', a, rfl⟩ : ∃ g' a, g = g' ++ [a] := ⟨g.dropLast, g.getLast hg, (List.dropLast_concat_getLast hg).symm⟩
    have hx := hfar.1 a x (by simp) (by simp)
    have r1 := Runs.far gs g' a x hrun hx
    have r2 := runs_chain hB (gs ++ [g' ++ [a]]) t [] x (by simpa using r1) h2
    have := ih (gs ++ [g' ++ [a]]) (x :: t) (by simp) (by simpa using r2) (fun y hy => hh y (by simp [hy])) hfar.2
    simpa using this

end

theorem group_ne {c : Packers} {ad : Adding} {tr : Trace} {p : Nat} {s : Seg Nat} {g : List (Arrival Rat)}
    (h : Group c ad tr p s g) : g ≠ [] := by
  rintro rfl
  have := h.start
  cases this

theorem far_groups {c : Packers} {ad : Adding} {tr : Trace} {p : Nat} :
    ∀ (segs : List (Seg Nat)) (ass : List (List (Arrival Rat))), Each (Group c ad tr p) segs ass →
    Adjacent (fun s t : Seg Nat => s.stop + (p : Int) + (p : Int) / 2 < t.start) segs →
    Adjacent (FarGroups p ((p : Int) / 2)) ass
  | [], [], _, _ => trivial
  | [], _ :: _, h, _ => h.elim
  | _ :: _, [], h, _ => h.elim
  | [_], [_], _, _ => trivial
  | [_], _ :: _ :: _, h, _ => h.2.elim
  | _ :: _ :: _, [_], h, _ => h.2.elim
  | s :: t :: segs, g :: h :: ass, hg, ha => by
    refine ⟨?_, far_groups (t :: segs) (h :: ass) hg.2 ha.2⟩
    intro a x e1 e2
    have h1 := hg.1.stop
    have h2 := hg.2.1.start
    rw [e1] at h1
    rw [e2] at h2
    have h1 : a.stop = s.stop := Option.some.inj h1
    have h2 : x.start = t.start := Option.some.inj h2
    have := ha.1
    omega

theorem each_mem {α β : Type} {P : α → β → Prop} : ∀ {as : List α} {bs : List β}, Each P as bs →
    ∀ b ∈ bs, ∃ a ∈ as, P a b
  | [], [], _ => by simp
  | [], _ :: _, h => h.elim
  | _ :: _, [], h => h.elim
  | a :: as, b :: bs, h => by
    intro x hx
    rcases List.mem_cons.1 hx with rfl | hx
    · exact ⟨a, by simp, h.1⟩
    · obtain ⟨y, hy, hp⟩ := each_mem h.2 x hx
      exact ⟨y, by simp [hy], hp⟩

theorem each_mem_left {α β : Type} {P : α → β → Prop} : ∀ {as : List α} {bs : List β}, Each P as bs →
    ∀ a ∈ as, ∃ b ∈ bs, P a b
  | [], [], _ => by simp
  | [], _ :: _, h => h.elim
  | _ :: _, [], h => h.elim
  | a :: as, b :: bs, h => by
    intro x hx
    rcases List.mem_cons.1 hx with rfl | hx
    · exact ⟨b, by simp, h.1⟩
    · obtain ⟨y, hy, hp⟩ := each_mem_left h.2 x hx
      exact ⟨y, by simp [hy], hp⟩

theorem runs_source {c : Packers} {ad : Adding} {tr : Trace} {p : Nat} {segs : List (Seg Nat)}
    {ass : List (List (Arrival Rat))} (hne : segs ≠ []) (h : Each (Group c ad tr p) segs ass)
    (ha : Adjacent (fun s t : Seg Nat => s.stop + (p : Int) + (p : Int) / 2 < t.start) segs) :
    Runs (p : Int) ((p : Int) / 2) ass := by
  have hB : 0 ≤ (p : Int) / 2 := by omega
  have hfar := far_groups segs ass h ha
  have hall : ∀ g ∈ ass, g ≠ [] ∧ Adjacent (fun a b : Arrival Rat => b.start = a.stop + p) g := by
    intro g hg
    obtain ⟨s, -, hs⟩ := each_mem h g hg
    exact ⟨group_ne hs, hs.follow⟩
  cases ass with
  | nil =>
    cases segs with
    | nil => exact absurd rfl hne
    | cons => exact h.elim
  | cons g gs =>
    obtain ⟨h1, h2⟩ := hall g (by simp)
    obtain ⟨x, t, rfl⟩ : ∃ x t, g = x :: t := by
      cases g with
      | nil => exact absurd rfl h1
      | cons x t => exact ⟨x, t, rfl⟩
    have r1 := runs_chain (P := p) hB [] t [] x (.first x) h2
    exact runs_groups hB gs [] (x :: t) (by simp) (by simpa using r1) (fun y hy => hall y (by simp [hy])) hfar

/-! ## Rates -/

theorem hz_ne_zero {ad : Adding} (hr : Rounding ad.rnd) (c : Packers) (bits : Nat) {p : Nat}
    (h : HasPeriod p (ad.rate (storedRate c.negRecip bits))) : hz c ad bits ≠ 0 := by
  unfold hz
  generalize ad.rate (storedRate c.negRecip bits) = r at *
  rcases h with ⟨h, -⟩ | ⟨h, -⟩
  · rw [if_neg (by grind)]; grind
  · rw [if_pos h]
    have hpos : 0 < -1 / r := by
      have hm : (-1 / r) * r = -1 := by
        rw [Rat.div_def, Rat.mul_assoc, Rat.inv_mul_cancel _ (by grind), Rat.mul_one]
      refine Classical.byContradiction fun hn => ?_
      have hle : -1 / r ≤ 0 := by grind
      have : 0 ≤ (-1 / r) * r := by
        have := Rat.mul_nonneg (a := -(-1 / r)) (b := -r) (by grind) (by grind)
        grind
      grind
    have := (hr.near _ (by grind : 0 ≤ -1 / r)).1
    generalize -1 / r = x at *
    generalize ad.rnd x = y at *
    clear hr
    grind

theorem sim_self {ad : Adding} (hr : Rounding ad.rnd) (ht : ad.ratetol ≤ 0) {r : Rat} (h : r ≠ 0) :
    ad.sim r r = true := by
  unfold Adding.sim Rate.similar
  rw [if_neg (by grind)]
  unfold Rate.tolerable
  rw [if_neg h, Rat.div_def, Rat.mul_inv_cancel _ h]
  have h1 : ad.rnd 1 = 1 := hr.exact 1 (by omega) (by omega)
  have h0 : ad.rnd 0 = 0 := hr.exact 0 (by omega) (by omega)
  rw [h1, show (1 : Rat) - 1 = 0 by grind, h0]
  have := (hr.near (1 / 10000) (by grind)).1
  unfold Rate.fabs
  rw [if_neg (by grind), decide_eq_true_eq]
  generalize ad.rnd (1 / 10000) = y at *
  clear hr
  grind

/-! ## Sources -/

theorem sorted_unique {α : Type} {lt : α → α → Prop} (hasym : ∀ a b, lt a b → ¬ lt b a) :
    ∀ {l m : List α}, l.Pairwise lt → m.Pairwise lt → (∀ x, x ∈ l ↔ x ∈ m) → l = m
  | [], [], _, _, _ => rfl
  | [], y :: m, _, _, h => absurd ((h y).2 (by simp)) (by simp)
  | x :: l, [], _, _, h => absurd ((h x).1 (by simp)) (by simp)
  | x :: l, y :: m, hl, hm, h => by
    rw [List.pairwise_cons] at hl hm
    have hxy : x = y := by
      rcases List.mem_cons.1 ((h x).1 (by simp)) with e | e
      · exact e
      · rcases List.mem_cons.1 ((h y).2 (by simp)) with e' | e'
        · exact e'.symm
        · exact absurd (hm.1 x e) (hasym _ _ (hl.1 y e'))
    subst hxy
    rw [sorted_unique hasym hl.2 hm.2]
    intro z
    constructor
    · intro hz
      rcases List.mem_cons.1 ((h z).1 (by simp [hz])) with e | e
      · subst e; exact absurd (hl.1 z hz) (fun hh => hasym _ _ hh hh)
      · exact e
    · intro hz
      rcases List.mem_cons.1 ((h z).2 (by simp [hz])) with e | e
      · subst e; exact absurd (hm.1 z hz) (fun hh => hasym _ _ hh hh)
      · exact e

/-- The order of identifiers and versions. -/
def KeyLt (split : Bool) (a b : List UInt8 × Nat) : Prop :=
  a.1 < b.1 ∨ (split = true ∧ a.1 = b.1 ∧ a.2 < b.2)

theorem keyLt_asymm (split : Bool) (a b : List UInt8 × Nat) (h : KeyLt split a b) : ¬ KeyLt split b a := by
  intro h'
  rcases h with h | ⟨-, h, h2⟩
  · rcases h' with h' | ⟨-, h', -⟩
    · exact List.lt_irrefl _ (List.lt_trans h h')
    · rw [h'] at h; exact List.lt_irrefl _ h
  · rcases h' with h' | ⟨-, -, h'⟩
    · rw [h] at h'; exact List.lt_irrefl _ h'
    · omega

theorem pairwise_cases {α : Type} {R : α → α → Prop} : ∀ {l : List α}, l.Pairwise R → ∀ x ∈ l, ∀ y ∈ l,
    x = y ∨ R x y ∨ R y x
  | [], _ => by simp
  | a :: l, h => by
    rw [List.pairwise_cons] at h
    intro x hx y hy
    rcases List.mem_cons.1 hx with ex | hx'
    · rcases List.mem_cons.1 hy with ey | hy'
      · exact Or.inl (ex.trans ey.symm)
      · exact Or.inr (Or.inl (ex ▸ h.1 y hy'))
    · rcases List.mem_cons.1 hy with ey | hy'
      · exact Or.inr (Or.inr (ey ▸ h.1 x hx'))
      · exact pairwise_cases h.2 x hx' y hy'

theorem filter_groups {split : Bool} (f : List (List (Arrival Rat)) → List (Arrival Rat)) :
    ∀ (traces : List Trace) (asss : List (List (List (Arrival Rat)))) (pre : List (Arrival Rat)),
    Each (fun (tr : Trace) ass => ∀ a ∈ f ass, a.sid = tr.sid ∧ a.pub = tr.pub) traces asss →
    traces.Pairwise (fun a b => KeyLt split (a.sid, a.pub) (b.sid, b.pub)) →
    (∀ a ∈ pre, ∀ tr ∈ traces, KeyLt split (a.sid, a.pub) (tr.sid, tr.pub)) →
    Each (fun (tr : Trace) ass => (pre ++ asss.flatMap f).filter (Belongs split tr.sid tr.pub) = f ass) traces asss
  | [], [], _, _, _, _ => trivial
  | [], _ :: _, _, h, _, _ => h.elim
  | _ :: _, [], _, h, _, _ => h.elim
  | tr :: traces, ass :: asss, pre, h, hp, hpre => by
    rw [List.pairwise_cons] at hp
    have hno : ∀ (a : Arrival Rat), KeyLt split (a.sid, a.pub) (tr.sid, tr.pub) ∨
        KeyLt split (tr.sid, tr.pub) (a.sid, a.pub) → ¬ Belongs split tr.sid tr.pub a = true := by
      intro a hk hb
      unfold Belongs at hb
      rw [Bool.and_eq_true, beq_iff_eq, Bool.or_eq_true, beq_iff_eq] at hb
      obtain ⟨h1, h2⟩ := hb
      unfold KeyLt at hk
      simp only [h1] at hk
      rcases hk with (hk | ⟨hs, -, hk⟩) | (hk | ⟨hs, -, hk⟩)
      · exact List.lt_irrefl _ hk
      · rcases h2 with h2 | h2
        · rw [hs] at h2; simp at h2
        · omega
      · exact List.lt_irrefl _ hk
      · rcases h2 with h2 | h2
        · rw [hs] at h2; simp at h2
        · omega
    constructor
    · show List.filter (Belongs split tr.sid tr.pub) (pre ++ List.flatMap f (ass :: asss)) = f ass
      rw [List.filter_append, List.filter_eq_nil_iff.2, List.nil_append, List.flatMap_cons, List.filter_append,
        List.filter_eq_self.2, List.filter_eq_nil_iff.2, List.append_nil]
      · intro a ha
        obtain ⟨as', h1, h2⟩ := List.mem_flatMap.1 ha
        obtain ⟨tr', h3, h4⟩ := each_mem h.2 as' h1
        obtain ⟨e1, e2⟩ := h4 a h2
        refine hno a (Or.inr ?_)
        rw [e1, e2]
        exact hp.1 tr' h3
      · intro a ha
        obtain ⟨e1, e2⟩ := h.1 a ha
        unfold Belongs
        rw [e1, e2]
        simp
      · intro a ha
        exact hno a (Or.inl (hpre a ha tr (by simp)))
    · have := filter_groups f traces asss (pre ++ f ass) h.2 hp.2 (by
        intro a ha tr' htr'
        rcases List.mem_append.1 ha with ha | ha
        · exact hpre a ha tr' (by simp [htr'])
        · obtain ⟨e1, e2⟩ := h.1 a ha
          rw [e1, e2]
          exact hp.1 tr' htr')
      rw [List.flatMap_cons, ← List.append_assoc]
      exact this

theorem each_and {α β : Type} {P Q : α → β → Prop} : ∀ {as : List α} {bs : List β}, Each P as bs → Each Q as bs →
    Each (fun a b => P a b ∧ Q a b) as bs
  | [], [], _, _ => trivial
  | [], _ :: _, h, _ => h.elim
  | _ :: _, [], h, _ => h.elim
  | _ :: _, _ :: _, h, h' => ⟨⟨h.1, h'.1⟩, each_and h.2 h'.2⟩

theorem each_join {α β γ : Type} {P : α → β → Prop} {Q : α → γ → Prop} {S : α → γ → Prop} :
    ∀ {as : List α} {bs : List β} {cs : List γ}, Each P as bs → Each Q as cs →
    (∀ a ∈ as, ∀ b c, P a b → Q a c → S a c) → Each S as cs
  | [], [], [], _, _, _ => trivial
  | [], _ :: _, _, h, _, _ => h.elim
  | [], [], _ :: _, _, h, _ => h.elim
  | _ :: _, [], _, h, _, _ => h.elim
  | _ :: _, _ :: _, [], _, h, _ => h.elim
  | a :: _, _ :: _, _ :: _, h, h', k =>
    ⟨k a (by simp) _ _ h.1 h'.1, each_join h.2 h'.2 fun a ha => k a (by simp [ha])⟩

theorem each_comp {α β γ : Type} {P : α → β → Prop} {Q : β → γ → Prop} {S : α → γ → Prop} :
    ∀ {as : List α} {bs : List β} {cs : List γ}, Each P as bs → Each Q bs cs →
    (∀ a ∈ as, ∀ b, ∀ c ∈ cs, P a b → Q b c → S a c) → Each S as cs
  | [], [], [], _, _, _ => trivial
  | [], _ :: _, _, h, _, _ => h.elim
  | _, [], _ :: _, _, h, _ => h.elim
  | _ :: _, [], _, h, _, _ => h.elim
  | _ :: _, _ :: _, [], _, h, _ => h.elim
  | a :: _, _ :: _, _ :: _, h, h', k =>
    ⟨k a (by simp) _ _ (by simp) h.1 h'.1, each_comp h.2 h'.2 fun a ha b c hc => k a (by simp [ha]) b c (by simp [hc])⟩

theorem each_sources {tl : TraceList Rat} : ∀ (l : List Nat) (traces : List Trace),
    (∀ a ∈ l, (tl.sources a).isSome = true) →
    (l.filterMap tl.sources).map (fun s => (s.sid, s.pub)) = traces.map (fun tr => (tr.sid, tr.pub)) →
    Each (fun (tr : Trace) a => ∃ src, tl.sources a = some src ∧ src.sid = tr.sid ∧ src.pub = tr.pub) traces l
  | [], [], _, _ => trivial
  | [], _ :: _, _, h => by simp at h
  | a :: l, traces, hs, h => by
    obtain ⟨src, e⟩ := Option.isSome_iff_exists.1 (hs a (by simp))
    rw [List.filterMap_cons, e] at h
    simp only [List.map_cons] at h
    cases traces with
    | nil => cases h
    | cons tr traces =>
      rw [List.map_cons] at h
      injection h with h1 h2
      injection h1 with h1 h1'
      exact ⟨⟨src, e, h1, h1'⟩, each_sources l traces (fun x hx => hs x (by simp [hx])) h2⟩

theorem all_typed {c : Packers} {ad : Adding} {reclen encoding : Int} {extra : List UInt8} {split : Bool}
    {T : List UInt8 → Char} {traces : List Trace} {asss : List (List (List (Arrival Rat)))}
    (hw : ∀ tr ∈ traces, Written c ad split reclen encoding extra T tr)
    (hg : Each (fun tr ass => ∃ p : Nat, Each (Group c ad tr p) tr.segs ass ∧
        Adjacent (fun s t : Seg Nat => s.stop + (p : Int) + (p : Int) / 2 < t.start) tr.segs ∧
        ∀ s ∈ tr.segs, Regular c ad p s) traces asss) :
    ∀ a ∈ asss.flatten.flatten, (∃ tr ∈ traces, a.sid = tr.sid ∧ a.pub = tr.pub) ∧
      (split = true → a.pub ≠ 0) ∧ OfType (T a.sid) a := by
  intro a ha
  obtain ⟨g, h1, h2⟩ := List.mem_flatten.1 ha
  obtain ⟨ass, h3, h4⟩ := List.mem_flatten.1 h1
  obtain ⟨tr, h5, p, h6, -⟩ := each_mem hg ass h3
  obtain ⟨s, h7, h8⟩ := each_mem h6 g h4
  obtain ⟨e1, e2, -, e3⟩ := h8.each a h2
  refine ⟨⟨tr, h5, e1, e2⟩, ?_⟩
  rw [e1, e2, ← (hw tr h5).type s h7]
  exact ⟨(hw tr h5).version, e3.type⟩

/-- The list made of the records of the groups. -/
theorem same_list {c : Packers} {ad : Adding} {reclen encoding : Int} {extra : List UInt8} {split keep : Bool}
    {T : List UInt8 → Char} (hr : Rounding ad.rnd) (htol : ad.ratetol ≤ 0) {traces : List Trace}
    {asss : List (List (List (Arrival Rat)))}
    (hw : ∀ tr ∈ traces, Written c ad split reclen encoding extra T tr) (hord : traces.Pairwise (Ahead split))
    (hg : Each (fun tr ass => ∃ p : Nat, Each (Group c ad tr p) tr.segs ass ∧
        Adjacent (fun s t : Seg Nat => s.stop + (p : Int) + (p : Int) / 2 < t.start) tr.segs ∧
        ∀ s ∈ tr.segs, Regular c ad p s) traces asss)
    {tl : TraceList Rat}
    (hL : Listed ad.sim split true keep (asss.flatten.flatten.map fun a => (a, true)) tl) :
    SameList c ad traces tl := by
  have hty := all_typed hw hg
  have hv : split = true → ∀ y ∈ asss.flatten.flatten.map (fun a => (a, true)), y.1.pub ≠ 0 := by
    intro hs y hy
    obtain ⟨a, ha, rfl⟩ := List.mem_map.1 hy
    exact (hty a ha).2.1 hs
  have hT : ∀ y ∈ asss.flatten.flatten.map (fun a => (a, true)), OfType (T y.1.sid) y.1 := by
    intro y hy
    obtain ⟨a, ha, rfl⟩ := List.mem_map.1 hy
    exact (hty a ha).2.2
  obtain ⟨l, hwalk, hlen, hpair⟩ := C39_listed_once_in_order hL
  obtain ⟨hre, hin⟩ := C69_sources_independent_partial hL hv
  have hsome : ∀ a ∈ l, (tl.sources a).isSome = true := fun a ha => (hwalk.source a).1 ha
  -- every source is one of a trace
  have hto : ∀ a s, tl.sources a = some s → ∃ tr ∈ traces, tr.sid = s.sid ∧ tr.pub = s.pub := by
    intro a s hs
    obtain ⟨-, -, -, r, hacc, hpub⟩ := C40_extremes (hre a s hs)
    unfold accepted at hacc
    obtain ⟨y, hy, rfl⟩ := List.mem_map.1 hacc
    have hy := (List.mem_filter.1 hy).1
    unfold own at hy
    have hy := (List.dropWhile_sublist _).subset hy
    obtain ⟨hy, hb⟩ := List.mem_filter.1 hy
    obtain ⟨b, hb', rfl⟩ := List.mem_map.1 hy
    obtain ⟨tr, h1, e1, e2⟩ := (hty b hb').1
    refine ⟨tr, h1, ?_, ?_⟩
    · unfold Belongs at hb
      rw [Bool.and_eq_true, beq_iff_eq] at hb
      exact e1.symm.trans hb.1
    · exact e2.symm.trans hpub.symm
  have hpt : traces.Pairwise (fun a b => KeyLt split (a.sid, a.pub) (b.sid, b.pub)) := hord
  have hkeys : (l.filterMap tl.sources).map (fun s => (s.sid, s.pub)) =
      traces.map (fun tr => (tr.sid, tr.pub)) := by
    refine sorted_unique (keyLt_asymm split) ?_ ?_ ?_
    · rw [List.pairwise_map]; exact hpair
    · rw [List.pairwise_map]; exact hpt
    · intro k
      constructor
      · intro hk
        obtain ⟨s, hs, rfl⟩ := List.mem_map.1 hk
        obtain ⟨a, -, ha⟩ := List.mem_filterMap.1 hs
        obtain ⟨tr, h1, h2, h3⟩ := hto a s ha
        exact List.mem_map.2 ⟨tr, h1, by rw [h2, h3]⟩
      · intro hk
        obtain ⟨tr, htr, rfl⟩ := List.mem_map.1 hk
        obtain ⟨ass, h1, p, h2, -⟩ := each_mem_left hg tr htr
        obtain ⟨s0, hs0⟩ := List.exists_mem_of_ne_nil _ (hw tr htr).some
        obtain ⟨g, h3, h4⟩ := each_mem_left h2 s0 hs0
        obtain ⟨x, hx⟩ := List.exists_mem_of_ne_nil _ (group_ne h4)
        have hxm : x ∈ asss.flatten.flatten := List.mem_flatten.2 ⟨g, List.mem_flatten.2 ⟨ass, h1, h3⟩, hx⟩
        obtain ⟨a, s, hs, hb⟩ := hin (x, true) (List.mem_map.2 ⟨x, hxm, rfl⟩) rfl
        obtain ⟨e1, e2, -⟩ := h4.each x hx
        unfold Belongs at hb
        rw [Bool.and_eq_true, beq_iff_eq, Bool.or_eq_true, beq_iff_eq] at hb
        obtain ⟨b1, b2⟩ := hb
        have hmem : s ∈ l.filterMap tl.sources :=
          List.mem_filterMap.2 ⟨a, (hwalk.source a).2 (by rw [hs]; rfl), hs⟩
        have hsid : s.sid = tr.sid := b1.symm.trans e1
        have hpub : s.pub = tr.pub := by
          rcases b2 with b2 | b2
          · obtain ⟨tr2, t1, t2, t3⟩ := hto a s hs
            have hsp : split = false := by cases split <;> simp at b2 ⊢
            rcases pairwise_cases hord tr2 t1 tr htr with e | e | e
            · rw [← e]; exact t3.symm
            · rcases e with e | ⟨e, -⟩
              · rw [t2, hsid] at e; exact absurd e (List.lt_irrefl _)
              · rw [hsp] at e; cases e
            · rcases e with e | ⟨e, -⟩
              · rw [t2, hsid] at e; exact absurd e (List.lt_irrefl _)
              · rw [hsp] at e; cases e
          · exact b2.symm.trans e2
        exact List.mem_map.2 ⟨s, hmem, by rw [hsid, hpub]⟩
  refine ⟨l, hwalk, ?_⟩
  have hfilt := filter_groups List.flatten traces asss [] (each_mono (by
    rintro tr htr ass ⟨p, h1, -⟩ a ha
    obtain ⟨g, h2, h3⟩ := List.mem_flatten.1 ha
    obtain ⟨s, h4, h5⟩ := each_mem h1 g h2
    exact ⟨(h5.each a h3).1, (h5.each a h3).2.1⟩) hg) hpt (by simp)
  refine each_join (each_and hg hfilt) (each_sources l traces hsome hkeys) ?_
  rintro tr htr ass a ⟨⟨p, g1, g2, g3⟩, hf⟩ ⟨s, hs, e1, e2⟩
  have w := hw tr htr
  obtain ⟨s0, hs0⟩ := List.exists_mem_of_ne_nil _ w.some
  have hp := (g3 s0 hs0).positive
  have hall : ∀ r ∈ ass.flatten, r.rate = hz c ad s0.rate ∧ Uniform p ((p : Int) / 2) (T tr.sid) r := by
    intro r hr'
    obtain ⟨g, h1, h2⟩ := List.mem_flatten.1 hr'
    obtain ⟨s1, h3, h4⟩ := each_mem g1 g h1
    obtain ⟨-, -, h5, h6⟩ := h4.each r h2
    rw [h5, w.rate s1 h3 s0 hs0, ← w.type s1 h3]
    exact ⟨rfl, h6⟩
  have hfm : ((asss.flatten.flatten.map fun a => (a, true)).map Prod.fst).filter (Belongs split s.sid s.pub) =
      ass.flatten := by
    rw [List.map_map, show (Prod.fst ∘ fun a : Arrival Rat => (a, true)) = id from rfl, List.map_id, e1, e2, ← hf,
      List.nil_append]
    congr 1
    rw [List.flatten_flatten]
    rfl
  obtain ⟨k, k1, k2, k3⟩ := C101_each_source_partial hL hv hT a s hs (P := p) (B := (p : Int) / 2) (by omega) (by omega)
    (runs_source w.some g1 g2) hfm (by rw [e1]; exact fun r hr' => (hall r hr').2) (by
      intro x hx y hy
      rw [(hall x hx).1, (hall y hy).1]
      exact sim_self hr htol (hz_ne_zero hr c _ (g3 s0 hs0).stored))
  refine ⟨s, k, hs, e1, e2, k1, each_comp g1 k2 ?_⟩
  intro s1 hs1 g u hu hgr hmade
  obtain ⟨u1, r, u2, u3⟩ := k3 u hu
  refine ⟨?_, ?_, ?_, ?_, ?_, ?_⟩
  · exact (Option.some.inj (hgr.start.symm.trans hmade.start)).symm
  · exact (Option.some.inj (hgr.stop.symm.trans hmade.stop)).symm
  · rw [hmade.samplecnt, hgr.samplecnt]
  · rw [u1, e1, w.type s1 hs1]
  · rw [hmade.data, hgr.data]
  · rw [u3, (hall r u2).1, w.rate s0 hs0 s1 hs1]; rfl

end Verif.Proof.TraceBack
