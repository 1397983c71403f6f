import Verif.Props.TracePackDefs
import Verif.Props.Pack
import Verif.Props.Pack2
/-!
# Lemmas about packing trace lists
-/
namespace Verif.Proof.TracePack
open Verif.Model Verif.Model.Steim Verif.Model.Samples Verif.Model.Record3 Verif.Model.Pack Verif.Model.Pack2
  Verif.Model.TracePack
open Verif.Model.Trace (Seg Arrival addMsrToSeg)
open Verif.Proof.Mem
open Verif.Proof.Pack (GoodTime)
open Verif.Proof.Pack2 (Head Input2 space2 packed_records2)
open Verif.Proof.PackRead (divides_mono packed_records packData_succeeds)
open Verif.Props.Samples Verif.Props.Record3 Verif.Props.Pack Verif.Props.Pack2 Verif.Props.TracePack

theorem each_mono {α β : Type} {P Q : α → β → Prop} : ∀ {as bs}, (∀ a ∈ as, ∀ b, P a b → Q a b) →
    Each P as bs → Each Q as bs
  | [], [], _, _ => True.intro
  | [], _ :: _, _, h => h.elim
  | _ :: _, [], _, h => h.elim
  | a :: _, b :: _, hpq, h => ⟨hpq a (List.mem_cons_self ..) b h.1,
      each_mono (fun x hx => hpq x (List.mem_cons_of_mem _ hx)) h.2⟩

theorem each_exists {α β : Type} {P : α → β → Prop} : ∀ {as : List α}, (∀ a ∈ as, ∃ b, P a b) →
    ∃ bs, Each P as bs
  | [], _ => ⟨[], True.intro⟩
  | a :: as, h => by
    obtain ⟨b, hb⟩ := h a (List.mem_cons_self ..)
    obtain ⟨bs, hbs⟩ := each_exists (P := P) (as := as) (fun x hx => h x (List.mem_cons_of_mem _ hx))
    exact ⟨b :: bs, hb, hbs⟩

theorem each_map {α β γ : Type} {P : α → γ → Prop} (f : β → γ) : ∀ {as : List α} {bs : List β},
    Each (fun a b => P a (f b)) as bs → Each P as (bs.map f)
  | [], [], _ => True.intro
  | [], _ :: _, h => h.elim
  | _ :: _, [], h => h.elim
  | _ :: _, _ :: _, h => ⟨h.1, each_map f h.2⟩

/-! ## The loops -/

/-- One segment is packed. -/
def One (c : Packers) (ver2 flush maintain : Bool) (reclen encoding : Int) (extra sid : List UInt8)
    (pub : Nat) (s : Seg Nat) (q : Packing × Seg Nat) : Prop :=
  packSeg c ver2 flush reclen encoding extra sid pub s = .ok q.1 ∧ removed c maintain s q.1.packed = .ok q.2

theorem packSegs_ok (c : Packers) (ver2 flush maintain : Bool) (reclen encoding : Int)
    (extra sid : List UInt8) (pub : Nat) : ∀ segs t segs' t',
    packSegs c ver2 flush maintain reclen encoding extra sid pub segs t = .ok (segs', t') ↔
    ∃ qs, Each (One c ver2 flush maintain reclen encoding extra sid pub) segs qs ∧
      segs' = qs.map (·.2) ∧ t' = (qs.map (·.1)).foldl Total.plus t := by
  intro segs
  induction segs with
  | nil =>
    intro t segs' t'
    show Res.ok ([], t) = .ok (segs', t') ↔ _
    constructor
    · intro h; cases h; exact ⟨[], True.intro, rfl, rfl⟩
    · rintro ⟨qs, h1, h2, h3⟩
      cases qs with
      | nil => subst h2; subst h3; rfl
      | cons => exact h1.elim
  | cons s segs ih =>
    intro t segs' t'
    show ((packSeg c ver2 flush reclen encoding extra sid pub s).bind fun p =>
      (removed c maintain s p.packed).bind fun s' =>
      (packSegs c ver2 flush maintain reclen encoding extra sid pub segs (t.plus p)).bind fun r =>
      .ok (s' :: r.1, r.2)) = _ ↔ _
    constructor
    · intro h
      obtain ⟨p, h1, h⟩ := bind_eq_ok.1 h
      obtain ⟨s', h2, h⟩ := bind_eq_ok.1 h
      obtain ⟨r, h3, h⟩ := bind_eq_ok.1 h
      cases h
      obtain ⟨qs, g1, g2, g3⟩ := (ih _ r.1 r.2).1 h3
      exact ⟨(p, s') :: qs, ⟨⟨h1, h2⟩, g1⟩, by rw [g2]; rfl, g3⟩
    · rintro ⟨qs, h1, h2, h3⟩
      cases qs with
      | nil => exact h1.elim
      | cons q qs =>
        obtain ⟨⟨h1, h4⟩, h5⟩ := h1
        rw [h1, bind_ok, h4, bind_ok,
          (ih (t.plus q.1) (qs.map (·.2)) ((qs.map (·.1)).foldl Total.plus (t.plus q.1))).2 ⟨qs, h5, rfl, rfl⟩,
          bind_ok, h2, h3]
        rfl

theorem packTraces_ok (c : Packers) (ver2 flush maintain : Bool) (reclen encoding : Int)
    (extra : List UInt8) : ∀ traces t traces' t',
    packTraces c ver2 flush maintain reclen encoding extra traces t = .ok (traces', t') ↔
    ∃ qss, Each (fun (tr : Trace) qs =>
        Each (One c ver2 flush maintain reclen encoding extra tr.sid tr.pub) tr.segs qs) traces qss ∧
      traces' = List.zipWith (fun (tr : Trace) qs => { tr with segs := qs.map (·.2) }) traces qss ∧
      t' = (qss.flatten.map (·.1)).foldl Total.plus t := by
  intro traces
  induction traces with
  | nil =>
    intro t traces' t'
    show Res.ok ([], t) = .ok (traces', t') ↔ _
    constructor
    · intro h; cases h; exact ⟨[], True.intro, rfl, rfl⟩
    · rintro ⟨qs, h1, h2, h3⟩
      cases qs with
      | nil => subst h2; subst h3; rfl
      | cons => exact h1.elim
  | cons tr traces ih =>
    intro t traces' t'
    show ((packSegs c ver2 flush maintain reclen encoding extra tr.sid tr.pub tr.segs t).bind fun r =>
      (packTraces c ver2 flush maintain reclen encoding extra traces r.2).bind fun q =>
      .ok ({ tr with segs := r.1 } :: q.1, q.2)) = _ ↔ _
    constructor
    · intro h
      obtain ⟨r, h1, h⟩ := bind_eq_ok.1 h
      obtain ⟨q, h2, h⟩ := bind_eq_ok.1 h
      cases h
      obtain ⟨qs, g1, g2, g3⟩ := (packSegs_ok _ _ _ _ _ _ _ _ _ _ _ r.1 r.2).1 h1
      obtain ⟨qss, k1, k2, k3⟩ := (ih _ q.1 q.2).1 h2
      refine ⟨qs :: qss, ⟨g1, k1⟩, by rw [k2, g2]; rfl, ?_⟩
      rw [k3, g3, List.flatten_cons, List.map_append, List.foldl_append]
    · rintro ⟨qss, h1, h2, h3⟩
      cases qss with
      | nil => exact h1.elim
      | cons qs qss =>
        rw [(packSegs_ok _ _ _ _ _ _ _ _ _ _ t (qs.map (·.2)) ((qs.map (·.1)).foldl Total.plus t)).2
          ⟨qs, h1.1, rfl, rfl⟩, bind_ok]
        simp only
        rw [(ih _ _ _).2 ⟨qss, h1.2, rfl, rfl⟩, bind_ok, h2, h3, List.flatten_cons, List.map_append,
          List.foldl_append]
        rfl

theorem fold_plus : ∀ (ps : List Packing) (t : Total), ps.foldl Total.plus t =
    { records := t.records ++ (ps.map (·.records)).flatten, ret := t.ret + (ps.map (·.ret)).sum,
      packed := t.packed + (ps.map (·.packed)).sum }
  | [], t => by simp
  | p :: ps, t => by
    rw [List.foldl_cons, fold_plus ps]
    simp [Total.plus, List.append_assoc, Int.add_assoc, Nat.add_assoc]

/-! ## Samples -/

theorem samplesOf_typed {ty : Char} (h : Known ty) (v : List Int) : samplesOf ty v = some (typed ty v) := by
  rcases h with rfl | rfl | rfl | rfl <;> rfl

theorem typed_count (ty : Char) (v : List Int) : (typed ty v).count = v.length := by
  unfold typed
  split
  · exact List.length_map ..
  · split
    · rfl
    · split <;> exact List.length_map ..

theorem slice_typed (ty : Char) (v : List Int) (a n : Nat) :
    slice a n (typed ty v) = typed ty ((v.drop a).take n) := by
  unfold typed
  split
  · simp [slice]
  · split
    · rfl
    · split <;> simp [slice]

theorem divides_le {P : Nat → Nat → List UInt8 → Prop} : ∀ rs a b, Divides P a rs b → a ≤ b
  | [], _, _, h => Nat.le_of_eq h
  | _ :: rs, a, _, ⟨n, _, _, h⟩ => Nat.le_trans (Nat.le_add_right a n) (divides_le rs _ _ h)

theorem divides_carries {reads : Reading} {ty : Char} {Q : Nat → Msr → Prop}
    (mono : ∀ r P P', (∀ m, P m → P' m) → reads r P → reads r P') (v : List Int) :
    ∀ rs a b, Divides (fun off n r => reads r (fun m' => m'.samples = slice off n (typed ty v) ∧
      m'.samplecnt = n ∧ Q off m')) a rs b → b ≤ v.length →
      Carries reads ty Q a rs ((v.drop a).take (b - a)) := by
  intro rs
  induction rs with
  | nil =>
    intro a b h _
    have h : a = b := h
    subst h
    show List.take _ _ = []
    simp
  | cons r rs ih =>
    intro a b h hb
    obtain ⟨n, h1, h2, h3⟩ := h
    have hle := divides_le _ _ _ h3
    refine ⟨n, h1, ?_, mono _ _ _ ?_ h2, ?_⟩
    · rw [List.length_take, List.length_drop]; omega
    · rintro m' ⟨w1, w2⟩
      refine ⟨?_, w2⟩
      rw [w1, slice_typed, List.take_take, show min n (b - a) = n by omega]
    · have := ih _ _ h3 hb
      rw [List.drop_take, List.drop_drop, show b - a - n = b - (a + n) by omega]
      exact this

theorem carries_append {reads : Reading} {ty : Char} {Q : Msr → Prop} : ∀ rs1 rs2 v1 v2 a b,
    Carries reads ty (fun _ => Q) a rs1 v1 → Carries reads ty (fun _ => Q) b rs2 v2 →
    Carries reads ty (fun _ => Q) a (rs1 ++ rs2) (v1 ++ v2)
  | [], rs2, v1, v2, a, b, h1, h2 => by
    have h1 : v1 = [] := h1
    subst h1
    rw [List.nil_append, List.nil_append]
    exact shift rs2 v2 b a h2
  | r :: rs1, rs2, v1, v2, a, b, ⟨n, g1, g2, g3, g4⟩, h2 => by
    refine ⟨n, g1, ?_, ?_, ?_⟩
    · rw [List.length_append]; omega
    · rw [List.take_append_of_le_length g2]; exact g3
    · rw [List.drop_append_of_le_length g2]
      exact carries_append rs1 rs2 _ v2 _ b g4 h2
where
  shift : ∀ rs v a b, Carries reads ty (fun _ => Q) a rs v → Carries reads ty (fun _ => Q) b rs v
    | [], _, _, _, h => h
    | _ :: rs, _, _, _, ⟨n, g1, g2, g3, g4⟩ => ⟨n, g1, g2, g3, shift rs _ _ _ g4⟩

theorem carries_mono {reads : Reading} {ty : Char} {Q Q' : Nat → Msr → Prop}
    (mono : ∀ r P P', (∀ m, P m → P' m) → reads r P → reads r P') (hq : ∀ n m, Q n m → Q' n m) :
    ∀ rs v a, Carries reads ty Q a rs v → Carries reads ty Q' a rs v
  | [], _, _, h => h
  | _ :: rs, _, _, ⟨n, g1, g2, g3, g4⟩ => ⟨n, g1, g2,
      mono _ _ _ (fun _ w => ⟨w.1, w.2.1, hq _ _ w.2.2⟩) g3, carries_mono mono hq rs _ _ g4⟩

theorem reads_mono3 (r : List UInt8) (P P' : Msr → Prop) (h : ∀ m, P m → P' m) (hr : Reads r P) :
    Reads r P' := by
  intro b
  obtain ⟨m', w, u⟩ := hr b
  exact ⟨m', h m' w, u⟩

theorem reads_mono2 (r : List UInt8) (P P' : Msr → Prop) (h : ∀ m, P m → P' m) (hr : reads2 r P) :
    reads2 r P' := fun env => reads_mono h (hr env)

/-! ## One segment -/

theorem packSeg_eq (c : Packers) (ver2 flush : Bool) (reclen encoding : Int) (extra sid : List UInt8)
    (pub : Nat) (s : Seg Nat) (hk : Known s.sampletype) :
    packSeg c ver2 flush reclen encoding extra sid pub s =
      callPack c ver2 flush (recordOf reclen encoding extra sid pub s) := by
  unfold packSeg
  rw [samplesOf_typed hk]
  rfl

variable (c : Packers) (flush : Bool) (reclen encoding : Int) (extra sid : List UInt8) (pub : Nat)
  (s : Seg Nat)

/-- Version 3: what packing a segment with samples does. -/
theorem pack3 (hk : Known s.sampletype) (hd : s.data ≠ [])
    (hp : Packable3 c (recordOf reclen encoding extra sid pub s)) (p : Packing)
    (h : packSeg c false flush reclen encoding extra sid pub s = .ok p) :
    p.packed ≤ s.data.length ∧
    Carries Reads s.sampletype (Tells3 c (recordOf reclen encoding extra sid pub s)) 0 p.records
      (s.data.take p.packed) ∧
    ((p.ret = -1 ∧ p.packed < s.data.length) ∨
      (p.ret = p.records.length ∧ (flush = true → p.packed = s.data.length))) := by
  rw [packSeg_eq _ _ _ _ _ _ _ _ _ hk] at h
  generalize hm : recordOf reclen encoding extra sid pub s = m at *
  have hc : m.samples = typed s.sampletype s.data := by rw [← hm]; rfl
  have hcount : m.samples.count = s.data.length := by rw [hc, typed_count]
  have hlen : 0 < s.data.length := List.length_pos_iff.2 hd
  have hi := hp.input (by omega)
  have h : msrPack c.negRecip c.sampletime c.hostBE m flush c.junk (m.samples.count + 1) = .ok p := h
  rcases packed_records _ _ c.hostBE m flush c.junk hi hp.header hp.memory with
    ⟨p', h1, h2, h3, h4⟩ | ⟨h1, _⟩
  · rw [h] at h1
    cases h1
    refine ⟨by omega, ?_, ?_⟩
    · have := divides_carries (reads := Reads) (ty := s.sampletype) (Q := Tells3 c m) reads_mono3 s.data p.records 0
        p.packed (divides_mono ?_ _ _ _ h2) (by omega)
      · simpa using this
      · intro a n r ⟨q, _⟩
        refine reads_mono3 _ _ _ ?_ q
        rintro m' ⟨w1, w2, w3, w4, w5, w6, w7, w8, w9⟩
        exact ⟨by rw [w1, hc], w2, w4, w7, w5, w9, w3⟩
    · rw [← hcount]
      rcases h4 with ⟨a, b, _⟩ | ⟨a, b, _⟩
      · exact Or.inl ⟨a, b⟩
      · exact Or.inr ⟨a, b⟩
  · rw [h] at h1; cases h1

/-- Version 3: encodable samples are packed without error. -/
theorem pack3_ok (hk : Known s.sampletype) (hd : s.data ≠ [])
    (hp : Packable3 c (recordOf reclen encoding extra sid pub s))
    (he : Encodable (recordOf reclen encoding extra sid pub s)) :
    ∃ p, packSeg c false flush reclen encoding extra sid pub s = .ok p ∧ p.ret = p.records.length := by
  rw [packSeg_eq _ _ _ _ _ _ _ _ _ hk]
  generalize hm : recordOf reclen encoding extra sid pub s = m at *
  have hc : m.samples = typed s.sampletype s.data := by rw [← hm]; rfl
  have hcount : m.samples.count = s.data.length := by rw [hc, typed_count]
  have hlen : 0 < s.data.length := List.length_pos_iff.2 hd
  have hi := hp.input (by omega)
  rcases packed_records _ _ c.hostBE m flush c.junk hi hp.header hp.memory with
    ⟨p', h1, h2, h3, h4⟩ | ⟨h1, k, h2, h3⟩
  · refine ⟨p', h1, ?_⟩
    rcases h4 with ⟨a, b, h4⟩ | ⟨a, b, _⟩
    · obtain ⟨x, hx⟩ := packData_succeeds c.hostBE m he hi.fits p'.packed b
      rw [hx] at h4
      cases h4
    · exact a
  · obtain ⟨x, hx⟩ := packData_succeeds c.hostBE m he hi.fits k h2
    rw [hx] at h3
    cases h3

/-- Version 3: a segment without samples. -/
theorem pack3_empty (hk : Known s.sampletype) (hd : s.data = [])
    (hp : Packable3 c (recordOf reclen encoding extra sid pub s)) :
    ∃ r, packSeg c false flush reclen encoding extra sid pub s
        = .ok { records := [r], packed := 0, ret := 1 } ∧
      Reads r (fun m' => m'.samplecnt = 0 ∧ m'.sid = sid ∧ m'.starttime = s.start) := by
  rw [packSeg_eq _ _ _ _ _ _ _ _ _ hk]
  have hcount : (recordOf reclen encoding extra sid pub s).samples.count = 0 := by
    show (typed s.sampletype s.data).count = 0
    rw [typed_count, hd]; rfl
  obtain ⟨r, h1, _, h2⟩ := C31_no_samples c.negRecip c.sampletime c.hostBE _ flush c.junk
    ((recordOf reclen encoding extra sid pub s).samples.count + 1) hp.packable hp.default hcount hp.header hp.memory
  exact ⟨r, h1, reads_mono3 _ _ _ (fun m' w => ⟨w.1, w.2.2.2.1, w.2.2.1⟩) h2⟩

variable {net sta loc : List UInt8} {band source position : UInt8} {d : Head}

/-- Version 2: what packing a segment with samples does. -/
theorem pack2 (hk : Known s.sampletype) (hd : s.data ≠ [])
    (hp : Packable2 c (recordOf reclen encoding extra sid pub s) net sta loc band source position d) (p : Packing)
    (h : packSeg c true flush reclen encoding extra sid pub s = .ok p) :
    p.packed ≤ s.data.length ∧
    Carries reads2 s.sampletype (Tells2 c (recordOf reclen encoding extra sid pub s)) 0 p.records
      (s.data.take p.packed) ∧
    ((p.ret = -1 ∧ p.packed < s.data.length) ∨
      (p.ret = p.records.length ∧ (flush = true → p.packed = s.data.length))) := by
  rw [packSeg_eq _ _ _ _ _ _ _ _ _ hk] at h
  generalize hm : recordOf reclen encoding extra sid pub s = m at *
  have hc : m.samples = typed s.sampletype s.data := by rw [← hm]; rfl
  have hcount : m.samples.count = s.data.length := by rw [hc, typed_count]
  have hlen : 0 < s.data.length := List.length_pos_iff.2 hd
  have hs := hp.some (by omega)
  have hj' : 2 ^ d.exponent ≤ c.junk.length + 48 := by have := hp.input.reclen; have := hp.memory; omega
  have h : msrPack2 c.rates c.json c.sampletime c.hostBE m flush c.junk (m.samples.count + 1) = .ok p := h
  rcases packed_records2 c.hostBE flush c.junk hp.input hs hj' with ⟨p', h1, h2, h3, h4⟩ | ⟨h1, _⟩
  · rw [h] at h1
    cases h1
    have ht := C86_record_times_partial _ _ _ _ _ _ _ _ _ _ _ _ flush c.junk p hp.input hs hp.readable hp.memory h
    refine ⟨by omega, ?_, ?_⟩
    · have := divides_carries (reads := reads2) (ty := s.sampletype) (Q := Tells2 c m) reads_mono2 s.data p.records 0
        p.packed (divides_mono ?_ _ _ _ (h2 hp.readable)) (by omega)
      · simpa using this
      · intro a n r ⟨_, t, q1, q2⟩ env
        refine reads_mono ?_ (q2 env)
        intro m' w
        have hst := w.starttime
        exact ⟨by rw [w.samples, hc], w.samplecnt, w.sid, t, q1, by omega, by omega⟩
    · rw [← hcount]
      rcases h4 with ⟨a, b, _⟩ | ⟨a, b, _⟩
      · exact Or.inl ⟨a, b⟩
      · exact Or.inr ⟨a, b⟩
  · rw [h] at h1; cases h1

/-- Version 2: encodable samples are packed without error. -/
theorem pack2_ok (hk : Known s.sampletype) (hd : s.data ≠ [])
    (hp : Packable2 c (recordOf reclen encoding extra sid pub s) net sta loc band source position d)
    (he : Encodable2 (recordOf reclen encoding extra sid pub s) d) :
    ∃ p, packSeg c true flush reclen encoding extra sid pub s = .ok p ∧ p.ret = p.records.length := by
  rw [packSeg_eq _ _ _ _ _ _ _ _ _ hk]
  generalize hm : recordOf reclen encoding extra sid pub s = m at *
  have hc : m.samples = typed s.sampletype s.data := by rw [← hm]; rfl
  have hcount : m.samples.count = s.data.length := by rw [hc, typed_count]
  have hlen : 0 < s.data.length := List.length_pos_iff.2 hd
  have hs := hp.some (by omega)
  have hj' : 2 ^ d.exponent ≤ c.junk.length + 48 := by have := hp.input.reclen; have := hp.memory; omega
  rcases packed_records2 c.hostBE flush c.junk hp.input hs hj' with
    ⟨p', h1, h2, h3, h4⟩ | ⟨h1, k, h2, h3⟩
  · refine ⟨p', h1, ?_⟩
    rcases h4 with ⟨a, b, h4⟩ | ⟨a, b, _⟩
    · obtain ⟨x, n, hx, hn⟩ := packs _ _ _ c.hostBE m _ _ _ _ _ _ _ hp.input hs he p'.packed b
      rw [hx] at h4
      rcases h4 with h4 | ⟨x', n', h4, hn'⟩
      · cases h4
      · cases h4; omega
    · exact a
  · obtain ⟨x, n, hx, hn⟩ := packs _ _ _ c.hostBE m _ _ _ _ _ _ _ hp.input hs he k h2
    rw [hx] at h3
    cases h3

end Verif.Proof.TracePack
