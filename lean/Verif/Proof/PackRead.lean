import Verif.Props.PackDefs
/-!
# Lemmas about reading packed records
-/
namespace Verif.Proof.PackRead
open Verif.Model Verif.Model.Bytes Verif.Model.Steim Verif.Model.Samples Verif.Model.Mem
  Verif.Model.Record3 Verif.Model.Pack
open Verif.Spec Verif.Spec.Record3
open Verif.Spec.Steim (isInt32)
open Verif.Proof.Mem Verif.Proof.Record3 Verif.Proof.Repack
open Verif.Proof.Pack hiding unit
open Verif.Props.Samples Verif.Props.Record3 Verif.Props.Pack

theorem divides_mono {P Q : Nat → Nat → List UInt8 → Prop} (h : ∀ a n r, P a n r → Q a n r) :
    ∀ rs a b, Divides P a rs b → Divides Q a rs b := by
  intro rs
  induction rs with
  | nil => intro a b hd; exact hd
  | cons r rs ih =>
    intro a b hd
    obtain ⟨n, h1, h2, h3⟩ := hd
    exact ⟨n, h1, h _ _ _ h2, ih _ _ h3⟩

theorem packEncoding_lt (e : Int) : packEncoding e < 256 := by
  unfold packEncoding bits
  split <;> omega

theorem first_drop (a n : Nat) (src : Samples) : first n (dropSamples a src) = slice a n src := by
  cases src <;> rfl

theorem withCrc_crc (r r0 : Rec) (h : r = r0.withCrc) : r.crc = (Spec.Crc.crc32c 0
    (({ r with crc := 0 } : Rec).fixedFor r.payload.length ++
      (r.sid ++ (r.extra ++ r.payload)))).toNat := by
  subst h
  show (Spec.Crc.crc32c 0 ({ r0 with crc := 0 } : Rec).bytes).toNat = _
  rw [bytes_eq]
  rfl

theorem detect_bytes (r : Rec) (v : r.Valid) (rest : List UInt8) (hl : r.bytes.length ≤ 10485760) :
    Verif.Model.Detect.detect false (r.bytes ++ rest) = .ok ((r.bytes.length : Nat), 3) := by
  have hbl := bytes_length r
  have hd := detect_rec r v r.payload.length (by omega) (r.sid ++ (r.extra ++ (r.payload ++ rest)))
  rw [bytes_eq]
  simp only [List.append_assoc]
  rw [hd, Nat.mod_eq_of_lt (by omega)]
  rw [← hbl, bytes_eq]

/-- What a reader gets from a packed record. -/
theorem recs_read (nr : Nat → Nat) (sampletime : Int → Nat → Nat → Out Int) (start : Nat → Int)
    (h : Bool) (m : Msr) (i : Input nr sampletime m) (lim : Nat) (q : Rec)
    (hflags : q.flags = m.flags) (henc : q.encoding = packEncoding m.encoding)
    (hrate : q.rate = storedRate nr m.samprate) (hpub : q.pubversion = m.pubversion)
    (hsid : q.sid = m.sid) (hext : q.extra = m.extra)
    (hstart : ∀ k, k < m.samples.count → timeOf sampletime m k = .ok (start k) ∧ GoodTime (start k))
    (hroom : 40 + m.sid.length + m.extra.length ≤ (packReclen m.reclen).toNat) :
    ∀ rs a b, Recs start h m.samples (space m) lim q a rs b →
      Divides (fun off n r => Reads r (fun m' => m'.samples = slice off n m.samples ∧
        m'.samplecnt = n ∧ timeOf sampletime m off = .ok m'.starttime ∧ m'.sid = m.sid ∧
        m'.extra = m.extra ∧ m'.flags = m.flags ∧ m'.pubversion = m.pubversion ∧
        m'.encoding = packEncoding m.encoding ∧ m'.samprate = storedRate nr m.samprate) ∧
        (r.length : Int) ≤ packReclen m.reclen ∧ (packEncoding m.encoding ≠ 1 →
          maxSamples (packEncoding m.encoding) (space m) (typeSize m.samples) ≤ lim →
          packReclen m.reclen < r.length + unit (packEncoding m.encoding))) a (rs.map Rec.bytes) b := by
  have hp := i.packable
  have hrl : packReclen m.reclen ≤ 10485760 := by
    have := hp.reclen
    unfold packReclen
    split <;> omega
  intro rs
  induction rs with
  | nil => intro a b hr; exact hr
  | cons r rs ih =>
    intro a b hr
    obtain ⟨⟨rv, rs', ⟨r0, rc⟩, rt, ra, rn, rp⟩, hr⟩ := hr
    have hcnt := drop_count a m.samples
    have hrep : representable (dropSamples a m.samples) r.encoding := by
      rw [rs'.encoding, henc]; exact drop_representable _ _ _ i.fits
    have hfew := i.few
    have hsp : space m ≤ 10485760 := by unfold space; omega
    have hst := stored h h _ _ _ _ _ hrep (by omega) rp
    have hsl : r.sid = m.sid := by rw [rs'.sid, hsid]
    have hxl : r.extra = m.extra := by rw [rs'.extra, hext]
    have hbl : r.bytes.length ≤ (packReclen m.reclen).toNat := by
      rw [bytes_length, hsl, hxl]
      have := hst.room
      unfold space at this
      omega
    obtain ⟨ht, hg⟩ := hstart a (by omega)
    refine ⟨r.numsamples, hst.pos, ⟨?_, by omega, ?_⟩, ih _ _ hr⟩
    case refine_2 =>
      intro h1 hlim
      have hfull := hst.full
      rw [rs'.encoding, henc] at hfull
      have hty : typeSize (dropSamples a m.samples) = typeSize m.samples := by
        cases m.samples <;> rfl
      rw [hty] at hfull
      have := hfull h1 (by omega)
      rw [bytes_length, hsl, hxl]
      unfold space at this
      unfold Verif.Proof.Pack.unit at this
      unfold unit
      omega
    intro h2
    refine ⟨{ header h2 r r.payload.length r.bytes.length (start a) with
      samples := first r.numsamples (dropSamples a m.samples) }, ?_, ?_⟩
    · refine ⟨first_drop _ _ _, rfl, ht, hsl, hxl, ?_, ?_, ?_, ?_⟩
      · exact rs'.flags.trans hflags
      · exact rs'.pubversion.trans hpub
      · exact congrArg Int.ofNat (rs'.encoding.trans henc)
      · exact rs'.rate.trans hrate
    intro align rest
    have hup := unpackData_packed h h2 h align r rest (start a) (by rw [hsl]; exact hp.sidText)
      (by rw [hxl]; exact i.extraText) (by omega) _ _ hrep (by omega) (by omega) hsp
      (by cases h <;> rfl) rp
    have hval : unpack3 h2 align (r.bytes ++ rest) r.bytes.length true true
        = .ok (.record { header h2 r r.payload.length r.bytes.length (start a) with
            samples := first r.numsamples (dropSamples a m.samples) }, r.bytes ++ rest) := by
      have hbl' := bytes_length r
      have hpl : r.payload.length < 4294967296 := by omega
      have hs63 : r.sid.length ≤ 63 := by rw [hsl]; exact hp.sid
      have hcrc := unpack3_crc h2 align r rv r.payload.length hpl r.payload rest r.bytes.length
        (by omega) (by rw [bytes_length]; simp; omega) hs63 true
      rw [if_pos (withCrc_crc r r0 rc)] at hcrc
      have hno := unpack3_rec h2 align r rv r.payload.length hpl (r.payload ++ rest)
        r.bytes.length (by omega) hs63 true (start a) rt hg.noError
      rw [hno] at hcrc
      have hb : r.bytes ++ rest = r.fixedFor r.payload.length ++ (r.sid ++ (r.extra ++
          (r.payload ++ rest))) := by rw [bytes_eq]; simp only [List.append_assoc]
      rw [hb] at hup ⊢
      rw [hcrc]
      unfold withSamples
      rw [if_pos ⟨rfl, by have := hst.pos; show ((r.numsamples : Nat) : Int) > 0; omega⟩, hup]
      rfl
    refine ⟨hval, ?_⟩
    intro h0 unpack2 eof
    subst h0
    rw [parse_v3 unpack2 false align (r.bytes ++ rest) true true eof r.bytes.length
      (detect_bytes r rv rest (by omega)) (by have := bytes_length r; omega) (by omega) (by simp)]
    exact hval

/-- The packer from beginning to end. -/
theorem packed_records (nr : Nat → Nat) (sampletime : Int → Nat → Nat → Out Int) (h : Bool) (m : Msr)
    (flush : Bool) (junk : List UInt8) (i : Input nr sampletime m)
    (hroom : 40 + m.sid.length + m.extra.length ≤ (packReclen m.reclen).toNat)
    (hj : (packReclen m.reclen).toNat - 40 ≤ junk.length) :
    (∃ p, msrPack nr sampletime h m flush junk (m.samples.count + 1) = .ok p ∧
      Divides (fun off n r => Reads r (fun m' => m'.samples = slice off n m.samples ∧
        m'.samplecnt = n ∧ timeOf sampletime m off = .ok m'.starttime ∧ m'.sid = m.sid ∧
        m'.extra = m.extra ∧ m'.flags = m.flags ∧ m'.pubversion = m.pubversion ∧
        m'.encoding = packEncoding m.encoding ∧ m'.samprate = storedRate nr m.samprate) ∧
        (r.length : Int) ≤ packReclen m.reclen ∧ (flush = false → packEncoding m.encoding ≠ 1 →
          packReclen m.reclen < r.length + unit (packEncoding m.encoding))) 0 p.records p.packed ∧
      p.packed ≤ m.samples.count ∧
      ((p.ret = -1 ∧ p.packed < m.samples.count ∧
          packData h h (dropSamples p.packed m.samples) (space m) (packEncoding m.encoding) = .err) ∨
        (p.ret = p.records.length ∧ (flush = true → p.packed = m.samples.count) ∧
          (p.packed = m.samples.count ∨ m.samples.count - p.packed ≤
            maxSamples (packEncoding m.encoding) (space m) (typeSize m.samples))))) ∨
    (msrPack nr sampletime h m flush junk (m.samples.count + 1) = .ub ∧
      ∃ k, k < m.samples.count ∧
        packData h h (dropSamples k m.samples) (space m) (packEncoding m.encoding) = .ub) := by
  have hp := i.packable
  have hsid := takeWhile_text m.sid hp.sidText
  have hpl : 40 ≤ packReclen m.reclen ∧ packReclen m.reclen ≤ 10485760 := by
    have := hp.reclen
    unfold packReclen
    split <;> omega
  have hsome := i.some
  have hbuf : (List.replicate 40 (0 : UInt8) ++ junk.take ((packReclen m.reclen).toNat - 40)).length
      = (packReclen m.reclen).toNat := by
    simp
    omega
  generalize hB : List.replicate 40 (0 : UInt8) ++ junk.take ((packReclen m.reclen).toNat - 40) = B
    at hbuf
  obtain ⟨t, ht, hv, htime⟩ := packed_valid nr m hp B (by omega)
  have hl := hp.sid
  have hh := packHeader3_eq nr h m t B (packReclen m.reclen).toNat hpl ht (by rw [hsid]; omega)
    hp.extra (by rw [hsid]; omega) (by rw [hsid]; omega)
  rw [hsid] at hh
  have hstart : ∃ start : Nat → Int, start 0 = m.starttime ∧
      ∀ k, k < m.samples.count → timeOf sampletime m k = .ok (start k) ∧ GoodTime (start k) := by
    refine ⟨fun k => match timeOf sampletime m k with | .ok t => t | .ub => 0, rfl, ?_⟩
    intro k hk
    by_cases h0 : k = 0
    · subst h0
      exact ⟨rfl, ⟨hp.time, hp.time1678, hp.noError⟩⟩
    · obtain ⟨t, t1, t2⟩ := i.times k (by omega) hk
      have : timeOf sampletime m k = .ok t := by unfold timeOf; rw [if_neg h0, t1]
      simp only [this]
      exact ⟨trivial, t2⟩
  obtain ⟨start, hs0, hstart⟩ := hstart
  have e1 : (packed nr m t B).sid = m.sid := hsid
  have e2 : (packed nr m t B).extra = m.extra := rfl
  have e3 : (packed nr m t B).encoding = packEncoding m.encoding := rfl
  have hloop := loop (fun offset => sampletime m.starttime offset m.samprate) start h m.samples
    (packed nr m t B) (space m) (maxSamples (packEncoding m.encoding) (space m) (typeSize m.samples))
    flush i.few (by unfold space; omega) i.fits
    (by
      intro k h0 hk
      obtain ⟨a, b⟩ := hstart k hk
      unfold timeOf at a
      rw [if_neg (by omega)] at a
      exact ⟨a, b⟩)
    (m.samples.count + 1) 0 (packed nr m t B) (unle ((B.drop 36).take 4))
    (B.drop (40 + m.sid.length + m.extra.length)) (by omega) (by omega) hv
    ⟨rfl, rfl, rfl, rfl, rfl, rfl⟩ (by rw [hs0]; exact htime) (by
      rw [List.length_drop, hbuf]; rfl)
  rw [e1, e2, e3] at hloop
  have hmsr : msrPack nr sampletime h m flush junk (m.samples.count + 1) =
      packLoop (fun offset => sampletime m.starttime offset m.samprate) h m.samples
        (packEncoding m.encoding) (space m)
        (maxSamples (packEncoding m.encoding) (space m) (typeSize m.samples))
        (40 + m.sid.length + m.extra.length) flush (m.samples.count + 1)
        ((packed nr m t B).fixedFor (unle ((B.drop 36).take 4)) ++
            (m.sid ++ (m.extra ++ B.drop (40 + m.sid.length + m.extra.length)))) 0 := by
    unfold msrPack
    have hd := i.default
    have hr := hp.reclen
    rw [if_neg (by omega)]
    unfold packMseed3
    simp only
    rw [strlen_text _ hp.sidText, if_neg (by omega), hB, hh]
    simp only
    rw [if_neg (by omega)]
    rfl
  rw [hmsr]
  revert hloop
  generalize packLoop (fun offset => sampletime m.starttime offset m.samprate) h m.samples
        (packEncoding m.encoding) (space m) _ _ flush _ _ 0 = out
  intro hloop
  cases out with
  | err => exact hloop.elim
  | oob => exact hloop.elim
  | ub => exact Or.inr ⟨rfl, hloop⟩
  | ok p =>
    obtain ⟨rs, r1, r2, r3, r4⟩ := hloop
    left
    refine ⟨p, rfl, ?_, r3, ?_⟩
    · rw [r1]
      have hr := recs_read nr sampletime start h m i _ (packed nr m t B) rfl e3 rfl rfl e1 e2 hstart
        hroom rs 0 p.packed r2
      refine divides_mono ?_ _ _ _ hr
      intro off n r ⟨q1, q2, q3⟩
      refine ⟨q1, q2, ?_⟩
      intro hf
      subst hf
      intro h1
      exact q3 h1 (Nat.le_refl _)
    · rcases r4 with r4 | ⟨a, b, c⟩
      · exact Or.inl r4
      · right
        refine ⟨?_, b, c⟩
        rw [r1, List.length_map]; exact a

theorem steps_drop (v : List Int) : ∀ k, ∀ d ∈ (v.drop k).tail.zip (v.drop k), d ∈ v.tail.zip v := by
  induction v with
  | nil => intro k d hd; simp at hd
  | cons x xs ih =>
    intro k d hd
    cases k with
    | zero => exact hd
    | succ k =>
      rw [List.drop_succ_cons] at hd
      have := ih k d hd
      cases xs with
      | nil => simp at this
      | cons y ys =>
        simp only [List.tail_cons, List.zip_cons_cons, List.mem_cons] at this ⊢
        exact Or.inr this

theorem differences_drop (v : List Int) (k : Nat) (d : Int)
    (hd : d ∈ Verif.Props.Steim.differences 0 (v.drop k)) : d = 0 ∨ d ∈ steps (.ints v) := by
  have h := steps_drop v k
  cases hv : v.drop k with
  | nil => rw [hv] at hd; simp [Verif.Props.Steim.differences] at hd
  | cons x xs =>
    rw [hv] at hd h
    simp only [Verif.Props.Steim.differences, List.mem_cons, List.mem_map] at hd
    rcases hd with hd | ⟨p, hp, hd⟩
    · exact Or.inl hd
    · right
      simp only [steps, List.mem_map]
      exact ⟨p, h p hp, hd⟩

/-- Encodable samples are packed from every position. -/
theorem packData_some (h sw : Bool) (src : Samples) (room enc : Nat) (e1 : unit enc ≤ room)
    (e2 : enc = 10 → ∀ d ∈ steps src, isInt32 d)
    (e3 : enc = 11 → ∀ d ∈ steps src, -536870912 ≤ d ∧ d ≤ 536870911)
    (hfit : representable src enc) (k : Nat) (hk : k < src.count) :
    ∃ x, packData h sw (dropSamples k src) room enc = .ok x := by
  have hne : ∀ {α} (v : List α), k < v.length → v.drop k ≠ [] := by
    intro α v hv h0
    have := congrArg List.length h0
    simp at this
    omega
  unfold representable at hfit
  split at hfit
  · next b =>
    have : 1 ≤ room := e1
    exact ⟨_, C24_text _ _ (by omega)⟩
  · next v =>
    have : 2 ≤ room := e1
    simp only [dropSamples, packData]
    rw [if_neg (by omega)]
    obtain ⟨_, bs, g, _⟩ := C24_int16 h sw h sw rfl (v.drop k)
      (fun x hx => hfit x (List.mem_of_mem_drop hx)) room (hne v hk) this
    exact ⟨_, g⟩
  · next v =>
    have : 4 ≤ room := e1
    simp only [dropSamples, packData]
    rw [if_neg (by omega)]
    obtain ⟨_, bs, g, _⟩ := C24_int32 h sw h sw rfl (v.drop k)
      (fun x hx => hfit x (List.mem_of_mem_drop hx)) room (hne v hk) this
    exact ⟨_, g⟩
  · next v =>
    have : 4 ≤ room := e1
    simp only [dropSamples, packData]
    rw [if_neg (by omega)]
    obtain ⟨_, bs, g, _⟩ := C24_float32 h sw h sw rfl (v.drop k)
      (fun x hx => hfit x (List.mem_of_mem_drop hx)) room (hne v hk) this
    exact ⟨_, g⟩
  · next v =>
    have : 8 ≤ room := e1
    simp only [dropSamples, packData]
    rw [if_neg (by omega)]
    obtain ⟨_, bs, g, _⟩ := C24_float64 h sw h sw rfl (v.drop k)
      (fun x hx => hfit x (List.mem_of_mem_drop hx)) room (hne v hk) this
    exact ⟨_, g⟩
  · next v =>
    have : 64 ≤ room := e1
    simp only [dropSamples, packData]
    rw [if_neg (by omega)]
    obtain ⟨_, g, _⟩ := Verif.Props.Steim.C22_steim1_progress h (!h) (v.drop k) room 0 (hne v hk) this
      (fun x hx => hfit x (List.mem_of_mem_drop hx)) (by
        intro d hd
        rcases differences_drop v k d hd with hd | hd
        · subst hd; decide
        · exact e2 rfl d hd)
    rw [g]
    exact ⟨_, rfl⟩
  · next v =>
    have : 64 ≤ room := e1
    simp only [dropSamples, packData]
    rw [if_neg (by omega)]
    obtain ⟨_, g, _⟩ := Verif.Props.Steim.C22_steim2_progress h (!h) (v.drop k) room 0 (hne v hk) this
      (fun x hx => hfit x (List.mem_of_mem_drop hx)) (by
        intro d hd
        rcases differences_drop v k d hd with hd | hd
        · subst hd; decide
        · exact e3 rfl d hd)
    rw [g]
    exact ⟨_, rfl⟩
  · exact hfit.elim

/-- The case of version 3 records. -/
theorem packData_succeeds (h : Bool) (m : Msr) (e : Encodable m)
    (hfit : representable m.samples (packEncoding m.encoding)) (k : Nat) (hk : k < m.samples.count) :
    ∃ x, packData h h (dropSamples k m.samples) (space m) (packEncoding m.encoding) = .ok x :=
  packData_some h h _ _ _ e.room e.steim1 e.steim2 hfit k hk

/-- With a sample count that is a multiple of 2^32 the loop makes empty records for ever. -/
theorem endless (next : Nat → Out Int) (start : Int) (h : Bool) (b : List UInt8) (q0 : Rec)
    (max maxs : Nat) (flush : Bool) (hb : b.length % 2 ^ 32 = 0) (hpos : 1 ≤ b.length)
    (hflush : maxs < b.length ∨ flush = true) (hmax : 1 ≤ max) (hq : q0.encoding = 0)
    (hnext : next 0 = .ok start) (hg : GoodTime start) :
    ∀ fuel q d tail, q.Valid → Same q0 q → tail.length = max →
    packLoop next h (.text b) q0.encoding max maxs (40 + q0.sid.length + q0.extra.length) flush fuel
        (q.fixedFor d ++ (q.sid ++ (q.extra ++ tail))) 0 = .err := by
  intro fuel
  induction fuel with
  | zero => intros; rfl
  | succ fuel ih =>
    intro q d tail hv hs ht
    rw [packLoop, if_pos (by simp only [Samples.count]; omega), packRound]
    have hp : passed (dropSamples 0 (.text b)) = .text [] := by
      simp only [dropSamples, List.drop_zero, passed, Samples.count, hb]
      rfl
    have hd : packData h h (.text []) max q0.encoding = .ok ([], 0) := by
      rw [hq]; rfl
    rw [hp, hd]
    simp only
    obtain ⟨R, f1, hRv, hRs, _, _, hRn, hRp⟩ := one_record h q0 q d tail [] 0 (by simp) hv hs
      (by omega) (by simp)
    rw [f1, bind_ok]
    have hno : ¬ (0 + 0 ≥ (Samples.text b).count) := by simp only [Samples.count]; omega
    simp only [hno, if_false, Nat.add_zero, hnext]
    obtain ⟨dt, e1, e2, e3, e4, e5, e6, e7, e8⟩ := good_time _ hg
    simp only [ofOut, bind_ok, e1]
    obtain ⟨T, t1, t2, t3, t4⟩ := retime h q0 R 0 ([] ++ tail.drop 0) dt _ hRv hRs e2 e3 e4 e5 e6 e7 e8
    have t1' := t1
    simp only [List.length_nil, List.nil_append, List.drop_zero] at t1' ⊢
    rw [t1', bind_ok, bind_ok]
    simp only
    rw [ih T 0 tail t2 t3 ht]
    rfl

/-- A result that C does not define means that a difference overflows. -/
theorem packData_ub (h sw : Bool) (src : Samples) (enc max k : Nat) (hfit : representable src enc)
    (hk : k < src.count) (hp : packData h sw (dropSamples k src) max enc = .ub) :
    (enc = 10 ∨ enc = 11) ∧ ∃ d ∈ steps src, ¬ isInt32 d := by
  have hne : ∀ {α} (v : List α), k < v.length → v.drop k ≠ [] := by
    intro α v hv h0
    have := congrArg List.length h0
    simp at this
    omega
  have fin : ∀ v : List Int, k < v.length →
      ¬ Verif.Proof.Steim.All32
        (Verif.Proof.Steim.deltas ((v.drop k).headD 0) (v.drop k).tail) →
      ∃ d ∈ steps (.ints v), ¬ isInt32 d := by
    intro v hv hn
    apply Classical.byContradiction
    intro hc
    apply hn
    intro d hd
    have hmem : d ∈ Verif.Props.Steim.differences 0 (v.drop k) := by
      cases hv : v.drop k with
      | nil => exact absurd hv (hne v (by assumption))
      | cons x xs =>
        rw [hv] at hd
        rw [Verif.Props.Steim.differences_eq]
        exact List.mem_cons_of_mem _ hd
    rcases differences_drop v k d hmem with h0 | h0
    · subst h0; decide
    · apply Classical.byContradiction
      intro hnd
      exact hc ⟨d, h0, hnd⟩
  unfold representable at hfit
  split at hfit
  · simp only [dropSamples, packData, encodeText] at hp
    repeat' split at hp
    all_goals simp at hp
  · simp only [dropSamples, packData, encodeInt16] at hp
    repeat' split at hp
    all_goals simp at hp
  · simp only [dropSamples, packData, encodeInt32] at hp
    repeat' split at hp
    all_goals simp at hp
  · simp only [dropSamples, packData, encodeFloat32] at hp
    repeat' split at hp
    all_goals simp at hp
  · simp only [dropSamples, packData, encodeFloat64] at hp
    repeat' split at hp
    all_goals simp at hp
  · next v =>
    refine ⟨Or.inl rfl, fin v hk ?_⟩
    simp only [dropSamples, packData] at hp
    split at hp
    · simp at hp
    · have hs := Verif.Proof.Steim.encode_spec h (!h) (Verif.Proof.Steim.wordEnc1 h (!h)) (by omega)
        (v.drop k) max 0 (by decide) (fun x hx => hfit x (List.mem_of_mem_drop hx)) (hne v hk)
        (by omega)
      unfold encodeSteim1 at hp
      revert hs hp
      generalize encode h (!h) 4 _ (v.drop k) max 0 = out
      intro hp hs
      cases out <;> simp [Res.bind] at hp
      exact hs
  · next v =>
    refine ⟨Or.inr rfl, fin v hk ?_⟩
    simp only [dropSamples, packData] at hp
    split at hp
    · simp at hp
    · have hs := Verif.Proof.Steim.encode_spec h (!h) (Verif.Proof.Steim.wordEnc2 h (!h)) (by omega)
        (v.drop k) max 0 (by decide) (fun x hx => hfit x (List.mem_of_mem_drop hx)) (hne v hk)
        (by omega)
      unfold encodeSteim2 at hp
      revert hs hp
      generalize encode h (!h) 7 _ (v.drop k) max 0 = out
      intro hp hs
      cases out <;> simp [Res.bind] at hp
      exact hs
  · exact hfit.elim

/-- A valid record without samples is read back. -/
theorem read_empty (r : Rec) (rv : r.Valid) (r0 : Rec) (rc : r = r0.withCrc) (hn : r.numsamples = 0)
    (hs63 : r.sid.length ≤ 63) (hbl : r.bytes.length ≤ 10485760) (s : Int) (rt : recTime r = .ok s)
    (hg : s ≠ NSTERROR) (Q : Msr → Prop)
    (hQ : ∀ h, Q (header h r r.payload.length r.bytes.length s)) : Reads r.bytes Q := by
  intro h2
  refine ⟨_, hQ h2, fun align rest => ?_⟩
  have hval : unpack3 h2 align (r.bytes ++ rest) r.bytes.length true true
      = .ok (.record (header h2 r r.payload.length r.bytes.length s), r.bytes ++ rest) := by
    have hbl' := bytes_length r
    have hpl : r.payload.length < 4294967296 := by omega
    have hcrc := unpack3_crc h2 align r rv r.payload.length hpl r.payload rest r.bytes.length
      (by omega) (by rw [bytes_length]; simp; omega) hs63 true
    rw [if_pos (withCrc_crc r r0 rc)] at hcrc
    have hno := unpack3_rec h2 align r rv r.payload.length hpl (r.payload ++ rest)
      r.bytes.length (by omega) hs63 true s rt hg
    rw [hno] at hcrc
    have hb : r.bytes ++ rest = r.fixedFor r.payload.length ++ (r.sid ++ (r.extra ++
        (r.payload ++ rest))) := by rw [bytes_eq]; simp only [List.append_assoc]
    rw [hb, hcrc]
    unfold withSamples
    rw [if_neg (by
      intro ⟨_, h⟩
      have : ((r.numsamples : Nat) : Int) > 0 := h
      omega)]
    rfl
  refine ⟨hval, ?_⟩
  intro h0 unpack2 eof
  subst h0
  rw [parse_v3 unpack2 false align (r.bytes ++ rest) true true eof r.bytes.length
    (detect_bytes r rv rest (by omega)) (by have := bytes_length r; omega) (by omega) (by simp)]
  exact hval
end Verif.Proof.PackRead
