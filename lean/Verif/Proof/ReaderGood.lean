import Verif.Proof.ReaderFile
import Verif.Proof.ReaderParse
import Verif.Proof.PackRead
import Verif.Proof.Record2
/-! Lemmas on the file reader: records of version 3 and version 2 in files. -/
namespace Verif.Proof.Reader
open Verif.Model Verif.Model.Bytes Verif.Model.Steim Verif.Model.Mem Verif.Model.Record3
  Verif.Model.Reader
open Verif.Model.Detect hiding Blkt
open Verif.Proof.Mem Verif.Proof.Detect
open Verif.Spec.Record3 (Signature2 Signature3)

/-- The bytes `b` are parsed as the record `m`, which is `m'` with the samples. -/
structure Piece (env : Record2.Env) (h vc ud : Bool) (b : List UInt8) (m m' : Msr) : Prop where
  low : 40 ≤ b.length
  high : b.length ≤ MAXRECLEN
  reclen : m.reclen = b.length
  parse : ∀ align t ud eof, Record3.parse (Record2.unpack2 env h align) h align (b ++ t) vc ud eof =
    (withSamples h align (b ++ t) m ud).bind fun p => .ok (p, b ++ t)
  samples : ∀ align t, withSamples h align (b ++ t) m ud = .ok (.record m')

theorem withSamples_false (h : Bool) (align : Nat) (mem : List UInt8) (m : Msr) :
    withSamples h align mem m false = .ok (.record m) := by
  unfold withSamples
  rw [if_neg (by simp)]

theorem good_piece {env : Record2.Env} {h vc ud : Bool} {b : List UInt8} {m m' : Msr}
    (base : Nat) (skip : Bool) (sel : Option (Msr → Bool)) (d : Nat) (p : Piece env h vc ud b m m')
    (hd : d = 0 ∨ d ∣ b.length)
    (hcut : ∀ k, 40 ≤ k → k < b.length → d ∣ k → detect h (b.take k) = .ok ((b.length : Int), 2) ∨
      detect h (b.take k) = .ok ((b.length : Int), 3)) :
    Good (opts env h base vc ud skip sel) d b (if (ud && sel.isNone) = true then m' else m) m' where
  low := p.low
  high := p.high
  dvd := hd
  reclen := by
    split
    · obtain ⟨s, n, e⟩ := withSamples_record (p.samples 0 [])
      rw [e]; exact p.reclen
    · exact p.reclen
  reclen' := by
    obtain ⟨s, n, e⟩ := withSamples_record (p.samples 0 [])
    rw [e]; exact p.reclen
  parse off t eof := by
    show Record3.parse _ _ _ _ _ (ud && sel.isNone) _ = _
    rw [p.parse]
    by_cases hc : (ud && sel.isNone) = true
    · rw [if_pos hc]
      have : ud = true := by cases ud <;> simp at hc ⊢
      rw [hc, ← this, p.samples, bind_ok]
    · rw [if_neg hc]
      rw [show (ud && sel.isNone) = false from Bool.eq_false_iff.2 hc, withSamples_false, bind_ok]
  deliver hch off t := by
    show (if ud = true ∧ sel.isSome = true ∧ _ then withSamples h (base + off) (b ++ t) _ true
      else _) = _
    have hs := p.samples (base + off) t
    cases hu : ud with
    | false =>
      rw [if_neg (by simp)]
      simp only [Bool.false_and, Bool.false_eq_true, if_false]
      rw [hu, withSamples_false] at hs
      exact hs
    | true =>
      rw [hu] at hs
      cases hsel : sel with
      | none => simp
      | some f =>
        simp only [Option.isNone_some, Bool.and_false, Bool.false_eq_true, if_false, Option.isSome_some,
          true_and]
        by_cases hn : m.samplecnt > 0
        · rw [if_pos hn]; exact hs
        · rw [if_neg hn]
          unfold withSamples at hs
          rw [if_neg (by simp [hn])] at hs
          exact hs
  cut off k h40 hk hdk := by
    have hM : MAXRECLEN = 10485760 := rfl
    have hhigh := p.high
    have hl : (b.take k).length = k := by rw [List.length_take]; omega
    refine ⟨b.length - k, ?_, by omega⟩
    show Record3.parse _ _ _ _ _ _ _ = _
    unfold Record3.parse
    rcases hcut k h40 hk hdk with e | e
    all_goals
      rw [e, bind_ok]
      simp only
      rw [if_neg (by omega : ¬ (_ ∧ (b.length : Int) = 0 ∧ _)), if_neg (by omega), if_neg (by omega),
        if_neg (by omega), hl, if_pos (by omega), if_neg (by omega)]
      rfl

theorem need_piece {env : Record2.Env} {h vc : Bool} {b : List UInt8} {k : Nat}
    (hlow : 40 ≤ k) (hk : k < b.length) (hh : b.length ≤ MAXRECLEN)
    (hcut : detect h (b.take k) = .ok ((b.length : Int), 2) ∨
      detect h (b.take k) = .ok ((b.length : Int), 3)) (align : Nat) (ud eof : Bool) :
    Record3.parse (Record2.unpack2 env h align) h align (b.take k) vc ud eof =
      .ok (.need (b.length - k), b.take k) := by
  have hM : MAXRECLEN = 10485760 := rfl
  have hl : (b.take k).length = k := by rw [List.length_take]; omega
  unfold Record3.parse
  rcases hcut with e | e
  all_goals
    rw [e, bind_ok]
    simp only
    rw [if_neg (by omega : ¬ (_ ∧ (b.length : Int) = 0 ∧ _)), if_neg (by omega), if_neg (by omega),
      if_neg (by omega), hl, if_pos (by omega), if_neg (by omega)]
    rfl

/-! ## Signatures -/

theorem sig3_append {a : List UInt8} (t : List UInt8) (h : Signature3 a) : Signature3 (a ++ t) := by
  obtain ⟨x, b, c, u, rfl, h1⟩ := h
  exact ⟨x, b, c, u ++ t, by simp, h1⟩

theorem sig2_append {a : List UInt8} (t : List UInt8) (h : Signature2 a) : Signature2 (a ++ t) := by
  obtain ⟨x, q, z, b, c, d, e, u, rfl, h1⟩ := h
  exact ⟨x, q, z, b, c, d, e, u ++ t, by simp, h1⟩

theorem sig_of_append {a t : List UInt8} (hl : 40 ≤ a.length) :
    (Signature2 (a ++ t) → Signature2 a) ∧ (Signature3 (a ++ t) → Signature3 a) := by
  have e27 : (a ++ t).take 27 = a.take 27 := List.take_append_of_le_length (by omega)
  have e15 : (a ++ t).take 15 = a.take 15 := List.take_append_of_le_length (by omega)
  constructor
  · intro h
    rw [← sig2_iff _ (by simp; omega), e27, sig2_iff _ hl] at h
    exact h
  · intro h
    rw [← sig3_iff _ (by simp; omega), e15, sig3_iff _ hl] at h
    exact h

theorem bad_of {env : Record2.Env} {h vc ud skip : Bool} {base : Nat} {sel : Option (Msr → Bool)}
    {c : List UInt8} (h2 : ¬ Signature2 c) (h3 : ¬ Signature3 c) :
    Bad (opts env h base vc ud skip sel) c := by
  rintro mem rest off ud' eof rfl hl
  show Record3.parse _ _ _ _ _ _ _ = _
  unfold Record3.parse
  rw [Verif.Props.Record3.C27_not_a_record h mem
    (Or.inr ⟨fun hs => h3 (sig3_append _ hs), fun hs => h2 (sig2_append _ hs)⟩), bind_ok]
  simp

/-! ## Version 3 -/

theorem detect3_take (r : Spec.Record3.Rec) (v : r.Valid) (hl : r.bytes.length ≤ MAXRECLEN) (k : Nat)
    (hk : 40 ≤ k) : detect false (r.bytes.take k) = .ok ((r.bytes.length : Int), 3) := by
  have hM : MAXRECLEN = 10485760 := rfl
  exact Verif.Props.Record3.C27_exact_length_partial r v (by omega) _
    (by rw [List.take_take, Nat.min_eq_left hk])

/-- A record of version 3 that `msr3_parse` accepts by itself is one in a file. -/
theorem piece3 {env : Record2.Env} {vc : Bool} {r : Spec.Record3.Rec} (v : r.Valid)
    (hl : r.bytes.length ≤ MAXRECLEN) {m : Msr}
    (ha : Record3.parse (Record2.unpack2 env false 0) false 0 r.bytes vc false false =
      .ok (.record m, r.bytes)) : Piece env false vc false r.bytes m m ∧
      (∀ align t ud eof, Record3.parse (Record2.unpack2 env false align) false align (r.bytes ++ t) vc ud eof =
        (withSamples false align (r.bytes ++ t) m ud).bind fun p => .ok (p, r.bytes ++ t)) ∧
      ∃ s, m = Record3.header false r r.payload.length r.bytes.length s := by
  have hM : MAXRECLEN = 10485760 := rfl
  have hbl := Repack.bytes_length r
  have hpl : r.payload.length < 4294967296 := by omega
  have hparse : ∀ u2 align t ud eof, Record3.parse u2 false align (r.bytes ++ t) vc ud eof =
      unpack3 false align (r.bytes ++ t) r.bytes.length vc ud := fun u2 align t ud eof =>
    Record3.parse_v3 u2 false align _ vc ud eof r.bytes.length
      (PackRead.detect_bytes r v t (by omega)) (by omega) (by omega) (by simp)
  have hb : ∀ t, r.bytes ++ t = r.fixedFor r.payload.length ++ (r.sid ++ (r.extra ++
      (r.payload ++ t))) := by intro t; rw [Repack.bytes_eq]; simp only [List.append_assoc]
  have h0 := hparse (Record2.unpack2 env false 0) 0 [] false false
  rw [List.append_nil, ha] at h0
  have hsid : r.sid.length ≤ 63 := by
    apply Classical.byContradiction
    intro hs
    have hb0 := hb []
    rw [List.append_nil] at hb0
    have hlen : (40 : Int) ≤ r.bytes.length ∧ (r.bytes.length : Int) ≤ 10485760 := by omega
    generalize (r.bytes.length : Int) = q at h0 hlen
    rw [hb0] at h0
    unfold unpack3 at h0
    rw [if_neg (by omega), Record3.peek_fixed _ _ _ _ _ (by decide), bind_ok, List.drop_zero,
      Record3.valid_header r _ v, Record3.ld_sidlength false r _ _ v, bind_ok] at h0
    simp only [Bool.not_true, Bool.false_eq_true, if_false] at h0
    rw [if_pos (by omega)] at h0
    have := h0.symm
    rw [bind_eq_ok] at this
    obtain ⟨_, -, e⟩ := this
    injection e with e
    injection e with e
    cases e
  have hcrc : vc = true → r.crc = (Spec.Crc.crc32c 0
      (({ r with crc := 0 } : Spec.Record3.Rec).fixedFor r.payload.length ++
        (r.sid ++ (r.extra ++ r.payload)))).toNat := by
    intro hv
    apply Classical.byContradiction
    intro hc
    have := Record3.unpack3_crc false 0 r v r.payload.length hpl r.payload [] r.bytes.length (by omega)
      (by rw [hbl]; simp; omega) hsid false
    rw [if_neg hc, ← hb] at this
    rw [List.append_nil] at this
    rw [hv, this] at h0
    injection h0 with e
    injection e with e
    cases e
  have hno : ∀ align t ud, unpack3 false align (r.bytes ++ t) r.bytes.length vc ud =
      unpack3 false align (r.bytes ++ t) r.bytes.length false ud := by
    intro align t ud
    cases vc with
    | false => rfl
    | true =>
      have := Record3.unpack3_crc false align r v r.payload.length hpl r.payload t r.bytes.length (by omega)
        (by rw [hbl]; simp; omega) hsid ud
      rw [if_pos (hcrc rfl)] at this
      rw [hb]
      exact this
  have hgen : ∀ align t ud, unpack3 false align (r.bytes ++ t) r.bytes.length false ud =
      ((ofOut (time2nstime r.year r.day r.hour r.minute r.second r.nsec)).bind fun s =>
          if s = NSTERROR then .ok .genError
          else withSamples false align (r.bytes ++ t)
            (Record3.header false r r.payload.length r.bytes.length s) ud).bind
        fun p => .ok (p, r.bytes ++ t) := by
    intro align t ud
    have := Record3.unpack3_gen false align r v r.payload.length hpl (r.payload ++ t) r.bytes.length
      (by omega) hsid false ud
    simp only [Bool.false_eq_true, if_false, bind_ok, Bool.not_true] at this
    rw [Record3.unpackFields_gen false align r v r.payload.length hpl] at this
    rw [← hb] at this
    exact this
  have hm : ∃ s, time2nstime r.year r.day r.hour r.minute r.second r.nsec = .ok s ∧ s ≠ NSTERROR ∧
      m = Record3.header false r r.payload.length r.bytes.length s := by
    have h1 := hno 0 [] false
    rw [hgen 0 [] false, List.append_nil, ← h0] at h1
    cases ht : time2nstime r.year r.day r.hour r.minute r.second r.nsec with
    | ub => rw [ht] at h1; cases h1
    | ok s =>
      rw [ht] at h1
      simp only [ofOut, bind_ok, withSamples_false] at h1
      by_cases hs : s = NSTERROR
      · rw [if_pos hs] at h1
        injection h1 with e
        injection e with e
        cases e
      · rw [if_neg hs] at h1
        injection h1 with e
        injection e with e
        injection e with e
        exact ⟨s, rfl, hs, e⟩
  obtain ⟨s, hs, hne, rfl⟩ := hm
  have hall : ∀ align t ud eof, Record3.parse (Record2.unpack2 env false align) false align
      (r.bytes ++ t) vc ud eof = (withSamples false align (r.bytes ++ t)
        (Record3.header false r r.payload.length r.bytes.length s) ud).bind fun p => .ok (p, r.bytes ++ t) := by
    intro align t ud eof
    rw [hparse, hno, hgen, hs]
    simp only [ofOut, bind_ok]
    rw [if_neg hne]
  exact ⟨⟨by omega, hl, rfl, hall, fun align t => withSamples_false _ _ _ _⟩, hall, s, rfl⟩

/-! ## Version 2 -/

open Verif.Spec.Record2 in
/-- The beginning of a record with blockette 1000 as first blockette. -/
theorem detect2_take (h : Bool) (r : Rec) (v : r.Valid) (ht : Record2.Told h r)
    (hd : ∃ x y z p bs, r.chain = (.data x y z p, bs) :: r.chain.tail) (k : Nat) (hk : 56 ≤ k) :
    detect h (r.bytes.take k) = .ok ((r.bytes.length : Int), 2) := by
  obtain ⟨e, o, x, z, pad, hch⟩ := hd
  have hf := Record2.fixed_length2 r v
  have hb0 : r.bytes = r.fixed ++ (chainBytes r.be 48 r.chain ++ r.rest) := by simp [Rec.bytes]
  have hmem : ∃ nx u, nx < 65536 ∧ r.bytes.take k = r.fixed ++ (num r.be 2 1000 ++ (num r.be 2 nx ++
      ((Blkt.data e o x z).body r.be ++ u))) := by
    have hlt := v.chainEnd
    rw [hch, Record2.chain_cons] at hb0
    rw [hch, Record2.chain_cons_length _ _ (.data e o x z) pad _ trivial] at hlt
    refine ⟨if r.chain.tail = [] then 0 else 48 + (Blkt.data e o x z).size + pad.length, ?_, ?_, ?_⟩
    rotate_left
    · split <;> omega
    · rw [hb0, List.take_append, List.take_append, List.take_append, List.take_append,
        List.take_of_length_le (by omega),
        List.take_of_length_le (by simp [Record2.num_length]; omega),
        List.take_of_length_le (by simp [Record2.num_length]; omega),
        List.take_of_length_le (by simp [Record2.num_length, Blkt.body]; omega)]
      rfl
  obtain ⟨nx, u, hnx, hmem⟩ := hmem
  have hx : (2 : Nat) ^ x.toNat = r.bytes.length :=
    v.exponent (.data e o x z, pad) (by rw [hch]; exact List.mem_cons_self) e o x rfl
  have hx31 := Record2.exp_lt hx v.length.2
  generalize hgu : num r.be 2 1000 ++ (num r.be 2 nx ++ ((Blkt.data e o x z).body r.be ++ u)) = w at hmem
  have hul : 8 ≤ w.length := by rw [← hgu]; simp [Record2.num_length, Blkt.body]; omega
  obtain ⟨y, d, hy, hdd, hsw⟩ := Record2.order_told h r v ht w
  have hs := Record2.sig2 r v w
  have n3 : validHeader3 ((r.fixed ++ w).take 15) = false := by
    apply Bool.eq_false_iff.2
    intro hv
    exact sig_exclusive _ hs ((sig3_iff _ (by simp; omega)).1 hv)
  have hne : r.chain ≠ [] := by rw [hch]; simp
  unfold detect
  rw [hmem, if_neg (by simp; omega), peek_ok (by simp; omega), bind_ok, List.drop_zero, n3,
      if_neg (by decide), peek_ok (by simp; omega), bind_ok, List.drop_zero,
      (sig2_iff _ (by simp; omega)).2 hs, if_pos rfl]
  unfold detect2
  rw [hy, bind_ok, hdd, bind_ok]
  simp only [hsw]
  rw [Record2.ld_blockettes h r v w, bind_ok, if_neg hne]
  have e1 := Record2.blkt_type h r.be r.fixed u (.data e o x z) nx 48 hf
  have e2 := Record2.blkt_next h r.be r.fixed u (.data e o x z) nx 48 hf hnx
  have e5 := Record2.body_peek r.be r.fixed u (.data e o x z) nx 48 hf 2 1 (by simp [Blkt.body])
  have e6 := Record2.load_one h e5
  change load h (r.be != h) (r.fixed ++ (num r.be 2 1000 ++ _)) 48 2 = .ok 1000 at e1
  change load h (r.be != h) (r.fixed ++ (num r.be 2 1000 ++ _)) (48 + 2) 2 = _ at e2
  change load h false (r.fixed ++ (num r.be 2 1000 ++ _)) (48 + 6) 1 = .ok x.toNat at e6
  rw [hgu] at e1 e2 e6
  rw [show (65536 : Nat) = 65535 + 1 from rfl, blktLoop, if_pos (by simp; omega), e1, bind_ok, e2, bind_ok,
    if_pos ⟨rfl, by simp; omega⟩, e6, bind_ok, if_neg (by omega)]
  have h4 : sext 64 (2 ^ x.toNat) = 2 ^ x.toNat := by
    have hp : 2 ^ x.toNat < 2 ^ 31 := Nat.pow_lt_pow_right (by omega) hx31
    unfold sext
    rw [Nat.mod_eq_of_lt (by omega), if_pos (by omega)]
    simp
  rw [h4, ← hx]
  simp [bind_ok]

open Verif.Spec.Record2 in
theorem piece2 {env : Record2.Env} {h vc : Bool} {r : Rec} (v : r.Valid) (ht : Record2.Told h r)
    (hne : (Record2.hdrTime r).instant ≠ NSTERROR) (hd : (r.last Blkt.data?).isSome) {m : Msr}
    (ha : Record3.parse (Record2.unpack2 env h 0) h 0 r.bytes vc false false =
      .ok (.record m, r.bytes)) : Piece env h vc false r.bytes m m := by
  have h0 := Record2.parse2_eq env h 0 r v ht hne hd [] vc false false
  rw [List.append_nil, ha, withSamples_false, bind_ok] at h0
  injection h0 with e
  injection e with e
  injection e with e
  subst e
  have := v.length
  exact ⟨by omega, this.2, rfl, fun align t ud eof => Record2.parse2_eq env h align r v ht hne hd t vc ud eof,
    fun align t => withSamples_false _ _ _ _⟩

end Verif.Proof.Reader
