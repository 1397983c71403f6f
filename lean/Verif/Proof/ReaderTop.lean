import Verif.Proof.ReaderGood
import Verif.Proof.ReaderPos
/-! Lemmas on the file reader: whole files. -/
namespace Verif.Proof.Reader
open Verif.Model Verif.Model.Bytes Verif.Model.Steim Verif.Model.Mem Verif.Model.Record3
  Verif.Model.Reader
open Verif.Model.Detect hiding Blkt
open Verif.Proof.Mem Verif.Proof.Detect Verif.Props.Reader
open Verif.Spec.Record3 (Signature2 Signature3)

theorem junk_bad {env : Record2.Env} {h vc ud skip : Bool} {base : Nat} {sel : Option (Msr → Bool)}
    {j b : List UInt8} (hn : NoRecord j b) (hb : 40 ≤ b.length) (k : Nat) (hk : k < j.length)
    (t : List UInt8) : Bad (opts env h base vc ud skip sel) (j.drop k ++ (b ++ t)) := by
  obtain ⟨h2, h3⟩ := hn k hk
  rw [List.drop_append_of_le_length (by omega)] at h2 h3
  have hl : 40 ≤ (j.drop k ++ b).length := by rw [List.length_append]; omega
  rw [← List.append_assoc]
  exact bad_of (fun hs => h2 ((sig_of_append hl).1 hs)) (fun hs => h3 ((sig_of_append hl).2 hs))

theorem tail_bad {env : Record2.Env} {h vc ud skip : Bool} {base : Nat} {sel : Option (Msr → Bool)}
    {j : List UInt8} (hn : NoRecord j []) (k : Nat) (hk : k + 40 ≤ j.length) :
    Bad (opts env h base vc ud skip sel) (j.drop k) := by
  obtain ⟨h2, h3⟩ := hn k (by omega)
  rw [List.append_nil] at h2 h3
  exact bad_of h2 h3

theorem tail_any {env : Record2.Env} {h vc ud skip : Bool} {base : Nat} {sel : Option (Msr → Bool)}
    {d : Nat} {tail : List UInt8} (hd : d ≤ 1 ∨ tail.length < 40) (hf : Fits d tail.length)
    (ht : tail.length < 40 ∨ (skip = true ∧ NoRecord tail [])) :
    Tail (opts env h base vc ud skip sel) d tail code := by
  rcases ht with ht | ⟨hs, hn⟩
  · exact tail_short _ _ hf ht
  · rcases hd with hd | hd
    · exact tail_junk _ hs hd _ hf (fun k hk => tail_bad hn k hk)
    · exact tail_short _ _ hf hd

theorem code_length (l : List (Int × Msr)) : code l.length = lastCode l := by
  unfold code lastCode
  cases l <;> simp

theorem chosen_full (env : Record2.Env) (h : Bool) (base : Nat) (vc ud skip : Bool)
    (sel : Option (Msr → Bool)) (m m' : Msr) :
    chosen (opts env h base vc ud skip sel) (if (ud && sel.isNone) = true then m' else m) =
      wanted sel m := by
  cases sel with
  | none => rfl
  | some f =>
    rw [if_neg (by simp)]
    rfl

/-- With the samples. -/
theorem piece_full {env : Record2.Env} {h vc ud : Bool} {b : List UInt8} {m m' : Msr}
    (hp : Piece env h vc false b m m) (hf : Full env h vc ud b m m') : Piece env h vc ud b m m' := by
  cases ud with
  | false => rw [show m' = m from hf]; exact hp
  | true =>
    refine ⟨hp.low, hp.high, hp.reclen, hp.parse, ?_⟩
    intro align t
    have h1 := (hp.parse align t true false).symm.trans (hf align t false)
    rw [bind_eq_ok] at h1
    obtain ⟨p, h2, h3⟩ := h1
    rw [h2]
    injection h3 with h3
    injection h3 with h3
    rw [h3]

theorem takes_entries {env : Record2.Env} {h vc ud skip : Bool} {base : Nat}
    {sel : Option (Msr → Bool)} {d : Nat} (l : List Entry) (hd1 : d ≤ 1 ∨ ∀ e ∈ l, e.junk = [])
    (hp : ∀ e ∈ l, Piece env h vc ud e.bytes e.msr e.full)
    (hdv : ∀ e ∈ l, d = 0 ∨ d ∣ e.bytes.length)
    (hcut : ∀ e ∈ l, ∀ k, 40 ≤ k → k < e.bytes.length → d ∣ k →
      detect h (e.bytes.take k) = .ok ((e.bytes.length : Int), 2) ∨
      detect h (e.bytes.take k) = .ok ((e.bytes.length : Int), 3))
    (hj : ∀ e ∈ l, e.junk = [] ∨ (skip = true ∧ NoRecord e.junk e.bytes))
    {tail : List UInt8} {last : Nat → Ret} (ht : Tail (opts env h base vc ud skip sel) d tail last)
    (hf : Fits d (fileOf l tail).length) :
    Takes (opts env h base vc ud skip sel) (opened (fileOf l tail) 0 0)
      (expectedBytes 0 (ofFile sel l)) (last (expectedBytes 0 (ofFile sel l)).length) := by
  have e1 : cat (l.map fun e => (⟨e.junk, e.bytes, if (ud && sel.isNone) = true then e.full else e.msr, e.full⟩ : Item)) ++ tail = fileOf l tail := by
    unfold cat fileOf
    rw [List.flatMap_map]
  have e2 : items (opts env h base vc ud skip sel)
      (l.map fun e => (⟨e.junk, e.bytes, if (ud && sel.isNone) = true then e.full else e.msr, e.full⟩ : Item)) = ofFile sel l := by
    unfold items ofFile
    rw [List.map_map]
    refine List.map_congr_left fun e _ => ?_
    show (e.junk, e.bytes, chosen _ (if (ud && sel.isNone) = true then e.full else e.msr), e.full) = _
    rw [chosen_full]
  have := file_takes (opts_ends env h base vc ud skip sel) ht
    (l.map fun e => (⟨e.junk, e.bytes, if (ud && sel.isNone) = true then e.full else e.msr, e.full⟩ : Item)) (by
      intro i hi
      obtain ⟨e, he, rfl⟩ := List.mem_map.1 hi
      refine ⟨?_, ?_⟩
      · have := good_piece base skip sel d (hp e he) (hdv e he) (hcut e he)
        exact this
      · rcases hj e he with hj | ⟨hs, hn⟩
        · exact Or.inl hj
        · rcases hd1 with h1 | h1
          · exact Or.inr ⟨h1, hs, fun k hk t => junk_bad hn (hp e he).low k hk t⟩
          · exact Or.inl (h1 e he)) (by rw [e1]; exact hf)
  rw [e1, e2] at this
  exact this

theorem calls_entries {env : Record2.Env} {h vc ud skip : Bool} {base : Nat}
    {sel : Option (Msr → Bool)} {d : Nat} (l : List Entry) (hd1 : d ≤ 1 ∨ ∀ e ∈ l, e.junk = [])
    (hp : ∀ e ∈ l, Piece env h vc ud e.bytes e.msr e.full)
    (hdv : ∀ e ∈ l, d = 0 ∨ d ∣ e.bytes.length)
    (hcut : ∀ e ∈ l, ∀ k, 40 ≤ k → k < e.bytes.length → d ∣ k →
      detect h (e.bytes.take k) = .ok ((e.bytes.length : Int), 2) ∨
      detect h (e.bytes.take k) = .ok ((e.bytes.length : Int), 3))
    (hj : ∀ e ∈ l, e.junk = [] ∨ (skip = true ∧ NoRecord e.junk e.bytes))
    {tail : List UInt8} {last : Nat → Ret} (ht : Tail (opts env h base vc ud skip sel) d tail last)
    (hf : Fits d (fileOf l tail).length) :
    Calls (opts env h base vc ud skip sel) (opened (fileOf l tail) 0 0)
      (expected 0 (ofFile sel l)) (last (expected 0 (ofFile sel l)).length) := by
  have := takes_calls (takes_entries l hd1 hp hdv hcut hj ht hf)
  rw [expectedBytes_map] at this
  rw [← expectedBytes_map, List.length_map]
  rw [← expectedBytes_map] at this
  exact this

theorem piece_of3 {env : Record2.Env} {vc : Bool} {b : List UInt8} {m : Msr} (hv : Version3 b)
    (ha : Alone env false vc b m) : Piece env false vc false b m m ∧
      ∀ k, 40 ≤ k → detect false (b.take k) = .ok ((b.length : Int), 3) := by
  obtain ⟨r, v, rfl, hl⟩ := hv
  exact ⟨(piece3 v hl ha).1, fun k hk => detect3_take r v hl k hk⟩

theorem piece_of2 {env : Record2.Env} {h vc : Bool} {b : List UInt8} {m : Msr} (hv : Version2 h b)
    (ha : Alone env h vc b m) : Piece env h vc false b m m := by
  obtain ⟨r, v, hb, hr, hd, rfl⟩ := hv
  exact piece2 v (Props.Record2.told hb) (Props.Record2.not_reserved hr) hd ha

theorem piece_of2f {env : Record2.Env} {h vc : Bool} {b : List UInt8} {m : Msr}
    (hv : Version2First h b) (ha : Alone env h vc b m) : Piece env h vc false b m m ∧
      ∀ k, 56 ≤ k → detect h (b.take k) = .ok ((b.length : Int), 2) := by
  obtain ⟨r, v, hb, hr, ⟨x, y, z, p, bs, t, hch⟩, rfl⟩ := hv
  have hsome : (r.last Spec.Record2.Blkt.data?).isSome := by
    unfold Spec.Record2.Rec.last
    rw [hch, List.filterMap_cons]
    simp [Spec.Record2.Blkt.data?]
  refine ⟨piece2 v (Props.Record2.told hb) (Props.Record2.not_reserved hr) hsome ha, fun k hk => ?_⟩
  exact detect2_take h r v (Props.Record2.told hb) ⟨x, y, z, p, bs, by rw [hch]; rfl⟩ k hk

/-- The files of `Kinds` in terms of the multiples at which records are cut by the end of the buffer. -/
theorem kinds_cut {env : Record2.Env} {h vc ud skip : Bool} {l : List Entry} {tail : List UInt8} (hk : Kinds h skip l tail)
    (hp : ∀ e ∈ l, Alone env h vc e.bytes e.msr ∧ Full env h vc ud e.bytes e.msr e.full) :
    ∃ d, (d ≤ 1 ∨ ((∀ e ∈ l, e.junk = []) ∧ tail.length < 40)) ∧ Fits d (fileOf l tail).length ∧ Fits d tail.length ∧
      Gaps skip l tail ∧
      ∀ e ∈ l, Piece env h vc ud e.bytes e.msr e.full ∧ (d = 0 ∨ d ∣ e.bytes.length) ∧
        ∀ k, 40 ≤ k → k < e.bytes.length → d ∣ k →
          detect h (e.bytes.take k) = .ok ((e.bytes.length : Int), 2) ∨
          detect h (e.bytes.take k) = .ok ((e.bytes.length : Int), 3) := by
  have hM : MAXRECLEN = 10485760 := rfl
  have hM64 : 64 ∣ MAXRECLEN := by decide
  rcases hk with ⟨h3, g⟩ | ⟨h2, ht⟩ | ⟨h23, g, hs⟩
  · refine ⟨1, Or.inl (by omega), Or.inr (Nat.one_dvd _), Or.inr (Nat.one_dvd _), g, fun e he => ?_⟩
    obtain ⟨ha, hf⟩ := hp e he
    obtain ⟨rfl, hv⟩ := h3 e he
    exact ⟨piece_full (piece_of3 hv ha).1 hf, Or.inr (Nat.one_dvd _), fun k hk _ _ => Or.inr ((piece_of3 hv ha).2 k hk)⟩
  · refine ⟨64, Or.inr ⟨fun e he => (h2 e he).2.2, ht⟩, Or.inr hM64, Or.inr hM64,
      ⟨fun e he => Or.inl (h2 e he).2.2, Or.inl ht⟩, fun e he => ?_⟩
    obtain ⟨ha, hf⟩ := hp e he
    obtain ⟨hv, h64, _⟩ := h2 e he
    rcases hv with ⟨rfl, hv⟩ | hv
    · exact ⟨piece_full (piece_of3 hv ha).1 hf, Or.inr h64, fun k hk _ _ => Or.inr ((piece_of3 hv ha).2 k hk)⟩
    · exact ⟨piece_full (piece_of2f hv ha).1 hf, Or.inr h64, fun k hk _ _ => Or.inl ((piece_of2f hv ha).2 k (by omega))⟩
  · refine ⟨0, Or.inl (by omega), Or.inl ⟨rfl, by omega⟩, Or.inl ⟨rfl, ?_⟩, g, fun e he => ?_⟩
    · unfold fileOf at hs
      rw [List.length_append] at hs
      omega
    obtain ⟨ha, hf⟩ := hp e he
    refine ⟨?_, Or.inl rfl, fun k hk _ hd => by omega⟩
    rcases h23 e he with ⟨rfl, hv⟩ | hv
    · exact piece_full (piece_of3 hv ha).1 hf
    · exact piece_full (piece_of2 hv ha) hf

theorem kinds_takes {env : Record2.Env} {h vc ud skip : Bool} {base : Nat} {sel : Option (Msr → Bool)} {l : List Entry}
    {tail : List UInt8} (hk : Kinds h skip l tail)
    (hp : ∀ e ∈ l, Alone env h vc e.bytes e.msr ∧ Full env h vc ud e.bytes e.msr e.full) :
    Takes (opts env h base vc ud skip sel) (opened (fileOf l tail) 0 0) (expectedBytes 0 (ofFile sel l))
      (code (expectedBytes 0 (ofFile sel l)).length) := by
  obtain ⟨d, h1, h2, h3, ⟨h4, h5⟩, h6⟩ := kinds_cut hk hp
  exact takes_entries (d := d) l (h1.imp_right And.left) (fun e he => (h6 e he).1) (fun e he => (h6 e he).2.1)
    (fun e he => (h6 e he).2.2) h4 (tail_any (h1.imp_right And.right) h3 h5) h2

theorem kinds_calls {env : Record2.Env} {h vc ud skip : Bool} {base : Nat} {sel : Option (Msr → Bool)} {l : List Entry}
    {tail : List UInt8} (hk : Kinds h skip l tail)
    (hp : ∀ e ∈ l, Alone env h vc e.bytes e.msr ∧ Full env h vc ud e.bytes e.msr e.full) :
    Calls (opts env h base vc ud skip sel) (opened (fileOf l tail) 0 0) (expected 0 (ofFile sel l))
      (lastCode (expected 0 (ofFile sel l))) := by
  have := takes_calls (kinds_takes (base := base) (sel := sel) hk hp)
  rw [expectedBytes_map] at this
  rw [← code_length, ← expectedBytes_map, List.length_map]
  rw [← expectedBytes_map] at this
  exact this

/-- A record of version 2 of which 40 to 47 bytes are in the full read buffer. -/
theorem boundary {env : Record2.Env} {vc : Bool} {base : Nat} {b q : List UInt8} {m : Msr}
    (hp : Piece env false vc false b m m) {j : Nat} (hj : b.length + j = MAXRECLEN) (h40 : 40 ≤ j)
    (h48 : j < 48) (hq : j ≤ q.length) (hs : Signature2 q) :
    ∃ r', readmsr (opts env false base vc false false none) (opened (b ++ q) 0 0) = .ok (.record m, r') ∧
      readmsr (opts env false base vc false false none) r' = .oob := by
  have hM : MAXRECLEN = 10485760 := rfl
  have hbl : ∀ r : Reader, r.readoffset = 0 ∨ r.readoffset = b.length → r.buf.length = 0 ∧ r.readoffset = 0 ∨
      r.buf.length = MAXRECLEN → buflen r = .ok ((r.buf.length : Int) - r.readoffset) := by
    intro r h1 h2
    unfold buflen
    rw [if_pos (by omega)]
  let r1 : Reader := { unread := q.drop j, eof := false, buf := b ++ q.take j }
  have hlen : r1.buf.length = MAXRECLEN := by
    show (b ++ q.take j).length = _
    simp only [List.length_append, List.length_take]; omega
  have hrefill : refill 0 false (opened (b ++ q) 0 0) = (true, r1) := by
    unfold refill opened
    have e1 : (b ++ q).take MAXRECLEN = b ++ q.take j := by
      rw [← hj, List.take_append, List.take_of_length_le (by omega)]
      congr 2
      omega
    have e2 : (b ++ q).drop MAXRECLEN = q.drop j := by
      rw [← hj, List.drop_append, List.drop_of_length_le (by omega), List.nil_append]
      congr 1
      omega
    have e3 : decide ((b ++ q).length < MAXRECLEN) = false := by
      simp only [List.length_append, decide_eq_false_iff_not]; omega
    simp only [Int.toNat_zero, List.drop_zero, List.length_nil, Nat.sub_zero]
    rw [if_pos (by simp)]
    simp only [e1, e2, Int.le_refl, true_or, if_true, List.length_nil, Nat.sub_zero, e3]
    rw [if_neg (by rw [show (b ++ q.take j).length = MAXRECLEN from hlen]; omega)]
    rfl
  have good := good_piece base false none 0 hp (Or.inl rfl) (by intro k hk _ hd; omega)
  let r2 : Reader := { r1 with readoffset := b.length, streampos := b.length, recordcount := 1 }
  refine ⟨r2, ?_, ?_⟩
  · have hst : step (opts env false base vc false false none) false (opened (b ++ q) 0 0) =
        .ok (.done (.record m) r2) := by
      unfold step
      rw [if_neg (by simp [opened]), hbl _ (Or.inl rfl) (Or.inl ⟨rfl, rfl⟩), bind_ok]
      have : (((opened (b ++ q) 0 0).buf.length : Int) - (opened (b ++ q) 0 0).readoffset) = 0 := rfl
      rw [this, hrefill]
      simp only
      rw [hbl r1 (Or.inl rfl) (Or.inr hlen), bind_ok, if_pos (by
        rw [hlen]; show (40 : Int) ≤ (MAXRECLEN : Int) - 0; omega)]
      unfold attempt
      rw [if_neg (by show ¬ ((0 : Int) < 0); omega)]
      have hpar := good.parse 0 (q.take j) false
      simp only [Bool.false_and, Bool.false_eq_true, if_false] at hpar
      have : (opts env false base vc false false none).parse r1.readoffset.toNat
          (r1.buf.drop r1.readoffset.toNat) ((opts env false base vc false false none).unpackdata &&
          (opts env false base vc false false none).select.isNone) r1.eof =
          .ok (.record m, b ++ q.take j) := hpar
      rw [this, bind_ok]
      simp only
      rw [show chosen (opts env false base vc false false none) m = true from rfl, if_pos rfl]
      unfold deliver
      rw [if_neg (by intro h; cases h.1), bind_ok]
      simp only [bind_ok, finished]
      rw [hp.reclen]
      congr 2
      show advance _ _ = _
      unfold advance
      simp only [r1, r2, Int.zero_add]
      rfl
    have e : 4 * (opened (b ++ q) 0 0).unread.length + 2 * (opened (b ++ q) 0 0).buf.length + 6 =
        (4 * (opened (b ++ q) 0 0).unread.length + 2 * (opened (b ++ q) 0 0).buf.length + 5) + 1 := rfl
    unfold readmsr
    rw [e, loop, hst, bind_ok]
  · have hst : step (opts env false base vc false false none) false r2 = .oob := by
      unfold step
      have hr2 : r2.buf.length = MAXRECLEN := hlen
      have hn : ((r2.buf.length : Int) - r2.readoffset) = j := by
        rw [hr2]; show (MAXRECLEN : Int) - b.length = j; omega
      rw [if_neg (by intro h; exact h.1 rfl), hbl r2 (Or.inr rfl) (Or.inr hr2), bind_ok, hn]
      have : refill j false r2 = (true, r2) := by
        unfold refill
        rw [if_neg (by intro h; rcases h.2 with h | h; omega; cases h)]
      rw [this]
      simp only
      rw [hbl r2 (Or.inr rfl) (Or.inr hr2), bind_ok, hn, if_pos (by omega)]
      unfold attempt
      rw [if_neg (by show ¬ ((b.length : Int) < 0); omega)]
      have hmem : r2.buf.drop r2.readoffset.toNat = q.take j := by
        show (b ++ q.take j).drop (b.length : Int).toNat = _
        rw [Int.toNat_natCast, List.drop_left]
      have hjl : (q.take j).length = j := by rw [List.length_take]; omega
      have hsj : Signature2 (q.take j) := by
        refine (sig_of_append (t := q.drop j) (by omega)).1 ?_
        rw [List.take_append_drop]; exact hs
      have hdet : detect false (q.take j) = .oob := by
        unfold detect
        rw [if_neg (by omega), peek_ok (by omega), bind_ok, if_neg, peek_ok (by omega), bind_ok, if_pos]
        · unfold detect2
          rw [load_ok (by omega), bind_ok, load_ok (by omega), bind_ok]
          have : ∀ s, load false s (q.take j) 46 2 = .oob := by
            intro s
            unfold load peek
            rw [if_neg (by omega)]
            rfl
          simp only
          rw [this]
          rfl
        · rw [List.drop_zero]; exact (sig2_iff _ (by omega)).2 hsj
        · rw [List.drop_zero, sig3_iff _ (by omega)]; exact sig_exclusive _ hsj
      have : ∀ off ud eof, (opts env false base vc false false none).parse off (q.take j) ud eof = .oob := by
        intro off ud eof
        show Record3.parse _ _ _ _ _ _ _ = _
        unfold Record3.parse
        rw [hdet]
        rfl
      rw [hmem, this]
      rfl
    have e : 4 * r2.unread.length + 2 * r2.buf.length + 6 =
        (4 * r2.unread.length + 2 * r2.buf.length + 5) + 1 := rfl
    unfold readmsr
    rw [e, loop, hst]
    rfl

/-- A record of version 3 parsed alone. -/
theorem alone3 (env : Record2.Env) (r : Spec.Record3.Rec) (v : r.Valid)
    (hl : r.bytes.length ≤ MAXRECLEN) (hsid : r.sid.length ≤ 63) (s : Int)
    (hs : time2nstime r.year r.day r.hour r.minute r.second r.nsec = .ok s) (hne : s ≠ NSTERROR) :
    Alone env false false r.bytes (Record3.header false r r.payload.length r.bytes.length s) := by
  have hM : MAXRECLEN = 10485760 := rfl
  have hbl := Repack.bytes_length r
  have hparse := Record3.parse_v3 (Record2.unpack2 env false 0) false 0 (r.bytes ++ []) false false false
    r.bytes.length (PackRead.detect_bytes r v [] (by omega)) (by omega) (by omega) (by simp)
  have hb : r.bytes = r.fixedFor r.payload.length ++ (r.sid ++ (r.extra ++ r.payload)) := by
    rw [Repack.bytes_eq]
  rw [List.append_nil] at hparse
  unfold Alone
  rw [hparse]
  have hq : (40 : Int) ≤ r.bytes.length ∧ (r.bytes.length : Int) ≤ 10485760 := by omega
  generalize (r.bytes.length : Int) = q at hq
  rw [hb, Record3.unpack3_rec false 0 r v r.payload.length v.payload r.payload q hq hsid false s hs hne,
    withSamples_false, bind_ok]

/-- The end of a file within a record of version 3. -/
theorem tail_within {env : Record2.Env} {vc ud skip : Bool} {base : Nat} {sel : Option (Msr → Bool)}
    {b : List UInt8} (hv : Version3 b) {k : Nat} (h40 : 40 ≤ k) (hk : k < b.length) :
    Tail (opts env false base vc ud skip sel) 1 (b.take k) fun _ => .endOfFile := by
  obtain ⟨r, v, rfl, hl⟩ := hv
  have hM : MAXRECLEN = 10485760 := rfl
  have hlen : (r.bytes.take k).length = k := by rw [List.length_take]; omega
  refine tail_cut _ _ (Or.inr (Nat.one_dvd _)) (by omega) ?_
  intro off j eof hj hjk _
  rw [List.take_take, Nat.min_eq_left (by omega)]
  exact ⟨r.bytes.length - j, by omega, need_piece hj (by omega) (by omega)
    (Or.inr (detect3_take r v hl j hj)) _ _ _, by omega⟩

theorem sane3 {env : Record2.Env} {h vc ud skip : Bool} {base : Nat} {sel : Option (Msr → Bool)}
    {file : List UInt8} (hno : ∀ p, ¬ Signature2 (file.drop p)) :
    Sane (opts env h base vc ud skip sel) file where
  parse := by
    intro p mem rest off ud' eof m mem' hf e
    change Record3.parse _ _ _ _ _ _ _ = _ at e
    unfold Record3.parse at e
    rw [bind_eq_ok] at e
    obtain ⟨⟨n, v⟩, hd, e⟩ := e
    have hv : v ≠ 2 := by
      rintro rfl
      unfold detect at hd
      split at hd
      · injection hd with hd; injection hd with _ hd; cases hd
      rename_i hl
      rw [peek_ok (by omega), bind_ok] at hd
      split at hd
      · iterate 3
          rw [bind_eq_ok] at hd
          obtain ⟨_, -, hd⟩ := hd
        injection hd with hd; injection hd with _ hd; cases hd
      rw [peek_ok (by omega), bind_ok] at hd
      split at hd
      · rename_i hs
        rw [List.drop_zero, sig2_iff _ (by omega)] at hs
        refine hno p ?_
        rw [hf]
        exact sig2_append _ hs
      · injection hd with hd; injection hd with _ hd; cases hd
    simp only [hv, false_and, if_false] at e
    split at e
    · injection e with e; injection e with e; cases e
    split at e
    · injection e with e; injection e with e; cases e
    split at e
    · injection e with e; injection e with e; cases e
    split at e
    · injection e with e; injection e with e; cases e
    split at e
    · have := unpack3_reclen e
      omega
    · injection e with e; injection e with e; cases e
  unpack := by
    intro off mem m m' e
    obtain ⟨s, n, rfl⟩ := withSamples_record e
    rfl

theorem load_take (h s : Bool) {a t : List UInt8} {off n : Nat} (hl : off + n ≤ a.length) :
    load h s (a ++ t) off n = load h s a off n := by
  unfold load
  rw [Record3.peek_left a t off n hl, peek_ok hl]

theorem detect3_append {h : Bool} {a t : List UInt8} {n : Int} (hl : 40 ≤ a.length)
    (hd : detect h (a ++ t) = .ok (n, 3)) : detect h a = .ok (n, 3) := by
  unfold detect at hd ⊢
  rw [if_neg (by rw [List.length_append]; omega), Record3.peek_left a t 0 15 (by omega)] at hd
  rw [if_neg (by omega), peek_ok (by omega)]
  rw [bind_ok] at hd ⊢
  split at hd
  · rename_i hv
    rw [if_pos hv]
    rw [load_take h false (by omega), load_take h false (by omega), load_take h false (by omega)] at hd
    exact hd
  · rw [bind_eq_ok] at hd
    obtain ⟨_, -, hd⟩ := hd
    split at hd
    · rw [bind_eq_ok] at hd
      obtain ⟨_, -, hd⟩ := hd
      injection hd with hd
      injection hd with _ hd
      cases hd
    · injection hd with hd
      injection hd with _ hd
      cases hd

/-- A record that can be read is one in a file. -/
theorem good_reads (env : Record2.Env) (base : Nat) (skip : Bool) {b : List UInt8} {Q : Msr → Prop}
    (hr : Verif.Props.Pack.Reads b Q) :
    ∃ m, Q m ∧ Good (opts env false base true true skip none) 1 b m m := by
  obtain ⟨m, hq, hm⟩ := hr false
  have hlen : m.reclen = b.length := by
    have := (hm 0 []).1
    exact unpack3_reclen this
  have hdet : detect false b = .ok ((b.length : Int), 3) ∧ 40 ≤ b.length ∧ b.length ≤ 10485760 := by
    have h0 := (hm 0 []).2 rfl (fun _ _ _ => .err) false
    rw [List.append_nil] at h0
    unfold Record3.parse at h0
    rw [bind_eq_ok] at h0
    obtain ⟨⟨n, v⟩, hd, h0⟩ := h0
    simp only [Bool.false_eq_true, false_and, and_false, if_false] at h0
    split at h0
    · injection h0 with e; injection e with e; cases e
    split at h0
    · injection h0 with e; injection e with e; cases e
    split at h0
    · injection h0 with e; injection e with e; cases e
    rename_i hrange
    split at h0
    · injection h0 with e; injection e with e; cases e
    split at h0
    · rename_i hv
      subst hv
      have := unpack3_reclen h0
      rw [hlen] at this
      subst this
      exact ⟨hd, by omega, by omega⟩
    split at h0
    · cases h0
    · injection h0 with e; injection e with e; cases e
  obtain ⟨hd, h40, hM⟩ := hdet
  have hM' : MAXRECLEN = 10485760 := rfl
  refine ⟨m, hq, h40, by omega, Or.inr (Nat.one_dvd _), hlen, hlen, ?_, ?_, ?_⟩
  · intro off t eof
    exact (hm (base + off) t).2 rfl _ eof
  · intro _ off t
    rw [if_neg (by rintro ⟨-, h, -⟩; cases h)]
  · intro off k hk hlt _
    have hdk : detect false (b.take k) = .ok ((b.length : Int), 3) := by
      refine detect3_append (t := b.drop k) (by rw [List.length_take]; omega) ?_
      rw [List.take_append_drop]; exact hd
    exact ⟨b.length - k, need_piece hk hlt (by omega) (Or.inr hdk) _ _ _, by omega⟩

open Verif.Props.Pack in
/-- The items of packed records. -/
theorem items_divides (env : Record2.Env) (base : Nat) (skip : Bool) (src : Samples.Samples)
    (time : Nat → Out Int) (P : Nat → Nat → List UInt8 → Prop)
    (hP : ∀ a n r, P a n r → Reads r (fun m => m.samplecnt = n ∧ m.samples = slice a n src ∧
      time a = .ok m.starttime)) :
    ∀ rs a b, Divides P a rs b → ∃ l : List Item, cat l = rs.flatten ∧ l.length = rs.length ∧
      (∀ i ∈ l, Fine (opts env false base true true skip none) 1 i) ∧
      ∀ pos, Covers src time a (expected pos (items (opts env false base true true skip none) l)) b := by
  intro rs
  induction rs with
  | nil => intro a b h; exact ⟨[], rfl, rfl, by simp, fun _ => h⟩
  | cons r rs ih =>
    rintro a b ⟨n, hn, hp, hd⟩
    obtain ⟨l, h1, h0, h2, h3⟩ := ih _ _ hd
    obtain ⟨m, hq, hg⟩ := good_reads env base skip (hP _ _ _ hp)
    refine ⟨⟨[], r, m, m⟩ :: l, ?_, by rw [List.length_cons, h0, List.length_cons], ?_, ?_⟩
    · rw [cat_cons, h1]; rfl
    · intro i hi
      rcases List.mem_cons.1 hi with rfl | hi
      · exact ⟨hg, Or.inl rfl⟩
      · exact h2 i hi
    · intro pos
      exact ⟨n, hn, hq.1, hq.2.1, hq.2.2, h3 _⟩

end Verif.Proof.Reader
