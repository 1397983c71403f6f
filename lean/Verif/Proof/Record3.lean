import Verif.Spec.Record3
import Verif.Model.Record3
import Verif.Proof.Mem
import Verif.Props.Crc
/-! Lemmas on version 3 records. -/
namespace Verif.Proof.Record3
open Verif.Model Verif.Model.Bytes Verif.Model.Steim Verif.Model.Mem Verif.Model.Detect
open Verif.Model.Record3 Verif.Proof.Bytes Verif.Proof.Mem Verif.Spec.Record3

theorem le_eq (n v : Nat) : le n v = (beBytes n v).reverse := by
  induction n generalizing v with
  | zero => rfl
  | succ n ih => rw [le, beBytes, ih]; simp

theorem le_length (n v : Nat) : (le n v).length = n := by
  rw [le_eq]; simp [beBytes_length]

/-- A little-endian store. -/
theorem store_le (h : Bool) (n v : Nat) : store h h n v = le n v := by
  unfold store
  cases h <;> simp [swapIf, hostBytes, le_eq]

theorem store_byte (h : Bool) (v : Nat) : store h false 1 v = le 1 v := by
  cases h <;> simp [store, swapIf, hostBytes, le, beBytes]

theorem load_le (h : Bool) {mem : List UInt8} {off n v : Nat} (hp : peek mem off n = .ok (le n v))
    (hv : v < 256 ^ n) : load h h mem off n = .ok v := by
  unfold load
  rw [hp, bind_ok]
  congr 1
  rw [le_eq]
  cases h <;> simp [swapIf, hostNat, beNat_beBytes, Nat.mod_eq_of_lt hv]

theorem load_byte (h : Bool) {mem : List UInt8} {off v : Nat} (hp : peek mem off 1 = .ok (le 1 v))
    (hv : v < 256) : load h false mem off 1 = .ok v := by
  unfold load
  rw [hp, bind_ok]
  congr 1
  cases h <;> simp [swapIf, hostNat, le, beNat] <;> omega

theorem fixed_length (r : Rec) (d : Nat) : (r.fixedFor d).length = 40 := by
  simp [Rec.fixedFor, le_length]

theorem peek_left (a t : List UInt8) (off n : Nat) (h : off + n ≤ a.length) :
    peek (a ++ t) off n = .ok ((a.drop off).take n) := by
  rw [peek_ok (by simp; omega), List.drop_append_of_le_length (by omega),
    List.take_append_of_le_length (by simp; omega)]

/-- Reading inside the fixed header of a buffer that begins with it. -/
theorem peek_fixed (r : Rec) (d : Nat) (t : List UInt8) (off n : Nat) (h : off + n ≤ 40) :
    peek ((r.fixedFor d) ++ t) off n = .ok (((r.fixedFor d).drop off).take n) :=
  peek_left _ _ _ _ (by rw [fixed_length]; exact h)

/-- The fixed header byte by byte. -/
theorem fixed_cons (r : Rec) (d : Nat) : (r.fixedFor d) =
    [77, 83, UInt8.ofNat (3 % 256), UInt8.ofNat (r.flags % 256)] ++ (le 4 r.nsec ++
    (le 2 r.year ++ (le 2 r.day ++ ([UInt8.ofNat (r.hour % 256), UInt8.ofNat (r.minute % 256),
    UInt8.ofNat (r.second % 256), UInt8.ofNat (r.encoding % 256)] ++ (le 8 r.rate ++
    (le 4 r.numsamples ++ (le 4 r.crc ++ ([UInt8.ofNat (r.pubversion % 256),
    UInt8.ofNat (r.sid.length % 256)] ++ (le 2 r.extra.length ++ le 4 d))))))))) := by
  simp only [Rec.fixedFor, List.append_assoc, le, List.cons_append, List.nil_append]

macro "pk" : tactic => `(tactic| (
  rw [peek_fixed _ _ _ _ _ (by decide), fixed_cons]
  simp only [le, List.cons_append, List.nil_append, List.drop_succ_cons, List.drop_zero,
    List.take_succ_cons, List.take_zero]))

section fields
variable (h : Bool) (r : Rec) (d : Nat) (t : List UInt8) (v : r.Valid)
include v

omit v in
theorem ld_version : load h false ((r.fixedFor d) ++ t) 2 1 = .ok 3 :=
  load_byte h (by pk) (by decide)
theorem ld_flags : load h false ((r.fixedFor d) ++ t) 3 1 = .ok r.flags :=
  load_byte h (by pk) v.flags
theorem ld_nsec : load h h ((r.fixedFor d) ++ t) 4 4 = .ok r.nsec :=
  load_le h (by pk) v.nsec
theorem ld_year : load h h ((r.fixedFor d) ++ t) 8 2 = .ok r.year :=
  load_le h (by pk) v.year
theorem ld_day : load h h ((r.fixedFor d) ++ t) 10 2 = .ok r.day :=
  load_le h (by pk) v.day
theorem ld_hour : load h false ((r.fixedFor d) ++ t) 12 1 = .ok r.hour :=
  load_byte h (by pk) (by have := v.hour; omega)
theorem ld_minute : load h false ((r.fixedFor d) ++ t) 13 1 = .ok r.minute :=
  load_byte h (by pk) (by have := v.minute; omega)
theorem ld_second : load h false ((r.fixedFor d) ++ t) 14 1 = .ok r.second :=
  load_byte h (by pk) (by have := v.second; omega)
theorem ld_encoding : load h false ((r.fixedFor d) ++ t) 15 1 = .ok r.encoding :=
  load_byte h (by pk) v.encoding
theorem ld_rate : load h h ((r.fixedFor d) ++ t) 16 8 = .ok r.rate :=
  load_le h (by pk) v.rate
theorem ld_numsamples : load h h ((r.fixedFor d) ++ t) 24 4 = .ok r.numsamples :=
  load_le h (by pk) v.numsamples
theorem ld_crc : load h h ((r.fixedFor d) ++ t) 28 4 = .ok r.crc :=
  load_le h (by pk) v.crc
theorem ld_pubversion : load h false ((r.fixedFor d) ++ t) 32 1 = .ok r.pubversion :=
  load_byte h (by pk) v.pubversion
theorem ld_sidlength : load h false ((r.fixedFor d) ++ t) 33 1 = .ok r.sid.length :=
  load_byte h (by pk) v.sid
theorem ld_extralength : load h h ((r.fixedFor d) ++ t) 34 2 = .ok r.extra.length :=
  load_le h (by pk) v.extra
omit v in
theorem ld_datalength (hd : d < 4294967296) : load h h ((r.fixedFor d) ++ t) 36 4 = .ok d :=
  load_le h (by pk) hd

theorem valid_header : validHeader3 ((r.fixedFor d).take 15) = true := by
  have h1 := v.hour
  have h2 := v.minute
  have h3 := v.second
  simp only [Rec.fixedFor, le, validHeader3, byte, List.append_assoc, List.nil_append,
    List.cons_append]
  simp
  omega

end fields

/-- The bytes of the identifier and extra headers. -/
theorem peek_sid (r : Rec) (d : Nat) (t : List UInt8) :
    peek ((r.fixedFor d) ++ (r.sid ++ t)) 40 r.sid.length = .ok r.sid := by
  have := peek_append (a := (r.fixedFor d)) (b := r.sid) (c := t)
  rwa [fixed_length, List.append_assoc] at this

theorem peek_extra (r : Rec) (d : Nat) (t : List UInt8) :
    peek ((r.fixedFor d) ++ (r.sid ++ (r.extra ++ t))) (40 + r.sid.length) r.extra.length
      = .ok r.extra := by
  have := peek_append (a := (r.fixedFor d) ++ r.sid) (b := r.extra) (c := t)
  simpa [fixed_length, List.append_assoc] using this

/-- The record description obtained from a record without decoding the samples. -/
def header (h : Bool) (r : Rec) (d : Nat) (reclen starttime : Int) : Msr :=
  { sid := r.sid, reclen, swapHeader := h,
    swapPayload := if r.encoding = 10 ∨ r.encoding = 11 then !h else h,
    formatversion := 3, flags := r.flags, starttime, samprate := r.rate, encoding := r.encoding,
    pubversion := r.pubversion, samplecnt := r.numsamples, crc := r.crc, extra := r.extra,
    datalength := d }

theorem unpackFields_gen (h : Bool) (align : Nat) (r : Rec) (v : r.Valid) (d : Nat)
    (hd : d < 4294967296) (t : List UInt8) (reclen : Int) (ud : Bool) :
    unpackFields h align ((r.fixedFor d) ++ (r.sid ++ (r.extra ++ t))) reclen r.sid.length ud
      = (ofOut (time2nstime r.year r.day r.hour r.minute r.second r.nsec)).bind fun s =>
          if s = NSTERROR then .ok .genError
          else withSamples h align ((r.fixedFor d) ++ (r.sid ++ (r.extra ++ t)))
            (header h r d reclen s) ud := by
  unfold unpackFields
  have hx : (if r.extra.length ≠ 0 then
      peek ((r.fixedFor d) ++ (r.sid ++ (r.extra ++ t))) (40 + r.sid.length) r.extra.length
      else .ok []) = .ok r.extra := by
    split
    · exact peek_extra r d t
    · rename_i hn
      have : r.extra = [] := by
        apply List.eq_nil_of_length_eq_zero; omega
      rw [this]
  simp only [ld_version h r, ld_flags h r _ _ v, ld_nsec h r _ _ v, ld_year h r _ _ v,
    ld_day h r _ _ v, ld_hour h r _ _ v, ld_minute h r _ _ v, ld_second h r _ _ v,
    ld_encoding h r _ _ v,
    ld_rate h r _ _ v, ld_numsamples h r _ _ v, ld_crc h r _ _ v, ld_pubversion h r _ _ v,
    ld_extralength h r _ _ v, ld_datalength h r d _ hd, peek_sid, hx, bind_ok]
  rfl

theorem unpackFields_rec (h : Bool) (align : Nat) (r : Rec) (v : r.Valid) (d : Nat)
    (hd : d < 4294967296) (t : List UInt8) (reclen : Int) (ud : Bool) (s : Int)
    (hs : time2nstime r.year r.day r.hour r.minute r.second r.nsec = .ok s) (hne : s ≠ NSTERROR) :
    unpackFields h align ((r.fixedFor d) ++ (r.sid ++ (r.extra ++ t))) reclen r.sid.length ud
      = withSamples h align ((r.fixedFor d) ++ (r.sid ++ (r.extra ++ t)))
          (header h r d reclen s) ud := by
  rw [unpackFields_gen h align r v d hd t reclen ud, hs]
  simp only [ofOut, bind_ok]
  rw [if_neg hne]

theorem unpack3_rec (h : Bool) (align : Nat) (r : Rec) (v : r.Valid) (d : Nat) (hd : d < 4294967296) (t : List UInt8)
    (reclen : Int) (hr : 40 ≤ reclen ∧ reclen ≤ 10485760) (hsid : r.sid.length ≤ 63)
    (ud : Bool) (s : Int)
    (hs : time2nstime r.year r.day r.hour r.minute r.second r.nsec = .ok s) (hne : s ≠ NSTERROR) :
    unpack3 h align ((r.fixedFor d) ++ (r.sid ++ (r.extra ++ t))) reclen false ud
      = (withSamples h align ((r.fixedFor d) ++ (r.sid ++ (r.extra ++ t))) (header h r d reclen s) ud).bind
          fun p => .ok (p, (r.fixedFor d) ++ (r.sid ++ (r.extra ++ t))) := by
  unfold unpack3
  rw [if_neg (by omega), peek_fixed _ _ _ _ _ (by decide), bind_ok, List.drop_zero,
    valid_header r d v, ld_sidlength h r _ _ v, bind_ok]
  simp only [Bool.not_true, Bool.false_eq_true, if_false]
  rw [if_neg (by omega), bind_ok]
  simp only [Bool.not_true, Bool.false_eq_true, if_false]
  rw [unpackFields_rec h align r v d hd t reclen ud s hs hne]

theorem cons_of_length {l : List UInt8} {n : Nat} (h : n + 1 ≤ l.length) :
    ∃ a t, l = a :: t ∧ n ≤ t.length := by
  cases l with
  | nil => simp at h
  | cons a t => exact ⟨a, t, rfl, by simpa using h⟩

theorem cons40 {l : List UInt8} (h : 40 ≤ l.length) : ∃ b0 b1 b2 b3 b4 b5 b6 b7 b8 b9 b10 b11 b12
    b13 b14 b15 b16 b17 b18 b19 b20 b21 b22 b23 b24 b25 b26 b27 b28 b29 b30 b31 b32 b33 b34 b35
    b36 b37 b38 b39 t,
    l = b0 :: b1 :: b2 :: b3 :: b4 :: b5 :: b6 :: b7 :: b8 :: b9 :: b10 :: b11 :: b12 :: b13 ::
    b14 :: b15 :: b16 :: b17 :: b18 :: b19 :: b20 :: b21 :: b22 :: b23 :: b24 :: b25 :: b26 :: b27
    :: b28 :: b29 :: b30 :: b31 :: b32 :: b33 :: b34 :: b35 :: b36 :: b37 :: b38 :: b39 :: t := by
  obtain ⟨b0, l0, rfl, h0⟩ := cons_of_length h; obtain ⟨b1, l1, rfl, h1⟩ := cons_of_length h0
  obtain ⟨b2, l2, rfl, h2⟩ := cons_of_length h1; obtain ⟨b3, l3, rfl, h3⟩ := cons_of_length h2
  obtain ⟨b4, l4, rfl, h4⟩ := cons_of_length h3; obtain ⟨b5, l5, rfl, h5⟩ := cons_of_length h4
  obtain ⟨b6, l6, rfl, h6⟩ := cons_of_length h5; obtain ⟨b7, l7, rfl, h7⟩ := cons_of_length h6
  obtain ⟨b8, l8, rfl, h8⟩ := cons_of_length h7; obtain ⟨b9, l9, rfl, h9⟩ := cons_of_length h8
  obtain ⟨b10, l10, rfl, h10⟩ := cons_of_length h9; obtain ⟨b11, l11, rfl, h11⟩ := cons_of_length h10
  obtain ⟨b12, l12, rfl, h12⟩ := cons_of_length h11; obtain ⟨b13, l13, rfl, h13⟩ := cons_of_length h12
  obtain ⟨b14, l14, rfl, h14⟩ := cons_of_length h13; obtain ⟨b15, l15, rfl, h15⟩ := cons_of_length h14
  obtain ⟨b16, l16, rfl, h16⟩ := cons_of_length h15; obtain ⟨b17, l17, rfl, h17⟩ := cons_of_length h16
  obtain ⟨b18, l18, rfl, h18⟩ := cons_of_length h17; obtain ⟨b19, l19, rfl, h19⟩ := cons_of_length h18
  obtain ⟨b20, l20, rfl, h20⟩ := cons_of_length h19; obtain ⟨b21, l21, rfl, h21⟩ := cons_of_length h20
  obtain ⟨b22, l22, rfl, h22⟩ := cons_of_length h21; obtain ⟨b23, l23, rfl, h23⟩ := cons_of_length h22
  obtain ⟨b24, l24, rfl, h24⟩ := cons_of_length h23; obtain ⟨b25, l25, rfl, h25⟩ := cons_of_length h24
  obtain ⟨b26, l26, rfl, h26⟩ := cons_of_length h25; obtain ⟨b27, l27, rfl, h27⟩ := cons_of_length h26
  obtain ⟨b28, l28, rfl, h28⟩ := cons_of_length h27; obtain ⟨b29, l29, rfl, h29⟩ := cons_of_length h28
  obtain ⟨b30, l30, rfl, h30⟩ := cons_of_length h29; obtain ⟨b31, l31, rfl, h31⟩ := cons_of_length h30
  obtain ⟨b32, l32, rfl, h32⟩ := cons_of_length h31; obtain ⟨b33, l33, rfl, h33⟩ := cons_of_length h32
  obtain ⟨b34, l34, rfl, h34⟩ := cons_of_length h33; obtain ⟨b35, l35, rfl, h35⟩ := cons_of_length h34
  obtain ⟨b36, l36, rfl, h36⟩ := cons_of_length h35; obtain ⟨b37, l37, rfl, h37⟩ := cons_of_length h36
  obtain ⟨b38, l38, rfl, h38⟩ := cons_of_length h37; obtain ⟨b39, l39, rfl, h39⟩ := cons_of_length h38
  exact ⟨_, _, _, _, _, _, _, _, _, _, _, _, _, _, _, _, _, _, _, _,
    _, _, _, _, _, _, _, _, _, _, _, _, _, _, _, _, _, _, _, _, l39, rfl⟩

/-- A little-endian number. -/
def unle : List UInt8 → Nat
  | [] => 0
  | b :: l => b.toNat + 256 * unle l

theorem le_unle (l : List UInt8) : le l.length (unle l) = l := by
  induction l with
  | nil => rfl
  | cons b l ih =>
    have := b.toNat_lt
    rw [List.length_cons, le, unle, show (b.toNat + 256 * unle l) / 256 = unle l by omega, ih,
      show (b.toNat + 256 * unle l) % 256 = b.toNat by omega]
    simp

theorem unle_lt (l : List UInt8) : unle l < 256 ^ l.length := by
  induction l with
  | nil => simp [unle]
  | cons b l ih =>
    have := b.toNat_lt
    rw [List.length_cons, unle, Nat.pow_succ]; omega

/-- The writes of `msr3_pack_header3`. -/
theorem header_writes (h : Bool) (flags enc rate pub sidl extl : Nat) (t : DateTime)
    (buf : List UInt8) (hl : 40 ≤ buf.length) :
    pokes buf ([(0, [77]), (1, [83]), (2, [3]), (3, store h false 1 flags)] ++
            timeWrites h t ++
            [ (15, store h false 1 enc),
              (16, store h h 8 rate),
              (32, store h false 1 pub),
              (33, store h false 1 sidl),
              (34, store h h 2 extl)]) = 
    .ok ([77, 83, 3] ++ le 1 flags ++ le 4 t.nsec.toNat ++ le 2 t.year.toNat ++ le 2 t.yday.toNat ++
      le 1 t.hour.toNat ++ le 1 t.min.toNat ++ le 1 t.sec.toNat ++ le 1 enc ++ le 8 rate ++
      (buf.drop 24).take 8 ++ le 1 pub ++ le 1 sidl ++ le 2 extl ++ buf.drop 36) := by
  obtain ⟨_, _, _, _, _, _, _, _, _, _, _, _, _, _, _, _, _, _, _, _,
    _, _, _, _, _, _, _, _, _, _, _, _, _, _, _, _, _, _, _, _, buf, rfl⟩ := cons40 hl
  simp only [timeWrites, store_le, store_byte, List.cons_append, List.nil_append, pokes, poke, le,
    List.length_cons, List.length_nil, List.take_succ_cons, List.take_zero, List.drop_succ_cons,
    List.drop_zero, Nat.reduceAdd, Nat.zero_add, if_true, bind_ok, Nat.le_add_left]

/-- The header `msr3_pack_header3` writes over the buffer `buf`. -/
def packed (nr : Nat → Nat) (msr : Msr) (t : DateTime) (buf : List UInt8) : Rec :=
  { flags := msr.flags, nsec := t.nsec.toNat, year := t.year.toNat, day := t.yday.toNat,
    hour := t.hour.toNat, minute := t.min.toNat, second := t.sec.toNat,
    encoding := packEncoding msr.encoding, rate := storedRate nr msr.samprate,
    numsamples := unle ((buf.drop 24).take 4), crc := unle ((buf.drop 28).take 4),
    pubversion := msr.pubversion, sid := msr.sid.takeWhile (· != 0), extra := msr.extra,
    payload := [] }

theorem packHeader3_eq (nr : Nat → Nat) (h : Bool) (msr : Msr) (t : DateTime) (buf : List UInt8)
    (n : Nat) (hr : 40 ≤ packReclen msr.reclen ∧ packReclen msr.reclen ≤ 10485760)
    (ht : nstime2time msr.starttime = some t)
    (hs : (msr.sid.takeWhile (· != 0)).length ≤ 255) (he : msr.extra.length < 65536)
    (hn : 40 + (msr.sid.takeWhile (· != 0)).length + msr.extra.length ≤ n)
    (hb : 40 + (msr.sid.takeWhile (· != 0)).length + msr.extra.length ≤ buf.length) :
    packHeader3 nr h msr buf n =
      .ok ((packed nr msr t buf).fixedFor (unle ((buf.drop 36).take 4)) ++
            (msr.sid.takeWhile (· != 0) ++ (msr.extra ++
              buf.drop (40 + (msr.sid.takeWhile (· != 0)).length + msr.extra.length))),
          40 + (msr.sid.takeWhile (· != 0)).length + msr.extra.length) := by
  unfold packHeader3
  generalize hsd : msr.sid.takeWhile (· != 0) = sid at *
  rw [if_neg (by omega)]
  simp only
  rw [if_neg (by omega), ht]
  simp only
  rw [if_neg (by omega)]
  generalize hx : (if msr.extra.length > 0 then [(40 + sid.length, msr.extra)] else []) = xs
  have key : pokes buf ([(0, [77]), (1, [83]), (2, [3]), (3, store h false 1 msr.flags)] ++
            timeWrites h t ++
            [ (15, store h false 1 (packEncoding msr.encoding)),
              (16, store h h 8 (storedRate nr msr.samprate)),
              (32, store h false 1 msr.pubversion),
              (33, store h false 1 sid.length),
              (34, store h h 2 msr.extra.length), (40, sid)] ++ xs)
      = .ok ((packed nr msr t buf).fixedFor (unle ((buf.drop 36).take 4)) ++
            (sid ++ (msr.extra ++ buf.drop (40 + sid.length + msr.extra.length)))) := by
    have e : ∀ (A B : List (Nat × List UInt8)) a b c d e f,
        A ++ B ++ [a, b, c, d, e, f] ++ xs = (A ++ B ++ [a, b, c, d, e]) ++ ([f] ++ xs) := by
      intro A B a b c d e f; simp
    rw [e, pokes_append, header_writes h _ _ _ _ _ _ _ _ (by omega), bind_ok]
    have e1 : (buf.drop 24).take 8 = le 4 (unle ((buf.drop 24).take 4)) ++
        le 4 (unle ((buf.drop 28).take 4)) := by
      have l1 : ((buf.drop 24).take 4).length = 4 := by simp; omega
      have l2 : ((buf.drop 28).take 4).length = 4 := by simp; omega
      have a1 := le_unle ((buf.drop 24).take 4)
      have a2 := le_unle ((buf.drop 28).take 4)
      rw [l1] at a1
      rw [l2] at a2
      rw [a1, a2, show (8:Nat) = 4 + 4 from rfl, List.take_add, List.drop_drop]
    have e2 : buf.drop 36 = le 4 (unle ((buf.drop 36).take 4)) ++ buf.drop 40 := by
      have l1 : ((buf.drop 36).take 4).length = 4 := by simp; omega
      have a1 := le_unle ((buf.drop 36).take 4)
      rw [l1] at a1
      rw [a1]
      have := List.take_append_drop 4 (buf.drop 36)
      rw [List.drop_drop] at this
      exact this.symm
    have e3 : [77, 83, 3] ++ le 1 msr.flags ++ le 4 t.nsec.toNat ++ le 2 t.year.toNat ++
        le 2 t.yday.toNat ++ le 1 t.hour.toNat ++ le 1 t.min.toNat ++ le 1 t.sec.toNat ++
        le 1 (packEncoding msr.encoding) ++ le 8 (storedRate nr msr.samprate) ++
        (buf.drop 24).take 8 ++ le 1 msr.pubversion ++ le 1 sid.length ++ le 2 msr.extra.length ++
        buf.drop 36
        = (packed nr msr t buf).fixedFor (unle ((buf.drop 36).take 4)) ++ buf.drop 40 := by
      rw [e1]
      rw [e2]
      have e3 : ([77, 83, 3] : List UInt8) = [77, 83] ++ le 1 3 := by decide
      have l1 : (((le 4 (unle (List.take 4 (List.drop 36 buf))) ++ List.drop 40 buf)).take 4)
          = le 4 (unle (List.take 4 (List.drop 36 buf))) := by
        rw [List.take_left' (le_length _ _)]
      rw [e3, l1]
      unfold Rec.fixedFor packed
      simp only [List.append_assoc, hsd]
      have l1 : ((buf.drop 36).take 4).length = 4 := by simp; omega
      have a1 := le_unle ((buf.drop 36).take 4)
      rw [l1] at a1
      simp only [a1]
    rw [e3]
    generalize hf : (packed nr msr t buf).fixedFor (unle ((buf.drop 36).take 4)) = fx
    have hfl : fx.length = 40 := by rw [← hf]; exact fixed_length _ _
    have p1 : poke (fx ++ buf.drop 40) 40 sid = .ok (fx ++ sid ++ (buf.drop 40).drop sid.length) := by
      rw [← hfl]; apply poke_append'; simp; omega
    rw [List.drop_drop] at p1
    rw [List.cons_append, pokes, p1, bind_ok, List.nil_append, ← hx]
    split
    · have p2 : poke (fx ++ sid ++ buf.drop (40 + sid.length)) (40 + sid.length) msr.extra
          = .ok (fx ++ sid ++ msr.extra ++ (buf.drop (40 + sid.length)).drop msr.extra.length) := by
        rw [show 40 + sid.length = (fx ++ sid).length by simp [hfl]]
        apply poke_append'; simp; omega
      rw [pokes, p2, bind_ok, List.drop_drop]
      simp [pokes, List.append_assoc]
    · have : msr.extra = [] := by apply List.eq_nil_of_length_eq_zero; omega
      simp [pokes, this, List.append_assoc]
  rw [key, bind_ok]

/-! ## Overwriting header fields -/

theorem fixed_assoc (r : Rec) (d : Nat) : r.fixedFor d =
    [77, 83] ++ (le 1 3 ++ (le 1 r.flags ++ (le 4 r.nsec ++ (le 2 r.year ++ (le 2 r.day ++
    (le 1 r.hour ++ (le 1 r.minute ++ (le 1 r.second ++ (le 1 r.encoding ++ (le 8 r.rate ++
    (le 4 r.numsamples ++ (le 4 r.crc ++ (le 1 r.pubversion ++ (le 1 r.sid.length ++
    (le 2 r.extra.length ++ le 4 d))))))))))))))) := by
  unfold Rec.fixedFor
  simp only [List.append_assoc]

theorem poke_crc (r : Rec) (d : Nat) (t : List UInt8) (c : Nat) :
    poke (r.fixedFor d ++ t) 28 (le 4 c) = .ok (({ r with crc := c } : Rec).fixedFor d ++ t) := by
  have := poke_append (a := [77, 83] ++ (le 1 3 ++ (le 1 r.flags ++ (le 4 r.nsec ++ (le 2 r.year ++
    (le 2 r.day ++ (le 1 r.hour ++ (le 1 r.minute ++ (le 1 r.second ++ (le 1 r.encoding ++
    (le 8 r.rate ++ le 4 r.numsamples))))))))))) (b := le 4 r.crc)
    (c := le 1 r.pubversion ++ (le 1 r.sid.length ++ (le 2 r.extra.length ++ (le 4 d ++ t))))
    (d := le 4 c) (by simp [le_length])
  simp only [List.length_append, le_length, List.length_cons, List.length_nil] at this
  rw [fixed_assoc, fixed_assoc]
  simpa only [List.append_assoc] using this

theorem poke_numsamples (r : Rec) (d : Nat) (t : List UInt8) (c : Nat) :
    poke (r.fixedFor d ++ t) 24 (le 4 c)
      = .ok (({ r with numsamples := c } : Rec).fixedFor d ++ t) := by
  have := poke_append (a := [77, 83] ++ (le 1 3 ++ (le 1 r.flags ++ (le 4 r.nsec ++ (le 2 r.year ++
    (le 2 r.day ++ (le 1 r.hour ++ (le 1 r.minute ++ (le 1 r.second ++ (le 1 r.encoding ++
    le 8 r.rate)))))))))) (b := le 4 r.numsamples)
    (c := le 4 r.crc ++ (le 1 r.pubversion ++ (le 1 r.sid.length ++ (le 2 r.extra.length ++
      (le 4 d ++ t)))))
    (d := le 4 c) (by simp [le_length])
  simp only [List.length_append, le_length, List.length_cons, List.length_nil] at this
  rw [fixed_assoc, fixed_assoc]
  simpa only [List.append_assoc] using this

theorem poke_datalength (r : Rec) (d : Nat) (t : List UInt8) (c : Nat) :
    poke (r.fixedFor d ++ t) 36 (le 4 c) = .ok (r.fixedFor c ++ t) := by
  have := poke_append (a := [77, 83] ++ (le 1 3 ++ (le 1 r.flags ++ (le 4 r.nsec ++ (le 2 r.year ++
    (le 2 r.day ++ (le 1 r.hour ++ (le 1 r.minute ++ (le 1 r.second ++ (le 1 r.encoding ++
    (le 8 r.rate ++ (le 4 r.numsamples ++ (le 4 r.crc ++ (le 1 r.pubversion ++
    (le 1 r.sid.length ++ le 2 r.extra.length))))))))))))))) (b := le 4 d)
    (c := t) (d := le 4 c) (by simp [le_length])
  simp only [List.length_append, le_length, List.length_cons, List.length_nil] at this
  rw [fixed_assoc, fixed_assoc]
  simpa only [List.append_assoc] using this

theorem poke_encoding (r : Rec) (d : Nat) (t : List UInt8) (c : Nat) :
    poke (r.fixedFor d ++ t) 15 (le 1 c)
      = .ok (({ r with encoding := c } : Rec).fixedFor d ++ t) := by
  have := poke_append (a := [77, 83] ++ (le 1 3 ++ (le 1 r.flags ++ (le 4 r.nsec ++ (le 2 r.year ++
    (le 2 r.day ++ (le 1 r.hour ++ (le 1 r.minute ++ le 1 r.second)))))))) (b := le 1 r.encoding)
    (c := le 8 r.rate ++ (le 4 r.numsamples ++ (le 4 r.crc ++ (le 1 r.pubversion ++
      (le 1 r.sid.length ++ (le 2 r.extra.length ++ (le 4 d ++ t)))))))
    (d := le 1 c) (by simp [le_length])
  simp only [List.length_append, le_length, List.length_cons, List.length_nil] at this
  rw [fixed_assoc, fixed_assoc]
  simpa only [List.append_assoc] using this

/-- The writes of a new start time. -/
theorem poke_time (h : Bool) (r : Rec) (d : Nat) (t : List UInt8) (dt : DateTime) :
    pokes (r.fixedFor d ++ t) (timeWrites h dt)
      = .ok (({ r with nsec := dt.nsec.toNat, year := dt.year.toNat, day := dt.yday.toNat,
                       hour := dt.hour.toNat, minute := dt.min.toNat,
                       second := dt.sec.toNat } : Rec).fixedFor d ++ t) := by
  rw [fixed_cons, fixed_cons]
  simp only [timeWrites, store_le, store_byte, List.cons_append, List.nil_append, pokes, poke, le,
    List.length_cons, List.length_nil, List.take_succ_cons, List.take_zero, List.drop_succ_cons,
    List.drop_zero, Nat.reduceAdd, Nat.zero_add, if_true, bind_ok, Nat.le_add_left]

/-! ## Detection and the CRC -/

theorem detect_rec (r : Rec) (v : r.Valid) (d : Nat) (hd : d < 4294967296) (t : List UInt8) :
    detect false (r.fixedFor d ++ t)
      = .ok (((40 + r.sid.length + r.extra.length + d) % 2 ^ 32 : Nat), 3) := by
  unfold detect
  rw [if_neg (by simp [fixed_length]), peek_fixed _ _ _ _ _ (by decide), bind_ok, List.drop_zero,
    valid_header r d v, if_pos rfl, ld_sidlength false r _ _ v, ld_extralength false r _ _ v,
    ld_datalength false r d _ hd]
  rfl

theorem checkCrc_rec (h : Bool) (align : Nat) (r : Rec) (v : r.Valid) (d : Nat)
    (body rest : List UInt8) (reclen : Nat) (hl : reclen = 40 + body.length) :
    checkCrc h align (r.fixedFor d ++ (body ++ rest)) reclen
      = .ok (decide (r.crc = (Spec.Crc.crc32c 0
              (({ r with crc := 0 } : Rec).fixedFor d ++ body)).toNat),
             r.fixedFor d ++ (body ++ rest)) := by
  unfold checkCrc
  rw [ld_crc h r _ _ v, bind_ok, show ([0, 0, 0, 0] : List UInt8) = le 4 0 by decide, poke_crc,
    bind_ok]
  have hc := Props.Crc.C17_is_crc32c_partial h (align % 4)
    (({ r with crc := 0 } : Rec).fixedFor d ++ body) rest 0
    (by intro h0; have := congrArg List.length h0; simp [fixed_length] at this)
    (by right; right; simp [fixed_length]; omega)
  rw [List.append_assoc] at hc
  rw [show (reclen : Int) = ((({ r with crc := 0 } : Rec).fixedFor d ++ body).length : Nat) by
    simp [fixed_length, hl], hc]
  simp only [ofMem, bind_ok, store_le, poke_crc]

/-- `msr3_parse` of a version 3 record that is complete. -/
theorem parse_v3 (unpack2 : List UInt8 → Int → Bool → Res Parsed) (h : Bool) (align : Nat)
    (mem : List UInt8) (vc ud eof : Bool) (n : Nat) (hd : detect h mem = .ok ((n : Int), 3))
    (h1 : 40 ≤ n) (h2 : n ≤ 10485760) (h3 : n ≤ mem.length) :
    parse unpack2 h align mem vc ud eof = unpack3 h align mem n vc ud := by
  unfold parse
  rw [hd, bind_ok]
  simp only
  rw [if_neg (by omega : ¬ ((3 : Nat) = 2 ∧ _))]
  rw [if_neg (by omega), if_neg (by omega), if_neg (by omega), if_neg (by omega), if_pos trivial]

theorem unpack3_gen (h : Bool) (align : Nat) (r : Rec) (v : r.Valid) (d : Nat)
    (hd : d < 4294967296) (t : List UInt8)
    (reclen : Int) (hr : 40 ≤ reclen ∧ reclen ≤ 10485760) (hsid : r.sid.length ≤ 63) (vc ud : Bool) :
    unpack3 h align (r.fixedFor d ++ (r.sid ++ (r.extra ++ t))) reclen vc ud
      = (if vc then checkCrc h align (r.fixedFor d ++ (r.sid ++ (r.extra ++ t))) reclen
         else .ok (true, r.fixedFor d ++ (r.sid ++ (r.extra ++ t)))).bind fun (good, mem) =>
        if !good then (peek mem 40 r.sid.length).bind fun _ => .ok (.invalidCrc, mem)
        else (unpackFields h align mem reclen r.sid.length ud).bind fun p => .ok (p, mem) := by
  unfold unpack3
  rw [if_neg (by omega), peek_fixed _ _ _ _ _ (by decide), bind_ok, List.drop_zero,
    valid_header r d v, ld_sidlength h r _ _ v, bind_ok]
  simp only [Bool.not_true, Bool.false_eq_true, if_false]
  rw [if_neg (by omega)]

/-- Validation of the CRC only adds the refusal of records with a wrong one. -/
theorem unpack3_crc (h : Bool) (align : Nat) (r : Rec) (v : r.Valid) (d : Nat)
    (hd : d < 4294967296) (t rest : List UInt8)
    (reclen : Nat) (hr : reclen ≤ 10485760) (hl : reclen = 40 + (r.sid ++ (r.extra ++ t)).length)
    (hsid : r.sid.length ≤ 63) (ud : Bool) :
    unpack3 h align (r.fixedFor d ++ (r.sid ++ (r.extra ++ (t ++ rest)))) reclen true ud
      = if r.crc = (Spec.Crc.crc32c 0
              (({ r with crc := 0 } : Rec).fixedFor d ++ (r.sid ++ (r.extra ++ t)))).toNat then
          unpack3 h align (r.fixedFor d ++ (r.sid ++ (r.extra ++ (t ++ rest)))) reclen false ud
        else .ok (.invalidCrc, r.fixedFor d ++ (r.sid ++ (r.extra ++ (t ++ rest)))) := by
  have hr' : (40 : Int) ≤ reclen ∧ (reclen : Int) ≤ 10485760 := by omega
  rw [unpack3_gen h align r v d hd _ _ hr' hsid, unpack3_gen h align r v d hd _ _ hr' hsid]
  have hc := checkCrc_rec h align r v d (r.sid ++ (r.extra ++ t)) rest reclen hl
  simp only [List.append_assoc] at hc
  simp only [if_true, hc, bind_ok, Bool.false_eq_true, if_false]
  generalize (Spec.Crc.crc32c 0 (({ r with crc := 0 } : Rec).fixedFor d ++
    (r.sid ++ (r.extra ++ t)))).toNat = c
  by_cases heq : r.crc = c
  · rw [if_pos heq, decide_eq_true heq]
  · rw [if_neg heq, decide_eq_false heq]
    simp only [Bool.not_false, if_true, peek_sid, bind_ok]

theorem load_unle (h : Bool) {mem b : List UInt8} {off n : Nat} (hp : peek mem off n = .ok b) :
    load h h mem off n = .ok (unle b) := by
  obtain ⟨_, _, hl⟩ := peek_eq hp
  have e := le_unle b
  rw [hl] at e
  rw [← e] at hp
  have hlt := unle_lt b
  rw [hl] at hlt
  exact load_le h hp hlt

/-- Checking the CRC leaves the record as it was. -/
theorem checkCrc_mem (h : Bool) (align : Nat) (mem mem' : List UInt8) (reclen : Int) (g : Bool)
    (hc : checkCrc h align mem reclen = .ok (g, mem')) : mem' = mem := by
  unfold checkCrc at hc
  rw [bind_eq_ok] at hc
  obtain ⟨c, hld, hc⟩ := hc
  have hl := (load_lt hld).2
  rw [load_unle h (peek_ok hl)] at hld
  injection hld with hld
  rw [bind_eq_ok] at hc
  obtain ⟨z, hz, hc⟩ := hc
  rw [bind_eq_ok] at hc
  obtain ⟨_, _, hc⟩ := hc
  rw [bind_eq_ok] at hc
  obtain ⟨m, hm, hc⟩ := hc
  injection hc with hc
  injection hc with _ hc
  subst hc
  have e : mem = mem.take 28 ++ (mem.drop 28).take 4 ++ mem.drop 32 := by
    rw [List.append_assoc]
    have := List.take_append_drop 4 (mem.drop 28)
    rw [List.drop_drop] at this
    rw [this, List.take_append_drop]
  have l28 : (mem.take 28).length = 28 := by simp; omega
  have l4 : ((mem.drop 28).take 4).length = 4 := by simp; omega
  have p1 := poke_append (a := mem.take 28) (b := (mem.drop 28).take 4) (c := mem.drop 32)
    (d := [0, 0, 0, 0]) (by rw [l4]; rfl)
  rw [← e, l28] at p1
  rw [p1] at hz
  injection hz with hz
  subst hz
  have p2 := poke_append (a := mem.take 28) (b := [0, 0, 0, 0]) (c := mem.drop 32)
    (d := store h h 4 c) (by rw [store_length]; rfl)
  rw [l28] at p2
  rw [p2] at hm
  injection hm with hm
  rw [← hm, store_le, ← hld]
  have e4 := le_unle ((mem.drop 28).take 4)
  rw [l4] at e4
  rw [e4, ← e]

end Verif.Proof.Record3
