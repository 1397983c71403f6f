import Verif.Model.Record2
import Verif.Props.Record2Fields
import Verif.Spec.Record2
import Verif.Proof.Detect
import Verif.Props.Str
import Verif.Props.Calendar
/-!
# Lemmas on version 2 records
-/
namespace Verif.Proof.Record2
open Verif.Model Verif.Model.Bytes Verif.Model.Steim Verif.Model.Mem
open Verif.Model.Detect hiding Blkt
open Verif.Model.Record3 Verif.Model.Record2 Verif.Proof.Bytes Verif.Proof.Mem Verif.Proof.Record3
open Verif.Proof.Detect
open Verif.Props.Record2 (fieldsOf)
open Verif.Spec Verif.Spec.Record2 Verif.Spec.Detect
open Verif.Spec.Record3 (le Signature2)

theorem num_length (be : Bool) (n v : Nat) : (num be n v).length = n := by
  unfold num; cases be <;> simp [le_length]

theorem load_num (h be : Bool) {mem : List UInt8} {off n v : Nat}
    (hp : peek mem off n = .ok (num be n v)) (hv : v < 256 ^ n) :
    load h (be != h) mem off n = .ok v := by
  unfold load
  rw [hp, bind_ok]
  congr 1
  unfold num
  rw [le_eq]
  cases h <;> cases be <;> simp [swapIf, hostNat, beNat_beBytes, Nat.mod_eq_of_lt hv]

theorem load_one (h : Bool) {mem : List UInt8} {off : Nat} {b : UInt8}
    (hp : peek mem off 1 = .ok [b]) : load h false mem off 1 = .ok b.toNat := by
  unfold load
  rw [hp, bind_ok]
  cases h <;> simp [swapIf, hostNat, beNat]

theorem peek_at {a b c : List UInt8} {off n : Nat} (ho : a.length = off) (hn : b.length = n) :
    peek (a ++ (b ++ c)) off n = .ok b := by
  subst ho; subst hn
  rw [← List.append_assoc]
  exact peek_append

theorem drop_at {a b : List UInt8} {off : Nat} (ho : a.length = off) : (a ++ b).drop off = b := by
  subst ho; simp

/-- The parts of a sequence of pieces are found at their offsets. -/
theorem peek_flatten (ps : List (List UInt8)) (t : List UInt8) (i : Nat) (hi : i < ps.length) :
    peek (ps.flatten ++ t) ((ps.take i).map List.length).sum ps[i].length = .ok ps[i] := by
  have e : ps.flatten ++ t = (ps.take i).flatten ++ (ps[i] ++ ((ps.drop (i + 1)).flatten ++ t)) := by
    have e : ps = ps.take i ++ (ps[i] :: ps.drop (i + 1)) := by
      rw [← List.drop_eq_getElem_cons hi, List.take_append_drop]
    have e2 := congrArg List.flatten e
    rw [List.flatten_append, List.flatten_cons] at e2
    rw [e2]
    simp only [List.append_assoc]
  rw [e]
  exact peek_at (by simp [List.length_flatten]) rfl

theorem drop_flatten (ps : List (List UInt8)) (t : List UInt8) (i : Nat) (hi : i < ps.length) :
    (ps.flatten ++ t).drop ((ps.take i).map List.length).sum =
      ps[i] ++ ((ps.drop (i + 1)).flatten ++ t) := by
  have e : ps.flatten ++ t = (ps.take i).flatten ++ (ps[i] ++ ((ps.drop (i + 1)).flatten ++ t)) := by
    have e : ps = ps.take i ++ (ps[i] :: ps.drop (i + 1)) := by
      rw [← List.drop_eq_getElem_cons hi, List.take_append_drop]
    have e2 := congrArg List.flatten e
    rw [List.flatten_append, List.flatten_cons] at e2
    rw [e2]
    simp only [List.append_assoc]
  rw [e]
  exact drop_at (by simp [List.length_flatten])

theorem padded_length {n : Nat} {c : List UInt8} (h : c.length ≤ n) : (padded n c).length = n := by
  unfold padded; simp; omega

/-- The pieces of the fixed header. -/
def pieces (r : Rec) : List (List UInt8) :=
  [r.seq, [r.quality], [r.reserved], padded 5 r.sta, padded 2 r.loc,
   [r.band, r.source, r.position], padded 2 r.net, num r.be 2 r.year, num r.be 2 r.day,
   [UInt8.ofNat r.hour], [UInt8.ofNat r.minute], [UInt8.ofNat r.second], [r.unused],
   num r.be 2 r.fract, num r.be 2 r.numsamples, num r.be 2 (twos 2 r.factor),
   num r.be 2 (twos 2 r.multiplier), [r.activity], [r.io], [r.dq], [r.numblockettes],
   num r.be 4 (twos 4 r.correction), num r.be 2 r.dataoffset,
   num r.be 2 (if r.chain = [] then 0 else 48)]

theorem fixed_eq (r : Rec) : r.fixed = (pieces r).flatten := by
  simp [Rec.fixed, pieces]

theorem pieces_length (r : Rec) : (pieces r).length = 24 := rfl

theorem fixed_length2 (r : Rec) (v : r.Valid) : r.fixed.length = 48 := by
  rw [fixed_eq]
  simp [pieces, List.length_flatten, num_length, padded_length v.sta.2, padded_length v.loc.2,
    padded_length v.net.2, v.seq.1]

/-- The offsets of the pieces. -/
theorem piece_at (r : Rec) (v : r.Valid) (t : List UInt8) (i off n : Nat) (b : List UInt8)
    (hi : i < 24)
    (hb : (pieces r)[i]'(by rw [pieces_length]; exact hi) = b) (hn : b.length = n)
    (ho : (([6, 1, 1, 5, 2, 3, 2, 2, 2, 1, 1, 1, 1, 2, 2, 2, 2, 1, 1, 1, 1, 4, 2, 2] : List Nat).take
      i).sum = off) :
    peek (r.fixed ++ t) off n = .ok b ∧ ∃ u, (r.fixed ++ t).drop off = b ++ (u ++ t) := by
  have hl : (pieces r).map List.length =
      [6, 1, 1, 5, 2, 3, 2, 2, 2, 1, 1, 1, 1, 2, 2, 2, 2, 1, 1, 1, 1, 4, 2, 2] := by
    simp [pieces, num_length, padded_length v.sta.2, padded_length v.loc.2,
      padded_length v.net.2, v.seq.1]
  have h1 := peek_flatten (pieces r) t i (by rw [pieces_length]; exact hi)
  have h2 := drop_flatten (pieces r) t i (by rw [pieces_length]; exact hi)
  rw [List.map_take, hl, ho, hb] at h1 h2
  rw [hn] at h1
  rw [fixed_eq]
  exact ⟨h1, _, h2⟩

theorem ofNat_toNat {n : Nat} (h : n < 256) : (UInt8.ofNat n).toNat = n := by
  simp; omega

section fields
variable (h : Bool) (r : Rec) (v : r.Valid) (t : List UInt8)
include v

theorem ld_quality : load h false (r.fixed ++ t) 6 1 = .ok r.quality.toNat :=
  load_one h (piece_at r v t 1 6 1 _ (by omega) rfl rfl rfl).1
theorem ld_year : load h (r.be != h) (r.fixed ++ t) 20 2 = .ok r.year :=
  load_num h r.be (piece_at r v t 7 20 2 _ (by omega) rfl (num_length ..) rfl).1
    (by have := v.date.1; unfold SaneDate at this; omega)
theorem ld_day : load h (r.be != h) (r.fixed ++ t) 22 2 = .ok r.day :=
  load_num h r.be (piece_at r v t 8 22 2 _ (by omega) rfl (num_length ..) rfl).1
    (by have := v.date.1; unfold SaneDate at this; omega)
theorem ld_hour : load h false (r.fixed ++ t) 24 1 = .ok r.hour := by
  have := v.time
  rw [load_one h (piece_at r v t 9 24 1 _ (by omega) rfl rfl rfl).1, ofNat_toNat (by omega)]
theorem ld_minute : load h false (r.fixed ++ t) 25 1 = .ok r.minute := by
  have := v.time
  rw [load_one h (piece_at r v t 10 25 1 _ (by omega) rfl rfl rfl).1, ofNat_toNat (by omega)]
theorem ld_second : load h false (r.fixed ++ t) 26 1 = .ok r.second := by
  have := v.time
  rw [load_one h (piece_at r v t 11 26 1 _ (by omega) rfl rfl rfl).1, ofNat_toNat (by omega)]
theorem ld_fract : load h (r.be != h) (r.fixed ++ t) 28 2 = .ok r.fract :=
  load_num h r.be (piece_at r v t 13 28 2 _ (by omega) rfl (num_length ..) rfl).1
    (by have := v.time; omega)
theorem ld_numsamples : load h (r.be != h) (r.fixed ++ t) 30 2 = .ok r.numsamples :=
  load_num h r.be (piece_at r v t 14 30 2 _ (by omega) rfl (num_length ..) rfl).1
    (by have := v.numsamples; omega)
omit v in
theorem twos_lt (n : Nat) (x : Int) : twos n x < 256 ^ n := by
  unfold twos
  have hp : (0 : Int) < 256 ^ n := Int.pow_pos (by decide)
  have h1 := Int.emod_lt_of_pos x hp
  have h2 := Int.emod_nonneg x (Int.ne_of_gt hp)
  have h3 : ((256 ^ n : Nat) : Int) = (256 : Int) ^ n := by simp
  omega
theorem ld_factor : load h (r.be != h) (r.fixed ++ t) 32 2 = .ok (twos 2 r.factor) :=
  load_num h r.be (piece_at r v t 15 32 2 _ (by omega) rfl (num_length ..) rfl).1 (twos_lt _ _)
theorem ld_multiplier : load h (r.be != h) (r.fixed ++ t) 34 2 = .ok (twos 2 r.multiplier) :=
  load_num h r.be (piece_at r v t 16 34 2 _ (by omega) rfl (num_length ..) rfl).1 (twos_lt _ _)
theorem ld_activity : load h false (r.fixed ++ t) 36 1 = .ok r.activity.toNat :=
  load_one h (piece_at r v t 17 36 1 _ (by omega) rfl rfl rfl).1
theorem ld_io : load h false (r.fixed ++ t) 37 1 = .ok r.io.toNat :=
  load_one h (piece_at r v t 18 37 1 _ (by omega) rfl rfl rfl).1
theorem ld_dq : load h false (r.fixed ++ t) 38 1 = .ok r.dq.toNat :=
  load_one h (piece_at r v t 19 38 1 _ (by omega) rfl rfl rfl).1
theorem ld_correction : load h (r.be != h) (r.fixed ++ t) 40 4 = .ok (twos 4 r.correction) :=
  load_num h r.be (piece_at r v t 21 40 4 _ (by omega) rfl (num_length ..) rfl).1 (twos_lt _ _)
theorem ld_dataoffset : load h (r.be != h) (r.fixed ++ t) 44 2 = .ok r.dataoffset :=
  load_num h r.be (piece_at r v t 22 44 2 _ (by omega) rfl (num_length ..) rfl).1
    (by have := v.dataoffset; omega)
theorem ld_blockettes : load h (r.be != h) (r.fixed ++ t) 46 2 =
    .ok (if r.chain = [] then 0 else 48) :=
  load_num h r.be (piece_at r v t 23 46 2 _ (by omega) rfl (num_length ..) rfl).1
    (by split <;> decide)
end fields

theorem sext_twos16 {x : Int} (h : -32768 ≤ x ∧ x ≤ 32767) : sext 16 (twos 2 x) = x := by
  unfold sext twos
  simp only [Nat.reducePow, Nat.reduceSub, Int.reducePow]
  split <;> omega

theorem sext_twos32 {x : Int} (h : -2147483648 ≤ x ∧ x ≤ 2147483647) :
    sext 32 (twos 4 x) = x := by
  unfold sext twos
  simp only [Nat.reducePow, Nat.reduceSub, Int.reducePow]
  split <;> omega

theorem sext_twos8 {x : Int} (h : -128 ≤ x ∧ x ≤ 127) :
    sext 8 (UInt8.ofNat (twos 1 x)).toNat = x := by
  have := twos_lt 1 x
  rw [ofNat_toNat (by omega)]
  unfold sext twos
  simp only [Nat.reducePow, Nat.reduceSub, Int.reducePow]
  split <;> omega

theorem wellFormed_ascii (l : List UInt8) (h : ∀ x ∈ l, x.toNat ≤ 127) : Utf8.WellFormed l := by
  induction l with
  | nil => exact .nil
  | cons a l ih =>
    have h1 := h a List.mem_cons_self
    exact .char (c := [a]) (.ascii (by rw [UInt8.le_iff_toNat_le]; exact h1))
      (ih fun x hx => h x (List.mem_cons_of_mem _ hx))

theorem takeWhile_all {l : List UInt8} (h : ∀ x ∈ l, x ≠ 0) (t : List UInt8) :
    (l ++ 0 :: t).takeWhile (· != 0) = l := by
  rw [List.takeWhile_append_of_pos (by simpa using h)]
  simp

/-! ## Events, calibrations and timing -/

theorem btime_length (be : Bool) (t : BTime) : (t.bytes be).length = 10 := by
  simp [BTime.bytes, num_length]

theorem parts_sizes (be : Bool) (m : Mapped) (v : m.Valid) : (m.parts be).map List.length = m.sizes := by
  cases m with
  | event =>
    obtain ⟨_, _, _, _, d⟩ := v
    simp [Mapped.parts, Mapped.sizes, num_length, btime_length, d.length]
  | murdock =>
    obtain ⟨_, _, _, _, d⟩ := v
    simp [Mapped.parts, Mapped.sizes, num_length, btime_length, d.length]
  | step =>
    obtain ⟨_, _, _, _, d1, _, d2, d3⟩ := v
    simp [Mapped.parts, Mapped.sizes, num_length, btime_length, d1.length, d2.length, d3.length]
  | sine =>
    obtain ⟨_, _, _, _, d1, _, d2, d3⟩ := v
    simp [Mapped.parts, Mapped.sizes, num_length, btime_length, d1.length, d2.length, d3.length]
  | random =>
    obtain ⟨_, _, _, d1, _, d2, d3, d4⟩ := v
    simp [Mapped.parts, Mapped.sizes, num_length, btime_length, d1.length, d2.length, d3.length, d4.length]
  | generic =>
    obtain ⟨_, _, _, d1⟩ := v
    simp [Mapped.parts, Mapped.sizes, num_length, btime_length, d1.length]
  | abort => simp [Mapped.parts, Mapped.sizes, btime_length]
  | clock =>
    obtain ⟨_, _, _, _, _, d1, d2, d3⟩ := v
    simp [Mapped.parts, Mapped.sizes, num_length, btime_length, d1.length, d2.length, d3.length]

/-- A part is found at its offset, and something follows it. -/
def Found (mem : List UInt8) (off : Nat) (b : List UInt8) : Prop :=
  ∃ u, u ≠ [] ∧ mem.drop off = b ++ u

theorem found_peek {mem : List UInt8} {off : Nat} {a b c : List UInt8} (h : Found mem off (a ++ (b ++ c))) (j n : Nat)
    (hj : a.length = j) (hn : b.length = n) : peek mem (off + j) n = .ok b := by
  obtain ⟨u, hu, e⟩ := h
  have hl := congrArg List.length e
  have hu' : 0 < u.length := List.length_pos_iff.2 hu
  simp only [List.length_drop, List.length_append] at hl
  rw [peek_ok (by omega), ← List.drop_drop, e, List.append_assoc, List.append_assoc, drop_at hj, List.take_left' hn]

theorem found_all {mem : List UInt8} {off n : Nat} {b : List UInt8} (h : Found mem off b) (hn : b.length = n) :
    peek mem off n = .ok b := by
  have := found_peek (a := []) (c := []) (by simpa using h) 0 n rfl hn
  simpa using this

theorem load_byte (h s : Bool) {mem : List UInt8} {off : Nat} {b : UInt8}
    (hp : peek mem off 1 = .ok [b]) : load h s mem off 1 = .ok b.toNat := by
  unfold load
  rw [hp, bind_ok]
  cases h <;> cases s <;> simp [swapIf, hostNat, beNat]

theorem instant_bounds (t : BTime) (v : t.Valid) :
    -2208988800000000000 ≤ t.instant ∧ t.instant ≤ 4134100000000000000 := by
  have h1 := v.date
  have h2 := v.time
  unfold SaneDate at h1
  have hj : jan1 t.year = Proof.jc t.year := Proof.jan1_eq _
  have hyl := Proof.yearLen_cases t.year
  unfold Proof.jc at hj
  unfold BTime.instant Fields.instant
  simp only
  omega

theorem btime_found (h be : Bool) (t : BTime) (v : t.Valid) (mem : List UInt8) (off : Nat)
    (hf : Found mem off (t.bytes be)) : btime h (be != h) mem off = .ok t.instant := by
  have hd := v.date
  have ht := v.time
  have ha : Props.Accepted ⟨t.year, t.day, t.hour, t.minute, t.second, t.fract * 100000⟩ := by
    unfold SaneDate at hd
    constructor <;> simp only <;> omega
  have hb := instant_bounds t v
  have h1 := (Props.C04_no_overflow_partial _ ha).1.2 (by unfold BTime.instant at hb; omega)
  have hy := hd.1.1
  unfold SaneDate at hd
  have l1 : load h (be != h) mem off 2 = .ok t.year := load_num h be (by
    have := found_peek (a := []) (b := num be 2 t.year) (by simpa [BTime.bytes] using hf) 0 2 rfl (num_length ..)
    simpa using this) (by omega)
  have l2 : load h (be != h) mem (off + 2) 2 = .ok t.day := load_num h be
    (found_peek (a := num be 2 t.year) (b := num be 2 t.day) (by simpa [BTime.bytes] using hf) 2 2 (num_length ..) (num_length ..)) (by omega)
  have l3 : load h false mem (off + 4) 1 = .ok t.hour := by
    rw [load_one h (found_peek (a := num be 2 t.year ++ num be 2 t.day) (b := [UInt8.ofNat t.hour])
      (by simpa [BTime.bytes] using hf) 4 1 (by simp [num_length]) rfl), ofNat_toNat (by omega)]
  have l4 : load h false mem (off + 5) 1 = .ok t.minute := by
    rw [load_one h (found_peek (a := num be 2 t.year ++ num be 2 t.day ++ [UInt8.ofNat t.hour]) (b := [UInt8.ofNat t.minute])
      (by simpa [BTime.bytes] using hf) 5 1 (by simp [num_length]) rfl), ofNat_toNat (by omega)]
  have l5 : load h false mem (off + 6) 1 = .ok t.second := by
    rw [load_one h (found_peek (a := num be 2 t.year ++ num be 2 t.day ++ [UInt8.ofNat t.hour, UInt8.ofNat t.minute])
      (b := [UInt8.ofNat t.second])
      (by simpa [BTime.bytes] using hf) 6 1 (by simp [num_length]) rfl), ofNat_toNat (by omega)]
  have l6 : load h (be != h) mem (off + 8) 2 = .ok t.fract := load_num h be
    (found_peek (a := num be 2 t.year ++ num be 2 t.day ++ [UInt8.ofNat t.hour, UInt8.ofNat t.minute, UInt8.ofNat t.second, t.unused])
      (b := num be 2 t.fract) (c := []) (by simpa [BTime.bytes] using hf) 8 2 (by simp [num_length]) (num_length ..)) (by omega)
  unfold btime
  rw [l1, bind_ok, if_neg (by omega), l2, bind_ok, l3, bind_ok, l4, bind_ok, l5, bind_ok, l6, bind_ok]
  simp only at h1
  rw [h1]
  rfl

theorem read_num (h be : Bool) {mem : List UInt8} {off o n v : Nat} (hf : Found mem (off + o) (num be n v))
    (hv : v < 256 ^ n) : readField h (be != h) mem off (.num o n) = .ok (some (.num v)) := by
  simp only [readField]
  rw [load_num h be (found_all hf (num_length ..)) hv, bind_ok]

theorem read_byte (h s : Bool) {mem : List UInt8} {off o : Nat} {b : UInt8} (hf : Found mem (off + o) [b]) :
    readField h s mem off (.num o 1) = .ok (some (.num b.toNat)) := by
  simp only [readField]
  rw [load_byte h s (found_all hf rfl), bind_ok]

theorem read_time (h be : Bool) {mem : List UInt8} {off o : Nat} {t : BTime} (v : t.Valid)
    (hf : Found mem (off + o) (t.bytes be)) :
    readField h (be != h) mem off (.time o) = .ok (some (.time t.instant)) := by
  simp only [readField]
  rw [btime_found h be t v mem _ hf, bind_ok, if_neg (show t.instant ≠ NSTERROR from v.instant)]

theorem read_timeMicro (h be : Bool) {mem : List UInt8} {off o m : Nat} {t : BTime} {u : Int} (v : t.Valid)
    (hu : -128 ≤ u ∧ u ≤ 127) (hf : Found mem (off + o) (t.bytes be)) (hm : Found mem (off + m) [UInt8.ofNat (twos 1 u)]) :
    readField h (be != h) mem off (.timeMicro o m) = .ok (some (.time (t.instant + u * 1000))) := by
  have hb := instant_bounds t v
  simp only [readField]
  rw [btime_found h be t v mem _ hf, bind_ok, if_neg (show t.instant ≠ NSTERROR from v.instant), load_one h (found_all hm rfl), bind_ok, sext_twos8 hu]
  unfold addTime fitsInt64
  rw [if_pos (by simp; omega), bind_ok]

theorem label_clean {t : Label} {n : Nat} (v : t.Valid n) (u : List UInt8) (hu : u ≠ []) :
    Str.strncpcleantail (t.bytes ++ u) n = some (t.s ++ List.replicate (t.spaces + 1) 0, t.s.length) := by
  have hb : ∀ x ∈ t.s ++ List.replicate t.spaces 32, x ≠ 0 ∧ x.toNat ≤ 127 := by
    intro x hx
    rcases List.mem_append.1 hx with hx | hx
    · have := v.ascii x hx
      exact ⟨fun h0 => by rw [h0] at this; simp at this, this.2⟩
    · rw [List.eq_of_mem_replicate hx]; decide
  have hl := v.length
  simp only [Label.bytes, List.length_append, List.length_replicate] at hl
  obtain ⟨k, text, j, hk, ht, hlast, he, _⟩ := Props.Str.C12_strncpcleantail (t.s ++ List.replicate t.spaces 32) (t.rest ++ u) n
    ⟨fun x hx => (hb x hx).1, by
      rcases v.rest with h | h
      · right; right
        rw [h] at hl ⊢
        refine ⟨by simp at hl ⊢; omega, by simpa using hu⟩
      · right; left
        cases hr : t.rest with
        | nil => rw [hr] at h; cases h
        | cons c w =>
          rw [hr] at h
          simp only [List.head?_cons, Option.some.injEq] at h
          exact ⟨w ++ u, by rw [h]; rfl⟩⟩
  have hkn : k = (t.s ++ List.replicate t.spaces 32).length := by
    have h1 := hk.2.2.2 (t.s ++ List.replicate t.spaces 32).length (by simp; omega) (by omega)
      (wellFormed_ascii _ fun x hx => (hb x (List.mem_of_mem_take hx)).2)
    have h2 := hk.2.1
    omega
  have e2 : t.s = text ∧ t.spaces = j := by
    rw [hkn, List.take_of_length_le (Nat.le_refl _)] at ht
    have hr := congrArg List.reverse ht
    simp only [List.reverse_append, List.reverse_replicate] at hr
    have aux : ∀ (a b : Nat) (x y : List UInt8), x.head? ≠ some 32 → y.head? ≠ some 32 →
        List.replicate a 32 ++ x = List.replicate b 32 ++ y → a = b ∧ x = y := by
      intro a
      induction a with
      | zero =>
        intro b x y hx hy e
        cases b with
        | zero => exact ⟨rfl, by simpa using e⟩
        | succ b => simp only [List.replicate_succ, List.replicate_zero, List.nil_append] at e; rw [e] at hx; simp at hx
      | succ a ih =>
        intro b x y hx hy e
        cases b with
        | zero => simp only [List.replicate_succ, List.replicate_zero, List.nil_append] at e; rw [← e] at hy; simp at hy
        | succ b =>
          simp only [List.replicate_succ, List.cons_append, List.cons.injEq, true_and] at e
          obtain ⟨h1, h2⟩ := ih b x y hx hy e
          exact ⟨by omega, h2⟩
    obtain ⟨h1, h2⟩ := aux _ _ _ _ (by rw [List.head?_reverse]; exact v.last) (by rw [List.head?_reverse]; exact hlast) hr
    exact ⟨List.reverse_inj.1 h2, h1⟩
  rw [show t.bytes ++ u = t.s ++ List.replicate t.spaces 32 ++ (t.rest ++ u) by simp [Label.bytes], he, ← e2.1, ← e2.2]

theorem label_string {t : Label} {n : Nat} (v : t.Valid n) :
    (t.s ++ List.replicate (t.spaces + 1) 0).takeWhile (· != 0) = t.s := by
  rw [List.replicate_succ]
  apply takeWhile_all
  intro x hx h0
  have := v.ascii x hx
  rw [h0] at this
  simp at this

theorem read_text (h s : Bool) {mem : List UInt8} {off o n : Nat} {t : Label} (v : t.Valid n)
    (hf : Found mem (off + o) t.bytes) : readField h s mem off (.text o n) = .ok (some (.text t.s)) := by
  obtain ⟨u, hu, e⟩ := hf
  simp only [readField]
  rw [e, label_clean v u hu]
  simp only [ofMem, bind_ok]
  rw [label_string v]

theorem read_textTo (h s : Bool) {mem : List UInt8} {off o n : Nat} {t : Label} (v : t.Valid n) (hr : t.rest ≠ [])
    (hf : Found mem (off + o) t.bytes) : readField h s mem off (.textTo o n) = .ok (some (.text t.s)) := by
  obtain ⟨u, hu, e⟩ := hf
  have hl := v.length
  have := List.length_pos_iff.2 hr
  simp only [Label.bytes, List.length_append, List.length_replicate] at hl
  simp only [readField]
  rw [e, label_clean v u hu]
  simp only [ofMem, bind_ok]
  rw [label_string v, if_neg (by simp; omega)]

theorem read_textTo_ub (h s : Bool) {mem : List UInt8} {off o n : Nat} {t : Label} (v : t.Valid n) (hr : t.rest = [])
    (hf : Found mem (off + o) t.bytes) : readField h s mem off (.textTo o n) = .ub := by
  obtain ⟨u, hu, e⟩ := hf
  have hl := v.length
  rw [Label.bytes, hr] at hl
  simp only [List.length_append, List.length_replicate, List.length_nil] at hl
  simp only [readField]
  rw [e, label_clean v u hu]
  simp only [ofMem, bind_ok]
  rw [if_pos (by simp; omega)]

theorem read_cons {h s : Bool} {mem : List UInt8} {off : Nat} {r : Read} {rs : List Read} {f : Field} {fs : List Field}
    (h1 : readField h s mem off r = .ok (some f)) (h2 : readFields h s mem off rs = .ok (some fs)) :
    readFields h s mem off (r :: rs) = .ok (some (f :: fs)) := by
  simp only [readFields]
  rw [h1, bind_ok]
  simp only
  rw [h2, bind_ok]
  rfl

theorem mapped_found (be : Bool) (m : Mapped) (v : m.Valid) (pre post : List UInt8) (hp : post ≠ []) (next off : Nat)
    (ho : pre.length = off) (i o : Nat) (b : List UInt8) (hi : (m.parts be)[i]? = some b) (hs : 4 + (m.sizes.take i).sum = o) :
    Found (pre ++ (num be 2 m.type ++ (num be 2 next ++ ((m.parts be).flatten ++ post)))) (off + o) b := by
  obtain ⟨hlt, e⟩ := List.getElem?_eq_some_iff.1 hi
  have h2 := drop_flatten (m.parts be) post i hlt
  rw [List.map_take, parts_sizes be m v, e] at h2
  refine ⟨((m.parts be).drop (i + 1)).flatten ++ post, by simp [hp], ?_⟩
  rw [← h2, ← hs]
  have e2 : pre ++ (num be 2 m.type ++ (num be 2 next ++ ((m.parts be).flatten ++ post))) =
    (pre ++ num be 2 m.type ++ num be 2 next) ++ ((m.parts be).flatten ++ post) := by simp only [List.append_assoc]
  rw [e2, show off + (4 + (m.sizes.take i).sum) = (off + 4) + (m.sizes.take i).sum by omega, ← List.drop_drop,
    drop_at (a := pre ++ num be 2 m.type ++ num be 2 next) (by simp [num_length, ho])]

theorem mapped_read (h be : Bool) (m : Mapped) (v : m.Valid) (ve : m.Ended) (pre post : List UInt8) (hp : post ≠ []) (next off : Nat)
    (ho : pre.length = off) : ∃ rs, reads m.type = some rs ∧
      readFields h (be != h) (pre ++ (num be 2 m.type ++ (num be 2 next ++ ((m.parts be).flatten ++ post)))) off rs =
        .ok (some (fieldsOf m)) := by
  have hf := mapped_found be m v pre post hp next off ho
  cases m with
  | event a p b f r t d =>
    obtain ⟨v1, v2, v3, v4, v5⟩ := v
    exact ⟨_, rfl, read_cons (read_text _ _ v5 (hf 6 28 _ rfl rfl)) <| read_cons (read_num _ _ (hf 0 4 _ rfl rfl) v1) <|
      read_cons (read_num _ _ (hf 1 8 _ rfl rfl) v2) <| read_cons (read_num _ _ (hf 2 12 _ rfl rfl) v3) <|
      read_cons (read_byte _ _ (hf 3 16 _ rfl rfl)) <| read_cons (read_time _ _ v4 (hf 5 18 _ rfl rfl)) rfl⟩
  | murdock a p b f r t s0 s1 s2 s3 s4 s5 l k d =>
    obtain ⟨v1, v2, v3, v4, v5⟩ := v
    exact ⟨_, rfl, read_cons (read_text _ _ v5 (hf 14 36 _ rfl rfl)) <| read_cons (read_num _ _ (hf 0 4 _ rfl rfl) v1) <|
      read_cons (read_num _ _ (hf 1 8 _ rfl rfl) v2) <| read_cons (read_num _ _ (hf 2 12 _ rfl rfl) v3) <|
      read_cons (read_byte _ _ (hf 3 16 _ rfl rfl)) <| read_cons (read_time _ _ v4 (hf 5 18 _ rfl rfl)) <|
      read_cons (read_byte _ _ (hf 6 28 _ rfl rfl)) <| read_cons (read_byte _ _ (hf 7 29 _ rfl rfl)) <|
      read_cons (read_byte _ _ (hf 8 30 _ rfl rfl)) <| read_cons (read_byte _ _ (hf 9 31 _ rfl rfl)) <|
      read_cons (read_byte _ _ (hf 10 32 _ rfl rfl)) <| read_cons (read_byte _ _ (hf 11 33 _ rfl rfl)) <|
      read_cons (read_byte _ _ (hf 12 34 _ rfl rfl)) <| read_cons (read_byte _ _ (hf 13 35 _ rfl rfl)) rfl⟩
  | step t n f d i a c r rf co ro =>
    obtain ⟨v1, v2, v3, v4, v5, v6, v7, v8⟩ := v
    exact ⟨_, rfl, read_cons (read_time _ _ v1 (hf 0 4 _ rfl rfl)) <| read_cons (read_byte _ _ (hf 1 14 _ rfl rfl)) <|
      read_cons (read_byte _ _ (hf 2 15 _ rfl rfl)) <| read_cons (read_num _ _ (hf 3 16 _ rfl rfl) v2) <|
      read_cons (read_num _ _ (hf 4 20 _ rfl rfl) v3) <| read_cons (read_num _ _ (hf 5 24 _ rfl rfl) v4) <|
      read_cons (read_text _ _ v5 (hf 6 28 _ rfl rfl)) <| read_cons (read_num _ _ (hf 8 32 _ rfl rfl) v6) <|
      read_cons (read_text _ _ v7 (hf 9 36 _ rfl rfl)) <| read_cons (read_text _ _ v8 (hf 10 48 _ rfl rfl)) rfl⟩
  | sine t x f d p a c r rf co ro =>
    obtain ⟨v1, v2, v3, v4, v5, v6, v7, v8⟩ := v
    exact ⟨_, rfl, read_cons (read_time _ _ v1 (hf 0 4 _ rfl rfl)) <|
      read_cons (read_byte _ _ (hf 2 15 _ rfl rfl)) <| read_cons (read_num _ _ (hf 3 16 _ rfl rfl) v2) <|
      read_cons (read_num _ _ (hf 4 20 _ rfl rfl) v3) <| read_cons (read_num _ _ (hf 5 24 _ rfl rfl) v4) <|
      read_cons (read_text _ _ v5 (hf 6 28 _ rfl rfl)) <| read_cons (read_num _ _ (hf 8 32 _ rfl rfl) v6) <|
      read_cons (read_text _ _ v7 (hf 9 36 _ rfl rfl)) <| read_cons (read_text _ _ v8 (hf 10 48 _ rfl rfl)) rfl⟩
  | random t x f d a c r rf co ro n =>
    obtain ⟨v1, v2, v3, v4, v5, v6, v7, v8⟩ := v
    exact ⟨_, rfl, read_cons (read_time _ _ v1 (hf 0 4 _ rfl rfl)) <|
      read_cons (read_byte _ _ (hf 2 15 _ rfl rfl)) <| read_cons (read_num _ _ (hf 3 16 _ rfl rfl) v2) <|
      read_cons (read_num _ _ (hf 4 20 _ rfl rfl) v3) <|
      read_cons (read_text _ _ v4 (hf 5 24 _ rfl rfl)) <| read_cons (read_num _ _ (hf 7 28 _ rfl rfl) v5) <|
      read_cons (read_text _ _ v6 (hf 8 32 _ rfl rfl)) <| read_cons (read_text _ _ v7 (hf 9 44 _ rfl rfl)) <|
      read_cons (read_text _ _ v8 (hf 10 56 _ rfl rfl)) rfl⟩
  | generic t x f d a c r =>
    obtain ⟨v1, v2, v3, v4⟩ := v
    exact ⟨_, rfl, read_cons (read_time _ _ v1 (hf 0 4 _ rfl rfl)) <|
      read_cons (read_byte _ _ (hf 2 15 _ rfl rfl)) <| read_cons (read_num _ _ (hf 3 16 _ rfl rfl) v2) <|
      read_cons (read_num _ _ (hf 4 20 _ rfl rfl) v3) <| read_cons (read_text _ _ v4 (hf 5 24 _ rfl rfl)) rfl⟩
  | abort t x y => exact ⟨_, rfl, read_cons (read_time _ _ v (hf 0 4 _ rfl rfl)) rfl⟩
  | clock c t u q n ty mo st =>
    obtain ⟨v1, v2, v3, v4, v5, v6, v7, v8⟩ := v
    exact ⟨_, rfl, read_cons (read_num _ _ (hf 0 4 _ rfl rfl) v1) <|
      read_cons (read_timeMicro _ _ v2 ⟨v3, v4⟩ (hf 1 8 _ rfl rfl) (hf 2 18 _ rfl rfl)) <|
      read_cons (read_byte _ _ (hf 3 19 _ rfl rfl)) <| read_cons (read_num _ _ (hf 4 20 _ rfl rfl) v5) <|
      read_cons (read_textTo _ _ v6 ve.1 (hf 5 24 _ rfl rfl)) <| read_cons (read_textTo _ _ v8 ve.2 (hf 7 72 _ rfl rfl)) <|
      read_cons (read_text _ _ v7 (hf 6 40 _ rfl rfl)) rfl⟩

/-! ## The chain of blockettes -/

theorem body_length (be : Bool) (b : Blkt) (v : b.Valid) : (b.body be).length + 4 = b.size := by
  cases b with
  | mapped m =>
    have := congrArg List.sum (parts_sizes be m v.1)
    simp only [Blkt.body, Blkt.size, List.length_flatten]
    omega
  | _ => simp [Blkt.body, Blkt.size, num_length] <;> omega

theorem size_pos (b : Blkt) (v : b.Valid) : 6 ≤ b.size := by
  cases b with
  | mapped m => cases m <;> simp [Blkt.size, Mapped.sizes]
  | _ => simp [Blkt.size, Blkt.Valid] at * <;> omega

theorem type_lt (b : Blkt) : b.type < 256 ^ 2 := by
  cases b with
  | mapped m => cases m <;> simp [Blkt.type, Mapped.type]
  | _ => simp [Blkt.type]

/-- The effect of a blockette. -/
def eff (env : Env) (off : Nat) (w : Walk) : Blkt → Walk
  | .rate f _ => { w with samprate := env.widen f }
  | .beam _ => w
  | .data e _ x _ => { w with b1000 := off, reclen := sext 32 (2 ^ x.toNat), encoding := e.toNat }
  | .timing q _ _ _ => { w with b1001 := off, headers := w.headers ++ [.quality q.toNat] }
  | .block2000 _ => w
  | .mapped m => { w with headers := w.headers ++ [.blockette m.type (fieldsOf m)] }

section one
variable (env : Env) (h be : Bool) (pre post : List UInt8) (b : Blkt) (next off : Nat)
  (ho : pre.length = off) (v : b.Valid)
include ho

theorem blkt_type : load h (be != h)
    (pre ++ (num be 2 b.type ++ (num be 2 next ++ (b.body be ++ post)))) off 2 = .ok b.type :=
  load_num h be (peek_at ho (num_length ..)) (type_lt b)

theorem blkt_next (hn : next < 65536) : load h (be != h)
    (pre ++ (num be 2 b.type ++ (num be 2 next ++ (b.body be ++ post)))) (off + 2) 2 =
    .ok next := by
  refine load_num h be ?_ (by omega)
  rw [← List.append_assoc pre]
  exact peek_at (by simp [num_length, ho]) (num_length ..)

theorem body_peek (o n : Nat) (hl : o + n ≤ (b.body be).length) :
    peek (pre ++ (num be 2 b.type ++ (num be 2 next ++ (b.body be ++ post)))) (off + 4 + o) n =
    .ok (((b.body be).drop o).take n) := by
  have e : pre ++ (num be 2 b.type ++ (num be 2 next ++ (b.body be ++ post))) =
    (pre ++ num be 2 b.type ++ num be 2 next ++ (b.body be).take o) ++
      (((b.body be).drop o).take n ++ (((b.body be).drop o).drop n ++ post)) := by
    simp only [List.append_assoc]
    rw [← List.append_assoc (List.take n _), List.take_append_drop,
      ← List.append_assoc (List.take o _), List.take_append_drop]
  rw [e]
  refine peek_at ?_ (by simp; omega)
  simp [num_length, ho]
  omega

include v in
theorem blkt_len : ∃ n, blktLen h (be != h)
    (pre ++ (num be 2 b.type ++ (num be 2 next ++ (b.body be ++ post)))) off b.type =
    .ok n ∧ n ≠ 0 ∧ n ≤ b.size := by
  cases b with
  | rate f rest => simp [Blkt.type, blktLen, Blkt.size, v.2]
  | beam rest => simp only [Blkt.Valid] at v; simp [Blkt.type, blktLen, Blkt.size, v]
  | data e o x z => simp [Blkt.type, blktLen, Blkt.size]
  | timing q m z f => simp [Blkt.type, blktLen, Blkt.size]
  | mapped m => cases m <;> simp [Blkt.type, Mapped.type, blktLen, Blkt.size, Mapped.sizes]
  | block2000 rest =>
    have := body_peek be pre post (.block2000 rest) next off ho 0 2 (by simp [Blkt.body, num_length])
    simp only [Blkt.Valid] at v
    have h2 := load_num h be (v := 6 + rest.length) (n := 2) (by
      rw [this]
      simp only [Blkt.body, List.drop_zero]
      rw [List.take_left' (num_length ..)]) (by omega)
    refine ⟨6 + rest.length, ?_, by omega, Nat.le_refl _⟩
    simpa [Blkt.type, blktLen, Blkt.size] using h2

include v in
theorem blkt_eff (hp : b.mapped?.isSome → post ≠ []) (w : Walk) (he : ∀ e o x, b.data? = some (e, o, x) → x.toNat < 32) :
    blockette env h (be != h)
      (pre ++ (num be 2 b.type ++ (num be 2 next ++ (b.body be ++ post)))) off b.type w =
    .ok (some (eff env off w b)) := by
  cases b with
  | rate f rest =>
    have := body_peek be pre post (.rate f rest) next off ho 0 4 (by simp [Blkt.body, num_length])
    have h2 := load_num h be (v := f) (n := 4) (by
      rw [this]
      simp only [Blkt.body, List.drop_zero]
      rw [List.take_left' (num_length ..)]) v.1
    simp only [blockette, Blkt.type, if_true] at h2 ⊢
    rw [h2, bind_ok]
    rfl
  | beam rest => simp [blockette, Blkt.type, reads, eff]
  | data e o x z =>
    have p1 := body_peek be pre post (.data e o x z) next off ho 0 1 (by simp [Blkt.body])
    have p2 := body_peek be pre post (.data e o x z) next off ho 2 1 (by simp [Blkt.body])
    have l1 := load_one h p1
    have l2 := load_one h p2
    have hx := he e o x rfl
    simp only [blockette, Blkt.type] at l1 l2 ⊢
    rw [if_neg (by decide), if_pos trivial]
    erw [l2]
    rw [bind_ok, if_neg (by omega)]
    erw [l1]
    rfl
  | timing q m z f =>
    have p1 := body_peek be pre post (.timing q m z f) next off ho 0 1 (by simp [Blkt.body])
    have l1 := load_one h p1
    simp only [blockette, Blkt.type] at l1 ⊢
    rw [if_neg (by decide), if_neg (by decide), if_pos trivial]
    erw [l1]
    rfl
  | block2000 rest => simp [blockette, Blkt.type, reads, eff]
  | mapped m =>
    obtain ⟨rs, h1, h2⟩ := mapped_read h be m v.1 v.2 pre post (hp rfl) next off ho
    have ht : m.type ≠ 100 ∧ m.type ≠ 1000 ∧ m.type ≠ 1001 := by cases m <;> simp [Mapped.type]
    show blockette env h (be != h) (pre ++ (num be 2 m.type ++ (num be 2 next ++ ((m.parts be).flatten ++ post)))) off
      m.type w = _
    unfold blockette
    rw [if_neg ht.1, if_neg ht.2.1, if_neg ht.2.2, h1]
    simp only
    rw [h2, bind_ok]
    rfl
end one

/-- The value of the last blockette of a chain that has one. -/
def lastOf {α : Type} (f : Blkt → Option α) (bs : List (Blkt × List UInt8)) : Option α :=
  (bs.filterMap fun b => f b.1).getLast?

theorem lastOf_cons {α : Type} (f : Blkt → Option α) (b : Blkt × List UInt8)
    (bs : List (Blkt × List UInt8)) : lastOf f (b :: bs) = (lastOf f bs).or (f b.1) := by
  unfold lastOf
  rw [List.filterMap_cons]
  cases hb : f b.1 with
  | none => simp
  | some x => simp only [List.getLast?_cons]; cases (List.filterMap (fun b => f b.1) bs).getLast? <;> rfl

theorem chain_cons (be : Bool) (off : Nat) (b : Blkt) (pad : List UInt8)
    (bs : List (Blkt × List UInt8)) (post : List UInt8) :
    chainBytes be off ((b, pad) :: bs) ++ post =
      num be 2 b.type ++ (num be 2 (if bs = [] then 0 else off + b.size + pad.length) ++
        (b.body be ++ (pad ++ (chainBytes be (off + b.size + pad.length) bs ++ post)))) := by
  simp only [chainBytes, List.append_assoc]

theorem chain_cons_length (be : Bool) (off : Nat) (b : Blkt) (pad : List UInt8)
    (bs : List (Blkt × List UInt8)) (v : b.Valid) : (chainBytes be off ((b, pad) :: bs)).length =
      b.size + pad.length + (chainBytes be (off + b.size + pad.length) bs).length := by
  have := body_length be b v
  simp only [chainBytes, List.length_append, num_length]
  omega

/-- What is told of a blockette in the extra headers. -/
def headerOf : Blkt → Option Header
  | .timing q _ _ _ => some (.quality q.toNat)
  | .mapped m => some (.blockette m.type (fieldsOf m))
  | _ => none

/-- What the loop leaves after the chain `bs`. -/
structure After (env : Env) (h : Bool) (mem : List UInt8) (reclen : Int)
    (bs : List (Blkt × List UInt8)) (w w' : Walk) : Prop where
  rate : w'.samprate = ((lastOf Blkt.float? bs).map env.widen).getD w.samprate
  reclen : w.reclen = reclen → w'.reclen = reclen
  data : ∀ e o x, lastOf Blkt.data? bs = some (e, o, x) →
    w'.b1000 ≠ 0 ∧ load h false mem (w'.b1000 + 5) 1 = .ok o.toNat ∧ w'.encoding = e.toNat
  noData : lastOf Blkt.data? bs = none → w'.b1000 = w.b1000 ∧ w'.encoding = w.encoding
  timing : ∀ q m, lastOf Blkt.timing? bs = some (q, m) →
    w'.b1001 ≠ 0 ∧ load h false mem (w'.b1001 + 5) 1 = .ok (UInt8.ofNat (twos 1 m)).toNat
  noTiming : lastOf Blkt.timing? bs = none → w'.b1001 = w.b1001
  headers : w'.headers = w.headers ++ bs.filterMap fun b => headerOf b.1

theorem sext_pow {x : Nat} (h : x < 31) : sext 32 (2 ^ x) = 2 ^ x := by
  have hp : 2 ^ x < 2 ^ 31 := Nat.pow_lt_pow_right (by omega) h
  unfold sext
  rw [Nat.mod_eq_of_lt (by omega), if_pos (by omega)]
  simp

theorem exp_lt {x : Nat} {n : Nat} (h : 2 ^ x = n) (hn : n ≤ 10485760) : x < 31 := by
  apply Classical.byContradiction
  intro hx
  have : 2 ^ 31 ≤ 2 ^ x := Nat.pow_le_pow_right (by omega) (by omega)
  omega

theorem walk_chain (env : Env) (h be : Bool) (mem post : List UInt8) (n : Nat)
    (hn : n ≤ 10485760) :
    ∀ (bs : List (Blkt × List UInt8)) (off fuel : Nat) (w : Walk) (pre : List UInt8),
    pre.length = off → 48 ≤ off → (∀ b ∈ bs, b.1.Valid) → ((∃ b ∈ bs, b.1.mapped?.isSome) → post ≠ []) →
    (∀ b ∈ bs, ∀ e o x, b.1.data? = some (e, o, x) → 2 ^ x.toNat = n) →
    off + (chainBytes be off bs).length ≤ n → off + (chainBytes be off bs).length < 65536 →
    bs.length < fuel → mem = pre ++ (chainBytes be off bs ++ post) →
    ∃ w', walk env h (be != h) mem n fuel (if bs = [] then 0 else off) w = .ok (some w') ∧
      After env h mem n bs w w' := by
  intro bs
  induction bs with
  | nil =>
    intro off fuel w pre _ _ _ _ _ _ _ hf _
    cases fuel with
    | zero => simp at hf
    | succ fuel =>
      refine ⟨w, by rw [walk]; simp, ?_⟩
      constructor <;> simp [lastOf]
  | cons b bs ih =>
    obtain ⟨b, pad⟩ := b
    intro off fuel w pre hpre h48 hv hroom he hle hlt hf hmem
    cases fuel with
    | zero => simp at hf
    | succ fuel =>
      have vb : b.Valid := hv _ List.mem_cons_self
      have hs := size_pos b vb
      have hlen := chain_cons_length be off b pad bs vb
      rw [chain_cons] at hmem
      have hx : ∀ e o x, b.data? = some (e, o, x) → x.toNat < 31 := fun e o x hb =>
        exp_lt (he _ List.mem_cons_self e o x hb) hn
      have e1 := blkt_type h be pre (pad ++ (chainBytes be (off + b.size + pad.length) bs ++ post)) b
        (if bs = [] then 0 else off + b.size + pad.length) off hpre
      have hnx : (if bs = [] then 0 else off + b.size + pad.length) < 65536 := by split <;> omega
      have e2 := blkt_next h be pre (pad ++ (chainBytes be (off + b.size + pad.length) bs ++ post)) b
        (if bs = [] then 0 else off + b.size + pad.length) off hpre hnx
      obtain ⟨len, e3, hl0, hls⟩ := blkt_len h be pre (pad ++ (chainBytes be (off + b.size + pad.length) bs ++ post)) b
        (if bs = [] then 0 else off + b.size + pad.length) off hpre vb
      have e4 := blkt_eff env h be pre (pad ++ (chainBytes be (off + b.size + pad.length) bs ++ post))
        b (if bs = [] then 0 else off + b.size + pad.length) off hpre vb
        (fun hm => by
          have := hroom ⟨_, List.mem_cons_self, hm⟩
          simp [this]) w
        (fun e o x hb => by have := hx e o x hb; omega)
      have e5 := fun o k => body_peek be pre
        (pad ++ (chainBytes be (off + b.size + pad.length) bs ++ post)) b
        (if bs = [] then 0 else off + b.size + pad.length) off hpre o k
      rw [← hmem] at e1 e2 e3 e4 e5
      have hno : nextOff n off len (if bs = [] then 0 else off + b.size + pad.length) =
          if bs = [] then 0 else off + b.size + pad.length := by
        unfold nextOff
        by_cases hb : bs = []
        · simp [hb]
        · simp only [hb, if_false]
          rw [if_neg (by omega), if_neg (by omega)]
      obtain ⟨w', hw, ha⟩ := ih (off + b.size + pad.length) fuel (eff env off w b)
        (pre ++ num be 2 b.type ++ num be 2 (if bs = [] then 0 else off + b.size + pad.length) ++
          b.body be ++ pad)
        (by have := body_length be b vb
            simp only [List.length_append, num_length, hpre]; omega)
        (by omega) (fun x hm => hv x (List.mem_cons_of_mem _ hm))
        (fun ⟨x, hm, hx⟩ => hroom ⟨x, List.mem_cons_of_mem _ hm, hx⟩)
        (fun x hm => he x (List.mem_cons_of_mem _ hm)) (by omega) (by omega)
        (by simpa using hf) (by rw [hmem]; simp only [List.append_assoc])
      refine ⟨w', ?_, ?_⟩
      · rw [if_neg (List.cons_ne_nil (b, pad) bs), walk, if_pos (by omega), e1, bind_ok, e2, bind_ok, e3, bind_ok,
          if_neg (by omega), if_neg (by omega), e4, bind_ok]
        simp only
        rw [hno, hw]
      · constructor
        · rw [lastOf_cons, ha.rate]
          cases b <;> cases lastOf Blkt.float? bs <;> rfl
        · intro hr
          apply ha.reclen
          cases b <;> try exact hr
          rename_i e o x z
          simp only [eff]
          rw [sext_pow (hx e o x rfl)]
          have := he _ List.mem_cons_self e o x rfl
          exact_mod_cast this
        · intro e o x hl
          rw [lastOf_cons] at hl
          cases hb : lastOf Blkt.data? bs with
          | some y =>
            rw [hb] at hl
            obtain ⟨e', o', x'⟩ := y
            simp only [Option.or, Option.some.injEq, Prod.mk.injEq] at hl
            obtain ⟨rfl, rfl, rfl⟩ := hl
            exact ha.data _ _ _ hb
          | none =>
            rw [hb] at hl
            obtain ⟨h1, h2⟩ := ha.noData hb
            rw [h1, h2]
            cases b <;> simp [Blkt.data?] at hl
            obtain ⟨rfl, rfl, rfl⟩ := hl
            refine ⟨by simp only [eff]; omega, ?_, rfl⟩
            exact load_one h (e5 1 1 (by simp [Blkt.body]))
        · intro hl
          rw [lastOf_cons] at hl
          cases hb : lastOf Blkt.data? bs with
          | some y => rw [hb] at hl; simp at hl
          | none =>
            rw [hb] at hl
            obtain ⟨h1, h2⟩ := ha.noData hb
            rw [h1, h2]
            cases b <;> simp [Blkt.data?] at hl <;> exact ⟨rfl, rfl⟩
        · intro q m hl
          rw [lastOf_cons] at hl
          cases hb : lastOf Blkt.timing? bs with
          | some y =>
            rw [hb] at hl
            obtain ⟨q', m'⟩ := y
            simp only [Option.or, Option.some.injEq, Prod.mk.injEq] at hl
            obtain ⟨rfl, rfl⟩ := hl
            exact ha.timing _ _ hb
          | none =>
            rw [hb] at hl
            rw [ha.noTiming hb]
            cases b <;> simp [Blkt.timing?] at hl
            obtain ⟨rfl, rfl⟩ := hl
            refine ⟨by simp only [eff]; omega, ?_⟩
            exact load_one h (e5 1 1 (by simp [Blkt.body]))
        · intro hl
          rw [lastOf_cons] at hl
          cases hb : lastOf Blkt.timing? bs with
          | some y => rw [hb] at hl; simp at hl
          | none =>
            rw [hb] at hl
            rw [ha.noTiming hb]
            cases b <;> simp [Blkt.timing?] at hl <;> rfl
        · rw [ha.headers, List.filterMap_cons]
          cases b <;> simp [eff, headerOf]

/-! ## The source identifier -/

theorem cleanStr_padded (n : Nat) (c rest : List UInt8) (hc : Code c) (hn : c.length ≤ n)
    (hr : rest ≠ []) : cleanStr (padded n c ++ rest) n = .ok c := by
  have hp : (padded n c).length = n := padded_length hn
  have hb : ∀ x ∈ padded n c, 32 ≤ x.toNat ∧ x.toNat ≤ 126 := by
    intro x hx
    unfold padded at hx
    rcases List.mem_append.1 hx with hx | hx
    · have := hc x hx; omega
    · rw [List.eq_of_mem_replicate hx]; decide
  obtain ⟨k, hk, he, _⟩ := Props.Str.C12_strncpclean (padded n c) rest n
    ⟨fun x hx h0 => by have := hb x hx; rw [h0] at this; simp at this,
      Or.inr (Or.inr ⟨by simp [hp], hr⟩)⟩
  have hkn : k = n := by
    have h1 := hk.2.2.2 n (by simp) (by omega) (wellFormed_ascii _ fun x hx => by
      have := hb x (List.mem_of_mem_take hx); omega)
    have h2 := hk.1
    simp at h2
    omega
  have hf : (List.take k (padded n c)).filter (fun x => decide (x ≠ 32)) = c := by
    rw [hkn, List.take_of_length_le (by omega)]
    unfold padded
    rw [List.filter_append, List.filter_eq_self.2 ?_, List.filter_eq_nil_iff.2 ?_, List.append_nil]
    · intro x hx; rw [List.eq_of_mem_replicate hx]; decide
    · intro x hx
      have := hc x hx
      simp only [ne_eq, decide_not, Bool.not_eq_eq_eq_not, Bool.not_true, decide_eq_false_iff_not]
      intro h0; rw [h0] at this; simp at this
  unfold cleanStr
  rw [he, hf]
  simp only [ofMem, bind_ok]
  rw [takeWhile_all]
  intro x hx h0
  have := hc x hx
  rw [h0] at this
  simp at this

theorem code_ne_zero {c : List UInt8} (h : Code c) : ∀ x ∈ c, x ≠ 0 := by
  intro x hx h0
  have := h x hx
  rw [h0] at this
  simp at this

theorem recordSid_eq (r : Rec) (v : r.Valid) (t : List UInt8) (ht : t ≠ []) :
    recordSid (r.fixed ++ t) = .ok r.sid := by
  obtain ⟨-, u1, d1⟩ := piece_at r v t 6 18 2 (padded 2 r.net) (by omega) rfl (padded_length v.net.2) rfl
  obtain ⟨-, u2, d2⟩ := piece_at r v t 3 8 5 (padded 5 r.sta) (by omega) rfl (padded_length v.sta.2) rfl
  obtain ⟨-, u3, d3⟩ := piece_at r v t 4 13 2 (padded 2 r.loc) (by omega) rfl (padded_length v.loc.2) rfl
  obtain ⟨p4, -, -⟩ := piece_at r v t 5 15 3 [r.band, r.source, r.position] (by omega) rfl rfl rfl
  have n1 : u1 ++ t ≠ [] := by simp [ht]
  have n2 : u2 ++ t ≠ [] := by simp [ht]
  have n3 : u3 ++ t ≠ [] := by simp [ht]
  have hc := code_ne_zero v.chan
  have c0 : r.band ≠ 0 := hc _ (by simp)
  have c1 : r.source ≠ 0 := hc _ (by simp)
  have c2 : r.position ≠ 0 := hc _ (by simp)
  have hx : Str.toXchan [r.band, 95, r.source, 95, r.position] =
      [r.band, 95, r.source, 95, r.position] := by
    unfold Str.toXchan
    have := Proof.Str.seedchan_spec [r.band, 95, r.source, 95, r.position]
      (by simp [c0, c1, c2]) []
    rw [this.2 (by simp)]
  have hn := Proof.Str.nslc2sid_eq 64 r.net r.sta (some r.loc)
    [r.band, 95, r.source, 95, r.position] _ (by omega) hx
    (by have := v.net.2; have := v.sta.2; have := v.loc.2
        simp only [Option.getD_some, List.length_cons, List.length_nil]; omega)
  unfold recordSid
  rw [d1, cleanStr_padded _ _ _ v.net.1 v.net.2 n1, bind_ok, d2,
    cleanStr_padded _ _ _ v.sta.1 v.sta.2 n2, bind_ok, d3,
    cleanStr_padded _ _ _ v.loc.1 v.loc.2 n3, bind_ok, p4, bind_ok]
  have ht : ([r.band, 95, r.source, 95, r.position] : List UInt8).takeWhile (· != 0) =
      [r.band, 95, r.source, 95, r.position] := by
    have e0 : (r.band != 0) = true := by simpa using c0
    have e1 : (r.source != 0) = true := by simpa using c1
    have e2 : (r.position != 0) = true := by simpa using c2
    simp only [List.takeWhile, e0, e1, e2]
    rfl
  simp only [List.getD_cons_zero, List.getD_cons_succ]
  rw [ht, hn]
  simp [Rec.sid]

/-! ## Start time, byte order and the whole record -/

/-- The time of the header as calendar fields. -/
def hdrTime (r : Rec) : Fields := ⟨r.year, r.day, r.hour, r.minute, r.second, r.fract * 100000⟩

theorem hdr_accepted (r : Rec) (v : r.Valid) : Props.Accepted (hdrTime r) := by
  have h1 := v.date
  have h2 := v.time
  unfold SaneDate at h1
  unfold hdrTime
  constructor <;> simp only <;> omega

theorem hdr_bounds (r : Rec) (v : r.Valid) :
    -2208988800000000000 ≤ (hdrTime r).instant ∧ (hdrTime r).instant ≤ 4134100000000000000 := by
  have h1 := v.date
  have h2 := v.time
  unfold SaneDate at h1
  have hj : jan1 r.year = Proof.jc r.year := Proof.jan1_eq _
  have hyl := Proof.yearLen_cases r.year
  unfold Proof.jc at hj
  unfold hdrTime Fields.instant
  simp only
  omega

theorem btime_hdr (h : Bool) (r : Rec) (v : r.Valid) (t : List UInt8) :
    btime h (r.be != h) (r.fixed ++ t) 20 = .ok (hdrTime r).instant := by
  have h1 := (Props.C04_no_overflow_partial _ (hdr_accepted r v)).1.2
    (by have := hdr_bounds r v; omega)
  have hy := v.date.1.1
  unfold btime
  rw [ld_year h r v t, bind_ok, if_neg (by omega)]
  simp only [Nat.reduceAdd]
  rw [ld_day h r v t, bind_ok, ld_hour h r v t, bind_ok, ld_minute h r v t, bind_ok,
    ld_second h r v t, bind_ok, ld_fract h r v t, bind_ok]
  simp only [hdrTime] at h1 ⊢
  rw [h1]
  rfl

theorem addTime_ok {t d : Int} (h1 : -9000000000000000000 ≤ t + d)
    (h2 : t + d ≤ 9000000000000000000) : addTime t d = .ok (t + d) := by
  unfold addTime fitsInt64
  rw [if_pos (by simp; omega)]

theorem start_eq (env : Env) (h : Bool) (r : Rec) (v : r.Valid) (t : List UInt8) (mem : List UInt8)
    (hm : mem = r.fixed ++ t) (hne : (hdrTime r).instant ≠ NSTERROR) (n : Int) (w w' : Walk)
    (hw : w.b1001 = 0) (ha : After env h mem n r.chain w w') :
    startTime h (r.be != h) mem r.activity.toNat w'.b1001 r.correction = .ok (some r.start) := by
  have hb := hdr_bounds r v
  have hc := v.correction
  unfold startTime
  have h1 : btime h (r.be != h) mem 20 = .ok (hdrTime r).instant := by rw [hm]; exact btime_hdr h r v t
  rw [h1, bind_ok, if_neg hne]
  have h2 : (if r.correction ≠ 0 ∧ r.activity.toNat.testBit 1 = false
      then addTime (hdrTime r).instant (r.correction * 100000) else .ok (hdrTime r).instant) =
      .ok ((hdrTime r).instant +
        (if r.activity.toNat.testBit 1 then 0 else r.correction * 100000)) := by
    by_cases hb1 : r.activity.toNat.testBit 1 = true
    · simp [hb1]
    · by_cases hz : r.correction = 0
      · simp [hz]
      · rw [if_pos ⟨hz, by simpa using hb1⟩, if_neg hb1]
        exact addTime_ok (by omega) (by omega)
  rw [h2, bind_ok]
  have hd : -214748364800000 ≤ (if r.activity.toNat.testBit 1 then 0 else r.correction * 100000) ∧
    (if r.activity.toNat.testBit 1 then 0 else r.correction * 100000) ≤ 214748364700000 := by
    split <;> omega
  unfold Rec.start
  rw [show (Fields.mk r.year r.day r.hour r.minute r.second (r.fract * 100000)).instant =
    (hdrTime r).instant from rfl]
  generalize (if r.activity.toNat.testBit 1 then 0 else r.correction * 100000) = d at *
  have hl : r.last Blkt.timing? = lastOf Blkt.timing? r.chain := rfl
  cases hlt : lastOf Blkt.timing? r.chain with
  | none =>
    rw [hl, hlt, ha.noTiming hlt, hw]
    simp
  | some y =>
    obtain ⟨q, m⟩ := y
    obtain ⟨t1, t2⟩ := ha.timing q m hlt
    have hmv : -128 ≤ m ∧ m ≤ 127 := by
      have hmem := List.mem_of_getLast? hlt
      rw [List.mem_filterMap] at hmem
      obtain ⟨⟨b, pad⟩, hbm, hb⟩ := hmem
      have vb := v.blockettes _ hbm
      cases b <;> simp [Blkt.timing?] at hb
      obtain ⟨rfl, rfl⟩ := hb
      exact vb
    rw [hl, hlt, if_pos t1, t2, bind_ok, sext_twos8 hmv, addTime_ok (by omega) (by omega), bind_ok]

/-- The header in the other byte order does not look like a date as well. -/
theorem order_exact (y d : Nat) (hs : SaneDate y d)
    (ho : SaneDate (256 * (y % 256) + y / 256) (256 * (d % 256) + d / 256)) :
    y = 2056 ∧ (d = 1 ∨ d = 256 ∨ d = 257) := by
  unfold SaneDate at *
  have c1 : y / 256 = 7 ∨ y / 256 = 8 := by omega
  have c2 : d / 256 = 0 ∨ d / 256 = 1 := by omega
  have c3 : y % 256 = 7 ∨ y % 256 = 8 := by omega
  have c4 : d % 256 = 0 ∨ d % 256 = 1 := by omega
  omega

theorem load_num_host (h be : Bool) {mem : List UInt8} {off v : Nat}
    (hp : peek mem off 2 = .ok (num be 2 v)) (hv : v < 65536) :
    load h false mem off 2 = .ok (if be = h then v else 256 * (v % 256) + v / 256) := by
  unfold load
  rw [hp, bind_ok]
  congr 1
  unfold num
  cases h <;> cases be <;> simp [swapIf, hostNat, beNat, le] <;> omega

/-- The record's byte order can be told from its date on this host. -/
def Told (h : Bool) (r : Rec) : Prop :=
  r.be = h ∨ ¬ (r.year = 2056 ∧ (r.day = 1 ∨ r.day = 256 ∨ r.day = 257))

theorem order_told (h : Bool) (r : Rec) (v : r.Valid) (ht : Told h r) (t : List UInt8) :
    ∃ y d, load h false (r.fixed ++ t) 20 2 = .ok y ∧ load h false (r.fixed ++ t) 22 2 = .ok d ∧
      (!Detect.validYearDay y d) = (r.be != h) := by
  have hs := v.date.1
  refine ⟨_, _, load_num_host h r.be (piece_at r v t 7 20 2 _ (by omega) rfl (num_length ..) rfl).1
      (by unfold SaneDate at hs; omega),
    load_num_host h r.be (piece_at r v t 8 22 2 _ (by omega) rfl (num_length ..) rfl).1
      (by unfold SaneDate at hs; omega), ?_⟩
  by_cases hb : r.be = h
  · rw [if_pos hb, if_pos hb, hb]
    unfold Detect.validYearDay
    unfold SaneDate at hs
    rw [decide_eq_true hs]
    simp
  · rw [if_neg hb, if_neg hb]
    have hn : Detect.validYearDay (256 * (r.year % 256) + r.year / 256) (256 * (r.day % 256) + r.day / 256)
        = false := by
      unfold Detect.validYearDay
      apply decide_eq_false
      intro hc
      rcases ht with ht | ht
      · exact hb ht
      · exact ht (order_exact _ _ hs hc)
    rw [hn]
    cases h <;> cases hbe : r.be <;> simp_all

theorem chain_length (be : Bool) : ∀ (bs : List (Blkt × List UInt8)) (off : Nat),
    (∀ b ∈ bs, b.1.Valid) → 6 * bs.length ≤ (chainBytes be off bs).length := by
  intro bs
  induction bs with
  | nil => simp
  | cons b bs ih =>
    obtain ⟨b, pad⟩ := b
    intro off hv
    have := size_pos b (hv _ List.mem_cons_self)
    have := ih (off + b.size + pad.length) (fun x hm => hv x (List.mem_cons_of_mem _ hm))
    rw [chain_cons_length _ _ b pad bs (hv (b, pad) List.mem_cons_self), List.length_cons]
    omega

theorem sig2 (r : Rec) (v : r.Valid) (t : List UInt8) : Signature2 (r.fixed ++ t) := by
  refine ⟨r.seq, r.quality, r.reserved, padded 5 r.sta ++ padded 2 r.loc ++
    [r.band, r.source, r.position] ++ padded 2 r.net ++ num r.be 2 r.year ++ num r.be 2 r.day,
    UInt8.ofNat r.hour, UInt8.ofNat r.minute, UInt8.ofNat r.second, [r.unused] ++
    num r.be 2 r.fract ++ num r.be 2 r.numsamples ++ num r.be 2 (twos 2 r.factor) ++
    num r.be 2 (twos 2 r.multiplier) ++ [r.activity, r.io, r.dq, r.numblockettes] ++
    num r.be 4 (twos 4 r.correction) ++ num r.be 2 r.dataoffset ++
    num r.be 2 (if r.chain = [] then 0 else 48) ++ t, ?_, v.seq.1, ?_, ?_, ?_, ?_, ?_, ?_, ?_⟩
  · simp [Rec.fixed]
  · intro x hx; exact Or.inl (v.seq.2 x hx)
  · exact v.quality
  · simp [v.reserved]
  · simp [num_length, padded_length v.sta.2, padded_length v.loc.2, padded_length v.net.2]
  all_goals (have := v.time; rw [ofNat_toNat (by omega)]; omega)

/-- The record the library is expected to make of `r`, with the extra headers `hs`. -/
def msr2 (env : Env) (h : Bool) (r : Rec) (hs : List Header) : Msr :=
  { sid := r.sid, reclen := r.bytes.length, swapHeader := r.be != h
    swapPayload := r.dataBE != h
    formatversion := 2, flags := mapFlags r.activity.toNat r.io.toNat r.dq.toNat
    starttime := r.start
    samprate := ((r.last Blkt.float?).map env.widen).getD (env.nominal r.factor r.multiplier)
    encoding := ((r.last Blkt.data?).map fun d => (d.1.toNat : Int)).getD (-1)
    pubversion := r.version, samplecnt := r.numsamples, crc := 0
    extra := if hs = [] then [] else env.json hs
    datalength := if r.dataoffset = 0 then 0 else r.bytes.length - r.dataoffset }

/-- All extra headers of `r`. -/
def headers2 (r : Rec) : List Header :=
  flagHeaders r.activity.toNat r.io.toNat r.dq.toNat ++
    (if r.correction ≠ 0 then [.correction r.correction] else []) ++
    r.chain.filterMap fun b => headerOf b.1

theorem version_eq (r : Rec) (v : r.Valid) : pubVersion r.quality.toNat = r.version := by
  have := v.quality
  simp only [List.mem_cons, List.not_mem_nil, or_false] at this
  unfold Rec.version
  rcases this with h | h | h | h <;> rw [h] <;> rfl

theorem swapData_eq (env : Env) (h : Bool) (r : Rec) (mem : List UInt8) (n : Int) (w w' : Walk)
    (hw : w.b1000 = 0) (ha : After env h mem n r.chain w w') :
    swapData h (r.be != h) mem w'.b1000 = .ok (r.dataBE != h) := by
  have hl : r.last Blkt.data? = lastOf Blkt.data? r.chain := rfl
  unfold swapData Rec.dataBE
  rw [hl]
  cases hd : lastOf Blkt.data? r.chain with
  | none =>
    rw [(ha.noData hd).1, hw]
    simp
  | some y =>
    obtain ⟨e, o, x⟩ := y
    obtain ⟨d1, d2, _⟩ := ha.data e o x hd
    rw [if_pos d1, d2, bind_ok]
    simp only
    congr 1
    by_cases ho : o = 0
    · subst ho; cases h <;> rfl
    · have h1 : o.toNat ≠ 0 := fun hc => ho (UInt8.toNat_inj.1 (by simpa using hc))
      have h2 : (o != 0) = true := by simpa using ho
      rw [h2]
      cases h <;> simp <;> omega

theorem unpack2_eq (env : Env) (h : Bool) (align : Nat) (r : Rec) (v : r.Valid) (ht : Told h r)
    (hne : (hdrTime r).instant ≠ NSTERROR) (t : List UInt8) (ud : Bool) :
    unpack2 env h align (r.bytes ++ t) r.bytes.length ud =
      withSamples h align (r.bytes ++ t) (msr2 env h r (headers2 r)) ud := by
  have hlen := v.length
  have hmem : r.bytes ++ t = r.fixed ++ (chainBytes r.be 48 r.chain ++ (r.rest ++ t)) := by
    simp [Rec.bytes]
  have hbl : r.bytes.length = 48 + ((chainBytes r.be 48 r.chain).length + r.rest.length) := by
    simp [Rec.bytes, fixed_length2 r v, Nat.add_assoc]
  generalize hgt : chainBytes r.be 48 r.chain ++ (r.rest ++ t) = u at hmem
  have hu : u ≠ [] := by
    intro hc
    have := congrArg List.length (hgt.trans hc)
    simp only [List.length_append, List.length_nil] at this
    omega
  have hul : 16 ≤ u.length := by rw [← hgt]; simp; omega
  obtain ⟨y, d, hy, hd, hsw⟩ := order_told h r v ht u
  have hf := fixed_length2 r v
  unfold unpack2
  rw [if_neg (by omega), hmem, peek_ok (by simp; omega), bind_ok, List.drop_zero,
    (sig2_iff _ (by simp; omega)).2 (sig2 r v u), if_neg (by decide), hy, bind_ok, hd, bind_ok]
  simp only [hsw]
  rw [recordSid_eq r v u hu, bind_ok, ld_factor h r v u, bind_ok, ld_multiplier h r v u, bind_ok,
    ld_numsamples h r v u, bind_ok, ld_quality h r v u, bind_ok, ld_activity h r v u, bind_ok,
    ld_io h r v u, bind_ok, ld_dq h r v u, bind_ok, ld_correction h r v u, bind_ok,
    ld_blockettes h r v u, bind_ok, sext_twos16 v.factor, sext_twos16 v.multiplier,
    sext_twos32 v.correction]
  obtain ⟨w', hw, ha⟩ := walk_chain env h r.be (r.fixed ++ u) (r.rest ++ t) r.bytes.length hlen.2
    r.chain 48 65537
    { samprate := env.nominal r.factor r.multiplier, reclen := r.bytes.length
      headers := flagHeaders r.activity.toNat r.io.toNat r.dq.toNat ++
        (if r.correction ≠ 0 then [.correction r.correction] else []) } r.fixed hf (by omega)
    v.blockettes (fun hb => by have := v.room hb; simp [this]) v.exponent (by omega) v.chainEnd
    (by have := chain_length r.be r.chain 48 v.blockettes; have := v.chainEnd; omega)
    (by rw [hgt])
  rw [hw, bind_ok]
  simp only
  unfold finish
  rw [start_eq env h r v u _ rfl hne _ _ w' rfl ha, bind_ok]
  simp only
  rw [ld_dataoffset h r v u, bind_ok, swapData_eq env h r _ _ _ w' rfl ha, bind_ok]
  have hr := ha.reclen rfl
  have hrate := ha.rate
  have hh := ha.headers
  have henc : w'.encoding = ((r.last Blkt.data?).map fun d => (d.1.toNat : Int)).getD (-1) := by
    have hl : r.last Blkt.data? = lastOf Blkt.data? r.chain := rfl
    rw [hl]
    cases hd : lastOf Blkt.data? r.chain with
    | none => rw [(ha.noData hd).2]; rfl
    | some y => rw [(ha.data y.1 y.2.1 y.2.2 hd).2.2]; rfl
  have hdl : (if r.dataoffset > 0 then bits 32 ((r.bytes.length : Int) - r.dataoffset) else 0) =
      if r.dataoffset = 0 then 0 else r.bytes.length - r.dataoffset := by
    have := v.dataoffset
    by_cases hz : r.dataoffset = 0
    · simp [hz]
    · rw [if_pos (by omega), if_neg hz]
      unfold bits
      omega
  simp only at hr hrate hh
  rw [hr, hrate, hh, henc, hdl, version_eq r v]
  rfl

theorem detect_chain (h be : Bool) (mem post : List UInt8) (n : Nat) (hn : n ≤ 10485760) :
    ∀ (bs : List (Blkt × List UInt8)) (off fuel : Nat) (pre : List UInt8),
    pre.length = off → 48 ≤ off → (∀ b ∈ bs, b.1.Valid) →
    (∀ b ∈ bs, ∀ e o x, b.1.data? = some (e, o, x) → 2 ^ x.toNat = n) →
    off + (chainBytes be off bs).length < 65536 →
    bs.length < fuel → mem = pre ++ (chainBytes be off bs ++ post) →
    (∃ b ∈ bs, b.1.data?.isSome) →
    blktLoop h (be != h) mem fuel off = .ok (.found n) := by
  intro bs
  induction bs with
  | nil => intro _ _ _ _ _ _ _ _ _ _ ⟨b, hb, _⟩; cases hb
  | cons b bs ih =>
    obtain ⟨b, pad⟩ := b
    intro off fuel pre hpre h48 hv he hlt hf hmem hex
    cases fuel with
    | zero => simp at hf
    | succ fuel =>
      have vb : b.Valid := hv _ List.mem_cons_self
      have hs := size_pos b vb
      have hlen := chain_cons_length be off b pad bs vb
      have hml : off + b.size ≤ mem.length := by
        rw [hmem]; simp [hpre, hlen]; omega
      rw [chain_cons] at hmem
      have hx : ∀ e o x, b.data? = some (e, o, x) → x.toNat < 31 := fun e o x hb =>
        exp_lt (he _ List.mem_cons_self e o x hb) hn
      have e1 := blkt_type h be pre (pad ++ (chainBytes be (off + b.size + pad.length) bs ++ post)) b
        (if bs = [] then 0 else off + b.size + pad.length) off hpre
      have hnx : (if bs = [] then 0 else off + b.size + pad.length) < 65536 := by split <;> omega
      have e2 := blkt_next h be pre (pad ++ (chainBytes be (off + b.size + pad.length) bs ++ post)) b
        (if bs = [] then 0 else off + b.size + pad.length) off hpre hnx
      have e5 := fun o k => body_peek be pre
        (pad ++ (chainBytes be (off + b.size + pad.length) bs ++ post)) b
        (if bs = [] then 0 else off + b.size + pad.length) off hpre o k
      rw [← hmem] at e1 e2 e5
      rw [blktLoop, if_pos (by omega), e1, bind_ok, e2, bind_ok]
      cases hb : b.data? with
      | some y =>
        cases b <;> simp [Blkt.data?] at hb
        rename_i e o x z
        rw [if_pos ⟨rfl, hml⟩]
        have l2 := load_one h (e5 2 1 (by simp [Blkt.body]))
        have l3 : load h false mem (off + 6) 1 = .ok x.toNat := l2
        have hx' := hx e o x rfl
        rw [l3, bind_ok, if_neg (by omega)]
        have h3 := he _ List.mem_cons_self e o x rfl
        have h4 : sext 64 (2 ^ x.toNat) = 2 ^ x.toNat := by
          have hp : 2 ^ x.toNat < 2 ^ 31 := Nat.pow_lt_pow_right (by omega) hx'
          unfold sext
          rw [Nat.mod_eq_of_lt (by omega), if_pos (by omega)]
          simp
        rw [h4, ← h3]
        simp
      | none =>
        have hne : b.type ≠ 1000 := by
          cases b with
          | mapped m => cases m <;> simp [Blkt.type, Mapped.type]
          | _ => simp [Blkt.data?] at hb <;> simp [Blkt.type]
        have hbs : ∃ b ∈ bs, b.1.data?.isSome := by
          obtain ⟨c, hc, hc2⟩ := hex
          rcases List.mem_cons.1 hc with h1 | h1
          · rw [h1, hb] at hc2; simp at hc2
          · exact ⟨c, h1, hc2⟩
        have hbn : bs ≠ [] := by rintro rfl; obtain ⟨_, h1, _⟩ := hbs; cases h1
        simp only [hbn, if_false]
        rw [if_neg (by simp [hne]), if_neg (by omega)]
        exact ih (off + b.size + pad.length) fuel
          (pre ++ num be 2 b.type ++ num be 2 (if bs = [] then 0 else off + b.size + pad.length) ++
            b.body be ++ pad)
          (by have := body_length be b vb
              simp only [List.length_append, num_length, hpre]; omega)
          (by omega) (fun x hm => hv x (List.mem_cons_of_mem _ hm))
          (fun x hm => he x (List.mem_cons_of_mem _ hm)) (by omega)
          (by simpa using hf) (by rw [hmem]; simp only [List.append_assoc]) hbs

theorem detect_rec (h : Bool) (r : Rec) (v : r.Valid) (ht : Told h r)
    (hd : (r.last Blkt.data?).isSome) (t : List UInt8) :
    detect h (r.bytes ++ t) = .ok (r.bytes.length, 2) := by
  have hlen := v.length
  have hmem : r.bytes ++ t = r.fixed ++ (chainBytes r.be 48 r.chain ++ (r.rest ++ t)) := by
    simp [Rec.bytes]
  have hbl : r.bytes.length = 48 + ((chainBytes r.be 48 r.chain).length + r.rest.length) := by
    simp [Rec.bytes, fixed_length2 r v, Nat.add_assoc]
  generalize hgt : chainBytes r.be 48 r.chain ++ (r.rest ++ t) = u at hmem
  have hul : 16 ≤ u.length := by rw [← hgt]; simp; omega
  obtain ⟨y, d, hy, hdd, hsw⟩ := order_told h r v ht u
  have hf := fixed_length2 r v
  have hs := sig2 r v u
  have n3 : validHeader3 ((r.fixed ++ u).take 15) = false := by
    apply Bool.eq_false_iff.2
    intro hv
    exact sig_exclusive _ hs ((sig3_iff _ (by simp; omega)).1 hv)
  have hex : ∃ b ∈ r.chain, b.1.data?.isSome := by
    have hl : r.last Blkt.data? = lastOf Blkt.data? r.chain := rfl
    rw [hl] at hd
    obtain ⟨x, hx⟩ := Option.isSome_iff_exists.1 hd
    have := List.mem_of_getLast? hx
    rw [List.mem_filterMap] at this
    obtain ⟨b, hb, hb2⟩ := this
    exact ⟨b, hb, by rw [hb2]; rfl⟩
  have hne : r.chain ≠ [] := by
    intro hc
    obtain ⟨b, hb, _⟩ := hex
    rw [hc] at hb
    cases hb
  unfold detect
  rw [hmem, if_neg (by simp; omega), peek_ok (by simp; omega), bind_ok, List.drop_zero, n3,
      if_neg (by decide), peek_ok (by simp; omega), bind_ok, List.drop_zero,
      (sig2_iff _ (by simp; omega)).2 hs, if_pos rfl]
  unfold detect2
  rw [hy, bind_ok, hdd, bind_ok]
  simp only [hsw]
  rw [ld_blockettes h r v u, bind_ok, if_neg hne,
    detect_chain h r.be (r.fixed ++ u) (r.rest ++ t) r.bytes.length hlen.2 r.chain 48 65536 r.fixed hf
      (by omega) v.blockettes v.exponent v.chainEnd
      (by have := chain_length r.be r.chain 48 v.blockettes; have := v.chainEnd; omega)
      (by rw [hgt]) hex]
  rfl

theorem parse2_eq (env : Env) (h : Bool) (align : Nat) (r : Rec) (v : r.Valid) (ht : Told h r)
    (hne : (hdrTime r).instant ≠ NSTERROR) (hd : (r.last Blkt.data?).isSome) (t : List UInt8)
    (vc ud eof : Bool) :
    parse (unpack2 env h align) h align (r.bytes ++ t) vc ud eof =
      (withSamples h align (r.bytes ++ t) (msr2 env h r (headers2 r)) ud).bind
        fun p => .ok (p, r.bytes ++ t) := by
  have hl := v.length
  have hdet := detect_rec h r v ht hd t
  unfold parse
  rw [hdet, bind_ok]
  simp only
  have e : (if True ∧ (r.bytes.length : Int) = 0 ∧ eof = true ∧
      (r.bytes ++ t).length &&& (r.bytes ++ t).length - 1 = 0 ∧ (r.bytes ++ t).length ≤ 10485760 then
      ((r.bytes ++ t).length : Int) else (r.bytes.length : Int)) = (r.bytes.length : Int) :=
    if_neg (by omega)
  have h2 : r.bytes.length ≤ (r.bytes ++ t).length := by simp
  rw [e, if_neg (by omega), if_neg (by omega), if_neg (by omega), if_neg (by omega),
    if_neg (by decide), if_pos trivial, unpack2_eq env h align r v ht hne t ud]

end Verif.Proof.Record2
