import Verif.Proof.Detect
/-!
# Properties of version 2 record detection (C28, C29)
-/
namespace Verif.Props.Detect
open Verif.Model.Bytes Verif.Model.Steim Verif.Model.Mem Verif.Model.Detect
open Verif.Proof.Bytes Verif.Proof.Mem Verif.Proof.Record3 Verif.Proof.Detect
open Verif.Spec.Record3 Verif.Spec.Detect

/-- A big-endian record: header of 48 bytes, blockette 1001 at 48, blockette 1000 (exponent 9) at
56, filled to 72 bytes. -/
def sample2 : List UInt8 :=
  [48, 48, 48, 48, 48, 49, 68, 32] ++ List.replicate 12 65 ++ [7, 220, 0, 1, 2, 3, 4, 0] ++
  List.replicate 18 0 ++ [0, 48] ++
  [3, 233, 0, 56, 0, 0, 0, 0] ++ [3, 232, 0, 0, 10, 1, 9, 0] ++ List.replicate 8 0

theorem sample2_sig : Signature2 sample2 :=
  ⟨[48, 48, 48, 48, 48, 49], 68, 32, List.replicate 12 65 ++ [7, 220, 0, 1], 2, 3, 4, _, rfl, rfl,
    by decide, by decide, by decide, rfl, by decide, by decide, by decide⟩

/-! ## C28 -/

/-- **C28 (termination).** For every buffer and host the detection ends: the bounds on the
iterations in the model, 65536 blockettes and one step per byte of the buffer, are never used up. -/
theorem C28_terminates (h : Bool) (mem : List UInt8) : detect h mem ≠ .err := by
  unfold detect
  split
  · simp
  refine bind_ne_err (peek_ne_err _ _ _) fun h3 _ => ?_
  split
  · refine bind_ne_err (load_ne_err _ _ _ _ _) fun _ _ => bind_ne_err (load_ne_err _ _ _ _ _)
      fun _ _ => bind_ne_err (load_ne_err _ _ _ _ _) fun _ _ => by simp
  · refine bind_ne_err (peek_ne_err _ _ _) fun h2 _ => ?_
    split
    · refine bind_ne_err ?_ (by simp)
      unfold detect2
      refine bind_ne_err (load_ne_err _ _ _ _ _) fun _ _ => bind_ne_err (load_ne_err _ _ _ _ _)
        fun _ _ => bind_ne_err (load_ne_err _ _ _ _ _) fun off hoff => ?_
      have hlt := (load_lt hoff).1
      refine bind_ne_err (blktLoop_ne_err _ _ _ _ _ ⟨by omega, by omega, by omega⟩) fun r _ => ?_
      split
      · simp
      · simp
      · refine bind_ne_err (scanNext_ne_err _ _ _ (by omega) (by omega)) fun r _ => ?_
        split <;> simp
    · simp

/-- **C28 (blockette 1000).** If following the chain leads to a complete blockette 1000, its record
length is returned. -/
theorem C28_length_from_blockette1000 (h : Bool) (mem : List UInt8) (hs : Signature2 mem)
    (off : Nat) (hv : Visits (recordBE h mem) mem off) (hb : IsB1000 (recordBE h mem) mem off)
    (he : (mem.getD (off + 6) 0).toNat < 63) :
    detect h mem = .ok ((2 : Int) ^ (mem.getD (off + 6) 0).toNat, 2) := by
  obtain ⟨h48, h8, hty⟩ := hb
  obtain ⟨s, hbe, hd⟩ := detect_v2 h mem (by omega) hs
  rw [← hbe] at hv hty
  obtain ⟨fuel, _, hl⟩ := visits_loop h s mem off hv
  rw [hd, hl, blktLoop, if_pos (by omega), load2 _ _ _ _ (by omega), bind_ok,
    load2 _ _ _ _ (by omega), bind_ok, if_pos ⟨hty, h8⟩, load1 _ _ _ (by omega), bind_ok,
    if_neg (by omega)]
  simp only [bind_ok]
  congr 2
  have hp : 2 ^ (mem.getD (off + 6) 0).toNat < 2 ^ 63 := Nat.pow_lt_pow_right (by omega) he
  unfold sext
  rw [Nat.mod_eq_of_lt (by omega), if_pos (by omega)]
  simp

example : recordBE false sample2 = true ∧ Visits true sample2 56 ∧ IsB1000 true sample2 56 ∧
    detect false sample2 = .ok (512, 2) ∧ detect true sample2 = .ok (512, 2) := by
  refine ⟨by decide +kernel, ?_, ⟨by decide, by decide, by decide⟩, by decide +kernel,
    by decide +kernel⟩
  exact Visits.next 48 Visits.first ⟨by decide, by decide, fun h => absurd h.2.2 (by decide)⟩
    (by decide)

/-- **C28 (backward links).** A link that does not lead forward by more than the 4 bytes of a
blockette header makes the buffer no record: -1. -/
theorem C28_backward_link (h : Bool) (mem : List UInt8) (hs : Signature2 mem)
    (off : Nat) (hv : Visits (recordBE h mem) mem off) (ho : IsOther (recordBE h mem) mem off)
    (hn : u16 (recordBE h mem) mem (off + 2) ≠ 0)
    (hle : u16 (recordBE h mem) mem (off + 2) ≤ off + 4) :
    detect h mem = .ok (-1, 2) := by
  have h4 := ho.2.1
  have h48 := ho.1
  obtain ⟨s, hbe, hd⟩ := detect_v2 h mem (by omega) hs
  rw [← hbe] at hv ho hn hle
  obtain ⟨fuel, _, hl⟩ := visits_loop h s mem off hv
  rw [hd, hl, blktLoop_other h s mem fuel off ho]
  simp only
  rw [if_pos (by omega)]
  rfl

/-- A blockette linking to itself. -/
example : detect false ([48, 48, 48, 48, 48, 49, 68, 32] ++ List.replicate 38 0 ++ [0, 48] ++
    [3, 233, 0, 48] ++ List.replicate 30 0) = .ok (-1, 2) := by decide +kernel

/-- **C28 (no blockette 1000).** If the chain ends without one, the length is the offset of the
nearest following header on a 64 byte boundary, or 0, undetermined, if there is none. -/
theorem C28_length_from_next_header (h : Bool) (mem : List UInt8) (hl : 48 ≤ mem.length)
    (hs : Signature2 mem) (he : Ends (recordBE h mem) mem) :
    (∃ n : Nat, detect h mem = .ok (n, 2) ∧ HeaderAt mem n ∧ ∀ k, HeaderAt mem k → n ≤ k) ∨
    (detect h mem = .ok (0, 2) ∧ ∀ k, ¬ HeaderAt mem k) := by
  obtain ⟨s, hbe, hd⟩ := detect_v2 h mem hl hs
  have hloop : blktLoop h s mem 65536 (u16 (if s then !h else h) mem 46) = .ok .none := by
    rw [← hbe] at he
    rcases he with ⟨off, hv, ho⟩ | ⟨off, hv, ho, hz⟩
    · obtain ⟨fuel, _, e⟩ := visits_loop h s mem off hv
      rw [e, blktLoop, if_neg (by omega)]
    · obtain ⟨fuel, hen, e⟩ := visits_loop h s mem off hv
      have h48 := ho.1
      have := hen.2.2 h48
      have := hen.2.1
      rw [e, blktLoop_other h s mem fuel off ho]
      simp only
      rw [hz, if_neg (by omega), show fuel = fuel - 1 + 1 by omega, blktLoop, if_neg (by omega)]
  rw [hd, hloop, bind_ok]
  rcases scan_spec mem mem.length 64 hl (by omega) (by omega) (by omega) (by omega) with
    ⟨n, e, hh, _, hmin⟩ | ⟨e, hno⟩
  · left
    refine ⟨n, ?_, hh, fun k hk => hmin k hk.2.1 hk⟩
    simp only [e, bind_ok]
  · right
    refine ⟨?_, fun k hk => hno k hk.2.1 hk⟩
    simp only [e, bind_ok]

/-- Two headers 128 bytes apart. -/
def sample2b : List UInt8 :=
  let hdr := [48, 48, 48, 48, 48, 49, 68, 32] ++ List.replicate 40 0
  hdr ++ List.replicate 80 1 ++ hdr ++ [1]

example : Ends (recordBE false sample2b) sample2b ∧ detect false sample2b = .ok (128, 2) :=
  ⟨Or.inl ⟨_, Visits.first, Or.inl (by decide +kernel)⟩, by decide +kernel⟩

/-- **C28 (violated for exponents from 63 on).** The record length exponent is not checked: 64 and
above are an undefined shift, 63 gives a negative length. -/
theorem C28_exponent_violated :
    (∃ b : List UInt8, detect false b = .ub) ∧
    (∃ b : List UInt8, detect false b = .ok (-9223372036854775808, 2)) :=
  ⟨⟨sample2.set 62 64, by decide +kernel⟩, ⟨sample2.set 62 63, by decide +kernel⟩⟩

/-! ## C29 for version 2 detection -/

/-- **C29 (partial, detection of version 2).** A buffer with the version 2 signature and at least
48 bytes is not read beyond its end unless the chain leads to one of its last 3 bytes or just
behind it.  Missing: these offsets and buffers of 40 to 47 bytes,
`C29_version2_header_violated`. -/
theorem C29_detect2_in_bounds_partial (h : Bool) (mem : List UInt8) (hl : 48 ≤ mem.length)
    (hs : Signature2 mem)
    (hc : ∀ off, Visits (recordBE h mem) mem off → 48 ≤ off → off ≤ mem.length →
      off + 4 ≤ mem.length) :
    detect h mem ≠ .oob := by
  obtain ⟨s, hbe, hd⟩ := detect_v2 h mem hl hs
  rw [← hbe] at hc
  have loop : ∀ fuel off, Visits (if s then !h else h) mem off →
      blktLoop h s mem fuel off ≠ .oob := by
    intro fuel
    induction fuel with
    | zero => intro off _; simp [blktLoop]
    | succ fuel ih =>
      intro off hv
      by_cases hin : 48 ≤ off ∧ off ≤ mem.length
      · have h4 := hc off hv hin.1 hin.2
        by_cases hb : IsB1000 (if s then !h else h) mem off
        · obtain ⟨h48, h8, hty⟩ := hb
          rw [blktLoop, if_pos (by omega), load2 _ _ _ _ (by omega), bind_ok,
            load2 _ _ _ _ (by omega), bind_ok, if_pos ⟨hty, h8⟩, load1 _ _ _ (by omega), bind_ok]
          split <;> simp
        · have ho : IsOther (if s then !h else h) mem off := ⟨hin.1, h4, hb⟩
          rw [blktLoop_other h s mem fuel off ho]
          have hnext := fun hn => ih _ (Visits.next off hv ho hn)
          simp only
          generalize u16 (if s then !h else h) mem (off + 2) = nx at hnext
          split
          · simp
          · by_cases hz : nx = 0
            · rw [hz]
              cases fuel with
              | zero => simp [blktLoop]
              | succ k => rw [blktLoop, if_neg (by omega)]; simp
            · exact hnext (by omega)
      · rw [blktLoop, if_neg (by omega)]; simp
  rw [hd]
  refine bind_ne_oob (bind_ne_oob (loop _ _ Visits.first) fun r _ => ?_) (by simp)
  split
  · simp
  · simp
  · rcases scan_spec mem mem.length 64 hl (by omega) (by omega) (by omega) (by omega) with
      ⟨n, e, -⟩ | ⟨e, -⟩
    · simp only [e, bind_ok]; simp
    · simp only [e, bind_ok]; simp

example : ∀ off, Visits true sample2 off → 48 ≤ off → off ≤ sample2.length →
    off + 4 ≤ sample2.length := by
  have h : ∀ off, Visits true sample2 off → off = 48 ∨ off = 56 := by
    intro off hv
    induction hv with
    | first => left; decide
    | next o hv ho hn ih =>
      rcases ih with rfl | rfl
      · right; decide
      · exact absurd ⟨by decide, by decide, by decide⟩ ho.2.2
  intro off hv _ _
  rcases h off hv with rfl | rfl <;> decide

end Verif.Props.Detect
