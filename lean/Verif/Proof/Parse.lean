import Verif.Proof.Record3
import Verif.Props.Samples
/-! Lemmas on parsing records within the bounds of a buffer. -/
namespace Verif.Proof.Parse
open Verif.Model Verif.Model.Bytes Verif.Model.Steim Verif.Model.Mem Verif.Model.Detect
open Verif.Model.Samples Verif.Props.Samples
open Verif.Model.Record3 Verif.Proof.Bytes Verif.Proof.Mem Verif.Proof.Record3
open Verif.Spec Verif.Spec.Record3

theorem trimFrames_ok (mem : List UInt8) (n : Nat) (h : 64 * n ≤ mem.length) :
    ∃ s, trimFrames mem n = .ok s ∧ s ≤ 64 * n := by
  induction n with
  | zero => exact ⟨0, rfl, by omega⟩
  | succ n ih =>
    obtain ⟨s, h1, h2⟩ := ih (by omega)
    rw [trimFrames, peek_ok (by omega), bind_ok]
    split
    · exact ⟨s, h1, by omega⟩
    · exact ⟨_, rfl, Nat.le_refl _⟩

theorem strlen_le (b : List UInt8) : strlen b ≤ b.length := (List.takeWhile_prefix _).length_le

theorem sampleBytes_le (e c : Int) (size : Nat) : sampleBytes e c size ≤ size := by
  unfold sampleBytes
  split
  · rename_i n _
    split
    · have := Nat.mod_le (bits 64 (c * n)) (2 ^ 16)
      exact Nat.le_trans this (by omega)
    · omega
  · omega

theorem sampleBytes_ge (enc n size : Nat) (hfx : fixedSize enc) (hn : n < 2147483648)
    (hp : storedSize enc * n ≤ size)
    (hq : enc ≤ 5 → storedSize enc * n = size ∨ storedSize enc * n < 65536) :
    storedSize enc * n ≤ sampleBytes enc n size := by
  unfold fixedSize at hfx
  have hb : ∀ k : Nat, k ≤ 8 → bits 64 ((n : Int) * (k : Nat)) = k * n := by
    intro k hk
    have h8 : k * n ≤ 8 * n := Nat.mul_le_mul_right n hk
    unfold bits
    rw [show (n : Int) * (k : Nat) = ((k * n : Nat) : Int) by rw [Nat.mul_comm]; simp]
    generalize k * n = z at *
    omega
  simp only [List.mem_cons, List.not_mem_nil, or_false] at hfx
  rcases hfx with rfl | rfl | rfl | rfl | rfl | rfl | rfl | rfl | rfl | rfl | rfl <;>
    simp only [storedSize, sampleBytes, fixedBytes] at hp hq ⊢ <;> simp at hp hq ⊢ <;>
    try exact hp
  · have := hb 1 (by omega)
    simp at this
    rw [this]; split <;> omega
  · have := hb 2 (by omega)
    simp at this
    rw [this]; split <;> omega
  · have := hb 4 (by omega)
    simp at this
    rw [this]; split <;> omega
  · have := hb 4 (by omega)
    simp at this
    rw [this]; split <;> omega
  · have := hb 8 (by omega)
    simp at this
    rw [this]; split <;> omega

theorem dataBounds_ok (h : Bool) (m : Msr) (mem : List UInt8) (hf : m.formatversion = 3)
    (hl : 40 + m.sid.length + m.extra.length + m.datalength ≤ mem.length)
    (h32 : mem.length < 4294967296 ∨ 40 + m.sid.length + m.extra.length < 4294967296) :
    ∃ size, dataBounds h m mem = .ok (40 + strlen m.sid + m.extra.length, size) ∧
      size ≤ m.datalength ∧
      (m.encoding ≠ 10 → m.encoding ≠ 11 →
        size = sampleBytes m.encoding m.samplecnt m.datalength) := by
  have hs := strlen_le m.sid
  unfold dataBounds
  rw [hf, if_pos rfl, bind_ok, Nat.mod_eq_of_lt (by omega)]
  simp only
  have hle := sampleBytes_le m.encoding m.samplecnt m.datalength
  generalize sampleBytes m.encoding m.samplecnt m.datalength = size at hle
  split
  · rename_i hc
    obtain ⟨s, h1, h2⟩ := trimFrames_ok mem (size / 64) (by omega)
    refine ⟨s, ?_, by omega, ?_⟩
    · rw [h1]; rfl
    · intro a b; exact absurd hc.2 (by simp [a, b])
  · exact ⟨size, rfl, hle, fun _ _ => rfl⟩

theorem unpackData_in_bounds (h : Bool) (align : Nat) (m : Msr) (mem : List UInt8)
    (hf : m.formatversion = 3)
    (hl : 40 + m.sid.length + m.extra.length + m.datalength ≤ mem.length)
    (h32 : mem.length < 4294967296 ∨ 40 + m.sid.length + m.extra.length < 4294967296)
    (enc n : Nat) (he : m.encoding = enc) (he2 : enc < 256) (hn : m.samplecnt = n)
    (hs : fixedSize enc → storedSize enc * n ≤ m.datalength ∧
      (enc ≤ 5 → storedSize enc * n = m.datalength ∨ storedSize enc * n < 65536)) :
    unpackData h align m mem ≠ .oob := by
  obtain ⟨size, hb, hsz, hsize⟩ := dataBounds_ok h m mem hf hl h32
  have hst := strlen_le m.sid
  unfold unpackData
  split
  · simp
  split
  · simp
  split
  · simp
  rw [hb, bind_ok]
  simp only
  split
  · simp
  have e1 : (if m.encoding < 0 then 10 else bits 8 m.encoding) = enc := by
    rw [he]
    unfold bits
    rw [if_neg (by omega)]
    omega
  rw [e1]
  have hdec : ∀ (b : List UInt8) (ss : Nat), size ≤ b.length →
      decodeData h m.swapPayload b size enc m.samplecnt.toNat (m.samplecnt.toNat * ss) ≠ .oob := by
    intro b ss hbl
    apply C60_decode_in_bounds_partial _ _ _ _ _ _ _ hbl (by omega)
    intro hfx
    rw [hsize (by rw [he]; intro h; unfold fixedSize at hfx; simp at hfx; omega)
      (by rw [he]; intro h; unfold fixedSize at hfx; simp at hfx; omega), he, hn, Int.toNat_natCast]
    exact sampleBytes_ge enc n _ hfx (by omega) (hs hfx).1 (hs hfx).2
  split
  · simp
  · unfold encodedMem
    split
    · rw [peek_ok (by omega), bind_ok]
      exact hdec _ _ (by simp; omega)
    · rw [bind_ok]
      exact hdec _ _ (by simp; omega)

theorem fixedFor_lengths (r : Rec) (s x p : List UInt8) (d : Nat) (hs : s.length = r.sid.length)
    (hx : x.length = r.extra.length) :
    ({ r with sid := s, extra := x, payload := p } : Rec).fixedFor d = r.fixedFor d := by
  unfold Rec.fixedFor
  rw [← hs, ← hx]

/-- A buffer beginning with the header of `r` and long enough holds a record with the same header. -/
theorem actual (r : Rec) (v : r.Valid) (mem : List UInt8)
    (hb : r.bytes.take 40 = mem.take 40) (hl : r.bytes.length ≤ mem.length) :
    ∃ (r' : Rec) (rest : List UInt8), r'.Valid ∧ r'.sid.length = r.sid.length ∧
      r'.extra.length = r.extra.length ∧ r'.payload.length = r.payload.length ∧
      r'.encoding = r.encoding ∧ r'.numsamples = r.numsamples ∧
      mem = r'.fixedFor r.payload.length ++ (r'.sid ++ (r'.extra ++ (r'.payload ++ rest))) := by
  have h40 : r.fixed.length = 40 := fixed_length _ _
  have e1 : r.bytes.take 40 = r.fixed := by
    unfold Rec.bytes
    rw [List.append_assoc, List.append_assoc, List.take_left' h40]
  have e3 : r.bytes.length = 40 + r.sid.length + r.extra.length + r.payload.length := by
    unfold Rec.bytes; simp [h40]; omega
  have e2 : mem = r.fixedFor r.payload.length ++ mem.drop 40 := by
    have := List.take_append_drop 40 mem
    rw [← hb, e1] at this
    exact this.symm
  have hrl : (mem.drop 40).length = mem.length - 40 := by simp
  generalize mem.drop 40 = rest at e2 hrl
  have hsl : (rest.take r.sid.length).length = r.sid.length := by simp; omega
  have hxl : ((rest.drop r.sid.length).take r.extra.length).length = r.extra.length := by
    simp; omega
  have hpl : (((rest.drop r.sid.length).drop r.extra.length).take r.payload.length).length
      = r.payload.length := by simp; omega
  refine ⟨{ r with
      sid := rest.take r.sid.length
      extra := (rest.drop r.sid.length).take r.extra.length
      payload := ((rest.drop r.sid.length).drop r.extra.length).take r.payload.length },
    ((rest.drop r.sid.length).drop r.extra.length).drop r.payload.length, ?_, hsl, hxl, hpl, rfl,
    rfl, ?_⟩
  · exact ⟨v.flags, v.nsec, v.year, v.day, v.hour, v.minute, v.second, v.encoding, v.rate,
      v.numsamples, v.crc, v.pubversion, by rw [hsl]; exact v.sid, by rw [hxl]; exact v.extra,
      by rw [hpl]; exact v.payload⟩
  · rw [fixedFor_lengths r _ _ _ _ hsl hxl]
    show mem = _ ++ (_ ++ (_ ++ (_ ++ _)))
    rw [List.take_append_drop, List.take_append_drop, List.take_append_drop]
    exact e2

end Verif.Proof.Parse
