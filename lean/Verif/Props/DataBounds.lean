import Verif.Props.Record2
/-!
# C29: locating the data of version 2 records
-/
namespace Verif.Props.DataBounds
open Verif.Model.Bytes Verif.Model.Steim Verif.Model.Mem Verif.Model.Record2 Verif.Model.Record3
open Verif.Props.Record2 Verif.Proof.Mem

theorem trim_stays {mem : List UInt8} : ∀ (n : Nat), 64 * n ≤ mem.length → ∃ k, trimFrames mem n = .ok k
  | 0, _ => ⟨0, rfl⟩
  | n + 1, h => by
    unfold trimFrames
    have : peek mem (64 * n) 64 = .ok ((mem.drop (64 * n)).take 64) := by unfold peek; rw [if_pos (by omega)]
    rw [this, bind_ok]
    split
    · exact trim_stays n (by omega)
    · exact ⟨_, rfl⟩

theorem trim_leaves {mem : List UInt8} {n : Nat} (h : mem.length < 64 * n) : trimFrames mem n = .oob := by
  cases n with
  | zero => omega
  | succ n =>
    unfold trimFrames
    have : peek mem (64 * n) 64 = .oob := by unfold peek; rw [if_neg (by omega)]
    rw [this]
    rfl

theorem size_le {encoding samplecnt : Int} {size : Nat} : sampleBytes encoding samplecnt size ≤ size := by
  unfold sampleBytes
  split
  · split
    · rename_i n _ _
      have := Nat.mod_le (bits 64 (samplecnt * n)) (2 ^ 16)
      omega
    · exact Nat.le_refl _
  · exact Nat.le_refl _

/-- **C29** (part, version 2 data).  The data of a version 2 record, whose memory is there, is located without reading
outside of the record if the offset in its header is not behind its end. -/
theorem C29_version2_data_partial (hostBE : Bool) (msr : Msr) (mem : List UInt8) (off : Nat) (hv : msr.formatversion = 2)
    (ho : load hostBE msr.swapHeader mem 44 2 = .ok off) (hr : (off : Int) ≤ msr.reclen)
    (hm : msr.reclen ≤ mem.length) (hb : mem.length < 4294967296) :
    ∃ size, dataBounds hostBE msr mem = .ok (off, size) ∧ off + size ≤ mem.length := by
  unfold dataBounds
  have hsz : bits 32 (msr.reclen - off) = (msr.reclen - off).toNat := by
    unfold bits
    rw [Int.emod_eq_of_lt (by omega) (by omega)]
  rw [if_neg (by rw [hv]; decide), if_pos hv, ho, bind_ok, bind_ok, hsz]
  dsimp only
  have hle := size_le (encoding := msr.encoding) (samplecnt := msr.samplecnt) (size := (msr.reclen - off).toNat)
  generalize sampleBytes msr.encoding msr.samplecnt (msr.reclen - off).toNat = s at hle
  split
  · obtain ⟨k, hk⟩ := trim_stays (mem := mem) (s / 64) (by omega)
    have hk' : ∀ n k, trimFrames mem n = .ok k → k ≤ 64 * n := by
      intro n
      induction n with
      | zero => intro k h; injection h with h; omega
      | succ n ih =>
        intro k h
        unfold trimFrames at h
        obtain ⟨f, -, h⟩ := bind_eq_ok.1 h
        split at h
        · have := ih k h; omega
        · injection h with h; omega
    have := hk' _ _ hk
    rw [hk, bind_ok]
    exact ⟨k, rfl, by omega⟩
  · exact ⟨s, rfl, by omega⟩

/-- **C29** is violated (version 2 data).  If the offset of the data in the header of a version 2 record with Steim data
is behind the end of the record by a multiple of 64 bytes, the size wraps and frames are compared far outside of the
record, before the offset is checked: for every such record, and when parsing one of 128 bytes with its samples. -/
theorem C29_version2_data_offset_violated :
    (∀ (hostBE : Bool) (msr : Msr) (mem : List UInt8) (off : Nat), msr.formatversion = 2 →
      (msr.encoding = 10 ∨ msr.encoding = 11) → 0 ≤ msr.reclen → load hostBE msr.swapHeader mem 44 2 = .ok off →
      msr.reclen < off → off < 65536 → (off - msr.reclen) % 64 = 0 → mem.length < 2147483648 →
      dataBounds hostBE msr mem = .oob) ∧
    ∃ b : List UInt8, b.length = 128 ∧ parse (unpack2 env0 false 0) false 0 b false true false = .oob := by
  constructor
  · intro hostBE msr mem off hv he h0 ho h1 h2 h3 hm
    unfold dataBounds
    have hsz : ((bits 32 (msr.reclen - off) : Nat) : Int) = 4294967296 - (off - msr.reclen) := by
      unfold bits
      have : (msr.reclen - off) % 2 ^ 32 = 4294967296 - (off - msr.reclen) := by omega
      rw [this]
      omega
    rw [if_neg (by rw [hv]; decide), if_pos hv, ho, bind_ok, bind_ok]
    dsimp only
    have hs : sampleBytes msr.encoding msr.samplecnt (bits 32 (msr.reclen - off)) = bits 32 (msr.reclen - off) := by
      unfold sampleBytes
      rcases he with e | e <;> rw [e] <;> rfl
    rw [hs]
    generalize bits 32 (msr.reclen - off) = n at hsz
    rw [if_pos ⟨by omega, he⟩, trim_leaves (by omega)]
    rfl
  · exact ⟨sample2.fixed.take 44 ++ [0, 192, 0, 48] ++ [3, 232, 0, 0, 10, 1, 7, 0] ++ List.replicate 72 0,
      by decide +kernel, by decide +kernel⟩

/-- The length of the record and that of its data, as parsed without the samples. -/
def lengths : Res (Parsed × List UInt8) → Option (Int × Nat)
  | .ok (.record m, _) => some (m.reclen, m.datalength)
  | _ => none

/-- **C64** is violated (version 2).  A record of 128 bytes that tells that its data is behind its end is parsed, with
4294967232 bytes of data. -/
theorem C64_version2_length_violated : ∃ b : List UInt8, b.length = 128 ∧
    lengths (parse (unpack2 env0 false 0) false 0 b false false false) = some (128, 4294967232) :=
  ⟨sample2.fixed.take 44 ++ [0, 192, 0, 48] ++ [3, 232, 0, 0, 10, 1, 7, 0] ++ List.replicate 72 0,
    by decide +kernel, by decide +kernel⟩

example : (match parse (unpack2 env0 false 0) false 0
      (sample2.fixed.take 44 ++ [0, 64, 0, 48] ++ [3, 232, 0, 0, 10, 1, 7, 0] ++ List.replicate 72 0) false false false with
    | .ok (.record m, b) => (match dataBounds false m b with | .ok p => some (m.formatversion, m.reclen, p) | _ => none)
    | _ => none) = some (2, 128, 64, 64) := by decide +kernel

end Verif.Props.DataBounds
