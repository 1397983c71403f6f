import Verif.Model.Bytes
/-! Lemmas on the memory representation of integers. -/
namespace Verif.Proof.Bytes
open Verif.Model.Bytes

theorem beBytes_length (n v : Nat) : (beBytes n v).length = n := by
  induction n generalizing v with
  | zero => rfl
  | succ n ih => simp [beBytes, ih]

theorem hostBytes_length (h : Bool) (n v : Nat) : (hostBytes h n v).length = n := by
  unfold hostBytes; split <;> simp [beBytes_length]

theorem swapIf_length (s : Bool) (b : List UInt8) : (swapIf s b).length = b.length := by
  unfold swapIf; split <;> simp

theorem beNat_append (a : List UInt8) (x : UInt8) : beNat (a ++ [x]) = 256 * beNat a + x.toNat := by
  simp [beNat]

theorem beNat_beBytes (n v : Nat) : beNat (beBytes n v) = v % 256 ^ n := by
  induction n generalizing v with
  | zero => simp [beBytes, beNat, Nat.mod_one]
  | succ n ih =>
    rw [beBytes, beNat_append, ih, Nat.pow_succ, Nat.mul_comm (256 ^ n) 256, Nat.mod_mul]
    simp only [UInt8.toNat_ofNat']
    omega

theorem beNat_lt (b : List UInt8) : beNat b < 256 ^ b.length := by
  have key : ∀ n, ∀ b : List UInt8, b.length = n → beNat b < 256 ^ n := by
    intro n
    induction n with
    | zero =>
      intro b hb
      rw [List.length_eq_zero_iff] at hb
      subst hb; simp [beNat]
    | succ n ih =>
      intro b hb
      have hne : b ≠ [] := by intro h; subst h; simp at hb
      obtain ⟨a, x, rfl⟩ : ∃ a x, b = a ++ [x] := ⟨b.dropLast, b.getLast hne, (List.dropLast_concat_getLast hne).symm⟩
      rw [beNat_append]
      have := ih a (by simpa using hb)
      have hx := x.toNat_lt
      rw [Nat.pow_succ]
      omega
  exact key _ b rfl

theorem hostNat_lt (h : Bool) (b : List UInt8) : hostNat h b < 256 ^ b.length := by
  unfold hostNat; split
  · exact beNat_lt b
  · have := beNat_lt b.reverse
    simpa using this

/-- A stored number is read back (swapping both times or never). -/
theorem host_round_trip (h s : Bool) (n v : Nat) (hv : v < 256 ^ n) :
    hostNat h (swapIf s (swapIf s (hostBytes h n v))) = v := by
  have e : swapIf s (swapIf s (hostBytes h n v)) = hostBytes h n v := by
    cases s <;> simp [swapIf]
  rw [e]
  cases h <;> simp [hostNat, hostBytes, beNat_beBytes, Nat.mod_eq_of_lt hv]

theorem bits_lt (n : Nat) (v : Int) : bits n v < 2 ^ n := by
  unfold bits
  have h1 : (0 : Int) < 2 ^ n := Int.pow_pos (by decide)
  have h2 := Int.emod_lt_of_pos v h1
  have h3 := Int.emod_nonneg v (b := 2 ^ n) (by omega)
  have : ((v % 2 ^ n).toNat : Int) < ((2 ^ n : Nat) : Int) := by
    rw [Int.toNat_of_nonneg h3]; simpa using h2
  omega

end Verif.Proof.Bytes
