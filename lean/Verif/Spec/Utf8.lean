/-!
# Specification of UTF-8 (RFC 3629, section 4, ABNF)
-/
namespace Verif.Spec.Utf8

/-- `UTF8-tail = %x80-BF` -/
def Tail (b : UInt8) : Prop := 0x80 ≤ b ∧ b ≤ 0xBF

/-- One encoded character: `UTF8-1 / UTF8-2 / UTF8-3 / UTF8-4`. -/
inductive IsChar : List UInt8 → Prop where
  | ascii {a} : a ≤ 0x7F → IsChar [a]
  | two {a b} : 0xC2 ≤ a ∧ a ≤ 0xDF → Tail b → IsChar [a, b]
  | threeE0 {b c} : 0xA0 ≤ b ∧ b ≤ 0xBF → Tail c → IsChar [0xE0, b, c]
  | threeE1 {a b c} : 0xE1 ≤ a ∧ a ≤ 0xEC → Tail b → Tail c → IsChar [a, b, c]
  | threeED {b c} : 0x80 ≤ b ∧ b ≤ 0x9F → Tail c → IsChar [0xED, b, c]
  | threeEE {a b c} : 0xEE ≤ a ∧ a ≤ 0xEF → Tail b → Tail c → IsChar [a, b, c]
  | fourF0 {b c d} : 0x90 ≤ b ∧ b ≤ 0xBF → Tail c → Tail d → IsChar [0xF0, b, c, d]
  | fourF1 {a b c d} : 0xF1 ≤ a ∧ a ≤ 0xF3 → Tail b → Tail c → Tail d → IsChar [a, b, c, d]
  | fourF4 {b c d} : 0x80 ≤ b ∧ b ≤ 0x8F → Tail c → Tail d → IsChar [0xF4, b, c, d]

/-- `UTF8-octets = *( UTF8-char )` -/
inductive WellFormed : List UInt8 → Prop where
  | nil : WellFormed []
  | char {c l} : IsChar c → WellFormed l → WellFormed (c ++ l)

/-- `k` is the length of the longest well-formed prefix of `l` of at most `max` bytes. -/
def LongestPrefix (l : List UInt8) (max k : Nat) : Prop :=
  k ≤ max ∧ k ≤ l.length ∧ WellFormed (l.take k) ∧
  ∀ j, j ≤ max → j ≤ l.length → WellFormed (l.take j) → j ≤ k

end Verif.Spec.Utf8
