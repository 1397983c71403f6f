import Verif.Spec.Calendar
/-!
# Independent specification: dates and times as text

Decimal numerals and the documented forms of time strings.  Nothing here refers to the C code or to
the model.
-/
namespace Verif.Spec.TimeStr

/-- The character of a decimal digit. -/
def digit (d : Nat) : Char := Char.ofNat (48 + d)

/-- The last `w` decimal digits of `n`: `n` written with exactly `w` digits if it is below `10^w`. -/
def dec : Nat → Nat → List Char
  | 0, _ => []
  | w + 1, n => dec w (n / 10) ++ [digit (n % 10)]

/-- `YYYY-MM-DD`. -/
def date (y mo d : Nat) : List Char := dec 4 y ++ '-' :: dec 2 mo ++ '-' :: dec 2 d

/-- `HH:MM:SS`. -/
def clock (h m s : Nat) : List Char := dec 2 h ++ ':' :: dec 2 m ++ ':' :: dec 2 s

/-- A fraction of `k` digits of a number of nanoseconds; the digits after them are dropped. -/
def fraction (k nsec : Nat) : List Char :=
  if k = 0 then [] else '.' :: dec k (nsec / 10 ^ (9 - k))

/-! ## Numerals read -/

/-- `c` is a decimal digit. -/
def Digit (c : Char) : Prop := 48 ≤ c.toNat ∧ c.toNat ≤ 57

instance (c : Char) : Decidable (Digit c) := by unfold Digit; infer_instance

/-- The number written by a list of digits. -/
def value (s : List Char) : Nat := s.foldl (fun v c => v * 10 + (c.toNat - 48)) 0

/-- The text `s` consists of digits and writes the number `n`. -/
def Numeral (s : List Char) (n : Nat) : Prop := s ≠ [] ∧ (∀ c ∈ s, Digit c) ∧ value s = n

/-- The time of day after a date: nothing, or hours, minutes, seconds and a fraction of up to nine
digits, of which the later ones may be missing.  `seps` are the characters allowed between date and
time, `delims` those between hours, minutes and seconds. -/
inductive Clock (seps delims : List Char) : List Char → Nat → Nat → Nat → Nat → Prop
  | none : Clock seps delims [] 0 0 0 0
  | hour {s a h} : s ∈ seps → Numeral a h → Clock seps delims (s :: a) h 0 0 0
  | minute {s a h d b m} : s ∈ seps → Numeral a h → d ∈ delims → Numeral b m →
      Clock seps delims (s :: (a ++ d :: b)) h m 0 0
  | second {s a h d b m d' c sec} : s ∈ seps → Numeral a h → d ∈ delims → Numeral b m →
      d' ∈ delims → Numeral c sec →
      Clock seps delims (s :: (a ++ d :: (b ++ d' :: c))) h m sec 0
  | fraction {s a h d b m d' c sec f n} : s ∈ seps → Numeral a h → d ∈ delims → Numeral b m →
      d' ∈ delims → Numeral c sec → Numeral f n → f.length ≤ 9 →
      Clock seps delims (s :: (a ++ d :: (b ++ d' :: (c ++ '.' :: f)))) h m sec
        (n * 10 ^ (9 - f.length))

/-- An optional designator of UTC. -/
def Suffix (z : List Char) : Prop := z = [] ∨ z = ['Z'] ∨ z = ['z']

/-- A number with the sign written before it. -/
def signed (sg : List Char) (n : Int) : Int := if sg = ['-'] then -n else n

/-- The part after the seconds: nothing or a fraction of `n` nanoseconds. -/
def Frac (fr : List Char) (n : Nat) : Prop :=
  (fr = [] ∧ n = 0) ∨
    ∃ f v, fr = '.' :: f ∧ Numeral f v ∧ f.length ≤ 9 ∧ n = v * 10 ^ (9 - f.length)

end Verif.Spec.TimeStr
