import Verif.Spec.SelectFile
import Verif.Props.Select
/-!
# What the lines of a selection file ask for (C90)
-/
namespace Verif.Props.SelectFile
open Verif.Spec Verif.Spec.Glob Verif.Spec.Select Verif.Spec.TimeStr Verif.Spec.SelectFile
open Verif.Props.Select

/-- The patterns of network, station and location and a channel of three places, written with or without
underscores between them, ask for the source identifiers of this pattern. -/
inductive Codes4 : List UInt8 → List UInt8 → List UInt8 → List UInt8 → List Tok → Prop
  | seed {net sta loc : List UInt8} {n s l : List Tok} {b c p : Tok} : Given (some net) n →
      Given (some sta) s → GivenLoc (some loc) l → Place b → Place c → Place p →
      Codes4 net sta loc (render [b, c, p]) (sidToks n s l b c p)
  | extended {net sta loc : List UInt8} {n s l : List Tok} {b c p : Tok} : Given (some net) n →
      Given (some sta) s → GivenLoc (some loc) l → Place b → Place c → Place p →
      Codes4 net sta loc (render [b, .lit 95, c, .lit 95, p]) (sidToks n s l b c p)

/-- The publication version that a field of the second format asks for: the number if it consists of
digits, any otherwise. -/
def Version (v : List UInt8) (n : Nat) : Prop :=
  (Numeral (text v) n ∧ n ≤ 255) ∨ ((∃ b ∈ v, ¬ DigitByte b) ∧ n = 0)

/-- What the fields of a line ask for, in the two documented formats:
`SourceID [Starttime [Endtime [Pubversion]]]` and
`Network Station Location Channel [Pubversion [Starttime [Endtime]]]`. -/
inductive Asks : List (List UInt8) → Request → Prop
  | sid {p : List Tok} : Asks [render p] ⟨p, none, none, 0⟩
  | sidFrom {p : List Tok} {a : List UInt8} {t : Int} : TimeText (text a) t →
      Asks [render p, a] ⟨p, some t, none, 0⟩
  | sidSpan {p : List Tok} {a b : List UInt8} {t u : Int} : TimeText (text a) t → TimeText (text b) u →
      Asks [render p, a, b] ⟨p, some t, some u, 0⟩
  | sidVersion {p : List Tok} {a b v : List UInt8} {t u : Int} {n : Nat} : TimeText (text a) t →
      TimeText (text b) u → Numeral (text v) n → n ≤ 255 →
      Asks [render p, a, b, v] ⟨p, some t, some u, n⟩
  | codes {net sta loc chan : List UInt8} {p : List Tok} : Codes4 net sta loc chan p → ¬ DateLike sta →
      ¬ DateLike loc → Asks [net, sta, loc, chan] ⟨p, none, none, 0⟩
  | codesVersion {net sta loc chan v : List UInt8} {p : List Tok} {n : Nat} : Codes4 net sta loc chan p →
      ¬ DateLike sta → ¬ DateLike loc → Version v n →
      Asks [net, sta, loc, chan, v] ⟨p, none, none, n⟩
  | codesFrom {net sta loc chan v a : List UInt8} {p : List Tok} {n : Nat} {t : Int} :
      Codes4 net sta loc chan p → ¬ DateLike sta → ¬ DateLike loc → Version v n → TimeText (text a) t →
      Asks [net, sta, loc, chan, v, a] ⟨p, some t, none, n⟩
  | codesSpan {net sta loc chan v a b : List UInt8} {p : List Tok} {n : Nat} {t u : Int} :
      Codes4 net sta loc chan p → ¬ DateLike sta → ¬ DateLike loc → Version v n → TimeText (text a) t →
      TimeText (text b) u → Asks [net, sta, loc, chan, v, a, b] ⟨p, some t, some u, n⟩

/-- What a line of a selection file asks for: nothing if it is blank or a comment. -/
inductive Line : List UInt8 → Option Request → Prop
  | blank {s : List UInt8} : Blank s → Line s none
  | comment {ws t : List UInt8} : Blank ws → Line (ws ++ 35 :: t) none
  | request {fs : List (List UInt8)} {s : List UInt8} {q : Request} : Parts fs s →
      (∀ f t, fs = f :: t → f.head? ≠ some 35) → Asks fs q → Line s (some q)

end Verif.Props.SelectFile
