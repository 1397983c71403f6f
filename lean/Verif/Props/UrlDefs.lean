import Verif.Spec.Url
import Verif.Model.Url
/-!
# Statements on reading from URLs
-/
namespace Verif.Props.Url
open Verif.Model.Url

/-- What has not been read yet. -/
def content (c : Conn) : List UInt8 := c.pieces.flatten

/-- libcurl does not break off the transfer. -/
def Sound (acts : List Act) : Prop := ∀ a ∈ acts, a.broken = false

/-- Reads one after the other, of any sizes and whatever libcurl does, that give the bytes `b`. -/
inductive Reads : Conn → List UInt8 → Conn → Prop
  | nil (c) : Reads c [] c
  | cons {c c1 c2 : Conn} {size first : Nat} {acts rest : List Act} {b bs : List UInt8} :
      Sound acts → fread size first acts c = some (b, c1, rest) → Reads c1 bs c2 → Reads c (b ++ bs) c2

/-- A server of an object that honours requests for ranges, whatever pieces the bytes come in and whatever
other lines its headers have. -/
structure Honours (object : List UInt8) (server : Option (List UInt8) → Answer) : Prop where
  whole : (server none).status = 200 ∧ (server none).pieces.flatten = object ∧
    ∀ l ∈ (server none).header, ¬ Spec.Url.Named l
  part : ∀ text a b, Spec.Url.Asks text a b → a < object.length → a ≤ Spec.Url.lastByte object.length b →
    (server (some text)).status = 206 ∧
    (server (some text)).pieces.flatten = Spec.Url.slice object a (Spec.Url.lastByte object.length b) ∧
    ∃ l1 line l2, (server (some text)).header = l1 ++ line :: l2 ∧
      Spec.Url.ContentRange line a (Spec.Url.lastByte object.length b) ∧
      ∀ l ∈ l1 ++ l2, ¬ Spec.Url.Named l

end Verif.Props.Url
