import Verif.Props.Glob
/-!
# The order of characters in bracket expressions (C14)
-/
namespace Verif.Props.Glob
open Verif.Spec.Glob Verif.Model.Glob Verif.Proof.Glob

/-- **C14** The number of a character that ranges of bracket expressions compare is the value of its byte as a
signed or unsigned eight-bit integer, according to the type `char` of the host. -/
theorem C14_character_order (signed : Bool) (c : UInt8) :
    charVal signed c = if signed = true then c.toInt8.toInt else (c.toNat : Int) := by
  have h : ∀ (s : Bool) (n : Fin 256), charVal s (UInt8.ofNat n.val) =
      if s = true then (UInt8.ofNat n.val).toInt8.toInt else ((UInt8.ofNat n.val).toNat : Int) := by decide +kernel
  have := h signed ⟨c.toNat, c.toNat_lt⟩
  rwa [UInt8.ofNat_toNat] at this

/-- All bytes of a bracket expression are ASCII characters. -/
def AsciiItem : SetItem → Prop
  | .one _ => True
  | .range lo hi => lo.toNat < 128 ∧ hi.toNat < 128

/-- **C14** For ASCII strings and ranges of ASCII characters the answer is the same on all hosts: ranges
compare the bytes. -/
theorem C14_same_on_all_hosts (signed : Bool) (ts : List Tok) (hwf : ∀ t ∈ ts, t.WF)
    (ha : ∀ neg items, Tok.set neg items ∈ ts → ∀ i ∈ items, AsciiItem i) (s : List UInt8) (hs : ∀ c ∈ s, c.toNat < 128) :
    ∃ b, myGlobmatch signed s (render ts) = .ret b ∧ (b = true ↔ Matches (fun c => (c.toNat : Int)) ts s) := by
  obtain ⟨b, h1, h2⟩ := C14_my_globmatch_is_glob signed ts hwf s
  refine ⟨b, h1, h2.trans ?_⟩
  have hc : ∀ c : UInt8, c.toNat < 128 → charVal signed c = c.toNat := by
    intro c hc
    unfold charVal
    rw [if_neg (by simp; omega)]
  have hmem : ∀ i ch, AsciiItem i → ch.toNat < 128 →
      (i.Mem (charVal signed) ch ↔ i.Mem (fun c => (c.toNat : Int)) ch) := by
    intro i ch hi hch
    cases i with
    | one c => exact Iff.rfl
    | range lo hi' => simp only [SetItem.Mem, hc lo hi.1, hc hi' hi.2, hc ch hch]
  have hacc : ∀ t ∈ ts, ∀ ch, ch.toNat < 128 → (t.Accepts (charVal signed) ch ↔ t.Accepts (fun c => (c.toNat : Int)) ch) := by
    intro t ht ch hch
    cases t with
    | set neg items =>
      unfold Tok.Accepts
      have : ∀ i ∈ items, (i.Mem (charVal signed) ch ↔ i.Mem (fun c => (c.toNat : Int)) ch) :=
        fun i hi => hmem i ch (ha neg items ht i hi) hch
      exact or_congr
        (and_congr_right fun _ => ⟨fun ⟨i, hi, h⟩ => ⟨i, hi, (this i hi).1 h⟩, fun ⟨i, hi, h⟩ => ⟨i, hi, (this i hi).2 h⟩⟩)
        (and_congr_right fun _ => ⟨fun h i hi e => h i hi ((this i hi).2 e), fun h i hi e => h i hi ((this i hi).1 e)⟩)
    | _ => exact Iff.rfl
  have key : ∀ (f g : UInt8 → Int) (us : List Tok) (s : List UInt8),
      (∀ t ∈ us, ∀ ch ∈ s, t.Accepts f ch → t.Accepts g ch) → Matches f us s → Matches g us s := by
    intro f g us s h hm
    induction hm with
    | nil => exact .nil
    | char h1 _ ih =>
      exact .char (h _ (by simp) _ (by simp) h1) (ih fun t ht c hc => h t (by simp [ht]) c (by simp [hc]))
    | starEmpty _ ih => exact .starEmpty (ih fun t ht c hc => h t (by simp [ht]) c hc)
    | starMore _ ih => exact .starMore (ih fun t ht c hc => h t ht c (by simp [hc]))
  exact ⟨key _ _ _ _ fun t ht ch hch => (hacc t ht ch (hs ch hch)).1, key _ _ _ _ fun t ht ch hch => (hacc t ht ch (hs ch hch)).2⟩

example : (∀ neg items, Tok.set neg items ∈ [Tok.lit 65, Tok.set false [.range 48 57]] → ∀ i ∈ items, AsciiItem i) ∧
    myGlobmatch false [65, 53] (render [Tok.lit 65, Tok.set false [.range 48 57]]) = .ret true := by
  refine ⟨?_, by decide +kernel⟩
  intro neg items h i hi
  simp at h
  obtain ⟨-, rfl⟩ := h
  simp at hi
  subst hi
  exact ⟨by decide, by decide⟩

/-- For other bytes it is not: `[\x80-a]` has the byte 200 only where `char` is signed. -/
example : myGlobmatch true [200] (render [Tok.set false [.range 128 97]]) = .ret true ∧
    myGlobmatch false [200] (render [Tok.set false [.range 128 97]]) = .ret false := by decide +kernel

end Verif.Props.Glob
