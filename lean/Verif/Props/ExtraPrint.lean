import Verif.Proof.ExtraPrint
import Verif.Props.ExtraHeaders
/-!
# C114: printed extra headers
-/
namespace Verif.Props.ExtraHeaders
open Verif.Spec.Json Verif.Model.ExtraHeaders Verif.Proof.ExtraHeaders Verif.Proof.Json
open Verif.Props.JsonText (toy)

/-- **C114 (partial).** What `mseh_print` prints of an object is, with braces around it, a JSON text of the same
value.  Missing: strings with quotation marks (`C114_quotation_violated`), values nested so deeply that a line is longer
than a message (`C114_deep_violated`), and white space around the object. -/
theorem C114_print_partial (reals : List UInt8 → Option UInt64) (l : List (List UInt8 × Json)) (extra : List UInt8)
    (h : Document reals (.obj l) extra) (hb : extra.head? = some 123) (he : extra.getLast? = some 125)
    (hq : Quoteless (.obj l)) (indent : Int) (h0 : 0 ≤ indent) (h1 : indent + 2 * depthMembers l ≤ 197) :
    Document reals (.obj l) (123 :: (print extra indent ++ [125])) := by
  obtain ⟨w, u, x, hw, hu, hx, rfl⟩ := h
  obtain ⟨c, t, hc, _⟩ := text_head hu
  have ew : w = [] := by
    cases w with
    | nil => rfl
    | cons d w =>
      have : d = 123 := Option.some.inj hb
      rcases hw d (List.mem_cons_self ..) with e | e | e | e <;> (rw [this] at e; cases e)
  have ex : x = [] := by
    rw [← List.append_assoc] at he
    cases hx' : x.getLast? with
    | none => exact List.getLast?_eq_none_iff.1 hx'
    | some d =>
      rw [List.getLast?_append, hx'] at he
      have : d = 125 := Option.some.inj he
      rcases hx d (List.mem_of_getLast? hx') with e | e | e | e <;> (rw [this] at e; cases e)
  subst ew ex
  have e : ([] ++ (u ++ []) : List UInt8) = u := by simp
  rw [e]
  exact ⟨[], _, [], white_nil, print_object hu hq h0 h1, white_nil, by simp⟩

/-- `{"a":["x",-7]}` is printed as three lines for the array. -/
example : Document toy.read sampleValue sample ∧ sample.head? = some 123 ∧ sample.getLast? = some 125 ∧
    Quoteless sampleValue ∧ depth sampleValue = 2 ∧
    print sample 2 = [32, 32, 34, 97, 34, 58, 32, 91, 10, 32, 32, 32, 32, 34, 120, 34, 44, 10, 32, 32, 32, 32, 45, 55, 10,
      32, 32, 93, 10] := by
  refine ⟨sample_holds, rfl, rfl, ?_, rfl, by decide +kernel⟩
  unfold sampleValue
  simp [Quoteless, QuotelessItems, QuotelessMembers]

/-- **C114 (violated).** An escaped quotation mark is taken for the end of the string, and a line is broken within the
string after it: `{"a":"\","}`. -/
theorem C114_quotation_violated : ∃ extra l, Document toy.read (.obj l) extra ∧ extra.head? = some 123 ∧
    extra.getLast? = some 125 ∧ ∀ v, ¬ Document toy.read v (123 :: (print extra 0 ++ [125])) := by
  refine ⟨[123, 34, 97, 34, 58, 34, 92, 34, 44, 34, 125], [([97], .str [34, 44])], (read_document toy _ _).1 (by rfl), rfl, rfl,
    fun v hv => ?_⟩
  have := (read_document toy _ _).2 hv
  have e : (Verif.Model.JsonText.read toy (123 :: (print [123, 34, 97, 34, 58, 34, 92, 34, 44, 34, 125] 0 ++ [125]))).isNone = true := by
    decide +kernel
  rw [this] at e
  cases e

/-- Arrays in arrays. -/
def nested : Nat → Json
  | 0 => .arr []
  | n + 1 => .arr [nested n]

theorem nested_text (reals : List UInt8 → Option UInt64) : ∀ n, Text reals (.value (nested n))
    (List.replicate (n + 1) 91 ++ List.replicate (n + 1) 93)
  | 0 => Text.noItems white_nil
  | n + 1 => by
    have := Text.arr (Text.lastItem white_nil white_nil (nested_text reals n))
    rw [List.nil_append, List.append_nil] at this
    rw [List.replicate_succ (n := n + 1), List.replicate_succ' (n := n + 1), List.cons_append, ← List.append_assoc]
    exact this

/-- **C114 (violated).** Of values nested 101 deep, closing brackets are lost. -/
theorem C114_deep_violated : ∃ extra l, Document toy.read (.obj l) extra ∧ extra.head? = some 123 ∧
    extra.getLast? = some 125 ∧ Quoteless (.obj l) ∧ ∀ v, ¬ Document toy.read v (123 :: (print extra 0 ++ [125])) := by
  refine ⟨[123, 34, 97, 34, 58] ++ (List.replicate 101 91 ++ (List.replicate 101 93 ++ [125])), [([97], nested 100)],
    ?_, by decide +kernel, by decide +kernel, ?_, fun v hv => ?_⟩
  · refine ⟨[], _, [], white_nil, Text.obj (Text.lastMember (kt := [97]) (w := []) (x := []) (y := []) (z := []) white_nil
      white_nil white_nil white_nil (.plain (n := 97) (by unfold Scalar; decide) (by decide) (by decide) (by decide) .nil)
      (nested_text toy.read 100)), white_nil, by simp⟩
  · have : ∀ n, Quoteless (nested n) := by
      intro n
      induction n with
      | zero => simp [nested, Quoteless, QuotelessItems]
      | succ n ih => simp [nested, Quoteless, QuotelessItems, ih]
    simp [Quoteless, QuotelessMembers, this]
  · have := (read_document toy _ _).2 hv
    have e : (Verif.Model.JsonText.read toy (123 :: (print ([123, 34, 97, 34, 58] ++ (List.replicate 101 91 ++
        (List.replicate 101 93 ++ [125]))) 0 ++ [125]))).isNone = true := by
      decide +kernel
    rw [this] at e
    cases e

end Verif.Props.ExtraHeaders
