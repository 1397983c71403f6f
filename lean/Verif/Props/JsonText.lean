import Verif.Proof.JsonWrite
/-!
# C107: JSON texts are read and written as RFC 8259 says
-/
namespace Verif.Props.JsonText
open Verif.Spec.Json Verif.Model.JsonText Verif.Proof.Json

/-- For examples: a number is written as `0.` and its bits in decimal. -/
def toy : Reals where
  read t := match t with
    | 48 :: 46 :: ds =>
      let n := (Verif.Model.Json.digits 0 ds).1
      if index n = ds ∧ n < 2 ^ 64 ∧ n / 2 ^ 52 % 2048 ≠ 2047 then some (UInt64.ofNat n) else none
    | _ => none
  write d := 48 :: 46 :: index d.toNat

/-- There is a lawful conversion. -/
theorem toy_lawful : LawfulReals toy where
  back d hd := by
    refine ⟨false, 0, 46 :: index d.toNat, [], .inr ⟨_, ⟨index_ne_nil _, index_digit _⟩, rfl⟩, .inl rfl,
      .inl (by simp), ?_, ?_⟩
    · rw [index_zero]; simp [toy, minus]
    · show (let n := (Verif.Model.Json.digits 0 (index d.toNat)).1
        if index n = index d.toNat ∧ n < 2 ^ 64 ∧ n / 2 ^ 52 % 2048 ≠ 2047 then some (UInt64.ofNat n) else none) = some d
      rw [digits_index]
      simp only
      rw [if_pos ⟨trivial, UInt64.toNat_lt d, hd⟩, UInt64.ofNat_toNat]
  finite t d h := by
    have key : ∀ (ds : List UInt8) (n : Nat), (if index n = ds ∧ n < 2 ^ 64 ∧ n / 2 ^ 52 % 2048 ≠ 2047
        then some (UInt64.ofNat n) else none) = some d → Finite d := by
      intro ds n h
      by_cases hc : index n = ds ∧ n < 2 ^ 64 ∧ n / 2 ^ 52 % 2048 ≠ 2047
      · rw [if_pos hc] at h
        rw [← Option.some.inj h]
        unfold Finite
        rw [UInt64.toNat_ofNat', Nat.mod_eq_of_lt hc.2.1]
        exact hc.2.2
      · rw [if_neg hc] at h
        cases h
    unfold toy at h
    simp only at h
    split at h
    · exact key _ _ h
    · cases h

/-- C107: a text is read as a value exactly if it is a JSON text of that value. -/
theorem C107_read (reals : Reals) (v : Json) (t : List UInt8) :
    read reals t = some v ↔ Document reals.read v t := read_document reals v t

/-- A text with white space, an escape, a pair of surrogates, a number that is negative, one with an exponent, and
nested values. -/
example : read toy [32, 123, 32, 34, 97, 92, 117, 48, 48, 101, 57, 34, 32, 58, 32, 91, 32, 45, 49, 50, 32, 44, 32, 116, 114, 117, 101, 44, 32, 48, 46, 55, 44, 32, 34, 92, 117, 68, 56, 51, 68, 92, 117, 68, 69, 48, 48, 92, 110, 34, 32, 93, 32, 44, 32, 34, 98, 34, 58, 123, 125, 32, 125] =
    some (.obj [([97, 0xC3, 0xA9], .arr [.int (-12), .bool true, .real 7, .str [0xF0, 0x9F, 0x98, 0x80, 10]]),
      ([98], .obj [])]) := by rfl

/-- C107: a text is the text of one value only. -/
theorem C107_unique (reals : List UInt8 → Option UInt64) (v v' : Json) (t : List UInt8)
    (h : Document reals v t) (h' : Document reals v' t) : v = v' := by
  have a := (read_document ⟨reals, fun _ => []⟩ v t).2 h
  have b := (read_document ⟨reals, fun _ => []⟩ v' t).2 h'
  rw [a] at b
  exact Option.some.inj b

example : Document toy.read (.arr [.int 5]) [91, 32, 53, 93] := by
  refine ⟨[], [91, 32, 53, 93], [], white_nil, ?_, white_nil, rfl⟩
  have h5 : index 5 = [53] := by decide
  have : Text toy.read (.value (.int 5)) [53] := by
    have := Text.int (reals := toy.read) (neg := false) (n := 5) (by unfold Fits signed; decide)
    rw [h5] at this
    exact this
  exact .arr (t := [32, 53]) (.lastItem (w := [32]) (x := []) (t := [53]) (by intro c hc; simp at hc; exact .inl hc) white_nil this)

/-- C107: the values that are written are those of strings of characters, integers of 64 bits and finite numbers, and
what is written is a JSON text of the value. -/
theorem C107_write (reals : Reals) (hl : LawfulReals reals) (v : Json) :
    ((∃ t, write reals v = some t) ↔ Proper v) ∧
    ∀ t, write reals v = some t → Document reals.read v t ∧ read reals t = some v := by
  refine ⟨⟨fun ⟨t, ht⟩ => (write_sound hl v t ht).2, write_complete hl v⟩, fun t ht => ?_⟩
  have := read_write hl ht
  exact ⟨(read_document reals v t).1 this, this⟩

example : LawfulReals toy ∧ write toy (.obj [([34, 9], .arr [.null, .int (-7), .real 3, .str [1, 0xC3, 0xA9]])]) =
    some [123, 34, 92, 34, 92, 116, 34, 58, 91, 110, 117, 108, 108, 44, 45, 55, 44, 48, 46, 51, 44, 34, 92, 117, 48, 48, 48, 49, 195, 169, 34, 93, 125] := ⟨toy_lawful, by
  have h7 : writeInt (-7) = some [45, 55] := by
    show some (45 :: writeNat 7) = _
    rw [writeNat]
    rfl
  rw [write, writeMembers, write, writeItems, write, writeItems, write, h7]
  · rfl
  all_goals simp⟩

/-- C107: what is read can be written, and is read from that as the same. -/
theorem C107_rewrite (reals : Reals) (hl : LawfulReals reals) (t : List UInt8) (v : Json) (h : read reals t = some v) :
    ∃ u, write reals v = some u ∧ read reals u = some v := by
  obtain ⟨w, u, x, _, hu, _, _⟩ := (read_document reals v t).1 h
  obtain ⟨s, hs⟩ := write_complete hl v (text_proper hl.finite hu)
  exact ⟨s, hs, read_write hl hs⟩

example : LawfulReals toy ∧ read toy [91, 32, 53, 93, 10] = some (.arr [.int 5]) ∧
    write toy (.arr [.int 5]) = some [91, 53, 93] := ⟨toy_lawful, by rfl, by
  have h5 : writeInt 5 = some [53] := by
    show some (writeNat 5) = _
    rw [writeNat]
    rfl
  rw [write, writeItems, write, h5]
  rfl⟩

end Verif.Props.JsonText
