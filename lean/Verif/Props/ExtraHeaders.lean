import Verif.Proof.ExtraHeaders
import Verif.Props.JsonText
/-!
# C108–C113: extra headers are queried and changed as JSON values

`reals` converts between numerals and `double` numbers (see C107), `num` converts integers to `double` numbers.
-/
namespace Verif.Props.ExtraHeaders
open Verif.Spec.Json Verif.Model.ExtraHeaders Verif.Proof.ExtraHeaders Verif.Proof.Json
open Verif.Model.JsonText (Reals write)
open Verif.Props.JsonText (LawfulReals toy toy_lawful)

/-! ## C108: queries -/

/-- **C108 (partial).** A query of extra headers answers what is there.  Missing: integers beyond 32 bits, of which
`As` says nothing (`C108_wide_violated`), and buffers of no bytes for strings (`C108_no_buffer_violated`). -/
theorem C108_query_partial (reals : Reals) (num : Int → UInt64) (extra : List UInt8) (v : Option Json)
    (h : Holds reals.read extra v) (ptr : List UInt8) (type : UInt8) (wanted : Bool) (maxlength : Nat) (ret : Int)
    (got : Got) (hg : get (codec reals) num extra ptr type wanted maxlength = .ok (ret, got)) :
    (v = none ∧ ret = 1 ∧ got = .nothing) ∨ (v ≠ none ∧ Answer num v ptr type wanted maxlength ret got) := by
  obtain ⟨⟨a, b, s⟩, hr, he⟩ := Verif.Proof.Mem.bind_eq_ok.1 hg
  cases he
  obtain ⟨hd, _⟩ := getr_does (inv_start h) hr
  cases hd with
  | noHeaders hn => exact .inl ⟨hn, rfl, rfl⟩
  | get hn ha => exact .inr ⟨hn, ha⟩

/-- `{"a":["x",-7]}` -/
def sample : List UInt8 := [123, 34, 97, 34, 58, 91, 34, 120, 34, 44, 45, 55, 93, 125]

/-- The value of the text. -/
def sampleValue : Json := .obj [([97], .arr [.str [120], .int (-7)])]

theorem sample_holds : Holds toy.read sample (some sampleValue) := (read_document toy _ _).1 (by rfl)

example : Holds toy.read sample (some sampleValue) ∧
    get (codec toy) (fun _ => 0) sample [47, 97, 47, 49] 105 true 0 = .ok (0, .int (-7)) ∧
    get (codec toy) (fun _ => 0) sample [47, 97, 47, 48] 115 true 3 = .ok (0, .str [120, 0, 0]) ∧
    get (codec toy) (fun _ => 0) sample [47, 97] 105 true 0 = .ok (2, .nothing) :=
  ⟨sample_holds, by rfl, by rfl, by rfl⟩

/-- C108: every query is answered if a buffer for a string has at least one byte. -/
theorem C108_answered (reals : Reals) (num : Int → UInt64) (extra ptr : List UInt8) (type : UInt8) (wanted : Bool)
    (maxlength : Nat) (h : type = 115 → wanted = true → maxlength ≠ 0) :
    ∃ ret got, get (codec reals) num extra ptr type wanted maxlength = .ok (ret, got) := by
  unfold Verif.Model.ExtraHeaders.get getr
  by_cases h1 : extra = []
  · rw [if_pos h1]; exact ⟨_, _, rfl⟩
  rw [if_neg h1]
  by_cases h2 : ptr.head? ≠ some 47
  · rw [if_pos h2]; exact ⟨_, _, rfl⟩
  rw [if_neg h2]
  cases parsed (codec reals) extra none with
  | none => exact ⟨_, _, rfl⟩
  | some s =>
    simp only
    cases immutable s with
    | none => exact ⟨_, _, rfl⟩
    | some s =>
      simp only
      obtain ⟨r, hr⟩ := fetch_total num (Verif.Model.Json.docGet s.doc ptr) type wanted maxlength h
      rw [hr]
      exact ⟨_, _, rfl⟩

example : (115 : UInt8) = 115 → true = true → (3 : Nat) ≠ 0 := fun _ _ => by decide

/-- C108: texts that are not JSON are an error. -/
theorem C108_unreadable (reals : Reals) (num : Int → UInt64) (extra : List UInt8)
    (h : ∀ r, ¬ Holds reals.read extra r) (ptr : List UInt8) (type : UInt8) (wanted : Bool) (maxlength : Nat) :
    get (codec reals) num extra ptr type wanted maxlength = .ok (-1, .nothing) := by
  have he : extra ≠ [] := fun e => h none e
  unfold Verif.Model.ExtraHeaders.get getr
  rw [if_neg he]
  by_cases h2 : ptr.head? ≠ some 47
  · rw [if_pos h2]; rfl
  rw [if_neg h2]
  have : parsed (codec reals) extra none = none := parse_none h
  rw [this]
  rfl

/-- `{"a"` -/
example : ∀ r, ¬ Holds toy.read [123, 34, 97, 34] r := by
  intro r h
  have := holds_iff.1 h
  have e : parseJson (codec toy) [123, 34, 97, 34] = none := by rfl
  rw [e] at this
  cases this

/-- C108: `mseh_exists` tells whether there is a value. -/
theorem C108_exists (reals : Reals) (num : Int → UInt64) (extra : List UInt8) (v : Option Json)
    (h : Holds reals.read extra v) (ptr : List UInt8) (hp : ptr.head? = some 47) :
    ∃ b, existing (codec reals) num extra ptr = .ok b ∧ (b = true ↔ ∃ u, At v ptr u) := by
  obtain ⟨ret, got, hg⟩ := C108_answered reals num extra ptr 0 false 0 (by simp)
  unfold existing
  rw [hg]
  refine ⟨decide (ret = 0), rfl, ?_⟩
  rw [decide_eq_true_iff]
  rcases C108_query_partial reals num extra v h ptr 0 false 0 ret got hg with ⟨hn, hr, _⟩ | ⟨_, ha⟩
  · rw [hr, hn]
    constructor
    · intro h; cases h
    · rintro ⟨u, r, ts, e, _⟩; cases e
  · cases ha with
    | malformed hm => exact absurd hp hm
    | missing _ hm =>
      constructor
      · intro h; cases h
      · rintro ⟨u, hu⟩; exact absurd hu (hm u)
    | there _ hu _ => exact ⟨fun _ => ⟨_, hu⟩, fun _ => rfl⟩
    | copied _ _ hw _ => cases hw
    | unlike _ _ hw _ => cases hw

example : Holds toy.read sample (some sampleValue) ∧ existing (codec toy) (fun _ => 0) sample [47, 97] = .ok true ∧
    existing (codec toy) (fun _ => 0) sample [47, 98] = .ok false := ⟨sample_holds, by rfl, by rfl⟩

/-- **C108 (violated).** An integer that does not fit 32 bits is cut to 32 bits, although there is memory for 64:
4294967297 is returned as 1. -/
theorem C108_wide_violated (num : Int → UInt64) :
    ∃ extra, Holds toy.read extra (some (.obj [([97], .int 4294967297)])) ∧
      get (codec toy) num extra [47, 97] 105 true 0 = .ok (0, .int 1) := by
  refine ⟨[123, 34, 97, 34, 58, 52, 50, 57, 52, 57, 54, 55, 50, 57, 55, 125], (read_document toy _ _).1 (by rfl), by rfl⟩

/-- **C108 (violated).** A string for a buffer of no bytes is written beyond it. -/
theorem C108_no_buffer_violated (num : Int → UInt64) :
    ∃ extra, Holds toy.read extra (some (.obj [([97], .str [120])])) ∧
      get (codec toy) num extra [47, 97] 115 true 0 = .oob :=
  ⟨[123, 34, 97, 34, 58, 34, 120, 34, 125], (read_document toy _ _).1 (by rfl), by rfl⟩

/-! ## C109: calls one after the other -/

/-- C109: calls with the same state, one after the other, do what they say with the value of the extra headers, and
the record's extra headers are the value that was serialized last. -/
theorem C109_session (reals : Reals) (hl : LawfulReals reals) (num : Int → UInt64) (extra : List UInt8) (v : Option Json)
    (h : Holds reals.read extra v) (ops : List Op) (ht : ∀ op ∈ ops, op.Typed) (l : List (Op × Int × Got))
    (extra' : List UInt8) (state : Option State) (hc : calls reals num extra none ops = .ok (l, extra', state)) :
    l.map Prod.fst = ops ∧ ∃ h', Session reals num ⟨v, v⟩ l h' ∧ Holds reals.read extra' h'.record := by
  obtain ⟨hm, h', hs, hi⟩ := calls_session hl ops (inv_start h) ht hc
  exact ⟨hm, h', hs, hi.1⟩

/-- A value set in a record without extra headers, serialized, and found. -/
example : LawfulReals toy ∧ Holds toy.read [] none ∧
    ∃ state, calls toy (fun _ => 0) [] none
      [.set [47, 97, 47, 98] (.str [120]), .serialize, .get [47, 97, 47, 98] 115 true 2] =
      .ok ([(.set [47, 97, 47, 98] (.str [120]), 0, .nothing), (.serialize, 15, .nothing),
          (.get [47, 97, 47, 98] 115 true 2, 0, .str [120, 0])],
        [123, 34, 97, 34, 58, 123, 34, 98, 34, 58, 34, 120, 34, 125, 125], state) :=
  ⟨toy_lawful, rfl, _, by rfl⟩

/-- C109: texts that are not JSON are not changed. -/
theorem C109_unreadable (reals : Reals) (extra : List UInt8) (h : ∀ r, ¬ Holds reals.read extra r) (ptr : List UInt8)
    (value : Value) : setr (codec reals) extra none ptr value = (-1, none) ∧
      set (codec reals) extra ptr value = (-1, extra) := by
  have hp : parsed (codec reals) extra none = none := parse_none h
  have e : setr (codec reals) extra none ptr value = (-1, none) := by
    unfold setr
    by_cases hm : ptr.head? ≠ some 47 ∧ value.isMerge = false
    · rw [if_pos hm]; rfl
    · rw [if_neg hm, hp]; rfl
  refine ⟨e, ?_⟩
  unfold Verif.Model.ExtraHeaders.set
  rw [e]
  rfl

example : ∀ r, ¬ Holds toy.read [123] r := by
  intro r h
  have := holds_iff.1 h
  have e : parseJson (codec toy) [123] = none := by rfl
  rw [e] at this
  cases this

/-- C109: a value that was set is found by the next query. -/
theorem C109_found (reals : Reals) (num : Int → UInt64) (h h' : Held) (hr : h.record ≠ none) (ptr : List UInt8)
    (value : Value) (new : Json) (hv : given value = some new) (g : Got) (type : UInt8) (maxlength : Nat)
    (ht : OfType type new) (ret : Int) (got : Got)
    (hs : Session reals num h [(.set ptr value, 0, g), (.get ptr type true maxlength, ret, got)] h') :
    ret = 0 ∧ As num maxlength type new got := by
  cases hs with
  | cons h1 h2 =>
    cases h1 with
    | @set _ _ w he =>
      cases h2 with
      | cons h2 _ =>
        have hat : At (some w) ptr new := by
          cases he with
          | put hg hp =>
            rw [hv] at hg
            cases hg
            cases hp with
            | placed e _ hp => exact ⟨w, _, rfl, e, hp.there⟩
          | appended => cases hv
          | newList => cases hv
          | merged => cases hv
        have huniq : ∀ u, At (some w) ptr u → u = new := by
          intro u hu
          have a := (docGet_at (some w) ptr u).2 hu
          rw [(docGet_at (some w) ptr new).2 hat] at a
          exact (Option.some.inj a).symm
        cases h2 with
        | noHeaders hn => exact absurd hn hr
        | get _ ha =>
          cases ha with
          | malformed hm =>
            exfalso
            cases he with
            | put hg hp =>
              cases hp with
              | placed e _ _ => exact hm (by rw [e, pointer_cons]; rfl)
            | appended => cases hv
            | newList => cases hv
            | merged => cases hv
          | missing _ hm => exact absurd hat (hm _)
          | there _ _ hw => cases hw
          | copied _ hu _ ha => rw [huniq _ hu] at ha; exact ⟨rfl, ha⟩
          | unlike _ hu _ hn => rw [huniq _ hu] at hn; exact absurd ht hn

example : ∃ h', Session toy (fun _ => 0) ⟨some sampleValue, some sampleValue⟩
    [(.set [47, 98] (.bool 1), 0, .nothing), (.get [47, 98] 98 true 0, 0, .bool 1)] h' ∧
    given (.bool 1) = some (.bool true) ∧ OfType 98 (.bool true) := by
  have hc : ∃ state, calls toy (fun _ => 0) sample none [.set [47, 98] (.bool 1), .get [47, 98] 98 true 0] =
      .ok ([(.set [47, 98] (.bool 1), 0, .nothing), (.get [47, 98] 98 true 0, 0, .bool 1)], sample, state) := ⟨_, by rfl⟩
  obtain ⟨state, hc⟩ := hc
  obtain ⟨_, h', hs, _⟩ := C109_session toy toy_lawful _ _ _ sample_holds _ (by intro op h; simp at h; rcases h with rfl | rfl <;> trivial) _ _ _ hc
  exact ⟨h', hs, rfl, trivial⟩

/-- **C109 (violated).** Of a record without extra headers a value that was set is not found before it is
serialized. -/
theorem C109_found_violated : ∃ state, calls toy (fun _ => 0) [] none
    [.set [47, 97] (.bool 1), .get [47, 97] 98 true 0] =
    .ok ([(.set [47, 97] (.bool 1), 0, .nothing), (.get [47, 97] 98 true 0, 1, .nothing)], [], state) :=
  ⟨_, by rfl⟩

/-! ## C110: serializing -/

/-- C110: after calls the last of which serialized without an error, the record's extra headers are a text of the value
that the calls made. -/
theorem C110_serialized (reals : Reals) (hl : LawfulReals reals) (num : Int → UInt64) (extra : List UInt8) (v : Option Json)
    (h : Holds reals.read extra v) (ops : List Op) (ht : ∀ op ∈ ops, op.Typed) (l : List (Op × Int × Got)) (ret : Int)
    (hret : 0 ≤ ret) (extra' : List UInt8) (state : Option State)
    (hc : calls reals num extra none (ops ++ [.serialize]) = .ok (l ++ [(.serialize, ret, .nothing)], extra', state)) :
    ∃ h', Session reals num ⟨v, v⟩ l h' ∧ Holds reals.read extra' h'.current := by
  have ht' : ∀ op ∈ ops ++ [.serialize], op.Typed := by
    intro op ho
    rcases List.mem_append.1 ho with ho | ho
    · exact ht op ho
    · rw [List.mem_singleton.1 ho]; trivial
  obtain ⟨_, h', hs, hi⟩ := C109_session reals hl num extra v h _ ht' _ _ _ hc
  obtain ⟨m, hm, hd⟩ := session_last l hs
  refine ⟨m, hm, ?_⟩
  cases hd with
  | unchanged e => rw [← e]; exact hi
  | serialized _ _ _ => exact hi
  | unwritten _ => exact absurd hret (by decide)

example : LawfulReals toy ∧ Holds toy.read sample (some sampleValue) ∧
    ∃ state, calls toy (fun _ => 0) sample none ([.set [47, 97] (.str [122])] ++ [.serialize]) =
      .ok ([(.set [47, 97] (.str [122]), 0, .nothing)] ++ [(.serialize, 9, .nothing)],
        [123, 34, 97, 34, 58, 34, 122, 34, 125], state) := ⟨toy_lawful, sample_holds, _, by rfl⟩

/-- **C110 (partial).** A call without a state changes the record's extra headers at once: a change that is refused
leaves the value as it is and returns an error.  Missing: a change that is not refused returns 0, although
`Written` leaves everything as it was if the value has no text or a long one (`C110_set_violated`). -/
theorem C110_set_partial (reals : Reals) (hl : LawfulReals reals) (extra : List UInt8) (v : Option Json)
    (h : Holds reals.read extra v) (ptr : List UInt8) (value : Value) (ret : Int) (extra' : List UInt8)
    (hs : set (codec reals) extra ptr value = (ret, extra')) :
    (ret = 0 ∧ ∃ w, Edited reals.read v ptr value (some w) ∧ Written reals w extra extra') ∨
    (ret = -1 ∧ Edited reals.read v ptr value none ∧ Holds reals.read extra' v) := by
  obtain ⟨r, hr, h1, h2⟩ := set_written hl h ptr value
  rw [hs] at h1 h2
  cases r with
  | none => exact .inr ⟨h1, hr, h2⟩
  | some w => exact .inl ⟨h1, w, hr, h2⟩

example : LawfulReals toy ∧ Holds toy.read sample (some sampleValue) ∧
    set (codec toy) sample [47, 97] (.bool 0) = (0, [123, 34, 97, 34, 58, 102, 97, 108, 115, 101, 125]) ∧
    set (codec toy) sample [47, 97, 47, 57] (.bool 0) = (-1, sample) := ⟨toy_lawful, sample_holds, by rfl, by
  have h7 : Verif.Model.JsonText.writeInt (-7) = some [45, 55] := by
    show some (45 :: Verif.Model.JsonText.writeNat 7) = _
    rw [Verif.Model.JsonText.writeNat]
    rfl
  have hw : write toy sampleValue = some sample := by
    unfold sampleValue
    rw [write, Verif.Model.JsonText.writeMembers, write, Verif.Model.JsonText.writeItems, write,
      Verif.Model.JsonText.writeItems, write, h7]
    · rfl
    all_goals simp
  have hs : setr (codec toy) sample none [47, 97, 47, 57] (.bool 0) = (-1, some ⟨some sampleValue, some (some sampleValue)⟩) := by
    rfl
  unfold Verif.Model.ExtraHeaders.set
  rw [hs]
  have e : serialize (codec toy) sample (some ⟨some sampleValue, some (some sampleValue)⟩) = (match write toy sampleValue with
      | none => (generror, sample)
      | some t => if t.length > 65535 then (generror, sample) else (t.length, t)) := rfl
  simp only
  rw [e, hw]
  rfl⟩

/-- **C110 (violated).** Setting a number that JSON cannot represent (an infinity) returns 0, and nothing is set. -/
theorem C110_set_violated : set (codec toy) sample [47, 98] (.number 0x7ff0000000000000) = (0, sample) := by rfl

theorem sequence_length {s u t : List UInt8} (h : Verif.Model.JsonText.sequence s = some (u, t)) :
    s.length = u.length + t.length := by
  rw [(Verif.Proof.Json.sequence_sound h).1, List.length_append]

theorem writeChars_length {s : List UInt8} {r : List UInt8} : ∀ {fuel : Nat},
    Verif.Model.JsonText.writeChars fuel s = some r → s.length ≤ r.length := by
  intro fuel
  fun_induction Verif.Model.JsonText.writeChars fuel s generalizing r <;> intro h <;>
    (try (obtain ⟨u, hu, rfl⟩ := Option.map_eq_some_iff.1 h)) <;> grind [sequence_length]

/-- **C110 (violated).** Setting a string of more than 65535 bytes returns 0, and nothing is set. -/
theorem C110_long_violated (reals : Reals) (s : List UInt8) (hs : 65535 < s.length) :
    set (codec reals) [] [47, 97] (.str s) = (0, []) := by
  have e : setr (codec reals) [] none [47, 97] (.str s) = (0, some ⟨none, some (some (.obj [([97], .str s)]))⟩) := by
    rfl
  unfold Verif.Model.ExtraHeaders.set
  rw [e]
  have e2 : serialize (codec reals) [] (some ⟨none, some (some (.obj [([97], .str s)]))⟩) =
      (match write reals (.obj [([97], .str s)]) with
      | none => (generror, [])
      | some t => if t.length > 65535 then (generror, []) else (t.length, t)) := rfl
  simp only
  rw [e2]
  cases hw : write reals (.obj [([97], .str s)]) with
  | none => rfl
  | some t =>
    have : 65535 < t.length := by
      rw [write] at hw
      obtain ⟨m, hm, rfl⟩ := Option.map_eq_some_iff.1 hw
      rw [Verif.Model.JsonText.writeMembers, write] at hm
      cases hv : Verif.Model.JsonText.writeString s with
      | none => rw [hv] at hm; cases hm
      | some x =>
        rw [hv] at hm
        cases hm
        obtain ⟨y, hy, rfl⟩ := Option.map_eq_some_iff.1 hv
        have := writeChars_length hy
        simp only [List.length_cons, List.length_append, List.length_nil]
        omega
    simp only
    rw [if_pos this]

example : 65535 < (List.replicate 65536 (97 : UInt8)).length := by rw [List.length_replicate]; decide

/-! ## C111: lists of entries -/

/-- **C111 (partial).** An event detection, a calibration, a timing exception or a recenter event is appended to its
list as an object with a member for every field that is set, and with no others.  Missing: as for C110, nothing is added
if the new value has no text or a long one. -/
theorem C111_added_partial (reals : Reals) (hl : LawfulReals reals) (extra : List UInt8) (v : Option Json)
    (h : Holds reals.read extra v) (ptr : Option (List UInt8)) (item : Item) (ht : item.Typed) (ret : Int) (extra' : List UInt8)
    (hs : item.addNow (codec reals) extra ptr = (ret, extra')) :
    ∃ e, Entry item.fields e ∧
      ((ret = 0 ∧ ∃ w, Edited reals.read v (ptr.getD (pointer item.list)) (.append e) (some w) ∧ Written reals w extra extra') ∨
      (ret = -1 ∧ Edited reals.read v (ptr.getD (pointer item.list)) (.append e) none ∧ Holds reals.read extra' v)) := by
  obtain ⟨e, he, ha⟩ := item_addNow ht (codec reals) extra ptr
  refine ⟨e, he, ?_⟩
  rw [ha] at hs
  cases hq : set (codec reals) extra (ptr.getD (pointer item.list)) (.append e) with
  | mk a b =>
    rw [hq] at hs
    rcases C110_set_partial reals hl extra v h _ _ a b hq with ⟨rfl, hw⟩ | ⟨rfl, hw⟩
    · cases hs; exact .inl ⟨rfl, hw⟩
    · cases hs; exact .inr ⟨rfl, hw⟩

/-- A recenter event of an unknown time, in a record without extra headers:
`{"FDSN":{"Recenter":{"Sequence":[{"Type":"M"}]}}}`. -/
example : LawfulReals toy ∧ Holds toy.read [] none ∧
    (Item.recenter ⟨[77], -2145916800000000000, -2145916800000000000, []⟩).Typed ∧
    (Item.recenter ⟨[77], -2145916800000000000, -2145916800000000000, []⟩).addNow (codec toy) [] none =
      (0, [123, 34, 70, 68, 83, 78, 34, 58, 123, 34, 82, 101, 99, 101, 110, 116, 101, 114, 34, 58, 123, 34, 83, 101, 113,
        117, 101, 110, 99, 101, 34, 58, 91, 123, 34, 84, 121, 112, 101, 34, 58, 34, 77, 34, 125, 93, 125, 125, 125]) :=
  ⟨toy_lawful, rfl, by unfold Item.Typed Verif.Spec.InInt64; decide, by decide +kernel⟩

/-- **C111 (violated).** Adding a timing exception whose VCO correction is an infinity returns 0, and nothing is
added. -/
theorem C111_infinite_violated :
    (Item.exception ⟨-2145916800000000000, 0x7ff0000000000000, -1, 0, [], []⟩).addNow (codec toy) [] none = (0, []) := by
  decide +kernel

/-- C111: a time from 1678 on is given by a text that is read back as the same time. -/
theorem C111_time (rnd : Rat → Rat) (hr : Verif.Spec.Rounding rnd) (t : Int) (ht : Verif.Spec.InInt64 t)
    (h78 : Verif.Spec.Fields.instant ⟨1678, 1, 0, 0, 0, 0⟩ ≤ t) (v : Json) (h : time t v) :
    ∃ chars : List Char, v = .str (chars.map fun c => UInt8.ofNat c.toNat) ∧
      Verif.Model.TimeStr.timestr2nstime rnd chars = .ok t := by
  obtain ⟨_, _, f, month, mday, hd, rfl⟩ := h
  obtain ⟨text, h1, h2⟩ := Verif.Props.TimeStr.C06_read_back rnd hr t ht h78 .isoMonthDayZ
    (by unfold Verif.Props.TimeStr.Readable; simp) .nanoMicroNone
  rw [Verif.Props.TimeStr.C08_calendar_text t ht f month mday hd .isoMonthDayZ ⟨by decide, by decide⟩ .nanoMicroNone] at h1
  simp only [Verif.Model.TimeStr.Printed.mk.injEq, Option.some.injEq, true_and] at h1
  refine ⟨_, rfl, ?_⟩
  rw [h1, h2]
  congr 1
  have : t % (10 ^ (9 - Verif.Props.TimeStr.fractionDigits .nanoMicroNone t) : Nat) = 0 := by
    unfold Verif.Props.TimeStr.fractionDigits
    simp only
    by_cases a : t % 1000000000 = 0
    · rw [if_pos a]; exact a
    · rw [if_neg a]
      by_cases b : t % 1000 = 0
      · rw [if_pos b]; exact b
      · rw [if_neg b]; exact Int.emod_one t
  omega

example : Verif.Spec.InInt64 1700000000123000000 ∧ Verif.Spec.Fields.instant ⟨1678, 1, 0, 0, 0, 0⟩ ≤ 1700000000123000000 ∧
    ∃ v, time 1700000000123000000 v := by
  refine ⟨by decide, by decide +kernel, ?_⟩
  obtain ⟨f, month, mday, hd⟩ := Verif.Props.TimeStr.dated_exists 1700000000123000000 (by decide)
  exact ⟨_, by decide, by decide, f, month, mday, hd, rfl⟩

/-! ## C112: merge patches -/

/-- C112: a merge patch is merged into the value at a pointer as RFC 7386 says, and all else is as it was. -/
theorem C112_merge (reals : Reals) (hl : LawfulReals reals) (extra : List UInt8) (r : Json)
    (h : Document reals.read r extra) (patch : List UInt8) (p : Json) (hp : Document reals.read p patch) (hd : Distinct p)
    (ts : List Token) (old : Json) (ho : resolve ts r = some old) :
    ∃ m w, Merged (some old) p m ∧ Placed ts m r w ∧
      (set (codec reals) extra (pointer ts) (.merge patch)).1 = 0 ∧
      Written reals w extra (set (codec reals) extra (pointer ts) (.merge patch)).2 := by
  obtain ⟨res, he, h1, h2⟩ := set_written hl (v := some r) h (pointer ts) (.merge patch)
  cases he with
  | put hg _ => cases hg
  | notMerged hn => exact absurd ⟨r, ts, rfl, rfl, ho⟩ (hn p old hp)
  | @merged _ r' ts' old' p' m w hp' hr' hts' ho' hm hpl =>
    cases hr'
    have hpp : p' = p := Verif.Props.JsonText.C107_unique reals.read p' p patch hp' hp
    subst hpp
    have h3 := hts'
    have ets : ts' = ts := (pointer_inj hts').symm
    subst ets
    rw [ho] at ho'
    cases ho'
    exact ⟨m, w, hm hd, hpl, h1, h2⟩

/-- `{"a":null,"b":{"c":true}}` into `{"a":["x",-7]}`. -/
example : LawfulReals toy ∧ Document toy.read sampleValue sample ∧
    Document toy.read (.obj [([97], .null), ([98], .obj [([99], .bool true)])])
      [123, 34, 97, 34, 58, 110, 117, 108, 108, 44, 34, 98, 34, 58, 123, 34, 99, 34, 58, 116, 114, 117, 101, 125, 125] ∧
    resolve [] sampleValue = some sampleValue ∧
    set (codec toy) sample [] (.merge
      [123, 34, 97, 34, 58, 110, 117, 108, 108, 44, 34, 98, 34, 58, 123, 34, 99, 34, 58, 116, 114, 117, 101, 125, 125]) =
      (0, [123, 34, 98, 34, 58, 123, 34, 99, 34, 58, 116, 114, 117, 101, 125, 125]) :=
  ⟨toy_lawful, sample_holds, (read_document toy _ _).1 (by rfl), rfl, by rfl⟩

/-! ## C113: replacing all extra headers -/

/-- C113: `mseh_replace` with a JSON text whose value has a text of at most 65535 bytes replaces the extra headers by such
a text and returns its length; with any other text it returns an error and leaves them as they are; without a
text it removes them. -/
theorem C113_replace (reals : Reals) (hl : LawfulReals reals) (extra : List UInt8) :
    replace (codec reals) extra none = (0, []) ∧
    ∀ json, (∃ v t, Document reals.read v json ∧ Document reals.read v t ∧ t.length ≤ 65535 ∧
        replace (codec reals) extra (some json) = ((t.length : Int), t)) ∨
      ((∀ v, Document reals.read v json → ∃ t, write reals v = some t ∧ 65535 < t.length) ∧
        replace (codec reals) extra (some json) = (-1, extra)) := by
  refine ⟨rfl, fun json => ?_⟩
  have e : replace (codec reals) extra (some json) = (match Verif.Model.JsonText.read reals json with
    | none => (generror, extra)
    | some v => match write reals v with
      | none => (generror, extra)
      | some t => if t.length > 65535 then (generror, extra) else ((t.length : Int), t)) := rfl
  rw [e]
  cases hr : Verif.Model.JsonText.read reals json with
  | none =>
    refine .inr ⟨fun v hv => ?_, rfl⟩
    rw [(read_document reals v json).2 hv] at hr
    cases hr
  | some v =>
    have hv := (read_document reals v json).1 hr
    obtain ⟨t, ht, hrt⟩ := Verif.Props.JsonText.C107_rewrite reals hl json v hr
    simp only
    rw [ht]
    simp only
    by_cases hlen : t.length > 65535
    · rw [if_pos hlen]
      refine .inr ⟨fun v' hv' => ?_, rfl⟩
      rw [Verif.Props.JsonText.C107_unique reals.read v' v json hv' hv]
      exact ⟨t, ht, hlen⟩
    · rw [if_neg hlen]
      exact .inl ⟨v, t, hv, (read_document reals v t).1 hrt, by omega, rfl⟩

/-- ` [ true ]` is replaced by `[true]`, `[` is an error. -/
example : LawfulReals toy ∧ replace (codec toy) sample (some [32, 91, 32, 116, 114, 117, 101, 32, 93]) =
      (6, [91, 116, 114, 117, 101, 93]) ∧ replace (codec toy) sample (some [91]) = (-1, sample) :=
  ⟨toy_lawful, by rfl, by rfl⟩

end Verif.Props.ExtraHeaders
