import Verif.Props.Log
/-!
# Properties C50, C82: writes to the message buffer, complaints about prefixes

In the model a write that leaves an array makes it longer.
-/
namespace Verif.Props.Log
open Verif.Model.Log Verif.Proof.Log
open Verif.Spec.Log (Msg chomp keep reported remaining)
open Verif.Model.Steim (Res)

/-- A write leaves the length of an array as it is exactly if it stays within it. -/
theorem put_length (buf : Buffer) (pos : Nat) (bytes : Bytes) (hp : pos ≤ buf.length) :
    (put buf pos bytes).length = buf.length ↔ pos + bytes.length ≤ buf.length := by
  unfold put
  rw [List.length_append, List.length_append, List.length_map, List.length_take, List.length_drop]
  omega

/-- A string that ends within an array is shorter than it. -/
theorem cstring_length : ∀ (buf : Buffer) (s : Bytes), cstring buf = some s → s.length < buf.length
  | [], _, h => by cases h
  | none :: _, _, h => by cases h
  | some c :: t, s, h => by
    rw [List.length_cons]
    unfold cstring at h
    split at h
    · cases h
    · cases h
    · obtain rfl := Option.some.inj h
      exact Nat.zero_lt_succ _
    · rename_i x y _ heq
      obtain ⟨h1, rfl⟩ := List.cons.inj heq
      cases hc : cstring t with
      | none => rw [hc] at h; cases h
      | some u =>
        rw [hc] at h
        obtain rfl := Option.some.inj h
        have := cstring_length t u hc
        rw [List.length_cons]
        omega

/-- **C50 (writes).** With prefixes of any length and a message of any length nothing is written outside the
buffer of 200 characters: neither the prefix and its terminator, nor the message behind it and its
terminator. -/
theorem C50_writes (p : Params) (level : Int) (text : Bytes) :
    (prefixed p level (put (List.replicate 200 none) 0 [0])).length = 200 ∧
    ∀ pre, cstring (prefixed p level (put (List.replicate 200 none) 0 [0])) = some pre →
      (vsnprintf (prefixed p level (put (List.replicate 200 none) 0 [0])) pre.length (200 - pre.length) text).length = 200 ∧
      (put (vsnprintf (prefixed p level (put (List.replicate 200 none) 0 [0])) pre.length (200 - pre.length) text) 199
        [0]).length = 200 := by
  have h0 : (put (List.replicate 200 none) 0 [0]).length = 200 := init_length
  generalize put (List.replicate 200 none) 0 [0] = buf at h0
  have hcopy : ∀ s : Bytes, (strncpy buf s maxLength).length = 200 := by
    intro s
    unfold strncpy
    refine ((put_length buf 0 _ (by omega)).2 ?_).trans h0
    rw [List.length_append, List.length_take, List.length_replicate, h0]
    unfold maxLength
    omega
  have hlast : ∀ b : Buffer, b.length = 200 → (put b (maxLength - 1) [0]).length = 200 := by
    intro b hb
    refine ((put_length b _ _ ?_).2 ?_).trans hb <;> rw [hb] <;> decide
  have h1 : (prefixed p level buf).length = 200 := by
    unfold prefixed
    split
    · split
      · exact hlast _ (hcopy _)
      · exact hcopy _
    · split
      · split
        · exact hlast _ (hcopy _)
        · exact h0
      · exact h0
  refine ⟨h1, fun pre hp => ?_⟩
  have h2 := cstring_length _ _ hp
  have h3 : (vsnprintf (prefixed p level buf) pre.length (200 - pre.length) text).length = 200 := by
    unfold vsnprintf
    refine ((put_length _ _ _ (by omega)).2 ?_).trans h1
    rw [List.length_append, List.length_take, List.length_singleton]
    omega
  exact ⟨h3, hlast _ h3⟩

example : ((prefixed { sampleParams with errprefix := some (List.replicate 300 65) } 2
    (put (List.replicate 200 none) 0 [0])).length, (cstring (prefixed { sampleParams with
      errprefix := some (List.replicate 300 65) } 2 (put (List.replicate 200 none) 0 [0]))).map (·.length)) =
    (200, some 199) := by decide +kernel

/-- The bytes of a text. -/
def bytesOf (s : String) : Bytes := s.toList.map fun c => c.toNat.toUInt8

/-- The message that is registered or printed when a prefix is refused. -/
def complains (p p' : Params) (out : List Call) (text : String) : Prop :=
  (0 < p.registry.maxmessages → out = [] ∧
    ∃ older, queue p' = older ++ [⟨2, bytesOf "rloginit_int", levelPrefix p 2 ++ bytesOf text⟩]) ∧
  (¬ 0 < p.registry.maxmessages → p' = p ∧ out = call p 2 (levelPrefix p 2 ++ bytesOf text) [])

theorem complaint (p : Params) (hg : Good p) (hroom : (levelPrefix p 2).length ≤ 166)
    (hc : p.registry.messagecnt < 2147483647) (text : String) (ht : 0 ∉ bytesOf text) (h0 : bytesOf text ≠ [])
    (hl : (bytesOf text).length ≤ 33) (hn : chomp (levelPrefix p 2 ++ bytesOf text) = levelPrefix p 2 ++ bytesOf text) :
    ∃ n p' out, rlog p (some (bytesOf "rloginit_int")) 2 (bytesOf text) = .ok (n, p', out) ∧ complains p p' out text := by
  have hlen : (levelPrefix p 2 ++ bytesOf text).length ≤ 199 := by rw [List.length_append]; omega
  obtain ⟨n, p', out, h1, h2, h3⟩ := C50_in_bounds_partial p hg (some (bytesOf "rloginit_int")) 2 (bytesOf text) ht (by omega) hc
    (fun _ _ => ⟨by simp [h0], by omega⟩)
  refine ⟨n, p', out, h1, fun hm => ?_, fun hm => ?_⟩
  · obtain ⟨g1, m, older, g2, g3, -⟩ := h2 ⟨by omega, hm⟩
    rw [g3 hlen, hn] at g2
    exact ⟨g1, older, g2⟩
  · obtain ⟨g1, g2⟩ := h3 (fun hh => hm hh.2)
    rw [List.take_of_length_le hlen] at g2
    exact ⟨g1, g2⟩

/-- **C82 (complaint, partial).** A prefix of 200 characters or more is refused with an error message that names
the function and says which prefix it was; it goes to the registry if that is on and is printed
otherwise.  Missing: an error prefix so long that the complaint itself does not fit, see
`C82_long_prefix_violated`. -/
theorem C82_complaint_partial (p : Params) (hg : Good p) (x : Bytes) (hx : 200 ≤ x.length)
    (hroom : (levelPrefix p 2).length ≤ 166) (hc : p.registry.messagecnt < 2147483647) :
    (∃ p' out, rloginit p false (some x) false none (-1) = .ok (p', out) ∧
      complains p p' out "log message prefix is too large") ∧
    ∃ p' out, rloginit p false none false (some x) (-1) = .ok (p', out) ∧
      complains p p' out "error message prefix is too large" := by
  have hch : ∀ a b : Bytes, b.getLast? ≠ some 10 → b ≠ [] → chomp (a ++ b) = a ++ b := by
    intro a b h1 h2
    unfold chomp
    rw [if_neg]
    rw [List.getLast?_append]
    cases hb : b.getLast? with
    | none => exact absurd (List.getLast?_eq_none_iff.1 hb) h2
    | some c => rw [hb] at h1; simpa using h1
  constructor
  · obtain ⟨n, p', out, h1, h2⟩ := complaint p hg hroom hc "log message prefix is too large" (by decide) (by decide) (by decide)
      (hch _ _ (by decide) (by decide))
    refine ⟨p', out, ?_, h2⟩
    unfold rloginit setPrefix
    simp only [Bool.false_eq_true, if_false]
    rw [if_pos (show x.length ≥ maxLength from hx)]
    have h1 : rlog p (some rloginitName) 2 logPrefixLarge = .ok (n, p', out) := h1
    rw [h1]
    simp [Res.bind]
  · obtain ⟨n, p', out, h1, h2⟩ := complaint p hg hroom hc "error message prefix is too large" (by decide) (by decide) (by decide)
      (hch _ _ (by decide) (by decide))
    refine ⟨p', out, ?_, h2⟩
    unfold rloginit setPrefix
    simp only [Bool.false_eq_true, if_false, Res.bind]
    rw [if_pos (show x.length ≥ maxLength from hx)]
    have h1 : rlog p (some rloginitName) 2 errPrefixLarge = .ok (n, p', out) := h1
    rw [h1]
    simp

example : (rloginit sampleParams false (some (List.replicate 200 65)) false none (-1)).bind (fun r => .ok (queue r.1)) =
    .ok [⟨2, bytesOf "rloginit_int", bytesOf "Error: log message prefix is too large"⟩] := by decide +kernel

end Verif.Props.Log
