import Verif.Proof.Log
/-!
# Properties C49, C50, C82: logging

The registry is compared with the queue of `Verif.Spec.Log`.
-/
namespace Verif.Props.Log
open Verif.Model.Log Verif.Proof.Log
open Verif.Spec.Log (Msg chomp keep reported remaining)
open Verif.Model.Steim (Res)

/-- Parameters with a prefix, a limit of two messages and nothing registered. -/
def sampleParams : Params := ⟨false, some [120], true, none, ⟨2, 0, []⟩⟩

theorem sample_good : Good sampleParams :=
  ⟨fun x h => by injection h with h; subst h; decide, fun x h => (by cases h), by decide, by decide⟩

/-- **C49 (histories, partial).** Any sequence of messages, emissions, removals and changes of the
limit leaves in the registry, and prints, what the same operations on a bounded queue do: a new
message displaces the oldest ones, an emission prints the newest oldest first and takes them out, each
message is printed at most once.  Missing: messages that do not fit the buffer or are empty, see
`C50_long_message_violated`, more than 2^31 - 1 messages, and the number reported by an emission, see
`C49_emit_count_violated`. -/
theorem C49_history_partial (p : Params) (hg : Good p)
    (hf : ∀ e ∈ p.registry.messages, e.function.length ≤ 29) (ops : List Op)
    (hfit : ∀ op ∈ ops, Fits p op) (hc : p.registry.messagecnt + logs ops ≤ 2147483647) :
    ∃ p' out, run p ops = .ok (p', out) ∧ Good p' ∧
      expected p p.registry.maxmessages.toNat (queue p) ops =
        (p'.registry.maxmessages.toNat, queue p', out) :=
  run_expected ops p hg hf hfit hc

/-- Three errors with a limit of two, and all emitted with their functions: the last two. -/
example : Good sampleParams ∧
    (run sampleParams [.log (some [102]) 2 [65, 10], .log none 1 [66], .log (some [103]) 1 [67],
      .emit 0 true]).bind (fun r => .ok (r.2.map (·.bytes))) =
        .ok [[120, 66], [103, 40, 41, 32, 120, 67]] :=
  ⟨sample_good, by decide +kernel⟩

/-- **C49 (bounded).** After a message has been registered at most the limit are there. -/
theorem C49_bounded (p : Params) (f : Option Bytes) (level : Int) (text : Bytes) (hg : Good p)
    (hm : 0 < p.registry.maxmessages) (r : Int × Params × List Call)
    (h : rlog p f level text = .ok r) (hl : 1 ≤ level) :
    (r.2.1.registry.messages.length : Int) ≤ p.registry.maxmessages := by
  unfold rlog at h
  have h2 := holds_cstring (holds_prefixed hg level (by omega)) (prefix_nul hg level)
  simp only [h2] at h
  rw [if_pos (show level ≥ 1 ∧ p.registry.maxmessages > 0 from ⟨hl, hm⟩)] at h
  simp only [if_pos (show level ≥ 0 by omega)] at h
  split at h
  · cases h
  · split at h
    · split at h
      · cases h
      · unfold addMessage at h
        simp only at h
        have hc := hg.cnt
        split at h
        · cases h
        · simp only [Res.bind] at h
          injection h with h
          subst h
          simp only
          split
          · rw [trim_eq _ _ _ (by omega) hm]
            simp only [List.length_take]
            omega
          · rename_i h4
            have h4 : ¬ (p.registry.messagecnt + 1 > p.registry.maxmessages) := h4
            simp only [List.length_cons]
            omega
    · cases h

example : (run sampleParams [.log none 2 [65], .log none 2 [66], .log none 2 [67]]).bind
    (fun r => .ok (r.1.registry.messages.length)) = .ok 2 := by decide +kernel

/-- **C49 is violated by the value returned by an emission**: it is not the number of messages
emitted, as documented, but always 0. -/
theorem C49_emit_count_violated (p : Params) (count : Int) (context : Bool) :
    (emit p count context).1 = 0 := rfl

example : (emit { sampleParams with registry := ⟨2, 1, [⟨2, [], [65]⟩]⟩ } 0 false).2.2.length = 1 := by
  decide

/-- **C49 (removal).** Removing the messages empties the registry and reports their number. -/
theorem C49_free (p : Params) : (free p).1 = (queue p).length ∧ queue (free p).2 = [] := by
  unfold free queue
  simp

example : (free { sampleParams with registry := ⟨2, 1, [⟨2, [], [65]⟩]⟩ }).1 = 1 := by decide

/-- **C50 (partial).** A message of level 1 or more that is printed at once, of any length, or
registered with 1 to 200 characters, prefix included, stays in the buffer: it is cut to 199
characters, and in the registry a newline at its end is removed.  Missing: registering longer and empty
messages. -/
theorem C50_in_bounds_partial (p : Params) (hg : Good p) (f : Option Bytes) (level : Int)
    (text : Bytes) (ht : 0 ∉ text) (hl : 0 ≤ level) (hc : p.registry.messagecnt < 2147483647)
    (hr : 1 ≤ level → 0 < p.registry.maxmessages →
      levelPrefix p level ++ text ≠ [] ∧ (levelPrefix p level ++ text).length ≤ 200) :
    ∃ n p' out, rlog p f level text = .ok (n, p', out) ∧
      (1 ≤ level ∧ 0 < p.registry.maxmessages → out = [] ∧
        ∃ m older, queue p' = older ++ [⟨level, (f.getD []).take 29, m⟩] ∧
          ((levelPrefix p level ++ text).length ≤ 199 → m = chomp (levelPrefix p level ++ text)) ∧
          ((levelPrefix p level ++ text).length = 200 → m = (levelPrefix p level ++ text).take 199)) ∧
      (¬ (1 ≤ level ∧ 0 < p.registry.maxmessages) → p' = p ∧
        out = call p level ((levelPrefix p level ++ text).take 199) []) := by
  by_cases hreg : level ≥ 1 ∧ p.registry.maxmessages > 0
  · obtain ⟨h0, hlen⟩ := hr hreg.1 hreg.2
    have h := rlog_registered hg f level text hreg.1 hreg.2 ht h0 hlen
    have hrl := registered_length p level text
    rw [addMessage_ok _ _ _ _ hreg.2 hg.cnt hc hrl] at h
    simp only [Res.bind] at h
    refine ⟨_, _, _, h, fun _ => ⟨rfl, registered p level text, ?_⟩, fun hn => absurd hreg hn⟩
    obtain ⟨k, hk⟩ : ∃ k, p.registry.maxmessages.toNat = k + 1 := ⟨p.registry.maxmessages.toNat - 1, by omega⟩
    refine ⟨((p.registry.messages).take k).reverse.map toMsg, ?_, ?_, ?_⟩
    · unfold queue
      simp only [hk, List.take_succ_cons, List.reverse_cons, List.map_append, List.map_cons,
        List.map_nil]
      rfl
    · intro h199
      unfold registered full
      rw [if_pos h199, List.take_of_length_le h199]
    · intro h200
      unfold registered full
      rw [if_neg (by omega)]
  · exact ⟨_, _, _, rlog_printed hg f level text hl hreg ht, fun hn => absurd hn hreg,
      fun _ => ⟨rfl, rfl⟩⟩

example : (rlog sampleParams none 1 [65, 10]).bind (fun r => .ok (queue r.2.1)) =
    .ok [⟨1, [], [120, 65]⟩] := by decide +kernel

/-- **C50 is violated by every message longer than 200 characters** that goes to the registry: the
character at its full length is looked at, outside the buffer. -/
theorem C50_long_message_violated (p : Params) (hg : Good p) (f : Option Bytes) (level : Int)
    (text : Bytes) (hl : 1 ≤ level) (hm : 0 < p.registry.maxmessages)
    (hlen : 200 < (levelPrefix p level ++ text).length) :
    rlog p f level text = .oob := by
  have h2 := holds_cstring (holds_prefixed hg level (by omega)) (prefix_nul hg level)
  unfold rlog
  simp only [h2]
  rw [List.length_append] at hlen
  rw [if_pos (show level ≥ 1 ∧ p.registry.maxmessages > 0 from ⟨hl, hm⟩)]
  simp only [if_pos (show level ≥ 0 by omega)]
  rw [if_pos]
  unfold maxLength
  omega

example : 200 < (levelPrefix sampleParams 1 ++ List.replicate 200 65).length := by
  rw [List.length_append, List.length_replicate]
  decide

/-- **C50 is violated by the empty warning** without a prefix: the character before the buffer is
looked at. -/
theorem C50_empty_message_violated (p : Params) (f : Option Bytes) (hp : p.logprefix = none)
    (hm : 0 < p.registry.maxmessages) : rlog p f 1 [] = .oob := by
  have h1 := holds_cstring holds_init (by simp)
  unfold rlog
  have h2 : prefixed p 1 (put (List.replicate maxLength none) 0 [0]) =
      put (List.replicate maxLength none) 0 [0] := by
    unfold prefixed
    rw [if_neg (by omega), if_pos (by omega), hp]
  simp only [h2, h1]
  rw [if_pos (show (1 : Int) ≥ 1 ∧ p.registry.maxmessages > 0 from ⟨by omega, hm⟩)]
  rfl

example : 0 < ({ sampleParams with logprefix := none } : Params).registry.maxmessages := by decide

/-! ## Setting the parameters -/

/-- **C82 (partial).** `ms_rloginit` stores a prefix exactly if it has fewer than 200 characters,
otherwise keeps the one it had and complains in a message of its own; a print function not given and a
negative limit leave what was set.  So the prefixes always leave room in the message buffer.  Missing:
an error prefix so long that the complaint itself does not fit, see `C82_long_prefix_violated`. -/
theorem C82_rloginit_partial (p : Params) (hg : Good p) (lp dp : Bool) (lpre epre : Option Bytes)
    (m : Int) (hl : ∀ x, lpre = some x → 0 ∉ x) (he : ∀ x, epre = some x → 0 ∉ x)
    (hroom : (levelPrefix p 2).length ≤ 166) (hc : p.registry.messagecnt < 2147483646) :
    ∃ p' out, rloginit p lp lpre dp epre m = .ok (p', out) ∧ Good p' ∧
      p'.logprefix = chosen lpre p.logprefix ∧ p'.errprefix = chosen epre p.errprefix ∧
      p'.logPrint = (p.logPrint || lp) ∧ p'.diagPrint = (p.diagPrint || dp) ∧
      p'.registry.maxmessages = if 0 ≤ m then m else p.registry.maxmessages := by
  have hg0 : Good (if lp then { p with logPrint := true } else p) := by
    split
    · exact ⟨hg.log, hg.err, hg.max, hg.cnt⟩
    · exact hg
  have e0 : (if lp then { p with logPrint := true } else p) = { p with logPrint := p.logPrint || lp } := by
    cases lp <;> simp
  obtain ⟨r1, o1, h1, g1, f1⟩ := setLog hg0 lpre hl (by rw [e0]; exact hroom) (by rw [e0]; show p.registry.messagecnt < _; omega)
  have hg2 : Good (if dp then { r1 with diagPrint := true } else r1) := by
    split
    · exact ⟨g1.log, g1.err, g1.max, g1.cnt⟩
    · exact g1
  have e2 : (if dp then { r1 with diagPrint := true } else r1) = { r1 with diagPrint := r1.diagPrint || dp } := by
    cases dp <;> simp
  rw [e0] at f1
  obtain ⟨a1, a2, a3, a4, a5, a6⟩ := f1
  have hpre : levelPrefix r1 2 = levelPrefix p 2 := by
    unfold levelPrefix
    rw [if_pos (by omega), if_pos (by omega), a2]
  obtain ⟨r2, o2, h2, g2, f2⟩ := setErr hg2 epre he (by rw [e2]; show (levelPrefix r1 2).length ≤ 166; rw [hpre]; exact hroom)
    (by rw [e2]; show r1.registry.messagecnt < _; have : r1.registry.messagecnt ≤ p.registry.messagecnt + 1 := a6; omega)
  rw [e2] at f2
  obtain ⟨b1, b2, b3, b4, b5, b6⟩ := f2
  refine ⟨if m ≥ 0 then { r2 with registry := { r2.registry with maxmessages := m } } else r2, o1 ++ o2,
    ?_, ?_, ?_, ?_, ?_, ?_, ?_⟩
  · unfold rloginit
    simp only
    rw [h1]
    simp only [Res.bind]
    rw [h2]
  · split
    · rename_i hm
      exact ⟨g2.log, g2.err, hm, g2.cnt⟩
    · exact g2
  · have : r2.logprefix = chosen lpre p.logprefix := b1.trans a1
    split <;> exact this
  · have : r2.errprefix = chosen epre p.errprefix := by rw [b2]; exact congrArg _ a2
    split <;> exact this
  · have : r2.logPrint = (p.logPrint || lp) := b3.trans a3
    split <;> exact this
  · have : r2.diagPrint = (p.diagPrint || dp) := by rw [b4]; exact congrArg (· || dp) a4
    split <;> exact this
  · have : r2.registry.maxmessages = p.registry.maxmessages := b5.trans a5
    by_cases hm : 0 ≤ m
    · rw [if_pos hm, if_pos (show m ≥ 0 from hm)]
    · rw [if_neg hm, if_neg (show ¬ (m ≥ 0) from hm)]
      exact this

example : chosen (some (List.replicate 3 65)) none = some [65, 65, 65] := by decide

/-- **C82 is violated**: with the registry on and an error prefix of 170 characters or more, refusing a
prefix that is too long looks outside the message buffer. -/
theorem C82_long_prefix_violated (p : Params) (hg : Good p) (x : Bytes) (hx : 200 ≤ x.length)
    (hm : 0 < p.registry.maxmessages) (hlong : 170 ≤ (levelPrefix p 2).length) (m : Int) :
    rloginit p false (some x) false none m = .oob := by
  have h := C50_long_message_violated p hg (some rloginitName) 2 logPrefixLarge (by omega) hm (by
    rw [List.length_append, show logPrefixLarge.length = 31 by decide]; omega)
  unfold rloginit setPrefix
  simp only [Bool.false_eq_true, if_false]
  rw [if_pos (show x.length ≥ maxLength from hx), h]
  rfl

example : Good { sampleParams with errprefix := some (List.replicate 170 65) } :=
  ⟨fun x h => by injection h with h; subst h; decide,
   fun x h => by
    injection h with h
    subst h
    exact ⟨by rw [List.length_replicate]; decide, fun hm => by
      have := List.eq_of_mem_replicate hm
      exact absurd this (by decide)⟩, by decide, by decide⟩

end Verif.Props.Log
