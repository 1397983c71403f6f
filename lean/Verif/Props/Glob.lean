import Verif.Proof.Glob
/-!
# Properties C14–C16: glob matching
-/
namespace Verif.Props.Glob
open Verif.Spec.Glob Verif.Model.Glob Verif.Proof.Glob

/-- A pattern that exercises every construct: `A*[^0-9x]?\*[]a]`. -/
def samplePattern : List Tok :=
  [.lit 65, .star, .set true [.range 48 57, .one 120], .any, .esc 42, .set false [.one 93, .one 97]]

theorem samplePattern_wf : ∀ t ∈ samplePattern, t.WF := by
  simp [samplePattern, Tok.WF, SetItem.WFFirst, SetItem.WF]

/-- **C14.** On every well-formed pattern and every string, `my_globmatch` returns true exactly when
the string matches the pattern (in particular it does return). -/
theorem C14_my_globmatch_is_glob (signed : Bool) (ts : List Tok) (hwf : ∀ t ∈ ts, t.WF)
    (s : List UInt8) :
    ∃ b, myGlobmatch signed s (render ts) = .ret b ∧ (b = true ↔ Matches (charVal signed) ts s) :=
  glob_spec true signed _ ts s (Nat.le_refl _) hwf (Or.inl rfl)

/-- Non-vacuity: `A*[^0-9x]?\*[]a]` accepts `A..xQ9*]` and rejects `A..5Q*]`. -/
example : render samplePattern = "A*[^0-9x]?\\*[]a]".toUTF8.toList ∧
    myGlobmatch true "A..Q9*]".toUTF8.toList (render samplePattern) = .ret true ∧
    myGlobmatch true "A5Q*]".toUTF8.toList (render samplePattern) = .ret false := by
  decide +kernel

/-- **C14 (`-m`/`-r`).** msi wraps the user's pattern as `*pattern*` (msi.c:606-630); the filter
accepts a source identifier exactly when some part of it matches the pattern. -/
theorem C14_msi_match_contains (signed : Bool) (ts : List Tok) (hwf : ∀ t ∈ ts, t.WF)
    (sid : List UInt8) :
    ∃ b, myGlobmatch signed sid (42 :: render ts ++ [42]) = .ret b ∧
      (b = true ↔ ∃ a m c, sid = a ++ m ++ c ∧ Matches (charVal signed) ts m) := by
  have e : (42 :: render ts ++ [42] : List UInt8) = render (.star :: (ts ++ [.star])) := by
    simp [render, Tok.render]
  rw [e]
  obtain ⟨b, hb, hiff⟩ := C14_my_globmatch_is_glob signed (.star :: (ts ++ [.star])) (by
    intro t ht
    simp only [List.mem_cons, List.mem_append] at ht
    rcases ht with rfl | ht | rfl | ht
    · trivial
    · exact hwf t ht
    · trivial
    · cases ht) sid
  refine ⟨b, hb, ?_⟩
  rw [hiff, star_iff]
  constructor
  · rintro ⟨u, ⟨pre, rfl⟩, hm⟩
    obtain ⟨a, b, rfl, h⟩ := (append_star_iff ..).1 hm
    exact ⟨pre, a, b, by simp, h⟩
  · rintro ⟨a, m, c, rfl, h⟩
    exact ⟨m ++ c, ⟨a, by simp⟩, (append_star_iff ..).2 ⟨m, c, rfl, h⟩⟩

example : myGlobmatch true "FDSN:IU_ANMO_00_B_H_Z".toUTF8.toList "*AN?O_0[0-1]*".toUTF8.toList
    = .ret true := by decide +kernel

/-- **C15 is violated**: in `ms_globmatch` the pattern `\*` matches the string `x`. -/
theorem C15_escape_matches_anything_violated :
    ∃ ts s, (∀ t ∈ ts, t.WF) ∧ msGlobmatch true s (render ts) = .ret true ∧
      ¬ Matches (charVal true) ts s := by
  refine ⟨[.esc 42], [120], by simp [Tok.WF], by decide, ?_⟩
  intro h
  cases h with
  | char ha _ => simp [Tok.Accepts] at ha

/-- **C15 (partial).** On every well-formed pattern without backslash escapes, `ms_globmatch`
decides exactly the glob language.  Missing: `\c`, which the code lets match any character. -/
theorem C15_ms_globmatch_is_glob_partial (signed : Bool) (ts : List Tok) (hwf : ∀ t ∈ ts, t.WF)
    (hesc : ∀ t ∈ ts, ∀ c, t ≠ .esc c) (s : List UInt8) :
    ∃ b, msGlobmatch signed s (render ts) = .ret b ∧ (b = true ↔ Matches (charVal signed) ts s) :=
  glob_spec false signed _ ts s (Nat.le_refl _) hwf (Or.inr hesc)

example : msGlobmatch true "FDSN:IU_ANMO".toUTF8.toList "FDSN:[A-Z]?_*O".toUTF8.toList = .ret true ∧
    msGlobmatch true "FDSN:iU_ANMO".toUTF8.toList "FDSN:[A-Z]?_*O".toUTF8.toList = .ret false := by
  decide +kernel

/-- **C16 (termination).** Both matchers terminate on every pattern, well formed or not: the loop
bound of the model is never reached. -/
theorem C16_matchers_terminate (signed : Bool) (s p : List UInt8) :
    myGlobmatch signed s p ≠ .fuel ∧ msGlobmatch signed s p ≠ .fuel :=
  ⟨(glob_safe true signed _ s p (Nat.le_refl _)).1, (glob_safe false signed _ s p (Nat.le_refl _)).1⟩

/-- **C16 (memory safety) is violated**: the selection pattern `[^` makes the matcher read past the
pattern's terminator (for any non-empty string). -/
theorem C16_read_past_pattern_violated (signed : Bool) (ch : UInt8) (s : List UInt8) :
    msGlobmatch signed (ch :: s) [91, 94] = .oob ∧ myGlobmatch signed (ch :: s) [91, 94] = .oob :=
  ⟨rfl, rfl⟩

/-- **C16 (memory safety, partial).** That is the only way: a pattern that does not end in `[^`
never makes either matcher read past a terminator, whatever the string. -/
theorem C16_no_out_of_bounds_partial (signed : Bool) (s p : List UInt8) (h : ¬ [91, 94] <:+ p) :
    myGlobmatch signed s p ≠ .oob ∧ msGlobmatch signed s p ≠ .oob :=
  ⟨fun e => h ((glob_safe true signed _ s p (Nat.le_refl _)).2 e),
   fun e => h ((glob_safe false signed _ s p (Nat.le_refl _)).2 e)⟩

/-- **C16 for msi.** The patterns msi really uses end in `*`, so `-m` and `-r` never read out of
bounds and always give an answer, for any option value. -/
theorem C16_msi_match_safe (signed : Bool) (sid userPattern : List UInt8) :
    ∃ b, myGlobmatch signed sid (42 :: userPattern ++ [42]) = .ret b := by
  have h := (C16_no_out_of_bounds_partial signed sid (42 :: userPattern ++ [42]) (by
    intro ⟨pre, hp⟩
    have := congrArg List.reverse hp
    simp at this)).1
  have h' := (C16_matchers_terminate signed sid (42 :: userPattern ++ [42])).1
  cases hr : myGlobmatch signed sid (42 :: userPattern ++ [42]) with
  | ret b => exact ⟨b, rfl⟩
  | oob => exact absurd hr h
  | fuel => exact absurd hr h'

/-- Malformed patterns are covered: an unclosed set and a trailing backslash. -/
example : myGlobmatch true [97] [42, 91, 97, 42] = .ret false ∧
    myGlobmatch true [97, 92] [42, 92, 42] = .ret false := by decide

end Verif.Props.Glob
