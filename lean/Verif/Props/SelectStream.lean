import Verif.Model.SelectStream
import Verif.Props.SelectFile
/-!
# Theorems on the stream opened to read selections

C147: files of selections are closed again.
-/
namespace Verif.Props.SelectStream
open Verif.Model.Select Verif.Model.SelectFile Verif.Model.SelectStream Verif.Props.SelectFile
open Verif.Model.Steim (Res)
open Verif.Proof.Mem (bind_ok)

/-- The result is that of the model without streams. -/
theorem readLines_loaded (signed : Bool) (rnd : Rat → Rat) (std : Bool) (k : Nat) : ∀ (fuel : Nat) (s : List UInt8) (sels : List Entry) (n : Nat),
    ((Model.SelectStream.readLines signed rnd std k fuel s sels n).bind fun r => .ok r.loaded) =
      Model.SelectFile.readLines signed rnd fuel s sels n
  | 0, s, sels, n => rfl
  | fuel + 1, s, sels, n => by
    unfold Model.SelectStream.readLines Model.SelectFile.readLines
    simp only
    split
    · rfl
    · cases hl : lineStep signed rnd sels (fgets 198 s).1 with
      | ok step =>
        rw [bind_ok, bind_ok]
        cases step with
        | fail => rfl
        | skip => exact readLines_loaded signed rnd std k fuel _ _ _
        | count l => exact readLines_loaded signed rnd std k fuel _ _ _
      | err => rfl
      | ub => rfl
      | oob => rfl

/-- The streams after the loop: closed unless -1 is returned. -/
theorem readLines_streams (signed : Bool) (rnd : Rat → Rat) (std : Bool) (k : Nat) {r : State} : ∀ (fuel : Nat) (s : List UInt8) (sels : List Entry)
    (n : Nat), Model.SelectStream.readLines signed rnd std k fuel s sels n = .ok r →
      -1 ≤ r.loaded.ret ∧ r.streams = if r.loaded.ret = -1 ∨ std = true then k else k - 1
  | 0, s, sels, n, h => by
    simp only [Model.SelectStream.readLines, finish, Res.ok.injEq] at h
    subst h
    refine ⟨by simp only; omega, ?_⟩
    cases std <;> simp
  | fuel + 1, s, sels, n, h => by
    unfold Model.SelectStream.readLines at h
    simp only at h
    split at h
    · simp only [finish, Res.ok.injEq] at h
      subst h
      refine ⟨by simp only; omega, ?_⟩
      cases std <;> simp
    · cases hl : lineStep signed rnd sels (fgets 198 s).1 with
      | ok step =>
        rw [hl, bind_ok] at h
        cases step with
        | fail =>
          simp only [Res.ok.injEq] at h
          subst h
          simp
        | skip => exact readLines_streams signed rnd std k fuel _ _ _ h
        | count l => exact readLines_streams signed rnd std k fuel _ _ _ h
      | err => rw [hl] at h; exact absurd h (by simp [Res.bind])
      | ub => rw [hl] at h; exact absurd h (by simp [Res.bind])
      | oob => rw [hl] at h; exact absurd h (by simp [Res.bind])

/-- **C147 (partial).** A call that returns the number of selections, and one that reads the standard input or cannot open the
file, leaves as many streams open as there were, and the list and the value are those of C90.  A call that fails on a line of a
file leaves one more open: missing are these calls, for which the claim is false. -/
theorem C147_closed_partial (signed : Bool) (rnd : Rat → Rat) (sels : List Entry) (std : Bool) (file : Option (List UInt8)) (k : Nat)
    (r : State) (h : Model.SelectStream.read signed rnd sels std file k = .ok r) :
    readselectionsfile signed rnd sels file = .ok r.loaded ∧ -1 ≤ r.loaded.ret ∧
      r.streams = k + if r.loaded.ret = -1 ∧ std = false ∧ file ≠ none then 1 else 0 := by
  cases file with
  | none =>
    simp only [Model.SelectStream.read, Res.ok.injEq] at h
    subst h
    exact ⟨rfl, by simp, by simp⟩
  | some s =>
    simp only [Model.SelectStream.read] at h
    refine ⟨?_, ?_⟩
    · unfold readselectionsfile
      simp only
      rw [← readLines_loaded signed rnd std (if std then k else k + 1), h, bind_ok]
    · obtain ⟨h1, h2⟩ := readLines_streams signed rnd std _ _ _ _ _ h
      refine ⟨h1, ?_⟩
      rw [h2]
      cases std <;> by_cases e : r.loaded.ret = -1 <;> simp [e]

/-- The file `*` of one line is read and closed. -/
theorem star_ok (rnd : Rat → Rat) :
    Model.SelectStream.read true rnd [] false (some [42, 10]) 3 = .ok ⟨⟨[⟨[42], [⟨nstUnset, nstUnset⟩], 0⟩], 1⟩, 3⟩ := by
  have h3 : lineStep true rnd [] [42, 10] = .ok (.count [⟨[42], [⟨nstUnset, nstUnset⟩], 0⟩]) := by
    have h1 : trim true (([42, 10] : List UInt8).takeWhile (· != 0)) = .ok [42] := by decide +kernel
    have h2 : split true 0 false [42] = .ok ([], [[42]]) := by decide +kernel
    have h4 : isDate true none = .ok false := rfl
    unfold lineStep
    rw [h1, bind_ok, if_neg (by decide), h2, bind_ok]
    unfold fieldsStep
    simp only [List.getElem?_cons_succ, List.getElem?_nil, h4, bind_ok, lineTime]
    rfl
  have hg : fgets 198 [42, 10] = ([42, 10], []) := by decide +kernel
  unfold Model.SelectStream.read
  simp only [List.length_cons, List.length_nil]
  rw [Model.SelectStream.readLines, hg]
  simp only
  rw [if_neg (by simp), h3, bind_ok]
  simp [Model.SelectStream.readLines, fgets, finish]

example (rnd : Rat → Rat) : ∃ r, Model.SelectStream.read true rnd [] false (some [42, 10]) 3 = .ok r ∧ r.loaded.ret = 1 := ⟨_, star_ok rnd, rfl⟩

/-- A line with the publication version 256. -/
def late : List UInt8 := bytes "IU ANMO 00 BHZ 256\n"

/-- The line is refused. -/
theorem late_fails (rnd : Rat → Rat) (sels : List Entry) (k : Nat) :
    Model.SelectStream.read true rnd sels false (some late) k = .ok ⟨⟨sels, -1⟩, k + 1⟩ := by
  have h3 : lineStep true rnd sels late = .ok .fail := by
    have h1 : trim true (late.takeWhile (· != 0)) = .ok (bytes "IU ANMO 00 BHZ 256") := by decide +kernel
    have h2 : split true 0 false (bytes "IU ANMO 00 BHZ 256") =
        .ok ([], [bytes "IU", bytes "ANMO", bytes "00", bytes "BHZ", bytes "256"]) := by decide +kernel
    have h4 : isDate true none = .ok false := rfl
    have h5 : isDate true (some (bytes "ANMO")) = .ok false := by decide +kernel
    have h6 : isDate true (some (bytes "00")) = .ok false := by decide +kernel
    have h7 : quality true (some (bytes "256")) = .ok none := by decide +kernel
    unfold lineStep
    rw [h1, bind_ok, if_neg (by decide +kernel), h2, bind_ok]
    unfold fieldsStep
    simp only [List.getElem?_cons_succ, List.getElem?_cons_zero, List.getElem?_nil, h4, h5, h6, bind_ok, lineTime, firstFormat, secondFormat,
      addCompLine, h7]
    rfl
  have hg : fgets 198 late = (late, []) := by decide +kernel
  unfold Model.SelectStream.read
  simp only
  rw [Model.SelectStream.readLines, hg]
  simp only
  rw [if_neg (by decide +kernel), h3, bind_ok]
  rfl

/-- **C147 is violated by files with a line that is refused**, here for the publication version 256: every call leaves its file
open, so that `n` calls leave `n` files open, until no more can be opened. -/
theorem C147_refused_line_violated (rnd : Rat → Rat) (sels : List Entry) (k : Nat) : ∀ n,
    reads true rnd sels (List.replicate n (false, some late)) k = .ok (List.replicate n (-1), k + n)
  | 0 => rfl
  | n + 1 => by
    have ih := C147_refused_line_violated rnd sels (k + 1) n
    rw [List.replicate_succ, reads, late_fails, bind_ok]
    simp only
    rw [ih, bind_ok, List.replicate_succ, Nat.add_right_comm, Nat.add_assoc]

/-- The streams after calls one after another. -/
theorem reads_closed (signed : Bool) (rnd : Rat → Rat) : ∀ (l : List (Bool × Option (List UInt8))) (sels : List Entry) (k : Nat) (r : List Int × Nat),
    reads signed rnd sels l k = .ok r → r.1.length = l.length ∧ k ≤ r.2 ∧ r.2 ≤ k + r.1.count (-1)
  | [], _, k, r, h => by
    simp only [reads, Res.ok.injEq] at h
    subst h
    simp
  | (std, file) :: t, sels, k, r, h => by
    rw [reads] at h
    obtain ⟨s, hs, h⟩ := Verif.Proof.Mem.bind_eq_ok.1 h
    obtain ⟨q, hq, h⟩ := Verif.Proof.Mem.bind_eq_ok.1 h
    simp only [Res.ok.injEq] at h
    subst h
    obtain ⟨h1, h2, h3⟩ := reads_closed signed rnd t _ _ _ hq
    obtain ⟨-, -, h4⟩ := C147_closed_partial signed rnd sels std file k s hs
    refine ⟨by simp [h1], ?_, ?_⟩
    · simp only
      omega
    · simp only [List.count_cons]
      by_cases e : s.loaded.ret = -1
      · rw [if_pos (by simp [e])]
        split at h4 <;> omega
      · rw [if_neg (by simp [e])] at h4 ⊢
        omega

/-- **C147 (sequences, partial).** After any calls that do not fail as many streams are open as before.  Missing: calls that fail, as
above. -/
theorem C147_sequence_partial (signed : Bool) (rnd : Rat → Rat) (l : List (Bool × Option (List UInt8))) (sels : List Entry) (k : Nat)
    (r : List Int × Nat) (h : reads signed rnd sels l k = .ok r) (h0 : ∀ c ∈ r.1, c ≠ -1) : r.2 = k := by
  obtain ⟨-, h1, h2⟩ := reads_closed signed rnd l sels k r h
  have : r.1.count (-1) = 0 := List.count_eq_zero.2 fun hm => h0 _ hm rfl
  omega

/-- Reading the file `*`. -/
example (rnd : Rat → Rat) : ∃ r, reads true rnd [] [(false, some [42, 10])] 3 = .ok r ∧ ∀ c ∈ r.1, c ≠ -1 :=
  ⟨([1], 3), by rw [reads, star_ok, bind_ok]; rfl, by simp⟩

end Verif.Props.SelectStream
