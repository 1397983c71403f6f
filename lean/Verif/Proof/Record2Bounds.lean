import Verif.Proof.Record2
/-!
# Lemmas on the memory read by the version 2 unpacker
-/
namespace Verif.Proof.Record2
open Verif.Model Verif.Model.Bytes Verif.Model.Steim Verif.Model.Mem
open Verif.Model.Detect hiding Blkt
open Verif.Model.Record3 Verif.Model.Record2 Verif.Proof.Bytes Verif.Proof.Mem Verif.Proof.Record3
open Verif.Proof.Detect

theorem readable (mem : List UInt8) (n : Nat) (h : n < mem.length) :
    Props.Str.Readable (mem.takeWhile (· != 0)) (mem.dropWhile (· != 0)) n := by
  refine ⟨?_, ?_⟩
  · intro b hb
    have : ∀ (l : List UInt8), b ∈ l.takeWhile (· != 0) → b ≠ 0 := by
      intro l
      induction l with
      | nil => simp
      | cons c l ih =>
        intro hm
        rw [List.takeWhile_cons] at hm
        split at hm
        · rename_i hc
          rcases List.mem_cons.1 hm with rfl | hm
          · simpa using hc
          · exact ih hm
        · simp at hm
    exact this _ hb
  · have e : mem.takeWhile (· != 0) ++ mem.dropWhile (· != 0) = mem :=
      List.takeWhile_append_dropWhile
    cases hd : mem.dropWhile (· != 0) with
    | nil =>
      left
      rw [hd, List.append_nil] at e
      rw [e]
      simpa using h
    | cons b t =>
      right; left
      refine ⟨t, ?_⟩
      have h1 : (mem.dropWhile (· != 0)).head? = some b := by rw [hd]; rfl
      have := List.head?_dropWhile_not (· != 0) mem
      rw [h1] at this
      simp at this
      rw [this]

theorem clean_some (mem : List UInt8) (n : Nat) (h : n < mem.length) :
    (Str.strncpclean mem n).isSome ∧ (Str.strncpcleantail mem n).isSome := by
  have := Props.Str.C57_field_read_in_bounds_partial _ _ _ (readable mem n h)
  rw [List.takeWhile_append_dropWhile] at this
  exact ⟨this.1, this.2.1⟩

theorem cleanStr_ne (mem : List UInt8) (n : Nat) (h : n < mem.length) :
    ∃ s, cleanStr mem n = .ok s := by
  obtain ⟨r, hr⟩ := Option.isSome_iff_exists.1 (clean_some mem n h).1
  unfold cleanStr
  rw [hr]
  exact ⟨_, rfl⟩

theorem recordSid_ok (mem : List UInt8) (h : 21 ≤ mem.length) : ∃ s, recordSid mem = .ok s := by
  obtain ⟨a, ha⟩ := cleanStr_ne (mem.drop 18) 2 (by simp; omega)
  obtain ⟨b, hb⟩ := cleanStr_ne (mem.drop 8) 5 (by simp; omega)
  obtain ⟨c, hc⟩ := cleanStr_ne (mem.drop 13) 2 (by simp; omega)
  unfold recordSid
  rw [ha, bind_ok, hb, bind_ok, hc, bind_ok, peek_ok (by omega), bind_ok]
  simp only
  split
  · exact ⟨_, rfl⟩
  · exact ⟨_, rfl⟩

theorem ofOut_ne {α : Type} (o : Out α) : ofOut o ≠ .oob ∧ ofOut o ≠ .err := by
  cases o <;> simp [ofOut]

theorem btime_ne (h s : Bool) (mem : List UInt8) (off : Nat) (hl : off + 10 ≤ mem.length) :
    btime h s mem off ≠ .oob ∧ btime h s mem off ≠ .err := by
  unfold btime
  rw [load_ok (by omega), bind_ok]
  split
  · simp
  · rw [load_ok (by omega), bind_ok, load_ok (by omega), bind_ok, load_ok (by omega), bind_ok,
      load_ok (by omega), bind_ok, load_ok (by omega), bind_ok]
    exact ofOut_ne _

theorem addTime_ne (t d : Int) : addTime t d ≠ .oob ∧ addTime t d ≠ .err := by
  unfold addTime
  split <;> simp

/-- The bytes of a blockette a read needs. -/
def extent : Read → Nat
  | .num o n => o + n
  | .text o n => o + n + 1
  | .textTo o n => o + n + 1
  | .time o => o + 10
  | .timeMicro o m => max (o + 10) (m + 1)

theorem reads_extent (type : Nat) (rs : List Read) (h : reads type = some rs) :
    ∀ r ∈ rs, extent r ≤ 201 := by
  unfold reads at h
  by_cases h1 : type = 200
  · rw [if_pos h1] at h; injection h with h; subst h; decide
  rw [if_neg h1] at h
  by_cases h1 : type = 201
  · rw [if_pos h1] at h; injection h with h; subst h; decide
  rw [if_neg h1] at h
  by_cases h1 : type = 300
  · rw [if_pos h1] at h; injection h with h; subst h; decide
  rw [if_neg h1] at h
  by_cases h1 : type = 310
  · rw [if_pos h1] at h; injection h with h; subst h; decide
  rw [if_neg h1] at h
  by_cases h1 : type = 320
  · rw [if_pos h1] at h; injection h with h; subst h; decide
  rw [if_neg h1] at h
  by_cases h1 : type = 390
  · rw [if_pos h1] at h; injection h with h; subst h; decide
  rw [if_neg h1] at h
  by_cases h1 : type = 395
  · rw [if_pos h1] at h; injection h with h; subst h; decide
  rw [if_neg h1] at h
  by_cases h1 : type = 500
  · rw [if_pos h1] at h; injection h with h; subst h; decide
  rw [if_neg h1] at h
  simp at h

theorem readField_ne (h s : Bool) (mem : List UInt8) (off : Nat) (r : Read)
    (hl : off + extent r ≤ mem.length) :
    readField h s mem off r ≠ .oob ∧ readField h s mem off r ≠ .err := by
  cases r with
  | num o n =>
    simp only [extent] at hl
    simp only [readField]
    rw [load_ok (by omega), bind_ok]
    simp
  | text o n =>
    simp only [extent] at hl
    obtain ⟨r, hr⟩ := Option.isSome_iff_exists.1
      (clean_some (mem.drop (off + o)) n (by simp; omega)).2
    simp only [readField]
    rw [hr]
    simp [ofMem, Res.bind]
  | textTo o n =>
    simp only [extent] at hl
    obtain ⟨r, hr⟩ := Option.isSome_iff_exists.1
      (clean_some (mem.drop (off + o)) n (by simp; omega)).2
    simp only [readField]
    rw [hr]
    simp only [ofMem, Res.bind]
    split <;> simp
  | time o =>
    simp only [extent] at hl
    have := btime_ne h s mem (off + o) (by omega)
    simp only [readField]
    exact ⟨bind_ne_oob this.1 (by simp), bind_ne_err this.2 (by simp)⟩
  | timeMicro o m =>
    simp only [extent] at hl
    have := btime_ne h s mem (off + o) (by omega)
    simp only [readField]
    refine ⟨bind_ne_oob this.1 ?_, bind_ne_err this.2 ?_⟩
    · intro a _
      split
      · simp
      · rw [load_ok (by omega), bind_ok]
        exact bind_ne_oob (addTime_ne _ _).1 (by simp)
    · intro a _
      split
      · simp
      · rw [load_ok (by omega), bind_ok]
        exact bind_ne_err (addTime_ne _ _).2 (by simp)

theorem readFields_ne (h s : Bool) (mem : List UInt8) (off : Nat) (rs : List Read)
    (hl : ∀ r ∈ rs, off + extent r ≤ mem.length) :
    readFields h s mem off rs ≠ .oob ∧ readFields h s mem off rs ≠ .err := by
  induction rs with
  | nil => simp [readFields]
  | cons r rs ih =>
    have h1 := readField_ne h s mem off r (hl r List.mem_cons_self)
    have h2 := ih (fun x hx => hl x (List.mem_cons_of_mem _ hx))
    simp only [readFields]
    refine ⟨bind_ne_oob h1.1 ?_, bind_ne_err h1.2 ?_⟩
    · intro f _
      cases f with
      | none => simp
      | some f => exact bind_ne_oob h2.1 (by simp)
    · intro f _
      cases f with
      | none => simp
      | some f => exact bind_ne_err h2.2 (by simp)

theorem blktLen_ne (h s : Bool) (mem : List UInt8) (off type : Nat) (hl : off + 6 ≤ mem.length) :
    ∃ n, blktLen h s mem off type = .ok n ∧ (n ≠ 0 → type = 2000 ∨ 8 ≤ n) := by
  by_cases h2 : type = 2000
  · subst h2
    exact ⟨_, load_ok (n := 2) (by omega), by omega⟩
  have : ∃ n, blktLen h s mem off type = .ok n ∧ (n = 0 ∨ 8 ≤ n) := by
    unfold blktLen
    rw [if_neg h2]
    iterate 12 (refine dite (type = _) (fun hc => ⟨_, if_pos hc, by omega⟩) (fun hc => ?_); rw [if_neg hc])
    exact ⟨0, rfl, by omega⟩
  obtain ⟨n, h3, h4⟩ := this
  exact ⟨n, h3, by omega⟩

theorem blockette_ne (env : Env) (h s : Bool) (mem : List UInt8) (off type : Nat) (w : Walk)
    (hl : off + 201 ≤ mem.length) :
    blockette env h s mem off type w ≠ .oob ∧ blockette env h s mem off type w ≠ .err := by
  unfold blockette
  split
  · rw [load_ok (by omega), bind_ok]; simp
  split
  · rw [load_ok (by omega), bind_ok]
    split
    · simp
    · rw [load_ok (by omega), bind_ok]; simp
  split
  · rw [load_ok (by omega), bind_ok]; simp
  split
  · rename_i rs hr
    have := readFields_ne h s mem off rs
      (fun r hm => by have := reads_extent type rs hr r hm; omega)
    exact ⟨bind_ne_oob this.1 (by simp), bind_ne_err this.2 (by simp)⟩
  · simp

/-- A blockette 2000 needs nothing beyond its header. -/
theorem blockette_2000 (env : Env) (h s : Bool) (mem : List UInt8) (off : Nat) (w : Walk) :
    blockette env h s mem off 2000 w = .ok (some w) := by
  simp [blockette, reads]

/-- What the loop keeps about the remembered blockettes. -/
def Kept (mem : List UInt8) (w : Walk) : Prop :=
  w.b1000 + 6 ≤ mem.length ∧ w.b1001 + 6 ≤ mem.length

theorem blockette_kept (env : Env) (h s : Bool) (mem : List UInt8) (off type : Nat) (w w' : Walk)
    (hl : off + 201 ≤ mem.length) (hk : Kept mem w)
    (hb : blockette env h s mem off type w = .ok (some w')) : Kept mem w' := by
  unfold blockette at hb
  split at hb
  · rw [load_ok (by omega), bind_ok] at hb
    simp only [Res.ok.injEq, Option.some.injEq] at hb
    subst hb
    exact hk
  split at hb
  · rw [load_ok (by omega), bind_ok] at hb
    split at hb
    · simp at hb
    · rw [load_ok (by omega), bind_ok] at hb
      simp only [Res.ok.injEq, Option.some.injEq] at hb
      subst hb
      exact ⟨by simp only; omega, hk.2⟩
  split at hb
  · rw [load_ok (by omega), bind_ok] at hb
    simp only [Res.ok.injEq, Option.some.injEq] at hb
    subst hb
    exact ⟨hk.1, by simp only; omega⟩
  split at hb
  · rw [bind_eq_ok] at hb
    obtain ⟨fs, _, hf⟩ := hb
    cases fs with
    | none => simp at hf
    | some fs =>
      simp only [Option.map_some, Res.ok.injEq, Option.some.injEq] at hf
      subst hf
      exact hk
  · simp only [Res.ok.injEq, Option.some.injEq] at hb
    subst hb
    exact hk

theorem walk_ne (env : Env) (h s : Bool) (mem : List UInt8) (reclen : Int)
    (hm : reclen + 193 ≤ mem.length) :
    ∀ (fuel off : Nat) (w : Walk), off < 65536 → (off ≠ 0 → 65536 < fuel + off) → 0 < fuel →
      Kept mem w →
      walk env h s mem reclen fuel off w ≠ .oob ∧ walk env h s mem reclen fuel off w ≠ .err ∧
      ∀ w', walk env h s mem reclen fuel off w = .ok (some w') → Kept mem w' := by
  intro fuel
  induction fuel with
  | zero => intro off w _ _ hp _; omega
  | succ fuel ih =>
    intro off w ho hf _ hk
    rw [walk]
    by_cases hc : off ≠ 0 ∧ (off : Int) < reclen ∧ off < 10485760
    · rw [if_pos hc, load_ok (by omega), bind_ok, load_ok (by omega), bind_ok]
      have hnx : ∀ n, hostNat h (swapIf s ((mem.drop (off + 2)).take 2)) = n → n < 65536 := by
        intro n hn
        have := load_lt (load_ok (h := h) (s := s) (mem := mem) (off := off + 2) (n := 2) (by omega))
        rw [hn] at this
        exact this.1
      generalize hostNat h (swapIf s ((mem.drop (off + 2)).take 2)) = next at *
      generalize hostNat h (swapIf s ((mem.drop off).take 2)) = type at *
      have hnext := hnx next rfl
      obtain ⟨len, hlen, h8⟩ := blktLen_ne h s mem off type (by omega)
      rw [hlen, bind_ok]
      by_cases hz : len = 0
      · rw [if_pos hz]
        exact ⟨by simp, by simp, by intro w' hw; injection hw with hw; injection hw with hw; exact hw ▸ hk⟩
      rw [if_neg hz]
      by_cases hr : ((off + len : Nat) : Int) > reclen
      · rw [if_pos hr]
        exact ⟨by simp, by simp, by intro w' hw; injection hw with hw; injection hw with hw; exact hw ▸ hk⟩
      rw [if_neg hr]
      have hno : nextOff reclen off len next < 65536 ∧
          (nextOff reclen off len next ≠ 0 → off < nextOff reclen off len next) := by
        unfold nextOff
        split
        · omega
        · split
          · omega
          · omega
      have hstep : blockette env h s mem off type w ≠ .oob ∧
          blockette env h s mem off type w ≠ .err ∧
          ∀ w', blockette env h s mem off type w = .ok (some w') → Kept mem w' := by
        by_cases h2 : type = 2000
        · rw [h2, blockette_2000]
          exact ⟨by simp, by simp, by intro w' hw; injection hw with hw; injection hw with hw; exact hw ▸ hk⟩
        · have h9 := h8 hz
          have hne := blockette_ne env h s mem off type w (by omega)
          exact ⟨hne.1, hne.2, fun w' hw => blockette_kept env h s mem off type w w' (by omega) hk hw⟩
      obtain ⟨s1, s2, s3⟩ := hstep
      cases hb : blockette env h s mem off type w with
      | oob => exact absurd hb s1
      | err => exact absurd hb s2
      | ub => simp [Res.bind]
      | ok r =>
        rw [bind_ok]
        cases r with
        | none => simp
        | some w2 =>
          simp only
          have hk2 := s3 w2 hb
          refine ih _ w2 hno.1 (fun hnz => ?_) ?_ hk2
          · have := hno.2 hnz; have := hf hc.1; omega
          · have := hf hc.1; omega
    · rw [if_neg hc]
      exact ⟨by simp, by simp, by intro w' hw; injection hw with hw; injection hw with hw; exact hw ▸ hk⟩

theorem startTime_ne (h s : Bool) (mem : List UInt8) (act b1001 : Nat) (correct : Int)
    (hl : 48 ≤ mem.length) (hb : b1001 + 6 ≤ mem.length) :
    startTime h s mem act b1001 correct ≠ .oob ∧ startTime h s mem act b1001 correct ≠ .err := by
  have h1 := btime_ne h s mem 20 (by omega)
  have h2 : ∀ t, (if correct ≠ 0 ∧ act.testBit 1 = false then addTime t (correct * 100000)
      else .ok t) ≠ .oob ∧ (if correct ≠ 0 ∧ act.testBit 1 = false
        then addTime t (correct * 100000) else .ok t) ≠ .err := by
    intro t
    split
    · exact addTime_ne _ _
    · simp
  unfold startTime
  refine ⟨bind_ne_oob h1.1 ?_, bind_ne_err h1.2 ?_⟩
  · intro t _
    split
    · simp
    refine bind_ne_oob (h2 t).1 ?_
    intro t' _
    split
    · rw [load_ok (by omega), bind_ok]
      exact bind_ne_oob (addTime_ne _ _).1 (by simp)
    · simp
  · intro t _
    split
    · simp
    refine bind_ne_err (h2 t).2 ?_
    intro t' _
    split
    · rw [load_ok (by omega), bind_ok]
      exact bind_ne_err (addTime_ne _ _).2 (by simp)
    · simp

theorem finish_ne (env : Env) (h : Bool) (align : Nat) (mem : List UInt8) (s : Bool)
    (sid : List UInt8) (n q a i d : Nat) (c : Int) (w : Walk) (hl : 48 ≤ mem.length)
    (hk : Kept mem w) :
    finish env h align mem s false sid n q a i d c w ≠ .oob ∧
    finish env h align mem s false sid n q a i d c w ≠ .err := by
  have h1 := startTime_ne h s mem a w.b1001 c hl hk.2
  have h2 : ∃ b, swapData h s mem w.b1000 = .ok b := by
    unfold swapData
    split
    · rw [load_ok (by have := hk.1; omega), bind_ok]; exact ⟨_, rfl⟩
    · exact ⟨_, rfl⟩
  obtain ⟨b, hb⟩ := h2
  unfold finish
  refine ⟨bind_ne_oob h1.1 ?_, bind_ne_err h1.2 ?_⟩
  · intro t _
    cases t with
    | none => simp
    | some t =>
      simp only
      rw [load_ok (by omega), bind_ok, hb, bind_ok]
      simp [withSamples]
  · intro t _
    cases t with
    | none => simp
    | some t =>
      simp only
      rw [load_ok (by omega), bind_ok, hb, bind_ok]
      simp [withSamples]

theorem unpack2_ne (env : Env) (h : Bool) (align : Nat) (mem : List UInt8)
    (reclen : Int) (hl : 48 ≤ mem.length) (hm : reclen + 193 ≤ mem.length) :
    unpack2 env h align mem reclen false ≠ .oob ∧ unpack2 env h align mem reclen false ≠ .err := by
  obtain ⟨sid, hsid⟩ := recordSid_ok mem (by omega)
  unfold unpack2
  split
  · rw [hsid, bind_ok]; simp
  rw [peek_ok (by omega), bind_ok]
  split
  · rw [hsid, bind_ok]; simp
  rw [load_ok (by omega), bind_ok, load_ok (by omega), bind_ok]
  simp only
  generalize (!Detect.validYearDay _ _) = s
  rw [hsid, bind_ok, load_ok (by omega), bind_ok, load_ok (by omega), bind_ok,
    load_ok (by omega), bind_ok, load_ok (by omega), bind_ok, load_ok (by omega), bind_ok,
    load_ok (by omega), bind_ok, load_ok (by omega), bind_ok, load_ok (by omega), bind_ok,
    load_ok (by omega), bind_ok]
  have hoff := (load_lt (load_ok (h := h) (s := s) (mem := mem) (off := 46) (n := 2) (by omega))).1
  have hw := fun w hk => walk_ne env h s mem reclen hm 65537 _ w hoff (by omega) (by omega) hk
  refine ⟨bind_ne_oob (hw _ ⟨by simp only; omega, by simp only; omega⟩).1 ?_,
    bind_ne_err (hw _ ⟨by simp only; omega, by simp only; omega⟩).2.1 ?_⟩
  · intro w hww
    cases w with
    | none => simp
    | some w => exact (finish_ne _ _ _ _ _ _ _ _ _ _ _ _ w hl ((hw _ ⟨by simp only; omega, by simp only; omega⟩).2.2 w hww)).1
  · intro w hww
    cases w with
    | none => simp
    | some w => exact (finish_ne _ _ _ _ _ _ _ _ _ _ _ _ w hl ((hw _ ⟨by simp only; omega, by simp only; omega⟩).2.2 w hww)).2

end Verif.Proof.Record2
