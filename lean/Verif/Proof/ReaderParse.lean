import Verif.Proof.Reader
import Verif.Props.Detect
import Verif.Props.Record3
/-! The parser of the library satisfies what the reader loop needs. -/
namespace Verif.Proof.Reader
open Verif.Model Verif.Model.Bytes Verif.Model.Steim Verif.Model.Mem Verif.Model.Record3
open Verif.Model.Reader
open Verif.Model.Record2
open Verif.Proof.Mem

theorem ofMem_ne_err {α : Type} (o : Option α) : ofMem o ≠ .err := by cases o <;> simp [ofMem]

theorem poke_ne_err (mem : List UInt8) (off : Nat) (b : List UInt8) : poke mem off b ≠ .err := by
  unfold poke; split <;> simp

theorem withSamples_ne_err (h : Bool) (align : Nat) (mem : List UInt8) (m : Msr) (ud : Bool) :
    withSamples h align mem m ud ≠ .err := by
  unfold withSamples
  split
  · split <;> simp
  · simp

theorem withSamples_record {h : Bool} {align : Nat} {mem : List UInt8} {m m' : Msr} {ud : Bool}
    (e : withSamples h align mem m ud = .ok (.record m')) : ∃ s n, m' = { m with samples := s, encoding := n } := by
  unfold withSamples at e
  split at e
  · split at e
    · injection e with e; injection e with e; exact ⟨_, _, e.symm⟩
    · injection e with e; cases e
    · cases e
    · cases e
  · injection e with e; injection e with e; exact ⟨m.samples, m.encoding, e.symm⟩

theorem unpackFields_ne_err (h : Bool) (align : Nat) (mem : List UInt8) (reclen : Int) (sl : Nat)
    (ud : Bool) : unpackFields h align mem reclen sl ud ≠ .err := by
  unfold unpackFields
  iterate 2 refine bind_ne_err (load_ne_err _ _ _ _ _) fun _ _ => ?_
  refine bind_ne_err (peek_ne_err _ _ _) fun _ _ => ?_
  iterate 6 refine bind_ne_err (load_ne_err _ _ _ _ _) fun _ _ => ?_
  refine bind_ne_err (Record2.ofOut_ne _).2 fun _ _ => ?_
  split
  · simp
  iterate 6 refine bind_ne_err (load_ne_err _ _ _ _ _) fun _ _ => ?_
  refine bind_ne_err ?_ fun _ _ => ?_
  · split
    · exact peek_ne_err _ _ _
    · simp
  refine bind_ne_err (load_ne_err _ _ _ _ _) fun _ _ => ?_
  exact withSamples_ne_err _ _ _ _ _

theorem unpackFields_reclen {h : Bool} {align : Nat} {mem : List UInt8} {reclen : Int} {sl : Nat}
    {ud : Bool} {m : Msr} (e : unpackFields h align mem reclen sl ud = .ok (.record m)) :
    m.reclen = reclen := by
  unfold unpackFields at e
  iterate 10
    rw [bind_eq_ok] at e
    obtain ⟨_, -, e⟩ := e
  split at e
  · injection e with e; cases e
  iterate 8
    rw [bind_eq_ok] at e
    obtain ⟨_, -, e⟩ := e
  obtain ⟨s, n, hs⟩ := withSamples_record e
  rw [hs]

theorem unpack3_ne_err (h : Bool) (align : Nat) (mem : List UInt8) (reclen : Int) (vc ud : Bool) :
    unpack3 h align mem reclen vc ud ≠ .err := by
  unfold unpack3
  split
  · simp
  refine bind_ne_err (peek_ne_err _ _ _) fun _ _ => ?_
  split
  · simp
  refine bind_ne_err (load_ne_err _ _ _ _ _) fun _ _ => ?_
  split
  · exact bind_ne_err (peek_ne_err _ _ _) (by simp)
  refine bind_ne_err ?_ fun x _ => ?_
  · split
    · unfold checkCrc
      refine bind_ne_err (load_ne_err _ _ _ _ _) fun _ _ => ?_
      refine bind_ne_err (poke_ne_err _ _ _) fun _ _ => ?_
      refine bind_ne_err (ofMem_ne_err _) fun _ _ => ?_
      exact bind_ne_err (poke_ne_err _ _ _) (by simp)
    · simp
  · obtain ⟨g, mm⟩ := x
    simp only
    split
    · exact bind_ne_err (peek_ne_err _ _ _) (by simp)
    · exact bind_ne_err (unpackFields_ne_err _ _ _ _ _ _) (by simp)

theorem unpack3_reclen {h : Bool} {align : Nat} {mem mem' : List UInt8} {reclen : Int}
    {vc ud : Bool} {m : Msr} (e : unpack3 h align mem reclen vc ud = .ok (.record m, mem')) :
    m.reclen = reclen := by
  unfold unpack3 at e
  split at e
  · injection e with e; cases e
  rw [bind_eq_ok] at e
  obtain ⟨_, -, e⟩ := e
  split at e
  · injection e with e; cases e
  rw [bind_eq_ok] at e
  obtain ⟨_, -, e⟩ := e
  split at e
  · rw [bind_eq_ok] at e
    obtain ⟨_, -, e⟩ := e
    injection e with e; cases e
  rw [bind_eq_ok] at e
  obtain ⟨⟨g, mm⟩, -, e⟩ := e
  simp only at e
  split at e
  · rw [bind_eq_ok] at e
    obtain ⟨_, -, e⟩ := e
    injection e with e; cases e
  · rw [bind_eq_ok] at e
    obtain ⟨p, hp, e⟩ := e
    injection e with e; injection e with e _
    rw [e] at hp
    exact unpackFields_reclen hp

/-! ## Version 2 -/

theorem cleanStr_ne_err (mem : List UInt8) (n : Nat) : cleanStr mem n ≠ .err := by
  unfold cleanStr
  exact bind_ne_err (ofMem_ne_err _) (by simp)

theorem recordSid_ne_err (mem : List UInt8) : recordSid mem ≠ .err := by
  unfold recordSid
  refine bind_ne_err (cleanStr_ne_err _ _) fun _ _ => ?_
  refine bind_ne_err (cleanStr_ne_err _ _) fun _ _ => ?_
  refine bind_ne_err (cleanStr_ne_err _ _) fun _ _ => ?_
  refine bind_ne_err (peek_ne_err _ _ _) fun _ _ => ?_
  simp only
  split <;> simp

theorem btime_ne_err (h s : Bool) (mem : List UInt8) (off : Nat) : btime h s mem off ≠ .err := by
  unfold btime
  refine bind_ne_err (load_ne_err _ _ _ _ _) fun _ _ => ?_
  split
  · simp
  · iterate 5 refine bind_ne_err (load_ne_err _ _ _ _ _) fun _ _ => ?_
    exact (Record2.ofOut_ne _).2

theorem readField_ne_err (h s : Bool) (mem : List UInt8) (off : Nat) (r : Read) :
    readField h s mem off r ≠ .err := by
  cases r with
  | num o n => exact bind_ne_err (load_ne_err _ _ _ _ _) (by simp)
  | text o n => exact bind_ne_err (ofMem_ne_err _) (by simp)
  | textTo o n =>
    refine bind_ne_err (ofMem_ne_err _) fun r _ => ?_
    split <;> simp
  | time o => exact bind_ne_err (btime_ne_err _ _ _ _) (by simp)
  | timeMicro o m =>
    refine bind_ne_err (btime_ne_err _ _ _ _) fun t _ => ?_
    split
    · simp
    · refine bind_ne_err (load_ne_err _ _ _ _ _) fun _ _ => ?_
      exact bind_ne_err (Record2.addTime_ne _ _).2 (by simp)

theorem readFields_ne_err (h s : Bool) (mem : List UInt8) (off : Nat) (rs : List Read) :
    readFields h s mem off rs ≠ .err := by
  induction rs with
  | nil => simp [readFields]
  | cons r rs ih =>
    simp only [readFields]
    refine bind_ne_err (readField_ne_err _ _ _ _ _) fun f _ => ?_
    cases f with
    | none => simp
    | some f => exact bind_ne_err ih (by simp)

theorem blktLen_ne_err (h s : Bool) (mem : List UInt8) (off type : Nat) :
    blktLen h s mem off type ≠ .err := by
  unfold blktLen
  iterate 12 (refine dite (type = _) (fun hc => by rw [if_pos hc]; simp) (fun hc => ?_); rw [if_neg hc])
  split
  · exact load_ne_err _ _ _ _ _
  · simp

theorem blockette_ne_err (env : Env) (h s : Bool) (mem : List UInt8) (off type : Nat) (w : Walk) :
    blockette env h s mem off type w ≠ .err := by
  unfold blockette
  split
  · exact bind_ne_err (load_ne_err _ _ _ _ _) (by simp)
  split
  · refine bind_ne_err (load_ne_err _ _ _ _ _) fun _ _ => ?_
    split
    · simp
    · exact bind_ne_err (load_ne_err _ _ _ _ _) (by simp)
  split
  · exact bind_ne_err (load_ne_err _ _ _ _ _) (by simp)
  split
  · exact bind_ne_err (readFields_ne_err _ _ _ _ _) (by simp)
  · simp

theorem walk_ne_err (env : Env) (h s : Bool) (mem : List UInt8) (reclen : Int) :
    ∀ (fuel off : Nat) (w : Walk), off < 65536 → (off ≠ 0 → 65536 < fuel + off) → 0 < fuel →
      walk env h s mem reclen fuel off w ≠ .err := by
  intro fuel
  induction fuel with
  | zero => intro off w _ _ hp; omega
  | succ fuel ih =>
    intro off w ho hf _
    rw [walk]
    split
    · rename_i hc
      refine bind_ne_err (load_ne_err _ _ _ _ _) fun type _ => ?_
      refine bind_ne_err (load_ne_err _ _ _ _ _) fun next hnx => ?_
      refine bind_ne_err (blktLen_ne_err _ _ _ _ _) fun len _ => ?_
      have hnext := (load_lt hnx).1
      split
      · simp
      split
      · simp
      refine bind_ne_err (blockette_ne_err _ _ _ _ _ _ _) fun r _ => ?_
      cases r with
      | none => simp
      | some w =>
        have hno : nextOff reclen off len next < 65536 ∧
            (nextOff reclen off len next ≠ 0 → off < nextOff reclen off len next) := by
          unfold nextOff
          split
          · omega
          · split <;> omega
        have := hf hc.1
        exact ih _ w hno.1 (fun hz => by have := hno.2 hz; omega) (by omega)
    · simp

/-- The record lengths the blockette loop can give. -/
def Len (reclen n : Int) : Prop := n = reclen ∨ 1 ≤ n ∨ n = -2147483648

theorem sext_pow (e : Nat) (h : e < 32) : 1 ≤ sext 32 (2 ^ e) ∨ sext 32 (2 ^ e) = -2147483648 := by
  have : ∀ e, e < 32 → 1 ≤ sext 32 (2 ^ e) ∨ sext 32 (2 ^ e) = -2147483648 := by decide
  exact this e h

theorem blockette_len {env : Env} {h s : Bool} {mem : List UInt8} {off type : Nat} {w w' : Walk}
    (hb : blockette env h s mem off type w = .ok (some w')) :
    w'.reclen = w.reclen ∨ 1 ≤ w'.reclen ∨ w'.reclen = -2147483648 := by
  unfold blockette at hb
  split at hb
  · rw [bind_eq_ok] at hb
    obtain ⟨_, -, hb⟩ := hb
    injection hb with hb; injection hb with hb; rw [← hb]; exact Or.inl rfl
  split at hb
  · rw [bind_eq_ok] at hb
    obtain ⟨e, -, hb⟩ := hb
    split at hb
    · cases hb
    · rename_i he
      rw [bind_eq_ok] at hb
      obtain ⟨_, -, hb⟩ := hb
      injection hb with hb; injection hb with hb; rw [← hb]
      exact Or.inr (sext_pow e (by omega))
  split at hb
  · rw [bind_eq_ok] at hb
    obtain ⟨_, -, hb⟩ := hb
    injection hb with hb; injection hb with hb; rw [← hb]; exact Or.inl rfl
  split at hb
  · rw [bind_eq_ok] at hb
    obtain ⟨fs, -, hb⟩ := hb
    injection hb with hb
    cases fs with
    | none => cases hb
    | some fs => injection hb with hb; rw [← hb]; exact Or.inl rfl
  · injection hb with hb; injection hb with hb; rw [← hb]; exact Or.inl rfl

theorem walk_len {env : Env} {h s : Bool} {mem : List UInt8} {reclen n : Int} :
    ∀ {fuel off : Nat} {w w' : Walk}, Len n w.reclen →
      walk env h s mem reclen fuel off w = .ok (some w') → Len n w'.reclen := by
  intro fuel
  induction fuel with
  | zero => intro off w w' _ hw; cases hw
  | succ fuel ih =>
    intro off w w' hl hw
    rw [walk] at hw
    split at hw
    · rw [bind_eq_ok] at hw
      obtain ⟨_, -, hw⟩ := hw
      rw [bind_eq_ok] at hw
      obtain ⟨_, -, hw⟩ := hw
      rw [bind_eq_ok] at hw
      obtain ⟨_, -, hw⟩ := hw
      split at hw
      · injection hw with hw; injection hw with hw; rw [← hw]; exact hl
      split at hw
      · injection hw with hw; injection hw with hw; rw [← hw]; exact hl
      rw [bind_eq_ok] at hw
      obtain ⟨r, hr, hw⟩ := hw
      cases r with
      | none => simp at hw
      | some w2 =>
        refine ih ?_ hw
        unfold Len at hl ⊢
        rcases blockette_len hr with e | e | e <;> omega
    · injection hw with hw; injection hw with hw; rw [← hw]; exact hl

theorem startTime_ne_err (h s : Bool) (mem : List UInt8) (act b : Nat) (c : Int) :
    startTime h s mem act b c ≠ .err := by
  unfold startTime
  refine bind_ne_err (btime_ne_err _ _ _ _) fun t _ => ?_
  split
  · simp
  refine bind_ne_err ?_ fun t _ => ?_
  · split
    · exact (Record2.addTime_ne _ _).2
    · simp
  split
  · refine bind_ne_err (load_ne_err _ _ _ _ _) fun _ _ => ?_
    exact bind_ne_err (Record2.addTime_ne _ _).2 (by simp)
  · simp

theorem finish_ne_err (env : Env) (h : Bool) (align : Nat) (mem : List UInt8) (s ud : Bool)
    (sid : List UInt8) (n q a i d : Nat) (c : Int) (w : Walk) :
    finish env h align mem s ud sid n q a i d c w ≠ .err := by
  unfold finish
  refine bind_ne_err (startTime_ne_err _ _ _ _ _ _) fun t _ => ?_
  cases t with
  | none => simp
  | some t =>
    refine bind_ne_err (load_ne_err _ _ _ _ _) fun _ _ => ?_
    refine bind_ne_err ?_ fun _ _ => withSamples_ne_err _ _ _ _ _
    unfold swapData
    split
    · exact bind_ne_err (load_ne_err _ _ _ _ _) (by simp)
    · simp

theorem finish_len {env : Env} {h : Bool} {align : Nat} {mem : List UInt8} {s ud : Bool}
    {sid : List UInt8} {n q a i d : Nat} {c : Int} {w : Walk} {m : Msr}
    (e : finish env h align mem s ud sid n q a i d c w = .ok (.record m)) : m.reclen = w.reclen := by
  unfold finish at e
  rw [bind_eq_ok] at e
  obtain ⟨t, -, e⟩ := e
  cases t with
  | none => injection e with e; cases e
  | some t =>
    simp only at e
    rw [bind_eq_ok] at e
    obtain ⟨_, -, e⟩ := e
    rw [bind_eq_ok] at e
    obtain ⟨_, -, e⟩ := e
    obtain ⟨s, n, hs⟩ := withSamples_record e
    rw [hs]

theorem unpack2_ne_err (env : Env) (h : Bool) (align : Nat) (mem : List UInt8) (reclen : Int)
    (ud : Bool) : unpack2 env h align mem reclen ud ≠ .err := by
  unfold unpack2
  split
  · exact bind_ne_err (recordSid_ne_err _) (by simp)
  refine bind_ne_err (peek_ne_err _ _ _) fun _ _ => ?_
  split
  · exact bind_ne_err (recordSid_ne_err _) (by simp)
  iterate 2 refine bind_ne_err (load_ne_err _ _ _ _ _) fun _ _ => ?_
  refine bind_ne_err (recordSid_ne_err _) fun _ _ => ?_
  iterate 8 refine bind_ne_err (load_ne_err _ _ _ _ _) fun _ _ => ?_
  refine bind_ne_err (load_ne_err _ _ _ _ _) fun off ho => ?_
  have := (load_lt ho).1
  refine bind_ne_err (walk_ne_err _ _ _ _ _ _ _ _ this (by omega) (by omega)) fun w _ => ?_
  cases w with
  | none => simp
  | some w => exact finish_ne_err _ _ _ _ _ _ _ _ _ _ _ _ _ _

theorem unpack2_len {env : Env} {h : Bool} {align : Nat} {mem : List UInt8} {reclen : Int}
    {ud : Bool} {m : Msr} (e : unpack2 env h align mem reclen ud = .ok (.record m)) :
    Len reclen m.reclen := by
  unfold unpack2 at e
  split at e
  · rw [bind_eq_ok] at e
    obtain ⟨_, -, e⟩ := e
    injection e with e; cases e
  rw [bind_eq_ok] at e
  obtain ⟨_, -, e⟩ := e
  split at e
  · rw [bind_eq_ok] at e
    obtain ⟨_, -, e⟩ := e
    injection e with e; cases e
  iterate 12
    rw [bind_eq_ok] at e
    obtain ⟨_, -, e⟩ := e
  rw [bind_eq_ok] at e
  obtain ⟨w, hw, e⟩ := e
  cases w with
  | none => injection e with e; cases e
  | some w =>
    rw [finish_len e]
    exact walk_len (Or.inl rfl) hw

/-! ## The parser -/

theorem parse_ne_err (env : Env) (h : Bool) (align : Nat) (mem : List UInt8) (vc ud eof : Bool) :
    parse (unpack2 env h align) h align mem vc ud eof ≠ .err := by
  unfold parse
  refine bind_ne_err (Props.Detect.C28_terminates h mem) fun ⟨n, v⟩ _ => ?_
  simp only
  generalize (if v = 2 ∧ n = 0 ∧ eof = true ∧ mem.length &&& (mem.length - 1) = 0 ∧ mem.length ≤ 10485760
    then (mem.length : Int) else n) = n'
  repeat' split
  all_goals first
    | exact unpack3_ne_err _ _ _ _ _ _
    | exact bind_ne_err (unpack2_ne_err _ _ _ _ _ _) (by simp)
    | simp

theorem parse_len {env : Env} {h : Bool} {align : Nat} {mem mem' : List UInt8} {vc ud eof : Bool}
    {m : Msr} (e : parse (unpack2 env h align) h align mem vc ud eof = .ok (.record m, mem')) :
    1 ≤ m.reclen ∨ m.reclen = -2147483648 := by
  unfold parse at e
  rw [bind_eq_ok] at e
  obtain ⟨⟨n, v⟩, -, e⟩ := e
  simp only at e
  generalize (if v = 2 ∧ n = 0 ∧ eof = true ∧ mem.length &&& (mem.length - 1) = 0 ∧ mem.length ≤ 10485760
    then (mem.length : Int) else n) = n' at e
  split at e
  · injection e with e; cases e
  split at e
  · injection e with e; cases e
  split at e
  · injection e with e; cases e
  split at e
  · injection e with e; cases e
  split at e
  · have := unpack3_reclen e; omega
  split at e
  · rw [bind_eq_ok] at e
    obtain ⟨p, hp, e⟩ := e
    injection e with e; injection e with e _
    rw [e] at hp
    have := unpack2_len hp
    unfold Len at this
    omega
  · injection e with e; cases e

theorem opts_ends (env : Env) (h : Bool) (base : Nat) (vc ud skip : Bool)
    (sel : Option (Msr → Bool)) : Ends (opts env h base vc ud skip sel) where
  parse off mem ud eof := parse_ne_err _ _ _ _ _ _ _
  unpack off mem m := withSamples_ne_err _ _ _ _ _
  same off mem ud eof p mem' e := Props.Record3.C30_bytes_unchanged _ _ _ _ _ _ _ _ _ e
  reclen off mem ud eof m mem' e := parse_len e

end Verif.Proof.Reader
