import Verif.Model.Codes
import Verif.Model.Record2
import Verif.Proof.Mem
/-!
# Return codes and their texts (C140), names of blockettes (C141)
-/
namespace Verif.Props.Codes
open Verif.Model.Codes Verif.Model.Record3 Verif.Model.Samples
open Verif.Model.Steim (Res)
open Verif.Model.Bytes (bits)

/-- The codes documented in the header file (libmseed.h), with their texts. -/
def documented : List (Int × String) :=
  [(1, "End of file reached"), (0, "No error"), (-1, "Generic error"), (-2, "No miniSEED data detected"),
    (-3, "Length of data read does not match record length"), (-4, "SEED record length out of range"),
    (-5, "Unknown data encoding format"), (-6, "Bad Steim compression flag(s) detected"), (-7, "Invalid CRC detected")]

/-- The data encodings that are decoded. -/
def decoded : List Nat := [0, 1, 3, 4, 5, 10, 11, 12, 13, 14, 16, 30, 32]

theorem errorStr_iff (code : Int) (text : String) : errorStr code = some text ↔ (code, text) ∈ documented := by
  have key : (∃ i, i < 9 ∧ code = (documented.map Prod.fst)[i]?.getD 0) ∨ (code < -7 ∨ 1 < code) := by
    by_cases h : code < -7 ∨ 1 < code
    · exact Or.inr h
    · left
      have : code = 1 ∨ code = 0 ∨ code = -1 ∨ code = -2 ∨ code = -3 ∨ code = -4 ∨ code = -5 ∨ code = -6 ∨
        code = -7 := by omega
      rcases this with h | h | h | h | h | h | h | h | h
      · exact ⟨0, by decide, h⟩
      · exact ⟨1, by decide, h⟩
      · exact ⟨2, by decide, h⟩
      · exact ⟨3, by decide, h⟩
      · exact ⟨4, by decide, h⟩
      · exact ⟨5, by decide, h⟩
      · exact ⟨6, by decide, h⟩
      · exact ⟨7, by decide, h⟩
      · exact ⟨8, by decide, h⟩
  rcases key with ⟨i, hi, e⟩ | h
  · have : i = 0 ∨ i = 1 ∨ i = 2 ∨ i = 3 ∨ i = 4 ∨ i = 5 ∨ i = 6 ∨ i = 7 ∨ i = 8 := by omega
    rcases this with h | h | h | h | h | h | h | h | h <;> subst h <;> subst e <;>
      simp [documented, errorStr, eq_comm]
  · have e : errorStr code = none := by
      unfold errorStr
      repeat rw [if_neg (by omega)]
    rw [e]
    constructor
    · intro h; cases h
    · intro hm
      simp only [documented, List.mem_cons, Prod.mk.injEq, List.not_mem_nil, or_false] at hm
      omega

/-- **C140** (texts).  The codes with a text are those documented, from -7 to 1, each with its own. -/
theorem C140_texts :
    (∀ code text, errorStr code = some text ↔ (code, text) ∈ documented) ∧
    (∀ code, errorStr code ≠ none ↔ -7 ≤ code ∧ code ≤ 1) ∧
    (∀ a b, errorStr a ≠ none → errorStr a = errorStr b → a = b) := by
  refine ⟨errorStr_iff, ?_, ?_⟩
  · intro code
    constructor
    · intro h
      cases e : errorStr code with
      | none => exact absurd e h
      | some t =>
        have hm := (errorStr_iff code t).1 e
        simp only [documented, List.mem_cons, Prod.mk.injEq, List.not_mem_nil, or_false] at hm
        omega
    · intro h e
      have : code = 1 ∨ code = 0 ∨ code = -1 ∨ code = -2 ∨ code = -3 ∨ code = -4 ∨ code = -5 ∨ code = -6 ∨
        code = -7 := by omega
      rcases this with h | h | h | h | h | h | h | h | h <;> subst h <;> exact absurd e (by decide)
  · intro a b ha e
    cases ea : errorStr a with
    | none => exact absurd ea ha
    | some t =>
      have h1 := (errorStr_iff a t).1 ea
      have h2 := (errorStr_iff b t).1 (e ▸ ea)
      simp only [documented, List.mem_cons, Prod.mk.injEq, List.not_mem_nil, or_false] at h1 h2
      rcases h1 with ⟨_, h1⟩ | ⟨_, h1⟩ | ⟨_, h1⟩ | ⟨_, h1⟩ | ⟨_, h1⟩ | ⟨_, h1⟩ | ⟨_, h1⟩ | ⟨_, h1⟩ | ⟨_, h1⟩ <;>
        subst h1 <;> simp at h2 <;> omega

example : errorStr (-4) = some "SEED record length out of range" ∧ errorStr 2 = none ∧ errorStr (-8) = none := by decide

/-- **C140** (reading).  Each outcome of reading has a text; the code is 0 exactly with a record, 1 at the end of the
file and negative at errors, which are told apart. -/
theorem C140_reader_explained (ret : Model.Reader.Ret) :
    (∃ text, (readCode ret, text) ∈ documented) ∧ (readCode ret = 0 ↔ ∃ m, ret = .record m) ∧
    (0 < readCode ret ↔ ret = .endOfFile) ∧
    (∀ other, readCode ret = readCode other → ret = other ∨ ∃ m n, ret = .record m ∧ other = .record n) := by
  refine ⟨?_, ?_, ?_, ?_⟩
  · cases ret <;> simp [readCode, documented]
  · cases ret <;> simp [readCode]
  · cases ret <;> simp [readCode]
  · intro other h
    cases ret <;> cases other <;> simp [readCode] at h ⊢

example : readCode .invalidCrc = -7 ∧ readCode .endOfFile = 1 ∧ errorStr (readCode .notSeed) = some "No miniSEED data detected" := by
  decide

/-- **C140** (parsing).  Each outcome of parsing but a hint of how many bytes are missing has a text; hints are the
positive returns and no hint is taken for an error. -/
theorem C140_parser_explained (p : Parsed) :
    ((∃ text, (parseCode p, text) ∈ documented) ∨ ∃ n, p = .need n) ∧
    (parseCode p < 0 ↔ p = .notSeed ∨ p = .outOfRange ∨ p = .genError ∨ p = .invalidCrc) ∧
    (∀ n, p = .need n → parseCode p = n) := by
  refine ⟨?_, ?_, ?_⟩
  · cases p <;> simp [parseCode, documented]
  · cases p <;> simp [parseCode]
  · intro n h
    subst h
    rfl

example : parseCode (.need 472) = 472 ∧ parseCode .outOfRange = -4 := by decide

theorem sizeType_decoded (n : Nat) : encodingSizeType n = none ↔ n ∉ decoded := by
  by_cases h : n < 33
  · revert n
    decide
  · have h1 : n ∉ decoded := by
      intro hm
      simp only [decoded, List.mem_cons, List.not_mem_nil, or_false] at hm
      omega
    refine ⟨fun _ => h1, fun _ => ?_⟩
    unfold encodingSizeType
    split <;> first | rfl | omega

theorem decodeReturn_range {hostBE swap : Bool} {mem : List UInt8} {inputsize encoding samplecount outputsize : Nat}
    {c : Int} (h : decodeReturn hostBE swap mem inputsize encoding samplecount outputsize = .ok c)
    (he : encoding ∈ decoded) :
    (c = -1 ∧ decodeData hostBE swap mem inputsize encoding samplecount outputsize = .err) ∨
    (c = samplecount ∧ ∃ s, decodeData hostBE swap mem inputsize encoding samplecount outputsize = .ok s) := by
  unfold decodeReturn at h
  cases e : decodeData hostBE swap mem inputsize encoding samplecount outputsize with
  | ok s => rw [e] at h; cases h; exact Or.inr ⟨rfl, s, rfl⟩
  | err =>
    rw [e] at h
    simp only [Res.ok.injEq] at h
    rw [show (if encoding ∈ [0, 1, 3, 4, 5, 10, 11, 12, 13, 14, 16, 30, 32] then (-1 : Int) else -5) = -1 from if_pos he,
      ite_self] at h
    exact Or.inl ⟨h.symm, rfl⟩
  | ub => rw [e] at h; cases h
  | oob => rw [e] at h; cases h

/-- **C140** (samples).  The function that decodes the samples of a record returns their number, and then they are
decoded, or one of three negative codes, which have a text, and then they are not.

Missing: the code of the cause, `C140_unknown_violated`. -/
theorem C140_unpack_explained_partial (hostBE : Bool) (align : Nat) (msr : Msr) (mem : List UInt8) (c : Int)
    (h : unpackReturn hostBE align msr mem = .ok c) :
    (c = max 0 msr.samplecnt ∧ ∃ s, unpackData hostBE align msr mem = .ok s) ∨
    ((c = -1 ∨ c = -2 ∨ c = -4) ∧ errorStr c ≠ none ∧ unpackData hostBE align msr mem = .err) := by
  unfold unpackReturn at h
  unfold unpackData
  by_cases h1 : msr.samplecnt ≤ 0
  · rw [if_pos h1] at h ⊢
    cases h
    exact Or.inl ⟨by omega, _, rfl⟩
  rw [if_neg h1] at h ⊢
  by_cases h2 : msr.reclen < 0
  · rw [if_pos h2] at h
    rw [if_pos (by omega)]
    cases h
    exact Or.inr ⟨by decide, by decide, rfl⟩
  rw [if_neg h2] at h
  by_cases h3 : msr.reclen < 40 ∨ msr.reclen > 10485760
  · rw [if_pos h3] at h ⊢
    cases h
    exact Or.inr ⟨by decide, by decide, rfl⟩
  rw [if_neg h3] at h ⊢
  by_cases h4 : msr.samplecnt > 2147483647
  · rw [if_pos h4] at h ⊢
    cases h
    exact Or.inr ⟨by decide, by decide, rfl⟩
  rw [if_neg h4] at h ⊢
  cases hb : dataBounds hostBE msr mem with
  | err => rw [hb] at h; cases h; exact Or.inr ⟨by decide, by decide, rfl⟩
  | ub => rw [hb] at h; cases h
  | oob => rw [hb] at h; cases h
  | ok b =>
    obtain ⟨off, size⟩ := b
    rw [hb] at h
    rw [Verif.Proof.Mem.bind_ok]
    dsimp only at h ⊢
    by_cases h5 : off < 40 ∨ (off : Int) ≥ msr.reclen
    · rw [if_pos h5] at h ⊢
      cases h
      exact Or.inr ⟨by decide, by decide, rfl⟩
    rw [if_neg h5] at h ⊢
    cases ht : encodingSizeType (if msr.encoding < 0 then 10 else bits 8 msr.encoding) with
    | none => rw [ht] at h; cases h; exact Or.inr ⟨by decide, by decide, rfl⟩
    | some x =>
      obtain ⟨n, t⟩ := x
      rw [ht] at h
      dsimp only at h ⊢
      have hd : (if msr.encoding < 0 then 10 else bits 8 msr.encoding) ∈ decoded := by
        by_cases hm : (if msr.encoding < 0 then 10 else bits 8 msr.encoding) ∈ decoded
        · exact hm
        · rw [(sizeType_decoded _).2 hm] at ht; cases ht
      cases hm : encodedMem align mem off size n with
      | ok enc =>
        rw [hm, Verif.Proof.Mem.bind_ok] at h
        rw [Verif.Proof.Mem.bind_ok]
        rcases decodeReturn_range h hd with ⟨hc, e⟩ | ⟨hc, s, e⟩
        · rw [hc]; exact Or.inr ⟨by decide, by decide, e⟩
        · exact Or.inl ⟨by omega, s, e⟩
      | err => rw [hm] at h; cases h
      | ub => rw [hm] at h; cases h
      | oob => rw [hm] at h; cases h

/-- **C140** is violated.  Decoding data of an encoding that is not known gives the code for that; the same data in a
record, wherever it lies, give the code of a general error, as do Steim data with undefined flags: the codes -3, -5 and
-6 are never returned for a record. -/
theorem C140_unknown_violated :
    (∀ (hostBE swap : Bool) (mem : List UInt8) (inputsize encoding samplecount outputsize : Nat),
      encoding ∉ decoded → samplecount ≠ 0 →
      decodeReturn hostBE swap mem inputsize encoding samplecount outputsize = .ok (-5)) ∧
    (∀ (hostBE : Bool) (align : Nat) (msr : Msr) (mem : List UInt8) (c : Int),
      unpackReturn hostBE align msr mem = .ok c → c ≠ -5 ∧ c ≠ -6 ∧ c ≠ -3) ∧
    (∀ (hostBE : Bool) (align : Nat) (msr : Msr) (mem : List UInt8) (off size : Nat),
      0 < msr.samplecnt → msr.samplecnt ≤ 2147483647 → 40 ≤ msr.reclen → msr.reclen ≤ 10485760 →
      0 ≤ msr.encoding → msr.encoding.toNat % 256 ∉ decoded → dataBounds hostBE msr mem = .ok (off, size) →
      unpackReturn hostBE align msr mem = .ok (-1)) := by
  refine ⟨?_, ?_, ?_⟩
  · intro hostBE swap mem inputsize encoding samplecount outputsize he hs
    have hz : decodedSampleSize encoding = 0 := by
      unfold decodedSampleSize
      rw [(sizeType_decoded _).2 he]
    have e : decodeData hostBE swap mem inputsize encoding samplecount outputsize = .err := by
      unfold decodeData
      rw [if_neg hs, hz, Nat.mul_zero, if_neg (by omega)]
      unfold decodeBy
      split <;> first | rfl | exact absurd (by decide) he
    unfold decodeReturn
    rw [e]
    dsimp only
    rw [hz, Nat.mul_zero, if_neg (by omega),
      show (if encoding ∈ [0, 1, 3, 4, 5, 10, 11, 12, 13, 14, 16, 30, 32] then (-1 : Int) else -5) = -5 from if_neg he]
  · intro hostBE align msr mem c h
    rcases C140_unpack_explained_partial hostBE align msr mem c h with ⟨hc, _⟩ | ⟨hc, _⟩ <;> omega
  · intro hostBE align msr mem off size h1 h2 h3 h4 h5 h6 hb
    unfold unpackReturn
    rw [if_neg (by omega), if_neg (by omega), if_neg (by omega), if_neg (by omega), hb]
    dsimp only
    split
    · rfl
    · have e : (if msr.encoding < 0 then 10 else bits 8 msr.encoding) = msr.encoding.toNat % 256 := by
        rw [if_neg (by omega)]
        unfold bits
        omega
      rw [e, (sizeType_decoded _).2 h6]

/-- A record of 200 bytes with data of encoding 2. -/
def unknown : Msr := { reclen := 200, formatversion := 3, encoding := 2, samplecnt := 3, datalength := 9 }

example : 0 < unknown.samplecnt ∧ unknown.encoding.toNat % 256 ∉ decoded ∧
    dataBounds false unknown (List.replicate 200 0) = .ok (40, 9) ∧
    unpackReturn false 0 unknown (List.replicate 200 0) = .ok (-1) ∧
    decodeReturn false false (List.replicate 160 0) 9 2 3 100 = .ok (-5) ∧
    unpackReturn false 0 { unknown with encoding := 3, samplecnt := 2 } (List.replicate 200 0) = .ok 2 := by decide +kernel

/-- The types of blockettes with a meaning (SEED 2.4), with their names. -/
def names : List (Nat × String) :=
  [(100, "Sample Rate"), (200, "Generic Event Detection"), (201, "Murdock Event Detection"),
    (300, "Step Calibration"), (310, "Sine Calibration"), (320, "Pseudo-random Calibration"),
    (390, "Generic Calibration"), (395, "Calibration Abort"), (400, "Beam"), (500, "Timing"),
    (1000, "Data Only SEED"), (1001, "Data Extension"), (2000, "Opaque Data")]

/-- **C141**.  A blockette of each type is printed with its name, of others as unknown, and these are the ones without a
length, whatever they hold; of the named ones but opaque data the length is at least that of the head. -/
theorem C141_names (hostBE swap : Bool) (mem : List UInt8) (off type : Nat) :
    ((∃ name, (type, name) ∈ names ∧ blktName type = name ∧ blktDesc type = some name ∧
        (type ≠ 2000 → ∃ n, Model.Record2.blktLen hostBE swap mem off type = .ok n ∧ 8 ≤ n ∧ n % 4 = 0)) ∨
      ((∀ name, (type, name) ∉ names) ∧ blktName type = "Unknown" ∧
        Model.Record2.blktLen hostBE swap mem off type = .ok 0)) := by
  by_cases h : type = 100 ∨ type = 200 ∨ type = 201 ∨ type = 300 ∨ type = 310 ∨ type = 320 ∨ type = 390 ∨ type = 395 ∨
    type = 400 ∨ type = 500 ∨ type = 1000 ∨ type = 1001 ∨ type = 2000
  · left
    rcases h with h | h | h | h | h | h | h | h | h | h | h | h | h <;> subst h <;>
      simp [names, blktName, blktDesc, Model.Record2.blktLen]
  · right
    refine ⟨?_, ?_, ?_⟩
    · intro name hm
      simp only [names, List.mem_cons, Prod.mk.injEq, List.not_mem_nil, or_false] at hm
      omega
    · unfold blktName blktDesc
      repeat rw [if_neg (by omega)]
      rfl
    · unfold Model.Record2.blktLen
      repeat rw [if_neg (by omega)]

example : blktName 395 = "Calibration Abort" ∧ blktName 405 = "Unknown" ∧
    Model.Record2.blktLen false false [] 0 405 = .ok 0 := by decide

end Verif.Props.Codes
