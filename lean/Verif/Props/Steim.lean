import Verif.Proof.Steim
/-!
# Steim compression (C20, C21, C22, C23, C58, C59)
-/
namespace Verif.Props.Steim
open Verif.Spec.Steim Verif.Proof.Steim
open Verif.Model.Steim (Res Encoded Decoded encodeSteim1 encodeSteim2 decodeSteim1 decodeSteim2)

/-- The byte order of the data: the order of the host, reversed if swapping is requested. -/
abbrev dataOrder (hostBE swap : Bool) : Bool := hostBE != swap

theorem decode_frames {dec wd m cap} (hb sw : Bool) (H : WordDec dec wd m cap) (hcap : m * 15 ≤ cap)
    (mem : List UInt8) (inlen n outlen : Nat) (hin : inlen ≤ mem.length) (h64 : 64 ≤ inlen)
    (hn : 1 ≤ n) (ho : n * 4 ≤ outlen) (hw : n * 4 < 2 ^ 64) :
    match Verif.Model.Steim.decode hb sw dec mem inlen n outlen with
    | .ok d => Verif.Spec.Steim.decode wd (order hb sw) n ((List.range' 0 (inlen / 64)).map (frameAt mem))
          = some d.output ∧ All32 d.output ∧
        (d.warning = true ↔ d.output.length = n ∧ d.output.getLast? ≠
          some (lastSample (order hb sw) ((List.range' 0 (inlen / 64)).map (frameAt mem))))
    | .err => Verif.Spec.Steim.decode wd (order hb sw) n ((List.range' 0 (inlen / 64)).map (frameAt mem)) = none
    | .ub => ∀ ds, Verif.Spec.Steim.decode wd (order hb sw) n
        ((List.range' 0 (inlen / 64)).map (frameAt mem)) = some ds → ¬ All32 ds
    | .oob => False := by
  have h := decFrames_spec hb sw H hcap mem n (outlen / 4) (inlen / 64) hn (by omega) (by omega) (by omega)
  unfold Verif.Model.Steim.decode
  rw [if_neg (by omega), if_neg (by omega), if_neg (by rw [Nat.mod_eq_of_lt hw]; omega)]
  cases hr : Verif.Model.Steim.decFrames hb sw dec mem n (outlen / 4) (inlen / 64) 0 [] 0 with
  | err => rw [hr] at h; exact h
  | ub => rw [hr] at h; exact h
  | oob => rw [hr] at h; exact h
  | ok v =>
    obtain ⟨o, x⟩ := v
    rw [hr] at h
    obtain ⟨hx, ds, hs, ho', ha⟩ := h
    rw [List.nil_append] at ho'
    subst ho'
    simp only [Res.bind]
    by_cases hl : o.length = n
    · rw [if_pos hl]
      cases hg : o.getLast? with
      | none =>
        rw [List.getLast?_eq_none_iff] at hg
        subst hg; simp at hl; omega
      | some last =>
        refine ⟨hs, ha, ?_⟩
        simp [hl, hg, hx]
    · rw [if_neg hl]
      exact ⟨hs, ha, by simp [hl]⟩

/-- The frames of a buffer holding encoded frames at its start. -/
theorem frames_of_encoded (e : Encoded) (rest : List UInt8) (h : ∀ f ∈ e.frames, FrameOk f) :
    (List.range' 0 (e.bytes.length / 64)).map (frameAt (e.bytes ++ rest)) = e.frames := by
  have hl : e.bytes.length = 64 * e.frames.length := frameBytes_length e.frames h
  rw [hl, Nat.mul_div_cancel_left _ (by omega)]
  exact frameAt_bytes e.frames rest h

theorem round_trip {dec pack wd m cap capE mf Q} (hb1 sw1 hb2 sw2 : Bool) (HD : WordDec dec wd m cap)
    (hcap : m * 15 ≤ cap) (HE : WordEnc pack wd capE mf Q) (hcapE : 1 ≤ capE)
    (hord : order hb1 sw1 = order hb2 sw2)
    (input : List Int) (outlen : Nat) (diff0 : Int) (hd0 : isInt32 diff0)
    (hin : ∀ x ∈ input, isInt32 x) (e : Encoded)
    (he : Verif.Model.Steim.encode hb1 sw1 capE pack input outlen diff0 = .ok e)
    (rest : List UInt8) (bufsize : Nat) (hbuf : e.samples * 4 ≤ bufsize) (h64 : e.samples * 4 < 2 ^ 64) :
    Verif.Model.Steim.decode hb2 sw2 dec (e.bytes ++ rest) e.bytes.length e.samples bufsize
      = .ok { output := input.take e.samples, warning := false } := by
  by_cases htriv : input = [] ∨ outlen < 64
  · have : e = { frames := [], samples := 0 } := by
      unfold Verif.Model.Steim.encode at he
      cases input with
      | nil => simpa using he.symm
      | cons x r =>
        have ho : outlen < 64 := by
          rcases htriv with h | h
          · simp at h
          · exact h
        simp only at he
        split at he
        · simp at he
        · rw [show outlen / 64 = 0 by omega] at he
          simp only at he
          split at he
          · simp at he
          · simpa using he.symm
    subst this
    simp [Verif.Model.Steim.decode, Encoded.bytes]
  · rw [not_or] at htriv
    have hs := encode_spec hb1 sw1 HE hcapE input outlen diff0 hd0 hin htriv.1 (by omega)
    rw [he] at hs
    obtain ⟨g1, g2, g3, g4, g5, g6, g7, g8, gq⟩ := hs
    have hl : e.bytes.length = 64 * e.frames.length := frameBytes_length e.frames g5
    have hd := decode_frames hb2 sw2 HD hcap (e.bytes ++ rest) e.bytes.length e.samples bufsize
      (by simp) (by omega) g1 hbuf h64
    rw [frames_of_encoded e rest g5, ← hord, g6] at hd
    have hall : All32 (input.take e.samples) := fun x hx => hin x (List.mem_of_mem_take hx)
    cases hr : Verif.Model.Steim.decode hb2 sw2 dec (e.bytes ++ rest) e.bytes.length e.samples bufsize with
    | err => rw [hr] at hd; simp at hd
    | oob => rw [hr] at hd; exact hd.elim
    | ub => rw [hr] at hd; exact absurd hall (hd _ rfl)
    | ok d =>
      rw [hr] at hd
      obtain ⟨k1, k2, k3⟩ := hd
      have k1 := Option.some.inj k1
      have kw : d.warning = false := by
        cases hw : d.warning with
        | false => rfl
        | true =>
          have := (k3.1 hw).2
          rw [← k1, g7] at this
          exact absurd rfl this
      cases d
      simp only at k1 kw
      subst k1 kw
      rfl

/-- **C20.**  Whenever the Steim-1 encoder reports `n` packed samples, decoding the bytes it wrote
for `n` samples returns exactly the first `n` input samples and no integrity warning.  This holds
for both byte orders, also when encoder and decoder run on hosts of different byte order, whatever
follows the frames in memory, and for any first difference. -/
theorem C20_steim1_lossless (hb1 sw1 hb2 sw2 : Bool)
    (hord : dataOrder hb1 sw1 = dataOrder hb2 sw2) (input : List Int) (outlen : Nat) (diff0 : Int)
    (hd0 : isInt32 diff0) (hin : ∀ x ∈ input, isInt32 x) (e : Encoded)
    (he : encodeSteim1 hb1 sw1 input outlen diff0 = .ok e)
    (rest : List UInt8) (bufsize : Nat) (hbuf : e.samples * 4 ≤ bufsize) (h64 : e.samples * 4 < 2 ^ 64) :
    decodeSteim1 hb2 sw2 (e.bytes ++ rest) e.bytes.length e.samples bufsize
      = .ok { output := input.take e.samples, warning := false } := by
  have HD := wordDec1 hb2 sw2
  rw [show order hb2 sw2 = order hb1 sw1 from hord.symm] at HD
  exact round_trip hb1 sw1 hb2 sw2 HD (by omega) (wordEnc1 hb1 sw1) (by omega) hord input outlen diff0 hd0
    hin e he rest bufsize hbuf h64

example : ∃ e, encodeSteim1 false true [1, 2, 300, -70000, 5] 64 0 = .ok e ∧ e.samples = 5 := by
  refine ⟨_, rfl, ?_⟩; decide +kernel

/-- **C21.**  The same for Steim-2. -/
theorem C21_steim2_lossless (hb1 sw1 hb2 sw2 : Bool)
    (hord : dataOrder hb1 sw1 = dataOrder hb2 sw2) (input : List Int) (outlen : Nat) (diff0 : Int)
    (hd0 : isInt32 diff0) (hin : ∀ x ∈ input, isInt32 x) (e : Encoded)
    (he : encodeSteim2 hb1 sw1 input outlen diff0 = .ok e)
    (rest : List UInt8) (bufsize : Nat) (hbuf : e.samples * 4 ≤ bufsize) (h64 : e.samples * 4 < 2 ^ 64) :
    decodeSteim2 hb2 sw2 (e.bytes ++ rest) e.bytes.length e.samples bufsize
      = .ok { output := input.take e.samples, warning := false } := by
  have HD := wordDec2 hb2 sw2
  rw [show order hb2 sw2 = order hb1 sw1 from hord.symm] at HD
  exact round_trip hb1 sw1 hb2 sw2 HD (by omega) (wordEnc2 hb1 sw1) (by omega) hord input outlen diff0 hd0
    hin e he rest bufsize hbuf h64

example : ∃ e, encodeSteim2 false true [1, 2, 3, 4, 5, 6, 7, 8, 300, -70000, 5] 64 0 = .ok e
    ∧ e.samples = 11 := by
  refine ⟨_, rfl, ?_⟩; decide +kernel

/-- The differences the encoders have to store: the given first one, then between neighbours. -/
def differences (diff0 : Int) : List Int → List Int
  | [] => []
  | x :: xs => diff0 :: (xs.zip (x :: xs)).map fun (b, a) => b - a

theorem differences_eq (diff0 x : Int) (xs : List Int) :
    differences diff0 (x :: xs) = diff0 :: deltas x xs := by
  have key : ∀ (x : Int) (xs : List Int), (xs.zip (x :: xs)).map (fun (b, a) => b - a) = deltas x xs := by
    intro x xs
    induction xs generalizing x with
    | nil => rfl
    | cons y ys ih => simp only [List.zip_cons_cons, List.map_cons, deltas, ih]
  unfold differences
  rw [← key]

theorem progress {pack wd capE mf Q} (hb sw : Bool) (HE : WordEnc pack wd capE mf Q) (hcapE : 1 ≤ capE)
    (input : List Int) (outlen : Nat) (diff0 : Int) (hne : input ≠ []) (hlen : 64 ≤ outlen)
    (hin : ∀ x ∈ input, isInt32 x) (hd : ∀ d ∈ differences diff0 input, isInt32 d)
    (hf : mf → ∀ d ∈ differences diff0 input, -536870912 ≤ d ∧ d ≤ 536870911) :
    ∃ e, Verif.Model.Steim.encode hb sw capE pack input outlen diff0 = .ok e ∧
      1 ≤ e.samples ∧ e.samples ≤ input.length ∧ e.bytes.length ≤ outlen ∧
      e.bytes.length = 64 * e.frames.length ∧
      (e.bytes.length + 64 ≤ outlen → e.samples = input.length) := by
  cases input with
  | nil => exact absurd rfl hne
  | cons x xs =>
    rw [differences_eq] at hd hf
    have hs := encode_spec hb sw HE hcapE (x :: xs) outlen diff0 (hd _ (by simp)) hin hne hlen
    cases hr : Verif.Model.Steim.encode hb sw capE pack (x :: xs) outlen diff0 with
    | oob => rw [hr] at hs; exact hs.elim
    | ub =>
      rw [hr] at hs
      exact absurd (fun d h => hd d (List.mem_cons_of_mem _ h)) hs
    | err =>
      rw [hr] at hs
      obtain ⟨hm, d, h1, h2⟩ := hs
      exact absurd (hf hm d h1) h2
    | ok e =>
      rw [hr] at hs
      obtain ⟨g1, g2, g3, g4, g5, g6, g7, g8, gq⟩ := hs
      have hl : e.bytes.length = 64 * e.frames.length := frameBytes_length e.frames g5
      exact ⟨e, rfl, g1, g2, by omega, hl, fun h => g8 (by omega)⟩

/-- Bounds of whatever an encoder returns. -/
theorem encoded_bounds {pack wd capE mf Q} (hb sw : Bool) (HE : WordEnc pack wd capE mf Q) (hcapE : 1 ≤ capE)
    (input : List Int) (outlen : Nat) (diff0 : Int) (hd0 : isInt32 diff0) (hlen : 64 ≤ outlen)
    (hin : ∀ x ∈ input, isInt32 x) (e : Encoded)
    (he : Verif.Model.Steim.encode hb sw capE pack input outlen diff0 = .ok e) :
    e.samples ≤ input.length ∧ e.bytes.length ≤ outlen := by
  cases input with
  | nil =>
    simp [Verif.Model.Steim.encode] at he
    subst he; simp [Encoded.bytes]
  | cons x xs =>
    have hs := encode_spec hb sw HE hcapE (x :: xs) outlen diff0 hd0 hin (by simp) hlen
    rw [he] at hs
    obtain ⟨g1, g2, g3, g4, g5, g6, g7, g8, gq⟩ := hs
    have hl : e.bytes.length = 64 * e.frames.length := frameBytes_length e.frames g5
    exact ⟨g2, by omega⟩

/-- **C22**, Steim-1: with at least one sample and room for a frame, the encoder packs at least one
sample and never more than given, writes whole frames inside the output length, and packs
everything unless the output is full. -/
theorem C22_steim1_progress (hb sw : Bool) (input : List Int) (outlen : Nat) (diff0 : Int)
    (hne : input ≠ []) (hlen : 64 ≤ outlen) (hin : ∀ x ∈ input, isInt32 x)
    (hd : ∀ d ∈ differences diff0 input, isInt32 d) :
    ∃ e, encodeSteim1 hb sw input outlen diff0 = .ok e ∧
      1 ≤ e.samples ∧ e.samples ≤ input.length ∧ e.bytes.length ≤ outlen ∧
      e.bytes.length = 64 * e.frames.length ∧
      (e.bytes.length + 64 ≤ outlen → e.samples = input.length) :=
  progress hb sw (wordEnc1 hb sw) (by omega) input outlen diff0 hne hlen hin hd (fun h => h.elim)

/-- **C22**, Steim-2: the same when all differences fit 30 bits. -/
theorem C22_steim2_progress (hb sw : Bool) (input : List Int) (outlen : Nat) (diff0 : Int)
    (hne : input ≠ []) (hlen : 64 ≤ outlen) (hin : ∀ x ∈ input, isInt32 x)
    (hd : ∀ d ∈ differences diff0 input, -536870912 ≤ d ∧ d ≤ 536870911) :
    ∃ e, encodeSteim2 hb sw input outlen diff0 = .ok e ∧
      1 ≤ e.samples ∧ e.samples ≤ input.length ∧ e.bytes.length ≤ outlen ∧
      e.bytes.length = 64 * e.frames.length ∧
      (e.bytes.length + 64 ≤ outlen → e.samples = input.length) :=
  progress hb sw (wordEnc2 hb sw) (by omega) input outlen diff0 hne hlen hin
    (fun d h => by have := hd d h; unfold isInt32; omega) (fun _ => hd)

example : ∀ d ∈ differences 0 [1, 2, 300, -70000, 5], -536870912 ≤ d ∧ d ≤ 536870911 := by decide

/-- **C21**, refusal: whenever the Steim-2 encoder reports `n` samples, the `n` differences stored
for them all fit 30 bits.  A wider difference is therefore never stored; reaching one makes the
encoder return an error. -/
theorem C21_wide_difference_refused (hb sw : Bool) (input : List Int) (outlen : Nat) (diff0 : Int)
    (hd0 : isInt32 diff0) (hin : ∀ x ∈ input, isInt32 x) (e : Encoded)
    (he : encodeSteim2 hb sw input outlen diff0 = .ok e) :
    ∀ d ∈ (differences diff0 input).take e.samples, -536870912 ≤ d ∧ d ≤ 536870911 := by
  cases input with
  | nil => intro d hd; simp [differences] at hd
  | cons x xs =>
    by_cases ho : 64 ≤ outlen
    · have hs := encode_spec hb sw (wordEnc2 hb sw) (by omega) (x :: xs) outlen diff0 hd0 hin (by simp) ho
      have he' : Verif.Model.Steim.encode hb sw 7 (Verif.Model.Steim.packWord2 hb sw) (x :: xs)
        outlen diff0 = .ok e := he
      rw [he'] at hs
      obtain ⟨g1, g2, g3, g4, g5, g6, g7, g8, gq⟩ := hs
      rw [differences_eq]
      exact gq
    · have : e.samples = 0 := by
        unfold encodeSteim2 Verif.Model.Steim.encode at he
        simp only at he
        split at he
        · simp at he
        · rw [show outlen / 64 = 0 by omega] at he
          simp only at he
          split at he
          · simp at he
          · have := Res.ok.inj he; rw [← this]
      rw [this]; intro d hd; simp at hd

example : encodeSteim2 false true [0, 1073741824] 64 0 = .err ∧
    encodeSteim2 false true [0, 536870911] 64 0 ≠ .err := by decide +kernel

/-- **C23 (violated).**  Asking for 0 samples makes both decoders read the sample before the output
buffer. -/
theorem C23_zero_samples_violated :
    decodeSteim1 false true (List.replicate 64 0) 64 0 4 = .oob ∧
    decodeSteim2 false true (List.replicate 64 0) 64 0 4 = .oob := by
  constructor <;> decide +kernel

/-- **C23.**  For arbitrary bytes and at least one requested sample (whose buffer size does not
overflow 64 bits), the decoders never access anything outside the input length, the difference
array and the output buffer, and return an error or at most the requested number of samples.  The
remaining outcome is signed overflow while summing differences (see C59).
Missing against the full claim: a request for 0 samples. -/
theorem C23_memory_safe_partial (hb sw : Bool) (mem : List UInt8) (inlen n outlen : Nat)
    (hin : inlen ≤ mem.length) (hn : 1 ≤ n) (hw : n * 4 < 2 ^ 64) :
    (decodeSteim1 hb sw mem inlen n outlen ≠ .oob ∧
      ∀ d, decodeSteim1 hb sw mem inlen n outlen = .ok d → d.output.length ≤ n ∧
        (d.output.length * 4 ≤ outlen)) ∧
    (decodeSteim2 hb sw mem inlen n outlen ≠ .oob ∧
      ∀ d, decodeSteim2 hb sw mem inlen n outlen = .ok d → d.output.length ≤ n ∧
        (d.output.length * 4 ≤ outlen)) := by
  have key : ∀ {dec wd m cap}, WordDec dec wd m cap → m * 15 ≤ cap →
      Verif.Model.Steim.decode hb sw dec mem inlen n outlen ≠ .oob ∧
      ∀ d, Verif.Model.Steim.decode hb sw dec mem inlen n outlen = .ok d → d.output.length ≤ n ∧
        (d.output.length * 4 ≤ outlen) := by
    intro dec wd m cap H hcap
    by_cases h64 : 64 ≤ inlen
    · by_cases ho : n * 4 ≤ outlen
      · have h := decode_frames hb sw H hcap mem inlen n outlen hin h64 hn ho hw
        constructor
        · intro hoob; rw [hoob] at h; exact h
        · intro d hd
          rw [hd] at h
          have := decode_length wd (order hb sw) n _ _ hn h.1
          omega
      · unfold Verif.Model.Steim.decode
        rw [if_neg (by omega)]
        by_cases h0 : outlen = 0
        · rw [if_pos h0]; simp
        · rw [if_neg h0, if_pos (by rw [Nat.mod_eq_of_lt hw]; omega)]; simp
    · unfold Verif.Model.Steim.decode
      rw [if_pos (by omega)]
      refine ⟨by simp, ?_⟩
      intro d hd
      have := Res.ok.inj hd
      rw [← this]; simp
  exact ⟨key (wordDec1 hb sw) (by omega), key (wordDec2 hb sw) (by omega)⟩

example : (1 : Nat) * 4 < 2 ^ 64 ∧ (64 : Nat) ≤ (List.replicate 64 (255 : UInt8)).length := by decide

/-- **C58.**  The decoders implement the format: on any bytes holding at least one frame, if the
format assigns samples to them and all running sums fit 32 bits, exactly those samples are
returned, and the integrity warning appears exactly when all requested samples were found and the
last one differs from the last-sample word; if the format does not assign samples (undefined
code), an error is returned or a sum overflows first. -/
theorem C58_decoders_implement_format (hb sw : Bool) (mem : List UInt8) (n outlen : Nat)
    (h64 : 64 ≤ mem.length) (hn : 1 ≤ n) (ho : n * 4 ≤ outlen) (hw : n * 4 < 2 ^ 64) :
    (∀ out, decode (word1 (dataOrder hb sw)) (dataOrder hb sw) n (frames mem) = some out →
      (∀ x ∈ out, isInt32 x) → ∃ d, decodeSteim1 hb sw mem mem.length n outlen = .ok d ∧
        d.output = out ∧ (d.warning = true ↔
          out.length = n ∧ out.getLast? ≠ some (lastSample (dataOrder hb sw) (frames mem)))) ∧
    (∀ out, decode (word2 (dataOrder hb sw)) (dataOrder hb sw) n (frames mem) = some out →
      (∀ x ∈ out, isInt32 x) → ∃ d, decodeSteim2 hb sw mem mem.length n outlen = .ok d ∧
        d.output = out ∧ (d.warning = true ↔
          out.length = n ∧ out.getLast? ≠ some (lastSample (dataOrder hb sw) (frames mem)))) ∧
    (decode (word2 (dataOrder hb sw)) (dataOrder hb sw) n (frames mem) = none →
      decodeSteim2 hb sw mem mem.length n outlen = .err ∨
      decodeSteim2 hb sw mem mem.length n outlen = .ub) := by
  have key : ∀ {dec wd m cap}, WordDec dec wd m cap → m * 15 ≤ cap →
      ∀ out, decode wd (dataOrder hb sw) n (frames mem) = some out → (∀ x ∈ out, isInt32 x) →
      ∃ d, Verif.Model.Steim.decode hb sw dec mem mem.length n outlen = .ok d ∧
        d.output = out ∧ (d.warning = true ↔
          out.length = n ∧ out.getLast? ≠ some (lastSample (dataOrder hb sw) (frames mem))) := by
    intro dec wd m cap H hcap out hs ha
    have h := decode_frames hb sw H hcap mem mem.length n outlen (by omega) h64 hn ho hw
    change match Verif.Model.Steim.decode hb sw dec mem mem.length n outlen with
      | .ok d => decode wd (dataOrder hb sw) n (frames mem) = some d.output ∧ All32 d.output ∧
        (d.warning = true ↔ d.output.length = n ∧ d.output.getLast? ≠
          some (lastSample (dataOrder hb sw) (frames mem)))
      | .err => decode wd (dataOrder hb sw) n (frames mem) = none
      | .ub => ∀ ds, decode wd (dataOrder hb sw) n (frames mem) = some ds → ¬ All32 ds
      | .oob => False at h
    cases hr : Verif.Model.Steim.decode hb sw dec mem mem.length n outlen with
    | oob => rw [hr] at h; exact h.elim
    | err => rw [hr] at h; simp only at h; rw [h] at hs; simp at hs
    | ub => rw [hr] at h; exact absurd ha (h _ hs)
    | ok d =>
      rw [hr] at h
      simp only at h
      have e := Option.some.inj (h.1.symm.trans hs)
      refine ⟨d, rfl, e, ?_⟩
      rw [← e]; exact h.2.2
  refine ⟨key (wordDec1 hb sw) (by omega), key (wordDec2 hb sw) (by omega), ?_⟩
  intro hs
  have h := decode_frames hb sw (wordDec2 hb sw) (by omega) mem mem.length n outlen (by omega) h64 hn ho hw
  change match Verif.Model.Steim.decode hb sw (Verif.Model.Steim.decWord2 hb sw) mem mem.length n outlen with
      | .ok d => decode (word2 (dataOrder hb sw)) (dataOrder hb sw) n (frames mem) = some d.output ∧ All32 d.output ∧
        (d.warning = true ↔ d.output.length = n ∧ d.output.getLast? ≠
          some (lastSample (dataOrder hb sw) (frames mem)))
      | .err => decode (word2 (dataOrder hb sw)) (dataOrder hb sw) n (frames mem) = none
      | .ub => ∀ ds, decode (word2 (dataOrder hb sw)) (dataOrder hb sw) n (frames mem) = some ds → ¬ All32 ds
      | .oob => False at h
  unfold decodeSteim2
  cases hr : Verif.Model.Steim.decode hb sw (Verif.Model.Steim.decWord2 hb sw) mem mem.length n outlen with
  | oob => rw [hr] at h; exact h.elim
  | err => left; rfl
  | ub => right; rfl
  | ok d => rw [hr] at h; simp only at h; rw [hs] at h; simp at h

example : decode (word1 true) true 3
    (frames ([0x01,0,0,0, 0,0,0,10, 0,0,0,13, 5,1,2,0] ++ List.replicate 48 0)) = some [10, 11, 13] := by
  decide +kernel

/-- **C59 (violated).**  The Steim-1 encoder computes the difference of neighbouring 32-bit samples
in 32-bit signed arithmetic: for samples more than 2^31-1 apart this is undefined behaviour, and so
is decoding differences that sum outside 32 bits. -/
theorem C59_difference_overflow_violated :
    encodeSteim1 false true [-2147483648, 1] 64 0 = .ub ∧
    isInt32 (-2147483648) ∧ isInt32 1 ∧
    (∃ mem : List UInt8, mem.length = 64 ∧ decodeSteim1 false true mem 64 2 8 = .ub) := by
  refine ⟨by decide +kernel, by decide, by decide,
    [0x03,0xC0,0,0, 0x7f,0xff,0xff,0xff, 0,0,0,13, 0,0,0,0, 0,0,0,1] ++ List.replicate 44 0,
    by decide, by decide +kernel⟩

/-- **C59.**  Any sequence of 32-bit samples whose neighbours differ by a 32-bit value is encoded
without undefined behaviour, errors or invalid accesses, and decodes without overflow to itself.
Missing: sequences with larger jumps. -/
theorem C59_no_overflow_partial (hb sw : Bool) (input : List Int) (outlen : Nat) (diff0 : Int)
    (hne : input ≠ []) (hlen : 64 ≤ outlen) (hin : ∀ x ∈ input, isInt32 x)
    (hd : ∀ d ∈ differences diff0 input, isInt32 d) (h64 : input.length * 4 < 2 ^ 64) :
    ∃ e, encodeSteim1 hb sw input outlen diff0 = .ok e ∧
      decodeSteim1 hb sw e.bytes e.bytes.length e.samples (4 * e.samples)
        = .ok { output := input.take e.samples, warning := false } := by
  obtain ⟨e, he, h1, h2, _⟩ := C22_steim1_progress hb sw input outlen diff0 hne hlen hin hd
  refine ⟨e, he, ?_⟩
  have hd0 : isInt32 diff0 := by
    cases input with
    | nil => exact absurd rfl hne
    | cons x xs => exact hd _ (by simp [differences])
  have := C20_steim1_lossless hb sw hb sw rfl input outlen diff0 hd0 hin e he [] (4 * e.samples)
    (by omega) (by omega)
  simpa using this

example : ∀ d ∈ differences 7 [2147483647, 0, -2147483648, -1], isInt32 d := by decide

end Verif.Props.Steim
