import Verif.Proof.Headers2Rec
import Verif.Props.Record2
import Verif.Props.JsonText
/-!
# The extra headers of version 2 records: C115

What the extra headers are is `Documented` of `Verif.Props.Headers2Defs`.
-/
namespace Verif.Props.Headers2
open Verif.Spec.Json Verif.Spec.Record2 Verif.Props.ExtraHeaders Verif.Props.Record2
open Verif.Model.JsonText (Reals write)
open Verif.Model.ExtraHeaders (codec)
open Verif.Model.Headers2 (Numbers env extraText)
open Verif.Model.Record3 (parse Parsed)
open Verif.Model.Record2 (unpack2)
open Verif.Proof.Record2 (headers2 parse2_eq)
open Verif.Props.JsonText (LawfulReals toy toy_lawful)

theorem meaning_extra (e : Verif.Model.Record2.Env) (h : Bool) (r : Rec) (hs : List Verif.Model.Record2.Header) :
    (hs ≠ [] → (meaning e h r hs).extra = e.json hs) ∧ (hs = [] → (meaning e h r hs).extra = []) :=
  ⟨fun hh => if_neg hh, fun hh => if_pos hh⟩

theorem env_json (reals : Reals) (n : Numbers) (nominal : Int → Int → Nat) (hs : List Verif.Model.Record2.Header) :
    (env (codec reals) n nominal).json hs = (extraText (codec reals) n hs).getD [] := rfl

/-- **C115 (partial).** A valid version 2 record is read with extra headers that hold exactly what its flags, its time
correction and its blockettes say, under the names of the FDSN headers; if they cannot be kept, because a number is not
finite or the text would have more than 65535 bytes, then there are none, or only the timing quality.
Missing: bit 2 of the flags of blockettes 200 is taken for the opposite of what the manual says, `C115_wave_violated`; and the
loss is silent, `C115_lost_violated`. -/
theorem C115_headers_partial {reals : Reals} (hl : LawfulReals reals) (n : Numbers) (nominal : Int → Int → Nat) (h : Bool)
    (align : Nat) (r : Rec) (v : r.Valid) (hb : r.be = h ∨ ¬ Ambiguous r) (ht : ¬ Reserved r)
    (hd : (r.last Blkt.data?).isSome) (t : List UInt8) (vc eof : Bool) :
    ∃ m x, parse (unpack2 (env (codec reals) n nominal) h align) h align (r.bytes ++ t) vc false eof =
        .ok (.record m, r.bytes ++ t) ∧
      Documented n (fun bit => bit) r x ∧
      (Holds reals.read m.extra x ∨
        ∃ w, x = some w ∧
          (LawfulNumbers n → AllFinite r → ∃ u, write reals w = some u ∧ 65535 < u.length) ∧
          (m.extra = [] ∨ ∃ (q : UInt8) (b : Blkt × List UInt8), b ∈ r.chain ∧ (∃ u c f, b.1 = .timing q u c f) ∧
            Document reals.read (onlyQuality q.toNat) m.extra)) := by
  obtain ⟨s, x, h1, g, h2⟩ := Verif.Proof.Headers2.extraText_stand hl (n := n) (Verif.Proof.Headers2.headers_fine n r v)
  refine ⟨meaning (env (codec reals) n nominal) h r (headers2 r), x, ?_, Verif.Proof.Headers2.documented v g, ?_⟩
  · rw [parse2_eq _ h align r v (told hb) (not_reserved ht) hd t vc false eof]
    unfold Verif.Model.Record3.withSamples
    rw [if_neg (by simp), Verif.Proof.Mem.bind_ok, meaning_eq]
  · have he : (meaning (env (codec reals) n nominal) h r (headers2 r)).extra = s ∨
        (headers2 r = [] ∧ (meaning (env (codec reals) n nominal) h r (headers2 r)).extra = []) := by
      by_cases hh : headers2 r = []
      · exact .inr ⟨hh, (meaning_extra _ _ _ _).2 hh⟩
      · left
        rw [(meaning_extra _ _ _ _).1 hh, env_json, h1]
        rfl
    rcases he with he | ⟨hh, he⟩
    · rw [he]
      rcases h2 with h2 | ⟨w, hw, h3, h4⟩
      · exact .inl h2
      · refine .inr ⟨w, hw, fun hn hf => h3 (g.proper (Verif.Proof.Headers2.edits_proper hn v hf) w hw), ?_⟩
        rcases h4 with h4 | ⟨q, hq, h4⟩
        · exact .inl h4
        · right
          obtain ⟨k, b, hbm, hkq⟩ := Verif.Proof.Headers2.quality_from v hq
          obtain ⟨u, c, f, hbt, rfl⟩ := hkq
          exact ⟨k, b, hbm, ⟨u, c, f, hbt⟩, h4⟩
    · left
      rw [he]
      have : x = none := g.some.2 (by rw [hh]; rfl)
      rw [this]
      rfl

/-- For examples: small numbers keep their bits, others become a NaN. -/
def toyNumbers : Numbers where
  widen f := if f / 2 ^ 23 % 256 = 255 then 0x7FF8000000000000 else UInt64.ofNat (f % 2 ^ 32)
  num v := UInt64.ofNat (v % 2 ^ 32)
  tenths v := UInt64.ofNat (v.natAbs % 2 ^ 32)

theorem toyNumbers_lawful : LawfulNumbers toyNumbers := by
  have h : ∀ k, Verif.Props.JsonText.Finite (UInt64.ofNat (k % 2 ^ 32)) := by
    intro k
    unfold Verif.Props.JsonText.Finite
    rw [UInt64.toNat_ofNat']
    omega
  refine ⟨fun f hf => ?_, fun v _ => h v, fun v _ _ => h _⟩
  unfold toyNumbers
  simp only
  rw [if_neg hf]
  exact h f

example : LawfulReals toy ∧ LawfulNumbers toyNumbers ∧ (eventful (ended 16 "MISSING")).Valid ∧
    AllFinite (eventful (ended 16 "MISSING")) ∧ ¬ Ambiguous (eventful (ended 16 "MISSING")) ∧
    ¬ Reserved (eventful (ended 16 "MISSING")) ∧ ((eventful (ended 16 "MISSING")).last Blkt.data?).isSome := by
  refine ⟨toy_lawful, toyNumbers_lawful, eventful_valid, ?_, by decide +kernel, by decide +kernel, by decide +kernel⟩
  intro b hb m hm f hf
  simp only [eventful, List.mem_cons, List.not_mem_nil, or_false] at hb
  rcases hb with rfl | rfl | rfl | rfl | rfl <;> cases hm
  · simp only [event2, floats, List.mem_cons, List.not_mem_nil, or_false] at hf
    rcases hf with rfl | rfl | rfl <;> (unfold Finite32; decide)
  · simp only [step2, floats, List.mem_cons, List.not_mem_nil, or_false] at hf
    subst hf; unfold Finite32; decide
  · simp only [clock2, floats, List.mem_cons, List.not_mem_nil, or_false] at hf
    subst hf; unfold Finite32; decide

/-- A record of 128 bytes with a blockette 200 with this amplitude and these flags. -/
def detected (amplitude : Nat) (flags : UInt8) : Rec :=
  { sample2 with
    chain := [(.data 3 1 7 0, []), (.mapped (.event amplitude 0x3F800000 0x40000000 flags 0 onset2 (spaced 24 "STA/LTA")), [])]
    dataoffset := 112, numblockettes := 2, rest := List.replicate 20 7 }

theorem detected_valid : (detected 0x42C80000 5).Valid := by
  constructor
  case blockettes =>
    intro b hb
    simp only [detected, List.mem_cons, List.not_mem_nil, or_false] at hb
    rcases hb with rfl | rfl
    · trivial
    · exact ⟨⟨by decide, by decide, by decide, onset2_valid, label2_valid.1⟩, trivial⟩
  case room => intro _; decide +kernel
  case exponent =>
    intro b hb e o x hx
    simp only [detected, List.mem_cons, List.not_mem_nil, or_false] at hb
    rcases hb with rfl | rfl <;> simp [Blkt.data?] at hx
    obtain ⟨rfl, rfl, rfl⟩ := hx
    decide +kernel
  all_goals decide +kernel

theorem detected_nan_valid : (detected 0x7FC00000 0).Valid := by
  constructor
  case blockettes =>
    intro b hb
    simp only [detected, List.mem_cons, List.not_mem_nil, or_false] at hb
    rcases hb with rfl | rfl
    · trivial
    · exact ⟨⟨by decide, by decide, by decide, onset2_valid, label2_valid.1⟩, trivial⟩
  case room => intro _; decide +kernel
  case exponent =>
    intro b hb e o x hx
    simp only [detected, List.mem_cons, List.not_mem_nil, or_false] at hb
    rcases hb with rfl | rfl <;> simp [Blkt.data?] at hx
    obtain ⟨rfl, rfl, rfl⟩ := hx
    decide +kernel
  all_goals decide +kernel

/-- The extra headers of a parsed record. -/
def extraOf : Verif.Model.Steim.Res (Parsed × List UInt8) → Option (List UInt8)
  | .ok (.record m, _) => some m.extra
  | _ => none

/-- **C115 (violated, direction of the wave).** A valid record with an event detection whose flags say that the direction of
the first motion is not determined (bit 2 of blockette 200) is read with a direction in its extra headers. -/
theorem C115_wave_violated :
    ∃ r : Rec, r.Valid ∧ ∃ m x, parse (unpack2 (env (codec toy) toyNumbers fun _ _ => 0) false 0) false 0 r.bytes false false false =
        .ok (.record m, r.bytes) ∧ Holds toy.read m.extra x ∧ Documented toyNumbers (fun bit => bit) r x ∧
      ¬ Documented toyNumbers (fun bit => !bit) r x := by
  obtain ⟨m, x, h1, h2, h3⟩ := C115_headers_partial toy_lawful toyNumbers (fun _ _ => 0) false 0 (detected 0x42C80000 5)
    detected_valid (.inr (by decide)) (by decide +kernel) (by decide +kernel) [] false false
  rw [List.append_nil] at h1
  have hx : m.extra ≠ [] := by
    have : extraOf (.ok (.record m, (detected 0x42C80000 5).bytes)) ≠ some [] := by
      rw [← h1]
      decide +kernel
    intro hc
    exact this (by rw [← hc]; rfl)
  refine ⟨_, detected_valid, m, x, h1, ?_, h2, ?_⟩
  · rcases h3 with h3 | ⟨w, _, _, h3 | ⟨q, b, hb, ⟨u, c, f, hbt⟩, _⟩⟩
    · exact h3
    · exact absurd h3 hx
    · simp only [detected, List.mem_cons, List.not_mem_nil, or_false] at hb
      rcases hb with rfl | rfl <;> cases hbt
  · intro h4
    obtain ⟨l, ha, hl, he⟩ := h2.detections.2 (by intro hc; cases hc)
    obtain ⟨l', ha', hl', he'⟩ := h4.detections.2 (by intro hc; cases hc)
    have : l = l' := by
      have := (ha' (.arr l)).1 ((ha _).2 rfl)
      cases this; rfl
    subst this
    have hlen : l.length = 1 := hl
    obtain ⟨e, rfl⟩ : ∃ e, l = [e] := by
      cases l with
      | nil => cases hlen
      | cons e l => cases l with
        | nil => exact ⟨e, rfl⟩
        | cons _ _ => simp at hlen
    obtain ⟨k, rfl, _, hk⟩ := he 0 e _ rfl rfl
    obtain ⟨k', hkk, _, hk'⟩ := he' 0 _ _ rfl rfl
    cases hkk
    have := (hk (name "Wave") (.str (name "DILATATION"))).2 ⟨"Wave", _, .tail _ (.tail _ (.tail _ (.tail _ (.head _)))), rfl,
      by decide, .inl ⟨by decide, rfl⟩⟩
    obtain ⟨n, P, hn, hnn, hp⟩ := (hk' _ _).1 this
    simp only [List.mem_cons, Prod.mk.injEq, List.not_mem_nil, or_false] at hn
    have hw : ∀ s ∈ ["Type", "SignalAmplitude", "SignalPeriod", "BackgroundEstimate", "Units", "OnsetTime", "Detector"],
        name "Wave" ≠ name s := by decide +kernel
    rcases hn with ⟨rfl, _⟩ | ⟨rfl, _⟩ | ⟨rfl, _⟩ | ⟨rfl, _⟩ | ⟨_, rfl⟩ | ⟨rfl, _⟩ | ⟨rfl, _⟩ | ⟨rfl, _⟩
    case inr.inr.inr.inr.inl => exact absurd hp.1 (by decide)
    all_goals exact hw _ (by simp) hnn

/-- **C115 (violated, lost headers).** An amplitude that is not a number makes a valid record lose all its extra headers,
among them the flags, and nothing tells so. -/
theorem C115_lost_violated :
    ∃ r : Rec, r.Valid ∧ r.activity.toNat.testBit 2 = true ∧
      ∃ m, parse (unpack2 (env (codec toy) toyNumbers fun _ _ => 0) false 0) false 0 r.bytes false false false =
        .ok (.record m, r.bytes) ∧ m.extra = [] := by
  obtain ⟨m, x, h1, h2, h3⟩ := C115_headers_partial toy_lawful toyNumbers (fun _ _ => 0) false 0 (detected 0x7FC00000 0)
    detected_nan_valid (.inr (by decide)) (by decide +kernel) (by decide +kernel) [] false false
  rw [List.append_nil] at h1
  refine ⟨_, detected_nan_valid, by decide, m, h1, ?_⟩
  have : extraOf (.ok (.record m, (detected 0x7FC00000 0).bytes)) = some [] := by
    rw [← h1]
    decide +kernel
  exact Option.some.inj this

end Verif.Props.Headers2
