import Verif.Model.Pack
import Verif.Props.Samples
import Verif.Proof.Repack
import Verif.Proof.Parse
import Verif.Props.Record3
/-! # Lemmas about packing samples into version 3 records -/
namespace Verif.Proof.Pack
open Verif.Model Verif.Model.Bytes Verif.Model.Steim Verif.Model.Samples Verif.Model.Mem
  Verif.Model.Record3 Verif.Model.Pack
open Verif.Spec Verif.Spec.Record3
open Verif.Proof.Mem Verif.Proof.Steim Verif.Proof.Bytes

/-! ## Steim frames begin with a nonzero byte -/

/-- Codes and sample counts of packed words. -/
def WordOk (w : Nat) (pack : List Int → Res Packed) : Prop :=
  ∀ d p, pack d = .ok p → 1 ≤ p.code ∧ p.code < 4 ∧ p.count ≤ w

theorem wordOk1 (h s : Bool) : WordOk 4 (packWord1 h s) := by
  intro d p hp
  unfold packWord1 at hp
  simp only at hp
  split at hp
  · injection hp with hp; subst hp; simp
  · split at hp
    · injection hp with hp; subst hp; simp
    · split at hp
      · cases hp
      · injection hp with hp; subst hp; simp

theorem wordOk2 (h s : Bool) : WordOk 7 (packWord2 h s) := by
  intro d p hp
  unfold packWord2 at hp
  simp only at hp
  repeat' split at hp
  all_goals first
    | (injection hp with hp; subst hp; simp)
    | cases hp

theorem encWords_ctrl {pack} {w : Nat} (H : WordOk w pack) (cap N : Nat) : ∀ k ctrl s ctrl' ws s', k ≤ 16 →
    encWords cap N pack k ctrl s = .ok (ctrl', ws, s') →
    ctrl ≤ ctrl' ∧ (ctrl < 2 ^ 32 → ctrl' < 2 ^ 32) ∧
    s'.outputsamples ≤ s.outputsamples + w * k ∧
    (1 ≤ k → s.outputsamples < N → 4 ^ (k - 1) ≤ ctrl') := by
  intro k
  induction k with
  | zero =>
    intro ctrl s ctrl' ws s' _ h
    simp only [encWords] at h
    injection h with h
    injection h with h1 h
    injection h with h2 h3
    subst h1 h3
    exact ⟨Nat.le_refl _, id, by omega, by omega⟩
  | succ k ih =>
    intro ctrl s ctrl' ws s' hk h
    simp only [encWords] at h
    by_cases hout : s.outputsamples < N
    · rw [if_pos hout, bind_eq_ok] at h
      obtain ⟨⟨diffs, prev, rest⟩, _, h⟩ := h
      simp only at h
      rw [bind_eq_ok] at h
      obtain ⟨p, hp, h⟩ := h
      rw [bind_eq_ok] at h
      obtain ⟨⟨c2, ws2, s2⟩, hr, h⟩ := h
      simp only at h
      injection h with h
      injection h with h1 h
      injection h with h2 h3
      subst h1 h3
      obtain ⟨p1, p2, p3⟩ := H _ _ hp
      obtain ⟨g1, g2, g3, _⟩ := ih _ _ _ _ _ (by omega) hr
      have hsh : 30 - 2 * (16 - (k + 1)) = 2 * k := by omega
      rw [hsh] at g1 g2
      have h4 : (2 : Nat) ^ (2 * k) = 4 ^ k := by rw [Nat.pow_mul]
      have hle := Nat.left_le_or (n := ctrl) (m := p.code <<< (2 * k))
      have hre := Nat.right_le_or (n := ctrl) (m := p.code <<< (2 * k))
      rw [Nat.shiftLeft_eq, h4] at hle hre g1 g2
      have hm : 4 ^ k ≤ p.code * 4 ^ k := Nat.le_mul_of_pos_left _ p1
      refine ⟨by omega, fun hc => g2 ?_, ?_, fun _ _ => ?_⟩
      · apply Nat.or_lt_two_pow hc
        have hk4 : (4 : Nat) ^ k ≤ 4 ^ 15 := Nat.pow_le_pow_right (by omega) (by omega)
        have := Nat.mul_le_mul (show p.code ≤ 3 by omega) hk4
        omega
      · simp only at g3; rw [Nat.mul_succ]; omega
      · simp only [Nat.add_sub_cancel]; omega
    · rw [if_neg hout] at h
      injection h with h
      injection h with h1 h
      injection h with h2 h3
      subst h1 h3
      exact ⟨Nat.le_refl _, id, by omega, fun _ h => absurd h hout⟩

/-- A frame of 64 bytes the first of which is not zero. -/
def FrameNZ (f : List (List UInt8)) : Prop := ∃ b t, f.flatten = b :: t ∧ b ≠ 0

theorem be_first (h s : Bool) (ho : order h s = true) (c : Nat) (h1 : 2 ^ 24 ≤ c) (h2 : c < 2 ^ 32) :
    ∃ b t, swapIf s (hostBytes h 4 c) = b :: t ∧ b ≠ 0 := by
  have e : swapIf s (hostBytes h 4 c) = beBytes 4 c := by
    cases h <;> cases s <;> simp [order, swapIf, hostBytes] at ho ⊢
  rw [e]
  simp only [beBytes, List.nil_append, List.cons_append]
  refine ⟨_, _, rfl, ?_⟩
  intro hb
  have := congrArg UInt8.toNat hb
  simp at this
  omega

theorem encFrames_nz {pack} {w : Nat} (H : WordOk w pack) (h s : Bool) (ho : order h s = true) (cap N : Nat) :
    ∀ n st fs st', encFrames h s cap N pack n st = .ok (fs, st') →
    (∀ f ∈ fs, FrameNZ f) ∧ st'.outputsamples ≤ st.outputsamples + 15 * (w * n) := by
  intro n
  induction n with
  | zero =>
    intro st fs st' hr
    simp only [encFrames] at hr
    injection hr with hr
    injection hr with h1 h2
    subst h1 h2
    exact ⟨by simp, by omega⟩
  | succ n ih =>
    intro st fs st' hr
    simp only [encFrames] at hr
    by_cases hout : st.outputsamples < N
    · rw [if_pos hout, bind_eq_ok] at hr
      obtain ⟨⟨c, ws, s1⟩, hw, hr⟩ := hr
      simp only at hr
      rw [bind_eq_ok] at hr
      obtain ⟨⟨fs2, s2⟩, hf, hr⟩ := hr
      simp only at hr
      injection hr with hr
      injection hr with h1 h2
      subst h1 h2
      obtain ⟨g1, g2, g3, g4⟩ := encWords_ctrl H cap N 15 0 st c ws s1 (by omega) hw
      obtain ⟨k1, k2⟩ := ih _ _ _ hf
      have hc := g4 (by omega) hout
      refine ⟨?_, by rw [Nat.mul_succ]; omega⟩
      intro f hf
      rcases List.mem_cons.1 hf with rfl | hf
      · obtain ⟨b, t, e, hb⟩ := be_first h s ho c (by omega) (g2 (by omega))
        exact ⟨b, t ++ ws.flatten, by rw [List.flatten_cons, e]; rfl, hb⟩
      · exact k1 f hf
    · rw [if_neg hout] at hr
      injection hr with hr
      injection hr with h1 h2
      subst h1 h2
      exact ⟨by simp, by omega⟩

theorem encode_nz {pack} {w : Nat} (H : WordOk w pack) (h s : Bool) (ho : order h s = true) (cap : Nat)
    (input : List Int) (outlen : Nat) (d0 : Int) (e : Encoded)
    (he : encode h s cap pack input outlen d0 = .ok e) :
    (∀ f ∈ e.frames, FrameNZ f) ∧ e.samples ≤ 15 * (w * (outlen / 64)) := by
  unfold encode at he
  cases input with
  | nil =>
    simp only at he
    injection he with he; subst he
    exact ⟨by simp, by simp⟩
  | cons x xs =>
    simp only at he
    split at he
    · cases he
    · split at he
      · split at he
        · cases he
        · injection he with he; subst he
          exact ⟨by simp, by simp⟩
      · rename_i mf hmf
        rw [bind_eq_ok] at he
        obtain ⟨⟨c, ws, s1⟩, hw, he⟩ := he
        simp only at he
        rw [bind_eq_ok] at he
        obtain ⟨⟨fs, s2⟩, hf, he⟩ := he
        simp only at he
        obtain ⟨g1, g2, g3, g4⟩ := encWords_ctrl H _ _ 13 0 _ c ws s1 (by omega) hw
        obtain ⟨k1, k2⟩ := encFrames_nz H h s ho _ _ _ _ _ _ hf
        split at he
        · cases he
        · injection he with he; subst he
          simp only at g3 g4 ⊢
          refine ⟨?_, by rw [hmf, Nat.mul_succ]; omega⟩
          intro f hf
          rcases List.mem_cons.1 hf with rfl | hf
          · have hc := g4 (by omega) (by simp)
            obtain ⟨b, t, e, hb⟩ := be_first h s ho c (by omega) (g2 (by omega))
            exact ⟨b, _, by rw [List.flatten_cons, e]; rfl, hb⟩
          · exact k1 f hf

theorem frames_at : ∀ (fs : List (List (List UInt8))), (∀ f ∈ fs, f.flatten.length = 64) →
    (∀ f ∈ fs, FrameNZ f) → ∀ k, k < fs.length →
    ∃ b, ((fs.map List.flatten).flatten)[64 * k]? = some b ∧ b ≠ 0 := by
  intro fs
  induction fs with
  | nil => intro _ _ k hk; simp at hk
  | cons f fs ih =>
    intro hl hn k hk
    obtain ⟨b, t, e, hb⟩ := hn f (by simp)
    have hfl := hl f (by simp)
    rw [List.map_cons, List.flatten_cons]
    cases k with
    | zero => exact ⟨b, by rw [e]; rfl, hb⟩
    | succ k =>
      rw [List.getElem?_append_right (by omega), hfl, show 64 * (k + 1) - 64 = 64 * k by omega]
      exact ih (fun g hg => hl g (by simp [hg])) (fun g hg => hn g (by simp [hg])) k
        (by simpa using hk)

/-! ## What one call of the data packer does -/

open Verif.Props.Samples

/-- What packing at least one sample gives. -/
def unit (enc : Nat) : Nat := if enc = 10 ∨ enc = 11 then 64 else storedSize enc

structure Stored (src : Samples) (enc max : Nat) (data : List UInt8) (n : Nat) : Prop where
  pos : 1 ≤ n
  le : n ≤ src.count
  room : data.length ≤ max
  few : n ≤ 2 * max
  full : enc ≠ 1 → maxSamples enc max (typeSize src) < src.count → max < data.length + unit enc
  fixed : enc ≠ 10 → enc ≠ 11 → data.length = storedSize enc * n
  frames : enc = 10 ∨ enc = 11 → data.length % 64 = 0 ∧ 64 ≤ data.length ∧
    ∀ k, 64 * k < data.length → ∃ b, data[64 * k]? = some b ∧ b ≠ 0

theorem steim_stored {pack wd cap mf Q} {w : Nat} (H : WordEnc pack wd cap mf Q) (hcap : 1 ≤ cap)
    (W : WordOk w pack) (hw : w ≤ 7) (h s : Bool) (ho : order h s = true) (v : List Int)
    (hv : ∀ x ∈ v, Verif.Spec.Steim.isInt32 x) (hne : v ≠ []) (max : Nat) (h64 : 64 ≤ max) (e : Encoded)
    (he : Verif.Model.Steim.encode h s cap pack v max 0 = .ok e) :
    1 ≤ e.samples ∧ e.samples ≤ v.length ∧ e.bytes.length ≤ max ∧ e.samples ≤ 2 * max ∧ (15 * (w * (max / 64)) < v.length → max < e.bytes.length + 64) ∧
    e.bytes.length % 64 = 0 ∧ 64 ≤ e.bytes.length ∧
    ∀ k, 64 * k < e.bytes.length → ∃ b, e.bytes[64 * k]? = some b ∧ b ≠ 0 := by
  have hs := encode_spec h s H hcap v max 0 (by decide) hv hne h64
  rw [he] at hs
  obtain ⟨g1, g2, g3, g4, g5, g6, g7, g8, g9⟩ := hs
  obtain ⟨k1, k2⟩ := encode_nz W h s ho cap v max 0 e he
  have hfl : ∀ f ∈ e.frames, f.flatten.length = 64 := by
    intro f hf
    obtain ⟨a, b⟩ := g5 f hf
    have : ∀ l : List (List UInt8), FourBytes l → l.flatten.length = 4 * l.length := by
      intro l
      induction l with
      | nil => intro _; rfl
      | cons w l ih =>
        intro hl
        rw [List.flatten_cons, List.length_append, hl w (by simp),
          ih (fun x hx => hl x (by simp [hx])), List.length_cons]
        omega
    rw [this f b, a]
  have hl : e.bytes.length = 64 * e.frames.length := by
    unfold Encoded.bytes
    revert hfl
    generalize e.frames = fs
    intro hfl
    induction fs with
    | nil => rfl
    | cons f fs ih =>
      rw [List.map_cons, List.flatten_cons, List.length_append, hfl f (by simp),
        ih (fun x hx => hfl x (by simp [hx])), List.length_cons]
      omega
  have hw7 : w * (max / 64) ≤ 7 * (max / 64) := Nat.mul_le_mul_right _ hw
  refine ⟨g1, g2, by omega, by omega, by omega, by omega, by omega, ?_⟩
  intro k hk
  exact frames_at e.frames hfl k1 k (by omega)

theorem order_swap (h : Bool) : order h (!h) = true := by cases h <;> rfl

theorem stored (h sw : Bool) (src : Samples) (max enc : Nat) (data : List UInt8) (n : Nat)
    (hrep : representable src enc) (hpos : 1 ≤ src.count)
    (hp : packData h sw src max enc = .ok (data, n)) : Stored src enc max data n := by
  unfold packData at hp
  split at hp
  · next b =>
    by_cases ho : max = 0
    · unfold encodeText at hp
      simp only [Samples.count] at hpos
      rw [if_neg (by omega), if_pos ho] at hp
      cases hp
    · rw [C24_text b max (by omega)] at hp
      have := Res.ok.inj hp
      simp only [Prod.mk.injEq] at this
      obtain ⟨rfl, rfl⟩ := this
      simp only [Samples.count] at hpos
      constructor
      · omega
      · simp only [Samples.count]; omega
      · simp; omega
      · omega
      · simp [maxSamples, unit, storedSize, typeSize, sampleSize, Samples.count]; omega
      · intro _ _; simp [storedSize]; omega
      · omega
  · next v =>
    split at hp
    · simp at hp
    simp only [Samples.count] at hpos
    have hv : v ≠ [] := by intro e; subst e; simp at hpos
    obtain ⟨g0, bs, g1, g2, g3, g4⟩ := C24_int16 h sw h sw rfl v hrep max hv (by omega)
    rw [g1] at hp
    have := Res.ok.inj hp
    simp only [Prod.mk.injEq] at this
    obtain ⟨rfl, rfl⟩ := this
    refine ⟨by omega, ?_, ?_, by omega, ?_, ?_, by omega⟩
    · simp only [Samples.count]; omega
    · omega
    · simp [maxSamples, unit, storedSize, typeSize, sampleSize, Samples.count] <;> omega
    · intro _ _; simp [storedSize]; omega
  · next v =>
    split at hp
    · simp at hp
    simp only [Samples.count] at hpos
    have hv : v ≠ [] := by intro e; subst e; simp at hpos
    obtain ⟨g0, bs, g1, g2, g3, g4⟩ := C24_int32 h sw h sw rfl v hrep max hv (by omega)
    rw [g1] at hp
    have := Res.ok.inj hp
    simp only [Prod.mk.injEq] at this
    obtain ⟨rfl, rfl⟩ := this
    refine ⟨by omega, ?_, ?_, by omega, ?_, ?_, by omega⟩
    · simp only [Samples.count]; omega
    · omega
    · simp [maxSamples, unit, storedSize, typeSize, sampleSize, Samples.count] <;> omega
    · intro _ _; simp [storedSize]; omega
  · next v =>
    split at hp
    · simp at hp
    simp only [Samples.count] at hpos
    have hv : v ≠ [] := by intro e; subst e; simp at hpos
    obtain ⟨g0, bs, g1, g2, g3, g4⟩ := C24_float32 h sw h sw rfl v hrep max hv (by omega)
    rw [g1] at hp
    have := Res.ok.inj hp
    simp only [Prod.mk.injEq] at this
    obtain ⟨rfl, rfl⟩ := this
    refine ⟨by omega, ?_, ?_, by omega, ?_, ?_, by omega⟩
    · simp only [Samples.count]; omega
    · omega
    · simp [maxSamples, unit, storedSize, typeSize, sampleSize, Samples.count] <;> omega
    · intro _ _; simp [storedSize]; omega
  · next v =>
    split at hp
    · simp at hp
    simp only [Samples.count] at hpos
    have hv : v ≠ [] := by intro e; subst e; simp at hpos
    obtain ⟨g0, bs, g1, g2, g3, g4⟩ := C24_float64 h sw h sw rfl v hrep max hv (by omega)
    rw [g1] at hp
    have := Res.ok.inj hp
    simp only [Prod.mk.injEq] at this
    obtain ⟨rfl, rfl⟩ := this
    refine ⟨by omega, ?_, ?_, by omega, ?_, ?_, by omega⟩
    · simp only [Samples.count]; omega
    · omega
    · simp [maxSamples, unit, storedSize, typeSize, sampleSize, Samples.count] <;> omega
    · intro _ _; simp [storedSize]; omega
  · next v =>
    split at hp
    · simp at hp
    simp only [Samples.count] at hpos
    have hv : v ≠ [] := by intro e; subst e; simp at hpos
    rw [bind_eq_ok] at hp
    obtain ⟨e, he, hp⟩ := hp
    have := Res.ok.inj hp
    simp only [Prod.mk.injEq] at this
    obtain ⟨rfl, rfl⟩ := this
    obtain ⟨g1, g2, g3, g4, gf, g5, g6, g7⟩ := steim_stored (wordEnc1 h (!h)) (by omega) (wordOk1 _ _)
      (by omega) h
      (!h) (order_swap h) v hrep hv max (by omega) e he
    refine ⟨g1, g2, g3, g4, ?_, by omega, fun _ => ⟨g5, g6, g7⟩⟩
    intro _ hm
    simp [maxSamples, Samples.count, unit] at hm ⊢
    apply gf
    omega
  · next v =>
    split at hp
    · simp at hp
    simp only [Samples.count] at hpos
    have hv : v ≠ [] := by intro e; subst e; simp at hpos
    rw [bind_eq_ok] at hp
    obtain ⟨e, he, hp⟩ := hp
    have := Res.ok.inj hp
    simp only [Prod.mk.injEq] at this
    obtain ⟨rfl, rfl⟩ := this
    obtain ⟨g1, g2, g3, g4, gf, g5, g6, g7⟩ := steim_stored (wordEnc2 h (!h)) (by omega) (wordOk2 _ _)
      (by omega) h
      (!h) (order_swap h) v hrep hv max (by omega) e he
    refine ⟨g1, g2, g3, g4, ?_, by omega, fun _ => ⟨g5, g6, g7⟩⟩
    intro _ hm
    simp [maxSamples, Samples.count, unit] at hm ⊢
    apply gf
    omega
  · cases hp

/-! ## Reading a packed record back -/

open Verif.Proof.Record3 Verif.Proof.Parse Verif.Proof.Repack

theorem trim_none (mem : List UInt8) (n i : Nat) (h : 64 * (n + 1) ≤ mem.length) (hi : i < 64)
    (b : UInt8) (hb : mem[64 * n + i]? = some b) (hne : b ≠ 0) :
    trimFrames mem (n + 1) = .ok (64 * (n + 1)) := by
  rw [trimFrames, peek_ok (by omega), bind_ok, if_neg]
  intro hall
  rw [List.all_eq_true] at hall
  have := hall b (by
    apply List.mem_of_getElem? (i := i)
    rw [List.getElem?_take_of_lt hi, List.getElem?_drop, hb])
  exact hne (by simpa using this)

theorem text_getElem (l : List UInt8) (h : ∀ b ∈ l, b ≠ 0) (i : Nat) (hi : i < l.length) :
    ∃ b, l[i]? = some b ∧ b ≠ 0 := by
  refine ⟨l[i], List.getElem?_eq_getElem hi, h _ (List.getElem_mem hi)⟩

/-- The last window of 64 bytes before `payload.length` is not zero. -/
theorem window (r : Rec) (rest : List UInt8) (hs : ∀ b ∈ r.sid, b ≠ 0) (hx : ∀ b ∈ r.extra, b ≠ 0)
    (n : Nat) (hl : r.payload.length = 64 * (n + 1))
    (hd : ∀ k, 64 * k < r.payload.length → ∃ b, r.payload[64 * k]? = some b ∧ b ≠ 0) :
    ∃ i b, i < 64 ∧ (r.fixedFor r.payload.length ++ (r.sid ++ (r.extra ++ (r.payload ++ rest))))[64 * n + i]?
      = some b ∧ b ≠ 0 := by
  have hf := fixed_length r r.payload.length
  by_cases h0 : n = 0
  · subst h0
    refine ⟨0, 77, by omega, ?_, by decide⟩
    rw [List.getElem?_append_left (by omega)]
    rfl
  by_cases h1 : 64 * n < 40 + r.sid.length + r.extra.length
  · refine ⟨0, ?_⟩
    by_cases h2 : 64 * n < 40 + r.sid.length
    · obtain ⟨b, hb, hne⟩ := text_getElem r.sid hs (64 * n - 40) (by omega)
      refine ⟨b, by omega, ?_, hne⟩
      rw [List.getElem?_append_right (by omega), List.getElem?_append_left (by omega), hf]
      simpa using hb
    · obtain ⟨b, hb, hne⟩ := text_getElem r.extra hx (64 * n - 40 - r.sid.length) (by omega)
      refine ⟨b, by omega, ?_, hne⟩
      rw [List.getElem?_append_right (by omega), List.getElem?_append_right (by omega),
        List.getElem?_append_left (by omega), hf]
      simpa using hb
  · obtain ⟨k, hk⟩ : ∃ k, k = (64 * n - (40 + r.sid.length + r.extra.length) + 63) / 64 := ⟨_, rfl⟩
    obtain ⟨b, hb, hne⟩ := hd k (by omega)
    refine ⟨40 + r.sid.length + r.extra.length + 64 * k - 64 * n, b, by omega, ?_, hne⟩
    rw [List.getElem?_append_right (by omega), List.getElem?_append_right (by omega),
      List.getElem?_append_right (by omega), List.getElem?_append_left (by omega), hf, ← hb]
    congr 1
    omega

theorem strlen_text (b : List UInt8) (h : ∀ x ∈ b, x ≠ 0) : strlen b = b.length := by
  unfold strlen
  congr 1
  induction b with
  | nil => rfl
  | cons x b ih =>
    rw [List.takeWhile_cons, if_pos (by simpa using h x (by simp)), ih fun y hy => h y (by simp [hy])]

theorem sampleBytes_eq (enc n size : Nat) (hn : n < 2 ^ 31) (hs : size = storedSize enc * n)
    (he : enc ∈ [0, 1, 3, 4, 5]) : sampleBytes enc n size = size := by
  have hb : ∀ k : Nat, k ≤ 8 → bits 64 ((n : Int) * (k : Nat)) = k * n := by
    intro k hk
    have h8 : k * n ≤ 8 * n := Nat.mul_le_mul_right n hk
    unfold bits
    rw [show (n : Int) * (k : Nat) = ((k * n : Nat) : Int) by rw [Nat.mul_comm]; simp]
    generalize k * n = z at *
    omega
  have key : ∀ k : Nat, k ≤ 8 → size = k * n →
      (if bits 64 ((n : Int) * (k : Nat)) < size then bits 64 ((n : Int) * (k : Nat)) % 2 ^ 16 else size)
        = size := by
    intro k hk he
    rw [hb k hk, if_neg (by omega)]
  simp only [List.mem_cons, List.not_mem_nil, or_false] at he
  unfold sampleBytes
  rcases he with rfl | rfl | rfl | rfl | rfl
  · exact key 1 (by omega) (by simpa [storedSize] using hs)
  · exact key 2 (by omega) (by simpa [storedSize] using hs)
  · exact key 4 (by omega) (by simpa [storedSize] using hs)
  · exact key 4 (by omega) (by simpa [storedSize] using hs)
  · exact key 8 (by omega) (by simpa [storedSize] using hs)

theorem dataBounds_packed (h : Bool) (r : Rec) (rest : List UInt8) (reclen s : Int)
    (hs : ∀ b ∈ r.sid, b ≠ 0) (hx : ∀ b ∈ r.extra, b ≠ 0) (hbl : r.bytes.length ≤ 10485760)
    (src : Samples) (max : Nat) (hst : Stored src r.encoding max r.payload r.numsamples)
    (hn : r.numsamples < 2 ^ 31) (henc : r.encoding ∈ [0, 1, 3, 4, 5, 10, 11]) :
    dataBounds h (header h r r.payload.length reclen s) (r.bytes ++ rest)
      = .ok (40 + r.sid.length + r.extra.length, r.payload.length) := by
  rw [bytes_length] at hbl
  unfold dataBounds
  have h1 : (header h r r.payload.length reclen s).samplecnt = r.numsamples := rfl
  have h2 : (header h r r.payload.length reclen s).encoding = r.encoding := rfl
  have h3 : (header h r r.payload.length reclen s).sid = r.sid := rfl
  have h4 : (header h r r.payload.length reclen s).extra = r.extra := rfl
  have h5 : (header h r r.payload.length reclen s).datalength = r.payload.length := rfl
  have h6 : (header h r r.payload.length reclen s).formatversion = 3 := rfl
  rw [h1, h2, h3, h4, h5, h6, if_pos rfl, bind_ok, strlen_text _ hs, Nat.mod_eq_of_lt (by omega)]
  simp only
  by_cases hst' : r.encoding = 10 ∨ r.encoding = 11
  · obtain ⟨f1, f2, f3⟩ := hst.frames hst'
    have e : sampleBytes (r.encoding : Int) (r.numsamples : Int) r.payload.length = r.payload.length := by
      rcases hst' with e | e <;> rw [e] <;> rfl
    rw [e, if_pos ⟨f1, by omega⟩]
    obtain ⟨n, hn⟩ : ∃ n, r.payload.length = 64 * (n + 1) :=
      ⟨r.payload.length / 64 - 1, by omega⟩
    obtain ⟨i, b, hi, hb, hne⟩ := window r rest hs hx n hn f3
    rw [show r.payload.length / 64 = n + 1 by omega]
    have ha : r.bytes ++ rest
        = r.fixedFor r.payload.length ++ (r.sid ++ (r.extra ++ (r.payload ++ rest))) := by
      rw [bytes_eq]; simp only [List.append_assoc]
    rw [ha, trim_none _ n i (by simp [fixed_length]; omega) hi b hb hne, bind_ok, hn]
  · have e := sampleBytes_eq r.encoding r.numsamples r.payload.length hn
      (hst.fixed (by omega) (by omega)) (by simp at henc ⊢; omega)
    rw [e, if_neg (by omega)]

/-- Decoding the samples of a packed record. -/
theorem unpackData_packed (h h2 sw : Bool) (align : Nat) (r : Rec) (rest : List UInt8) (s : Int)
    (hs : ∀ b ∈ r.sid, b ≠ 0) (hx : ∀ b ∈ r.extra, b ≠ 0) (hbl : r.bytes.length ≤ 10485760)
    (src : Samples) (max : Nat) (hrep : representable src r.encoding)
    (hpos : 1 ≤ src.count) (h64 : src.count * 8 < 2 ^ 64) (hm : max ≤ 10485760)
    (hord : order h sw = false)
    (hp : packData h sw src max r.encoding = .ok (r.payload, r.numsamples)) :
    unpackData h2 align (header h2 r r.payload.length r.bytes.length s) (r.bytes ++ rest)
      = .ok (first r.numsamples src) := by
  have hst := stored h sw src max r.encoding r.payload r.numsamples hrep hpos hp
  have henc : r.encoding ∈ [0, 1, 3, 4, 5, 10, 11] := by
    revert hrep
    generalize r.encoding = e
    intro hrep
    unfold representable at hrep
    split at hrep <;> simp_all
  have hfew := hst.few
  have hn1 := hst.pos
  have hdb := dataBounds_packed h2 r rest r.bytes.length s hs hx hbl src max hst (by omega) henc
  have hl := bytes_length r
  have hdl : 1 ≤ r.payload.length := by
    by_cases he : r.encoding = 10 ∨ r.encoding = 11
    · have := (hst.frames he).2.1; omega
    · rw [hst.fixed (by omega) (by omega)]
      have : 1 ≤ storedSize r.encoding := by unfold storedSize; grind
      exact Nat.mul_pos this hn1
  unfold unpackData
  have hc : (header h2 r r.payload.length r.bytes.length s).samplecnt = r.numsamples := rfl
  have hr : (header h2 r r.payload.length r.bytes.length s).reclen = r.bytes.length := rfl
  have hen : (header h2 r r.payload.length r.bytes.length s).encoding = r.encoding := rfl
  have hsw : (header h2 r r.payload.length r.bytes.length s).swapPayload
      = if r.encoding = 10 ∨ r.encoding = 11 then !h2 else h2 := rfl
  rw [hdb, hc, hr, hen, hsw, if_neg (by omega), if_neg (by omega), if_neg (by omega), bind_ok]
  simp only
  rw [if_neg (by omega)]
  have e1 : (if (r.encoding : Int) < 0 then 10 else bits 8 (r.encoding : Int)) = r.encoding := by
    rw [if_neg (by omega)]
    unfold bits
    have : r.encoding < 256 := by
      simp only [List.mem_cons, List.not_mem_nil, or_false] at henc; omega
    omega
  rw [e1]
  obtain ⟨ss, ty, hty⟩ : ∃ ss ty, encodingSizeType r.encoding = some (ss, ty) := by
    simp only [List.mem_cons, List.not_mem_nil, or_false] at henc
    rcases henc with e | e | e | e | e | e | e <;> rw [e] <;> exact ⟨_, _, rfl⟩
  rw [hty]
  simp only
  have hdrop : (r.bytes ++ rest).drop (40 + r.sid.length + r.extra.length) = r.payload ++ rest := by
    unfold Rec.bytes Rec.fixed
    rw [List.append_assoc]
    exact List.drop_left' (by simp [fixed_length]; omega)
  have hdss : decodedSampleSize r.encoding = ss := by unfold decodedSampleSize; rw [hty]
  have dec := (C61_pack_decode h sw h2 (if r.encoding = 10 ∨ r.encoding = 11 then !h2 else h2) src
    max r.encoding r.payload r.numsamples (by
      split
      · exact order_swap h2
      · rw [show Verif.Props.Steim.dataOrder h sw = order h sw from rfl, hord]
        cases h2 <;> rfl) hrep h64 hp).2.2 hn1
  have hen2 : ∀ m, (m = r.payload ∨ m = r.payload ++ rest) →
      decodeData h2 (if r.encoding = 10 ∨ r.encoding = 11 then !h2 else h2) m r.payload.length
        r.encoding (r.numsamples : Int).toNat ((r.numsamples : Int).toNat * ss)
        = .ok (first r.numsamples src) := by
    intro m hm
    rw [Int.toNat_natCast]
    rcases hm with rfl | rfl
    · have := dec [] (r.numsamples * ss) (by rw [hdss]; exact Nat.le_refl _)
      simpa using this
    · exact dec rest (r.numsamples * ss) (by rw [hdss]; exact Nat.le_refl _)
  unfold encodedMem
  split
  · rw [peek_ok (by simp; omega), bind_ok, hdrop, List.take_left' rfl]
    exact hen2 _ (Or.inl rfl)
  · rw [bind_ok, hdrop]
    exact hen2 _ (Or.inr rfl)

/-! ## One round of the loop -/

theorem finishRecord_eq (h : Bool) (q : Rec) (d : Nat) (tail data : List UInt8) (n : Nat)
    (hl : data.length ≤ tail.length) :
    finishRecord h (q.fixedFor d ++ (q.sid ++ (q.extra ++ tail)))
        (40 + q.sid.length + q.extra.length) data n
      = .ok (({ q with numsamples := n, payload := data } : Rec).withCrc.bytes
              ++ tail.drop data.length,
             ({ q with numsamples := n, payload := data } : Rec).withCrc.bytes) := by
  unfold finishRecord
  have hp : poke (q.fixedFor d ++ (q.sid ++ (q.extra ++ tail)))
      (40 + q.sid.length + q.extra.length) data
      = .ok (q.fixedFor d ++ ((q.sid ++ (q.extra ++ data)) ++ tail.drop data.length)) := by
    have := poke_append' (a := q.fixedFor d ++ (q.sid ++ q.extra)) (c := tail) (d := data) hl
    rw [show (q.fixedFor d ++ (q.sid ++ q.extra)).length = 40 + q.sid.length + q.extra.length by
      simp [fixed_length]; omega] at this
    simpa only [List.append_assoc] using this
  rw [hp, bind_ok]
  simp only [pokes, store_le]
  rw [poke_numsamples, bind_ok, poke_datalength, bind_ok, bind_ok]
  rw [setCrc_finish h 0 { q with numsamples := n } q.sid q.extra data (tail.drop data.length) rfl rfl
    (40 + q.sid.length + q.extra.length + data.length) rfl, bind_ok]
  have hb : ({ q with numsamples := n, payload := data } : Rec).withCrc.bytes.length
      = 40 + q.sid.length + q.extra.length + data.length := bytes_length _
  rw [peek_ok (by rw [List.length_append, hb]; omega), bind_ok, List.drop_zero]
  have := List.take_left' (l₂ := tail.drop data.length) hb
  rw [this]

theorem passed_eq (src : Samples) (h : src.count < 2 ^ 32) : passed src = src := by
  unfold passed
  rw [Nat.mod_eq_of_lt h]
  split
  · cases src <;> simp [takeSamples, Samples.count]
  · rfl

theorem drop_count (k : Nat) (src : Samples) : (dropSamples k src).count = src.count - k := by
  cases src <;> simp [dropSamples, Samples.count]

theorem drop_representable (k : Nat) (src : Samples) (enc : Nat) (h : representable src enc) :
    representable (dropSamples k src) enc := by
  unfold representable at h
  split at h <;> simp only [dropSamples, representable] <;>
    first
    | exact h.elim
    | exact fun x hx => h x (List.mem_of_mem_drop hx)

theorem packData_ne_oob (h sw : Bool) (src : Samples) (max enc : Nat)
    (hrep : representable src enc) (hpos : 1 ≤ src.count) : packData h sw src max enc ≠ .oob := by
  unfold packData
  split
  · unfold encodeText; split
    · simp
    · split <;> simp
  · unfold encodeInt16; repeat' split
    all_goals simp
  · unfold encodeInt32; repeat' split
    all_goals simp
  · unfold encodeFloat32; repeat' split
    all_goals simp
  · unfold encodeFloat64; repeat' split
    all_goals simp
  · next v =>
    split
    · simp
    simp only [Samples.count] at hpos
    have hv : v ≠ [] := by intro e; subst e; simp at hpos
    have hs := encode_spec h (!h) (wordEnc1 h (!h)) (by omega) v max 0 (by decide) hrep hv (by omega)
    unfold encodeSteim1
    cases he : Verif.Model.Steim.encode h (!h) 4 (packWord1 h (!h)) v max 0 with
    | oob => rw [he] at hs; exact hs.elim
    | _ => simp [Res.bind]
  · next v =>
    split
    · simp
    simp only [Samples.count] at hpos
    have hv : v ≠ [] := by intro e; subst e; simp at hpos
    have hs := encode_spec h (!h) (wordEnc2 h (!h)) (by omega) v max 0 (by decide) hrep hv (by omega)
    unfold encodeSteim2
    cases he : Verif.Model.Steim.encode h (!h) 7 (packWord2 h (!h)) v max 0 with
    | oob => rw [he] at hs; exact hs.elim
    | _ => simp [Res.bind]
  · simp

/-- Fields that are the same in all records of one call. -/
structure Same (q r : Rec) : Prop where
  flags : r.flags = q.flags
  encoding : r.encoding = q.encoding
  rate : r.rate = q.rate
  pubversion : r.pubversion = q.pubversion
  sid : r.sid = q.sid
  extra : r.extra = q.extra

/-- The instant in the header of a record. -/
def recTime (r : Rec) : Out Int := time2nstime r.year r.day r.hour r.minute r.second r.nsec

/-- A sequence of records holding the samples from `a` to `b`. -/
def Recs (start : Nat → Int) (h : Bool) (src : Samples) (max lim : Nat) (q : Rec) :
    Nat → List Rec → Nat → Prop
  | a, [], b => a = b
  | a, r :: rs, b =>
    (r.Valid ∧ Same q r ∧ (∃ r0 : Rec, r = r0.withCrc) ∧ recTime r = .ok (start a) ∧
      lim < src.count - a ∧ a + r.numsamples ≤ src.count ∧
      packData h h (dropSamples a src) max r.encoding = .ok (r.payload, r.numsamples)) ∧
    Recs start h src max lim q (a + r.numsamples) rs b

/-- A time that can be stored and read back. -/
structure GoodTime (t : Int) : Prop where
  range : InInt64 t
  from1678 : (Fields.mk 1678 1 0 0 0 0).instant ≤ t
  noError : t ≠ NSTERROR

theorem good_time (t : Int) (g : GoodTime t) : ∃ dt, nstime2time t = some dt ∧
    dt.nsec.toNat < 4294967296 ∧ dt.year.toNat < 65536 ∧ dt.yday.toNat < 65536 ∧
    dt.hour.toNat ≤ 23 ∧ dt.min.toNat ≤ 59 ∧ dt.sec.toNat ≤ 60 ∧
    time2nstime dt.year.toNat dt.yday.toNat dt.hour.toNat dt.min.toNat dt.sec.toNat dt.nsec.toNat
      = .ok t := by
  have p : Verif.Props.Record3.Packable id
      { sid := [], flags := 0, starttime := t, samprate := 0, pubversion := 0, extra := [] } := by
    constructor
    · show 0 < 256; omega
    · show 0 < 256; omega
    · show storedRate id 0 < 18446744073709551616; decide
    · show 0 ≤ 63; omega
    · simp
    · show 0 < 65536; omega
    · left; show (-1 : Int) < 0; omega
    · exact g.range
    · exact g.from1678
    · exact g.noError
  obtain ⟨dt, h1, h2, h3⟩ := Verif.Props.Record3.packed_valid id _ p (List.replicate 40 0) (by simp)
  exact ⟨dt, h1, h2.nsec, h2.year, h2.day, h2.hour, h2.minute, h2.second, h3⟩

theorem withCrc_valid (r : Rec) (v : r.Valid) : r.withCrc.Valid := by
  obtain ⟨v1, v2, v3, v4, v5, v6, v7, v8, v9, v10, v11, v12, v13, v14, v15⟩ := v
  exact ⟨v1, v2, v3, v4, v5, v6, v7, v8, v9, v10, BitVec.isLt _, v12, v13, v14, v15⟩

theorem one_record (h : Bool) (q0 q : Rec) (d : Nat) (tail data : List UInt8) (n : Nat)
    (hl : data.length ≤ tail.length) (hv : q.Valid) (hsame : Same q0 q) (hn : n < 4294967296)
    (hd : data.length < 4294967296) :
    ∃ R : Rec, finishRecord h (q.fixedFor d ++ (q.sid ++ (q.extra ++ tail)))
        (40 + q0.sid.length + q0.extra.length) data n
        = .ok (R.fixedFor data.length ++ (R.sid ++ (R.extra ++ (data ++ tail.drop data.length))),
            R.bytes) ∧
      R.Valid ∧ Same q0 R ∧ (∃ r0 : Rec, R = r0.withCrc) ∧ recTime R = recTime q ∧
      R.numsamples = n ∧ R.payload = data := by
  have hqv : ({ q with numsamples := n, payload := data } : Rec).Valid := by
    obtain ⟨v1, v2, v3, v4, v5, v6, v7, v8, v9, v10, v11, v12, v13, v14, v15⟩ := hv
    exact ⟨v1, v2, v3, v4, v5, v6, v7, v8, v9, hn, v11, v12, v13, v14, hd⟩
  refine ⟨({ q with numsamples := n, payload := data } : Rec).withCrc, ?_, withCrc_valid _ hqv,
    ⟨hsame.1, hsame.2, hsame.3, hsame.4, hsame.5, hsame.6⟩, ⟨_, rfl⟩, rfl, rfl, rfl⟩
  rw [← hsame.sid, ← hsame.extra, finishRecord_eq h q d tail data n hl, bytes_eq]
  simp only [List.append_assoc]
  rfl

theorem retime (h : Bool) (q0 R : Rec) (d : Nat) (t : List UInt8) (dt : DateTime) (s : Int)
    (hv : R.Valid) (hsame : Same q0 R) (e2 : dt.nsec.toNat < 4294967296)
    (e3 : dt.year.toNat < 65536) (e4 : dt.yday.toNat < 65536)
    (e5 : dt.hour.toNat ≤ 23) (e6 : dt.min.toNat ≤ 59) (e7 : dt.sec.toNat ≤ 60)
    (e8 : time2nstime dt.year.toNat dt.yday.toNat dt.hour.toNat dt.min.toNat dt.sec.toNat
      dt.nsec.toNat = .ok s) :
    ∃ T : Rec, pokes (R.fixedFor d ++ (R.sid ++ (R.extra ++ t))) (timeWrites h dt)
        = .ok (T.fixedFor d ++ (T.sid ++ (T.extra ++ t))) ∧
      T.Valid ∧ Same q0 T ∧ recTime T = .ok s := by
  obtain ⟨v1, v2, v3, v4, v5, v6, v7, v8, v9, v10, v11, v12, v13, v14, v15⟩ := hv
  exact ⟨_, poke_time h R d _ dt,
    ⟨v1, e2, e3, e4, e5, e6, e7, v8, v9, v10, v11, v12, v13, v14, v15⟩,
    ⟨hsame.1, hsame.2, hsame.3, hsame.4, hsame.5, hsame.6⟩, e8⟩

theorem loop (next : Nat → Out Int) (start : Nat → Int) (h : Bool) (src : Samples) (q0 : Rec)
    (max maxs : Nat) (flush : Bool) (hcount : src.count < 2 ^ 32) (hmax : max ≤ 10485760)
    (hrep : representable src q0.encoding)
    (hnext : ∀ k, 0 < k → k < src.count → next k = .ok (start k) ∧ GoodTime (start k)) :
    ∀ fuel total q d tail, src.count - total < fuel → total < src.count → q.Valid → Same q0 q →
    recTime q = .ok (start total) → tail.length = max →
    match packLoop next h src q0.encoding max maxs (40 + q0.sid.length + q0.extra.length) flush fuel
        (q.fixedFor d ++ (q.sid ++ (q.extra ++ tail))) total with
    | .ok p => ∃ rs : List Rec, p.records = rs.map Rec.bytes ∧
        Recs start h src max (if flush then 0 else maxs) q0 total rs p.packed ∧ p.packed ≤ src.count ∧
        ((p.ret = -1 ∧ p.packed < src.count ∧
            packData h h (dropSamples p.packed src) max q0.encoding = .err) ∨
         (p.ret = rs.length ∧ (flush = true → p.packed = src.count) ∧
           (p.packed = src.count ∨ src.count - p.packed ≤ maxs)))
    | .err => False
    | .ub => ∃ k, k < src.count ∧ packData h h (dropSamples k src) max q0.encoding = .ub
    | .oob => False := by
  intro fuel
  induction fuel with
  | zero => intro total q d tail hf; omega
  | succ fuel ih =>
    intro total q d tail hf ht hv hsame htime htail
    rw [packLoop]
    by_cases hc : src.count - total > maxs ∨ flush = true
    · rw [if_pos hc, packRound]
      have hcnt := drop_count total src
      have hrep' := drop_representable total src _ hrep
      rw [passed_eq _ (by omega)]
      cases hp : packData h h (dropSamples total src) max q0.encoding with
      | err =>
        exact ⟨[], rfl, rfl, by simp only; omega, Or.inl ⟨rfl, ht, hp⟩⟩
      | ub => exact ⟨total, ht, hp⟩
      | oob => exact absurd hp (packData_ne_oob _ _ _ _ _ hrep' (by omega))
      | ok v =>
        obtain ⟨data, n⟩ := v
        have hst := stored h h _ max q0.encoding data n hrep' (by omega) hp
        have hn1 := hst.pos
        have hn2 := hst.le
        have hroom := hst.room
        have hfew := hst.few
        simp only
        obtain ⟨R, f1, hRv, hRs, hRc, hRt, hRn, hRp⟩ := one_record h q0 q d tail data n (by omega) hv
          hsame (by omega) (by omega)
        rw [f1, bind_ok]
        simp only
        have hhead : R.Valid ∧ Same q0 R ∧ (∃ r0 : Rec, R = r0.withCrc) ∧
            recTime R = .ok (start total) ∧ (if flush then 0 else maxs) < src.count - total ∧ total + R.numsamples ≤ src.count ∧
            packData h h (dropSamples total src) max R.encoding = .ok (R.payload, R.numsamples) := by
          refine ⟨hRv, hRs, hRc, by rw [hRt, htime], by
            rcases hc with hc | hc
            · split <;> omega
            · rw [hc, if_pos rfl]; omega, by omega, ?_⟩
          rw [hRs.encoding, hRp, hRn]; exact hp
        by_cases hdone : total + n ≥ src.count
        · rw [if_pos hdone]
          have hfin : total + n = src.count := by omega
          refine ⟨[R], rfl, ⟨hhead, ?_⟩, Nat.le_of_eq hfin, ?_⟩
          · rw [hRn]; rfl
          · right
            exact ⟨rfl, fun _ => hfin, Or.inl hfin⟩
        · rw [if_neg hdone]
          obtain ⟨g1, g2⟩ := hnext (total + n) (by omega) (by omega)
          obtain ⟨dt, e1, e2, e3, e4, e5, e6, e7, e8⟩ := good_time _ g2
          rw [g1, ofOut, bind_ok, e1]
          simp only
          obtain ⟨T, t1, t2, t3, t4⟩ := retime h q0 R data.length (data ++ tail.drop data.length) dt _
            hRv hRs e2 e3 e4 e5 e6 e7 e8
          rw [t1, bind_ok, bind_ok]
          simp only
          have hrec := ih (total + n) T data.length (data ++ tail.drop data.length) (by omega)
            (by omega) t2 t3 t4 (by simp; omega)
          revert hrec
          generalize packLoop next h src q0.encoding max maxs (40 + q0.sid.length + q0.extra.length)
            flush fuel _ (total + n) = out
          intro hrec
          cases out with
          | err => exact hrec
          | oob => exact hrec
          | ub => exact hrec
          | ok p =>
            simp only [bind_ok] at hrec ⊢
            obtain ⟨rs, r1, r2, r3, r4⟩ := hrec
            refine ⟨R :: rs, ?_, ?_, r3, ?_⟩
            · simp [Packing.after, r1]
            · refine ⟨hhead, ?_⟩
              rw [hRn]; exact r2
            · rcases r4 with ⟨a, b, c⟩ | ⟨a, b, c⟩
              · left
                refine ⟨?_, b, c⟩
                simp only [Packing.after, a]; rfl
              · right
                refine ⟨?_, b, c⟩
                simp only [Packing.after, a, List.length_cons]
                rw [if_neg (by omega)]; omega
    · rw [if_neg hc]
      refine ⟨[], rfl, rfl, by simp only; omega, Or.inr ⟨rfl, ?_, ?_⟩⟩
      · intro hf; exact absurd (Or.inr hf) hc
      · right
        simp only
        omega

end Verif.Proof.Pack
