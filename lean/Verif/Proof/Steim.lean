import Verif.Spec.Steim
import Verif.Model.Steim
import Verif.Proof.Bytes
/-! Lemmas on the Steim codecs. -/
namespace Verif.Proof.Steim
open Verif.Spec.Steim Verif.Model.Bytes Verif.Proof.Bytes
open Verif.Model.Steim (Res fits32 bitwidth Enc fill fitsN Packed packWord1 packWord2 msk w7x4 w6x5 w5x6
  w3x10 w2x15 w1x30 zeroWord encWords encFrames Encoded encodeSteim1 encodeSteim2 extract push pushAll
  frameWord d8 d16 u32 decWord1 decWord2 decWords applyDiffs decFrames Decoded decodeSteim1 decodeSteim2)

/-- The byte order of the record: the host order, reversed when swapping. -/
def order (hostBE swap : Bool) : Bool := hostBE != swap

theorem num_eq_host (h s : Bool) (b : List UInt8) : hostNat h (swapIf s b) = num (order h s) b := by
  cases h <;> cases s <;> simp [hostNat, swapIf, num, order, beNat]

theorem num_store (h s : Bool) (n v : Nat) (hv : v < 256 ^ n) :
    num (order h s) (swapIf s (hostBytes h n v)) = v := by
  rw [← num_eq_host, host_round_trip h s n v hv]

theorem num_lt (be : Bool) (b : List UInt8) : num be b < 256 ^ b.length := by
  have := hostNat_lt be b
  rw [show num be b = hostNat be b by cases be <;> simp [num, hostNat, beNat]]
  exact this

theorem num_lt16 (be : Bool) (b : List UInt8) (h : b.length = 2) : num be b < 2 ^ 16 := by
  have := num_lt be b
  rw [h] at this
  simpa using this

theorem num_lt32 (be : Bool) (b : List UInt8) (h : b.length = 4) : num be b < 2 ^ 32 := by
  have := num_lt be b
  rw [h] at this
  simpa using this

theorem sext_eq (n v : Nat) (h : v < 2 ^ n) : sext n v = signed n v := by
  unfold sext signed
  rw [Nat.mod_eq_of_lt h]

theorem extract_eq (v s l : Nat) : extract v s l = v / 2 ^ s % 2 ^ l := by
  unfold extract
  rw [Nat.one_shiftLeft, Nat.and_two_pow_sub_one_eq_mod, Nat.shiftRight_eq_div_pow]

theorem fits32_iff (x : Int) : fits32 x = true ↔ isInt32 x := by
  unfold fits32 isInt32; simp

/-! ## Decoders -/

theorem pushAll_eq (cap : Nat) (ds : List Int) : ∀ diff : List Int, diff.length + ds.length ≤ cap →
    pushAll cap diff ds = .ok (diff ++ ds) := by
  induction ds with
  | nil => intro diff _; simp [pushAll]
  | cons d ds ih =>
    intro diff h
    simp only [List.length_cons] at h
    simp only [pushAll, push]
    rw [if_pos (by omega)]
    simp only [Res.bind]
    rw [ih _ (by simp; omega)]
    simp

/-- What the loop over words needs to know about the decoding of one word. -/
def WordDec (dec : Nat → List UInt8 → List Int → Res (List Int))
    (wd : Nat → List UInt8 → Option (List Int)) (m cap : Nat) : Prop :=
  ∀ nib w diff, nib < 4 → w.length = 4 → diff.length + m ≤ cap →
    match wd nib w with
    | some ds => dec nib w diff = .ok (diff ++ ds) ∧ ds.length ≤ m
    | none => dec nib w diff = .err

theorem d8_eq (w : List UInt8) (i : Nat) : d8 w i = signed 8 (w.getD i 0).toNat :=
  sext_eq 8 _ (w.getD i 0).toNat_lt

theorem four (w : List UInt8) (h : w.length = 4) : ∃ a b c d, w = [a, b, c, d] := by
  match w, h with
  | [a, b, c, d], _ => exact ⟨a, b, c, d, rfl⟩

theorem wordDec1 (h s : Bool) : WordDec (decWord1 h s) (word1 (order h s)) 4 60 := by
  intro nib w diff hn hw hd
  obtain ⟨a, b, c, d, rfl⟩ := four w hw
  match nib, hn with
  | 0, _ => simp [word1, decWord1]
  | 1, _ =>
    simp only [word1, decWord1]
    rw [pushAll_eq _ _ _ (by simpa using hd)]
    simp [d8_eq]
  | 2, _ =>
    simp only [word1, decWord1]
    rw [pushAll_eq _ _ _ (by simp; omega)]
    simp only [d16, num_eq_host]
    rw [sext_eq 16 _ (num_lt16 _ _ rfl), sext_eq 16 _ (num_lt16 _ _ rfl)]
    simp
  | 3, _ =>
    simp only [word1, decWord1]
    rw [pushAll_eq _ _ _ (by simp; omega)]
    simp only [u32, num_eq_host]
    rw [sext_eq 32 _ (num_lt32 _ _ rfl)]
    simp

theorem sext_extract (w v s : Nat) : sext w (extract v s w) = signed w (v / 2 ^ s % 2 ^ w) := by
  rw [extract_eq, sext_eq _ _ (Nat.mod_lt _ (Nat.pow_pos (by omega)))]

theorem wordDec2 (h s : Bool) : WordDec (decWord2 h s) (word2 (order h s)) 7 105 := by
  intro nib w diff hn hw hd
  obtain ⟨a, b, c, d, rfl⟩ := four w hw
  have hv : num (order h s) [a, b, c, d] < 2 ^ 32 := num_lt32 (order h s) [a, b, c, d] rfl
  have hx : extract (num (order h s) [a, b, c, d]) 30 2 = num (order h s) [a, b, c, d] / 2 ^ 30 := by
    rw [extract_eq]; omega
  have ht : num (order h s) [a, b, c, d] / 2 ^ 30 < 4 := by omega
  simp only [decWord2, u32, num_eq_host, hx]
  match nib, hn with
  | 0, _ => simp [word2]
  | 1, _ =>
    simp only [word2]
    rw [pushAll_eq _ _ _ (by simp; omega)]
    simp [d8_eq]
  | 2, _ =>
    simp only [word2]
    generalize num (order h s) [a, b, c, d] / 2 ^ 30 = t at ht ⊢
    match t, ht with
    | 0, _ => rfl
    | 1, _ =>
      simp only
      rw [pushAll_eq _ _ _ (by simp; omega), sext_extract]
      simp [fields]
    | 2, _ =>
      simp only
      rw [pushAll_eq _ _ _ (by simp; omega)]
      simp [fields, sext_extract, List.range, List.range.loop]
    | 3, _ =>
      simp only
      rw [pushAll_eq _ _ _ (by simp; omega)]
      simp [fields, sext_extract, List.range, List.range.loop]
  | 3, _ =>
    simp only [word2]
    generalize num (order h s) [a, b, c, d] / 2 ^ 30 = t at ht ⊢
    match t, ht with
    | 0, _ =>
      simp only
      rw [pushAll_eq _ _ _ (by simp; omega)]
      simp [fields, sext_extract, List.range, List.range.loop]
    | 1, _ =>
      simp only
      rw [pushAll_eq _ _ _ (by simp; omega)]
      simp [fields, sext_extract, List.range, List.range.loop]
    | 2, _ =>
      simp only
      rw [pushAll_eq _ _ _ (by simp; omega)]
      simp [fields, sext_extract, List.range, List.range.loop]
    | 3, _ => rfl

theorem code_eq (ctrl i : Nat) (hi : i ≤ 15) : extract ctrl (30 - 2 * i) 2 = code ctrl i := by
  rw [extract_eq, code]
  congr 2
  rw [show 30 - 2 * i = 2 * (15 - i) by omega, Nat.pow_mul]

theorem code_lt (ctrl i : Nat) : code ctrl i < 4 := Nat.mod_lt _ (by omega)

theorem decWords_spec {dec wd m cap} (H : WordDec dec wd m cap) (ctrl : Nat) (frame : List UInt8)
    (hf : frame.length = 64) : ∀ k diff, k ≤ 16 → diff.length + m * k ≤ cap →
    decWords dec ctrl frame k diff =
      match wordsDiffs wd ctrl (16 - k) ((List.range' (16 - k) k).map (frameWord frame)) with
      | some ds => .ok (diff ++ ds)
      | none => .err := by
  intro k
  induction k with
  | zero => intro diff _ _; simp [decWords, wordsDiffs]
  | succ k ih =>
    intro diff hk hc
    have hw : (frameWord frame (16 - (k + 1))).length = 4 := by
      simp [frameWord, hf]; omega
    have hm : m * (k + 1) = m * k + m := Nat.mul_succ m k
    have h1 := H (code ctrl (16 - (k + 1))) _ diff (code_lt _ _) hw (by omega)
    rw [List.range'_succ, List.map_cons]
    simp only [decWords, wordsDiffs, code_eq ctrl (16 - (k + 1)) (by omega)]
    have e : 16 - (k + 1) + 1 = 16 - k := by omega
    rw [e]
    cases hwd : wd (code ctrl (16 - (k + 1))) (frameWord frame (16 - (k + 1))) with
    | none => rw [hwd] at h1; simp only at h1; rw [h1]; simp [Res.bind]
    | some ds =>
      rw [hwd] at h1
      simp only at h1
      rw [h1.1]
      simp only [Res.bind, Option.bind_some]
      rw [ih _ (by omega) (by simp; omega)]
      cases wordsDiffs wd ctrl (16 - k) ((List.range' (16 - k) k).map (frameWord frame)) with
      | none => simp
      | some r => simp

theorem integrate_length (last : Int) (ds : List Int) : (integrate last ds).length = ds.length := by
  induction ds generalizing last with
  | nil => rfl
  | cons d ds ih => simp [integrate, ih]

/-- All values fit 32 bits. -/
def All32 (l : List Int) : Prop := ∀ x ∈ l, isInt32 x

theorem applyDiffs_spec (sc oc : Nat) (hso : sc ≤ oc) : ∀ (ds output : List Int) (last : Int),
    output.getLast? = some last → output.length ≤ sc →
    (All32 ((integrate last ds).take (sc - output.length)) ∧
      applyDiffs sc oc ds output = .ok (output ++ (integrate last ds).take (sc - output.length))) ∨
    (¬ All32 ((integrate last ds).take (sc - output.length)) ∧ applyDiffs sc oc ds output = .ub) := by
  intro ds
  induction ds with
  | nil => intro output last _ _; left; simp [integrate, applyDiffs, All32]
  | cons d ds ih =>
    intro output last hl ho
    simp only [applyDiffs, hl, integrate]
    by_cases hlt : output.length < sc
    · rw [if_pos hlt]
      obtain ⟨r, hr⟩ : ∃ r, sc - output.length = r + 1 := ⟨sc - output.length - 1, by omega⟩
      rw [hr, List.take_succ_cons]
      by_cases hf : fits32 (last + d) = true
      · simp only [hf, not_true_eq_false, if_false]
        rw [if_pos (by omega)]
        have := ih (output ++ [last + d]) (last + d) (by simp) (by simp; omega)
        have e : sc - (output ++ [last + d]).length = r := by simp; omega
        rw [e] at this
        have hi := (fits32_iff _).1 hf
        rcases this with ⟨h1, h2⟩ | ⟨h1, h2⟩
        · left
          refine ⟨?_, ?_⟩
          · intro x hx
            rcases List.mem_cons.1 hx with rfl | hx
            · exact hi
            · exact h1 x hx
          · rw [h2]; simp
        · right
          refine ⟨fun h => h1 fun x hx => h x (List.mem_cons_of_mem _ hx), h2⟩
      · right
        refine ⟨fun h => hf ((fits32_iff _).2 (h _ List.mem_cons_self)), ?_⟩
        simp [hf]
    · rw [if_neg hlt]
      have e : sc - output.length = 0 := by omega
      left; simp [e, All32]

/-- Relation between the result of the frame loop and the specification. -/
def Rel (r : Res (List Int × Int)) (output : List Int) (xn : Int) (spec : Option (List Int)) : Prop :=
  match r with
  | .ok (o, x) => x = xn ∧ ∃ ds, spec = some ds ∧ o = output ++ ds ∧ All32 ds
  | .err => spec = none
  | .ub => ∀ ds, spec = some ds → ¬ All32 ds
  | .oob => False

theorem frameAt_drop (input : List UInt8) (j start : Nat) :
    (frameAt input j).drop start =
      (List.range' start (16 - start)).map fun i => (input.drop (64 * j + 4 * i)).take 4 := by
  unfold frameAt
  rw [← List.map_drop, List.drop_range']
  simp

theorem frameWord_eq (input : List UInt8) (j i : Nat) (hi : i < 16) :
    frameWord ((input.drop (64 * j)).take 64) i = (input.drop (64 * j + 4 * i)).take 4 := by
  unfold frameWord
  rw [List.drop_take, List.drop_drop, List.take_take]
  congr 1
  omega

theorem frame_words (input : List UInt8) (j start : Nat) :
    (List.range' start (16 - start)).map (frameWord ((input.drop (64 * j)).take 64)) =
      (frameAt input j).drop start := by
  rw [frameAt_drop]
  apply List.map_congr_left
  intro i hi
  rw [List.mem_range'_1] at hi
  exact frameWord_eq input j i (by omega)

theorem word_frameAt (input : List UInt8) (j i : Nat) (hi : i < 16) :
    word (frameAt input j) i = frameWord ((input.drop (64 * j)).take 64) i := by
  rw [frameWord_eq input j i hi]
  unfold word frameAt
  simp [List.getD_eq_getElem?_getD, List.getElem?_map, List.getElem?_range', hi]

theorem All32_append (a b : List Int) : All32 (a ++ b) ↔ All32 a ∧ All32 b := by
  constructor
  · intro h
    exact ⟨fun x hx => h x (by simp [hx]), fun x hx => h x (by simp [hx])⟩
  · intro h x hx
    rcases List.mem_append.1 hx with hx | hx
    · exact h.1 x hx
    · exact h.2 x hx

theorem getLastD_append (out ds : List Int) (last : Int) (h : out.getLast? = some last) :
    (out ++ ds).getLast? = some (ds.getLastD last) := by
  rw [List.getLast?_append]
  cases hd : ds.getLast? with
  | none =>
    rw [List.getLast?_eq_none_iff] at hd
    subst hd; simp [h]
  | some x =>
    simp [List.getLastD_eq_getLast?, hd]

theorem decFrames_rest {dec wd m cap} (hb sw : Bool) (H : WordDec dec wd m cap) (hcap : m * 15 ≤ cap)
    (input : List UInt8) (sc oc : Nat) (hso : sc ≤ oc) : ∀ n idx output xn last, 1 ≤ idx →
    64 * (idx + n) ≤ input.length → output.getLast? = some last → output.length ≤ sc →
    Rel (decFrames hb sw dec input sc oc n idx output xn) output xn
      (decodeRest wd (order hb sw) (sc - output.length) last
        ((List.range' idx n).map (frameAt input))) := by
  intro n
  induction n with
  | zero =>
    intro idx output xn last _ _ _ _
    simp [decFrames, decodeRest, Rel, All32]
  | succ n ih =>
    intro idx output xn last hidx hlen hl ho
    rw [List.range'_succ, List.map_cons]
    simp only [decFrames, decodeRest]
    by_cases hlt : output.length < sc
    · rw [if_pos hlt, if_neg (by omega : ¬ (sc - output.length = 0)), if_neg (by omega),
        if_neg (by omega : ¬ idx = 0)]
      have hf : ((input.drop (64 * idx)).take 64).length = 64 := by simp; omega
      rw [decWords_spec H _ _ hf 15 [] (by omega) (by simpa using hcap)]
      unfold frameDiffs
      have e15 : (16 : Nat) - 15 = 1 := rfl
      rw [e15, show (15 : Nat) = 16 - 1 from rfl, frame_words, u32, num_eq_host,
        word_frameAt input idx 0 (by omega)]
      cases hwd : wordsDiffs wd (num (order hb sw) (frameWord ((input.drop (64 * idx)).take 64) 0)) 1
          ((frameAt input idx).drop 1) with
      | none => simp [Res.bind, Rel]
      | some ds =>
        simp only [Res.bind, Option.bind_some, List.nil_append]
        rcases applyDiffs_spec sc oc hso ds output last hl ho with ⟨h1, h2⟩ | ⟨h1, h2⟩
        · rw [h2]
          simp only
          have hl2 := getLastD_append output ((integrate last ds).take (sc - output.length)) last hl
          have := ih (idx + 1) (output ++ (integrate last ds).take (sc - output.length)) xn _
            (by omega) (by omega) hl2 (by simp; omega)
          have e : sc - (output ++ (integrate last ds).take (sc - output.length)).length
              = sc - output.length - ((integrate last ds).take (sc - output.length)).length := by
            simp only [List.length_append]; omega
          rw [e] at this
          generalize decFrames hb sw dec input sc oc n (idx + 1)
            (output ++ (integrate last ds).take (sc - output.length)) xn = r at this ⊢
          generalize decodeRest wd (order hb sw) _ _ _ = sp at this ⊢
          cases r with
          | ok v =>
            obtain ⟨o, x⟩ := v
            obtain ⟨hx, ds', hs, ho', ha⟩ := this
            refine ⟨hx, _, by rw [hs]; rfl, ?_, ?_⟩
            · rw [ho']; simp
            · exact (All32_append _ _).2 ⟨h1, ha⟩
          | err =>
            have : sp = none := this
            simp [Rel, this]
          | ub =>
            intro ds' hd
            cases hsp : sp with
            | none => rw [hsp] at hd; simp at hd
            | some q =>
              rw [hsp] at hd
              simp only [Option.map_some, Option.some.injEq] at hd
              intro hall
              rw [← hd, All32_append] at hall
              exact this q hsp hall.2
          | oob => exact this
        · rw [h2]
          intro ds' hd hall
          cases hsp : decodeRest wd (order hb sw)
              (sc - output.length - ((integrate last ds).take (sc - output.length)).length)
              (((integrate last ds).take (sc - output.length)).getLastD last)
              ((List.range' (idx + 1) n).map (frameAt input)) with
          | none => rw [hsp] at hd; simp at hd
          | some q =>
            rw [hsp] at hd
            simp only [Option.map_some, Option.some.injEq] at hd
            rw [← hd, All32_append] at hall
            exact h1 hall.1
    · rw [if_neg hlt, if_pos (by omega)]
      simp [Rel, All32]

theorem signed32_int32 (v : Nat) (h : v < 2 ^ 32) : isInt32 (signed 32 v) := by
  unfold signed isInt32
  split <;> omega

theorem word_len (input : List UInt8) (j i : Nat) (hi : i < 16) (hl : 64 * j + 64 ≤ input.length) :
    (word (frameAt input j) i).length = 4 := by
  rw [word_frameAt _ _ _ hi, frameWord_eq _ _ _ hi]
  simp; omega

theorem decFrames_spec {dec wd m cap} (hb sw : Bool) (H : WordDec dec wd m cap) (hcap : m * 15 ≤ cap)
    (input : List UInt8) (sc oc n : Nat) (hsc : 1 ≤ sc) (hso : sc ≤ oc) (hn : 1 ≤ n)
    (hlen : 64 * n ≤ input.length) :
    Rel (decFrames hb sw dec input sc oc n 0 [] 0) []
      (lastSample (order hb sw) ((List.range' 0 n).map (frameAt input)))
      (Verif.Spec.Steim.decode wd (order hb sw) sc ((List.range' 0 n).map (frameAt input))) := by
  obtain ⟨n, rfl⟩ : ∃ k, n = k + 1 := ⟨n - 1, by omega⟩
  rw [List.range'_succ, List.map_cons]
  simp only [decFrames, Verif.Spec.Steim.decode, lastSample, List.headD_cons]
  rw [if_pos (by simp; omega), if_neg (by omega), if_pos trivial, if_neg (by omega)]
  have hf : ((input.drop (64 * 0)).take 64).length = 64 := by simp; omega
  rw [decWords_spec H _ _ hf 13 [] (by omega) (by simp; omega)]
  unfold frameDiffs
  rw [show (16 : Nat) - 13 = 3 from rfl, show (13 : Nat) = 16 - 3 from rfl, frame_words, u32, num_eq_host,
    word_frameAt input 0 0 (by omega), word_frameAt input 0 1 (by omega),
    word_frameAt input 0 2 (by omega)]
  have b1 : num (order hb sw) (frameWord ((input.drop (64 * 0)).take 64) 1) < 2 ^ 32 := by
    have := num_lt (order hb sw) (frameWord ((input.drop (64 * 0)).take 64) 1)
    rw [← word_frameAt input 0 1 (by omega), word_len input 0 1 (by omega) (by omega)] at this
    rw [← word_frameAt input 0 1 (by omega)]
    simpa using this
  have b2 : num (order hb sw) (frameWord ((input.drop (64 * 0)).take 64) 2) < 2 ^ 32 := by
    have := num_lt (order hb sw) (frameWord ((input.drop (64 * 0)).take 64) 2)
    rw [← word_frameAt input 0 2 (by omega), word_len input 0 2 (by omega) (by omega)] at this
    rw [← word_frameAt input 0 2 (by omega)]
    simpa using this
  simp only [u32, num_eq_host, sext_eq 32 _ b1, sext_eq 32 _ b2]
  have x0ok := signed32_int32 _ b1
  generalize signed 32 (num (order hb sw) (frameWord ((input.drop (64 * 0)).take 64) 1)) = x0 at *
  generalize signed 32 (num (order hb sw) (frameWord ((input.drop (64 * 0)).take 64) 2)) = xn at *
  cases hwd : wordsDiffs wd (num (order hb sw) (frameWord ((input.drop (64 * 0)).take 64) 0)) 3
      ((frameAt input 0).drop 3) with
  | none => simp [Res.bind, Rel]
  | some ds =>
    simp only [Res.bind, Option.bind_some, List.nil_append]
    rcases applyDiffs_spec sc oc hso (ds.drop 1) [x0] x0 rfl (by simpa using hsc) with ⟨h1, h2⟩ | ⟨h1, h2⟩
    · rw [h2]
      simp only [List.length_singleton] at h1 h2 ⊢
      have hl2 := getLastD_append [x0] ((integrate x0 (ds.drop 1)).take (sc - 1)) x0 rfl
      have hlen2 : ([x0] ++ (integrate x0 (ds.drop 1)).take (sc - 1)).length ≤ sc := by
        simp; omega
      have := decFrames_rest hb sw H hcap input sc oc hso n 1
        ([x0] ++ (integrate x0 (ds.drop 1)).take (sc - 1)) xn _ (by omega) (by omega) hl2 hlen2
      have eg : (x0 :: (integrate x0 (ds.drop 1)).take (sc - 1)).getLastD x0
          = ((integrate x0 (ds.drop 1)).take (sc - 1)).getLastD x0 := by
        cases (integrate x0 (ds.drop 1)).take (sc - 1) <;> rfl
      rw [eg]
      have ec : x0 :: (integrate x0 (ds.drop 1)).take (sc - 1)
          = [x0] ++ (integrate x0 (ds.drop 1)).take (sc - 1) := rfl
      rw [ec]
      have hall : All32 ([x0] ++ (integrate x0 (ds.drop 1)).take (sc - 1)) :=
        (All32_append _ _).2 ⟨by intro x hx; simp at hx; subst hx; exact x0ok, h1⟩
      generalize [x0] ++ (integrate x0 (ds.drop 1)).take (sc - 1) = out at *
      generalize ((integrate x0 (ds.drop 1)).take (sc - 1)).getLastD x0 = lst at *
      simp only [Nat.zero_add]
      generalize decFrames hb sw dec input sc oc n 1 out xn = r at this ⊢
      generalize decodeRest wd (order hb sw) _ _ _ = sp at this ⊢
      cases r with
      | ok v =>
        obtain ⟨o, x⟩ := v
        obtain ⟨hx, ds', hs, ho', ha⟩ := this
        refine ⟨hx, _, by rw [hs]; rfl, ?_, ?_⟩
        · rw [ho']; simp
        · exact (All32_append _ _).2 ⟨hall, ha⟩
      | err =>
        have : sp = none := this
        simp [Rel, this]
      | ub =>
        intro ds' hd
        cases hsp : sp with
        | none => rw [hsp] at hd; simp at hd
        | some q =>
          rw [hsp] at hd
          simp only [Option.map_some, Option.some.injEq] at hd
          intro hall
          rw [← hd, All32_append] at hall
          exact this q hsp hall.2
      | oob => exact this
    · rw [h2]
      simp only [List.length_singleton] at h1
      intro ds' hd hall
      simp only [Option.map_eq_some_iff] at hd
      obtain ⟨q, _, hd⟩ := hd
      rw [← hd, All32_append] at hall
      exact h1 fun x hx => hall.1 x (List.mem_cons_of_mem _ hx)

/-! ## Encoders -/

/-- Differences of consecutive samples, the first relative to `last`. -/
def deltas : Int → List Int → List Int
  | _, [] => []
  | last, x :: xs => (x - last) :: deltas x xs

theorem deltas_length (last : Int) (xs : List Int) : (deltas last xs).length = xs.length := by
  induction xs generalizing last with
  | nil => rfl
  | cons x xs ih => simp [deltas, ih]

theorem integrate_deltas (last : Int) (xs : List Int) (c : Nat) :
    integrate last ((deltas last xs).take c) = xs.take c := by
  induction xs generalizing last c with
  | nil => simp [deltas, integrate]
  | cons x xs ih =>
    cases c with
    | zero => simp [integrate]
    | succ c =>
      simp only [deltas, List.take_succ_cons, integrate]
      have e : last + (x - last) = x := by omega
      rw [e, ih]

theorem deltas_drop (last : Int) (xs : List Int) (c : Nat) :
    (deltas last xs).drop c = deltas ((xs.take c).getLastD last) (xs.drop c) := by
  induction xs generalizing last c with
  | nil => simp [deltas]
  | cons x xs ih =>
    cases c with
    | zero => simp
    | succ c =>
      simp only [deltas, List.drop_succ_cons, List.take_succ_cons]
      rw [ih]
      congr 1
      cases xs.take c <;> rfl

theorem fill_spec (cap : Nat) : ∀ (rest : List Int) (diffs : List Int) (prev : Int),
    diffs.length ≤ cap → All32 diffs →
    match fill cap diffs prev rest with
    | .ok (d, p, r) => d ++ deltas p r = diffs ++ deltas prev rest ∧ d.length ≤ cap ∧ All32 d ∧
        (1 ≤ cap → diffs ++ deltas prev rest ≠ [] → d ≠ [])
    | .err => False
    | .ub => ¬ All32 (deltas prev rest)
    | .oob => False := by
  intro rest
  induction rest with
  | nil =>
    intro diffs prev hl ha
    simp [fill, hl, ha, deltas]
  | cons x rest ih =>
    intro diffs prev hl ha
    simp only [fill]
    by_cases hlt : diffs.length < cap
    · rw [if_pos hlt]
      by_cases hf : fits32 (x - prev) = true
      · rw [if_pos hf]
        have hx := (fits32_iff _).1 hf
        have ha' : All32 (diffs ++ [x - prev]) := (All32_append _ _).2 ⟨ha, by
          intro y hy; simp at hy; subst hy; exact hx⟩
        have := ih (diffs ++ [x - prev]) x (by simp; omega) ha'
        cases hfl : fill cap (diffs ++ [x - prev]) x rest with
        | ok v =>
          obtain ⟨d, p, r⟩ := v
          rw [hfl] at this
          simp only [deltas] at this ⊢
          refine ⟨by rw [this.1]; simp, this.2.1, this.2.2.1, fun h _ => this.2.2.2 h (by simp)⟩
        | err => rw [hfl] at this; exact this
        | ub =>
          rw [hfl] at this
          simp only [deltas] at this ⊢
          exact fun h => this fun y hy => h y (List.mem_cons_of_mem _ hy)
        | oob => rw [hfl] at this; exact this
      · rw [if_neg hf]
        simp only [deltas]
        exact fun h => hf ((fits32_iff _).2 (h _ List.mem_cons_self))
    · rw [if_neg hlt]
      refine ⟨rfl, hl, ha, ?_⟩
      intro hc _ h
      subst h
      simp at hlt; omega

/-- What the loop over words needs to know about the packing of one word. -/
def WordEnc (pack : List Int → Res Packed) (wd : Nat → List UInt8 → Option (List Int)) (cap : Nat)
    (mayFail : Prop) (Q : Int → Prop) : Prop :=
  (∀ w, wd 0 w = some []) ∧
  ∀ diffs, diffs.length ≤ cap → All32 diffs → diffs ≠ [] →
    match pack diffs with
    | .ok p => 1 ≤ p.count ∧ p.count ≤ diffs.length ∧ p.code < 4 ∧ p.bytes.length = 4 ∧
        wd p.code p.bytes = some (diffs.take p.count) ∧ (∀ d ∈ diffs.take p.count, Q d)
    | .err => mayFail ∧ ∃ d rest, diffs = d :: rest ∧ ¬ (-536870912 ≤ d ∧ d ≤ 536870911)
    | .ub => False
    | .oob => False

theorem or_shift (x y s : Nat) (h : x % 2 ^ s = 0) (hy : y < 2 ^ s) : x ||| y = x + y := by
  have e : x = 2 ^ s * (x / 2 ^ s) := by
    have := Nat.div_add_mod x (2 ^ s); omega
  rw [e]
  rw [← Nat.two_pow_add_eq_or_of_lt hy]

theorem or_low (x y s : Nat) (h : x < 2 ^ s) : x ||| y <<< s = x + 2 ^ s * y := by
  rw [Nat.shiftLeft_eq, Nat.mul_comm y, Nat.or_comm, ← Nat.two_pow_add_eq_or_of_lt h]
  omega

theorem bits_mod (n m : Nat) (h : n ≤ m) (v : Int) : bits m v % 2 ^ n = bits n v := by
  have h1 : (0 : Int) < 2 ^ n := Int.pow_pos (by decide)
  have h2 : (0 : Int) < 2 ^ m := Int.pow_pos (by decide)
  have hd : (2 : Int) ^ n ∣ 2 ^ m := by
    obtain ⟨k, rfl⟩ := Nat.exists_eq_add_of_le h
    exact ⟨2 ^ k, by rw [Int.pow_add]⟩
  have e1 : ((bits m v : Nat) : Int) = v % 2 ^ m := by
    unfold bits; exact Int.toNat_of_nonneg (Int.emod_nonneg v (by omega))
  have e2 : ((bits n v : Nat) : Int) = v % 2 ^ n := by
    unfold bits; exact Int.toNat_of_nonneg (Int.emod_nonneg v (by omega))
  have : ((bits m v % 2 ^ n : Nat) : Int) = ((bits n v : Nat) : Int) := by
    rw [e2, Int.natCast_emod, e1]
    have : ((2 ^ n : Nat) : Int) = 2 ^ n := by simp
    rw [this, Int.emod_emod_of_dvd _ hd]
  omega

theorem msk_eq (d : Int) (n : Nat) (h : n ≤ 32) : msk d (2 ^ n - 1) = bits n d := by
  unfold msk
  rw [Nat.and_two_pow_sub_one_eq_mod, bits_mod n 32 h]

/-- Signed reading of the `n`-bit pattern gives back a value that fits. -/
theorem signed_bits (n : Nat) (hn : 1 ≤ n) (v : Int) (h1 : -(2 ^ (n - 1)) ≤ v) (h2 : v < 2 ^ (n - 1)) :
    signed n (bits n v) = v := by
  obtain ⟨k, rfl⟩ : ∃ k, n = k + 1 := ⟨n - 1, by omega⟩
  simp only [Nat.add_sub_cancel] at h1 h2
  have hp : (0 : Int) < 2 ^ k := Int.pow_pos (by decide)
  have e : (2 : Int) ^ (k + 1) = 2 * 2 ^ k := by rw [Int.pow_succ]; omega
  have ec : ((2 ^ k : Nat) : Int) = 2 ^ k := by simp
  have e1 : ((bits (k + 1) v : Nat) : Int) = v % 2 ^ (k + 1) := by
    unfold bits; exact Int.toNat_of_nonneg (Int.emod_nonneg v (by omega))
  unfold signed
  simp only [Nat.add_sub_cancel]
  by_cases hv : 0 ≤ v
  · have : v % 2 ^ (k + 1) = v := Int.emod_eq_of_lt hv (by omega)
    rw [if_pos (by omega)]
    omega
  · have : v % 2 ^ (k + 1) = v + 2 ^ (k + 1) := by
      rw [← Int.add_emod_right]
      exact Int.emod_eq_of_lt (by omega) (by omega)
    rw [if_neg (by omega)]
    omega

theorem bitwidth_le (d : Int) : (bitwidth d ≤ 4 → -8 ≤ d ∧ d ≤ 7) ∧ (bitwidth d ≤ 5 → -16 ≤ d ∧ d ≤ 15)
    ∧ (bitwidth d ≤ 6 → -32 ≤ d ∧ d ≤ 31) ∧ (bitwidth d ≤ 8 → -128 ≤ d ∧ d ≤ 127)
    ∧ (bitwidth d ≤ 10 → -512 ≤ d ∧ d ≤ 511) ∧ (bitwidth d ≤ 15 → -16384 ≤ d ∧ d ≤ 16383)
    ∧ (bitwidth d ≤ 16 → -32768 ≤ d ∧ d ≤ 32767)
    ∧ (bitwidth d ≤ 30 ↔ -536870912 ≤ d ∧ d ≤ 536870911) := by
  unfold bitwidth
  split
  · omega
  split
  · omega
  split
  · omega
  split
  · omega
  split
  · omega
  split
  · omega
  split
  · omega
  split
  · omega
  omega

theorem fitsN_iff (n w : Nat) (diffs : List Int) :
    fitsN n w diffs = true ↔ n ≤ diffs.length ∧ ∀ d ∈ diffs.take n, bitwidth d ≤ w := by
  unfold fitsN; simp [List.all_eq_true]

theorem list1 (l : List Int) (h : 1 ≤ l.length) : ∃ a r, l = a :: r := by
  match l, h with
  | a :: r, _ => exact ⟨a, r, rfl⟩
theorem list2 (l : List Int) (h : 2 ≤ l.length) : ∃ a b r, l = a :: b :: r := by
  match l, h with
  | a :: b :: r, _ => exact ⟨a, b, r, rfl⟩
theorem list3 (l : List Int) (h : 3 ≤ l.length) : ∃ a b c r, l = a :: b :: c :: r := by
  match l, h with
  | a :: b :: c :: r, _ => exact ⟨a, b, c, r, rfl⟩
theorem list4 (l : List Int) (h : 4 ≤ l.length) : ∃ a b c d r, l = a :: b :: c :: d :: r := by
  match l, h with
  | a :: b :: c :: d :: r, _ => exact ⟨a, b, c, d, r, rfl⟩
theorem list5 (l : List Int) (h : 5 ≤ l.length) : ∃ a b c d e r, l = a :: b :: c :: d :: e :: r := by
  match l, h with
  | a :: b :: c :: d :: e :: r, _ => exact ⟨a, b, c, d, e, r, rfl⟩
theorem list6 (l : List Int) (h : 6 ≤ l.length) :
    ∃ a b c d e f r, l = a :: b :: c :: d :: e :: f :: r := by
  match l, h with
  | a :: b :: c :: d :: e :: f :: r, _ => exact ⟨a, b, c, d, e, f, r, rfl⟩
theorem list7 (l : List Int) (h : 7 ≤ l.length) :
    ∃ a b c d e f g r, l = a :: b :: c :: d :: e :: f :: g :: r := by
  match l, h with
  | a :: b :: c :: d :: e :: f :: g :: r, _ => exact ⟨a, b, c, d, e, f, g, r, rfl⟩

theorem u8_bits (d : Int) : (UInt8.ofNat (bits 8 d)).toNat = bits 8 d := by
  have := bits_lt 8 d
  simp only [UInt8.toNat_ofNat']
  omega

theorem signed8 (d : Int) (h : -128 ≤ d ∧ d ≤ 127) : signed 8 (bits 8 d) = d :=
  signed_bits 8 (by omega) d (by simpa using h.1) (by have := h.2; simp; omega)

theorem signed16 (d : Int) (h : -32768 ≤ d ∧ d ≤ 32767) : signed 16 (bits 16 d) = d :=
  signed_bits 16 (by omega) d (by simpa using h.1) (by have := h.2; simp; omega)

theorem signed32 (d : Int) (h : isInt32 d) : signed 32 (bits 32 d) = d :=
  signed_bits 32 (by omega) d (by simpa using h.1) (by have := h.2; simp; omega)

theorem stored_length (h s : Bool) (n v : Nat) : (swapIf s (hostBytes h n v)).length = n := by
  rw [swapIf_length, hostBytes_length]

theorem num_store32 (h s : Bool) (v : Nat) (hv : v < 2 ^ 32) :
    num (order h s) (swapIf s (hostBytes h 4 v)) = v :=
  num_store h s 4 v (by simpa using hv)

theorem num_store16 (h s : Bool) (v : Nat) (hv : v < 2 ^ 16) :
    num (order h s) (swapIf s (hostBytes h 2 v)) = v :=
  num_store h s 2 v (by simpa using hv)

theorem wordEnc1 (h s : Bool) : WordEnc (packWord1 h s) (word1 (order h s)) 4 False (fun _ => True) := by
  refine ⟨fun w => rfl, ?_⟩
  intro diffs hl ha hne
  unfold packWord1
  simp only
  by_cases h4 : fitsN 4 8 diffs = true
  · rw [if_pos h4]
    rw [fitsN_iff] at h4
    obtain ⟨h4l, h4⟩ := h4
    obtain ⟨a, b, c, d, r, rfl⟩ := list4 diffs h4l
    refine ⟨by simp, h4l, by simp, rfl, ?_, fun _ _ => trivial⟩
    have ka := (bitwidth_le a).2.2.2.1 (h4 a (by simp))
    have kb := (bitwidth_le b).2.2.2.1 (h4 b (by simp))
    have kc := (bitwidth_le c).2.2.2.1 (h4 c (by simp))
    have kd := (bitwidth_le d).2.2.2.1 (h4 d (by simp))
    simp only [word1, List.map_cons, List.map_nil, u8_bits, List.getD_cons_zero,
      List.getD_cons_succ, signed8 _ ka, signed8 _ kb, signed8 _ kc, signed8 _ kd]
    rfl
  · rw [if_neg h4]
    by_cases h2 : fitsN 2 16 diffs = true
    · rw [if_pos h2]
      rw [fitsN_iff] at h2
      obtain ⟨h2l, h2⟩ := h2
      obtain ⟨a, b, r, rfl⟩ := list2 diffs h2l
      have ka := (bitwidth_le a).2.2.2.2.2.2.1 (h2 a (by simp))
      have kb := (bitwidth_le b).2.2.2.2.2.2.1 (h2 b (by simp))
      refine ⟨by simp, h2l, by simp, by simp [stored_length], ?_, fun _ _ => trivial⟩
      have la := stored_length h s 2 (bits 16 a)
      simp only [word1, List.getD_cons_zero, List.getD_cons_succ]
      rw [List.take_left' la, List.drop_left' la, num_store16 _ _ _ (bits_lt 16 _),
        num_store16 _ _ _ (bits_lt 16 _), signed16 _ ka, signed16 _ kb]
      rfl
    · rw [if_neg h2, if_neg hne]
      obtain ⟨a, r, rfl⟩ := list1 diffs (by
        cases diffs with
        | nil => exact absurd rfl hne
        | cons _ _ => simp)
      refine ⟨by simp, by simp, by simp, by simp [stored_length], ?_, fun _ _ => trivial⟩
      simp only [word1, List.getD_cons_zero]
      rw [num_store32 _ _ _ (bits_lt 32 _), signed32 _ (ha a (by simp))]
      rfl



theorem w7x4_spec (h s : Bool) (a b c d e f g : Int) (r : List Int)
    (ka : -8 ≤ a ∧ a ≤ 7)    (kb : -8 ≤ b ∧ b ≤ 7)    (kc : -8 ≤ c ∧ c ≤ 7)    (kd : -8 ≤ d ∧ d ≤ 7)    (ke : -8 ≤ e ∧ e ≤ 7)    (kf : -8 ≤ f ∧ f ≤ 7)    (kg : -8 ≤ g ∧ g ≤ 7) :
    word2 (order h s) 3 (swapIf s (hostBytes h 4 (w7x4 fun i => (a :: b :: c :: d :: e :: f :: g :: r).getD i 0)))
      = some [a, b, c, d, e, f, g] := by
  have hval : w7x4 (fun i => (a :: b :: c :: d :: e :: f :: g :: r).getD i 0) = bits 4 g + 16 * bits 4 f + 256 * bits 4 e + 4096 * bits 4 d + 65536 * bits 4 c + 1048576 * bits 4 b + 16777216 * bits 4 a + 2147483648 := by
    unfold w7x4
    simp only [List.getD_cons_zero, List.getD_cons_succ]
    rw [show (0xf : Nat) = 2 ^ 4 - 1 from rfl]
    simp only [msk_eq _ 4 (by omega)]
    have ba := bits_lt 4 a
    have bb := bits_lt 4 b
    have bc := bits_lt 4 c
    have bd := bits_lt 4 d
    have be := bits_lt 4 e
    have bf := bits_lt 4 f
    have bg := bits_lt 4 g
    rw [or_low _ _ 4 (by omega)]
    rw [or_low _ _ 8 (by omega)]
    rw [or_low _ _ 12 (by omega)]
    rw [or_low _ _ 16 (by omega)]
    rw [or_low _ _ 20 (by omega)]
    rw [or_low _ _ 24 (by omega)]
    rw [or_low _ _ 30 (by omega)]
  have ba := bits_lt 4 a
  have bb := bits_lt 4 b
  have bc := bits_lt 4 c
  have bd := bits_lt 4 d
  have be := bits_lt 4 e
  have bf := bits_lt 4 f
  have bg := bits_lt 4 g
  have sa : signed 4 (bits 4 a) = a := signed_bits 4 (by omega) a (by simp; omega) (by simp; omega)
  have sb : signed 4 (bits 4 b) = b := signed_bits 4 (by omega) b (by simp; omega) (by simp; omega)
  have sc : signed 4 (bits 4 c) = c := signed_bits 4 (by omega) c (by simp; omega) (by simp; omega)
  have sd : signed 4 (bits 4 d) = d := signed_bits 4 (by omega) d (by simp; omega) (by simp; omega)
  have se : signed 4 (bits 4 e) = e := signed_bits 4 (by omega) e (by simp; omega) (by simp; omega)
  have sf : signed 4 (bits 4 f) = f := signed_bits 4 (by omega) f (by simp; omega) (by simp; omega)
  have sg : signed 4 (bits 4 g) = g := signed_bits 4 (by omega) g (by simp; omega) (by simp; omega)
  rw [hval]
  unfold word2
  simp only []
  rw [num_store32 _ _ _ (by omega)]
  have ht : (bits 4 g + 16 * bits 4 f + 256 * bits 4 e + 4096 * bits 4 d + 65536 * bits 4 c + 1048576 * bits 4 b + 16777216 * bits 4 a + 2147483648) / 2 ^ 30 = 2 := by omega
  rw [ht]
  simp only []
  have hf : fields 7 4 (bits 4 g + 16 * bits 4 f + 256 * bits 4 e + 4096 * bits 4 d + 65536 * bits 4 c + 1048576 * bits 4 b + 16777216 * bits 4 a + 2147483648) = [a, b, c, d, e, f, g] := by
    simp only [fields, List.range, List.range.loop, List.map_cons, List.map_nil, Nat.reduceSub, Nat.reduceMul, Nat.reducePow]
    have f0 : (bits 4 g + 16 * bits 4 f + 256 * bits 4 e + 4096 * bits 4 d + 65536 * bits 4 c + 1048576 * bits 4 b + 16777216 * bits 4 a + 2147483648) / 16777216 % 16 = bits 4 a := by omega
    have f1 : (bits 4 g + 16 * bits 4 f + 256 * bits 4 e + 4096 * bits 4 d + 65536 * bits 4 c + 1048576 * bits 4 b + 16777216 * bits 4 a + 2147483648) / 1048576 % 16 = bits 4 b := by omega
    have f2 : (bits 4 g + 16 * bits 4 f + 256 * bits 4 e + 4096 * bits 4 d + 65536 * bits 4 c + 1048576 * bits 4 b + 16777216 * bits 4 a + 2147483648) / 65536 % 16 = bits 4 c := by omega
    have f3 : (bits 4 g + 16 * bits 4 f + 256 * bits 4 e + 4096 * bits 4 d + 65536 * bits 4 c + 1048576 * bits 4 b + 16777216 * bits 4 a + 2147483648) / 4096 % 16 = bits 4 d := by omega
    have f4 : (bits 4 g + 16 * bits 4 f + 256 * bits 4 e + 4096 * bits 4 d + 65536 * bits 4 c + 1048576 * bits 4 b + 16777216 * bits 4 a + 2147483648) / 256 % 16 = bits 4 e := by omega
    have f5 : (bits 4 g + 16 * bits 4 f + 256 * bits 4 e + 4096 * bits 4 d + 65536 * bits 4 c + 1048576 * bits 4 b + 16777216 * bits 4 a + 2147483648) / 16 % 16 = bits 4 f := by omega
    have f6 : (bits 4 g + 16 * bits 4 f + 256 * bits 4 e + 4096 * bits 4 d + 65536 * bits 4 c + 1048576 * bits 4 b + 16777216 * bits 4 a + 2147483648) / 1 % 16 = bits 4 g := by omega
    simp only [f0, f1, f2, f3, f4, f5, f6, sa, sb, sc, sd, se, sf, sg]
  rw [hf]

theorem w6x5_spec (h s : Bool) (a b c d e f : Int) (r : List Int)
    (ka : -16 ≤ a ∧ a ≤ 15)    (kb : -16 ≤ b ∧ b ≤ 15)    (kc : -16 ≤ c ∧ c ≤ 15)    (kd : -16 ≤ d ∧ d ≤ 15)    (ke : -16 ≤ e ∧ e ≤ 15)    (kf : -16 ≤ f ∧ f ≤ 15) :
    word2 (order h s) 3 (swapIf s (hostBytes h 4 (w6x5 fun i => (a :: b :: c :: d :: e :: f :: r).getD i 0)))
      = some [a, b, c, d, e, f] := by
  have hval : w6x5 (fun i => (a :: b :: c :: d :: e :: f :: r).getD i 0) = bits 5 f + 32 * bits 5 e + 1024 * bits 5 d + 32768 * bits 5 c + 1048576 * bits 5 b + 33554432 * bits 5 a + 1073741824 := by
    unfold w6x5
    simp only [List.getD_cons_zero, List.getD_cons_succ]
    rw [show (0x1f : Nat) = 2 ^ 5 - 1 from rfl]
    simp only [msk_eq _ 5 (by omega)]
    have ba := bits_lt 5 a
    have bb := bits_lt 5 b
    have bc := bits_lt 5 c
    have bd := bits_lt 5 d
    have be := bits_lt 5 e
    have bf := bits_lt 5 f
    rw [or_low _ _ 5 (by omega)]
    rw [or_low _ _ 10 (by omega)]
    rw [or_low _ _ 15 (by omega)]
    rw [or_low _ _ 20 (by omega)]
    rw [or_low _ _ 25 (by omega)]
    rw [or_low _ _ 30 (by omega)]
  have ba := bits_lt 5 a
  have bb := bits_lt 5 b
  have bc := bits_lt 5 c
  have bd := bits_lt 5 d
  have be := bits_lt 5 e
  have bf := bits_lt 5 f
  have sa : signed 5 (bits 5 a) = a := signed_bits 5 (by omega) a (by simp; omega) (by simp; omega)
  have sb : signed 5 (bits 5 b) = b := signed_bits 5 (by omega) b (by simp; omega) (by simp; omega)
  have sc : signed 5 (bits 5 c) = c := signed_bits 5 (by omega) c (by simp; omega) (by simp; omega)
  have sd : signed 5 (bits 5 d) = d := signed_bits 5 (by omega) d (by simp; omega) (by simp; omega)
  have se : signed 5 (bits 5 e) = e := signed_bits 5 (by omega) e (by simp; omega) (by simp; omega)
  have sf : signed 5 (bits 5 f) = f := signed_bits 5 (by omega) f (by simp; omega) (by simp; omega)
  rw [hval]
  unfold word2
  simp only []
  rw [num_store32 _ _ _ (by omega)]
  have ht : (bits 5 f + 32 * bits 5 e + 1024 * bits 5 d + 32768 * bits 5 c + 1048576 * bits 5 b + 33554432 * bits 5 a + 1073741824) / 2 ^ 30 = 1 := by omega
  rw [ht]
  simp only []
  have hf : fields 6 5 (bits 5 f + 32 * bits 5 e + 1024 * bits 5 d + 32768 * bits 5 c + 1048576 * bits 5 b + 33554432 * bits 5 a + 1073741824) = [a, b, c, d, e, f] := by
    simp only [fields, List.range, List.range.loop, List.map_cons, List.map_nil, Nat.reduceSub, Nat.reduceMul, Nat.reducePow]
    have f0 : (bits 5 f + 32 * bits 5 e + 1024 * bits 5 d + 32768 * bits 5 c + 1048576 * bits 5 b + 33554432 * bits 5 a + 1073741824) / 33554432 % 32 = bits 5 a := by omega
    have f1 : (bits 5 f + 32 * bits 5 e + 1024 * bits 5 d + 32768 * bits 5 c + 1048576 * bits 5 b + 33554432 * bits 5 a + 1073741824) / 1048576 % 32 = bits 5 b := by omega
    have f2 : (bits 5 f + 32 * bits 5 e + 1024 * bits 5 d + 32768 * bits 5 c + 1048576 * bits 5 b + 33554432 * bits 5 a + 1073741824) / 32768 % 32 = bits 5 c := by omega
    have f3 : (bits 5 f + 32 * bits 5 e + 1024 * bits 5 d + 32768 * bits 5 c + 1048576 * bits 5 b + 33554432 * bits 5 a + 1073741824) / 1024 % 32 = bits 5 d := by omega
    have f4 : (bits 5 f + 32 * bits 5 e + 1024 * bits 5 d + 32768 * bits 5 c + 1048576 * bits 5 b + 33554432 * bits 5 a + 1073741824) / 32 % 32 = bits 5 e := by omega
    have f5 : (bits 5 f + 32 * bits 5 e + 1024 * bits 5 d + 32768 * bits 5 c + 1048576 * bits 5 b + 33554432 * bits 5 a + 1073741824) / 1 % 32 = bits 5 f := by omega
    simp only [f0, f1, f2, f3, f4, f5, sa, sb, sc, sd, se, sf]
  rw [hf]

theorem w5x6_spec (h s : Bool) (a b c d e : Int) (r : List Int)
    (ka : -32 ≤ a ∧ a ≤ 31)    (kb : -32 ≤ b ∧ b ≤ 31)    (kc : -32 ≤ c ∧ c ≤ 31)    (kd : -32 ≤ d ∧ d ≤ 31)    (ke : -32 ≤ e ∧ e ≤ 31) :
    word2 (order h s) 3 (swapIf s (hostBytes h 4 (w5x6 fun i => (a :: b :: c :: d :: e :: r).getD i 0)))
      = some [a, b, c, d, e] := by
  have hval : w5x6 (fun i => (a :: b :: c :: d :: e :: r).getD i 0) = bits 6 e + 64 * bits 6 d + 4096 * bits 6 c + 262144 * bits 6 b + 16777216 * bits 6 a := by
    unfold w5x6
    simp only [List.getD_cons_zero, List.getD_cons_succ]
    rw [show (0x3f : Nat) = 2 ^ 6 - 1 from rfl]
    simp only [msk_eq _ 6 (by omega)]
    have ba := bits_lt 6 a
    have bb := bits_lt 6 b
    have bc := bits_lt 6 c
    have bd := bits_lt 6 d
    have be := bits_lt 6 e
    rw [or_low _ _ 6 (by omega)]
    rw [or_low _ _ 12 (by omega)]
    rw [or_low _ _ 18 (by omega)]
    rw [or_low _ _ 24 (by omega)]
  have ba := bits_lt 6 a
  have bb := bits_lt 6 b
  have bc := bits_lt 6 c
  have bd := bits_lt 6 d
  have be := bits_lt 6 e
  have sa : signed 6 (bits 6 a) = a := signed_bits 6 (by omega) a (by simp; omega) (by simp; omega)
  have sb : signed 6 (bits 6 b) = b := signed_bits 6 (by omega) b (by simp; omega) (by simp; omega)
  have sc : signed 6 (bits 6 c) = c := signed_bits 6 (by omega) c (by simp; omega) (by simp; omega)
  have sd : signed 6 (bits 6 d) = d := signed_bits 6 (by omega) d (by simp; omega) (by simp; omega)
  have se : signed 6 (bits 6 e) = e := signed_bits 6 (by omega) e (by simp; omega) (by simp; omega)
  rw [hval]
  unfold word2
  simp only []
  rw [num_store32 _ _ _ (by omega)]
  have ht : (bits 6 e + 64 * bits 6 d + 4096 * bits 6 c + 262144 * bits 6 b + 16777216 * bits 6 a) / 2 ^ 30 = 0 := by omega
  rw [ht]
  simp only []
  have hf : fields 5 6 (bits 6 e + 64 * bits 6 d + 4096 * bits 6 c + 262144 * bits 6 b + 16777216 * bits 6 a) = [a, b, c, d, e] := by
    simp only [fields, List.range, List.range.loop, List.map_cons, List.map_nil, Nat.reduceSub, Nat.reduceMul, Nat.reducePow]
    have f0 : (bits 6 e + 64 * bits 6 d + 4096 * bits 6 c + 262144 * bits 6 b + 16777216 * bits 6 a) / 16777216 % 64 = bits 6 a := by omega
    have f1 : (bits 6 e + 64 * bits 6 d + 4096 * bits 6 c + 262144 * bits 6 b + 16777216 * bits 6 a) / 262144 % 64 = bits 6 b := by omega
    have f2 : (bits 6 e + 64 * bits 6 d + 4096 * bits 6 c + 262144 * bits 6 b + 16777216 * bits 6 a) / 4096 % 64 = bits 6 c := by omega
    have f3 : (bits 6 e + 64 * bits 6 d + 4096 * bits 6 c + 262144 * bits 6 b + 16777216 * bits 6 a) / 64 % 64 = bits 6 d := by omega
    have f4 : (bits 6 e + 64 * bits 6 d + 4096 * bits 6 c + 262144 * bits 6 b + 16777216 * bits 6 a) / 1 % 64 = bits 6 e := by omega
    simp only [f0, f1, f2, f3, f4, sa, sb, sc, sd, se]
  rw [hf]

theorem w3x10_spec (h s : Bool) (a b c : Int) (r : List Int)
    (ka : -512 ≤ a ∧ a ≤ 511)    (kb : -512 ≤ b ∧ b ≤ 511)    (kc : -512 ≤ c ∧ c ≤ 511) :
    word2 (order h s) 2 (swapIf s (hostBytes h 4 (w3x10 fun i => (a :: b :: c :: r).getD i 0)))
      = some [a, b, c] := by
  have hval : w3x10 (fun i => (a :: b :: c :: r).getD i 0) = bits 10 c + 1024 * bits 10 b + 1048576 * bits 10 a + 3221225472 := by
    unfold w3x10
    simp only [List.getD_cons_zero, List.getD_cons_succ]
    rw [show (0x3ff : Nat) = 2 ^ 10 - 1 from rfl]
    simp only [msk_eq _ 10 (by omega)]
    have ba := bits_lt 10 a
    have bb := bits_lt 10 b
    have bc := bits_lt 10 c
    rw [or_low _ _ 10 (by omega)]
    rw [or_low _ _ 20 (by omega)]
    rw [or_low _ _ 30 (by omega)]
  have ba := bits_lt 10 a
  have bb := bits_lt 10 b
  have bc := bits_lt 10 c
  have sa : signed 10 (bits 10 a) = a := signed_bits 10 (by omega) a (by simp; omega) (by simp; omega)
  have sb : signed 10 (bits 10 b) = b := signed_bits 10 (by omega) b (by simp; omega) (by simp; omega)
  have sc : signed 10 (bits 10 c) = c := signed_bits 10 (by omega) c (by simp; omega) (by simp; omega)
  rw [hval]
  unfold word2
  simp only []
  rw [num_store32 _ _ _ (by omega)]
  have ht : (bits 10 c + 1024 * bits 10 b + 1048576 * bits 10 a + 3221225472) / 2 ^ 30 = 3 := by omega
  rw [ht]
  simp only []
  have hf : fields 3 10 (bits 10 c + 1024 * bits 10 b + 1048576 * bits 10 a + 3221225472) = [a, b, c] := by
    simp only [fields, List.range, List.range.loop, List.map_cons, List.map_nil, Nat.reduceSub, Nat.reduceMul, Nat.reducePow]
    have f0 : (bits 10 c + 1024 * bits 10 b + 1048576 * bits 10 a + 3221225472) / 1048576 % 1024 = bits 10 a := by omega
    have f1 : (bits 10 c + 1024 * bits 10 b + 1048576 * bits 10 a + 3221225472) / 1024 % 1024 = bits 10 b := by omega
    have f2 : (bits 10 c + 1024 * bits 10 b + 1048576 * bits 10 a + 3221225472) / 1 % 1024 = bits 10 c := by omega
    simp only [f0, f1, f2, sa, sb, sc]
  rw [hf]

theorem w2x15_spec (h s : Bool) (a b : Int) (r : List Int)
    (ka : -16384 ≤ a ∧ a ≤ 16383)    (kb : -16384 ≤ b ∧ b ≤ 16383) :
    word2 (order h s) 2 (swapIf s (hostBytes h 4 (w2x15 fun i => (a :: b :: r).getD i 0)))
      = some [a, b] := by
  have hval : w2x15 (fun i => (a :: b :: r).getD i 0) = bits 15 b + 32768 * bits 15 a + 2147483648 := by
    unfold w2x15
    simp only [List.getD_cons_zero, List.getD_cons_succ]
    rw [show (0x7fff : Nat) = 2 ^ 15 - 1 from rfl]
    simp only [msk_eq _ 15 (by omega)]
    have ba := bits_lt 15 a
    have bb := bits_lt 15 b
    rw [or_low _ _ 15 (by omega)]
    rw [or_low _ _ 30 (by omega)]
  have ba := bits_lt 15 a
  have bb := bits_lt 15 b
  have sa : signed 15 (bits 15 a) = a := signed_bits 15 (by omega) a (by simp; omega) (by simp; omega)
  have sb : signed 15 (bits 15 b) = b := signed_bits 15 (by omega) b (by simp; omega) (by simp; omega)
  rw [hval]
  unfold word2
  simp only []
  rw [num_store32 _ _ _ (by omega)]
  have ht : (bits 15 b + 32768 * bits 15 a + 2147483648) / 2 ^ 30 = 2 := by omega
  rw [ht]
  simp only []
  have hf : fields 2 15 (bits 15 b + 32768 * bits 15 a + 2147483648) = [a, b] := by
    simp only [fields, List.range, List.range.loop, List.map_cons, List.map_nil, Nat.reduceSub, Nat.reduceMul, Nat.reducePow]
    have f0 : (bits 15 b + 32768 * bits 15 a + 2147483648) / 32768 % 32768 = bits 15 a := by omega
    have f1 : (bits 15 b + 32768 * bits 15 a + 2147483648) / 1 % 32768 = bits 15 b := by omega
    simp only [f0, f1, sa, sb]
  rw [hf]

theorem w1x30_spec (h s : Bool) (a : Int) (r : List Int)
    (ka : -536870912 ≤ a ∧ a ≤ 536870911) :
    word2 (order h s) 2 (swapIf s (hostBytes h 4 (w1x30 fun i => (a :: r).getD i 0)))
      = some [a] := by
  have hval : w1x30 (fun i => (a :: r).getD i 0) = bits 30 a + 1073741824 := by
    unfold w1x30
    simp only [List.getD_cons_zero, List.getD_cons_succ]
    rw [show (0x3fffffff : Nat) = 2 ^ 30 - 1 from rfl]
    simp only [msk_eq _ 30 (by omega)]
    have ba := bits_lt 30 a
    rw [or_low _ _ 30 (by omega)]
  have ba := bits_lt 30 a
  have sa : signed 30 (bits 30 a) = a := signed_bits 30 (by omega) a (by simp; omega) (by simp; omega)
  rw [hval]
  unfold word2
  simp only []
  rw [num_store32 _ _ _ (by omega)]
  have ht : (bits 30 a + 1073741824) / 2 ^ 30 = 1 := by omega
  rw [ht]
  simp only []
  have hf : fields 1 30 (bits 30 a + 1073741824) = [a] := by
    simp only [fields, List.range, List.range.loop, List.map_cons, List.map_nil, Nat.reduceSub, Nat.reduceMul, Nat.reducePow]
    have f0 : (bits 30 a + 1073741824) / 1 % 1073741824 = bits 30 a := by omega
    simp only [f0, sa]
  rw [hf]

theorem w4x8_spec (be : Bool) (a b c d : Int) (ka : -128 ≤ a ∧ a ≤ 127) (kb : -128 ≤ b ∧ b ≤ 127)
    (kc : -128 ≤ c ∧ c ≤ 127) (kd : -128 ≤ d ∧ d ≤ 127) :
    word2 be 1 [UInt8.ofNat (bits 8 a), UInt8.ofNat (bits 8 b), UInt8.ofNat (bits 8 c),
      UInt8.ofNat (bits 8 d)] = some [a, b, c, d] := by
  simp only [word2, List.map_cons, List.map_nil, u8_bits, signed8 _ ka, signed8 _ kb, signed8 _ kc,
    signed8 _ kd]

theorem wordEnc2 (h s : Bool) : WordEnc (packWord2 h s) (word2 (order h s)) 7 True
    (fun d => -536870912 ≤ d ∧ d ≤ 536870911) := by
  refine ⟨fun w => by simp [word2], ?_⟩
  intro diffs hl ha hne
  unfold packWord2
  simp only
  by_cases hf : fitsN 7 4 diffs = true
  · rw [if_pos hf]
    rw [fitsN_iff] at hf
    obtain ⟨hfl, hf⟩ := hf
    obtain ⟨a, b, c, d, e, f, g, r, rfl⟩ := list7 diffs hfl
    have ka := (bitwidth_le a).1 (hf a (by simp))
    have kb := (bitwidth_le b).1 (hf b (by simp))
    have kc := (bitwidth_le c).1 (hf c (by simp))
    have kd := (bitwidth_le d).1 (hf d (by simp))
    have ke := (bitwidth_le e).1 (hf e (by simp))
    have kf := (bitwidth_le f).1 (hf f (by simp))
    have kg := (bitwidth_le g).1 (hf g (by simp))
    exact ⟨by simp, hfl, by simp, by simp [stored_length], w7x4_spec h s a b c d e f g r ka kb kc kd ke kf kg, fun x hx => by
      have := (bitwidth_le x).2.2.2.2.2.2.2.1 (Nat.le_trans (hf x hx) (by omega)); omega⟩
  rw [if_neg hf]
  clear hf
  by_cases hf : fitsN 6 5 diffs = true
  · rw [if_pos hf]
    rw [fitsN_iff] at hf
    obtain ⟨hfl, hf⟩ := hf
    obtain ⟨a, b, c, d, e, f, r, rfl⟩ := list6 diffs hfl
    have ka := (bitwidth_le a).2.1 (hf a (by simp))
    have kb := (bitwidth_le b).2.1 (hf b (by simp))
    have kc := (bitwidth_le c).2.1 (hf c (by simp))
    have kd := (bitwidth_le d).2.1 (hf d (by simp))
    have ke := (bitwidth_le e).2.1 (hf e (by simp))
    have kf := (bitwidth_le f).2.1 (hf f (by simp))
    exact ⟨by simp, hfl, by simp, by simp [stored_length], w6x5_spec h s a b c d e f r ka kb kc kd ke kf, fun x hx => by
      have := (bitwidth_le x).2.2.2.2.2.2.2.1 (Nat.le_trans (hf x hx) (by omega)); omega⟩
  rw [if_neg hf]
  clear hf
  by_cases hf : fitsN 5 6 diffs = true
  · rw [if_pos hf]
    rw [fitsN_iff] at hf
    obtain ⟨hfl, hf⟩ := hf
    obtain ⟨a, b, c, d, e, r, rfl⟩ := list5 diffs hfl
    have ka := (bitwidth_le a).2.2.1 (hf a (by simp))
    have kb := (bitwidth_le b).2.2.1 (hf b (by simp))
    have kc := (bitwidth_le c).2.2.1 (hf c (by simp))
    have kd := (bitwidth_le d).2.2.1 (hf d (by simp))
    have ke := (bitwidth_le e).2.2.1 (hf e (by simp))
    exact ⟨by simp, hfl, by simp, by simp [stored_length], w5x6_spec h s a b c d e r ka kb kc kd ke, fun x hx => by
      have := (bitwidth_le x).2.2.2.2.2.2.2.1 (Nat.le_trans (hf x hx) (by omega)); omega⟩
  rw [if_neg hf]
  clear hf
  by_cases hf : fitsN 4 8 diffs = true
  · rw [if_pos hf]
    rw [fitsN_iff] at hf
    obtain ⟨hfl, hf⟩ := hf
    obtain ⟨a, b, c, d, r, rfl⟩ := list4 diffs hfl
    have ka := (bitwidth_le a).2.2.2.1 (hf a (by simp))
    have kb := (bitwidth_le b).2.2.2.1 (hf b (by simp))
    have kc := (bitwidth_le c).2.2.2.1 (hf c (by simp))
    have kd := (bitwidth_le d).2.2.2.1 (hf d (by simp))
    exact ⟨by simp, hfl, by simp, rfl, w4x8_spec _ a b c d ka kb kc kd, fun x hx => by
      have := (bitwidth_le x).2.2.2.2.2.2.2.1 (Nat.le_trans (hf x hx) (by omega)); omega⟩
  rw [if_neg hf]
  clear hf
  by_cases hf : fitsN 3 10 diffs = true
  · rw [if_pos hf]
    rw [fitsN_iff] at hf
    obtain ⟨hfl, hf⟩ := hf
    obtain ⟨a, b, c, r, rfl⟩ := list3 diffs hfl
    have ka := (bitwidth_le a).2.2.2.2.1 (hf a (by simp))
    have kb := (bitwidth_le b).2.2.2.2.1 (hf b (by simp))
    have kc := (bitwidth_le c).2.2.2.2.1 (hf c (by simp))
    exact ⟨by simp, hfl, by simp, by simp [stored_length], w3x10_spec h s a b c r ka kb kc, fun x hx => by
      have := (bitwidth_le x).2.2.2.2.2.2.2.1 (Nat.le_trans (hf x hx) (by omega)); omega⟩
  rw [if_neg hf]
  clear hf
  by_cases hf : fitsN 2 15 diffs = true
  · rw [if_pos hf]
    rw [fitsN_iff] at hf
    obtain ⟨hfl, hf⟩ := hf
    obtain ⟨a, b, r, rfl⟩ := list2 diffs hfl
    have ka := (bitwidth_le a).2.2.2.2.2.1 (hf a (by simp))
    have kb := (bitwidth_le b).2.2.2.2.2.1 (hf b (by simp))
    exact ⟨by simp, hfl, by simp, by simp [stored_length], w2x15_spec h s a b r ka kb, fun x hx => by
      have := (bitwidth_le x).2.2.2.2.2.2.2.1 (Nat.le_trans (hf x hx) (by omega)); omega⟩
  rw [if_neg hf]
  clear hf
  by_cases hf : fitsN 1 30 diffs = true
  · rw [if_pos hf]
    rw [fitsN_iff] at hf
    obtain ⟨hfl, hf⟩ := hf
    obtain ⟨a, r, rfl⟩ := list1 diffs hfl
    have ka := (bitwidth_le a).2.2.2.2.2.2.2.1 (hf a (by simp))
    exact ⟨by simp, hfl, by simp, by simp [stored_length], w1x30_spec h s a r ka, fun x hx => by
      have := (bitwidth_le x).2.2.2.2.2.2.2.1 (Nat.le_trans (hf x hx) (by omega)); omega⟩
  rw [if_neg hf]
  refine ⟨trivial, ?_⟩
  obtain ⟨a, r, rfl⟩ := list1 diffs (by
    cases diffs with
    | nil => exact absurd rfl hne
    | cons _ _ => simp)
  refine ⟨a, r, rfl, fun hab => hf ?_⟩
  rw [fitsN_iff]
  refine ⟨by simp, ?_⟩
  intro d hd
  simp at hd
  subst hd
  exact (bitwidth_le d).2.2.2.2.2.2.2.2 hab

/-- The differences still to be packed in a state. -/
def pending (s : Enc) : List Int := s.diffs ++ deltas s.prev s.rest

/-- State invariant: what is pending, how much was packed, and the buffer bound. -/
structure Inv (cap N : Nat) (P : List Int) (s : Enc) : Prop where
  pend : pending s = P
  count : s.outputsamples + P.length = N
  len : s.diffs.length ≤ cap
  fits : All32 s.diffs

/-- Words of four bytes. -/
def FourBytes (ws : List (List UInt8)) : Prop := ∀ w ∈ ws, w.length = 4

theorem wordsDiffs_zero {wd : Nat → List UInt8 → Option (List Int)} (h0 : ∀ w, wd 0 w = some [])
    (ctrl k : Nat) (hk : k ≤ 16) (hc : ctrl % 4 ^ k = 0) :
    wordsDiffs wd ctrl (16 - k) (List.replicate k zeroWord) = some [] := by
  induction k with
  | zero => rfl
  | succ k ih =>
    rw [List.replicate_succ]
    simp only [wordsDiffs]
    have hk4 : ctrl % 4 ^ k = 0 := by
      have : (4 : Nat) ^ k ∣ 4 ^ (k + 1) := ⟨4, by rw [Nat.pow_succ]⟩
      exact Nat.mod_eq_zero_of_dvd (Nat.dvd_trans this (Nat.dvd_of_mod_eq_zero hc))
    have hcode : code ctrl (16 - (k + 1)) = 0 := by
      unfold code
      rw [show 15 - (16 - (k + 1)) = k by omega]
      obtain ⟨q, hq⟩ := Nat.dvd_of_mod_eq_zero hc
      rw [hq, Nat.pow_succ, Nat.mul_assoc, Nat.mul_div_cancel_left _ (Nat.pow_pos (by omega))]
      omega
    rw [hcode, h0, show 16 - (k + 1) + 1 = 16 - k by omega, ih (by omega) hk4]
    rfl

theorem encWords_spec {pack wd cap mf Q} (H : WordEnc pack wd cap mf Q) (hcap : 1 ≤ cap) (N : Nat) :
    ∀ k ctrl s P, k ≤ 16 → ctrl % 4 ^ k = 0 → Inv cap N P s →
    match encWords cap N pack k ctrl s with
    | .ok (ctrl', ws, s') => ∃ c, c ≤ P.length ∧ Inv cap N (P.drop c) s' ∧ ws.length = k ∧
        FourBytes ws ∧ ctrl' / 4 ^ k = ctrl / 4 ^ k ∧
        wordsDiffs wd ctrl' (16 - k) ws = some (P.take c) ∧ (1 ≤ k → P ≠ [] → 1 ≤ c) ∧
        (∀ d ∈ P.take c, Q d)
    | .err => mf ∧ ∃ d ∈ P, ¬ (-536870912 ≤ d ∧ d ≤ 536870911)
    | .ub => ¬ All32 P
    | .oob => False := by
  intro k
  induction k with
  | zero =>
    intro ctrl s P _ _ hi
    exact ⟨0, by omega, by simpa using hi, rfl, by intro w hw; simp at hw, by simp,
      by simp [wordsDiffs], by omega, by intro d hd; simp at hd⟩
  | succ k ih =>
    intro ctrl s P hk hc hi
    simp only [encWords]
    by_cases hout : s.outputsamples < N
    · rw [if_pos hout]
      have hP : P ≠ [] := by
        intro h; have := hi.count; rw [h] at this; simp at this; omega
      have hfill := fill_spec cap s.rest s.diffs s.prev hi.len hi.fits
      have hpend : s.diffs ++ deltas s.prev s.rest = P := hi.pend
      cases hfl : fill cap s.diffs s.prev s.rest with
      | err => rw [hfl] at hfill; exact hfill.elim
      | oob => rw [hfl] at hfill; exact hfill.elim
      | ub =>
        rw [hfl] at hfill
        simp only [Res.bind] at hfill ⊢
        intro h
        rw [← hpend, All32_append] at h
        exact hfill h.2
      | ok v =>
        obtain ⟨diffs, prev, rest⟩ := v
        rw [hfl] at hfill
        simp only [Res.bind] at hfill ⊢
        obtain ⟨f1, f2, f3, f4⟩ := hfill
        rw [hpend] at f1 f4
        have hne := f4 hcap hP
        have hpk := H.2 diffs f2 f3 hne
        cases hp : pack diffs with
        | ub => rw [hp] at hpk; exact hpk.elim
        | oob => rw [hp] at hpk; exact hpk.elim
        | err =>
          rw [hp] at hpk
          simp only at hpk ⊢
          obtain ⟨hmf, d, r, hd, hr⟩ := hpk
          exact ⟨hmf, d, by rw [← f1, hd]; simp, hr⟩
        | ok p =>
          rw [hp] at hpk
          simp only at hpk ⊢
          obtain ⟨p1, p2, p3, p4, p5, p6⟩ := hpk
          have hPl : P.length = diffs.length + (deltas prev rest).length := by
            rw [← f1, List.length_append]
          have hdrop : P.drop p.count = diffs.drop p.count ++ deltas prev rest := by
            rw [← f1, List.drop_append_of_le_length p2]
          have htake : P.take p.count = diffs.take p.count := by
            rw [← f1, List.take_append_of_le_length p2]
          have hInv : Inv cap N (P.drop p.count)
              { diffs := diffs.drop p.count, prev, rest,
                outputsamples := s.outputsamples + p.count } := by
            refine ⟨?_, ?_, ?_, ?_⟩
            · simp only [pending]; rw [hdrop]
            · simp only [List.length_drop]; have := hi.count; omega
            · simp only [List.length_drop]; omega
            · intro x hx; exact f3 x (List.mem_of_mem_drop hx)
          have hsh : 30 - 2 * (16 - (k + 1)) = 2 * k := by omega
          have h4 : (2 : Nat) ^ (2 * k) = 4 ^ k := by rw [Nat.pow_mul]
          have hor : ctrl ||| p.code <<< (30 - 2 * (16 - (k + 1))) = ctrl + p.code * 4 ^ k := by
            rw [hsh, Nat.shiftLeft_eq, h4]
            apply or_shift ctrl _ (2 * (k + 1))
            · rw [Nat.pow_mul]; exact hc
            · rw [Nat.pow_mul, Nat.pow_succ]
              have : p.code * 4 ^ k < 4 * 4 ^ k := Nat.mul_lt_mul_of_pos_right p3 (Nat.pow_pos (by omega))
              show p.code * 4 ^ k < 4 ^ k * 4
              omega
          rw [hor]
          obtain ⟨q, hq⟩ := Nat.dvd_of_mod_eq_zero hc
          have hpos : 0 < 4 ^ k := Nat.pow_pos (by omega)
          have hq' : ctrl = 4 ^ k * (4 * q) := by rw [hq, Nat.pow_succ, Nat.mul_assoc]
          have hc1 : (ctrl + p.code * 4 ^ k) = 4 ^ k * (4 * q + p.code) := by
            rw [hq', Nat.mul_add, Nat.mul_comm p.code]
          have hmod : (ctrl + p.code * 4 ^ k) % 4 ^ k = 0 := by
            rw [hc1]; exact Nat.mul_mod_right _ _
          have hrec := ih (ctrl + p.code * 4 ^ k) _ (P.drop p.count) (by omega) hmod hInv
          cases hr : encWords cap N pack k (ctrl + p.code * 4 ^ k)
              { diffs := diffs.drop p.count, prev, rest,
                outputsamples := s.outputsamples + p.count } with
          | err =>
            rw [hr] at hrec
            obtain ⟨hmf, d, hd, hr⟩ := hrec
            exact ⟨hmf, d, List.mem_of_mem_drop hd, hr⟩
          | oob => rw [hr] at hrec; exact hrec.elim
          | ub =>
            rw [hr] at hrec
            exact fun h => hrec fun x hx => h x (List.mem_of_mem_drop hx)
          | ok v =>
            obtain ⟨ctrl', ws, s'⟩ := v
            rw [hr] at hrec
            obtain ⟨c, g1, g2, g3, g4, g5, g6, g7, g8⟩ := hrec
            refine ⟨p.count + c, ?_, ?_, ?_, ?_, ?_, ?_, ?_, ?_⟩
            · simp only [List.length_drop] at g1; omega
            · rw [← List.drop_drop]; exact g2
            · simp [g3]
            · intro w hw
              rcases List.mem_cons.1 hw with rfl | hw
              · exact p4
              · exact g4 w hw
            · have e1 : ctrl' / 4 ^ (k + 1) = ctrl' / 4 ^ k / 4 := by
                rw [Nat.pow_succ, Nat.div_div_eq_div_mul]
              have e2 : ctrl / 4 ^ (k + 1) = ctrl / 4 ^ k / 4 := by
                rw [Nat.pow_succ, Nat.div_div_eq_div_mul]
              rw [e1, e2, g5, hc1, hq', Nat.mul_div_cancel_left _ hpos, Nat.mul_div_cancel_left _ hpos]
              omega
            · simp only [wordsDiffs]
              have hcode : code ctrl' (16 - (k + 1)) = p.code := by
                unfold code
                rw [show 15 - (16 - (k + 1)) = k by omega, g5, hc1, Nat.mul_div_cancel_left _ hpos]
                omega
              rw [hcode, p5, show 16 - (k + 1) + 1 = 16 - k by omega, g6]
              simp only [Option.bind_some, Option.map_some, ← htake]
              rw [List.take_add]
            · intro _ _; omega
            · intro d hd
              rw [List.take_add] at hd
              rcases List.mem_append.1 hd with hd | hd
              · rw [htake] at hd; exact p6 d hd
              · exact g8 d hd
    · rw [if_neg hout]
      have hP : P = [] := by
        have := hi.count
        apply List.length_eq_zero_iff.1; omega
      refine ⟨0, by omega, by simpa using hi, by simp, ?_, rfl, ?_, fun _ h => absurd hP h, by intro d hd; simp at hd⟩
      · intro w hw
        rw [List.mem_replicate] at hw
        rw [hw.2]; rfl
      · rw [wordsDiffs_zero H.1 ctrl (k + 1) hk hc]
        simp

/-- A well-formed frame: 16 words of 4 bytes. -/
def FrameOk (f : List (List UInt8)) : Prop := f.length = 16 ∧ FourBytes f

theorem encFrames_spec {pack wd cap mf Q} (hb sw : Bool) (H : WordEnc pack wd cap mf Q) (hcap : 1 ≤ cap)
    (N : Nat) : ∀ n s last todo, Inv cap N (deltas last todo) s →
    match encFrames hb sw cap N pack n s with
    | .ok (fs, s') => ∃ c, c ≤ todo.length ∧
        Inv cap N ((deltas last todo).drop c) s' ∧ fs.length ≤ n ∧
        (∀ f ∈ fs, FrameOk f) ∧
        decodeRest wd (order hb sw) c last fs = some (todo.take c) ∧
        (fs.length < n → c = todo.length) ∧ (∀ d ∈ (deltas last todo).take c, Q d)
    | .err => mf ∧ ∃ d ∈ deltas last todo, ¬ (-536870912 ≤ d ∧ d ≤ 536870911)
    | .ub => ¬ All32 (deltas last todo)
    | .oob => False := by
  intro n
  induction n with
  | zero =>
    intro s last todo hi
    exact ⟨0, by omega, by simpa using hi, by simp, by intro f hf; simp at hf, by simp [decodeRest],
      by simp, by intro d hd; simp at hd⟩
  | succ n ih =>
    intro s last todo hi
    simp only [encFrames]
    by_cases hout : s.outputsamples < N
    · rw [if_pos hout]
      have hw := encWords_spec H hcap N 15 0 s (deltas last todo) (by omega) (by simp) hi
      cases hr : encWords cap N pack 15 0 s with
      | err => rw [hr] at hw; exact hw
      | oob => rw [hr] at hw; exact hw
      | ub => rw [hr] at hw; exact hw
      | ok v =>
        obtain ⟨ctrl, ws, s1⟩ := v
        rw [hr] at hw
        simp only [Res.bind]
        obtain ⟨c1, g1, g2, g3, g4, g5, g6, g7, gq⟩ := hw
        rw [deltas_length] at g1
        have hne : deltas last todo ≠ [] := by
          intro h; have := hi.count; rw [h] at this; simp at this; omega
        have hc1 := g7 (by omega) hne
        have hctrl : ctrl < 2 ^ 32 := by
          have h1 : ctrl / 4 ^ 15 = 0 := by rw [g5]
          have h2 : ctrl < 4 ^ 15 := by
            rcases Nat.lt_or_ge ctrl (4 ^ 15) with h | h
            · exact h
            · have := Nat.div_pos h (Nat.pow_pos (by omega)); omega
          omega
        rw [deltas_drop] at g2
        have hrec := ih s1 _ _ g2
        cases hr2 : encFrames hb sw cap N pack n s1 with
        | err =>
          rw [hr2] at hrec
          obtain ⟨hmf, d, hd, hr⟩ := hrec
          rw [← deltas_drop] at hd
          exact ⟨hmf, d, List.mem_of_mem_drop hd, hr⟩
        | oob => rw [hr2] at hrec; exact hrec
        | ub =>
          rw [hr2] at hrec
          rw [← deltas_drop] at hrec
          exact fun h => hrec fun x hx => h x (List.mem_of_mem_drop hx)
        | ok v =>
          obtain ⟨fs, s2⟩ := v
          rw [hr2] at hrec
          obtain ⟨c2, k1, k2, k3, k4, k5, k6, kq⟩ := hrec
          rw [List.length_drop] at k1 k6
          refine ⟨c1 + c2, by omega, ?_, by simp; omega, ?_, ?_, ?_, ?_⟩
          · rw [← List.drop_drop, deltas_drop last todo c1]; exact k2
          · intro f hf
            rcases List.mem_cons.1 hf with rfl | hf
            · refine ⟨by simp [g3], ?_⟩
              intro w hw
              rcases List.mem_cons.1 hw with rfl | hw
              · exact stored_length _ _ _ _
              · exact g4 w hw
            · exact k4 f hf
          · simp only [decodeRest]
            rw [if_neg (by omega)]
            have hfd : frameDiffs wd (order hb sw) 1 (swapIf sw (hostBytes hb 4 ctrl) :: ws)
                = some ((deltas last todo).take c1) := by
              unfold frameDiffs
              have : word (swapIf sw (hostBytes hb 4 ctrl) :: ws) 0 = swapIf sw (hostBytes hb 4 ctrl) := rfl
              rw [this, num_store32 _ _ _ hctrl]
              exact g6
            rw [hfd]
            simp only [Option.bind_some]
            rw [integrate_deltas]
            have ht : (todo.take c1).take (c1 + c2) = todo.take c1 := by
              rw [List.take_take]; congr 1; omega
            have hlen : (todo.take c1).length = c1 := by simp; omega
            rw [ht, hlen, show c1 + c2 - c1 = c2 by omega, k5]
            simp only [Option.map_some]
            rw [List.take_add]
          · intro h
            have := k6 (by simpa using h)
            omega
          · intro d hd
            rw [List.take_add] at hd
            rcases List.mem_append.1 hd with hd | hd
            · exact gq d hd
            · rw [deltas_drop] at hd; exact kq d hd
    · rw [if_neg hout]
      have hz : (deltas last todo).length = 0 := by have := hi.count; omega
      rw [deltas_length] at hz
      refine ⟨0, by omega, by simpa using hi, by simp, by intro f hf; simp at hf, by simp [decodeRest], ?_,
        by intro d hd; simp at hd⟩
      intro _; omega

/-- Outcome of an encoder on a non-empty input with room for at least one frame. -/
theorem encode_spec {pack wd cap mf Q} (hb sw : Bool) (H : WordEnc pack wd cap mf Q) (hcap : 1 ≤ cap)
    (input : List Int) (outlen : Nat) (diff0 : Int) (hd0 : isInt32 diff0) (hin : All32 input)
    (hne : input ≠ []) (hlen : 64 ≤ outlen) :
    match Verif.Model.Steim.encode hb sw cap pack input outlen diff0 with
    | .ok e => 1 ≤ e.samples ∧ e.samples ≤ input.length ∧ 1 ≤ e.frames.length ∧
        64 * e.frames.length ≤ outlen ∧ (∀ f ∈ e.frames, FrameOk f) ∧
        Verif.Spec.Steim.decode wd (order hb sw) e.samples e.frames = some (input.take e.samples) ∧
        (input.take e.samples).getLast? = some (lastSample (order hb sw) e.frames) ∧
        (64 * e.frames.length + 64 ≤ outlen → e.samples = input.length) ∧
        (∀ d ∈ (diff0 :: deltas (input.headD 0) input.tail).take e.samples, Q d)
    | .err => mf ∧ ∃ d ∈ diff0 :: deltas (input.headD 0) input.tail, ¬ (-536870912 ≤ d ∧ d ≤ 536870911)
    | .ub => ¬ All32 (deltas (input.headD 0) input.tail)
    | .oob => False := by
  cases input with
  | nil => exact absurd rfl hne
  | cons x0 rest =>
    obtain ⟨mx, hmx⟩ : ∃ k, outlen / 64 = k + 1 := ⟨outlen / 64 - 1, by omega⟩
    unfold Verif.Model.Steim.encode
    simp only [hmx]
    rw [if_neg (by omega)]
    have hP : deltas (x0 - diff0) (x0 :: rest) = diff0 :: deltas x0 rest := by
      simp only [deltas]
      congr 1; omega
    have hInv : Inv cap (x0 :: rest).length (diff0 :: deltas x0 rest)
        { diffs := [diff0], prev := x0, rest, outputsamples := 0 } := by
      refine ⟨rfl, by simp [deltas_length], by simpa using hcap, ?_⟩
      intro x hx; simp at hx; subst hx; exact hd0
    have hub : ∀ {Q : List Int}, (∀ x ∈ Q, x ∈ diff0 :: deltas x0 rest) → ¬ All32 Q →
        ¬ All32 (deltas x0 rest) := by
      intro Q hQ hn h
      apply hn
      intro x hx
      rcases List.mem_cons.1 (hQ x hx) with rfl | h2
      · exact hd0
      · exact h x h2
    have hw := encWords_spec H hcap _ 13 0 _ _ (by omega) (by simp) hInv
    cases hr : encWords cap (x0 :: rest).length pack 13 0
        { diffs := [diff0], prev := x0, rest, outputsamples := 0 } with
    | err => rw [hr] at hw; exact hw
    | oob => rw [hr] at hw; exact hw
    | ub => rw [hr] at hw; exact hub (fun x hx => hx) hw
    | ok v =>
      obtain ⟨ctrl, ws, s1⟩ := v
      rw [hr] at hw
      simp only [Res.bind]
      obtain ⟨c1, g1, g2, g3, g4, g5, g6, g7, gq⟩ := hw
      have hc1 := g7 (by omega) (by simp)
      have g1' : c1 ≤ (x0 :: rest).length := by simpa [deltas_length] using g1
      have hctrl : ctrl < 2 ^ 32 := by
        have h1 : ctrl / 4 ^ 13 = 0 := by rw [g5]
        have h2 : ctrl < 4 ^ 13 := by
          rcases Nat.lt_or_ge ctrl (4 ^ 13) with h | h
          · exact h
          · have := Nat.div_pos h (Nat.pow_pos (by omega)); omega
        omega
      have g2' := g2
      rw [← hP, deltas_drop] at g2
      have hrec := encFrames_spec hb sw H hcap _ mx s1 _ _ g2
      cases hr2 : encFrames hb sw cap (x0 :: rest).length pack mx s1 with
      | err =>
        rw [hr2] at hrec
        obtain ⟨hmf, d, hd, hr⟩ := hrec
        rw [← deltas_drop, hP] at hd
        exact ⟨hmf, d, List.mem_of_mem_drop hd, hr⟩
      | oob => rw [hr2] at hrec; exact hrec
      | ub =>
        rw [hr2] at hrec
        rw [← deltas_drop, hP] at hrec
        exact hub (fun x hx => List.mem_of_mem_drop hx) hrec
      | ok v =>
        obtain ⟨fs, s2⟩ := v
        rw [hr2] at hrec
        obtain ⟨c2, k1, k2, k3, k4, k5, k6, kq⟩ := hrec
        rw [List.length_drop] at k1 k6
        have hcount := k2.count
        rw [List.length_drop, deltas_length, List.length_drop] at hcount
        have hs2 : s2.outputsamples = c1 + c2 := by omega
        have hidx : c1 + c2 - 1 < (x0 :: rest).length := by omega
        simp only [hs2]
        rw [List.getElem?_eq_getElem hidx]
        simp only
        have hxn : isInt32 ((x0 :: rest)[c1 + c2 - 1]) := hin _ (List.getElem_mem _)
        have hx0 : isInt32 x0 := hin _ List.mem_cons_self
        generalize hxe : (x0 :: rest)[c1 + c2 - 1] = xn at hxn ⊢
        refine ⟨by omega, by omega, by simp, by simp; omega, ?_, ?_, ?_, ?_, ?_⟩
        · intro f hf
          rcases List.mem_cons.1 hf with rfl | hf
          · refine ⟨by simp [g3], ?_⟩
            intro w hw
            simp only [List.mem_cons] at hw
            rcases hw with rfl | rfl | rfl | hw
            · exact stored_length _ _ _ _
            · exact stored_length _ _ _ _
            · exact stored_length _ _ _ _
            · exact g4 w hw
          · exact k4 f hf
        · simp only [Verif.Spec.Steim.decode]
          have hfd : frameDiffs wd (order hb sw) 3 (swapIf sw (hostBytes hb 4 ctrl)
              :: swapIf sw (hostBytes hb 4 (bits 32 x0))
              :: swapIf sw (hostBytes hb 4 (bits 32 xn)) :: ws)
              = some ((diff0 :: deltas x0 rest).take c1) := by
            unfold frameDiffs
            have : word (swapIf sw (hostBytes hb 4 ctrl)
              :: swapIf sw (hostBytes hb 4 (bits 32 x0))
              :: swapIf sw (hostBytes hb 4 (bits 32 xn)) :: ws) 0 = swapIf sw (hostBytes hb 4 ctrl) := rfl
            rw [this, num_store32 _ _ _ hctrl]
            exact g6
          rw [hfd]
          have hw1 : signed 32 (num (order hb sw) (word (swapIf sw (hostBytes hb 4 ctrl)
              :: swapIf sw (hostBytes hb 4 (bits 32 x0))
              :: swapIf sw (hostBytes hb 4 (bits 32 xn)) :: ws) 1)) = x0 := by
            have : word (swapIf sw (hostBytes hb 4 ctrl)
              :: swapIf sw (hostBytes hb 4 (bits 32 x0))
              :: swapIf sw (hostBytes hb 4 (bits 32 xn)) :: ws) 1
              = swapIf sw (hostBytes hb 4 (bits 32 x0)) := rfl
            rw [this, num_store32 _ _ _ (bits_lt 32 _), signed32 _ hx0]
          simp only [Option.bind_some, hw1]
          obtain ⟨c0, rfl⟩ : ∃ c0, c1 = c0 + 1 := ⟨c1 - 1, by omega⟩
          simp only [List.take_succ_cons, List.drop_succ_cons, List.drop_zero]
          rw [integrate_deltas]
          have ht : (rest.take c0).take (c0 + 1 + c2 - 1) = rest.take c0 := by
            rw [List.take_take]; congr 1; omega
          have hlen : (x0 :: rest.take c0).length = c0 + 1 := by
            simp at g1' ⊢; omega
          rw [ht, hlen, show c0 + 1 + c2 - (c0 + 1) = c2 by omega]
          simp only [List.take_succ_cons, List.drop_succ_cons] at k5
          have hgl : (x0 :: rest.take c0).getLastD x0 = (x0 :: rest.take c0).getLastD (x0 - diff0) := by
            rfl
          rw [hgl, k5]
          simp only [Option.map_some]
          rw [show c0 + 1 + c2 = (c0 + c2) + 1 by omega, List.take_succ_cons, List.take_add]
          rfl
        · have : lastSample (order hb sw) ((swapIf sw (hostBytes hb 4 ctrl)
              :: swapIf sw (hostBytes hb 4 (bits 32 x0))
              :: swapIf sw (hostBytes hb 4 (bits 32 xn)) :: ws) :: fs) = xn := by
            unfold lastSample
            have : word (List.headD ((swapIf sw (hostBytes hb 4 ctrl)
              :: swapIf sw (hostBytes hb 4 (bits 32 x0))
              :: swapIf sw (hostBytes hb 4 (bits 32 xn)) :: ws) :: fs) []) 2
              = swapIf sw (hostBytes hb 4 (bits 32 xn)) := rfl
            rw [this, num_store32 _ _ _ (bits_lt 32 _), signed32 _ hxn]
          rw [this, List.getLast?_eq_getElem?]
          have hl : ((x0 :: rest).take (c1 + c2)).length = c1 + c2 := by
            rw [List.length_take]; omega
          rw [hl, List.getElem?_take_of_lt (by omega), List.getElem?_eq_getElem hidx, hxe]
        · intro h
          simp only [List.length_cons] at h
          have := k6 (by omega)
          omega
        · intro d hd
          simp only [List.headD_cons, List.tail_cons] at hd
          rw [List.take_add] at hd
          rcases List.mem_append.1 hd with hd | hd
          · exact gq d hd
          · rw [← hP, deltas_drop] at hd; exact kq d hd

theorem decodeRest_length (wd : Nat → List UInt8 → Option (List Int)) (be : Bool) :
    ∀ (fs : List (List (List UInt8))) (need : Nat) (last : Int) (out : List Int),
    decodeRest wd be need last fs = some out → out.length ≤ need := by
  intro fs
  induction fs with
  | nil => intro need last out h; simp [decodeRest] at h; subst h; simp
  | cons f fs ih =>
    intro need last out h
    simp only [decodeRest] at h
    by_cases h0 : need = 0
    · rw [if_pos h0] at h; simp at h; subst h; simp
    · rw [if_neg h0] at h
      simp only [Option.bind_eq_some_iff, Option.map_eq_some_iff] at h
      obtain ⟨ds, _, q, hq, rfl⟩ := h
      have := ih _ _ _ hq
      simp only [List.length_append]
      have : ((integrate last ds).take need).length ≤ need := by simp; omega
      omega

theorem decode_length (wd : Nat → List UInt8 → Option (List Int)) (be : Bool) (n : Nat)
    (fs : List (List (List UInt8))) (out : List Int) (hn : 1 ≤ n)
    (h : Verif.Spec.Steim.decode wd be n fs = some out) : out.length ≤ n := by
  cases fs with
  | nil => simp [Verif.Spec.Steim.decode] at h; subst h; simp
  | cons f fs =>
    simp only [Verif.Spec.Steim.decode, Option.bind_eq_some_iff, Option.map_eq_some_iff] at h
    obtain ⟨ds, _, q, hq, rfl⟩ := h
    have h1 := decodeRest_length _ _ _ _ _ _ hq
    simp only [List.length_append]
    have : ∀ x : Int, (x :: (integrate x (ds.drop 1)).take (n - 1)).length ≤ n := by
      intro x; simp; omega
    have := this (signed 32 (num be (word f 1)))
    omega

/-! ## Frames and bytes -/

/-- The bytes of a sequence of frames. -/
def frameBytes (fs : List (List (List UInt8))) : List UInt8 := (fs.map List.flatten).flatten

theorem flatten_words_length (f : List (List UInt8)) (h : FourBytes f) :
    f.flatten.length = 4 * f.length := by
  induction f with
  | nil => rfl
  | cons w f ih =>
    rw [List.flatten_cons, List.length_append, h w List.mem_cons_self,
      ih fun x hx => h x (List.mem_cons_of_mem _ hx), List.length_cons]
    omega

theorem words_of_flatten (f : List (List UInt8)) (rest : List UInt8) (h : FourBytes f) :
    (List.range' 0 f.length).map (fun i => ((f.flatten ++ rest).drop (4 * i)).take 4) = f := by
  have key : ∀ (f : List (List UInt8)) (pre : List UInt8) (j : Nat), FourBytes f → pre.length = 4 * j →
      (List.range' j f.length).map (fun i => ((pre ++ (f.flatten ++ rest)).drop (4 * i)).take 4) = f := by
    intro f
    induction f with
    | nil => intro pre j _ _; rfl
    | cons w f ih =>
      intro pre j h hp
      rw [List.length_cons, List.range'_succ, List.map_cons]
      have hw := h w List.mem_cons_self
      congr 1
      · rw [← hp, List.drop_left, List.flatten_cons, List.append_assoc, ← hw, List.take_left]
      · have := ih (pre ++ w) (j + 1) (fun x hx => h x (List.mem_cons_of_mem _ hx)) (by simp [hp, hw]; omega)
        rw [List.flatten_cons, List.append_assoc, ← List.append_assoc pre]
        exact this
  have := key f [] 0 h rfl
  simpa using this

theorem frameBytes_length (fs : List (List (List UInt8))) (h : ∀ f ∈ fs, FrameOk f) :
    (frameBytes fs).length = 64 * fs.length := by
  induction fs with
  | nil => rfl
  | cons f fs ih =>
    have hf := h f List.mem_cons_self
    have := flatten_words_length f hf.2
    rw [hf.1] at this
    have ih' := ih fun x hx => h x (List.mem_cons_of_mem _ hx)
    unfold frameBytes at ih' ⊢
    rw [List.map_cons, List.flatten_cons, List.length_append, this, ih', List.length_cons]
    omega

theorem frameAt_bytes (fs : List (List (List UInt8))) (rest : List UInt8) (h : ∀ f ∈ fs, FrameOk f) :
    (List.range' 0 fs.length).map (frameAt (frameBytes fs ++ rest)) = fs := by
  have key : ∀ (fs : List (List (List UInt8))) (pre : List UInt8) (j : Nat), (∀ f ∈ fs, FrameOk f) →
      pre.length = 64 * j →
      (List.range' j fs.length).map (frameAt (pre ++ (frameBytes fs ++ rest))) = fs := by
    intro fs
    induction fs with
    | nil => intro pre j _ _; rfl
    | cons f fs ih =>
      intro pre j h hp
      have hf := h f List.mem_cons_self
      have hfl := flatten_words_length f hf.2
      rw [hf.1] at hfl
      have hb : frameBytes (f :: fs) = f.flatten ++ frameBytes fs := rfl
      rw [List.length_cons, List.range'_succ, List.map_cons, hb]
      congr 1
      · unfold frameAt
        have := words_of_flatten f (frameBytes fs ++ rest) hf.2
        rw [hf.1] at this
        conv => rhs; rw [← this]
        apply List.map_congr_left
        intro i hi
        rw [← hp, ← List.drop_drop, List.drop_left, List.append_assoc]
      · have := ih (pre ++ f.flatten) (j + 1) (fun x hx => h x (List.mem_cons_of_mem _ hx))
          (by simp only [List.length_append, hp, hfl]; omega)
        simp only [← List.append_assoc] at this ⊢
        exact this
  have := key fs [] 0 h rfl
  simpa using this

end Verif.Proof.Steim
