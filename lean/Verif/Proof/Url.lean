import Verif.Props.UrlDefs
import Verif.Proof.PathRange
import Verif.Proof.TimeStrRead
import Verif.Proof.Printf
/-! Lemmas on reading from URLs. -/
namespace Verif.Proof.Url
open Verif.Model Verif.Model.Steim Verif.Model.Url
open Verif.Props.Url
open Verif.Proof.Mem (bind_ok)

/-! ## Transfers -/

theorem handOver_ok : ∀ (n : Nat) (c : Conn) (r : Rcp) (c' : Conn) (r' : Rcp), handOver n c r = (c', r') →
    ∃ b, r'.got = r.got ++ b ∧ r.size = b.length + r'.size ∧ content c = b ++ content c' ∧ c'.running = c.running
  | 0, c, r, c', r', h => by
    rw [handOver] at h
    cases h
    exact ⟨[], by simp, by simp, by simp, rfl⟩
  | n + 1, c, r, c', r', h => by
    rw [handOver] at h
    split at h
    · cases h
      exact ⟨[], by simp, by simp, by simp, rfl⟩
    · rename_i p t hp
      unfold recvCallback at h
      by_cases hl : p.length > r.size
      · rw [if_pos hl] at h
        simp only at h
        cases h
        exact ⟨[], by simp, by simp, by simp [content], rfl⟩
      · rw [if_neg hl] at h
        simp only at h
        obtain ⟨b, h1, h2, h3, h4⟩ := handOver_ok n _ _ _ _ h
        refine ⟨p ++ b, by rw [h1]; simp, ?_, ?_, h4⟩
        · simp only at h2
          rw [List.length_append]
          omega
        · unfold content at h3 ⊢
          simp only at h3
          rw [hp, List.flatten_cons, h3, List.append_assoc]

theorem perform_ok {a : Act} (ha : a.broken = false) {c : Conn} {r : Rcp} {c' : Conn} {r' : Rcp} (hc : c.running = true)
    (h : perform a c r = (c', r')) :
    ∃ b, r'.got = r.got ++ b ∧ r.size = b.length + r'.size ∧ content c = b ++ content c' ∧
      (c'.running = false → content c' = []) := by
  unfold perform at h
  rw [if_neg (by simp [ha])] at h
  split at h
  · cases h
    exact ⟨[], by simp, by simp, by simp, by simp [hc]⟩
  · simp only at h
    obtain ⟨b, h1, h2, h3, h4⟩ := handOver_ok a.pieces c r _ _ rfl
    cases h
    refine ⟨b, h1, h2, h3, fun hr => ?_⟩
    simp only [Bool.not_eq_false', Bool.and_eq_true, List.isEmpty_iff] at hr
    unfold content
    simp only
    rw [hr.2]
    rfl

theorem wait_ok {null : Bool} : ∀ (acts : List Act) (c : Conn) (r : Rcp) (c' : Conn) (r' : Rcp) (rest : List Act),
    Sound acts → c.running = true → wait null acts c r = some (c', r', rest) →
    ∃ b, r'.got = r.got ++ b ∧ r.size = b.length + r'.size ∧ content c = b ++ content c' ∧
      (c'.running = false → content c' = []) ∧ (c'.running = true → r'.isPaused = true ∨ r'.size = 0 ∧ null = false)
  | [], c, r, c', r', rest, _, _, h => by cases h
  | a :: as, c, r, c', r', rest, hs, hc, h => by
    rw [wait] at h
    generalize hp : perform a c r = x at h
    obtain ⟨c1, r1⟩ := x
    obtain ⟨b, h1, h2, h3, h4⟩ := perform_ok (hs a (by simp)) hc hp
    simp only at h
    split at h
    · rename_i hif
      obtain ⟨b2, g1, g2, g3, g4, g5⟩ := wait_ok as c1 r1 c' r' rest (fun x hx => hs x (by simp [hx])) hif.1 h
      exact ⟨b ++ b2, by rw [g1, h1, List.append_assoc], by rw [List.length_append]; omega,
        by rw [h3, g3, List.append_assoc], g4, g5⟩
    · rename_i hif
      cases h
      refine ⟨b, h1, h2, h3, h4, fun hr => ?_⟩
      rw [hr] at hif
      by_cases hpa : r'.isPaused = true
      · exact .inl hpa
      · right
        have : r'.isPaused = false := by simpa using hpa
        rw [this] at hif
        simp only [true_and, not_or] at hif
        exact ⟨by omega, by simpa using hif.2⟩

theorem fread_ok {size first : Nat} {acts rest : List Act} {c c' : Conn} {b : List UInt8} (hs : Sound acts)
    (hc : c.running = false → content c = []) (h : fread size first acts c = some (b, c', rest)) :
    content c = b ++ content c' ∧ b.length ≤ size ∧ (c'.running = false → content c' = []) := by
  unfold fread at h
  by_cases hr : c.running = false
  · rw [if_pos hr] at h
    cases h
    exact ⟨by simp, by simp, hc⟩
  · rw [if_neg hr] at h
    have hr : c.running = true := by simpa using hr
    simp only at h
    obtain ⟨b1, h1, h2, h3, h4⟩ := handOver_ok first { c with paused := false } { size := size } _ _ rfl
    cases hw : wait (decide (size = 0)) acts (handOver first { c with paused := false } { size := size }).1
        { (handOver first { c with paused := false } { size := size }).2 with isPaused := false } with
    | none => rw [hw] at h; cases h
    | some y =>
      rw [hw] at h
      obtain ⟨c1, r1, rest1⟩ := y
      obtain ⟨b2, g1, g2, g3, g4, -⟩ := wait_ok acts _ _ _ _ _ hs (by rw [h4]; exact hr) hw
      simp only [Option.map_some, Option.some.injEq, Prod.mk.injEq] at h
      obtain ⟨e1, e2, -⟩ := h
      rw [← e1, ← e2, g1]
      simp only at g2 h2 ⊢
      rw [h1]
      simp only [List.nil_append] at h1 ⊢
      refine ⟨?_, by rw [List.length_append]; omega, g4⟩
      have : content c = b1 ++ content (handOver first { c with paused := false } { size := size }).1 := h3
      rw [this, g3, List.append_assoc]

/-! ## Progress -/

/-- The pieces fit into the buffer and are not empty. -/
def Small (size : Nat) (c : Conn) : Prop := ∀ p ∈ c.pieces, p ≠ [] ∧ p.length ≤ size

/-- A pause happens only after something has been received. -/
theorem handOver_pause {size : Nat} : ∀ (n : Nat) (c : Conn) (r : Rcp), Small size c → r.got.length + r.size = size →
    c.paused = false → r.isPaused = false →
    Small size (handOver n c r).1 ∧ (handOver n c r).2.got.length + (handOver n c r).2.size = size ∧
    (handOver n c r).1.paused = (handOver n c r).2.isPaused ∧
    ((handOver n c r).2.isPaused = true → (handOver n c r).2.got ≠ []) ∧
    ((handOver n c r).1.pieces.length + n ≤ c.pieces.length ∨ (handOver n c r).1.pieces = [] ∨ (handOver n c r).2.isPaused = true)
  | 0, c, r, hs, hl, hp, hi => by
    rw [handOver]
    exact ⟨hs, hl, by rw [hp, hi], by simp [hi], .inl (by simp)⟩
  | n + 1, c, r, hs, hl, hp, hi => by
    rw [handOver]
    split
    · rename_i he
      exact ⟨hs, hl, by rw [hp, hi], by simp [hi], .inr (.inl he)⟩
    · rename_i p t he
      unfold recvCallback
      have hps := hs p (by rw [he]; simp)
      by_cases hgt : p.length > r.size
      · rw [if_pos hgt]
        simp only
        refine ⟨hs, hl, by simp, fun _ hn => ?_, .inr (.inr (by simp))⟩
        rw [hn] at hl
        simp only [List.length_nil] at hl
        omega
      · rw [if_neg hgt]
        simp only
        obtain ⟨h1, h2, h3, h4, h5⟩ := handOver_pause n { c with pieces := t } { r with got := r.got ++ p, size := r.size - p.length }
          (fun x hx => hs x (by rw [he]; simp [show x ∈ t from hx])) (by simp only [List.length_append]; omega) hp hi
        refine ⟨h1, h2, h3, h4, ?_⟩
        rcases h5 with h5 | h5
        · left
          simp only at h5
          rw [he, List.length_cons]
          omega
        · exact .inr h5

/-- With at most one piece from the call that ends a pause there is no pause before the loop. -/
theorem handOver_one {size : Nat} {n : Nat} (hn : n ≤ 1) {c : Conn} (hs : Small size c) (hp : c.paused = false) :
    (handOver n c { size := size }).1.paused = false ∧ (handOver n c { size := size }).2.isPaused = false := by
  cases n with
  | zero => rw [handOver]; exact ⟨hp, rfl⟩
  | succ n =>
    obtain rfl : n = 0 := by omega
    rw [handOver]
    split
    · exact ⟨hp, rfl⟩
    · rename_i p t he
      unfold recvCallback
      have hps := hs p (by rw [he]; simp)
      rw [if_neg (by simp only; omega)]
      simp only
      rw [handOver]
      exact ⟨hp, rfl⟩

theorem wait_progress {size : Nat} (hz : 0 < size) : ∀ (acts : List Act) (c : Conn) (r : Rcp) (c' : Conn) (r' : Rcp) (rest : List Act),
    Sound acts → Small size c → r.got.length + r.size = size → c.running = true → c.paused = false → r.isPaused = false →
    wait false acts c r = some (c', r', rest) → r'.got ≠ [] ∨ c'.running = false
  | [], c, r, c', r', rest, _, _, _, _, _, _, h => by cases h
  | a :: as, c, r, c', r', rest, hsd, hs, hl, hr, hp, hi, h => by
    rw [wait] at h
    unfold perform at h
    rw [if_neg (by simp [hsd a (by simp)]), if_neg (by simp [hp])] at h
    simp only at h
    obtain ⟨h1, h2, h3, h4, -⟩ := handOver_pause a.pieces c r hs hl hp hi
    generalize handOver a.pieces c r = x at h h1 h2 h3 h4
    obtain ⟨c1, r1⟩ := x
    simp only at h h1 h2 h3 h4
    split at h
    · rename_i hif
      refine wait_progress hz as { c1 with running := !(a.finish && c1.pieces.isEmpty) } r1 c' r' rest
        (fun x hx => hsd x (by simp [hx])) h1 h2 hif.1 ?_ hif.2.1 h
      show c1.paused = false
      rw [h3]
      exact hif.2.1
    · rename_i hif
      cases h
      by_cases hrun : c1.pieces = [] ∧ a.finish = true
      · right; simp [hrun.1, hrun.2]
      · left
        by_cases hpa : r'.isPaused = true
        · exact h4 hpa
        · intro hn
          rw [hn] at h2
          simp only [List.length_nil] at h2
          refine hif ⟨?_, by simpa using hpa, .inl (by omega)⟩
          simp only [Bool.not_eq_true', Bool.and_eq_false_iff, List.isEmpty_eq_false_iff]
          by_cases hf : a.finish = true
          · exact .inr fun h => hrun ⟨h, hf⟩
          · exact .inl (by simpa using hf)

/-- The loop ends when libcurl has done enough. -/
theorem wait_ends {size : Nat} {null : Bool} : ∀ (acts : List Act) (c : Conn) (r : Rcp), Sound acts → Small size c →
    r.got.length + r.size = size → c.paused = false → r.isPaused = false →
    (∀ a ∈ acts, 0 < a.pieces ∧ a.finish = true) → c.pieces.length < acts.length → ∃ x, wait null acts c r = some x
  | [], c, r, _, _, _, _, _, _, hlen => by simp at hlen
  | a :: as, c, r, hsd, hs, hl, hp, hi, hact, hlen => by
    rw [wait]
    unfold perform
    rw [if_neg (by simp [hsd a (by simp)]), if_neg (by simp [hp])]
    simp only
    obtain ⟨h1, h2, h3, h4, h5⟩ := handOver_pause a.pieces c r hs hl hp hi
    generalize handOver a.pieces c r = x at h1 h2 h3 h4 h5
    obtain ⟨c1, r1⟩ := x
    simp only at h1 h2 h3 h4 h5 ⊢
    split
    · rename_i hif
      refine wait_ends as _ _ (fun x hx => hsd x (by simp [hx])) h1 h2 ?_ hif.2.1 (fun x hx => hact x (by simp [hx])) ?_
      · simp only
        rw [h3]
        exact hif.2.1
      · simp only
        rw [List.length_cons] at hlen
        have ha := hact a (by simp)
        have hne : c1.pieces ≠ [] := by
          have := hif.1
          simp only [ha.2, Bool.true_and, Bool.not_eq_true', List.isEmpty_eq_false_iff] at this
          exact this
        rcases h5 with h5 | h5 | h5
        · omega
        · exact absurd h5 hne
        · rw [hif.2.1] at h5; cases h5
    · exact ⟨_, rfl⟩

/-! ## Ranges -/

open Verif.Spec.PathRange (Digit Number value)

theorem loop_spaces : ∀ (sp t : List UInt8), (∀ c ∈ sp, c = 32) → rangeLoop (sp ++ t) {} = rangeLoop t {}
  | [], t, _ => rfl
  | c :: sp, t, h => by
    have hc := h c (by simp)
    subst hc
    rw [List.cons_append, rangeLoop, if_neg (by decide), if_pos ⟨rfl, rfl⟩]
    exact loop_spaces sp t fun c hc => h c (by simp [hc])

theorem digit_cases {c : UInt8} (h : Digit c) : c ≠ 0 ∧ c ≠ 32 ∧ PathRange.isDigit c = .ok true := by
  unfold Digit at h
  refine ⟨fun e => ?_, fun e => ?_, ?_⟩
  · rw [e] at h; simp at h
  · rw [e] at h; simp at h
  · unfold PathRange.isDigit
    rw [if_pos (by omega), decide_eq_true h]

theorem loop_start : ∀ (x acc t : List UInt8), (∀ c ∈ x, Digit c) → acc.length + x.length ≤ 20 →
    rangeLoop (x ++ t) { startstr := acc } = rangeLoop t { startstr := acc ++ x }
  | [], acc, t, _, _ => by simp
  | c :: x, acc, t, h, hl => by
    obtain ⟨h1, h2, h3⟩ := digit_cases (h c (by simp))
    rw [List.length_cons] at hl
    rw [List.cons_append, rangeLoop, if_neg h1, if_neg (fun e => h2 e.1), h3, bind_ok]
    simp only
    rw [if_pos ⟨trivial, trivial⟩, if_neg (by simp only [List.length_append, List.length_singleton, List.length_nil]; omega)]
    have := loop_start x (acc ++ [c]) t (fun c hc => h c (by simp [hc])) (by rw [List.length_append, List.length_singleton]; omega)
    rw [this, List.append_assoc, List.singleton_append]

theorem loop_end : ∀ (y st acc t : List UInt8), st ≠ [] → st.length ≤ 20 → (∀ c ∈ y, Digit c) → acc.length + y.length ≤ 20 →
    rangeLoop (y ++ t) { startstr := st, endstr := acc, dash := true } =
      rangeLoop t { startstr := st, endstr := acc ++ y, dash := true }
  | [], st, acc, t, _, _, _, _ => by simp
  | c :: y, st, acc, t, hst, hsl, h, hl => by
    obtain ⟨h1, h2, h3⟩ := digit_cases (h c (by simp))
    rw [List.length_cons] at hl
    rw [List.cons_append, rangeLoop, if_neg h1, if_neg (fun e => h2 e.1), h3, bind_ok]
    simp only
    rw [if_neg (by simp), if_pos ⟨trivial, trivial⟩,
      if_neg (by simp only [List.length_append, List.length_singleton]; omega)]
    have := loop_end y st (acc ++ [c]) t hst hsl (fun c hc => h c (by simp [hc])) (by rw [List.length_append, List.length_singleton]; omega)
    rw [this, List.append_assoc, List.singleton_append]

theorem rangeLoop_ok {sp x y rest : List UInt8} (hsp : ∀ c ∈ sp, c = 32) (hx : Number x) (hne : x ≠ []) (hy : Number y) :
    rangeLoop (sp ++ (x ++ 45 :: (y ++ 47 :: rest))) {} = .ok { startstr := x, endstr := y, dash := true } := by
  rw [loop_spaces _ _ hsp, loop_start x [] _ hx.1 (by simpa using hx.2), List.nil_append, rangeLoop, if_neg (by decide),
    if_neg (fun e => absurd e.1 (by decide)), show PathRange.isDigit 45 = .ok false from rfl, bind_ok]
  simp only
  have := hx.2
  rw [if_neg (by simp), if_neg (by simp), if_pos ⟨trivial, trivial⟩, if_neg (by simp only [List.length_nil]; omega),
    loop_end y x [] _ hne hx.2 hy.1 (by simpa using hy.2), List.nil_append, rangeLoop, if_neg (by decide),
    if_neg (fun e => absurd e.1 (by decide)), show PathRange.isDigit 47 = .ok false from rfl, bind_ok]
  simp

theorem named_iff (line : List UInt8) : Blockettes2.like line "Content-Range: bytes" = true ↔ Spec.Url.Named line := by
  unfold Blockettes2.like Spec.Url.Named
  have e1 : (ExtraHeaders.lit "Content-Range: bytes").length = 20 := by decide +kernel
  have e2 : (ExtraHeaders.lit "Content-Range: bytes").map Blockettes2.lower = Spec.Url.rangeName := by decide +kernel
  have e3 : Blockettes2.lower = Spec.Url.lower := rfl
  rw [e1, e2, e3, beq_iff_eq]

theorem headerCallback_other {line : List UInt8} (h : ¬ Spec.Url.Named line) (a b : Int) :
    headerCallback line a b = .ok (a, b) := by
  unfold headerCallback
  rw [if_neg fun hl => h ((named_iff line).1 hl.2)]

theorem headerCallback_ok {line : List UInt8} {a b : Nat} (h : Spec.Url.ContentRange line a b) (ha : a < 2 ^ 63) (hb : b < 2 ^ 63)
    (s e : Int) : headerCallback line s e = .ok ((a : Int), (b : Int)) := by
  obtain ⟨name, sp, x, y, rest, rfl, hname, hsp, ⟨hx, hxne, hxv⟩, hy, hyne, hyv⟩ := h
  have hlen : name.length = 20 := by
    have := congrArg List.length hname
    rw [List.length_map] at this
    exact this
  have hxl : 0 < x.length := List.length_pos_iff.2 hxne
  have hyl : 0 < y.length := List.length_pos_iff.2 hyne
  have hl : name ++ sp ++ x ++ 45 :: y ++ 47 :: rest = name ++ (sp ++ (x ++ 45 :: (y ++ 47 :: rest))) := by simp
  rw [hl]
  unfold headerCallback
  rw [if_pos, List.drop_append_of_le_length (by omega), List.drop_of_length_le (by omega), List.nil_append,
    rangeLoop_ok hsp hx hxne hy, bind_ok]
  · simp only
    rw [if_pos hxne, if_pos hyne, Proof.PathRange.strtoull_value x (by omega), Proof.PathRange.strtoull_value y (by omega), hxv, hyv]
    unfold PathRange.toInt64
    rw [if_pos ha, if_pos hb]
  · refine ⟨?_, (named_iff _).2 ?_⟩
    · simp only [List.length_append, List.length_cons]
      omega
    · unfold Spec.Url.Named
      rw [← hlen, List.take_left]
      exact hname

theorem headers_others : ∀ (ls : List (List UInt8)) (s e : Int), (∀ l ∈ ls, ¬ Spec.Url.Named l) → headers ls s e = .ok (s, e)
  | [], s, e, _ => rfl
  | l :: ls, s, e, h => by
    rw [headers, headerCallback_other (h l (by simp)), bind_ok]
    exact headers_others ls s e fun l hl => h l (by simp [hl])

theorem headers_append : ∀ (l1 l2 : List (List UInt8)) (s e : Int), (∀ l ∈ l1, ¬ Spec.Url.Named l) →
    headers (l1 ++ l2) s e = headers l2 s e
  | [], l2, s, e, _ => rfl
  | l :: ls, l2, s, e, h => by
    rw [List.cons_append, headers, headerCallback_other (h l (by simp)), bind_ok]
    exact headers_append ls l2 s e fun l hl => h l (by simp [hl])

theorem foldl_value : ∀ (s : List UInt8) (v : Nat), s.foldl (fun v c => v * 10 + (c.toNat - 48)) v = v * 10 ^ s.length + value s
  | [], v => by simp [value]
  | c :: s, v => by
    rw [List.foldl_cons, foldl_value s]
    simp only [value, List.length_cons]
    rw [Nat.pow_succ, Nat.add_mul, Nat.mul_assoc, Nat.mul_comm 10 (10 ^ s.length)]
    omega

theorem ascii_digit {c : Char} (h : Spec.TimeStr.Digit c) : (UInt8.ofNat c.toNat).toNat = c.toNat := by
  unfold Spec.TimeStr.Digit at h
  rw [UInt8.toNat_ofNat', Nat.mod_eq_of_lt (by omega)]

theorem num_numeral {n : Int} (h0 : 0 ≤ n) (hn : n < 2 ^ 63) : Spec.Url.Numeral (num n) n.toNat := by
  unfold num TimeStr.printD
  rw [if_neg (by omega)]
  obtain ⟨h1, h2, h3⟩ := Proof.TimeStr.numeral_toDigits n.toNat
  have hl := Proof.Printf.toDigits_length (n := n.toNat) (k := 19) (by omega) (by omega)
  unfold Report.bytes
  refine ⟨⟨fun c hc => ?_, by rw [List.length_map]; omega⟩, by simpa using h1, ?_⟩
  · obtain ⟨d, hd, rfl⟩ := List.mem_map.1 hc
    have := h2 d hd
    unfold Digit
    rw [ascii_digit this]
    exact this
  · have := foldl_value ((Nat.toDigits 10 n.toNat).map fun c => UInt8.ofNat c.toNat) 0
    rw [Nat.zero_mul, Nat.zero_add] at this
    rw [← this, List.foldl_map]
    refine Eq.trans ?_ h3
    unfold Spec.TimeStr.value
    generalize Nat.toDigits 10 n.toNat = l at h2
    generalize 0 = v
    induction l generalizing v with
    | nil => rfl
    | cons c l ih =>
      rw [List.foldl_cons, List.foldl_cons, ascii_digit (h2 c (by simp))]
      exact ih (fun c hc => h2 c (by simp [hc])) _

end Verif.Proof.Url
