import Verif.Model.RecordList
import Verif.Proof.Pack2Read
import Verif.Props.RecordListDefs
/-!
# Lemmas about decoding from longer memory, and about unpacking record lists
-/
namespace Verif.Proof.RecordList
open Verif.Model Verif.Model.Bytes Verif.Model.Steim Verif.Model.Samples Verif.Model.Mem Verif.Model.Record3
  Verif.Model.RecordList
open Verif.Proof.Mem Verif.Props.RecordList
open Verif.Props.Samples (typeCode C54_lookups_consistent)
open Verif.Model.ReadTrace (typeOf)

/-! ## More memory than needed -/

theorem decLoop_longer {α : Type} (i o : Nat) (conv : List UInt8 → Res α) (b : List UInt8) : ∀ n out mem xs,
    decLoop i o conv n out mem = .ok xs → decLoop i o conv n out (mem ++ b) = .ok xs := by
  intro n
  induction n with
  | zero => intro out mem xs he; exact he
  | succ n ih =>
    intro out mem xs he
    rw [decLoop] at he ⊢
    split at he
    · next h1 =>
      rw [if_pos h1]
      split at he
      · cases he
      · next h2 =>
        rw [if_neg (by rw [List.length_append]; omega), List.take_append_of_le_length (by omega)]
        obtain ⟨x, e1, he⟩ := bind_eq_ok.1 he
        obtain ⟨ys, e2, he⟩ := bind_eq_ok.1 he
        rw [e1, bind_ok, List.drop_append_of_le_length (by omega), ih _ _ _ e2, bind_ok]
        exact he
    · next h1 => rw [if_neg h1]; exact he

theorem decFrames_longer (h s : Bool) (dec : Nat → List UInt8 → List Int → Res (List Int)) (input b : List UInt8)
    (cnt cap : Nat) : ∀ n idx out xn r, decFrames h s dec input cnt cap n idx out xn = .ok r →
    decFrames h s dec (input ++ b) cnt cap n idx out xn = .ok r := by
  intro n
  induction n with
  | zero => intro idx out xn r he; exact he
  | succ n ih =>
    intro idx out xn r he
    rw [decFrames] at he ⊢
    split at he
    · next h1 =>
      rw [if_pos h1]
      split at he
      · cases he
      · next h2 =>
        have e : ((input ++ b).drop (64 * idx)).take 64 = (input.drop (64 * idx)).take 64 := by
          rw [List.drop_append_of_le_length (by omega), List.take_append_of_le_length (by rw [List.length_drop]; omega)]
        rw [if_neg (by rw [List.length_append]; omega)]
        simp only [e] at he ⊢
        split at he
        · next h3 =>
          rw [if_pos h3]
          split at he
          · cases he
          · next h4 =>
            rw [if_neg h4]
            obtain ⟨df, e1, he⟩ := bind_eq_ok.1 he
            obtain ⟨o2, e2, he⟩ := bind_eq_ok.1 he
            rw [e1, bind_ok, e2, bind_ok]
            exact ih _ _ _ _ he
        · next h3 =>
          rw [if_neg h3]
          obtain ⟨df, e1, he⟩ := bind_eq_ok.1 he
          obtain ⟨o2, e2, he⟩ := bind_eq_ok.1 he
          rw [e1, bind_ok, e2, bind_ok]
          exact ih _ _ _ _ he
    · next h1 => rw [if_neg h1]; exact he

theorem decode_longer (h s : Bool) (dec : Nat → List UInt8 → List Int → Res (List Int)) (input b : List UInt8)
    (len cnt out : Nat) (d : Decoded) (he : decode h s dec input len cnt out = .ok d) :
    decode h s dec (input ++ b) len cnt out = .ok d := by
  unfold decode at he ⊢
  split at he
  · next h1 => rw [if_pos h1]; exact he
  · next h1 =>
    rw [if_neg h1]
    split at he
    · cases he
    · next h2 =>
      rw [if_neg h2]
      split at he
      · cases he
      · next h3 =>
        rw [if_neg h3]
        obtain ⟨r, e1, e2⟩ := bind_eq_ok.1 he
        rw [decFrames_longer _ _ _ _ _ _ _ _ _ _ _ _ e1, bind_ok]
        exact e2

theorem finish_longer {α : Type} {cnt : Nat} {mk : List α → Samples} {x y : Res (List α)} {s : Samples}
    (h : ∀ v, x = .ok v → y = .ok v) (e : finish cnt mk x = .ok s) : finish cnt mk y = .ok s := by
  unfold finish at e ⊢
  obtain ⟨v, e1, e2⟩ := bind_eq_ok.1 e
  rw [h v e1, bind_ok]
  exact e2

theorem bind_longer {α β : Type} {x y : Res α} {f : α → Res β} {s : β} (h : ∀ v, x = .ok v → y = .ok v)
    (e : x.bind f = .ok s) : y.bind f = .ok s := by
  obtain ⟨v, e1, e2⟩ := bind_eq_ok.1 e
  rw [h v e1, bind_ok]
  exact e2

theorem loop_longer {α : Type} {p q : Prop} [Decidable p] [Decidable q] {i o : Nat} {conv : List UInt8 → Res α} {n out : Nat}
    {mem : List UInt8} (b : List UInt8) (v : List α) (e : (if p then Res.ok [] else if q then .err else decLoop i o conv n out mem) = .ok v) :
    (if p then Res.ok [] else if q then .err else decLoop i o conv n out (mem ++ b)) = .ok v := by
  split at e
  · next h => rw [if_pos h]; exact e
  · next h =>
    rw [if_neg h]
    split at e
    · cases e
    · next h' => rw [if_neg h']; exact decLoop_longer _ _ _ _ _ _ _ _ e

theorem decodeBy_longer (h s : Bool) (mem b : List UInt8) (len cnt out enc : Nat) (src : Samples)
    (he : decodeBy h s mem len cnt out enc = .ok src) : decodeBy h s (mem ++ b) len cnt out enc = .ok src := by
  unfold decodeBy at he ⊢
  split at he
  · split at he
    · cases he
    · rw [if_neg (by rw [List.length_append]; omega), List.take_append_of_le_length (by omega)]
      exact he
  · exact finish_longer (loop_longer b) he
  · exact finish_longer (loop_longer b) he
  · exact finish_longer (loop_longer b) he
  · exact finish_longer (loop_longer b) he
  · exact finish_longer (fun _ => bind_longer (fun d => decode_longer _ _ _ _ b _ _ _ d)) he
  · exact finish_longer (fun _ => bind_longer (fun d => decode_longer _ _ _ _ b _ _ _ d)) he
  · exact finish_longer (loop_longer b) he
  · exact finish_longer (loop_longer b) he
  · exact finish_longer (loop_longer b) he
  · exact finish_longer (loop_longer b) he
  · exact finish_longer (loop_longer b) he
  · exact finish_longer (loop_longer b) he
  · cases he

theorem decodeBy_size (h s : Bool) (mem : List UInt8) (len len' cnt out enc : Nat) (h1 : enc ≠ 10) (h2 : enc ≠ 11) :
    decodeBy h s mem len cnt out enc = decodeBy h s mem len' cnt out enc := by
  unfold decodeBy
  split <;> first
    | rfl
    | (exfalso; omega)

/-- The same samples are decoded with more memory, a larger size of the data and more room. -/
theorem decodeData_longer (h s : Bool) (mem b : List UInt8) (len len' enc cnt out out' : Nat) (src : Samples)
    (hl : (enc = 10 ∨ enc = 11) → len ≤ len') (hc : 1 ≤ cnt) (ho : cnt * decodedSampleSize enc % 2 ^ 64 ≤ out')
    (he : decodeData h s mem len enc cnt out = .ok src) :
    decodeData h s (mem ++ b) len' enc cnt out' = .ok src := by
  have h1 : decodeData h s mem len' enc cnt out = .ok src := by
    by_cases hst : enc = 10 ∨ enc = 11
    · exact Pack2.decodeData_more h s mem len len' enc cnt out src hst (hl hst) hc he
    · unfold decodeData at he ⊢
      rw [decodeBy_size h s mem len' len _ _ enc (by omega) (by omega)]
      exact he
  unfold decodeData at h1 ⊢
  rw [if_neg (by omega)] at h1 ⊢
  split at h1
  · cases h1
  · rw [if_neg (by omega)]
    exact decodeBy_longer _ _ _ _ _ _ _ _ _ h1

/-! ## One record -/

theorem locate_located {files : List UInt8 → Option (List UInt8)} {p : Pointer} {b : List UInt8} (hl : Located files p b)
    (hb : (b.length : Int) = p.msr.reclen) (h0 : 0 < b.length) : ∃ t, locate files p = .ok (b ++ t) := by
  have key : ∀ (a t : List UInt8), readRecord (a ++ (b ++ t)) ((a.length : Nat) : Int) p.msr.reclen = .ok b := by
    intro a t
    unfold readRecord
    rw [if_neg (by omega), if_neg (by omega), Int.toNat_natCast, List.drop_left, ← hb, Int.toNat_natCast, List.take_left]
    exact if_pos rfl
  unfold Located at hl
  unfold locate
  split at hl
  · next e => obtain ⟨t, rfl⟩ := hl; exact ⟨t, by rw [e]⟩
  · next e =>
    obtain ⟨a, t, rfl, rfl⟩ := hl
    exact ⟨[], by rw [e, List.append_nil]; exact key a t⟩
  · next e =>
    obtain ⟨a, t, e1, rfl⟩ := hl
    exact ⟨[], by rw [e, List.append_nil]; simp only; rw [e1]; exact key a t⟩
  · exact hl.elim

theorem trim_le (mem : List UInt8) : ∀ n k, trimFrames mem n = .ok k → k ≤ 64 * n := by
  intro n
  induction n with
  | zero => intro k h; cases h; omega
  | succ n ih =>
    intro k h
    rw [trimFrames] at h
    obtain ⟨f, -, h⟩ := bind_eq_ok.1 h
    split at h
    · have := ih _ h; omega
    · cases h; omega

theorem bounds_le {h : Bool} {m : Msr} {mem : List UInt8} {off size : Nat} (e : dataBounds h m mem = .ok (off, size))
    (hs : m.encoding = 10 ∨ m.encoding = 11) (h3 : m.formatversion = 3 → (off : Int) + m.datalength = m.reclen)
    (hb : (off : Int) < m.reclen ∧ m.reclen < 2 ^ 32) : (off : Int) + size ≤ m.reclen := by
  unfold dataBounds at e
  obtain ⟨⟨o, n⟩, e1, e2⟩ := bind_eq_ok.1 e
  simp only at e2
  have hn : sampleBytes m.encoding m.samplecnt n = n := by
    have hf : fixedBytes m.encoding = none := by rcases hs with h | h <;> rw [h] <;> rfl
    unfold sampleBytes
    rw [hf]
  rw [hn] at e2
  have ho : o = off ∧ size ≤ n := by
    split at e2
    · obtain ⟨k, e3, e4⟩ := bind_eq_ok.1 e2
      have := trim_le _ _ _ e3
      simp only [Res.ok.injEq, Prod.mk.injEq] at e4
      omega
    · simp only [Res.ok.injEq, Prod.mk.injEq] at e2
      omega
  obtain ⟨rfl, hle⟩ := ho
  split at e1
  · next hv =>
    have := h3 hv
    simp only [Res.ok.injEq, Prod.mk.injEq] at e1
    omega
  · split at e1
    · obtain ⟨x, e3, e4⟩ := bind_eq_ok.1 e1
      simp only [Res.ok.injEq, Prod.mk.injEq] at e4
      obtain ⟨rfl, e4⟩ := e4
      unfold bits at e4
      omega
    · cases e1

/-- The samples of one record. -/
theorem decode_points {h : Bool} {files : List UInt8 → Option (List UInt8)} {p : Pointer} {s : Samples}
    (hp : Points h files p s) (hc : 0 < p.msr.samplecnt) :
    ∃ sz, encodingSizeType (bits 8 p.msr.encoding) = some (sz, typeCode s) ∧ s.count = p.msr.samplecnt.toNat ∧
      p.msr.samplecnt ≤ 2147483647 ∧
      ∀ room, p.msr.samplecnt.toNat * sz ≤ room → decodeRecord h files p room = .ok s := by
  obtain ⟨b, hl, hb, ⟨size, hd⟩, align, hu⟩ := hp.record
  unfold unpackData at hu
  rw [if_neg (by omega)] at hu
  split at hu
  · cases hu
  next hr =>
  split at hu
  · cases hu
  next hcnt =>
  rw [hd, bind_ok] at hu
  simp only at hu
  split at hu
  · cases hu
  next hoff =>
  rw [if_neg (by have := hp.encoding; omega)] at hu
  split at hu
  · cases hu
  next samplesize ty henc =>
  obtain ⟨mem, hm, hu⟩ := bind_eq_ok.1 hu
  have hsz : samplesize ≤ 8 := by
    unfold encodingSizeType at henc
    split at henc <;> first
      | (simp only [Option.some.injEq, Prod.mk.injEq] at henc; omega)
      | cases henc
  have hn : p.msr.samplecnt.toNat * samplesize < 2 ^ 64 := by
    have : p.msr.samplecnt.toNat * samplesize ≤ 2147483647 * 8 := Nat.mul_le_mul (by omega) hsz
    omega
  obtain ⟨-, -, -, h54⟩ := (C54_lookups_consistent (bits 8 p.msr.encoding)).1 _ _ henc
  obtain ⟨t1, t2, -⟩ := h54 _ _ _ _ _ _ _ (by omega) hn hu
  obtain ⟨t, ht⟩ := locate_located hl hb (by omega)
  refine ⟨samplesize, by rw [t1, henc], t2, by omega, fun room hroom => ?_⟩
  unfold decodeRecord
  have hbl : p.dataoffset ≤ b.length := by omega
  rw [ht, bind_ok, if_neg (by rw [List.length_append]; omega), List.drop_append_of_le_length hbl]
  have hswap : (p.msr.swapHeader || p.msr.swapPayload) = p.msr.swapPayload := by
    have := hp.order
    revert this
    cases p.msr.swapHeader <;> cases p.msr.swapPayload <;> simp
  have hcb : bits 64 p.msr.samplecnt = p.msr.samplecnt.toNat := by unfold bits; omega
  have hpre : ∃ u, b.drop p.dataoffset = mem ++ u := by
    unfold encodedMem at hm
    split at hm
    · unfold peek at hm
      split at hm
      · injection hm with hm
        exact ⟨_, by rw [← hm]; exact (List.take_append_drop size _).symm⟩
      · cases hm
    · injection hm with hm
      exact ⟨[], by rw [← hm, List.append_nil]⟩
  obtain ⟨u, hu'⟩ := hpre
  have hdec : decodedSampleSize (bits 8 p.msr.encoding) = samplesize := by unfold decodedSampleSize; rw [henc]
  rw [hswap, hcb, hu', List.append_assoc]
  refine decodeData_longer _ _ _ _ _ _ _ _ _ _ _ ?_ (by omega) ?_ hu
  · intro hst
    have henc' : p.msr.encoding = 10 ∨ p.msr.encoding = 11 := by
      have := hp.encoding
      unfold bits at hst
      omega
    have := bounds_le hd henc' hp.whole ⟨by omega, by omega⟩
    unfold bits
    omega
  · rw [hdec]; omega

/-! ## The list -/

theorem size_type {e e' sz sz' : Nat} {t : Char} (h : encodingSizeType e = some (sz, t)) (h' : encodingSizeType e' = some (sz', t)) :
    sz = sz' :=
  ((C54_lookups_consistent e).1 _ _ h).1.symm.trans ((C54_lookups_consistent e').1 _ _ h').1

theorem typeOf_values (fb : Int × Nat → Nat) (s : Samples) : (typeOf fb s).2 = values fb s := by
  unfold typeOf
  split
  · next h => cases s <;> simp_all [Samples.count, values]
  · cases s <;> rfl

theorem loop_entries {h : Bool} {files : List UInt8 → Option (List UInt8)} {T : Char} {sz decodedsize e0 : Nat}
    (hsz : encodingSizeType e0 = some (sz, T)) (h64 : decodedsize < 2 ^ 64) : ∀ (l : List (Pointer × Samples)) (off : Nat),
    (∀ x ∈ l, Entry h files x) → (∀ x ∈ l, 0 < x.1.msr.samplecnt → typeCode x.2 = T) →
    off + (l.map fun x => x.1.msr.samplecnt.toNat).sum * sz ≤ decodedsize →
    unpackLoop h files T sz decodedsize (l.map Prod.fst) off = .ok ((l.filter fun x => x.1.msr.samplecnt ≠ 0).map Prod.snd) := by
  intro l
  induction l with
  | nil => intro off _ _ _; rfl
  | cons x l ih =>
    intro off he ht ho
    rw [List.map_cons, List.sum_cons, Nat.add_mul] at ho
    rw [List.map_cons, unpackLoop]
    rcases he x (by simp) with ⟨h0, -⟩ | ⟨hc, hp⟩
    · rw [if_pos h0, List.filter_cons_of_neg (by simpa using h0)]
      rw [h0] at ho
      exact ih off (fun y hy => he y (by simp [hy])) (fun y hy => ht y (by simp [hy])) (by simpa using ho)
    · rw [if_neg (by omega), List.filter_cons_of_pos (by simp; omega), List.map_cons]
      obtain ⟨sz', e1, e2, -, e4⟩ := decode_points hp hc
      rw [ht x (by simp) hc] at e1
      have := size_type hsz e1
      subst this
      rw [e1]
      simp only
      rw [if_neg (by simp), e4 _ (by unfold bits; omega), bind_ok, ih _ (fun y hy => he y (by simp [hy]))
        (fun y hy => ht y (by simp [hy])) (by rw [e2]; omega), bind_ok]

theorem loop_refused {h : Bool} {files : List UInt8 → Option (List UInt8)} {T : Char} {sz decodedsize e0 : Nat}
    (hsz : encodingSizeType e0 = some (sz, T)) (h64 : decodedsize < 2 ^ 64) (q : Pointer) (qs : List Pointer)
    (hq : q.msr.samplecnt ≠ 0) (hbad : (∀ n, encodingSizeType (bits 8 q.msr.encoding) ≠ some (n, T)) ∨ locate files q = .err) :
    ∀ (l : List (Pointer × Samples)) (off : Nat),
    (∀ x ∈ l, Entry h files x) → (∀ x ∈ l, 0 < x.1.msr.samplecnt → typeCode x.2 = T) →
    off + (l.map fun x => x.1.msr.samplecnt.toNat).sum * sz ≤ decodedsize →
    unpackLoop h files T sz decodedsize (l.map Prod.fst ++ q :: qs) off = .err := by
  intro l
  induction l with
  | nil =>
    intro off _ _ _
    rw [List.map_nil, List.nil_append, unpackLoop, if_neg hq]
    cases e : encodingSizeType (bits 8 q.msr.encoding) with
    | none => rfl
    | some x =>
      obtain ⟨n, t⟩ := x
      simp only
      by_cases ht : t = T
      · rw [if_neg (by simp [ht])]
        rcases hbad with hb | hb
        · exact absurd (ht ▸ e) (hb n)
        · unfold decodeRecord
          rw [hb]
          rfl
      · exact if_pos ht
  | cons x l ih =>
    intro off he ht ho
    rw [List.map_cons, List.sum_cons, Nat.add_mul] at ho
    rw [List.map_cons, List.cons_append, unpackLoop]
    rcases he x (by simp) with ⟨h0, -⟩ | ⟨hc, hp⟩
    · rw [if_pos h0]
      rw [h0] at ho
      exact ih off (fun y hy => he y (by simp [hy])) (fun y hy => ht y (by simp [hy])) (by simpa using ho)
    · rw [if_neg (by omega)]
      obtain ⟨sz', e1, e2, -, e4⟩ := decode_points hp hc
      rw [ht x (by simp) hc] at e1
      have := size_type hsz e1
      subst this
      rw [e1]
      simp only
      rw [if_neg (by simp), e4 _ (by unfold bits; omega), bind_ok, ih _ (fun y hy => he y (by simp [hy]))
        (fun y hy => ht y (by simp [hy])) (by rw [e2]; omega)]
      rfl

theorem sum_counts : ∀ k : List (Pointer × Samples), (∀ y ∈ k, 0 ≤ y.1.msr.samplecnt) →
    ((k.map fun y => y.1.msr.samplecnt).sum = (((k.map fun y => y.1.msr.samplecnt.toNat).sum : Nat) : Int)) := by
  intro k
  induction k with
  | nil => intro _; rfl
  | cons y k ih =>
    intro hk
    rw [List.map_cons, List.map_cons, List.sum_cons, List.sum_cons, ih fun z hz => hk z (by simp [hz])]
    have := hk y (by simp)
    omega

theorem counts {h : Bool} {files : List UInt8 → Option (List UInt8)} : ∀ (l : List (Pointer × Samples)),
    (∀ x ∈ l, Entry h files x) →
    (((l.filter fun x => x.1.msr.samplecnt ≠ 0).map Prod.snd).map Samples.count).sum =
      (l.map fun x => x.1.msr.samplecnt.toNat).sum ∧
    ∀ fb, ((l.filter fun x => x.1.msr.samplecnt ≠ 0).map Prod.snd).flatMap (values fb) = l.flatMap fun x => values fb x.2 := by
  intro l
  induction l with
  | nil => intro _; exact ⟨rfl, fun _ => rfl⟩
  | cons x l ih =>
    intro he
    obtain ⟨i1, i2⟩ := ih fun y hy => he y (by simp [hy])
    rcases he x (by simp) with ⟨h0, h1⟩ | ⟨hc, hp⟩
    · rw [List.filter_cons_of_neg (by simpa using h0)]
      refine ⟨by rw [i1, List.map_cons, List.sum_cons, h0]; simp, fun fb => ?_⟩
      rw [i2 fb, List.flatMap_cons, h1]
      rfl
    · rw [List.filter_cons_of_pos (by simp; omega)]
      obtain ⟨_, _, e2, _⟩ := decode_points hp hc
      refine ⟨?_, fun fb => ?_⟩
      · rw [List.map_cons, List.map_cons, List.sum_cons, i1, e2, List.map_cons, List.sum_cons]
      · rw [List.map_cons, List.flatMap_cons, i2 fb, List.flatMap_cons]

end Verif.Proof.RecordList
