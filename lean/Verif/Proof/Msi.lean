import Verif.Props.MsiDefs
import Verif.Proof.Mem
/-! Lemmas on the program msi. -/
namespace Verif.Proof.Msi
open Verif.Model Verif.Model.Steim Verif.Model.Mem Verif.Model.Record3 Verif.Model.Reader
  Verif.Model.Samples Verif.Model.Msi
open Verif.Props.Reader Verif.Props.Msi
open Verif.Spec.Msi
open Verif.Proof.Mem

/-- The count after `k` records. -/
def down (n : Int) (k : Nat) : Int := if n < 0 then n else n - k

theorem processed_nil (c : Config) (x : Taken → Samples) (s : State) : Processed c x s [] s := by
  constructor <;> simp

theorem processed_append {c : Config} {x : Taken → Samples} {s s1 s2 : State} {l1 l2 : List Taken}
    (h1 : Processed c x s l1 s1) (h2 : Processed c x s1 l2 s2) : Processed c x s (l1 ++ l2) s2 := by
  constructor
  · rw [h2.recs, h1.recs, List.length_append]; omega
  · rw [h2.samps, h1.samps, List.map_append, List.sum_append]; omega
  · rw [h2.printed, h1.printed, List.flatMap_append, List.append_assoc]
  · rw [h2.traces, h1.traces]; split <;> simp
  · rw [h2.binary, h1.binary]; split <;> simp
  · rw [h2.output, h1.output]; split <;> simp

theorem data_eq {o : Opts} {c : Config} {e : Taken} {x : Taken → Samples} (off : Nat) (t : List UInt8)
    (s : State) (hd : Decodes o e (x e)) :
    data o c off (e.2.2 ++ t) e.2.1 s = .ok { s with
      printed := s.printed ++ (if c.tracegaponly then [] else
        if c.printdata ≠ 0 ∧ (x e).count > 0 then sampleLines c.printdata (x e) else [])
      binary := s.binary ++ (if c.binfile then ([x e]).filter fun y => decide (y.count > 0) else []) } := by
  unfold data
  rcases hd off t with ⟨m, h1, h2⟩ | ⟨h1, h2⟩
  · rw [h1, bind_ok]
    simp only [h2]
    by_cases hc : (x e).count > 0
    · cases hb : c.binfile <;> cases hg : c.tracegaponly <;> by_cases hp : c.printdata = 0 <;>
        simp [hc, hp]
    · cases hb : c.binfile <;> cases hg : c.tracegaponly <;> simp [hc]
  · rw [h1, bind_ok, h2]
    have : Samples.count (.text []) = 0 := rfl
    cases hb : c.binfile <;> cases hg : c.tracegaponly <;> simp [this]

theorem record_eq {o : Opts} {c : Config} {x : Taken → Samples} {m : Msr} {b t : List UInt8}
    {r : Reader} {pos : Int} (s : State) (hl : m.reclen = b.length) (hr : m.reclen ≤ r.readoffset)
    (hb : r.buf.drop (r.readoffset - m.reclen).toNat = b ++ t) (hp : r.streampos - m.reclen = pos)
    (hd : c.printdata ≠ 0 ∨ c.binfile = true → Decodes o (pos, m, b) (x (pos, m, b))) :
    ∃ s', record o c m r s = .ok s' ∧ Processed c x s [(pos, m, b)] s' ∧
      s'.count = (if s.count > 0 then s.count - 1 else s.count) ∧ s'.files = s.files := by
  have hpk : peek (b ++ t) 0 m.reclen.toNat = .ok b := by
    unfold peek
    rw [hl]
    simp
  unfold record
  simp only [hb, hp]
  rw [if_neg (by omega)]
  by_cases hdf : c.printdata ≠ 0 ∨ c.binfile = true
  · rw [if_pos hdf]
    have := fun s => data_eq (c := c) (x := x) (e := (pos, m, b)) (r.readoffset - m.reclen).toNat t s (hd hdf)
    simp only at this
    rw [this, bind_ok]
    clear this
    by_cases ho : c.outfile = true
    · rw [if_pos ho, hpk, bind_ok]
      refine ⟨_, rfl, ?_, ?_, ?_⟩
      · constructor <;> cases hg : c.tracegaponly <;> cases hs : c.tracegapsum <;>
          simp [ho, linesOf, hg]
      · cases hg : c.tracegaponly <;> cases hs : c.tracegapsum <;> simp
      · cases hg : c.tracegaponly <;> cases hs : c.tracegapsum <;> simp
    · rw [if_neg ho]
      refine ⟨_, rfl, ?_, ?_, ?_⟩
      · constructor <;> cases hg : c.tracegaponly <;> cases hs : c.tracegapsum <;>
          simp [ho, linesOf, hg]
      · cases hg : c.tracegaponly <;> cases hs : c.tracegapsum <;> simp
      · cases hg : c.tracegaponly <;> cases hs : c.tracegapsum <;> simp
  · rw [if_neg hdf, bind_ok]
    have hp0 : c.printdata = 0 := by
      by_cases h : c.printdata = 0
      · exact h
      · exact absurd (Or.inl h) hdf
    have hb0 : ¬ c.binfile = true := fun h => hdf (Or.inr h)
    by_cases ho : c.outfile = true
    · rw [if_pos ho, hpk, bind_ok]
      refine ⟨_, rfl, ?_, ?_, ?_⟩
      · constructor <;> cases hg : c.tracegaponly <;> cases hs : c.tracegapsum <;>
          simp [ho, linesOf, hg, hp0, hb0]
      · cases hg : c.tracegaponly <;> cases hs : c.tracegapsum <;> simp
      · cases hg : c.tracegaponly <;> cases hs : c.tracegapsum <;> simp
    · rw [if_neg ho]
      refine ⟨_, rfl, ?_, ?_, ?_⟩
      · constructor <;> cases hg : c.tracegaponly <;> cases hs : c.tracegapsum <;>
          simp [ho, linesOf, hg, hp0, hb0]
      · cases hg : c.tracegaponly <;> cases hs : c.tracegapsum <;> simp
      · cases hg : c.tracegaponly <;> cases hs : c.tracegapsum <;> simp

theorem readFile_takes {w : World} {c : Config} {keep : Taken → Bool} {x : Taken → Samples}
    {r : Reader} {l : List Taken} {ret : Ret} (ht : Takes w.opts r l ret) (fuel : Nat)
    (hf : l.length < fuel)
    (hw : ∀ e ∈ l, ∃ b, inWindow w c e.2.1 = .ok b ∧
      (b = true → matched w c e.2.1 = .ok (keep e)) ∧ (b = false → keep e = false))
    (hd : c.printdata ≠ 0 ∨ c.binfile = true → ∀ e ∈ l, Decodes w.opts e (x e)) (s : State) :
    ∃ s', Processed c x s (limit s.count (l.filter keep)) s' ∧ s'.files = s.files ∧
      s'.count = down s.count (limit s.count (l.filter keep)).length ∧
      readFile w c fuel r s = .ok (if 0 ≤ s.count ∧ s.count ≤ (l.filter keep).length then none else some ret, s') := by
  induction ht generalizing fuel s with
  | stop r r' ret h1 h2 =>
    obtain ⟨fuel, rfl⟩ : ∃ f, fuel = f + 1 := ⟨fuel - 1, by simp at hf; omega⟩
    have e0 : limit s.count (([] : List Taken).filter keep) = [] := by unfold limit; split <;> simp
    refine ⟨s, by rw [e0]; exact processed_nil _ _ _, rfl, by rw [e0]; unfold down; split <;> simp, ?_⟩
    rw [readFile]
    by_cases h0 : s.count = 0
    · rw [if_pos h0, if_pos (by simp; omega)]
    · rw [if_neg h0, if_neg (by simp; omega), h1, bind_ok]
      cases ret with
      | record m => exact absurd rfl (h2 m)
      | _ => rfl
  | next r r' m b t l ret h1 hl hr hb hrest ih =>
    obtain ⟨fuel, rfl⟩ : ∃ f, fuel = f + 1 := ⟨fuel - 1, by simp at hf; omega⟩
    have hf' : l.length < fuel := by simp at hf; omega
    have ih := fun s => ih fuel hf' (fun e he => hw e (List.mem_cons_of_mem _ he))
      (fun h e he => hd h e (List.mem_cons_of_mem _ he)) s
    obtain ⟨bw, hw1, hw2, hw3⟩ := hw _ List.mem_cons_self
    simp only at hw1 hw2 hw3
    rw [readFile]
    by_cases h0 : s.count = 0
    · have e0 : ∀ k : List Taken, limit s.count k = [] := by intro k; unfold limit; simp [h0]
      refine ⟨s, by rw [e0]; exact processed_nil _ _ _, rfl, by rw [e0]; unfold down; split <;> simp, ?_⟩
      rw [if_pos h0, if_pos (by omega)]
    · rw [if_neg h0, h1, bind_ok]
      simp only
      rw [hw1, bind_ok]
      by_cases hk : keep (r'.streampos - m.reclen, m, b) = true
      · have hbw : bw = true := by
          cases bw
          · rw [hw3 rfl] at hk; cases hk
          · rfl
        subst hbw
        rw [if_neg (by simp), hw2 rfl, bind_ok, hk, if_neg (by simp)]
        obtain ⟨s1, a1, a2, a3, a4⟩ := record_eq (o := w.opts) (c := c) (x := x) s hl hr hb rfl
          (fun h => hd h _ List.mem_cons_self)
        rw [a1, bind_ok]
        obtain ⟨s2, b1, b2, b3, b4⟩ := ih s1
        have hlim : limit s.count (((r'.streampos - m.reclen, m, b) :: l).filter keep) =
            [(r'.streampos - m.reclen, m, b)] ++ limit s1.count (l.filter keep) := by
          rw [List.filter_cons_of_pos hk, a3]
          unfold limit
          by_cases hn : s.count < 0
          · rw [if_pos hn, if_pos (by rw [if_neg (by omega)]; exact hn)]
            rfl
          · rw [if_neg hn, if_pos (show s.count > 0 by omega), if_neg (by omega)]
            rw [show s.count.toNat = (s.count - 1).toNat + 1 by omega]
            rfl
        refine ⟨s2, by rw [hlim]; exact processed_append a2 b1, b2.trans a4, ?_, ?_⟩
        · rw [b3, hlim, a3]
          unfold down
          rw [List.length_append, List.length_singleton]
          by_cases hn : s.count < 0
          · simp only [if_neg (show ¬ s.count > 0 by omega), if_pos hn]
          · simp only [if_pos (show s.count > 0 by omega), if_neg hn,
              if_neg (show ¬ s.count - 1 < 0 by omega)]
            omega
        · rw [b4, List.filter_cons_of_pos hk, a3, List.length_cons]
          by_cases hn : s.count < 0
          · rw [if_neg (by split <;> omega), if_neg (by omega)]
          · by_cases hm : s.count - 1 ≤ ((l.filter keep).length : Int)
            · rw [if_pos (by rw [if_pos (by omega)]; omega), if_pos (by omega)]
            · rw [if_neg (by rw [if_pos (by omega)]; omega), if_neg (by omega)]
      · have e : (if bw = false then readFile w c fuel r' s
            else (matched w c m).bind fun b => if b = false then readFile w c fuel r' s
              else (record w.opts c m r' s).bind fun s => readFile w c fuel r' s) = readFile w c fuel r' s := by
          cases bw
          · rfl
          · rw [if_neg (by simp), hw2 rfl, bind_ok, if_pos (by simpa using hk)]
        rw [e, List.filter_cons_of_neg hk]
        exact ih s

theorem upto_cons {α : Type} (k : List α) (b : Bool) (t : List (List α × Bool)) :
    upto ((k, b) :: t) = if b then k ++ upto t else k := rfl

theorem limit_cons {α : Type} (n : Int) (k : List α) (b : Bool) (t : List (List α × Bool))
    (h : b = true ∨ (0 ≤ n ∧ n ≤ k.length)) :
    limit n (upto ((k, b) :: t)) = limit n k ++ limit (down n (limit n k).length) (upto t) := by
  rw [upto_cons]
  unfold limit down
  by_cases hn : n < 0
  · simp only [if_pos hn]
    rcases h with h | h
    · rw [if_pos h]
    · omega
  · simp only [if_neg hn, List.length_take]
    by_cases hb : b = true
    · rw [if_pos hb, if_neg (by omega), List.take_append]
      congr 2
      omega
    · rw [if_neg hb, if_neg (by omega)]
      have : 0 ≤ n ∧ n ≤ k.length := h.resolve_left hb
      rw [show (n - (min n.toNat k.length : Nat)).toNat = 0 by omega]
      simp

theorem fails_zero {α : Type} (t : List (List α × Bool)) : ¬ Fails 0 t := by
  unfold Fails
  omega

theorem fails_cons {α : Type} (n : Int) (k : List α) (b : Bool) (t : List (List α × Bool))
    (h : b = true ∨ (0 ≤ n ∧ n ≤ k.length)) :
    Fails n ((k, b) :: t) ↔ Fails (down n (limit n k).length) t := by
  unfold Fails
  rw [upto_cons]
  unfold limit down
  by_cases hn : n < 0
  · simp only [if_pos hn]
    have hb : b = true := by rcases h with h | h; exact h; omega
    subst hb
    simp [hn]
  · simp only [if_neg hn, List.length_take]
    by_cases hb : b = true
    · subst hb
      simp only [if_true, List.length_append, List.mem_cons, exists_eq_or_imp, Bool.true_eq_false, false_or]
      constructor
      · rintro ⟨h1, h2⟩; exact ⟨h1, by omega⟩
      · rintro ⟨h1, h2⟩; exact ⟨h1, by omega⟩
    · rw [if_neg hb]
      have : 0 ≤ n ∧ n ≤ k.length := h.resolve_left hb
      constructor
      · rintro ⟨-, h2⟩; omega
      · rintro ⟨-, h2⟩; omega

theorem processFiles_spec {w : World} {c : Config} {keep : Taken → Bool} {x : Taken → Samples}
    (fuel : Nat) (l : List Source) (hi : Inputs w c keep x l) (hf : ∀ f ∈ l, f.recs.length < fuel)
    (s : State) :
    ∃ ok s', processFiles w c fuel (l.map Source.path) s = .ok (ok, s') ∧
      (ok = true ↔ ¬ Fails s.count (keptOf keep l)) ∧
      Processed c x s (limit s.count (upto (keptOf keep l))) s' ∧
      (ok = true → s'.files = s.files + l.length) ∧
      s'.count = down s.count (limit s.count (upto (keptOf keep l))).length := by
  induction l generalizing s with
  | nil =>
    have e0 : limit s.count (upto (keptOf keep [])) = [] := by
      unfold limit keptOf; simp [upto]
    refine ⟨true, s, rfl, ?_, by rw [e0]; exact processed_nil _ _ _, by simp,
      by rw [e0]; unfold down; split <;> simp⟩
    simp [keptOf, Fails]
  | cons f l ih =>
    have ih := ih ⟨fun g hg => hi.read g (by simp [hg]), fun g hg => hi.window g (by simp [hg]),
      fun h g hg => hi.samples h g (by simp [hg])⟩ (fun g hg => hf g (by simp [hg]))
    rw [List.map_cons, processFiles]
    have hfirst : ∃ s', Processed c x s (limit s.count (f.recs.filter keep)) s' ∧ s'.files = s.files ∧
        s'.count = down s.count (limit s.count (f.recs.filter keep)).length ∧
        oneFile w c fuel f.path s =
          .ok (if 0 ≤ s.count ∧ s.count ≤ (f.recs.filter keep).length then none else some f.ret, s') := by
      unfold oneFile
      by_cases h0 : s.count = 0
      · have e0 : ∀ k : List Taken, limit s.count k = [] := by intro k; unfold limit; simp [h0]
        refine ⟨s, by rw [e0]; exact processed_nil _ _ _, rfl, by rw [e0]; unfold down; split <;> simp, ?_⟩
        rw [if_pos h0, if_pos (by omega)]
      · rw [if_neg h0]
        rcases hi.read f (by simp) with ⟨r, h1, h2⟩ | ⟨h1, h2, h3⟩
        · rw [h1, bind_ok]
          exact readFile_takes h2 fuel (hf f (by simp)) (hi.window f (by simp))
            (fun h => hi.samples h f (by simp)) s
        · rw [h1, bind_ok, h2, h3]
          have e0 : limit s.count (([] : List Taken).filter keep) = [] := by unfold limit; split <;> simp
          refine ⟨s, by rw [e0]; exact processed_nil _ _ _, rfl, by rw [e0]; unfold down; split <;> simp, ?_⟩
          rw [if_neg (by simp; omega)]
    obtain ⟨s1, h1, h2, h3, h4⟩ := hfirst
    rw [h4, bind_ok]
    simp only
    have hk : keptOf keep (f :: l) = (f.recs.filter keep, f.complete) :: keptOf keep l := rfl
    by_cases hc : f.complete = true ∨ (0 ≤ s.count ∧ s.count ≤ (f.recs.filter keep).length)
    · rw [if_neg]
      · obtain ⟨ok, s2, a1, a2, a3, a4, a5⟩ := ih { s1 with files := s1.files + 1 }
        refine ⟨ok, s2, a1, ?_, ?_, ?_, ?_⟩
        · rw [a2, hk, fails_cons _ _ _ _ hc]
          simp only [h3]
        · rw [hk, limit_cons _ _ _ _ hc]
          refine processed_append h1 ?_
          simp only [h3] at a3
          exact ⟨a3.recs, a3.samps, a3.printed, a3.traces, a3.binary, a3.output⟩
        · intro h
          rw [a4 h, List.length_cons]
          simp only [h2]
          omega
        · rw [a5, hk, limit_cons _ _ _ _ hc, List.length_append]
          simp only [h3]
          unfold down
          by_cases hneg : s.count < 0
          · simp only [if_pos hneg]
          · have : ((limit s.count (f.recs.filter keep)).length : Int) ≤ s.count := by
              unfold limit
              rw [if_neg hneg, List.length_take]
              omega
            simp only [if_neg hneg]
            rw [if_neg (by omega)]
            omega
      · rintro ⟨h5, h6⟩
        rcases hc with hc | hc
        · have : f.ret = .endOfFile := of_decide_eq_true hc
          by_cases hn : 0 ≤ s.count ∧ s.count ≤ (f.recs.filter keep).length
          · rw [h3] at h6
            apply h6
            unfold down limit
            rw [if_neg (by omega), if_neg (by omega), List.length_take]
            omega
          · rw [if_neg hn, this] at h5
            exact h5 rfl
        · rw [h3] at h6
          apply h6
          unfold down limit
          rw [if_neg (by omega), if_neg (by omega), List.length_take]
          omega
    · have hcf : f.complete = false := by simpa using fun h => hc (Or.inl h)
      have hn : ¬ (0 ≤ s.count ∧ s.count ≤ (f.recs.filter keep).length) := fun h => hc (Or.inr h)
      rw [if_pos]
      · refine ⟨false, s1, rfl, ?_, ?_, by simp, by
          rw [h3, hk, upto_cons, if_neg (by rw [hcf]; simp)]⟩
        · simp only [Bool.false_eq_true, false_iff, Classical.not_not]
          rw [hk]
          refine ⟨⟨_, List.mem_cons_self, hcf⟩, ?_⟩
          unfold upto
          rw [if_neg (by rw [hcf]; simp)]
          omega
        · rw [hk, upto, if_neg (by rw [hcf]; simp)]
          exact h1
      · constructor
        · rw [if_neg hn]
          intro h
          injection h with h
          exact absurd h (of_decide_eq_false hcf)
        · rw [h3]
          unfold down limit
          by_cases hneg : s.count < 0
          · rw [if_pos hneg]; omega
          · rw [if_neg hneg, if_neg hneg, List.length_take]; omega

theorem processFiles_append (w : World) (c : Config) (fuel : Nat) (a b : List (List UInt8)) (s : State) :
    processFiles w c fuel (a ++ b) s = (processFiles w c fuel a s).bind fun (ok, s) =>
      if ok = true then processFiles w c fuel b s else .ok (false, s) := by
  induction a generalizing s with
  | nil => rfl
  | cons p a ih =>
    rw [List.cons_append, processFiles, processFiles]
    cases oneFile w c fuel p s with
    | ok v =>
      obtain ⟨ret, s1⟩ := v
      rw [bind_ok, bind_ok]
      simp only
      split
      · rfl
      · exact ih _
    | err => rfl
    | ub => rfl
    | oob => rfl

theorem processFiles_zero (w : World) (c : Config) (fuel : Nat) (l : List (List UInt8)) (s : State)
    (h : s.count = 0) :
    processFiles w c fuel l s = .ok (true, { s with files := s.files + l.length }) := by
  induction l generalizing s with
  | nil =>
    rw [processFiles]
    simp
  | cons p l ih =>
    rw [processFiles]
    unfold oneFile
    rw [if_pos h, bind_ok]
    simp only
    rw [if_neg (by rintro ⟨-, h'⟩; exact h' h)]
    rw [ih { s with files := s.files + 1 } h]
    simp only [List.length_cons]
    congr 3
    omega

theorem rows_cells (l : List Cell) (k cnt : Nat) :
    (rows l k cnt).flatMap cellsOf = (l.drop cnt).take (6 * k) := by
  induction k generalizing cnt with
  | zero => simp [rows]
  | succ k ih =>
    rw [rows, List.flatMap_cons, ih]
    show (l.drop cnt).take 6 ++ _ = _
    rw [show 6 * (k + 1) = 6 + 6 * k by omega, List.take_add]
    congr 2
    rw [List.length_take, List.length_drop]
    by_cases h : 6 ≤ l.length - cnt
    · rw [Nat.min_eq_left h, List.drop_drop]
    · rw [List.drop_drop, List.drop_eq_nil_of_le (by omega), List.drop_eq_nil_of_le (by omega)]

theorem rows_mem (l : List Cell) (k cnt : Nat) :
    ∀ r ∈ rows l k cnt, ∃ v : List Cell, r = .row v ∧ v.length ≤ 6 := by
  induction k generalizing cnt with
  | zero => simp [rows]
  | succ k ih =>
    rw [rows]
    intro r hr
    rcases List.mem_cons.1 hr with rfl | hr
    · exact ⟨_, rfl, by rw [List.length_take]; omega⟩
    · exact ih _ r hr

theorem cells_count (x : Samples) (h : ∀ b, x ≠ .text b) : (cells x).length = x.count := by
  cases x with
  | text b => exact absurd rfl (h b)
  | _ => simp [cells, Samples.count]

theorem takeWhile_all {b : List UInt8} (h : (0 : UInt8) ∉ b) : b.takeWhile (· != 0) = b := by
  induction b with
  | nil => rfl
  | cons a b ih =>
    have ha : a ≠ 0 := by rintro rfl; exact h List.mem_cons_self
    rw [List.takeWhile_cons_of_pos (by simpa using ha), ih (fun h' => h (List.mem_cons_of_mem _ h'))]

theorem textPieces_eq (b : List UInt8) (h : (0 : UInt8) ∉ b) :
    textPieces b = if b.length % 199 = 0 ∧ b ≠ [] then b else b ++ [10] := by
  fun_induction textPieces b with
  | case1 b hl ih =>
    rw [ih (fun h' => h (List.mem_of_mem_drop h'))]
    unfold logged
    rw [takeWhile_all (fun h' => h (List.mem_of_mem_take h')), List.append_nil, List.take_take,
      show min 199 199 = 199 from rfl]
    have hne : b.drop 199 ≠ [] := by
      intro e
      have := congrArg List.length e
      simp at this
      omega
    have hb : b ≠ [] := by rintro rfl; simp at hl
    rw [List.length_drop]
    by_cases hm : b.length % 199 = 0
    · rw [if_pos ⟨by omega, hne⟩, if_pos ⟨hm, hb⟩, List.take_append_drop]
    · rw [if_neg (by omega), if_neg (by omega), ← List.append_assoc, List.take_append_drop]
  | case2 b hl h0 =>
    have hb : b ≠ [] := by rintro rfl; simp at h0
    unfold logged
    rw [takeWhile_all h]
    by_cases hm : b.length = 199
    · rw [if_pos ⟨by omega, hb⟩, List.take_append_of_le_length (by omega),
        List.take_of_length_le (by omega)]
    · rw [if_neg (by omega), List.take_of_length_le (by simp; omega)]
  | case3 b hl h0 =>
    have : b = [] := List.eq_nil_of_length_eq_zero (by omega)
    subst this
    simp

end Verif.Proof.Msi
