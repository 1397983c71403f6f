import Verif.Proof.AllocDup
/-! Lemmas on smaller buffers. -/
namespace Verif.Proof.Alloc
open Verif.Model Verif.Model.Steim Verif.Model.Alloc
open Verif.Props.Alloc
open Verif.Proof.Mem (bind_ok)

theorem realloc_ok {h : Heap} {a : Nat} {b : List UInt8} {n : Nat} (hf : Fresh h) (hc : h.cell a = some (.bytes b))
    (hn : n ≤ b.length) (hs : ∀ k, h.fails k = false) :
    ∃ h', realloc h a n = .ok (some h.next, h') ∧ h'.next = h.next + 1 ∧ h'.fails = h.fails ∧
      ∀ x, h'.cell x = if x = a then none else if x = h.next then some (.bytes (b.take n)) else h.cell x := by
  have ha : a ≠ h.next := fun he => by rw [hf a (by omega)] at hc; cases hc
  unfold realloc
  rw [readBytes_ok hc hn, bind_ok]
  rcases malloc_cases h (.bytes (b.take n)) with ⟨h', -, -, -, -, hfail⟩ | ⟨h', hm, hnext, hfa, hcell, -⟩
  · rw [hs] at hfail; cases hfail
  · rw [hm]
    simp only
    rw [free_ok (by rw [hcell, if_neg ha, hc]; simp), bind_ok]
    refine ⟨_, rfl, hnext, hfa, fun x => ?_⟩
    show (if x ∈ [a] then none else h'.cell x) = _
    simp only [List.mem_singleton]
    rw [hcell]

theorem step_refl {h : Heap} {S : List Nat} (hf : Fresh h) (hn : S.Nodup) (hl : ∀ x ∈ S, x < h.next) : Step h h S S :=
  ⟨hf, Nat.le_refl _, rfl, fun _ hx => .inl hx, hl, fun _ _ _ => rfl, fun _ h1 h2 => absurd h1 h2, hn⟩

theorem step_append {h h1 h2 : Heap} {A A' B B' : List Nat} (s1 : Step h h1 A A') (s2 : Step h1 h2 B B')
    (hn : (A ++ B).Nodup) (hl : ∀ x ∈ A ++ B, x < h.next) :
    Step h h2 (A ++ B) (A' ++ B') := by
  have hAB : ∀ x, x ∈ A → x ∈ B → False := fun x g1 g2 => (List.nodup_append.1 hn).2.2 x g1 x g2 rfl
  have hA : ∀ x ∈ A, x < h.next := fun x hx => hl x (List.mem_append_left _ hx)
  have hB : ∀ x ∈ B, x < h.next := fun x hx => hl x (List.mem_append_right _ hx)
  have n1 := s1.next
  have n2 := s2.next
  have hA'B' : ∀ x, x ∈ A' → x ∈ B' → False := by
    intro x g1 g2
    have l1 := s1.low x g1
    rcases s1.old x g1 with o1 | o1 <;> rcases s2.old x g2 with o2 | o2
    · exact hAB x o1 o2
    · omega
    · have := hB x o2; omega
    · omega
  have hA'B : ∀ x, x ∈ A' → x ∈ B → False := by
    intro x g1 g2
    rcases s1.old x g1 with o1 | o1
    · exact hAB x o1 g2
    · have := hB x g2; omega
  refine ⟨s2.fresh, by omega, s2.fails.trans s1.fails, ?_, ?_, ?_, ?_, ?_⟩
  · intro x hx
    rcases List.mem_append.1 hx with hx | hx
    · rcases s1.old x hx with o | o
      · exact .inl (List.mem_append_left _ o)
      · exact .inr o
    · rcases s2.old x hx with o | o
      · exact .inl (List.mem_append_right _ o)
      · exact .inr (by omega)
  · intro x hx
    rcases List.mem_append.1 hx with hx | hx
    · have := s1.low x hx; omega
    · exact s2.low x hx
  · intro x g1 g2
    simp only [List.mem_append, not_or] at g1 g2
    rw [s2.rest x g1.2 g2.2, s1.rest x g1.1 g2.1]
  · intro x g1 g2
    simp only [List.mem_append, not_or] at g1 g2
    rcases g1 with g1 | g1
    · rw [s2.rest x (hAB x g1) g2.2, s1.gone x g1 g2.1]
    · exact s2.gone x g1 g2.2
  · exact List.nodup_append.2 ⟨s1.nodup, s2.nodup, fun x g1 y g2 he => hA'B' x g1 (he ▸ g2)⟩

/-- What is apart from a step is as it was. -/
theorem step_frame {h h1 : Heap} {A A' : List Nat} (s1 : Step h h1 A A') {x : Nat} (h2 : x ∉ A) (hx : x < h.next) :
    h1.cell x = h.cell x := by
  refine s1.rest x h2 fun hm => ?_
  rcases s1.old x hm with o | o
  · exact h2 o
  · omega

/-- What a step has made is as it was after a step elsewhere. -/
theorem step_keep {h h1 h2 : Heap} {A A' B B' : List Nat} (s1 : Step h h1 A A') (s2 : Step h1 h2 B B')
    (hn : (A ++ B).Nodup) (hl : ∀ x ∈ A ++ B, x < h.next) {x : Nat} (hx : x ∈ A') : h2.cell x = h1.cell x := by
  have hB : ∀ x ∈ B, x < h.next := fun x hx => hl x (List.mem_append_right _ hx)
  refine step_frame s2 (fun hm => ?_) (s1.low x hx)
  rcases s1.old x hx with o | o
  · exact (List.nodup_append.1 hn).2.2 x o x hm rfl
  · have := hB x hm; omega

theorem record_live {h : Heap} {a : Nat} {r : Record} {e d : Option (List UInt8)} (hr : HasRecord h a r e d) :
    ∀ x ∈ ownedRecord a r, h.cell x ≠ none := by
  intro x hx
  simp only [ownedRecord, List.mem_append, List.mem_singleton] at hx
  rcases hx with (hx | hx) | hx
  · obtain ⟨b, hb⟩ := held_mem hr.extra x hx; rw [hb]; simp
  · obtain ⟨b, hb⟩ := held_mem hr.data x hx; rw [hb]; simp
  · rw [hx, hr.cell]; simp

theorem prvt_live {h : Heap} {prvt : Bool} {p : Option Nat} (hp : HasPrvt h prvt p) :
    ∀ x ∈ ownedPrvt prvt p, h.cell x ≠ none := by
  intro x hx
  unfold ownedPrvt at hx
  by_cases hb : prvt = true
  · rw [if_pos hb] at hx
    exact hp hb x (Option.mem_toList.1 hx)
  · rw [if_neg hb] at hx; cases hx

theorem ptr_live {h : Heap} {prvt : Bool} {v : PtrV} {next : Option Nat} (hv : HasPtr h prvt v next) :
    ∀ x ∈ v.owned prvt, h.cell x ≠ none := by
  obtain ⟨h1, h2, h3⟩ := hv
  intro x hx
  simp only [PtrV.owned, List.mem_append, List.mem_singleton] at hx
  rcases hx with (hx | hx) | hx
  · unfold PtrV.ownedMsr at hx
    cases hm : v.msr with
    | none => rw [hm] at hx; cases hx
    | some y =>
      obtain ⟨a, r, e, d⟩ := y
      rw [hm] at hx
      exact record_live (h2 a r e d hm) x hx
  · exact prvt_live h3 x hx
  · rw [hx, h1]; simp

theorem chain_live {V : Type} {addr : V → Nat} {has : V → Option Nat → Prop} {owned : V → List Nat} {h : Heap}
    (hh : ∀ v next, has v next → ∀ x ∈ owned v, h.cell x ≠ none) :
    ∀ {l : List V} {p : Option Nat}, Chain addr has p l → ∀ x ∈ l.flatMap owned, h.cell x ≠ none
  | [], _, _, x, hx => by cases hx
  | v :: l, _, ⟨_, next, h2, h3⟩, x, hx => by
    rw [List.flatMap_cons] at hx
    rcases List.mem_append.1 hx with hx | hx
    · exact hh v next h2 x hx
    · exact chain_live hh h3 x hx

theorem recs_live {h : Heap} {prvt : Bool} {p : Option Nat} {v : Option (List PtrV)} (hv : HasRecs h prvt p v) :
    ∀ x ∈ (v.getD []).flatMap (PtrV.owned prvt) ++ p.toList, h.cell x ≠ none := by
  intro x hx
  cases p <;> cases v <;> simp only [HasRecs] at hv
  · simp at hx
  · obtain ⟨first, last, cnt, h1, h2⟩ := hv
    rcases List.mem_append.1 hx with hx | hx
    · exact chain_live (fun v next hh => ptr_live hh) h2 x hx
    · simp only [Option.toList_some, List.mem_singleton] at hx
      rw [hx, h1]; simp

theorem seg_live {h : Heap} {prvt : Bool} {v : SegV} {next : Option Nat} (hv : HasSeg h prvt v next) :
    ∀ x ∈ v.owned prvt, h.cell x ≠ none := by
  obtain ⟨h1, h2, h3, h4, h5, h6⟩ := hv
  intro x hx
  unfold SegV.owned at hx
  rw [List.mem_append, List.mem_append, List.mem_append, List.mem_singleton] at hx
  rcases hx with ((hx | hx) | hx) | hx
  · exact prvt_live h6 x hx
  · obtain ⟨b, hb⟩ := held_mem h3 x hx; rw [hb]; simp
  · exact recs_live h5 x hx
  · rw [hx, h1]; simp

theorem id_live {h : Heap} {prvt : Bool} {v : IdV} {next : Option Nat} (hv : HasId h prvt v next) :
    ∀ x ∈ v.owned prvt, h.cell x ≠ none := by
  obtain ⟨first, h1, h2, h3⟩ := hv
  intro x hx
  unfold IdV.owned at hx
  rw [List.mem_append, List.mem_append, List.mem_singleton] at hx
  rcases hx with (hx | hx) | hx
  · exact chain_live (fun v next hh => seg_live hh) h2 x hx
  · exact prvt_live h3 x hx
  · rw [hx, h1]; simp

theorem live_low {h : Heap} (hf : Fresh h) {x : Nat} (hx : h.cell x ≠ none) : x < h.next := by
  refine Nat.lt_of_not_le fun hl => hx (hf x hl)

theorem nodup_replace {X Y : List Nat} {p q : Nat} (h1 : (X ++ [p] ++ Y).Nodup) (h2 : q ∉ X) (h3 : q ∉ Y) :
    (X ++ [q] ++ Y).Nodup := by
  rw [List.append_assoc, List.nodup_append] at h1 ⊢
  obtain ⟨g1, g2, g3⟩ := h1
  rw [List.singleton_append, List.nodup_cons] at g2 ⊢
  refine ⟨g1, ⟨h3, g2.2⟩, fun x hx y hy he => ?_⟩
  rcases List.mem_cons.1 hy with hy | hy
  · exact h2 (hy ▸ he ▸ hx)
  · exact g3 x hx y (List.mem_cons_of_mem _ hy) he

theorem width_eq (t : Char) : Samples.sampleSize t = width t := by
  unfold Samples.sampleSize
  by_cases h1 : t = 't'
  · subst h1; decide
  by_cases h2 : t = 'a'
  · subst h2; decide
  by_cases h3 : t = 'i'
  · subst h3; decide
  by_cases h4 : t = 'f'
  · subst h4; decide
  by_cases h5 : t = 'd'
  · subst h5; decide
  rw [if_neg (by rintro (h | h) <;> contradiction), if_neg (by rintro (h | h) <;> contradiction), if_neg h5]
  unfold width
  split <;> first | contradiction | rfl

theorem bytesOf_eq {n : Int} {t : Char} {size : Nat} {d : Option (List UInt8)} (hr : Room n t size d) (hd : d ≠ none) :
    bytesOf n (Samples.sampleSize t) = needed n t := by
  unfold bytesOf
  rw [width_eq]
  have := hr.2 hd
  have := hr.1
  show needed n t % 2 ^ 64 = needed n t
  exact Nat.mod_eq_of_lt (by omega)

theorem needed_pos {n : Int} {t : Char} : 0 < needed n t ↔ width t ≠ 0 ∧ n > 0 := by
  unfold needed
  rw [Nat.pos_iff_ne_zero, ne_eq, Nat.mul_eq_zero]
  omega

theorem trim_same {n : Int} {t : Char} {size : Nat} {d : Option (List UInt8)} (hr : Room n t size d)
    (hs : d = none ∨ ¬ (Samples.sampleSize t ≠ 0 ∧ n > 0 ∧ size > bytesOf n (Samples.sampleSize t))) :
    Trim n t size d size d := by
  rw [width_eq] at hs
  have key : d ≠ none → 0 < needed n t → size = needed n t := by
    intro h1 h2
    have h3 := bytesOf_eq hr h1
    rw [width_eq] at h3
    have h4 := hr.2 h1
    have h5 := needed_pos.1 h2
    rcases hs with hs | hs
    · exact absurd hs h1
    · rw [h3] at hs
      have : ¬ size > needed n t := fun h => hs ⟨h5.1, h5.2, h⟩
      omega
  exact ⟨rfl, key, fun b hb h1 h2 => by
    have := key (by rw [hb]; simp) h1
    omega, fun _ => ⟨rfl, rfl⟩⟩

theorem trim_take {n : Int} {t : Char} {size : Nat} {b : List UInt8} (hr : Room n t size (some b)) (hl : size ≤ b.length)
    (hs : Samples.sampleSize t ≠ 0 ∧ n > 0) :
    Trim n t size (some b) (needed n t) (some (b.take (needed n t))) := by
  have h1 := hr.2 (by simp)
  rw [width_eq] at hs
  have h2 := needed_pos.2 hs
  refine ⟨?_, fun _ _ => rfl, fun c hc _ _ => ?_, fun h => ?_⟩
  · simp only [Option.map_some, List.take_take, Nat.min_self]
  · rw [← Option.some.inj hc, List.length_take]; omega
  · rcases h with h | h
    · cases h
    · omega

theorem resizeSeg_ok {prvt : Bool} {h : Heap} {v : SegV} {next : Option Nat} (hf : Fresh h)
    (hs : ∀ k, h.fails k = false) (hv : HasSeg h prvt v next) (hn : (v.owned prvt).Nodup)
    (hr : Room v.seg.numsamples v.seg.sampletype v.seg.datasize v.data) :
    ∃ h' v', resizeSeg h v.addr v.seg = .ok (true, h') ∧ HasSeg h' prvt v' next ∧ v.Trimmed v' ∧
      Step h h' (v.owned prvt) (v'.owned prvt) := by
  have hlive : ∀ x ∈ v.owned prvt, x < h.next := fun x hx => live_low hf (seg_live hv x hx)
  have hsame : (v.data = none ∨ ¬ (Samples.sampleSize v.seg.sampletype ≠ 0 ∧ v.seg.numsamples > 0 ∧
      v.seg.datasize > bytesOf v.seg.numsamples (Samples.sampleSize v.seg.sampletype))) →
      HasSeg h prvt v next ∧ v.Trimmed v ∧ Step h h (v.owned prvt) (v.owned prvt) := fun hc =>
    ⟨hv, ⟨rfl, rfl, rfl, trim_same hr hc⟩, step_refl hf hn hlive⟩
  obtain ⟨h1, h2, h3, h4, h5, h6⟩ := hv
  unfold resizeSeg
  cases hp : v.seg.datasamples with
  | none =>
    refine ⟨h, v, rfl, hsame (.inl ?_)⟩
    rw [hp] at h3
    cases hd : v.data with
    | none => rfl
    | some b => rw [hd] at h3; exact h3.elim
  | some p =>
    simp only
    by_cases hc : Samples.sampleSize v.seg.sampletype ≠ 0 ∧ v.seg.numsamples > 0 ∧
        v.seg.datasize > bytesOf v.seg.numsamples (Samples.sampleSize v.seg.sampletype)
    rotate_left
    · rw [if_neg hc]
      exact ⟨h, v, rfl, hsame (.inr hc)⟩
    rw [if_pos hc]
    obtain ⟨b, hd, hb⟩ : ∃ b, v.data = some b ∧ h.cell p = some (.bytes b) := by
      rw [hp] at h3
      cases hd : v.data with
      | none => rw [hd] at h3; exact h3.elim
      | some b => rw [hd] at h3; exact ⟨b, rfl, h3⟩
    have hsz := h4 b hd
    rw [bytesOf_eq hr (by rw [hd]; simp)] at hc ⊢
    obtain ⟨h', hre, hnx, hfa, hcell⟩ := realloc_ok (n := needed v.seg.numsamples v.seg.sampletype) hf hb
      (by omega) hs
    rw [hre, bind_ok]
    simp only
    have hq : ∀ x ∈ v.owned prvt, x ≠ h.next := fun x hx => by have := hlive x hx; omega
    have hown : v.owned prvt = ownedPrvt prvt v.seg.prvtptr ++ [p] ++
        (((v.recs.getD []).flatMap (PtrV.owned prvt) ++ v.seg.recordlist.toList) ++ [v.addr]) := by
      unfold SegV.owned
      rw [hp, Option.toList_some]
      simp only [List.append_assoc]
    rw [hown] at hn hq hlive ⊢
    have hapart : ∀ x ∈ ownedPrvt prvt v.seg.prvtptr ++
        (((v.recs.getD []).flatMap (PtrV.owned prvt) ++ v.seg.recordlist.toList) ++ [v.addr]), x ≠ p ∧ x ≠ h.next := by
      intro x hx
      rcases List.mem_append.1 hx with hx | hx
      · exact ⟨fun he => (List.nodup_append.1 (List.nodup_append.1 hn).1).2.2 x hx p (by simp) he,
          hq x (by simp only [List.mem_append]; exact .inl (.inl hx))⟩
      · exact ⟨fun he => (List.nodup_append.1 hn).2.2 p (by simp) x hx he.symm,
          hq x (List.mem_append_right _ hx)⟩
    have hpa : v.addr ≠ p ∧ v.addr ≠ h.next := hapart _ (by simp)
    generalize hv' : ({ v with
      seg := { v.seg with datasamples := some h.next, datasize := needed v.seg.numsamples v.seg.sampletype },
      data := some (b.take (needed v.seg.numsamples v.seg.sampletype)) } : SegV) = v'
    have hseg : v'.seg = { v.seg with
        datasamples := some h.next, datasize := needed v.seg.numsamples v.seg.sampletype } := by rw [← hv']
    have hadd : v'.addr = v.addr := by rw [← hv']
    have hrec : v'.recs = v.recs := by rw [← hv']
    have hdat : v'.data = some (b.take (needed v.seg.numsamples v.seg.sampletype)) := by rw [← hv']
    have hown' : v'.owned prvt = ownedPrvt prvt v.seg.prvtptr ++ [h.next] ++
        (((v.recs.getD []).flatMap (PtrV.owned prvt) ++ v.seg.recordlist.toList) ++ [v.addr]) := by
      unfold SegV.owned
      rw [hseg, hadd, hrec]
      simp only [Option.toList_some, List.append_assoc]
    rw [← hseg]
    have hput : ∀ x, (h'.put v.addr (.seg v'.seg)).cell x = if x = v.addr then some (.seg v'.seg) else
        if x = p then none else if x = h.next then some (.bytes (b.take (needed v.seg.numsamples v.seg.sampletype)))
        else h.cell x := by
      intro x
      show (if x = v.addr then _ else h'.cell x) = _
      rw [hcell]
    have hne : ∀ x ∈ ownedPrvt prvt v.seg.prvtptr ++
        ((v.recs.getD []).flatMap (PtrV.owned prvt) ++ v.seg.recordlist.toList), x ≠ v.addr := by
      intro x hx he
      have hn' : (ownedPrvt prvt v.seg.prvtptr ++ [p] ++
        ((v.recs.getD []).flatMap (PtrV.owned prvt) ++ v.seg.recordlist.toList) ++ [v.addr]).Nodup := by
        rw [List.append_assoc]; exact hn
      refine (List.nodup_append.1 hn').2.2 x ?_ v.addr (by simp) he
      simp only [List.mem_append] at hx ⊢
      rcases hx with hx | hx
      · exact .inl (.inl hx)
      · exact .inr hx
    have hsame' : ∀ x ∈ ownedPrvt prvt v.seg.prvtptr ++
        ((v.recs.getD []).flatMap (PtrV.owned prvt) ++ v.seg.recordlist.toList),
        (h'.put v.addr (.seg v'.seg)).cell x = h.cell x := by
      intro x hx
      have := hapart x (by
        simp only [List.mem_append] at hx ⊢
        rcases hx with hx | hx
        · exact .inl hx
        · exact .inr (.inl hx))
      rw [hput, if_neg (hne x hx), if_neg this.1, if_neg this.2]
    have hHn : (h'.put v.addr (.seg v'.seg)).next = h.next + 1 := hnx
    have hHf : (h'.put v.addr (.seg v'.seg)).fails = h.fails := hfa
    generalize h'.put v.addr (.seg v'.seg) = H at hput hsame' hHn hHf
    refine ⟨H, v', rfl, ⟨?_, ?_, ?_, ?_, ?_, ?_⟩, ⟨hadd, hrec, ?_, ?_⟩, ⟨?_, ?_, ?_, ?_, ?_, ?_, ?_, ?_⟩⟩
    · rw [hput, hadd, if_pos rfl]
    · rw [hseg]; exact h2
    · rw [hseg, hdat]
      show H.cell h.next = _
      rw [hput, if_neg (Ne.symm hpa.2), if_neg (fun he => hq p (by simp) he.symm), if_pos rfl]
    · intro c hc'
      rw [hdat] at hc'
      rw [← Option.some.inj hc', hseg, List.length_take]
      show needed v.seg.numsamples v.seg.sampletype ≤ _
      omega
    · rw [hseg, hrec]
      exact recs_frame h5 fun x hx => hsame' x (List.mem_append_right _ hx)
    · rw [hseg]
      exact prvt_frame h6 fun x hx => hsame' x (List.mem_append_left _ hx)
    · rw [hseg]
    · rw [hseg, hdat, hd]
      rw [hd] at hr
      exact trim_take hr hsz ⟨hc.1, hc.2.1⟩
    · intro x hx
      rw [hHn] at hx
      rw [hput]
      have := hlive v.addr (by simp)
      have := hlive p (by simp)
      rw [if_neg (by omega), if_neg (by omega), if_neg (by omega)]
      exact hf x (by omega)
    · rw [hHn]; omega
    · exact hHf
    · intro x hx
      rw [hown'] at hx
      simp only [List.mem_append, List.mem_singleton] at hx ⊢
      rcases hx with (hx | hx) | hx
      · exact .inl (.inl (.inl hx))
      · exact .inr (by omega)
      · exact .inl (.inr hx)
    · intro x hx
      rw [hown'] at hx
      rw [hHn]
      simp only [List.mem_append, List.mem_singleton] at hx
      rcases hx with (hx | hx) | hx
      · have := hlive x (by simp only [List.mem_append]; exact .inl (.inl hx)); omega
      · omega
      · have := hlive x (by simp only [List.mem_append, List.mem_singleton]; exact .inr hx); omega
    · intro x g1 g2
      rw [hown'] at g2
      simp only [List.mem_append, List.mem_singleton, not_or] at g1 g2
      rw [hput, if_neg g1.2.2, if_neg g1.1.2, if_neg g2.1.2]
    · intro x g1 g2
      rw [hown'] at g2
      simp only [List.mem_append, List.mem_singleton, not_or] at g1 g2
      rcases g1 with (g1 | g1) | g1
      · exact absurd g1 g2.1.1
      · rw [hput, if_neg g2.2.2, if_pos g1]
      · rcases g1 with (g1 | g1) | g1
        · exact absurd g1 g2.2.1.1
        · exact absurd g1 g2.2.1.2
        · exact absurd g1 g2.2.2
    · rw [hown']
      exact nodup_replace hn (fun hm => (hapart _ (List.mem_append_left _ hm)).2 rfl)
        fun hm => (hapart _ (List.mem_append_right _ hm)).2 rfl

theorem resizeSegs_ok (prvt : Bool) : ∀ (l : List SegV) (fuel : Nat) (h : Heap) (first : Option Nat), Fresh h →
    (∀ k, h.fails k = false) → Chain SegV.addr (HasSeg h prvt) first l → (l.flatMap (SegV.owned prvt)).Nodup →
    (∀ v ∈ l, Room v.seg.numsamples v.seg.sampletype v.seg.datasize v.data) → l.length ≤ fuel →
    ∃ h' l', resizeSegs fuel h first = .ok (true, h') ∧ Chain SegV.addr (HasSeg h' prvt) first l' ∧
      Pairs SegV.Trimmed l l' ∧ Step h h' (l.flatMap (SegV.owned prvt)) (l'.flatMap (SegV.owned prvt))
  | [], fuel, h, first, hf, _, hc, _, _, _ => by
    obtain rfl : first = none := hc
    refine ⟨h, [], by cases fuel <;> rfl, rfl, trivial, step_refl hf (by simp) (by simp)⟩
  | v :: l, 0, h, first, hf, _, hc, hn, _, hl => by simp at hl
  | v :: l, fuel + 1, h, first, hf, hs, ⟨h1, next, h2, h3⟩, hn, hr, hl => by
    subst h1
    rw [List.flatMap_cons] at hn ⊢
    have hlow : ∀ x ∈ v.owned prvt ++ l.flatMap (SegV.owned prvt), x < h.next := by
      intro x hx
      rcases List.mem_append.1 hx with hx | hx
      · exact live_low hf (seg_live h2 x hx)
      · exact live_low hf (chain_live (fun _ _ hh => seg_live hh) h3 x hx)
    obtain ⟨ha, v', e1, e2, e3, e4⟩ := resizeSeg_ok hf hs h2 (List.nodup_append.1 hn).1 (hr v List.mem_cons_self)
    obtain ⟨hb, l', f1, f2, f3, f4⟩ := resizeSegs_ok prvt l fuel ha next e4.fresh (by rw [e4.fails]; exact hs)
      (chain_frame h3 fun w hw next hh => seg_frame hh fun x hx =>
        step_frame e4 (apart_of hn (List.mem_flatMap.2 ⟨w, hw, hx⟩))
          (hlow x (List.mem_append_right _ (List.mem_flatMap.2 ⟨w, hw, hx⟩))))
      (List.nodup_append.1 hn).2.1 (fun w hw => hr w (List.mem_cons_of_mem _ hw))
      (by simp only [List.length_cons] at hl; omega)
    refine ⟨hb, v' :: l', ?_, ⟨by rw [e3.1], next, ?_, f2⟩, ⟨e3, f3⟩, ?_⟩
    · rw [resizeSegs]
      simp only [h2.1, e1, bind_ok, h2.2.1]
      exact f1
    · exact seg_frame e2 fun x hx => step_keep e4 f4 hn hlow hx
    · rw [List.flatMap_cons]
      exact step_append e4 f4 hn hlow

theorem resizeIds_ok (prvt : Bool) : ∀ (l : List IdV) (fuel : Nat) (h : Heap) (first : Option Nat), Fresh h →
    (∀ k, h.fails k = false) → Chain IdV.addr (HasId h prvt) first l → (l.flatMap (IdV.owned prvt)).Nodup →
    (∀ v ∈ l, ∀ s ∈ v.segs, Room s.seg.numsamples s.seg.sampletype s.seg.datasize s.data) →
    (l.flatMap (IdV.owned prvt)).length ≤ fuel →
    ∃ h' l', resizeIds fuel h first = .ok (true, h') ∧ Chain IdV.addr (HasId h' prvt) first l' ∧
      Pairs IdV.Trimmed l l' ∧ Step h h' (l.flatMap (IdV.owned prvt)) (l'.flatMap (IdV.owned prvt))
  | [], fuel, h, first, hf, _, hc, _, _, _ => by
    obtain rfl : first = none := hc
    refine ⟨h, [], by cases fuel <;> rfl, rfl, trivial, step_refl hf (by simp) (by simp)⟩
  | v :: l, 0, h, first, hf, _, hc, hn, _, hl => by
    simp only [List.flatMap_cons, List.length_append, IdV.owned, List.length_cons, List.length_nil] at hl
    omega
  | v :: l, fuel + 1, h, first, hf, hs, ⟨h1, next, h2, h3⟩, hn, hr, hl => by
    subst h1
    rw [List.flatMap_cons] at hn hl ⊢
    have hlow : ∀ x ∈ v.owned prvt ++ l.flatMap (IdV.owned prvt), x < h.next := by
      intro x hx
      rcases List.mem_append.1 hx with hx | hx
      · exact live_low hf (id_live h2 x hx)
      · exact live_low hf (chain_live (fun _ _ hh => id_live hh) h3 x hx)
    have hlen : v.segs.length + 1 + (l.flatMap (IdV.owned prvt)).length ≤ fuel + 1 := by
      have : v.segs.length ≤ (v.segs.flatMap (SegV.owned prvt)).length := by
        generalize v.segs = l
        induction l with
        | nil => simp
        | cons a l ih =>
          simp only [List.flatMap_cons, List.length_cons, List.length_append, SegV.owned, List.length_nil] at ih ⊢
          omega
      simp only [List.length_append, IdV.owned, List.length_cons, List.length_nil] at hl
      omega
    obtain ⟨fst, c1, c2, c3⟩ := h2
    have hnv := (List.nodup_append.1 hn).1
    have hown : v.owned prvt = v.segs.flatMap (SegV.owned prvt) ++ (ownedPrvt prvt v.prvt ++ [v.addr]) := by
      unfold IdV.owned; rw [List.append_assoc]
    rw [hown] at hnv
    have hlowv : ∀ x ∈ v.segs.flatMap (SegV.owned prvt) ++ (ownedPrvt prvt v.prvt ++ [v.addr]), x < h.next := by
      intro x hx
      rw [← hown] at hx
      exact hlow x (List.mem_append_left _ hx)
    obtain ⟨ha, s', e1, e2, e3, e4⟩ := resizeSegs_ok prvt v.segs fuel h fst hf hs c2 (List.nodup_append.1 hnv).1
      (hr v List.mem_cons_self) (by omega)
    have hkeep : ∀ x ∈ ownedPrvt prvt v.prvt ++ [v.addr], ha.cell x = h.cell x := fun x hx =>
      step_frame e4 (apart_of hnv hx) (hlowv x (List.mem_append_right _ hx))
    have hrefl := step_refl (h := ha) (S := ownedPrvt prvt v.prvt ++ [v.addr]) e4.fresh (List.nodup_append.1 hnv).2.1
      (fun x hx => by have := hlowv x (List.mem_append_right _ hx); have := e4.next; omega)
    have e5 : Step h ha (v.owned prvt) (IdV.owned prvt { v with segs := s' }) := by
      have := step_append e4 hrefl hnv hlowv
      rw [hown]
      unfold IdV.owned
      rw [List.append_assoc]
      exact this
    have hid : HasId ha prvt { v with segs := s' } next :=
      ⟨fst, by rw [← c1]; exact hkeep v.addr (by simp), e2, prvt_frame c3 fun x hx => hkeep x (List.mem_append_left _ hx)⟩
    obtain ⟨hb, l', f1, f2, f3, f4⟩ := resizeIds_ok prvt l fuel ha next e4.fresh (by rw [e4.fails]; exact hs)
      (chain_frame h3 fun w hw next hh => id_frame hh fun x hx =>
        step_frame e5 (apart_of hn (List.mem_flatMap.2 ⟨w, hw, hx⟩))
          (hlow x (List.mem_append_right _ (List.mem_flatMap.2 ⟨w, hw, hx⟩))))
      (List.nodup_append.1 hn).2.1 (fun w hw => hr w (List.mem_cons_of_mem _ hw)) (by omega)
    refine ⟨hb, { v with segs := s' } :: l', ?_, ⟨rfl, next, ?_, f2⟩, ⟨⟨rfl, rfl, e3⟩, f3⟩, ?_⟩
    · rw [resizeIds]
      simp only [c1, e1, bind_ok]
      exact f1
    · exact id_frame hid fun x hx => step_keep e5 f4 hn hlow hx
    · rw [List.flatMap_cons]
      exact step_append e5 f4 hn hlow

theorem resizeList_ok {prvt : Bool} {h : Heap} {a : Nat} {l : List IdV} {fuel : Nat} (hf : Fresh h)
    (hs : ∀ k, h.fails k = false) (hl : HasList h prvt a l) (hn : (ownedList prvt a l).Nodup)
    (hr : ∀ v ∈ l, ∀ s ∈ v.segs, Room s.seg.numsamples s.seg.sampletype s.seg.datasize s.data)
    (hfu : (ownedList prvt a l).length ≤ fuel) :
    ∃ h' l', resizeList fuel h (some a) = .ok (true, h') ∧ HasList h' prvt a l' ∧ Pairs IdV.Trimmed l l' ∧
      Step h h' (ownedList prvt a l) (ownedList prvt a l') := by
  obtain ⟨first, h1, h2⟩ := hl
  unfold ownedList at hn hfu ⊢
  rw [List.length_append] at hfu
  obtain ⟨h', l', e1, e2, e3, e4⟩ := resizeIds_ok prvt l fuel h first hf hs h2 (List.nodup_append.1 hn).1 hr (by omega)
  have hlow : ∀ x ∈ l.flatMap (IdV.owned prvt) ++ [a], x < h.next := by
    intro x hx
    rcases List.mem_append.1 hx with hx | hx
    · exact live_low hf (chain_live (fun _ _ hh => id_live hh) h2 x hx)
    · rw [List.mem_singleton] at hx
      exact live_low hf (by rw [hx, h1]; simp)
  refine ⟨h', l', ?_, ⟨first, ?_, e2⟩, e3, step_append e4 (step_refl e4.fresh (by simp) fun x hx => ?_) hn hlow⟩
  · unfold resizeList
    simp only [h1]
    exact e1
  · rw [step_frame e4 (apart_of hn (by simp)) (hlow a (by simp))]; exact h1
  · have := hlow x (List.mem_append_right _ hx); have := e4.next; omega

theorem record_nodup {h : Heap} {a : Nat} {r : Record} {e d : Option (List UInt8)} (hr : HasRecord h a r e d) :
    (ownedRecord a r).Nodup := by
  have hopt : ∀ p : Option Nat, p.toList.Nodup := fun p => by cases p <;> simp
  unfold ownedRecord
  refine List.nodup_append.2 ⟨List.nodup_append.2 ⟨hopt _, hopt _, ?_⟩, by simp, ?_⟩
  · intro x hx y hy he
    rw [Option.mem_toList] at hx hy
    exact hr.apart x hx (he ▸ hy)
  · intro x hx y hy he
    rw [List.mem_singleton] at hy
    have hc := hr.cell
    rw [← hy, ← he] at hc
    rcases List.mem_append.1 hx with hx | hx
    · obtain ⟨b, hb⟩ := held_mem hr.extra x hx
      rw [hb] at hc; cases hc
    · obtain ⟨b, hb⟩ := held_mem hr.data x hx
      rw [hb] at hc; cases hc

theorem resizeRecord_ok {h : Heap} {a : Nat} {r : Record} {e d : Option (List UInt8)} (hf : Fresh h)
    (hs : ∀ k, h.fails k = false) (hv : HasRecord h a r e d) (hr : Room r.numsamples r.sampletype r.datasize d) :
    ∃ h' r' d', resizeRecord h (some a) = .ok (true, h') ∧ HasRecord h' a r' e d' ∧
      r' = { r with datasamples := r'.datasamples, datasize := r'.datasize } ∧
      Trim r.numsamples r.sampletype r.datasize d r'.datasize d' ∧
      Step h h' (ownedRecord a r) (ownedRecord a r') := by
  have hn := record_nodup hv
  have hlive : ∀ x ∈ ownedRecord a r, x < h.next := fun x hx => live_low hf (record_live hv x hx)
  unfold resizeRecord
  simp only
  rw [getRecord_ok hv.cell, bind_ok]
  cases hp : r.datasamples with
  | none =>
    refine ⟨h, r, d, rfl, hv, rfl, trim_same hr (.inl ?_), step_refl hf hn hlive⟩
    have := hv.data
    rw [hp] at this
    cases d with
    | none => rfl
    | some b => exact this.elim
  | some p =>
    simp only
    by_cases hc : Samples.sampleSize r.sampletype ≠ 0 ∧ r.numsamples > 0 ∧
        r.datasize > bytesOf r.numsamples (Samples.sampleSize r.sampletype)
    rotate_left
    · rw [if_neg hc]
      exact ⟨h, r, d, rfl, hv, rfl, trim_same hr (.inr hc), step_refl hf hn hlive⟩
    rw [if_pos hc]
    obtain ⟨b, rfl, hb⟩ : ∃ b, d = some b ∧ h.cell p = some (.bytes b) := by
      have := hv.data
      rw [hp] at this
      cases d with
      | none => exact this.elim
      | some b => exact ⟨b, rfl, this⟩
    have hsz := hv.datasize b rfl
    rw [bytesOf_eq hr (by simp)] at hc ⊢
    obtain ⟨h', hre, hnx, hfa, hcell⟩ := realloc_ok (n := needed r.numsamples r.sampletype) hf hb (by omega) hs
    rw [hre, bind_ok]
    simp only
    have hown : ownedRecord a r = r.extra.toList ++ [p] ++ [a] := by unfold ownedRecord; rw [hp]; rfl
    rw [hown] at hn hlive ⊢
    have hap : a ≠ p := fun he => by
      have := hv.cell
      rw [he, hb] at this; cases this
    have hal := hlive a (by simp)
    have hpl := hlive p (by simp)
    have hex : ∀ x ∈ r.extra.toList, x ≠ a ∧ x ≠ p ∧ x ≠ h.next := by
      intro x hx
      refine ⟨fun he => (List.nodup_append.1 hn).2.2 x (List.mem_append_left _ hx) a (by simp) he,
        fun he => (List.nodup_append.1 (List.nodup_append.1 hn).1).2.2 x hx p (by simp) he, ?_⟩
      have := hlive x (by simp only [List.mem_append]; exact .inl (.inl hx))
      omega
    generalize hr' : ({ r with
      datasamples := some h.next, datasize := needed r.numsamples r.sampletype } : Record) = r'
    have hput : ∀ x, (h'.put a (.record r')).cell x = if x = a then some (.record r') else
        if x = p then none else if x = h.next then some (.bytes (b.take (needed r.numsamples r.sampletype)))
        else h.cell x := by
      intro x
      show (if x = a then _ else h'.cell x) = _
      rw [hcell]
    have hHn : (h'.put a (.record r')).next = h.next + 1 := hnx
    have hHf : (h'.put a (.record r')).fails = h.fails := hfa
    have hx1 : r'.extra = r.extra := by rw [← hr']
    have hx2 : r'.extralength = r.extralength := by rw [← hr']
    have hx3 : r'.datasamples = some h.next := by rw [← hr']
    have hx4 : r'.datasize = needed r.numsamples r.sampletype := by rw [← hr']
    have hown' : ownedRecord a r' = r.extra.toList ++ [h.next] ++ [a] := by
      unfold ownedRecord; rw [hx1, hx3]; rfl
    generalize h'.put a (.record r') = H at hput hHn hHf
    refine ⟨H, r', some (b.take (needed r.numsamples r.sampletype)), rfl, ⟨?_, ?_, ?_, ?_, ?_, ?_⟩, by rw [← hr'],
      by rw [hx4]; exact trim_take hr hsz ⟨hc.1, hc.2.1⟩, ⟨?_, ?_, hHf, ?_, ?_, ?_, ?_, ?_⟩⟩
    · rw [hput, if_pos rfl]
    · rw [hx1]
      refine held_frame hv.extra fun x hx => ?_
      obtain ⟨g1, g2, g3⟩ := hex x hx
      rw [hput, if_neg g1, if_neg g2, if_neg g3]
    · rw [hx3]
      show H.cell h.next = _
      rw [hput, if_neg (by omega), if_neg (by omega), if_pos rfl]
    · rw [hx2]; exact hv.extralength
    · intro c hc'
      rw [← Option.some.inj hc', hx4, List.length_take]
      omega
    · intro x hx he
      rw [hx1] at hx
      rw [hx3] at he
      exact (hex x (Option.mem_toList.2 hx)).2.2 (Option.some.inj he).symm
    · intro x hx
      rw [hHn] at hx
      rw [hput, if_neg (by omega), if_neg (by omega), if_neg (by omega)]
      exact hf x (by omega)
    · rw [hHn]; omega
    · intro x hx
      rw [hown'] at hx
      simp only [List.mem_append, List.mem_singleton] at hx ⊢
      rcases hx with (hx | hx) | hx
      · exact .inl (.inl (.inl hx))
      · exact .inr (by omega)
      · exact .inl (.inr hx)
    · intro x hx
      rw [hown'] at hx
      rw [hHn]
      simp only [List.mem_append, List.mem_singleton] at hx
      rcases hx with (hx | hx) | hx
      · have := hlive x (by simp only [List.mem_append]; exact .inl (.inl hx)); omega
      · omega
      · omega
    · intro x g1 g2
      rw [hown'] at g2
      simp only [List.mem_append, List.mem_singleton, not_or] at g1 g2
      rw [hput, if_neg g1.2, if_neg g1.1.2, if_neg g2.1.2]
    · intro x g1 g2
      rw [hown'] at g2
      simp only [List.mem_append, List.mem_singleton, not_or] at g1 g2
      rcases g1 with (g1 | g1) | g1
      · exact absurd g1 g2.1.1
      · rw [hput, if_neg g2.2, if_pos g1]
      · exact absurd g1 g2.2
    · rw [hown']
      exact nodup_replace hn (fun hm => (hex _ hm).2.2 rfl) (by simp only [List.mem_singleton]; omega)

end Verif.Proof.Alloc
