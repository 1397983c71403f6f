import Verif.Proof.RecMem
/-!
# An entry is added to a record list
-/
namespace Verif.Proof.RecMem
open Verif.Model.Steim Verif.Model.Alloc Verif.Model.SegMem Verif.Model.RecMem
open Verif.Props.Alloc Verif.Props.SegMem Verif.Props.RecMem
open Verif.Proof.Mem Verif.Proof.Alloc

theorem put_cell (h : Heap) (a : Nat) (o : Obj) (x : Nat) : (h.put a o).cell x = if x = a then some o else h.cell x := rfl

/-- The entries behind which or before which another is added. -/
theorem nodup_three {L N P : List Nat} (h1 : (L ++ P).Nodup) (h2 : N.Nodup) (h3 : ∀ x ∈ N, x ∉ L ++ P) :
    (L ++ N ++ P).Nodup ∧ (N ++ L ++ P).Nodup := by
  simp only [List.mem_append, not_or] at h3
  rw [List.nodup_append] at h1
  obtain ⟨hL, hP, hLP⟩ := h1
  refine ⟨?_, ?_⟩
  · rw [List.nodup_append, List.nodup_append]
    refine ⟨⟨hL, h2, fun a ha b hb hab => (h3 b hb).1 (hab ▸ ha)⟩, hP, fun a ha b hb hab => ?_⟩
    rcases List.mem_append.1 ha with ha | ha
    · exact hLP a ha b hb hab
    · exact (h3 a ha).2 (hab ▸ hb)
  · rw [List.nodup_append, List.nodup_append]
    refine ⟨⟨h2, hL, fun a ha b hb hab => (h3 a ha).1 (hab ▸ hb)⟩, hP, fun a ha b hb hab => ?_⟩
    rcases List.mem_append.1 ha with ha | ha
    · exact (h3 a ha).2 (hab ▸ hb)
    · exact hLP a ha b hb hab

/-- The entries before the last have other addresses than it. -/
theorem apart_last {prvt : Bool} {l : List PtrV} {w : PtrV} (hw : l = l.dropLast ++ [w])
    (hn : (l.flatMap (PtrV.owned prvt)).Nodup) :
    (∀ v ∈ l.dropLast, w.addr ∉ v.owned prvt) ∧ w.addr ∉ w.ownedMsr ++ ownedPrvt prvt w.prvt := by
  rw [hw, List.flatMap_append, List.flatMap_singleton] at hn
  rw [List.nodup_append] at hn
  obtain ⟨-, h2, h3⟩ := hn
  refine ⟨fun v hv hx => h3 _ (List.mem_flatMap.2 ⟨v, hv, hx⟩) w.addr (by simp [PtrV.owned]) rfl, ?_⟩
  unfold PtrV.owned at h2
  rw [List.nodup_append] at h2
  exact fun hx => h2.2.2 _ hx w.addr (by simp) rfl

/-- Another pointer to the next entry, all else as it was. -/
theorem ptr_next {h h' : Heap} {prvt : Bool} {v : PtrV} {next next' : Option Nat} (hv : HasPtr h prvt v next)
    (hc : h'.cell v.addr = some (.recordptr (v.msr.map fun x => x.1) v.prvt next' v.endtime))
    (hf : ∀ x ∈ v.ownedMsr ++ ownedPrvt prvt v.prvt, h'.cell x = h.cell x) : HasPtr h' prvt v next' := by
  obtain ⟨h1, h2, h3⟩ := hv
  simp only [List.mem_append] at hf
  refine ⟨hc, fun a r e d hm => ?_, prvt_frame h3 fun x hx => hf x (.inr hx)⟩
  refine record_frame (h2 a r e d hm) fun x hx => hf x (.inl ?_)
  unfold PtrV.ownedMsr
  rw [hm]
  exact hx

/-- The entry at the end of the first of two record lists is changed to point to the second chain, and the list to
have as many entries more and another last entry. -/
theorem link_ok {h : Heap} {prvt : Bool} {a : Nat} {l m : List PtrV} {first first' : Option Nat} {w : PtrV}
    {h' : Heap} (hne : m ≠ [])
    (hc : Chain PtrV.addr (HasPtr h prvt) first l) (hw : l.getLast? = some w) (hlw : l = l.dropLast ++ [w])
    (hn : (l.flatMap (PtrV.owned prvt) ++ [a]).Nodup)
    (hm : Chain PtrV.addr (HasPtr h' prvt) first' m)
    (hwc : h'.cell w.addr = some (.recordptr (w.msr.map fun x => x.1) w.prvt first' w.endtime))
    (hac : h'.cell a = some (.recordlist first (m.getLast?.map PtrV.addr) (l.length + m.length)))
    (hr : ∀ x ∈ l.flatMap (PtrV.owned prvt), x ≠ w.addr → h'.cell x = h.cell x) :
    RecList h' prvt (some a) (l ++ m) := by
  rw [List.nodup_append] at hn
  obtain ⟨hn, -, -⟩ := hn
  obtain ⟨a1, a2⟩ := apart_last hlw hn
  have hwl : w ∈ l := by rw [hlw]; simp
  refine ⟨by simp [hne], first, ?_, ?_⟩
  · rw [hac, List.length_append, List.getLast?_append]
    cases e : m.getLast? with
    | none => exact absurd (List.getLast?_eq_none_iff.1 e) hne
    | some z => rfl
  · refine chain_join hm l first hc (by rintro rfl; cases hw) (fun v hv next hh => ?_) (fun v hv hh => ?_)
    · refine ptr_frame hh fun x hx => hr x (List.mem_flatMap.2 ⟨v, (List.dropLast_sublist l).subset hv, hx⟩) ?_
      rintro rfl
      exact a1 v hv hx
    · obtain rfl : w = v := Option.some.inj (hw.symm.trans hv)
      refine ptr_next hh hwc fun x hx => hr x (List.mem_flatMap.2 ⟨w, hwl, ?_⟩) ?_
      · unfold PtrV.owned
        exact List.mem_append_left _ hx
      · rintro rfl
        exact a2 hx

/-- What is at the addresses of a record. -/
theorem record_kind {h : Heap} {b : Nat} {r : Record} {e d : Option (List UInt8)} (hb : HasRecord h b r e d) :
    ∀ x ∈ ownedRecord b r, (∃ y, h.cell x = some (.bytes y)) ∨ ∃ y, h.cell x = some (.record y) := by
  intro x hx
  simp only [ownedRecord, List.mem_append, List.mem_singleton] at hx
  rcases hx with (hx | hx) | rfl
  · exact .inl (held_mem hb.extra x hx)
  · exact .inl (held_mem hb.data x hx)
  · exact .inr ⟨_, hb.cell⟩

/-- The new entry, not linked yet. -/
structure Entry (h h' : Heap) (r : Record) (e : Option (List UInt8)) (endtime : Int) (p c : Nat) (r' : Record)
    (e' : Option (List UInt8)) : Prop where
  grows : Grows h h'
  cell : h'.cell p = some (.recordptr (some c) none none endtime)
  copy : HeaderCopy r e r' e'
  has : HasRecord h' c r' e' none
  nodup : (ownedRecord c r' ++ [p]).Nodup
  free : ∀ x ∈ ownedRecord c r' ++ [p], h.cell x = none
  rest : ∀ x, x ∉ ownedRecord c r' ++ [p] → h'.cell x = h.cell x
  low : p < h'.next

/-- The entry is made, or nothing is changed. -/
theorem entry_ok {h : Heap} {b : Nat} {endtime : Int} {r : Record} {e d : Option (List UInt8)} (hf : Fresh h)
    (hb : HasRecord h b r e d) {k : Nat → Nat → Heap → Res (Option Nat × Heap)} :
    (∃ h', (match malloc h (.recordptr none none none 0) with
      | (none, h) => Res.ok (none, h)
      | (some p, h) =>
        (duplicate h (some b) false).bind fun x =>
        match x with
        | (none, h) => (free h p).bind fun h => .ok (none, h)
        | (some c, h) => k p c (h.put p (.recordptr (some c) none none endtime))) = .ok (none, h') ∧
      h'.cell = h.cell ∧ Grows h h' ∧ ∃ n, h.fails n = true) ∨
    (∃ p c r' e' h', (match malloc h (.recordptr none none none 0) with
      | (none, h) => Res.ok (none, h)
      | (some p, h) =>
        (duplicate h (some b) false).bind fun x =>
        match x with
        | (none, h) => (free h p).bind fun h => .ok (none, h)
        | (some c, h) => k p c (h.put p (.recordptr (some c) none none endtime))) = k p c h' ∧
      Entry h h' r e endtime p c r' e') := by
  rcases malloc_cases h (.recordptr none none none 0) with ⟨h1, hm, hcell, -, -, hfail⟩ | ⟨h1, hm, hnext, hfa, hcell, -⟩
  · left
    rw [hm]
    exact ⟨h1, rfl, hcell, (malloc_grows hf hm).1, _, hfail⟩
  have g1 := (malloc_grows hf hm).1
  have hpn : h.cell h.next = none := hf _ (Nat.le_refl _)
  rw [hm]
  simp only
  have hb1 : HasRecord h1 b r e d := record_frame hb fun x hx => by
    rw [hcell, if_neg]
    rintro rfl
    rcases record_kind hb _ hx with ⟨y, hy⟩ | ⟨y, hy⟩ <;> (rw [hpn] at hy; cases hy)
  obtain ⟨x, h2, hd, hn, hs⟩ := duplicate_ok hb1 g1.1 false
  have g2 := duplicate_grows g1.1 hd
  rw [hd, bind_ok]
  cases x with
  | none =>
    left
    obtain ⟨h2c, n, hfn⟩ := hn rfl
    have hp2 : h2.cell h.next ≠ none := by rw [h2c, hcell, if_pos rfl]; simp
    have hfr := free_ok hp2
    simp only
    rw [hfr, bind_ok]
    refine ⟨_, rfl, ?_, grows_trans g1 (grows_trans g2 (free_grows g2.1 hfr)), n, by rw [← hfa]; exact hfn⟩
    funext y
    by_cases hy : y = h.next
    · subst hy
      simp [without, hpn]
    · rw [without_cell (by simpa using hy), h2c, hcell, if_neg hy]
  | some c =>
    right
    obtain ⟨r', e', d', hc⟩ := hs c rfl
    have hd' : d' = none := by rw [hc.data]; simp
    subst hd'
    have hpo : h.next ∉ ownedRecord c r' := by
      intro hx
      have := hc.fresh _ hx
      rw [hcell, if_pos rfl] at this
      cases this
    have hds : r'.datasamples = none := by
      have := hc.has.data
      cases he : r'.datasamples with
      | none => rfl
      | some z => rw [he] at this; exact this.elim
    have hn2 : h.next < h2.next := by have := g2.2.1; omega
    refine ⟨h.next, c, r', e', _, rfl, ⟨grows_trans g1 (grows_trans g2 (put_grows g2.1 hn2)), ?_, ⟨?_, hc.extra⟩, ?_, ?_, ?_, ?_, hn2⟩⟩
    · rw [put_cell, if_pos rfl]
    · have h1 := hc.same
      rw [hds, hc.size.1, hc.size.2, if_pos rfl] at h1
      exact h1
    · refine record_frame hc.has fun x hx => ?_
      rw [put_cell, if_neg]
      rintro rfl
      exact hpo hx
    · rw [List.nodup_append]
      refine ⟨?_, by simp, fun x hx y hy hxy => ?_⟩
      · unfold ownedRecord
        rw [hds, Option.toList_none, List.append_nil, List.nodup_append]
        refine ⟨by cases r'.extra <;> simp, by simp, fun x hx y hy hxy => ?_⟩
        rw [List.mem_singleton] at hy
        obtain ⟨z, hz⟩ := held_mem hc.has.extra x hx
        rw [hxy, hy, hc.has.cell] at hz
        cases hz
      · rw [List.mem_singleton] at hy
        exact hpo (hy ▸ hxy ▸ hx)
    · intro x hx
      rcases List.mem_append.1 hx with hx | hx
      · have := hc.fresh x hx
        rw [hcell] at this
        split at this
        · cases this
        · exact this
      · rw [List.mem_singleton.1 hx]; exact hpn
    · intro x hx
      rw [List.mem_append, List.mem_singleton, not_or] at hx
      rw [put_cell, if_neg hx.2, hc.other x hx.1, hcell, if_neg hx.2]

theorem result_of {A B : Res (Option Nat × Heap)} {P : Option Nat → Heap → Prop} (he : A = B)
    (hb : ∃ x h', B = .ok (x, h') ∧ P x h') : ∃ x h', A = .ok (x, h') ∧ P x h' := by rw [he]; exact hb

theorem add_ok {h : Heap} {a b : Nat} {endtime whence : Int} {prvt : Bool} {s : Seg} {l : List PtrV} {r : Record}
    {e d : Option (List UInt8)} (hf : Fresh h) (ha : h.cell a = some (.seg s)) (hl : RecList h prvt s.recordlist l)
    (hb : HasRecord h b r e d) (hn : (a :: ownedRecs prvt s.recordlist l).Nodup) :
    ∃ x h', addRecordptr h a b endtime whence = .ok (x, h') ∧
      (x = none → Fresh h' ∧ (∀ y, h.cell y ≠ none → h'.cell y = h.cell y) ∧
        (s.recordlist ≠ none → h'.cell = h.cell) ∧
        ((s.recordlist ≠ none ∧ whence ≠ 1 ∧ whence ≠ 2) ∨ ∃ k, h.fails k = true)) ∧
      (∀ p, x = some p → (s.recordlist = none ∨ whence = 1 ∨ whence = 2) ∧ ∃ list v c r' e',
        v = { addr := p, msr := some (c, r', e', none), prvt := none, endtime := endtime } ∧
        HeaderCopy r e r' e' ∧ (s.recordlist ≠ none → list = s.recordlist) ∧
        h'.cell a = some (.seg { s with recordlist := list }) ∧
        RecList h' prvt list (if whence = 2 then v :: l else l ++ [v]) ∧ HasRecord h' b r e d ∧
        Adds h h' (a :: ownedRecs prvt s.recordlist l) (a :: ownedRecs prvt list (if whence = 2 then v :: l else l ++ [v]))) := by
  have hlive := recList_live hl
  rw [List.nodup_cons] at hn
  obtain ⟨han, hn⟩ := hn
  unfold addRecordptr
  rw [show getSeg h a = .ok s by unfold getSeg; rw [ha], bind_ok]
  by_cases hw : s.recordlist ≠ none ∧ whence ≠ 1 ∧ whence ≠ 2
  · rw [if_pos hw]
    exact ⟨none, h, rfl, fun _ => ⟨hf, fun _ _ => rfl, fun _ => rfl, .inl hw⟩, by simp⟩
  rw [if_neg hw]
  have hwhen : s.recordlist = none ∨ whence = 1 ∨ whence = 2 := by
    by_cases h1 : s.recordlist = none
    · exact .inl h1
    · by_cases h2 : whence = 1
      · exact .inr (.inl h2)
      · by_cases h3 : whence = 2
        · exact .inr (.inr h3)
        · exact absurd ⟨h1, h2, h3⟩ hw
  rcases entry_ok (endtime := endtime) hf hb (k := fun p c h => match s.recordlist with
        | some l => link h l p c endtime whence
        | none =>
          match malloc h (.recordlist (some p) (some p) 1) with
          | (none, h) => (free h p).bind fun h => .ok (none, h)
          | (some l, h) => .ok (some p, h.put a (.seg { s with recordlist := some l })))
    with ⟨h', he, hc, hg, hk⟩ | ⟨p, c, r', e', h3, he, hE⟩
  · exact ⟨none, h', he, fun _ => ⟨hg.1, fun y _ => by rw [hc], fun _ => hc, .inr hk⟩, by simp⟩
  refine result_of he ?_
  have hkeep : ∀ x, h.cell x ≠ none → x ∉ ownedRecord c r' ++ [p] := fun x hx hx2 => hx (hE.free x hx2)
  have hkept : ∀ x, h.cell x ≠ none → h3.cell x = h.cell x := fun x hx => hE.rest x (hkeep x hx)
  have halive : h.cell a ≠ none := by rw [ha]; simp
  have hvo : ∀ v : PtrV, v = { addr := p, msr := some (c, r', e', none), prvt := none, endtime := endtime } →
      v.owned prvt = ownedRecord c r' ++ [p] := by
    rintro v rfl
    unfold PtrV.owned PtrV.ownedMsr ownedPrvt
    cases prvt <;> simp
  have hp0 : h.cell p = none := hE.free p (by simp)
  have hpc : p ∉ ownedRecord c r' := by
    intro hx
    have := hE.nodup
    rw [List.nodup_append] at this
    exact this.2.2 p hx p (by simp) rfl
  have hlow : ∀ x, h.cell x ≠ none → x < h3.next := by
    intro x hx
    have h1 := hE.grows.2.1
    by_cases h2 : x < h.next
    · omega
    · exact absurd (hf x (by omega)) hx
  have hbk := record_kind hb
  obtain ⟨v, hv⟩ : ∃ v : PtrV, v = { addr := p, msr := some (c, r', e', none), prvt := none, endtime := endtime } := ⟨_, rfl⟩
  have hvo := hvo v hv
  have hva : v.addr = p := by rw [hv]
  -- the entry itself, once linked
  have hvp : ∀ (h' : Heap) (next : Option Nat), h'.cell p = some (.recordptr (some c) none next endtime) →
      (∀ x ∈ ownedRecord c r', h'.cell x = h3.cell x) → HasPtr h' prvt v next := by
    intro h' next h1 h2
    rw [hv]
    refine ⟨h1, fun a2 r2 e2 d2 hm => ?_, by intro _ y hy; cases hy⟩
    obtain ⟨rfl, rfl, rfl, rfl⟩ : c = a2 ∧ r' = r2 ∧ e' = e2 ∧ none = d2 := by
      have := Option.some.inj hm
      simp only [Prod.mk.injEq] at this
      exact this
    exact record_frame hE.has h2
  cases hsl : s.recordlist with
  | none =>
    rw [hsl] at hl
    obtain rfl : l = [] := hl
    simp only
    have hif : (if whence = 2 then [v] else [] ++ [v]) = [v] := by split <;> rfl
    rcases malloc_cases h3 (.recordlist (some p) (some p) 1) with
      ⟨h4, hm, hcell, -, -, hfail⟩ | ⟨h4, hm, hnext, hfa, hcell, -⟩
    · rw [hm]
      have g4 := (malloc_grows hE.grows.1 hm).1
      have hfr : free h4 p = .ok (without h4 [p]) := free_ok (by rw [hcell, hE.cell]; simp)
      simp only
      rw [hfr, bind_ok]
      refine ⟨none, _, rfl, fun _ => ⟨(free_grows g4.1 hfr).1, fun y hy => ?_, fun hh => absurd rfl hh,
        .inr ⟨_, by rw [← hE.grows.2.2]; exact hfail⟩⟩, by simp⟩
      rw [without_cell (by intro hx; rw [List.mem_singleton.1 hx] at hy; exact hy hp0), hcell, hkept y hy]
    · rw [hm]
      have g4 := (malloc_grows hE.grows.1 hm).1
      have ha3 := hlow a halive
      have hp3 := hE.low
      have hpa : p ≠ a := by rintro rfl; exact halive hp0
      have hnone : h3.cell h3.next = none := hE.grows.1 _ (Nat.le_refl _)
      have hown : ∀ x ∈ ownedRecord c r', x ≠ h3.next ∧ x ≠ a := by
        intro x hx
        refine ⟨?_, ?_⟩
        · rintro rfl
          rcases record_kind hE.has _ hx with ⟨y, hy⟩ | ⟨y, hy⟩ <;> (rw [hnone] at hy; cases hy)
        · rintro rfl
          exact halive (hE.free x (List.mem_append_left _ hx))
      have hcell5 : ∀ (o : Obj) (x : Nat), (h4.put a o).cell x = if x = a then some o else if x = h3.next then some (.recordlist (some p) (some p) 1) else h3.cell x := by
        intro o x
        rw [put_cell, hcell]
      refine ⟨some p, _, rfl, by simp, fun p' hp' => ⟨.inl (by simp), some h3.next, v, c, r', e', ?_, hE.copy, fun hh => absurd rfl hh, ?_, ?_, ?_, ?_⟩⟩
      · rw [← Option.some.inj hp']; exact hv
      · rw [put_cell, if_pos rfl]
      · rw [hif]
        refine ⟨by simp, some p, ?_, by rw [hva], none, ?_, rfl⟩
        · rw [hcell5, if_neg (by omega), if_pos rfl]
          simp [hva]
        · refine hvp _ none ?_ fun x hx => ?_
          · rw [hcell5, if_neg hpa, if_neg (by omega), hE.cell]
          · rw [hcell5, if_neg (hown x hx).2, if_neg (hown x hx).1]
      · refine record_frame hb fun x hx => ?_
        have hxl : h.cell x ≠ none := by rcases hbk x hx with ⟨y, hy⟩ | ⟨y, hy⟩ <;> (rw [hy]; simp)
        have hxa : x ≠ a := by
          rintro rfl
          rcases hbk x hx with ⟨y, hy⟩ | ⟨y, hy⟩ <;> (rw [ha] at hy; cases hy)
        have := hlow x hxl
        rw [hcell5, if_neg hxa, if_neg (by omega), hkept x hxl]
      · rw [hif]
        have hS : a :: ownedRecs prvt (some h3.next) [v] = a :: (ownedRecord c r' ++ [p] ++ [h3.next]) := by
          simp [ownedRecs, hvo]
        rw [hS]
        refine ⟨(put_grows g4.1 (by omega)).1, by show h4.fails = _; rw [hfa, hE.grows.2.2], ?_, ?_, ?_, ?_⟩
        · intro x hx
          simp [ownedRecs] at hx
          simp [hx]
        · intro x hx
          rcases List.mem_cons.1 hx with rfl | hx
          · exact .inl (by simp)
          rcases List.mem_append.1 hx with hx | hx
          · exact .inr (hE.free x hx)
          · rw [List.mem_singleton.1 hx]
            exact .inr (hf _ hE.grows.2.1)
        · intro x hx
          rw [List.mem_cons, List.mem_append, not_or, not_or, List.mem_singleton] at hx
          rw [hcell5, if_neg hx.1, if_neg hx.2.2, hE.rest x hx.2.1]
        · rw [List.nodup_cons, List.nodup_append]
          refine ⟨?_, hE.nodup, by simp, fun x hx y hy hxy => ?_⟩
          · rw [List.mem_append, List.mem_singleton, not_or]
            exact ⟨hkeep a halive, by omega⟩
          · rw [List.mem_singleton] at hy
            rcases List.mem_append.1 hx with hx | hx
            · exact (hown x hx).1 (hxy.trans hy)
            · rw [List.mem_singleton] at hx
              omega
  | some m =>
    rw [hsl] at hl hn han hlive hwhen
    simp only
    obtain ⟨hne, first, hmc, hch⟩ := hl
    have hmlive : h.cell m ≠ none := by rw [hmc]; simp
    have hm3 := hkept m hmlive
    obtain ⟨w, hw1, hw2, hw3⟩ := last_some hne
    have hwp := chain_last l first hch w hw1
    have hwlive : h.cell w.addr ≠ none := by rw [hwp.1]; simp
    have hpm : p ≠ m := by rintro rfl; exact hmlive hp0
    have hpw : p ≠ w.addr := by intro hx; rw [← hx] at hwlive; exact hwlive hp0
    have hwm : w.addr ≠ m := by
      intro hx
      have h1 := hwp.1
      rw [hx, hmc] at h1
      cases h1
    have ham : a ≠ m := by intro hx; rw [hx, hmc] at ha; cases ha
    have haw : a ≠ w.addr := by
      intro hx
      have h1 := hwp.1
      rw [← hx, ha] at h1
      cases h1
    have hcm : ∀ x ∈ ownedRecord c r', x ≠ m ∧ x ≠ w.addr ∧ x ≠ p := by
      intro x hx
      have h0 := hE.free x (List.mem_append_left _ hx)
      exact ⟨by rintro rfl; exact hmlive h0, by intro h1; rw [← h1] at hwlive; exact hwlive h0, by rintro rfl; exact hpc hx⟩
    have hnn := nodup_three (L := l.flatMap (PtrV.owned prvt)) (P := [m]) hn (hvo ▸ hE.nodup : (v.owned prvt).Nodup)
      (fun x hx hx2 => hlive x hx2 (hE.free x (hvo ▸ hx)))
    have hlm : ∀ x ∈ l.flatMap (PtrV.owned prvt), x ≠ m := by
      intro x hx hxm
      rw [ownedRecs, List.nodup_append] at hn
      exact hn.2.2 x hx m (by simp) hxm
    have hll : ∀ x ∈ l.flatMap (PtrV.owned prvt), h.cell x ≠ none := fun x hx => hlive x (List.mem_append_left _ hx)
    have hbx : ∀ x ∈ ownedRecord b r, h.cell x ≠ none ∧ x ≠ m ∧ x ≠ w.addr := by
      intro x hx
      rcases hbk x hx with ⟨y, hy⟩ | ⟨y, hy⟩
      · refine ⟨by rw [hy]; simp, ?_, ?_⟩
        · rintro rfl; rw [hmc] at hy; cases hy
        · rintro rfl; rw [hwp.1] at hy; cases hy
      · refine ⟨by rw [hy]; simp, ?_, ?_⟩
        · rintro rfl; rw [hmc] at hy; cases hy
        · rintro rfl; rw [hwp.1] at hy; cases hy
    have hseg : { s with recordlist := some m } = s := by rw [← hsl]
    unfold link
    rw [hm3, hmc, hw1]
    simp only [Option.map_some]
    by_cases hw2' : whence = 2
    · rw [if_pos hw2']
      simp only [if_pos hw2']
      have hcell5 : ∀ (o o' : Obj) (x : Nat), ((h3.put p o).put m o').cell x = if x = m then some o' else if x = p then some o else h3.cell x := by
        intro o o' x
        rw [put_cell, put_cell]
      have hS : ownedRecs prvt (some m) (v :: l) = v.owned prvt ++ l.flatMap (PtrV.owned prvt) ++ [m] := by
        simp [ownedRecs]
      refine ⟨some p, _, rfl, by simp, fun p' hp' => ⟨.inr (.inr hw2'), some m, v, c, r', e', ?_, hE.copy, fun _ => rfl, ?_, ?_, ?_, ?_⟩⟩
      · rw [← Option.some.inj hp']; exact hv
      · rw [hcell5, if_neg ham, if_neg (by rintro rfl; exact halive hp0), hkept a halive, ha, hseg]
      · refine ⟨by simp, some p, ?_, by rw [hva], first, ?_, ?_⟩
        · rw [hcell5, if_pos rfl]
          congr 2
          cases l with
          | nil => exact absurd rfl hne
          | cons u l => rw [List.getLast?_cons_cons, hw1]; rfl
        · refine hvp _ first ?_ fun x hx => ?_
          · rw [hcell5, if_neg hpm, if_pos rfl]
          · rw [hcell5, if_neg (hcm x hx).1, if_neg (hcm x hx).2.2]
        · refine chain_frame hch fun u hu next hh => ptr_frame hh fun x hx => ?_
          have hx' := List.mem_flatMap.2 ⟨u, hu, hx⟩
          rw [hcell5, if_neg (hlm x hx'), if_neg (by rintro rfl; exact hll _ hx' hp0), hkept x (hll x hx')]
      · refine record_frame hb fun x hx => ?_
        obtain ⟨h1, h2, -⟩ := hbx x hx
        rw [hcell5, if_neg h2, if_neg (by rintro rfl; exact h1 hp0), hkept x h1]
      · rw [hS]
        have hput := put_grows (o := .recordptr (some c) none first endtime) hE.grows.1 hE.low
        refine ⟨(put_grows hput.1 (hlow m hmlive)).1, hE.grows.2.2, ?_, ?_, ?_, ?_⟩
        · intro x hx
          simp only [ownedRecs, Option.toList_some, List.mem_cons, List.mem_append] at hx ⊢
          rcases hx with h1 | h1 | h1
          · exact .inl h1
          · exact .inr (.inl (.inr h1))
          · exact .inr (.inr h1)
        · intro x hx
          simp only [ownedRecs, Option.toList_some, List.mem_cons, List.mem_append] at hx ⊢
          rcases hx with h1 | (h1 | h1) | h1
          · exact .inl (.inl h1)
          · exact .inr (hE.free x (hvo ▸ h1))
          · exact .inl (.inr (.inl h1))
          · exact .inl (.inr (.inr h1))
        · intro x hx
          rw [hvo] at hx
          simp only [List.mem_cons, List.mem_append, not_or, List.not_mem_nil, not_false_eq_true, and_true] at hx
          obtain ⟨h1, ⟨⟨h2, h3'⟩, h4⟩, h5⟩ := hx
          rw [hcell5, if_neg h5, if_neg h3', hE.rest x (by simp [h2, h3'])]
        · rw [List.nodup_cons]
          refine ⟨?_, hnn.2⟩
          intro hx
          simp only [List.mem_append] at hx
          rcases hx with (h1 | h1) | h1
          · exact halive (hE.free a (hvo ▸ h1))
          · exact han (List.mem_append_left _ h1)
          · exact han (List.mem_append_right _ (by simpa using h1))
    · rw [if_neg hw2']
      simp only [if_neg hw2']
      rw [hkept w.addr hwlive, hwp.1]
      simp only
      have hcell5 : ∀ (o o' : Obj) (x : Nat), ((h3.put w.addr o).put m o').cell x = if x = m then some o' else if x = w.addr then some o else h3.cell x := by
        intro o o' x
        rw [put_cell, put_cell]
      have hS : ownedRecs prvt (some m) (l ++ [v]) = l.flatMap (PtrV.owned prvt) ++ v.owned prvt ++ [m] := by
        simp [ownedRecs]
      refine ⟨some p, _, rfl, by simp, fun p' hp' => ⟨.inr (hwhen.resolve_left (by simp)), some m, v, c, r', e', ?_, hE.copy, fun _ => rfl, ?_, ?_, ?_, ?_⟩⟩
      · rw [← Option.some.inj hp']; exact hv
      · rw [hcell5, if_neg ham, if_neg haw, hkept a halive, ha, hseg]
      · refine link_ok (h := h) (first := first) (first' := some p) (w := w) (by simp) hch hw1 hw3 hn ?_ ?_ ?_ ?_
        · refine ⟨by rw [hva], none, hvp _ none ?_ fun x hx => ?_, rfl⟩
          · rw [hcell5, if_neg hpm, if_neg hpw, hE.cell]
          · rw [hcell5, if_neg (hcm x hx).1, if_neg (hcm x hx).2.1]
        · rw [hcell5, if_neg hwm, if_pos rfl]
        · rw [hcell5, if_pos rfl]
          simp [hva]
        · intro x hx hxw
          rw [hcell5, if_neg (hlm x hx), if_neg hxw, hkept x (hll x hx)]
      · refine record_frame hb fun x hx => ?_
        obtain ⟨h1, h2, h2'⟩ := hbx x hx
        rw [hcell5, if_neg h2, if_neg h2', hkept x h1]
      · rw [hS]
        have hput := fun o => put_grows (o := o) hE.grows.1 (hlow w.addr hwlive)
        refine ⟨(put_grows (hput _).1 (hlow m hmlive)).1, hE.grows.2.2, ?_, ?_, ?_, ?_⟩
        · intro x hx
          simp only [ownedRecs, Option.toList_some, List.mem_cons, List.mem_append] at hx ⊢
          rcases hx with h1 | h1 | h1
          · exact .inl h1
          · exact .inr (.inl (.inl h1))
          · exact .inr (.inr h1)
        · intro x hx
          simp only [ownedRecs, Option.toList_some, List.mem_cons, List.mem_append] at hx ⊢
          rcases hx with h1 | (h1 | h1) | h1
          · exact .inl (.inl h1)
          · exact .inl (.inr (.inl h1))
          · exact .inr (hE.free x (hvo ▸ h1))
          · exact .inl (.inr (.inr h1))
        · intro x hx
          have hxw : x ≠ w.addr := by
            rintro rfl
            refine hx (List.mem_cons_of_mem _ (List.mem_append_left _ (List.mem_append_left _ (List.mem_flatMap.2 ⟨w, hw2, ?_⟩))))
            simp [PtrV.owned]
          rw [hvo] at hx
          simp only [List.mem_cons, List.mem_append, not_or, List.not_mem_nil, not_false_eq_true, and_true] at hx
          obtain ⟨h1, ⟨h4, h2, h3'⟩, h5⟩ := hx
          rw [hcell5, if_neg h5, if_neg hxw, hE.rest x (by simp [h2, h3'])]
        · rw [List.nodup_cons]
          refine ⟨?_, hnn.1⟩
          intro hx
          simp only [List.mem_append] at hx
          rcases hx with (h1 | h1) | h1
          · exact han (List.mem_append_left _ h1)
          · exact halive (hE.free a (hvo ▸ h1))
          · exact han (List.mem_append_right _ (by simpa using h1))

end Verif.Proof.RecMem
