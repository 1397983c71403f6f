import Verif.Proof.Alloc
/-! Lemmas on copies of records and on smaller buffers. -/
namespace Verif.Proof.Alloc
open Verif.Model Verif.Model.Steim Verif.Model.Alloc
open Verif.Props.Alloc
open Verif.Proof.Mem (bind_ok)

theorem malloc_cases (h : Heap) (o : Obj) :
    (∃ h', malloc h o = (none, h') ∧ h'.cell = h.cell ∧ h'.next = h.next ∧ h'.fails = h.fails ∧ h.fails h.calls = true) ∨
    (∃ h', malloc h o = (some h.next, h') ∧ h'.next = h.next + 1 ∧ h'.fails = h.fails ∧
      (∀ x, h'.cell x = if x = h.next then some o else h.cell x) ∧ h.fails h.calls = false) := by
  unfold malloc
  by_cases hf : h.fails h.calls = true
  · left
    rw [if_pos hf]
    exact ⟨_, rfl, rfl, rfl, rfl, hf⟩
  · right
    rw [if_neg hf]
    exact ⟨_, rfl, rfl, rfl, fun x => rfl, by simpa using hf⟩

theorem readBytes_ok {h : Heap} {a : Nat} {b : List UInt8} {n : Nat} (hc : h.cell a = some (.bytes b))
    (hn : n ≤ b.length) : readBytes h a n = .ok (b.take n) := by
  unfold readBytes
  rw [hc]
  simp only
  rw [if_pos hn]

/-- What `dupSamples` does to a copy without samples. -/
theorem dupSamples_ok {h0 h : Heap} {a : Nat} {r : Record} {e d : Option (List UInt8)} {dup : Bool} {b : Nat}
    {r' : Record} {e' : Option (List UInt8)} (hr : HasRecord h0 a r e d) (hf : Fresh h)
    (hc : IsCopy h0 h r e d false b r' e' none) :
    ∃ x h', dupSamples h r r' b dup = .ok (x, h') ∧
      (x = none → h'.cell = h0.cell ∧ h.fails h.calls = true) ∧
      (∀ y, x = some y → y = b ∧ ∃ r' d', IsCopy h0 h' r e d dup b r' e' d') := by
  have hd0 : r'.datasamples = none := by
    have := hc.has.data
    cases hv : r'.datasamples with
    | none => rfl
    | some p => rw [hv] at this; exact this.elim
  have hdone : (dup = true ∧ r.numsamples > 0 ∧ r.datasize > 0 → d = none) →
      IsCopy h0 h r e d dup b r' e' none := by
    intro hn
    refine { hc with data := ?_ }
    by_cases h1 : dup = true ∧ r.numsamples > 0 ∧ r.datasize > 0
    · rw [if_pos h1, hn h1]; rfl
    · rw [if_neg h1]
  unfold dupSamples
  cases hp : r.datasamples with
  | none =>
    refine ⟨some b, h, rfl, by simp, fun y hy => ⟨(Option.some.inj hy).symm, r', none, hdone fun _ => ?_⟩⟩
    have := hr.data
    rw [hp] at this
    cases d with
    | none => rfl
    | some v => exact this.elim
  | some p =>
    simp only
    by_cases h1 : dup = true ∧ r.numsamples > 0 ∧ r.datasize > 0
    rotate_left
    · rw [if_neg h1]
      exact ⟨some b, h, rfl, by simp, fun y hy => ⟨(Option.some.inj hy).symm, r', none, hdone fun h => absurd h h1⟩⟩
    rw [if_pos h1]
    obtain ⟨v, rfl, hv⟩ : ∃ v, d = some v ∧ h0.cell p = some (.bytes v) := by
      have := hr.data
      rw [hp] at this
      cases d with
      | none => exact this.elim
      | some v => exact ⟨v, rfl, this⟩
    have hpo : p ∉ ownedRecord b r' := fun hm => by
      rw [hc.fresh p hm] at hv; cases hv
    have hv' : h.cell p = some (.bytes v) := by rw [hc.other p hpo]; exact hv
    rw [readBytes_ok hv' (hr.datasize v rfl), bind_ok]
    rcases malloc_cases h (.bytes (v.take r.datasize)) with ⟨h', hm, hcell, -, -, hfail⟩ | ⟨h', hm, hnext, -, hcell, hfail⟩
    · rw [hm]
      simp only
      have hc' : HasRecord h' b r' e' none := record_frame hc.has fun x _ => by rw [hcell]
      rw [msrFree_ok hc', bind_ok]
      refine ⟨none, _, rfl, fun _ => ⟨?_, hfail⟩, by simp⟩
      funext x
      show (if x ∈ ownedRecord b r' then none else h'.cell x) = _
      by_cases hx : x ∈ ownedRecord b r'
      · rw [if_pos hx, hc.fresh x hx]
      · rw [if_neg hx, hcell, hc.other x hx]
    · rw [hm]
      simp only
      refine ⟨some b, _, rfl, by simp, fun y hy => ⟨(Option.some.inj hy).symm,
        { r' with datasamples := some h.next, datasize := r.datasize, numsamples := r.numsamples }, some (v.take r.datasize), ?_⟩⟩
      have hfn : ∀ x, h.cell x ≠ none → x ≠ h.next := fun x hx he => hx (hf x (by omega))
      have hb : b ≠ h.next := hfn b (by rw [hc.has.cell]; simp)
      have hn0 : h0.cell h.next = none := by
        by_cases hx : h.next ∈ ownedRecord b r'
        · exact hc.fresh _ hx
        · rw [← hc.other _ hx]; exact hf _ (by omega)
      have hlen : (v.take r.datasize).length = r.datasize := by
        rw [List.length_take]; have := hr.datasize v rfl; omega
      have hput : ∀ (o : Obj) x, (h'.put b o).cell x = if x = b then some o else if x = h.next then
          some (.bytes (v.take r.datasize)) else h.cell x := by
        intro o x
        show (if x = b then some o else h'.cell x) = _
        rw [hcell]
      have hex : ∀ x, r'.extra = some x → x ≠ b ∧ x ≠ h.next := by
        intro x hx
        obtain ⟨w, hw⟩ := held_mem hc.has.extra x (by rw [hx]; simp)
        refine ⟨fun he => ?_, hfn x (by rw [hw]; simp)⟩
        rw [he, hc.has.cell] at hw
        cases hw
      refine ⟨⟨?_, ?_, ?_, hc.has.extralength, ?_, ?_⟩, ?_, hc.extra, ?_, ⟨?_, ?_⟩, ?_, ?_⟩
      · rw [hput, if_pos rfl]
      · refine held_frame hc.has.extra fun x hx => ?_
        obtain ⟨g1, g2⟩ := hex x (Option.mem_toList.1 hx)
        rw [hput, if_neg g1, if_neg g2]
      · show (h'.put b _).cell h.next = _
        rw [hput, if_neg (Ne.symm hb), if_pos rfl]
      · intro w hw
        have hw : v.take r.datasize = w := Option.some.inj hw
        show r.datasize ≤ w.length
        rw [← hw, hlen]
        exact Nat.le_refl _
      · intro x hx he
        exact (hex x hx).2 (Option.some.inj he).symm
      · rw [hc.same]
      · rw [if_pos h1]; rfl
      · exact hlen.symm
      · rw [if_neg (by simp)]
      · intro x hx
        simp only [ownedRecord, List.mem_append, Option.toList_some, List.mem_singleton] at hx
        rcases hx with (hx | hx) | hx
        · exact hc.fresh x (by simp only [ownedRecord, List.mem_append]; exact .inl (.inl hx))
        · rw [hx]; exact hn0
        · exact hc.fresh x (by simp only [ownedRecord, List.mem_append, List.mem_singleton]; exact .inr hx)
      · intro x hx
        simp only [ownedRecord, List.mem_append, Option.toList_some, List.mem_singleton, not_or] at hx
        rw [hput, if_neg hx.2, if_neg hx.1.2]
        refine hc.other x ?_
        simp only [ownedRecord, hd0, Option.toList_none, List.append_nil, List.mem_append, List.mem_singleton, not_or]
        exact ⟨hx.1.1, hx.2⟩

theorem duplicate_ok {h : Heap} {a : Nat} {r : Record} {e d : Option (List UInt8)} (hr : HasRecord h a r e d)
    (hf : Fresh h) (dup : Bool) :
    ∃ x h', duplicate h (some a) dup = .ok (x, h') ∧
      (x = none → h'.cell = h.cell ∧ ∃ n, h.fails n = true) ∧
      (∀ b, x = some b → ∃ r' e' d', IsCopy h h' r e d dup b r' e' d') := by
  unfold duplicate
  simp only [init, bind_ok]
  rcases malloc_cases h (.record { reclen := -1, samplecnt := -1, encoding := -1 }) with
    ⟨h1, hm, hcell, -, -, hfail⟩ | ⟨h1, hm, hnext, hfa, hcell, -⟩
  · rw [hm]
    exact ⟨none, h1, rfl, fun _ => ⟨hcell, _, hfail⟩, by simp⟩
  rw [hm]
  simp only
  have hne : ∀ x, h.cell x ≠ none → x ≠ h.next := fun x hx he => hx (hf x (by omega))
  have ha : a ≠ h.next := hne a (by rw [hr.cell]; simp)
  rw [getRecord_ok (show h1.cell a = some (.record r) by rw [hcell, if_neg ha]; exact hr.cell), bind_ok]
  generalize hr' : bare r = r'
  have hput : ∀ x, (h1.put h.next (.record r')).cell x = if x = h.next then some (.record r') else h.cell x := by
    intro x
    show (if x = h.next then some (.record r') else h1.cell x) = _
    rw [hcell]
    by_cases hx : x = h.next
    · rw [if_pos hx, if_pos hx]
    · rw [if_neg hx, if_neg hx, if_neg hx]
  have hf1 : Fresh (h1.put h.next (.record r')) := by
    intro x hx
    have hx : h.next + 1 ≤ x := by
      have : (h1.put h.next (.record r')).next = h1.next := rfl
      rw [this, hnext] at hx; exact hx
    rw [hput, if_neg (by omega)]
    exact hf x (by omega)
  have hx0 : r'.extra = none := by rw [← hr']; rfl
  have hx1 : r'.datasamples = none := by rw [← hr']; rfl
  have hx2 : r'.extralength = 0 := by rw [← hr']; rfl
  have hx3 : r'.datasize = 0 := by rw [← hr']; rfl
  have hx4 : r'.numsamples = 0 := by rw [← hr']; rfl
  have hown : ownedRecord h.next r' = [h.next] := by
    unfold ownedRecord; rw [hx0, hx1]; rfl
  have hfinish : ∀ {hh : Heap} {r' e'}, Fresh hh → hh.fails = h.fails → IsCopy h hh r e d false h.next r' e' none →
      ∃ x h', dupSamples hh r r' h.next dup = .ok (x, h') ∧
      (x = none → h'.cell = h.cell ∧ ∃ n, h.fails n = true) ∧
      (∀ b, x = some b → ∃ r' e' d', IsCopy h h' r e d dup b r' e' d') := by
    intro hh r' e' g1 g2 g3
    obtain ⟨x, h', k1, k2, k3⟩ := dupSamples_ok (dup := dup) hr g1 g3
    refine ⟨x, h', k1, fun hx => ⟨(k2 hx).1, _, g2 ▸ (k2 hx).2⟩, fun b hb => ?_⟩
    obtain ⟨rfl, r', d', k4⟩ := k3 b hb
    exact ⟨r', e', d', k4⟩
  have hbase : (e.getD []).take r.extralength = [] →
      IsCopy h (h1.put h.next (.record r')) r e d false h.next r' none none := by
    intro hz
    refine ⟨⟨by rw [hput, if_pos rfl], by rw [hx0]; trivial, by rw [hx1]; trivial, by simp, by simp, by simp [hx0]⟩,
      by rw [← hr']; rfl, ⟨by rw [hz]; rfl, hx2⟩, by simp, ⟨hx3, by rw [if_pos rfl]; exact hx4⟩, ?_, ?_⟩
    · intro x hx
      rw [hown, List.mem_singleton] at hx
      rw [hx]; exact hf _ (by omega)
    · intro x hx
      rw [hown, List.mem_singleton] at hx
      rw [hput, if_neg hx]
  cases hp : r.extra with
  | none =>
    simp only
    refine hfinish hf1 hfa (hbase ?_)
    have := hr.extra
    rw [hp] at this
    cases e with
    | none => simp
    | some v => exact this.elim
  | some p =>
    simp only
    obtain ⟨v, rfl, hv⟩ : ∃ v, e = some v ∧ h.cell p = some (.bytes v) := by
      have := hr.extra
      rw [hp] at this
      cases e with
      | none => exact this.elim
      | some v => exact ⟨v, rfl, this⟩
    by_cases hl : r.extralength > 0
    rotate_left
    · rw [if_neg hl]
      refine hfinish hf1 hfa (hbase ?_)
      have : r.extralength = 0 := by omega
      rw [this]; simp
    rw [if_pos hl]
    have hpn := hne p (by rw [hv]; simp)
    rw [readBytes_ok (by rw [hput, if_neg hpn]; exact hv) (hr.extralength v rfl), bind_ok]
    rcases malloc_cases (h1.put h.next (.record r')) (.bytes (v.take r.extralength)) with
      ⟨h2, hm2, hcell2, -, hfa2, hfail⟩ | ⟨h2, hm2, hnext2, hfa2, hcell2, -⟩
    · rw [hm2]
      simp only
      have hc' : HasRecord h2 h.next r' none none :=
        ⟨by rw [hcell2, hput, if_pos rfl], by rw [hx0]; trivial, by rw [hx1]; trivial, by simp, by simp, by simp [hx0]⟩
      rw [msrFree_ok hc', bind_ok]
      refine ⟨none, _, rfl, fun _ => ⟨?_, _, hfa ▸ hfail⟩, by simp⟩
      funext x
      show (if x ∈ ownedRecord h.next r' then none else h2.cell x) = _
      rw [hown]
      by_cases hx : x ∈ [h.next]
      · rw [if_pos hx]; rw [List.mem_singleton] at hx; rw [hx]; exact (hf _ (by omega)).symm
      · rw [if_neg hx, hcell2, hput, if_neg (by simpa using hx)]
    · rw [hm2]
      simp only
      have hn2 : (h1.put h.next (.record r')).next = h.next + 1 := hnext
      rw [hn2] at hm2 hnext2 hcell2 ⊢
      have hput2 : ∀ (o : Obj) x, (h2.put h.next o).cell x = if x = h.next then some o else
          if x = h.next + 1 then some (.bytes (v.take r.extralength)) else h.cell x := by
        intro o x
        show (if x = h.next then some o else h2.cell x) = _
        by_cases hx : x = h.next
        · rw [if_pos hx, if_pos hx]
        · rw [if_neg hx, if_neg hx, hcell2, hput, if_neg hx]
      refine hfinish (e' := some (v.take r.extralength)) ?_ (hfa2.trans hfa) ⟨⟨?_, ?_, ?_, ?_, by simp, ?_⟩, ?_, ⟨rfl, ?_⟩, by simp, ?_, ?_, ?_⟩
      · intro x hx
        have hx : h.next + 1 + 1 ≤ x := by
          have : (h2.put h.next (.record { r' with extra := some (h.next + 1), extralength := r.extralength })).next = h2.next := rfl
          rw [this, hnext2] at hx; exact hx
        rw [hput2, if_neg (by omega), if_neg (by omega)]
        exact hf x (by omega)
      · rw [hput2, if_pos rfl]
      · show (h2.put h.next _).cell (h.next + 1) = _
        rw [hput2, if_neg (by omega), if_pos rfl]
      · show Held _ r'.datasamples none
        rw [hx1]; trivial
      · intro w hw
        have hw : v.take r.extralength = w := Option.some.inj hw
        show r.extralength ≤ w.length
        rw [← hw, List.length_take]
        have := hr.extralength v rfl
        omega
      · intro x _
        show r'.datasamples ≠ some x
        rw [hx1]; simp
      · rw [← hr']; rfl
      · show r.extralength = (v.take r.extralength).length
        rw [List.length_take]
        have := hr.extralength v rfl
        omega
      · exact ⟨hx3, by rw [if_pos rfl]; exact hx4⟩
      · intro x hx
        simp only [ownedRecord, hx1, List.mem_append, Option.toList_some, List.mem_singleton, Option.toList_none,
          List.not_mem_nil, or_false] at hx
        exact hf x (by omega)
      · intro x hx
        simp only [ownedRecord, hx1, List.mem_append, Option.toList_some, List.mem_singleton, Option.toList_none,
          List.not_mem_nil, or_false, not_or] at hx
        rw [hput2, if_neg hx.2, if_neg hx.1]

end Verif.Proof.Alloc
