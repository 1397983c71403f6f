import Verif.Spec.Glob
import Verif.Model.Glob
/-! Helper lemmas for the glob matchers. -/
namespace Verif.Proof.Glob
open Verif.Spec.Glob Verif.Model.Glob

theorem mem_iff (signed : Bool) (ch : UInt8) (i : SetItem) : i.Mem (charVal signed) ch ↔
    match i with
    | .one c => ch = c
    | .range lo hi => ch = lo ∨ ch = hi ∨
      (charVal signed ch > charVal signed lo ∧ charVal signed ch < charVal signed hi) := by
  cases i <;> rfl

theorem setBody_cons (signed : Bool) (ch c d : UInt8) (r : List UInt8) :
    setBody signed ch c (d :: r) =
    if d = 45 then
      match r with
      | [] => .retFalse
      | e :: r' =>
        if e ≠ 93 then
          if ch = c ∨ ch = e ∨
              (charVal signed ch > charVal signed c ∧ charVal signed ch < charVal signed e) then
            .exit true (some (e :: r'))
          else setBody signed ch e r'
        else .exit (decide (charVal signed ch ≥ charVal signed c)) (some (e :: r'))
    else if d ≠ 93 then
      if c = ch ∨ d = ch then .exit true (some (d :: r)) else setBody signed ch d r
    else .exit (decide (c = ch)) (some (d :: r)) := by
  cases r <;> rfl

theorem glob_set (escLit signed : Bool) (n : Nat) (ch : UInt8) (t p : List UInt8) (neg : Bool)
    (p1 : List UInt8) (h1 : (p.head? == some 94) = neg) (h2 : (if neg then p.tail else p) = p1) :
    glob escLit signed (n + 1) (ch :: t) (91 :: p) =
      match setLoop signed ch p1 with
      | .retFalse => .ret false
      | .exit m p2 =>
        if neg = m then .ret false
        else
          match p2 with
          | none => .oob
          | some p2 =>
            match p2.dropWhile (· != 93) with
            | [] => .ret false
            | _ :: p3 => glob escLit signed n t p3 := by
  subst h1; subst h2; rfl

theorem flat_no_close : ∀ (is : List SetItem), (∀ j ∈ is, j.WF) → ∀ x ∈ is.flatMap SetItem.render, x ≠ 93
  | [], _, x, hx => by simp at hx
  | i :: is, h, x, hx => by
    simp only [List.flatMap_cons, List.mem_append] at hx
    rcases hx with hx | hx
    · have := h i (by simp)
      cases i <;> simp [SetItem.render, SetItem.WF] at hx this <;> grind
    · exact flat_no_close is (fun j hj => h j (by simp [hj])) x hx

theorem dropWhile_no_close (l tl : List UInt8) (h : ∀ x ∈ l, x ≠ 93) :
    (l ++ 93 :: tl).dropWhile (· != 93) = 93 :: tl := by
  induction l with
  | nil => simp
  | cons a l ih =>
    have ha := h a (by simp)
    simp [ha]
    exact ih (fun x hx => h x (by simp [hx]))

theorem setLoop_pending (signed : Bool) (ch : UInt8) (tl : List UInt8) :
    ∀ (is : List SetItem) (c : UInt8), (∀ j ∈ is, j.WF) →
    ∃ m p2, setBody signed ch c (is.flatMap SetItem.render ++ 93 :: tl) = .exit m (some p2) ∧
      p2.dropWhile (· != 93) = 93 :: tl ∧
      (m = true ↔ (ch = c ∨ ∃ i ∈ is, i.Mem (charVal signed) ch)) := by
  intro is
  induction is with
  | nil =>
    intro c _
    refine ⟨decide (c = ch), 93 :: tl, ?_, ?_, ?_⟩
    · simp [setBody_cons]
    · simp
    · simp [eq_comm]
  | cons i is ih =>
    intro c hwf
    have hi := hwf i (by simp)
    have his : ∀ j ∈ is, j.WF := fun j hj => hwf j (by simp [hj])
    cases i with
    | one d =>
      simp only [SetItem.WF] at hi
      obtain ⟨h0, h93, h45⟩ := hi
      simp only [List.flatMap_cons, SetItem.render, List.cons_append, List.nil_append]
      by_cases hm : c = ch ∨ d = ch
      · refine ⟨true, d :: (is.flatMap SetItem.render ++ 93 :: tl), ?_, ?_, ?_⟩
        · simp [setBody_cons, h45, h93, hm]
        · rw [← List.cons_append]
          exact dropWhile_no_close _ _ (by
            intro x hx
            simp only [List.mem_cons] at hx
            rcases hx with rfl | hx
            · exact h93
            · exact flat_no_close is his x hx)
        · simp only [true_iff]
          rcases hm with h | h
          · exact Or.inl h.symm
          · exact Or.inr ⟨.one d, by simp, h.symm⟩
      · obtain ⟨m, p2, e, hd, hiff⟩ := ih d his
        refine ⟨m, p2, ?_, hd, ?_⟩
        · rw [← e]; simp [setBody_cons, h45, h93, hm]
        · rw [hiff]
          constructor
          · rintro (h | ⟨i, hi, hm⟩)
            · exact Or.inr ⟨.one d, by simp, h⟩
            · exact Or.inr ⟨i, by simp [hi], hm⟩
          · rintro (h | ⟨i, hi, hm'⟩)
            · exact absurd (Or.inl h.symm) hm
            · simp only [List.mem_cons] at hi
              rcases hi with rfl | hi
              · exact Or.inl hm'
              · exact Or.inr ⟨i, hi, hm'⟩
    | range lo hi' =>
      simp only [SetItem.WF] at hi
      obtain ⟨h0, h93, h45, g0, g93⟩ := hi
      simp only [List.flatMap_cons, SetItem.render, List.cons_append, List.nil_append]
      have nc : ∀ x ∈ hi' :: is.flatMap SetItem.render, x ≠ 93 := by
        intro x hx
        simp only [List.mem_cons] at hx
        rcases hx with rfl | hx
        · exact g93
        · exact flat_no_close is his x hx
      by_cases hm : c = ch ∨ lo = ch
      · refine ⟨true, lo :: 45 :: hi' :: (is.flatMap SetItem.render ++ 93 :: tl), ?_, ?_, ?_⟩
        · simp [setBody_cons, h45, h93, hm]
        · have := dropWhile_no_close (lo :: 45 :: hi' :: is.flatMap SetItem.render) tl (by
            intro x hx
            simp only [List.mem_cons] at hx
            rcases hx with rfl | rfl | hx
            · exact h93
            · decide
            · exact nc x (by simpa using hx))
          simpa using this
        · simp only [true_iff]
          rcases hm with h | h
          · exact Or.inl h.symm
          · exact Or.inr ⟨.range lo hi', by simp, Or.inl h.symm⟩
      · by_cases hr : (SetItem.range lo hi').Mem (charVal signed) ch
        · refine ⟨true, hi' :: (is.flatMap SetItem.render ++ 93 :: tl), ?_, ?_, ?_⟩
          · have hr' := (mem_iff signed ch _).1 hr
            simp only at hr'
            simp [setBody_cons, h45, h93, hm, g93, hr']
          · exact dropWhile_no_close (hi' :: is.flatMap SetItem.render) tl nc
          · simp only [true_iff]
            exact Or.inr ⟨.range lo hi', by simp, hr⟩
        · obtain ⟨m, p2, e, hd, hiff⟩ := ih hi' his
          have hr' := (not_congr (mem_iff signed ch _)).1 hr
          simp only at hr'
          refine ⟨m, p2, ?_, hd, ?_⟩
          · rw [← e]
            simp [setBody_cons, h45, h93, hm, g93, hr']
          · rw [hiff]
            constructor
            · rintro (h | ⟨i, hi, hm⟩)
              · exact Or.inr ⟨.range lo hi', by simp, Or.inr (Or.inl h)⟩
              · exact Or.inr ⟨i, by simp [hi], hm⟩
            · rintro (h | ⟨i, hi, hm'⟩)
              · exact absurd (Or.inl h.symm) hm
              · simp only [List.mem_cons] at hi
                rcases hi with rfl | hi
                · exact absurd hm' hr
                · exact Or.inr ⟨i, hi, hm'⟩

/-- The set loop on a well-formed set body. -/
theorem setLoop_spec (signed : Bool) (ch : UInt8) (tl : List UInt8) (neg : Bool)
    (i : SetItem) (is : List SetItem) (hi : i.WFFirst neg) (his : ∀ j ∈ is, j.WF) :
    ∃ m p2, setLoop signed ch ((i :: is).flatMap SetItem.render ++ 93 :: tl) = .exit m (some p2) ∧
      p2.dropWhile (· != 93) = 93 :: tl ∧
      (m = true ↔ ∃ j ∈ i :: is, j.Mem (charVal signed) ch) := by
  cases i with
  | one c =>
    obtain ⟨m, p2, e, hd, hiff⟩ := setLoop_pending signed ch tl is c his
    refine ⟨m, p2, ?_, hd, ?_⟩
    · simpa [SetItem.render, setLoop] using e
    · rw [hiff]; simp [SetItem.Mem]
  | range lo hi' =>
    simp only [SetItem.WFFirst] at hi
    obtain ⟨h0, h94, g0, g93⟩ := hi
    have nc : ∀ x ∈ hi' :: is.flatMap SetItem.render, x ≠ 93 := by
      intro x hx
      simp only [List.mem_cons] at hx
      rcases hx with rfl | hx
      · exact g93
      · exact flat_no_close is his x hx
    by_cases hr : (SetItem.range lo hi').Mem (charVal signed) ch
    · refine ⟨true, hi' :: (is.flatMap SetItem.render ++ 93 :: tl), ?_, ?_, ?_⟩
      · have hr' := (mem_iff signed ch _).1 hr
        simp only at hr'
        simp [SetItem.render, setLoop, setBody_cons, g93, hr']
      · exact dropWhile_no_close (hi' :: is.flatMap SetItem.render) tl nc
      · simp only [true_iff]
        exact ⟨.range lo hi', by simp, hr⟩
    · obtain ⟨m, p2, e, hd, hiff⟩ := setLoop_pending signed ch tl is hi' his
      have hr' := (not_congr (mem_iff signed ch _)).1 hr
      simp only at hr'
      refine ⟨m, p2, ?_, hd, ?_⟩
      · rw [← e]
        simp [SetItem.render, setLoop, setBody_cons, g93, hr']
      · rw [hiff]
        constructor
        · rintro (h | ⟨i, hi, hm⟩)
          · exact ⟨.range lo hi', by simp, Or.inr (Or.inl h)⟩
          · exact ⟨i, by simp [hi], hm⟩
        · rintro ⟨i, hi, hm'⟩
          simp only [List.mem_cons] at hi
          rcases hi with rfl | hi
          · exact absurd hm' hr
          · exact Or.inr ⟨i, hi, hm'⟩

theorem starLoop_spec (f : List UInt8 → Res) (P : List UInt8 → Prop)
    (hf : ∀ t, ∃ b, f t = .ret b ∧ (b = true ↔ P t)) :
    ∀ s, ∃ b, starLoop f s = .ret b ∧ (b = true ↔ ∃ t, t ≠ [] ∧ t <:+ s ∧ P t)
  | [] => ⟨false, rfl, by
      constructor
      · intro h; cases h
      · rintro ⟨t, h1, h2, _⟩; exact absurd (List.suffix_nil.1 h2) h1⟩
  | ch :: t => by
    obtain ⟨b, e, hb⟩ := hf (ch :: t)
    cases b with
    | true =>
      refine ⟨true, by simp [starLoop, e], ?_⟩
      simp only [true_iff]
      exact ⟨ch :: t, by simp, List.suffix_refl _, hb.1 rfl⟩
    | false =>
      obtain ⟨b', e', hb'⟩ := starLoop_spec f P hf t
      refine ⟨b', by simp [starLoop, e, e'], ?_⟩
      rw [hb']
      constructor
      · rintro ⟨u, h1, h2, h3⟩
        exact ⟨u, h1, h2.trans (List.suffix_cons ch t), h3⟩
      · rintro ⟨u, h1, h2, h3⟩
        rcases List.suffix_cons_iff.1 h2 with h | h
        · subst h
          have := hb.2 h3
          cases this
        · exact ⟨u, h1, h, h3⟩

theorem star_iff (code : UInt8 → Int) (ts : List Tok) (s : List UInt8) :
    Matches code (.star :: ts) s ↔ ∃ t, t <:+ s ∧ Matches code ts t := by
  constructor
  · intro h
    generalize hg : Tok.star :: ts = q at h
    induction h with
    | nil => cases hg
    | char ha _ _ =>
      injection hg with h1 h2
      subst h1; exact absurd ha (by simp [Tok.Accepts])
    | starEmpty h _ =>
      injection hg with h1 h2
      subst h2
      exact ⟨_, List.suffix_refl _, h⟩
    | starMore _ ih =>
      obtain ⟨t, h1, h2⟩ := ih hg
      exact ⟨t, h1.trans (List.suffix_cons _ _), h2⟩
  · rintro ⟨t, ⟨pre, rfl⟩, h⟩
    induction pre with
    | nil => exact .starEmpty h
    | cons c pre ih => exact .starMore ih

/-- Every pattern is some stars followed by a pattern that does not start with a star. -/
theorem strip_stars (code : UInt8 → Int) : ∀ (ts : List Tok), (∀ t ∈ ts, t.WF) →
    ∃ ts', ts' <:+ ts ∧ (render ts).dropWhile (· == 42) = render ts' ∧
      ts'.head? ≠ some .star ∧
      (∀ s, Matches code (.star :: ts) s ↔ Matches code (.star :: ts') s)
  | [], _ => ⟨[], List.suffix_refl _, rfl, by simp, fun _ => Iff.rfl⟩
  | t :: ts, h => by
    by_cases ht : t = .star
    · subst ht
      obtain ⟨ts', h1, h2, h3, h4⟩ := strip_stars code ts (fun x hx => h x (by simp [hx]))
      refine ⟨ts', h1.trans (List.suffix_cons _ _), ?_, h3, ?_⟩
      · rw [← h2]; simp [render, Tok.render]
      · intro s
        rw [← h4 s, star_iff, star_iff]
        constructor
        · rintro ⟨u, hu, hm⟩
          obtain ⟨v, hv, hm⟩ := (star_iff ..).1 hm
          exact ⟨v, hv.trans hu, hm⟩
        · rintro ⟨u, hu, hm⟩
          exact ⟨u, hu, (star_iff ..).2 ⟨u, List.suffix_refl _, hm⟩⟩
    · refine ⟨t :: ts, List.suffix_refl _, ?_, by simpa using ht, fun _ => Iff.rfl⟩
      have hw := h t (by simp)
      cases t with
      | lit c => simp [Tok.WF] at hw; simp [render, Tok.render, hw]
      | esc c => simp [render, Tok.render]
      | any => simp [render, Tok.render]
      | star => exact absurd rfl ht
      | set n is => simp [render, Tok.render]

theorem cons_iff (code : UInt8 → Int) (t : Tok) (ts : List Tok) (ht : t ≠ .star) (s : List UInt8) :
    Matches code (t :: ts) s ↔ ∃ ch s', s = ch :: s' ∧ t.Accepts code ch ∧ Matches code ts s' := by
  constructor
  · intro h
    cases h with
    | char ha h => exact ⟨_, _, rfl, ha, h⟩
    | starEmpty => exact absurd rfl ht
    | starMore => exact absurd rfl ht
  · rintro ⟨ch, s', rfl, ha, h⟩
    exact .char ha h

theorem suffix_dropWhile (q : UInt8) (u : List UInt8) : ∀ s : List UInt8,
    (q :: u <:+ s.dropWhile (· != q) ↔ q :: u <:+ s)
  | [] => Iff.rfl
  | a :: s => by
    by_cases h : a = q
    · subst h; simp
    · simp only [List.dropWhile_cons]
      rw [if_pos (by simpa using h), suffix_dropWhile q u s, List.suffix_cons_iff]
      constructor
      · exact Or.inr
      · rintro (h' | h')
        · injection h' with h1; exact absurd h1.symm h
        · exact h'

theorem render_ne_nil (t : Tok) (ts : List Tok) : ∃ q p, render (t :: ts) = q :: p := by
  cases t <;> simp [render, Tok.render]

theorem suffix_mem {α} {a b : List α} (h : a <:+ b) {x : α} (hx : x ∈ a) : x ∈ b :=
  h.subset hx

theorem render_length_suffix {a b : List Tok} (h : a <:+ b) :
    (render a).length ≤ (render b).length := by
  obtain ⟨pre, rfl⟩ := h
  simp [render]

/-- Both matchers decide `Matches` on well-formed patterns (`ms_globmatch` only without `\c`). -/
theorem glob_spec (escLit signed : Bool) : ∀ (n : Nat) (ts : List Tok) (s : List UInt8),
    (render ts).length ≤ n → (∀ t ∈ ts, t.WF) →
    (escLit = true ∨ ∀ t ∈ ts, ∀ c, t ≠ .esc c) →
    ∃ b, glob escLit signed n s (render ts) = .ret b ∧
      (b = true ↔ Matches (charVal signed) ts s) := by
  intro n
  induction n with
  | zero =>
    intro ts s hn hwf hesc
    cases ts with
    | nil =>
      refine ⟨s.isEmpty, by simp [render, glob], ?_⟩
      cases s with
      | nil => simp; exact .nil
      | cons => simp; intro h; cases h
    | cons t ts =>
      obtain ⟨q, p, e⟩ := render_ne_nil t ts
      rw [e] at hn; simp at hn
  | succ n ih =>
    intro ts s hn hwf hesc
    cases ts with
    | nil =>
      refine ⟨s.isEmpty, by simp [render, glob], ?_⟩
      cases s with
      | nil => simp; exact .nil
      | cons => simp; intro h; cases h
    | cons t ts =>
      have hwt := hwf t (by simp)
      have hwts : ∀ t ∈ ts, t.WF := fun x hx => hwf x (by simp [hx])
      have hets : escLit = true ∨ ∀ t ∈ ts, ∀ c, t ≠ .esc c :=
        hesc.imp id (fun h x hx => h x (by simp [hx]))
      have hr : render (t :: ts) = t.render ++ render ts := by simp [render]
      rw [hr] at hn ⊢
      rw [List.length_append] at hn
      by_cases hst : t = .star
      · subst hst
        simp only [Tok.render, List.length_cons, List.length_nil] at hn
        simp only [Tok.render, List.cons_append, List.nil_append]
        obtain ⟨ts', h1, h2, h3, h4⟩ := strip_stars (charVal signed) ts hwts
        rw [h4]
        have hlen := render_length_suffix h1
        unfold glob
        simp only [if_true, h2]
        cases ts' with
        | nil =>
          refine ⟨true, by simp [render], ?_⟩
          simp only [true_iff, star_iff]
          exact ⟨[], List.nil_suffix, .nil⟩
        | cons t' ts' =>
          have hnst : t' ≠ .star := by simpa using h3
          have hwt' := hwts t' (suffix_mem h1 (by simp))
          obtain ⟨q, p, e⟩ := render_ne_nil t' ts'
          rw [e]
          simp only
          obtain ⟨b, hb, hiff⟩ := starLoop_spec
            (fun t => glob escLit signed n t (q :: p))
            (fun u => Matches (charVal signed) (t' :: ts') u) (by
              intro u
              rw [← e]
              exact ih (t' :: ts') u (by omega)
                (fun x hx => hwts x (suffix_mem h1 hx))
                (hets.imp id (fun h x hx => h x (suffix_mem h1 hx))))
            (if q ≠ 63 ∧ q ≠ 91 ∧ q ≠ 92 then s.dropWhile (· != q) else s)
          refine ⟨b, hb, ?_⟩
          rw [hiff, star_iff]
          constructor
          · rintro ⟨u, _, hu, hm⟩
            refine ⟨u, ?_, hm⟩
            split at hu
            · exact hu.trans (List.dropWhile_suffix _)
            · exact hu
          · rintro ⟨u, hu, hm⟩
            obtain ⟨ch, u', rfl, ha, hm'⟩ := (cons_iff _ _ _ hnst _).1 hm
            refine ⟨ch :: u', by simp, ?_, hm⟩
            split
            · rename_i hq
              -- the next token is the literal q
              have : ch = q := by
                cases t' with
                | lit c =>
                  simp [render, Tok.render] at e
                  simp [Tok.Accepts] at ha
                  rw [ha, e.1]
                | esc c => simp [render, Tok.render] at e; exact absurd e.1.symm hq.2.2
                | any => simp [render, Tok.render] at e; exact absurd e.1.symm hq.1
                | star => exact absurd rfl hnst
                | set n is => simp [render, Tok.render] at e; exact absurd e.1.symm hq.2.1
              subst this
              exact (suffix_dropWhile _ _ _).2 hu
            · exact hu
      · rw [cons_iff _ _ _ hst]
        cases t with
        | star => exact absurd rfl hst
        | lit c =>
          simp only [Tok.WF] at hwt
          obtain ⟨w0, w1, w2, w3, w4⟩ := hwt
          simp only [Tok.render, List.cons_append, List.nil_append]
          simp only [Tok.render, List.length_cons, List.length_nil] at hn
          unfold glob
          simp only [w1, w2, w3, w4, if_false]
          cases s with
          | nil => exact ⟨false, rfl, by simp⟩
          | cons ch s =>
            simp only
            by_cases hc : c = ch
            · subst hc
              obtain ⟨b, hb, hiff⟩ := ih ts s (by omega) hwts hets
              refine ⟨b, by simpa using hb, ?_⟩
              rw [hiff]
              exact ⟨fun h => ⟨_, _, rfl, rfl, h⟩, by
                rintro ⟨_, _, h1, _, h⟩; injection h1 with h1 h2; subst h2; exact h⟩
            · refine ⟨false, by simp [hc], ?_⟩
              simp [Tok.Accepts, eq_comm, hc]
        | esc c =>
          have hel : escLit = true := hesc.resolve_right (fun h => h (.esc c) (by simp) c rfl)
          simp only [Tok.render, List.cons_append, List.nil_append]
          simp only [Tok.render, List.length_cons, List.length_nil] at hn
          unfold glob
          cases s with
          | nil => exact ⟨false, rfl, by simp⟩
          | cons ch s =>
            by_cases hc : c = ch
            · subst hc
              obtain ⟨b, hb, hiff⟩ := ih ts s (by omega) hwts hets
              refine ⟨b, by simpa using hb, ?_⟩
              rw [hiff]
              exact ⟨fun h => ⟨_, _, rfl, rfl, h⟩, by
                rintro ⟨_, _, h1, _, h⟩; injection h1 with h1 h2; subst h2; exact h⟩
            · refine ⟨false, by simp [hc, hel], ?_⟩
              simp [Tok.Accepts, eq_comm, hc]
        | any =>
          simp only [Tok.render, List.cons_append, List.nil_append]
          simp only [Tok.render, List.length_cons, List.length_nil] at hn
          unfold glob
          cases s with
          | nil => exact ⟨false, rfl, by simp⟩
          | cons ch s =>
            obtain ⟨b, hb, hiff⟩ := ih ts s (by omega) hwts hets
            refine ⟨b, by simpa using hb, ?_⟩
            rw [hiff]
            exact ⟨fun h => ⟨_, _, rfl, trivial, h⟩, by
              rintro ⟨_, _, h1, _, h⟩; injection h1 with h1 h2; subst h2; exact h⟩
        | set neg items =>
          cases items with
          | nil => exact absurd hwt (by simp [Tok.WF])
          | cons i is =>
            simp only [Tok.WF] at hwt
            obtain ⟨hi, his⟩ := hwt
            simp only [Tok.render, List.cons_append, List.append_assoc]
            simp only [Tok.render, List.length_cons, List.length_append] at hn
            cases s with
            | nil => exact ⟨false, rfl, by simp⟩
            | cons ch s =>
              obtain ⟨m, p2, e, hd, hm⟩ := setLoop_spec signed ch (render ts) neg i is hi his
              obtain ⟨b, hb, hiff⟩ := ih ts s (by omega) hwts hets
              simp only [List.nil_append]
              have hneg : (((if neg = true then [94] else []) ++ ((i :: is).flatMap SetItem.render
                  ++ 93 :: render ts)).head? == some 94) = neg := by
                cases neg with
                | true => simp
                | false =>
                  cases i with
                  | one c =>
                    simp [SetItem.WFFirst] at hi
                    simp [SetItem.render, hi.2]
                  | range lo hi' =>
                    simp [SetItem.WFFirst] at hi
                    simp [SetItem.render, hi.2]
              have htl : (if neg = true then ((if neg = true then [94] else []) ++
                  ((i :: is).flatMap SetItem.render ++ 93 :: render ts)).tail
                  else ((if neg = true then [94] else []) ++ ((i :: is).flatMap SetItem.render ++
                    93 :: render ts))) = (i :: is).flatMap SetItem.render ++ 93 :: render ts := by
                cases neg <;> simp
              rw [glob_set escLit signed n ch s _ neg _ hneg htl, e]
              simp only [hd]
              by_cases hnm : neg = m
              · refine ⟨false, by simp [hnm], ?_⟩
                simp only [Bool.false_eq_true, false_iff]
                rintro ⟨ch', s', he, ha, _⟩
                injection he with h1 h2
                subst h1
                simp only [Tok.Accepts] at ha
                subst hnm
                rcases ha with ⟨hn', hx⟩ | ⟨hn', hx⟩
                · have := hm.2 hx; rw [this] at hn'; cases hn'
                · obtain ⟨j, hj, hjm⟩ := hm.1 hn'
                  exact hx j hj hjm
              · refine ⟨b, by simp [hnm, hb], ?_⟩
                rw [hiff]
                constructor
                · intro h
                  refine ⟨ch, s, rfl, ?_, h⟩
                  simp only [Tok.Accepts]
                  cases neg with
                  | false =>
                    left
                    exact ⟨rfl, hm.1 (by cases m <;> simp_all)⟩
                  | true =>
                    right
                    refine ⟨rfl, fun j hj hjm => ?_⟩
                    have := hm.2 ⟨j, hj, hjm⟩
                    rw [this] at hnm; exact hnm rfl
                · rintro ⟨ch', s', he, ha, h⟩
                  injection he with h1 h2
                  subst h2
                  exact h

theorem setBody_exit (signed : Bool) (ch : UInt8) : ∀ (n : Nat) (l : List UInt8), l.length ≤ n →
    ∀ (c : UInt8) (m : Bool) (q : Option (List UInt8)), setBody signed ch c l = .exit m q →
    ∃ p2, q = some p2 ∧ p2 <:+ l := by
  intro n
  induction n with
  | zero =>
    intro l hl c m q h
    have : l = [] := List.eq_nil_of_length_eq_zero (by omega)
    subst this
    simp [setBody] at h
  | succ n ih =>
    intro l hl c m q h
    cases l with
    | nil => simp [setBody] at h
    | cons d r =>
      simp only [List.length_cons] at hl
      rw [setBody_cons] at h
      split at h
      · cases r with
        | nil => simp at h
        | cons e r' =>
          simp only [List.length_cons] at hl
          simp only at h
          split at h
          · split at h
            · injection h with h1 h2
              exact ⟨_, h2.symm, List.suffix_cons _ _⟩
            · obtain ⟨p2, h1, h2⟩ := ih r' (by omega) _ _ _ h
              exact ⟨p2, h1, (h2.trans (List.suffix_cons _ _)).trans (List.suffix_cons _ _)⟩
          · injection h with h1 h2
            exact ⟨_, h2.symm, List.suffix_cons _ _⟩
      · split at h
        · split at h
          · injection h with h1 h2
            exact ⟨_, h2.symm, List.suffix_refl _⟩
          · obtain ⟨p2, h1, h2⟩ := ih r (by omega) _ _ _ h
            exact ⟨p2, h1, h2.trans (List.suffix_cons _ _)⟩
        · injection h with h1 h2
          exact ⟨_, h2.symm, List.suffix_refl _⟩

theorem starLoop_outcome (f : List UInt8 → Res) (bad : Res) (hb : ∀ b, bad ≠ .ret b)
    : ∀ s, starLoop f s = bad → ∃ t, f t = bad
  | [], h => absurd h.symm (hb false)
  | ch :: t, h => by
    unfold starLoop at h
    split at h
    · exact absurd h.symm (hb true)
    · exact starLoop_outcome f bad hb t h
    · exact ⟨_, h⟩

/-- From any position: fuel suffices, and reading past the pattern's terminator needs a pattern
that ends in `[^`. -/
theorem glob_safe (escLit signed : Bool) : ∀ (n : Nat) (s p : List UInt8), p.length ≤ n →
    glob escLit signed n s p ≠ .fuel ∧
    (glob escLit signed n s p = .oob → [91, 94] <:+ p) := by
  intro n
  induction n with
  | zero =>
    intro s p hp
    have : p = [] := List.eq_nil_of_length_eq_zero (by omega)
    subst this
    simp [glob]
  | succ n ih =>
    intro s p hp
    cases p with
    | nil => simp [glob]
    | cons c p =>
      simp only [List.length_cons] at hp
      have step : ∀ (t p' : List UInt8), p' <:+ p →
          glob escLit signed n t p' ≠ .fuel ∧
          (glob escLit signed n t p' = .oob → [91, 94] <:+ c :: p) := by
        intro t p' hs
        obtain ⟨h1, h2⟩ := ih t p' (by have := hs.length_le; omega)
        exact ⟨h1, fun h => (h2 h).trans (hs.trans (List.suffix_cons _ _))⟩
      by_cases hc : c = 42
      · subst hc
        unfold glob
        simp only [if_true]
        have hsuf : p.dropWhile (· == 42) <:+ p := List.dropWhile_suffix _
        cases hd : p.dropWhile (· == 42) with
        | nil => simp
        | cons q p' =>
          rw [hd] at hsuf
          simp only
          constructor
          · intro h
            obtain ⟨t, ht⟩ := starLoop_outcome _ .fuel (by simp) _ h
            exact (step t _ hsuf).1 ht
          · intro h
            obtain ⟨t, ht⟩ := starLoop_outcome _ .oob (by simp) _ h
            exact (step t _ hsuf).2 ht
      · cases s with
        | nil => unfold glob; simp [hc]
        | cons ch t =>
          by_cases h63 : c = 63
          · subst h63
            unfold glob
            simpa using step t p (List.suffix_refl _)
          · by_cases h91 : c = 91
            · subst h91
              obtain ⟨neg, hneg⟩ : ∃ neg, (p.head? == some 94) = neg := ⟨_, rfl⟩
              rw [glob_set escLit signed n ch t p neg _ hneg rfl]
              have hp1 : (if neg then p.tail else p) <:+ p := by
                split
                · exact List.tail_suffix _
                · exact List.suffix_refl _
              cases hsl : setLoop signed ch (if neg then p.tail else p) with
              | retFalse => simp
              | exit m p2 =>
                simp only
                by_cases hnm : neg = m
                · simp [hnm]
                · simp only [hnm, if_false]
                  cases hl : (if neg then p.tail else p) with
                  | nil =>
                    rw [hl] at hsl
                    simp only [setLoop] at hsl
                    injection hsl with e1 e2
                    subst e2
                    subst e1
                    have hn : neg = true := by cases neg <;> simp_all
                    subst hn
                    simp only [ne_eq, reduceCtorEq, not_false_eq_true, true_and, if_true] at hl ⊢
                    intro _
                    cases p with
                    | nil => simp at hneg
                    | cons x p =>
                      simp at hneg hl
                      subst hneg; subst hl
                      exact List.suffix_refl _
                  | cons c1 l =>
                    rw [hl] at hsl hp1
                    simp only [setLoop] at hsl
                    obtain ⟨p2', h1, h2⟩ := setBody_exit signed ch _ l (Nat.le_refl _) _ _ _ hsl
                    subst h1
                    simp only
                    cases hd : p2'.dropWhile (· != 93) with
                    | nil => simp
                    | cons x p3 =>
                      simp only
                      apply step
                      have h3 : x :: p3 <:+ p2' := hd ▸ List.dropWhile_suffix _
                      exact (((List.suffix_cons _ _).trans h3).trans h2).trans
                        ((List.suffix_cons _ _).trans hp1)
            · by_cases h92 : c = 92
              · subst h92
                unfold glob
                simp only [hc, h63, h91, if_false, if_true]
                cases p with
                | nil =>
                  simp only
                  split
                  · simp
                  · exact step t [] (List.suffix_refl _)
                | cons c' p' =>
                  simp only
                  split
                  · simp
                  · exact step t p' (List.suffix_cons _ _)
              · unfold glob
                simp only [hc, h63, h91, h92, if_false]
                split
                · simp
                · exact step t p (List.suffix_refl _)

end Verif.Proof.Glob

namespace Verif.Proof.Glob
open Verif.Spec.Glob Verif.Model.Glob

theorem append_star_iff (code : UInt8 → Int) : ∀ (ts : List Tok) (s : List UInt8),
    Matches code (ts ++ [.star]) s ↔ ∃ a b, s = a ++ b ∧ Matches code ts a := by
  intro ts
  induction ts with
  | nil =>
    intro s
    rw [List.nil_append, star_iff]
    constructor
    · intro _; exact ⟨[], s, rfl, .nil⟩
    · intro _; exact ⟨[], List.nil_suffix, .nil⟩
  | cons t ts ih =>
    intro s
    rw [List.cons_append]
    by_cases ht : t = .star
    · subst ht
      rw [star_iff]
      constructor
      · rintro ⟨u, ⟨pre, rfl⟩, hm⟩
        obtain ⟨a, b, rfl, h⟩ := (ih _).1 hm
        exact ⟨pre ++ a, b, by simp, (star_iff ..).2 ⟨a, List.suffix_append _ _, h⟩⟩
      · rintro ⟨a, b, rfl, h⟩
        obtain ⟨u, ⟨pre, rfl⟩, h'⟩ := (star_iff ..).1 h
        exact ⟨u ++ b, ⟨pre, by simp⟩, (ih _).2 ⟨u, b, rfl, h'⟩⟩
    · rw [cons_iff _ _ _ ht]
      constructor
      · rintro ⟨ch, s', rfl, ha, hm⟩
        obtain ⟨a, b, rfl, h⟩ := (ih _).1 hm
        exact ⟨ch :: a, b, rfl, .char ha h⟩
      · rintro ⟨a, b, rfl, h⟩
        obtain ⟨ch, s', rfl, ha, h⟩ := (cons_iff _ _ _ ht _).1 h
        exact ⟨ch, s' ++ b, rfl, ha, (ih _).2 ⟨s', b, rfl, h⟩⟩

end Verif.Proof.Glob
