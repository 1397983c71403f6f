import Verif.Proof.Select
import Verif.Props.Str
/-!
# Data selections (C44, C70)
-/
namespace Verif.Props.Select
open Verif.Model.Glob hiding Res
open Verif.Model.Select Verif.Spec.Glob Verif.Spec.Select Verif.Proof.Select

/-- A request of the form the interface takes: a pattern of less than 100 bytes without escapes
(C15), given times that are not the two reserved values and not the wrong way round. -/
structure Valid (q : Request) : Prop where
  wf : ∀ t ∈ q.pattern, t.WF
  plain : ∀ t ∈ q.pattern, ∀ c, t ≠ .esc c
  short : (render q.pattern).length < 100
  first : ∀ f ∈ q.first, f ≠ nstError ∧ f ≠ nstUnset
  last : ∀ f ∈ q.last, f ≠ nstError ∧ f ≠ nstUnset
  order : ∀ f ∈ q.first, ∀ l ∈ q.last, f ≤ l

/-- A record with times that are not reserved values and in order. -/
structure Proper (r : Record) : Prop where
  start : r.start ≠ nstError ∧ r.start ≠ nstUnset
  stop : r.stop ≠ nstError ∧ r.stop ≠ nstUnset
  order : r.start ≤ r.stop

/-- Add a request to a list of selections. -/
def add (sels : List Entry) (q : Request) : List Entry :=
  addSelect sels (render q.pattern) (q.first.getD nstUnset) (q.last.getD nstUnset) q.version

/-- The list of selections after adding some requests, the last one first. -/
def build : List Request → List Entry
  | [] => []
  | q :: qs => add (build qs) q

theorem build_windows : ∀ qs e, e ∈ build qs → e.timewindows ≠ [] := by
  intro qs
  induction qs with
  | nil => intro e he; cases he
  | cons q t ih => exact windows_add _ _ _ _ _ ih

theorem build_offers : ∀ qs : List Request, (∀ q ∈ qs, Valid q) → ∀ p v w,
    Offers (build qs) p v w ↔ ∃ q ∈ qs, p = render q.pattern ∧ v = q.version ∧
      w = ⟨q.first.getD nstUnset, q.last.getD nstUnset⟩ := by
  intro qs
  induction qs with
  | nil =>
    intro _ p v w
    constructor
    · rintro ⟨e, he, _⟩; cases he
    · rintro ⟨e, he, _⟩; cases he
  | cons q t ih =>
    intro h p v w
    have hq := h q (by simp)
    rw [build, add, offers_add _ _ _ _ _ _ _ _ hq.short,
      ih (fun x hx => h x (List.mem_cons_of_mem _ hx))]
    simp only [List.mem_cons]
    constructor
    · rintro (⟨x, hx, e⟩ | e)
      · exact ⟨x, Or.inr hx, e⟩
      · exact ⟨q, Or.inl rfl, e⟩
    · rintro ⟨x, rfl | hx, e⟩
      · exact Or.inr e
      · exact Or.inl ⟨x, hx, e⟩

theorem build_globs {signed : Bool} {qs : List Request} (h : ∀ q ∈ qs, Valid q) (sid : List UInt8) :
    ∀ e ∈ build qs, ∃ b, msGlobmatch signed sid e.sidpattern = .ret b := by
  intro e he
  have hne := build_windows qs e he
  obtain ⟨w, l, hw⟩ := List.exists_cons_of_ne_nil hne
  have : Offers (build qs) e.sidpattern e.pubversion w := ⟨e, he, rfl, rfl, by rw [hw]; simp⟩
  obtain ⟨q, hq, hp, _⟩ := (build_offers qs h _ _ _).1 this
  have hv := h q hq
  obtain ⟨b, hb, _⟩ :=
    Verif.Props.Glob.C15_ms_globmatch_is_glob_partial signed q.pattern hv.wf hv.plain sid
  exact ⟨b, by rw [hp]; exact hb⟩

theorem selects_iff {signed : Bool} {q : Request} (hv : Valid q) {r : Record} (hr : Proper r) :
    Selects (charVal signed) q r ↔
      msGlobmatch signed r.sid (render q.pattern) = .ret true ∧
      (q.version = 0 ∨ q.version = r.version) ∧
      skipped r.start r.stop ⟨q.first.getD nstUnset, q.last.getD nstUnset⟩ = false := by
  obtain ⟨b, hb, hiff⟩ :=
    Verif.Props.Glob.C15_ms_globmatch_is_glob_partial signed q.pattern hv.wf hv.plain r.sid
  unfold Selects
  rw [skipped_iff hr.order hr.start hr.stop hv.first hv.last hv.order r.sid r.version, hb, ← hiff]
  simp

/-- **C44** (selected).  After any sequence of requests, a record is found selected exactly if one of the
requests selects it: its pattern matches the source identifier, its version is 0 or that of the record,
and its time span, open where not given, overlaps that of the record.

Missing: patterns with escapes (C15), of 100 bytes or more (`C44_long_pattern_violated`), and spans the
wrong way round (`C44_reversed_span_violated`). -/
theorem C44_selected_iff_requested_partial (signed : Bool) {qs : List Request} (h : ∀ q ∈ qs, Valid q)
    {r : Record} (hr : Proper r) :
    ∃ x, matchSelect signed (build qs) r.sid r.start r.stop r.version = .ok x ∧
      (x.isSome = true ↔ ∃ q ∈ qs, Selects (charVal signed) q r) := by
  obtain ⟨x, hx, h1, h2⟩ := matchFrom_spec signed r.sid r.start r.stop r.version (build qs) 0
    (build_globs h r.sid)
  refine ⟨x, hx, ?_⟩
  constructor
  · intro hs
    obtain ⟨⟨j, w⟩, rfl⟩ := Option.isSome_iff_exists.1 hs
    obtain ⟨e, _, hl, hp, hw, hw2⟩ := h2 j w rfl
    have he : e ∈ build qs := List.mem_of_getElem? hl
    have hne := build_windows qs e he
    cases w with
    | none => exact absurd (hw.1 rfl) hne
    | some w =>
      obtain ⟨hm, hsk⟩ := hw2 w rfl
      obtain ⟨q, hq, e1, e2, e3⟩ := (build_offers qs h _ _ _).1 ⟨e, he, rfl, rfl, hm⟩
      refine ⟨q, hq, (selects_iff (h q hq) hr).2 ⟨?_, ?_, ?_⟩⟩
      · rw [← e1]; exact hp.1
      · rw [← e2]; exact hp.2.1
      · rw [← e3]; exact hsk
  · rintro ⟨q, hq, hsel⟩
    obtain ⟨a1, a2, a3⟩ := (selects_iff (h q hq) hr).1 hsel
    obtain ⟨e, he, e1, e2, e3⟩ := (build_offers qs h _ _ _).2 ⟨q, hq, rfl, rfl, rfl⟩
    cases x with
    | some x => rfl
    | none =>
      refine absurd ?_ (h1 rfl e he)
      exact ⟨by rw [e1]; exact a1, by rw [e2]; exact a2, Or.inr ⟨_, e3, a3⟩⟩

/-- Requests for `FDSN:IU_*` from time 100 and for `FDSN:[A-C]?_X*` from 10 to 50, version 2. -/
def requests : List Request :=
  [⟨[.lit 70, .lit 68, .lit 83, .lit 78, .lit 58, .lit 73, .lit 85, .lit 95, .star], some 100, none, 0⟩,
   ⟨[.lit 70, .lit 68, .lit 83, .lit 78, .lit 58, .set false [.range 65 67], .any, .lit 95, .lit 88,
     .star], some 10, some 50, 2⟩]

example : (∀ q ∈ requests, Valid q) ∧ Proper ⟨[70], 20, 30, 2⟩ := by
  constructor
  · intro q hq
    simp only [requests, List.mem_cons, List.not_mem_nil, or_false] at hq
    rcases hq with rfl | rfl <;>
      refine ⟨?_, ?_, by decide, ?_, ?_, ?_⟩ <;>
      simp [Tok.WF, SetItem.WFFirst, nstError, nstUnset]
  · exact ⟨by decide, by decide, by decide⟩

/-- **C44** (which).  The entry and window returned for a record are those of a request that selects
it. -/
theorem C44_returned_entry (signed : Bool) {qs : List Request} (h : ∀ q ∈ qs, Valid q)
    {r : Record} (hr : Proper r) {j : Nat} {w : Option Window}
    (hm : matchSelect signed (build qs) r.sid r.start r.stop r.version = .ok (some (j, w))) :
    ∃ e q, (build qs)[j]? = some e ∧ q ∈ qs ∧ Selects (charVal signed) q r ∧
      e.sidpattern = render q.pattern ∧ e.pubversion = q.version ∧
      w = some ⟨q.first.getD nstUnset, q.last.getD nstUnset⟩ := by
  obtain ⟨x, hx, _, h2⟩ := matchFrom_spec signed r.sid r.start r.stop r.version (build qs) 0
    (build_globs h r.sid)
  have hx' : matchSelect signed (build qs) r.sid r.start r.stop r.version = .ok x := hx
  rw [hm] at hx'
  cases hx'
  obtain ⟨e, _, hl, hp, hw, hw2⟩ := h2 j w rfl
  have he : e ∈ build qs := List.mem_of_getElem? hl
  have hne := build_windows qs e he
  cases w with
  | none => exact absurd (hw.1 rfl) hne
  | some w =>
    obtain ⟨hm, hsk⟩ := hw2 w rfl
    obtain ⟨q, hq, e1, e2, e3⟩ := (build_offers qs h _ _ _).1 ⟨e, he, rfl, rfl, hm⟩
    refine ⟨e, q, hl, hq, (selects_iff (h q hq) hr).2 ⟨?_, ?_, ?_⟩, e1, e2, by rw [e3]⟩
    · rw [← e1]; exact hp.1
    · rw [← e2]; exact hp.2.1
    · rw [← e3]; exact hsk

example : matchSelect true (build requests) "FDSN:BB_X".toUTF8.toList 20 30 2
    = .ok (some (1, some ⟨10, 50⟩)) := by decide +kernel

/-- **C44** (monotone).  Adding a request never deselects a record: every record (whatever its times)
selected before adding is selected afterwards. -/
theorem C44_adding_never_deselects (signed : Bool) {qs : List Request} (h : ∀ q ∈ qs, Valid q)
    {q : Request} (hq : Valid q) (r : Record)
    (hs : ∃ x, matchSelect signed (build qs) r.sid r.start r.stop r.version = .ok (some x)) :
    ∃ x, matchSelect signed (add (build qs) q) r.sid r.start r.stop r.version = .ok (some x) := by
  have hall : ∀ x ∈ q :: qs, Valid x := by
    intro x hx
    rcases List.mem_cons.1 hx with rfl | hx
    · exact hq
    · exact h x hx
  obtain ⟨y, hy⟩ := hs
  obtain ⟨x, hx, _, h2⟩ := matchFrom_spec signed r.sid r.start r.stop r.version (build qs) 0
    (build_globs h r.sid)
  have hx' : matchSelect signed (build qs) r.sid r.start r.stop r.version = .ok x := hx
  rw [hy] at hx'
  cases hx'
  obtain ⟨j, w⟩ := y
  obtain ⟨e, _, hl, hp, _⟩ := h2 j w rfl
  have he : e ∈ build qs := List.mem_of_getElem? hl
  have hne := build_windows qs e he
  rcases hp.2.2 with h0 | ⟨w, hw, hsk⟩
  · exact absurd h0 hne
  · have ho : Offers (build (q :: qs)) e.sidpattern e.pubversion w := by
      rw [build, add, offers_add _ _ _ _ _ _ _ _ hq.short]
      exact Or.inl ⟨e, he, rfl, rfl, hw⟩
    obtain ⟨e', he', e1, e2, hw'⟩ := ho
    obtain ⟨x, hx, h1, _⟩ := matchFrom_spec signed r.sid r.start r.stop r.version
      (build (q :: qs)) 0 (build_globs hall r.sid)
    cases x with
    | some x => exact ⟨x, hx⟩
    | none =>
      refine absurd ?_ (h1 rfl e' he')
      exact ⟨by rw [e1]; exact hp.1, by rw [e2]; exact hp.2.1, Or.inr ⟨w, hw', hsk⟩⟩

example : ∃ x, matchSelect true (build requests) "FDSN:IU_A".toUTF8.toList 90 100 2
    = .ok (some x) := ⟨(0, some ⟨100, nstUnset⟩), by decide +kernel⟩

/-- **C44** (violated).  A pattern of 100 bytes is cut to 99: a record is selected whose source
identifier does not match the pattern. -/
theorem C44_long_pattern_violated :
    ∃ (q : Request) (r : Record), (∀ t ∈ q.pattern, t.WF) ∧ (∀ t ∈ q.pattern, ∀ c, t ≠ .esc c) ∧
      Proper r ∧ ¬ Selects (charVal true) q r ∧
      matchSelect true (build [q]) r.sid r.start r.stop r.version
        = .ok (some (0, some ⟨nstUnset, nstUnset⟩)) := by
  refine ⟨⟨List.replicate 99 (.lit 97) ++ [.lit 98], none, none, 0⟩,
    ⟨List.replicate 99 97, 0, 0, 1⟩, ?_, ?_, ⟨by decide, by decide, by decide⟩, ?_, by decide +kernel⟩
  · intro t ht
    rcases List.mem_append.1 ht with ht | ht
    · rw [(List.mem_replicate.1 ht).2]; simp [Tok.WF]
    · rw [List.mem_singleton.1 ht]; simp [Tok.WF]
  · intro t ht c
    rcases List.mem_append.1 ht with ht | ht
    · rw [(List.mem_replicate.1 ht).2]; simp
    · rw [List.mem_singleton.1 ht]; simp
  · rintro ⟨hm, _⟩
    obtain ⟨b, hb, hiff⟩ := Verif.Props.Glob.C15_ms_globmatch_is_glob_partial true
      (List.replicate 99 (.lit 97) ++ [.lit 98]) (by
        intro t ht
        rcases List.mem_append.1 ht with ht | ht
        · rw [(List.mem_replicate.1 ht).2]; simp [Tok.WF]
        · rw [List.mem_singleton.1 ht]; simp [Tok.WF]) (by
        intro t ht c
        rcases List.mem_append.1 ht with ht | ht
        · rw [(List.mem_replicate.1 ht).2]; simp
        · rw [List.mem_singleton.1 ht]; simp) (List.replicate 99 97)
    have : msGlobmatch true (List.replicate 99 97)
        (render (List.replicate 99 (.lit 97) ++ [.lit 98])) = .ret false := by decide +kernel
    rw [this] at hb
    cases hb
    exact absurd (hiff.2 hm) (by simp)

/-- **C44** (violated).  With a span from 10 to 5, which no time is in, a record from 0 to 20 is
selected. -/
theorem C44_reversed_span_violated :
    ∃ (q : Request) (r : Record), q.first = some 10 ∧ q.last = some 5 ∧
      ¬ Selects (charVal true) q r ∧
      matchSelect true (build [q]) r.sid r.start r.stop r.version = .ok (some (0, some ⟨10, 5⟩)) := by
  refine ⟨⟨[.star], some 10, some 5, 0⟩, ⟨[65], 0, 20, 1⟩, rfl, rfl, ?_, by decide +kernel⟩
  rintro ⟨_, _, t, _, _, h1, h2⟩
  have := h1 10 rfl
  have := h2 5 rfl
  omega

/-! ## Selections by component -/

/-- What a component asks for: not given means anything. -/
def Given (arg : Option (List UInt8)) (ts : List Tok) : Prop :=
  (arg = none ∧ ts = [.star]) ∨ (arg = some (render ts) ∧ (render ts).length < 20)

/-- The same for the location, where `--` means an empty one. -/
def GivenLoc (arg : Option (List UInt8)) (ts : List Tok) : Prop :=
  (arg = some [45, 45] ∧ ts = []) ∨ (arg ≠ some [45, 45] ∧ Given arg ts)

/-- A pattern of a component: no escapes, no underscore. -/
def Plain (ts : List Tok) : Prop := ∀ t ∈ ts, t.WF ∧ (∀ c, t ≠ .esc c)

/-- A place of a channel: a wildcard, a digit or a letter. -/
def Place : Tok → Prop
  | .any => True
  | .star => True
  | .lit c => (48 ≤ c ∧ c ≤ 57) ∨ (65 ≤ c ∧ c ≤ 90) ∨ (97 ≤ c ∧ c ≤ 122)
  | _ => False

/-- The codes of a record. -/
structure Codes where
  net : List UInt8
  sta : List UInt8
  loc : List UInt8
  band : List UInt8
  source : List UInt8
  position : List UInt8

/-- The source identifier `FDSN:net_sta_loc_band_source_position`. -/
def Codes.sid (c : Codes) : List UInt8 :=
  [70, 68, 83, 78, 58] ++ (c.net ++ 95 :: (c.sta ++ 95 :: (c.loc ++ 95 ::
    (c.band ++ 95 :: (c.source ++ 95 :: c.position)))))

/-- The codes have no underscores. -/
structure Codes.Simple (c : Codes) : Prop where
  net : 95 ∉ c.net
  sta : 95 ∉ c.sta
  loc : 95 ∉ c.loc
  band : 95 ∉ c.band
  source : 95 ∉ c.source
  position : 95 ∉ c.position

/-- The pattern for three components and three places of the channel. -/
def sidToks (n s l : List Tok) (b c p : Tok) : List Tok :=
  [.lit 70, .lit 68, .lit 83, .lit 78, .lit 58] ++ (n ++ .lit 95 :: (s ++ .lit 95 :: (l ++ .lit 95 ::
    ([b] ++ .lit 95 :: ([c] ++ .lit 95 :: [p])))))

theorem component_eq {arg : Option (List UInt8)} {ts : List Tok} (h : Given arg ts) :
    component arg = render ts ∧ (render ts).length < 20 := by
  rcases h with ⟨rfl, rfl⟩ | ⟨rfl, h⟩
  · exact ⟨rfl, by decide⟩
  · exact ⟨List.take_of_length_le (by omega), h⟩

theorem locComponent_eq {arg : Option (List UInt8)} {ts : List Tok} (h : GivenLoc arg ts) :
    locComponent arg = render ts ∧ (render ts).length < 20 := by
  rcases h with ⟨rfl, rfl⟩ | ⟨hne, ⟨rfl, rfl⟩ | ⟨rfl, h⟩⟩
  · exact ⟨rfl, by decide⟩
  · exact ⟨rfl, by decide⟩
  · refine ⟨?_, h⟩
    unfold locComponent
    have hn : ¬ Verif.Model.TraceList.strcmp (render ts) [45, 45] = 0 :=
      fun he => hne (congrArg some ((Verif.Proof.TraceList.strcmp_eq _ _).1 he))
    simp only [hn, if_false]
    exact List.take_of_length_le (by omega)

theorem place_byte {t : Tok} (h : Place t) : ∃ x, render [t] = [x] ∧ x ≠ 0 ∧
    (x = 63 ∨ x = 42 ∨ (48 ≤ x ∧ x ≤ 57) ∨ (65 ≤ x ∧ x ≤ 90) ∨ (97 ≤ x ∧ x ≤ 122)) := by
  cases t with
  | any => exact ⟨63, rfl, by decide, by simp⟩
  | star => exact ⟨42, rfl, by decide, by simp⟩
  | lit c =>
    refine ⟨c, rfl, ?_, Or.inr (Or.inr h)⟩
    rintro rfl
    simp [Place] at h
  | esc c => exact absurd h (by simp [Place])
  | set n i => exact absurd h (by simp [Place])

def seedSet : Tok :=
  .set false [.one 63, .one 42, .range 97 122, .range 65 90, .range 48 57]

theorem seedSet_accepts (signed : Bool) {x : UInt8}
    (h : x = 63 ∨ x = 42 ∨ (48 ≤ x ∧ x ≤ 57) ∨ (65 ≤ x ∧ x ≤ 90) ∨ (97 ≤ x ∧ x ≤ 122)) :
    seedSet.Accepts (charVal signed) x := by
  have hc : ∀ y : UInt8, y.toNat < 128 → charVal signed y = y.toNat := by
    intro y hy
    unfold charVal
    rw [if_neg]
    simp
    omega
  refine Or.inl ⟨rfl, ?_⟩
  have mem : ∀ lo hi : UInt8, hi.toNat < 128 → lo ≤ x → x ≤ hi →
      (SetItem.range lo hi).Mem (charVal signed) x := by
    intro lo hi hh h1 h2
    rw [UInt8.le_iff_toNat_le] at h1 h2
    by_cases e1 : x = lo
    · exact Or.inl e1
    · by_cases e2 : x = hi
      · exact Or.inr (Or.inl e2)
      · refine Or.inr (Or.inr ?_)
        have n1 : x.toNat ≠ lo.toNat := fun e => e1 (UInt8.toNat_inj.1 e)
        have n2 : x.toNat ≠ hi.toNat := fun e => e2 (UInt8.toNat_inj.1 e)
        rw [hc lo (by omega), hc x (by omega), hc hi hh]
        omega
  rcases h with rfl | rfl | ⟨h1, h2⟩ | ⟨h1, h2⟩ | ⟨h1, h2⟩
  · exact ⟨.one 63, by simp, rfl⟩
  · exact ⟨.one 42, by simp, rfl⟩
  · exact ⟨.range 48 57, by simp, mem _ _ (by decide) h1 h2⟩
  · exact ⟨.range 65 90, by simp, mem _ _ (by decide) h1 h2⟩
  · exact ⟨.range 97 122, by simp, mem _ _ (by decide) h1 h2⟩

theorem chanComponent_eq (signed : Bool) {b c p : Tok} (hb : Place b) (hc : Place c) (hp : Place p) :
    chanComponent signed (some (render [b, c, p]))
      = .ok (render ([b] ++ .lit 95 :: ([c] ++ .lit 95 :: [p]))) ∧
    (render ([b] ++ .lit 95 :: ([c] ++ .lit 95 :: [p]))).length = 5 := by
  obtain ⟨x, hx, hx0, hx1⟩ := place_byte hb
  obtain ⟨y, hy, hy0, hy1⟩ := place_byte hc
  obtain ⟨z, hz, hz0, hz1⟩ := place_byte hp
  have e : render [b, c, p] = [x, y, z] := by
    have : render [b, c, p] = render [b] ++ render [c] ++ render [p] := by simp [render]
    rw [this, hx, hy, hz]
    rfl
  have e2 : render ([b] ++ .lit 95 :: ([c] ++ .lit 95 :: [p])) = [x, 95, y, 95, z] := by
    have : render ([b] ++ .lit 95 :: ([c] ++ .lit 95 :: [p]))
        = render [b] ++ 95 :: (render [c] ++ 95 :: render [p]) := by simp [render, Tok.render]
    rw [this, hx, hy, hz]
    rfl
  rw [e, e2]
  refine ⟨?_, rfl⟩
  have hg : seedGlob = render [seedSet, seedSet, seedSet] := by decide +kernel
  obtain ⟨r, hr, hiff⟩ := Verif.Props.Glob.C15_ms_globmatch_is_glob_partial signed
    [seedSet, seedSet, seedSet]
    (by simp [seedSet, Tok.WF, SetItem.WFFirst, SetItem.WF]) (by simp [seedSet]) [x, y, z]
  have : r = true := hiff.2 (.char (seedSet_accepts signed hx1) (.char (seedSet_accepts signed hy1)
    (.char (seedSet_accepts signed hz1) .nil)))
  subst this
  have hs := (Verif.Proof.Str.seedchan_spec [x, y, z] (by simp [hx0, hy0, hz0]) []).1 x y z rfl
  unfold chanComponent
  simp only [hg, hr, hs]
  simp [Verif.Model.Str.cstr, hx0, hy0, hz0]

theorem toXchan_long {s : List UInt8} (h : s.length = 5) (h0 : ∀ x ∈ s, x ≠ 0) :
    Verif.Model.Str.toXchan s = s := by
  unfold Verif.Model.Str.toXchan
  rw [(Verif.Proof.Str.seedchan_spec s h0 []).2 (by omega)]

theorem addSelectComp_eq (signed : Bool) (sels : List Entry) {net sta loc : Option (List UInt8)}
    {n s l : List Tok} {b c p : Tok} (hn : Given net n) (hs : Given sta s) (hl : GivenLoc loc l)
    (hb : Place b) (hc : Place c) (hp : Place p) (start stop : Int) (v : Nat) :
    addSelectComp signed sels net sta loc (some (render [b, c, p])) start stop v
      = .ok (some (addSelect sels (render (sidToks n s l b c p)) start stop v)) ∧
    (render (sidToks n s l b c p)).length < 100 := by
  obtain ⟨en, ln⟩ := component_eq hn
  obtain ⟨es, ls⟩ := component_eq hs
  obtain ⟨el, ll⟩ := locComponent_eq hl
  obtain ⟨ec, lc⟩ := chanComponent_eq signed hb hc hp
  have h0 : ∀ x ∈ render ([b] ++ .lit 95 :: ([c] ++ .lit 95 :: [p])), x ≠ 0 := by
    obtain ⟨x, hx, hx0, _⟩ := place_byte hb
    obtain ⟨y, hy, hy0, _⟩ := place_byte hc
    obtain ⟨z, hz, hz0, _⟩ := place_byte hp
    have : render ([b] ++ .lit 95 :: ([c] ++ .lit 95 :: [p]))
        = render [b] ++ 95 :: (render [c] ++ 95 :: render [p]) := by simp [render, Tok.render]
    rw [this, hx, hy, hz]
    simp [hx0, hy0, hz0]
  have er : render (sidToks n s l b c p) = [70, 68, 83, 78, 58] ++ (render n ++ 95 :: (render s ++
      95 :: (render l ++ 95 :: render ([b] ++ .lit 95 :: ([c] ++ .lit 95 :: [p]))))) := by
    simp [sidToks, render, Tok.render]
  have hlen : (render (sidToks n s l b c p)).length < 100 := by
    rw [er]
    simp only [List.length_append, List.length_cons, List.length_nil, lc]
    omega
  refine ⟨?_, hlen⟩
  have hx := toXchan_long lc h0
  have hsid := (Verif.Props.Str.C10_too_small_refused 100 (render n) (render s) (some (render l))
    (render ([b] ++ .lit 95 :: ([c] ++ .lit 95 :: [p]))) (by omega)).2.1
  rw [hx] at hsid
  have et : Verif.Props.Str.sidText (render n) (render s) ((some (render l)).getD [])
      (render ([b] ++ .lit 95 :: ([c] ++ .lit 95 :: [p]))) = render (sidToks n s l b c p) := by
    rw [er]
    simp [Verif.Props.Str.sidText]
  rw [et] at hsid
  unfold addSelectComp
  simp only [en, es, el, ec, hsid (by omega), Verif.Proof.Mem.bind_ok]

theorem sidToks_iff {code : UInt8 → Int} {n s l : List Tok} {b c p : Tok} {r : Codes}
    (h : r.Simple) : Matches code (sidToks n s l b c p) r.sid ↔
      Matches code n r.net ∧ Matches code s r.sta ∧ Matches code l r.loc ∧
      Matches code [b] r.band ∧ Matches code [c] r.source ∧ Matches code [p] r.position := by
  have e0 : r.position.count 95 = 0 := List.count_eq_zero.2 h.position
  have e1 : r.source.count 95 = 0 := List.count_eq_zero.2 h.source
  have e2 : r.band.count 95 = 0 := List.count_eq_zero.2 h.band
  have e3 : r.loc.count 95 = 0 := List.count_eq_zero.2 h.loc
  have e4 : r.sta.count 95 = 0 := List.count_eq_zero.2 h.sta
  unfold sidToks Codes.sid
  simp only [List.cons_append, List.nil_append, lit_cons, true_and]
  rw [split_bar h.net, split_bar h.sta, split_bar h.loc]
  · have a1 := split_bar (code := code) (t1 := [b]) (t2 := c :: .lit 95 :: [p])
      (c := r.band) (d := r.source ++ 95 :: r.position) h.band (by
        simp [bars, List.countP_cons, e0, e1]
        omega)
    have a2 := split_bar (code := code) (t1 := [c]) (t2 := [p])
      (c := r.source) (d := r.position) h.source (by omega)
    simp only [List.cons_append, List.nil_append] at a1 a2
    rw [a1, a2]
  all_goals
    simp [bars, List.countP_append, List.countP_cons, e0, e1, e2, e3, e4]
    omega

theorem sidToks_mem {n s l : List Tok} {b c p t : Tok} (h : t ∈ sidToks n s l b c p) :
    t ∈ [.lit 70, .lit 68, .lit 83, .lit 78, .lit 58, .lit 95] ∨ t ∈ n ∨ t ∈ s ∨ t ∈ l ∨
      t = b ∨ t = c ∨ t = p := by
  simp only [sidToks, List.mem_append, List.mem_cons, List.not_mem_nil, or_false] at h ⊢
  grind

theorem place_wf {t : Tok} (h : Place t) : t.WF ∧ ∀ c, t ≠ .esc c := by
  cases t with
  | any => exact ⟨trivial, by simp⟩
  | star => exact ⟨trivial, by simp⟩
  | lit c =>
    refine ⟨?_, by simp⟩
    have : Place (.lit c) := h
    unfold Place at this
    unfold Tok.WF
    refine ⟨?_, ?_, ?_, ?_, ?_⟩ <;> (rintro rfl; simp at this)
  | esc c => exact absurd h (by simp [Place])
  | set n i => exact absurd h (by simp [Place])

/-- **C70** (three places).  Adding a selection by network, station and location with a channel of three
places selects, beside the records selected before, exactly those whose codes match the components one
by one.

Missing: other channel patterns, in particular none at all (`C70_wildcard_crosses_codes_violated`). -/
theorem C70_codes_matched_one_by_one_partial (signed : Bool) {qs : List Request}
    (hqs : ∀ q ∈ qs, Valid q) {net sta loc : Option (List UInt8)} {n s l : List Tok} {b c p : Tok}
    (hn : Given net n) (hs : Given sta s) (hl : GivenLoc loc l)
    (pn : Plain n) (ps : Plain s) (pl : Plain l) (hb : Place b) (hc : Place c) (hp : Place p)
    {first last : Option Int} (h1 : ∀ f ∈ first, f ≠ nstError ∧ f ≠ nstUnset)
    (h2 : ∀ f ∈ last, f ≠ nstError ∧ f ≠ nstUnset) (h3 : ∀ f ∈ first, ∀ l ∈ last, f ≤ l) (v : Nat) :
    ∃ sels, addSelectComp signed (build qs) net sta loc (some (render [b, c, p]))
        (first.getD nstUnset) (last.getD nstUnset) v = .ok (some sels) ∧
      ∀ (k : Codes) (start stop : Int) (version : Nat), k.Simple →
        Proper ⟨k.sid, start, stop, version⟩ →
        ∃ x, matchSelect signed sels k.sid start stop version = .ok x ∧
          (x.isSome = true ↔
            (∃ q ∈ qs, Selects (charVal signed) q ⟨k.sid, start, stop, version⟩) ∨
            (Matches (charVal signed) n k.net ∧ Matches (charVal signed) s k.sta ∧
              Matches (charVal signed) l k.loc ∧ Matches (charVal signed) [b] k.band ∧
              Matches (charVal signed) [c] k.source ∧ Matches (charVal signed) [p] k.position ∧
              (v = 0 ∨ v = version) ∧ Overlaps first last ⟨k.sid, start, stop, version⟩)) := by
  obtain ⟨e, hlen⟩ := addSelectComp_eq signed (build qs) hn hs hl hb hc hp
    (first.getD nstUnset) (last.getD nstUnset) v
  refine ⟨_, e, ?_⟩
  intro k start stop version hk hr
  have hq : Valid ⟨sidToks n s l b c p, first, last, v⟩ := by
    have key : ∀ t ∈ sidToks n s l b c p, t.WF ∧ ∀ c, t ≠ .esc c := by
      intro t ht
      rcases sidToks_mem ht with h | h | h | h | h | h | h
      · simp only [List.mem_cons, List.not_mem_nil, or_false] at h
        rcases h with rfl | rfl | rfl | rfl | rfl | rfl <;> simp [Tok.WF]
      · exact pn t h
      · exact ps t h
      · exact pl t h
      · rw [h]; exact place_wf hb
      · rw [h]; exact place_wf hc
      · rw [h]; exact place_wf hp
    exact ⟨fun t ht => (key t ht).1, fun t ht => (key t ht).2, hlen, h1, h2, h3⟩
  have hall : ∀ x ∈ (⟨sidToks n s l b c p, first, last, v⟩ : Request) :: qs, Valid x := by
    intro x hx
    rcases List.mem_cons.1 hx with rfl | hx
    · exact hq
    · exact hqs x hx
  obtain ⟨x, hx, hiff⟩ := C44_selected_iff_requested_partial signed hall hr
  refine ⟨x, hx, ?_⟩
  rw [hiff]
  simp only [List.mem_cons]
  constructor
  · rintro ⟨q, rfl | hq, hsel⟩
    · obtain ⟨hm, hv, ho⟩ := hsel
      obtain ⟨a1, a2, a3, a4, a5, a6⟩ := (sidToks_iff hk).1 hm
      exact Or.inr ⟨a1, a2, a3, a4, a5, a6, hv, ho⟩
    · exact Or.inl ⟨q, hq, hsel⟩
  · rintro (⟨q, hq, hsel⟩ | ⟨a1, a2, a3, a4, a5, a6, hv, ho⟩)
    · exact ⟨q, Or.inr hq, hsel⟩
    · exact ⟨_, Or.inl rfl, (sidToks_iff hk).2 ⟨a1, a2, a3, a4, a5, a6⟩, hv, ho⟩

/-- Any network, station `A*`, location `--` and channel `BH?`. -/
example : Given none [.star] ∧ Given (some [65, 42]) [.lit 65, .star] ∧
    GivenLoc (some [45, 45]) [] ∧ Plain [.lit 65, .star] ∧
    Place (.lit 66) ∧ Place (.lit 72) ∧ Place .any ∧
    (Codes.mk [73, 85] [65, 78] [] [66] [72] [90]).Simple ∧
    (addSelectComp true [] none (some [65, 42]) (some [45, 45]) (some [66, 72, 63]) 0 9 0).bind
      (fun s => matchSelect true (s.getD []) (Codes.mk [73, 85] [65, 78] [] [66] [72] [90]).sid 5 6 1)
      = .ok (some (0, some ⟨0, 9⟩)) := by
  refine ⟨Or.inl ⟨rfl, rfl⟩, Or.inr ⟨rfl, by decide⟩, Or.inl ⟨rfl, rfl⟩, by simp [Plain, Tok.WF],
    by simp [Place], by simp [Place], trivial,
    ⟨by decide, by decide, by decide, by decide, by decide, by decide⟩, by decide +kernel⟩

/-- **C70** (violated).  A request for station `ANMO` alone selects a record of network `A`, station
`B` and location `ANMO`: the wildcard for the network runs over the underscore. -/
theorem C70_wildcard_crosses_codes_violated :
    ∃ sels x, addSelectComp true [] none (some "ANMO".toUTF8.toList) none none nstUnset nstUnset 0
        = .ok (some sels) ∧
      matchSelect true sels
        (Codes.mk [65] [66] "ANMO".toUTF8.toList [66] [72] [90]).sid 0 10 1 = .ok (some x) ∧
      ¬ Matches (charVal true) [.lit 65, .lit 78, .lit 77, .lit 79] [66] := by
  refine ⟨[⟨"FDSN:*_ANMO_*_*".toUTF8.toList, [⟨nstUnset, nstUnset⟩], 0⟩],
    (0, some ⟨nstUnset, nstUnset⟩), by decide +kernel, by decide +kernel, ?_⟩
  intro h
  cases h with
  | char ha _ => exact absurd ha (by simp [Tok.Accepts])

/-- **C70** (violated).  A request for the channels `BH[ZN]` does not select a record of channel `BHZ` of the station
asked for: a channel with a set in it is not taken apart into band, source and position. -/
theorem C70_set_in_channel_violated :
    ∃ sels, addSelectComp true [] (some "IU".toUTF8.toList) (some "ANMO".toUTF8.toList) (some "00".toUTF8.toList)
        (some "BH[ZN]".toUTF8.toList) nstUnset nstUnset 0 = .ok (some sels) ∧
      matchSelect true sels
        (Codes.mk "IU".toUTF8.toList "ANMO".toUTF8.toList "00".toUTF8.toList [66] [72] [90]).sid 0 10 1 = .ok none ∧
      "BH[ZN]".toUTF8.toList = render [.lit 66, .lit 72, .set false [.one 90, .one 78]] ∧
      Matches (charVal true) [.lit 66, .lit 72, .set false [.one 90, .one 78]] [66, 72, 90] := by
  refine ⟨[⟨"FDSN:IU_ANMO_00_BH[ZN]".toUTF8.toList, [⟨nstUnset, nstUnset⟩], 0⟩], by decide +kernel, by decide +kernel,
    by decide +kernel, ?_⟩
  exact .char rfl (.char rfl (.char (.inl ⟨rfl, .one 90, by simp, rfl⟩) .nil))

/-- **C70** (violated).  A set of stations that is longer than 19 bytes is cut, so that a station in it is not
selected. -/
theorem C70_long_station_violated :
    ∃ sels, addSelectComp true [] (some "IU".toUTF8.toList) (some "[ABCDEFGHIJKLMNOPQRSTUVW]NMO".toUTF8.toList)
        (some "00".toUTF8.toList) (some "BHZ".toUTF8.toList) nstUnset nstUnset 0 = .ok (some sels) ∧
      matchSelect true sels
        (Codes.mk "IU".toUTF8.toList "ANMO".toUTF8.toList "00".toUTF8.toList [66] [72] [90]).sid 0 10 1 = .ok none := by
  refine ⟨[⟨"FDSN:IU_[ABCDEFGHIJKLMNOPQR_00_B_H_Z".toUTF8.toList, [⟨nstUnset, nstUnset⟩], 0⟩], by decide +kernel,
    by decide +kernel⟩

end Verif.Props.Select
