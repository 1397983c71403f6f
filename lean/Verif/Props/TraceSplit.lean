import Verif.Props.TraceList
/-!
# C144: adding records with and without splitting of versions to the same list
-/
namespace Verif.Props.TraceSplit
open Verif.Model.Steim Verif.Model.Trace Verif.Model.TraceList Verif.Props.Trace Verif.Props.TraceList
open Verif.Proof.TraceList Verif.Proof.Mem

variable {R : Type}

/-- A history of additions to a list, each with its own flag for splitting versions: the flag, the record and the answer
of the function (`false` if it returned NULL). -/
inductive Mixed (sim : R → R → Bool) (autoheal keep : Bool) : List (Bool × Arrival R × Bool) → TraceList R → Prop
  | init (seed) : Mixed sim autoheal keep [] { init with prng := seed }
  | add (hist tl split r tl' res) : Mixed sim autoheal keep hist tl →
      addMsr sim split autoheal keep tl r = .ok (tl', res) →
      Mixed sim autoheal keep (hist ++ [(split, r, res.isSome)]) tl'

theorem compare_same {s : Source R} {sid : List UInt8} {pub : Nat} (h : s.sid = sid → s.pub = pub) :
    compareId s sid pub = compareId s sid 0 := by
  unfold compareId
  dsimp only
  by_cases e : s.sid = sid
  · rw [if_neg (fun x => x.2.2 (h e)), if_neg (fun x => x.2.1 rfl)]
  · have : ¬ strcmp s.sid sid = 0 := fun x => e ((strcmp_eq _ _).1 x)
    rw [if_neg (fun x => this x.1), if_neg (fun x => this x.1)]

theorem search_same {tl : TraceList R} {sid : List UInt8} {pub : Nat}
    (h : ∀ a s, tl.sources a = some s → s.sid = sid → s.pub = pub) :
    ∀ (fuel id level : Nat) (prev : Nat → Option Nat),
      findLoop tl sid pub fuel id level prev = findLoop tl sid 0 fuel id level prev
  | 0, _, _, _ => rfl
  | _ + 1, _, 0, _ => rfl
  | fuel + 1, id, level + 1, prev => by
    unfold findLoop
    dsimp only
    congr 1
    funext n
    cases n with
    | none => exact search_same h fuel id level _
    | some b =>
      dsimp only
      unfold source
      cases hb : tl.sources b with
      | none => rfl
      | some s =>
        dsimp only
        rw [bind_ok, bind_ok, compare_same (h b s hb), search_same h fuel id level, search_same h fuel b (level + 1)]

theorem add_same {sim : R → R → Bool} {autoheal keep : Bool} {tl : TraceList R} {r : Arrival R}
    (h : ∀ a s, tl.sources a = some s → s.sid = r.sid → s.pub = r.pub) :
    addMsr sim true autoheal keep tl r = addMsr sim false autoheal keep tl r := by
  have : findID tl r.sid r.pub = findID tl r.sid 0 := search_same h _ _ _ _
  unfold addMsr
  rw [if_pos rfl, if_neg (by decide), this]

theorem mixed_listed {sim : R → R → Bool} {autoheal keep : Bool} {hist : List (Bool × Arrival R × Bool)}
    {tl : TraceList R} (h : Mixed sim autoheal keep hist tl)
    (hv : ∀ y ∈ hist, ∀ z ∈ hist, y.2.1.sid = z.2.1.sid → y.2.1.pub = z.2.1.pub) :
    Listed sim true autoheal keep (hist.map Prod.snd) tl ∧ Listed sim false autoheal keep (hist.map Prod.snd) tl := by
  induction h with
  | init seed => exact ⟨Listed.init seed, Listed.init seed⟩
  | add hist tl split r tl' res hl ha ih =>
    obtain ⟨i1, i2⟩ := ih fun y hy z hz => hv y (List.mem_append_left _ hy) z (List.mem_append_left _ hz)
    obtain ⟨l, hgt, hrep, -, -, hfrom⟩ := listed_inv i1
    have hs : ∀ a s, tl.sources a = some s → s.sid = r.sid → s.pub = r.pub := by
      intro a s ha hsid
      obtain ⟨x, hx, hxa⟩ := List.mem_map.1 (hrep.only a (by rw [ha]; rfl))
      have hh := hrep.here x hx
      rw [hxa, ha] at hh
      injection hh with hh
      obtain ⟨y, hy, -, h1, h2⟩ := hfrom x hx
      obtain ⟨z, hz, hzy⟩ := List.mem_map.1 hy
      rw [hh, ← h2 rfl, ← hzy]
      apply hv z (List.mem_append_left _ hz) (split, r, res.isSome) (List.mem_append_right _ (List.mem_singleton.2 rfl))
      show z.2.1.sid = r.sid
      rw [hzy, h1, ← hh, hsid]
    have e := add_same (sim := sim) (autoheal := autoheal) (keep := keep) hs
    rw [List.map_append]
    have e1 : addMsr sim true autoheal keep tl r = .ok (tl', res) := by
      cases split
      · rw [e]; exact ha
      · exact ha
    exact ⟨Listed.add _ _ _ _ _ i1 e1, Listed.add _ _ _ _ _ i2 (by rw [← e]; exact e1)⟩

/-- **C144** (part).  If all records of a source have one version, the flags make no difference: the list is the one that
the same additions make with versions split, and the one they make without, and walking it visits each source once in the
order of the identifiers.

Missing: sources with records of several versions, `C144_mixed_flags_violated`. -/
theorem C144_one_version_partial {sim : R → R → Bool} {autoheal keep : Bool} {hist : List (Bool × Arrival R × Bool)}
    {tl : TraceList R} (h : Mixed sim autoheal keep hist tl)
    (hv : ∀ y ∈ hist, ∀ z ∈ hist, y.2.1.sid = z.2.1.sid → y.2.1.pub = z.2.1.pub) :
    Listed sim true autoheal keep (hist.map Prod.snd) tl ∧ Listed sim false autoheal keep (hist.map Prod.snd) tl ∧
      ∃ l, Walk tl l ∧ (l.filterMap tl.sources).Pairwise (Before false) := by
  obtain ⟨h1, h2⟩ := mixed_listed h hv
  obtain ⟨l, hw, -, ho⟩ := C39_listed_once_in_order h2
  exact ⟨h1, h2, l, hw, ho⟩

/-- The additions one after another. -/
def adds (tl : TraceList Nat) : List (Bool × Arrival Nat) → Option (TraceList Nat × List Bool)
  | [] => some (tl, [])
  | (split, r) :: t =>
    match addMsr same split true false tl r with
    | .ok (tl', res) => (adds tl' t).map fun x => (x.1, res.isSome :: x.2)
    | _ => none

theorem adds_mixed : ∀ {l : List (Bool × Arrival Nat)} {tl tl' : TraceList Nat}
    {bs : List Bool} {hist : List (Bool × Arrival Nat × Bool)}, Mixed same true false hist tl → adds tl l = some (tl', bs) →
    ∃ hist', Mixed same true false (hist ++ hist') tl' ∧ hist'.map (fun y => (y.1, y.2.1)) = l ∧ hist'.map (·.2.2) = bs
  | [], tl, tl', bs, hist, h, e => by
    injection e with e
    injection e with e1 e2
    refine ⟨[], ?_, rfl, e2⟩
    rw [← e1, List.append_nil]
    exact h
  | (split, r) :: t, tl, tl', bs, hist, h, e => by
    unfold adds at e
    split at e
    · rename_i tl1 res ha
      obtain ⟨⟨tl2, b2⟩, e1, e2⟩ := Option.map_eq_some_iff.1 e
      injection e2 with e2 e3
      obtain ⟨h', m1, m2, m3⟩ := adds_mixed (Mixed.add _ _ _ _ _ _ h ha) e1
      subst e2
      refine ⟨(split, r, res.isSome) :: h', ?_, ?_, ?_⟩
      · rw [List.append_assoc] at m1; exact m1
      · rw [List.map_cons, m2]
      · rw [List.map_cons, m3]; exact e3
    · cases e

/-- Records with flags: a source in two versions split, then version 3 of it not split, then version 2 again split. -/
def flagged : List (Bool × Arrival Nat) :=
  [(true, from' [66] 1 0), (true, from' [66] 2 0), (false, from' [66] 3 3), (true, from' [66] 2 6)]

/-- **C144** is violated.  After additions with versions split, one without changes the version of an entry where it is in
the list; the next one does not find the entry of its own version and makes another: the list has two entries of the same
source and the same version, and its versions are not in order. -/
theorem C144_mixed_flags_violated : ∃ (hist : List (Bool × Arrival Nat × Bool)) (tl : TraceList Nat),
    Mixed same true false hist tl ∧ (∀ y ∈ hist, y.2.2 = true) ∧
    ∃ a b s t, a ≠ b ∧ tl.sources a = some s ∧ tl.sources b = some t ∧ s.sid = t.sid ∧ s.pub = t.pub := by
  have hd : (match adds ({ init with prng := 1 } : TraceList Nat) flagged with
      | some (tl, bs) => (bs, tl.numtraceids, (List.range 5).map fun a => (tl.sources a).map fun s => (s.sid, s.pub))
      | none => ([], 0, [])) =
      ([true, true, true, true], 3, [none, some ([66], 3), some ([66], 2), some ([66], 2), none]) := by decide +kernel
  cases e : adds ({ init with prng := 1 } : TraceList Nat) flagged with
  | none => rw [e] at hd; cases hd
  | some x =>
    obtain ⟨tl, bs⟩ := x
    rw [e] at hd
    obtain ⟨hist, h1, -, h3⟩ := adds_mixed (Mixed.init 1) e
    simp only [Prod.mk.injEq] at hd
    obtain ⟨hb, -, hl⟩ := hd
    have g : ∀ i, i < 5 → ((List.range 5).map fun a => (tl.sources a).map fun s => (s.sid, s.pub))[i]? =
        some ((tl.sources i).map fun s => (s.sid, s.pub)) := by
      intro i hi
      rw [List.getElem?_map, List.getElem?_range hi]
      rfl
    have g2 := g 2 (by decide)
    have g3 := g 3 (by decide)
    rw [hl] at g2 g3
    injection g2 with g2
    injection g3 with g3
    obtain ⟨s, s1, s2⟩ := Option.map_eq_some_iff.1 g2.symm
    obtain ⟨t, t1, t2⟩ := Option.map_eq_some_iff.1 g3.symm
    injection s2 with s2 s3
    injection t2 with t2 t3
    rw [List.nil_append] at h1
    refine ⟨hist, tl, h1, ?_, 2, 3, s, t, by decide, s1, t1, by rw [s2, t2], by rw [s3, t3]⟩
    intro y hy
    have := List.mem_map_of_mem (f := fun y : Bool × Arrival Nat × Bool => y.2.2) hy
    rw [h3, hb] at this
    simpa using this

/-- Two sources with one version each, added with both flags. -/
example : ∃ hist tl, Mixed same true false hist tl ∧
    (∀ y ∈ hist, ∀ z ∈ hist, y.2.1.sid = z.2.1.sid → y.2.1.pub = z.2.1.pub) ∧
    hist.map (fun y => (y.1, y.2.1)) = [(true, from' [66] 1 0), (false, from' [65] 2 0), (false, from' [66] 1 3)] := by
  have hd : (adds ({ init with prng := 1 } : TraceList Nat)
      [(true, from' [66] 1 0), (false, from' [65] 2 0), (false, from' [66] 1 3)]).isSome = true := by decide +kernel
  obtain ⟨⟨tl, bs⟩, e⟩ := Option.isSome_iff_exists.1 hd
  obtain ⟨hist, h1, h2, -⟩ := adds_mixed (Mixed.init 1) e
  rw [List.nil_append] at h1
  refine ⟨hist, tl, h1, ?_, h2⟩
  have key : ∀ y ∈ hist, (y.2.1.sid = [66] ∧ y.2.1.pub = 1) ∨ (y.2.1.sid = [65] ∧ y.2.1.pub = 2) := by
    intro y hy
    have := List.mem_map_of_mem (f := fun y : Bool × Arrival Nat × Bool => (y.1, y.2.1)) hy
    rw [h2] at this
    simp only [List.mem_cons, List.not_mem_nil, or_false, Prod.mk.injEq] at this
    rcases this with ⟨-, h⟩ | ⟨-, h⟩ | ⟨-, h⟩ <;> rw [h]
    · exact Or.inl ⟨rfl, rfl⟩
    · exact Or.inr ⟨rfl, rfl⟩
    · exact Or.inl ⟨rfl, rfl⟩
  intro y hy z hz hs
  rcases key y hy with ⟨a, b⟩ | ⟨a, b⟩ <;> rcases key z hz with ⟨c, d⟩ | ⟨c, d⟩
  · rw [b, d]
  · rw [a, c] at hs; exact absurd hs (by decide)
  · rw [a, c] at hs; exact absurd hs (by decide)
  · rw [b, d]

end Verif.Props.TraceSplit
