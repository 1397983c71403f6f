import Verif.Proof.SelectMem
import Verif.Proof.Select
import Verif.Proof.Screen
import Verif.Props.Alloc
import Verif.Props.Select
/-!
# Selections in memory and their print (C128, C129)
-/
namespace Verif.Props.SelectMem
open Verif.Model Verif.Model.Steim Verif.Model.Alloc
open Verif.Props.Alloc Verif.Proof.Alloc Verif.Proof.SelectMem
open Verif.Model.Select (Entry Window)
open Verif.Model.SelectMem (freeSelects windowTime windowLine entryText printSelections)
open Verif.Proof.Mem (bind_ok)

/-! ## C128 -/

/-- **C128 (adding, partial).** `ms3_addselect` adds the time window to the first entry of the same
pattern and version or in a new entry; all other entries and all other memory stay as they are.  If it
returns an error the list is as before.  Missing: the memory of the time window is lost if the second
allocation fails (`C128_leak_violated`). -/
theorem C128_add_partial {h : Heap} {first : Option Nat} {l : List SelV} {fuel : Nat} (hf : Fresh h)
    (hl : HasSelects h first l) (hn : (ownedSelects l).Nodup) (hfu : l.length ≤ fuel) (pattern : List UInt8)
    (start stop : Int) (pub : Nat) :
    ∃ ok first' h', SelectMem.addSelect fuel h first pattern start stop pub = .ok (ok, first', h') ∧ Fresh h' ∧
      (ok = true → ∃ l', HasSelects h' first' l' ∧
        Added pattern pub ⟨start, stop⟩ (l.map SelV.entry) (l'.map SelV.entry) ∧
        Step h h' (ownedSelects l) (ownedSelects l')) ∧
      (ok = false → first' = first ∧ HasSelects h' first l ∧ (∃ n, h.fails n = true) ∧
        ∀ x, x < h.next → h'.cell x = h.cell x) := by
  obtain ⟨ok, first', h', h1, h2, -, h3, h4⟩ := addSelect_ok hf hl hn hfu pattern start stop pub
  refine ⟨ok, first', h', h1, h2, fun ho => ?_, h4⟩
  obtain ⟨l', g1, g2, -, g3⟩ := h3 ho
  exact ⟨l', g1, g2, g3⟩

/-- Two entries, the second with two time windows. -/
def twoObjs : List Obj :=
  [.select [42] (some 1) (some 2) 0, .window 1 2 none, .select [65] (some 3) none 1, .window 3 4 (some 4), .window 5 6 none]

def twoSels : List SelV := [⟨0, [42], 0, [(1, ⟨1, 2⟩)]⟩, ⟨2, [65], 1, [(3, ⟨3, 4⟩), (4, ⟨5, 6⟩)]⟩]

theorem two_has : HasSelects (sound twoObjs) (some 0) twoSels :=
  ⟨rfl, some 2, ⟨some 1, rfl, rfl, none, rfl, rfl⟩, rfl, none, ⟨some 3, rfl, rfl, some 4, rfl, rfl, none, rfl, rfl⟩, rfl⟩

example : Fresh (sound twoObjs) ∧ HasSelects (sound twoObjs) (some 0) twoSels ∧ (ownedSelects twoSels).Nodup ∧
    (match SelectMem.addSelect 2 (sound twoObjs) (some 0) [65] 7 8 1 with
      | .ok (ok, first, h) => ok && first == some 0 && h.cell 2 == some (.select [65] (some 5) none 1) &&
        h.cell 5 == some (.window 7 8 (some 3))
      | _ => false) = true :=
  ⟨sound_fresh _, two_has, by decide, by decide⟩

/-- What `Added` says is what `Model.Select.addSelect` computes, which C44 is about. -/
theorem added_unique {pattern : List UInt8} {pub : Nat} {a b : Int} : ∀ {l l' : List Entry},
    Added pattern pub ⟨a, b⟩ l l' → l' = Select.addSelect l pattern a b pub := by
  have key : ∀ l : List Entry, ((∀ x ∈ l, ¬ Same pattern pub x) → Select.addWindow pattern pub ⟨a, b⟩ l = none) ∧
      ∀ l1 e l2, l = l1 ++ e :: l2 → Same pattern pub e → (∀ x ∈ l1, ¬ Same pattern pub x) →
        Select.addWindow pattern pub ⟨a, b⟩ l = some (l1 ++ { e with timewindows := ⟨a, b⟩ :: e.timewindows } :: l2) := by
    intro l
    induction l with
    | nil => exact ⟨fun _ => rfl, fun l1 e l2 h => by cases l1 <;> cases h⟩
    | cons e t ih =>
      have hiff : (TraceList.strcmp e.sidpattern pattern = 0 ∧ e.pubversion = pub) ↔ Same pattern pub e := by
        unfold Same
        rw [Verif.Proof.TraceList.strcmp_eq]
      constructor
      · intro hno
        rw [Select.addWindow, if_neg fun hc => hno e (by simp) (hiff.1 hc), ih.1 fun x hx => hno x (by simp [hx])]
        rfl
      · intro l1 e' l2 he hs hno
        cases l1 with
        | nil =>
          cases he
          rw [Select.addWindow, if_pos (hiff.2 hs)]
          rfl
        | cons u l1 =>
          cases he
          rw [Select.addWindow, if_neg fun hc => hno _ (by simp) (hiff.1 hc),
            ih.2 l1 e' l2 rfl hs fun x hx => hno x (by simp [hx])]
          rfl
  intro l l' h
  unfold Select.addSelect
  rcases h with ⟨l1, e, l2, h1, h2, h3, h4⟩ | ⟨h1, h2⟩
  · rw [(key l).2 l1 e l2 h1 h2 h3, h4]
  · rw [(key l).1 h1, h2]
    rfl

/-- **C128 (freeing).** `ms3_freeselections` gives back all entries and all time windows, each once, and
nothing else. -/
theorem C128_free {h : Heap} {first : Option Nat} {l : List SelV} {fuel : Nat} (hl : HasSelects h first l)
    (hn : (ownedSelects l).Nodup) (hf : (ownedSelects l).length ≤ fuel) :
    ∃ h', freeSelects fuel h first = .ok h' ∧ Released h h' (ownedSelects l) :=
  ⟨_, freeSelects_ok l fuel h first hl hn hf, fun _ => rfl⟩

example : HasSelects (sound twoObjs) (some 0) twoSels ∧ (ownedSelects twoSels).Nodup ∧ (ownedSelects twoSels).length = 5 :=
  ⟨two_has, by decide, by decide⟩

/-- **C128 (from beginning to end).** If no allocation fails, any number of calls of `ms3_addselect`
builds in memory the list of entries that C44 is about, and `ms3_freeselections` then leaves the
memory as it was before. -/
theorem C128_life {h : Heap} {fuel : Nat} (hf : Fresh h) (hs : ∀ k, h.fails k = false) (qs : List Asked)
    (hfu : 2 * qs.length ≤ fuel) :
    ∃ first h' l, addAll fuel h none qs = .ok (true, first, h') ∧ HasSelects h' first l ∧
      l.map SelV.entry = qs.foldl (fun s q => Select.addSelect s q.pattern q.start q.stop q.pub) [] ∧
      (∀ x, x < h.next → h'.cell x = h.cell x) ∧
      ∃ h2, freeSelects fuel h' first = .ok h2 ∧ h2.cell = h.cell := by
  have key : ∀ (qs : List Asked) (h1 : Heap) (first : Option Nat) (l : List SelV), Fresh h1 →
      (∀ k, h1.fails k = false) → HasSelects h1 first l → (ownedSelects l).Nodup →
      (ownedSelects l).length + 2 * qs.length ≤ fuel → h.next ≤ h1.next →
      (∀ x, x ∉ ownedSelects l → h1.cell x = h.cell x) → (∀ x ∈ ownedSelects l, h.next ≤ x) →
      ∃ first' h' l', addAll fuel h1 first qs = .ok (true, first', h') ∧ HasSelects h' first' l' ∧
        l'.map SelV.entry = qs.foldl (fun s q => Select.addSelect s q.pattern q.start q.stop q.pub) (l.map SelV.entry) ∧
        (ownedSelects l').Nodup ∧ (ownedSelects l').length ≤ fuel ∧
        (∀ x, x ∉ ownedSelects l' → h'.cell x = h.cell x) ∧ (∀ x ∈ ownedSelects l', h.next ≤ x) := by
    intro qs
    induction qs with
    | nil =>
      intro h1 first l _ _ hl hn hlen _ hc ho
      exact ⟨first, h1, l, rfl, hl, rfl, hn, by simp at hlen; omega, hc, ho⟩
    | cons q qs ih =>
      intro h1 first l hf1 hs1 hl hn hlen hnx hc ho
      rw [List.length_cons] at hlen
      have hll := length_owned l
      obtain ⟨ok, first', h', e1, e2, e3, e4, e5⟩ := addSelect_ok (fuel := fuel) hf1 hl hn (by omega) q.pattern q.start q.stop q.pub
      cases ok with
      | false =>
        obtain ⟨-, -, ⟨n, hn⟩, -⟩ := e5 rfl
        rw [hs1] at hn
        cases hn
      | true =>
        obtain ⟨l', g1, g2, g3, g4⟩ := e4 rfl
        have hle := g4.next
        obtain ⟨f2, h2, l2, k1, k2, k3, k4⟩ := ih h' first' l' e2 (fun k => by rw [e3]; exact hs1 k) g1 g4.nodup (by omega)
          (by omega)
          (fun x hx => by
            by_cases hx1 : x ∈ ownedSelects l
            · rw [g4.gone x hx1 hx]
              exact (hf x (ho x hx1)).symm
            · rw [g4.rest x hx1 hx]
              exact hc x hx1)
          (fun x hx => by
            rcases g4.old x hx with h | h
            · exact ho x h
            · omega)
        refine ⟨f2, h2, l2, ?_, k2, ?_, k4⟩
        · rw [addAll, e1, bind_ok]
          exact k1
        · rw [k3, List.foldl_cons, added_unique g2]
  obtain ⟨first, h', l, k1, k2, k3, k4, k5, k6, k7⟩ := key qs h none [] hf hs rfl (by simp [ownedSelects])
    (by simp [ownedSelects]; omega) (Nat.le_refl _) (fun _ _ => rfl) (by simp [ownedSelects])
  refine ⟨first, h', l, k1, k2, k3, fun x hx => k6 x fun hm => ?_, _, freeSelects_ok l fuel h' first k2 k4 k5, ?_⟩
  · have := k7 x hm; omega
  · funext x
    show (if x ∈ ownedSelects l then none else h'.cell x) = _
    by_cases hx : x ∈ ownedSelects l
    · rw [if_pos hx, hf x (k7 x hx)]
    · rw [if_neg hx, k6 x hx]

example : Fresh (sound threeObjs) ∧ (∀ k, (sound threeObjs).fails k = false) ∧
    (match addAll 6 (sound threeObjs) none [⟨[65], 1, 2, 0⟩, ⟨[66], 3, 4, 0⟩, ⟨[65], 5, 6, 0⟩] with
      | .ok (ok, first, h) => ok && first == some 6 && h.cell 4 == some (.select [65] (some 7) none 0)
      | _ => false) = true := ⟨sound_fresh _, fun _ => rfl, by decide⟩

/-- **C128 is violated** if the second allocation fails: the call returns an error and the list is as
before, but the memory of the time window stays in use and nothing points to it. -/
theorem C128_leak_violated :
    ∃ h', SelectMem.addSelect 0 (memory [] 1) none [42] 1 2 0 = .ok (false, none, h') ∧
      ∃ h2, freeSelects 9 h' none = .ok h2 ∧ h2.cell 0 = some (.window 1 2 none) :=
  ⟨_, rfl, _, rfl, rfl⟩

/-! ## C129 -/

open Verif.Props.Screen (txt dec)
open Verif.Props.Report (TimeShown)

/-- A time of a window as printed. -/
def Shown (missing : String) (t : Int) (text : List UInt8) : Prop :=
  if t = Select.nstError ∨ t = Select.nstUnset then text = txt missing
  else TimeShown .isoMonthDayZ .nanoMicroNone t text

/-- The line of a window: both times at the right of 30 columns. -/
def WindowShown (w : Window) (text : List UInt8) : Prop :=
  ∃ a b, Shown "No start time" w.start a ∧ Shown "No end time" w.stop b ∧
    text = txt "  " ++ a.leftpad 30 32 ++ txt "  " ++ b.leftpad 30 32 ++ txt "\n"

/-- The texts, one after the other, of the members of a list. -/
def Texts {α : Type} (R : α → List UInt8 → Prop) : List α → List UInt8 → Prop
  | [], t => t = []
  | x :: l, t => ∃ a b, R x a ∧ Texts R l b ∧ t = a ++ b

/-- The lines of an entry: pattern and version, then the time windows. -/
def EntryShown (e : Entry) (text : List UInt8) : Prop :=
  ∃ t, Texts WindowShown e.timewindows t ∧
    text = txt "Selection: " ++ e.sidpattern ++ txt "  pubversion: " ++ dec e.pubversion ++ txt "\n" ++ t

/-- What can be in an entry: a pattern in its array, a version of 8 bits, times of 64 bits. -/
def Fits (e : Entry) : Prop :=
  e.sidpattern.length < 100 ∧ e.pubversion < 256 ∧
    ∀ w ∈ e.timewindows, Verif.Spec.InInt64 w.start ∧ Verif.Spec.InInt64 w.stop

theorem windowTime_ok (missing : String) {t : Int} (ht : Verif.Spec.InInt64 t) (hm : (txt missing).length ≤ 36) :
    ∃ s, windowTime (Options.lit missing) t = some s ∧ Shown missing t s ∧ s.length ≤ 36 := by
  unfold windowTime Shown
  by_cases hc : t = Select.nstError ∨ t = Select.nstUnset
  · simp only [if_pos hc]
    rw [if_neg (by omega)]
    exact ⟨_, rfl, rfl, hm⟩
  · simp only [if_neg hc]
    rw [if_pos (by omega)]
    exact Verif.Proof.Screen.timeText_all ht .isoMonthDayZ .nanoMicroNone

theorem windowLine_ok {w : Window} (h1 : Verif.Spec.InInt64 w.start) (h2 : Verif.Spec.InInt64 w.stop) :
    ∃ s, windowLine w = some s ∧ WindowShown w s := by
  obtain ⟨a, a1, a2, a3⟩ := windowTime_ok "No start time" h1 (by decide +kernel)
  obtain ⟨b, b1, b2, b3⟩ := windowTime_ok "No end time" h2 (by decide +kernel)
  unfold windowLine
  rw [a1, b1]
  simp only
  refine ⟨_, rfl, a, b, a2, b2, ?_⟩
  unfold Report.message
  rw [List.take_of_length_le]
  · rfl
  · have e1 : (Options.lit "  ").length = 2 := by decide +kernel
    simp only [List.length_append, Screen.right, List.length_replicate, e1, List.length_cons, List.length_nil]
    omega

theorem texts_ok {α : Type} {R : α → List UInt8 → Prop} {f : α → Option (List UInt8)} :
    ∀ {l : List α}, (∀ x ∈ l, ∃ s, f x = some s ∧ R x s) → ∃ ts, l.mapM f = some ts ∧ Texts R l ts.flatten
  | [], _ => ⟨[], rfl, rfl⟩
  | x :: l, h => by
    obtain ⟨s, h1, h2⟩ := h x (by simp)
    obtain ⟨ts, h3, h4⟩ := texts_ok (l := l) fun y hy => h y (by simp [hy])
    refine ⟨s :: ts, ?_, s, _, h2, h4, rfl⟩
    rw [List.mapM_cons, h1, h3]
    rfl

theorem entryText_ok {e : Entry} (h : Fits e) : ∃ s, entryText e = some s ∧ EntryShown e s := by
  obtain ⟨h1, h2, h3⟩ := h
  obtain ⟨ts, g1, g2⟩ := texts_ok (f := windowLine) (R := WindowShown) (l := e.timewindows) fun w hw =>
    windowLine_ok (h3 w hw).1 (h3 w hw).2
  unfold entryText
  rw [g1]
  refine ⟨_, rfl, _, g2, ?_⟩
  have hd : Report.bytes (TimeStr.printD e.pubversion) = dec e.pubversion := Verif.Proof.Screen.num_dec _
  have hl := Verif.Proof.Screen.dec_length (n := (e.pubversion : Int)) (k := 3) (by omega) (by omega)
  rw [hd]
  unfold Report.message
  rw [List.take_of_length_le]
  · rfl
  · have e1 : (Options.lit "Selection: ").length = 11 := by decide +kernel
    have e2 : (Options.lit "  pubversion: ").length = 14 := by decide +kernel
    simp only [List.length_append, e1, e2, List.length_cons, List.length_nil]
    omega

/-- **C129.** `ms3_printselections` prints for each entry its pattern and version and for each of its
time windows the two times, in order, and says so if a time is open. -/
theorem C129_print {l : List Entry} (h : ∀ e ∈ l, Fits e) :
    ∃ s, printSelections l = some s ∧ Texts EntryShown l s := by
  obtain ⟨ts, g1, g2⟩ := texts_ok (f := entryText) (R := EntryShown) (l := l) fun e he => entryText_ok (h e he)
  unfold printSelections
  rw [g1]
  exact ⟨_, rfl, g2⟩

/-- One entry with an open and a closed window. -/
example : Fits ⟨[42], [⟨Select.nstUnset, 5⟩, ⟨-1, 10⟩], 1⟩ ∧
    printSelections [⟨[42], [⟨Select.nstUnset, 5⟩], 1⟩] =
      some (txt "Selection: *  pubversion: 1\n                   No start time  1970-01-01T00:00:00.000000005Z\n") := by
  refine ⟨⟨by decide, by decide, ?_⟩, by decide +kernel⟩
  intro w hw
  simp only [List.mem_cons, List.not_mem_nil, or_false] at hw
  rcases hw with rfl | rfl <;> exact ⟨by unfold Verif.Spec.InInt64; decide, by unfold Verif.Spec.InInt64; decide⟩

end Verif.Props.SelectMem
