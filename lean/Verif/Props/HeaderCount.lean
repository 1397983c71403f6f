import Verif.Proof.Pack2
import Verif.Model.Blockettes2
/-!
# C142: the number of blockettes in the header of a version 2 record
-/
namespace Verif.Props.HeaderCount
open Verif.Model.Steim Verif.Model.Mem Verif.Model.Record3 Verif.Model.Pack2 Verif.Model
open Verif.Proof.Mem
open Verif.Proof.Pack2 (byte_eq)

/-- The blockettes that the extra headers ask for. -/
def asked : List Step → Nat
  | [] => 0
  | .add _ _ _ :: t => asked t + 1
  | _ :: t => asked t

theorem poke_other {mem m b : List UInt8} {off i : Nat} (h : poke mem off b = .ok m) (hi : i < off) :
    m[i]? = mem[i]? := by
  unfold poke at h
  split at h
  · injection h with h
    subst h
    rw [List.append_assoc, List.getElem?_append_left (by rw [List.length_take]; omega), List.getElem?_take_of_lt hi]
  · cases h

theorem poke_here {mem m : List UInt8} {off : Nat} {x : UInt8} (h : poke mem off [x] = .ok m) : m[off]? = some x := by
  unfold poke at h
  split at h
  · injection h with h
    subst h
    rename_i hl
    simp only [List.length_cons, List.length_nil] at hl
    have e : (mem.take off).length = off := by rw [List.length_take]; omega
    rw [List.append_assoc, List.getElem?_append_right (by omega), e, Nat.sub_self]
    rfl
  · cases h

theorem pokes_other {ws : List (Nat × List UInt8)} {mem m : List UInt8} {i : Nat} (h : pokes mem ws = .ok m)
    (hi : ∀ w ∈ ws, i < w.1) : m[i]? = mem[i]? := by
  induction ws generalizing mem with
  | nil => injection h with h; rw [h]
  | cons w ws ih =>
    obtain ⟨a, h1, h2⟩ := bind_eq_ok.1 h
    rw [ih h2 fun w hw => hi w (List.mem_cons_of_mem _ hw), poke_other h1 (hi w (List.mem_cons_self ..))]

theorem writeAll_other {base : Nat} {ws : List (Nat × Res (List UInt8))} {mem m : List UInt8} {i : Nat}
    (h : writeAll base mem ws = .ok m) (hi : i < base) : m[i]? = mem[i]? := by
  induction ws generalizing mem with
  | nil => injection h with h; rw [h]
  | cons w ws ih =>
    obtain ⟨off, v⟩ := w
    obtain ⟨b, -, h⟩ := bind_eq_ok.1 h
    obtain ⟨a, h1, h2⟩ := bind_eq_ok.1 h
    rw [ih h2, poke_other h1 (by omega)]

theorem begin_count {hostBE : Bool} {buf m : List UInt8} {written next count type size : Nat}
    (h : beginBlockette hostBE buf written next count type size = .ok m) (hw : 39 < written) :
    m[39]? = some (UInt8.ofNat (count + 1)) := by
  unfold beginBlockette at h
  obtain ⟨a, -, h⟩ := bind_eq_ok.1 h
  obtain ⟨b, h1, h⟩ := bind_eq_ok.1 h
  rw [byte_eq] at h1
  rw [pokes_other h (by
    intro w hw'
    simp only [List.mem_cons, List.not_mem_nil, or_false] at hw'
    rcases hw' with e | e | e <;> subst e <;> simp only <;> omega), poke_here h1]
  congr 1
  apply UInt8.toNat_inj.1
  rw [UInt8.toNat_ofNat', UInt8.toNat_ofNat']
  exact Nat.mod_mod ..

theorem steps_count {hostBE : Bool} {L : Nat} : ∀ (steps : List Step) {buf b : List UInt8} {written next count n : Nat},
    addSteps hostBE L steps buf written next count = .ok (b, n) → 39 < written →
    buf[39]? = some (UInt8.ofNat count) → b[39]? = some (UInt8.ofNat (count + asked steps))
  | [], buf, b, written, next, count, n, h, _, hc => by
    unfold addSteps at h
    injection h with h
    injection h with h _
    rw [← h]
    exact hc
  | .refuse :: t, _, _, _, _, _, _, h, _, _ => by unfold addSteps at h; cases h
  | .undefined :: t, _, _, _, _, _, _, h, _, _ => by unfold addSteps at h; cases h
  | .room size :: t, buf, b, written, next, count, n, h, hw, hc => by
    unfold addSteps at h
    split at h
    · cases h
    · exact steps_count t h hw hc
  | .add type size writes :: t, buf, b, written, next, count, n, h, hw, hc => by
    unfold addSteps at h
    split at h
    · cases h
    · obtain ⟨b1, h1, h⟩ := bind_eq_ok.1 h
      obtain ⟨b2, h2, h⟩ := bind_eq_ok.1 h
      have := steps_count t h (by omega) (by rw [writeAll_other h2 hw, begin_count h1 hw])
      rw [this]
      show some (UInt8.ofNat (count + 1 + asked t)) = some (UInt8.ofNat (count + (asked t + 1)))
      rw [Nat.add_assoc, Nat.add_comm 1]

theorem fixed_count {rates : Rates} {hostBE : Bool} {msr : Msr} {c : Codes} {t : DateTime} {factor multiplier : Int}
    {eh : Extra} {count exponent : Nat} {timed poor : Bool} {buf m : List UInt8}
    (h : pokes buf (fixedWrites hostBE msr c t factor multiplier eh count ++
      chainWrites rates hostBE msr exponent t eh timed poor) = .ok m) : m[39]? = some (UInt8.ofNat count) := by
  rw [pokes_append] at h
  obtain ⟨a, h1, h2⟩ := bind_eq_ok.1 h
  rw [pokes_other h2 (by
    intro w hw
    have h0 : ∀ x ∈ (chainWrites rates hostBE msr exponent t eh timed poor).map Prod.fst, 39 < x := by
      cases timed <;> cases poor <;> simp [chainWrites, b1000Writes, b1001Writes, b100Writes]
    exact h0 _ (List.mem_map_of_mem hw))]
  have e : ∃ pre post, fixedWrites hostBE msr c t factor multiplier eh count =
      pre ++ ((39, store hostBE false 1 count) :: post) ∧ ∀ w ∈ post, 39 < w.1 := by
    refine ⟨(fixedWrites hostBE msr c t factor multiplier eh count).take 20,
      (fixedWrites hostBE msr c t factor multiplier eh count).drop 21, rfl, ?_⟩
    intro w hw
    simp only [fixedWrites, List.drop_succ_cons, List.drop_zero, List.mem_cons, List.not_mem_nil, or_false] at hw
    rcases hw with e | e | e <;> subst e <;> simp only <;> omega
  obtain ⟨pre, post, e, hp⟩ := e
  rw [e, pokes_append] at h1
  obtain ⟨x, -, h1⟩ := bind_eq_ok.1 h1
  obtain ⟨y, h3, h4⟩ := bind_eq_ok.1 h1
  rw [byte_eq] at h3
  rw [pokes_other h4 hp, poke_here h3]

theorem header_count (rates : Rates) (json : List UInt8 → Option Extra) (hostBE : Bool) (msr : Msr) (buf b : List UInt8)
    (recbuflen n : Nat) (h : packHeader2 rates json hostBE msr buf recbuflen = .ok (b, n)) :
    ∃ own eh, 1 ≤ own ∧ own ≤ 3 ∧ extraOf json msr.extra = some eh ∧
      b[39]? = some (UInt8.ofNat (own + asked eh.steps)) := by
  unfold packHeader2 at h
  dsimp only at h
  split at h
  · cases h
  split at h
  · cases h
  obtain ⟨c, -, h⟩ := bind_eq_ok.1 h
  split at h
  · cases h
  split at h
  · cases h
  split at h
  · cases h
  rename_i eh heh
  obtain ⟨m, h1, h2⟩ := bind_eq_ok.1 h
  refine ⟨_, eh, ?_, ?_, heh, steps_count eh.steps h2 (by omega) (fixed_count h1)⟩
  · omega
  · split <;> split <;> omega

/-- **C142** (part).  The header of a record of version 2 tells how many blockettes follow it: one to three of its own
and those that the extra headers ask for.

Missing: more than 255 of them, `C142_many_violated`. -/
theorem C142_count_partial (rates : Rates) (json : List UInt8 → Option Extra) (hostBE : Bool) (msr : Msr)
    (buf b : List UInt8) (recbuflen n : Nat) (h : packHeader2 rates json hostBE msr buf recbuflen = .ok (b, n))
    (hs : ∀ eh, extraOf json msr.extra = some eh → asked eh.steps ≤ 252) :
    ∃ own eh x, 1 ≤ own ∧ own ≤ 3 ∧ extraOf json msr.extra = some eh ∧ b[39]? = some x ∧
      x.toNat = own + asked eh.steps := by
  obtain ⟨own, eh, h1, h2, h3, h4⟩ := header_count rates json hostBE msr buf b recbuflen n h
  refine ⟨own, eh, _, h1, h2, h3, h4, ?_⟩
  have := hs eh h3
  rw [UInt8.toNat_ofNat']
  omega

/-- **C142** is violated.  No header with 255 blockettes or more from extra headers tells their number: it is kept in a
byte and wraps, while the record is packed. -/
theorem C142_many_violated (rates : Rates) (json : List UInt8 → Option Extra) (hostBE : Bool) (msr : Msr)
    (buf b : List UInt8) (recbuflen n : Nat) (h : packHeader2 rates json hostBE msr buf recbuflen = .ok (b, n))
    (eh : Extra) (heh : extraOf json msr.extra = some eh) (hs : 255 ≤ asked eh.steps) :
    ∃ x, b[39]? = some x ∧ x.toNat < asked eh.steps + 1 ∧ ∃ own, 1 ≤ own ∧ own ≤ 3 ∧
      x.toNat = (own + asked eh.steps) % 256 := by
  obtain ⟨own, eh', h1, h2, h3, h4⟩ := header_count rates json hostBE msr buf b recbuflen n h
  rw [heh] at h3
  injection h3 with h3
  subst h3
  refine ⟨_, h4, ?_, own, h1, h2, ?_⟩ <;> rw [UInt8.toNat_ofNat'] <;> omega

theorem asked_append (a b : List Step) : asked (a ++ b) = asked a + asked b := by
  induction a with
  | nil => simp [asked]
  | cons x a ih => cases x <;> simp only [List.cons_append, asked, ih] <;> omega

theorem asked_map {α : Type} (f : α → Step) (l : List α) (h : ∀ x ∈ l, ∃ t n w, f x = .add t n w) :
    asked (l.map f) = l.length := by
  induction l with
  | nil => rfl
  | cons x l ih =>
    obtain ⟨t, n, w, e⟩ := h x (List.mem_cons_self ..)
    rw [List.map_cons, e]
    show asked _ + 1 = l.length + 1
    rw [ih fun y hy => h y (List.mem_cons_of_mem _ hy)]

/-- **C142** (entries).  Each timing exception and each event detection in the extra headers asks for a blockette of its
own. -/
theorem C142_entries (hostBE : Bool) (k : Model.Blockettes2.Numbers) (root : Option Verif.Spec.Json.Json) :
    (Model.Blockettes2.objects root "/FDSN/Time/Exception").length +
      (Model.Blockettes2.objects root "/FDSN/Event/Detection").length ≤ asked (Model.Blockettes2.steps hostBE k root) := by
  unfold Model.Blockettes2.steps
  rw [asked_append, asked_append, asked_append, asked_map (Model.Blockettes2.exceptionStep hostBE k root) _ (fun x _ => ⟨_, _, _, rfl⟩), asked_map]
  · omega
  · intro x _
    unfold Model.Blockettes2.detectionStep
    dsimp only
    split
    · exact ⟨_, _, _, rfl⟩
    · exact ⟨_, _, _, rfl⟩

example : (Model.Blockettes2.objects (some (.obj [("FDSN".toUTF8.toList, .obj [("Event".toUTF8.toList, .obj [("Detection".toUTF8.toList,
    .arr [.obj [], .obj [], .null])])])])) "/FDSN/Event/Detection").length = 2 := by decide +kernel

/-- A description and the conversion of its rate, 1. -/
def plain : Msr := { sid := "FDSN:XX_STA__B_H_Z".toUTF8.toList, reclen := 65536, formatversion := 2, starttime := 0, samprate := 0, extra := [123, 125] }
def one : Rates := ⟨fun _ => some (1, 1), fun _ _ _ => false, id⟩
def beams (k : Nat) : List UInt8 → Option Extra := fun _ => some { steps := List.replicate k (.add 400 16 []) }
def lastOf : Res (List UInt8 × Nat) → Option (Option UInt8 × Nat)
  | .ok (b, n) => some (b[39]?, n)
  | _ => none

example : lastOf (packHeader2 one (beams 4) false plain (List.replicate 200 0) 200) = some (some 5, 120) := by
  decide +kernel

theorem many_ok (h : Bool) (L : Nat) (hL : L < 4294967296) : ∀ (k : Nat) (buf : List UInt8) (written next count : Nat),
    40 ≤ L → buf.length = L → written + 16 * k ≤ L → next + 2 ≤ L →
    ∃ b, addSteps h L (List.replicate k (.add 400 16 [])) buf written next count = .ok (b, written + 16 * k) ∧ b.length = L
  | 0, buf, written, next, count, _, h2, _, _ => ⟨_, rfl, h2⟩
  | k + 1, buf, written, next, count, h1, h2, h3, h4 => by
    rw [List.replicate_succ]
    unfold addSteps
    rw [if_neg (by omega)]
    have : ∃ m, beginBlockette h buf written next count 400 16 = .ok m := by
      unfold beginBlockette
      apply pokes_ne_oob
      intro w hw
      simp only [List.mem_cons, List.not_mem_nil, or_false] at hw
      rcases hw with e | e | e | e | e <;> subst e <;>
        simp only [Verif.Proof.Pack2.big_eq, byte_eq, List.length_cons, List.length_nil, List.length_replicate,
          Verif.Proof.Record2.num_length] <;> omega
    obtain ⟨m, e⟩ := this
    have hl : m.length = L := by rw [pokes_length e, h2]
    rw [e, bind_ok]
    show ∃ b, addSteps h L _ m _ _ _ = _ ∧ _
    have := many_ok h L hL k m (written + 16) (written + 2) (count + 1) h1 hl (by omega) (by omega)
    rw [show written + 16 + 16 * k = written + 16 * (k + 1) by omega] at this
    exact this

theorem many_steps : asked (List.replicate 255 (.add 400 16 [])) = 255 := by decide +kernel

theorem ok_of {α : Type} {r : Res α} (h : (match r with | .ok _ => true | _ => false) = true) : ∃ x, r = .ok x := by
  cases r with
  | ok x => exact ⟨x, rfl⟩
  | _ => cases h

theorem front_fits (rates : Rates) (h : Bool) (msr : Msr) (c : Codes) (t : DateTime) (factor multiplier : Int) (eh : Extra)
    (count exponent : Nat)
    (hl : c.sta.length = 5 ∧ c.loc.length = 2 ∧ c.chan.length = 3 ∧ c.net.length = 2) :
    ∀ x ∈ (fixedWrites h msr c t factor multiplier eh count ++
      chainWrites rates h msr exponent t eh false false).map (fun w => w.1 + w.2.length), x ≤ 56 := by
  simp [fixedWrites, chainWrites, b1000Writes, Verif.Proof.Pack2.big_eq, byte_eq, Verif.Proof.Record2.num_length, hl]

/-- Headers with any number of blockettes are packed if there is room. -/
theorem beams_ok (k L : Nat) (msr : Msr) (buf : List UInt8) (hsid : msr.sid = plain.sid)
    (htime : msr.starttime = plain.starttime) (hextra : msr.extra = plain.extra)
    (hr : ¬ (packReclen msr.reclen < 128 ∨ packReclen msr.reclen > 10485760))
    (hr2 : ¬ (packReclen msr.reclen).toNat &&& ((packReclen msr.reclen).toNat - 1) ≠ 0)
    (hk : 56 + 16 * k ≤ L) (hL : L < 4294967296) (hb : buf.length = L) :
    ∃ b, packHeader2 one (beams k) false msr buf L = .ok (b, 56 + 16 * k) ∧ b.length = L := by
  unfold packHeader2
  dsimp only
  rw [if_neg hr, if_neg hr2, hsid, htime, hextra]
  obtain ⟨c, hc⟩ := ok_of (r := codes (plain.sid.takeWhile (· != 0))) (by decide +kernel)
  have hl : c.sta.length = 5 ∧ c.loc.length = 2 ∧ c.chan.length = 3 ∧ c.net.length = 2 := by
    have : ∀ x, codes (plain.sid.takeWhile (· != 0)) = .ok x →
        x.sta.length = 5 ∧ x.loc.length = 2 ∧ x.chan.length = 3 ∧ x.net.length = 2 := by
      have hd : (match codes (plain.sid.takeWhile (· != 0)) with
        | .ok x => decide (x.sta.length = 5 ∧ x.loc.length = 2 ∧ x.chan.length = 3 ∧ x.net.length = 2)
        | _ => false) = true := by decide +kernel
      intro x hx
      rw [hx] at hd
      exact of_decide_eq_true hd
    exact this c hc
  rw [hc, bind_ok]
  have ht : ∃ t, nstime2time plain.starttime = some t ∧ microOffset t = 0 := by
    have hd : (match nstime2time plain.starttime with | some t => decide (microOffset t = 0) | none => false) = true := by
      decide +kernel
    cases e : nstime2time plain.starttime with
    | none => rw [e] at hd; cases hd
    | some t => rw [e] at hd; exact ⟨t, rfl, of_decide_eq_true hd⟩
  obtain ⟨t, ht, hm⟩ := ht
  rw [ht]
  have he : extraOf (beams k) plain.extra = some { steps := List.replicate k (.add 400 16 []) } := rfl
  rw [he]
  have hf : one.factors msr.samprate = some (1, 1) := rfl
  rw [hf]
  dsimp only
  have hp : one.poor msr.samprate 1 1 = false := rfl
  rw [hm, hp]
  simp only [Option.isSome_none, ne_eq, not_true_eq_false, decide_false, Bool.or_self, Bool.false_eq_true, if_false,
    Nat.add_zero]
  generalize hE : expLoop (packReclen msr.reclen).toNat 25 1 1 = E
  generalize hX : ({ steps := List.replicate k (.add 400 16 []) } : Extra) = X
  have hw : ∃ m, pokes buf (fixedWrites false msr c t 1 1 X 1 ++ chainWrites one false msr E t X false false) = .ok m := by
    apply pokes_ne_oob
    intro w hw
    have h0 := front_fits one false msr c t 1 1 X 1 E hl
    have := h0 _ (List.mem_map_of_mem (f := fun w : Nat × List UInt8 => w.1 + w.2.length) hw)
    omega
  obtain ⟨m, hw⟩ := hw
  rw [hw, bind_ok]
  exact many_ok false L hL k m 56 50 1 (by omega) (by rw [pokes_length hw, hb]) (by omega) (by omega)

/-- A record with 255 blockettes from extra headers is packed. -/
example : ∃ b n, packHeader2 one (beams 255) false plain (List.replicate 4200 0) 4200 = .ok (b, n) := by
  obtain ⟨b, h, -⟩ := beams_ok 255 4200 plain (List.replicate 4200 0) rfl rfl rfl (by decide) (by decide +kernel) (by decide)
    (by decide) (by rw [List.length_replicate])
  exact ⟨b, _, h⟩

end Verif.Props.HeaderCount
