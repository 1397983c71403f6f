import Verif.Props.Blockettes2Defs
import Verif.Props.TimeStr
import Verif.Proof.Pack2Back
import Verif.Proof.Headers2Rec
/-!
# Lemmas about the blockettes for extra headers
-/
namespace Verif.Proof.Blockettes2
open Verif.Spec.Json Verif.Spec.Record2 Verif.Props.ExtraHeaders Verif.Props.Headers2 Verif.Props.Blockettes2
open Verif.Model Verif.Model.Steim Verif.Model.Mem Verif.Model.Pack2 Verif.Model.Blockettes2
open Verif.Model.ExtraHeaders (lit)
open Verif.Proof.Mem Verif.Proof.Pack2 Verif.Proof.Record2
open Verif.Proof.Headers2 (fieldNames)

/-! ## Writes that fill a blockette -/

/-- The write of an optional value gives these bytes where there are zeros. -/
def Sets (n : Nat) (o : Option (Res (List UInt8))) (p : List UInt8) : Prop :=
  p.length = n ∧ ((o = none ∧ p = List.replicate n 0) ∨ o = some (.ok p))

/-- The writes give these parts from an offset on. -/
inductive Fill : Nat → List (Nat × Res (List UInt8)) → List (List UInt8) → Prop
  | nil (off) : Fill off [] []
  | skip (off n) (ws ps) : Fill (off + n) ws ps → Fill off ws (List.replicate n 0 :: ps)
  | put (off b) (ws ps) : Fill (off + b.length) ws ps → Fill off ((off, .ok b) :: ws) (b :: ps)

theorem writeAll_fill {off : Nat} {ws : List (Nat × Res (List UInt8))} {ps : List (List UInt8)} (h : Fill off ws ps) :
    ∀ a : List UInt8, a.length = off →
      writeAll 0 (a ++ List.replicate ps.flatten.length 0) ws = .ok (a ++ ps.flatten) := by
  induction h with
  | nil off => intro a _; simp [writeAll]
  | skip off n ws ps _ ih =>
    intro a ha
    have := ih (a ++ List.replicate n 0) (by simp [ha])
    rw [List.flatten_cons, List.length_append, List.length_replicate, ← List.replicate_append_replicate, ← List.append_assoc, this,
      List.append_assoc]
  | put off b ws ps _ ih =>
    intro a ha
    subst ha
    rw [writeAll, bind_ok, Nat.zero_add, poke_append' (by simp), bind_ok, List.flatten_cons, List.length_append,
      List.drop_replicate, Nat.add_sub_cancel_left, ih (a ++ b) (by simp), List.append_assoc]

theorem Fill.opt {off n : Nat} {o : Option (Res (List UInt8))} {p : List UInt8} {ws : List (Nat × Res (List UInt8))}
    {ps : List (List UInt8)} (hs : Sets n o p) (h : Fill (off + n) ws ps) : Fill off (opt off o ++ ws) (p :: ps) := by
  obtain ⟨hn, ⟨rfl, rfl⟩ | rfl⟩ := hs
  · exact .skip _ _ _ _ h
  · subst hn
    exact .put _ _ _ _ h

theorem Fill.last {off n : Nat} {o : Option (Res (List UInt8))} {p : List UInt8} (hs : Sets n o p) :
    Fill off (Blockettes2.opt off o) [p] := by
  have := Fill.opt hs (.nil (off + n))
  rwa [List.append_nil] at this

theorem Fill.one {off : Nat} {b : UInt8} {ws : List (Nat × Res (List UInt8))} {ps : List (List UInt8)}
    (h : Fill (off + 1) ws ps) : Fill off ((off, .ok [b]) :: ws) ([b] :: ps) := .put _ _ _ _ h

theorem Fill.zero {off : Nat} {b : UInt8} (hb : b = 0) {ws : List (Nat × Res (List UInt8))} {ps : List (List UInt8)}
    (h : Fill (off + 1) ws ps) : Fill off ws ([b] :: ps) := by
  subst hb
  exact .skip off 1 ws ps h

/-! ## The members of entries -/

theorem name_inj : ∀ a ∈ fieldNames, ∀ b ∈ fieldNames, name a = name b → a = b := by decide +kernel

theorem entry_look {fs : Fields} {e : Json} (he : Entry fs e) (hn : ∀ f ∈ fs, f.1 ∈ fieldNames) {s : String}
    (hs : s ∈ fieldNames) {p : String} (hp : lit p = pointer [name s]) (v : Json) :
    look (some e) p = some v ↔ ∃ P, (s, P) ∈ fs ∧ P v := by
  obtain ⟨l, rfl, _, hm⟩ := he
  unfold look
  rw [hp, Verif.Proof.Json.docGet_pointer]
  show (member (name s) l).bind (fun v => some v) = some v ↔ _
  rw [show ((member (name s) l).bind fun v => some v) = member (name s) l by cases member (name s) l <;> rfl, hm]
  constructor
  · rintro ⟨s', P, h1, h2, h3⟩
    rw [name_inj s hs s' (hn _ h1) h2]
    exact ⟨P, h1, h3⟩
  · rintro ⟨P, h1, h3⟩
    exact ⟨s, P, h1, rfl, h3⟩

/-- A member is looked up. -/
def Finds (e : Json) (p : String) (P : Json → Prop) : Prop := ∀ v, look (some e) p = some v ↔ P v

theorem finds_none {e : Json} {p : String} {P : Json → Prop} (h : Finds e p P) (hn : ∀ v, ¬ P v) : look (some e) p = none := by
  cases hl : look (some e) p with
  | none => rfl
  | some v => exact absurd ((h v).1 hl) (hn v)

/-! ## The values -/

theorem num_zero (n : Nat) : num true n 0 = List.replicate n 0 := by
  have : ∀ n, Verif.Spec.Record3.le n 0 = List.replicate n 0 := by
    intro n
    induction n with
    | zero => rfl
    | succ n ih => simp [Verif.Spec.Record3.le, ih, List.replicate_succ]
  unfold num
  rw [this]
  simp

theorem sets_number {k : Numbers} {e : Json} {p : String} {d : UInt64}
    {v : Nat} (hf : Finds e p (number d)) (hz : d.toNat % 2 ^ 63 = 0 → v = 0) {g : UInt64 → Res (List UInt8)}
    (hg : g d = .ok (num true 4 v)) :
    Sets 4 ((getNum k (some e) p).map g) (num true 4 v) := by
  refine ⟨num_length _ _ _, ?_⟩
  unfold getNum
  by_cases hd : d.toNat % 2 ^ 63 = 0
  · left
    rw [finds_none hf fun v hv => hv.1 hd, hz hd, num_zero]
    exact ⟨rfl, rfl⟩
  · right
    rw [(hf (.real d)).2 ⟨hd, rfl⟩]
    show some (g d) = _
    rw [hg]

theorem sets_float {h : Bool} {n : Headers2.Numbers} {k : Numbers} (hi : Inverse n k) {e : Json} {p : String} {f : Nat}
    (hf : Finds e p (number (n.widen f))) (hu : Usual f) (h32 : f < 2 ^ 32) :
    Sets 4 (float h k e p) (num true 4 f) := by
  refine sets_number hf (fun hz => ?_) ?_
  · have := hi.widen_zero f h32 hz
    have := hu.2
    omega
  · rw [hi.narrow f h32 hu.1, big_eq]

theorem sets_tenths {h : Bool} {n : Headers2.Numbers} {k : Numbers} (hi : Inverse n k) {e : Json} {p : String} {v : Nat}
    (hf : Finds e p (number (n.tenths v))) (h32 : v < 2 ^ 32) :
    Sets 4 (long h k k.tenths e p) (num true 4 v) := by
  refine sets_number hf (hi.tenths_zero v h32) ?_
  rw [hi.tenths v h32]
  show Res.ok _ = _
  rw [big_eq]

theorem sets_whole {h : Bool} {n : Headers2.Numbers} {k : Numbers} (hi : Inverse n k) {e : Json} {p : String} {v : Nat}
    (hf : Finds e p (number (n.num v))) (h32 : v < 2 ^ 32) :
    Sets 4 (long h k k.whole e p) (num true 4 v) := by
  refine sets_number hf (hi.whole_zero v h32) ?_
  rw [hi.whole v h32]
  show Res.ok _ = _
  rw [big_eq]

theorem takeWhile_text {s : List UInt8} (h : ∀ x ∈ s, x ≠ 0) : s.takeWhile (· != 0) = s :=
  Verif.Proof.ExtraHeaders.takeWhile_all s fun c hc => by simp [h c hc]

theorem openField_label {n : Nat} {t : Label} (hv : t.Valid n) (hr : t.rest = []) : openField t.s n = .ok t.bytes := by
  have hl := hv.length
  unfold Label.bytes at hl
  rw [hr] at hl
  simp at hl
  have hz : ∀ x ∈ t.s, x ≠ 0 := by
    intro x hx he
    have := (hv.ascii x hx).1
    rw [he] at this
    exact absurd this (by decide)
  obtain ⟨k, hk, he, _⟩ := Props.Str.C12_strncpopen t.s [0] n ⟨hz, Or.inr (Or.inl ⟨[], rfl⟩)⟩
  have hkn : k = t.s.length := by
    have h1 := hk.2.2.2 t.s.length (by simp; omega) (by omega) (wellFormed_ascii _ fun x hx => by
      have := hv.ascii x (List.mem_of_mem_take hx); omega)
    have h2 := hk.2.1
    omega
  subst hkn
  unfold openField Label.bytes
  rw [he, hr]
  simp only [Record3.ofMem, bind_ok, List.take_length, List.append_nil, Int.toNat_natCast]
  rw [show n - t.s.length = t.spaces by omega]

theorem replicate_zero {l : List UInt8} (h : ∀ b ∈ l, b = 0) : l = List.replicate l.length 0 :=
  List.eq_replicate_iff.2 ⟨rfl, h⟩

theorem sets_label {n : Nat} {e : Json} {p : String} {t : Label} (hf : Finds e p (text t.s)) (hv : t.Valid n) (hp : Plain t) :
    Sets n (label n (some e) p) t.bytes := by
  refine ⟨hv.length, ?_⟩
  unfold label getStr
  by_cases hs : t.s = []
  · left
    rw [finds_none hf fun v hv => hv.1 hs]
    refine ⟨rfl, ?_⟩
    have hb : t.bytes = t.rest := by
      unfold Label.bytes
      rw [hs, (hp.2 hs).1]
      rfl
    have hl := hv.length
    rw [hb] at hl ⊢
    rw [← hl]
    exact replicate_zero (hp.2 hs).2
  · right
    rw [(hf (.str t.s)).2 ⟨hs, rfl⟩]
    show some (openField (t.s.takeWhile (· != 0)) n) = _
    rw [takeWhile_text, openField_label hv (hp.1 hs)]
    intro x hx he
    have := (hv.ascii x hx).1
    rw [he] at this
    exact absurd this (by decide)

theorem sets_small {limit : Nat} {e : Json} {p : String} {b : UInt8} (hf : Finds e p fun v => v = .int b.toNat)
    (hb : b.toNat ≤ limit) : Sets 1 (small limit e p) [b] := by
  refine ⟨rfl, .inr ?_⟩
  unfold small getUint
  rw [(hf _).2 rfl]
  simp [hb]

/-! ## Times -/

theorem shown_char {k : Nat} {f : Verif.Spec.Fields} {month mday : Int} {x : Char}
    (hx : x ∈ Verif.Props.TimeStr.shown .isoMonthDayZ k f month mday) : 1 ≤ x.toNat ∧ x.toNat < 128 := by
  have hd : ∀ w k, ∀ c ∈ Verif.Spec.TimeStr.dec w k, 1 ≤ c.toNat ∧ c.toNat < 128 := by
    intro w k c hc
    have := Verif.Proof.TimeStr.dec_digits w k c hc
    unfold Verif.Spec.TimeStr.Digit at this
    omega
  have hf : ∀ k n, ∀ c ∈ Verif.Spec.TimeStr.fraction k n, 1 ≤ c.toNat ∧ c.toNat < 128 := by
    intro k n c hc
    unfold Verif.Spec.TimeStr.fraction at hc
    split at hc
    · cases hc
    · rcases List.mem_cons.1 hc with rfl | hc
      · decide
      · exact hd _ _ c hc
  simp only [Verif.Props.TimeStr.shown, Verif.Spec.TimeStr.date, Verif.Spec.TimeStr.clock, List.mem_append, List.mem_cons,
    List.not_mem_nil, or_false, or_assoc] at hx
  rcases hx with h | h | h | h | h | h | h | h | h | h | h | h | h
  all_goals first | exact hd _ _ _ h | exact hf _ _ _ h | (rw [h]; decide)

/-- The parts of the time. -/
def timeOf (t : BTime) (micro : Nat) : DateTime :=
  ⟨t.year, t.day, t.hour, t.minute, t.second, t.fract * 100000 + micro * 1000⟩

theorem btime_text {k : Numbers} (hr : Verif.Spec.Rounding k.rnd) {t : BTime} (hv : t.Valid) (ho : Ordinary t) {micro : Nat}
    (hm : micro ≤ 99) {f : Verif.Spec.Fields} {month mday : Int}
    (hd : Verif.Props.TimeStr.Dated (t.instant + micro * 1000) f month mday) :
    btime k (((Verif.Props.TimeStr.shown .isoMonthDayZ
        (Verif.Props.TimeStr.fractionDigits .nanoMicroNone (t.instant + micro * 1000)) f month mday).map
      fun c => UInt8.ofNat c.toNat)) = .ok (timeOf t micro) := by
  have hb := instant_bounds t hv
  have hi : Verif.Spec.InInt64 (t.instant + micro * 1000) := by unfold Verif.Spec.InInt64; omega
  have hmod : (t.instant + micro * 1000) % 1000 = 0 := by
    unfold BTime.instant Verif.Spec.Fields.instant
    simp only
    omega
  have he : t.instant + micro * 1000 ≠ NSTERROR := by
    have h1 := hv.instant
    have h2 : t.instant % 100000 = 0 := by
      unfold BTime.instant Verif.Spec.Fields.instant
      simp only
      omega
    unfold NSTERROR
    omega
  have hfield : (⟨t.year, t.day, t.hour, t.minute, t.second, t.fract * 100000 + micro * 1000⟩ : Verif.Spec.Fields).instant =
      t.instant + micro * 1000 := by
    unfold BTime.instant Verif.Spec.Fields.instant
    simp only
    omega
  have hval : (⟨t.year, t.day, t.hour, t.minute, t.second, t.fract * 100000 + micro * 1000⟩ : Verif.Spec.Fields).Valid := by
    have h1 := hv.date
    have h2 := hv.time
    have h3 := ho.1
    unfold Verif.Spec.Detect.SaneDate at h1
    constructor <;> simp only <;> omega
  obtain ⟨txt, h1, h2⟩ := Verif.Props.TimeStr.C06_read_back k.rnd hr _ hi (by
    have : Verif.Spec.Fields.instant ⟨1678, 1, 0, 0, 0, 0⟩ = -9214560000000000000 := by decide +kernel
    rw [this]; omega) .isoMonthDayZ (.inr (.inl rfl)) .nanoMicroNone
  rw [Verif.Props.TimeStr.C08_calendar_text _ hi f month mday hd .isoMonthDayZ ⟨by decide, by decide⟩ .nanoMicroNone] at h1
  simp only [Verif.Model.TimeStr.Printed.mk.injEq, Option.some.injEq, true_and] at h1
  have hcut : (t.instant + micro * 1000) %
      ((10 ^ (9 - Verif.Props.TimeStr.fractionDigits .nanoMicroNone (t.instant + micro * 1000)) : Nat) : Int) = 0 := by
    unfold Verif.Props.TimeStr.fractionDigits
    simp only
    by_cases h0 : (t.instant + micro * 1000) % 1000000000 = 0
    · rw [if_pos h0]
      exact h0
    · rw [if_neg h0, if_pos hmod]
      exact hmod
  have hch : ((Verif.Props.TimeStr.shown .isoMonthDayZ
        (Verif.Props.TimeStr.fractionDigits .nanoMicroNone (t.instant + micro * 1000)) f month mday).map
      fun c => UInt8.ofNat c.toNat).map (fun b => Char.ofNat b.toNat) = txt := by
    rw [← h1, List.map_map]
    conv => rhs; rw [← List.map_id (Verif.Props.TimeStr.shown _ _ _ _ _)]
    refine List.map_congr_left fun c hc => ?_
    have := (shown_char hc).2
    show Char.ofNat (UInt8.ofNat c.toNat).toNat = c
    rw [UInt8.toNat_ofNat', Nat.mod_eq_of_lt (by omega), Char.ofNat_toNat]
  unfold btime
  rw [hch, h2, hcut, Int.sub_zero]
  simp only
  rw [if_neg he]
  obtain ⟨d, e1, e2, e3, e4⟩ := Verif.Props.C01_nstime2time_gregorian _ hi
  rw [e1]
  have := e4 _ hval hfield
  simp only
  congr 1
  obtain ⟨a1, a2, a3, a4, a5, a6⟩ := d
  simp only [Verif.Props.toFields, Verif.Spec.Fields.mk.injEq] at this
  simp only [timeOf, DateTime.mk.injEq]
  omega

theorem btimeBytes_eq {h : Bool} {t : BTime} (hv : t.Valid) (ho : Ordinary t) {micro : Nat} (hm : micro ≤ 99) :
    btimeBytes h (timeOf t micro) = t.bytes true ∧ microOffset (timeOf t micro) = micro := by
  constructor
  · unfold btimeBytes timeOf BTime.bytes
    simp only [big_eq, Int.toNat_natCast, ho.2]
    congr 3
    omega
  · unfold microOffset timeOf
    simp only
    omega

theorem getStr_time {e : Json} {p : String} {t : BTime} {micro : Nat} (hf : Finds e p (time (t.instant + micro * 1000)))
    (hv : t.Valid) (hm : micro ≤ 99) : ∃ f month mday, Verif.Props.TimeStr.Dated (t.instant + micro * 1000) f month mday ∧
      getStr (some e) p = some ((Verif.Props.TimeStr.shown .isoMonthDayZ
        (Verif.Props.TimeStr.fractionDigits .nanoMicroNone (t.instant + micro * 1000)) f month mday).map
          fun c => UInt8.ofNat c.toNat) := by
  have hb := instant_bounds t hv
  have hi : Verif.Spec.InInt64 (t.instant + micro * 1000) := by unfold Verif.Spec.InInt64; omega
  have h1 := hv.instant
  have h2 : t.instant % 100000 = 0 := by
    unfold BTime.instant Verif.Spec.Fields.instant
    simp only
    omega
  obtain ⟨f, month, mday, hd⟩ := Verif.Props.TimeStr.dated_exists _ hi
  refine ⟨f, month, mday, hd, ?_⟩
  unfold getStr
  rw [(hf _).2 ⟨by omega, by omega, f, month, mday, hd, rfl⟩]
  simp only
  rw [takeWhile_text]
  intro x hx hz
  obtain ⟨c, hc, rfl⟩ := List.mem_map.1 hx
  have := shown_char hc
  have h3 := congrArg UInt8.toNat hz
  rw [UInt8.toNat_ofNat', Nat.mod_eq_of_lt (by omega)] at h3
  have h4 : (0 : UInt8).toNat = 0 := rfl
  omega

theorem sets_time {h : Bool} {k : Numbers} (hr : Verif.Spec.Rounding k.rnd) {e : Json} {p : String} {t : BTime}
    (hf : Finds e p (time t.instant)) (hv : t.Valid) (ho : Ordinary t) :
    Sets 10 (Blockettes2.time h k e p) (t.bytes true) := by
  refine ⟨btime_length _ _, .inr ?_⟩
  have hz : t.instant + ((0 : Nat) : Int) * 1000 = t.instant := by omega
  obtain ⟨f, month, mday, hd, hs⟩ := getStr_time (micro := 0) (by rw [hz]; exact hf) hv (by omega)
  unfold Blockettes2.time
  rw [hs]
  show some ((btime k _).bind _) = _
  rw [btime_text hr hv ho (by omega) hd, bind_ok, (btimeBytes_eq hv ho (by omega)).1]

theorem sets_timeMicro {h : Bool} {k : Numbers} (hr : Verif.Spec.Rounding k.rnd) {e : Json} {p : String} {t : BTime} {micro : Nat}
    (hm : micro ≤ 99) (hf : Finds e p (time (t.instant + micro * 1000))) (hv : t.Valid) (ho : Ordinary t) :
    Sets 11 (timeMicro h k e p) (t.bytes true ++ [UInt8.ofNat micro]) := by
  refine ⟨by simp [btime_length], .inr ?_⟩
  obtain ⟨f, month, mday, hd, hs⟩ := getStr_time hf hv hm
  unfold timeMicro
  rw [hs]
  show some ((btime k _).bind _) = _
  rw [btime_text hr hv ho hm hd, bind_ok, (btimeBytes_eq hv ho hm).1, (btimeBytes_eq (h := h) hv ho hm).2]

/-! ## Texts and booleans -/

/-- The members are looked up. -/
def Has (fs : Fields) (e : Json) : Prop := ∀ s P, (s, P) ∈ fs → ∀ p, lit p = pointer [name s] → Finds e p P

theorem pair_unique {α β : Type} {a : α} {b c : β} : ∀ {l : List (α × β)}, (l.map Prod.fst).Nodup → (a, b) ∈ l → (a, c) ∈ l → b = c
  | [], _, h, _ => by cases h
  | x :: l, hn, h1, h2 => by
    rw [List.map_cons, List.nodup_cons] at hn
    rcases List.mem_cons.1 h1 with e1 | h1 <;> rcases List.mem_cons.1 h2 with e2 | h2
    · exact (Prod.mk.inj (e1.trans e2.symm)).2
    · exact absurd (List.mem_map.2 ⟨_, h2, by rw [← e1]⟩) hn.1
    · exact absurd (List.mem_map.2 ⟨_, h1, by rw [← e2]⟩) hn.1
    · exact pair_unique hn.2 h1 h2

theorem has_entry {fs : Fields} {e : Json} (he : Entry fs e) (hn : ∀ s ∈ fs.map Prod.fst, s ∈ fieldNames)
    (hd : (fs.map Prod.fst).Nodup) : Has fs e := by
  intro s P hs p hp v
  have hn' : ∀ f ∈ fs, f.1 ∈ fieldNames := fun f hf => hn _ (List.mem_map.2 ⟨f, hf, rfl⟩)
  rw [entry_look he hn' (hn' _ hs) hp]
  constructor
  · rintro ⟨Q, hQ, hv⟩
    rw [pair_unique hd hs hQ]
    exact hv
  · exact fun hv => ⟨P, hs, hv⟩

theorem Has.left {a b : Fields} {e : Json} (h : Has (a ++ b) e) : Has a e :=
  fun s P hs => h s P (List.mem_append_left _ hs)

theorem finds_str {e : Json} {p : String} {P : Json → Prop} (h : Finds e p P) {s : List UInt8} (hs : P (.str s))
    (hz : ∀ x ∈ s, x ≠ 0) : getStr (some e) p = some s := by
  unfold getStr
  rw [(h _).2 hs]
  simp only
  rw [takeWhile_text hz]

theorem finds_one {e : Json} {p : String} {a : String} (h : Finds e p (choice [(true, a)])) (hz : ∀ x ∈ name a, x ≠ 0) :
    getStr (some e) p = some (name a) := finds_str h (.inl ⟨rfl, rfl⟩) hz

theorem finds_two {e : Json} {p : String} {c : Bool} {a b : String} (h : Finds e p (choice [(c, a), (true, b)]))
    (hz : ∀ x ∈ name a ++ name b, x ≠ 0) : getStr (some e) p = some (if c then name a else name b) := by
  cases c
  · exact finds_str h (.inr ⟨rfl, .inl ⟨rfl, rfl⟩⟩) fun x hx => hz x (List.mem_append_right _ hx)
  · exact finds_str h (.inl ⟨rfl, rfl⟩) fun x hx => hz x (List.mem_append_left _ hx)

theorem finds_trigger {e : Json} {c : Bool} (h : Finds e "/Trigger" (choice [(c, "AUTOMATIC"), (true, "MANUAL")])) :
    isLike e "/Trigger" "AUTOMATIC" = c := by
  unfold isLike
  rw [finds_two h (by decide +kernel)]
  clear h
  revert c
  decide +kernel

theorem finds_true {e : Json} {p : String} {c : Bool} (h : Finds e p fun v => c = true ∧ v = .bool true) : Blockettes2.isTrue e p = c := by
  unfold Blockettes2.isTrue getBool
  cases c
  · rw [finds_none h fun v hv => by simp at hv]
    rfl
  · rw [(h _).2 ⟨rfl, rfl⟩]
    rfl

theorem finds_range {e : Json} {a b c : Bool}
    (h : Finds e "/AmplitudeRange" (choice [(a, "PEAKTOPEAK"), (b, "ZEROTOPEAK"), (c, "RMS")])) :
    isLike e "/AmplitudeRange" "PEAKTOPEAK" = a ∧ isLike e "/AmplitudeRange" "ZEROTOPEAK" = (!a && b) ∧
    isLike e "/AmplitudeRange" "RMS" = (!a && !b && c) := by
  have hg : getStr (some e) "/AmplitudeRange" = if a then some (name "PEAKTOPEAK") else if b then some (name "ZEROTOPEAK") else
      if c then some (name "RMS") else none := by
    cases a
    · cases b
      · cases c
        · unfold getStr
          rw [finds_none h fun v hv => by simp [choice] at hv]
          rfl
        · exact finds_str h (.inr ⟨rfl, .inr ⟨rfl, .inl ⟨rfl, rfl⟩⟩⟩) (by decide +kernel)
      · exact finds_str h (.inr ⟨rfl, .inl ⟨rfl, rfl⟩⟩) (by decide +kernel)
    · exact finds_str h (.inl ⟨rfl, rfl⟩) (by decide +kernel)
  unfold isLike
  rw [hg]
  clear hg h
  revert a b c
  decide +kernel

theorem finds_random {e : Json} {a : Bool} (h : Finds e "/AmplitudeRange" (choice [(a, "RANDOM")])) :
    isLike e "/AmplitudeRange" "RANDOM" = a := by
  have hg : getStr (some e) "/AmplitudeRange" = if a then some (name "RANDOM") else none := by
    cases a
    · unfold getStr
      rw [finds_none h fun v hv => by simp [choice] at hv]
      rfl
    · exact finds_str h (.inl ⟨rfl, rfl⟩) (by decide +kernel)
  unfold isLike
  rw [hg]
  clear hg h
  revert a
  decide +kernel

end Verif.Proof.Blockettes2
