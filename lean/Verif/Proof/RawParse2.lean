import Verif.Proof.RawParse
/-! Lemmas on the header checks of version 2 records: the whole function. -/
namespace Verif.Proof.RawParse
open Verif.Model Verif.Model.Bytes Verif.Model.Steim Verif.Model.Mem Verif.Model.RawParse
open Verif.Proof.Mem Verif.Proof.Detect Verif.Spec.Detect Verif.Spec.RawParse

theorem count_say (c : Bool) (k m : Message) (r : Report) :
    (say c k r).messages.count m = r.messages.count m + if c = true ∧ m = k then 1 else 0 := by
  unfold say
  cases c
  · simp
  · simp only [if_true, List.count_append, true_and]
    by_cases h : m = k
    · subst h; simp
    · rw [if_neg h, List.count_eq_zero (l := [k]) |>.2 (by simpa using h)]

/-- The order of the bytes and whether they are swapped. -/
theorem order_record (h : Bool) (buf : List UInt8) :
    order h (decide ((-1 : Int) = -1) && !Detect.validYearDay (u16 h buf 20) (u16 h buf 22)) = recordBE h buf := by
  unfold recordBE order Detect.validYearDay
  by_cases hd : SaneDate (u16 h buf 20) (u16 h buf 22)
  · rw [if_pos hd]
    unfold SaneDate at hd
    simp [hd]
  · rw [if_neg hd]
    unfold SaneDate at hd
    simp [hd]

/-- The function up to the blockettes. -/
theorem raw2_start (h signed : Bool) (buf : List UInt8) (n : Nat) (details : Int) (fuel : Nat) (h48 : 48 ≤ n) (hn : n ≤ buf.length)
    (hs : signed = true → ∀ x ∈ buf.take 6, x.toNat < 128) :
    ∃ swap, order h swap = recordBE h buf ∧ raw2 h signed buf n details (-1) fuel =
      if u16 (recordBE h buf) buf 46 > 46 ∧ u16 (recordBE h buf) buf 46 < n then
        (walk h swap buf n details fuel (u16 (recordBE h buf) buf 46) { report := report2 (recordBE h buf) buf }).bind
          fun (w, off) => .ok (finish n (u16 (recordBE h buf) buf 30) (u8 buf 39) (u16 (recordBE h buf) buf 44)
            (u16 (recordBE h buf) buf 46) off w)
      else .ok (report2 (recordBE h buf) buf) := by
  refine ⟨_, order_record h buf, ?_⟩
  obtain ⟨s, e⟩ := Verif.Proof.Record2.recordSid_ok buf (by omega)
  rw [← order_record h buf]
  unfold raw2
  rw [if_neg (by omega), e, bind_ok, load2 _ _ _ _ (by omega), bind_ok, load2 _ _ _ _ (by omega), bind_ok]
  rw [show (if false = true then !h else h) = h from rfl]
  generalize (decide ((-1 : Int) = -1) && !Detect.validYearDay (u16 h buf 20) (u16 h buf 22)) = swap
  show (header2 h signed swap buf).bind _ = _
  rw [header2_eq h signed swap buf (by omega) hs, bind_ok]
  have e2 : ∃ x, (if details ≥ 1 then peek buf 0 48 else .ok [] : Res (List UInt8)) = .ok x := by
    split
    · exact ⟨_, peek_ok (by omega)⟩
    · exact ⟨_, rfl⟩
  obtain ⟨x, e2⟩ := e2
  rw [e2, bind_ok, load2' _ _ _ _ (by omega), bind_ok, load2' _ _ _ _ (by omega), bind_ok, load_u8 _ _ _ (by omega), bind_ok,
    load2' _ _ _ _ (by omega), bind_ok]

/-- The function on a sound chain. -/
theorem raw2_chain (h signed : Bool) (buf : List UInt8) (n : Nat) (details : Int) (fuel : Nat) (h48 : 48 ≤ n) (hn : n ≤ buf.length)
    (hs : signed = true → ∀ x ∈ buf.take 6, x.toNat < 128) (offs : List Nat)
    (hc : Chain (recordBE h buf) buf n (u16 (recordBE h buf) buf 46) offs) (hf : offs.length < fuel) :
    ∃ o, offs.getLast? = some o ∧ raw2 h signed buf n details (-1) fuel =
      .ok (finish n (u16 (recordBE h buf) buf 30) (u8 buf 39) (u16 (recordBE h buf) buf 44) (u16 (recordBE h buf) buf 46) 0
        { report := Report.plus (report2 (recordBE h buf) buf) (offs.flatMap (faultsAt (recordBE h buf) buf))
          reclen := ((recordLength (recordBE h buf) buf offs).map Int.ofNat).getD (-1)
          last := (o : Int) + told (recordBE h buf) buf o - 1
          count := offs.length }) := by
  obtain ⟨swap, e1, e2⟩ := raw2_start h signed buf n details fuel h48 hn hs
  have hr : 48 ≤ u16 (recordBE h buf) buf 46 ∧ u16 (recordBE h buf) buf 46 < n := by
    generalize u16 (recordBE h buf) buf 46 = off at hc
    rw [← e1] at hc
    cases hc with
    | last _ size b _ =>
      have := (blktLen_told h swap buf n _ size hn b).2.2.2
      exact ⟨b.start, by have := b.fits; omega⟩
    | link _ size _ b _ _ =>
      have := (blktLen_told h swap buf n _ size hn b).2.2.2
      exact ⟨b.start, by have := b.fits; omega⟩
  rw [if_pos (by omega)] at e2
  rw [e2, ← e1]
  rw [← e1] at hc
  obtain ⟨o, ho, e⟩ := walk_eq h swap buf n details hn _ offs hc fuel hf { report := report2 (order h swap) buf }
  refine ⟨o, ho, ?_⟩
  rw [e, bind_ok]
  simp only [Nat.zero_add]

/-! ## What holds for any bytes -/

/-- The messages about blockettes. -/
def late : List Message :=
  [.length, .fit, .type, .encoding, .order, .link, .beyond, .dataBeyond, .firstBeyond, .dataWithin, .count]

/-- Messages about blockettes were added, each counted except for the links. -/
def Ext (r r' : Report) : Prop :=
  ∃ ms, r'.messages = r.messages ++ ms ∧ (∀ m ∈ ms, m ∈ late) ∧ r'.retval = r.retval + (ms.filter (· ≠ Message.link)).length

theorem ext_refl (r : Report) : Ext r r := ⟨[], by simp, by simp, by simp⟩

theorem ext_trans {a b c : Report} (h1 : Ext a b) (h2 : Ext b c) : Ext a c := by
  obtain ⟨m1, a1, b1, c1⟩ := h1
  obtain ⟨m2, a2, b2, c2⟩ := h2
  refine ⟨m1 ++ m2, by rw [a2, a1, List.append_assoc], List.forall_mem_append.2 ⟨b1, b2⟩, ?_⟩
  rw [c2, c1, List.filter_append, List.length_append]
  omega

theorem ext_say (c : Bool) (m : Message) (r : Report) (hm : m ∈ late) (hl : m ≠ .link) : Ext r (say c m r) := by
  unfold say
  cases c
  · exact ext_refl r
  · exact ⟨[m], rfl, by simpa using hm, by simp [hl]⟩

theorem blockette_ext {h swap : Bool} {buf : List UInt8} {details : Int} {off type : Nat} {r r' : Report} {l l' : Int}
    (e : RawParse.blockette h swap buf details off type r l = .ok (r', l')) : Ext r r' := by
  unfold RawParse.blockette at e
  obtain ⟨_, -, e⟩ := bind_eq_ok.1 e
  by_cases h1 : type = 1000
  · rw [if_pos h1] at e
    obtain ⟨x, -, e⟩ := bind_eq_ok.1 e
    by_cases h2 : x ≥ 32
    · rw [if_pos h2] at e; cases e
    · rw [if_neg h2] at e
      obtain ⟨_, -, e⟩ := bind_eq_ok.1 e
      obtain ⟨_, -, e⟩ := bind_eq_ok.1 e
      rw [← (Prod.mk.inj (Res.ok.inj e)).1]
      exact ext_trans (ext_say _ _ _ (by decide) (by decide)) (ext_say _ _ _ (by decide) (by decide))
  · rw [if_neg h1] at e
    by_cases h2 : type = 2000
    · rw [if_pos h2] at e
      obtain ⟨_, -, e⟩ := bind_eq_ok.1 e
      obtain ⟨_, -, e⟩ := bind_eq_ok.1 e
      rw [← (Prod.mk.inj (Res.ok.inj e)).1]
      exact ext_refl r
    · rw [if_neg h2] at e
      rw [← (Prod.mk.inj (Res.ok.inj e)).1]
      exact ext_say _ _ _ (by decide) (by decide)

theorem walk_ext {h swap : Bool} {buf : List UInt8} {n : Nat} {details : Int} (fuel : Nat) {off off' : Nat} {w w' : Walk}
    (e : walk h swap buf n details fuel off w = .ok (w', off')) : Ext w.report w'.report := by
  induction fuel generalizing off w with
  | zero => rw [walk] at e; cases e
  | succ fuel ih =>
    rw [walk] at e
    by_cases h1 : off ≠ 0 ∧ off < n
    · rw [if_pos h1] at e
      obtain ⟨type, -, e⟩ := bind_eq_ok.1 e
      obtain ⟨next, -, e⟩ := bind_eq_ok.1 e
      obtain ⟨len, -, e⟩ := bind_eq_ok.1 e
      simp only at e
      have g1 : Ext w.report (say (decide (len = 0)) .length w.report) := ext_say _ _ _ (by decide) (by decide)
      by_cases h2 : (off : Int) + len - 1 > n
      · rw [if_pos h2] at e
        rw [← (Prod.mk.inj (Res.ok.inj e)).1]
        exact ext_trans g1 (ext_say _ _ _ (by decide) (by decide))
      · rw [if_neg h2] at e
        obtain ⟨⟨r, l⟩, e1, e⟩ := bind_eq_ok.1 e
        have g2 := ext_trans g1 (blockette_ext e1)
        simp only at e
        by_cases h3 : next ≠ 0 ∧ (next : Int) ≤ (off : Int) + len - 1
        · rw [if_pos h3] at e
          have g3 := ih e
          exact ext_trans (ext_trans g2 ⟨[.link], rfl, by decide, by simp⟩) g3
        · rw [if_neg h3] at e
          exact ext_trans g2 (ih e)
    · rw [if_neg h1] at e
      rw [← (Prod.mk.inj (Res.ok.inj e)).1]
      exact ext_refl _

theorem finish_ext (n a b c d off : Nat) (w : Walk) : Ext w.report (finish n a b c d off w) :=
  ext_trans (ext_trans (ext_trans (ext_trans (ext_say _ _ _ (by decide) (by decide)) (ext_say _ _ _ (by decide) (by decide)))
    (ext_say _ _ _ (by decide) (by decide))) (ext_say _ _ _ (by decide) (by decide))) (ext_say _ _ _ (by decide) (by decide))

theorem raw2_ext (h signed : Bool) (buf : List UInt8) (n : Nat) (details : Int) (fuel : Nat) (h48 : 48 ≤ n) (hn : n ≤ buf.length)
    (hs : signed = true → ∀ x ∈ buf.take 6, x.toNat < 128) {r : Report} (e : raw2 h signed buf n details (-1) fuel = .ok r) :
    Ext (report2 (recordBE h buf) buf) r := by
  obtain ⟨swap, e1, e2⟩ := raw2_start h signed buf n details fuel h48 hn hs
  rw [e] at e2
  by_cases hf : u16 (recordBE h buf) buf 46 > 46 ∧ u16 (recordBE h buf) buf 46 < n
  · rw [if_pos hf] at e2
    obtain ⟨⟨w, off⟩, g1, g2⟩ := bind_eq_ok.1 e2.symm
    rw [← Res.ok.inj g2]
    exact ext_trans (walk_ext fuel g1) (finish_ext ..)
  · rw [if_neg hf] at e2
    rw [Res.ok.inj e2]
    exact ext_refl _

theorem counted2 (be : Bool) (buf : List UInt8) : Counted (report2 be buf) := by
  unfold report2
  repeat' apply counted_say
  exact counted_nil

theorem ext_counted {r r' : Report} (hc : Counted r) (hl : Message.link ∉ r.messages) (h : Ext r r') :
    r'.retval + r'.messages.count .link = r'.messages.length := by
  obtain ⟨ms, a, -, c⟩ := h
  rw [a, c, List.count_append, List.length_append, List.count_eq_zero.2 hl, hc]
  have : (ms.filter (· ≠ Message.link)).length + ms.count .link = ms.length := by
    clear a c
    induction ms with
    | nil => rfl
    | cons m ms ih =>
      by_cases hm : m = .link
      · subst hm; simp at ih ⊢; omega
      · simp [hm, List.count_cons] at ih ⊢; omega
  omega

/-! ## The end of the loop -/

theorem blktLen_cases (h swap : Bool) (buf : List UInt8) (off : Nat) (hl : off + 6 ≤ buf.length) :
    ∃ len, Record2.blktLen h swap buf off (u16 (order h swap) buf off) = .ok len ∧
      (len = 0 → u16 (order h swap) buf off ∉ sizes.map (·.1) ∧
        (u16 (order h swap) buf off = 2000 → u16 (order h swap) buf (off + 4) = 0)) := by
  unfold Record2.blktLen
  rw [load2' _ _ _ _ (by omega)]
  generalize u16 (order h swap) buf off = t
  by_cases h2 : t = 2000
  · subst h2
    exact ⟨_, rfl, fun e => ⟨by decide, fun _ => e⟩⟩
  · rw [if_neg h2]
    simp only [sizes, List.map_cons, List.map_nil, List.mem_cons, List.not_mem_nil, or_false, not_or]
    by_cases ht : t = 100 ∨ t = 200 ∨ t = 201 ∨ t = 300 ∨ t = 310 ∨ t = 320 ∨ t = 390 ∨ t = 395 ∨ t = 400 ∨ t = 500 ∨ t = 1000 ∨
        t = 1001
    · rcases ht with rfl | rfl | rfl | rfl | rfl | rfl | rfl | rfl | rfl | rfl | rfl | rfl <;>
        exact ⟨_, rfl, fun e => absurd e (by decide)⟩
    · simp only [not_or] at ht
      obtain ⟨a1, a2, a3, a4, a5, a6, a7, a8, a9, b1, b2, b3⟩ := ht
      rw [if_neg a1, if_neg a2, if_neg a3, if_neg a4, if_neg a5, if_neg a6, if_neg a7, if_neg a8, if_neg a9, if_neg b1,
        if_neg b2, if_neg b3]
      exact ⟨0, rfl, fun _ => ⟨⟨a1, a2, a3, a4, a5, a6, a7, a8, a9, b1, b2, b3⟩, fun e => absurd e h2⟩⟩

theorem text_ne_err (mem : List UInt8) (n off : Nat) : text mem off n ≠ .err := by
  induction n generalizing off with
  | zero => nofun
  | succ n ih =>
    rw [text]
    refine bind_ne_err (peek_ne_err _ _ _) fun b _ => ?_
    split
    · nofun
    · exact ih _

theorem itemsRead_ne_err (mem : List UInt8) (off : Nat) (details : Int) (is : List Item) : itemsRead mem off details is ≠ .err := by
  induction is with
  | nil => nofun
  | cons i is ih =>
    rw [itemsRead]
    refine bind_ne_err ?_ fun _ _ => ih
    cases i with
    | num o n => exact bind_ne_err (peek_ne_err _ _ _) fun _ _ => nofun
    | text o n => exact text_ne_err _ _ _
    | all o n =>
      rw [item]
      split
      · exact bind_ne_err (peek_ne_err _ _ _) fun _ _ => nofun
      · nofun

theorem blockette_ne_err (h swap : Bool) (buf : List UInt8) (details : Int) (off type : Nat) (r : Report) (l : Int) :
    RawParse.blockette h swap buf details off type r l ≠ .err := by
  unfold RawParse.blockette
  refine bind_ne_err ?_ fun _ _ => ?_
  · split
    · exact itemsRead_ne_err _ _ _ _
    · nofun
  split
  · refine bind_ne_err (load_ne_err _ _ _ _ _) fun _ _ => ?_
    split
    · nofun
    · exact bind_ne_err (load_ne_err _ _ _ _ _) fun _ _ => bind_ne_err (load_ne_err _ _ _ _ _) fun _ _ => nofun
  split
  · refine bind_ne_err (peek_ne_err _ _ _) fun _ _ => bind_ne_err ?_ fun _ _ => nofun
    split
    · exact bind_ne_err (load_ne_err _ _ _ _ _) fun _ _ => text_ne_err _ _ _
    · nofun
  · nofun

theorem walk_ends (h swap : Bool) (buf : List UInt8) (n : Nat) (details : Int)
    (hs : ∀ off, 0 < off → off < n → ¬ Stuck (order h swap) buf off) (hn : n + 5 ≤ buf.length) (fuel off : Nat) (w : Walk)
    (ho : off < 65536) (hf : off = 0 ∧ 1 ≤ fuel ∨ 65538 ≤ fuel + off) : walk h swap buf n details fuel off w ≠ .err := by
  induction fuel generalizing off w with
  | zero => omega
  | succ fuel ih =>
    rw [walk]
    by_cases h1 : off ≠ 0 ∧ off < n
    · obtain ⟨len, l1, l2⟩ := blktLen_cases h swap buf off (by omega)
      have hns := hs off (by omega) h1.2
      have hlt := u16_lt (order h swap) buf (off + 2)
      rw [if_pos h1, load2' _ _ _ _ (by omega), bind_ok, load2' _ _ _ _ (by omega), bind_ok, l1, bind_ok]
      simp only
      split
      · nofun
      refine bind_ne_err (blockette_ne_err _ _ _ _ _ _ _ _) fun ⟨r, l⟩ _ => ?_
      dsimp only
      by_cases h3 : u16 (order h swap) buf (off + 2) ≠ 0 ∧ (u16 (order h swap) buf (off + 2) : Int) ≤ (off : Int) + len - 1
      · rw [if_pos h3]
        exact ih _ _ (by omega) (Or.inl ⟨rfl, by omega⟩)
      · rw [if_neg h3]
        refine ih _ _ hlt ?_
        by_cases h4 : u16 (order h swap) buf (off + 2) = 0
        · exact Or.inl ⟨h4, by omega⟩
        · right
          have : u16 (order h swap) buf (off + 2) ≠ off ∨ len ≠ 0 := by
            by_cases h5 : len = 0
            · left
              intro e
              exact hns ⟨e, l2 h5⟩
            · exact Or.inr h5
          omega
    · rw [if_neg h1]
      nofun

theorem short_ite {c : Prop} [Decidable c] {a b : List Item}
    (ha : ∀ i ∈ a, (match i with | .num o n => o + n | .text o n => o + n | .all o n => o + n) ≤ 200)
    (hb : ∀ i ∈ b, (match i with | .num o n => o + n | .text o n => o + n | .all o n => o + n) ≤ 200) :
    ∀ i ∈ if c then a else b, (match i with | .num o n => o + n | .text o n => o + n | .all o n => o + n) ≤ 200 := by
  by_cases h : c
  · rw [if_pos h]; exact ha
  · rw [if_neg h]; exact hb

theorem items_short (type : Nat) :
    ∀ i ∈ items type, (match i with | .num o n => o + n | .text o n => o + n | .all o n => o + n) ≤ 200 := by
  unfold items
  repeat' apply short_ite
  all_goals simp

theorem blockette_in (h swap : Bool) (buf : List UInt8) (details : Int) (off type : Nat) (r : Report) (l : Int)
    (hd : details ≤ 1) (hl : off + 200 ≤ buf.length) : RawParse.blockette h swap buf details off type r l ≠ .oob := by
  unfold RawParse.blockette
  refine bind_ne_oob ?_ fun _ _ => ?_
  · split
    · rw [itemsRead_ok _ _ 200 _ _ (items_short type) hl]
      nofun
    · nofun
  split
  · refine bind_ne_oob (load_ne_oob (by omega)) fun _ _ => ?_
    split
    · nofun
    · exact bind_ne_oob (load_ne_oob (by omega)) fun _ _ => bind_ne_oob (load_ne_oob (by omega)) fun _ _ => nofun
  split
  · refine bind_ne_oob (peek_ne_oob (by omega)) fun _ _ => bind_ne_oob ?_ fun _ _ => nofun
    rw [if_neg (by omega)]
    nofun
  · nofun

theorem walk_in (h swap : Bool) (buf : List UInt8) (n : Nat) (details : Int) (hd : details ≤ 1) (hn : n + 200 ≤ buf.length)
    (fuel off : Nat) (w : Walk) : walk h swap buf n details fuel off w ≠ .oob := by
  induction fuel generalizing off w with
  | zero => nofun
  | succ fuel ih =>
    rw [walk]
    by_cases h1 : off ≠ 0 ∧ off < n
    · obtain ⟨len, l1, -⟩ := blktLen_cases h swap buf off (by omega)
      rw [if_pos h1, load2' _ _ _ _ (by omega), bind_ok, load2' _ _ _ _ (by omega), bind_ok, l1, bind_ok]
      simp only
      split
      · nofun
      refine bind_ne_oob (blockette_in _ _ _ _ _ _ _ _ hd (by omega)) fun ⟨r, l⟩ _ => ?_
      dsimp only
      split
      · exact ih _ _
      · exact ih _ _
    · rw [if_neg h1]
      nofun

end Verif.Proof.RawParse
