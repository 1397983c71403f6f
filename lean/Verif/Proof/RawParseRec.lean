import Verif.Proof.RawParse2
import Verif.Proof.Record3
/-! Lemmas on the header checks of records that are read. -/
namespace Verif.Proof.RawParse
open Verif.Model Verif.Model.Bytes Verif.Model.Steim Verif.Model.Mem Verif.Model.RawParse
open Verif.Proof.Mem Verif.Proof.Detect Verif.Spec.Detect Verif.Spec.RawParse

theorem u8_of {h : Bool} {mem : List UInt8} {off v : Nat} (hl : off + 1 ≤ mem.length) (e : load h false mem off 1 = .ok v) :
    u8 mem off = v := by
  rw [load_u8 h mem off hl] at e
  exact Res.ok.inj e

theorem le2_of {mem : List UInt8} {off v : Nat} (hl : off + 2 ≤ mem.length) (e : load false false mem off 2 = .ok v) :
    u16 false mem off = v := by
  rw [load_le2 false mem off hl] at e
  exact Res.ok.inj e

theorem le4_of {mem : List UInt8} {off v : Nat} (hl : off + 4 ≤ mem.length) (e : load false false mem off 4 = .ok v) :
    u32le mem off = v := by
  rw [load_le4 false mem off hl] at e
  exact Res.ok.inj e

theorem u16_of {be : Bool} {mem : List UInt8} {off v : Nat} (hl : off + 2 ≤ mem.length)
    (e : load be (be != be) mem off 2 = .ok v) : u16 be mem off = v := by
  rw [load2' be _ mem off hl] at e
  have := Res.ok.inj e
  rwa [show order be (be != be) = be by cases be <;> rfl] at this

theorem u8_peek {mem : List UInt8} {off : Nat} {x : UInt8} (e : peek mem off 1 = .ok [x]) : u8 mem off = x.toNat := by
  have e2 : load false false mem off 1 = .ok x.toNat := by
    unfold load
    rw [e, bind_ok]
    simp [swapIf, hostNat, beNat]
  by_cases hl : off + 1 ≤ mem.length
  · exact u8_of hl e2
  · unfold peek at e
    rw [if_neg hl] at e
    cases e

/-! ## Chains of records -/
section
open Verif.Spec.Record2 Verif.Proof.Record2

/-- The offsets of the blockettes. -/
def offsets : Nat → List (Blkt × List UInt8) → List Nat
  | _, [] => []
  | off, (b, pad) :: bs => off :: offsets (off + b.size + pad.length) bs

theorem sized_blkt (b : Blkt) (v : b.Valid) (h : b.type ≠ 2000) : (b.type, b.size) ∈ sizes := by
  cases b with
  | rate f rest => simp [Blkt.type, Blkt.size, sizes, v.2]
  | beam rest => simp only [Blkt.Valid] at v; simp [Blkt.type, Blkt.size, sizes, v]
  | data e o x z => simp [Blkt.type, Blkt.size, sizes]
  | timing q m z f => simp [Blkt.type, Blkt.size, sizes]
  | mapped m => cases m <;> simp [Blkt.type, Mapped.type, Blkt.size, Mapped.sizes, sizes]
  | block2000 rest => exact absurd rfl h

theorem data_of_type {b : Blkt} (h : b.type = 1000) : ∃ e o x z, b = .data e o x z := by
  cases b with
  | data e o x z => exact ⟨e, o, x, z, rfl⟩
  | mapped m => cases m <;> simp [Blkt.type, Mapped.type] at h
  | _ => simp [Blkt.type] at h

/-- What the bytes say at the offset of a blockette. -/
structure Says (be : Bool) (buf : List UInt8) (off : Nat) (b : Blkt) : Prop where
  type : u16 be buf off = b.type
  data : ∀ e o x z, b = .data e o x z → u8 buf (off + 4) = e.toNat ∧ u8 buf (off + 5) = o.toNat ∧ u8 buf (off + 6) = x.toNat

theorem chain_rec (be : Bool) (n : Nat) (cs : List (Blkt × List UInt8)) : ∀ (pre post : List UInt8) (off : Nat), pre.length = off →
    48 ≤ off → cs ≠ [] → (∀ b ∈ cs, b.1.Valid) → (∀ b ∈ cs, b.1.type ≠ 2000) →
    (∀ b ∈ cs, ∀ e o x, b.1.data? = some (e, o, x) → x.toNat < 31) → off + (chainBytes be off cs).length ≤ n →
    off + (chainBytes be off cs).length < 65536 →
    Chain be (pre ++ (chainBytes be off cs ++ post)) n off (offsets off cs) ∧
    ∀ p ∈ (offsets off cs).zip cs, Says be (pre ++ (chainBytes be off cs ++ post)) p.1 p.2.1 := by
  induction cs with
  | nil => intro _ _ _ _ _ h; exact absurd rfl h
  | cons c cs ih =>
    obtain ⟨b, pad⟩ := c
    intro pre post off ho h48 _ hv ht hx hn hlt
    have vb : b.Valid := hv _ List.mem_cons_self
    have hb := body_length be b vb
    have hl := chain_cons_length be off b pad cs vb
    have hsz := size_pos b vb
    have hnext : (if cs = [] then 0 else off + b.size + pad.length) < 65536 := by split <;> omega
    have g1 := blkt_type (h := be) (be := be) (b := b) (next := if cs = [] then 0 else off + b.size + pad.length)
      (post := pad ++ (chainBytes be (off + b.size + pad.length) cs ++ post)) (ho := ho)
    have g2 := blkt_next (h := be) (be := be) (b := b)
      (post := pad ++ (chainBytes be (off + b.size + pad.length) cs ++ post)) (ho := ho) (hn := hnext)
    have g3 := fun o k hl => body_peek (be := be) (b := b) (next := if cs = [] then 0 else off + b.size + pad.length)
      (post := pad ++ (chainBytes be (off + b.size + pad.length) cs ++ post)) (ho := ho) (o := o) (n := k) (hl := hl)
    rw [← chain_cons] at g1 g2
    simp only [← chain_cons] at g3
    have hlen : off + b.size ≤ (pre ++ (chainBytes be off ((b, pad) :: cs) ++ post)).length := by
      simp only [List.length_append]; omega
    have t1 := u16_of (by omega) g1
    have t2 := u16_of (by omega) g2
    have says : Says be (pre ++ (chainBytes be off ((b, pad) :: cs) ++ post)) off b := by
      refine ⟨t1, ?_⟩
      rintro e o x z rfl
      exact ⟨u8_peek (g3 0 1 (by simp [Blkt.body])), u8_peek (g3 1 1 (by simp [Blkt.body])), u8_peek (g3 2 1 (by simp [Blkt.body]))⟩
    have hblk : Blockette be (pre ++ (chainBytes be off ((b, pad) :: cs) ++ post)) n off b.size := by
      refine ⟨h48, Or.inl (by rw [t1]; exact sized_blkt b vb (ht _ List.mem_cons_self)), by omega, ?_, ?_⟩
      · intro e
        rw [t1] at e
        obtain ⟨e', o, x, z, rfl⟩ := data_of_type e
        rw [(says.data _ _ _ _ rfl).2.2]
        exact hx _ List.mem_cons_self _ _ _ rfl
      · intro e
        exact absurd (t1.symm.trans e) (ht _ List.mem_cons_self)
    by_cases hcs : cs = []
    · subst hcs
      rw [if_pos rfl] at t2
      refine ⟨.last off b.size hblk t2, ?_⟩
      intro p hp
      simp only [offsets, List.zip_cons_cons, List.zip_nil_right, List.mem_singleton] at hp
      subst hp
      exact says
    · rw [if_neg hcs] at t2
      have e : pre ++ (chainBytes be off ((b, pad) :: cs) ++ post) =
          (pre ++ (num be 2 b.type ++ (num be 2 (if cs = [] then 0 else off + b.size + pad.length) ++ (b.body be ++ pad)))) ++
            (chainBytes be (off + b.size + pad.length) cs ++ post) := by
        rw [chain_cons]; simp only [List.append_assoc]
      obtain ⟨i1, i2⟩ := ih (pre ++ (num be 2 b.type ++ (num be 2 (if cs = [] then 0 else off + b.size + pad.length) ++ (b.body be ++ pad))))
        post (off + b.size + pad.length) (by simp [num_length, ho]; omega) (by omega) hcs (fun x hm => hv x (List.mem_cons_of_mem _ hm))
        (fun x hm => ht x (List.mem_cons_of_mem _ hm)) (fun x hm => hx x (List.mem_cons_of_mem _ hm)) (by omega) (by omega)
      rw [← e] at i1 i2
      refine ⟨.link off b.size _ hblk (by rw [t2]; omega) (by rw [t2]; exact i1), ?_⟩
      rw [offsets, List.zip_cons_cons, List.forall_mem_cons]
      exact ⟨says, i2⟩

theorem offsets_length (cs : List (Blkt × List UInt8)) : ∀ off, (offsets off cs).length = cs.length := by
  induction cs with
  | nil => intro _; rfl
  | cons c cs ih => intro off; obtain ⟨b, pad⟩ := c; simp [offsets, ih]

theorem mem_zip_left {α β : Type} {a : List α} {b : List β} (h : a.length = b.length) {x : α} (hx : x ∈ a) : ∃ y, (x, y) ∈ a.zip b := by
  induction a generalizing b with
  | nil => cases hx
  | cons c a ih =>
    match b, h with
    | d :: b, h =>
      rcases List.mem_cons.1 hx with rfl | hx
      · exact ⟨d, by simp⟩
      · obtain ⟨y, hy⟩ := ih (by simpa using h) hx
        exact ⟨y, by simp [hy]⟩

theorem mem_zip_right {α β : Type} {a : List α} {b : List β} (h : a.length = b.length) {y : β} (hy : y ∈ b) : ∃ x, (x, y) ∈ a.zip b := by
  induction b generalizing a with
  | nil => cases hy
  | cons c b ih =>
    match a, h with
    | d :: a, h =>
      rcases List.mem_cons.1 hy with rfl | hy
      · exact ⟨d, by simp⟩
      · obtain ⟨x, hx⟩ := ih (by simpa using h) hy
        exact ⟨x, by simp [hx]⟩

theorem offsets_last (be : Bool) (cs : List (Blkt × List UInt8)) : ∀ off, cs ≠ [] → (∀ b ∈ cs, b.1.Valid) →
    ∃ o b, (offsets off cs).getLast? = some o ∧ (o, b) ∈ (offsets off cs).zip cs ∧
      o + b.1.size ≤ off + (chainBytes be off cs).length := by
  induction cs with
  | nil => intro _ h; exact absurd rfl h
  | cons c cs ih =>
    obtain ⟨b, pad⟩ := c
    intro off _ hv
    have hl := chain_cons_length be off b pad cs (hv _ List.mem_cons_self)
    by_cases hcs : cs = []
    · subst hcs
      exact ⟨off, (b, pad), rfl, by simp [offsets], by simp only; omega⟩
    · obtain ⟨o, b', h1, h2, h3⟩ := ih (off + b.size + pad.length) hcs fun x hm => hv x (List.mem_cons_of_mem _ hm)
      refine ⟨o, b', ?_, ?_, by omega⟩
      · rw [offsets, List.getLast?_cons, h1]; rfl
      · rw [offsets, List.zip_cons_cons]; exact List.mem_cons_of_mem _ h2

theorem recordBE_rec (h : Bool) (r : Rec) (v : r.Valid) (ht : Told h r) (t : List UInt8) : recordBE h (r.fixed ++ t) = r.be := by
  obtain ⟨y, d, e1, e2, e3⟩ := order_told h r v ht t
  have hl : 48 ≤ (r.fixed ++ t).length := by simp [fixed_length2 r v]
  rw [load2' _ _ _ _ (by omega)] at e1 e2
  rw [← Res.ok.inj e1, ← Res.ok.inj e2] at e3
  rw [← order_record h]
  show order h (decide ((-1 : Int) = -1) && !Detect.validYearDay (u16 (order h false) (r.fixed ++ t) 20) (u16 (order h false) (r.fixed ++ t) 22)) = _
  rw [e3]
  cases r.be <;> cases h <;> rfl

end

end Verif.Proof.RawParse
