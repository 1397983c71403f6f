import Verif.Model.Mem
import Verif.Proof.Steim
/-! Lemmas on checked buffer access. -/
namespace Verif.Proof.Mem
open Verif.Model.Bytes Verif.Model.Steim Verif.Model.Mem Verif.Proof.Bytes

theorem bind_ok {α β} (v : α) (f : α → Res β) : (Res.ok v).bind f = f v := rfl

theorem bind_eq_ok {α β} {r : Res α} {f : α → Res β} {b : β} :
    r.bind f = .ok b ↔ ∃ a, r = .ok a ∧ f a = .ok b := by
  cases r <;> simp [Res.bind]

theorem bind_ne_oob {α β} {r : Res α} {f : α → Res β} (h : r ≠ .oob)
    (hf : ∀ a, r = .ok a → f a ≠ .oob) : r.bind f ≠ .oob := by
  cases r <;> simp_all [Res.bind]

theorem bind_ne_err {α β} {r : Res α} {f : α → Res β} (h : r ≠ .err)
    (hf : ∀ a, r = .ok a → f a ≠ .err) : r.bind f ≠ .err := by
  cases r <;> simp_all [Res.bind]

theorem peek_ok {mem : List UInt8} {off n : Nat} (h : off + n ≤ mem.length) :
    peek mem off n = .ok ((mem.drop off).take n) := by
  unfold peek; rw [if_pos h]

theorem peek_ne_oob {mem : List UInt8} {off n : Nat} (h : off + n ≤ mem.length) :
    peek mem off n ≠ .oob := by
  rw [peek_ok h]; simp

theorem peek_ne_err (mem : List UInt8) (off n : Nat) : peek mem off n ≠ .err := by
  unfold peek; split <;> simp

theorem peek_eq {mem b : List UInt8} {off n : Nat} (h : peek mem off n = .ok b) :
    off + n ≤ mem.length ∧ b = (mem.drop off).take n ∧ b.length = n := by
  unfold peek at h
  split at h
  · rename_i hl
    injection h with h
    subst h
    refine ⟨hl, rfl, ?_⟩
    simp; omega
  · cases h

theorem peek_append {a b c : List UInt8} : peek (a ++ b ++ c) a.length b.length = .ok b := by
  rw [peek_ok (by simp)]
  simp [List.append_assoc]

theorem load_ok {h s : Bool} {mem : List UInt8} {off n : Nat} (hl : off + n ≤ mem.length) :
    load h s mem off n = .ok (hostNat h (swapIf s ((mem.drop off).take n))) := by
  unfold load; rw [peek_ok hl]; rfl

theorem load_ne_oob {h s : Bool} {mem : List UInt8} {off n : Nat} (hl : off + n ≤ mem.length) :
    load h s mem off n ≠ .oob := by
  rw [load_ok hl]; simp

theorem load_ne_err (h s : Bool) (mem : List UInt8) (off n : Nat) :
    load h s mem off n ≠ .err := by
  unfold load peek; split <;> simp [Res.bind]

theorem load_lt {h s : Bool} {mem : List UInt8} {off n v : Nat} (hl : load h s mem off n = .ok v) :
    v < 256 ^ n ∧ off + n ≤ mem.length := by
  unfold load at hl
  rw [bind_eq_ok] at hl
  obtain ⟨b, hb, hv⟩ := hl
  obtain ⟨h1, h2, h3⟩ := peek_eq hb
  injection hv with hv
  subst hv
  refine ⟨?_, h1⟩
  have := hostNat_lt h (swapIf s b)
  rw [swapIf_length, h3] at this
  exact this

theorem poke_ok {mem b : List UInt8} {off : Nat} (h : off + b.length ≤ mem.length) :
    poke mem off b = .ok (mem.take off ++ b ++ mem.drop (off + b.length)) := by
  unfold poke; rw [if_pos h]

theorem poke_length {mem b m : List UInt8} {off : Nat} (h : poke mem off b = .ok m) :
    m.length = mem.length ∧ off + b.length ≤ mem.length := by
  unfold poke at h
  split at h
  · injection h with h; subst h; simp; omega
  · cases h

theorem poke_append {a b c d : List UInt8} (h : b.length = d.length) :
    poke (a ++ b ++ c) a.length d = .ok (a ++ d ++ c) := by
  rw [poke_ok (by simp; omega)]
  congr 1
  rw [List.append_assoc a b c, List.take_left' rfl]
  congr 1
  rw [show a.length + d.length = (a ++ b).length by simp; omega, ← List.append_assoc,
    List.drop_left' rfl]

theorem poke_append' {a c d : List UInt8} (h : d.length ≤ c.length) :
    poke (a ++ c) a.length d = .ok (a ++ d ++ c.drop d.length) := by
  have e : c = c.take d.length ++ c.drop d.length := (List.take_append_drop _ _).symm
  have := poke_append (a := a) (b := c.take d.length) (c := c.drop d.length) (d := d)
    (by simp; omega)
  rw [← this]
  congr 1
  rw [List.append_assoc, ← e]

theorem pokes_length {ws : List (Nat × List UInt8)} {mem m : List UInt8}
    (h : pokes mem ws = .ok m) : m.length = mem.length := by
  induction ws generalizing mem with
  | nil => simp [pokes] at h; rw [h]
  | cons w ws ih =>
    obtain ⟨off, b⟩ := w
    rw [pokes, bind_eq_ok] at h
    obtain ⟨a, h1, h2⟩ := h
    rw [ih h2, (poke_length h1).1]

theorem pokes_ne_oob {ws : List (Nat × List UInt8)} {mem : List UInt8}
    (h : ∀ w ∈ ws, w.1 + w.2.length ≤ mem.length) : ∃ m, pokes mem ws = .ok m := by
  induction ws generalizing mem with
  | nil => exact ⟨mem, rfl⟩
  | cons w ws ih =>
    obtain ⟨off, b⟩ := w
    rw [pokes]
    have h1 := h (off, b) (by simp)
    rw [poke_ok h1, bind_ok]
    apply ih
    intro w hw
    have := h w (by simp [hw])
    simp at h1 ⊢
    omega

theorem pokes_append {ws vs : List (Nat × List UInt8)} {mem : List UInt8} :
    pokes mem (ws ++ vs) = (pokes mem ws).bind fun m => pokes m vs := by
  induction ws generalizing mem with
  | nil => rfl
  | cons w ws ih =>
    obtain ⟨off, b⟩ := w
    rw [List.cons_append, pokes, pokes]
    cases hp : poke mem off b with
    | ok m => simp [Res.bind, ih]
    | err => rfl
    | ub => rfl
    | oob => rfl

theorem store_length (h s : Bool) (n v : Nat) : (store h s n v).length = n := by
  unfold store; rw [swapIf_length, hostBytes_length]

end Verif.Proof.Mem
