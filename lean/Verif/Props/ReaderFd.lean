import Verif.Props.ReaderLife
/-!
# A reader for a descriptor (C139)
-/
namespace Verif.Props.ReaderFd
open Verif.Model.ReaderLife Verif.Model.Steim Verif.Props.ReaderLife
open Verif.Model.ExtraMem (Heap Ptr alloc free freePtr touch)
open Verif.Proof.Mem (bind_ok bind_eq_ok)

/-- **C139** (a descriptor).  Asking for a reader of a descriptor gives one exactly if no error is returned, and exactly if there is
memory and the descriptor can be used; it has the stream of the descriptor, no buffer yet and no path, and the record stays. -/
theorem C139_descriptor (k : Luck) (w w' : World) (b : Bool) (hn : w.param = none) (h : step k w .initFd = .ok (b, w')) :
    (b = true ↔ w'.param ≠ none) ∧ (b = true ↔ k.param = true ∧ k.opens = true) ∧ w'.msr = w.msr ∧
      ∀ p, w'.param = some p → p.self ≠ none ∧ p.handle ≠ none ∧ p.buffer = none ∧ p.path = [] := by
  have h : initFd k w = .ok (b, w') := h
  unfold initFd at h
  rw [if_neg (by simp [hn])] at h
  unfold alloc at h
  cases hp : k.param <;> cases ho : k.opens <;> simp only [hp, ho, if_true, Bool.false_eq_true, if_false] at h
  · cases h
    simp [hn]
  · cases h
    simp [hn]
  · obtain ⟨x, -, e⟩ := bind_eq_ok.1 h
    cases e
    simp [hn]
  · cases h
    simp

example : step {} ⟨none, some 5, ⟨[5], 6⟩, ⟨[0, 3], 4⟩⟩ .initFd =
    .ok (true, ⟨some { self := some 6, handle := some 4 }, some 5, ⟨[6, 5], 7⟩, ⟨[4, 0, 3], 5⟩⟩) := by decide +kernel

end Verif.Props.ReaderFd
