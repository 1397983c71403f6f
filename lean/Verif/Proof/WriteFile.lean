import Verif.Model.WriteFile
import Verif.Proof.TracePack
/-!
# Lemmas about writing records to files
-/
namespace Verif.Proof.WriteFile
open Verif.Model Verif.Model.Steim Verif.Model.Record3 Verif.Model.TracePack Verif.Model.WriteFile
open Verif.Model.Trace (Seg)
open Verif.Proof.Mem

theorem put_room {d : Disk} {path b : List UInt8} (h : d.room = none) (hp : standard path = false) :
    d.put path b = { d with files := fun p => if p = path then some ((d.files p).getD [] ++ b) else d.files p } := by
  unfold Disk.put
  rw [h, hp]
  simp only [Bool.false_eq_true, if_false, List.take_length]
  cases d
  subst h
  rfl

theorem putAll_room {path : List UInt8} (hp : standard path = false) : ∀ (rs : List (List UInt8)) (d : Disk) (x : List UInt8),
    d.room = none → d.files path = some x →
    d.putAll path rs = { d with files := fun p => if p = path then some (x ++ rs.flatten) else d.files p }
  | [], d, x, _, hx => by
    unfold Disk.putAll
    cases d
    simp only [List.flatten_nil, List.append_nil]
    congr
    funext p
    split
    · next e => rw [e]; exact hx
    · rfl
  | r :: rs, d, x, hr, hx => by
    unfold Disk.putAll
    rw [put_room hr hp, putAll_room hp rs _ (x ++ r) (by exact hr) (by simp [hx])]
    congr
    funext p
    simp only [List.flatten_cons, List.append_assoc]
    split
    · rfl
    · rfl

/-- Whatever the room, other files and the standard output are left. -/
theorem putAll_others {path : List UInt8} (hp : standard path = false) : ∀ (rs : List (List UInt8)) (d : Disk),
    (∀ p, p ≠ path → (d.putAll path rs).files p = d.files p) ∧ (d.putAll path rs).out = d.out ∧
      (d.putAll path rs).outOpen = d.outOpen ∧ (d.putAll path rs).opens = d.opens
  | [], d => ⟨fun _ _ => rfl, rfl, rfl, rfl⟩
  | r :: rs, d => by
    obtain ⟨h1, h2, h3, h4⟩ := putAll_others hp rs (d.put path r)
    unfold Disk.putAll
    have e : (d.put path r).out = d.out ∧ (d.put path r).outOpen = d.outOpen ∧ (d.put path r).opens = d.opens ∧
        ∀ p, p ≠ path → (d.put path r).files p = d.files p := by
      unfold Disk.put
      rw [hp]
      exact ⟨rfl, rfl, rfl, fun p hne => if_neg hne⟩
    exact ⟨fun p hne => (h1 p hne).trans (e.2.2.2 p hne), h2.trans e.1, h3.trans e.2.1, h4.trans e.2.2.1⟩

/-- With `MSF_MAINTAINMSTL` the list stays. -/
theorem packSegs_same {c : Packers} {ver2 flush : Bool} {reclen encoding : Int} {extra sid : List UInt8} {pub : Nat} :
    ∀ {segs segs' : List (Seg Nat)} {t t' : Total},
    packSegs c ver2 flush true reclen encoding extra sid pub segs t = .ok (segs', t') → segs' = segs
  | [], segs', t, t', h => by
    unfold packSegs at h
    exact (Prod.mk.inj (Res.ok.inj h)).1.symm
  | s :: rest, segs', t, t', h => by
    unfold packSegs at h
    obtain ⟨p, -, h⟩ := bind_eq_ok.1 h
    obtain ⟨s', h1, h⟩ := bind_eq_ok.1 h
    obtain ⟨⟨r1, r2⟩, h2, h⟩ := bind_eq_ok.1 h
    unfold removed at h1
    rw [if_neg (by simp)] at h1
    rw [← (Prod.mk.inj (Res.ok.inj h)).1, packSegs_same h2, Res.ok.inj h1]

theorem packTraces_same {c : Packers} {ver2 flush : Bool} {reclen encoding : Int} {extra : List UInt8} :
    ∀ {l l' : List TracePack.Trace} {t t' : Total}, packTraces c ver2 flush true reclen encoding extra l t = .ok (l', t') → l' = l
  | [], l', t, t', h => by
    unfold packTraces at h
    exact (Prod.mk.inj (Res.ok.inj h)).1.symm
  | tr :: rest, l', t, t', h => by
    unfold packTraces at h
    obtain ⟨⟨r1, r2⟩, h1, h⟩ := bind_eq_ok.1 h
    obtain ⟨⟨q1, q2⟩, h2, h⟩ := bind_eq_ok.1 h
    rw [← (Prod.mk.inj (Res.ok.inj h)).1]
    simp only
    rw [packTraces_same h2, packSegs_same h1]

theorem mstlPack_same {c : Packers} {ver2 flush : Bool} {reclen encoding : Int} {extra : List UInt8} {l l' : List TracePack.Trace}
    {t : Total} (h : mstlPack c ver2 flush true reclen encoding extra l = .ok (l', t)) : l' = l := by
  unfold mstlPack at h
  split at h
  · exact (Prod.mk.inj (Res.ok.inj h)).1.symm
  · exact packTraces_same h

end Verif.Proof.WriteFile
