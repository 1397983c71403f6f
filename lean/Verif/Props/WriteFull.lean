import Verif.Props.WriteFile
/-!
# Writing to a disk with little room: C118
-/
namespace Verif.Props.WriteFull
open Verif.Model Verif.Model.Steim Verif.Model.Samples Verif.Model.Record3 Verif.Model.TracePack Verif.Model.WriteFile
  Verif.Model.Pack
open Verif.Props.WriteFile Verif.Props.Pack
open Verif.Proof.Mem

/-- With room for `k` bytes the first `k` bytes of the records are written. -/
theorem putAll_some {path : List UInt8} (hp : standard path = false) : ∀ (rs : List (List UInt8)) (d : Disk) (x : List UInt8) (k : Nat),
    d.room = some k → d.files path = some x →
    (d.putAll path rs).files path = some (x ++ rs.flatten.take k) ∧ (d.putAll path rs).room = some (k - rs.flatten.length)
  | [], d, x, k, hr, hx => by
    unfold Disk.putAll
    simp [hr, hx]
  | r :: rs, d, x, k, hr, hx => by
    unfold Disk.putAll
    have h1 : (d.put path r).room = some (k - min k r.length) := by
      unfold Disk.put
      rw [hp]
      simp [hr]
    have h2 : (d.put path r).files path = some (x ++ r.take (min k r.length)) := by
      unfold Disk.put
      rw [hp]
      simp [hr, hx]
    obtain ⟨h3, h4⟩ := putAll_some hp rs _ _ _ h1 h2
    rw [h3, h4]
    constructor
    · rw [List.flatten_cons, List.take_append, List.append_assoc]
      have e1 : r.take (min k r.length) = r.take k := by
        rw [List.take_eq_take_iff]
        omega
      have e2 : k - min k r.length = k - r.length := by omega
      rw [e1, e2]
    · rw [List.flatten_cons, List.length_append]
      congr 1
      omega

/-- **C118** (little room).  With room for `k` bytes a record written to a file leaves the first `k` bytes of its miniSEED records
behind what the file had, and the room that is left; the number returned is that of all records. -/
theorem C118_record_room (c : Packers) (d : Disk) (m : Msr) (path : List UInt8) (overwrite flush ver2 : Bool)
    (hp : path ≠ [45]) (ho : d.opens path = true) (k : Nat) (hk : d.room = some k) (n : Int) (d' : Disk)
    (h : msrWrite c d m path overwrite flush ver2 = .ok (n, d')) :
    ∃ p, callPack c (ver2 || m.formatversion == 2) flush m = .ok p ∧ n = p.ret ∧
      d'.files path = some (before d path overwrite ++ p.records.flatten.take k) ∧ d'.room = some (k - p.records.flatten.length) := by
  obtain ⟨hs, h1⟩ := open_file overwrite hp ho
  unfold msrWrite at h
  rw [h1, bind_ok] at h
  obtain ⟨p, h2, h3⟩ := bind_eq_ok.1 h
  have h3 := Res.ok.inj h3
  simp only [Prod.mk.injEq] at h3
  refine ⟨p, h2, h3.1.symm, ?_⟩
  rw [← h3.2]
  unfold Disk.close
  rw [hs]
  exact putAll_some hs p.records _ _ k hk (if_pos rfl)

/-- The same for a list. -/
theorem C118_list_room (c : Packers) (d : Disk) (traces traces' : List TracePack.Trace) (path : List UInt8) (overwrite : Bool)
    (reclen encoding : Int) (ver2 : Bool) (hp : path ≠ [45]) (ho : d.opens path = true) (k : Nat) (hk : d.room = some k) (n : Int) (d' : Disk)
    (h : mstlWrite c d traces path overwrite reclen encoding ver2 = .ok (n, traces', d')) :
    ∃ t, mstlPack c ver2 true true reclen encoding [] traces = .ok (traces', t) ∧ n = t.ret ∧
      d'.files path = some (before d path overwrite ++ t.records.flatten.take k) ∧ d'.room = some (k - t.records.flatten.length) := by
  obtain ⟨hs, h1⟩ := open_file overwrite hp ho
  unfold mstlWrite at h
  rw [h1, bind_ok] at h
  obtain ⟨⟨l, t⟩, h2, h3⟩ := bind_eq_ok.1 h
  have h3 := Res.ok.inj h3
  simp only [Prod.mk.injEq] at h3
  refine ⟨t, ?_, h3.1.symm, ?_⟩
  · rw [h2, h3.2.1]
  rw [← h3.2.2]
  unfold Disk.close
  rw [hs]
  exact putAll_some hs t.records _ _ k hk (if_pos rfl)

/-- Of 172 bytes in three records 100 fit: the second is cut, the third is missing, and 3 is returned. -/
example : (match msrWrite Props.TracePack.packers0 { blank with room := some 100 } seven [97] true true false with
    | .ok (n, d) => n == 3 && ((d.files [97]).map (·.length)) == some 100 && d.room == some 0
    | _ => false) = true := by decide +kernel

end Verif.Props.WriteFull
