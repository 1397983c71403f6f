import Verif.Props.TracePack
/-!
# Extra headers too long for records (C93)
-/
namespace Verif.Props.TraceExtra
open Verif.Model.Steim Verif.Model.TracePack Verif.Props.TracePack

/-- **C93 (refused).** Extra headers of more than 65535 bytes, which no record can have, are refused: -1 is returned, no record is made,
and the list stays as it is, whatever it is and whatever the flags. -/
theorem C93_extra_refused (c : Packers) (ver2 flush maintain : Bool) (reclen encoding : Int) (extra : List UInt8) (traces : List Trace)
    (hx : 65535 < extra.length) :
    ∃ t, mstlPack c ver2 flush maintain reclen encoding extra traces = .ok (traces, t) ∧ t.ret = -1 ∧ t.records = [] ∧ t.packed = 0 :=
  ⟨_, if_pos hx, rfl, rfl, rfl⟩

/-- Headers of 65536 bytes. -/
example : 65535 < (List.replicate 65536 (32 : UInt8)).length := by rw [List.length_replicate]; omega

end Verif.Props.TraceExtra
