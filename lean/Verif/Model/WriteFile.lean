import Verif.Model.TracePack
/-!
# Writing records to files: `msr3_writemseed` and `mstl3_writemseed`

Pointers are non-null.  Files are known by the text of their names; two names do not name the same file.
-/
namespace Verif.Model.WriteFile
open Verif.Model.Steim Verif.Model.Samples Verif.Model.Record3 Verif.Model.Pack Verif.Model.Pack2 Verif.Model.TracePack

/-- What is written to: the files, whether a file can be opened for writing, the number of bytes that can still be
written (`none`: any number), and the standard output with what has been written to it. -/
structure Disk where
  files : List UInt8 → Option (List UInt8)
  opens : List UInt8 → Bool := fun _ => true
  room : Option Nat := none
  out : List UInt8 := []
  outOpen : Bool := true

/-- fileutils.c:911-913, 973-975: the name `-` stands for the standard output. -/
def standard (path : List UInt8) : Bool := path == [45]

/-- Write to the end of the file: as many bytes as there is room for. -/
def Disk.put (d : Disk) (path b : List UInt8) : Disk :=
  let n := match d.room with
    | none => b.length
    | some k => min k b.length
  if standard path then { d with out := d.out ++ b.take n, room := d.room.map (· - n) }
  else { d with
    files := fun p => if p = path then some ((d.files p).getD [] ++ b.take n) else d.files p
    room := d.room.map (· - n) }

/-- fileutils.c:864-872 `ms_record_handler_int` for the records in order.  A write that fails is reported in the log
only. -/
def Disk.putAll (d : Disk) (path : List UInt8) : List (List UInt8) → Disk
  | [] => d
  | r :: rs => (d.put path r).putAll path rs

/-- fileutils.c:910-919, 972-981: open the output, `ok none` if that fails.  Using the standard output after it has been
closed is undefined. -/
def Disk.open (d : Disk) (path : List UInt8) (overwrite : Bool) : Res (Option Disk) :=
  if standard path then (if d.outOpen then .ok (some d) else .ub)
  else if d.opens path then
    .ok (some { d with files := fun p => if p = path then some (if overwrite then [] else (d.files p).getD []) else d.files p })
  else .ok none

/-- fileutils.c:925, 993: `fclose`, also of the standard output. -/
def Disk.close (d : Disk) (path : List UInt8) : Disk := if standard path then { d with outOpen := false } else d

/-- fileutils.c:897-928 `msr3_writemseed`: the number returned and the files afterwards; `flush` and `ver2` are the flags
`MSF_FLUSHDATA` and `MSF_PACKVER2` (a record of version 2 is packed as such, pack.c:129). -/
def msrWrite (c : Packers) (d : Disk) (m : Msr) (path : List UInt8) (overwrite flush ver2 : Bool) : Res (Int × Disk) :=
  (d.open path overwrite).bind fun
    | none => .ok (-1, d)
    | some d =>
      (callPack c (ver2 || m.formatversion == 2) flush m).bind fun p => .ok (p.ret, (d.putAll path p.records).close path)

/-- fileutils.c:958-996 `mstl3_writemseed`: the number returned, the list and the files afterwards. -/
def mstlWrite (c : Packers) (d : Disk) (traces : List Trace) (path : List UInt8) (overwrite : Bool) (reclen encoding : Int)
    (ver2 : Bool) : Res (Int × List Trace × Disk) :=
  (d.open path overwrite).bind fun
    | none => .ok (-1, traces, d)
    | some d =>
      (mstlPack c ver2 true true reclen encoding [] traces).bind fun (traces, t) =>
      .ok (t.ret, traces, (d.putAll path t.records).close path)

end Verif.Model.WriteFile
