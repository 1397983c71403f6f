import Verif.Model.Reader
/-!
# Model of the codes that are returned, their texts and the names of blockettes

libmseed/libmseed.h:1441-1455, libmseed/lookup.c:197-239, libmseed/unpack.c:1120-1254, 1275-1443, 1504-1558.
-/
namespace Verif.Model.Codes
open Verif.Model.Steim (Res)
open Verif.Model.Samples Verif.Model.Record3
open Verif.Model.Bytes (bits)

/-- lookup.c:204-239 `ms_errorstr`; codes from libmseed.h:1446-1454, `none` is `NULL`. -/
def errorStr (code : Int) : Option String :=
  if code = 1 then some "End of file reached"
  else if code = 0 then some "No error"
  else if code = -1 then some "Generic error"
  else if code = -2 then some "No miniSEED data detected"
  else if code = -3 then some "Length of data read does not match record length"
  else if code = -4 then some "SEED record length out of range"
  else if code = -5 then some "Unknown data encoding format"
  else if code = -6 then some "Bad Steim compression flag(s) detected"
  else if code = -7 then some "Invalid CRC detected"
  else none

/-- unpack.c:1510-1558 `ms2_blktdesc`; `none` is `NULL`. -/
def blktDesc (type : Nat) : Option String :=
  if type = 100 then some "Sample Rate"
  else if type = 200 then some "Generic Event Detection"
  else if type = 201 then some "Murdock Event Detection"
  else if type = 300 then some "Step Calibration"
  else if type = 310 then some "Sine Calibration"
  else if type = 320 then some "Pseudo-random Calibration"
  else if type = 390 then some "Generic Calibration"
  else if type = 395 then some "Calibration Abort"
  else if type = 400 then some "Beam"
  else if type = 500 then some "Timing"
  else if type = 1000 then some "Data Only SEED"
  else if type = 1001 then some "Data Extension"
  else if type = 2000 then some "Opaque Data"
  else none

/-- parseutils.c:825-826: the name printed in the details of a record. -/
def blktName (type : Nat) : String := (blktDesc type).getD "Unknown"

/-- libmseed.h:1446-1454: the return value of `ms3_readmsr_selection`. -/
def readCode : Reader.Ret → Int
  | .record _ => 0
  | .endOfFile => 1
  | .notSeed => -2
  | .outOfRange => -4
  | .genError => -1
  | .invalidCrc => -7

/-- libmseed.h:1446-1454: the return value of `msr3_parse`; a hint of more bytes is positive. -/
def parseCode : Parsed → Int
  | .record _ => 0
  | .need n => n
  | .notSeed => -2
  | .outOfRange => -4
  | .genError => -1
  | .invalidCrc => -7

/-- unpack.c:1275-1443: the return value of `ms_decode_data`.  The errors of the decoders are -1, and so is a wrong
number of samples (1434-1439). -/
def decodeReturn (hostBE swap : Bool) (mem : List UInt8) (inputsize encoding samplecount outputsize : Nat) : Res Int :=
  match decodeData hostBE swap mem inputsize encoding samplecount outputsize with
  | .ok _ => .ok samplecount
  | .err =>
    .ok (if samplecount * decodedSampleSize encoding % 2 ^ 64 > outputsize then -1
      else if encoding ∈ [0, 1, 3, 4, 5, 10, 11, 12, 13, 14, 16, 30, 32] then -1 else -5)
  | .ub => .ub
  | .oob => .oob

/-- unpack.c:1120-1254: the return value of `msr3_unpack_data`. -/
def unpackReturn (hostBE : Bool) (align : Nat) (msr : Msr) (mem : List UInt8) : Res Int :=
  if msr.samplecnt ≤ 0 then .ok 0
  else if msr.reclen < 0 then .ok (-2)
  else if msr.reclen < 40 ∨ msr.reclen > 10485760 then .ok (-4)
  else if msr.samplecnt > 2147483647 then .ok (-1)
  else
    match dataBounds hostBE msr mem with
    | .ok (off, size) =>
      if off < 40 ∨ (off : Int) ≥ msr.reclen then .ok (-1)
      else
        let encoding := if msr.encoding < 0 then 10 else bits 8 msr.encoding
        match encodingSizeType encoding with
        | none => .ok (-1)
        | some (samplesize, _) =>
          (encodedMem align mem off size samplesize).bind fun enc =>
          decodeReturn hostBE msr.swapPayload enc size encoding msr.samplecnt.toNat
            (msr.samplecnt.toNat * samplesize)
    | .err => .ok (-1)
    | .ub => .ub
    | .oob => .oob

end Verif.Model.Codes
