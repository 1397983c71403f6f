import Verif.Model.SampleTime
/-!
# Model of data latency

`double` values are rational numbers, every operation gives the exact result rounded by `rnd`.
-/
namespace Verif.Model.Latency

/-- msrutils.c:396-418 `msr3_host_latency` of a record with these fields, where `now` is the result of
`time`. -/
def hostLatency (rnd : Rat → Rat) (now starttime samplecnt : Int) (samprate : Rat) : Rat :=
  let span := if samprate > 0 ∧ samplecnt > 0 then rnd (rnd (1 / samprate) * rnd (samplecnt - 1 : Int)) else 0
  let epoch := rnd now
  rnd (rnd (epoch - rnd (rnd starttime / NSTMODULUS)) - span)

end Verif.Model.Latency
