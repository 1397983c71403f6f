import Verif.Spec.Record2
import Verif.Model.Record2
/-!
# The values of the blockettes for events, calibrations and timing

What reading version 2 records passes on of the blockettes of `Verif.Spec.Record2.Mapped`, in the order the library
reads them.
-/
namespace Verif.Props.Record2
open Verif.Model.Record2 Verif.Spec.Record2

/-- The values of a blockette as they are passed on. -/
def fieldsOf : Mapped → List Field
  | .event a p b f _ t d => [.text d.s, .num a, .num p, .num b, .num f.toNat, .time t.instant]
  | .murdock a p b f _ t s0 s1 s2 s3 s4 s5 l k d =>
    [.text d.s, .num a, .num p, .num b, .num f.toNat, .time t.instant, .num s0.toNat, .num s1.toNat, .num s2.toNat,
     .num s3.toNat, .num s4.toNat, .num s5.toNat, .num l.toNat, .num k.toNat]
  | .step t n f d i a c _ r co ro =>
    [.time t.instant, .num n.toNat, .num f.toNat, .num d, .num i, .num a, .text c.s, .num r, .text co.s, .text ro.s]
  | .sine t _ f d p a c _ r co ro =>
    [.time t.instant, .num f.toNat, .num d, .num p, .num a, .text c.s, .num r, .text co.s, .text ro.s]
  | .random t _ f d a c _ r co ro n =>
    [.time t.instant, .num f.toNat, .num d, .num a, .text c.s, .num r, .text co.s, .text ro.s, .text n.s]
  | .generic t _ f d a c _ => [.time t.instant, .num f.toNat, .num d, .num a, .text c.s]
  | .abort t _ _ => [.time t.instant]
  | .clock c t u q n ty mo st =>
    [.num c, .time (t.instant + u * 1000), .num q.toNat, .num n, .text ty.s, .text st.s, .text mo.s]

end Verif.Props.Record2
