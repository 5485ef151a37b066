import Verif.Model.StdTypes
import Verif.Spec.Config
import Verif.Spec.Numbers
/-!
# What standard types read
-/
namespace Verif.Spec

/-- Nanoseconds of a duration. -/
def nanosOf : Data → Option Int
  | .struct [("secs", .int .u64 s), ("nanos", .int .u32 n)] => if n.1 < 1000000000 then some (s.1 * 1000000000 + n.1) else none
  | _ => none

end Verif.Spec
