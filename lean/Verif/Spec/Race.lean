import Verif.Model.Race
import Verif.Spec.Finder
import Verif.Spec.Config
/-!
# What a search saw

While a search runs the world changes. It looks at the `i`-th candidate at moment `look i`, and the flag in the
result it makes for it (if it makes one) is from moment `flag i`, not earlier and before it looks at the next one.
-/
namespace Verif.Spec

/-- The moments of the looks, one candidate after the other. -/
def InOrder (look flag : Nat → Nat) : Prop := ∀ i, look i ≤ flag i ∧ flag i < look (i + 1)

/-- The result is about candidate `c`, with the given index and existence flag. -/
def Describes (b : Build) (c : OsStr × String) (i : Nat) (flag : Bool) (r : FindResult) : Prop :=
  r.path = c.1 ∧ r.exists' = flag ∧ r.index = i ∧ r.extension = FileExtension.ofStr b c.2

/-- The positions `i` of candidates that existed when the search looked at them (all, if missing files are
allowed), in order. -/
def seenAt (ws : Moments) (look : Nat → Nat) (am : Bool) (cs : List (OsStr × String)) : List (Nat × (OsStr × String)) :=
  (cs.zipIdx.map fun x => (x.2, x.1)).filter fun x => am || (ws (look x.1)).pathExists x.2.1

/-- The results list the positions seen, in order, numbered modulo `2^16`, each with the flag of its own moment. -/
def ListsSeen (b : Build) (ws : Moments) (flag : Nat → Nat) (seen : List (Nat × (OsStr × String))) (rs : List FindResult) : Prop :=
  rs.length = seen.length ∧ ∀ (k i : Nat) (c : OsStr × String), seen[k]? = some (i, c) →
    ∃ r, rs[k]? = some r ∧ Describes b c (k % 65536) ((ws (flag i)).pathExists c.1) r

/-- A layer that always answers with one reading, whatever happens. -/
def frozen (r : Except BakuninError Value) : Layer :=
  .user { getName := "Frozen", hasValue := fun _ => true, canWrite := fun _ => false, readValue := fun _ => r,
          writeValue := fun w _ => (.error (.configLayerError .writeNotSupported), w) }

/-- The registration of the same layers, the `i`-th one frozen to what it answers when it looks at moment `2i` and reads
at moment `2i + 1`. -/
def frozenCalls (ws : Moments) (ls : List (String × Layer)) : List RegCall :=
  ls.zipIdx.map fun x => .layer x.1.1 (frozen (x.1.2.readValueR (ws (2 * x.2)) (ws (2 * x.2 + 1))))

end Verif.Spec
