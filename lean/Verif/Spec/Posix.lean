import Verif.Model.Posix
import Verif.Spec.OnePage

/-
The tree below a place of a disk (C108).
-/

namespace JFTP
namespace Spec

/-- The tree of what lies below the place `/r` of the disk: directories with their entries, links with the attributes of what they lead to, never anything from behind a link. -/
inductive Lies (t : Node) : List JStr → OnePage.FileTree → Prop
  | regular {r n} : t.get r = some (.regular n) → Lies t r (.file (some ⟨false, false⟩))
  | special {r} : t.get r = some .special → Lies t r (.file (some ⟨false, true⟩))
  | link {r q e x} : t.get r = some (.symlink q) → t.Leads [] r e → t.get e = some x → Lies t r (.file (some x.attrsOf))
  | lost {r q} : t.get r = some (.symlink q) → (∀ e, ¬ t.Leads [] r e) → Lies t r (.file none)
  | closed {r cs} : t.get r = some (.dir false cs) → Lies t r .closed
  | dir {r cs es} : t.get r = some (.dir true cs) → es.map Prod.fst = cs.map Prod.fst → (∀ e ∈ es, Lies t (r ++ [e.1]) e.2) → Lies t r (.dir es)

/-- The name is neither `.` nor `..`. -/
def NoDots (n : JStr) : Prop := n ≠ j!"." ∧ n ≠ j!".."

instance (n : JStr) : Decidable (NoDots n) := inferInstanceAs (Decidable (_ ∧ _))

/-- There is no link on the way: whatever a part of the names (from the first one on) leads to is no link. -/
def NoLinkOn (t : Node) (ns : List JStr) : Prop := ∀ k r q, t.Denotes (ns.take k) r → t.get r ≠ some (.symlink q)

end Spec
end JFTP
