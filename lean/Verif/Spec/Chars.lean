import Verif.Spec.Printed

/-
The characters of a printed text.
-/

namespace JFTP
namespace Spec

mutual
/-- Some displayed item that is not the last one among its siblings has something displayed below it. -/
def ITree.Forked : ITree → Prop
  | .node _ ks => ForkedAll ks
/-- The same for a list of siblings. -/
def ForkedAll : List ITree → Prop
  | [] => False
  | .node _ below :: later => (below ≠ [] ∧ later ≠ []) ∨ ForkedAll below ∨ ForkedAll later
end

/-- `c` occurs in a displayed name, emoji or extension of the paths `ps`. -/
def OccursIn (L : Look) (ps : List Path) (c : JChar) : Prop :=
  ∃ q ∈ ps, c ∈ lastName q ∨ (∃ e, L.emoji q = some e ∧ c ∈ e) ∨ (∃ x, L.ext q = some x ∧ c ∈ x)

/-- `c` occurs in one of the four symbols of a tree format. -/
def OccursInFormat (f : TreeFormat) (c : JChar) : Prop :=
  c ∈ f.nonLastChildSymbol ∨ c ∈ f.lastChildSymbol ∨ c ∈ f.continuationSymbol ∨ c ∈ f.emptySymbol

/-- An ASCII character. -/
def IsAscii (c : JChar) : Prop := c.toNat < 128

/-- The box drawing character `│`. -/
def BAR : JChar := 0x2502

end Spec
end JFTP
