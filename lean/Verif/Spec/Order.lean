import Verif.Model.Sorts
import Verif.Spec.Scan

/-
The order in which paths are displayed (C111).
-/

namespace JFTP
namespace Spec

/-- `a` stands before `b` if `b` is somewhere below `a`, or if the two lie in (or are) different entries of one directory, which the comparator puts in this order. -/
def Precedes (c : Cmp) (a b : Path) : Prop :=
  (∃ x rest, b.names = a.names ++ x :: rest) ∨
  ∃ d x y r r', a.names = d ++ x :: r ∧ b.names = d ++ y :: r' ∧ c ⟨true, d ++ [x]⟩ ⟨true, d ++ [y]⟩ < 0

/-- `x` comes before `y` in the dictionary whose alphabet are the UTF-16 units. -/
def NameLess (x y : JStr) : Prop := List.Lex (fun a b => a.toNat < b.toNat) x y

/-- `a` comes before `b` in the dictionary whose alphabet are the names. -/
def PathLess (a b : Path) : Prop := List.Lex NameLess a.names b.names

end Spec
end JFTP
