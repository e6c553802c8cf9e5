import Verif.Spec.Layout
import Verif.Model.Fs

/-
Which texts can be returned at all, with the default options (C120).
-/

namespace JFTP
namespace Spec

/-- A name as files have it on Unix, without line break. -/
def FileName (n : JStr) : Prop := n ≠ [] ∧ n ≠ j!"." ∧ n ≠ j!".." ∧ SLASH ∉ n ∧ (0 : JChar) ∉ n ∧ NL ∉ n

mutual
/-- Regular files and readable directories with such names. -/
def Usual : Node → Prop
  | .regular _ => True
  | .dir readable cs => readable = true ∧ UsualAll cs
  | _ => False
/-- The same for the entries of a directory. -/
def UsualAll : List (JStr × Node) → Prop
  | [] => True
  | (n, c) :: cs => FileName n ∧ Usual c ∧ UsualAll cs
end

/-- The label of a tree, without the slash of a directory. -/
def bareName : Disp → JStr
  | .node l _ => if l.getLast? = some SLASH then l.dropLast else l

/-- The first name is smaller: at the first difference its UTF-16 code unit is smaller, or it is a proper beginning of the second one. -/
def Smaller (a b : JStr) : Prop := List.Lex (fun x y => x.toNat < y.toNat) a b

/-- The trees of labels that the default options can show at the depth `k`: a name stands alone; below a name with a slash are trees with increasing names; a directory at the depth 20
has nothing but `...` below it. -/
inductive Possible : Nat → Disp → Prop
  | file {k : Nat} {n : JStr} : FileName n → Possible k (.node n [])
  | dir {k : Nat} {n : JStr} {ks : List Disp} : FileName n → k < 20 → (∀ c ∈ ks, Possible (k + 1) c) → ks.Pairwise (fun a b => Smaller (bareName a) (bareName b)) → Possible k (.node (n ++ j!"/") ks)
  | cut {n : JStr} : FileName n → Possible 20 (.node (n ++ j!"/") [.node j!"..." []])

end Spec
end JFTP
