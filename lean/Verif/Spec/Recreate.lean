import Verif.Spec.Display
import Verif.Spec.Skeleton
import Verif.Model.Printer

/-
Recreating what a text shows (C109): files and directories with the names that the labels give.
-/

namespace JFTP
namespace Spec

mutual
/-- A label that ends with a slash stands for a directory with everything below it, any other label for an empty file of that name. -/
def make : Disp → JStr × Node
  | .node l ks => if l.getLast? = some SLASH then (l.dropLast, .dir true (makeAll ks)) else (l, .regular 0)
/-- The same for lists. -/
def makeAll : List Disp → List (JStr × Node)
  | [] => []
  | d :: ds => make d :: makeAll ds
end

/-- A new disk with what the labels stand for. -/
def made (D : Disp) : Node := .dir true [make D]

/-- What is needed of the options: alphabetical order, no child limit, nothing but names in the lines, no compact directories, at most 20 levels; filters and tree format are free. -/
structure NamesOnly (o : Options (Except Exn)) : Prop where
  order : o.pathComparator = PathSorts.ALPHABETICAL
  limit : ∀ q n, o.childLimit q = .ok n → n < 0
  emoji : ∀ q, o.emojiMapping q = .ok none
  ext : o.lineExtension = none
  compact : o.compactDirectories = false
  depth : o.maxDepth ≤ 20

mutual
/-- The directories and empty files with these names. -/
def grow : NTree → JStr × Node
  | .dir n ks => (n, .dir true (growAll ks))
  | .leaf n => (n, .regular 0)
/-- The same for lists. -/
def growAll : List NTree → List (JStr × Node)
  | [] => []
  | t :: ts => grow t :: growAll ts
end

/-- A new disk with them. -/
def grown (t : NTree) : Node := .dir true [grow t]

end Spec
end JFTP
