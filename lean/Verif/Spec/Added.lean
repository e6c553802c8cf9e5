import Verif.Spec.Mirror
import Verif.Spec.Items

/-
One more file in a directory (C84).
-/

namespace JFTP
namespace Spec

/-- The second file system is the first one with one more file `f` (with attributes `a`) in the directory `d`; the entries may be listed in another order. -/
structure AddedFile (fs fs' : PureFs) (d f : Path) (a : Attrs) : Prop where
  isFile : fs'.isDir f = false
  attrs : fs'.readAttrs f = some a
  isDir_other : ∀ q, q ≠ f → fs'.isDir q = fs.isDir q
  attrs_other : ∀ q, q ≠ f → fs'.readAttrs q = fs.readAttrs q
  list : ∃ cs cs', fs.listDir d = .opened cs false ∧ fs'.listDir d = .opened cs' false ∧ cs'.Perm (f :: cs)
  list_other : ∀ q, q ≠ d → q ≠ f → (fs.listDir q = .openFailed ∧ fs'.listDir q = .openFailed) ∨
    ∃ cs cs' bad, fs.listDir q = .opened cs bad ∧ fs'.listDir q = .opened cs' bad ∧ cs'.Perm cs

/-- `Inserted d x n t t'`: `t'` is `t` with one more entry `x` in the directory `d`, which is `n` levels below the top. -/
inductive Inserted (d : Path) (x : TreeEntry) : Nat → TreeEntry → TreeEntry → Prop where
  | here {l1 l2} : Inserted d x 0 (.dir d (l1 ++ l2)) (.dir d (l1 ++ x :: l2))
  | inside {q l1 l2 e e' n} : Inserted d x n e e' → Inserted d x (n + 1) (.dir q (l1 ++ e :: l2)) (.dir q (l1 ++ e' :: l2))

mutual
/-- The labels of a displayed tree from top to bottom, each with its depth. -/
def outline (n : Nat) : Disp → List (Nat × JStr)
  | .node l ks => (n, l) :: outlineAll (n + 1) ks
/-- The same for lists. -/
def outlineAll (n : Nat) : List Disp → List (Nat × JStr)
  | [] => []
  | k :: ks => outline n k ++ outlineAll n ks
end

end Spec
end JFTP
