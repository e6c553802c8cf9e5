import Verif.Spec.Items

/-
Names and nesting, and how to read them back from labels (C23).
-/

namespace JFTP
namespace Spec

/-- Names and nesting only. -/
inductive NTree where
  | dir (name : JStr) (kids : List NTree)
  | leaf (text : JStr)

mutual
/-- Names and nesting of an entry tree. -/
def skeleton : TreeEntry → NTree
  | .dir d es => .dir (lastName d) (skeletonAll es)
  | .file p a => .leaf (lastName p ++ fileMark a)
  | .skipped _ => .leaf j!"..."
  | .maxDepth _ => .leaf j!"..."
/-- The same for lists. -/
def skeletonAll : List TreeEntry → List NTree
  | [] => []
  | e :: es => skeleton e :: skeletonAll es
end

/-- `a`, `b`, `c` with content `ks` is the directory `a` containing only `b` containing only `c` containing `ks`. -/
def nest (kids : List NTree) : List JStr → NTree
  | [] => .leaf []
  | [n] => .dir n kids
  | n :: ns => .dir n [nest kids ns]

mutual
/-- Read a label back: with a slash it is a chain of directories, otherwise a leaf. -/
def expand : Disp → NTree
  | .node l ks => if SLASH ∈ l then nest (expandAll ks) (splitRaw SLASH l).dropLast else .leaf l
/-- The same for lists. -/
def expandAll : List Disp → List NTree
  | [] => []
  | k :: ks => expand k :: expandAll ks
end

/-- No name in the entry tree contains a slash (true of all Unix paths) or a line feed. -/
def CleanNames (t : TreeEntry) : Prop :=
  (∀ d es, Below (.dir d es) t → SLASH ∉ lastName d ∧ NL ∉ lastName d) ∧
  (∀ p a, Below (.file p a) t → SLASH ∉ lastName p ∧ NL ∉ lastName p)

/-- Neither emojis nor extensions. -/
def plain (compact : Bool) : Look := ⟨fun _ => none, compact, fun _ => none⟩

end Spec
end JFTP
