import Verif.Spec.Visit
import Verif.Spec.Layout

/-
Trees with the children of every entry in reverse order (C85).
-/

namespace JFTP
namespace Spec

mutual
/-- The displayed tree with the children in reverse order, everywhere. -/
def mirror : Disp → Disp
  | .node l ks => .node l (mirrorAll ks).reverse
/-- The same for every tree of a list (the list itself keeps its order). -/
def mirrorAll : List Disp → List Disp
  | [] => []
  | k :: ks => mirror k :: mirrorAll ks
end

mutual
/-- The entry tree with the children in reverse order, everywhere. -/
def mirrorEntry : TreeEntry → TreeEntry
  | .dir d es => .dir d (mirrorEntries es).reverse
  | .file p a => .file p a
  | .skipped d => .skipped d
  | .maxDepth n => .maxDepth n
/-- The same for every entry of a list (the list itself keeps its order). -/
def mirrorEntries : List TreeEntry → List TreeEntry
  | [] => []
  | e :: es => mirrorEntry e :: mirrorEntries es
end

/-- The functions that make the labels, and the switch for compact directories, as given by the options. -/
def labelling (o : Options (Except Exn)) : LookM (Except Exn) where
  emoji := o.emojiMapping
  compact := o.compactDirectories
  ext p := match o.lineExtension with
    | none => .ok none
    | some g => g p

/-- The comparator never considers two different entries of one directory equal. -/
def StrictOn (c : Cmp) (fs : PureFs) : Prop := ∀ p cs bad, fs.listDir p = .opened cs bad → ∀ a ∈ cs, ∀ b ∈ cs, c a b = 0 → a = b

end Spec
end JFTP
