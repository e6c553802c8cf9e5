import Verif.Spec.Move

/-
What two printed directories have in common if their texts are equal (C110).
-/

namespace JFTP
namespace Spec

/-- The options show nothing but names, in alphabetical order and without child limit; filters, depth, tree format and compact directories are free. -/
structure NamesInOrder (o : Options (Except Exn)) : Prop where
  order : o.pathComparator = PathSorts.ALPHABETICAL
  limit : ∀ q n, o.childLimit q = .ok n → n < 0
  emoji : ∀ q, o.emojiMapping q = .ok none
  ext : o.lineExtension = none

/-- Depth, tree format and compact directories are the same (the filters need not be). -/
structure SameStyle (o o' : Options (Except Exn)) : Prop where
  depth : o'.maxDepth = o.maxDepth
  format : o'.treeFormat = o.treeFormat
  compact : o'.compactDirectories = o.compactDirectories

/-- The filters let `q` be displayed below `top`, and the depth limit allows it. -/
def Shown (fs : PureFs) (o : Options (Except Exn)) (top q : Path) : Prop := ∃ k : Nat, DisplayedAt fs o top k q ∧ (k = 0 ∨ (k : Int) ≤ o.maxDepth)

/-- Below `/b` in the first file system the same is shown as below `/b'` in the second one: the same relative paths, and each is a directory in both or in none. -/
def SameShown (fs : PureFs) (o : Options (Except Exn)) (b : List JStr) (fs' : PureFs) (o' : Options (Except Exn)) (b' : List JStr) : Prop :=
  ∀ rest, (Shown fs o (under b []) (under b rest) ↔ Shown fs' o' (under b' []) (under b' rest)) ∧
    (Shown fs o (under b []) (under b rest) → fs'.isDir (under b' rest) = fs.isDir (under b rest))

mutual
/-- Nothing but regular files and readable directories, with names without slashes and line breaks. -/
def Ordinary : Node → Prop
  | .regular _ => True
  | .dir readable cs => readable = true ∧ OrdinaryAll cs
  | _ => False
/-- The same for the entries of a directory. -/
def OrdinaryAll : List (JStr × Node) → Prop
  | [] => True
  | (n, c) :: cs => (NL ∉ n ∧ SLASH ∉ n) ∧ Ordinary c ∧ OrdinaryAll cs
end

/-- What is at a place: nothing, a file (`some false`) or a directory (`some true`). -/
def kindAt (disk : Node) (place : List JStr) : Option Bool :=
  (disk.get place).map fun x => match x with
    | .dir _ _ => true
    | _ => false

end Spec
end JFTP
