import Verif.Model.Scanner

/-
Declarative specification of a correct entry tree, independent of the scanner's loops.
-/

namespace JFTP
namespace Spec

/-- A comparator that obeys the contract of `java.util.Comparator`. -/
structure LawfulCmp {α : Type} (c : α → α → Int) : Prop where
  antisymm : ∀ a b, c a b < 0 ↔ 0 < c b a
  trans : ∀ a b d, c a b ≤ 0 → c b d ≤ 0 → c a d ≤ 0

/-- Which answers the outside world (file system and callbacks) may give to each question. With a stable file system and functional callbacks there is at
most one answer to each question; with a changing one there may be many. -/
structure Answers where
  /-- is it a directory (links not followed)? -/
  isDir : Path → Bool → Prop
  /-- the complete content of a directory -/
  list : Path → List Path → Prop
  /-- the attributes of a file -/
  attrs : Path → Attrs → Prop
  /-- the child limit of a directory -/
  limit : Path → Int → Prop
  /-- does the path pass the filter? -/
  keep : Path → Bool → Prop

/-- `Kept A cs ks`: `ks` are the paths of `cs` that pass the filter, in the same order. -/
inductive Kept (A : Answers) : List Path → List Path → Prop where
  | nil : Kept A [] []
  | keep {c cs ks} : A.keep c true → Kept A cs ks → Kept A (c :: cs) (c :: ks)
  | drop {c cs ks} : A.keep c false → Kept A cs ks → Kept A (c :: cs) ks

/-- The first `n` elements, all if `n` is negative. -/
def limitTo (n : Int) (l : List Path) : List Path := if n < 0 then l else l.take n.toNat

/-- The marker entry: present iff the limit `n` is not negative and the directory has more than `n` (filtered) children. -/
def moreMark (n : Int) (l : List Path) (p : Path) : List TreeEntry :=
  if 0 ≤ n ∧ n < l.length then [.skipped p] else []

mutual
/-- `Scanned A c maxDepth k p e`: `e` is a correct entry for path `p` at depth `k`. -/
inductive Scanned (A : Answers) (c : Cmp) (maxDepth : Int) : Nat → Path → TreeEntry → Prop where
  | file {k : Nat} {p a} : A.isDir p false → A.attrs p a → Scanned A c maxDepth k p (.file p a)
  | tooDeep {k : Nat} {p} : A.isDir p true → maxDepth ≤ k → Scanned A c maxDepth k p (.dir p [.maxDepth k])
  | dir {k : Nat} {p n cs ks srt es} : A.isDir p true → (k : Int) < maxDepth → A.limit p n → A.list p cs → Kept A cs ks →
      srt.Perm ks → srt.Pairwise (fun a b => c a b ≤ 0) → ScannedAll A c maxDepth (k + 1) (limitTo n srt) es →
      Scanned A c maxDepth k p (.dir p (es ++ moreMark n srt p))
/-- The same for lists. -/
inductive ScannedAll (A : Answers) (c : Cmp) (maxDepth : Int) : Nat → List Path → List TreeEntry → Prop where
  | nil {k} : ScannedAll A c maxDepth k [] []
  | cons {k p ps e es} : Scanned A c maxDepth k p e → ScannedAll A c maxDepth k ps es → ScannedAll A c maxDepth k (p :: ps) (e :: es)
end

/-- The path an entry stands for (markers have none). -/
def entryPath : TreeEntry → Option Path
  | .dir d _ => some d
  | .file p _ => some p
  | .skipped _ => none
  | .maxDepth _ => none

end Spec
end JFTP

namespace JFTP
namespace Spec

/-- The answers of a stable file system and of callbacks that are functions of the path (and may throw). -/
def answersOf (fs : PureFs) (o : ScanOpts (Except Exn)) : Answers where
  isDir p b := fs.isDir p = b
  list p cs := fs.listDir p = .opened cs false
  attrs p a := fs.readAttrs p = some a
  limit p n := o.childLimit p = .ok n
  keep p b := o.pathFilter p = .ok b

/-- The comparator never considers two different elements of the list equal. -/
def Distinguishes (c : Cmp) (cs : List Path) : Prop := ∀ a ∈ cs, ∀ b ∈ cs, c a b ≤ 0 → c b a ≤ 0 → a = b

/-- Contract of `DirectoryStream`: the entries of a listing are children of the directory, each delivered once. -/
def ProperFs (fs : PureFs) : Prop :=
  ∀ p cs bad, fs.listDir p = .opened cs bad → cs.Nodup ∧ ∀ c ∈ cs, ∃ n, c = p.child n

end Spec
end JFTP
