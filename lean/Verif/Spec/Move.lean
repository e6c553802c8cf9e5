import Verif.Spec.Visit
import Verif.Spec.Layout

/-
The same directory at two places (C83).
-/

namespace JFTP
namespace Spec

/-- The path `rest` below the directory `/b`. -/
def under (b rest : List JStr) : Path := ⟨true, b ++ rest⟩

/-- What is below `/b` in the first file system is also below `/b'` in the second one: the same kinds, the same attributes, the same names in
every directory (not necessarily in the same order). Nothing is said about the other parts of the file systems. -/
structure SameBelow (fs fs' : PureFs) (b b' : List JStr) : Prop where
  isDir : ∀ rest, fs'.isDir (under b' rest) = fs.isDir (under b rest)
  attrs : ∀ rest, fs'.readAttrs (under b' rest) = fs.readAttrs (under b rest)
  list : ∀ rest, (fs.listDir (under b rest) = .openFailed ∧ fs'.listDir (under b' rest) = .openFailed) ∨
    ∃ (ns ns' : List JStr) (bad : Bool), fs.listDir (under b rest) = .opened (ns.map fun n => under b (rest ++ [n])) bad ∧
      fs'.listDir (under b' rest) = .opened (ns'.map fun n => under b' (rest ++ [n])) bad ∧ ns'.Perm ns

/-- The answer of the line extension function (no function: null). -/
def extAnswer (o : Options (Except Exn)) (p : Path) : Except Exn (Option JStr) :=
  match o.lineExtension with
  | none => .ok none
  | some g => g p

/-- What is found from the directory `/b`: the directory itself, and what is listed in something found. -/
inductive Found (fs : PureFs) (b : List JStr) : List JStr → Prop where
  | here : Found fs b []
  | step {rest : List JStr} {n : JStr} {cs : List Path} {bad : Bool} : Found fs b rest → fs.listDir (under b rest) = .opened cs bad → under b (rest ++ [n]) ∈ cs → Found fs b (rest ++ [n])

/-- The callbacks answer for everything found from `/b` the same as at the corresponding place below `/b'`. Emoji mapping, extension function, filters and sort are not compared
for the directory itself. -/
structure SameAnswers (fs : PureFs) (o o' : Options (Except Exn)) (b b' : List JStr) : Prop where
  childLimit : ∀ rest, Found fs b rest → o'.childLimit (under b' rest) = o.childLimit (under b rest)
  dirMatcher : ∀ rest, rest ≠ [] → Found fs b rest → o'.dirMatcher (under b' rest) = o.dirMatcher (under b rest)
  fileMatcher : ∀ rest, rest ≠ [] → Found fs b rest → o'.fileMatcher (under b' rest) = o.fileMatcher (under b rest)
  comparator : ∀ r1 r2, r1 ≠ [] → r2 ≠ [] → Found fs b r1 → Found fs b r2 → o'.pathComparator (under b' r1) (under b' r2) = o.pathComparator (under b r1) (under b r2)
  emoji : ∀ rest, rest ≠ [] → Found fs b rest → o'.emojiMapping (under b' rest) = o.emojiMapping (under b rest)
  ext : ∀ rest, rest ≠ [] → Found fs b rest → extAnswer o' (under b' rest) = extAnswer o (under b rest)
  maxDepth : o'.maxDepth = o.maxDepth
  compact : o'.compactDirectories = o.compactDirectories
  format : o'.treeFormat = o.treeFormat

/-- The label of the printed path: emoji, name, mark, extension. -/
def topLabel (e : Option JStr) (name mark : JStr) (x : Option JStr) : JStr := emojiText e ++ name ++ mark ++ x.getD []

/-- Options without user-written functions: a tree format, a fixed child limit, a depth limit, compact directories or not, and an emoji mapping `em` (built by a builder in state
`live`) or none. -/
def simpleOptions (fs : PureFs) (fmt : TreeFormat) (limit depth : Int) (compact : Bool) (em : Option (EmojiMapping × EmojiMappingBuilder (Except Exn))) : Options (Except Exn) :=
  let o := (((Options.createDefault.withTreeFormat fmt).withChildLimit limit).withMaxDepth depth).withCompactDirectories compact
  match em with
  | none => o
  | some (f, live) => o.withEmojis (f.getPathEmoji fs.lift live)

end Spec
end JFTP
