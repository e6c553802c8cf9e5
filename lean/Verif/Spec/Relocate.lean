import Verif.Spec.Choices
import Verif.Spec.Compose
import Verif.Spec.Move
import Mathlib.Data.List.Forall2

/-
The same calls for a directory at two places (C116).
-/

namespace JFTP
namespace Spec
namespace OnePage

/-- The directory `/b` of the first place is also the directory `/b'` of the second one, under the same last name; both run on the same platform. Nothing is said about the rest of the file systems. -/
structure SameDir (w w' : Place) (b b' : List JStr) : Prop where
  below : SameBelow w.fs w'.fs b b'
  regular : ∀ rest, w'.fs.isRegular (under b' rest) = w.fs.isRegular (under b rest)
  link : ∀ rest, w'.fs.isLink (under b' rest) = w.fs.isLink (under b rest)
  name : b'.getLast? = b.getLast?
  casing : w'.casing = w.casing
  glob : w'.glob = w.glob
  /-- neither path has the names `.` and `..` -/
  real : ∀ n ∈ b ++ b', n ≠ j!"." ∧ n ≠ j!".."
  listed : RealNames w.fs

mutual
/-- The condition is about the text of a path only: no files are looked at, and no path is made absolute. -/
def Cond.Textual : Cond → Prop
  | .not c => c.Textual
  | .allOf cs => Cond.AllTextual cs
  | .anyOf cs => Cond.AllTextual cs
  | .noneOf cs => Cond.AllTextual cs
  | .ifThenElse i t e => i.Textual ∧ t.Textual ∧ e.Textual
  | .absolute _ => False
  | .relative _ _ => False
  | .absoluteGlob _ => False
  | .relativeGlob _ _ => False
  | .isDirectory => False
  | .isFile => False
  | .isRegularFile => False
  | .isSymbolicLink => False
  | .parent c => c.Textual
  | .ancestor c => c.Textual
  | .child _ => False
  | .descendant _ => False
  | .sibling _ => False
  | _ => True
def Cond.AllTextual : List Cond → Prop
  | [] => True
  | c :: cs => c.Textual ∧ Cond.AllTextual cs
end

/-- The two functions answer the same for what is found from `/b` and for the corresponding paths below `/b'` (`inner`: except for the directory itself). -/
def Agree {α : Type} (w : Place) (b b' : List JStr) (inner : Bool) (f f' : Path → α) : Prop :=
  ∀ rest, Found w.fs b rest → (inner = true → rest ≠ []) → f' (under b' rest) = f (under b rest)

mutual
/-- `CondSame w w' b b' inner c c'`: the condition `c'` for `/b'` is the condition `c` for `/b`. Own matchers must answer the same; conditions relative to the directory `/b` are now relative to `/b'`.
Absolute paths and ancestors are not asked for, neither are the parent and the siblings of the directory itself (`inner`: the condition is not asked for the directory itself). -/
inductive CondSame (w w' : Place) (b b' : List JStr) : Bool → Cond → Cond → Prop where
  | test {inner f f'} : Agree w b b' inner f f' → CondSame w w' b b' inner (.test f) (.test f')
  | not {inner c c'} : CondSame w w' b b' inner c c' → CondSame w w' b b' inner (.not c) (.not c')
  | allOf {inner cs cs'} : CondsSame w w' b b' inner cs cs' → CondSame w w' b b' inner (.allOf cs) (.allOf cs')
  | anyOf {inner cs cs'} : CondsSame w w' b b' inner cs cs' → CondSame w w' b b' inner (.anyOf cs) (.anyOf cs')
  | noneOf {inner cs cs'} : CondsSame w w' b b' inner cs cs' → CondSame w w' b b' inner (.noneOf cs) (.noneOf cs')
  | ifThenElse {inner i t e i' t' e'} : CondSame w w' b b' inner i i' → CondSame w w' b b' inner t t' → CondSame w w' b b' inner e e' →
      CondSame w w' b b' inner (.ifThenElse i t e) (.ifThenElse i' t' e')
  | relative {inner ref ref' c} : (placed w.cwd ref).normalize = under b [] → (placed w'.cwd ref').normalize = under b' [] → c.Textual →
      CondSame w w' b b' inner (.relative ref c) (.relative ref' c)
  | relativeGlob {inner ref ref' g} : (placed w.cwd ref).normalize = under b [] → (placed w'.cwd ref').normalize = under b' [] →
      CondSame w w' b b' inner (.relativeGlob ref g) (.relativeGlob ref' g)
  | nameGlob {inner g} : CondSame w w' b b' inner (.nameGlob g) (.nameGlob g)
  | name {inner n} : CondSame w w' b b' inner (.name n) (.name n)
  | nameIgnoreCase {inner n} : CondSame w w' b b' inner (.nameIgnoreCase n) (.nameIgnoreCase n)
  | namePattern {inner r} : CondSame w w' b b' inner (.namePattern r) (.namePattern r)
  | nameStart {inner n} : CondSame w w' b b' inner (.nameStart n) (.nameStart n)
  | nameEnd {inner n} : CondSame w w' b b' inner (.nameEnd n) (.nameEnd n)
  | extension {inner x} : CondSame w w' b b' inner (.extension x) (.extension x)
  | isDirectory {inner} : CondSame w w' b b' inner .isDirectory .isDirectory
  | isFile {inner} : CondSame w w' b b' inner .isFile .isFile
  | isRegularFile {inner} : CondSame w w' b b' inner .isRegularFile .isRegularFile
  | isSymbolicLink {inner} : CondSame w w' b b' inner .isSymbolicLink .isSymbolicLink
  | parent {c c'} : CondSame w w' b b' false c c' → CondSame w w' b b' true (.parent c) (.parent c')
  | child {inner c c'} : CondSame w w' b b' true c c' → CondSame w w' b b' inner (.child c) (.child c')
  | descendant {inner c c'} : CondSame w w' b b' true c c' → CondSame w w' b b' inner (.descendant c) (.descendant c')
  | sibling {c c'} : CondSame w w' b b' true c c' → CondSame w w' b b' true (.sibling c) (.sibling c')
/-- The same for lists of conditions. -/
inductive CondsSame (w w' : Place) (b b' : List JStr) : Bool → List Cond → List Cond → Prop where
  | nil {inner} : CondsSame w w' b b' inner [] []
  | cons {inner c c' cs cs'} : CondSame w w' b b' inner c c' → CondsSame w w' b b' inner cs cs' → CondsSame w w' b b' inner (c :: cs) (c' :: cs')
end

/-- The two orders answer the same for what is found below `/b` and for the corresponding paths. -/
def CmpSame (w : Place) (b b' : List JStr) (c c' : Cmp) : Prop :=
  ∀ r1 r2, Found w.fs b r1 → Found w.fs b r2 → r1 ≠ [] → r2 ≠ [] → c' (under b' r1) (under b' r2) = c (under b r1) (under b r2)

inductive SortRuleSame (w w' : Place) (b b' : List JStr) : SortRule → SortRule → Prop where
  | add {f f'} : Agree w b b' true f f' → SortRuleSame w w' b b' (.add f) (.add f')
  | addMatching {c c' n} : CondSame w w' b b' true c c' → SortRuleSame w w' b b' (.addMatching c n) (.addMatching c' n)
  | addFirst {c c'} : CondSame w w' b b' true c c' → SortRuleSame w w' b b' (.addFirst c) (.addFirst c')
  | addLast {c c'} : CondSame w w' b b' true c c' → SortRuleSame w w' b b' (.addLast c) (.addLast c')

inductive LimitRuleSame (w w' : Place) (b b' : List JStr) : LimitRule → LimitRule → Prop where
  | add {f f'} : Agree w b b' false f f' → LimitRuleSame w w' b b' (.add f) (.add f')
  | addMatching {c c' n} : CondSame w w' b b' false c c' → LimitRuleSame w w' b b' (.addMatching c n) (.addMatching c' n)

inductive ExtRuleSame (w w' : Place) (b b' : List JStr) : ExtRule → ExtRule → Prop where
  | add {f f'} : Agree w b b' false f f' → ExtRuleSame w w' b b' (.add f) (.add f')
  | addMatching {c c' x} : CondSame w w' b b' false c c' → ExtRuleSame w w' b b' (.addMatching c x) (.addMatching c' x)
  | addLineBreak {c c'} : CondSame w w' b b' false c c' → ExtRuleSame w w' b b' (.addLineBreak c) (.addLineBreak c')

inductive IconCallSame (w w' : Place) (b b' : List JStr) : IconCall → IconCall → Prop where
  | setDefaultDirectoryEmoji {e} : IconCallSame w w' b b' (.setDefaultDirectoryEmoji e) (.setDefaultDirectoryEmoji e)
  | setDirectoryNameEmoji {n e} : IconCallSame w w' b b' (.setDirectoryNameEmoji n e) (.setDirectoryNameEmoji n e)
  | addDirectoryEmoji {c c' e} : CondSame w w' b b' false c c' → IconCallSame w w' b b' (.addDirectoryEmoji c e) (.addDirectoryEmoji c' e)
  | setDefaultFileEmoji {e} : IconCallSame w w' b b' (.setDefaultFileEmoji e) (.setDefaultFileEmoji e)
  | setFileNameEmoji {n e} : IconCallSame w w' b b' (.setFileNameEmoji n e) (.setFileNameEmoji n e)
  | setFileExtensionEmoji {x e} : IconCallSame w w' b b' (.setFileExtensionEmoji x e) (.setFileExtensionEmoji x e)
  | addFileEmoji {c c' e} : CondSame w w' b b' false c c' → IconCallSame w w' b b' (.addFileEmoji c e) (.addFileEmoji c' e)

/-- `ChoiceSame w w' b b' x x'`: the call `x'` for `/b'` is the call `x` for `/b`; own functions must answer the same at corresponding paths. -/
inductive ChoiceSame (w w' : Place) (b b' : List JStr) : Choice → Choice → Prop where
  | withMaxDepth {n} : ChoiceSame w w' b b' (.withMaxDepth n) (.withMaxDepth n)
  | withCompactDirectories {x} : ChoiceSame w w' b b' (.withCompactDirectories x) (.withCompactDirectories x)
  | withTreeFormat {n l c e} : ChoiceSame w w' b b' (.withTreeFormat n l c e) (.withTreeFormat n l c e)
  | filterDirectories {c c'} : CondSame w w' b b' true c c' → ChoiceSame w w' b b' (.filterDirectories c) (.filterDirectories c')
  | filterFiles {c c'} : CondSame w w' b b' true c c' → ChoiceSame w w' b b' (.filterFiles c) (.filterFiles c')
  | sort {c c'} : CmpSame w b b' c c' → ChoiceSame w w' b b' (.sort c) (.sort c')
  | sortBy {rs rs'} : List.Forall₂ (SortRuleSame w w' b b') rs rs' → ChoiceSame w w' b b' (.sortBy rs) (.sortBy rs')
  | withChildLimit {n} : ChoiceSame w w' b b' (.withChildLimit n) (.withChildLimit n)
  | withChildLimitFn {f f'} : Agree w b b' false f f' → ChoiceSame w w' b b' (.withChildLimitFn f) (.withChildLimitFn f')
  | withChildLimits {n rs rs'} : List.Forall₂ (LimitRuleSame w w' b b') rs rs' → ChoiceSame w w' b b' (.withChildLimits n rs) (.withChildLimits n rs')
  | withDefaultEmojis : ChoiceSame w w' b b' .withDefaultEmojis .withDefaultEmojis
  | withEmojiFn {f f'} : Agree w b b' false f f' → ChoiceSame w w' b b' (.withEmojiFn f) (.withEmojiFn f')
  | withEmojis {d cs cs'} : List.Forall₂ (IconCallSame w w' b b') cs cs' → ChoiceSame w w' b b' (.withEmojis d cs) (.withEmojis d cs')
  | withLineExtensionFn {f f'} : Agree w b b' false f f' → ChoiceSame w w' b b' (.withLineExtensionFn f) (.withLineExtensionFn f')
  | withLineExtension {rs rs'} : List.Forall₂ (ExtRuleSame w w' b b') rs rs' → ChoiceSame w w' b b' (.withLineExtension rs) (.withLineExtension rs')

end OnePage
end Spec
end JFTP
