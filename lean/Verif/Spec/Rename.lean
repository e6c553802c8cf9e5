import Verif.Spec.OnePage

/-
A file or directory somewhere in a tree gets another name.
-/

namespace JFTP
namespace Spec
namespace Rename

open OnePage

/-- Is it shown? -/
def shown (S : Settings) (p : Path) : FileTree → Bool
  | .file _ => S.showFile p
  | _ => S.showDir p

/-- The line of an entry without the symbols before it: emoji, name, `/` behind a directory or the mark of a file, extension. -/
def label (S : Settings) (p : Path) : FileTree → JStr
  | .file a => icon (S.emoji p) ++ name p ++ (a.map mark).getD [] ++ (S.ext p).getD []
  | _ => icon (S.emoji p) ++ (name p ++ j!"/") ++ (S.ext p).getD []

/-- `t` at `p`, chosen with `S`, becomes `t'`, chosen with `S'`, when the entry `q`, `j` levels below, becomes `q'` with the same content `c`: the directories above it are shown; it is shown under both names;
between its neighbours it stays at its place; and its limit stays the same. -/
inductive Renamed (S S' : Settings) (q q' : Path) (c : FileTree) : Path → Nat → FileTree → FileTree → Prop where
  | here {p : Path} {l₁ l₂ : List (JStr × FileTree)} {n n' : JStr} : q = p.child n → q' = p.child n' → shown S q c = true → shown S' q' c = true → S.limit q = S'.limit q' →
      (∀ e ∈ l₁ ++ l₂, before S (p.child e.1) q = before S' (p.child e.1) q' ∧ before S q (p.child e.1) = before S' q' (p.child e.1)) →
      Renamed S S' q q' c p 1 (.dir (l₁ ++ (n, c) :: l₂)) (.dir (l₁ ++ (n', c) :: l₂))
  | inside {p : Path} {l₁ l₂ : List (JStr × FileTree)} {n : JStr} {j : Nat} {t t' : FileTree} : shown S (p.child n) t = true → Renamed S S' q q' c (p.child n) j t t' →
      Renamed S S' q q' c p (j + 1) (.dir (l₁ ++ (n, t) :: l₂)) (.dir (l₁ ++ (n, t') :: l₂))

/-- The choices are by name and by kind: a path in the one file system and a path with the same name of the same kind in the other are treated alike. -/
structure Alike (fs fs' : PureFs) (S S' : Settings) : Prop where
  dirs : ∀ p p', name p = name p' → fs.isDir p = fs'.isDir p' → S.showDir p = S'.showDir p'
  files : ∀ p p', name p = name p' → fs.isDir p = fs'.isDir p' → S.showFile p = S'.showFile p'
  limit : ∀ p p', name p = name p' → fs.isDir p = fs'.isDir p' → S.limit p = S'.limit p'
  emoji : ∀ p p', name p = name p' → fs.isDir p = fs'.isDir p' → S.emoji p = S'.emoji p'
  ext : ∀ p p', name p = name p' → fs.isDir p = fs'.isDir p' → S.ext p = S'.ext p'
  order : ∀ p p' r r', name p = name p' → fs.isDir p = fs'.isDir p' → name r = name r' → fs.isDir r = fs'.isDir r' → S.order p r = S'.order p' r'
  maxDepth : S.maxDepth = S'.maxDepth
  compact : S.compact = S'.compact
  branch : S.branch = S'.branch
  lastBranch : S.lastBranch = S'.lastBranch
  bar : S.bar = S'.bar
  blank : S.blank = S'.blank

/-- The lines are the same but for one, which has the one label instead of the other behind the same symbols. -/
def OneChanged (old new : JStr) (ls ls' : List JStr) : Prop := ∃ a b pre, ls = a ++ (pre ++ old) :: b ∧ ls' = a ++ (pre ++ new) :: b

/-- The lines are the same but for one, in which the one name stands instead of the other, behind the same symbols and the same names of directories, and before the same other names. The emoji and the extension of that line are
the same, or those of the two paths. -/
def OnePart (S S' : Settings) (q q' : Path) (ls ls' : List JStr) : Prop :=
  ∃ a b sym u v e e' x x', ls = a ++ (sym ++ (icon e ++ (u ++ name q ++ v) ++ x)) :: b ∧ ls' = a ++ (sym ++ (icon e' ++ (u ++ name q' ++ v) ++ x')) :: b ∧
    (e = e' ∧ x = x' ∨ e = S.emoji q ∧ x = (S.ext q).getD [] ∧ e' = S'.emoji q' ∧ x' = (S'.ext q').getD [])

end Rename
end Spec
end JFTP
