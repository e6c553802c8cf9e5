import Verif.Spec.DefaultEmojis

/-
What the examples in the documentation of the builders promise, in terms of names.
-/

namespace JFTP
namespace Spec
namespace Javadoc

/-- How many of `n` entries are shown in a directory with this name: `k` or `k'` for two special names, else all. -/
def room (x x' : JStr × Nat) (name : Option JStr) (n : Nat) : Nat :=
  if name = some x.1 then min x.2 n else if name = some x'.1 then min x'.2 n else n

/-- The groups in which the entries of the directory `d` are shown: `README.md` first, `target` last, and in between first those with `core` in their name or in the path of the directory. -/
def place (d : Path) (n : JStr) : Nat :=
  if n = j!"README.md" then 0 else if n = j!"target" then 3 else if j!"core" <:+: n ∨ ∃ x ∈ d.names, j!"core" <:+: x then 1 else 2

/-- The emoji of a file with this name. -/
def FileEmoji (lower : JStr → JStr) (n e : JStr) : Prop :=
  (j!".zip" <:+ n ∧ e = j!"📦") ∨
  (¬ j!".zip" <:+ n ∧ lower n = lower j!"Dockerfile" ∧ e = j!"🐳") ∨
  (¬ j!".zip" <:+ n ∧ lower n ≠ lower j!"Dockerfile" ∧ LastExt (lower n) j!"java" ∧ e = j!"☕") ∨
  (¬ j!".zip" <:+ n ∧ lower n ≠ lower j!"Dockerfile" ∧ ¬ LastExt (lower n) j!"java" ∧ e = j!"📄")

/-- The extension of a path with this name that is reached from the reference path by the names `way`. -/
def extension (text : JStr) (way : List JStr) (name : Option JStr) : Option JStr :=
  if name = some j!"README.md" then some text else if way = [j!"src", j!"main", j!"java"] then some [] else none

end Javadoc
end Spec
end JFTP
