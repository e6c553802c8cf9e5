import Verif.Spec.Reach
import Verif.Spec.Rules
import Verif.Spec.Visit

/-
What the "complete example" (ProjectStructure.java) shows of a project folder with the given content, in terms of names.
-/

namespace JFTP
namespace Spec
namespace Project

def CORE : JStr := j!"jfiletreeprettyprinter-core"
def EXAMPLES : JStr := j!"jfiletreeprettyprinter-examples"
def CLI : JStr := j!"jfiletreeprettyprinter-cli"
def MAIN : JStr := j!"FileTreePrettyPrinter.java"

/-- The last of these names begins with a dot. -/
def Hidden (names : List JStr) : Prop := ∃ rest, names.getLast? = some (46 :: rest)

/-- The main class lies somewhere in this directory. -/
def HoldsMain (fs : PureFs) (d : Path) : Prop := ∃ k q, k ≤ 2147483647 ∧ Reach fs k d q ∧ q.names.getLast? = some MAIN

/-- Directories, reached from the project folder by the names `way`: those on the way to the main class; all others that are neither hidden, nor `target` or `src` of the project folder, nor below
the `src` of a module (this `src` itself is shown). -/
def DirShown (fs : PureFs) (way : List JStr) (d : Path) : Prop :=
  HoldsMain fs d ∨ (¬ Hidden d.names ∧ way ≠ [j!"target"] ∧ way ≠ [j!"src"] ∧ ¬ ∃ mod below, below ≠ [] ∧ way = mod :: j!"src" :: below)

/-- Files, with the names on their absolute path: outside the core module those that are not hidden; in it the main class, provided that it is not directly in the folder of the module. -/
def FileShown (names : List JStr) : Prop :=
  (∃ above between, between ≠ [] ∧ names = above ++ CORE :: (between ++ [MAIN])) ∨ ((¬ ∃ above below, below ≠ [] ∧ names = above ++ CORE :: below) ∧ ¬ Hidden names)

def Shown (fs : PureFs) (way : List JStr) (q : Path) : Prop := if fs.isDir q = true then DirShown fs way q else FileShown q.names

/-- The rank of a path: the modules first, then `assets` and `docs`, then other directories, then all other files. -/
def rank (fs : PureFs) (q : Path) : Int :=
  if q.names.getLast? = some CORE then -100
  else if q.names.getLast? = some EXAMPLES then -90
  else if q.names.getLast? = some CLI then -80
  else if q.names.getLast? = some j!"assets" then -70
  else if q.names.getLast? = some j!"docs" then -60
  else if fs.isDir q = true then -1 else 0

/-- The order of the entries of a directory: by rank, then by name. -/
def Before (fs : PureFs) (a b : Path) : Prop := rank fs a < rank fs b ∨ (rank fs a = rank fs b ∧ compareTo (lastName a) (lastName b) < 0)

/-- Nothing is shown in the modules `examples` and `cli`; in the module `core` only the first entry. -/
def Room (fs : PureFs) (way : List JStr) (d : Path) (cs : List Path) (q : Path) : Prop :=
  d.names.getLast? ≠ some EXAMPLES ∧ d.names.getLast? ≠ some CLI ∧
    (d.names.getLast? = some CORE → ∀ n, d.child n ∈ cs → Shown fs (way ++ [n]) (d.child n) → ¬ Before fs (d.child n) q)

/-- What is shown: the project folder, and in a shown directory (down to 20 levels) the listed entries for which there is room. `way` are the names from the project folder. -/
inductive InPicture (fs : PureFs) (top : Path) : List JStr → Path → Prop where
  | top : InPicture fs top [] top
  | child {way d cs n} : InPicture fs top way d → fs.isDir d = true → way.length < 20 → fs.listDir d = .opened cs false → d.child n ∈ cs → Shown fs (way ++ [n]) (d.child n) →
      Room fs way d cs (d.child n) → InPicture fs top (way ++ [n]) (d.child n)

/-- How many of `n` accepted entries are shown in a directory with this name. -/
def roomFor (name : Option JStr) (n : Nat) : Nat := if name = some CLI ∨ name = some EXAMPLES then 0 else if name = some CORE then 1 else n

/-- The comment on a line. -/
def comment (way : List JStr) (name : Option JStr) : Option JStr :=
  if name = some j!"project-structure.png" then some j!"\t// This image"
  else if name = some j!"README.md" then some j!"\t\t// You're reading at this!"
  else if name = some MAIN then some j!"\t// Lib main entry point"
  else if name = some CLI then some j!"\t// Everything to build the executable"
  else if name = some CORE then some j!"\t// The Java lib"
  else if name = some EXAMPLES then some j!"\t// Some examples"
  else if way = [j!"src", j!"main", j!"java"] then some []
  else none

end Project
end Spec
end JFTP
