import Verif.Spec.Printed

/-
How the text of a directory is put together from texts of its children.
-/

namespace JFTP
namespace Spec

/-- Texts (lists of lines) of children put below each other: the first line of each gets a branch symbol and a space in front, the other lines the continuation symbol
(the empty symbol under the last child) and a space. -/
def stack (f : TreeFormat) : List (List JStr) → List JStr
  | [] => []
  | [b] => block (f.lastChildSymbol ++ [SPACE]) (f.emptySymbol ++ [SPACE]) b
  | b :: bs => block (f.nonLastChildSymbol ++ [SPACE]) (f.continuationSymbol ++ [SPACE]) b ++ stack f bs

/-- Contract of `DirectoryStream`: entries are children of the directory with real names (never `.` or `..`). -/
def RealNames (fs : PureFs) : Prop :=
  ∀ p cs bad, fs.listDir p = .opened cs bad → ∀ c ∈ cs, ∃ n, c = p.child n ∧ n ≠ j!"." ∧ n ≠ j!".."

/-- An entry for a directory that shows nothing but one directory. -/
def SingleDir (e : TreeEntry) : Prop := ∃ d c ces, e = .dir d [.dir c ces]

end Spec
end JFTP
