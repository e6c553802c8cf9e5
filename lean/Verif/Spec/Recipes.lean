import Verif.Spec.Visit

/-
What the recipes of README.md ("Customization options") promise, in terms of the names of files and directories.
-/

namespace JFTP
namespace Spec

/-- `Led fs opened kept top k q`: `q` is `top`, or it is reached from `top` in `k` steps from a directory to one of its entries, where every directory left this way is
`opened` and every entry entered is `kept`. -/
inductive Led (fs : PureFs) (opened kept : Path → Prop) (top : Path) : Nat → Path → Prop where
  | top : Led fs opened kept top 0 top
  | child {k d cs q} : Led fs opened kept top k d → fs.isDir d = true → opened d → fs.listDir d = .opened cs false → q ∈ cs → kept q → Led fs opened kept top (k + 1) q

/-- Directories whose names do not end with `ending`; other entries with names of the form base.ext. -/
def OfKind (fs : PureFs) (ending ext : JStr) (q : Path) : Prop :=
  if fs.isDir q = true then ¬ ∃ t, q.names.getLast? = some (t ++ ending) else ∃ t, q.names.getLast? = some (t ++ j!"." ++ ext)

/-- The comment for an entry with the given last name that is reached from the printed directory by the names `way`: that of the first place with these names, else `text` if the name is base.ext. -/
def commentAt (places : List (List JStr × JStr)) (ext text : JStr) (way : List JStr) (name : Option JStr) : Option JStr :=
  match places.find? (fun x => x.1 == way) with
  | some x => some x.2
  | none => if (name.any fun n => (j!"." ++ ext).isSuffixOf n) then some text else none

end Spec
end JFTP
