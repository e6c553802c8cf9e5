import Verif.Spec.Display
import Verif.Spec.Decode

/-
Displayed items in display order, and the entries they stand for.
-/

namespace JFTP
namespace Spec

mutual
/-- The displayed items with their depths, in display order. -/
def ITree.items (n : Nat) : ITree → List (Nat × Item)
  | .node i ks => (n, i) :: itemsAll (n + 1) ks
/-- The same for children. -/
def itemsAll (n : Nat) : List ITree → List (Nat × Item)
  | [] => []
  | k :: ks => k.items n ++ itemsAll n ks
end

/-- The directories and files shown on one line (`none` for `...`). -/
def Item.shows : Item → List (Option Path)
  | .file p _ => [some p]
  | .dirs ds _ => ds.map some
  | .more => [none]

mutual
/-- The directories and files of an entry tree in preorder (`none` for the markers). -/
def events : TreeEntry → List (Option Path)
  | .dir d es => some d :: eventsAll es
  | .file p _ => [some p]
  | .skipped _ => [none]
  | .maxDepth _ => [none]
/-- The same for lists. -/
def eventsAll : List TreeEntry → List (Option Path)
  | [] => []
  | e :: es => events e ++ eventsAll es
end

/-- The directories and files of an entry tree in preorder. -/
def entryPaths (e : TreeEntry) : List Path := (events e).filterMap id

/-- `Below e t`: `e` is `t` or an entry somewhere below it. -/
inductive Below (e : TreeEntry) : TreeEntry → Prop where
  | here : Below e e
  | inside {d es x} : x ∈ es → Below e x → Below e (.dir d es)

/-- `line` is the drawing prefix of a line at depth `n`. -/
def LinePrefix (f : TreeFormat) (n : Nat) (pre : JStr) : Prop := DrawnAt f (n, []) pre

/-- `line` is the line of item `i` at depth `n`: tree prefix, emoji and a space if there is one, name(s), extension. -/
inductive IsLineOf (f : TreeFormat) (L : Look) : Nat × Item → JStr → Prop where
  | file {n p a pre name} : LinePrefix f n pre → p.getFileName = some name →
      IsLineOf f L (n, .file p a) (pre ++ (emojiText (L.emoji p) ++ (name ++ (fileMark a ++ (L.ext p).getD []))))
  | dirs {n ds last pre} {names : List JStr} : LinePrefix f n pre → ds.map Path.getFileName = names.map some → ds.getLast? = some last →
      IsLineOf f L (n, .dirs ds last)
        (pre ++ (emojiText (L.emoji last) ++ ((names.map (· ++ [SLASH])).flatten ++ (L.ext last).getD [])))
  | more {n pre} : LinePrefix f n pre → IsLineOf f L (n, .more) (pre ++ j!"...")

/-- No directory strictly below the top has a directory as its only entry. -/
def NoChain : TreeEntry → Prop
  | .dir _ es => ∀ e ∈ es, ∀ d c ces, ¬ Below (.dir d [.dir c ces]) e
  | _ => True

end Spec
end JFTP
