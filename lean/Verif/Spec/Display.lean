import Verif.Spec.Layout

/-
Specification of what is displayed, for callbacks that are functions of the path.
-/

namespace JFTP
namespace Spec

/-- Emoji mapping, compact switch and extension function as mathematical functions (`none` is null). -/
structure Look where
  emoji : Path → Option JStr
  compact : Bool
  ext : Path → Option JStr

/-- One displayed line. -/
inductive Item where
  /-- a file with its attributes -/
  | file (p : Path) (a : Attrs)
  /-- one or more directories merged on one line, outermost first; `last` is the innermost one -/
  | dirs (ds : List Path) (last : Path)
  /-- `...` -/
  | more

/-- The displayed items with their nesting. -/
inductive ITree where
  | node (item : Item) (kids : List ITree)

/-- The directory entry `(d, es)` can be merged with the only thing it contains, the directory `(c, ces)`. -/
def Mergeable (L : Look) (d : Path) (es : List TreeEntry) (c : Path) (ces : List TreeEntry) : Prop :=
  L.compact = true ∧ es = [.dir c ces] ∧ L.ext d = none

/-- `Chain L d es ds last es'`: `ds` is the maximal chain of merged directories that starts at the directory entry `(d, es)`; it ends in
`last`, whose entries are `es'`. -/
inductive Chain (L : Look) : Path → List TreeEntry → List Path → Path → List TreeEntry → Prop where
  | stop {d es} : (∀ c ces, ¬ Mergeable L d es c ces) → Chain L d es [d] d es
  | step {d es c ces ds last es'} : Mergeable L d es c ces → Chain L c ces ds last es' → Chain L d es (d :: ds) last es'

mutual
/-- `Shows L e T`: below the printed entry, the entry `e` is displayed as `T`. -/
inductive Shows (L : Look) : TreeEntry → ITree → Prop where
  | file {p a} : Shows L (.file p a) (.node (.file p a) [])
  | skipped {p} : Shows L (.skipped p) (.node .more [])
  | maxDepth {n} : Shows L (.maxDepth n) (.node .more [])
  | dir {d es ds last es' ks} : Chain L d es ds last es' → ShowsAll L es' ks → Shows L (.dir d es) (.node (.dirs ds last) ks)
/-- The same for lists of entries. -/
inductive ShowsAll (L : Look) : List TreeEntry → List ITree → Prop where
  | nil : ShowsAll L [] []
  | cons {e es T Ts} : Shows L e T → ShowsAll L es Ts → ShowsAll L (e :: es) (T :: Ts)
end

/-- `ShowsTop L e T`: the printed entry itself is displayed as `T`: it is never merged with its content. -/
inductive ShowsTop (L : Look) : TreeEntry → ITree → Prop where
  | dir {d es ks} : ShowsAll L es ks → ShowsTop L (.dir d es) (.node (.dirs [d] d) ks)
  | other {e T} : (∀ d es, e ≠ .dir d es) → Shows L e T → ShowsTop L e T

/-- The last name element of a path (empty for a root). -/
def lastName (p : Path) : JStr := p.names.getLastD []

/-- The text of a line, without its tree prefix. -/
def Item.label (L : Look) : Item → JStr
  | .file p a =>
    emojiText (L.emoji p) ++ lastName p ++
      fileMark a ++ (L.ext p).getD []
  | .dirs ds last =>
    emojiText (L.emoji last) ++ (ds.map (fun d => lastName d ++ j!"/")).flatten ++ (L.ext last).getD []
  | .more => j!"..."

mutual
/-- The label tree of an item tree. -/
def ITree.toDisp (L : Look) : ITree → Disp
  | .node i ks => .node (i.label L) (toDispAll L ks)
/-- The same for lists. -/
def toDispAll (L : Look) : List ITree → List Disp
  | [] => []
  | k :: ks => k.toDisp L :: toDispAll L ks
end

mutual
/-- Every directory and file of the entry tree has a name (i.e. none of them is a root directory). -/
def Named : TreeEntry → Prop
  | .dir d es => d.names ≠ [] ∧ NamedAll es
  | .file p _ => p.names ≠ []
  | _ => True
/-- The same for lists. -/
def NamedAll : List TreeEntry → Prop
  | [] => True
  | e :: es => Named e ∧ NamedAll es
end

end Spec
end JFTP
