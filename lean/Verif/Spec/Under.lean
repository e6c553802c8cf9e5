import Verif.Spec.Display
import Verif.Spec.Visit

/-
What may be displayed when the callbacks are not functions: every question may have several possible answers, and each time it is asked another of
them may come back.
-/

namespace JFTP
namespace Spec

/-- The possible answers of the emoji mapping and of the extension function, and the possible values of the compact switch. -/
structure LookR where
  emoji : Path → Option JStr → Prop
  compact : Bool → Prop
  ext : Path → Option JStr → Prop

/-- `ChainR L d es ds last es' y`: the directories `ds` share one line; they start with the directory entry `(d, es)` and end in `last`, whose entries are
`es'`. Every one of them but the last answered "no extension" and contained exactly the next one; the last one answered the extension `y`, and it could
not be continued (or the compact switch was off). -/
inductive ChainR (L : LookR) : Path → List TreeEntry → List Path → Path → List TreeEntry → Option JStr → Prop where
  | stop {d es y} : L.ext d y → (¬ L.compact false → y = none → ∀ c ces, es ≠ [.dir c ces]) → ChainR L d es [d] d es y
  | step {d c ces ds last es' y} : L.compact true → L.ext d none → ChainR L c ces ds last es' y → ChainR L d [.dir c ces] (d :: ds) last es' y

/-- The text of a line with the directories `ds`. -/
def dirsLabel (x : Option JStr) (ds : List Path) (y : Option JStr) : JStr :=
  emojiText x ++ (ds.map (fun d => lastName d ++ j!"/")).flatten ++ y.getD []

/-- The text of a line with a file. -/
def fileLabel (x : Option JStr) (p : Path) (a : Attrs) (y : Option JStr) : JStr :=
  emojiText x ++ lastName p ++ fileMark a ++ y.getD []

mutual
/-- `Drawn L e D`: with some of the possible answers, the entry `e` below the printed one is displayed as `D`. -/
inductive Drawn (L : LookR) : TreeEntry → Disp → Prop where
  | file {p a x y} : p.names ≠ [] → L.emoji p x → L.ext p y → Drawn L (.file p a) (.node (fileLabel x p a y) [])
  | skipped {p} : Drawn L (.skipped p) (.node j!"..." [])
  | maxDepth {n} : Drawn L (.maxDepth n) (.node j!"..." [])
  | dir {d es ds last es' x y ks} : ChainR L d es ds last es' y → (∀ q ∈ ds, q.names ≠ []) → L.emoji last x → DrawnAll L es' ks →
      Drawn L (.dir d es) (.node (dirsLabel x ds y) ks)
/-- The same for lists of entries. -/
inductive DrawnAll (L : LookR) : List TreeEntry → List Disp → Prop where
  | nil : DrawnAll L [] []
  | cons {e es D Ds} : Drawn L e D → DrawnAll L es Ds → DrawnAll L (e :: es) (D :: Ds)
end

/-- `DrawnTop L e D`: the same for the printed entry itself, which is never merged with its content. -/
inductive DrawnTop (L : LookR) : TreeEntry → Disp → Prop where
  | dir {d es x y ks} : d.names ≠ [] → L.emoji d x → L.ext d y → DrawnAll L es ks → DrawnTop L (.dir d es) (.node (dirsLabel x [d] y) ks)
  | other {e D} : (∀ d es, e ≠ .dir d es) → Drawn L e D → DrawnTop L e D

/-- Callbacks that are functions of the path, as possible answers. -/
def Look.toR (L : Look) : LookR := ⟨fun p x => L.emoji p = x, fun b => L.compact = b, fun p y => L.ext p = y⟩

/-- What the callbacks may answer at some moment of an execution with side effects and concurrent changes (states `σ`). -/
def looksSometime {σ : Type} (o : Options (ExceptT Exn (StateM σ))) : LookR where
  emoji p x := ∃ s s', (ExceptT.run (o.emojiMapping p)).run s = (.ok x, s')
  compact b := o.compactDirectories = b
  ext p y := match o.lineExtension with
    | none => y = none
    | some g => ∃ s s', (ExceptT.run (g p)).run s = (.ok y, s')

end Spec
end JFTP

namespace JFTP
namespace Spec

/-- `l` is the label of one of the lines. -/
inductive HasLabel (l : JStr) : Disp → Prop where
  | here {ks} : HasLabel l (.node l ks)
  | inside {l' ks k} : k ∈ ks → HasLabel l k → HasLabel l (.node l' ks)

/-- The path is the printed one, or a listing contained it and the filter accepted it. -/
def Seen (A : Answers) (top q : Path) : Prop := q = top ∨ ∃ d cs, A.list d cs ∧ q ∈ cs ∧ A.keep q true

/-- The line shows only paths that were seen: it is a marker, or a file with attributes that were read, or directories that answered to be directories. -/
inductive LabelOf (A : Answers) (L : LookR) (top : Path) : JStr → Prop where
  | more : LabelOf A L top j!"..."
  | file {p a x y} : Seen A top p → A.isDir p false → A.attrs p a → L.emoji p x → L.ext p y → LabelOf A L top (fileLabel x p a y)
  | dirs {ds d x y} : (∀ q ∈ ds ++ [d], Seen A top q ∧ A.isDir q true) → (∀ q ∈ ds, L.compact true ∧ L.ext q none) → L.emoji d x → L.ext d y →
      LabelOf A L top (dirsLabel x (ds ++ [d]) y)

end Spec
end JFTP
