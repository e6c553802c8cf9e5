import Verif.Model.Renderer

/-
Specification of the printed picture, independent of the renderer's symbol stack:
a displayed tree is a tree of labels, and its picture is the usual block layout.
-/

namespace JFTP
namespace Spec

/-- What is displayed: a label, and the displayed children below it. -/
inductive Disp where
  | node (label : JStr) (kids : List Disp)

/-- Put `a` in front of the first line of a block and `b` in front of all others. -/
def block (a b : JStr) : List JStr → List JStr
  | [] => []
  | x :: xs => (a ++ x) :: xs.map (b ++ ·)

mutual
/-- The lines of a displayed tree: its label, then the blocks of its children. -/
def layout (f : TreeFormat) : Disp → List JStr
  | .node l ks => l :: layoutKids f ks
/-- The blocks of the children, one after the other: branch symbol and a space before the first line of each, continuation symbol (empty
symbol under the last child) and a space before the others. -/
def layoutKids (f : TreeFormat) : List Disp → List JStr
  | [] => []
  | k :: ks =>
    if ks.isEmpty then
      block (f.lastChildSymbol ++ [SPACE]) (f.emptySymbol ++ [SPACE]) (layout f k)
    else
      block (f.nonLastChildSymbol ++ [SPACE]) (f.continuationSymbol ++ [SPACE]) (layout f k) ++ layoutKids f ks
end

/-- The picture: lines separated (not terminated) by line feeds. -/
def picture (f : TreeFormat) (d : Disp) : JStr := joinLines (layout f d)

mutual
/-- Number of labels in a displayed tree. -/
def Disp.count : Disp → Nat
  | .node _ ks => 1 + countKids ks
/-- Number of labels in a list of displayed trees. -/
def countKids : List Disp → Nat
  | [] => 0
  | k :: ks => k.count + countKids ks
end

/-! ### What is displayed for an entry -/

section
variable {m : Type → Type} [Monad m] [MonadExceptOf Exn m]

/-- The callbacks and switches that determine the labels. -/
structure LookM (m : Type → Type) where
  emoji : EmojiFn m
  compact : Bool
  ext : ExtFn m

/-- Text of an optional emoji in front of a name. -/
def emojiText : Option JStr → JStr
  | none => []
  | some e => e ++ j!" "

/-- The suffix of a file name on its line. -/
def fileMark (a : Attrs) : JStr := if a.isSymbolicLink then j!"*" else if a.isOther then j!"?" else []

/-- The last name element; a root directory has none, which is a `NullPointerException`. -/
def nameM (p : Path) : m JStr :=
  match p.names.getLast? with
  | some n => pure n
  | none => throw Exn.nullPointer

/-- The names of the directories on one line, each followed by a slash. -/
def namesM : List Path → m JStr
  | [] => pure []
  | d :: ds => do
    let n ← match d.names.getLast? with
      | some n => pure (n ++ j!"/")
      | none => throw Exn.nullPointer
    let rest ← namesM ds
    return n ++ rest

/-- Emoji, name and mark of a file. -/
def fileTextM (emoji : EmojiFn m) (p : Path) (a : Attrs) : m JStr := do
  let e ← emoji p
  let n ← nameM p
  return emojiText e ++ n ++ fileMark a

/-- Emoji of the directory `d` (the last one on the line) and the names of the directories `ds` on the line. -/
def dirsTextM (emoji : EmojiFn m) (d : Path) (ds : List Path) : m JStr := do
  let e ← emoji d
  let ns ← namesM ds
  return emojiText e ++ ns

mutual
/-- The displayed tree of an entry; `top` says that the entry is the printed one itself. Effects are in the order of the callback calls. -/
def dispM (L : LookM m) (top : Bool) : TreeEntry → m Disp
  | .dir d es => dispDirM L top d es [d]
  | .file p a => do
    let name ← fileTextM L.emoji p a
    let x ← L.ext p
    return .node (name ++ x.getD []) []
  | .skipped _ => pure (.node j!"..." [])
  | .maxDepth _ => pure (.node j!"..." [])
termination_by e => (sizeOf e, 1)
/-- A directory whose line already carries the names of `merged` (ending with the directory itself). -/
def dispDirM (L : LookM m) (top : Bool) (d : Path) (es : List TreeEntry) (merged : List Path) : m Disp :=
  match es with
  | [.dir c ces] =>
    if L.compact && !top then do
      match ← L.ext d with
      | none => dispDirM L top c ces (merged ++ [c])
      | some x => do
        let names ← dirsTextM L.emoji d merged
        let k ← dispM L false (.dir c ces)
        return .node (names ++ x) [k]
    else do
      let names ← dirsTextM L.emoji d merged
      let x ← L.ext d
      let k ← dispM L false (.dir c ces)
      return .node (names ++ x.getD []) [k]
  | es => do
    let names ← dirsTextM L.emoji d merged
    let x ← L.ext d
    let ks ← dispKidsM L es
    return .node (names ++ x.getD []) ks
termination_by (sizeOf es, 3)
/-- The displayed children. -/
def dispKidsM (L : LookM m) : List TreeEntry → m (List Disp)
  | [] => pure []
  | e :: rest => do
    let k ← dispM L false e
    let ks ← dispKidsM L rest
    return k :: ks
termination_by es => (sizeOf es, 2)
end

end
end Spec
end JFTP
