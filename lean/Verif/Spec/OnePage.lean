import Verif.Model.Printer

/-
The whole printer on one page: the lines printed of a directory tree, by recursion over the tree.
-/

namespace JFTP
namespace Spec
namespace OnePage

/-- A directory tree: a file with its attributes (`none` if they cannot be read, e.g. of a link that leads nowhere), a directory with its named entries in any order, or a directory that
cannot be listed. -/
inductive FileTree where
  | file (a : Option Attrs)
  | dir (entries : List (JStr × FileTree))
  | closed

/-- What can be chosen; all choices are functions of the path. -/
structure Settings where
  showDir : Path → Bool
  showFile : Path → Bool
  /-- the chosen order: negative if the first path comes before the second -/
  order : Path → Path → Int
  /-- negative for no limit -/
  limit : Path → Int
  maxDepth : Int
  compact : Bool
  emoji : Path → Option JStr
  ext : Path → Option JStr
  /-- symbols before an entry, before the last entry, below an entry, below the last entry -/
  branch : JStr
  lastBranch : JStr
  bar : JStr
  blank : JStr

/-- An entry of a directory; its lines can follow the names of directories that stand before it on the same line. -/
structure Kid where
  path : Path
  isDir : Bool
  /-- everything displayed of it can be read -/
  ok : Bool
  lines : JStr → List JStr

/-- The last name of a path. -/
def name (p : Path) : JStr := p.names.getLastD []

/-- Order of strings by their characters. -/
def precedes : JStr → JStr → Bool
  | [], [] => false
  | [], _ :: _ => true
  | _ :: _, [] => false
  | x :: xs, y :: ys => x.toNat < y.toNat || (x == y && precedes xs ys)

/-- First by the chosen order, then by name. -/
def before (S : Settings) (a b : Path) : Bool := S.order a b < 0 || (S.order a b == 0 && precedes (name a) (name b))

/-- Insert an entry into a sorted list. -/
def insert (S : Settings) (x : Kid) : List Kid → List Kid
  | [] => [x]
  | y :: ys => if before S y.path x.path then y :: insert S x ys else x :: y :: ys

/-- The accepted entries, sorted. -/
def arrange (S : Settings) : List Kid → List Kid
  | [] => []
  | x :: xs => if (if x.isDir then S.showDir x.path else S.showFile x.path) then insert S x (arrange S xs) else arrange S xs

/-- Symbol and space before the first line and before the others. -/
def indent (first others : JStr) : List JStr → List JStr
  | [] => []
  | l :: ls => (first ++ j!" " ++ l) :: ls.map (others ++ j!" " ++ ·)

/-- Blocks below a directory. -/
def hang (S : Settings) : List (List JStr) → List JStr
  | [] => []
  | [b] => indent S.lastBranch S.blank b
  | b :: bs => indent S.branch S.bar b ++ hang S bs

/-- The emoji before a name. -/
def icon : Option JStr → JStr
  | none => []
  | some e => e ++ j!" "

/-- The mark behind the name of a file. -/
def mark (a : Attrs) : JStr := if a.isSymbolicLink then j!"*" else if a.isOther then j!"?" else []

/-- The entries that the limit leaves. -/
def leave (n : Int) (kids : List Kid) : List Kid := if n < 0 then kids else kids.take n.toNat

/-- The lines of a directory `k` levels below the printed one, behind the names `pre`, with these accepted and sorted entries: the limit cuts them, an only directory may come on the same line. -/
def dirLines (S : Settings) (k : Nat) (p : Path) (pre : JStr) (kids : List Kid) : List JStr :=
  let shown := leave (S.limit p) kids
  let more := if shown.length < kids.length then [[j!"..."]] else []
  let names := pre ++ name p ++ j!"/"
  let title := icon (S.emoji p) ++ names ++ (S.ext p).getD []
  match shown, more with
  | [c], [] =>
    if c.isDir && S.compact && decide (0 < k) && (S.ext p).isNone then c.lines names
    else title :: hang S [c.lines []]
  | _, _ => title :: hang S (shown.map (fun c => c.lines []) ++ more)

mutual
/-- The lines of a file or directory, `k` levels below the printed one, behind the names `pre`. -/
def block (S : Settings) : Nat → Path → FileTree → JStr → List JStr
  | _, p, .file a, _ => [icon (S.emoji p) ++ name p ++ (a.map mark).getD [] ++ (S.ext p).getD []]
  | k, p, .dir es, pre =>
    if S.maxDepth ≤ k then [icon (S.emoji p) ++ (pre ++ name p ++ j!"/") ++ (S.ext p).getD [], S.lastBranch ++ j!" ..."]
    else dirLines S k p pre (arrange S (kidsOf S (k + 1) p es))
  | _, p, .closed, pre => [icon (S.emoji p) ++ (pre ++ name p ++ j!"/") ++ (S.ext p).getD [], S.lastBranch ++ j!" ..."]
/-- Everything displayed of a file or directory can be read. -/
def complete (S : Settings) : Nat → Path → FileTree → Bool
  | _, _, .file a => a.isSome
  | k, p, .dir es => S.maxDepth ≤ k || (leave (S.limit p) (arrange S (kidsOf S (k + 1) p es))).all (·.ok)
  | k, _, .closed => S.maxDepth ≤ k
/-- The entries of a directory with their lines. -/
def kidsOf (S : Settings) : Nat → Path → List (JStr × FileTree) → List Kid
  | _, _, [] => []
  | k, p, (n, t) :: es => ⟨p.child n, match t with | .file _ => false | _ => true, complete S k (p.child n) t, block S k (p.child n) t⟩ :: kidsOf S k p es
end

/-- The text printed of the tree `t` at the path `p`: its lines, separated by line feeds; none if something displayed cannot be read, or the path is a root. -/
def text (S : Settings) (p : Path) (t : FileTree) : Option JStr :=
  if p.names ≠ [] ∧ complete S 0 p t = true then some (List.intercalate j!"\n" (block S 0 p t [])) else none

/-- The file system has the tree at the path. -/
inductive Holds (fs : PureFs) : Path → FileTree → Prop where
  | file {p} : fs.isDir p = false → Holds fs p (.file (fs.readAttrs p))
  | dir {p es} : fs.isDir p = true → fs.listDir p = .opened (es.map (fun e => p.child e.1)) false → (∀ e ∈ es, Holds fs (p.child e.1) e.2) → Holds fs p (.dir es)
  | closed {p} : fs.isDir p = true → (∀ cs, fs.listDir p ≠ .opened cs false) → Holds fs p .closed

mutual
/-- The tree of a node of a disk. -/
def treeOf (disk : Node) (p : Path) : Node → FileTree
  | .dir true cs => .dir (treesOf disk p cs)
  | .dir false _ => .closed
  | _ => .file (disk.toFs.readAttrs p)
/-- The trees of the entries of a directory. -/
def treesOf (disk : Node) (p : Path) : List (JStr × Node) → List (JStr × FileTree)
  | [] => []
  | (n, c) :: cs => (n, treeOf disk (p.child n) c) :: treesOf disk p cs
end

/-- The tree at a path of a disk; where there is nothing, nothing can be read. -/
def treeAt (disk : Node) (p : Path) : FileTree :=
  match disk.at p with
  | some n => treeOf disk p n
  | none => .file (disk.toFs.readAttrs p)

/-- What is chosen if nothing is chosen. -/
def standard : Settings where
  showDir _ := true
  showFile _ := true
  order _ _ := 0
  limit _ := -1
  maxDepth := 20
  compact := false
  emoji _ := none
  ext _ := none
  branch := j!"├─"
  lastBranch := j!"└─"
  bar := j!"│ "
  blank := j!"  "

/-- The options answer like the settings, on every path with a name. -/
structure Obeys (o : Options (Except Exn)) (S : Settings) : Prop where
  dirs : ∀ p : Path, p.names ≠ [] → o.dirMatcher p = .ok (S.showDir p)
  files : ∀ p : Path, p.names ≠ [] → o.fileMatcher p = .ok (S.showFile p)
  order : o.pathComparator = thenComparing S.order PathSorts.ALPHABETICAL
  limit : ∀ p : Path, p.names ≠ [] → o.childLimit p = .ok (S.limit p)
  maxDepth : o.maxDepth = S.maxDepth
  compact : o.compactDirectories = S.compact
  emoji : ∀ p : Path, p.names ≠ [] → o.emojiMapping p = .ok (S.emoji p)
  ext : ∀ p : Path, p.names ≠ [] → (match o.lineExtension with | none => Except.ok none | some f => f p) = .ok (S.ext p)
  branch : o.treeFormat.nonLastChildSymbol = S.branch
  lastBranch : o.treeFormat.lastChildSymbol = S.lastBranch
  bar : o.treeFormat.continuationSymbol = S.bar
  blank : o.treeFormat.emptySymbol = S.blank

end OnePage
end Spec
end JFTP
