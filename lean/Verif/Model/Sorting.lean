import Verif.Model.Printer
import Verif.Model.TimSort

/-
Sorting with comparators that may read the file system at each comparison, have side effects, break the contract of `Comparator`, or throw
(scanner/DefaultPathToTreeScanner.java:94-99); the sort is `TimSort`.
`Scanner` is the special case of a pure comparator (C71_lawful).
-/

namespace JFTP

/-! ### The scanner -/

variable {m : Type → Type} [Monad m] [MonadExceptOf Exn m]

/-- A comparator as it is called. -/
abbrev CmpM (m : Type → Type) := Path → Path → m Int

namespace LiveScanner

/-- scanner/DefaultPathToTreeScanner.java:65-99 with an arbitrary comparator (see `Scanner.handleDirectoryChildren`); the comparator of `o` is not used. -/
def handleDirectoryChildren (sort : List Path → SortRun (List Path)) (c : CmpM m) (o : ScanOpts m) (visit : Path → m TreeEntry) (dir : Path)
    (streamed : List Path) (iterFails : Bool) : m (List TreeEntry) := do
  let maxChildEntries ← o.childLimit dir
  let kept ← Scanner.filterEntries o.pathFilter streamed
  if iterFails then throw (Exn.dirIteration dir)
  let sorted ← (sort kept).exec c
  let (es, left) ← Scanner.childLoop visit maxChildEntries 0 sorted
  return if left.isEmpty then es else es ++ [TreeEntry.skipped dir]

/-- scanner/DefaultPathToTreeScanner.java:45-63 -/
def handleDirectory (sort : List Path → SortRun (List Path)) (c : CmpM m) (fs : Fs m) (o : ScanOpts m) (visit : Path → m TreeEntry) (dir : Path) : m TreeEntry := do
  match ← fs.listDir dir with
  | .openFailed => throw (Exn.cannotList dir)
  | .opened streamed iterFails => do
    let childEntries ← handleDirectoryChildren sort c o visit dir streamed iterFails
    return .dir dir childEntries

/-- scanner/DefaultPathToTreeScanner.java:38-51 -/
def handle (sort : List Path → SortRun (List Path)) (c : CmpM m) (fs : Fs m) (o : ScanOpts m) (depth : Nat) (fileOrDir : Path) : m TreeEntry := do
  if ← PathMatchers.isDirectory fs fileOrDir then
    if h : (depth : Int) ≥ o.maxDepth then
      return .dir fileOrDir [.maxDepth depth]
    else
      handleDirectory sort c fs o (fun c' => handle sort c fs o (depth + 1) c') fileOrDir
  else
    Scanner.handleFile fs fileOrDir
termination_by (o.maxDepth - depth).toNat
decreasing_by omega

/-- DefaultFileTreePrettyPrinter.java:21-26 with scanner/DefaultPathToTreeScanner.java:32-36, for a printer whose options have the comparator `c` (instead of the one in `o`). -/
def prettyPrint (sort : List Path → SortRun (List Path)) (c : CmpM m) (fs : Fs m) (cwd : Path) (o : Options m) (path : Path) : m JStr := do
  let path := (path.toAbsolutePath cwd).normalize
  let tree ← handle sort c fs (o.toScan fs) 0 (path.normalize.toAbsolutePath cwd)
  Renderer.renderRoot o.toRender (Printer.build o).lineRenderer tree

/-- The same for a printer that was built earlier: its line renderer is the one made when it was built (see `Printer`). -/
def printWith (sort : List Path → SortRun (List Path)) (c : CmpM m) (fs : Fs m) (cwd : Path) (pr : Printer m) (live : Options m) (path : Path) : m JStr := do
  let path := (path.toAbsolutePath cwd).normalize
  let tree ← handle sort c fs (live.toScan fs) 0 (path.normalize.toAbsolutePath cwd)
  Renderer.renderRoot live.toRender pr.lineRenderer tree

end LiveScanner

/-! ### Comparators that ask the file system -/

namespace LiveSorts

/-- `Comparator.thenComparing(Comparator)` (JDK) -/
def thenComparing (c d : CmpM m) : CmpM m := fun a b => do
  let res ← c a b
  if res ≠ 0 then return res else d a b

/-- `Comparator.reversed()` (JDK) -/
def reversed (c : CmpM m) : CmpM m := fun a b => c b a

/-- `Comparator.comparing(key)` (JDK) with `int` or `long` keys. -/
def comparing (key : Path → m Int) : CmpM m := fun a b => do
  let x ← key a
  let y ← key b
  return intCompare x y

/-- options/PathSorts.java:16-20 -/
def ALPHABETICAL : CmpM m := fun a b => pure (PathSorts.ALPHABETICAL a b)

/-- options/PathSorts.java:26-28; `length` is `path.toFile().length()`. -/
def BY_FILE_SIZE (fs : Fs m) (length : Path → m Int) : CmpM m := comparing (fun path => do
  if ← PathMatchers.isDirectory fs path then return 0 else length path)

/-- options/PathSorts.java:34-41 -/
def DIRECTORY_FIRST (fs : Fs m) : CmpM m := fun path1 path2 => do
  let isP1Dir ← PathMatchers.isDirectory fs path1
  let isP2Dir ← PathMatchers.isDirectory fs path2
  if isP1Dir = isP2Dir then return 0
  return if isP1Dir then -1 else 1

/-- options/PathSorts.java:47 -/
def DIRECTORY_LAST (fs : Fs m) : CmpM m := reversed (DIRECTORY_FIRST fs)

/-- options/PathSorts.java:79-128: after the two questions only the names matter. -/
def BY_EXTENSION (fold : JChar → JChar) (fs : Fs m) : CmpM m := fun p1 p2 => do
  let isDir1 ← PathMatchers.isDirectory fs p1
  let isDir2 ← PathMatchers.isDirectory fs p2
  if isDir1 then return if isDir2 then 0 else -1
  if isDir2 then return 1
  return PathSorts.BY_EXTENSION fold (fun _ => false) p1 p2

/-- options/PathSortBuilder.java:76-85 with rules that may do anything. -/
def precedenceLoop (path : Path) : Int → List (Path → m Int) → m Int
  | result, [] => pure result
  | _, rule :: rest => do
    let result ← rule path
    if result ≠ DEFAULT_PRECEDENCE then return result else precedenceLoop path result rest

/-- options/PathSortBuilder.java:97-101: a further rule at the end. -/
def add (orders : List (Path → m Int)) (order : Path → m Int) : List (Path → m Int) := orders ++ [order]

/-- options/PathSortBuilder.java:113-116 -/
def addMatching (orders : List (Path → m Int)) (mt : Matcher m) (order : Int) : List (Path → m Int) :=
  add orders (fun path => do return if ← mt path then order else DEFAULT_PRECEDENCE)

/-- options/PathSortBuilder.java:124-126 -/
def addFirst (orders : List (Path → m Int)) (mt : Matcher m) : List (Path → m Int) := addMatching orders mt HIGHEST_PRECEDENCE

/-- options/PathSortBuilder.java:134-136 -/
def addLast (orders : List (Path → m Int)) (mt : Matcher m) : List (Path → m Int) := addMatching orders mt LOWEST_PRECEDENCE

/-- options/PathSortBuilder.java:74-87 -/
def built (orders : List (Path → m Int)) : CmpM m := thenComparing (comparing (fun path => precedenceLoop path DEFAULT_PRECEDENCE orders)) ALPHABETICAL

end LiveSorts
end JFTP
