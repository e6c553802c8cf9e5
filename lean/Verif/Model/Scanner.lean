import Verif.Model.Matchers
import Verif.Model.Sorts

/-
scanner/DefaultPathToTreeScanner.java, scanner/TreeEntry.java, scanner/ScanningOptions.java.
-/

namespace JFTP

/-- scanner/TreeEntry.java:12-97 -/
inductive TreeEntry where
  | dir (dir : Path) (entries : List TreeEntry)
  | file (file : Path) (attrs : Attrs)
  | skipped (dir : Path)
  | maxDepth (depth : Nat)
deriving Repr

/-- scanner/ScanningOptions.java:10-20. Java `int`s are unbounded `Int`s here: `depth` never exceeds `maxDepth`, so it cannot overflow;
`childCount` could only overflow for a directory with more than 2^31-1 entries. -/
structure ScanOpts (m : Type → Type) where
  maxDepth : Int
  childLimit : Path → m Int
  pathComparator : Cmp
  pathFilter : Matcher m

namespace Scanner

variable {m : Type → Type} [Monad m] [MonadExceptOf Exn m]

/-- The entries of the stream that pass `filter::matches`, tested in listing order (scanner/DefaultPathToTreeScanner.java:55; the
filter runs while the stream is iterated). -/
def filterEntries (filter : Matcher m) : List Path → m (List Path)
  | [] => pure []
  | c :: rest => do
    let keep ← filter c
    let rest' ← filterEntries filter rest
    return if keep then c :: rest' else rest'

/-- scanner/DefaultPathToTreeScanner.java:71-84: the loop. `childCount` is its value before the iteration. Returns the entries built and the
part of the iterator that is left. The null branch (lines 79-80) is unreachable: `handle` only returns fresh objects. -/
def childLoop (visit : Path → m TreeEntry) (maxChildEntries : Int) : Int → List Path → m (List TreeEntry × List Path)
  | _, [] => pure ([], [])
  | childCount, c :: rest =>
    let childCount := childCount + 1
    if maxChildEntries ≥ 0 ∧ childCount > maxChildEntries then pure ([], c :: rest)
    else do
      let childEntry ← visit c
      let (es, left) ← childLoop visit maxChildEntries childCount rest
      return (childEntry :: es, left)

/-- scanner/DefaultPathToTreeScanner.java:65-92 together with the lazily evaluated iterator of lines 94-99: the child limit is computed
first (line 68), then the first `hasNext()` runs the filter over the whole stream and sorts. -/
def handleDirectoryChildren (o : ScanOpts m) (visit : Path → m TreeEntry) (dir : Path)
    (streamed : List Path) (iterFails : Bool) : m (List TreeEntry) := do
  let maxChildEntries ← o.childLimit dir
  let kept ← filterEntries o.pathFilter streamed
  if iterFails then throw (Exn.dirIteration dir)
  let (es, left) ← childLoop visit maxChildEntries 0 (streamSorted o.pathComparator kept)
  return if left.isEmpty then es else es ++ [TreeEntry.skipped dir]

/-- scanner/DefaultPathToTreeScanner.java:45-63 -/
def handleDirectory (fs : Fs m) (o : ScanOpts m) (visit : Path → m TreeEntry) (dir : Path) : m TreeEntry := do
  match ← fs.listDir dir with
  | .openFailed => throw (Exn.cannotList dir)
  | .opened streamed iterFails => do
    let childEntries ← handleDirectoryChildren o visit dir streamed iterFails
    return .dir dir childEntries

/-- scanner/DefaultPathToTreeScanner.java:101-109 -/
def handleFile (fs : Fs m) (file : Path) : m TreeEntry := do
  match ← fs.readAttrs file with
  | some attrs => return .file file attrs
  | none => throw (Exn.cannotReadAttrs file)

/-- scanner/DefaultPathToTreeScanner.java:38-51: directories at `depth >= maxDepth` are not opened. -/
def handle (fs : Fs m) (o : ScanOpts m) (depth : Nat) (fileOrDir : Path) : m TreeEntry := do
  if ← PathMatchers.isDirectory fs fileOrDir then
    if h : (depth : Int) ≥ o.maxDepth then
      return .dir fileOrDir [.maxDepth depth]
    else
      handleDirectory fs o (fun c => handle fs o (depth + 1) c) fileOrDir
  else
    handleFile fs fileOrDir
termination_by (o.maxDepth - depth).toNat
decreasing_by omega

/-- scanner/DefaultPathToTreeScanner.java:32-36 -/
def scan (fs : Fs m) (o : ScanOpts m) (cwd : Path) (root : Path) : m TreeEntry :=
  let cleanedRoot := root.normalize.toAbsolutePath cwd
  handle fs o 0 cleanedRoot

end Scanner
end JFTP
