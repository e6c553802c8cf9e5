import Verif.Model.Scanner

/-
scanner/DefaultPathToTreeScanner.java once more, with Java's 32-bit `int` arithmetic (wrapping around) instead of unbounded integers.
-/

namespace JFTP

/-- scanner/ScanningOptions.java:10-20 with `int`s. -/
structure ScanOpts32 (m : Type → Type) where
  maxDepth : Int32
  childLimit : Path → m Int32
  pathComparator : Cmp
  pathFilter : Matcher m

namespace Scanner32

variable {m : Type → Type} [Monad m] [MonadExceptOf Exn m]

/-- scanner/DefaultPathToTreeScanner.java:71-84, `int childCount`, `int maxChildEntries`. -/
def childLoop (visit : Path → m TreeEntry) (maxChildEntries : Int32) : Int32 → List Path → m (List TreeEntry × List Path)
  | _, [] => pure ([], [])
  | childCount, c :: rest =>
    let childCount := childCount + 1
    if maxChildEntries ≥ 0 ∧ childCount > maxChildEntries then pure ([], c :: rest)
    else do
      let childEntry ← visit c
      let (es, left) ← childLoop visit maxChildEntries childCount rest
      return (childEntry :: es, left)

/-- scanner/DefaultPathToTreeScanner.java:65-92, 94-99 -/
def handleDirectoryChildren (o : ScanOpts32 m) (visit : Path → m TreeEntry) (dir : Path)
    (streamed : List Path) (iterFails : Bool) : m (List TreeEntry) := do
  let maxChildEntries ← o.childLimit dir
  let kept ← Scanner.filterEntries o.pathFilter streamed
  if iterFails then throw (Exn.dirIteration dir)
  let (es, left) ← childLoop visit maxChildEntries 0 (streamSorted o.pathComparator kept)
  return if left.isEmpty then es else es ++ [TreeEntry.skipped dir]

/-- scanner/DefaultPathToTreeScanner.java:45-63 -/
def handleDirectory (fs : Fs m) (o : ScanOpts32 m) (visit : Path → m TreeEntry) (dir : Path) : m TreeEntry := do
  match ← fs.listDir dir with
  | .openFailed => throw (Exn.cannotList dir)
  | .opened streamed iterFails => do
    let childEntries ← handleDirectoryChildren o visit dir streamed iterFails
    return .dir dir childEntries

/-- `depth + 1` does not overflow where it is computed. -/
theorem depth_succ {depth maxDepth : Int32} (h : ¬ depth ≥ maxDepth) : (depth + 1).toInt = depth.toInt + 1 := by
  have h1 := Int32.lt_iff_toInt_lt.1 (Int32.not_le.1 h)
  have h2 := Int32.toInt_lt maxDepth
  have h3 := Int32.le_toInt depth
  rw [Int32.toInt_add, show (1 : Int32).toInt = 1 by decide]
  apply Int.bmod_eq_of_le <;> omega

/-- scanner/DefaultPathToTreeScanner.java:38-51, `int depth`. -/
def handle (fs : Fs m) (o : ScanOpts32 m) (depth : Int32) (fileOrDir : Path) : m TreeEntry := do
  if ← PathMatchers.isDirectory fs fileOrDir then
    if h : depth ≥ o.maxDepth then
      return .dir fileOrDir [.maxDepth depth.toInt.toNat]
    else
      handleDirectory fs o (fun c => handle fs o (depth + 1) c) fileOrDir
  else
    Scanner.handleFile fs fileOrDir
termination_by (o.maxDepth.toInt - depth.toInt).toNat
decreasing_by
  rw [depth_succ h]
  have : depth.toInt < o.maxDepth.toInt := by
    have := Int32.not_le.1 h
    exact Int32.lt_iff_toInt_lt.1 this
  omega

/-- scanner/DefaultPathToTreeScanner.java:32-36 -/
def scan (fs : Fs m) (o : ScanOpts32 m) (cwd : Path) (root : Path) : m TreeEntry :=
  let cleanedRoot := root.normalize.toAbsolutePath cwd
  handle fs o 0 cleanedRoot

end Scanner32
end JFTP
