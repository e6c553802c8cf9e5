import Verif.Model.Printer

/-
The two `try`-with-resources statements of the library, with explicit opening and closing of the streams:
scanner/DefaultPathToTreeScanner.java:55-60 and options/PathMatchers.java:692-699. Everything else is as in `Scanner` and `Matchers`, which leave
closing out.
-/

namespace JFTP

variable {m : Type → Type} [Monad m] [MonadExceptOf Exn m]

/-- File-system accesses with open streams.
* `openDir p` — `Files.newDirectoryStream(p, …)` (scanner/DefaultPathToTreeScanner.java:55)
* `closeDir p` — `DirectoryStream.close()`; `false` is an `IOException`
* `openWalk p` — `Files.walk(p, …)` (options/PathMatchers.java:692), with the first directory read
* `closeWalk p` — `Stream.close()`, which declares no exception (JDK: `FileTreeWalker.close` ignores failures)
* `listDir` is left for the directories that `Files.walk` opens and closes by itself. -/
structure StreamFs (m : Type → Type) extends Fs m where
  openDir : Path → m Listing
  closeDir : Path → m Bool
  openWalk : Path → m Listing
  closeWalk : Path → m Unit

/-- A file system whose streams are always closed without failure and without other effects. -/
def Fs.streams (fs : Fs m) : StreamFs m where
  toFs := fs
  openDir := fs.listDir
  closeDir _ := pure true
  openWalk := fs.listDir
  closeWalk _ := pure ()

/-- `try (resource) { body }` (JLS 14.20.3.1): the resource is closed however the body ends; a failure of `close()` is thrown (here already
converted to `onFailure` by the `catch` clause) unless the body threw before, in which case it is suppressed. -/
def tryWithResource {α : Type} (body : m α) (close : m Bool) (onFailure : Exn) : m α := do
  let r ← tryCatch (Except.ok <$> body) (fun e => pure (Except.error e))
  let closed ← close
  match r with
  | .error e => throw e
  | .ok v => if closed then pure v else throw onFailure

namespace StreamScanner

/-- scanner/DefaultPathToTreeScanner.java:53-62 -/
def handleDirectory (fs : StreamFs m) (o : ScanOpts m) (visit : Path → m TreeEntry) (dir : Path) : m TreeEntry := do
  match ← fs.openDir dir with
  | .openFailed => throw (Exn.cannotList dir)
  | .opened streamed iterFails => do
    let childEntries ← tryWithResource (Scanner.handleDirectoryChildren o visit dir streamed iterFails) (fs.closeDir dir) (Exn.cannotList dir)
    return .dir dir childEntries

/-- scanner/DefaultPathToTreeScanner.java:38-51 -/
def handle (fs : StreamFs m) (o : ScanOpts m) (depth : Nat) (fileOrDir : Path) : m TreeEntry := do
  if ← PathMatchers.isDirectory fs.toFs fileOrDir then
    if h : (depth : Int) ≥ o.maxDepth then
      return .dir fileOrDir [.maxDepth depth]
    else
      handleDirectory fs o (fun c => handle fs o (depth + 1) c) fileOrDir
  else
    Scanner.handleFile fs.toFs fileOrDir
termination_by (o.maxDepth - depth).toNat
decreasing_by omega

/-- scanner/DefaultPathToTreeScanner.java:32-36 -/
def scan (fs : StreamFs m) (o : ScanOpts m) (cwd : Path) (root : Path) : m TreeEntry :=
  handle fs o 0 (root.normalize.toAbsolutePath cwd)

/-- DefaultFileTreePrettyPrinter.java:21-26 for a printer built from the options `o`, which are not changed any more. -/
def prettyPrint (fs : StreamFs m) (cwd : Path) (o : Options m) (path : Path) : m JStr := do
  let tree ← scan fs (o.toScan fs.toFs) cwd ((path.toAbsolutePath cwd).normalize)
  Renderer.renderRoot o.toRender (LineRenderer.create o.toRender) tree

/-- options/PathMatchers.java:688-700 -/
def testDescendants (fs : StreamFs m) (path : Path) (depth : Nat) (test : Matcher m) (incl : Path → Bool) : m Bool := do
  if !(← PathMatchers.isDirectory fs.toFs path) then return false
  match ← fs.lstat path with
  | Option.none => throw (Exn.cannotWalk path)
  | some false => return false
  | some true =>
    match ← fs.openWalk path with
    | .openFailed => throw (Exn.cannotWalk path)
    | .opened cs bad =>
      tryWithResource (PathMatchers.walkEntries path bad (PathMatchers.walkTest fs.toFs incl test (depth - 1)) cs)
        (do fs.closeWalk path; return true) (Exn.cannotWalk path)

/-- options/PathMatchers.java:650-653 -/
def hasAnyDirectChildMatching (fs : StreamFs m) (childMatcher : Matcher m) : Matcher m := fun path =>
  testDescendants fs path 1 childMatcher (fun _ => true)

/-- options/PathMatchers.java:667-670 -/
def hasAnyDescendantMatching (fs : StreamFs m) (descendantMatcher : Matcher m) : Matcher m := fun path =>
  testDescendants fs path PathMatchers.intMax descendantMatcher (fun _ => true)

/-- options/PathMatchers.java:683-686 -/
def hasSiblingMatching (fs : StreamFs m) (siblingMatcher : Matcher m) : Matcher m := fun path =>
  match path.getParent with
  | some p => testDescendants fs p 1 siblingMatcher (fun s => decide (s ≠ path))
  | .none => pure false

end StreamScanner
end JFTP
