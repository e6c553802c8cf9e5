import Verif.Model.Printer

/-
scanner/DefaultPathToTreeScanner.java and renderer/DefaultTreeEntryRenderer.java once more, on a call stack of limited depth.

`frames` is the number of calls of methods of these two classes that may still be nested. A call with no frame left throws `stop`, as a
`StackOverflowError` does (no code of the library catches it). Only the methods of the two classes that take part in the recursion, and the
leaves of that recursion, are counted: `handle`, `handleDirectory`, `handleDirectoryChildren`, `handleFile`, `renderTree`,
`renderDirectory`, `renderFile`, `renderSkippedChildrenEntry`, `renderMaxDepthReachEntry`. What they call in turn (the JDK, the callbacks, the
formatting of one line) does not call back into them and is not counted.
-/

namespace JFTP.Frames

variable {m : Type → Type} [Monad m] [MonadExceptOf Exn m]

/-- scanner/DefaultPathToTreeScanner.java:46-63, the frame of `handleDirectory` being taken already; `children` is the call of
`handleDirectoryChildren` on line 57. -/
def handleDirectory (fs : Fs m) (o : ScanOpts m) (depth : Nat) (dir : Path) (children : List Path → Bool → m (List TreeEntry)) :
    m TreeEntry := do
  if (depth : Int) ≥ o.maxDepth then
    return .dir dir [.maxDepth depth]
  else
    match ← fs.listDir dir with
    | .openFailed => throw (Exn.cannotList dir)
    | .opened streamed iterFails => do
      let childEntries ← children streamed iterFails
      return .dir dir childEntries

/-- scanner/DefaultPathToTreeScanner.java:38-92: `handle` takes one frame, `handleDirectory` (line 41) or `handleFile` (line 42) a second,
`handleDirectoryChildren` (line 57) a third, and line 78 calls `handle` with what is left. -/
def handle (stop : Exn) (fs : Fs m) (o : ScanOpts m) : Nat → Nat → Path → m TreeEntry
  | 0, _, _ => throw stop
  | 1, _, p => do
    let _ ← PathMatchers.isDirectory fs p
    throw stop
  | 2, depth, p => do
    if ← PathMatchers.isDirectory fs p then handleDirectory fs o depth p (fun _ _ => throw stop)
    else Scanner.handleFile fs p
  | frames + 3, depth, p => do
    if ← PathMatchers.isDirectory fs p then
      handleDirectory fs o depth p (fun streamed iterFails =>
        Scanner.handleDirectoryChildren o (fun c => handle stop fs o frames (depth + 1) c) p streamed iterFails)
    else Scanner.handleFile fs p

mutual

/-- renderer/DefaultTreeEntryRenderer.java:32-39, 94-106: one frame for `renderTree`, one for the method it calls. -/
def renderTree (stop : Exn) (o : RenderOpts m) (lr : LineRenderer m) (frames : Nat) (depth : Depth) : TreeEntry → m JStr
  | .dir d es =>
    match frames with
    | 0 => throw stop
    | n + 1 => renderDirectory stop o lr n depth d es [d]
  | .file f attrs =>
    match frames with
    | 0 | 1 => throw stop
    | _ + 2 => do
      let line ← lr.renderFile depth f attrs
      let ext ← Renderer.computeLineExtension o f
      return line ++ ext.getD []
  | .skipped _ =>
    match frames with
    | 0 | 1 => throw stop
    | _ + 2 => pure (lr.renderEllipsis depth)
  | .maxDepth _ =>
    match frames with
    | 0 | 1 => throw stop
    | _ + 2 => pure (lr.renderEllipsis depth)
termination_by e => (sizeOf e, 1)

/-- renderer/DefaultTreeEntryRenderer.java:41-84: one frame; the calls of lines 56 and 77 have the rest. -/
def renderDirectory (stop : Exn) (o : RenderOpts m) (lr : LineRenderer m) (frames : Nat) (depth : Depth) (dir : Path)
    (entries : List TreeEntry) (compactPaths : List Path) : m JStr :=
  match frames with
  | 0 => throw stop
  | n + 1 =>
    match entries with
    | [.dir childDir childEntries] =>
      if o.compactDirectories && !depth.isRoot then do
        let extension ← Renderer.computeLineExtension o dir
        match extension with
        | none => renderDirectory stop o lr n depth childDir childEntries (compactPaths ++ [childDir])
        | some ext => do
          let line ← lr.renderDirectoryBegin depth dir compactPaths
          let childLines ← renderChildren stop o lr n depth [.dir childDir childEntries]
          return line ++ ext ++ [NL] ++ childLines
      else do
        let line ← lr.renderDirectoryBegin depth dir compactPaths
        let extension ← Renderer.computeLineExtension o dir
        let childLines ← renderChildren stop o lr n depth [.dir childDir childEntries]
        return line ++ extension.getD [] ++ [NL] ++ childLines
    | es => do
      let line ← lr.renderDirectoryBegin depth dir compactPaths
      let extension ← Renderer.computeLineExtension o dir
      let childLines ← renderChildren stop o lr n depth es
      return line ++ extension.getD [] ++ (if es.isEmpty then [] else [NL]) ++ childLines
termination_by (sizeOf entries, 3)

/-- renderer/DefaultTreeEntryRenderer.java:74-81: the loop, in the frame of `renderDirectory`. -/
def renderChildren (stop : Exn) (o : RenderOpts m) (lr : LineRenderer m) (frames : Nat) (depth : Depth) : List TreeEntry → m JStr
  | [] => pure []
  | e :: rest => do
    let hasNext := !rest.isEmpty
    let childDepth := depth.append (if hasNext then .NON_LAST_FILE else .LAST_FILE)
    let lines ← renderTree stop o lr frames childDepth e
    let others ← renderChildren stop o lr frames depth rest
    return lines ++ (if hasNext then [NL] else []) ++ others
termination_by es => (sizeOf es, 2)

end

/-- DefaultFileTreePrettyPrinter.java:21-26 with scanner/DefaultPathToTreeScanner.java:32-36 and renderer/DefaultTreeEntryRenderer.java:27-30:
the scanner and the renderer, one after the other, may each nest `frames` calls. -/
def prettyPrint (stop : Exn) (frames : Nat) (fs : Fs m) (cwd : Path) (o : Options m) (path : Path) : m JStr := do
  let path := (path.toAbsolutePath cwd).normalize
  let tree ← handle stop fs (o.toScan fs) frames 0 (path.normalize.toAbsolutePath cwd)
  renderTree stop o.toRender (LineRenderer.create o.toRender) frames Depth.createNewEmpty tree

end JFTP.Frames
