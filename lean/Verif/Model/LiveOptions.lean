import Verif.Model.Printer

/-
The printer once more, with an options object that may be modified while a call is running — by the callbacks of the call, or by another
thread. Every read of a field of the options object is an action of its own, at the place where the code performs it.
`Printer.prettyPrint` is the special case in which nothing is modified (C75_unchanged).
-/

namespace JFTP

/-- The getters of the options object that are called during a call (scanner/ScanningOptions.java:10-20, renderer/RenderingOptions.java:12-39;
options/PrettyPrintOptions.java:33-36, 114-117, 134-137, 154-157, 181-184, 219-223). `getMaxDepth` returns a Java `int`. The tree format and the emoji mapping are read when the printer
is built (renderer/LineRenderer.java:27-34). -/
structure LiveOpts (m : Type → Type) where
  getMaxDepth : m Int32
  getChildLimit : m (Path → m Int)
  pathComparator : m Cmp
  pathFilter : m (Matcher m)
  areCompactDirectoriesUsed : m Bool
  getLineExtension : m (Option (ExtFn m))

namespace LiveOpts

variable {m : Type → Type} [Monad m] [MonadExceptOf Exn m]

theorem int32_le (d : Int32) : d.toInt ≤ 2147483647 := by
  have := d.toInt_lt
  omega

/-- scanner/DefaultPathToTreeScanner.java:45-63 above the depth limit: the stream is opened (line 55), the comparator is read (line 97), the child limit function is read and
called (line 68), the filter is the one read at the start of the call (line 35). -/
def handleDirectory (fs : Fs m) (g : LiveOpts m) (filter : Matcher m) (visit : Path → m TreeEntry) (dir : Path) : m TreeEntry := do
  match ← fs.listDir dir with
  | .openFailed => throw (Exn.cannotList dir)
  | .opened streamed iterFails => do
    let c ← g.pathComparator
    let o : ScanOpts m := ⟨0, fun p => do (← g.getChildLimit) p, c, filter⟩
    let childEntries ← Scanner.handleDirectoryChildren o visit dir streamed iterFails
    return .dir dir childEntries

/-- scanner/DefaultPathToTreeScanner.java:38-51: the depth limit is read for every directory (line 48). -/
def handle (fs : Fs m) (g : LiveOpts m) (filter : Matcher m) (depth : Nat) (fileOrDir : Path) : m TreeEntry := do
  if ← PathMatchers.isDirectory fs fileOrDir then
    let maxDepth ← g.getMaxDepth
    if h : (depth : Int) ≥ maxDepth.toInt then
      return .dir fileOrDir [.maxDepth depth]
    else
      handleDirectory fs g filter (fun c => handle fs g filter (depth + 1) c) fileOrDir
  else
    Scanner.handleFile fs fileOrDir
termination_by 2147483647 - depth
decreasing_by
  have := int32_le maxDepth
  omega

/-- scanner/DefaultPathToTreeScanner.java:32-36: the filter is read once. -/
def scan (fs : Fs m) (g : LiveOpts m) (cwd : Path) (root : Path) : m TreeEntry := do
  let cleanedRoot := root.normalize.toAbsolutePath cwd
  let filter ← g.pathFilter
  handle fs g filter 0 cleanedRoot

/-- renderer/DefaultTreeEntryRenderer.java:86-92: the extension function is read twice; `null.apply` throws. -/
def computeLineExtension (g : LiveOpts m) (p : Path) : m (Option JStr) := do
  match ← g.getLineExtension with
  | none => pure none
  | some _ =>
    match ← g.getLineExtension with
    | none => throw Exn.nullPointer
    | some f => f p

mutual

/-- renderer/DefaultTreeEntryRenderer.java:32-39, 94-106 -/
def renderTree (g : LiveOpts m) (lr : LineRenderer m) (depth : Depth) : TreeEntry → m JStr
  | .dir d es => renderDirectory g lr depth d es [d]
  | .file f attrs => do
    let line ← lr.renderFile depth f attrs
    let ext ← computeLineExtension g f
    return line ++ ext.getD []
  | .skipped _ => pure (lr.renderEllipsis depth)
  | .maxDepth _ => pure (lr.renderEllipsis depth)
termination_by e => (sizeOf e, 1)

/-- renderer/DefaultTreeEntryRenderer.java:41-84: the compact switch is read for every directory, also for the printed one (line 46). -/
def renderDirectory (g : LiveOpts m) (lr : LineRenderer m) (depth : Depth) (dir : Path) (entries : List TreeEntry)
    (compactPaths : List Path) : m JStr :=
  match entries with
  | [.dir childDir childEntries] => do
    let compact ← g.areCompactDirectoriesUsed
    if compact && !depth.isRoot then do
      let extension ← computeLineExtension g dir
      match extension with
      | none => renderDirectory g lr depth childDir childEntries (compactPaths ++ [childDir])
      | some ext => do
        let line ← lr.renderDirectoryBegin depth dir compactPaths
        let childLines ← renderChildren g lr depth [.dir childDir childEntries]
        return line ++ ext ++ [NL] ++ childLines
    else do
      let line ← lr.renderDirectoryBegin depth dir compactPaths
      let extension ← computeLineExtension g dir
      let childLines ← renderChildren g lr depth [.dir childDir childEntries]
      return line ++ extension.getD [] ++ [NL] ++ childLines
  | es => do
    let _ ← g.areCompactDirectoriesUsed
    let line ← lr.renderDirectoryBegin depth dir compactPaths
    let extension ← computeLineExtension g dir
    let childLines ← renderChildren g lr depth es
    return line ++ extension.getD [] ++ (if es.isEmpty then [] else [NL]) ++ childLines
termination_by (sizeOf entries, 3)

/-- renderer/DefaultTreeEntryRenderer.java:74-81 -/
def renderChildren (g : LiveOpts m) (lr : LineRenderer m) (depth : Depth) : List TreeEntry → m JStr
  | [] => pure []
  | e :: rest => do
    let hasNext := !rest.isEmpty
    let childDepth := depth.append (if hasNext then .NON_LAST_FILE else .LAST_FILE)
    let lines ← renderTree g lr childDepth e
    let others ← renderChildren g lr depth rest
    return lines ++ (if hasNext then [NL] else []) ++ others
termination_by es => (sizeOf es, 2)

end

/-- DefaultFileTreePrettyPrinter.java:21-26 -/
def prettyPrint (fs : Fs m) (cwd : Path) (pr : Printer m) (g : LiveOpts m) (path : Path) : m JStr := do
  let path := (path.toAbsolutePath cwd).normalize
  let tree ← scan fs g cwd path
  renderTree g pr.lineRenderer Depth.createNewEmpty tree

end LiveOpts
end JFTP
