import Verif.Spec.Printed
import Verif.Spec.Visit

/-
Recording every file-system access and every callback call of a run, and what the record has to look like.
-/

namespace JFTP
namespace Spec

/-- One access or callback call. -/
inductive Call where
  | isDir (p : Path)
  | list (p : Path)
  | attrs (p : Path)
  | isRegular (p : Path)
  | isLink (p : Path)
  | lstat (p : Path)
  | limit (p : Path)
  | dirFilter (p : Path)
  | fileFilter (p : Path)
  | emoji (p : Path)
  | ext (p : Path)
deriving DecidableEq

/-- Computations with a record of calls. -/
abbrev Traced := ExceptT Exn (StateM (List Call))

/-- Run from an empty record: outcome and record. -/
def Traced.exec {α : Type} (x : Traced α) : Except Exn α × List Call := (ExceptT.run x).run []

/-- Record a call, then answer (or throw). -/
def call {α : Type} (c : Call) (x : Except Exn α) : Traced α := ExceptT.mk (fun l => (x, l ++ [c]))

/-- A stable file system whose accesses are recorded. -/
def tracedFs (fs : PureFs) : Fs Traced where
  isDir p := call (.isDir p) (.ok (fs.isDir p))
  listDir p := call (.list p) (.ok (fs.listDir p))
  readAttrs p := call (.attrs p) (.ok (fs.readAttrs p))
  isRegular p := call (.isRegular p) (.ok (fs.isRegular p))
  isLink p := call (.isLink p) (.ok (fs.isLink p))
  lstat p := call (.lstat p) (.ok (fs.lstat p))

/-- Options whose callbacks are recorded. -/
def tracedOpts (o : Options (Except Exn)) : Options Traced where
  childLimit p := call (.limit p) (o.childLimit p)
  treeFormat := o.treeFormat
  emojiMapping p := call (.emoji p) (o.emojiMapping p)
  compactDirectories := o.compactDirectories
  maxDepth := o.maxDepth
  pathComparator := o.pathComparator
  dirMatcher p := call (.dirFilter p) (o.dirMatcher p)
  fileMatcher p := call (.fileFilter p) (o.fileMatcher p)
  lineExtension := o.lineExtension.map (fun g p => call (.ext p) (g p))

/-- The content of a directory, in the order in which it is listed. -/
def content (fs : PureFs) (p : Path) : List Path :=
  match fs.listDir p with
  | .opened cs _ => cs
  | .openFailed => []

/-- The filter call for one listed entry: is it a directory? Then the directory filter, otherwise the file filter. -/
def filterCalls (fs : PureFs) (c : Path) : List Call := [.isDir c, if fs.isDir c then .dirFilter c else .fileFilter c]

/-- Calls for one entry of the scanned tree. A file: its kind, its attributes. A directory at the depth limit: its kind. Any other directory: its kind, one listing, one limit call, then
one filter call per listed entry, in listing order. -/
def entryCalls (fs : PureFs) : TreeEntry → List Call
  | .file p _ => [.isDir p, .attrs p]
  | .dir p [.maxDepth _] => [.isDir p]
  | .dir p _ => [.isDir p, .list p, .limit p] ++ (content fs p).flatMap (filterCalls fs)
  | .skipped _ => []
  | .maxDepth _ => []

mutual
/-- The calls of the scan: those of each entry in preorder. -/
def scanCalls (fs : PureFs) : TreeEntry → List Call
  | .dir p es => entryCalls fs (.dir p es) ++ scanCallsAll fs es
  | e => entryCalls fs e
/-- The same for lists. -/
def scanCallsAll (fs : PureFs) : List TreeEntry → List Call
  | [] => []
  | e :: es => scanCalls fs e ++ scanCallsAll fs es
end

/-- The path on a line whose emoji is shown: the file, or the last of the merged directories. -/
def Item.lastPath : Item → Option Path
  | .file p _ => some p
  | .dirs _ last => some last
  | .more => none

/-- The paths asked for an emoji. -/
def Call.emojiOf : Call → Option Path
  | .emoji p => some p
  | _ => none

/-- The paths asked for an extension. -/
def Call.extOf : Call → Option Path
  | .ext p => some p
  | _ => none

/-- The directories opened. -/
def Call.listOf : Call → Option Path
  | .list p => some p
  | _ => none

/-- The directories whose child limit is asked for. -/
def Call.limitOf : Call → Option Path
  | .limit p => some p
  | _ => none

/-- The files whose attributes are read. -/
def Call.attrsOf : Call → Option Path
  | .attrs p => some p
  | _ => none

/-- The paths given to a filter. -/
def Call.filterOf : Call → Option Path
  | .dirFilter p => some p
  | .fileFilter p => some p
  | _ => none

/-- A call of the rendering phase. -/
def Call.rendering : Call → Bool
  | .emoji _ => true
  | .ext _ => true
  | _ => false

end Spec
end JFTP
