import Verif.Model.Scanner
import Verif.Model.Builders

/-
renderer/*.java
-/

namespace JFTP

/-- renderer/TreeSymbol.java:6-31 -/
inductive TreeSymbol where
  | NON_LAST_FILE | LAST_FILE | CONTINUATION | EMPTY
deriving DecidableEq, Repr

/-- renderer/Depth.java:9-19 -/
structure Depth where
  symbols : List TreeSymbol
deriving DecidableEq, Repr

namespace Depth
/-- renderer/Depth.java:13-15 -/
def createNewEmpty : Depth := ⟨[]⟩
/-- renderer/Depth.java:21-23 -/
def isEmpty (d : Depth) : Bool := d.symbols.isEmpty
/-- renderer/Depth.java:25-27 -/
def getSize (d : Depth) : Nat := d.symbols.length
/-- renderer/Depth.java:29-31 -/
def isRoot (d : Depth) : Bool := d.getSize == 0
/-- renderer/Depth.java:33-37 -/
def append (d : Depth) (s : TreeSymbol) : Depth := ⟨d.symbols ++ [s]⟩
/-- renderer/Depth.java:39-46 -/
def pop (d : Depth) : Depth := if d.symbols.isEmpty then d else ⟨d.symbols.dropLast⟩
/-- renderer/Depth.java:62-68 -/
def equals (d e : Depth) : Bool := d.symbols == e.symbols
end Depth

/-- renderer/DefaultTreeFormatter.java:8-18: a format and two indents, given as numbers of spaces. -/
structure TreeFormatter where
  treeFormat : TreeFormat
  preIndent : JStr
  postIndent : JStr

namespace TreeFormatter

/-- renderer/DefaultTreeFormatter.java:14-18 -/
def new (f : TreeFormat) (spaceBefore spaceAfter : Nat) : TreeFormatter :=
  ⟨f, List.replicate spaceBefore SPACE, List.replicate spaceAfter SPACE⟩

/-- renderer/TreeFormatter.java:11-13 -/
def getInstance (f : TreeFormat) : TreeFormatter := new f 0 1

/-- renderer/DefaultTreeFormatter.java:37-44 -/
def formatSymbol (t : TreeFormatter) : TreeSymbol → JStr
  | .NON_LAST_FILE => t.treeFormat.nonLastChildSymbol
  | .LAST_FILE => t.treeFormat.lastChildSymbol
  | .CONTINUATION => t.treeFormat.continuationSymbol
  | .EMPTY => t.treeFormat.emptySymbol

/-- renderer/DefaultTreeFormatter.java:24-32: the loop over the remaining symbols. -/
def formatLoop (t : TreeFormatter) : List TreeSymbol → JStr
  | [] => []
  | symbol :: rest =>
    let hasNext := !rest.isEmpty
    let symbol :=
      if symbol = .LAST_FILE ∧ hasNext then TreeSymbol.EMPTY
      else if symbol = .NON_LAST_FILE ∧ hasNext then TreeSymbol.CONTINUATION
      else symbol
    t.preIndent ++ t.formatSymbol symbol ++ t.postIndent ++ t.formatLoop rest

/-- renderer/DefaultTreeFormatter.java:20-35 -/
def format (t : TreeFormatter) (d : Depth) : JStr := t.formatLoop d.symbols

end TreeFormatter

/-- An emoji mapping (options/EmojiMapping.java): `null` is `none`. -/
abbrev EmojiFn (m : Type → Type) := Path → m (Option JStr)

/-- renderer/RenderingOptions.java:12-39 -/
structure RenderOpts (m : Type → Type) where
  emojiMapping : EmojiFn m
  compactDirectories : Bool
  treeFormat : TreeFormat
  lineExtension : Option (ExtFn m)

namespace FileFormatter

variable {m : Type → Type} [Monad m] [MonadExceptOf Exn m]

/-- renderer/DefaultFileFormatter.java:16-20: `dir.getFileName()` is null for a root, and `.toString()` on it throws. -/
def formatDirs : List Path → m JStr
  | [] => pure []
  | d :: ds => do
    let name ← match d.getFileName with
      | some n => pure (n ++ [SLASH])
      | none => throw Exn.nullPointer
    let rest ← formatDirs ds
    return name ++ rest

/-- renderer/DefaultFileFormatter.java:23-31 -/
def formatFile (file : Path) (attrs : Attrs) : m JStr := do
  let name ← match file.getFileName with
    | some n => pure n
    | none => throw Exn.nullPointer
  if attrs.isSymbolicLink then return name ++ j!"*"
  else if attrs.isOther then return name ++ j!"?"
  else return name

/-- renderer/DefaultFileFormatter.java:34-41 (both markers). -/
def ellipsis : JStr := j!"..."

/-- renderer/EmojiFileFormatter.java:25-35 -/
def emojiPrefix (emoji : EmojiFn m) (p : Path) : m JStr := do
  match ← emoji p with
  | none => return []
  | some e => return e ++ [SPACE]

/-- renderer/EmojiFileFormatter.java:38-40 -/
def emojiFormatDirectoryBegin (emoji : EmojiFn m) (dir : Path) (dirs : List Path) : m JStr := do
  let pre ← emojiPrefix emoji dir
  let names ← formatDirs dirs
  return pre ++ names

/-- renderer/EmojiFileFormatter.java:43-45 -/
def emojiFormatFile (emoji : EmojiFn m) (file : Path) (attrs : Attrs) : m JStr := do
  let pre ← emojiPrefix emoji file
  let name ← formatFile file attrs
  return pre ++ name

end FileFormatter

/-- renderer/DefaultLineRenderer.java:13-21 as created by renderer/LineRenderer.java:27-34: the tree format and the emoji mapping are
read from the options once, when the renderer is created. -/
structure LineRenderer (m : Type → Type) where
  treeFormatter : TreeFormatter
  emojiMapping : EmojiFn m

namespace LineRenderer

variable {m : Type → Type} [Monad m] [MonadExceptOf Exn m]

/-- renderer/LineRenderer.java:27-34 -/
def create (o : RenderOpts m) : LineRenderer m :=
  ⟨TreeFormatter.getInstance o.treeFormat, o.emojiMapping⟩

/-- renderer/DefaultLineRenderer.java:24-26 -/
def renderDirectoryBegin (r : LineRenderer m) (depth : Depth) (dir : Path) (dirs : List Path) : m JStr := do
  let s ← FileFormatter.emojiFormatDirectoryBegin r.emojiMapping dir dirs
  return r.treeFormatter.format depth ++ s

/-- renderer/DefaultLineRenderer.java:29-31 -/
def renderFile (r : LineRenderer m) (depth : Depth) (file : Path) (attrs : Attrs) : m JStr := do
  let s ← FileFormatter.emojiFormatFile r.emojiMapping file attrs
  return r.treeFormatter.format depth ++ s

/-- renderer/DefaultLineRenderer.java:34-41 (both markers have the same text) -/
def renderEllipsis (r : LineRenderer m) (depth : Depth) : JStr :=
  r.treeFormatter.format depth ++ FileFormatter.ellipsis

end LineRenderer

namespace Renderer

variable {m : Type → Type} [Monad m] [MonadExceptOf Exn m]

/-- renderer/DefaultTreeEntryRenderer.java:86-92 -/
def computeLineExtension (o : RenderOpts m) (p : Path) : m (Option JStr) :=
  match o.lineExtension with
  | none => pure none
  | some f => f p

mutual

/-- renderer/DefaultTreeEntryRenderer.java:32-39, 94-106 -/
def renderTree (o : RenderOpts m) (lr : LineRenderer m) (depth : Depth) : TreeEntry → m JStr
  | .dir d es => renderDirectory o lr depth d es [d]
  | .file f attrs => do
    let line ← lr.renderFile depth f attrs
    let ext ← computeLineExtension o f
    return line ++ ext.getD []
  | .skipped _ => pure (lr.renderEllipsis depth)
  | .maxDepth _ => pure (lr.renderEllipsis depth)
termination_by e => (sizeOf e, 1)

/-- renderer/DefaultTreeEntryRenderer.java:41-84. The entry is `DirectoryEntry(dir, entries)`; `compactPaths` are the paths merged so far. -/
def renderDirectory (o : RenderOpts m) (lr : LineRenderer m) (depth : Depth) (dir : Path) (entries : List TreeEntry)
    (compactPaths : List Path) : m JStr :=
  match entries with
  | [.dir childDir childEntries] =>
    if o.compactDirectories && !depth.isRoot then do
      let extension ← computeLineExtension o dir
      match extension with
      | none => renderDirectory o lr depth childDir childEntries (compactPaths ++ [childDir])
      | some ext => do
        let line ← lr.renderDirectoryBegin depth dir compactPaths
        let childLines ← renderChildren o lr depth [.dir childDir childEntries]
        return line ++ ext ++ [NL] ++ childLines
    else do
      let line ← lr.renderDirectoryBegin depth dir compactPaths
      let extension ← computeLineExtension o dir
      let childLines ← renderChildren o lr depth [.dir childDir childEntries]
      return line ++ extension.getD [] ++ [NL] ++ childLines
  | es => do
    let line ← lr.renderDirectoryBegin depth dir compactPaths
    let extension ← computeLineExtension o dir
    let childLines ← renderChildren o lr depth es
    return line ++ extension.getD [] ++ (if es.isEmpty then [] else [NL]) ++ childLines
termination_by (sizeOf entries, 3)

/-- renderer/DefaultTreeEntryRenderer.java:74-81: the loop over the remaining children. -/
def renderChildren (o : RenderOpts m) (lr : LineRenderer m) (depth : Depth) : List TreeEntry → m JStr
  | [] => pure []
  | e :: rest => do
    let hasNext := !rest.isEmpty
    let childDepth := depth.append (if hasNext then .NON_LAST_FILE else .LAST_FILE)
    let lines ← renderTree o lr childDepth e
    let others ← renderChildren o lr depth rest
    return lines ++ (if hasNext then [NL] else []) ++ others
termination_by es => (sizeOf es, 2)

end

/-- renderer/DefaultTreeEntryRenderer.java:27-30, with the line renderer created from `lr`'s options. -/
def renderRoot (o : RenderOpts m) (lr : LineRenderer m) (e : TreeEntry) : m JStr :=
  renderTree o lr Depth.createNewEmpty e

end Renderer
end JFTP
