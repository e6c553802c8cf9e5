import Verif.Model.Emoji

/-
options/PrettyPrintOptions.java, FileTreePrettyPrinter.java, FileTreePrettyPrinterBuilder.java, DefaultFileTreePrettyPrinter.java,
scanner/PathToTreeScanner.java, renderer/TreeEntryRenderer.java
-/

namespace JFTP

variable {m : Type → Type} [Monad m] [MonadExceptOf Exn m]

/-- options/PrettyPrintOptions.java: the fields of the (mutable) options object, with their initial values (lines 31, 65, 85, 112, 132, 152,
178-179, 217). Null arguments of setters, which throw: see `Nulls`. -/
structure Options (m : Type → Type) [Monad m] where
  childLimit : Path → m Int := fun _ => pure UNLIMITED
  treeFormat : TreeFormat := TreeFormats.UNICODE_BOX_DRAWING
  emojiMapping : EmojiFn m := EmojiMapping.none
  compactDirectories : Bool := false
  maxDepth : Int := 20
  pathComparator : Cmp := PathSorts.ALPHABETICAL
  dirMatcher : Matcher m := fun _ => pure true
  fileMatcher : Matcher m := fun _ => pure true
  lineExtension : Option (ExtFn m) := none

namespace Options

/-- options/PrettyPrintOptions.java:25-27 -/
def createDefault : Options m := {}

/-- options/PrettyPrintOptions.java:58-61 -/
def withChildLimitFn (o : Options m) (f : Path → m Int) : Options m := { o with childLimit := f }
/-- options/PrettyPrintOptions.java:44-46 -/
def withChildLimit (o : Options m) (n : Int) : Options m := o.withChildLimitFn (fun _ => pure n)
/-- options/PrettyPrintOptions.java:78-81 -/
def withTreeFormat (o : Options m) (f : TreeFormat) : Options m := { o with treeFormat := f }
/-- options/PrettyPrintOptions.java:105-108 -/
def withEmojis (o : Options m) (e : EmojiFn m) : Options m := { o with emojiMapping := e }
/-- options/PrettyPrintOptions.java:95-98 with options/EmojiMapping.java:22-24 (nobody else holds the builder used there). -/
def withDefaultEmojis (cs : Casing) (fs : Fs m) (o : Options m) : Except Exn (Options m) := do
  let b : EmojiMappingBuilder m := EmojiMappingBuilder.newDefaultInstance
  let e ← b.build cs
  return { o with emojiMapping := e.getPathEmoji fs b }
/-- options/PrettyPrintOptions.java:125-128 -/
def withCompactDirectories (o : Options m) (c : Bool) : Options m := { o with compactDirectories := c }
/-- options/PrettyPrintOptions.java:145-148 -/
def withMaxDepth (o : Options m) (d : Int) : Options m := { o with maxDepth := d }
/-- options/PrettyPrintOptions.java:171-174 -/
def sort (o : Options m) (c : Cmp) : Options m := { o with pathComparator := thenComparing c PathSorts.ALPHABETICAL }
/-- options/PrettyPrintOptions.java:195-198 -/
def filterDirectories (o : Options m) (mt : Matcher m) : Options m := { o with dirMatcher := mt }
/-- options/PrettyPrintOptions.java:209-212 -/
def filterFiles (o : Options m) (mt : Matcher m) : Options m := { o with fileMatcher := mt }
/-- options/PrettyPrintOptions.java:241-244 -/
def withLineExtension (o : Options m) (e : Option (ExtFn m)) : Options m := { o with lineExtension := e }

/-- options/PrettyPrintOptions.java:181-184 -/
def pathFilter (fs : Fs m) (o : Options m) : Matcher m :=
  PathMatchers.ifMatchesThenElse (PathMatchers.isDirectory fs) o.dirMatcher o.fileMatcher

/-- The `ScanningOptions` view of the options (lines 33-36, 134-137, 154-157, 181-184). -/
def toScan (fs : Fs m) (o : Options m) : ScanOpts m :=
  ⟨o.maxDepth, o.childLimit, o.pathComparator, o.pathFilter fs⟩

/-- The `RenderingOptions` view of the options (lines 67-70, 87-90, 114-117, 219-223). -/
def toRender (o : Options m) : RenderOpts m :=
  ⟨o.emojiMapping, o.compactDirectories, o.treeFormat, o.lineExtension⟩

end Options

/-- A printer object (DefaultFileTreePrettyPrinter.java:13-18) as built by FileTreePrettyPrinterBuilder.java:46-50: the scanner and the
renderer keep a reference to the options object (passed as `live` below), and the line renderer was created at construction time
(renderer/DefaultTreeEntryRenderer.java:22-25). -/
structure Printer (m : Type → Type) where
  lineRenderer : LineRenderer m

namespace Printer

/-- FileTreePrettyPrinterBuilder.java:46-50 on an options object in state `o`. -/
def build (o : Options m) : Printer m := ⟨LineRenderer.create o.toRender⟩

/-- DefaultFileTreePrettyPrinter.java:21-26, while the options object is in state `live`. The options object is not modified in the middle
of the call; `LiveOptions` has the call without this restriction. -/
def prettyPrint (fs : Fs m) (cwd : Path) (pr : Printer m) (live : Options m) (path : Path) : m JStr := do
  let path := (path.toAbsolutePath cwd).normalize
  let tree ← Scanner.scan fs (live.toScan fs) cwd path
  Renderer.renderRoot live.toRender pr.lineRenderer tree

/-- FileTreePrettyPrinter.java:34-40 -/
def prettyPrintString (fs : Fs m) (cwd : Path) (pr : Printer m) (live : Options m) (s : JStr) : m JStr :=
  let p := Path.ofString s
  if p.abs then pr.prettyPrint fs cwd live p
  else pr.prettyPrint fs cwd live (Path.ofDotAnd s)

end Printer

/-- `FileTreePrettyPrinter.builder().withOptions(o).build().prettyPrint(path)`: the usual case where the options are not changed any more
(FileTreePrettyPrinterBuilder.java:46-63). -/
def prettyPrint (fs : Fs m) (cwd : Path) (o : Options m) (path : Path) : m JStr :=
  (Printer.build o).prettyPrint fs cwd o path

/-! ### Objects and histories

`PrettyPrintOptions` is mutable, and builders and printers hold references to such objects. A `World` is the store of these objects;
references are indices. -/

/-- One call of an options setter (options/PrettyPrintOptions.java, the `withXXX`/`sort`/`filterXXX` methods). -/
inductive Setter (m : Type → Type) where
  | childLimit (f : Path → m Int)
  | treeFormat (f : TreeFormat)
  | emojis (e : EmojiFn m)
  | compactDirectories (c : Bool)
  | maxDepth (d : Int)
  | sort (c : Cmp)
  | filterDirectories (mt : Matcher m)
  | filterFiles (mt : Matcher m)
  | lineExtension (e : Option (ExtFn m))

/-- The effect of a setter call on the options object. -/
def Setter.run (s : Setter m) (o : Options m) : Options m :=
  match s with
  | .childLimit f => o.withChildLimitFn f
  | .treeFormat f => o.withTreeFormat f
  | .emojis e => o.withEmojis e
  | .compactDirectories c => o.withCompactDirectories c
  | .maxDepth d => o.withMaxDepth d
  | .sort c => o.sort c
  | .filterDirectories mt => o.filterDirectories mt
  | .filterFiles mt => o.filterFiles mt
  | .lineExtension e => o.withLineExtension e

/-- The store: options objects, printer builders (each holding a reference to an options object,
FileTreePrettyPrinterBuilder.java:35) and printers (each holding such a reference and its line renderer). -/
structure World (m : Type → Type) [Monad m] where
  options : List (Options m) := []
  builders : List Nat := []
  printers : List (Nat × Printer m) := []

/-- The public calls. `customizeOptions(f)` (FileTreePrettyPrinterBuilder.java:71-76) is the setter calls `f` makes followed by
`withOptions` with the object `f` returns. Calls on references that do not exist are ignored. -/
inductive Op (m : Type → Type) where
  /-- `PrettyPrintOptions.createDefault()` -/
  | newOptions
  /-- a setter call on options object `r` -/
  | set (r : Nat) (s : Setter m)
  /-- `FileTreePrettyPrinter.builder()` (FileTreePrettyPrinterBuilder.java:37-39): makes its own default options object -/
  | newBuilder
  /-- `withOptions` (FileTreePrettyPrinterBuilder.java:59-62) -/
  | withOptions (b r : Nat)
  /-- `build` (FileTreePrettyPrinterBuilder.java:46-50) -/
  | build (b : Nat)

namespace World

/-- The effect of one public call on the store. -/
def step (w : World m) : Op m → World m
  | .newOptions => { w with options := w.options ++ [Options.createDefault] }
  | .set r s => { w with options := w.options.modify r s.run }
  | .newBuilder => { w with options := w.options ++ [Options.createDefault], builders := w.builders ++ [w.options.length] }
  | .withOptions b r => if r < w.options.length then { w with builders := w.builders.set b r } else w
  | .build b =>
    match w.builders[b]? with
    | none => w
    | some r => match w.options[r]? with
      | none => w
      | some o => { w with printers := w.printers ++ [(r, Printer.build o)] }

/-- A whole history. -/
def run (w : World m) (ops : List (Op m)) : World m := ops.foldl step w

/-- `printers[i].prettyPrint(path)` in the current store. -/
def print (fs : Fs m) (cwd : Path) (w : World m) (i : Nat) (path : Path) : Option (m JStr) :=
  match w.printers[i]? with
  | none => none
  | some (r, pr) => match w.options[r]? with
    | none => none
    | some o => some (pr.prettyPrint fs cwd o path)

end World
end JFTP
