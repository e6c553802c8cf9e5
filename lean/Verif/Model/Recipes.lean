import Verif.Model.Glob
import Verif.Model.Printer

/-
Programs of jfiletreeprettyprinter-examples (the code shown in README.md, "Customization options"), with the texts they use as parameters.
Directory: jfiletreeprettyprinter-examples/src/main/java/io/github/computerdaddyguy/jfiletreeprettyprinter/example.
-/

namespace JFTP
namespace Recipes
open PathMatchers

variable {m : Type → Type} [Monad m] [MonadExceptOf Exn m]

/-- example/Filtering.java:13-22 (README.md:134-144): no directories whose names end with `ending`, only files with extension `ext`. -/
def onlyKind (ending ext : JStr) (o : Options m) : Options m :=
  let excludeDir := PathMatchers.not (hasNameEndingWith ending)
  let hasExt := hasExtension ext
  (o.filterDirectories excludeDir).filterFiles hasExt

/-- example/Filtering.java:12-25 -/
def filtering (fs : Fs m) (cwd : Path) : m JStr :=
  let o := onlyKind j!"no_java_file" j!"java" Options.createDefault
  (Printer.build o).prettyPrintString fs cwd o j!"src/main/resources/filtering"

/-- example/ChildLimitDynamic.java:14-20 (README.md:248-255): no children in directories named `name`; nobody else holds the builder. -/
def closedAt (name : JStr) (o : Options m) : Options m :=
  let b : ChildLimitBuilder m := (ChildLimits.builder.setDefault UNLIMITED).addMatching (hasName name) 0
  o.withChildLimitFn (b.build.applyAsInt b)

/-- example/ChildLimitDynamic.java:13-22 -/
def childLimitDynamic (fs : Fs m) (cwd : Path) : m JStr :=
  let o := closedAt j!"node_modules" Options.createDefault
  (Printer.build o).prettyPrintString fs cwd o j!"src/main/resources/child_limit_dynamic"

/-- example/LineExtension.java:19-22 (README.md:285-287): one rule for each of the places. -/
def placeRules (glob : GlobCompiler) (cwd printedPath : Path) : List (JStr × JStr) → LineExtensionBuilder m → Except Exn (LineExtensionBuilder m)
  | [], b => .ok b
  | (place, text) :: rest, b =>
    match hasRelativePathMatchingGlob glob cwd printedPath place with
    | .error x => .error x
    | .ok mt => placeRules glob cwd printedPath rest (b.addMatching mt text)

/-- example/LineExtension.java:18-28 (README.md:284-293): comments at the given places relative to the printed path, and one for the names a glob accepts. -/
def comments (glob : GlobCompiler) (cwd printedPath : Path) (places : List (JStr × JStr)) (nameGlob text : JStr) (o : Options m) : Except Exn (Options m) :=
  match placeRules glob cwd printedPath places LineExtensions.builder with
  | .error x => .error x
  | .ok b =>
    match hasNameMatchingGlob glob nameGlob with
    | .error x => .error x
    | .ok mt =>
      let b := b.addMatching mt text
      .ok (o.withLineExtension (some (b.build.apply b)))

/-- example/LineExtension.java:19-22 -/
def places : List (JStr × JStr) := [
  (j!"src/main/java/api", j!"\t\t\t// All API code: controllers, etc."),
  (j!"src/main/java/domain", j!"\t\t\t// All domain code: value objects, etc."),
  (j!"src/main/java/infra", j!"\t\t\t// All infra code: database, email service, etc."),
  (j!"src/main/java/api", j!"\t\t\t// All API code: controllers, etc.")]

/-- example/LineExtension.java:15-31 (the printed path is given as a `Path` here) -/
def lineExtension (glob : GlobCompiler) (fs : Fs m) (cwd : Path) : m JStr := do
  let printedPath := Path.ofString j!"src/main/resources/line_extension"
  match comments glob cwd printedPath places j!"*.properties" j!"\t// Config file" Options.createDefault with
  | .error x => throw x
  | .ok o => prettyPrint fs cwd o printedPath

/-- example/MaxDepth.java:12-17 -/
def maxDepth (fs : Fs m) (cwd : Path) : m JStr :=
  let o := Options.createDefault.withMaxDepth 3
  (Printer.build o).prettyPrintString fs cwd o j!"src/main/resources/max_depth"

/-- example/Emojis.java:12-17 -/
def emojis (cs : Casing) (fs : Fs m) (cwd : Path) : m JStr :=
  match Options.withDefaultEmojis cs fs Options.createDefault with
  | .error x => throw x
  | .ok o => (Printer.build o).prettyPrintString fs cwd o j!"src/main/resources/emojis"

/-- example/BasicUsage.java:11-14 -/
def basicUsage (fs : Fs m) (cwd : Path) : m JStr :=
  let o := Options.createDefault
  (Printer.build o).prettyPrintString fs cwd o j!"src/main/resources/base"

/-- example/Sorting.java:12-17; `isDir` stands for the answers the comparator gets (PathSorts.java:34-41; with a changing file system: `Sorting`). -/
def sorting (isDir : Path → Bool) (fs : Fs m) (cwd : Path) : m JStr :=
  let o := Options.createDefault.sort (PathSorts.DIRECTORY_FIRST isDir)
  (Printer.build o).prettyPrintString fs cwd o j!"src/main/resources/sorting"

/-- example/ChildLimitStatic.java:11-16 -/
def childLimitStatic (fs : Fs m) (cwd : Path) : m JStr :=
  let o := Options.createDefault.withChildLimit 3
  (Printer.build o).prettyPrintString fs cwd o j!"src/main/resources/child_limit_static"

/-- example/CompactDirectories.java:11-16 -/
def compactDirectories (fs : Fs m) (cwd : Path) : m JStr :=
  let o := Options.createDefault.withCompactDirectories true
  (Printer.build o).prettyPrintString fs cwd o j!"src/main/resources/single_directory_child"

/-- example/FileTreeFormat.java:12-17 -/
def fileTreeFormat (fs : Fs m) (cwd : Path) : m JStr :=
  let o := Options.createDefault.withTreeFormat TreeFormats.CLASSIC_ASCII
  (Printer.build o).prettyPrintString fs cwd o j!"src/main/resources/tree_format"

end Recipes
end JFTP
