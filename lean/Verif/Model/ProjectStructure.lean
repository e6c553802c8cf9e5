import Verif.Model.Recipes

/-
jfiletreeprettyprinter-examples/src/main/java/io/github/computerdaddyguy/jfiletreeprettyprinter/example/ProjectStructure.java: the "complete example" (README.md, first picture).
The file system does not change, and the rules of the sort builder are functions of the paths (as in `Builders`); nobody else holds the builders.
-/

namespace JFTP
namespace Project
open PathMatchers

/-- example/ProjectStructure.java:68-77 -/
def dirFilter (glob : GlobCompiler) (fs : PureFs) (cwd projectFolder : Path) : Except Exn (Matcher (Except Exn)) := do
  anyOf [
    hasAnyDescendantMatching fs.lift (hasName j!"FileTreePrettyPrinter.java"),
    ← noneOf [
      hasNameStartingWith j!".",
      ← hasRelativePathMatchingGlob glob cwd projectFolder j!"target",
      ← hasRelativePathMatchingGlob glob cwd projectFolder j!"src",
      ← hasRelativePathMatchingGlob glob cwd projectFolder j!"*/src/**"]]

/-- example/ProjectStructure.java:84-90 (the matcher made in lines 92-98 is not used) -/
def fileFilter (glob : GlobCompiler) (cwd : Path) : Except Exn (Matcher (Except Exn)) := do
  anyOf [
    ← hasAbsolutePathMatchingGlob glob cwd j!"**/jfiletreeprettyprinter-core/**/FileTreePrettyPrinter.java",
    ← noneOf [
      ← hasAbsolutePathMatchingGlob glob cwd j!"**/jfiletreeprettyprinter-core/**",
      hasNameStartingWith j!"."]]

/-- example/ProjectStructure.java:103-108 -/
def childLimits (glob : GlobCompiler) (cwd : Path) : Except Exn (ChildLimitBuilder (Except Exn)) := do
  let b : ChildLimitBuilder (Except Exn) := ChildLimits.builder
  let b := b.addMatching (← hasAbsolutePathMatchingGlob glob cwd j!"**/jfiletreeprettyprinter-cli") 0
  let b := b.addMatching (← hasAbsolutePathMatchingGlob glob cwd j!"**/jfiletreeprettyprinter-examples") 0
  return b.addMatching (← hasAbsolutePathMatchingGlob glob cwd j!"**/jfiletreeprettyprinter-core") 1

/-- example/ProjectStructure.java:113-121 -/
def lineExtensions (glob : GlobCompiler) (cwd projectFolder : Path) : Except Exn (LineExtensionBuilder (Except Exn)) := do
  let b : LineExtensionBuilder (Except Exn) := LineExtensions.builder
  let b := b.addMatching (hasName j!"project-structure.png") j!"\t// This image"
  let b := b.addMatching (hasName j!"README.md") j!"\t\t// You're reading at this!"
  let b := b.addMatching (hasName j!"FileTreePrettyPrinter.java") j!"\t// Lib main entry point"
  let b := b.addMatching (hasName j!"jfiletreeprettyprinter-cli") j!"\t// Everything to build the executable"
  let b := b.addMatching (hasName j!"jfiletreeprettyprinter-core") j!"\t// The Java lib"
  let b := b.addMatching (hasName j!"jfiletreeprettyprinter-examples") j!"\t// Some examples"
  return b.addLineBreak (← hasRelativePathMatchingGlob glob cwd projectFolder j!"src/main/java")

/-- `PathMatchers.hasName(name)`, which never throws, as a function of the path. -/
def named (name : JStr) (path : Path) : Bool := match path.getFileName with | some n => n == name | .none => false

/-- example/ProjectStructure.java:127-135 -/
def sorts (fs : PureFs) : PathSortBuilder :=
  let b := PathSorts.builder
  let b := b.addMatching (named j!"jfiletreeprettyprinter-core") (-100)
  let b := b.addMatching (named j!"jfiletreeprettyprinter-examples") (-90)
  let b := b.addMatching (named j!"jfiletreeprettyprinter-cli") (-80)
  let b := b.addMatching (named j!"assets") (-70)
  let b := b.addMatching (named j!"docs") (-60)
  b.addMatching fs.isDir (-1)

/-- example/ProjectStructure.java:63-151 -/
def options (cs : Casing) (glob : GlobCompiler) (fs : PureFs) (cwd projectFolder : Path) : Except Exn (Options (Except Exn)) := do
  let dirFilter ← dirFilter glob fs cwd projectFolder
  let fileFilter ← fileFilter glob cwd
  let childLimitFunction ← childLimits glob cwd
  let lineExtension ← lineExtensions glob cwd projectFolder
  let pathComparator := (sorts fs).build.compare (sorts fs)
  let o ← Options.withDefaultEmojis cs fs.lift Options.createDefault
  let o := o.withCompactDirectories true
  let o := (o.filterDirectories dirFilter).filterFiles fileFilter
  let o := o.withChildLimitFn (childLimitFunction.build.applyAsInt childLimitFunction)
  return (o.withLineExtension (some (lineExtension.build.apply lineExtension))).sort pathComparator

/-- example/ProjectStructure.java:49-157 -/
def run (cs : Casing) (glob : GlobCompiler) (fs : PureFs) (cwd : Path) : Except Exn JStr := do
  let projectFolder := Path.ofString j!".."
  let o ← options cs glob fs cwd projectFolder
  prettyPrint fs.lift cwd o projectFolder

end Project
end JFTP
