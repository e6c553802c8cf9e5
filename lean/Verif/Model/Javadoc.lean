import Verif.Model.ProjectStructure

/-
The examples in the documentation of the builders ("Example usage" of ChildLimitBuilder, ChildLimits, PathSortBuilder, EmojiMappingBuilder, LineExtensionBuilder, LineExtensions and
FileTreePrettyPrinterBuilder), added to any options. Read as meant where they do not compile: `ChildLimits.builder()`, `PathSorts.builder()` and `LineExtensions.builder()` for `newInstance()`, which
does not exist, `ChildLimits.UNLIMITED` for `ChildLimitBuilder.UNLIMITED`, `Path.of(".")` for `"."`, and one more parenthesis. Nobody else holds the builders.
-/

namespace JFTP
namespace Javadoc
open PathMatchers

variable {m : Type → Type} [Monad m] [MonadExceptOf Exn m]

/-- Two rules for directories with given names. -/
def limitRules (name : JStr) (limit : Int) (name' : JStr) (limit' : Int) (b : ChildLimitBuilder m) : ChildLimitBuilder m := (b.addMatching (hasName name) limit).addMatching (hasName name') limit'

/-- options/ChildLimitBuilder.java:30-36 -/
def bigAndEmpty (o : Options m) : Options m :=
  let b := limitRules j!"bigDir" 10 j!"emptyDir" 0 (ChildLimits.builder.setDefault UNLIMITED)
  o.withChildLimitFn (b.build.applyAsInt b)

/-- options/ChildLimits.java:17-22 -/
def binAndSrc (o : Options m) : Options m :=
  let b := limitRules j!"bin" 0 j!"src" 20 ChildLimits.builder
  o.withChildLimitFn (b.build.applyAsInt b)

/-- `String.contains` (JDK) -/
def contains (part : JStr) : JStr → Bool
  | [] => part.isEmpty
  | c :: s => part.isPrefixOf (c :: s) || contains part s

/-- options/PathSortBuilder.java:34-38 -/
def customSort : PathSortBuilder :=
  let b := PathSorts.builder.addFirst (Project.named j!"README.md")
  let b := b.addLast (Project.named j!"target")
  b.add fun path => if contains j!"core" (pathString path) then -10 else 0

/-- options/PathSortBuilder.java:40-42 -/
def sorted (o : Options m) : Options m := o.sort (customSort.build.compare customSort)

/-- options/EmojiMappingBuilder.java:28-33 (without `build()`) -/
def emojiRules : EmojiMappingBuilder m :=
  let b : EmojiMappingBuilder m := EmojiMappingBuilder.newBlankInstance
  let b := b.setDefaultDirectoryEmoji j!"📂"
  let b := b.setDefaultFileEmoji j!"📄"
  let b := b.setFileExtensionEmoji j!"java" j!"☕"
  let b := b.setFileNameEmoji j!"Dockerfile" j!"🐳"
  b.addFileEmoji (hasExtension j!"zip") j!"📦"

/-- options/EmojiMappingBuilder.java:28-34, given to the options -/
def emojis (cs : Casing) (fs : Fs m) (o : Options m) : Except Exn (Options m) := do
  let e ← (emojiRules : EmojiMappingBuilder m).build cs
  return o.withEmojis (e.getPathEmoji fs emojiRules)

/-- options/LineExtensionBuilder.java:26-31 with `text` = `" // Project documentation"`, and options/LineExtensions.java:23-28 with the path `.` and `"\t// Project documentation"`. -/
def documented (glob : GlobCompiler) (cwd root : Path) (text : JStr) (o : Options m) : Except Exn (Options m) := do
  let b : LineExtensionBuilder m := LineExtensions.builder
  let b := b.addMatching (hasName j!"README.md") text
  let b := b.addLineBreak (← hasRelativePathMatchingGlob glob cwd root j!"src/main/java")
  return o.withLineExtension (some (b.build.apply b))

/-- FileTreePrettyPrinterBuilder.java:19-27 -/
def printer (fs : Fs m) (cwd : Path) : m JStr :=
  let o := (Options.createDefault.withMaxDepth 3).withCompactDirectories true
  (Printer.build o).prettyPrintString fs cwd o j!"src/main/java"

end Javadoc
end JFTP
