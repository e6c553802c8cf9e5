import Verif.Conformance.Core
import Verif.Model.Glob
import Verif.Model.Nulls

/-
core/src/test/java/io/github/computerdaddyguy/jfiletreeprettyprinter/PathMatchersTest.java replayed on the model (tests, not proofs; see `Conformance.Core`).
Regular expressions are a parameter of the model (`hasNameMatching`), so the two tests with `Pattern` use the predicate that the pattern denotes.
The tests that null arguments are rejected are in `Nulls` (C75, C76).
-/

namespace JFTP
namespace Conformance
open PathMatchers

/-- Matchers of the tests. -/
abbrev M := Matcher (Except Exn)

/-- A path. -/
def p (s : String) : Path := Path.ofString (js s)

/-- `assertThat(m.matches(path)).isTrue()` -/
def yes (m : M) (path : String) : Bool := ans (m (p path)) == some true
/-- `assertThat(m.matches(path)).isFalse()` -/
def no (m : M) (path : String) : Bool := ans (m (p path)) == some false

/-- The same for factories that may throw. -/
def yesOf (m : Except Exn M) (path : String) : Bool := match m with | .ok m => yes m path | .error _ => false
/-- The same for factories that may throw. -/
def noOf (m : Except Exn M) (path : String) : Bool := match m with | .ok m => no m path | .error _ => false

/-- `assertThatThrownBy(..).isInstanceOf(IllegalArgumentException.class)` -/
def rejects (m : Except Exn M) : Bool := match m with | .error .illegalArgument => true | _ => false

/-- `p -> true` -/
def trueM : M := fun _ => pure true
/-- `p -> false` -/
def falseM : M := fun _ => pure false

/-- `FileSystem.getPathMatcher("glob:" + glob)` -/
def globs : GlobCompiler := Globs.getPathMatcher (fun _ => .error .illegalArgument)

/-- The working directory of the tests. -/
def wd : Path := p "/work"

-- not
#guard no (PathMatchers.not trueM) "any"
#guard yes (PathMatchers.not falseM) "any"

-- allOf
#guard rejects (allOf [])
#guard yesOf (allOf [trueM, trueM]) "x"
#guard noOf (allOf [trueM, falseM, trueM]) "x"

-- anyOf
#guard rejects (anyOf [])
#guard yesOf (anyOf [falseM, falseM, trueM]) "x"
#guard noOf (anyOf [falseM, falseM]) "x"

-- noneOf
#guard rejects (noneOf [])
#guard yesOf (noneOf [falseM, falseM]) "x"
#guard noOf (noneOf [falseM, trueM]) "x"

-- ifMatchesThenElse
/-- `p.toString().contains("dir")` -/
def containsDir : M := fun path => pure ((List.range (pathString path).length).any (fun i => (js "dir").isPrefixOf ((pathString path).drop i)))
/-- `p.toString().endsWith(s)` -/
def endsIn (s : String) : M := fun path => pure (endsWith (pathString path) (js s))
#guard yes (ifMatchesThenElse containsDir (endsIn ".java") (endsIn ".txt")) "some/dir/File.java"
#guard yes (ifMatchesThenElse containsDir (endsIn ".java") (endsIn ".txt")) "some/file.txt"
#guard no (ifMatchesThenElse containsDir (endsIn ".java") (endsIn ".txt")) "some/file.md"

-- hasAbsolutePathMatchingGlob
#guard yesOf (hasAbsolutePathMatchingGlob globs wd (js "*")) "/some/path/whatever.txt"
#guard yesOf (hasAbsolutePathMatchingGlob globs wd (js "*")) "C:\\foo\\bar"
#guard yesOf (hasAbsolutePathMatchingGlob globs wd (js "**/*.java")) "/tmp/HelloWorld.java"
#guard noOf (hasAbsolutePathMatchingGlob globs wd (js "**/*.java")) "/tmp/other.txt"

-- hasRelativePathMatchingGlob
#guard yesOf (hasRelativePathMatchingGlob globs wd (p "/tmp") (js "*")) "/tmp/a.txt"
#guard yesOf (hasRelativePathMatchingGlob globs wd (p "/tmp") (js "*")) "/tmp/sub/dir/b.txt"
#guard yesOf (hasRelativePathMatchingGlob globs wd (p "/tmp") (js "**/*.java")) "/tmp/src/Main.java"

-- hasAbsolutePathMatching
#guard yes (hasAbsolutePathMatching wd (hasName (js "file.txt"))) "/tmp/file.txt"
#guard no (hasAbsolutePathMatching wd (hasName (js "file.txt"))) "/tmp/other.txt"

-- hasRelativePathMatching
#guard (ans (hasRelativePathMatching wd (p "/tmp/a") trueM (p "/tmp/outref"))).isSome
#guard yes (hasRelativePathMatching wd (p "/tmp") (hasNameMatching (fun s => s == js "target.txt"))) "/tmp/a/b/target.txt"

-- hasName
#guard yes (hasName (js "config.yaml")) "/tmp/config.yaml"
#guard no (hasName (js "config.yaml")) "/tmp/CONFIG2.yaml"
#guard no (hasName (js "whatever")) "/"

-- hasNameIgnoreCase
#guard yes (hasNameIgnoreCase asciiCasing (js "config.yaml")) "/tmp/Config.YAML"
#guard no (hasNameIgnoreCase asciiCasing (js "config.yaml")) "/tmp/other.txt"

-- hasNameMatching
/-- `data-\d+\.csv` -/
def dataCsv (s : JStr) : Bool :=
  let mid := (s.drop 5).take (s.length - 9)
  startsWith s (js "data-") && endsWith s (js ".csv") && !mid.isEmpty && mid.all (fun c => 48 ≤ c && c ≤ 57)
#guard yes (hasNameMatching dataCsv) "/tmp/data-123.csv"
#guard no (hasNameMatching dataCsv) "/tmp/data.txt"

-- hasNameMatchingGlob
#guard yesOf (hasNameMatchingGlob globs (js "*")) "anything"
#guard yesOf (hasNameMatchingGlob globs (js "*")) "/"
#guard yesOf (hasNameMatchingGlob globs (js "*.txt")) "/tmp/notes.txt"
#guard noOf (hasNameMatchingGlob globs (js "*.txt")) "/tmp/notes.md"

-- hasNameStartingWith, hasNameEndingWith, hasExtension
#guard yes (hasNameStartingWith (js ".")) "/tmp/.hidden"
#guard no (hasNameStartingWith (js ".")) "/tmp/visible"
#guard yes (hasNameEndingWith (js ".log")) "/tmp/file.log"
#guard no (hasNameEndingWith (js ".log")) "/tmp/file.txt"
#guard yes (hasExtension (js "txt")) "/tmp/notes.txt"
#guard no (hasExtension (js "txt")) "/tmp/notes.TXT"

-- isDirectory, isFile, isRegularFile, isSymbolicLink
/-- The disk of these tests. -/
def kinds : Fs (Except Exn) := (Node.dir true [d "tmp" [d "d" [f "f.txt"], f "target.txt", (js "link-to-target", .symlink (p "/tmp/target.txt"))]]).toFs.lift
#guard yes (isDirectory kinds) "/tmp/d"
#guard no (isDirectory kinds) "/tmp/d/f.txt"
#guard yes (isFile kinds) "/tmp/d/f.txt"
#guard no (isFile kinds) "/tmp/d"
#guard yes (isRegularFile kinds) "/tmp/d/f.txt"
#guard no (isRegularFile kinds) "/tmp/d"
#guard yes (isSymbolicLink kinds) "/tmp/link-to-target"
#guard no (isDirectory kinds) "/tmp/link-to-target"

-- hasDirectParentMatching, hasAnyAncestorMatching
#guard no (hasDirectParentMatching (hasName (js "whatever"))) "/"
#guard yes (hasDirectParentMatching (hasName (js "parent"))) "/tmp/parent/c.txt"
#guard yes (hasAnyAncestorMatching (hasName (js "a"))) "/tmp/a/b/c/file.txt"

-- hasAnyDirectChildMatching, hasAnyDescendantMatching, hasSiblingMatching
/-- The disk of these tests. -/
def family : Fs (Except Exn) := (Node.dir true [d "tmp" [d "root" [f "child.txt", d "a" [d "b" [f "deep.txt"]]], d "s" [f "a.txt", f "b.txt"], d "d" [f "a.txt", f "b.txt"]]]).toFs.lift
#guard yes (hasAnyDirectChildMatching family (hasName (js "child.txt"))) "/tmp/root"
#guard no (hasAnyDirectChildMatching family (hasName (js "child.txt"))) "/tmp/root/a/b"
#guard yes (hasAnyDescendantMatching family (hasName (js "deep.txt"))) "/tmp/root"
#guard no (hasAnyDescendantMatching family (hasName (js "deep.txt"))) "/tmp/root/child.txt"
#guard yes (hasSiblingMatching family (hasName (js "b.txt"))) "/tmp/s/a.txt"
#guard no (hasSiblingMatching family (hasName (js "b.txt"))) "/tmp/s/b.txt"
#guard (ans (hasAnyDirectChildMatching family (fun _ => .error .nullPointer) (p "/tmp/d"))).isNone

end Conformance
end JFTP
