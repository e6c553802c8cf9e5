import Verif.Spec.Library
import Verif.Spec.Move
import Verif.Spec.ProjectStructure

/-
The "complete example" (ProjectStructure.java) in a clone of the repository: what has to be there, what may be there besides, and the expected result in the head of the file, which is also what
ProjectStructureTest.java:13-37 compares with.
-/

namespace JFTP
namespace Spec
namespace Project

def TOP : JStr := j!"JFileTreePrettyPrinter"

/-- The directories from the module `core` down to the main class. -/
def chain : List JStr := [CORE, j!"src", j!"main", j!"java", j!"io", j!"github", j!"computerdaddyguy", j!"jfiletreeprettyprinter"]

/-- The files of the project folder. -/
def topFiles : List JStr := [j!"CHANGELOG.md", j!"CONTRIBUTING.md", j!"LICENSE", j!"README.md", j!"ROADMAP.md", j!"SECURITY.md", j!"pom.xml", j!"runMutationTests.sh"]

def docFiles : List JStr := [j!"How-to-build-a-native-executable-locally.md", j!"Release-process.md", j!"Renew-sonar-token.md"]

/-- The directories that matter, as ways from the project folder, and what is in them for sure. -/
def content : List (List JStr × List JStr) := [
  ([], [CORE, EXAMPLES, CLI, j!"assets", j!"docs"] ++ topFiles),
  ([EXAMPLES], [j!"pom.xml"]),
  ([CLI], [j!"pom.xml"]),
  ([j!"assets"], [j!"project-structure.png"]),
  ([j!"docs"], docFiles),
  (chain.take 1, [j!"src"]), (chain.take 2, [j!"main"]), (chain.take 3, [j!"java"]), (chain.take 4, [j!"io"]), (chain.take 5, [j!"github"]), (chain.take 6, [j!"computerdaddyguy"]),
  (chain.take 7, [j!"jfiletreeprettyprinter"]), (chain, [MAIN])]

/-- The files that matter. -/
def files : List (List JStr) :=
  topFiles.map (fun n => [n]) ++ docFiles.map (fun n => [j!"docs", n]) ++ [[j!"assets", j!"project-structure.png"], [EXAMPLES, j!"pom.xml"], [CLI, j!"pom.xml"], chain ++ [MAIN]]

/-- Something else that may be in one of the directories without changing the picture. Directories in which the main class is not: hidden ones, `target` and `src` in the project folder, anything below the
`src` of the module, and in the folder of the module those that come after `src` in the alphabet. Files: hidden ones, and in the module all but those named like the main class. -/
def Other (fs : PureFs) (b way : List JStr) (n : JStr) : Prop :=
  (fs.isDir (under b (way ++ [n])) = true ∧ ¬ HoldsMain fs (under b (way ++ [n])) ∧
    ((∃ rest, n = 46 :: rest) ∨ (way = [] ∧ (n = j!"target" ∨ n = j!"src")) ∨ (way = [CORE] ∧ compareTo j!"src" n < 0) ∨ ∃ rest, way = CORE :: j!"src" :: rest)) ∨
  (fs.isDir (under b (way ++ [n])) = false ∧ ((n ≠ MAIN ∧ ∃ rest, way = CORE :: rest) ∨ ((∃ rest, n = 46 :: rest) ∧ ¬ ∃ rest, way = CORE :: rest)))

/-- `/b` is a clone of the repository, perhaps with other things in it. -/
structure Clone (fs : PureFs) (b : List JStr) : Prop where
  name : b.getLast? = some TOP
  dir : ∀ x ∈ content, fs.isDir (under b x.1) = true
  file : ∀ x ∈ files, fs.isDir (under b x) = false ∧ fs.readAttrs (under b x) = some ⟨false, false⟩
  has : ∀ x ∈ content, ∀ cs bad, fs.listDir (under b x.1) = .opened cs bad → ∀ n ∈ x.2, under b (x.1 ++ [n]) ∈ cs
  other : ∀ x ∈ content, x.1 ≠ [EXAMPLES] → x.1 ≠ [CLI] → ∀ cs bad, fs.listDir (under b x.1) = .opened cs bad → ∀ n, under b (x.1 ++ [n]) ∈ cs → n ∉ x.2 → Other fs b x.1 n

/-- The module `core` has another directory besides `src` that is not hidden (for example `target`, after the module has been built). -/
def Leftovers (fs : PureFs) (b : List JStr) : Prop :=
  ∃ cs n, fs.listDir (under b [CORE]) = .opened cs false ∧ under b [CORE, n] ∈ cs ∧ fs.isDir (under b [CORE, n]) = true ∧ n ≠ j!"src" ∧ ¬ ∃ rest, n = 46 :: rest

/-- The expected result: example/ProjectStructure.java:18-40, ProjectStructureTest.java:13-37. -/
def expected : List JStr := [
  j!"📂 JFileTreePrettyPrinter/",
  j!"├─ 📂 jfiletreeprettyprinter-core/\t// The Java lib",
  j!"│  ├─ 📂 src/main/java/io/github/computerdaddyguy/jfiletreeprettyprinter/",
  j!"│  │  └─ ☕ FileTreePrettyPrinter.java\t// Lib main entry point",
  j!"│  └─ ...",
  j!"├─ 📂 jfiletreeprettyprinter-examples/\t// Some examples",
  j!"│  └─ ...",
  j!"├─ 📂 jfiletreeprettyprinter-cli/\t// Everything to build the executable",
  j!"│  └─ ...",
  j!"├─ 📂 assets/",
  j!"│  └─ 🖼️ project-structure.png\t// This image",
  j!"├─ 📂 docs/",
  j!"│  ├─ 📝 How-to-build-a-native-executable-locally.md",
  j!"│  ├─ 📝 Release-process.md",
  j!"│  └─ 📝 Renew-sonar-token.md",
  j!"├─ 🆕 CHANGELOG.md",
  j!"├─ 🤝 CONTRIBUTING.md",
  j!"├─ ⚖️ LICENSE",
  j!"├─ 📘 README.md\t\t// You're reading at this!",
  j!"├─ 🗺️ ROADMAP.md",
  j!"├─ 🛡️ SECURITY.md",
  j!"├─ 🛠️ pom.xml",
  j!"└─ 📜 runMutationTests.sh"]

/-- The same without leftovers: the module has one visible entry only. -/
def expectedFresh : List JStr := expected.take 2 ++ [
  j!"│  └─ 📂 src/main/java/io/github/computerdaddyguy/jfiletreeprettyprinter/",
  j!"│     └─ ☕ FileTreePrettyPrinter.java\t// Lib main entry point"] ++ expected.drop 5

/-- Lower case as in most locales (not in the Turkish one). -/
def LowersAscii (lower : JStr → JStr) : Prop := ∀ s : JStr, (∀ c ∈ s, c < 128) → lower s = s.map fun c => if 65 ≤ c ∧ c ≤ 90 then c + 32 else c

end Project
end Spec
end JFTP
