import Verif.Model.Schema

/-
The examples in the chapters of README.md about the command line.
-/

namespace JFTP
namespace ReadmeCli
open Cli

/-- README.md:462-482: the example options file, as parsed. -/
def exampleFile : Json := .obj [
  (j!"emojis", .bool true),
  (j!"maxDepth", .int 2),
  (j!"compactDirectories", .bool true),
  (j!"childLimit", .obj [(j!"type", .str j!"static"), (j!"limit", .int 3)]),
  (j!"lineExtensions", .arr [.obj [(j!"extension", .str j!" // Main entry point"),
    (j!"matcher", .obj [(j!"type", .str j!"name"), (j!"glob", .str j!"FileTreePrettyPrinter.java")])]]),
  (j!"filter", .obj [(j!"dir", .obj [(j!"type", .str j!"name"), (j!"glob", .str j!"src/main/**")]), (j!"file", .obj [(j!"type", .str j!"name"), (j!"glob", .str j!"*.java")])])]

/-- README.md:388: the arguments of the example of usage. -/
def exampleArgs : Args := { target := some (Path.ofString j!"jfiletreeprettyprinter-examples/src/main/resources/base/") }

end ReadmeCli
end JFTP
