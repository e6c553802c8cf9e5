import Verif.Spec.Move

/-
The example programs of the README: the directories they print and the texts shown.
-/

namespace JFTP
namespace Spec
namespace Readme

/-- jfiletreeprettyprinter-examples/src/main/resources/base -/
def base : Node :=
  .dir true [(j!"businessPlan.pdf", .regular 0), (j!"businessProject.pdf", .regular 0), (j!"cars", .dir true [(j!"Ferrari.doc", .regular 0), (j!"Porsche.doc", .regular 0)]),
  (j!"diyIdeas.docx", .regular 0), (j!"giftIdeas.txt", .regular 0), (j!"images", .dir true [(j!"funnyCat.gif", .regular 0), (j!"holidays", .dir true [(j!"meAtTheBeach.jpeg", .regular
  0), (j!"meAtTheZoo.jpeg", .regular 0)]), (j!"landscape.jpeg", .regular 0)])]

/-- jfiletreeprettyprinter-examples/src/main/resources/filtering -/
def filtering : Node :=
  .dir true [(j!"dir_with_java_files", .dir true [(j!"file_B.java", .regular 0), (j!"file_C.cpp", .regular 0), (j!"file_D.ts", .regular 0), (j!"file_E.java", .regular 0)]),
  (j!"dir_with_nested_java_files", .dir true [(j!"nested_dir_with_java_files", .dir true [(j!"file_G.java", .regular 0), (j!"file_H.cpp", .regular 0), (j!"file_I.ts", .regular 0),
  (j!"file_J.java", .regular 0)]), (j!"nested_dir_with_no_java_file", .dir true [(j!"file_K.cpp", .regular 0), (j!"file_L.ts", .regular 0)])]), (j!"dir_with_no_java_file", .dir true
  [(j!"file_M.cpp", .regular 0), (j!"file_N.ts", .regular 0)]), (j!"file_A.java", .regular 0)]

/-- jfiletreeprettyprinter-examples/src/main/resources/sorting -/
def sorting : Node :=
  .dir true [(j!"a_file", .regular 6), (j!"b_file", .regular 9), (j!"c_dir", .dir true [(j!"c_file", .regular 10)]), (j!"d_dir", .dir true [(j!"d_a_file", .regular 10), (j!"d_b_dir",
  .dir true [(j!"d_b_file", .regular 10)])]), (j!"x_file", .regular 3), (j!"y_file", .regular 0)]

/-- jfiletreeprettyprinter-examples/src/main/resources/emojis -/
def emojis : Node :=
  .dir true [(j!"Dockerfile", .regular 0), (j!"Jenkinsfile", .regular 0), (j!"file.avi", .regular 0), (j!"file.docx", .regular 0), (j!"file.ini", .regular 0), (j!"file.java",
  .regular 0), (j!"file.jpeg", .regular 0), (j!"file.mp3", .regular 0), (j!"file.pdf", .regular 0), (j!"file.xlsx", .regular 0), (j!"file.zip", .regular 0), (j!"readme", .regular 0)]

/-- jfiletreeprettyprinter-examples/src/main/resources/child_limit_static -/
def childLimitStatic : Node :=
  .dir true [(j!"file_0_1", .regular 0), (j!"folder_1", .dir true [(j!"file_1_1", .regular 0), (j!"file_1_2", .regular 0), (j!"file_1_3", .regular 0), (j!"file_1_4", .regular 0),
  (j!"file_1_5", .regular 0)]), (j!"folder_2", .dir true [(j!"file_2_1", .regular 0), (j!"file_2_2", .regular 0), (j!"file_2_3", .regular 0), (j!"file_2_4", .regular 0),
  (j!"file_2_5", .regular 0)]), (j!"folder_3", .dir true [(j!"file_3_1", .regular 0), (j!"file_3_2", .regular 0), (j!"file_3_3", .regular 0), (j!"file_3_4", .regular 0),
  (j!"file_3_5", .regular 0)]), (j!"folder_4", .dir true [(j!"file_4_1", .regular 0), (j!"file_4_2", .regular 0), (j!"file_4_3", .regular 0), (j!"file_4_4", .regular 0),
  (j!"file_4_5", .regular 0)]), (j!"folder_5", .dir true [(j!"file_5_1", .regular 0), (j!"file_5_2", .regular 0), (j!"file_5_3", .regular 0), (j!"file_5_4", .regular 0),
  (j!"file_5_5", .regular 0)])]

/-- jfiletreeprettyprinter-examples/src/main/resources/child_limit_dynamic -/
def childLimitDynamic : Node :=
  .dir true [(j!"file_0_1", .regular 0), (j!"folder_1", .dir true [(j!"file_1_1", .regular 0), (j!"file_1_2", .regular 0), (j!"file_1_3", .regular 0), (j!"file_1_4", .regular 0),
  (j!"file_1_5", .regular 0)]), (j!"node_modules", .dir true [(j!"file_node_01", .regular 0), (j!"file_node_02", .regular 0), (j!"file_node_03", .regular 0), (j!"file_node_04",
  .regular 0), (j!"file_node_05", .regular 0), (j!"file_node_06", .regular 0), (j!"file_node_07", .regular 0), (j!"file_node_08", .regular 0), (j!"file_node_09", .regular 0),
  (j!"file_node_10", .regular 0), (j!"file_node_11", .regular 0), (j!"file_node_12", .regular 0), (j!"file_node_13", .regular 0), (j!"file_node_14", .regular 0), (j!"file_node_15",
  .regular 0), (j!"file_node_16", .regular 0), (j!"file_node_17", .regular 0), (j!"file_node_18", .regular 0), (j!"file_node_19", .regular 0), (j!"file_node_20", .regular 0)])]

/-- jfiletreeprettyprinter-examples/src/main/resources/line_extension -/
def lineExtension : Node :=
  .dir true [(j!"src", .dir true [(j!"main", .dir true [(j!"java", .dir true [(j!"api", .dir true [(j!"Controller.java", .regular 0)]), (j!"domain", .dir true [(j!"ValueObject.java",
  .regular 0)]), (j!"infra", .dir true [(j!"Repository.java", .regular 0)])]), (j!"resources", .dir true [(j!"application.properties", .regular 0)])])])]

/-- jfiletreeprettyprinter-examples/src/main/resources/single_directory_child -/
def singleDirectoryChild : Node :=
  .dir true [(j!"file1", .regular 0), (j!"file2", .regular 0), (j!"this", .dir true [(j!"is", .dir true [(j!"single", .dir true [(j!"directory", .dir true [(j!"child", .dir true
  [(j!"file1", .regular 0), (j!"file2", .regular 0), (j!"file3", .regular 0)])])])])])]

/-- jfiletreeprettyprinter-examples/src/main/resources/max_depth -/
def maxDepth : Node :=
  .dir true [(j!"level1", .dir true [(j!"file1#1", .regular 0), (j!"file1#2", .regular 0), (j!"level2", .dir true [(j!"file2#1", .regular 0), (j!"file2#2", .regular 0), (j!"level3",
  .dir true [(j!"file3#1", .regular 0), (j!"file3#2", .regular 0), (j!"level4", .dir true [(j!"file4#1", .regular 0), (j!"file4#2", .regular 0)])])])])]

/-- jfiletreeprettyprinter-examples/src/main/resources/tree_format -/
def treeFormat : Node :=
  .dir true [(j!"file_1", .regular 0), (j!"file_2", .regular 0), (j!"subFolder", .dir true [(j!"subFile_1", .regular 0), (j!"subFile_2", .regular 0)])]

/-- The working directory of the examples: the module jfiletreeprettyprinter-examples, here at the root. -/
def disk : Node := .dir true [(j!"src", .dir true [(j!"main", .dir true [(j!"resources", .dir true [
  (j!"base", base),
  (j!"filtering", filtering),
  (j!"sorting", sorting),
  (j!"emojis", emojis),
  (j!"child_limit_static", childLimitStatic),
  (j!"child_limit_dynamic", childLimitDynamic),
  (j!"line_extension", lineExtension),
  (j!"single_directory_child", singleDirectoryChild),
  (j!"max_depth", maxDepth),
  (j!"tree_format", treeFormat)])])])]

/-- README.md:96-109 -/
def baseText : List JStr := [
  j!"base/",
  j!"├─ businessPlan.pdf",
  j!"├─ businessProject.pdf",
  j!"├─ cars/",
  j!"│  ├─ Ferrari.doc",
  j!"│  └─ Porsche.doc",
  j!"├─ diyIdeas.docx",
  j!"├─ giftIdeas.txt",
  j!"└─ images/",
  j!"   ├─ funnyCat.gif",
  j!"   ├─ holidays/",
  j!"   │  ├─ meAtTheBeach.jpeg",
  j!"   │  └─ meAtTheZoo.jpeg",
  j!"   └─ landscape.jpeg"]

/-- README.md:148-156 -/
def filteringText : List JStr := [
  j!"filtering/",
  j!"├─ dir_with_java_files/",
  j!"│  ├─ file_B.java",
  j!"│  └─ file_E.java",
  j!"├─ dir_with_nested_java_files/",
  j!"│  └─ nested_dir_with_java_files/",
  j!"│     ├─ file_G.java",
  j!"│     └─ file_J.java",
  j!"└─ file_A.java"]

/-- README.md:173-183 -/
def sortingText : List JStr := [
  j!"sorting/",
  j!"├─ c_dir/",
  j!"│  └─ c_file",
  j!"├─ d_dir/",
  j!"│  ├─ d_b_dir/",
  j!"│  │  └─ d_b_file",
  j!"│  └─ d_a_file",
  j!"├─ a_file",
  j!"├─ b_file",
  j!"├─ x_file",
  j!"└─ y_file"]

/-- README.md:226-238 -/
def childLimitStaticText : List JStr := [
  j!"child_limit_static/",
  j!"├─ file_0_1",
  j!"├─ folder_1/",
  j!"│  ├─ file_1_1",
  j!"│  ├─ file_1_2",
  j!"│  ├─ file_1_3",
  j!"│  └─ ...",
  j!"├─ folder_2/",
  j!"│  ├─ file_2_1",
  j!"│  ├─ file_2_2",
  j!"│  ├─ file_2_3",
  j!"│  └─ ...",
  j!"└─ ..."]

/-- README.md:259-268 -/
def childLimitDynamicText : List JStr := [
  j!"child_limit_dynamic/",
  j!"├─ file_0_1",
  j!"├─ folder_1/",
  j!"│  ├─ file_1_1",
  j!"│  ├─ file_1_2",
  j!"│  ├─ file_1_3",
  j!"│  ├─ file_1_4",
  j!"│  └─ file_1_5",
  j!"└─ node_modules/",
  j!"   └─ ..."]

/-- README.md:297-308 -/
def lineExtensionText : List JStr := [
  j!"line_extension/",
  j!"└─ src/",
  j!"   └─ main/",
  j!"      ├─ java/",
  j!"      │  ├─ api/\t\t\t// All API code: controllers, etc.",
  j!"      │  │  └─ Controller.java",
  j!"      │  ├─ domain/\t\t\t// All domain code: value objects, etc.",
  j!"      │  │  └─ ValueObject.java",
  j!"      │  └─ infra/\t\t\t// All infra code: database, email service, etc.",
  j!"      │     └─ Repository.java",
  j!"      └─ resources/",
  j!"         └─ application.properties\t// Config file"]

/-- README.md:322-328 -/
def singleDirectoryChildText : List JStr := [
  j!"single_directory_child/",
  j!"├─ file1",
  j!"├─ file2",
  j!"└─ this/is/single/directory/child/",
  j!"   ├─ file1",
  j!"   ├─ file2",
  j!"   └─ file3"]

/-- README.md:342-350 -/
def maxDepthText : List JStr := [
  j!"max_depth/",
  j!"└─ level1/",
  j!"   ├─ file1#1",
  j!"   ├─ file1#2",
  j!"   └─ level2/",
  j!"      ├─ file2#1",
  j!"      ├─ file2#2",
  j!"      └─ level3/",
  j!"         └─ ... (max depth reached)"]

/-- README.md:365-370 -/
def treeFormatText : List JStr := [
  j!"tree_format/",
  j!"|-- file_1",
  j!"|-- file_2",
  j!"`-- subFolder/",
  j!"    |-- subFile_1",
  j!"    `-- subFile_2"]

/-- README.md:200-212 -/
def emojisText : List JStr := [
  j!"📂 emojis/",
  j!"├─ 📦 file.zip",
  j!"├─ 🐳 Dockerfile",
  j!"├─ 🤵 Jenkinsfile",
  j!"├─ ☕ file.java",
  j!"├─ 📖 readme",
  j!"├─ ⚙️ file.ini",
  j!"├─ 📊 file.xlsx",
  j!"├─ 📃 file.docx",
  j!"├─ 📕 file.pdf",
  j!"├─ 🎵 file.mp3",
  j!"├─ 🖼️ file.jpeg",
  j!"└─ 🎬 file.avi"]

/-- What Emojis.java prints instead: another order, another emoji for `docx` and for `readme`. -/
def emojisPrinted : List JStr := [
  j!"📂 emojis/",
  j!"├─ 🐳 Dockerfile",
  j!"├─ 🤵 Jenkinsfile",
  j!"├─ 🎬 file.avi",
  j!"├─ 📝 file.docx",
  j!"├─ ⚙️ file.ini",
  j!"├─ ☕ file.java",
  j!"├─ 🖼️ file.jpeg",
  j!"├─ 🎵 file.mp3",
  j!"├─ 📕 file.pdf",
  j!"├─ 📊 file.xlsx",
  j!"├─ 📦 file.zip",
  j!"└─ 📘 readme"]

/-- What MaxDepth.java prints instead: another last line. -/
def maxDepthPrinted : List JStr := maxDepthText.dropLast ++ [j!"         └─ ..."]

/-- The names of the directory of an example in the working directory. -/
def place (name : JStr) : List JStr := [j!"src", j!"main", j!"resources", name]

/-- The file system has the directory of an example in the working directory: the same names, kinds and attributes as in the repository, listed in any order. -/
def Has (fs : PureFs) (cwd : Path) (name : JStr) : Prop := SameBelow disk.toFs fs (place name) (cwd.names ++ place name)

/-- An absolute path whose names are names. -/
def Clean (cwd : Path) : Prop := cwd.abs = true ∧ ∀ n ∈ cwd.names, n ≠ [] ∧ n ≠ j!"." ∧ n ≠ j!".."

end Readme
end Spec
end JFTP
