import Verif.Conformance.Emojis
import Verif.Conformance.Cli

/-
The tests of jfiletreeprettyprinter-examples/src/test replayed on the model (tests, not proofs; see `Conformance.Core`): the example programs of the library
(examples/src/main/java) on the directories they print, copied from the repository.
-/

namespace JFTP
namespace Conformance
open PathMatchers

/-- examples/src/main/resources -/
def resources : Node := .dir true [d "ex" [d "src" [d "main" [d "resources" [
  d "base" [f "businessPlan.pdf", f "businessProject.pdf", d "cars" [f "Ferrari.doc", f "Porsche.doc"], f "diyIdeas.docx", f "giftIdeas.txt",
    d "images" [f "funnyCat.gif", d "holidays" [f "meAtTheBeach.jpeg", f "meAtTheZoo.jpeg"], f "landscape.jpeg"]],
  d "child_limit_dynamic" [f "file_0_1", d "folder_1" [f "file_1_1", f "file_1_2", f "file_1_3", f "file_1_4", f "file_1_5"],
    d "node_modules" [f "file_node_01", f "file_node_02", f "file_node_03", f "file_node_04", f "file_node_05", f "file_node_06", f "file_node_07",
    f "file_node_08", f "file_node_09", f "file_node_10", f "file_node_11", f "file_node_12", f "file_node_13", f "file_node_14", f "file_node_15",
    f "file_node_16", f "file_node_17", f "file_node_18", f "file_node_19", f "file_node_20"]],
  d "child_limit_static" [f "file_0_1", d "folder_1" [f "file_1_1", f "file_1_2", f "file_1_3", f "file_1_4", f "file_1_5"],
    d "folder_2" [f "file_2_1", f "file_2_2", f "file_2_3", f "file_2_4", f "file_2_5"], d "folder_3" [f "file_3_1", f "file_3_2", f "file_3_3",
    f "file_3_4", f "file_3_5"], d "folder_4" [f "file_4_1", f "file_4_2", f "file_4_3", f "file_4_4", f "file_4_5"], d "folder_5" [f "file_5_1",
    f "file_5_2", f "file_5_3", f "file_5_4", f "file_5_5"]],
  d "cli" [d "options" [f "full-options.yaml"]],
  d "depth_limit" [d "level_1" [f "file_1_1", f "file_1_2", d "level_2" [f "file_2_1", f "file_2_2", d "level_3" [f "file_3_1", f "file_3_2",
    d "level_4" [f "file_4_1", f "file_4_2", d "level_5" [f "file_5_1", f "file_5_2"]]]]]],
  d "emojis" [f "Dockerfile", f "Jenkinsfile", f "file.avi", f "file.docx", f "file.ini", f "file.java", f "file.jpeg", f "file.mp3", f "file.pdf",
    f "file.xlsx", f "file.zip", f "readme"],
  d "filtering" [d "dir_with_java_files" [f "file_B.java", f "file_C.cpp", f "file_D.ts", f "file_E.java"],
    d "dir_with_nested_java_files" [d "nested_dir_with_java_files" [f "file_G.java", f "file_H.cpp", f "file_I.ts", f "file_J.java"],
    d "nested_dir_with_no_java_file" [f "file_K.cpp", f "file_L.ts"]], d "dir_with_no_java_file" [f "file_M.cpp", f "file_N.ts"], f "file_A.java"],
  d "line_extension" [d "src" [d "main" [d "java" [d "api" [f "Controller.java"], d "domain" [f "ValueObject.java"],
    d "infra" [f "Repository.java"]], d "resources" [f "application.properties"]]]],
  d "max_depth" [d "level1" [f "file1#1", f "file1#2", d "level2" [f "file2#1", f "file2#2", d "level3" [f "file3#1", f "file3#2",
    d "level4" [f "file4#1", f "file4#2"]]]]],
  d "single_directory_child" [f "file1", f "file2", d "this" [d "is" [d "single" [d "directory" [d "child" [f "file1", f "file2", f "file3"]]]]]],
  d "sorting" [f "a_file", f "b_file", d "c_dir" [f "c_file"], d "d_dir" [f "d_a_file", d "d_b_dir" [f "d_b_file"]], f "x_file", f "y_file"],
  d "tree_format" [f "file_1", f "file_2", d "subFolder" [f "subFile_1", f "subFile_2"]]]]]]]

/-- Does an example print `expected` for a directory of examples/src/main/resources, given as a string? -/
def example' (path : String) (o : PureFs → Opts) (expected : List String) : Bool :=
  printsAt resources "/ex" path o expected &&
  (let fs := resources.toFs
   ans ((Printer.build (o fs)).prettyPrintString fs.lift (p "/ex") (o fs) (js path)) == some (joinLines (expected.map js)))

-- BasicUsage.java
#guard example' "src/main/resources/base" (fun _ => dflt) ["base/", "├─ businessPlan.pdf", "├─ businessProject.pdf", "├─ cars/", "│  ├─ Ferrari.doc", "│  └─ Porsche.doc", "├─ diyIdeas.docx", "├─ giftIdeas.txt", "└─ images/", "   ├─ funnyCat.gif", "   ├─ holidays/", "   │  ├─ meAtTheBeach.jpeg", "   │  └─ meAtTheZoo.jpeg", "   └─ landscape.jpeg"]

-- ChildLimitDynamic.java
#guard example' "src/main/resources/child_limit_dynamic" (fun _ => limited ((ChildLimits.builder.setDefault UNLIMITED).addMatching (hasName (js "node_modules")) 0)) ["child_limit_dynamic/", "├─ file_0_1", "├─ folder_1/", "│  ├─ file_1_1", "│  ├─ file_1_2", "│  ├─ file_1_3", "│  ├─ file_1_4", "│  └─ file_1_5", "└─ node_modules/", "   └─ ..."]

-- ChildLimitStatic.java
#guard example' "src/main/resources/child_limit_static" (fun _ => dflt.withChildLimit 3) ["child_limit_static/", "├─ file_0_1", "├─ folder_1/", "│  ├─ file_1_1", "│  ├─ file_1_2", "│  ├─ file_1_3", "│  └─ ...", "├─ folder_2/", "│  ├─ file_2_1", "│  ├─ file_2_2", "│  ├─ file_2_3", "│  └─ ...", "└─ ..."]

-- CompactDirectories.java
#guard example' "src/main/resources/single_directory_child" (fun _ => dflt.withCompactDirectories true) ["single_directory_child/", "├─ file1", "├─ file2", "└─ this/is/single/directory/child/", "   ├─ file1", "   ├─ file2", "   └─ file3"]

-- Emojis.java
#guard example' "src/main/resources/emojis" emojis ["📂 emojis/", "├─ 🐳 Dockerfile", "├─ 🤵 Jenkinsfile", "├─ 🎬 file.avi", "├─ 📝 file.docx", "├─ ⚙️ file.ini", "├─ ☕ file.java", "├─ 🖼️ file.jpeg", "├─ 🎵 file.mp3", "├─ 📕 file.pdf", "├─ 📊 file.xlsx", "├─ 📦 file.zip", "└─ 📘 readme"]

-- FileTreeFormat.java
#guard example' "src/main/resources/tree_format" (fun _ => dflt.withTreeFormat TreeFormats.CLASSIC_ASCII) ["tree_format/", "|-- file_1", "|-- file_2", "`-- subFolder/", "    |-- subFile_1", "    `-- subFile_2"]

-- Filtering.java
#guard example' "src/main/resources/filtering" (fun _ => (dflt.filterDirectories (PathMatchers.not (hasNameEndingWith (js "no_java_file")))).filterFiles (hasExtension (js "java"))) ["filtering/", "├─ dir_with_java_files/", "│  ├─ file_B.java", "│  └─ file_E.java", "├─ dir_with_nested_java_files/", "│  └─ nested_dir_with_java_files/", "│     ├─ file_G.java", "│     └─ file_J.java", "└─ file_A.java"]

/-- LineExtension.java:16-24 -/
def commented : Opts :=
  let printedPath := p "src/main/resources/line_extension"
  let rel (g : String) : M := mk (hasRelativePathMatchingGlob globs (p "/ex") printedPath (js g))
  let b : LineExtensionBuilder (Except Exn) := ((((LineExtensions.builder.addMatching (rel "src/main/java/api") (js "\t\t\t// All API code: controllers, etc.")).addMatching
    (rel "src/main/java/domain") (js "\t\t\t// All domain code: value objects, etc.")).addMatching
    (rel "src/main/java/infra") (js "\t\t\t// All infra code: database, email service, etc.")).addMatching
    (rel "src/main/java/api") (js "\t\t\t// All API code: controllers, etc.")).addMatching (ng "*.properties") (js "\t// Config file")
  dflt.withLineExtension (some (b.build.apply b))

-- LineExtension.java
#guard example' "src/main/resources/line_extension" (fun _ => commented) ["line_extension/", "└─ src/", "   └─ main/", "      ├─ java/", "      │  ├─ api/\t\t\t// All API code: controllers, etc.", "      │  │  └─ Controller.java", "      │  ├─ domain/\t\t\t// All domain code: value objects, etc.", "      │  │  └─ ValueObject.java", "      │  └─ infra/\t\t\t// All infra code: database, email service, etc.", "      │     └─ Repository.java", "      └─ resources/", "         └─ application.properties\t// Config file"]

-- MaxDepth.java
#guard example' "src/main/resources/max_depth" (fun _ => dflt.withMaxDepth 3) ["max_depth/", "└─ level1/", "   ├─ file1#1", "   ├─ file1#2", "   └─ level2/", "      ├─ file2#1", "      ├─ file2#2", "      └─ level3/", "         └─ ..."]

-- Sorting.java
#guard example' "src/main/resources/sorting" (fun fs => dflt.sort (PathSorts.DIRECTORY_FIRST fs.isDir)) ["sorting/", "├─ c_dir/", "│  └─ c_file", "├─ d_dir/", "│  ├─ d_b_dir/", "│  │  └─ d_b_file", "│  └─ d_a_file", "├─ a_file", "├─ b_file", "├─ x_file", "└─ y_file"]

/-! ### ProjectStructure.java: the repository itself, as it is while its tests run (each module has its build directory) -/

/-- The repository. -/
def project : Node := .dir true [d "home" [d "JFileTreePrettyPrinter" [
  d ".github" [d "workflows" [f "create-github-release.yml", f "publish-maven-release.yml", f "snapshot.yml", f "sonarcloud.yml"]],
  f ".gitignore",
  f "CHANGELOG.md",
  f "CONTRIBUTING.md",
  f "LICENSE",
  f "README.md",
  f "ROADMAP.md",
  f "SECURITY.md",
  d "assets" [f "project-structure.png"],
  d "docs" [f "How-to-build-a-native-executable-locally.md",
  f "Release-process.md",
  f "Renew-sonar-token.md"],
  d "jfiletreeprettyprinter-cli" [f "pom.xml",
  d "src" [d "main" [d "java" [d "io" [d "github" [d "computerdaddyguy" [d "jfiletreeprettyprinter" [d "cli" [f "FileTreePrettyPrinterCommandLine.java", f "ManifestVersionProvider.java", f "PrettyPrintCommand.java", f "RecordUtils.java", d "exception" [f "DefaultExecutionExceptionHandler.java", f "ExternalOptionsException.java"], d "io" [f "ConsoleOutput.java", f "DefaultConsoleOutput.java"], d "options" [f "DefaultOptionsLoader.java", f "OptionsLoader.java", d "mapper" [f "DefaultExternalOptionsMapper.java", f "ExternalOptionsMapper.java"], d "model" [f "ChildLimit.java", f "ExternalOptions.java", f "Filter.java", f "LineExtension.java", f "Matcher.java"], d "reader" [f "ExternalOptionsReader.java", f "FallbackExternalOptionsReader.java", f "SimpleExternalOptionsReader.java"]]]]]]]], d "resources" [d "META-INF" [d "native-image" [d "io.github.computerdaddyguy" [d "jfiletreeprettyprinter" [f "reachability-metadata.json"]]]], d "schemas" [f "jfiletreeprettyprinter-options.schema.json"]]], d "test" [d "java" [d "io" [d "github" [d "computerdaddyguy" [d "jfiletreeprettyprinter" [d "cli" [f "FileTreePrettyPrinterCommandLineTest.java", f "ManifestVersionProviderTest.java", f "RecordUtilsTest.java"]]]]]], d "resources" [d "cli" [d "base" [d "folder_a" [f "file_1.txt", f "file_2.java", f "file_3.php", f "file_4.jpeg"], d "folder_b" [f "file_1.txt", f "file_2.java", f "file_3.php", f "file_4.jpeg"], d "folder_c" [f "file_1.txt", f "file_2.java", f "file_3.php", f "file_4.jpeg"], d "folder_d" [f "file_1.txt", f "file_2.java", f "file_3.php", f "file_4.jpeg"], d "folder_z1" [d "folder_z2" [d "folder_z3" [f "file_1.txt", f "file_2.java", f "file_3.php", f "file_4.jpeg"]]]], d "options" [f "childLimit_dynamic_allOf.yaml", f "childLimit_dynamic_anyOf.yaml", f "childLimit_dynamic_everything.yaml", f "childLimit_dynamic_glob.yaml", f "childLimit_dynamic_noneOf.yaml", f "childLimit_static.yaml", f "compactDirectories.yaml", f "emojis.yaml", f "filter.yaml", f "invalid.yaml", f "lineExtensions.yaml", f "malformed.yaml", f "maxDepth.yaml"]]]]],
  d "target" [d "classes"]],
  d "jfiletreeprettyprinter-core" [f "pom.xml",
  d "src" [d "main" [d "java" [d "io" [d "github" [d "computerdaddyguy" [d "jfiletreeprettyprinter" [f "DefaultFileTreePrettyPrinter.java",
    f "FileTreePrettyPrinter.java", f "FileTreePrettyPrinterBuilder.java", d "options" [f "ChildLimitBuilder.java", f "ChildLimits.java",
    f "DefaultEmojiMapping.java", f "DefaultEmojiMappingBuilder.java", f "EmojiMapping.java", f "EmojiMappingBuilder.java",
    f "LineExtensionBuilder.java", f "LineExtensions.java", f "MappingUtils.java", f "PathExtensionEmojiFunction.java",
    f "PathMatcherEmojiFunction.java", f "PathMatchers.java", f "PathNameEmojiFunction.java", f "PathSortBuilder.java", f "PathSorts.java",
    f "PrettyPrintOptions.java", f "SequentialEmojiFunction.java", f "TreeFormat.java", f "TreeFormats.java"],
    d "renderer" [f "DefaultFileFormatter.java", f "DefaultLineRenderer.java", f "DefaultTreeEntryRenderer.java", f "DefaultTreeFormatter.java",
    f "Depth.java", f "EmojiFileFormatter.java", f "FileFormatter.java", f "LineRenderer.java", f "RenderingOptions.java",
    f "TreeEntryRenderer.java", f "TreeFormatter.java", f "TreeSymbol.java"], d "scanner" [f "DefaultPathToTreeScanner.java",
    f "PathToTreeScanner.java", f "ScanningOptions.java", f "TreeEntry.java"]]]]]]],
    d "test" [d "java" [d "io" [d "github" [d "computerdaddyguy" [d "jfiletreeprettyprinter" [f "BasicUsageTest.java",
    f "ChildLimitDynamicTest.java", f "ChildLimitStaticTest.java", f "CompactDirectoriesTest.java", f "EmojisTest.java",
    f "FileTreePrettyPrinterBuilderTest.java", f "FileTreePrettyPrinterTest.java", f "FilteringTest.java", f "LineExtensionTest.java",
    f "MaxDepthTest.java", f "PathMatchersTest.java", f "PathSortBuilderTest.java", f "SortingTest.java", f "TreeFormatTest.java",
    d "renderer" [f "DepthTest.java"], d "util" [f "FileStructureCreator.java", f "FileStructures.java"]]]]]],
    d "resources" [d "sorting" [d "by_file_size" [f "file_1", f "file_2", f "file_3", f "file_4", f "file_5"]]]]],
  d "target" [d "classes"]],
  d "jfiletreeprettyprinter-examples" [f "pom.xml",
  d "src" [d "main" [d "java" [d "io" [d "github" [d "computerdaddyguy" [d "jfiletreeprettyprinter" [d "example" [f "BasicUsage.java",
    f "ChildLimitDynamic.java", f "ChildLimitStatic.java", f "CompactDirectories.java", f "Emojis.java", f "FileTreeFormat.java", f "Filtering.java",
    f "LineExtension.java", f "MaxDepth.java", f "ProjectStructure.java", f "Sorting.java"]]]]]], d "resources" [d "base" [f "businessPlan.pdf",
    f "businessProject.pdf", d "cars" [f "Ferrari.doc", f "Porsche.doc"], f "diyIdeas.docx", f "giftIdeas.txt", d "images" [f "funnyCat.gif",
    d "holidays" [f "meAtTheBeach.jpeg", f "meAtTheZoo.jpeg"], f "landscape.jpeg"]], d "child_limit_dynamic" [f "file_0_1",
    d "folder_1" [f "file_1_1", f "file_1_2", f "file_1_3", f "file_1_4", f "file_1_5"], d "node_modules" [f "file_node_01", f "file_node_02",
    f "file_node_03", f "file_node_04", f "file_node_05", f "file_node_06", f "file_node_07", f "file_node_08", f "file_node_09", f "file_node_10",
    f "file_node_11", f "file_node_12", f "file_node_13", f "file_node_14", f "file_node_15", f "file_node_16", f "file_node_17", f "file_node_18",
    f "file_node_19", f "file_node_20"]], d "child_limit_static" [f "file_0_1", d "folder_1" [f "file_1_1", f "file_1_2", f "file_1_3", f "file_1_4",
    f "file_1_5"], d "folder_2" [f "file_2_1", f "file_2_2", f "file_2_3", f "file_2_4", f "file_2_5"], d "folder_3" [f "file_3_1", f "file_3_2",
    f "file_3_3", f "file_3_4", f "file_3_5"], d "folder_4" [f "file_4_1", f "file_4_2", f "file_4_3", f "file_4_4", f "file_4_5"],
    d "folder_5" [f "file_5_1", f "file_5_2", f "file_5_3", f "file_5_4", f "file_5_5"]], d "cli" [d "options" [f "full-options.yaml"]],
    d "depth_limit" [d "level_1" [f "file_1_1", f "file_1_2", d "level_2" [f "file_2_1", f "file_2_2", d "level_3" [f "file_3_1", f "file_3_2",
    d "level_4" [f "file_4_1", f "file_4_2", d "level_5" [f "file_5_1", f "file_5_2"]]]]]], d "emojis" [f "Dockerfile", f "Jenkinsfile",
    f "file.avi", f "file.docx", f "file.ini", f "file.java", f "file.jpeg", f "file.mp3", f "file.pdf", f "file.xlsx", f "file.zip", f "readme"],
    d "filtering" [d "dir_with_java_files" [f "file_B.java", f "file_C.cpp", f "file_D.ts", f "file_E.java"],
    d "dir_with_nested_java_files" [d "nested_dir_with_java_files" [f "file_G.java", f "file_H.cpp", f "file_I.ts", f "file_J.java"],
    d "nested_dir_with_no_java_file" [f "file_K.cpp", f "file_L.ts"]], d "dir_with_no_java_file" [f "file_M.cpp", f "file_N.ts"], f "file_A.java"],
    d "line_extension" [d "src" [d "main" [d "java" [d "api" [f "Controller.java"], d "domain" [f "ValueObject.java"],
    d "infra" [f "Repository.java"]], d "resources" [f "application.properties"]]]], d "max_depth" [d "level1" [f "file1#1", f "file1#2",
    d "level2" [f "file2#1", f "file2#2", d "level3" [f "file3#1", f "file3#2", d "level4" [f "file4#1", f "file4#2"]]]]],
    d "single_directory_child" [f "file1", f "file2", d "this" [d "is" [d "single" [d "directory" [d "child" [f "file1", f "file2", f "file3"]]]]]],
    d "sorting" [f "a_file", f "b_file", d "c_dir" [f "c_file"], d "d_dir" [f "d_a_file", d "d_b_dir" [f "d_b_file"]], f "x_file", f "y_file"],
    d "tree_format" [f "file_1", f "file_2", d "subFolder" [f "subFile_1", f "subFile_2"]]]],
    d "test" [d "java" [d "io" [d "github" [d "computerdaddyguy" [d "jfiletreeprettyprinter" [d "example" [f "BasicUsageTest.java",
    f "ChildLimitDynamicTest.java", f "ChildLimitStaticTest.java", f "CompactDirectoriesTest.java", f "EmojisTest.java", f "FileTreeFormatTest.java",
    f "FilteringTest.java", f "LineExtensionTest.java", f "MaxDepthTest.java", f "ProjectStructureTest.java", f "SortingTest.java"]]]]]]]],
  d "target" [d "classes"]],
  f "pom.xml",
  f "runMutationTests.sh"]]]

/-- The directory in which the tests of the module run. -/
def moduleDir : String := "/home/JFileTreePrettyPrinter/jfiletreeprettyprinter-examples"

/-- ProjectStructure.java:63 -/
def projectFolder : Path := p ".."

/-- `PathMatchers.hasRelativePathMatchingGlob(projectFolder, g)` -/
def relGlob (g : String) : M := mk (hasRelativePathMatchingGlob globs (p moduleDir) projectFolder (js g))

/-- `PathMatchers.hasAbsolutePathMatchingGlob(g)` -/
def absGlob (g : String) : M := mk (hasAbsolutePathMatchingGlob globs (p moduleDir) (js g))

/-- ProjectStructure.java:68-77 -/
def dirFilter (fs : PureFs) : M := mk (anyOf [
  hasAnyDescendantMatching fs.lift (hasName (js "FileTreePrettyPrinter.java")),
  mk (noneOf [hasNameStartingWith (js "."), relGlob "target", relGlob "src", relGlob "*/src/**"])])

/-- ProjectStructure.java:84-90 -/
def fileFilter : M := mk (anyOf [
  absGlob "**/jfiletreeprettyprinter-core/**/FileTreePrettyPrinter.java",
  mk (noneOf [absGlob "**/jfiletreeprettyprinter-core/**", hasNameStartingWith (js ".")])])

/-- ProjectStructure.java:103-108 -/
def childLimitFunction : ChildLimitBuilder (Except Exn) :=
  ((ChildLimits.builder.addMatching (absGlob "**/jfiletreeprettyprinter-cli") 0).addMatching (absGlob "**/jfiletreeprettyprinter-examples") 0).addMatching
    (absGlob "**/jfiletreeprettyprinter-core") 1

/-- ProjectStructure.java:113-121 -/
def lineExtension : LineExtensionBuilder (Except Exn) :=
  (((((((LineExtensions.builder).addMatching (hasName (js "project-structure.png")) (js "\t// This image")).addMatching
    (hasName (js "README.md")) (js "\t\t// You're reading at this!")).addMatching
    (hasName (js "FileTreePrettyPrinter.java")) (js "\t// Lib main entry point")).addMatching
    (hasName (js "jfiletreeprettyprinter-cli")) (js "\t// Everything to build the executable")).addMatching
    (hasName (js "jfiletreeprettyprinter-core")) (js "\t// The Java lib")).addMatching
    (hasName (js "jfiletreeprettyprinter-examples")) (js "\t// Some examples")).addLineBreak (relGlob "src/main/java")

/-- ProjectStructure.java:127-135 -/
def pathComparator (fs : PureFs) : PathSortBuilder :=
  (((((PathSorts.builder.addMatching (named "jfiletreeprettyprinter-core") (-100)).addMatching (named "jfiletreeprettyprinter-examples") (-90)).addMatching
    (named "jfiletreeprettyprinter-cli") (-80)).addMatching (named "assets") (-70)).addMatching (named "docs") (-60)).addMatching fs.isDir (-1)

/-- ProjectStructure.java:140-151 -/
def projectOptions (fs : PureFs) : Opts :=
  ((((((emojis fs).withCompactDirectories true).filterDirectories (dirFilter fs)).filterFiles fileFilter).withChildLimitFn
    (childLimitFunction.build.applyAsInt childLimitFunction)).withLineExtension (some (lineExtension.build.apply lineExtension))).sort (built (pathComparator fs))

#guard printsAt project moduleDir ".." projectOptions ["📂 JFileTreePrettyPrinter/", "├─ 📂 jfiletreeprettyprinter-core/\t// The Java lib", "│  ├─ 📂 src/main/java/io/github/computerdaddyguy/jfiletreeprettyprinter/", "│  │  └─ ☕ FileTreePrettyPrinter.java\t// Lib main entry point", "│  └─ ...", "├─ 📂 jfiletreeprettyprinter-examples/\t// Some examples", "│  └─ ...", "├─ 📂 jfiletreeprettyprinter-cli/\t// Everything to build the executable", "│  └─ ...", "├─ 📂 assets/", "│  └─ 🖼️ project-structure.png\t// This image", "├─ 📂 docs/", "│  ├─ 📝 How-to-build-a-native-executable-locally.md", "│  ├─ 📝 Release-process.md", "│  └─ 📝 Renew-sonar-token.md", "├─ 🆕 CHANGELOG.md", "├─ 🤝 CONTRIBUTING.md", "├─ ⚖️ LICENSE", "├─ 📘 README.md\t\t// You're reading at this!", "├─ 🗺️ ROADMAP.md", "├─ 🛡️ SECURITY.md", "├─ 🛠️ pom.xml", "└─ 📜 runMutationTests.sh"]

end Conformance
end JFTP
