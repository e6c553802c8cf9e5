import Verif.Model.Printer
import Verif.Model.Sorting
import Verif.Model.Scanner32

/-
The unit tests of jfiletreeprettyprinter-core/src/test replayed on the model. These are tests of the model against the outputs the authors of the library
expect (the only record of its behaviour available here), not proofs: `#guard` evaluates a Boolean. Every output is computed with the children of each
directory listed in the order of creation and in the reverse order, by `Scanner` and by `LiveScanner` with the JDK's sort.
-/

namespace JFTP
namespace Conformance

/-- A Java string at run time. -/
def js (s : String) : JStr := (s.toList.map utf16Units).flatten.map UInt16.ofNat

/-- A file of a test tree. -/
def f (n : String) (size : Nat := 0) : JStr × Node := (js n, .regular size)

/-- A directory of a test tree. -/
def d (n : String) (children : List (JStr × Node) := []) : JStr × Node := (js n, .dir true children)

/-- core/src/test/java/io/github/computerdaddyguy/jfiletreeprettyprinter/util/FileStructureCreator.java:45-50 -/
def files (pre : String) (n : Nat) : List (JStr × Node) := (List.range n).map (fun i => f (pre ++ toString (i + 1)))

/-- core/src/test/java/io/github/computerdaddyguy/jfiletreeprettyprinter/util/FileStructureCreator.java:25-30 -/
def dirs (pre : String) (n : Nat) : List (JStr × Node) := (List.range n).map (fun i => d (pre ++ toString (i + 1)))

mutual
/-- The same tree listed in reverse order. -/
def backwards : Node → Node
  | .dir r cs => .dir r (backwardsAll cs).reverse
  | n => n
/-- Each tree of a list listed in reverse order. -/
def backwardsAll : List (JStr × Node) → List (JStr × Node)
  | [] => []
  | (n, x) :: rest => (n, backwards x) :: backwardsAll rest
end

/-- The disk of a test: the directory `targetPath` inside the temporary directory `/tmp`. -/
def disk (cs : List (JStr × Node)) : Node := .dir true [d "tmp" [d "targetPath" cs]]

/-- The answer of a computation. -/
def ans {α : Type} : Except Exn α → Option α
  | .ok a => some a
  | .error _ => none

/-- The options of the tests. -/
abbrev Opts := Options (Except Exn)

/-- Does the printer with the options `o` (which may depend on the file system) print `expected` for `path`? -/
def printsAt (t : Node) (cwd path : String) (o : PureFs → Opts) (expected : List String) : Bool :=
  [t, backwards t].all (fun t =>
    let fs := t.toFs
    let o := o fs
    let cwd := Path.ofString (js cwd)
    let path := Path.ofString (js path)
    let want := some (joinLines (expected.map js))
    ans (prettyPrint fs.lift cwd o path) == want &&
    ans (LiveScanner.prettyPrint TimSort.sort (fun a b => pure (o.pathComparator a b)) fs.lift cwd o path) == want)

/-- Does the printer with the options `o` print `expected` for the tree `targetPath` with the children `cs`? -/
def printsWith (cs : List (JStr × Node)) (o : PureFs → Opts) (expected : List String) : Bool := printsAt (disk cs) "/" "/tmp/targetPath" o expected

/-- The same for options that do not depend on the file system. -/
def prints (cs : List (JStr × Node)) (o : Opts) (expected : List String) : Bool := printsWith cs (fun _ => o) expected

/-- `PrettyPrintOptions.createDefault()` -/
def dflt : Opts := Options.createDefault

/-- A computation that must succeed. -/
def must {α : Type} [Inhabited α] : Except Exn α → α
  | .ok a => a
  | .error _ => panic! "exception"

instance : Inhabited Opts := ⟨dflt⟩

open PathMatchers (hasName hasNameEndingWith hasExtension anyOf)

/-! ### BasicUsageTest.java -/

#guard prints [] dflt ["targetPath/"]
#guard prints (files "file" 3) dflt ["targetPath/", "├─ file1", "├─ file2", "└─ file3"]
#guard prints [d "dir1"] dflt ["targetPath/", "└─ dir1/"]
#guard prints [d "level_1" [d "level_1_1" (files "file" 2)], d "level_2" [d "level_2_1" (files "file" 2)]] dflt ["targetPath/", "├─ level_1/", "│  └─ level_1_1/", "│     ├─ file1", "│     └─ file2", "└─ level_2/", "   └─ level_2_1/", "      ├─ file1", "      └─ file2"]

/-! ### ChildLimitDynamicTest.java -/

/-- The printer of the test. -/
def limits : Opts :=
  let b : ChildLimitBuilder (Except Exn) := ((ChildLimits.builder.addMatching (hasName (js "limit_1")) 1).addMatching (hasName (js "limit_3")) 3).setDefault UNLIMITED
  dflt.withChildLimitFn (b.build.applyAsInt b)

#guard prints [] limits ["targetPath/"]
#guard prints [d "limit_1" (files "file" 5), d "limit_3" (files "file" 5), d "simpleDir" (files "file" 5)] limits ["targetPath/", "├─ limit_1/", "│  ├─ file1", "│  └─ ...", "├─ limit_3/", "│  ├─ file1", "│  ├─ file2", "│  ├─ file3", "│  └─ ...", "└─ simpleDir/", "   ├─ file1", "   ├─ file2", "   ├─ file3", "   ├─ file4", "   └─ file5"]
#guard prints [d "limit_1" (files "file" 5)] limits ["targetPath/", "└─ limit_1/", "   ├─ file1", "   └─ ..."]
#guard prints [d "limit_3" (files "file" 5)] limits ["targetPath/", "└─ limit_3/", "   ├─ file1", "   ├─ file2", "   ├─ file3", "   └─ ..."]

/-! ### ChildLimitStaticTest.java -/

#guard prints [] (dflt.withChildLimit 3) ["targetPath/"]
#guard prints (files "file" 3) (dflt.withChildLimit 0) ["targetPath/", "└─ ..."]
#guard prints (files "file" 3) (dflt.withChildLimit 1) ["targetPath/", "├─ file1", "└─ ..."]
#guard prints (files "file" 3) (dflt.withChildLimit 2) ["targetPath/", "├─ file1", "├─ file2", "└─ ..."]
#guard prints (files "file" 3) (dflt.withChildLimit 3) ["targetPath/", "├─ file1", "├─ file2", "└─ file3"]

/-! ### TreeFormatTest.java -/

#guard prints [] (dflt.withTreeFormat TreeFormats.CLASSIC_ASCII) ["targetPath/"]
#guard prints (files "file" 3) (dflt.withTreeFormat TreeFormats.CLASSIC_ASCII) ["targetPath/", "|-- file1", "|-- file2", "`-- file3"]

/-- The tree of several tests. -/
def nested : List (JStr × Node) := [d "dirA" [d "dirB" [d "dirC" (files "file" 3)]], d "dirX"]

#guard (match TreeFormat.create (js "[") (js "^") (js "-") (js ".") with
  | .error _ => false
  | .ok fmt => prints nested (dflt.withTreeFormat fmt) ["targetPath/", "[ dirA/", "- ^ dirB/", "- . ^ dirC/", "- . . [ file1", "- . . [ file2", "- . . ^ file3", "^ dirX/"])

/-! ### CompactDirectoriesTest.java -/

#guard prints [] (dflt.withCompactDirectories true) ["targetPath/"]
#guard prints (files "file" 3) (dflt.withCompactDirectories true) ["targetPath/", "├─ file1", "├─ file2", "└─ file3"]
#guard prints [d "dir1"] (dflt.withCompactDirectories true) ["targetPath/", "└─ dir1/"]
#guard prints [d "dir1", f "file1"] (dflt.withCompactDirectories true) ["targetPath/", "├─ dir1/", "└─ file1"]
#guard prints nested (dflt.withCompactDirectories true) ["targetPath/", "├─ dirA/dirB/dirC/", "│  ├─ file1", "│  ├─ file2", "│  └─ file3", "└─ dirX/"]

/-! ### MaxDepthTest.java -/

#guard prints [] (dflt.withMaxDepth 2) ["targetPath/"]
#guard prints (files "file" 3) (dflt.withMaxDepth 2) ["targetPath/", "├─ file1", "├─ file2", "└─ file3"]
#guard prints [d "level1" [d "level2" [d "level3" [d "level4" (files "file4#" 3)]]]] ((dflt.withMaxDepth 2).withCompactDirectories true) ["targetPath/", "└─ level1/level2/", "   └─ ..."]
#guard prints [d "level1" (files "file1#" 3 ++ [d "level2" (files "file2#" 3 ++ [d "level3-1" (files "file3-1#" 3 ++ [d "level4-1" (files "file4-1#" 3)]),
    d "level3-2" [d "level4-2" (files "file4-2#" 3)]])])] (dflt.withMaxDepth 2) ["targetPath/", "└─ level1/", "   ├─ file1#1", "   ├─ file1#2", "   ├─ file1#3", "   └─ level2/", "      └─ ..."]

/-! ### LineExtensionTest.java -/

#guard prints [] (dflt.withLineExtension (some (fun _ => pure (some (js " /* YES ! */"))))) ["targetPath/ /* YES ! */"]

/-- The options of the tests, given what is added to the builder. -/
def extended (b : LineExtensionBuilder (Except Exn)) : Opts := (dflt.withLineExtension (some (b.build.apply b))).withCompactDirectories true

#guard prints nested (extended (LineExtensions.builder.addMatching (hasName (js "dirA")) (js " // 1"))) ["targetPath/", "├─ dirA/ // 1", "│  └─ dirB/dirC/", "│     ├─ file1", "│     ├─ file2", "│     └─ file3", "└─ dirX/"]
#guard prints nested (extended (LineExtensions.builder.addLineBreak (hasName (js "dirA")))) ["targetPath/", "├─ dirA/", "│  └─ dirB/dirC/", "│     ├─ file1", "│     ├─ file2", "│     └─ file3", "└─ dirX/"]
#guard prints nested (extended (LineExtensions.builder.addMatching (hasName (js "dirB")) (js " // 2"))) ["targetPath/", "├─ dirA/dirB/ // 2", "│  └─ dirC/", "│     ├─ file1", "│     ├─ file2", "│     └─ file3", "└─ dirX/"]
#guard prints nested (extended (LineExtensions.builder.addMatching (hasName (js "dirC")) (js " // 3"))) ["targetPath/", "├─ dirA/dirB/dirC/ // 3", "│  ├─ file1", "│  ├─ file2", "│  └─ file3", "└─ dirX/"]

/-! ### SortingTest.java -/

/-- `buildDefaultPath` (lines 18-31) -/
def threeDirs : List (JStr × Node) := [d "dir1" (files "files_1_" 3), d "dir2" (files "files_2_" 3), d "dir3" (files "files_3_" 3)]

#guard prints threeDirs dflt ["targetPath/", "├─ dir1/", "│  ├─ files_1_1", "│  ├─ files_1_2", "│  └─ files_1_3", "├─ dir2/", "│  ├─ files_2_1", "│  ├─ files_2_2", "│  └─ files_2_3", "└─ dir3/", "   ├─ files_3_1", "   ├─ files_3_2", "   └─ files_3_3"]
#guard prints threeDirs (dflt.sort (reversed PathSorts.ALPHABETICAL)) ["targetPath/", "├─ dir3/", "│  ├─ files_3_3", "│  ├─ files_3_2", "│  └─ files_3_1", "├─ dir2/", "│  ├─ files_2_3", "│  ├─ files_2_2", "│  └─ files_2_1", "└─ dir1/", "   ├─ files_1_3", "   ├─ files_1_2", "   └─ files_1_1"]

/-- `path.toFile().length()` for the resources of the test `fileSize`. -/
def lengths (p : Path) : Int := match p.getFileName with
  | some n => ([(js "file_1", 4), (js "file_2", 7), (js "file_3", 3), (js "file_4", 5), (js "file_5", 9)].lookup n).getD 0
  | none => 0

#guard printsWith (files "file_" 5) (fun fs => dflt.sort (PathSorts.BY_FILE_SIZE fs.isDir lengths)) ["targetPath/", "├─ file_3", "├─ file_1", "├─ file_4", "├─ file_2", "└─ file_5"]

/-- `build_directoryFirstOrLast_paths` (lines 104-120) -/
def mixed : List (JStr × Node) :=
  [f "c_file", d "d_dir" [f "d1_file", d "d2_directory"], f "a_file", d "b_dir" [f "b1_file", d "b2_directory", f "b3_file", d "b4_directory"]]

#guard printsWith mixed (fun fs => dflt.sort (PathSorts.DIRECTORY_FIRST fs.isDir)) ["targetPath/", "├─ b_dir/", "│  ├─ b2_directory/", "│  ├─ b4_directory/", "│  ├─ b1_file", "│  └─ b3_file", "├─ d_dir/", "│  ├─ d2_directory/", "│  └─ d1_file", "├─ a_file", "└─ c_file"]
#guard printsWith mixed (fun fs => dflt.sort (PathSorts.DIRECTORY_LAST fs.isDir)) ["targetPath/", "├─ a_file", "├─ c_file", "├─ b_dir/", "│  ├─ b1_file", "│  ├─ b3_file", "│  ├─ b2_directory/", "│  └─ b4_directory/", "└─ d_dir/", "   ├─ d1_file", "   └─ d2_directory/"]
#guard printsWith [f "c_file.cpp", f "a_file.c", f "b_file.c", f "no_extension_1", f "f_file.tar.gz", f "e_file.tar.gz", f "g_file.tar.gz2", f "no_extension_2",
    f "d_file.gz", d "dir_1.c", d "dir_2"] (fun fs => dflt.sort (PathSorts.BY_EXTENSION asciiLowerChar fs.isDir)) ["targetPath/", "├─ dir_1.c/", "├─ dir_2/", "├─ no_extension_1", "├─ no_extension_2", "├─ a_file.c", "├─ b_file.c", "├─ c_file.cpp", "├─ d_file.gz", "├─ e_file.tar.gz", "├─ f_file.tar.gz", "└─ g_file.tar.gz2"]

/-! ### FilteringTest.java -/

/-- The files of two tests. -/
def sources : List (JStr × Node) := [f "file1.java", f "file2.php", f "file3.java", f "file4.c", f "file5.java"]

/-- The directories of two tests. -/
def lettered : List (JStr × Node) := [d "dir1_A", d "dir2_B", d "dir3_A", d "dir4_C", d "dir5_A"]

#guard prints sources (dflt.filterFiles (hasExtension (js "java"))) ["targetPath/", "├─ file1.java", "├─ file3.java", "└─ file5.java"]
#guard prints sources (dflt.filterFiles (hasExtension (js "exe"))) ["targetPath/"]
#guard prints lettered (dflt.filterDirectories (hasNameEndingWith (js "_A"))) ["targetPath/", "├─ dir1_A/", "├─ dir3_A/", "└─ dir5_A/"]
#guard prints lettered (dflt.filterDirectories (hasNameEndingWith (js "_Z"))) ["targetPath/"]
#guard prints [d "dir_A" [f "file_A1.java"], d "dir_B" [f "file_B1.java"]] ((dflt.filterDirectories (hasNameEndingWith (js "_A"))).filterFiles (hasExtension (js "java"))) ["targetPath/", "└─ dir_A/", "   └─ file_A1.java"]
#guard prints [d "dir_A" [d "dir_A_sub"], d "dir_B" [d "dir_B_sub"]]
    (match anyOf [hasNameEndingWith (js "_A"), hasNameEndingWith (js "_sub")] with | .ok mt => dflt.filterDirectories mt | .error _ => dflt) ["targetPath/", "└─ dir_A/", "   └─ dir_A_sub/"]
#guard prints [d "dir_A" [f "file_A3.java", f "file_A2.java", f "file_Z4.java", f "file_A1.java"], d "dir_B" [f "file_B1.java"]]
    ((dflt.sort (reversed PathSorts.ALPHABETICAL)).filterFiles (hasExtension (js "java"))) ["targetPath/", "├─ dir_B/", "│  └─ file_B1.java", "└─ dir_A/", "   ├─ file_Z4.java", "   ├─ file_A3.java", "   ├─ file_A2.java", "   └─ file_A1.java"]

/-- `combine_filtering_and_childLimit` (lines 227-252) -/
def sixFiles : List (JStr × Node) :=
  [d "dir_A" [f "file_A1.java", f "file_A2.java", f "file_A3.java"], d "dir_B" [f "file_B1.java", f "file_B2.java", f "file_B3.java"]]

#guard prints sixFiles ((dflt.withChildLimit 1).filterFiles (hasExtension (js "java"))) ["targetPath/", "├─ dir_A/", "│  ├─ file_A1.java", "│  └─ ...", "└─ ..."]
#guard prints sixFiles ((dflt.withChildLimit 2).filterFiles (hasExtension (js "java"))) ["targetPath/", "├─ dir_A/", "│  ├─ file_A1.java", "│  ├─ file_A2.java", "│  └─ ...", "└─ dir_B/", "   ├─ file_B1.java", "   ├─ file_B2.java", "   └─ ..."]
#guard prints sixFiles ((dflt.withChildLimit 3).filterFiles (hasExtension (js "java"))) ["targetPath/", "├─ dir_A/", "│  ├─ file_A1.java", "│  ├─ file_A2.java", "│  └─ file_A3.java", "└─ dir_B/", "   ├─ file_B1.java", "   ├─ file_B2.java", "   └─ file_B3.java"]
#guard prints [d "level1-1" [d "level2-1" [d "level3-1" [f "level3-1#1.java", f "level3-1#2.java", f "level3-1#3.java",
      d "level4-1" [d "level5-1" [f "level5-1#1.java", f "level5-1#2.java", f "level5-1#3.java"]],
      d "level4-2" [d "level5-2" [f "level5-2#1.java", f "level5-2#2.java", f "level5-2#3.java"]]]]]]
    (((dflt.withCompactDirectories true).filterDirectories (hasNameEndingWith (js "1"))).filterFiles (hasExtension (js "java"))) ["targetPath/", "└─ level1-1/level2-1/level3-1/", "   ├─ level3-1#1.java", "   ├─ level3-1#2.java", "   ├─ level3-1#3.java", "   └─ level4-1/level5-1/", "      ├─ level5-1#1.java", "      ├─ level5-1#2.java", "      └─ level5-1#3.java"]

/-! ### FileTreePrettyPrinterBuilderTest.java, FileTreePrettyPrinterTest.java -/

/-- `FileStructures.simpleDirectoryWithFilesAndFolders(root, 3, 3)` -/
def filesAndFolders : List (JStr × Node) := files "file" 3 ++ dirs "folder" 3

/-- FileTreePrettyPrinterBuilderTest.java:20-23: a builder with its own options, changed, then replaced by other options. -/
def overridden : World (Except Exn) := World.run {} [.newBuilder, .set 0 (.childLimit (fun _ => pure 1)), .withOptions 0 0, .newOptions, .set 1 (.childLimit (fun _ => pure 2)), .withOptions 0 1, .build 0]

#guard ((overridden.print (disk filesAndFolders).toFs.lift Path.root 0 (Path.ofString (js "/tmp/targetPath"))).bind ans) == some (joinLines (["targetPath/", "├─ file1", "├─ file2", "└─ ..."].map js))

#guard (let fs := (disk filesAndFolders).toFs
  let pr : Printer (Except Exn) := Printer.build dflt
  ans (pr.prettyPrint fs.lift Path.root dflt (Path.ofString (js "/tmp/targetPath"))) == ans (pr.prettyPrintString fs.lift Path.root dflt (js "/tmp/targetPath")))

/-! ### PathSortBuilderTest.java -/

/-- `assertCompare` (lines 13-18) -/
def assertCompare (c : Cmp) (first second : String) : Bool :=
  let first := Path.ofString (js first)
  let second := Path.ofString (js second)
  c first second < 0 && c second first > 0 && c first first == 0 && c second second == 0

/-- `builder.build()` -/
def built (b : PathSortBuilder) : Cmp := b.build.compare b

/-- `p -> p.getFileName().toString().equals(name)` -/
def named (n : String) (p : Path) : Bool := p.getFileName == some (js n)

#guard assertCompare (built (PathSorts.builder.add (fun _ => 10))) "A" "B"
#guard assertCompare (built (PathSorts.builder.add (fun p => if named "A" p then 2 else 1))) "B" "A"
#guard assertCompare (built (PathSorts.builder.addMatching (fun _ => true) 10)) "A" "B"
#guard assertCompare (built ((PathSorts.builder.addMatching (named "A") 2).addMatching (named "B") 1)) "B" "A"
#guard assertCompare (built ((PathSorts.builder.addFirst (named "A")).addFirst (named "B"))) "A" "B"

/-! ### renderer/DepthTest.java -/

#guard Depth.createNewEmpty.isEmpty
#guard !(Depth.createNewEmpty.append .LAST_FILE).isEmpty
#guard Depth.createNewEmpty.getSize == 0
#guard (((Depth.createNewEmpty.append .LAST_FILE).append .LAST_FILE).append .LAST_FILE).getSize == 3
#guard Depth.createNewEmpty.pop.symbols == []
#guard (Depth.createNewEmpty.append .LAST_FILE).pop.symbols == []

/-- The depth of `equals_and_hashCode_nominal`. -/
def depthOf (l : List TreeSymbol) : Depth := l.foldl Depth.append Depth.createNewEmpty

#guard (depthOf [.LAST_FILE, .NON_LAST_FILE, .EMPTY, .CONTINUATION]).equals (depthOf [.LAST_FILE, .NON_LAST_FILE, .EMPTY, .CONTINUATION])
#guard !(depthOf [.LAST_FILE, .NON_LAST_FILE, .EMPTY, .CONTINUATION]).equals (depthOf [.LAST_FILE, .NON_LAST_FILE, .CONTINUATION, .EMPTY])

end Conformance
end JFTP
