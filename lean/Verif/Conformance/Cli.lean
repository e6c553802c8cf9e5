import Verif.Conformance.Matchers
import Verif.Model.Schema

/-
cli/src/test/java/io/github/computerdaddyguy/jfiletreeprettyprinter/cli/FileTreePrettyPrinterCommandLineTest.java and RecordUtilsTest.java replayed on the model
(tests, not proofs; see `Conformance.Core`). YAML files are given as the trees of values they denote; the messages of constraint violations are a parameter of the model.
-/

namespace JFTP
namespace Conformance
open Cli PathMatchers

/-- The files of one folder of cli/src/test/resources/cli/base. -/
def four : List (JStr × Node) := [f "file_1.txt", f "file_2.java", f "file_3.php", f "file_4.jpeg"]

/-- A string value. -/
def s (t : String) : Json := .str (js t)
/-- A mapping. -/
def o (fs : List (String × Json)) : Json := .obj (fs.map (fun x => (js x.1, x.2)))
/-- `type: name`, `glob: g` -/
def nameIs (g : String) : Json := o [("type", s "name"), ("glob", s g)]
/-- An item of `limits`. -/
def limitItem (n : Int) (m : Json) : Json := o [("limit", .int n), ("matcher", m)]
/-- A document with a dynamic limit. -/
def dynamic (items : List Json) : Json := o [("childLimit", o [("type", s "dynamic"), ("limits", .arr items)])]
/-- A matcher that combines others. -/
def combine (t : String) (ms : List Json) : Json := o [("type", s t), ("matchers", .arr ms)]

/-- cli/src/test/resources/cli/options -/
def optionFiles : List (String × Json) := [
  ("childLimit_dynamic_allOf.yaml", dynamic [limitItem 2 (combine "allOf" [nameIs "*3", nameIs "*xxx*"]), limitItem 3 (combine "allOf" [nameIs "*3", nameIs "*z*"])]),
  ("childLimit_dynamic_anyOf.yaml", dynamic [limitItem 2 (combine "anyOf" [nameIs "*3", nameIs "*xxx*"]), limitItem 3 (combine "anyOf" [nameIs "*3", nameIs "*z*"])]),
  ("childLimit_dynamic_everything.yaml", dynamic [limitItem 2 (o [("type", s "everything")])]),
  ("childLimit_dynamic_glob.yaml", dynamic [limitItem 2 (nameIs "*_a"), limitItem 3 (o [("type", s "path"), ("glob", s "/*_b")])]),
  ("childLimit_dynamic_noneOf.yaml", dynamic [limitItem 2 (combine "noneOf" [nameIs "*a", nameIs "folder*"]), limitItem 3 (combine "noneOf" [nameIs "*a", nameIs "*xxx*"])]),
  ("childLimit_static.yaml", o [("childLimit", o [("type", s "static"), ("limit", .int 2)])]),
  ("compactDirectories.yaml", o [("compactDirectories", .bool true)]),
  ("emojis.yaml", o [("emojis", .bool true)]),
  ("filter.yaml", o [("filter", o [("dir", nameIs "*a"), ("file", nameIs "*.java")])]),
  ("invalid.yaml", dynamic [limitItem 2 (nameIs ""), limitItem 3 (nameIs "")]),
  ("lineExtensions.yaml", o [("lineExtensions", .arr [o [("extension", s " // This is java file"), ("matcher", nameIs "*.java")],
    o [("extension", s " // This is php file"), ("matcher", nameIs "*.php")]])]),
  ("malformed.yaml", s "emojis true"),
  ("maxDepth.yaml", o [("maxDepth", .int 2)])]

/-- The disk: the module directory `/cli` with its test resources. -/
def cliDisk : Node := .dir true [d "home", d "cli" [d "src" [d "test" [d "resources" [d "cli" [
  d "base" [d "folder_a" four, d "folder_b" four, d "folder_c" four, d "folder_d" four, d "folder_z1" [d "folder_z2" [d "folder_z3" four]]],
  d "options" (optionFiles.map (fun x => f x.1))]]]]]]

/-- The environment of the tests. -/
def env : Env where
  cwd := p "/cli"
  home := p "/home"
  fs := cliDisk.toFs
  fileExists q := (cliDisk.at q).isSome
  isFile q := match cliDisk.at q with | some (.regular _) => true | _ => false
  canRead _ := true
  yaml q := (optionFiles.find? (fun x => some (js x.1) == q.getFileName)).bind (fun x => (Bind.externalOptions x.2).map some)
  violations _ := [js "childLimit.limits[0].matcher.glob: ...", js "childLimit.limits[1].matcher.glob: ..."]
  reflect _ := .other []
  casing := asciiCasing
  glob := globs
  fmt _ := none
  message _ := []
  stackTrace _ := []

/-- `src/test/resources/cli/base` -/
def base : Path := p "src/test/resources/cli/base"

/-- The console after `executeCommand(targetPath, "-o", optionsPath)`. -/
def console (opts : Option String) : Nat × Console := run env { target := some base, optionsFile := opts.map p }

/-- `runSuccessTest`: what is written is what the library prints with the options `ref`, and a line break. -/
def sameAs (opts : Option String) (ref : Opts) : Bool :=
  let r := console opts
  r.1 == 0 && r.2.err == [] && some r.2.out == (ans (prettyPrint env.fs.lift env.cwd ref base)).map (fun t => t ++ [NL])

/-- `runErrorTest`: what is written starts with `pre` and contains each of `parts`. -/
def fails (opts : String) (pre : String) (parts : List String) : Bool :=
  let r := console (some opts)
  r.1 == 1 && r.2.out == [] && startsWith r.2.err (js pre) && parts.all (fun part => (List.range r.2.err.length).any (fun i => (js part).isPrefixOf (r.2.err.drop i)))

/-- `src/test/resources/cli/options/` -/
def inOptions (n : String) : Option String := some ("src/test/resources/cli/options/" ++ n)

/-- A matcher that must exist. -/
def mk (m : Except Exn M) : M := match m with | .ok m => m | .error _ => fun _ => .error .nullPointer
/-- `PathMatchers.hasNameMatchingGlob(g)` -/
def ng (g : String) : M := mk (hasNameMatchingGlob globs (js g))
/-- `withChildLimit(builder.build())` -/
def limited (b : ChildLimitBuilder (Except Exn)) : Opts := dflt.withChildLimitFn (b.build.applyAsInt b)

#guard sameAs none dflt
#guard fails "not_existing" "[ERROR] Options file does not exist:" ["not_existing"]
#guard fails "src/test/resources/cli/options/malformed.yaml" "[ERROR] IO error or malformed options file:" ["malformed.yaml"]
#guard fails "src/test/resources/cli/options/invalid.yaml" "[ERROR] Invalid options file:" ["childLimit.limits[0].matcher.glob:", "childLimit.limits[1].matcher.glob:"]
#guard sameAs (inOptions "emojis.yaml") (match dflt.withDefaultEmojis asciiCasing env.fs.lift with | .ok o => o | .error _ => dflt)
#guard sameAs (inOptions "compactDirectories.yaml") (dflt.withCompactDirectories true)
#guard sameAs (inOptions "maxDepth.yaml") (dflt.withMaxDepth 2)
#guard sameAs (inOptions "childLimit_static.yaml") (dflt.withChildLimit 2)
#guard sameAs (inOptions "childLimit_dynamic_glob.yaml")
  (limited ((ChildLimits.builder.addMatching (ng "*_a") 2).addMatching (mk (hasRelativePathMatchingGlob globs env.cwd base (js "/*_b"))) 3))
#guard sameAs (inOptions "childLimit_dynamic_everything.yaml") (limited (ChildLimits.builder.add (fun _ => pure 2)))
#guard sameAs (inOptions "childLimit_dynamic_allOf.yaml")
  (limited ((ChildLimits.builder.addMatching (mk (allOf [ng "*3", ng "*xxx*"])) 2).addMatching (mk (allOf [ng "*3", ng "*z*"])) 3))
#guard sameAs (inOptions "childLimit_dynamic_anyOf.yaml")
  (limited ((ChildLimits.builder.addMatching (mk (anyOf [ng "*3", ng "*xxx*"])) 2).addMatching (mk (anyOf [ng "*3", ng "*z*"])) 3))
#guard sameAs (inOptions "childLimit_dynamic_noneOf.yaml")
  (limited ((ChildLimits.builder.addMatching (mk (noneOf [ng "*a", ng "folder*"])) 2).addMatching (mk (noneOf [ng "*a", ng "*xxx*"])) 3))
#guard sameAs (inOptions "filter.yaml") ((dflt.filterDirectories (ng "*a")).filterFiles (ng "*.java"))
#guard sameAs (inOptions "lineExtensions.yaml")
  (let b : LineExtensionBuilder (Except Exn) := (LineExtensions.builder.addMatching (ng "*.java") (js " // This is java file")).addMatching (ng "*.php") (js " // This is php file")
   dflt.withLineExtension (some (b.build.apply b)))

-- Every well-formed document among them conforms to the published schema, except `invalid.yaml`, which the schema does not reject either.
#guard optionFiles.all (fun x => Schema.conforms x.2 == (x.1 != "malformed.yaml"))

/-! ### RecordUtilsTest.java -/

/-- A record. -/
def rec (n : String) (cs : List (String × RVal)) : RVal := .record (js n) (cs.map (fun c => (js c.1, some c.2)))
/-- A `NameGlob` or `PathGlob`. -/
def gl (n g : String) : RVal := rec n [("glob", .str (js g))]

#guard RecordUtils.toTextBlock (some (rec "ExternalOptions" [
    ("emojis", .other (js "true")), ("compactDirectories", .other (js "true")), ("maxDepth", .other (js "3")),
    ("childLimit", rec "DynamicLimit" [("limits", .coll [some (rec "DynamicLimitItem" [("limit", .other (js "1")), ("matcher", gl "NameGlob" "*.java")]),
      some (rec "DynamicLimitItem" [("limit", .other (js "1")), ("matcher", gl "PathGlob" "pictures")])])]),
    ("filter", rec "Filter" [("dir", gl "NameGlob" "folderOk"), ("file", gl "NameGlob" "fileOk.*")]),
    ("lineExtensions", .coll [some (rec "LineExtension" [("extension", .str (js "This is java file")), ("matcher", gl "NameGlob" "*.java")]),
      some (rec "LineExtension" [("extension", .str (js "This is php file")), ("matcher", gl "NameGlob" "*.php")])])])) == joinLines (["ExternalOptions", "  emojis: true", "  compactDirectories: true", "  maxDepth: 3", "  childLimit -> DynamicLimit", "    limits: [", "      [0] -> DynamicLimitItem", "        limit: 1", "        matcher -> NameGlob", "          glob: \"*.java\"", "      [1] -> DynamicLimitItem", "        limit: 1", "        matcher -> PathGlob", "          glob: \"pictures\"", "    ]", "  filter -> Filter", "    dir -> NameGlob", "      glob: \"folderOk\"", "    file -> NameGlob", "      glob: \"fileOk.*\"", "  lineExtensions: [", "    [0] -> LineExtension", "      extension: \"This is java file\"", "      matcher -> NameGlob", "        glob: \"*.java\"", "    [1] -> LineExtension", "      extension: \"This is php file\"", "      matcher -> NameGlob", "        glob: \"*.php\"", "  ]"].map js)

end Conformance
end JFTP
