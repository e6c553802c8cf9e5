import Verif.Model.Printer
import Verif.Model.RecordDump

/-
The cli module (paths relative to jfiletreeprettyprinter-cli/src/main/java/io/github/computerdaddyguy/jfiletreeprettyprinter).

The file system is stable during one run here, so library calls are `Except Exn` computations. YAML parsing (Jackson), argument
parsing (picocli) and glob syntax are parameters. Unix: `System.lineSeparator()` is `"\n"`.
-/

namespace JFTP
namespace Cli

/-! ### Options documents (cli/options/model) -/

/-- cli/options/model/Matcher.java:11-79; `none` is null. -/
inductive MatcherDoc where
  | alwaysTrue
  | alwaysFalse
  | allOf (matchers : Option (List (Option MatcherDoc)))
  | anyOf (matchers : Option (List (Option MatcherDoc)))
  | noneOf (matchers : Option (List (Option MatcherDoc)))
  | nameGlob (glob : Option JStr)
  | pathGlob (glob : Option JStr)

/-- cli/options/model/ChildLimit.java:37-42 -/
structure DynamicLimitItem where
  limit : Option Int
  matcher : Option MatcherDoc

/-- cli/options/model/ChildLimit.java:11-32 -/
inductive ChildLimitDoc where
  | static (limit : Option Int)
  | dynamic (limits : Option (List (Option DynamicLimitItem)))

/-- cli/options/model/LineExtension.java:6-11 -/
structure LineExtensionDoc where
  extension : Option JStr
  matcher : Option MatcherDoc

/-- cli/options/model/Filter.java:6-11 -/
structure FilterDoc where
  dir : Option MatcherDoc
  file : Option MatcherDoc

/-- cli/options/model/ExternalOptions.java:8-17 -/
structure ExternalOptions where
  emojis : Option Bool := none
  compactDirectories : Option Bool := none
  maxDepth : Option Int := none
  childLimit : Option ChildLimitDoc := none
  filter : Option FilterDoc := none
  lineExtensions : Option (List (Option LineExtensionDoc)) := none

/-! ### Validation: the `jakarta.validation` annotations of the records -/

mutual
/-- cli/options/model/Matcher.java:32-77: `@Valid @NotNull @NotEmpty List<@Valid @NotNull Matcher>`, `@NotNull @NotEmpty String`. -/
def MatcherDoc.valid : MatcherDoc → Bool
  | .alwaysTrue | .alwaysFalse => true
  | .allOf ms => validList ms
  | .anyOf ms => validList ms
  | .noneOf ms => validList ms
  | .nameGlob g => validGlob g
  | .pathGlob g => validGlob g
/-- `@Valid @NotNull @NotEmpty List<@Valid @NotNull Matcher>` -/
def MatcherDoc.validList : Option (List (Option MatcherDoc)) → Bool
  | none => false
  | some ms => !ms.isEmpty && validItems ms
/-- `List<@Valid @NotNull Matcher>` -/
def MatcherDoc.validItems : List (Option MatcherDoc) → Bool
  | [] => true
  | none :: _ => false
  | some d :: rest => d.valid && validItems rest
/-- `@NotNull @NotEmpty String` -/
def MatcherDoc.validGlob : Option JStr → Bool
  | none => false
  | some g => !g.isEmpty
end

/-- `@Valid @NotNull Matcher` -/
def validMatcher : Option MatcherDoc → Bool
  | none => false
  | some d => d.valid

/-- `@Valid @Nullable Matcher` -/
def validOptMatcher : Option MatcherDoc → Bool
  | none => true
  | some d => d.valid

/-- cli/options/model/ChildLimit.java:29,38-39 -/
def validItem : Option DynamicLimitItem → Bool
  | none => false
  | some i => i.limit.isSome && validMatcher i.matcher

/-- cli/options/model/ChildLimit.java:18-32 -/
def ChildLimitDoc.valid : ChildLimitDoc → Bool
  | .static l => l.isSome
  | .dynamic none => false
  | .dynamic (some ls) => !ls.isEmpty && ls.all validItem

/-- cli/options/model/LineExtension.java:7-8, ExternalOptions.java:14 -/
def validExtension : Option LineExtensionDoc → Bool
  | none => false
  | some e => e.extension.isSome && validMatcher e.matcher

/-- `validator.validate(..).isEmpty()` for cli/options/model/ExternalOptions.java:8-15 -/
def ExternalOptions.valid (o : ExternalOptions) : Bool :=
  (match o.childLimit with | none => true | some c => c.valid) &&
  (match o.filter with | none => true | some f => validOptMatcher f.dir && validOptMatcher f.file) &&
  (match o.lineExtensions with | none => true | some l => l.all validExtension)

/-! ### Mapping to library options (cli/options/mapper/DefaultExternalOptionsMapper.java) -/

section Mapper
variable {m : Type → Type} [Monad m] [MonadExceptOf Exn m]

mutual
/-- cli/options/mapper/DefaultExternalOptionsMapper.java:90-100 (`null` list: `matchers.stream()` throws) -/
def mapMatcher (glob : PathMatchers.GlobCompiler) (cwd target : Path) : MatcherDoc → Except Exn (JFTP.Matcher m)
  | .alwaysTrue => .ok (fun _ => pure true)
  | .alwaysFalse => .ok (fun _ => pure false)
  | .allOf none => .error .nullPointer
  | .allOf (some ms) => do PathMatchers.allOf (← mapMatchers glob cwd target ms)
  | .anyOf none => .error .nullPointer
  | .anyOf (some ms) => do PathMatchers.anyOf (← mapMatchers glob cwd target ms)
  | .noneOf none => .error .nullPointer
  | .noneOf (some ms) => do PathMatchers.noneOf (← mapMatchers glob cwd target ms)
  | .nameGlob none => .error .nullPointer
  | .nameGlob (some g) => PathMatchers.hasNameMatchingGlob glob g
  | .pathGlob none => .error .nullPointer
  | .pathGlob (some g) => PathMatchers.hasRelativePathMatchingGlob glob cwd target g
/-- `matchers.stream().map(subMatcher -> mapMatcher(subMatcher, targetPath)).toList()`; a null element makes the `switch` throw. -/
def mapMatchers (glob : PathMatchers.GlobCompiler) (cwd target : Path) : List (Option MatcherDoc) → Except Exn (List (JFTP.Matcher m))
  | [] => .ok []
  | none :: _ => .error .nullPointer
  | some d :: rest => do
    let x ← mapMatcher glob cwd target d
    let xs ← mapMatchers glob cwd target rest
    return x :: xs
end

/-- `mapMatcher` on a possibly null reference. -/
def mapMatcherOpt (glob : PathMatchers.GlobCompiler) (cwd target : Path) : Option MatcherDoc → Except Exn (JFTP.Matcher m)
  | none => .error .nullPointer
  | some d => mapMatcher glob cwd target d

/-- cli/options/mapper/DefaultExternalOptionsMapper.java:27-32 -/
def mapEmojis (cs : Casing) (fs : Fs m) (o : Options m) (x : ExternalOptions) : Except Exn (Options m) :=
  if x.emojis = some true then o.withDefaultEmojis cs fs else .ok o

/-- cli/options/mapper/DefaultExternalOptionsMapper.java:34-39 -/
def mapCompactDirectories (o : Options m) (x : ExternalOptions) : Options m :=
  if x.compactDirectories = some true then o.withCompactDirectories true else o

/-- cli/options/mapper/DefaultExternalOptionsMapper.java:41-47 -/
def mapMaxDepth (o : Options m) (x : ExternalOptions) : Options m :=
  match x.maxDepth with
  | some d => o.withMaxDepth d
  | none => o

/-- cli/options/mapper/DefaultExternalOptionsMapper.java:57-59 -/
def mapLimitItems (glob : PathMatchers.GlobCompiler) (cwd target : Path) (b : ChildLimitBuilder m) :
    List (Option DynamicLimitItem) → Except Exn (ChildLimitBuilder m)
  | [] => .ok b
  | none :: _ => .error .nullPointer
  | some i :: rest => do
    let mt ← mapMatcherOpt glob cwd target i.matcher
    match i.limit with
    | none => .error .nullPointer
    | some l => mapLimitItems glob cwd target (b.addMatching mt l) rest

/-- cli/options/mapper/DefaultExternalOptionsMapper.java:49-64 (the builder is not used after `build`, so its default stays as it is) -/
def mapChildLimit (glob : PathMatchers.GlobCompiler) (cwd target : Path) (o : Options m) (x : ExternalOptions) : Except Exn (Options m) :=
  match x.childLimit with
  | none => .ok o
  | some (.static none) => .error .nullPointer
  | some (.static (some l)) => .ok (o.withChildLimit l)
  | some (.dynamic none) => .error .nullPointer
  | some (.dynamic (some ls)) => do
    let b ← mapLimitItems glob cwd target ChildLimits.builder ls
    return o.withChildLimitFn (fun p => b.build.applyAsInt b p)

/-- cli/options/mapper/DefaultExternalOptionsMapper.java:66-77 -/
def mapFilter (glob : PathMatchers.GlobCompiler) (cwd target : Path) (o : Options m) (x : ExternalOptions) : Except Exn (Options m) :=
  match x.filter with
  | none => .ok o
  | some f => do
    let o ← match f.dir with
      | none => pure o
      | some d => do pure (o.filterDirectories (← mapMatcher glob cwd target d))
    match f.file with
      | none => pure o
      | some d => do pure (o.filterFiles (← mapMatcher glob cwd target d))

/-- cli/options/mapper/DefaultExternalOptionsMapper.java:84-86 (a null extension is not rejected by the builder) -/
def mapExtensionItems (glob : PathMatchers.GlobCompiler) (cwd target : Path) (b : LineExtensionBuilder m) :
    List (Option LineExtensionDoc) → Except Exn (LineExtensionBuilder m)
  | [] => .ok b
  | none :: _ => .error .nullPointer
  | some e :: rest => do
    let mt ← mapMatcherOpt glob cwd target e.matcher
    mapExtensionItems glob cwd target (b.addMatchingN mt e.extension) rest

/-- cli/options/mapper/DefaultExternalOptionsMapper.java:79-88 -/
def mapLineExtensions (glob : PathMatchers.GlobCompiler) (cwd target : Path) (o : Options m) (x : ExternalOptions) : Except Exn (Options m) :=
  match x.lineExtensions with
  | none => .ok o
  | some es => do
    let b ← mapExtensionItems glob cwd target {} es
    return o.withLineExtension (some (b.build.apply b))

/-- cli/options/mapper/DefaultExternalOptionsMapper.java:16-25 -/
def mapToOptions (cs : Casing) (glob : PathMatchers.GlobCompiler) (fs : Fs m) (cwd target : Path) (x : ExternalOptions) :
    Except Exn (Options m) := do
  let o ← mapEmojis cs fs Options.createDefault x
  let o := mapMaxDepth (mapCompactDirectories o x) x
  let o ← mapChildLimit glob cwd target o x
  let o ← mapFilter glob cwd target o x
  mapLineExtensions glob cwd target o x

end Mapper

/-! ### Console (cli/io/DefaultConsoleOutput.java) -/

/-- Exceptions of the CLI. -/
inductive CliExn where
  /-- cli/exception/ExternalOptionsException.java -/
  | externalOptions (path : Path) (message : JStr)
  /-- `ConstraintViolationException`, cli/options/reader/SimpleExternalOptionsReader.java:76 -/
  | constraintViolation (violations : List JStr)
  /-- `IllegalArgumentException` of `validator.validate(null)` -/
  | validateNull
  /-- `IllegalFormatException` of `PrintStream.printf` -/
  | illegalFormat
  /-- an exception thrown by the library -/
  | lib (e : Exn)
deriving DecidableEq, Repr

/-- What the process has written so far, and the `debug` field (cli/io/DefaultConsoleOutput.java:13-15). -/
structure Console where
  debug : Bool := false
  out : JStr := []
  err : JStr := []
deriving DecidableEq, Repr

/-- CLI actions: output is kept when an exception is thrown. -/
abbrev CliM := ExceptT CliExn (StateM Console)

/-- A parsed piece of a format string: a literal character, a text computed by a specifier that needs no argument, or an argument. -/
inductive FmtPiece where
  | lit (c : JChar)
  | text (s : JStr)
  | arg
deriving DecidableEq, Repr

/-- The JDK's treatment of a format specifier other than `%%`, `%n` and `%s`: given what follows the `%`, either the specifier is rejected while
the format string is parsed (`none`), or it is a piece and takes so many characters. JDK parameter (`%5%`, for example, is a padded percent sign and
`%d` needs an argument). -/
abbrev SpecParser := JStr → Option (FmtPiece × Nat)

/-- `Formatter.parse` (JDK): the whole format string is parsed before anything is written. -/
def parseFmt (F : SpecParser) : JStr → Except CliExn (List FmtPiece)
  | [] => .ok []
  | c :: rest =>
    if c = PERCENT then
      match rest with
      | [] => .error .illegalFormat
      | d :: rest' =>
        if d = PERCENT then do return .lit PERCENT :: (← parseFmt F rest')
        else if d = 110 then do return .lit NL :: (← parseFmt F rest')
        else if d = 115 then do return .arg :: (← parseFmt F rest')
        else match F (d :: rest') with
          | none => .error .illegalFormat
          | some (p, k) => do return p :: (← parseFmt F ((d :: rest').drop k))
    else do return .lit c :: (← parseFmt F rest)
termination_by s => s.length
decreasing_by all_goals (simp only [List.length_cons, List.length_drop]; omega)

/-- `Formatter.format` after parsing (JDK): the text written, and whether it ended with `MissingFormatArgumentException`. Arguments are only passed
together with constant format strings that use `%s`. -/
def runFmt : List FmtPiece → List JStr → JStr × Bool
  | [], _ => ([], false)
  | .lit c :: ps, args => let (s, b) := runFmt ps args; (c :: s, b)
  | .text t :: ps, args => let (s, b) := runFmt ps args; (t ++ s, b)
  | .arg :: _, [] => ([], true)
  | .arg :: ps, a :: args => let (s, b) := runFmt ps args; (a ++ s, b)

/-- Append to one of the streams. -/
def writeTo (toErr : Bool) (s : JStr) : CliM Unit :=
  modify (fun c => if toErr then { c with err := c.err ++ s } else { c with out := c.out ++ s })

/-- cli/io/DefaultConsoleOutput.java:72-74 -/
def printfln (F : SpecParser) (toErr : Bool) (msg : JStr) (args : List JStr) : CliM Unit :=
  match parseFmt F (msg ++ [NL]) with
  | .error e => throw e
  | .ok ps => do
    let (s, missing) := runFmt ps args
    writeTo toErr s
    if missing then throw CliExn.illegalFormat

/-- cli/io/DefaultConsoleOutput.java:44-47 -/
def print (F : SpecParser) (msg : JStr) (args : List JStr := []) : CliM Unit := printfln F false msg args

/-- cli/io/DefaultConsoleOutput.java:49-55 -/
def printDebug (F : SpecParser) (msg : JStr) (args : List JStr := []) : CliM Unit := do
  if (← get).debug then printfln F false (j!"[DEBUG] " ++ msg) args

/-- cli/io/DefaultConsoleOutput.java:57-60 -/
def printError (F : SpecParser) (msg : JStr) (args : List JStr := []) : CliM Unit := printfln F true (j!"[ERROR] " ++ msg) args

/-! ### Environment and option loading -/

/-- Everything the CLI reads from outside. -/
structure Env where
  cwd : Path
  home : Path
  fs : PureFs
  /-- `File.exists()`, `File.isFile()`, `File.canRead()` -/
  fileExists : Path → Bool
  isFile : Path → Bool
  canRead : Path → Bool
  /-- `YAMLMapper.readValue(path, ExternalOptions.class)`: `none` is a `RuntimeException`, `some none` a null document -/
  yaml : Path → Option (Option ExternalOptions)
  /-- the `violation.getPropertyPath() + ": " + violation.getMessage()` texts; used only for invalid documents -/
  violations : ExternalOptions → List JStr
  /-- the object as `RecordUtils` sees it (reflection) -/
  reflect : ExternalOptions → RVal
  casing : Casing
  glob : PathMatchers.GlobCompiler
  /-- `java.util.Formatter` -/
  fmt : SpecParser
  /-- `Exception.getMessage()` -/
  message : CliExn → JStr
  /-- what picocli writes to the error stream for an exception that escapes the handler -/
  stackTrace : CliExn → JStr

/-- cli/options/reader/SimpleExternalOptionsReader.java:53-65. The catch also covers the debug print of line 59 (its format is the constant
`%s`, so it cannot throw). -/
def load (env : Env) (optionsPath : Path) : CliM (Option ExternalOptions) := do
  match env.yaml optionsPath with
  | none => throw (.externalOptions optionsPath j!"IO error or malformed options file")
  | some x => do
    printDebug env.fmt j!"%s" [RecordUtils.toTextBlock (x.map env.reflect)]
    return x

/-- cli/options/reader/SimpleExternalOptionsReader.java:67-79 -/
def validate (env : Env) : Option ExternalOptions → CliM ExternalOptions
  | none => throw .validateNull
  | some x => if x.valid then pure x else throw (.constraintViolation (env.violations x))

/-- cli/options/reader/SimpleExternalOptionsReader.java:27-51 for a non-null path; `none` is the null result. -/
def readSimple (env : Env) (optionsPath : Path) : CliM (Option ExternalOptions) := do
  let optionsPath := (optionsPath.toAbsolutePath env.cwd).normalize
  if !env.fileExists optionsPath then return none
  if !env.isFile optionsPath then throw (.externalOptions optionsPath j!"Options file is actually not a file")
  if !env.canRead optionsPath then throw (.externalOptions optionsPath j!"Options file exist but is not readable")
  printDebug env.fmt j!"Options file found: %s" [pathString optionsPath]
  let x ← load env optionsPath
  let x ← validate env x
  printDebug env.fmt j!"Options file is valid"
  return some x

/-- cli/options/reader/ExternalOptionsReader.java:18 -/
def optionsFileName : JStr := j!".prettyprint"

/-- cli/options/reader/ExternalOptionsReader.java:21-25 -/
def fallbackPaths (env : Env) (target : Path) : List Path :=
  [ target.resolve ⟨false, [optionsFileName]⟩,
    (⟨false, [Path.dotName]⟩ : Path).resolve ⟨false, [optionsFileName]⟩,
    env.home.resolve ⟨false, [optionsFileName]⟩ ]

/-- cli/options/reader/FallbackExternalOptionsReader.java:41-53 -/
def readFallback (env : Env) : List Path → CliM (Option ExternalOptions)
  | [] => do
    printDebug env.fmt j!"No options file provided/found"
    return none
  | p :: rest => do
    match ← readSimple env p with
    | some x => return some x
    | none => do
      printDebug env.fmt (j!"Options file does not exist: " ++ pathString p)
      readFallback env rest

/-- cli/options/reader/FallbackExternalOptionsReader.java:26-39 -/
def readExternalOptions (env : Env) (target : Path) (optionsPath : Option Path) : CliM (Option ExternalOptions) := do
  match optionsPath with
  | some p => match ← readSimple env p with
    | some x => return some x
    | none => throw (.externalOptions p j!"Options file does not exist")
  | none => do
    printDebug env.fmt j!"No options file provided, looking for fallback options files..."
    readFallback env (fallbackPaths env target)

/-- A library computation inside the CLI. -/
def ofLib {α : Type} : Except Exn α → CliM α
  | .ok a => pure a
  | .error e => throw (.lib e)

/-- cli/options/DefaultOptionsLoader.java:24-30 -/
def loadOptions (env : Env) (target : Path) (optionsPath : Option Path) : CliM (Options (Except Exn)) := do
  match ← readExternalOptions env target optionsPath with
  | none => return Options.createDefault
  | some x => ofLib (mapToOptions env.casing env.glob env.fs.lift env.cwd target x)

/-- The parsed command line (cli/PrettyPrintCommand.java:38-47). -/
structure Args where
  target : Option Path := none
  optionsFile : Option Path := none
  debug : Bool := false

/-- cli/PrettyPrintCommand.java:72-83 -/
def detectTargetPath (env : Env) (args : Args) : CliM Path := do
  let path ← match args.target with
    | some p => pure p
    | none => do
      printDebug env.fmt j!"No target provided: use current directory"
      pure (⟨false, [Path.dotName]⟩ : Path)
  let path := (path.toAbsolutePath env.cwd).normalize
  printDebug env.fmt j!"Target path: %s" [pathString path]
  return path

/-- cli/PrettyPrintCommand.java:52-70 -/
def call (env : Env) (args : Args) : CliM Nat := do
  modify (fun c => { c with debug := args.debug })
  let target ← detectTargetPath env args
  if !env.fileExists target then
    printError env.fmt j!"Path not found: %s" [pathString target]
    return 1
  else
    let optionsPath := args.optionsFile.map (fun p => (p.toAbsolutePath env.cwd).normalize)
    let options ← loadOptions env target optionsPath
    let result ← ofLib (prettyPrint env.fs.lift env.cwd options target)
    print env.fmt result
    return 0

/-- cli/exception/DefaultExecutionExceptionHandler.java:22-48 -/
def handleExecutionException (env : Env) (e : CliExn) : CliM Nat := do
  match e with
  | .externalOptions p msg => printError env.fmt (msg ++ j!": " ++ pathString p)
  | .constraintViolation vs =>
    printError env.fmt (j!"Invalid options file:" ++ [NL] ++ joinLines (vs.map (fun v => j!"  -> " ++ v)))
  | e => printError env.fmt (j!"Error while pretty printing: " ++ env.message e)
  return 1

/-- cli/FileTreePrettyPrinterCommandLine.java:26-28: `CommandLine.execute` (picocli) after successful argument parsing: runs the command, passes
an exception to the handler, and if the handler throws itself writes a stack trace to the error stream and returns 1. -/
def execute (env : Env) (args : Args) : StateM Console Nat := do
  match ← (call env args).run with
  | .ok code => pure code
  | .error e =>
    match ← (handleExecutionException env e).run with
    | .ok code => pure code
    | .error e' => do
      modify (fun c => { c with err := c.err ++ env.stackTrace e' })
      pure 1

/-- The process: exit code and final console. -/
def run (env : Env) (args : Args) : Nat × Console :=
  let r := (execute env args).run {}
  (r.1, r.2)

end Cli
end JFTP
