import Verif.Model.Fs

/-
options/PathMatchers.java. A `PathMatcher` is a function from paths to an effectful Boolean (it may throw or read the file system).
`Objects.requireNonNull` guards are not here: see `Nulls`.
-/

namespace JFTP

/-- `java.nio.file.PathMatcher`. -/
abbrev Matcher (m : Type → Type) := Path → m Bool

namespace PathMatchers

variable {m : Type → Type} [Monad m] [MonadExceptOf Exn m]

/-- options/PathMatchers.java:62-65 -/
def not (matcher : Matcher m) : Matcher m := fun path => do
  return !(← matcher path)

/-- options/PathMatchers.java:229-235 -/
def all (path : Path) : List (Matcher m) → m Bool
  | [] => pure true
  | mt :: rest => do
    if !(← mt path) then return false
    all path rest

/-- options/PathMatchers.java:237-243 -/
def any (path : Path) : List (Matcher m) → m Bool
  | [] => pure false
  | mt :: rest => do
    if ← mt path then return true
    any path rest

/-- options/PathMatchers.java:245-251 -/
def none (path : Path) : List (Matcher m) → m Bool
  | [] => pure true
  | mt :: rest => do
    if ← mt path then return false
    none path rest

/-- options/PathMatchers.java:206-210 -/
inductive Mode where
  | ALL | ANY | NONE

/-- options/PathMatchers.java:212-227: rejects an empty collection when the matcher is created. -/
def combineMatchers (matchers : List (Matcher m)) (mode : Mode) : Except Exn (Matcher m) :=
  if matchers.isEmpty then .error .illegalArgument
  else .ok (match mode with
    | .ALL => fun path => all path matchers
    | .ANY => fun path => any path matchers
    | .NONE => fun path => none path matchers)

/-- options/PathMatchers.java:106-108 -/
def allOf (ms : List (Matcher m)) : Except Exn (Matcher m) := combineMatchers ms .ALL
/-- options/PathMatchers.java:191-193 -/
def anyOf (ms : List (Matcher m)) : Except Exn (Matcher m) := combineMatchers ms .ANY
/-- options/PathMatchers.java:148-150 -/
def noneOf (ms : List (Matcher m)) : Except Exn (Matcher m) := combineMatchers ms .NONE

/-- options/PathMatchers.java:272-277 -/
def ifMatchesThenElse (i t e : Matcher m) : Matcher m := fun path => do
  if ← i path then t path else e path

/-! Globs. `FileSystems.getDefault().getPathMatcher("glob:" + g)` is JDK code: it is the parameter `glob`, which yields a
matcher or throws (`PatternSyntaxException`, an `IllegalArgumentException`). -/

/-- `FileSystem.getPathMatcher("glob:" + g)`: JDK parameter. -/
abbrev GlobCompiler := JStr → Except Exn (Path → Bool)

/-- options/PathMatchers.java:364-367. Note the order: normalize first, then make absolute. -/
def hasAbsolutePathMatching (cwd : Path) (matcher : Matcher m) : Matcher m := fun path =>
  matcher (path.normalize.toAbsolutePath cwd)

/-- options/PathMatchers.java:381-393. The root comparison of lines 387-389 is always equal on Unix (one root). -/
def hasRelativePathMatching (cwd ref : Path) (matcher : Matcher m) : Matcher m :=
  let cleanedRef := ref.normalize.toAbsolutePath cwd
  fun path =>
    let cleanedPath := path.normalize.toAbsolutePath cwd
    matcher (cleanedRef.relativize cleanedPath)

/-- options/PathMatchers.java:300-311 -/
def hasAbsolutePathMatchingGlob (glob : GlobCompiler) (cwd : Path) (g : JStr) : Except Exn (Matcher m) :=
  if g = j!"*" then .ok (fun _ => pure true)
  else do
    let mt ← glob g
    return hasAbsolutePathMatching cwd (fun p => pure (mt p))

/-- options/PathMatchers.java:336-348 -/
def hasRelativePathMatchingGlob (glob : GlobCompiler) (cwd ref : Path) (g : JStr) : Except Exn (Matcher m) :=
  if g = j!"*" then .ok (fun _ => pure true)
  else do
    let mt ← glob g
    return hasRelativePathMatching cwd ref (fun p => pure (mt p))

/-- options/PathMatchers.java:417-420 -/
def hasName (name : JStr) : Matcher m := fun path =>
  pure (match path.getFileName with | some n => n == name | .none => false)

/-- options/PathMatchers.java:438-441 -/
def hasNameIgnoreCase (cs : Casing) (name : JStr) : Matcher m := fun path =>
  pure (match path.getFileName with | some n => equalsIgnoreCase cs.fold n name | .none => false)

/-- options/PathMatchers.java:462-465; `pattern` stands for `Pattern.matcher(·).matches()` (JDK). -/
def hasNameMatching (pattern : JStr → Bool) : Matcher m := fun path =>
  pure (match path.getFileName with | some n => pattern n | .none => false)

/-- options/PathMatchers.java:480-491. The glob is applied to `path.getFileName()`, a one-element relative path. -/
def hasNameMatchingGlob (glob : GlobCompiler) (g : JStr) : Except Exn (Matcher m) :=
  if g = j!"*" then .ok (fun _ => pure true)
  else do
    let mt ← glob g
    return fun path => pure (match path.getFileName with | some n => mt ⟨false, [n]⟩ | .none => false)

/-- options/PathMatchers.java:502-505 -/
def hasNameStartingWith (pre : JStr) : Matcher m := fun path =>
  pure (match path.getFileName with | some n => startsWith n pre | .none => false)

/-- options/PathMatchers.java:516-519 -/
def hasNameEndingWith (suf : JStr) : Matcher m := fun path =>
  pure (match path.getFileName with | some n => endsWith n suf | .none => false)

/-- options/PathMatchers.java:538-541 -/
def hasExtension (ext : JStr) : Matcher m := hasNameEndingWith (DOT :: ext)

/-- options/PathMatchers.java:554-556 -/
def isDirectory (fs : Fs m) : Matcher m := fs.isDir

/-- options/PathMatchers.java:572-574 -/
def isFile (fs : Fs m) : Matcher m := not (isDirectory fs)

/-- options/PathMatchers.java:585-587 -/
def isRegularFile (fs : Fs m) : Matcher m := fs.isRegular

/-- options/PathMatchers.java:596-598 -/
def isSymbolicLink (fs : Fs m) : Matcher m := fs.isLink

/-- options/PathMatchers.java:610-614 -/
def hasDirectParentMatching (parentMatcher : Matcher m) : Matcher m := fun path =>
  match path.getParent with
  | some p => parentMatcher p
  | .none => pure false

theorem _root_.JFTP.Path.getParent_length {p q : Path} (h : p.getParent = some q) :
    q.names.length < p.names.length := by
  unfold Path.getParent at h
  split at h <;> simp_all <;> subst h <;> simp <;>
    (cases hn : p.names <;> simp_all)

/-- options/PathMatchers.java:628-638: the loop, started at `path.getParent()`. -/
def ancestorLoop (ancestorMatcher : Matcher m) (parent : Option Path) : m Bool :=
  match parent with
  | .none => pure false
  | some p => do
    if ← ancestorMatcher p then return true
    ancestorLoop ancestorMatcher p.getParent
termination_by match parent with | .none => 0 | some p => p.names.length + 1
decreasing_by
  cases h : p.getParent with
  | none => simp
  | some q => have := Path.getParent_length h; simp; omega

/-- options/PathMatchers.java:625-638 -/
def hasAnyAncestorMatching (ancestorMatcher : Matcher m) : Matcher m := fun path =>
  ancestorLoop ancestorMatcher path.getParent

/-- Test the entries delivered by an opened directory one after the other until one of them answers `true`; reading the next
entry fails after the last one if `iterFails` (`Files.walk` reports that as `UncheckedIOException`). -/
def walkEntries (dir : Path) (iterFails : Bool) (visit : Path → m Bool) : List Path → m Bool
  | [] => if iterFails then throw (Exn.cannotWalk dir) else pure false
  | c :: rest => do
    if ← visit c then return true
    walkEntries dir iterFails visit rest

/-- The remaining part of the stream `Files.walk(path, depth)` seen by `filter(include).anyMatch(test)`, for one entry `p` with `depth`
levels still allowed below it. JDK `FileTreeWalker`: the attributes are read; a directory with levels left is opened before it is delivered (an
error there is raised before `p` is tested), then `p` is delivered, then its entries are walked. Links are not followed. -/
def walkTest (fs : Fs m) (incl : Path → Bool) (test : Matcher m) : Nat → Path → m Bool
  | 0, p => do
    match ← fs.lstat p with
    | Option.none => throw (Exn.cannotWalk p)
    | some _ => if incl p then test p else pure false
  | n + 1, p => do
    match ← fs.lstat p with
    | Option.none => throw (Exn.cannotWalk p)
    | some true =>
      match ← fs.listDir p with
      | .openFailed => throw (Exn.cannotWalk p)
      | .opened cs bad =>
        if ← (if incl p then test p else pure false) then return true
        walkEntries p bad (walkTest fs incl test n) cs
    | some false => if incl p then test p else pure false

/-- options/PathMatchers.java:688-700, for `depth ≥ 1` levels. `Files.walk` reads the attributes of the start path again; `skip(1)` drops it. -/
def testDescendants (fs : Fs m) (path : Path) (depth : Nat) (test : Matcher m) (incl : Path → Bool) : m Bool := do
  if !(← isDirectory fs path) then return false
  match ← fs.lstat path with
  | Option.none => throw (Exn.cannotWalk path)
  | some false => return false
  | some true =>
    match ← fs.listDir path with
    | .openFailed => throw (Exn.cannotWalk path)
    | .opened cs bad => walkEntries path bad (walkTest fs incl test (depth - 1)) cs

/-- `Integer.MAX_VALUE` -/
def intMax : Nat := 2147483647

/-- options/PathMatchers.java:650-653 -/
def hasAnyDirectChildMatching (fs : Fs m) (childMatcher : Matcher m) : Matcher m := fun path =>
  testDescendants fs path 1 childMatcher (fun _ => true)

/-- options/PathMatchers.java:667-670 -/
def hasAnyDescendantMatching (fs : Fs m) (descendantMatcher : Matcher m) : Matcher m := fun path =>
  testDescendants fs path intMax descendantMatcher (fun _ => true)

/-- options/PathMatchers.java:683-686 -/
def hasSiblingMatching (fs : Fs m) (siblingMatcher : Matcher m) : Matcher m := fun path =>
  match path.getParent with
  | some p => testDescendants fs p 1 siblingMatcher (fun s => decide (s ≠ path))
  | .none => pure false

end PathMatchers
end JFTP
