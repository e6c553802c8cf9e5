import Verif.Model.JStr

/-
Unix `java.nio.file.Path` values, as used by the repository (JDK contract of `sun.nio.fs.UnixPath`).
Simplification: Unix only (one root `/`); no NUL check.
-/

namespace JFTP

/-- A path: absolute or not, and its name elements. The root is `⟨true, []⟩`; the empty path `""` is `⟨false, [[]]⟩`
(one empty name element, as in the JDK). -/
structure Path where
  abs : Bool
  names : List JStr
deriving DecidableEq, Repr

namespace Path

/-- `.` -/
def dotName : JStr := [DOT]
/-- `..` -/
def dotDotName : JStr := [DOT, DOT]

/-- The root directory `/`. -/
def root : Path := ⟨true, []⟩
/-- The empty path `""`. -/
def empty : Path := ⟨false, [[]]⟩

/-- `Path.getFileName()`: the last name element, `null` (`none`) for a root. -/
def getFileName (p : Path) : Option JStr := p.names.getLast?

/-- `Path.getParent()`: `null` for a root and for a relative path with a single name element. -/
def getParent (p : Path) : Option Path :=
  match p.abs, p.names with
  | _, [] => none
  | true, ns => some ⟨true, ns.dropLast⟩
  | false, [_] => none
  | false, ns => some ⟨false, ns.dropLast⟩

/-- `dir.resolve(name)` for one name element, the form of the entries of a `DirectoryStream` over `dir`.
For the empty path the result is the name itself. -/
def child (p : Path) (n : JStr) : Path :=
  if p = empty then ⟨false, [n]⟩ else ⟨p.abs, p.names ++ [n]⟩

/-- `base.resolve(other)` (JDK). -/
def resolve (base other : Path) : Path :=
  if other.abs then other
  else if other = empty then base
  else if base = empty then other
  else ⟨base.abs, base.names ++ other.names⟩

/-- One step of `Path.normalize()` over the already normalized prefix `acc` (kept in reverse order). -/
def normStep (abs : Bool) (acc : List JStr) (n : JStr) : List JStr :=
  if n = dotName then acc
  else if n = dotDotName then
    match acc with
    | [] => if abs then [] else [n]
    | a :: rest => if a = dotDotName then n :: a :: rest else rest
  else n :: acc

/-- Normalized name elements. -/
def normNames (abs : Bool) (ns : List JStr) : List JStr :=
  (ns.foldl (normStep abs) []).reverse

/-- `Path.normalize()` (JDK): removes `.` elements and `name/..` pairs; an absolute path loses leading `..`; a relative
path with nothing left becomes the empty path. -/
def normalize (p : Path) : Path :=
  let ns := normNames p.abs p.names
  if p.abs then ⟨true, ns⟩
  else if ns = [] then empty else ⟨false, ns⟩

/-- `Path.toAbsolutePath()` (JDK) with working directory `cwd`. -/
def toAbsolutePath (p cwd : Path) : Path :=
  if p.abs then p else resolve cwd p

/-- Drop the common prefix of two lists. -/
def dropCommon : List JStr → List JStr → List JStr × List JStr
  | a :: as, b :: bs => if a = b then dropCommon as bs else (a :: as, b :: bs)
  | as, bs => (as, bs)

/-- `base.relativize(child)` (JDK 11+) for two absolute paths; both are normalized first when one contains `.`/`..`,
which for name lists free of them changes nothing, so the model always normalizes. Equal paths give the empty path. -/
def relativize (base target : Path) : Path :=
  let (b, t) := dropCommon (normNames base.abs base.names) (normNames target.abs target.names)
  let ns := b.map (fun _ => dotDotName) ++ t
  if ns = [] then empty else ⟨false, ns⟩

/-- `Path.of(String)` (JDK, Unix): absolute iff it starts with `/`; empty elements are dropped; `""` is the empty path. -/
def ofString (s : JStr) : Path :=
  let ns := (splitRaw SLASH s).filter (fun n => !n.isEmpty)
  match s with
  | c :: _ => if c = SLASH then ⟨true, ns⟩ else ⟨false, ns⟩
  | [] => empty

/-- `Path.of(".", path)` (JDK): the non-empty strings joined with `/`; FileTreePrettyPrinter.java:39. -/
def ofDotAnd (s : JStr) : Path :=
  if s = [] then ofString [DOT] else ofString ([DOT, SLASH] ++ s)

end Path

/-- Name elements with `/` between them. -/
def joinSlash : List JStr → JStr
  | [] => []
  | [n] => n
  | n :: ns => n ++ SLASH :: joinSlash ns

/-- `Path.toString()` (JDK, Unix). -/
def pathString (p : Path) : JStr := if p.abs then SLASH :: joinSlash p.names else joinSlash p.names

end JFTP
