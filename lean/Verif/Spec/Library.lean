import Verif.Spec.Program
import Verif.Spec.Reach

/-
Programs that use the library, as data: conditions written with the factories of `PathMatchers`, and sequences of calls that choose options. What the conditions say, and which settings of the
one-page program the calls ask for.
-/

namespace JFTP
namespace Spec
namespace OnePage

/-- Where a program runs: the file system, the working directory, the platform's upper and lower case, and its globs (`none` if a glob cannot be compiled). -/
structure Place where
  fs : PureFs
  cwd : Path
  casing : Casing
  glob : JStr → Option (Path → Bool)

/-- A condition on paths, named after the method of `PathMatchers` that makes it. -/
inductive Cond where
  /-- an own matcher -/
  | test (f : Path → Bool)
  | not (c : Cond)
  | allOf (cs : List Cond)
  | anyOf (cs : List Cond)
  | noneOf (cs : List Cond)
  | ifThenElse (i t e : Cond)
  | absolute (c : Cond)
  | relative (ref : Path) (c : Cond)
  | absoluteGlob (g : JStr)
  | relativeGlob (ref : Path) (g : JStr)
  | nameGlob (g : JStr)
  | name (n : JStr)
  | nameIgnoreCase (n : JStr)
  | namePattern (r : JStr → Bool)
  | nameStart (n : JStr)
  | nameEnd (n : JStr)
  | extension (x : JStr)
  | isDirectory
  | isFile
  | isRegularFile
  | isSymbolicLink
  | parent (c : Cond)
  | ancestor (c : Cond)
  | child (c : Cond)
  | descendant (c : Cond)
  | sibling (c : Cond)

/-- The path without `.` and `..`, behind the working directory if it is relative. (For an absolute path, its normalized form; for a relative path that climbs above the working directory see C45.) -/
def placed (cwd p : Path) : Path := p.normalize.toAbsolutePath cwd

/-- The glob accepts the path; `*` accepts everything. -/
def Place.accepts (w : Place) (g : JStr) (p : Path) : Prop := g = j!"*" ∨ ∃ f, w.glob g = some f ∧ f p = true

/-- `q` is the way from `ref` to `p`, both placed. -/
def Place.IsWay (w : Place) (ref p q : Path) : Prop :=
  ∃ v, Way (placed w.cwd ref).normalize.names (placed w.cwd p).normalize.names v ∧ q = relPath v

/-- The last name of the path satisfies `P`. -/
def Named (P : JStr → Prop) (p : Path) : Prop := ∃ dir n, p.names = dir ++ [n] ∧ P n

mutual
/-- What a condition says about a path. -/
def Cond.holds (w : Place) : Cond → Path → Prop
  | .test f, p => f p = true
  | .not c, p => ¬ c.holds w p
  | .allOf cs, p => Cond.every w cs p
  | .anyOf cs, p => Cond.some w cs p
  | .noneOf cs, p => ¬ Cond.some w cs p
  | .ifThenElse i t e, p => (i.holds w p → t.holds w p) ∧ (¬ i.holds w p → e.holds w p)
  | .absolute c, p => c.holds w (placed w.cwd p)
  | .relative ref c, p => ∃ q, w.IsWay ref p q ∧ c.holds w q
  | .absoluteGlob g, p => w.accepts g (placed w.cwd p)
  | .relativeGlob ref g, p => ∃ q, w.IsWay ref p q ∧ w.accepts g q
  | .nameGlob g, p => g = j!"*" ∨ Named (fun n => w.accepts g ⟨false, [n]⟩) p
  | .name n, p => Named (· = n) p
  | .nameIgnoreCase n, p => Named (fun x => x.map w.casing.fold = n.map w.casing.fold) p
  | .namePattern r, p => Named (fun x => r x = true) p
  | .nameStart n, p => Named (fun x => ∃ t, x = n ++ t) p
  | .nameEnd n, p => Named (fun x => ∃ t, x = t ++ n) p
  | .extension n, p => Named (fun x => ∃ t, x = t ++ j!"." ++ n) p
  | .isDirectory, p => w.fs.isDir p = true
  | .isFile, p => w.fs.isDir p = false
  | .isRegularFile, p => w.fs.isRegular p = true
  | .isSymbolicLink, p => w.fs.isLink p = true
  | .parent c, p => ∃ q, Ancestor p q ∧ p.names.length = q.names.length + 1 ∧ c.holds w q
  | .ancestor c, p => ∃ q, Ancestor p q ∧ c.holds w q
  | .child c, p => ∃ q, Reach w.fs 1 p q ∧ c.holds w q
  | .descendant c, p => ∃ k q, k ≤ 2147483647 ∧ Reach w.fs k p q ∧ c.holds w q
  | .sibling c, p => ∃ d q, Ancestor p d ∧ p.names.length = d.names.length + 1 ∧ Reach w.fs 1 d q ∧ q ≠ p ∧ c.holds w q
/-- All of the conditions hold. -/
def Cond.every (w : Place) : List Cond → Path → Prop
  | [], _ => True
  | c :: cs, p => c.holds w p ∧ Cond.every w cs p
/-- One of the conditions holds. -/
def Cond.some (w : Place) : List Cond → Path → Prop
  | [], _ => False
  | c :: cs, p => c.holds w p ∨ Cond.some w cs p
end

mutual
/-- The condition can be made: no empty collection of conditions and no glob that cannot be compiled. -/
def Cond.Good (w : Place) : Cond → Prop
  | .not c => c.Good w
  | .allOf cs => cs ≠ [] ∧ Cond.AllGood w cs
  | .anyOf cs => cs ≠ [] ∧ Cond.AllGood w cs
  | .noneOf cs => cs ≠ [] ∧ Cond.AllGood w cs
  | .ifThenElse i t e => i.Good w ∧ t.Good w ∧ e.Good w
  | .absolute c => c.Good w
  | .relative _ c => c.Good w
  | .absoluteGlob g => g = j!"*" ∨ (w.glob g).isSome
  | .relativeGlob _ g => g = j!"*" ∨ (w.glob g).isSome
  | .nameGlob g => g = j!"*" ∨ (w.glob g).isSome
  | .parent c => c.Good w
  | .ancestor c => c.Good w
  | .child c => c.Good w
  | .descendant c => c.Good w
  | .sibling c => c.Good w
  | _ => True
def Cond.AllGood (w : Place) : List Cond → Prop
  | [] => True
  | c :: cs => c.Good w ∧ Cond.AllGood w cs
end

/-- The glob compiler of the platform. -/
def Place.compiler (w : Place) : PathMatchers.GlobCompiler := fun g =>
  match w.glob g with
  | .some f => .ok f
  | .none => .error .illegalArgument

mutual
/-- The calls that make the matcher of a condition: `PathMatchers.not(...)` and so on. -/
def Cond.make (w : Place) : Cond → Except Exn (Matcher (Except Exn))
  | .test f => .ok fun p => .ok (f p)
  | .not c => do return PathMatchers.not (← c.make w)
  | .allOf cs => do PathMatchers.allOf (← Cond.makeAll w cs)
  | .anyOf cs => do PathMatchers.anyOf (← Cond.makeAll w cs)
  | .noneOf cs => do PathMatchers.noneOf (← Cond.makeAll w cs)
  | .ifThenElse i t e => do return PathMatchers.ifMatchesThenElse (← i.make w) (← t.make w) (← e.make w)
  | .absolute c => do return PathMatchers.hasAbsolutePathMatching w.cwd (← c.make w)
  | .relative ref c => do return PathMatchers.hasRelativePathMatching w.cwd ref (← c.make w)
  | .absoluteGlob g => PathMatchers.hasAbsolutePathMatchingGlob w.compiler w.cwd g
  | .relativeGlob ref g => PathMatchers.hasRelativePathMatchingGlob w.compiler w.cwd ref g
  | .nameGlob g => PathMatchers.hasNameMatchingGlob w.compiler g
  | .name n => .ok (PathMatchers.hasName n)
  | .nameIgnoreCase n => .ok (PathMatchers.hasNameIgnoreCase w.casing n)
  | .namePattern r => .ok (PathMatchers.hasNameMatching r)
  | .nameStart n => .ok (PathMatchers.hasNameStartingWith n)
  | .nameEnd n => .ok (PathMatchers.hasNameEndingWith n)
  | .extension n => .ok (PathMatchers.hasExtension n)
  | .isDirectory => .ok (PathMatchers.isDirectory w.fs.lift)
  | .isFile => .ok (PathMatchers.isFile w.fs.lift)
  | .isRegularFile => .ok (PathMatchers.isRegularFile w.fs.lift)
  | .isSymbolicLink => .ok (PathMatchers.isSymbolicLink w.fs.lift)
  | .parent c => do return PathMatchers.hasDirectParentMatching (← c.make w)
  | .ancestor c => do return PathMatchers.hasAnyAncestorMatching (← c.make w)
  | .child c => do return PathMatchers.hasAnyDirectChildMatching w.fs.lift (← c.make w)
  | .descendant c => do return PathMatchers.hasAnyDescendantMatching w.fs.lift (← c.make w)
  | .sibling c => do return PathMatchers.hasSiblingMatching w.fs.lift (← c.make w)
def Cond.makeAll (w : Place) : List Cond → Except Exn (List (Matcher (Except Exn)))
  | [] => .ok []
  | c :: cs => do return (← c.make w) :: (← Cond.makeAll w cs)
end

/-- All directories can be listed, and the attributes of everything listed can be read. -/
def Readable (fs : PureFs) : Prop :=
  ∀ d, fs.isDir d = true → ∃ cs, fs.listDir d = .opened cs false ∧ ∀ q ∈ cs, fs.lstat q ≠ none

end OnePage
end Spec
end JFTP
