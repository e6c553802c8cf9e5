import Verif.Spec.Glob

/-!
Path globs, segment by segment: the pattern is cut at its slashes, like the path.
-/

namespace JFTP
namespace Spec
namespace Glob
open Globs

/-- What stands between two slashes of a pattern: `**`, or a pattern for one name. -/
inductive Segment where
  | dirs
  | name (ps : List Piece)

def Segment.pieces : Segment → List Piece
  | .dirs => [.part .starStar]
  | .name ps => ps

/-- No slash is written or crossed. -/
def Part.InName : Part → Prop
  | .text cs => ∀ x ∈ cs, x.1 ≠ SLASH
  | .starStar => False
  | _ => True

def Piece.InName : Piece → Prop
  | .part p => p.InName
  | .group alts => ∀ a ∈ alts, ∀ p ∈ a, p.InName

/-- A pattern for one name. -/
def Segment.Ok : Segment → Prop
  | .dirs => True
  | .name ps => GlobOk ps ∧ ∀ p ∈ ps, p.InName

/-- How it is written: slashes between the segments. -/
def writeSegments (segs : List Segment) : JStr := joinSlash (segs.map fun s => writeGlob s.pieces)

/-- How segments accept names: a pattern stands for exactly one name, `**` for one or more (with no line break in them). -/
inductive Accepts : List Segment → List JStr → Prop where
  | nil : Accepts [] []
  | name {ps segs n ns} : GlobMeans ps n → Accepts segs ns → Accepts (.name ps :: segs) (n :: ns)
  | dirs {l segs ns} : l ≠ [] → (∀ n ∈ l, ∀ c ∈ n, c.toNat ∉ lineEnds) → Accepts segs ns → Accepts (.dirs :: segs) (l ++ ns)

/-- The text of a relative path between its slashes: that of the reference itself is empty. -/
def relativeParts (names : List JStr) : List JStr := if names = [] then [[]] else names

/-- The text of an absolute path between its slashes: nothing stands before the first one. -/
def absoluteParts (names : List JStr) : List JStr := [] :: relativeParts names

end Glob
end Spec
end JFTP
