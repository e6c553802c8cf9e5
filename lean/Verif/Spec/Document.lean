import Verif.Model.Cli
import Verif.Spec.Reach
import Verif.Spec.Rules

/-
What an options document (a `.prettyprint` file) means. `G g` is the set of paths described by the glob `g`.
-/

namespace JFTP
namespace Spec
open Cli

/-- `p` is the absolute clean path `target` or lies below it; `rest` leads from `target` to `p`. -/
structure InTarget (target p : Path) (rest : List JStr) : Prop where
  abs : target.abs = true ∧ p.abs = true
  names : p.names = target.names ++ rest
  clean : ∀ n ∈ p.names, n ≠ j!"." ∧ n ≠ j!".."

/-- Does the glob describe the file name of `p`? The glob `*` describes everything. -/
def nameGlobHolds (G : JStr → Path → Bool) (g : JStr) (p : Path) : Bool :=
  g = j!"*" || (match p.names.getLast? with | some n => G g ⟨false, [n]⟩ | none => false)

/-- Does the glob describe `p` as seen from the target? -/
def pathGlobHolds (G : JStr → Path → Bool) (target : Path) (g : JStr) (p : Path) : Bool :=
  g = j!"*" || G g (relPath (p.names.drop target.names.length))

mutual
/-- Does the path match the matcher of the document? -/
def docHolds (G : JStr → Path → Bool) (target p : Path) : MatcherDoc → Bool
  | .alwaysTrue => true
  | .alwaysFalse => false
  | .allOf (some ms) => allHold G target p ms
  | .anyOf (some ms) => anyHolds G target p ms
  | .noneOf (some ms) => !anyHolds G target p ms
  | .nameGlob (some g) => nameGlobHolds G g p
  | .pathGlob (some g) => pathGlobHolds G target g p
  | _ => false
/-- All of them match. -/
def allHold (G : JStr → Path → Bool) (target p : Path) : List (Option MatcherDoc) → Bool
  | [] => true
  | some d :: ms => docHolds G target p d && allHold G target p ms
  | none :: _ => false
/-- Some of them matches. -/
def anyHolds (G : JStr → Path → Bool) (target p : Path) : List (Option MatcherDoc) → Bool
  | [] => false
  | some d :: ms => docHolds G target p d || anyHolds G target p ms
  | none :: _ => false
end

mutual
/-- The globs occurring in a matcher. -/
def globsOf : MatcherDoc → List JStr
  | .alwaysTrue | .alwaysFalse => []
  | .allOf (some ms) => globsOfAll ms
  | .anyOf (some ms) => globsOfAll ms
  | .noneOf (some ms) => globsOfAll ms
  | .nameGlob (some g) => [g]
  | .pathGlob (some g) => [g]
  | _ => []
/-- The globs occurring in a list of matchers. -/
def globsOfAll : List (Option MatcherDoc) → List JStr
  | [] => []
  | some d :: ms => globsOf d ++ globsOfAll ms
  | none :: ms => globsOfAll ms
end

/-- The globs of an optional matcher. -/
def globsOfOpt : Option MatcherDoc → List JStr
  | none => []
  | some d => globsOf d

/-- All globs of a document. -/
def allGlobs (x : ExternalOptions) : List JStr :=
  (match x.childLimit with
    | some (.dynamic (some ls)) => ls.flatMap (fun i => match i with | some i => globsOfOpt i.matcher | none => [])
    | _ => []) ++
  (match x.filter with | some f => globsOfOpt f.dir ++ globsOfOpt f.file | none => []) ++
  (match x.lineExtensions with | some es => es.flatMap (fun e => match e with | some e => globsOfOpt e.matcher | none => []) | none => [])

/-- The limit rules of a document as (matcher, limit) pairs. -/
def limitRules (G : JStr → Path → Bool) (target : Path) (ls : List (Option DynamicLimitItem)) : List (Rule Int) :=
  ls.filterMap (fun i => match i with
    | some ⟨some l, some d⟩ => some (fun p => docHolds G target p d, l)
    | _ => none)

/-- The extension rules of a document as (matcher, extension) pairs. -/
def extensionRules (G : JStr → Path → Bool) (target : Path) (es : List (Option LineExtensionDoc)) : List (Rule (Option JStr)) :=
  es.filterMap (fun e => match e with
    | some ⟨some s, some d⟩ => some (fun p => docHolds G target p d, some s)
    | _ => none)

/-- `n` is a right child limit for `p`: the first matching rule with a limit that is not negative decides; without such a rule there is no limit. -/
def LimitIs (rules : List (Rule Int)) (p : Path) (n : Int) : Prop :=
  match rules.find? (fun r => r.1 p && decide (0 ≤ r.2)) with
  | some r => n = r.2
  | none => n < 0

end Spec
end JFTP
