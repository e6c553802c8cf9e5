import Verif.Model.Builders
import Verif.Model.Sorts
import Verif.Spec.Display

/-
Documented meaning of the rule builders and of the extension order.
-/

namespace JFTP
namespace Spec

/-- A rule as users give it: does it match, and with which result. -/
abbrev Rule (α : Type) := (Path → Bool) × α

/-- "The first rule that matches a path determines the result. If no rules match, the default is applied." -/
def firstMatch {α : Type} (dflt : α) (rules : List (Rule α)) (p : Path) : α :=
  match rules.find? (fun r => r.1 p) with
  | some r => r.2
  | none => dflt

/-- The value of the first rule with a nonzero value, 0 if there is none. -/
def precedence (rules : List (Path → Int)) (p : Path) : Int :=
  match rules.find? (fun r => r p ≠ 0) with
  | some r => r p
  | none => 0

/-- Parts joined with dots: `a.b.c`. -/
def joinDots : List JStr → JStr
  | [] => []
  | [a] => a
  | a :: as => a ++ j!"." ++ joinDots as

/-- `HasExts n base exts`: the file name `n` is `base.e1.….ek` with the extension parts `exts = [e1, …, ek]` (no dots in the parts, the last one is not empty, there is at
least one), possibly followed by dots. -/
structure HasExts (n base : JStr) (exts : List JStr) : Prop where
  nonempty : exts ≠ []
  parts : ∀ e ∈ base :: exts, DOT ∉ e
  last : exts.getLast? ≠ some []
  name : ∃ k, n = joinDots (base :: exts) ++ List.replicate k DOT

/-- `HasNoExt n`: no dot, or dots only at the end. -/
def HasNoExt (n : JStr) : Prop := ∃ base k, DOT ∉ base ∧ n = base ++ List.replicate k DOT ∧ (base = [] → k = 0)

/-- Hierarchical order of extension parts, most significant first: at the first difference (ignoring case) the smaller one, or the one that has no more parts. -/
inductive PartsLt (cmp : JStr → JStr → Int) : List JStr → List JStr → Prop where
  | shorter {b bs} : PartsLt cmp [] (b :: bs)
  | differ {a as b bs} : cmp a b < 0 → PartsLt cmp (a :: as) (b :: bs)
  | next {a as b bs} : cmp a b = 0 → PartsLt cmp as bs → PartsLt cmp (a :: as) (b :: bs)

end Spec
end JFTP
