import Verif.Spec.Decode

/-
Removing emojis from a text, by a program that gets nothing but the text (C123).
-/

namespace JFTP
namespace Spec

/-- A label without its emoji: all up to the first space goes, except in `...`. -/
def bareLabel (l : JStr) : JStr := if l = j!"..." then l else (l.dropWhile (· != SPACE)).drop 1

mutual
/-- A displayed tree without its emojis. -/
def bareTree : Disp → Disp
  | .node l ks => .node (bareLabel l) (bareTrees ks)
/-- The same for lists. -/
def bareTrees : List Disp → List Disp
  | [] => []
  | k :: ks => bareTree k :: bareTrees ks
end

/-- The text without emojis, made from the text `s` with emojis (`none` if `s` is no tree). -/
def plainText (f : TreeFormat) (s : JStr) : Option JStr := (decode f s).map fun D => picture f (bareTree D)

/-- How many labels of the text `s` are just three dots. -/
def dots (f : TreeFormat) (s : JStr) : Option Nat := (decode f s).map fun D => (labels D).count j!"..."

end Spec
end JFTP
