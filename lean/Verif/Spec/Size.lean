import Verif.Spec.Display

/-
The number of characters of a text without merged directories (C124).
-/

namespace JFTP
namespace Spec

mutual
/-- The characters of the lines for an entry at depth `k`, with the line breaks after them: `w + 1` characters for each level, the emoji and a space, the name, a slash for
directories, the mark of links and special files, the extension. -/
def charsOf (w : Nat) (emoji ext : Path → Option JStr) (k : Nat) : TreeEntry → Nat
  | .dir d es => k * (w + 1) + (emojiText (emoji d)).length + (lastName d).length + 1 + ((ext d).getD []).length + 1 + charsOfAll w emoji ext (k + 1) es
  | .file p a => k * (w + 1) + (emojiText (emoji p)).length + (lastName p).length + (fileMark a).length + ((ext p).getD []).length + 1
  | .skipped _ => k * (w + 1) + 3 + 1
  | .maxDepth _ => k * (w + 1) + 3 + 1
/-- The same for lists. -/
def charsOfAll (w : Nat) (emoji ext : Path → Option JStr) (k : Nat) : List TreeEntry → Nat
  | [] => 0
  | e :: es => charsOf w emoji ext k e + charsOfAll w emoji ext k es
end

end Spec
end JFTP
