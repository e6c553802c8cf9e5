import Verif.Model.Cli

/-
What `PrintStream.printf` without arguments has to write.
-/

namespace JFTP
namespace Spec
open Cli

/-- `Pieces F s ps`: the format string `s` is well-formed and consists of the pieces `ps`. `F` are the specifiers other than `%%`, `%n`, `%s`. -/
inductive Pieces (F : SpecParser) : JStr → List FmtPiece → Prop where
  | nil : Pieces F [] []
  | char {c s ps} : c ≠ PERCENT → Pieces F s ps → Pieces F (c :: s) (.lit c :: ps)
  | percent {s ps} : Pieces F s ps → Pieces F (j!"%%" ++ s) (.lit PERCENT :: ps)
  | newline {s ps} : Pieces F s ps → Pieces F (j!"%n" ++ s) (.lit NL :: ps)
  | string {s ps} : Pieces F s ps → Pieces F (j!"%s" ++ s) (.arg :: ps)
  | other {d s p k ps} : d ∉ j!"%ns" → F (d :: s) = some (p, k) → Pieces F ((d :: s).drop k) ps → Pieces F (j!"%" ++ d :: s) (p :: ps)

/-- The text of a piece that needs no argument. -/
def pieceText : FmtPiece → JStr
  | .lit c => [c]
  | .text t => t
  | .arg => []

/-- What is written: everything before the first piece that needs an argument. -/
def piecesText (ps : List FmtPiece) : JStr := (ps.takeWhile (· ≠ .arg)).flatMap pieceText

/-- Contract of `java.util.Formatter`: apart from `%n`, only the percent sign needs no argument; between the two percent signs of the specifier there may be a width, and the sign is
padded with spaces. -/
def PadsPercent (F : SpecParser) : Prop :=
  ∀ rest p k, F rest = some (p, k) → p = .arg ∨ ∃ w n, rest.take k = w ++ [PERCENT] ∧ (p = .text (List.replicate n 32 ++ [PERCENT]) ∨ p = .text (PERCENT :: List.replicate n 32))

end Spec
end JFTP
