import Verif.Spec.Layout

/-
The lines of the picture, looked at from outside (C120): rows of symbols, each followed by a label. When do the lines that the symbols
draw connect, so that nothing dangles? No trees are mentioned here.
-/

namespace JFTP
namespace Spec

/-- The four symbols of a tree format: `├─`, `│ `, `└─` and blanks. -/
inductive Sym where
  | tee | bar | corner | blank
deriving DecidableEq

/-- How a tree format writes a symbol. -/
def Sym.text (f : TreeFormat) : Sym → JStr
  | .tee => f.nonLastChildSymbol
  | .bar => f.continuationSymbol
  | .corner => f.lastChildSymbol
  | .blank => f.emptySymbol

/-- The line leaves the symbol downwards. -/
def Sym.down : Sym → Bool
  | .tee | .bar => true
  | _ => false

/-- The line enters the symbol from above. -/
def Sym.up : Sym → Bool
  | .blank => false
  | _ => true

/-- The line leaves the symbol to the right, to the label. -/
def Sym.right : Sym → Bool
  | .tee | .corner => true
  | _ => false

/-- A row: symbols, then a label. -/
abbrev Row := List Sym × JStr

/-- The text of a row: each symbol is followed by a space. -/
def Row.text (f : TreeFormat) (r : Row) : JStr := r.1.flatMap (fun s => s.text f ++ [SPACE]) ++ r.2

/-- The rows are a drawing without loose ends. -/
structure Drawing (rows : List Row) : Prop where
  /-- There is a first row, and it has no symbols. -/
  first : ∃ l, rows[0]? = some ([], l)
  /-- In all other rows the last symbol, and no other one, leads to the right, to the label. -/
  label : ∀ (i : Nat) (r : Row), rows[i + 1]? = some r → ∃ (a : List Sym) (b : Sym), r.1 = a ++ [b] ∧ b.right = true ∧ ∀ s ∈ a, s.right = false
  /-- A line that goes down goes on in the next row, in the same column. -/
  below : ∀ (i : Nat) (r : Row) (k : Nat) (s : Sym), rows[i]? = some r → r.1[k]? = some s → s.down = true → ∃ (r' : Row) (s' : Sym), rows[i + 1]? = some r' ∧ r'.1[k]? = some s' ∧ s'.up = true
  /-- A line that comes from above comes from a line of the row above, in the same column, or from the beginning of its label. -/
  above : ∀ (i : Nat) (r : Row) (k : Nat) (s : Sym), rows[i + 1]? = some r → r.1[k]? = some s → s.up = true → ∃ r' : Row, rows[i]? = some r' ∧ (k = r'.1.length ∨ ∃ s' : Sym, r'.1[k]? = some s' ∧ s'.down = true)

end Spec
end JFTP
