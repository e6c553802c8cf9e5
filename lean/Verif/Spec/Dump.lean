import Verif.Model.RecordDump

/-
What the debug dump of a record has to contain.
-/

namespace JFTP
namespace Spec

/-- Decimal notation. -/
def decimal (n : Nat) : JStr :=
  if n < 10 then [UInt16.ofNat (48 + n)] else decimal (n / 10) ++ [UInt16.ofNat (48 + n % 10)]

/-- The `i`-th part of a value with its label, unless it is null or does not exist: a component of a record, an item of a collection. -/
def part : RVal → Nat → Option (JStr × RVal)
  | .record _ comps, i => match comps[i]? with
    | some (name, some v) => some (name, v)
    | _ => none
  | .coll items, i => match items[i]? with
    | some (some v) => some (j!"[" ++ decimal i ++ j!"]", v)
    | _ => none
  | _, _ => none

/-- The value at a position (a list of part numbers, from the outside to the inside) with its label. -/
def partAt (lab : Option JStr) (v : RVal) : List Nat → Option (Option JStr × RVal)
  | [] => some (lab, v)
  | i :: pos => match part v i with
    | some (l, w) => partAt (some l) w pos
    | none => none

/-- The line for a value. -/
def heading : Option JStr → RVal → JStr
  | none, .record n _ => n
  | some a, .record n _ => a ++ j!" -> " ++ n
  | none, .coll _ => j!"["
  | some a, .coll _ => a ++ j!": ["
  | none, .str s => j!"null: \"" ++ s ++ j!"\""
  | some a, .str s => a ++ j!": \"" ++ s ++ j!"\""
  | none, .other s => j!"null: " ++ s
  | some a, .other s => a ++ j!": " ++ s

/-- A line of the dump: the first line for the value at `pos` (`closing = false`) or the closing bracket of the collection at `pos`. -/
structure DumpLine where
  pos : List Nat
  closing : Bool

/-- The text of a line: two spaces for each level, then the heading or the bracket. -/
def lineText (lab : Option JStr) (v : RVal) (l : DumpLine) : JStr :=
  List.replicate (2 * l.pos.length) (32 : JChar) ++
    if l.closing then j!"]" else match partAt lab v l.pos with
      | some (a, w) => heading a w
      | none => []

/-- The order of the lines: a value's line comes before everything inside it, its closing bracket after it, and earlier parts come before later ones. -/
inductive Before : DumpLine → DumpLine → Prop where
  | inside {p q : List Nat} {b : Bool} : (q ≠ [] ∨ b = true) → Before ⟨p, false⟩ ⟨p ++ q, b⟩
  | closes {p q : List Nat} {b : Bool} : (q ≠ [] ∨ b = false) → Before ⟨p ++ q, b⟩ ⟨p, true⟩
  | parts {p q r : List Nat} {i j : Nat} {b c : Bool} : i < j → Before ⟨p ++ i :: q, b⟩ ⟨p ++ j :: r, c⟩

/-- Which lines there are: one for each non-null value, and one more for each collection. -/
def HasLine (lab : Option JStr) (v : RVal) (l : DumpLine) : Prop :=
  ∃ a w, partAt lab v l.pos = some (a, w) ∧ (l.closing = true → ∃ items, w = .coll items)

end Spec
end JFTP
