import Verif.Spec.Chars

/-
Unicode: strings that can be encoded (C113).
-/

namespace JFTP
namespace Spec

/-- A Unicode scalar value: a code point that is not a surrogate. -/
def IsScalar (u : Nat) : Prop := u < 0xD800 ∨ (0xE000 ≤ u ∧ u < 0x110000)

/-- The UTF-16 form of a scalar value. -/
def utf16 (u : Nat) : JStr :=
  if u < 0x10000 then [UInt16.ofNat u] else [UInt16.ofNat (0xD800 + (u - 0x10000) / 0x400), UInt16.ofNat (0xDC00 + (u - 0x10000) % 0x400)]

/-- The string consists of scalar values, that is, it has no surrogate without partner. Exactly these strings can be encoded in UTF-8 (`Files.writeString` throws for the others). -/
def WellFormed (s : JStr) : Prop := ∃ us : List Nat, (∀ u ∈ us, IsScalar u) ∧ s = us.flatMap utf16

/-- The emojis and extensions of displayed paths and the symbols of the tree format have the property. -/
structure Parts (P : JStr → Prop) (o : Options (Except Exn)) (ps : List Path) : Prop where
  emoji : ∀ q ∈ ps, ∀ e, (lookOf o).emoji q = some e → P e
  ext : ∀ q ∈ ps, ∀ x, (lookOf o).ext q = some x → P x
  nonLast : P o.treeFormat.nonLastChildSymbol
  last : P o.treeFormat.lastChildSymbol
  cont : P o.treeFormat.continuationSymbol
  empty : P o.treeFormat.emptySymbol

end Spec
end JFTP
