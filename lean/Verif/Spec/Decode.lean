import Verif.Spec.Layout

/-
Reading a picture back: lines, depth of a line, and a decoder that only looks at the text.
-/

namespace JFTP
namespace Spec

/-- A text without line feeds. -/
def NoNL (s : JStr) : Prop := NL ∉ s

/-- The lines of a text. -/
def linesOf (s : JStr) : List JStr := splitRaw NL s

mutual
/-- The labels with their depths, in display order. -/
def preorder (n : Nat) : Disp → List (Nat × JStr)
  | .node l ks => (n, l) :: preorderKids (n + 1) ks
/-- The same for children. -/
def preorderKids (n : Nat) : List Disp → List (Nat × JStr)
  | [] => []
  | k :: ks => preorder n k ++ preorderKids n ks
end

/-- The labels in display order. -/
def labels (d : Disp) : List JStr := (preorder 0 d).map Prod.snd

/-- A tree format as the constructor of `TreeFormat` guarantees it: four symbols of one length `w`. -/
def TreeFormatOK (f : TreeFormat) (w : Nat) : Prop :=
  f.nonLastChildSymbol.length = w ∧ f.lastChildSymbol.length = w ∧ f.continuationSymbol.length = w ∧ f.emptySymbol.length = w

/-- The format's branch symbols differ from its continuation and empty symbols. -/
def Readable (f : TreeFormat) : Prop :=
  f.nonLastChildSymbol ≠ f.continuationSymbol ∧ f.nonLastChildSymbol ≠ f.emptySymbol ∧
  f.lastChildSymbol ≠ f.continuationSymbol ∧ f.lastChildSymbol ≠ f.emptySymbol

/-- No symbol contains a line feed. -/
def FormatNoNL (f : TreeFormat) : Prop :=
  NoNL f.nonLastChildSymbol ∧ NoNL f.lastChildSymbol ∧ NoNL f.continuationSymbol ∧ NoNL f.emptySymbol

/-- `line` is a correctly drawn line for a label at depth `n`: `n` segments of width `w+1`, continuation or empty symbols followed by one
branch symbol, each with a space, and then the label. -/
def DrawnAt (f : TreeFormat) (x : Nat × JStr) (line : JStr) : Prop :=
  match x with
  | (0, l) => line = l
  | (n + 1, l) => ∃ (segs : List JStr) (b : JStr),
      segs.length = n ∧ (∀ s ∈ segs, s = f.continuationSymbol ∨ s = f.emptySymbol) ∧
      (b = f.nonLastChildSymbol ∨ b = f.lastChildSymbol) ∧
      line = (segs.map (· ++ [SPACE])).flatten ++ (b ++ [SPACE]) ++ l

/-- Does a line continue the block above it? (Decided by its first segment only.) -/
def continues (f : TreeFormat) (line : JStr) : Bool :=
  line.take (f.continuationSymbol.length + 1) == f.continuationSymbol ++ [SPACE] ||
  line.take (f.emptySymbol.length + 1) == f.emptySymbol ++ [SPACE]

/-- Decode the lines below a label into children: cut the lines into blocks, drop the first segment of every line. -/
def decodeKids (f : TreeFormat) : List JStr → List Disp
  | [] => []
  | l :: ls =>
    let w := f.continuationSymbol.length + 1
    .node (l.drop w) (decodeKids f ((ls.takeWhile (continues f)).map (·.drop w))) :: decodeKids f (ls.dropWhile (continues f))
termination_by l => l.length
decreasing_by
  · have := (List.takeWhile_sublist (p := continues f) (l := ls)).length_le
    simp; omega
  · have := (List.dropWhile_sublist (l := ls) (continues f)).length_le
    simp; omega

/-- Decode a whole picture. -/
def decode (f : TreeFormat) (s : JStr) : Option Disp :=
  match linesOf s with
  | [] => none
  | l :: ls => some (.node l (decodeKids f ls))

end Spec
end JFTP
