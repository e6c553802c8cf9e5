import Verif.Spec.Decode
import Verif.Spec.Items
import Verif.Model.Printer

/-
Reading paths off a text (C121), the way a program would do it that gets the text and nothing else: line by line, with the names of the
directories above the line on a stack.
-/

namespace JFTP
namespace Spec

/-- The line begins with this symbol and a space. -/
def begins (symbol line : JStr) : Bool := line.take (symbol.length + 1) == symbol ++ [SPACE]

/-- Number of symbols in front of the label, and the label: continuation and empty symbols are passed over, and the label is behind the first branch symbol. At most `fuel` symbols are read. -/
def readRow (f : TreeFormat) : Nat → JStr → Nat × JStr
  | 0, line => (0, line)
  | fuel + 1, line =>
    if begins f.nonLastChildSymbol line || begins f.lastChildSymbol line then (1, line.drop (f.lastChildSymbol.length + 1))
    else if begins f.continuationSymbol line || begins f.emptySymbol line then
      let (d, l) := readRow f fuel (line.drop (f.emptySymbol.length + 1))
      (d + 1, l)
    else (0, line)

/-- The names in a label: with slashes it is a chain of directories, each name followed by a slash. -/
def parts (l : JStr) : List JStr := if SLASH ∈ l then (splitRaw SLASH l).dropLast else [l]

/-- The non-empty beginnings of a list, the shortest one first. -/
def heads : List JStr → List (List JStr)
  | [] => []
  | n :: ns => [n] :: (heads ns).map (n :: ·)

/-- On the stack are the names in the line above and in the lines of the directories it is in. A line with `d` symbols is in the directory that the first `d` of them lead to. -/
def readPaths (stack : List (List JStr)) : List (Nat × JStr) → List (List JStr)
  | [] => []
  | (d, l) :: rest => (heads (parts l)).map ((stack.take d).flatten ++ ·) ++ readPaths (stack.take d ++ [parts l]) rest

/-- The paths of the lines of a text; the first line has no symbols. -/
def readText (f : TreeFormat) (s : JStr) : List (List JStr) :=
  match linesOf s with
  | [] => []
  | l :: ls => readPaths [] ((0, l) :: ls.map (fun line => readRow f line.length line))

/-- What is needed of the options: nothing but names in the lines; filters, order, child limits, depth, compact directories and tree format are free. -/
structure OnlyNames (o : Options (Except Exn)) : Prop where
  emoji : ∀ q, o.emojiMapping q = .ok none
  ext : o.lineExtension = none

/-- What a name in a line stands for (`none` is a marker) and the names read for it, as a path in the directory `base`. -/
def Stands (base : List JStr) : Option Path → List JStr → Prop
  | some q, ns => q = ⟨true, base ++ ns⟩
  | none, ns => ∃ ms, ns = ms ++ [j!"..."]

end Spec
end JFTP
