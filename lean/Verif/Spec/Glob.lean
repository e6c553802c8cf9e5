import Verif.Model.Glob

/-!
Glob patterns as the documentation of `FileSystem.getPathMatcher` describes them (README.md, "The term glob refers to the pattern syntax supported by
`FileSystem.getPathMatcher(String)`"): what they consist of, how they are written, and what they mean. Only `codePoints`, the characters of a string, is taken from the model; `Characters` and `C78_characters` say what they are.
-/

namespace JFTP
namespace Spec
namespace Glob
open Globs

/-- A part of a bracket expression; characters are Unicode code points. -/
inductive Item where
  | char (c : Nat)
  | range (a b : Nat)
  /-- A character and a hyphen before the closing bracket, which stands for itself. (The documentation does not mention it; it is accepted and common: `[a-z_-]`.) -/
  | trailing (c : Nat)
deriving DecidableEq

/-- A pattern without groups consists of these. -/
inductive Part where
  /-- Characters that stand for themselves; the flag says that a backslash precedes the character. -/
  | text (cs : List (JChar × Bool))
  | star
  | starStar
  | question
  /-- A bracket expression: negated, with a hyphen at the start, with these parts. -/
  | bracket (neg hyphen : Bool) (items : List Item)
deriving DecidableEq

/-- A pattern consists of these. -/
inductive Piece where
  | part (p : Part)
  | group (alts : List (List Part))
deriving DecidableEq

/-! ### Writing -/

/-- UTF-16: the units of a Unicode code point. -/
def utf16 (n : Nat) : JStr :=
  if n < 0x10000 then [UInt16.ofNat n] else [UInt16.ofNat (0xD800 + (n - 0x10000) / 0x400), UInt16.ofNat (0xDC00 + (n - 0x10000) % 0x400)]

/-- The characters of a part of a bracket expression. -/
def Item.chars : Item → List Nat
  | .char c => [c]
  | .range a b => [a, 45, b]
  | .trailing c => [c, 45]

def Item.write (i : Item) : JStr := i.chars.flatMap utf16

def Part.write : Part → JStr
  | .text cs => cs.flatMap (fun x => if x.2 then [92, x.1] else [x.1])
  | .star => j!"*"
  | .starStar => j!"**"
  | .question => j!"?"
  | .bracket neg hyphen items => j!"[" ++ (if neg then j!"!" else []) ++ (if hyphen then j!"-" else []) ++ items.flatMap Item.write ++ j!"]"

def writeAlts : List (List Part) → JStr
  | [] => []
  | [a] => a.flatMap Part.write
  | a :: as => a.flatMap Part.write ++ j!"," ++ writeAlts as

def Piece.write : Piece → JStr
  | .part p => p.write
  | .group alts => j!"{" ++ writeAlts alts ++ j!"}"

/-! ### Characters -/

/-- The characters of a string: code points whose units make up the string, without a pair of surrogates among them that would be the two units of a single one. -/
structure Characters (s : JStr) (cs : List Nat) : Prop where
  unicode : ∀ n ∈ cs, n < 0x110000
  units : cs.flatMap utf16 = s
  paired : ∀ a b, [a, b] <:+: cs → ¬ ((0xD800 ≤ a ∧ a ≤ 0xDBFF) ∧ 0xDC00 ≤ b ∧ b ≤ 0xDFFF)

/-! ### Meaning -/

/-- A sequence means the concatenations. -/
inductive SeqMeans {α : Type} (M : α → List Nat → Prop) : List α → List Nat → Prop where
  | nil : SeqMeans M [] []
  | cons {p ps a b} : M p a → SeqMeans M ps b → SeqMeans M (p :: ps) (a ++ b)

/-- The character is in the bracket expression. -/
def Item.Has (x : Nat) : Item → Prop
  | .char c => x = c
  | .range a b => a ≤ x ∧ x ≤ b
  | .trailing c => x = c ∨ x = 45

/-- The characters that end a line: LF, CR, NEL, LS, PS. -/
def lineEnds : List Nat := [0x0A, 0x0D, 0x85, 0x2028, 0x2029]

def Part.Means : Part → List Nat → Prop
  | .text cs, s => s = codePoints (cs.map Prod.fst)
  | .star, s => 47 ∉ s
  | .starStar, s => ∀ c ∈ s, c ∉ lineEnds
  | .question, s => ∃ c, s = [c] ∧ c ≠ 47
  | .bracket neg hyphen items, s => ∃ c, s = [c] ∧ c ≠ 47 ∧ (neg = false ↔ (hyphen = true ∧ c = 45) ∨ ∃ i ∈ items, i.Has c)

def Piece.Means : Piece → List Nat → Prop
  | .part p, s => p.Means s
  | .group alts, s => ∃ a ∈ alts, SeqMeans Part.Means a s

/-- The strings that a pattern matches. -/
def GlobMeans (ps : List Piece) (s : JStr) : Prop := SeqMeans Piece.Means ps (codePoints s)

/-! ### What may be written -/

/-- No half of a surrogate pair. -/
def Whole (c : JChar) : Prop := isHigh c = false ∧ isLow c = false

/-- A Unicode character (no surrogate). -/
def Scalar (n : Nat) : Prop := n < 0xD800 ∨ (0xE000 ≤ n ∧ n < 0x110000)

/-- A character beyond the basic plane, which takes two units. -/
def Wide (n : Nat) : Prop := 0x10000 ≤ n

/-- A character in a bracket expression: neither `]` nor `/` nor `-`. -/
def inBracket (c : Nat) : Prop := c ≠ 93 ∧ c ≠ 47 ∧ c ≠ 45 ∧ Scalar c

/-- A range does not start with a character beyond the basic plane; if it ends with one, it starts below the surrogates. (The documentation does not say so: see `C114_range`.) -/
def Item.Ok : Item → Prop
  | .char c => inBracket c
  | .range a b => inBracket a ∧ a ≤ b ∧ b ≠ 0 ∧ b ≠ 93 ∧ b ≠ 92 ∧ b ≠ 91 ∧ Scalar b ∧ ¬ Wide a ∧ (Wide b → a < 0xD800)
  | .trailing c => inBracket c

/-- Only the last part of a bracket expression may end in a hyphen that stands for itself. -/
def OnlyLast : List Item → Prop
  | [] => True
  | i :: is => ((∃ c, i = .trailing c) → is = []) ∧ OnlyLast is

/-- The first character of a bracket expression that is not negated and does not start with a hyphen: not `!`, and neither a range from `^` nor `^` before a hyphen at the end. -/
def FirstOk : List Item → Prop
  | .char c :: _ => c ≠ 33
  | .range a _ :: _ => a ≠ 33 ∧ a ≠ 94
  | .trailing c :: _ => c ≠ 33 ∧ c ≠ 94
  | [] => False

/-- A character that stands for itself without a backslash. -/
def plain (inGroup : Bool) (c : JChar) : Prop := c ∉ j!"\\*?[{" ∧ (inGroup = true → c ∉ j!",}")

def Part.Ok (inGroup : Bool) : Part → Prop
  | .text cs => cs ≠ [] ∧ ∀ x ∈ cs, x.2 = false → plain inGroup x.1
  | .bracket neg hyphen items => (∀ i ∈ items, i.Ok) ∧ (hyphen = true ∨ items ≠ []) ∧ (neg = false → hyphen = false → FirstOk items) ∧ OnlyLast items
  | _ => True

/-- What may follow: no star after a single star (two stars have a meaning of their own), and text is not cut into two. -/
def Follows : Part → Part → Prop
  | .star, .star => False
  | .star, .starStar => False
  | .text _, .text _ => False
  | _, _ => True

/-- A pattern without groups. -/
def PartsOk (inGroup : Bool) : List Part → Prop
  | [] => True
  | [p] => p.Ok inGroup
  | p :: q :: ps => p.Ok inGroup ∧ Follows p q ∧ PartsOk inGroup (q :: ps)

def Piece.Ok : Piece → Prop
  | .part p => p.Ok false
  | .group alts => alts ≠ [] ∧ ∀ a ∈ alts, PartsOk true a

def PieceFollows : Piece → Piece → Prop
  | .part p, .part q => Follows p q
  | _, _ => True

/-- A pattern. -/
def GlobOk : List Piece → Prop
  | [] => True
  | [p] => p.Ok
  | p :: q :: ps => p.Ok ∧ PieceFollows p q ∧ GlobOk (q :: ps)

/-- Text between brackets, except: nothing, only `!`, half of a surrogate pair, a range that ends in `[` or a backslash, and a character beyond the basic plane before a hyphen. -/
def Tame (s : JStr) : Prop := ∃ cs : List Nat, s = cs.flatMap utf16 ∧ (∀ c ∈ cs, Scalar c) ∧ cs ≠ [] ∧ cs ≠ [33] ∧
  ¬ [45, 91] <:+: cs ∧ ¬ [45, 92] <:+: cs ∧ ∀ c, Wide c → ¬ [c, 45] <:+: cs

/-- Wherever a bracket is opened, the text up to the next closing bracket is of this kind. -/
def TameBrackets (g : JStr) : Prop := ∀ pre s post, g = pre ++ 91 :: (s ++ 93 :: post) → 93 ∉ s → Tame s

/-- How it is written. -/
def writeGlob (ps : List Piece) : JStr := ps.flatMap Piece.write

end Glob
end Spec
end JFTP
