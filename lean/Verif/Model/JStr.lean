/-
Java strings as used by the repository: sequences of UTF-16 code units.

Everything in this file models JDK contracts (java.lang.String) that the repository code relies on; the citing
repository lines are given with each definition.
-/

namespace JFTP

/-- A Java `char`: one UTF-16 code unit. -/
abbrev JChar := UInt16

/-- A Java `String`: a sequence of UTF-16 code units. -/
abbrev JStr := List JChar

/-- UTF-16 encoding of one Unicode scalar value (only used to write literals). -/
def utf16Units (c : Char) : List Nat :=
  let n := c.toNat
  if n < 0x10000 then [n]
  else [0xD800 + (n - 0x10000) / 0x400, 0xDC00 + (n - 0x10000) % 0x400]

open Lean in
/-- `j!"text"` is the Java string literal `"text"`, expanded at compile time to an explicit list of code units. -/
macro:max "j!" s:str : term => do
  let units := (s.getString.toList.map utf16Units).flatten
  let stxs := units.map (fun n => Syntax.mkNumLit (toString n))
  let arr : Array (TSyntax `term) := (stxs.map (fun (x : TSyntax `num) => (⟨x.raw⟩ : TSyntax `term))).toArray
  `(([$arr,*] : JStr))

/-- Example: a character outside of the basic plane is a surrogate pair. -/
example : j!"a📂" = [0x61, 0xD83D, 0xDCC2] := rfl

/-- `'\n'` -/
def NL : JChar := 10
/-- `'.'` -/
def DOT : JChar := 46
/-- `'/'` -/
def SLASH : JChar := 47
/-- `' '` -/
def SPACE : JChar := 32
/-- `'%'` -/
def PERCENT : JChar := 37

/-- `String.compareTo(String)` (JDK): difference of the first differing code units, else difference of lengths.
Used through `Comparator.comparing(String)` in options/PathSorts.java:16-20. -/
def compareTo : JStr → JStr → Int
  | [], [] => 0
  | [], y :: ys => -((y :: ys).length : Int)
  | x :: xs, [] => ((x :: xs).length : Int)
  | x :: xs, y :: ys => if x = y then compareTo xs ys else (x.toNat : Int) - (y.toNat : Int)

/-- `String.compareToIgnoreCase(String)` (JDK), used in options/PathSorts.java:99,112.
`fold` stands for the JDK's `Character.toLowerCase(Character.toUpperCase(c))`.
Simplification: folding is applied per code unit (the JDK folds per code point for surrogate pairs). -/
def compareToIgnoreCase (fold : JChar → JChar) : JStr → JStr → Int
  | [], [] => 0
  | [], y :: ys => -((y :: ys).length : Int)
  | x :: xs, [] => ((x :: xs).length : Int)
  | x :: xs, y :: ys =>
    if fold x = fold y then compareToIgnoreCase fold xs ys
    else ((fold x).toNat : Int) - ((fold y).toNat : Int)

/-- `String.equalsIgnoreCase(String)` (JDK), used in options/PathMatchers.java:440. Same simplification as above. -/
def equalsIgnoreCase (fold : JChar → JChar) (a b : JStr) : Bool :=
  a.map fold == b.map fold

/-- `String.startsWith(String)` (JDK), used in options/PathMatchers.java:504. -/
def startsWith (s pre : JStr) : Bool := pre.isPrefixOf s

/-- `String.endsWith(String)` (JDK), used in options/PathMatchers.java:518. -/
def endsWith (s suf : JStr) : Bool := suf.isSuffixOf s

/-- Split at every occurrence of `sep`, keeping all (also empty) pieces; never returns the empty list. -/
def splitRaw (sep : JChar) : JStr → List JStr
  | [] => [[]]
  | c :: cs =>
    if c = sep then [] :: splitRaw sep cs
    else match splitRaw sep cs with
      | [] => [[c]]
      | p :: ps => (c :: p) :: ps

/-- Remove trailing empty strings (as `String.split(regex)` with limit 0 does). -/
def dropTrailingEmpty (l : List JStr) : List JStr := (l.reverse.dropWhile List.isEmpty).reverse

/-- `String.split("\\.")` (JDK): pieces between dots with trailing empty pieces removed; a string without a dot gives
the single piece itself. Used in options/PathExtensionEmojiFunction.java:44 and options/PathSorts.java:94-95. -/
def splitDots (s : JStr) : List JStr :=
  if DOT ∈ s then dropTrailingEmpty (splitRaw DOT s) else [s]

/-- `Collectors.joining("\n")` / repeated appends separated by `'\n'`. -/
def joinLines : List JStr → JStr
  | [] => []
  | [l] => l
  | l :: ls => l ++ NL :: joinLines ls

/-- Locale/Unicode dependent parts of `String` that the model keeps abstract:
`lower` is `String.toLowerCase()` in the default locale (options/PathNameEmojiFunction.java:24, PathExtensionEmojiFunction.java:44,
MappingUtils.java:19), `fold` the per-character folding of the case-insensitive comparisons. -/
structure Casing where
  lower : JStr → JStr
  fold : JChar → JChar

/-- ASCII casing, used for concrete witnesses only. -/
def asciiLowerChar (c : JChar) : JChar := if 65 ≤ c ∧ c ≤ 90 then c + 32 else c

/-- ASCII casing, used for concrete witnesses only. -/
def asciiCasing : Casing := ⟨fun s => s.map asciiLowerChar, asciiLowerChar⟩

end JFTP
