import Verif.Model.Matchers

/-!
Glob patterns: `FileSystems.getDefault().getPathMatcher("glob:" + g)` on Unix, which options/PathMatchers.java:309, 346 and 489 call. This is code of the JDK (21): `sun.nio.fs.Globs`
makes a regular expression, `java.util.regex.Pattern` compiles it, `matches(path)` matches it against the whole of `path.toString()`.

The regular expression is a list of tokens here instead of one string; every token stands for the text that `Globs` appends. Of `java.util.regex` only what these tokens need is modelled.
Simplification: a pattern with a class that the regular expression does not end where the glob does is left to the parameter `odd`: an empty class (`[]`, `[!]`: the `]` is taken for
a member), a range that ends in `[` (`[A-[]`: another class is opened) and a range that ends in a backslash (`[A-\n]`: the backslash starts an escape sequence). The same would
go for a class with an unescaped `[`, `]` or `&&` or an escaped letter or digit; `Globs` never writes such a class (Lemmas/Glob).
-/

namespace JFTP
namespace Globs

/-! ### Code points -/

/-- `Character.isHighSurrogate` (JDK) -/
def isHigh (c : JChar) : Bool := 0xD800 ≤ c.toNat && c.toNat < 0xDC00
/-- `Character.isLowSurrogate` (JDK) -/
def isLow (c : JChar) : Bool := 0xDC00 ≤ c.toNat && c.toNat < 0xE000

/-- The code points of a string, as regular expressions see them: a surrogate without partner is a code point of its own. -/
def codePoints : JStr → List Nat
  | [] => []
  | [c] => [c.toNat]
  | c :: d :: s =>
    if isHigh c && isLow d then (0x10000 + (c.toNat - 0xD800) * 0x400 + (d.toNat - 0xDC00)) :: codePoints s
    else c.toNat :: codePoints (d :: s)

/-! ### From globs to regular expressions -/

/-- What `Globs.toRegexPattern` (JDK) appends to the regular expression. -/
inductive Tok where
  /-- a character, with a backslash if it is special -/
  | lit (c : JChar)
  /-- `.*` -/
  | dotStar
  /-- `[^/]*` -/
  | star
  /-- `[^/]` -/
  | one
  /-- `[[^/]&&[content]]` -/
  | cls (content : JStr)
  /-- `(?:(?:` -/
  | groupOpen
  /-- `)|(?:` -/
  | groupAlt
  /-- `))` -/
  | groupClose
deriving DecidableEq

/-- `PatternSyntaxException`, an `IllegalArgumentException`. -/
def syntaxError {α : Type} : Except Exn α := .error .illegalArgument

/-- `\` -/
def BACKSLASH : JChar := 92
/-- `-` -/
def HYPHEN : JChar := 45
/-- `^` -/
def CARET : JChar := 94
/-- `&` -/
def AMP : JChar := 38
/-- `[` -/
def LBRACK : JChar := 91
/-- `]` -/
def RBRACK : JChar := 93

mutual

/-- `Globs.toRegexPattern` (JDK) from `i` on, outside of classes. -/
def outside (inGroup : Bool) : JStr → Except Exn (List Tok)
  | [] => if inGroup then syntaxError else pure []
  | c :: g =>
    if c = BACKSLASH then
      match g with
      | [] => syntaxError
      | next :: g => do return .lit next :: (← outside inGroup g)
    else if c = LBRACK then
      match g with
      | [] => syntaxError
      | c :: g =>
        if c = CARET then inside inGroup [BACKSLASH, CARET] false 0 g
        else if c = 33 then
          match g with
          | [] => syntaxError
          | d :: g' => if d = HYPHEN then inside inGroup [CARET, HYPHEN] false 0 g' else inside inGroup [CARET] false 0 (d :: g')
        else if c = HYPHEN then inside inGroup [HYPHEN] false 0 g
        else inside inGroup [] false 0 (c :: g)
    else if c = 123 then
      if inGroup then syntaxError else do return .groupOpen :: (← outside true g)
    else if c = 125 then
      if inGroup then do return .groupClose :: (← outside false g) else do return .lit c :: (← outside inGroup g)
    else if c = 44 then
      if inGroup then do return .groupAlt :: (← outside inGroup g) else do return .lit c :: (← outside inGroup g)
    else if c = 42 then
      match g with
      | [] => do return .star :: (← outside inGroup [])
      | d :: g' => if d = 42 then do return .dotStar :: (← outside inGroup g') else do return .star :: (← outside inGroup (d :: g'))
    else if c = 63 then do return .one :: (← outside inGroup g)
    else do return .lit c :: (← outside inGroup g)

/-- `Globs.toRegexPattern` (JDK), the loop inside of a class: `content` has been appended, `hasRangeStart` and `last` are the variables. -/
def inside (inGroup : Bool) (content : JStr) (hasRangeStart : Bool) (last : JChar) : JStr → Except Exn (List Tok)
  | [] => syntaxError
  | c :: g =>
    if c = RBRACK then do return .cls content :: (← outside inGroup g)
    else if c = SLASH then syntaxError
    else if c = HYPHEN then
      if hasRangeStart then
        match g with
        | [] => syntaxError
        | e :: g =>
          if e = 0 then syntaxError
          else if e = RBRACK then do return .cls (content ++ [HYPHEN]) :: (← outside inGroup g)
          else if e < last then syntaxError
          else inside inGroup (content ++ [HYPHEN, e]) false last g
      else syntaxError
    else
      let escape : Bool := c = BACKSLASH ∨ c = LBRACK ∨ (c = AMP ∧ g.head? = some AMP)
      inside inGroup (content ++ (if escape then [BACKSLASH, c] else [c])) true c g

end

/-! ### Regular expressions -/

/-- A part of a regular expression that matches strings of one or any length of code points from a set. -/
inductive Simple where
  | lit (c : Nat)
  | one (set : Nat → Bool)
  | many (set : Nat → Bool)

/-- A part of a regular expression, with groups. -/
inductive Atom where
  | simple (a : Simple)
  | group (alts : List (List Simple))

/-- `.` in a regular expression: no line terminator. -/
def dot (c : Nat) : Bool := c ≠ 0x0A && c ≠ 0x0D && c ≠ 0x85 && c ≠ 0x2028 && c ≠ 0x2029

/-- `[^/]` -/
def notSlash (c : Nat) : Bool := c ≠ 47

/-- The result of reading the content of a class. -/
inductive ClassResult where
  /-- the set -/
  | ok (set : Nat → Bool)
  /-- `PatternSyntaxException` -/
  | bad
  /-- not modelled, see above -/
  | odd

/-- The union with the set of the rest. -/
def ClassResult.orElse (set : Nat → Bool) : ClassResult → ClassResult
  | .ok set' => .ok (fun c => set c || set' c)
  | .bad => .bad
  | .odd => .odd

/-- At the beginning of a member, without backslash: `[` opens a class in the class, `]` ends the class, `&&` is an intersection (`Pattern.clazz`, JDK). -/
def special (c : Nat) (s : List Nat) : Bool := c = 91 || c = 93 || (c = 38 && s.head? = some 38)

/-- Letters and digits (ASCII): a backslash before them does not stand for the character itself (`Pattern.escape`, JDK). -/
def alphanumeric (c : Nat) : Bool := (48 ≤ c && c ≤ 57) || (65 ≤ c && c ≤ 90) || (97 ≤ c && c ≤ 122)

mutual

/-- `Pattern.clazz` and `Pattern.range` (JDK): the members of a class. -/
def members : List Nat → ClassResult
  | [] => .ok (fun _ => false)
  | c :: s =>
    if c = 92 then
      match s with
      | [] => .odd
      | d :: s => if alphanumeric d then .odd else memberFrom d s
    else if special c s then .odd
    else memberFrom c s

/-- `Pattern.range` (JDK): a member that starts with `c`. -/
def memberFrom (c : Nat) : List Nat → ClassResult
  | [] => .ok (fun x => x = c)
  | d :: s =>
    if d = 45 then
      match s with
      | [] => (ClassResult.ok (fun x => x = 45)).orElse (fun x => x = c)
      | e :: s =>
        if e = 92 then .odd
        else if e = 91 then .odd
        else if e < c then .bad
        else (members s).orElse (fun x => c ≤ x && x ≤ e)
    else if d = 92 then
      match s with
      | [] => .odd
      | e :: s => if alphanumeric e then .odd else (memberFrom e s).orElse (fun x => x = c)
    else if special d s then .odd
    else (memberFrom d s).orElse (fun x => x = c)

end

/-- `Pattern.clazz` (JDK) for `[content]`. -/
def clazz (content : JStr) : ClassResult :=
  match codePoints content with
  | [] => .odd
  | c :: s =>
    if c = 94 then
      if s = [] then .odd else
      match members s with
      | .ok set => .ok (fun x => !set x)
      | r => r
    else members (c :: s)

/-- The set of `[[^/]&&[content]]`, for a class that can be read. -/
def classSet (content : JStr) : Nat → Bool :=
  match clazz content with
  | .ok set => fun c => notSlash c && set c
  | _ => fun _ => false

/-- Characters that follow each other are code points. -/
def literals (s : JStr) : List Simple := (codePoints s).map .lit

/-- Tokens that are neither characters nor part of groups. -/
def Tok.simple : Tok → List Simple
  | .dotStar => [.many dot]
  | .star => [.many notSlash]
  | .one => [.one notSlash]
  | .cls content => [.one (classSet content)]
  | _ => []

mutual

/-- `Pattern.compile` (JDK) outside of groups, after the characters `pending`. -/
def parse (pending : JStr) : List Tok → List Atom
  | [] => (literals pending).map .simple
  | .lit c :: ts => parse (pending ++ [c]) ts
  | .groupOpen :: ts => (literals pending).map .simple ++ parseGroup [] [] [] ts
  | t :: ts => (literals pending ++ t.simple).map .simple ++ parse [] ts

/-- `Pattern.compile` (JDK) inside of a group, after the alternatives `alts` and the part `cur` of the next one. -/
def parseGroup (alts : List (List Simple)) (cur : List Simple) (pending : JStr) : List Tok → List Atom
  | [] => []
  | .lit c :: ts => parseGroup alts cur (pending ++ [c]) ts
  | .groupAlt :: ts => parseGroup (alts ++ [cur ++ literals pending]) [] [] ts
  | .groupClose :: ts => .group (alts ++ [cur ++ literals pending]) :: parse [] ts
  | t :: ts => parseGroup alts (cur ++ literals pending ++ t.simple) [] ts

end

/-- A greedy loop: as many code points of the set as possible, then fewer, until the rest matches. -/
def matchMany (set : Nat → Bool) (rest : List Nat → Bool) : List Nat → Bool
  | [] => rest []
  | c :: s => (set c && matchMany set rest s) || rest (c :: s)

/-- `Matcher.matches` (JDK) for a sequence of parts, before `rest`. -/
def matchSimple : List Simple → (List Nat → Bool) → List Nat → Bool
  | [], rest, s => rest s
  | .lit c :: as, rest, s => match s with
    | [] => false
    | d :: s => d = c && matchSimple as rest s
  | .one set :: as, rest, s => match s with
    | [] => false
    | d :: s => set d && matchSimple as rest s
  | .many set :: as, rest, s => matchMany set (matchSimple as rest) s

/-- `Matcher.matches` (JDK). -/
def matchAtoms : List Atom → List Nat → Bool
  | [], s => s.isEmpty
  | .simple a :: as, s => matchSimple [a] (matchAtoms as) s
  | .group alts :: as, s => alts.any (fun alt => matchSimple alt (matchAtoms as) s)

/-- The class cannot be read. -/
def Tok.isBad : Tok → Bool
  | .cls content => match clazz content with | .bad => true | _ => false
  | _ => false

/-- The class is not modelled. -/
def Tok.isOdd : Tok → Bool
  | .cls content => match clazz content with | .odd => true | _ => false
  | _ => false

/-- `UnixFileSystem.getPathMatcher("glob:" + g)` (JDK). The first class that is not an ordinary one decides: classes are read from left to right. -/
def getPathMatcher (odd : PathMatchers.GlobCompiler) : PathMatchers.GlobCompiler := fun g => do
  let ts ← outside false g
  match ts.find? (fun t => t.isOdd || t.isBad) with
  | some t => if t.isOdd then odd g else syntaxError
  | none => return fun path => matchAtoms (parse [] ts) (codePoints (pathString path))

end Globs
end JFTP
