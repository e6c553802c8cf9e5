import Verif.Model.JStr

/-
cli/RecordUtils.java (paths relative to jfiletreeprettyprinter-cli/src/main/java/io/github/computerdaddyguy/jfiletreeprettyprinter)
-/

namespace JFTP

/-- A Java object as `RecordUtils` sees it through reflection; null is `none` where it can occur. -/
inductive RVal where
  /-- a record: its class' simple name and its components in declaration order -/
  | record (simpleName : JStr) (components : List (JStr × Option RVal))
  /-- a `java.util.Collection` -/
  | coll (items : List (Option RVal))
  /-- a `String` -/
  | str (s : JStr)
  /-- any other object, through its `toString()` -/
  | other (s : JStr)

namespace RecordUtils

/-- `Integer.toString(i)` for `i ≥ 0` (JDK; ASCII digits). -/
def digits (i : Nat) : JStr := (Nat.toDigits 10 i).map (fun c => UInt16.ofNat c.toNat)

/-- cli/RecordUtils.java:75-80 -/
def toSingleValue : RVal → JStr
  | .str s => j!"\"" ++ s ++ j!"\""
  | .other s => s
  | _ => []

mutual

/-- cli/RecordUtils.java:28-73: the lines added for one value. `attrName = none` is null (in line 37 null is printed as "null").
`indent` is the constant two spaces of line 24. -/
def linesOf (shift : JStr) (attrName : Option JStr) : RVal → List JStr
  | .record name comps =>
    (match attrName with
      | none => shift ++ name
      | some a => shift ++ a ++ j!" -> " ++ name) :: linesOfComponents (shift ++ j!"  ") comps
  | .coll items =>
    (match attrName with
      | none => shift ++ j!"["
      | some a => shift ++ a ++ j!": [") :: (linesOfItems (shift ++ j!"  ") 0 items ++ [shift ++ j!"]"])
  | .str s => [shift ++ attrName.getD j!"null" ++ j!": " ++ toSingleValue (.str s)]
  | .other s => [shift ++ attrName.getD j!"null" ++ j!": " ++ toSingleValue (.other s)]

/-- cli/RecordUtils.java:50-58 -/
def linesOfComponents (shift : JStr) : List (JStr × Option RVal) → List JStr
  | [] => []
  | (n, v) :: rest => linesOfOpt shift n v ++ linesOfComponents shift rest

/-- cli/RecordUtils.java:67-71 -/
def linesOfItems (shift : JStr) (i : Nat) : List (Option RVal) → List JStr
  | [] => []
  | v :: rest => linesOfOpt shift (j!"[" ++ digits i ++ j!"]") v ++ linesOfItems shift (i + 1) rest

/-- cli/RecordUtils.java:29-31 -/
def linesOfOpt (shift : JStr) (attrName : JStr) : Option RVal → List JStr
  | none => []
  | some v => linesOf shift (some attrName) v

end

/-- cli/RecordUtils.java:19-26 (`System.lineSeparator()` is `"\n"` on Unix) -/
def toTextBlock : Option RVal → JStr
  | none => j!"null"
  | some rec => joinLines (linesOf [] none rec)

end RecordUtils
end JFTP
