import Verif.Model.Cli

/-
The published JSON schema of options files (jfiletreeprettyprinter-cli/src/main/resources/schemas/jfiletreeprettyprinter-options.schema.json) and the binding of a
document to the records of cli/options/model by Jackson (cli/options/reader/SimpleExternalOptionsReader.java:55-56).
-/

namespace JFTP
namespace Cli

/-- A parsed YAML or JSON document. `int` is a number written as an integer; `frac` any other number (its value is not used).
Simplification: `1.0`, which JSON Schema counts as an integer, is not represented. -/
inductive Json where
  | null
  | bool (b : Bool)
  | int (n : Int)
  | frac
  | str (s : JStr)
  | arr (items : List Json)
  | obj (fields : List (JStr × Json))

/-- The value of a property (the first one of that name; JSON objects have each name once). -/
def field : List (JStr × Json) → JStr → Option Json
  | [], _ => none
  | (k, v) :: rest, n => if k = n then some v else field rest n

/-! ### JSON Schema keywords (draft 2020-12) -/

/-- A schema, by the instances it accepts. -/
abbrev Schema := Json → Bool

namespace Schema

/-- A schema object: all of its keywords must accept. -/
def object (keywords : List Schema) : Schema := fun j => keywords.all (fun k => k j)

/-- `"type": "object"` -/
def typeObject : Schema
  | .obj _ => true
  | _ => false
/-- `"type": "array"` -/
def typeArray : Schema
  | .arr _ => true
  | _ => false
/-- `"type": "string"` -/
def typeString : Schema
  | .str _ => true
  | _ => false
/-- `"type": "boolean"` -/
def typeBoolean : Schema
  | .bool _ => true
  | _ => false
/-- `"type": "integer"` -/
def typeInteger : Schema
  | .int _ => true
  | _ => false
/-- `"const": "s"` for a string -/
def const (s : JStr) : Schema
  | .str t => t == s
  | _ => false
/-- `"minimum": n`; instances that are not numbers are accepted (in the schema it stands next to `"type": "integer"`). -/
def minimum (n : Int) : Schema
  | .int k => decide (n ≤ k)
  | _ => true
/-- `"properties": {…}`; instances that are not objects are accepted. -/
def properties (ps : List (JStr × Schema)) : Schema
  | .obj fs => ps.all (fun p => match field fs p.1 with
    | none => true
    | some v => p.2 v)
  | _ => true
/-- `"required": […]`; instances that are not objects are accepted. -/
def required (ks : List JStr) : Schema
  | .obj fs => ks.all (fun k => (field fs k).isSome)
  | _ => true
/-- `"additionalProperties": false` next to `properties` with the names `ks`. -/
def noOthers (ks : List JStr) : Schema
  | .obj fs => fs.all (fun f => ks.contains f.1)
  | _ => true
/-- `"items": s`; instances that are not arrays are accepted. -/
def items (s : Schema) : Schema
  | .arr es => es.all s
  | _ => true
/-- `"oneOf": […]`: exactly one accepts. -/
def oneOf (ss : List Schema) : Schema := fun j => (ss.filter (fun s => s j)).length == 1

/-- schema.json:95-180, `#/$defs/matcher`; `n` bounds how often the reference to itself is followed. -/
def matcher : Nat → Schema
  | 0 => fun _ => false
  | n + 1 => object [typeObject, oneOf [
      -- schema.json:99-106
      object [properties [(j!"type", const j!"everything")], required [j!"type"], noOthers [j!"type"]],
      -- schema.json:107-114
      object [properties [(j!"type", const j!"nothing")], required [j!"type"], noOthers [j!"type"]],
      -- schema.json:115-127
      object [properties [(j!"type", const j!"allOf"), (j!"matchers", object [typeArray, items (matcher n)])], required [j!"type", j!"matchers"], noOthers [j!"type", j!"matchers"]],
      -- schema.json:128-140
      object [properties [(j!"type", const j!"anyOf"), (j!"matchers", object [typeArray, items (matcher n)])], required [j!"type", j!"matchers"], noOthers [j!"type", j!"matchers"]],
      -- schema.json:141-153
      object [properties [(j!"type", const j!"noneOf"), (j!"matchers", object [typeArray, items (matcher n)])], required [j!"type", j!"matchers"], noOthers [j!"type", j!"matchers"]],
      -- schema.json:154-165
      object [properties [(j!"type", const j!"name"), (j!"glob", typeString)], required [j!"type", j!"glob"], noOthers [j!"type", j!"glob"]],
      -- schema.json:166-177
      object [properties [(j!"type", const j!"path"), (j!"glob", typeString)], required [j!"type", j!"glob"], noOthers [j!"type", j!"glob"]]]]

mutual
/-- How deep values are nested. -/
def height : Json → Nat
  | .arr es => heightItems es + 1
  | .obj fs => heightFields fs + 1
  | _ => 1
/-- How deep values are nested. -/
def heightItems : List Json → Nat
  | [] => 0
  | e :: rest => max (height e) (heightItems rest)
/-- How deep values are nested. -/
def heightFields : List (JStr × Json) → Nat
  | [] => 0
  | (_, v) :: rest => max (height v) (heightFields rest)
end

/-- `"$ref": "#/$defs/matcher"`: the reference is followed as often as the instance is deep, which is enough (`matcher_enough`). -/
def refMatcher : Schema := fun j => matcher (height j) j

/-- schema.json:24-62 -/
def childLimit : Schema := oneOf [
  object [properties [(j!"type", const j!"static"), (j!"limit", typeInteger)], required [j!"type", j!"limit"], noOthers [j!"type", j!"limit"]],
  object [properties [(j!"type", const j!"dynamic"),
      (j!"limits", object [typeArray, items (object [typeObject, properties [(j!"limit", object [typeInteger, minimum (-1)]), (j!"matcher", refMatcher)],
        required [j!"limit", j!"matcher"], noOthers [j!"limit", j!"matcher"]])])],
    required [j!"type", j!"limits"], noOthers [j!"type", j!"limits"]]]

/-- schema.json:64-72 -/
def filter : Schema := object [typeObject, properties [(j!"dir", refMatcher), (j!"file", refMatcher)], noOthers [j!"dir", j!"file"]]

/-- schema.json:74-89 -/
def lineExtensions : Schema := object [typeArray, items (object [typeObject, properties [(j!"extension", typeString), (j!"matcher", refMatcher)],
  required [j!"extension", j!"matcher"], noOthers [j!"extension", j!"matcher"]])]

/-- schema.json:6-91: does the document conform to the published schema? -/
def conforms : Schema := object [typeObject,
  properties [(j!"emojis", typeBoolean), (j!"compactDirectories", typeBoolean), (j!"maxDepth", typeInteger), (j!"childLimit", childLimit), (j!"filter", filter), (j!"lineExtensions", lineExtensions)],
  noOthers [j!"emojis", j!"compactDirectories", j!"maxDepth", j!"childLimit", j!"filter", j!"lineExtensions"]]

end Schema

/-! ### Binding (Jackson) -/

/-- The binding of documents whose values have the declared types; `none` is an exception (`malformed options file`). A missing property and an explicit null give a null component; other properties are ignored.
Simplification: for values of other types, which Jackson may coerce (`"5"` to 5), nothing is claimed: here they give `none`. -/
abbrev Bind (α : Type) := Json → Option α

namespace Bind

/-- `Integer`: 32 bits; larger numbers are rejected. -/
def int : Bind Int
  | .int n => if -2147483648 ≤ n ∧ n ≤ 2147483647 then some n else none
  | _ => none
/-- `Boolean` -/
def bool : Bind Bool
  | .bool b => some b
  | _ => none
/-- `String` -/
def str : Bind JStr
  | .str s => some s
  | _ => none
/-- A nullable value. -/
def nullable {α : Type} (b : Bind α) : Bind (Option α)
  | .null => some none
  | j => (b j).map some
/-- A component of a record. -/
def component {α : Type} (b : Bind α) (fs : List (JStr × Json)) (k : JStr) : Option (Option α) :=
  match field fs k with
  | none => some none
  | some v => nullable b v
/-- `List<…>` -/
def list {α : Type} (b : Bind α) : Bind (List (Option α))
  | .arr es => es.mapM (nullable b)
  | _ => none

/-- An explicit null. -/
def isNull : Json → Bool
  | .null => true
  | _ => false

mutual
/-- cli/options/model/Matcher.java:10-76 -/
def matcher : Json → Option MatcherDoc
  | .obj fs =>
    match field fs j!"type" with
    | some (.str t) =>
      if t = j!"everything" then some .alwaysTrue
      else if t = j!"nothing" then some .alwaysFalse
      else if t = j!"allOf" then (matchersComponent fs).map .allOf
      else if t = j!"anyOf" then (matchersComponent fs).map .anyOf
      else if t = j!"noneOf" then (matchersComponent fs).map .noneOf
      else if t = j!"name" then (component str fs j!"glob").map .nameGlob
      else if t = j!"path" then (component str fs j!"glob").map .pathGlob
      else none
    | _ => none
  | _ => none
/-- The component `matchers`. -/
def matchersComponent : List (JStr × Json) → Option (Option (List (Option MatcherDoc)))
  | [] => some none
  | (k, v) :: rest => if k = j!"matchers" then matchersValue v else matchersComponent rest
/-- The value of the component `matchers`. -/
def matchersValue : Json → Option (Option (List (Option MatcherDoc)))
  | .null => some none
  | .arr es => (matcherItems es).map some
  | _ => none
/-- The elements of `matchers`. -/
def matcherItems : List Json → Option (List (Option MatcherDoc))
  | [] => some []
  | e :: rest => do
    let x ← if isNull e then some none else (matcher e).map some
    let xs ← matcherItems rest
    return x :: xs
end

/-- cli/options/model/ChildLimit.java:34-39 -/
def limitItem : Bind DynamicLimitItem
  | .obj fs => do return ⟨← component int fs j!"limit", ← component matcher fs j!"matcher"⟩
  | _ => none

/-- cli/options/model/ChildLimit.java:10-29 -/
def childLimit : Bind ChildLimitDoc
  | .obj fs =>
    match field fs j!"type" with
    | some (.str t) =>
      if t = j!"static" then (component int fs j!"limit").map .static
      else if t = j!"dynamic" then (component (list limitItem) fs j!"limits").map .dynamic
      else none
    | _ => none
  | _ => none

/-- cli/options/model/Filter.java:6-11 -/
def filter : Bind FilterDoc
  | .obj fs => do return ⟨← component matcher fs j!"dir", ← component matcher fs j!"file"⟩
  | _ => none

/-- cli/options/model/LineExtension.java:6-11 -/
def lineExtension : Bind LineExtensionDoc
  | .obj fs => do return ⟨← component str fs j!"extension", ← component matcher fs j!"matcher"⟩
  | _ => none

/-- cli/options/model/ExternalOptions.java:8-17, cli/options/reader/SimpleExternalOptionsReader.java:56 -/
def externalOptions : Bind ExternalOptions
  | .obj fs => do return {
      emojis := ← component bool fs j!"emojis"
      compactDirectories := ← component bool fs j!"compactDirectories"
      maxDepth := ← component int fs j!"maxDepth"
      childLimit := ← component childLimit fs j!"childLimit"
      filter := ← component filter fs j!"filter"
      lineExtensions := ← component (list lineExtension) fs j!"lineExtensions" }
  | _ => none

end Bind
end Cli
end JFTP
