import Verif.Model.Schema

/-
Words about options documents, and documents for option records.
-/

namespace JFTP
namespace Spec
open Cli

/-- Somewhere in the document a property `matchers` or `limits` is an empty list, or a property `glob` is an empty string. -/
inductive HasEmpty : Json → Prop where
  | matchers {fs} : field fs j!"matchers" = some (.arr []) → HasEmpty (.obj fs)
  | limits {fs} : field fs j!"limits" = some (.arr []) → HasEmpty (.obj fs)
  | glob {fs} : field fs j!"glob" = some (.str []) → HasEmpty (.obj fs)
  | inProperty {fs k v} : field fs k = some v → HasEmpty v → HasEmpty (.obj fs)
  | inList {es e} : e ∈ es → HasEmpty e → HasEmpty (.arr es)

/-- Somewhere in the document is an integer that does not fit into 32 bits. -/
inductive HasBigInt : Json → Prop where
  | here {n} : n < -2147483648 ∨ 2147483647 < n → HasBigInt (.int n)
  | inProperty {fs k v} : field fs k = some v → HasBigInt v → HasBigInt (.obj fs)
  | inList {es e} : e ∈ es → HasBigInt e → HasBigInt (.arr es)

/-- The CLI can use the document: it can be bound to the option records and has no constraint violations. -/
def Usable (j : Json) : Prop := ∃ x, Bind.externalOptions j = some x ∧ x.valid = true

mutual
/-- The document for a matcher. -/
def writeMatcher : MatcherDoc → Json
  | .alwaysTrue => .obj [(j!"type", .str j!"everything")]
  | .alwaysFalse => .obj [(j!"type", .str j!"nothing")]
  | .allOf ms => .obj [(j!"type", .str j!"allOf"), (j!"matchers", writeMatchers ms)]
  | .anyOf ms => .obj [(j!"type", .str j!"anyOf"), (j!"matchers", writeMatchers ms)]
  | .noneOf ms => .obj [(j!"type", .str j!"noneOf"), (j!"matchers", writeMatchers ms)]
  | .nameGlob g => .obj [(j!"type", .str j!"name"), (j!"glob", match g with | none => .null | some g => .str g)]
  | .pathGlob g => .obj [(j!"type", .str j!"path"), (j!"glob", match g with | none => .null | some g => .str g)]
/-- The document for a nullable list of matchers. -/
def writeMatchers : Option (List (Option MatcherDoc)) → Json
  | none => .null
  | some ms => .arr (writeMatcherItems ms)
/-- The documents for the elements of a list of matchers. -/
def writeMatcherItems : List (Option MatcherDoc) → List Json
  | [] => []
  | m :: rest => writeMatcherOpt m :: writeMatcherItems rest
/-- The document for a nullable matcher. -/
def writeMatcherOpt : Option MatcherDoc → Json
  | none => .null
  | some d => writeMatcher d
end

/-- A nullable value. -/
def writeOpt {α : Type} (w : α → Json) : Option α → Json
  | none => .null
  | some a => w a

/-- A property that is left out if it is null. -/
def writeProperty {α : Type} (k : JStr) (w : α → Json) : Option α → List (JStr × Json)
  | none => []
  | some a => [(k, w a)]

/-- The document for a child limit. -/
def writeChildLimit : ChildLimitDoc → Json
  | .static l => .obj [(j!"type", .str j!"static"), (j!"limit", writeOpt .int l)]
  | .dynamic ls => .obj [(j!"type", .str j!"dynamic"),
      (j!"limits", writeOpt (fun ls => .arr (ls.map (writeOpt (fun i : DynamicLimitItem => .obj [(j!"limit", writeOpt .int i.limit), (j!"matcher", writeMatcherOpt i.matcher)])))) ls)]

/-- The document for a filter. -/
def writeFilter (f : FilterDoc) : Json := .obj (writeProperty j!"dir" writeMatcher f.dir ++ writeProperty j!"file" writeMatcher f.file)

/-- The document for line extensions. -/
def writeLineExtensions (es : List (Option LineExtensionDoc)) : Json :=
  .arr (es.map (writeOpt (fun e => .obj [(j!"extension", writeOpt .str e.extension), (j!"matcher", writeMatcherOpt e.matcher)])))

/-- The document for an option record. -/
def write (x : ExternalOptions) : Json :=
  .obj (writeProperty j!"emojis" .bool x.emojis ++ writeProperty j!"compactDirectories" .bool x.compactDirectories ++ writeProperty j!"maxDepth" .int x.maxDepth ++
    writeProperty j!"childLimit" writeChildLimit x.childLimit ++ writeProperty j!"filter" writeFilter x.filter ++ writeProperty j!"lineExtensions" writeLineExtensions x.lineExtensions)

/-- All numbers of the record. -/
def numbersOf (x : ExternalOptions) : List Int :=
  x.maxDepth.toList ++ (match x.childLimit with
    | none => []
    | some (.static l) => l.toList
    | some (.dynamic ls) => (ls.getD []).filterMap (fun i => i.bind DynamicLimitItem.limit))

/-- All limits of the record that depend on matchers. -/
def limitsOf (x : ExternalOptions) : List Int :=
  match x.childLimit with
  | none => []
  | some (.static _) => []
  | some (.dynamic ls) => (ls.getD []).filterMap (fun i => i.bind DynamicLimitItem.limit)

end Spec
end JFTP
