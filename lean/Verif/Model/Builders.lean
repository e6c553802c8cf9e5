import Verif.Model.Matchers

/-
options/ChildLimitBuilder.java, options/LineExtensionBuilder.java, options/TreeFormat.java, options/TreeFormats.java.
-/

namespace JFTP

variable {m : Type → Type} [Monad m] [MonadExceptOf Exn m]

/-! ### Child limits -/

/-- options/ChildLimits.java:31 -/
def UNLIMITED : Int := -1

/-- options/ChildLimitBuilder.java:41-42: a mutable builder object; the model is its current state. -/
structure ChildLimitBuilder (m : Type → Type) where
  limits : List (Path → m Int) := []
  defaultLimit : Int := UNLIMITED

namespace ChildLimitBuilder

/-- options/ChildLimitBuilder.java:62-67: the loop over the remaining rules with the current `result`. -/
def limitLoop (path : Path) : Int → List (Path → m Int) → m Int
  | result, [] => pure result
  | _, rule :: rest => do
    let result ← rule path
    if result ≥ 0 then pure result else limitLoop path result rest

/-- The function object returned by `build()` (options/ChildLimitBuilder.java:58-70): it holds a copy of the rules made at build time, but
reads `defaultLimit` from the builder object each time it is called (line 61 captures `this`). -/
structure Built (m : Type → Type) where
  immutLimits : List (Path → m Int)

/-- options/ChildLimitBuilder.java:58-59 -/
def build (b : ChildLimitBuilder m) : Built m := ⟨b.limits⟩

/-- options/ChildLimitBuilder.java:60-69: call of the built function while the builder object is in state `live`. -/
def Built.applyAsInt (f : Built m) (live : ChildLimitBuilder m) (path : Path) : m Int :=
  limitLoop path live.defaultLimit f.immutLimits

/-- options/ChildLimitBuilder.java:78-81 -/
def setDefault (b : ChildLimitBuilder m) (limit : Int) : ChildLimitBuilder m := { b with defaultLimit := limit }

/-- options/ChildLimitBuilder.java:97-101 -/
def add (b : ChildLimitBuilder m) (childLimit : Path → m Int) : ChildLimitBuilder m :=
  { b with limits := b.limits ++ [childLimit] }

/-- options/ChildLimitBuilder.java:117-120 -/
def addMatching (b : ChildLimitBuilder m) (mt : Matcher m) (limit : Int) : ChildLimitBuilder m :=
  b.add (fun path => do return if ← mt path then limit else UNLIMITED)

end ChildLimitBuilder

/-- options/ChildLimits.java:56-58 (and 43-45 with `UNLIMITED`) -/
def ChildLimits.builder (defaultLimit : Int := UNLIMITED) : ChildLimitBuilder m := ⟨[], defaultLimit⟩

/-! ### Line extensions -/

/-- A line extension function: `null` is `none`. -/
abbrev ExtFn (m : Type → Type) := Path → m (Option JStr)

/-- options/LineExtensionBuilder.java:41 -/
structure LineExtensionBuilder (m : Type → Type) where
  extensions : List (ExtFn m) := []

namespace LineExtensionBuilder

/-- options/LineExtensionBuilder.java:60-65: the loop over the remaining rules with the current `result`. -/
def extLoop (path : Path) : Option JStr → List (ExtFn m) → m (Option JStr)
  | result, [] => pure result
  | _, rule :: rest => do
    let result ← rule path
    if result ≠ none then pure result else extLoop path result rest

/-- The function object returned by `build()` (options/LineExtensionBuilder.java:56-68): it holds a copy of the rule list (line 57). -/
structure Built (m : Type → Type) where
  immutExtensions : List (ExtFn m)

/-- options/LineExtensionBuilder.java:56-57 -/
def build (b : LineExtensionBuilder m) : Built m := ⟨b.extensions⟩

/-- options/LineExtensionBuilder.java:58-67: call of the built function while the builder object is in state `_live`, which it does not read
(`NO_EXTENSION` is `null`). -/
def Built.apply (f : Built m) (_live : LineExtensionBuilder m) : ExtFn m := fun path => extLoop path none f.immutExtensions

/-- options/LineExtensionBuilder.java:84-88 -/
def add (b : LineExtensionBuilder m) (e : ExtFn m) : LineExtensionBuilder m := ⟨b.extensions ++ [e]⟩

/-- options/LineExtensionBuilder.java:100-103 -/
def addMatching (b : LineExtensionBuilder m) (mt : Matcher m) (extension : JStr) : LineExtensionBuilder m :=
  b.add (fun path => do return if ← mt path then some extension else none)

/-- options/LineExtensionBuilder.java:100-103 with an extension that may be null: it is not checked, null is `NO_EXTENSION`. -/
def addMatchingN (b : LineExtensionBuilder m) (mt : Matcher m) (extension : Option JStr) : LineExtensionBuilder m :=
  b.add (fun path => do return if ← mt path then extension else none)

/-- options/LineExtensionBuilder.java:112-114 (`LINE_BREAK_EXTENSION` is `""`) -/
def addLineBreak (b : LineExtensionBuilder m) (mt : Matcher m) : LineExtensionBuilder m := b.addMatching mt []

end LineExtensionBuilder

/-- options/LineExtensions.java:49-51 -/
def LineExtensions.builder : LineExtensionBuilder m := ⟨[]⟩

/-! ### Tree formats -/

/-- options/TreeFormat.java:31-34 -/
structure TreeFormat where
  nonLastChildSymbol : JStr
  lastChildSymbol : JStr
  continuationSymbol : JStr
  emptySymbol : JStr
deriving DecidableEq, Repr

/-- `Stream.distinct()` (JDK). -/
def distinct : List Nat → List Nat
  | [] => []
  | x :: xs => x :: (distinct xs).filter (fun y => y ≠ x)

/-- options/TreeFormat.java:47-65 -/
def TreeFormat.create (nonLast last cont empty : JStr) : Except Exn TreeFormat :=
  let sizeCountList := distinct [nonLast.length, last.length, cont.length, empty.length]
  if sizeCountList.length ≠ 1 then .error .illegalArgument
  else .ok ⟨nonLast, last, cont, empty⟩

/-- options/TreeFormats.java:8 -/
def TreeFormats.CLASSIC_ASCII : TreeFormat := ⟨j!"|--", j!"`--", j!"│  ", j!"   "⟩

/-- options/TreeFormats.java:13 -/
def TreeFormats.UNICODE_BOX_DRAWING : TreeFormat := ⟨j!"├─", j!"└─", j!"│ ", j!"  "⟩

end JFTP
