import Verif.Model.Printer

/-
The public methods with arguments that may be null. The other model files describe what happens after the `Objects.requireNonNull` guards; here are the guards, in their order. A null reference is `none`.
-/

namespace JFTP

/-- A method of a mutable object with state `σ`: what was changed before an exception stays changed. -/
abbrev Call (σ α : Type) := ExceptT Exn (StateM σ) α

/-- `Objects.requireNonNull(x, message)` (JDK) -/
def requireNonNull {m : Type → Type} [Monad m] [MonadExceptOf Exn m] {α : Type} : Option α → m α
  | some a => pure a
  | none => throw Exn.nullPointer

/-- An assignment to fields of the object, or a call that changes a field. -/
def assign {σ : Type} (f : σ → σ) : Call σ Unit := modify f

section
variable {m : Type → Type} [Monad m] [MonadExceptOf Exn m]

/-! ### Options -/

/-- A call of an options setter, as it is written by the client. -/
inductive NSetter (m : Type → Type) where
  | childLimit (f : Option (Path → m Int))
  | treeFormat (f : Option TreeFormat)
  | emojis (e : Option (EmojiFn m))
  | compactDirectories (c : Bool)
  | maxDepth (d : Int)
  | sort (c : Option Cmp)
  | filterDirectories (mt : Option (Matcher m))
  | filterFiles (mt : Option (Matcher m))
  | lineExtension (e : Option (ExtFn m))

/-- options/PrettyPrintOptions.java: lines 58-61, 78-81, 105-108, 125-128, 145-148, 171-174, 195-198, 209-212, 241-244 (no guard). -/
def NSetter.call : NSetter m → Call (Options m) Unit
  | .childLimit f => do assign (·.withChildLimitFn (← requireNonNull f))
  | .treeFormat f => do assign (·.withTreeFormat (← requireNonNull f))
  | .emojis e => do assign (·.withEmojis (← requireNonNull e))
  | .compactDirectories c => assign (·.withCompactDirectories c)
  | .maxDepth d => assign (·.withMaxDepth d)
  | .sort c => do assign (·.sort (← requireNonNull c))
  | .filterDirectories mt => do assign (·.filterDirectories (← requireNonNull mt))
  | .filterFiles mt => do assign (·.filterFiles (← requireNonNull mt))
  | .lineExtension e => assign (·.withLineExtension e)

/-! ### Rule builders -/

/-- A call on a child limit builder. -/
inductive NLimitCall (m : Type → Type) where
  | setDefault (n : Int)
  | add (f : Option (Path → m Int))
  | addMatching (mt : Option (Matcher m)) (n : Int)

/-- options/ChildLimitBuilder.java:78-81, 97-101, 117-120 -/
def NLimitCall.call : NLimitCall m → Call (ChildLimitBuilder m) Unit
  | .setDefault n => assign (·.setDefault n)
  | .add f => do assign (·.add (← requireNonNull f))
  | .addMatching mt n => do
    let mt ← requireNonNull mt
    assign (·.addMatching mt n)

/-- A call on a line extension builder. -/
inductive NExtCall (m : Type → Type) where
  | add (f : Option (ExtFn m))
  | addMatching (mt : Option (Matcher m)) (extension : Option JStr)
  | addLineBreak (mt : Option (Matcher m))

/-- options/LineExtensionBuilder.java:84-88, 100-103, 112-114 -/
def NExtCall.call : NExtCall m → Call (LineExtensionBuilder m) Unit
  | .add f => do assign (·.add (← requireNonNull f))
  | .addMatching mt extension => do
    let mt ← requireNonNull mt
    assign (·.addMatchingN mt extension)
  | .addLineBreak mt => do
    let mt ← requireNonNull mt
    assign (·.addMatchingN mt (some []))

/-- A call on a sort builder (the functions of this builder are pure in the model). -/
inductive NSortCall where
  | add (f : Option (Path → Int))
  | addMatching (mt : Option (Path → Bool)) (order : Int)
  | addFirst (mt : Option (Path → Bool))
  | addLast (mt : Option (Path → Bool))

/-- options/PathSortBuilder.java:97-101, 113-116, 124-126, 134-136 -/
def NSortCall.call : NSortCall → Call PathSortBuilder Unit
  | .add f => do assign (·.add (← requireNonNull f))
  | .addMatching mt order => do
    let mt ← requireNonNull mt
    assign (·.addMatching mt order)
  | .addFirst mt => do
    let mt ← requireNonNull mt
    assign (·.addFirst mt)
  | .addLast mt => do
    let mt ← requireNonNull mt
    assign (·.addLast mt)

/-- A call on an emoji mapping builder. -/
inductive NEmojiCall (m : Type → Type) where
  | setDefaultDirectoryEmoji (e : Option JStr)
  | setDirectoryNameEmoji (n e : Option JStr)
  | addDirectoryEmoji (mt : Option (Matcher m)) (e : Option JStr)
  | setDefaultFileEmoji (e : Option JStr)
  | setFileNameEmoji (n e : Option JStr)
  | setFileExtensionEmoji (x e : Option JStr)
  | addFileEmoji (mt : Option (Matcher m)) (e : Option JStr)

/-- options/DefaultEmojiMappingBuilder.java:63-115 -/
def NEmojiCall.call : NEmojiCall m → Call (EmojiMappingBuilder m) Unit
  | .setDefaultDirectoryEmoji e => do assign (·.setDefaultDirectoryEmoji (← requireNonNull e))
  | .setDirectoryNameEmoji n e => do
    let n ← requireNonNull n
    let e ← requireNonNull e
    assign (·.setDirectoryNameEmoji n e)
  | .addDirectoryEmoji mt e => do
    let mt ← requireNonNull mt
    let e ← requireNonNull e
    assign (·.addDirectoryEmoji mt e)
  | .setDefaultFileEmoji e => do assign (·.setDefaultFileEmoji (← requireNonNull e))
  | .setFileNameEmoji n e => do
    let n ← requireNonNull n
    let e ← requireNonNull e
    assign (·.setFileNameEmoji n e)
  | .setFileExtensionEmoji x e => do
    let x ← requireNonNull x
    let e ← requireNonNull e
    assign (·.setFileExtensionEmoji x e)
  | .addFileEmoji mt e => do
    let mt ← requireNonNull mt
    let e ← requireNonNull e
    assign (·.addFileEmoji mt e)

/-! ### Factories -/

namespace NFactories

/-- options/TreeFormat.java:47-65: `List.of` rejects null elements before the lengths are computed. -/
def treeFormat (nonLast last cont empty : Option JStr) : Except Exn TreeFormat := do
  let nonLast ← requireNonNull nonLast
  let last ← requireNonNull last
  let cont ← requireNonNull cont
  let empty ← requireNonNull empty
  TreeFormat.create nonLast last cont empty

/-- The loops of options/PathMatchers.java:199-202 and 215-218: copy the elements, rejecting null. -/
def copyAll {α : Type} : List (Option α) → Except Exn (List α)
  | [] => pure []
  | x :: rest => do
    let x ← requireNonNull x
    let rest ← copyAll rest
    return x :: rest

/-- options/PathMatchers.java:195-204: the array of the variable arguments may itself be null (`matchers.length` throws). -/
def buildSafeList (matcher : Option (Matcher m)) (matchers : Option (List (Option (Matcher m)))) : Except Exn (List (Option (Matcher m))) := do
  let matcher ← requireNonNull matcher
  let matchers ← requireNonNull matchers
  let rest ← copyAll matchers
  return (matcher :: rest).map some

/-- options/PathMatchers.java:212-227 with the loop of lines 215-218 -/
def combineMatchers (matchers : Option (List (Option (Matcher m)))) (mode : PathMatchers.Mode) : Except Exn (Matcher m) := do
  let matchers ← requireNonNull matchers
  let list ← copyAll matchers
  PathMatchers.combineMatchers list mode

/-- options/PathMatchers.java:89-91, 131-133, 174-176: `allOf`, `noneOf` and `anyOf` with variable arguments. -/
def combineVarargs (matcher : Option (Matcher m)) (matchers : Option (List (Option (Matcher m)))) (mode : PathMatchers.Mode) : Except Exn (Matcher m) := do
  let list ← buildSafeList matcher matchers
  combineMatchers (some list) mode

/-- options/PathMatchers.java:62-65 -/
def not (matcher : Option (Matcher m)) : Except Exn (Matcher m) := do return PathMatchers.not (← requireNonNull matcher)

/-- options/PathMatchers.java:272-277 -/
def ifMatchesThenElse (i t e : Option (Matcher m)) : Except Exn (Matcher m) := do
  let i ← requireNonNull i
  let t ← requireNonNull t
  let e ← requireNonNull e
  return PathMatchers.ifMatchesThenElse i t e

/-- options/PathMatchers.java:300-311 -/
def hasAbsolutePathMatchingGlob (glob : PathMatchers.GlobCompiler) (cwd : Path) (g : Option JStr) : Except Exn (Matcher m) := do
  let g ← requireNonNull g
  PathMatchers.hasAbsolutePathMatchingGlob glob cwd g

/-- options/PathMatchers.java:336-348 -/
def hasRelativePathMatchingGlob (glob : PathMatchers.GlobCompiler) (cwd : Path) (ref : Option Path) (g : Option JStr) : Except Exn (Matcher m) := do
  let g ← requireNonNull g
  let ref ← requireNonNull ref
  PathMatchers.hasRelativePathMatchingGlob glob cwd ref g

/-- options/PathMatchers.java:364-367 -/
def hasAbsolutePathMatching (cwd : Path) (matcher : Option (Matcher m)) : Except Exn (Matcher m) := do
  return PathMatchers.hasAbsolutePathMatching cwd (← requireNonNull matcher)

/-- options/PathMatchers.java:381-393 -/
def hasRelativePathMatching (cwd : Path) (ref : Option Path) (matcher : Option (Matcher m)) : Except Exn (Matcher m) := do
  let matcher ← requireNonNull matcher
  let ref ← requireNonNull ref
  return PathMatchers.hasRelativePathMatching cwd ref matcher

/-- The factories with one string: options/PathMatchers.java:417-420, 438-441, 480-491, 502-505, 516-519, 538-541. -/
inductive StringFactory where
  | hasName | hasNameIgnoreCase | hasNameMatchingGlob | hasNameStartingWith | hasNameEndingWith | hasExtension

/-- The factory after its guard. -/
def StringFactory.make (cs : Casing) (glob : PathMatchers.GlobCompiler) (s : JStr) : StringFactory → Except Exn (Matcher m)
  | .hasName => .ok (PathMatchers.hasName s)
  | .hasNameIgnoreCase => .ok (PathMatchers.hasNameIgnoreCase cs s)
  | .hasNameMatchingGlob => PathMatchers.hasNameMatchingGlob glob s
  | .hasNameStartingWith => .ok (PathMatchers.hasNameStartingWith s)
  | .hasNameEndingWith => .ok (PathMatchers.hasNameEndingWith s)
  | .hasExtension => .ok (PathMatchers.hasExtension s)

/-- options/PathMatchers.java:417-420, 438-441, 480-491, 502-505, 516-519, 538-541: each starts with its guard. -/
def StringFactory.call (cs : Casing) (glob : PathMatchers.GlobCompiler) (s : Option JStr) (f : StringFactory) : Except Exn (Matcher m) := do
  let s ← requireNonNull s
  f.make cs glob s

/-- options/PathMatchers.java:462-465 -/
def hasNameMatching (pattern : Option (JStr → Bool)) : Except Exn (Matcher m) := do return PathMatchers.hasNameMatching (← requireNonNull pattern)

/-- The factories with one matcher about related paths: options/PathMatchers.java:610-614, 625-638, 650-653, 667-670, 683-686. -/
inductive RelatedFactory where
  | hasDirectParentMatching | hasAnyAncestorMatching | hasAnyDirectChildMatching | hasAnyDescendantMatching | hasSiblingMatching

/-- The factory after its guard. -/
def RelatedFactory.make (fs : Fs m) (mt : Matcher m) : RelatedFactory → Matcher m
  | .hasDirectParentMatching => PathMatchers.hasDirectParentMatching mt
  | .hasAnyAncestorMatching => PathMatchers.hasAnyAncestorMatching mt
  | .hasAnyDirectChildMatching => PathMatchers.hasAnyDirectChildMatching fs mt
  | .hasAnyDescendantMatching => PathMatchers.hasAnyDescendantMatching fs mt
  | .hasSiblingMatching => PathMatchers.hasSiblingMatching fs mt

/-- options/PathMatchers.java:610-614, 625-638, 650-653, 667-670, 683-686: each starts with its guard. -/
def RelatedFactory.call (fs : Fs m) (mt : Option (Matcher m)) (f : RelatedFactory) : Except Exn (Matcher m) := do
  let mt ← requireNonNull mt
  return f.make fs mt

end NFactories

/-! ### Printers and their builders -/

/-- The calls that a customizer (or any client) makes, without further customizers. -/
inductive NOp (m : Type → Type) where
  | newOptions
  | set (r : Nat) (s : NSetter m)
  | newBuilder
  | withOptions (b : Nat) (r : Option Nat)
  | build (b : Nat)

/-- A setter call on the options object `r` of the store; a reference that does not exist stands for an object that nobody else holds. -/
def World.callSetter (r : Nat) (s : NSetter m) : Call (World m) Unit := fun w =>
  let (res, o') := s.call (w.options[r]?.getD Options.createDefault)
  (res, { w with options := w.options.set r o' })

/-- One call. FileTreePrettyPrinterBuilder.java:37-62. -/
def NOp.call : NOp m → Call (World m) Unit
  | .newOptions => assign (·.step .newOptions)
  | .set r s => World.callSetter r s
  | .newBuilder => assign (·.step .newBuilder)
  | .withOptions b r => do
    let r ← requireNonNull r
    assign (·.step (.withOptions b r))
  | .build b => assign (·.step (.build b))

/-- Calls one after the other; an exception ends the sequence. -/
def NOp.callAll : List (NOp m) → Call (World m) Unit
  | [] => pure ()
  | c :: cs => do
    c.call
    NOp.callAll cs

/-- A function given to `customizeOptions`: the calls it makes, for the options object it gets, and what happens then: it throws, or returns an options object or null. -/
structure Customizer (m : Type → Type) where
  calls : Nat → List (NOp m)
  result : Nat → Except Exn (Option Nat)

/-- FileTreePrettyPrinterBuilder.java:71-76 on the builder `b`, which has the options object `r`. -/
def World.customizeOptions (b r : Nat) (f : Option (Customizer m)) : Call (World m) Unit := do
  let f ← requireNonNull f
  NOp.callAll (f.calls r)
  let newOptions ← (match f.result r with
    | .ok x => pure x
    | .error e => throw e : Call (World m) (Option Nat))
  let newOptions ← requireNonNull newOptions
  assign (·.step (.withOptions b newOptions))

/-- All calls. -/
inductive NCall (m : Type → Type) where
  | op (c : NOp m)
  | customizeOptions (b : Nat) (f : Option (Customizer m))

/-- One call of a client. -/
def NCall.call : NCall m → Call (World m) Unit
  | .op c => c.call
  | .customizeOptions b f => fun w =>
    match w.builders[b]? with
    | none => (.ok (), w)
    | some r => World.customizeOptions b r f w

/-- DefaultFileTreePrettyPrinter.java:21-26 with the guard of line 22 -/
def Printer.prettyPrintN (fs : Fs m) (cwd : Path) (pr : Printer m) (live : Options m) (path : Option Path) : m JStr := do
  let path ← requireNonNull path
  pr.prettyPrint fs cwd live path

/-- FileTreePrettyPrinter.java:34-40: `Path.of(null)` throws. -/
def Printer.prettyPrintStringN (fs : Fs m) (cwd : Path) (pr : Printer m) (live : Options m) (s : Option JStr) : m JStr := do
  let s ← requireNonNull s
  pr.prettyPrintString fs cwd live s

end

/-- A client that catches every exception and goes on: the state after all calls. -/
def afterAll {σ C : Type} (call : C → Call σ Unit) (s : σ) (cs : List C) : σ := cs.foldl (fun s c => ((ExceptT.run (call c)).run s).2) s

end JFTP
