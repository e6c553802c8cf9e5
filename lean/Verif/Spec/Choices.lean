import Verif.Spec.Library
import Verif.Model.Sorting

/-
Sequences of calls that choose options, and the settings of the one-page program they ask for.
-/

namespace JFTP
namespace Spec
namespace OnePage

/-- A call of `add` (or `addFirst`, `addLast`) on the builder of `PathSorts`. -/
inductive SortRule where
  | add (order : Path → Int)
  | addMatching (c : Cond) (precedence : Int)
  | addFirst (c : Cond)
  | addLast (c : Cond)

/-- A call of `add` on the builder of `ChildLimits`. -/
inductive LimitRule where
  | add (limit : Path → Int)
  | addMatching (c : Cond) (limit : Int)

/-- A call of `add` (or `addLineBreak`) on the builder of `LineExtensions`. -/
inductive ExtRule where
  | add (extension : Path → Option JStr)
  | addMatching (c : Cond) (extension : JStr)
  | addLineBreak (c : Cond)

/-- A call on an emoji mapping builder. -/
inductive IconCall where
  | setDefaultDirectoryEmoji (e : JStr)
  | setDirectoryNameEmoji (n e : JStr)
  | addDirectoryEmoji (c : Cond) (e : JStr)
  | setDefaultFileEmoji (e : JStr)
  | setFileNameEmoji (n e : JStr)
  | setFileExtensionEmoji (x e : JStr)
  | addFileEmoji (c : Cond) (e : JStr)

/-- A call of a setter of `PrettyPrintOptions`, with the builder calls that make its argument. -/
inductive Choice where
  | withMaxDepth (n : Int)
  | withCompactDirectories (b : Bool)
  /-- a tree format created from four symbols -/
  | withTreeFormat (nonLast last cont empty : JStr)
  | filterDirectories (c : Cond)
  | filterFiles (c : Cond)
  /-- an own comparator, or one of those of `PathSorts` -/
  | sort (c : Cmp)
  /-- `PathSorts.builder()` with these calls -/
  | sortBy (rules : List SortRule)
  | withChildLimit (n : Int)
  /-- an own function -/
  | withChildLimitFn (f : Path → Int)
  /-- `ChildLimits.builder()`, `setDefault(n)`, and these calls -/
  | withChildLimits (n : Int) (rules : List LimitRule)
  | withDefaultEmojis
  /-- an own function; `none` is null -/
  | withEmojiFn (f : Path → Option JStr)
  /-- `EmojiMapping.builderFromDefault()` or `EmojiMapping.builderFromBlank()`, with these calls -/
  | withEmojis (fromDefault : Bool) (calls : List IconCall)
  /-- an own function; `none` is null -/
  | withLineExtensionFn (f : Path → Option JStr)
  /-- `LineExtensions.builder()` with these calls -/
  | withLineExtension (rules : List ExtRule)

/-! ### What they ask for -/

open Classical in
/-- The condition holds. -/
noncomputable def Cond.truth (w : Place) (c : Cond) (p : Path) : Bool := decide (c.holds w p)

/-- The precedence a rule gives to a path; 0 is none. -/
noncomputable def SortRule.says (w : Place) : SortRule → Path → Int
  | .add f, p => f p
  | .addMatching c n, p => if c.truth w p then n else 0
  | .addFirst c, p => if c.truth w p then -2147483648 else 0
  | .addLast c, p => if c.truth w p then 2147483647 else 0

/-- The precedence of a path: that of the first rule that gives one, otherwise 0. -/
noncomputable def rank (w : Place) (rules : List SortRule) (p : Path) : Int :=
  match rules.find? (fun r => decide (r.says w p ≠ 0)) with
  | some r => r.says w p
  | none => 0

/-- The limit a rule gives to a directory; negative is none. -/
noncomputable def LimitRule.says (w : Place) : LimitRule → Path → Int
  | .add f, p => f p
  | .addMatching c n, p => if c.truth w p then n else -1

/-- The limit of a directory: that of the first rule that gives one, otherwise none. (The default limit counts only if there are no rules: C29.) -/
noncomputable def limitOf (w : Place) (n : Int) (rules : List LimitRule) (p : Path) : Int :=
  match rules.find? (fun r => decide (0 ≤ r.says w p)) with
  | some r => r.says w p
  | none => if rules.isEmpty then n else -1

/-- The extension a rule gives to a path. -/
noncomputable def ExtRule.says (w : Place) : ExtRule → Path → Option JStr
  | .add f, p => f p
  | .addMatching c x, p => if c.truth w p then some x else none
  | .addLineBreak c, p => if c.truth w p then some [] else none

/-- The emoji call, with the sets of paths of the conditions. -/
noncomputable def IconCall.said (w : Place) : IconCall → EmojiCall
  | .setDefaultDirectoryEmoji e => .setDefaultDirectoryEmoji e
  | .setDirectoryNameEmoji n e => .setDirectoryNameEmoji n e
  | .addDirectoryEmoji c e => .addDirectoryEmoji (c.truth w) e
  | .setDefaultFileEmoji e => .setDefaultFileEmoji e
  | .setFileNameEmoji n e => .setFileNameEmoji n e
  | .setFileExtensionEmoji x e => .setFileExtensionEmoji x e
  | .addFileEmoji c e => .addFileEmoji (c.truth w) e

/-- The emoji of a path after these calls. -/
def iconOf (lower : JStr → JStr) (isDir : Path → Bool) (calls : List EmojiCall) (p : Path) : JStr :=
  if isDir p then dirEmoji lower calls p else fileEmoji lower calls p ((p.names.getLast?.map fun n => extensions (lower n)).getD [])

/-- The emoji calls, after those of the default mapping if this is the start. -/
noncomputable def iconCalls (w : Place) (fromDefault : Bool) (calls : List IconCall) : List EmojiCall :=
  (if fromDefault then defaultCalls else []) ++ calls.map (IconCall.said w)

/-- The settings after a call. -/
noncomputable def Choice.choose (w : Place) (S : Settings) : Choice → Settings
  | .withMaxDepth n => { S with maxDepth := n }
  | .withCompactDirectories b => { S with compact := b }
  | .withTreeFormat nonLast last cont empty => { S with branch := nonLast, lastBranch := last, bar := cont, blank := empty }
  | .filterDirectories c => { S with showDir := c.truth w }
  | .filterFiles c => { S with showFile := c.truth w }
  | .sort c => { S with order := c }
  | .sortBy rules => { S with order := fun p q => if rank w rules p < rank w rules q then -1 else if rank w rules p = rank w rules q then 0 else 1 }
  | .withChildLimit n => { S with limit := fun _ => n }
  | .withChildLimitFn f => { S with limit := f }
  | .withChildLimits n rules => { S with limit := limitOf w n rules }
  | .withDefaultEmojis => { S with emoji := fun p => some (iconOf w.casing.lower w.fs.isDir defaultCalls p) }
  | .withEmojiFn f => { S with emoji := f }
  | .withEmojis fromDefault calls => { S with emoji := fun p => some (iconOf w.casing.lower w.fs.isDir (iconCalls w fromDefault calls) p) }
  | .withLineExtensionFn f => { S with ext := f }
  | .withLineExtension rules => { S with ext := fun p => rules.findSome? fun r => r.says w p }

/-- The settings after a sequence of calls on new options. -/
noncomputable def chosenBy (w : Place) (cs : List Choice) : Settings := cs.foldl (Choice.choose w) standard

/-! ### Which calls succeed -/

def SortRule.Good (w : Place) : SortRule → Prop
  | .add _ => True
  | .addMatching c _ => c.Good w
  | .addFirst c => c.Good w
  | .addLast c => c.Good w

def LimitRule.Good (w : Place) : LimitRule → Prop
  | .add _ => True
  | .addMatching c _ => c.Good w

def ExtRule.Good (w : Place) : ExtRule → Prop
  | .add _ => True
  | .addMatching c _ => c.Good w
  | .addLineBreak c => c.Good w

/-- The condition of an emoji call can be made. -/
def IconCall.Good (w : Place) : IconCall → Prop
  | .addDirectoryEmoji c _ => c.Good w
  | .addFileEmoji c _ => c.Good w
  | _ => True

/-- No two names of directories, no two names of files and no two extensions that differ only in case are set. -/
def NoClash (lower : JStr → JStr) (calls : List EmojiCall) : Prop :=
  ¬ CaseClash lower (calls.filterMap EmojiCall.asDirName) ∧ ¬ CaseClash lower (calls.filterMap EmojiCall.asFileName) ∧ ¬ CaseClash lower (calls.filterMap EmojiCall.asFileExt)

/-- The call does not throw. -/
def Choice.Good (w : Place) : Choice → Prop
  | .withTreeFormat nonLast last cont empty => last.length = nonLast.length ∧ cont.length = nonLast.length ∧ empty.length = nonLast.length
  | .filterDirectories c => c.Good w
  | .filterFiles c => c.Good w
  | .sortBy rules => ∀ r ∈ rules, r.Good w
  | .withChildLimits _ rules => ∀ r ∈ rules, r.Good w
  | .withDefaultEmojis => NoClash w.casing.lower defaultCalls
  | .withEmojis fromDefault calls => (∀ c ∈ calls, c.Good w) ∧ NoClash w.casing.lower (iconCalls w fromDefault calls)
  | .withLineExtension rules => ∀ r ∈ rules, r.Good w
  | _ => True

/-! ### The calls -/

/-- The rules of a sort builder are a list. -/
def SortRule.call (w : Place) (orders : List (Path → Except Exn Int)) : SortRule → Except Exn (List (Path → Except Exn Int))
  | .add f => .ok (LiveSorts.add orders fun p => .ok (f p))
  | .addMatching c n => do return LiveSorts.addMatching orders (← c.make w) n
  | .addFirst c => do return LiveSorts.addFirst orders (← c.make w)
  | .addLast c => do return LiveSorts.addLast orders (← c.make w)

def LimitRule.call (w : Place) (b : ChildLimitBuilder (Except Exn)) : LimitRule → Except Exn (ChildLimitBuilder (Except Exn))
  | .add f => .ok (b.add fun p => .ok (f p))
  | .addMatching c n => do return b.addMatching (← c.make w) n

def ExtRule.call (w : Place) (b : LineExtensionBuilder (Except Exn)) : ExtRule → Except Exn (LineExtensionBuilder (Except Exn))
  | .add f => .ok (b.add fun p => .ok (f p))
  | .addMatching c x => do return b.addMatching (← c.make w) x
  | .addLineBreak c => do return b.addLineBreak (← c.make w)

def IconCall.call (w : Place) (b : EmojiMappingBuilder (Except Exn)) : IconCall → Except Exn (EmojiMappingBuilder (Except Exn))
  | .setDefaultDirectoryEmoji e => .ok (b.setDefaultDirectoryEmoji e)
  | .setDirectoryNameEmoji n e => .ok (b.setDirectoryNameEmoji n e)
  | .addDirectoryEmoji c e => do return b.addDirectoryEmoji (← c.make w) e
  | .setDefaultFileEmoji e => .ok (b.setDefaultFileEmoji e)
  | .setFileNameEmoji n e => .ok (b.setFileNameEmoji n e)
  | .setFileExtensionEmoji x e => .ok (b.setFileExtensionEmoji x e)
  | .addFileEmoji c e => do return b.addFileEmoji (← c.make w) e

/-- An options object; its comparator, which may throw, is kept apart (the one in `options` is not used). -/
structure Object where
  options : Options (Except Exn)
  comparator : CmpM (Except Exn)

/-- A new options object. -/
def Object.createDefault : Object := ⟨Options.createDefault, LiveSorts.ALPHABETICAL⟩

/-- The same object with other options. -/
def Object.set (ob : Object) (f : Options (Except Exn) → Options (Except Exn)) : Object := { ob with options := f ob.options }

/-- options/PrettyPrintOptions.java:171-174 -/
def Object.sort (ob : Object) (c : CmpM (Except Exn)) : Object := { ob with comparator := LiveSorts.thenComparing c LiveSorts.ALPHABETICAL }

/-- A call of a setter on an options object. -/
def Choice.call (w : Place) (ob : Object) : Choice → Except Exn Object
  | .withMaxDepth n => .ok (ob.set (·.withMaxDepth n))
  | .withCompactDirectories b => .ok (ob.set (·.withCompactDirectories b))
  | .withTreeFormat nonLast last cont empty => do
    let f ← TreeFormat.create nonLast last cont empty
    return ob.set (·.withTreeFormat f)
  | .filterDirectories c => do
    let mt ← c.make w
    return ob.set (·.filterDirectories mt)
  | .filterFiles c => do
    let mt ← c.make w
    return ob.set (·.filterFiles mt)
  | .sort c => .ok (ob.sort fun a b => .ok (c a b))
  | .sortBy rules => do
    let orders ← rules.foldlM (SortRule.call w) []
    return ob.sort (LiveSorts.built orders)
  | .withChildLimit n => .ok (ob.set (·.withChildLimit n))
  | .withChildLimitFn f => .ok (ob.set (·.withChildLimitFn fun p => .ok (f p)))
  | .withChildLimits n rules => do
    let b ← rules.foldlM (LimitRule.call w) (ChildLimits.builder.setDefault n)
    return ob.set (·.withChildLimitFn (b.build.applyAsInt b))
  | .withDefaultEmojis => do
    let o ← Options.withDefaultEmojis w.casing w.fs.lift ob.options
    return ob.set fun _ => o
  | .withEmojiFn f => .ok (ob.set (·.withEmojis fun p => .ok (f p)))
  | .withEmojis fromDefault calls => do
    let b ← calls.foldlM (IconCall.call w) (if fromDefault then EmojiMappingBuilder.newDefaultInstance else EmojiMappingBuilder.newBlankInstance)
    let e ← b.build w.casing
    return ob.set (·.withEmojis (e.getPathEmoji w.fs.lift b))
  | .withLineExtensionFn f => .ok (ob.set (·.withLineExtension (some fun p => .ok (f p))))
  | .withLineExtension rules => do
    let b ← rules.foldlM (ExtRule.call w) LineExtensions.builder
    return ob.set (·.withLineExtension (some (b.build.apply b)))

/-- The options object after a sequence of calls on a new one. -/
def calls (w : Place) (cs : List Choice) : Except Exn Object := cs.foldlM (Choice.call w) Object.createDefault

/-- `prettyPrint(p)` of a printer with these options, with the sort of the JDK. -/
def Object.print (w : Place) (ob : Object) (p : Path) : Except Exn JStr :=
  LiveScanner.prettyPrint TimSort.sort ob.comparator w.fs.lift w.cwd ob.options p

end OnePage
end Spec
end JFTP
