import Verif.Spec.Choices

/-
Whole programs that use the library: they make options, builders and printers, share them, change them at any time, and print. A program is a list of statements; an object is named by the number
of the statement that made it. What each printing statement asks for is read off the history, without a store of objects.
-/

namespace JFTP
namespace Spec
namespace Programs
open OnePage

/-- A call of a setter of an options object: with an argument made on the spot, or with the object that statement `v` built. -/
inductive SetCall where
  | plain (c : Choice)
  | sort (v : Nat)
  | withChildLimit (v : Nat)
  | withLineExtension (v : Nat)
  | withEmojis (v : Nat)

inductive Stmt where
  /-- `PrettyPrintOptions.createDefault()` -/
  | newOptions
  /-- `FileTreePrettyPrinter.builder()`; its own options object has the same number -/
  | newPrinterBuilder
  /-- a call of a setter of options object `o` -/
  | set (o : Nat) (c : SetCall)
  /-- `withOptions`. (`customizeOptions(f)` is the calls that `f` makes, and `withOptions` with what it returns.) -/
  | withOptions (b o : Nat)
  /-- `build()` of a printer builder -/
  | buildPrinter (b : Nat)
  /-- `PathSorts.builder()` -/
  | newSorts
  | addSort (b : Nat) (r : SortRule)
  | buildSorts (b : Nat)
  /-- `ChildLimits.builder(n)` -/
  | newLimits (n : Int)
  | setDefaultLimit (b : Nat) (n : Int)
  | addLimit (b : Nat) (r : LimitRule)
  | buildLimits (b : Nat)
  /-- `LineExtensions.builder()` -/
  | newExtensions
  | addExtension (b : Nat) (r : ExtRule)
  | buildExtensions (b : Nat)
  /-- `EmojiMapping.builderFromDefault()` or `EmojiMapping.builderFromBlank()` -/
  | newEmojis (fromDefault : Bool)
  | emoji (b : Nat) (c : IconCall)
  | buildEmojis (b : Nat)
  /-- `prettyPrint(p)` of printer `k` -/
  | print (k : Nat) (p : Path)

/-! ### Histories -/

/-- The setter calls on an options object. -/
def setCalls (P : List Stmt) (o : Nat) : List SetCall := P.filterMap fun | .set o' c => if o' = o then some c else none | _ => none

/-- The rules added to a sort builder. -/
def addedSorts (P : List Stmt) (b : Nat) : List SortRule := P.filterMap fun | .addSort b' r => if b' = b then some r else none | _ => none

/-- The rules added to a child limit builder. -/
def addedLimits (P : List Stmt) (b : Nat) : List LimitRule := P.filterMap fun | .addLimit b' r => if b' = b then some r else none | _ => none

/-- The rules added to a line extension builder. -/
def addedExtensions (P : List Stmt) (b : Nat) : List ExtRule := P.filterMap fun | .addExtension b' r => if b' = b then some r else none | _ => none

/-- The calls on an emoji builder. -/
def emojiCalls (P : List Stmt) (b : Nat) : List IconCall := P.filterMap fun | .emoji b' c => if b' = b then some c else none | _ => none

/-- The default limits set on a child limit builder. -/
def defaultLimits (P : List Stmt) (b : Nat) : List Int := P.filterMap fun | .setDefaultLimit b' n => if b' = b then some n else none | _ => none

/-- The options objects given to a printer builder. -/
def givenOptions (P : List Stmt) (b : Nat) : List Nat := P.filterMap fun | .withOptions b' o => if b' = b then some o else none | _ => none

/-- The default limit of a child limit builder: the last one set, otherwise the one it was made with. -/
def defaultLimit (P : List Stmt) (b : Nat) : Int :=
  match (defaultLimits P b).getLast?, P[b]? with
  | some n, _ => n
  | none, some (.newLimits n) => n
  | none, _ => -1

/-- The options object of a printer builder: the last one given to it, otherwise its own. -/
def currentOptions (P : List Stmt) (b : Nat) : Nat := (givenOptions P b).getLast?.getD b

/-- The emoji builder has been made from the default mapping. -/
def fromDefault (P : List Stmt) (b : Nat) : Bool := match P[b]? with | some (.newEmojis d) => d | _ => false

/-! ### What a program asks for -/

/-- The call adds a condition. -/
def _root_.JFTP.Spec.OnePage.IconCall.addsCondition : IconCall → Bool
  | .addDirectoryEmoji _ _ => true
  | .addFileEmoji _ _ => true
  | _ => false

/-- What a setter call means after the history `P`. The object that statement `v` has built from builder `b` has the rules that `b` had then; but the default limit is the present one of `b`, and
conditions that have been added to the emoji builder since then count as well. -/
def SetCall.meaning (P : List Stmt) : SetCall → Choice
  | .plain c => c
  | .sort v => match P[v]? with | some (.buildSorts b) => .sortBy (addedSorts (P.take v) b) | _ => .sortBy []
  | .withChildLimit v => match P[v]? with | some (.buildLimits b) => .withChildLimits (defaultLimit P b) (addedLimits (P.take v) b) | _ => .withChildLimit (-1)
  | .withLineExtension v => match P[v]? with | some (.buildExtensions b) => .withLineExtension (addedExtensions (P.take v) b) | _ => .withLineExtension []
  | .withEmojis v => match P[v]? with
    | some (.buildEmojis b) => .withEmojis (fromDefault P b) (emojiCalls (P.take v) b ++ (emojiCalls (P.drop v) b).filter IconCall.addsCondition)
    | _ => .withEmojis false []

/-- The call matters to printers that exist already. -/
def _root_.JFTP.Spec.OnePage.Choice.mattersLater : Choice → Bool
  | .withTreeFormat .. => false
  | .withDefaultEmojis => false
  | .withEmojiFn _ => false
  | .withEmojis _ _ => false
  | _ => true

/-- What printer `k` is asked for after the history `P`: the calls on its options object, except for calls that choose symbols or emojis after the printer was built. -/
def asked (P : List Stmt) (k : Nat) : List Choice :=
  match P[k]? with
  | some (.buildPrinter b) =>
    let o := currentOptions (P.take k) b
    (setCalls (P.take k) o).map (SetCall.meaning P) ++ ((setCalls (P.drop k) o).map (SetCall.meaning P)).filter Choice.mattersLater
  | _ => []

/-! ### Which programs run to the end -/

/-- `o` is an options object. -/
def IsOptions (P : List Stmt) (o : Nat) : Prop := P[o]? = some .newOptions ∨ P[o]? = some .newPrinterBuilder

/-- The setter call does not throw. -/
def SetCall.Good (w : Place) (P : List Stmt) : SetCall → Prop
  | .plain c => c.Good w
  | .sort v => ∃ b, P[v]? = some (.buildSorts b)
  | .withChildLimit v => ∃ b, P[v]? = some (.buildLimits b)
  | .withLineExtension v => ∃ b, P[v]? = some (.buildExtensions b)
  | .withEmojis v => ∃ b, P[v]? = some (.buildEmojis b)

/-- After the history `P`, the statement uses objects that exist and does not throw (printing may throw). -/
def Stmt.Good (w : Place) (P : List Stmt) : Stmt → Prop
  | .newOptions => True
  | .newPrinterBuilder => True
  | .set o c => IsOptions P o ∧ c.Good w P
  | .withOptions b o => P[b]? = some .newPrinterBuilder ∧ IsOptions P o
  | .buildPrinter b => P[b]? = some .newPrinterBuilder
  | .newSorts => True
  | .addSort b r => P[b]? = some .newSorts ∧ r.Good w
  | .buildSorts b => P[b]? = some .newSorts
  | .newLimits _ => True
  | .setDefaultLimit b _ => ∃ n, P[b]? = some (.newLimits n)
  | .addLimit b r => (∃ n, P[b]? = some (.newLimits n)) ∧ r.Good w
  | .buildLimits b => ∃ n, P[b]? = some (.newLimits n)
  | .newExtensions => True
  | .addExtension b r => P[b]? = some .newExtensions ∧ r.Good w
  | .buildExtensions b => P[b]? = some .newExtensions
  | .newEmojis _ => True
  | .emoji b c => (∃ d, P[b]? = some (.newEmojis d)) ∧ c.Good w
  | .buildEmojis b => ∃ d, P[b]? = some (.newEmojis d) ∧ NoClash w.casing.lower (iconCalls w d (emojiCalls P b))
  | .print k _ => ∃ b, P[k]? = some (.buildPrinter b)

/-! ### Running a program -/

/-- The fields of an options object. If a child limit or emojis that come from a builder have been set, they are kept apart with the number of the builder, since they read it when they are called;
otherwise they are in `ob`. -/
structure Fields where
  ob : Object
  limits : Option (ChildLimitBuilder.Built (Except Exn) × Nat)
  emojis : Option (EmojiMapping × Nat)

/-- What a statement leaves in the store. -/
inductive Cell where
  /-- nothing: the statement is a call -/
  | unit
  | options (x : Fields)
  /-- a printer builder, with its own options object and the number of its present options object (FileTreePrettyPrinterBuilder.java:35-39) -/
  | printerBuilder (own : Fields) (current : Nat)
  /-- a printer: the number of its options object, and the fields of this object when the printer was built; only the symbols and the emojis are used (see `Printer`) -/
  | printer (o : Nat) (then_ : Fields)
  | sortBuilder (orders : List (Path → Except Exn Int))
  | sorts (c : CmpM (Except Exn))
  | limitBuilder (b : ChildLimitBuilder (Except Exn))
  | limits (f : ChildLimitBuilder.Built (Except Exn)) (b : Nat)
  | extBuilder (b : LineExtensionBuilder (Except Exn))
  | exts (f : LineExtensionBuilder.Built (Except Exn))
  | emojiBuilder (b : EmojiMappingBuilder (Except Exn))
  | emojis (f : EmojiMapping) (b : Nat)
  | printed (r : Except Exn JStr)

/-- The store: what statement `i` leaves is at place `i`. -/
abbrev Heap := List Cell

/-- A new options object. -/
def Fields.createDefault : Fields := ⟨Object.createDefault, none, none⟩

/-- The call sets the child limit. -/
def _root_.JFTP.Spec.OnePage.Choice.setsLimit : Choice → Bool
  | .withChildLimit _ => true
  | .withChildLimitFn _ => true
  | .withChildLimits _ _ => true
  | _ => false

/-- The call sets the emojis. -/
def _root_.JFTP.Spec.OnePage.Choice.setsEmojis : Choice → Bool
  | .withDefaultEmojis => true
  | .withEmojiFn _ => true
  | .withEmojis _ _ => true
  | _ => false

/-- A setter call (options/PrettyPrintOptions.java); `look` finds objects in the store. `none`: it throws, or there is no such object. -/
def Fields.call (w : Place) (look : Nat → Option Cell) (x : Fields) : SetCall → Option Fields
  | .plain c => match c.call w x.ob with
    | .ok ob => some ⟨ob, if c.setsLimit then none else x.limits, if c.setsEmojis then none else x.emojis⟩
    | .error _ => none
  | .sort v => match look v with
    | some (.sorts c) => some { x with ob := x.ob.sort c }
    | _ => none
  | .withChildLimit v => match look v with
    | some (.limits f b) => some { x with limits := some (f, b) }
    | _ => none
  | .withLineExtension v => match look v with
    | some (.exts f) => some { x with ob := x.ob.set (·.withLineExtension (some (f.apply LineExtensions.builder))) }
    | _ => none
  | .withEmojis v => match look v with
    | some (.emojis f b) => some { x with emojis := some (f, b) }
    | _ => none

/-- The child limit function, reading its builder in the store. -/
def Fields.limitFn (heap : Heap) (x : Fields) : Path → Except Exn Int :=
  match x.limits with
  | none => x.ob.options.childLimit
  | some (f, b) => match heap[b]? with
    | some (.limitBuilder live) => f.applyAsInt live
    | _ => x.ob.options.childLimit

/-- The emoji function, reading its builder in the store. -/
def Fields.emojiFn (w : Place) (heap : Heap) (x : Fields) : EmojiFn (Except Exn) :=
  match x.emojis with
  | none => x.ob.options.emojiMapping
  | some (f, b) => match heap[b]? with
    | some (.emojiBuilder live) => f.getPathEmoji w.fs.lift live
    | _ => x.ob.options.emojiMapping

/-- The options object as a printer sees it now. -/
def Fields.now (w : Place) (heap : Heap) (x : Fields) : Object :=
  { x.ob with options := { x.ob.options with childLimit := x.limitFn heap, emojiMapping := x.emojiFn w heap } }

/-- An options object in the store. -/
def Heap.options (heap : Heap) (o : Nat) : Option Fields :=
  match heap[o]? with
  | some (.options x) => some x
  | some (.printerBuilder x _) => some x
  | _ => none

/-- The store with changed options. -/
def Heap.putOptions (heap : Heap) (o : Nat) (x : Fields) : Heap :=
  match heap[o]? with
  | some (.printerBuilder _ current) => heap.set o (.printerBuilder x current)
  | _ => heap.set o (.options x)

/-- The result of a call, or `none` if it throws. -/
def orNone {α : Type} : Except Exn α → Option α
  | .ok a => some a
  | .error _ => none

/-- One statement. `none`: it throws, or there is no such object. -/
def step (w : Place) (heap : Heap) : Stmt → Option Heap
  | .newOptions => some (heap ++ [.options Fields.createDefault])
  | .newPrinterBuilder => some (heap ++ [.printerBuilder Fields.createDefault heap.length])
  | .set o c => do
    let x ← heap.options o
    let x ← x.call w (heap[·]?) c
    return heap.putOptions o x ++ [.unit]
  | .withOptions b o => do
    let _ ← heap.options o
    match heap[b]? with
    | some (.printerBuilder own _) => some (heap.set b (.printerBuilder own o) ++ [.unit])
    | _ => none
  | .buildPrinter b => match heap[b]? with
    | some (.printerBuilder _ o) => do
      let x ← heap.options o
      return heap ++ [.printer o x]
    | _ => none
  | .newSorts => some (heap ++ [.sortBuilder []])
  | .addSort b r => match heap[b]? with
    | some (.sortBuilder orders) => do
      let orders ← orNone (r.call w orders)
      return heap.set b (.sortBuilder orders) ++ [.unit]
    | _ => none
  | .buildSorts b => match heap[b]? with
    | some (.sortBuilder orders) => some (heap ++ [.sorts (LiveSorts.built orders)])
    | _ => none
  | .newLimits n => some (heap ++ [.limitBuilder (ChildLimits.builder n)])
  | .setDefaultLimit b n => match heap[b]? with
    | some (.limitBuilder lb) => some (heap.set b (.limitBuilder (lb.setDefault n)) ++ [.unit])
    | _ => none
  | .addLimit b r => match heap[b]? with
    | some (.limitBuilder lb) => do
      let lb ← orNone (r.call w lb)
      return heap.set b (.limitBuilder lb) ++ [.unit]
    | _ => none
  | .buildLimits b => match heap[b]? with
    | some (.limitBuilder lb) => some (heap ++ [.limits lb.build b])
    | _ => none
  | .newExtensions => some (heap ++ [.extBuilder LineExtensions.builder])
  | .addExtension b r => match heap[b]? with
    | some (.extBuilder eb) => do
      let eb ← orNone (r.call w eb)
      return heap.set b (.extBuilder eb) ++ [.unit]
    | _ => none
  | .buildExtensions b => match heap[b]? with
    | some (.extBuilder eb) => some (heap ++ [.exts eb.build])
    | _ => none
  | .newEmojis d => some (heap ++ [.emojiBuilder (if d then EmojiMappingBuilder.newDefaultInstance else EmojiMappingBuilder.newBlankInstance)])
  | .emoji b c => match heap[b]? with
    | some (.emojiBuilder eb) => do
      let eb ← orNone (c.call w eb)
      return heap.set b (.emojiBuilder eb) ++ [.unit]
    | _ => none
  | .buildEmojis b => match heap[b]? with
    | some (.emojiBuilder eb) => do
      let f ← orNone (eb.build w.casing)
      return heap ++ [.emojis f b]
    | _ => none
  | .print k p => match heap[k]? with
    | some (.printer o x0) => do
      let x ← heap.options o
      return heap ++ [.printed (LiveScanner.printWith TimSort.sort (x.now w heap).comparator w.fs.lift w.cwd (Printer.build (x0.now w heap).options) (x.now w heap).options p)]
    | _ => none

/-- The store after the program; `none`: a statement throws (other than by printing), or uses an object that does not exist. -/
def run (w : Place) (P : List Stmt) : Option Heap := P.foldlM (step w) []

end Programs
end Spec
end JFTP
