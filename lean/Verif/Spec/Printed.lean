import Verif.Spec.Items
import Verif.Model.Printer

/-
What a returned text displays, for callbacks that are functions of the path and may throw.
-/

namespace JFTP
namespace Spec

/-- The answer of a callback; `null` if it throws (a callback that is used and throws makes the whole call throw, so this case is never displayed). -/
def answerOf (r : Except Exn (Option JStr)) : Option JStr :=
  match r with
  | .ok x => x
  | .error _ => none

/-- The look of callbacks that may throw. -/
def LookM.total (L : LookM (Except Exn)) : Look := ⟨fun p => answerOf (L.emoji p), L.compact, fun p => answerOf (L.ext p)⟩

/-- The look of printing options: the answers of their emoji mapping and extension function, and the compact switch. -/
def lookOf (o : Options (Except Exn)) : Look where
  emoji p := answerOf (o.emojiMapping p)
  compact := o.compactDirectories
  ext p := match o.lineExtension with
    | none => none
    | some g => answerOf (g p)

/-- `Prints o t T s`: under the options `o` the text `s` is the standard picture of the entry tree `t`, whose displayed lines are the items of `T`. -/
structure Prints (o : Options (Except Exn)) (t : TreeEntry) (T : ITree) (s : JStr) : Prop where
  named : Named t
  shows : ShowsTop (lookOf o) t T
  text : s = picture o.treeFormat (T.toDisp (lookOf o))

/-- No displayed name, emoji or extension contains a line feed. -/
structure CleanText (o : Options (Except Exn)) (t : TreeEntry) : Prop where
  names : ∀ q ∈ entryPaths t, (10 : JChar) ∉ lastName q
  emojis : ∀ q ∈ entryPaths t, ∀ e, (lookOf o).emoji q = some e → (10 : JChar) ∉ e
  exts : ∀ q ∈ entryPaths t, ∀ x, (lookOf o).ext q = some x → (10 : JChar) ∉ x

end Spec
end JFTP
