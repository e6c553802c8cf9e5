import Verif.Model.Printer

/-
What a history of calls means for an option, without any store: the last call of the setter decides.
-/

namespace JFTP
namespace Spec

variable {m : Type → Type}

/-- The value given by the last call picked out by `pick`, or the initial value. -/
def lastVal {α β : Type} (pick : α → Option β) (initial : β) : List α → β
  | [] => initial
  | s :: ss => lastVal pick ((pick s).getD initial) ss

def asChildLimit : Setter m → Option (Path → m Int) | .childLimit f => some f | _ => none
def asTreeFormat : Setter m → Option TreeFormat | .treeFormat f => some f | _ => none
def asEmojis : Setter m → Option (EmojiFn m) | .emojis e => some e | _ => none
def asCompact : Setter m → Option Bool | .compactDirectories c => some c | _ => none
def asMaxDepth : Setter m → Option Int | .maxDepth d => some d | _ => none
def asSort : Setter m → Option Cmp | .sort c => some c | _ => none
def asDirFilter : Setter m → Option (Matcher m) | .filterDirectories f => some f | _ => none
def asFileFilter : Setter m → Option (Matcher m) | .filterFiles f => some f | _ => none
def asExtension : Setter m → Option (Option (ExtFn m)) | .lineExtension e => some e | _ => none

/-- The setter calls made on options object `r` in a history, in order. -/
def callsOn (r : Nat) : List (Op m) → List (Setter m)
  | [] => []
  | .set r' s :: ops => if r' = r then s :: callsOn r ops else callsOn r ops
  | _ :: ops => callsOn r ops

/-- The calls that still matter for a printer that is already built. -/
def stillMatters : Setter m → Bool
  | .treeFormat _ => false
  | .emojis _ => false
  | _ => true

end Spec
end JFTP
