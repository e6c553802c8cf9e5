import Verif.Model.Sorting
import Verif.Spec.Scan
import Verif.Spec.Visit
import Verif.Spec.Streams

/-
The contract of the JDK's sort (`java.util.Arrays.sort(T[], Comparator)`).
-/

namespace JFTP
namespace Spec

/-- The run may return `l`, for some answers of the comparator. -/
inductive MayReturn {α : Type} : SortRun α → α → Prop where
  | done {x} : MayReturn (.done x) x
  | ask {a b next n x} : MayReturn (next n) x → MayReturn (.ask a b next) x

/-- The run may throw, for some answers of the comparator. -/
inductive MayFail {α : Type} : SortRun α → Prop where
  | fail : MayFail .fail
  | ask {a b next n} : MayFail (next n) → MayFail (.ask a b next)

/-- The comparator is only called with elements of `l`, and no array is accessed outside of its bounds (there is no case for `crash`). -/
inductive AsksAbout {α : Type} (l : List Path) : SortRun α → Prop where
  | done {x} : AsksAbout l (.done x)
  | fail : AsksAbout l .fail
  | ask {a b next} : a ∈ l → b ∈ l → (∀ n, AsksAbout l (next n)) → AsksAbout l (.ask a b next)

/-- `Returns c run x`: with the comparator `c` the run returns `x`. -/
inductive Returns {α : Type} (c : Cmp) : SortRun α → α → Prop where
  | done {x} : Returns c (.done x) x
  | ask {a b next x} : Returns c (next (c a b)) x → Returns c (.ask a b next) x

/-- `l'` is `l` sorted in a stable way: same elements, ascending, and elements that compare equal stay in their order. -/
structure StablySorted (c : Cmp) (l l' : List Path) : Prop where
  perm : l'.Perm l
  ascending : l'.Pairwise (fun a b => c a b ≤ 0)
  stable : ∀ x, l'.filter (fun y => c x y = 0) = l.filter (fun y => c x y = 0)

/-- The contract of the sort for the list `l`: whatever the comparator answers, it only permutes, calls it for elements of `l` only, and does not throw an
`ArrayIndexOutOfBoundsException`; with a comparator that obeys its own contract it returns the stably sorted list. -/
structure Sorts (run : SortRun (List Path)) (l : List Path) : Prop where
  permutes : ∀ l', MayReturn run l' → l'.Perm l
  asks : AsksAbout l run
  sorts : ∀ c, LawfulCmp c → ∃ l', Returns c run l' ∧ StablySorted c l l'

/-- The computation throws `e` in some state of the world. -/
def Raises {σ α : Type} (x : WorldM σ α) (e : Exn) : Prop := ∃ s s', (ExceptT.run x).run s = (.error e, s')

/-- `ScanFault fs o c e`: something that may make scanning with the comparator `c` throw `e`. -/
inductive ScanFault {σ : Type} (fs : Fs (WorldM σ)) (o : ScanOpts (WorldM σ)) (c : CmpM (WorldM σ)) : Exn → Prop where
  /-- an access throws by itself -/
  | isDir {p e} : Raises (fs.isDir p) e → ScanFault fs o c e
  | list {p e} : Raises (fs.listDir p) e → ScanFault fs o c e
  | attrs {p e} : Raises (fs.readAttrs p) e → ScanFault fs o c e
  /-- a directory cannot be opened -/
  | cannotList {p s s'} : (ExceptT.run (fs.listDir p)).run s = (.ok .openFailed, s') → ScanFault fs o c (.cannotList p)
  /-- reading an opened directory fails -/
  | iteration {p cs s s'} : (ExceptT.run (fs.listDir p)).run s = (.ok (.opened cs true), s') → ScanFault fs o c (.dirIteration p)
  /-- the attributes of a file cannot be read -/
  | cannotReadAttrs {p s s'} : (ExceptT.run (fs.readAttrs p)).run s = (.ok none, s') → ScanFault fs o c (.cannotReadAttrs p)
  /-- a callback throws -/
  | limit {p e} : Raises (o.childLimit p) e → ScanFault fs o c e
  | filter {p e} : Raises (o.pathFilter p) e → ScanFault fs o c e
  /-- the comparator throws for two entries of one listing -/
  | compare {d cs a b e} : (answersSometime fs o).list d cs → a ∈ cs → b ∈ cs → Raises (c a b) e → ScanFault fs o c e
  /-- the sort complains about the comparator: only with 32 entries to sort or more -/
  | contract {d cs ks} : (answersSometime fs o).list d cs → Kept (answersSometime fs o) cs ks → 32 ≤ ks.length → ScanFault fs o c .illegalArgument

end Spec
end JFTP
