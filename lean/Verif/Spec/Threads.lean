import Verif.Spec.Under

/-
Threads. A running call is a resumption: it has ended, or its next atomic step reads and changes the state of the world (file system, objects behind
callbacks), after which it goes on. Other threads and other processes may do anything between two steps.
-/

namespace JFTP
namespace Spec

/-- A computation that may be interrupted after each atomic step. -/
inductive Res (σ : Type) (α : Type) : Type where
  | done (r : Except Exn α)
  | step (eff : σ → σ) (next : σ → Res σ α)

namespace Res
variable {σ α β : Type}

/-- One computation after the other. -/
def bind (f : α → Res σ β) : Res σ α → Res σ β
  | .done (.ok a) => f a
  | .done (.error e) => .done (.error e)
  | .step eff next => .step eff (fun s => (next s).bind f)

/-- `try`/`catch`. -/
def handle (h : Exn → Res σ α) : Res σ α → Res σ α
  | .done (.ok a) => .done (.ok a)
  | .done (.error e) => h e
  | .step eff next => .step eff (fun s => (next s).handle h)

instance : Monad (Res σ) where
  pure a := .done (.ok a)
  bind x f := x.bind f

instance : MonadExceptOf Exn (Res σ) where
  throw e := .done (.error e)
  tryCatch x h := x.handle h

/-- A single atomic step that ends with a result. -/
def atomic (f : σ → Except Exn α × σ) : Res σ α := .step (fun s => (f s).2) (fun s => .done (f s).1)

/-- The computation may end with `r` when the state may be anything at each step. -/
inductive MayEnd : Res σ α → Except Exn α → Prop where
  | done {r} : MayEnd (.done r) r
  | step {eff next s r} : MayEnd (next s) r → MayEnd (.step eff next) r

/-- However it is interrupted, the computation can only end with `r`. -/
def Settled (x : Res σ α) (r : Except Exn α) : Prop := ∀ r', MayEnd x r' → r' = r

end Res

/-- The state of the world and of all threads. -/
structure Config (σ ι α : Type) where
  state : σ
  threads : ι → Res σ α

/-- One step: of the thread `i` (label `some i`), or of somebody else, who may do anything to the state of the world (label `none`). -/
inductive Step {σ ι α : Type} : Option ι → Config σ ι α → Config σ ι α → Prop where
  | thread {i eff next} {c c' : Config σ ι α} : c.threads i = .step eff next → c'.state = eff c.state → c'.threads i = next c.state →
      (∀ j, j ≠ i → c'.threads j = c.threads j) → Step (some i) c c'
  | other {c c' : Config σ ι α} : c'.threads = c.threads → Step none c c'

/-- Any number of steps, in any order of the threads. -/
inductive Steps {σ ι α : Type} : Config σ ι α → Config σ ι α → Prop where
  | refl {c} : Steps c c
  | tail {c c' c'' l} : Steps c c' → Step l c' c'' → Steps c c''

/-- What the world may answer at some moment, in threads. -/
def answersMay {σ : Type} (fs : Fs (Res σ)) (o : ScanOpts (Res σ)) : Answers where
  isDir p b := (fs.isDir p).MayEnd (.ok b)
  list p cs := (fs.listDir p).MayEnd (.ok (.opened cs false))
  attrs p a := (fs.readAttrs p).MayEnd (.ok (some a))
  limit p n := (o.childLimit p).MayEnd (.ok n)
  keep p b := (o.pathFilter p).MayEnd (.ok b)

/-- What the callbacks may answer at some moment, in threads. -/
def looksMay {σ : Type} (o : Options (Res σ)) : LookR where
  emoji p x := (o.emojiMapping p).MayEnd (.ok x)
  compact b := o.compactDirectories = b
  ext p y := match o.lineExtension with
    | none => y = none
    | some g => (g p).MayEnd (.ok y)

/-- The accesses and callbacks of threads have fixed answers: those of the file system `f` and of the options `o'`. -/
structure FixedAnswers {σ : Type} (fs : Fs (Res σ)) (o : Options (Res σ)) (f : PureFs) (o' : Options (Except Exn)) : Prop where
  isDir : ∀ p, (fs.isDir p).Settled (.ok (f.isDir p))
  listDir : ∀ p, (fs.listDir p).Settled (.ok (f.listDir p))
  readAttrs : ∀ p, (fs.readAttrs p).Settled (.ok (f.readAttrs p))
  childLimit : ∀ p, (o.childLimit p).Settled (o'.childLimit p)
  treeFormat : o.treeFormat = o'.treeFormat
  emojiMapping : ∀ p, (o.emojiMapping p).Settled (o'.emojiMapping p)
  compactDirectories : o.compactDirectories = o'.compactDirectories
  maxDepth : o.maxDepth = o'.maxDepth
  pathComparator : o.pathComparator = o'.pathComparator
  dirMatcher : ∀ p, (o.dirMatcher p).Settled (o'.dirMatcher p)
  fileMatcher : ∀ p, (o.fileMatcher p).Settled (o'.fileMatcher p)
  lineExtension : match o.lineExtension, o'.lineExtension with
    | none, none => True
    | some g, some g' => ∀ p, (g p).Settled (g' p)
    | _, _ => False

/-- A callback of threads that has fixed answers (or fixed exceptions). -/
def Fixed {σ α : Type} (f : Path → Res σ α) (g : Path → Except Exn α) : Prop := ∀ p, (f p).Settled (g p)

end Spec
end JFTP
