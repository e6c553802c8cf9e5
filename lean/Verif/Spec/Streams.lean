import Verif.Model.Streams

/-
Records of opened and closed streams.
-/

namespace JFTP
namespace Spec

/-- A stream was opened or closed for the path. -/
inductive Ev where
  | opened (p : Path)
  | closed (p : Path)
deriving DecidableEq

/-- `Nested n w`: in the record `w` every opened stream is closed, once, for the same path and in reverse order of opening; never more than `n` are open at the same time. -/
inductive Nested : Nat → List Ev → Prop where
  | nil {n} : Nested n []
  | stream {n p inside after} : Nested n inside → Nested (n + 1) after → Nested (n + 1) (.opened p :: inside ++ .closed p :: after)

/-- Computations in a world with state `σ` (whatever happens outside: other processes, callbacks). -/
abbrev WorldM (σ : Type) := ExceptT Exn (StateM σ)

/-- The same with a record of streams. -/
abbrev StreamM (σ : Type) := ExceptT Exn (StateM (List Ev × σ))

/-- An action of the world that opens and closes no streams of the library. -/
def outside {σ α : Type} (x : WorldM σ α) : StreamM σ α :=
  ExceptT.mk (fun st => let r := (ExceptT.run x).run st.2; (r.1, (st.1, r.2)))

/-- Add to the record. -/
def emit {σ : Type} (e : Ev) : StreamM σ Unit := modify (fun st => (st.1 ++ [e], st.2))

/-- Record an opening if it succeeds. -/
def openRecorded {σ : Type} (x : WorldM σ Listing) (p : Path) : StreamM σ Listing := do
  match ← outside x with
  | .openFailed => return .openFailed
  | .opened cs bad => do
    emit (.opened p)
    return .opened cs bad

/-- The file system with recorded streams. `close()` is recorded when it is called, whether it fails or not. -/
def recordedFs {σ : Type} (fs : StreamFs (WorldM σ)) : StreamFs (StreamM σ) where
  isDir p := outside (fs.isDir p)
  listDir p := outside (fs.listDir p)
  readAttrs p := outside (fs.readAttrs p)
  isRegular p := outside (fs.isRegular p)
  isLink p := outside (fs.isLink p)
  lstat p := outside (fs.lstat p)
  openDir p := openRecorded (fs.openDir p) p
  closeDir p := do emit (.closed p); outside (fs.closeDir p)
  openWalk p := openRecorded (fs.openWalk p) p
  closeWalk p := do emit (.closed p); outside (fs.closeWalk p)

/-- From every state, whether `x` returns or throws, what it adds to the record is nested with at most `n` streams open at the same time. -/
def Closes {σ α : Type} (n : Nat) (x : StreamM σ α) : Prop :=
  ∀ l s, ∃ w, ((ExceptT.run x).run (l, s)).2.1 = l ++ w ∧ Nested n w

/-- The callbacks close what they open, with at most `k` streams open at the same time. -/
structure ClosingCallbacks {σ : Type} (k : Nat) (o : Options (StreamM σ)) : Prop where
  childLimit : ∀ p, Closes k (o.childLimit p)
  dirMatcher : ∀ p, Closes k (o.dirMatcher p)
  fileMatcher : ∀ p, Closes k (o.fileMatcher p)
  emojiMapping : ∀ p, Closes k (o.emojiMapping p)
  lineExtension : ∀ g, o.lineExtension = some g → ∀ p, Closes k (g p)

/-- A stable file system whose directory streams fail to close for the paths where `closes` is `false`. -/
def stableStreams {m : Type → Type} [Monad m] (fs : PureFs) (closes : Path → Bool) : StreamFs m where
  toFs := fs.lift
  openDir p := pure (fs.listDir p)
  closeDir p := pure (closes p)
  openWalk p := pure (fs.listDir p)
  closeWalk _ := pure ()

/-- The directory `d` occurs in the tree with its content, not cut off by the depth limit. -/
inductive ListedIn (d : Path) : TreeEntry → Prop where
  | here {es} : (∀ k, es ≠ [.maxDepth k]) → ListedIn d (.dir d es)
  | deeper {p es e} : e ∈ es → ListedIn d e → ListedIn d (.dir p es)

end Spec
end JFTP
