import Verif.Model.LiveOptions
import Verif.Spec.Under
import Verif.Spec.Streams

/-
What may be printed when the options object is modified while the call is running.
-/

namespace JFTP
namespace Spec

/-- The action may return `a` at some moment (in some state of the world). -/
def Sometime {σ α : Type} (x : WorldM σ α) (a : α) : Prop := ∃ s s', (ExceptT.run x).run s = (.ok a, s')

mutual
/-- `ScannedLive A C M k p e`: like `Scanned`, but every directory may have been sorted by another one of the comparators `C` and compared with another one of the depth limits `M`. -/
inductive ScannedLive (A : Answers) (C : Cmp → Prop) (M : Int → Prop) : Nat → Path → TreeEntry → Prop where
  | file {k : Nat} {p a} : A.isDir p false → A.attrs p a → ScannedLive A C M k p (.file p a)
  | tooDeep {k : Nat} {p d} : A.isDir p true → M d → d ≤ k → ScannedLive A C M k p (.dir p [.maxDepth k])
  | dir {k : Nat} {p d c n cs ks srt es} : A.isDir p true → M d → (k : Int) < d → A.limit p n → A.list p cs → Kept A cs ks → C c →
      srt.Perm ks → srt.Pairwise (fun a b => c a b ≤ 0) → ScannedLiveAll A C M (k + 1) (limitTo n srt) es →
      ScannedLive A C M k p (.dir p (es ++ moreMark n srt p))
/-- The same for lists. -/
inductive ScannedLiveAll (A : Answers) (C : Cmp → Prop) (M : Int → Prop) : Nat → List Path → List TreeEntry → Prop where
  | nil {k} : ScannedLiveAll A C M k [] []
  | cons {k p ps e es} : ScannedLive A C M k p e → ScannedLiveAll A C M k ps es → ScannedLiveAll A C M k (p :: ps) (e :: es)
end

/-- What the world may answer, with the filter `filter`; the child limit function may be another one every time. -/
def liveAnswers {σ : Type} (fs : Fs (WorldM σ)) (g : LiveOpts (WorldM σ)) (filter : Matcher (WorldM σ)) : Answers where
  isDir p b := Sometime (fs.isDir p) b
  list p cs := Sometime (fs.listDir p) (.opened cs false)
  attrs p a := Sometime (fs.readAttrs p) (some a)
  limit p n := ∃ f, Sometime g.getChildLimit f ∧ Sometime (f p) n
  keep p b := Sometime (filter p) b

/-- The depth limits that may be read. -/
def liveDepths {σ : Type} (g : LiveOpts (WorldM σ)) (d : Int) : Prop := ∃ i, Sometime g.getMaxDepth i ∧ d = i.toInt

/-- What the callbacks may answer: the emoji mapping is the one of the printer, the extension function (`none`: null) may be another one every time. -/
def liveLooks {σ : Type} (pr : Printer (WorldM σ)) (g : LiveOpts (WorldM σ)) : LookR where
  emoji p x := Sometime (pr.lineRenderer.emojiMapping p) x
  compact b := Sometime g.areCompactDirectoriesUsed b
  ext p y := (Sometime g.getLineExtension none ∧ y = none) ∨ ∃ f, Sometime g.getLineExtension (some f) ∧ Sometime (f p) y

/-- An options object that is in state `o` and never modified. -/
def unchanged {m : Type → Type} [Monad m] [MonadExceptOf Exn m] (fs : Fs m) (o : Options m) : LiveOpts m where
  getMaxDepth := pure (Int32.ofInt o.maxDepth)
  getChildLimit := pure o.childLimit
  pathComparator := pure o.pathComparator
  pathFilter := pure (o.pathFilter fs)
  areCompactDirectoriesUsed := pure o.compactDirectories
  getLineExtension := pure o.lineExtension

/-- Read a part of the state. -/
def readState {σ α : Type} (f : σ → α) : WorldM σ α := ExceptT.mk fun s => (.ok (f s), s)

/-- One thread: reading the options object does not change anything, and nothing changes between two reads but what the callbacks do. `obj s` are the fields of the options object
in state `s` of the world. -/
def oneThread {σ : Type} (fs : Fs (WorldM σ)) (obj : σ → Options (WorldM σ)) : LiveOpts (WorldM σ) where
  getMaxDepth := readState fun s => Int32.ofInt (obj s).maxDepth
  getChildLimit := readState fun s => (obj s).childLimit
  pathComparator := readState fun s => (obj s).pathComparator
  pathFilter := readState fun s => (obj s).pathFilter fs
  areCompactDirectoriesUsed := readState fun s => (obj s).compactDirectories
  getLineExtension := readState fun s => (obj s).lineExtension

end Spec
end JFTP
