import Verif.Spec.Scan
import Verif.Spec.Items
import Verif.Model.Printer

/-
What a run of the printer has to look at, which paths it displays and at which depth. Independent of the scanner's code.
-/

namespace JFTP
namespace Spec

/-- The answers of a stable file system together with printing options whose callbacks are functions of the path (and may throw):
directories are tested with the directory filter, everything else with the file filter. -/
def answers (fs : PureFs) (o : Options (Except Exn)) : Answers where
  isDir p b := fs.isDir p = b
  list p cs := fs.listDir p = .opened cs false
  attrs p a := fs.readAttrs p = some a
  limit p n := o.childLimit p = .ok n
  keep p b := (if fs.isDir p = true then o.dirMatcher p else o.fileMatcher p) = .ok b

/-- The absolute normalized form of the printed path. -/
def target (cwd p : Path) : Path := (p.toAbsolutePath cwd).normalize

/-- The entry tree behind a call `prettyPrint(p)` (what is displayed for it is described by `ShowsTop`, see C01). -/
def scanned (fs : PureFs) (cwd : Path) (o : Options (Except Exn)) (p : Path) : Except Exn TreeEntry :=
  Scanner.scan fs.lift (o.toScan fs.lift) cwd (target cwd p)

/-- `Visited A c maxDepth k0 p0 k q`: a run that starts with `p0` at depth `k0` has to look at `q` at depth `k`: `q` is `p0`, or it
is among the first `n` (child limit) filtered and sorted entries of a visited directory above the depth limit. -/
inductive Visited (A : Answers) (c : Cmp) (maxDepth : Int) (k0 : Nat) (p0 : Path) : Nat → Path → Prop where
  | top : Visited A c maxDepth k0 p0 k0 p0
  | child {k d n cs ks srt q} : Visited A c maxDepth k0 p0 k d → A.isDir d true → (k : Int) < maxDepth → A.limit d n → A.list d cs →
      Kept A cs ks → srt.Perm ks → srt.Pairwise (fun a b => c a b ≤ 0) → q ∈ limitTo n srt → Visited A c maxDepth k0 p0 (k + 1) q

/-- `DisplayedAt fs o top k q`: filters alone decide: `q` is the printed path `top` (depth 0), or it is listed in a displayed directory and passes the
directory filter (if it is a directory) or the file filter (otherwise). -/
inductive DisplayedAt (fs : PureFs) (o : Options (Except Exn)) (top : Path) : Nat → Path → Prop where
  | top : DisplayedAt fs o top 0 top
  | child {k d cs q} : DisplayedAt fs o top k d → fs.isDir d = true → fs.listDir d = .opened cs false → q ∈ cs →
      (fs.isDir q = true → o.dirMatcher q = .ok true) → (fs.isDir q = false → o.fileMatcher q = .ok true) →
      DisplayedAt fs o top (k + 1) q

/-- `BelowAt n e t`: `e` is an entry of `t`, `n` levels below it. -/
inductive BelowAt (e : TreeEntry) : Nat → TreeEntry → Prop where
  | here : BelowAt e 0 e
  | inside {d es x n} : x ∈ es → BelowAt e n x → BelowAt e (n + 1) (.dir d es)

/-- `limitLe n k`: the child limit `k` is at least as generous as `n` (negative means no limit). -/
def limitLe (n k : Int) : Prop := k < 0 ∨ (0 ≤ n ∧ n ≤ k)

mutual
/-- Cut an entry tree whose top is at depth `k` at depth `d`: directories at depth `d` only contain the marker. -/
def cut (d : Nat) : Nat → TreeEntry → TreeEntry
  | k, .dir p es => if d ≤ k then .dir p [.maxDepth k] else .dir p (cutAll d (k + 1) es)
  | _, .file p a => .file p a
  | _, .skipped p => .skipped p
  | _, .maxDepth n => .maxDepth n
/-- The same for lists. -/
def cutAll (d : Nat) : Nat → List TreeEntry → List TreeEntry
  | _, [] => []
  | k, e :: es => cut d k e :: cutAll d k es
end

mutual
/-- `Extends e e'`: `e'` is `e` with, in some directories that had a child-limit marker, more children appended after the ones already there (the marker is then kept at
the end or removed). -/
inductive Extends : TreeEntry → TreeEntry → Prop where
  | file {p a} : Extends (.file p a) (.file p a)
  | tooDeep {p k} : Extends (.dir p [.maxDepth k]) (.dir p [.maxDepth k])
  | complete {p es es'} : ExtendsAll es es' → Extends (.dir p es) (.dir p es')
  | more {p es es' extra} {mark : List TreeEntry} : ExtendsAll es es' → mark = [] ∨ mark = [.skipped p] →
      Extends (.dir p (es ++ [.skipped p])) (.dir p (es' ++ extra ++ mark))
/-- Entry by entry. -/
inductive ExtendsAll : List TreeEntry → List TreeEntry → Prop where
  | nil : ExtendsAll [] []
  | cons {e e' es es'} : Extends e e' → ExtendsAll es es' → ExtendsAll (e :: es) (e' :: es')
end

/-- A path that has to be visited cannot be read; `x` is the exception this causes. -/
inductive Failing (fs : PureFs) (maxDepth : Int) (k : Nat) (q : Path) : Exn → Prop where
  | attrs : fs.isDir q = false → fs.readAttrs q = none → Failing fs maxDepth k q (.cannotReadAttrs q)
  | list : fs.isDir q = true → (k : Int) < maxDepth → fs.listDir q = .openFailed → Failing fs maxDepth k q (.cannotList q)
  | iter {cs} : fs.isDir q = true → (k : Int) < maxDepth → fs.listDir q = .opened cs true → Failing fs maxDepth k q (.dirIteration q)

/-- `fs'` answers like `fs` whatever a run that looks at `q` at depth `k` asks about it. -/
structure SameAt (fs fs' : PureFs) (maxDepth : Int) (k : Nat) (q : Path) : Prop where
  isDir : fs'.isDir q = fs.isDir q
  attrs : fs.isDir q = false → fs'.readAttrs q = fs.readAttrs q
  list : fs.isDir q = true → (k : Int) < maxDepth → fs'.listDir q = fs.listDir q
  kids : fs.isDir q = true → (k : Int) < maxDepth → ∀ cs bad, fs.listDir q = .opened cs bad → ∀ x ∈ cs, fs'.isDir x = fs.isDir x

/-- Attributes are read following links, so they never say "symbolic link" (contract of `Files.readAttributes` without `NOFOLLOW_LINKS`). -/
def FollowsLinks (fs : PureFs) : Prop := ∀ p a, fs.readAttrs p = some a → a.isSymbolicLink = false

/-- Two file systems with the same content, whose directories are listed in possibly different orders. -/
structure SameContent (fs fs' : PureFs) : Prop where
  isDir : ∀ p, fs'.isDir p = fs.isDir p
  attrs : ∀ p, fs'.readAttrs p = fs.readAttrs p
  list : ∀ p, (fs.listDir p = .openFailed ∧ fs'.listDir p = .openFailed) ∨
    ∃ cs cs' bad, fs.listDir p = .opened cs bad ∧ fs'.listDir p = .opened cs' bad ∧ cs'.Perm cs

end Spec
end JFTP

namespace JFTP
namespace Spec

/-- The path passes the filter for its kind. -/
def passes (fs : PureFs) (o : Options (Except Exn)) (q : Path) : Bool :=
  match (if fs.isDir q = true then o.dirMatcher q else o.fileMatcher q) with
  | .ok b => b
  | .error _ => false

/-- What the world may answer at some moment of an execution with side effects and concurrent changes (states `σ`). -/
def answersSometime {σ : Type} (fs : Fs (ExceptT Exn (StateM σ))) (o : ScanOpts (ExceptT Exn (StateM σ))) : Answers where
  isDir p b := ∃ s s', (ExceptT.run (fs.isDir p)).run s = (.ok b, s')
  list p cs := ∃ s s', (ExceptT.run (fs.listDir p)).run s = (.ok (.opened cs false), s')
  attrs p a := ∃ s s', (ExceptT.run (fs.readAttrs p)).run s = (.ok (some a), s')
  limit p n := ∃ s s', (ExceptT.run (o.childLimit p)).run s = (.ok n, s')
  keep p b := ∃ s s', (ExceptT.run (o.pathFilter p)).run s = (.ok b, s')

end Spec
end JFTP

namespace JFTP
namespace Spec

mutual
/-- `GrowsAt d e e'`: `e'` is exactly `e`, except that the directory `d`, if it had a child-limit marker, may have more children after the ones it had
(and then the marker or no marker). -/
inductive GrowsAt (d : Path) : TreeEntry → TreeEntry → Prop where
  | same {e} : GrowsAt d e e
  | inside {p es es'} : p ≠ d → GrowsAllAt d es es' → GrowsAt d (.dir p es) (.dir p es')
  | here {es extra} {mark : List TreeEntry} : mark = [] ∨ mark = [.skipped d] →
      GrowsAt d (.dir d (es ++ [.skipped d])) (.dir d (es ++ extra ++ mark))
/-- Entry by entry. -/
inductive GrowsAllAt (d : Path) : List TreeEntry → List TreeEntry → Prop where
  | nil : GrowsAllAt d [] []
  | cons {e e' es es'} : GrowsAt d e e' → GrowsAllAt d es es' → GrowsAllAt d (e :: es) (e' :: es')
end

end Spec
end JFTP
