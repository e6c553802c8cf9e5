import Verif.Spec.Visit
import Verif.Spec.Threads
import Verif.Model.Sorting

/-
Where an exception of a call may come from.
-/

namespace JFTP
namespace Spec

/-- A kind of computation of which it is known how it may end: with a value or with an exception. -/
class Outcomes (m : Type → Type) [Monad m] [MonadExceptOf Exn m] where
  May : {α : Type} → m α → Except Exn α → Prop
  pure : ∀ {α : Type} {a : α} {r : Except Exn α}, May (pure a : m α) r → r = .ok a
  throw : ∀ {α : Type} {e : Exn} {r : Except Exn α}, May (throw e : m α) r → r = .error e
  bind : ∀ {α β : Type} {x : m α} {f : α → m β} {r : Except Exn β}, May (x >>= f) r →
    (∃ a, May x (.ok a) ∧ May (f a) r) ∨ ∃ e, May x (.error e) ∧ r = .error e

/-- Nothing changes during the call: there is one outcome. -/
instance : Outcomes (Except Exn) where
  May x r := x = r
  pure h := h.symm
  throw h := h.symm
  bind {α β x f r} h := by
    cases x with
    | error e => exact .inr ⟨e, rfl, h.symm⟩
    | ok a => exact .inl ⟨a, rfl, h⟩

/-- The world may be in any state when the computation starts. -/
instance (σ : Type) : Outcomes (ExceptT Exn (StateM σ)) where
  May x r := ∃ s s', (ExceptT.run x).run s = (r, s')
  pure := by rintro α a r ⟨s, s', h⟩; cases h; rfl
  throw := by rintro α e r ⟨s, s', h⟩; cases h; rfl
  bind := by
    rintro α β x f r ⟨s, s', h⟩
    rw [ExceptT.run_bind, StateT.run_bind] at h
    generalize hx : (ExceptT.run x).run s = y at h
    obtain ⟨q, s1⟩ := y
    cases q with
    | error e => cases h; exact .inr ⟨e, ⟨s, _, hx⟩, rfl⟩
    | ok a => exact .inl ⟨a, ⟨s, _, hx⟩, ⟨s1, _, h⟩⟩

/-- The state of the world may be changed by others at each step. -/
instance (σ : Type) : Outcomes (Res σ) where
  May x r := x.MayEnd r
  pure := by intro α a r h; cases h; rfl
  throw := by intro α e r h; cases h; rfl
  bind := by
    intro α β x f r h
    have h : (x.bind f).MayEnd r := h
    induction x with
    | done q =>
      cases q with
      | ok a => exact .inl ⟨a, .done, h⟩
      | error e =>
        cases h
        exact .inr ⟨e, .done, rfl⟩
    | step eff next ih =>
      cases h with
      | step h =>
        rcases ih _ h h with ⟨a, h1, h2⟩ | ⟨e, h1, h2⟩
        · exact .inl ⟨a, .step h1, h2⟩
        · exact .inr ⟨e, .step h1, h2⟩

variable {m : Type → Type} [Monad m] [MonadExceptOf Exn m] [Outcomes m]

/-- `x` may return `a`. -/
def CanReturn {α : Type} (x : m α) (a : α) : Prop := Outcomes.May x (.ok a)

/-- `x` may throw `e`. -/
def CanThrow {α : Type} (x : m α) (e : Exn) : Prop := Outcomes.May x (.error e)

/-- The path is the printed one, or some listing of some directory may contain it. -/
def Known (fs : Fs m) (top q : Path) : Prop := q = top ∨ ∃ d cs bad, CanReturn (fs.listDir d) (.opened cs bad) ∧ q ∈ cs

/-- The reasons for which a call that prints `top` may throw `e`. -/
inductive Cause (fs : Fs m) (o : Options m) (top : Path) : Exn → Prop where
  /-- a directory cannot be opened: `UncheckedIOException` -/
  | list {d} : Known fs top d → CanReturn (fs.isDir d) true → CanReturn (fs.listDir d) .openFailed → Cause fs o top (.cannotList d)
  /-- reading a directory fails in the middle: `DirectoryIteratorException` -/
  | iteration {d cs} : Known fs top d → CanReturn (fs.isDir d) true → CanReturn (fs.listDir d) (.opened cs true) → Cause fs o top (.dirIteration d)
  /-- the attributes of something that is not a directory cannot be read: `UncheckedIOException` -/
  | attrs {q} : Known fs top q → CanReturn (fs.isDir q) false → CanReturn (fs.readAttrs q) none → Cause fs o top (.cannotReadAttrs q)
  /-- a path without a name has to be printed: `NullPointerException` -/
  | name {q} : Known fs top q → q.names = [] → Cause fs o top .nullPointer
  /-- the file system throws something else (e.g. `SecurityException`) -/
  | access {q e} : Known fs top q → CanThrow (fs.isDir q) e ∨ CanThrow (fs.listDir q) e ∨ CanThrow (fs.readAttrs q) e → Cause fs o top e
  /-- a callback throws -/
  | limit {q e} : Known fs top q → CanThrow (o.childLimit q) e → Cause fs o top e
  | dirFilter {q e} : Known fs top q → CanReturn (fs.isDir q) true → CanThrow (o.dirMatcher q) e → Cause fs o top e
  | fileFilter {q e} : Known fs top q → CanReturn (fs.isDir q) false → CanThrow (o.fileMatcher q) e → Cause fs o top e
  | emoji {q e} : Known fs top q → CanThrow (o.emojiMapping q) e → Cause fs o top e
  | extension {q f e} : Known fs top q → o.lineExtension = some f → CanThrow (f q) e → Cause fs o top e

/-- As before, with a comparator that may throw: then it throws for two entries of one directory; or the sort of the JDK complains that the comparator violates its contract, which needs 32 entries. -/
inductive SortCause (fs : Fs m) (o : Options m) (c : CmpM m) (top : Path) : Exn → Prop where
  | other {e} : Cause fs o top e → SortCause fs o c top e
  | compare {d cs bad a b e} : Known fs top d → CanReturn (fs.listDir d) (.opened cs bad) → a ∈ cs → b ∈ cs → CanThrow (c a b) e → SortCause fs o c top e
  | contract {d cs bad} : Known fs top d → CanReturn (fs.listDir d) (.opened cs bad) → 32 ≤ cs.length → SortCause fs o c top .illegalArgument

/-- Exceptions of the callback satisfy `E`. -/
def Only {α : Type} (E : Exn → Prop) (f : Path → m α) : Prop := ∀ q e, CanThrow (f q) e → E e

/-- `Files.walk` fails: `UncheckedIOException`. -/
def WalkFault (fs : Fs m) (e : Exn) : Prop :=
  ∃ q, e = .cannotWalk q ∧ (CanReturn (fs.lstat q) none ∨ CanReturn (fs.listDir q) .openFailed ∨ ∃ cs, CanReturn (fs.listDir q) (.opened cs true))

/-- The file system throws something that is not an `IOException`. -/
def AccessThrows (fs : Fs m) (e : Exn) : Prop :=
  ∃ q, CanThrow (fs.isDir q) e ∨ CanThrow (fs.listDir q) e ∨ CanThrow (fs.readAttrs q) e ∨ CanThrow (fs.isRegular q) e ∨ CanThrow (fs.isLink q) e ∨ CanThrow (fs.lstat q) e

/-- The matchers that can be made with the factories of `PathMatchers` from the matchers `user`. -/
inductive LibMatcher (fs : Fs m) (cwd : Path) (user : Matcher m → Prop) : Matcher m → Prop where
  | user {mt} : user mt → LibMatcher fs cwd user mt
  | not {mt} : LibMatcher fs cwd user mt → LibMatcher fs cwd user (PathMatchers.not mt)
  | allOf {ms mt} : (∀ x ∈ ms, LibMatcher fs cwd user x) → PathMatchers.allOf ms = .ok mt → LibMatcher fs cwd user mt
  | anyOf {ms mt} : (∀ x ∈ ms, LibMatcher fs cwd user x) → PathMatchers.anyOf ms = .ok mt → LibMatcher fs cwd user mt
  | noneOf {ms mt} : (∀ x ∈ ms, LibMatcher fs cwd user x) → PathMatchers.noneOf ms = .ok mt → LibMatcher fs cwd user mt
  | ifMatchesThenElse {i t e} : LibMatcher fs cwd user i → LibMatcher fs cwd user t → LibMatcher fs cwd user e → LibMatcher fs cwd user (PathMatchers.ifMatchesThenElse i t e)
  | absolute {mt} : LibMatcher fs cwd user mt → LibMatcher fs cwd user (PathMatchers.hasAbsolutePathMatching cwd mt)
  | relative {ref mt} : LibMatcher fs cwd user mt → LibMatcher fs cwd user (PathMatchers.hasRelativePathMatching cwd ref mt)
  | absoluteGlob {glob g mt} : PathMatchers.hasAbsolutePathMatchingGlob glob cwd g = .ok mt → LibMatcher fs cwd user mt
  | relativeGlob {glob ref g mt} : PathMatchers.hasRelativePathMatchingGlob glob cwd ref g = .ok mt → LibMatcher fs cwd user mt
  | nameGlob {glob g mt} : PathMatchers.hasNameMatchingGlob glob g = .ok mt → LibMatcher fs cwd user mt
  | name {n} : LibMatcher fs cwd user (PathMatchers.hasName n)
  | nameIgnoreCase {cs n} : LibMatcher fs cwd user (PathMatchers.hasNameIgnoreCase cs n)
  | namePattern {r} : LibMatcher fs cwd user (PathMatchers.hasNameMatching r)
  | startingWith {n} : LibMatcher fs cwd user (PathMatchers.hasNameStartingWith n)
  | endingWith {n} : LibMatcher fs cwd user (PathMatchers.hasNameEndingWith n)
  | extension {n} : LibMatcher fs cwd user (PathMatchers.hasExtension n)
  | isDirectory : LibMatcher fs cwd user (PathMatchers.isDirectory fs)
  | isFile : LibMatcher fs cwd user (PathMatchers.isFile fs)
  | isRegularFile : LibMatcher fs cwd user (PathMatchers.isRegularFile fs)
  | isSymbolicLink : LibMatcher fs cwd user (PathMatchers.isSymbolicLink fs)
  | parent {mt} : LibMatcher fs cwd user mt → LibMatcher fs cwd user (PathMatchers.hasDirectParentMatching mt)
  | ancestor {mt} : LibMatcher fs cwd user mt → LibMatcher fs cwd user (PathMatchers.hasAnyAncestorMatching mt)
  | child {mt} : LibMatcher fs cwd user mt → LibMatcher fs cwd user (PathMatchers.hasAnyDirectChildMatching fs mt)
  | descendant {mt} : LibMatcher fs cwd user mt → LibMatcher fs cwd user (PathMatchers.hasAnyDescendantMatching fs mt)
  | sibling {mt} : LibMatcher fs cwd user mt → LibMatcher fs cwd user (PathMatchers.hasSiblingMatching fs mt)

/-- The exceptions of a call when the callbacks throw only exceptions that satisfy `E`. -/
inductive Expected (fs : Fs m) (E : Exn → Prop) : Exn → Prop where
  | list {d} : CanReturn (fs.isDir d) true → CanReturn (fs.listDir d) .openFailed → Expected fs E (.cannotList d)
  | iteration {d cs} : CanReturn (fs.isDir d) true → CanReturn (fs.listDir d) (.opened cs true) → Expected fs E (.dirIteration d)
  | attrs {q} : CanReturn (fs.isDir q) false → CanReturn (fs.readAttrs q) none → Expected fs E (.cannotReadAttrs q)
  | access {e} : AccessThrows fs e → Expected fs E e
  | callback {e} : E e → Expected fs E e

/-- No access to the file system fails. -/
structure NoFailure (fs : Fs m) : Prop where
  opens : ∀ d, CanReturn (fs.isDir d) true → ¬ CanReturn (fs.listDir d) .openFailed
  reads : ∀ d cs, CanReturn (fs.isDir d) true → ¬ CanReturn (fs.listDir d) (.opened cs true)
  attrs : ∀ q, CanReturn (fs.isDir q) false → ¬ CanReturn (fs.readAttrs q) none
  access : ∀ e, ¬ AccessThrows fs e

end Spec
end JFTP
