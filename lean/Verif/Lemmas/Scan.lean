import Verif.Spec.Scan
import Mathlib.Data.List.Sort

/-
The scanner satisfies the specification, in every monad with a notion of postcondition.
-/

namespace JFTP.Spec

/-! ### Postconditions -/

/-- Monads with exceptions in which one can say "if the computation returns, its result satisfies `P`". -/
class PostMonad (m : Type → Type) [Monad m] [MonadExceptOf Exn m] where
  Post : {α : Type} → m α → (α → Prop) → Prop
  pure : ∀ {α : Type} {a : α} {P : α → Prop}, P a → Post (pure a : m α) P
  bind : ∀ {α β : Type} {x : m α} {f : α → m β} {P : α → Prop} {Q : β → Prop}, Post x P → (∀ a, P a → Post (f a) Q) → Post (x >>= f) Q
  throw : ∀ {α : Type} {e : Exn} {P : α → Prop}, Post (throw e : m α) P
  mono : ∀ {α : Type} {x : m α} {P Q : α → Prop}, Post x P → (∀ a, P a → Q a) → Post x Q

/-- Stable file system and callbacks. -/
instance : PostMonad (Except Exn) where
  Post x P := ∀ a, x = .ok a → P a
  pure h a e := by cases e; exact h
  bind {α β x f P Q} h1 h2 b hb := by
    cases x with
    | error e => cases hb
    | ok a => exact h2 a (h1 a rfl) b hb
  throw a h := by cases h
  mono h hpq a ha := hpq a (h a ha)

/-- Arbitrary side effects, arbitrary changes between accesses. -/
instance (σ : Type) : PostMonad (ExceptT Exn (StateM σ)) where
  Post x P := ∀ s a s', (ExceptT.run x).run s = (.ok a, s') → P a
  pure h s a s' e := by cases e; exact h
  bind {α β x f P Q} h1 h2 s b s' hb := by
    rw [ExceptT.run_bind, StateT.run_bind] at hb
    have h1 := h1 s
    revert h1 hb
    rcases (ExceptT.run x).run s with ⟨r, s1⟩
    intro hb h1
    cases r with
    | error e => cases hb
    | ok a => exact h2 a (h1 a s1 rfl) s1 b s' hb
  throw s a s' h := by cases h
  mono h hpq s a s' ha := hpq a (h s a s' ha)

open PostMonad

/-! ### Sorting -/

theorem LawfulCmp.total {c : Cmp} (h : LawfulCmp c) (a b : Path) : c a b ≤ 0 ∨ c b a ≤ 0 := by
  by_cases hab : c a b ≤ 0
  · exact .inl hab
  · right
    have : c b a < 0 := (h.antisymm b a).2 (by omega)
    omega

theorem streamSorted_perm (c : Cmp) (l : List Path) : (streamSorted c l).Perm l := List.mergeSort_perm _ _

theorem streamSorted_sorted {c : Cmp} (h : LawfulCmp c) (l : List Path) : (streamSorted c l).Pairwise (fun a b => c a b ≤ 0) := by
  have := List.pairwise_mergeSort (le := fun a b => decide (c a b ≤ 0)) ?_ ?_ l
  · exact this.imp (fun h => by simpa using h)
  · intro a b d; simpa using h.trans a b d
  · intro a b; simpa using h.total a b

/-! ### Soundness -/

section
variable {m : Type → Type} [Monad m] [MonadExceptOf Exn m] [PostMonad m]

/-- The answers in `A` cover everything the accesses and callbacks may return. -/
structure Covers (A : Answers) (fs : Fs m) (o : ScanOpts m) : Prop where
  isDir : ∀ p, Post (fs.isDir p) (A.isDir p)
  list : ∀ p, Post (fs.listDir p) (fun r => ∀ cs, r = .opened cs false → A.list p cs)
  attrs : ∀ p, Post (fs.readAttrs p) (fun r => ∀ a, r = some a → A.attrs p a)
  limit : ∀ p, Post (o.childLimit p) (A.limit p)
  keep : ∀ p, Post (o.pathFilter p) (A.keep p)

variable {A : Answers} {fs : Fs m} {o : ScanOpts m} (hA : Covers A fs o)

include hA in
theorem post_filterEntries (cs : List Path) : Post (Scanner.filterEntries o.pathFilter cs) (fun ks => Kept A cs ks) := by
  induction cs with
  | nil => exact PostMonad.pure .nil
  | cons c cs ih =>
    unfold Scanner.filterEntries
    refine PostMonad.bind (hA.keep c) (fun b hb => PostMonad.bind ih (fun ks hk => PostMonad.pure ?_))
    cases b with
    | true => exact .keep hb hk
    | false => exact .drop hb hk

theorem post_childLoop (c : Cmp) (maxDepth : Int) (k : Nat) (visit : Path → m TreeEntry)
    (hv : ∀ p, Post (visit p) (Scanned A c maxDepth k p)) (n : Int) (ps : List Path) : ∀ i : Nat,
    Post (Scanner.childLoop visit n i ps) (fun r =>
      ∃ shown, ps = shown ++ r.2 ∧ ScannedAll A c maxDepth k shown r.1 ∧
        (n < 0 → r.2 = []) ∧ (0 ≤ n → shown = ps.take (n - i).toNat)) := by
  induction ps with
  | nil =>
    intro i
    exact PostMonad.pure ⟨[], rfl, .nil, fun _ => rfl, fun _ => by simp⟩
  | cons p ps ih =>
    intro i
    unfold Scanner.childLoop
    dsimp only
    split
    · rename_i h
      refine PostMonad.pure ⟨[], rfl, .nil, fun hn => by omega, fun _ => ?_⟩
      have : (n - i).toNat = 0 := by omega
      simp [this]
    · rename_i h
      refine PostMonad.bind (hv p) (fun e he => PostMonad.bind (ih (i + 1)) (fun r hr => PostMonad.pure ?_))
      obtain ⟨shown, h1, h2, h3, h4⟩ := hr
      refine ⟨p :: shown, by simp [← h1], .cons he h2, h3, fun hn => ?_⟩
      have : (n - i).toNat = (n - (i + 1 : Nat)).toNat + 1 := by omega
      rw [this, List.take_succ_cons, h4 hn]

include hA in
theorem post_children (hc : LawfulCmp o.pathComparator) (maxDepth : Int) (k : Nat) (visit : Path → m TreeEntry)
    (hv : ∀ p, Post (visit p) (Scanned A o.pathComparator maxDepth k p)) (p : Path) (cs : List Path) (bad : Bool) :
    Post (Scanner.handleDirectoryChildren o visit p cs bad) (fun es => bad = false ∧ ∃ n ks srt es', A.limit p n ∧ Kept A cs ks ∧ srt.Perm ks ∧
      srt.Pairwise (fun a b => o.pathComparator a b ≤ 0) ∧ ScannedAll A o.pathComparator maxDepth k (limitTo n srt) es' ∧
      es = es' ++ moreMark n srt p) := by
  unfold Scanner.handleDirectoryChildren
  refine PostMonad.bind (hA.limit p) (fun n hn => PostMonad.bind (post_filterEntries hA cs) (fun ks hk => ?_))
  have rest : Post (do
      let (es, left) ← Scanner.childLoop visit n 0 (streamSorted o.pathComparator ks)
      return if left.isEmpty then es else es ++ [TreeEntry.skipped p]) (fun es => ∃ n ks srt es', A.limit p n ∧ Kept A cs ks ∧ srt.Perm ks ∧
      srt.Pairwise (fun a b => o.pathComparator a b ≤ 0) ∧ ScannedAll A o.pathComparator maxDepth k (limitTo n srt) es' ∧
      es = es' ++ moreMark n srt p) := by
    refine PostMonad.bind (post_childLoop o.pathComparator maxDepth k visit hv n _ 0) (fun r hr => PostMonad.pure ?_)
    obtain ⟨es, left⟩ := r
    obtain ⟨shown, h1, h2, h3, h4⟩ := hr
    refine ⟨n, ks, streamSorted o.pathComparator ks, es, hn, hk, streamSorted_perm _ _, streamSorted_sorted hc _, ?_, ?_⟩
    · have : limitTo n (streamSorted o.pathComparator ks) = shown := by
        unfold limitTo
        split
        · rename_i hneg; rw [h1, h3 hneg]; simp
        · rename_i hpos; rw [h4 (by omega)]; simp
      rw [this]; exact h2
    · dsimp only at h1 h3 h4 ⊢
      unfold moreMark
      have hlen := congrArg List.length h1
      rw [List.length_append] at hlen
      cases left with
      | nil =>
        have : ¬ (0 ≤ n ∧ n < (streamSorted o.pathComparator ks).length) := by
          rintro ⟨h0, h5⟩
          have := congrArg List.length (h4 h0)
          simp at this hlen
          omega
        rw [if_neg this]; simp
      | cons x xs =>
        have : 0 ≤ n ∧ n < (streamSorted o.pathComparator ks).length := by
          have h0 : 0 ≤ n := by
            by_contra hneg
            have := h3 (by omega)
            cases this
          refine ⟨h0, ?_⟩
          have := congrArg List.length (h4 h0)
          simp at this hlen
          omega
        rw [if_pos this]; simp
  cases bad with
  | true => exact PostMonad.bind PostMonad.throw (P := fun _ => False) (fun _ h => h.elim)
  | false =>
    simp only [Bool.false_eq_true, if_false]
    exact PostMonad.mono rest (fun es h => ⟨trivial, h⟩)

include hA in
/-- Whatever the scanner returns is a correct entry tree. -/
theorem post_handle (hc : LawfulCmp o.pathComparator) (k : Nat) (p : Path) :
    Post (Scanner.handle fs o k p) (Scanned A o.pathComparator o.maxDepth k p) := by
  rw [Scanner.handle]
  refine PostMonad.bind (hA.isDir p) (fun b hb => ?_)
  cases b with
  | true =>
    simp only [if_true]
    split
    · rename_i h; exact PostMonad.pure (.tooDeep hb h)
    · rename_i h
      have ih := fun q => post_handle hc (k + 1) q
      unfold Scanner.handleDirectory
      refine PostMonad.bind (hA.list p) (fun r hr => ?_)
      cases r with
      | openFailed => exact PostMonad.throw
      | opened cs bad =>
        refine PostMonad.bind (post_children hA hc o.maxDepth (k + 1) _ ih p cs bad) (fun es hes => PostMonad.pure ?_)
        obtain ⟨rfl, n, ks, srt, es', h1, h2, h3, h4, h5, rfl⟩ := hes
        exact .dir hb (by omega) h1 (hr cs rfl) h2 h3 h4 h5
  | false =>
    simp only [Bool.false_eq_true, if_false]
    unfold Scanner.handleFile
    refine PostMonad.bind (hA.attrs p) (fun r hr => ?_)
    cases r with
    | none => exact PostMonad.throw
    | some a => exact PostMonad.pure (.file hb (hr a rfl))
termination_by (o.maxDepth - k).toNat
decreasing_by omega

end
end JFTP.Spec
