import Verif.Lemmas.Param

/-!
Parametricity of the callbacks that the library provides.
-/

namespace JFTP.Spec.MonadRel
variable {m n : Type → Type} [Monad m] [MonadExceptOf Exn m] [Monad n] [MonadExceptOf Exn n] {R : MonadRel m n}

/-- Related functions of the path. -/
def On (R : MonadRel m n) {α : Type} (f : Path → m α) (g : Path → n α) : Prop := ∀ p, R.Rel (f p) (g p)

/-- Related lists of functions. -/
abbrev OnAll (R : MonadRel m n) {α : Type} (fs : List (Path → m α)) (gs : List (Path → n α)) : Prop := List.Forall₂ (R.On) fs gs

theorem rel_ite {α : Type} {x y : m α} {x' y' : n α} (b : Bool) (h1 : R.Rel x x') (h2 : R.Rel y y') : R.Rel (if b then x else y) (if b then x' else y') := by
  cases b
  · exact h2
  · exact h1

theorem rel_not {a : Matcher m} {b : Matcher n} (h : R.On a b) : R.On (PathMatchers.not a) (PathMatchers.not b) := fun p => R.bind (h p) (fun _ => R.pure _)

theorem rel_all {as : List (Matcher m)} {bs : List (Matcher n)} (h : R.OnAll as bs) (p : Path) : R.Rel (PathMatchers.all p as) (PathMatchers.all p bs) := by
  induction h with
  | nil => exact R.pure _
  | cons h _ ih =>
    refine R.bind (h p) (fun b => ?_)
    cases b
    · exact R.pure _
    · exact ih

theorem rel_any {as : List (Matcher m)} {bs : List (Matcher n)} (h : R.OnAll as bs) (p : Path) : R.Rel (PathMatchers.any p as) (PathMatchers.any p bs) := by
  induction h with
  | nil => exact R.pure _
  | cons h _ ih =>
    refine R.bind (h p) (fun b => ?_)
    cases b
    · exact ih
    · exact R.pure _

theorem rel_none {as : List (Matcher m)} {bs : List (Matcher n)} (h : R.OnAll as bs) (p : Path) : R.Rel (PathMatchers.none p as) (PathMatchers.none p bs) := by
  induction h with
  | nil => exact R.pure _
  | cons h _ ih =>
    refine R.bind (h p) (fun b => ?_)
    cases b
    · exact ih
    · exact R.pure _

theorem rel_ifMatchesThenElse {i t e : Matcher m} {i' t' e' : Matcher n} (h1 : R.On i i') (h2 : R.On t t') (h3 : R.On e e') :
    R.On (PathMatchers.ifMatchesThenElse i t e) (PathMatchers.ifMatchesThenElse i' t' e') := fun p => R.bind (h1 p) (fun b => rel_ite b (h2 p) (h3 p))

theorem rel_hasDirectParentMatching {a : Matcher m} {b : Matcher n} (h : R.On a b) : R.On (PathMatchers.hasDirectParentMatching a) (PathMatchers.hasDirectParentMatching b) := by
  intro p
  unfold PathMatchers.hasDirectParentMatching
  cases p.getParent with
  | none => exact R.pure _
  | some q => exact h q

theorem rel_ancestorLoop {a : Matcher m} {b : Matcher n} (h : R.On a b) (k : Nat) : ∀ p : Option Path, (∀ q, p = some q → q.names.length ≤ k) →
    R.Rel (PathMatchers.ancestorLoop a p) (PathMatchers.ancestorLoop b p) := by
  have step (q : Path) (ih : R.Rel (PathMatchers.ancestorLoop a q.getParent) (PathMatchers.ancestorLoop b q.getParent)) :
      R.Rel (PathMatchers.ancestorLoop a (some q)) (PathMatchers.ancestorLoop b (some q)) := by
    rw [PathMatchers.ancestorLoop, PathMatchers.ancestorLoop.eq_def b]
    exact R.bind (h q) (fun r => rel_ite r (R.pure _) ih)
  have stop : R.Rel (PathMatchers.ancestorLoop a none) (PathMatchers.ancestorLoop b none) := by
    rw [PathMatchers.ancestorLoop, PathMatchers.ancestorLoop.eq_def b]
    exact R.pure _
  induction k with
  | zero =>
    intro p hp
    cases p with
    | none => exact stop
    | some q =>
      refine step q ?_
      cases hq : q.getParent with
      | none => exact stop
      | some q' => have := Path.getParent_length hq; have := hp q rfl; omega
  | succ k ih =>
    intro p hp
    cases p with
    | none => exact stop
    | some q =>
      refine step q (ih _ (fun q' hq => ?_))
      have := Path.getParent_length hq
      have := hp q rfl
      omega

theorem rel_hasAnyAncestorMatching {a : Matcher m} {b : Matcher n} (h : R.On a b) : R.On (PathMatchers.hasAnyAncestorMatching a) (PathMatchers.hasAnyAncestorMatching b) := by
  intro p
  unfold PathMatchers.hasAnyAncestorMatching
  refine rel_ancestorLoop h p.names.length p.getParent (fun q hq => ?_)
  have := Path.getParent_length hq
  omega

theorem rel_walkEntries (d : Path) (bad : Bool) {v : Path → m Bool} {w : Path → n Bool} (h : R.On v w) (cs : List Path) :
    R.Rel (PathMatchers.walkEntries d bad v cs) (PathMatchers.walkEntries d bad w cs) := by
  induction cs with
  | nil => exact rel_ite bad (R.throw _) (R.pure _)
  | cons c cs ih => exact R.bind (h c) (fun r => rel_ite r (R.pure _) ih)

variable {fs : Fs m} {fs' : Fs n} (hd : R.On fs.isDir fs'.isDir) (hl : R.On fs.listDir fs'.listDir) (hs : R.On fs.lstat fs'.lstat)

include hl hs in
theorem rel_walkTest (incl : Path → Bool) {a : Matcher m} {b : Matcher n} (h : R.On a b) (k : Nat) : R.On (PathMatchers.walkTest fs incl a k) (PathMatchers.walkTest fs' incl b k) := by
  induction k with
  | zero =>
    intro p
    refine R.bind (hs p) (fun r => ?_)
    cases r with
    | none => exact R.throw _
    | some r => exact rel_ite (incl p) (h p) (R.pure _)
  | succ k ih =>
    intro p
    refine R.bind (hs p) (fun r => ?_)
    rcases r with _ | _ | _
    · exact R.throw _
    · exact rel_ite (incl p) (h p) (R.pure _)
    refine R.bind (hl p) (fun l => ?_)
    cases l with
    | openFailed => exact R.throw _
    | opened cs bad =>
      dsimp only
      cases hi : incl p with
      | true =>
        simp only [if_true]
        exact R.bind (h p) (fun r => rel_ite r (R.pure _) (rel_walkEntries p bad ih cs))
      | false =>
        simp only [Bool.false_eq_true, if_false]
        exact R.bind (R.pure _) (fun r => rel_ite r (R.pure _) (rel_walkEntries p bad ih cs))

include hd hl hs in
theorem rel_testDescendants (p : Path) (k : Nat) {a : Matcher m} {b : Matcher n} (h : R.On a b) (incl : Path → Bool) :
    R.Rel (PathMatchers.testDescendants fs p k a incl) (PathMatchers.testDescendants fs' p k b incl) := by
  unfold PathMatchers.testDescendants
  refine R.bind (hd p) (fun r => ?_)
  cases r with
  | false => exact R.pure _
  | true =>
    refine R.bind (hs p) (fun r => ?_)
    rcases r with _ | _ | _
    · exact R.throw _
    · exact R.pure _
    refine R.bind (hl p) (fun l => ?_)
    cases l with
    | openFailed => exact R.throw _
    | opened cs bad => exact rel_walkEntries p bad (rel_walkTest hl hs incl h _) cs

/-! ### Rule builders and emojis -/

theorem rel_limitLoop {as : List (Path → m Int)} {bs : List (Path → n Int)} (h : R.OnAll as bs) (p : Path) : ∀ r, R.Rel (ChildLimitBuilder.limitLoop p r as) (ChildLimitBuilder.limitLoop p r bs) := by
  induction h with
  | nil => intro r; exact R.pure _
  | cons h _ ih =>
    intro r
    refine R.bind (h p) (fun x => ?_)
    split
    · exact R.pure _
    · exact ih _

theorem rel_extLoop {as : List (ExtFn m)} {bs : List (ExtFn n)} (h : R.OnAll as bs) (p : Path) : ∀ r, R.Rel (LineExtensionBuilder.extLoop p r as) (LineExtensionBuilder.extLoop p r bs) := by
  induction h with
  | nil => intro r; exact R.pure _
  | cons h _ ih =>
    intro r
    refine R.bind (h p) (fun x => ?_)
    split
    · exact R.pure _
    · exact ih _

/-- Related emoji rules: the same emoji, related matchers. -/
abbrev OnRules (R : MonadRel m n) (as : List (EmojiMatch m)) (bs : List (EmojiMatch n)) : Prop := List.Forall₂ (fun a b => a.emoji = b.emoji ∧ R.On a.matcher b.matcher) as bs

theorem rel_pathMatcherEmoji {as : List (EmojiMatch m)} {bs : List (EmojiMatch n)} (h : R.OnRules as bs) : R.On (pathMatcherEmoji as) (pathMatcherEmoji bs) := by
  intro p
  induction h with
  | nil => exact R.pure _
  | cons h _ ih =>
    refine R.bind (h.2 p) (fun x => ?_)
    rw [h.1]
    exact rel_ite x (R.pure _) ih

theorem rel_sequentialEmoji {as : List (EmojiFn m)} {bs : List (EmojiFn n)} (h : R.OnAll as bs) : R.On (sequentialEmoji as) (sequentialEmoji bs) := by
  intro p
  induction h with
  | nil => exact R.pure _
  | cons h _ ih =>
    refine R.bind (h p) (fun x => ?_)
    cases x with
    | none => exact ih
    | some e => exact R.pure _

include hd in
theorem rel_getPathEmoji (e : EmojiMapping) {b : EmojiMappingBuilder m} {b' : EmojiMappingBuilder n} (h1 : R.OnRules b.dirMatchersEmojis b'.dirMatchersEmojis)
    (h2 : R.OnRules b.fileMatchersEmojis b'.fileMatchersEmojis) : R.On (e.getPathEmoji fs b) (e.getPathEmoji fs' b') := by
  intro p
  have hp {f : Path → Option JStr} : R.On (fun p => Pure.pure (f p)) (fun p => Pure.pure (f p)) := fun p => R.pure _
  refine R.bind (hd p) (fun r => rel_ite r ?_ ?_)
  · exact R.bind (rel_sequentialEmoji (.cons (rel_pathMatcherEmoji h1) (.cons hp .nil)) p) (fun _ => R.pure _)
  · exact R.bind (rel_sequentialEmoji (.cons (rel_pathMatcherEmoji h2) (.cons hp (.cons hp .nil))) p) (fun _ => R.pure _)

end JFTP.Spec.MonadRel
