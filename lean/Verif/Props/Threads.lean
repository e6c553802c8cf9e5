import Verif.Spec.Threads
import Verif.Lemmas.ParamLib
import Verif.Props.Under

/-!
C73: several threads use printers at the same time.
-/

namespace JFTP
open Spec

namespace Threads73
variable {σ ι α β : Type}

/-! ### Resumptions -/

theorem bind_done_ok (a : α) (f : α → Res σ β) : (Res.done (.ok a) : Res σ α) >>= f = f a := rfl
theorem bind_done_error (e : Exn) (f : α → Res σ β) : (Res.done (.error e) : Res σ α) >>= f = .done (.error e) := rfl
theorem bind_step (eff : σ → σ) (next : σ → Res σ α) (f : α → Res σ β) : (Res.step eff next) >>= f = .step eff (fun s => next s >>= f) := rfl

instance : LawfulMonad (Res σ) := LawfulMonad.mk'
  (id_map := by
    intro α x
    show x >>= (fun a => pure (id a)) = x
    induction x with
    | done r => cases r <;> rfl
    | step eff next ih => rw [bind_step]; exact congrArg _ (funext ih))
  (pure_bind := fun _ _ => rfl)
  (bind_assoc := by
    intro α β γ x f g
    induction x with
    | done r => cases r <;> rfl
    | step eff next ih => rw [bind_step, bind_step, bind_step]; exact congrArg _ (funext ih))

theorem mayEnd_bind {x : Res σ α} {f : α → Res σ β} {r : Except Exn β} (h : (x >>= f).MayEnd r) :
    (∃ a, x.MayEnd (.ok a) ∧ (f a).MayEnd r) ∨ ∃ e, x.MayEnd (.error e) ∧ r = .error e := by
  induction x with
  | done q =>
    cases q with
    | ok a => exact .inl ⟨a, .done, h⟩
    | error e => rw [bind_done_error] at h; cases h; exact .inr ⟨e, .done, rfl⟩
  | step eff next ih =>
    rw [bind_step] at h
    cases h with
    | step h =>
      rcases ih _ h with ⟨a, h1, h2⟩ | ⟨e, h1, h2⟩
      · exact .inl ⟨a, .step h1, h2⟩
      · exact .inr ⟨e, .step h1, h2⟩

/-- "Only this end is possible" is preserved by returning, sequencing and throwing. -/
def settled : MonadRel (Res σ) (Except Exn) where
  Rel x y := x.Settled y
  pure a r h := by cases h; rfl
  bind {α β x y f g} h1 h2 r hr := by
    rcases mayEnd_bind hr with ⟨a, h3, h4⟩ | ⟨e, h3, rfl⟩
    · cases h1 _ h3; exact h2 a r h4
    · cases h1 _ h3; rfl
  throw e r h := by cases h; rfl

instance : PostMonad (Res σ) where
  Post x P := ∀ a, x.MayEnd (.ok a) → P a
  pure h a ha := by cases ha; exact h
  bind h1 h2 b hb := by
    rcases mayEnd_bind hb with ⟨a, h3, h4⟩ | ⟨e, _, h⟩
    · exact h2 a (h1 a h3) b h4
    · cases h
  throw a h := by cases h
  mono h hpq a ha := hpq a (h a ha)

theorem covers_may (fs : Fs (Res σ)) (o : ScanOpts (Res σ)) : Covers (answersMay fs o) fs o where
  isDir p b h := h
  list p r h cs hr := by subst hr; exact h
  attrs p r h a hr := by subst hr; exact h
  limit p n h := h
  keep p b h := h

theorem looks_may (o : Options (Res σ)) : Under72.LookCovers (looksMay o) ⟨o.toRender.emojiMapping, o.toRender.compactDirectories, extensionOf o.toRender⟩ where
  emoji p x h := h
  compact := rfl
  ext p y h := by
    unfold looksMay
    dsimp only
    unfold extensionOf at h
    have e : o.toRender.lineExtension = o.lineExtension := rfl
    rw [e] at h
    cases hx : o.lineExtension with
    | none => rw [hx] at h; cases h; rfl
    | some g => rw [hx] at h; exact h

/-! ### Schedules -/

theorem step_mayEnd {l : Option ι} {c c' : Config σ ι α} (h : Step l c c') {i : ι} {r : Except Exn α} (hr : (c'.threads i).MayEnd r) : (c.threads i).MayEnd r := by
  cases h with
  | @thread j eff next _ _ h1 h2 h3 h4 =>
    by_cases hij : i = j
    · subst hij
      rw [h3] at hr
      rw [h1]
      exact .step hr
    · rw [h4 i hij] at hr; exact hr
  | other h1 => rw [h1] at hr; exact hr

theorem steps_mayEnd {c c' : Config σ ι α} (h : Steps c c') {i : ι} {r : Except Exn α} (hr : c'.threads i = .done r) : (c.threads i).MayEnd r := by
  have hm : (c'.threads i).MayEnd r := hr ▸ .done
  clear hr
  induction h with
  | refl => exact hm
  | tail _ h ih => exact ih (step_mayEnd h hm)

theorem Steps.trans {c c' c'' : Config σ ι α} (h1 : Steps c c') (h2 : Steps c' c'') : Steps c c'' := by
  induction h2 with
  | refl => exact h1
  | tail _ h ih => exact .tail ih h

/-- A thread can always go on to its end, also when nobody else does anything. -/
theorem alone [DecidableEq ι] (c : Config σ ι α) (i : ι) : ∃ c' r, Steps c c' ∧ c'.threads i = .done r ∧ ∀ j, j ≠ i → c'.threads j = c.threads j := by
  suffices H : ∀ (x : Res σ α) (c : Config σ ι α), c.threads i = x → ∃ c' r, Steps c c' ∧ c'.threads i = .done r ∧ ∀ j, j ≠ i → c'.threads j = c.threads j from H _ c rfl
  intro x
  induction x with
  | done r => intro c h; exact ⟨c, r, .refl, h, fun _ _ => rfl⟩
  | step eff next ih =>
    intro c h
    let c1 : Config σ ι α := ⟨eff c.state, fun j => if j = i then next c.state else c.threads j⟩
    have h1 : Step (some i) c c1 := .thread h rfl (by show (if i = i then _ else _) = _; rw [if_pos rfl]) (fun j hj => by show (if j = i then _ else _) = _; rw [if_neg hj])
    obtain ⟨c', r, g1, g2, g3⟩ := ih c.state c1 (by show (if i = i then _ else _) = _; rw [if_pos rfl])
    refine ⟨c', r, Steps.trans (.tail .refl h1) g1, g2, fun j hj => ?_⟩
    rw [g3 j hj]
    show (if j = i then _ else _) = _
    rw [if_neg hj]

/-- In an infinite execution a thread makes finitely many steps. -/
theorem finite (c : Nat → Config σ ι α) (l : Nat → Option ι) (h : ∀ n, Step (l n) (c n) (c (n + 1))) (i : ι) (x : Res σ α) :
    ∀ n, (c n).threads i = x → ∃ N, ∀ k, N ≤ k → l k ≠ some i := by
  induction x with
  | done r =>
    intro n hn
    have stays : ∀ k, (c (n + k)).threads i = .done r ∧ l (n + k) ≠ some i := by
      intro k
      have hd : (c (n + k)).threads i = .done r := by
        induction k with
        | zero => exact hn
        | succ k ih =>
          have := h (n + k)
          cases this' : l (n + k) with
          | none => rw [this'] at this; cases this with | other h1 => rw [Nat.add_assoc] at h1; rw [h1]; exact ih
          | some j =>
            rw [this'] at this
            cases this with
            | thread h1 h2 h3 h4 =>
              by_cases hij : i = j
              · subst hij; rw [ih] at h1; cases h1
              · have h5 := h4 i hij
                rw [Nat.add_assoc] at h5
                rw [h5]; exact ih
      refine ⟨hd, fun hl => ?_⟩
      have := h (n + k)
      rw [hl] at this
      cases this with
      | thread h1 _ _ _ => rw [hd] at h1; cases h1
    refine ⟨n, fun k hk => ?_⟩
    obtain ⟨d, rfl⟩ := Nat.exists_eq_add_of_le hk
    exact (stays d).2
  | step eff next ih =>
    intro n hn
    by_cases hex : ∃ k, l (n + k) = some i
    · -- the first step of the thread
      classical
      have hk := Nat.find_spec hex
      have hmin : ∀ k, k < Nat.find hex → l (n + k) ≠ some i := fun k hk => Nat.find_min hex hk
      generalize Nat.find hex = k0 at hk hmin
      have before : ∀ k, k ≤ k0 → (c (n + k)).threads i = .step eff next := by
        intro k
        induction k with
        | zero => intro _; exact hn
        | succ k ihk =>
          intro hle
          have ihk := ihk (by omega)
          have hs := h (n + k)
          cases hl : l (n + k) with
          | none => rw [hl] at hs; cases hs with | other h1 => rw [Nat.add_assoc] at h1; rw [h1]; exact ihk
          | some j =>
            have hij : i ≠ j := fun e => hmin k (by omega) (by rw [hl, e])
            rw [hl] at hs
            cases hs with
            | thread h1 h2 h3 h4 =>
              have h5 := h4 i hij
              rw [Nat.add_assoc] at h5
              rw [h5]; exact ihk
      have hs := h (n + k0)
      rw [hk] at hs
      cases hs with
      | thread h1 h2 h3 h4 =>
        rw [before k0 (Nat.le_refl _)] at h1
        cases h1
        exact ih _ _ h3
    · refine ⟨n, fun k hk hl => hex ?_⟩
      obtain ⟨d, rfl⟩ := Nat.exists_eq_add_of_le hk
      exact ⟨d, hl⟩

end Threads73

open Threads73

/-! ### C73 -/

section
variable {σ ι : Type} {cwd : Path}

/-- **C73**: threads that print with shared printers and options, while other threads and processes do anything between any two of their steps: as long as the answers of the file
system and of the callbacks do not change, every thread that ends has the result (text or exception) of a call that is alone. -/
theorem C73_same_results {fs : Fs (Res σ)} {f : PureFs} {o : ι → Options (Res σ)} {o' : ι → Options (Except Exn)} (hfix : ∀ i, FixedAnswers fs (o i) f (o' i)) {p : ι → Path}
    {c c' : Config σ ι JStr} (hinit : ∀ i, c.threads i = prettyPrint fs cwd (o i) (p i)) (hrun : Steps c c') {i : ι} {r : Except Exn JStr} (hr : c'.threads i = .done r) :
    r = prettyPrint f.lift cwd (o' i) (p i) := by
  have h := steps_mayEnd hrun hr
  rw [hinit] at h
  have hf := hfix i
  refine MonadRel.rel_prettyPrint (R := settled) (fs := fs) (fs' := f.lift) (o := o i) (o' := o' i) ⟨hf.isDir, hf.listDir, hf.readAttrs, hf.maxDepth, hf.childLimit, hf.pathComparator, fun q => ?_⟩
    hf.treeFormat hf.emojiMapping hf.compactDirectories (fun q => ?_) cwd (p i) r h
  · refine settled.bind (hf.isDir q) (fun b => ?_)
    cases b with
    | true => exact hf.dirMatcher q
    | false => exact hf.fileMatcher q
  · have hx := hf.lineExtension
    have e1 : (o i).toRender.lineExtension = (o i).lineExtension := rfl
    have e2 : (o' i).toRender.lineExtension = (o' i).lineExtension := rfl
    unfold extensionOf
    rw [e1, e2]
    cases h1 : (o i).lineExtension <;> cases h2 : (o' i).lineExtension <;> rw [h1, h2] at hx
    · exact settled.pure _
    · exact hx.elim
    · exact hx.elim
    · exact hx q

/-- **C73**: without any assumption (the threads may disturb each other through stateful callbacks, and everything may change), a text returned to a thread is the picture of a
tree that is correct for possible answers, as in C72. -/
theorem C73_any_interleaving (hw : cwd.abs = true) {fs : Fs (Res σ)} {o : ι → Options (Res σ)} (hc : ∀ i, LawfulCmp (o i).pathComparator) {p : ι → Path}
    {c c' : Config σ ι JStr} (hinit : ∀ i, c.threads i = prettyPrint fs cwd (o i) (p i)) (hrun : Steps c c') {i : ι} {txt : JStr} (hr : c'.threads i = .done (.ok txt)) :
    ∃ t D, Scanned (answersMay fs ((o i).toScan fs)) (o i).pathComparator (o i).maxDepth 0 (target cwd (p i)) t ∧ DrawnTop (looksMay (o i)) t D ∧
      txt = picture (o i).treeFormat D := by
  have h := steps_mayEnd hrun hr
  rw [hinit] at h
  have hp : PostMonad.Post (prettyPrint fs cwd (o i) (p i)) (fun txt => ∃ t D, Scanned (answersMay fs ((o i).toScan fs)) (o i).pathComparator (o i).maxDepth 0 (target cwd (p i)) t ∧
      DrawnTop (looksMay (o i)) t D ∧ txt = picture (o i).treeFormat D) := by
    refine PostMonad.bind (x := Scanner.handle fs ((o i).toScan fs) 0 _) (post_handle (covers_may fs ((o i).toScan fs)) (hc i) 0 _) (fun t ht => PostMonad.mono (Under72.post_render (looks_may (o i)) t) ?_)
    rintro txt ⟨D, hD, rfl⟩
    rw [Path.target_clean hw] at ht
    exact ⟨t, D, ht, hD, rfl⟩
  exact hp txt h

/-- **C73**: threads never wait for each other: each can end by its own steps alone, whatever the others have done and wherever they stand. -/
theorem C73_no_waiting [DecidableEq ι] (c : Config σ ι JStr) (i : ι) : ∃ c' r, Steps c c' ∧ c'.threads i = .done r ∧ ∀ j, j ≠ i → c'.threads j = c.threads j := alone c i

/-- **C73**: in every infinite execution, with any changes by the environment, every thread makes only finitely many steps (a file system that grows while it is printed does not
keep the call running). -/
theorem C73_terminates (c : Nat → Config σ ι JStr) (l : Nat → Option ι) (h : ∀ n, Step (l n) (c n) (c (n + 1))) (i : ι) : ∃ N, ∀ k, N ≤ k → l k ≠ some i :=
  finite c l h i _ 0 rfl

end

/-- **C73**: the matchers of the library have fixed answers in threads if the disk does not change and the matchers they are built from have fixed answers, although they ask the
disk several times and may be interrupted between these questions. -/
theorem C73_library_matchers {σ : Type} {fs : Fs (Res σ)} {f : PureFs} (hd : Fixed fs.isDir (fun p => .ok (f.isDir p))) (hl : Fixed fs.listDir (fun p => .ok (f.listDir p)))
    (hr : Fixed fs.isRegular (fun p => .ok (f.isRegular p))) (hk : Fixed fs.isLink (fun p => .ok (f.isLink p)))
    (hs : Fixed fs.lstat (fun p => .ok (f.lstat p)))
    {a b c : Matcher (Res σ)} {a' b' c' : Matcher (Except Exn)} (ha : Fixed a a') (hb : Fixed b b') (hc : Fixed c c')
    {l : List (Matcher (Res σ))} {l' : List (Matcher (Except Exn))} (hL : List.Forall₂ Fixed l l') :
    Fixed (PathMatchers.isDirectory fs) (PathMatchers.isDirectory f.lift) ∧ Fixed (PathMatchers.isFile fs) (PathMatchers.isFile f.lift) ∧
    Fixed (PathMatchers.isRegularFile fs) (PathMatchers.isRegularFile f.lift) ∧ Fixed (PathMatchers.isSymbolicLink fs) (PathMatchers.isSymbolicLink f.lift) ∧
    Fixed (PathMatchers.not a) (PathMatchers.not a') ∧
    Fixed (PathMatchers.all · l) (PathMatchers.all · l') ∧ Fixed (PathMatchers.any · l) (PathMatchers.any · l') ∧ Fixed (PathMatchers.none · l) (PathMatchers.none · l') ∧
    Fixed (PathMatchers.ifMatchesThenElse a b c) (PathMatchers.ifMatchesThenElse a' b' c') ∧
    Fixed (PathMatchers.hasDirectParentMatching a) (PathMatchers.hasDirectParentMatching a') ∧
    Fixed (PathMatchers.hasAnyAncestorMatching a) (PathMatchers.hasAnyAncestorMatching a') ∧
    Fixed (PathMatchers.hasAnyDirectChildMatching fs a) (PathMatchers.hasAnyDirectChildMatching f.lift a') ∧
    Fixed (PathMatchers.hasAnyDescendantMatching fs a) (PathMatchers.hasAnyDescendantMatching f.lift a') ∧
    Fixed (PathMatchers.hasSiblingMatching fs a) (PathMatchers.hasSiblingMatching f.lift a') := by
  have hd' : settled.On fs.isDir (PureFs.lift (m := Except Exn) f).isDir := hd
  have hl' : settled.On fs.listDir (PureFs.lift (m := Except Exn) f).listDir := hl
  have hs' : settled.On fs.lstat (PureFs.lift (m := Except Exn) f).lstat := hs
  refine ⟨hd, MonadRel.rel_not (R := settled) hd', hr, hk, MonadRel.rel_not (R := settled) ha, MonadRel.rel_all (R := settled) hL, MonadRel.rel_any (R := settled) hL,
    MonadRel.rel_none (R := settled) hL, MonadRel.rel_ifMatchesThenElse (R := settled) ha hb hc, MonadRel.rel_hasDirectParentMatching (R := settled) ha,
    MonadRel.rel_hasAnyAncestorMatching (R := settled) ha, fun p => MonadRel.rel_testDescendants hd' hl' hs' p _ ha _, fun p => MonadRel.rel_testDescendants hd' hl' hs' p _ ha _, fun p => ?_⟩
  unfold PathMatchers.hasSiblingMatching
  cases p.getParent with
  | none => exact settled.pure _
  | some q => exact MonadRel.rel_testDescendants hd' hl' hs' q _ ha _

/-- **C73**: the same for child limits, line extensions and emoji mappings made with the builders of the library (while nobody changes the builders). -/
theorem C73_library_builders {σ : Type} {fs : Fs (Res σ)} {f : PureFs} (hd : Fixed fs.isDir (fun p => .ok (f.isDir p))) {ls : List (Path → Res σ Int)} {ls' : List (Path → Except Exn Int)}
    (hl : List.Forall₂ Fixed ls ls') (n : Int) {xs : List (ExtFn (Res σ))} {xs' : List (ExtFn (Except Exn))} (hx : List.Forall₂ Fixed xs xs')
    (e : EmojiMapping) {b : EmojiMappingBuilder (Res σ)} {b' : EmojiMappingBuilder (Except Exn)}
    (h1 : List.Forall₂ (fun r r' => r.emoji = r'.emoji ∧ Fixed r.matcher r'.matcher) b.dirMatchersEmojis b'.dirMatchersEmojis)
    (h2 : List.Forall₂ (fun r r' => r.emoji = r'.emoji ∧ Fixed r.matcher r'.matcher) b.fileMatchersEmojis b'.fileMatchersEmojis) :
    Fixed ((ChildLimitBuilder.build ⟨ls, n⟩).applyAsInt ⟨ls, n⟩) ((ChildLimitBuilder.build ⟨ls', n⟩).applyAsInt ⟨ls', n⟩) ∧
    Fixed ((LineExtensionBuilder.build ⟨xs⟩).apply ⟨xs⟩) ((LineExtensionBuilder.build ⟨xs'⟩).apply ⟨xs'⟩) ∧
    Fixed (e.getPathEmoji fs b) (e.getPathEmoji f.lift b') :=
  ⟨fun p => MonadRel.rel_limitLoop (R := settled) hl p n, fun p => MonadRel.rel_extLoop (R := settled) hx p none,
   MonadRel.rel_getPathEmoji (R := settled) (fs := fs) (fs' := f.lift) hd e h1 h2⟩

/-! ### Examples -/

namespace Demo

/-- The demo disk, asked in threads; each access is one step and increments a counter that all threads share. -/
def countingFs : Fs (Res Nat) where
  isDir p := .atomic fun n => (.ok (dfs.isDir p), n + 1)
  listDir p := .atomic fun n => (.ok (dfs.listDir p), n + 1)
  readAttrs p := .atomic fun n => (.ok (dfs.readAttrs p), n + 1)
  isRegular p := .atomic fun n => (.ok (dfs.isRegular p), n + 1)
  isLink p := .atomic fun n => (.ok (dfs.isLink p), n + 1)
  lstat p := .atomic fun n => (.ok (dfs.lstat p), n + 1)

theorem settled_atomic {σ α : Type} {r : Except Exn α} {g : σ → σ} : (Res.atomic fun s => (r, g s)).Settled r := by
  intro r' h
  cases h with | step h => cases h; rfl

/-- Its answers do not depend on the counter. -/
theorem counting_fixed : FixedAnswers countingFs {} dfs {} where
  isDir _ := settled_atomic
  listDir _ := settled_atomic
  readAttrs _ := settled_atomic
  childLimit _ := settled.pure _
  treeFormat := rfl
  emojiMapping _ := settled.pure _
  compactDirectories := rfl
  maxDepth := rfl
  pathComparator := rfl
  dirMatcher _ := settled.pure _
  fileMatcher _ := settled.pure _
  lineExtension := trivial

end Demo

/-- Two threads print two directories; there is an execution in which one has ended and the other has not begun, and the first one has the text of a call that is alone. -/
example : let c : Config Nat Bool JStr := ⟨0, fun i => prettyPrint Demo.countingFs Path.root {} (if i then Demo.r else Demo.a)⟩
    ∃ c', Steps c c' ∧ c'.threads true = .done (prettyPrint Demo.dfs.lift Path.root {} Demo.r) ∧ c'.threads false = c.threads false := by
  intro c
  obtain ⟨c', r, h1, h2, h3⟩ := C73_no_waiting c true
  refine ⟨c', h1, ?_, h3 false (by decide)⟩
  rw [h2, C73_same_results (o := fun _ => {}) (o' := fun _ => {}) (fun _ => Demo.counting_fixed) (fun _ => rfl) h1 h2]
  rfl

/-- The conditions on the disk of `C73_library_matchers` are met by it. -/
example : Fixed Demo.countingFs.isDir (fun p => .ok (Demo.dfs.isDir p)) ∧ Fixed Demo.countingFs.listDir (fun p => .ok (Demo.dfs.listDir p)) ∧
    Fixed Demo.countingFs.isRegular (fun p => .ok (Demo.dfs.isRegular p)) ∧ Fixed Demo.countingFs.isLink (fun p => .ok (Demo.dfs.isLink p)) ∧
    Fixed Demo.countingFs.lstat (fun p => .ok (Demo.dfs.lstat p)) :=
  ⟨fun _ => Demo.settled_atomic, fun _ => Demo.settled_atomic, fun _ => Demo.settled_atomic, fun _ => Demo.settled_atomic, fun _ => Demo.settled_atomic⟩

/-- Without the assumption on the answers the results may differ: a line extension that counts its calls for all threads. -/
example : let g : ExtFn (Res Nat) := fun _ => .atomic fun n => (.ok (some (List.replicate n 0x7C)), n + 1)
    ¬ (g Demo.r).Settled (.ok (some [])) := by
  intro g h
  have := h (.ok (some [0x7C])) (.step (s := 1) .done)
  cases this

end JFTP
