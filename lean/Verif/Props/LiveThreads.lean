import Verif.Props.Threads

/-!
C73 for comparators that ask the file system at each comparison (as the orders of the library do), or do anything else.
-/

namespace JFTP
open Spec

/-! ### Parametricity of the sort -/

namespace Spec.MonadRel
variable {m n : Type → Type} [Monad m] [MonadExceptOf Exn m] [Monad n] [MonadExceptOf Exn n] {R : MonadRel m n}

theorem rel_exec {c : CmpM m} {c' : CmpM n} (h : ∀ a b, R.Rel (c a b) (c' a b)) {α : Type} (x : SortRun α) : R.Rel (x.exec c) (x.exec c') := by
  induction x with
  | done a => exact R.pure a
  | fail => exact R.throw _
  | crash => exact R.throw _
  | ask a b next ih => exact R.bind (h a b) ih

variable {fs : Fs m} {o : ScanOpts m} {fs' : Fs n} {o' : ScanOpts n} {c : CmpM m} {c' : CmpM n}

theorem rel_live_handle (sort : List Path → SortRun (List Path)) (hc : ∀ a b, R.Rel (c a b) (c' a b)) (h : R.Opts fs o fs' o') (k : Nat) (p : Path) :
    R.Rel (LiveScanner.handle sort c fs o k p) (LiveScanner.handle sort c' fs' o' k p) := by
  rw [LiveScanner.handle, LiveScanner.handle]
  refine R.bind (h.isDir p) (fun b => ?_)
  cases b with
  | true =>
    simp only [if_true]
    by_cases hk : (k : Int) ≥ o.maxDepth
    · rw [dif_pos hk, dif_pos (h.maxDepth ▸ hk)]; exact R.pure _
    · rw [dif_neg hk, dif_neg (h.maxDepth ▸ hk)]
      have ih := fun q => rel_live_handle sort hc h (k + 1) q
      unfold LiveScanner.handleDirectory
      refine R.bind (h.listDir p) (fun r => ?_)
      cases r with
      | openFailed => exact R.throw _
      | opened cs bad =>
        refine R.bind ?_ (fun es => R.pure _)
        unfold LiveScanner.handleDirectoryChildren
        refine R.bind (h.childLimit p) (fun l => R.bind (rel_filterEntries h.pathFilter cs) (fun ks => ?_))
        have hrest := R.bind (rel_exec hc (sort ks)) (fun sorted => R.bind (rel_childLoop ih l sorted 0) (fun r => R.pure (if r.2.isEmpty then r.1 else r.1 ++ [TreeEntry.skipped p])))
        cases bad with
        | true => exact R.bind (R.throw _) (fun _ => hrest)
        | false => exact hrest
  | false =>
    simp only [Bool.false_eq_true, if_false]
    unfold Scanner.handleFile
    refine R.bind (h.readAttrs p) (fun r => ?_)
    cases r with
    | none => exact R.throw _
    | some a => exact R.pure _
termination_by (o.maxDepth - k).toNat
decreasing_by omega

theorem rel_thenComparing {d : CmpM m} {d' : CmpM n} (hc : ∀ a b, R.Rel (c a b) (c' a b)) (hd : ∀ a b, R.Rel (d a b) (d' a b)) (a b : Path) :
    R.Rel (LiveSorts.thenComparing c d a b) (LiveSorts.thenComparing c' d' a b) := by
  refine R.bind (hc a b) (fun r => ?_)
  by_cases h : r ≠ 0
  · rw [if_pos h, if_pos h]; exact R.pure _
  · rw [if_neg h, if_neg h]; exact hd a b

theorem rel_comparing {k : Path → m Int} {k' : Path → n Int} (h : R.On k k') (a b : Path) : R.Rel (LiveSorts.comparing k a b) (LiveSorts.comparing k' a b) :=
  R.bind (h a) (fun _ => R.bind (h b) (fun _ => R.pure _))

theorem rel_precedenceLoop {l : List (Path → m Int)} {l' : List (Path → n Int)} (h : R.OnAll l l') (p : Path) :
    ∀ r, R.Rel (LiveSorts.precedenceLoop p r l) (LiveSorts.precedenceLoop p r l') := by
  induction h with
  | nil => intro r; exact R.pure _
  | @cons f g l l' h1 _ ih =>
    intro r
    refine R.bind (h1 p) (fun x => ?_)
    by_cases hx : x ≠ DEFAULT_PRECEDENCE
    · rw [if_pos hx, if_pos hx]; exact R.pure _
    · rw [if_neg hx, if_neg hx]; exact ih x

end Spec.MonadRel

open Threads73

/-! ### C73 -/

section
variable {σ ι : Type} {cwd : Path}

/-- A comparator of threads whose answers (or exceptions) are fixed. -/
def Spec.FixedOrder {σ : Type} (c : CmpM (Res σ)) (c' : CmpM (Except Exn)) : Prop := ∀ a b, (c a b).Settled (c' a b)

/-- **C73**, with comparators that are called step by step in the JDK's sort, and may be unlawful or throw: as long as the answers of the file system, the callbacks and the
comparators do not change, every thread that ends has the result of a call that is alone. (The comparator in `o i` is not used.) -/
theorem C73_same_results_any_comparator {fs : Fs (Res σ)} {f : PureFs} {o : ι → Options (Res σ)} {o' : ι → Options (Except Exn)} (hfix : ∀ i, FixedAnswers fs (o i) f (o' i))
    {k : ι → CmpM (Res σ)} {k' : ι → CmpM (Except Exn)} (hk : ∀ i, FixedOrder (k i) (k' i)) {p : ι → Path}
    {c c' : Config σ ι JStr} (hinit : ∀ i, c.threads i = LiveScanner.prettyPrint TimSort.sort (k i) fs cwd (o i) (p i)) (hrun : Steps c c') {i : ι} {r : Except Exn JStr}
    (hr : c'.threads i = .done r) : r = LiveScanner.prettyPrint TimSort.sort (k' i) f.lift cwd (o' i) (p i) := by
  have h := steps_mayEnd hrun hr
  rw [hinit] at h
  have hf := hfix i
  have hopts : settled.Opts fs ((o i).toScan fs) (f.lift (m := Except Exn)) ((o' i).toScan f.lift) := by
    refine ⟨hf.isDir, hf.listDir, hf.readAttrs, hf.maxDepth, hf.childLimit, hf.pathComparator, fun q => ?_⟩
    refine settled.bind (hf.isDir q) (fun b => ?_)
    cases b with
    | true => exact hf.dirMatcher q
    | false => exact hf.fileMatcher q
  refine settled.bind (MonadRel.rel_live_handle (R := settled) TimSort.sort (hk i) hopts 0 _)
    (fun t => MonadRel.rel_render (R := settled) (o := (o i).toRender) (o' := (o' i).toRender) hf.treeFormat hf.emojiMapping hf.compactDirectories (fun q => ?_) t) r h
  have hx := hf.lineExtension
  have e1 : (o i).toRender.lineExtension = (o i).lineExtension := rfl
  have e2 : (o' i).toRender.lineExtension = (o' i).lineExtension := rfl
  unfold extensionOf
  rw [e1, e2]
  cases h1 : (o i).lineExtension <;> cases h2 : (o' i).lineExtension <;> rw [h1, h2] at hx
  · exact settled.pure _
  · exact hx.elim
  · exact hx.elim
  · exact hx q

/-- **C73**: in particular, if the answers are those of a lawful order, the result is the one of all other properties, whatever happens between the questions of one comparison. -/
theorem C73_same_results_live {fs : Fs (Res σ)} {f : PureFs} {o : ι → Options (Res σ)} {o' : ι → Options (Except Exn)} (hfix : ∀ i, FixedAnswers fs (o i) f (o' i))
    (hc : ∀ i, LawfulCmp (o' i).pathComparator) {k : ι → CmpM (Res σ)} (hk : ∀ i, FixedOrder (k i) (fun a b => .ok ((o' i).pathComparator a b))) {p : ι → Path}
    {c c' : Config σ ι JStr} (hinit : ∀ i, c.threads i = LiveScanner.prettyPrint TimSort.sort (k i) fs cwd (o i) (p i)) (hrun : Steps c c') {i : ι} {r : Except Exn JStr}
    (hr : c'.threads i = .done r) : r = prettyPrint f.lift cwd (o' i) (p i) := by
  rw [C73_same_results_any_comparator hfix hk hinit hrun hr]
  exact C71_lawful f.lift cwd (o' i) (hc i) (p i)

/-- **C73**: without any assumption, also about the comparators, a text returned to a thread is the picture of a tree that is correct for possible answers, up to the order. -/
theorem C73_any_interleaving_any_comparator (hw : cwd.abs = true) {fs : Fs (Res σ)} {o : ι → Options (Res σ)} {k : ι → CmpM (Res σ)} {p : ι → Path}
    {c c' : Config σ ι JStr} (hinit : ∀ i, c.threads i = LiveScanner.prettyPrint TimSort.sort (k i) fs cwd (o i) (p i)) (hrun : Steps c c') {i : ι} {txt : JStr}
    (hr : c'.threads i = .done (.ok txt)) :
    ∃ t D, Scanned (answersMay fs ((o i).toScan fs)) (fun _ _ => 0) (o i).maxDepth 0 (target cwd (p i)) t ∧ DrawnTop (looksMay (o i)) t D ∧
      txt = picture (o i).treeFormat D := by
  have h := steps_mayEnd hrun hr
  rw [hinit] at h
  have hp : PostMonad.Post (LiveScanner.prettyPrint TimSort.sort (k i) fs cwd (o i) (p i)) (fun txt => ∃ t D, Scanned (answersMay fs ((o i).toScan fs)) (fun _ _ => 0) (o i).maxDepth 0 (target cwd (p i)) t ∧
      DrawnTop (looksMay (o i)) t D ∧ txt = picture (o i).treeFormat D) := by
    refine PostMonad.bind (x := LiveScanner.handle TimSort.sort (k i) fs ((o i).toScan fs) 0 _)
      (Sorting71.post_handle sort_sorts (covers_may fs ((o i).toScan fs)) (k i) (fun a b _ _ => trivial) 0 _) (fun t ht => PostMonad.mono (Under72.post_render (looks_may (o i)) t) ?_)
    rintro txt ⟨D, hD, rfl⟩
    rw [Path.target_clean hw] at ht
    exact ⟨t, D, ht, hD, rfl⟩
  exact hp txt h

end

/-- **C73**: the orders of the library have fixed answers in threads if the disk does not change, although each comparison asks it several times and may be interrupted between the
questions; so do orders made with the builder and `sort`. -/
theorem C73_library_orders {σ : Type} {fs : Fs (Res σ)} {f : PureFs} (hd : Fixed fs.isDir (fun p => .ok (f.isDir p))) {length : Path → Res σ Int} {size : Path → Int}
    (hl : Fixed length (fun p => .ok (size p))) (fold : JChar → JChar) {rules : List (Path → Res σ Int)} {rules' : List (Path → Int)}
    (hr : List.Forall₂ (fun g g' => Fixed g (fun p => .ok (g' p))) rules rules') {c : CmpM (Res σ)} {c' : Cmp} (hc : FixedOrder c (fun a b => .ok (c' a b))) (o : Options (Except Exn))
    (live : PathSortBuilder) :
    FixedOrder (LiveSorts.ALPHABETICAL (m := Res σ)) (fun a b => .ok (PathSorts.ALPHABETICAL a b)) ∧
    FixedOrder (LiveSorts.DIRECTORY_FIRST fs) (fun a b => .ok (PathSorts.DIRECTORY_FIRST f.isDir a b)) ∧
    FixedOrder (LiveSorts.DIRECTORY_LAST fs) (fun a b => .ok (PathSorts.DIRECTORY_LAST f.isDir a b)) ∧
    FixedOrder (LiveSorts.BY_FILE_SIZE fs length) (fun a b => .ok (PathSorts.BY_FILE_SIZE f.isDir size a b)) ∧
    FixedOrder (LiveSorts.BY_EXTENSION fold fs) (fun a b => .ok (PathSorts.BY_EXTENSION fold f.isDir a b)) ∧
    FixedOrder (LiveSorts.built rules) (fun a b => .ok ((PathSortBuilder.build ⟨rules'⟩).compare live a b)) ∧
    FixedOrder (LiveSorts.thenComparing c LiveSorts.ALPHABETICAL) (fun a b => .ok ((o.sort c').pathComparator a b)) := by
  have hd' : settled.On fs.isDir (PureFs.lift (m := Except Exn) f).isDir := hd
  have hdir : settled.On (PathMatchers.isDirectory fs) (PathMatchers.isDirectory (f.lift (m := Except Exn))) := hd
  have hfirst : ∀ a b, settled.Rel (LiveSorts.DIRECTORY_FIRST fs a b) (LiveSorts.DIRECTORY_FIRST (f.lift (m := Except Exn)) a b) := fun a b =>
    settled.bind (hdir a) (fun x => settled.bind (hdir b) (fun y => by
      by_cases h : x = y
      · rw [if_pos h, if_pos h]; exact settled.pure _
      · rw [if_neg h, if_neg h]; exact settled.pure _))
  have halpha : ∀ a b, settled.Rel (LiveSorts.ALPHABETICAL (m := Res σ) a b) (LiveSorts.ALPHABETICAL (m := Except Exn) a b) := fun a b => settled.pure _
  have fx := fun a b => C71_fixed_disk (m := Except Exn) f size fold a b
  refine ⟨halpha, fun a b => ?_, fun a b => ?_, fun a b => ?_, fun a b => ?_, fun a b => ?_, fun a b => ?_⟩
  · have := hfirst a b
    rw [(fx a b).2.1] at this
    exact this
  · have := hfirst b a
    rw [show LiveSorts.DIRECTORY_FIRST (f.lift (m := Except Exn)) b a = LiveSorts.DIRECTORY_LAST f.lift a b from rfl, (fx a b).2.2.1] at this
    exact this
  · have : settled.Rel (LiveSorts.BY_FILE_SIZE fs length a b) (LiveSorts.BY_FILE_SIZE (f.lift (m := Except Exn)) (fun p => pure (size p)) a b) :=
      MonadRel.rel_comparing (fun p => settled.bind (hdir p) (fun x => MonadRel.rel_ite x (settled.pure _) (hl p))) a b
    rw [(fx a b).2.2.2.1] at this
    exact this
  · have : settled.Rel (LiveSorts.BY_EXTENSION fold fs a b) (LiveSorts.BY_EXTENSION fold (f.lift (m := Except Exn)) a b) :=
      settled.bind (hdir a) (fun x => settled.bind (hdir b) (fun y => by
        cases x <;> cases y <;> exact settled.pure _))
    rw [(fx a b).2.2.2.2] at this
    exact this
  · have hall : settled.OnAll rules (rules'.map (fun g p => (pure (g p) : Except Exn Int))) := by
      clear fx
      induction hr with
      | nil => exact .nil
      | cons h1 _ ih => exact .cons h1 ih
    have := MonadRel.rel_thenComparing (R := settled) (MonadRel.rel_comparing (fun p => MonadRel.rel_precedenceLoop hall p DEFAULT_PRECEDENCE)) halpha a b
    rw [show LiveSorts.thenComparing (LiveSorts.comparing _) LiveSorts.ALPHABETICAL = LiveSorts.built (rules'.map (fun g p => (pure (g p) : Except Exn Int))) from rfl,
      C71_built_fixed rules' live a b] at this
    exact this
  · have := MonadRel.rel_thenComparing (R := settled) (c' := fun a b => pure (c' a b)) hc halpha a b
    have e : LiveSorts.thenComparing (fun a b => (pure (c' a b) : Except Exn Int)) LiveSorts.ALPHABETICAL a b = .ok ((o.sort c').pathComparator a b) := by
      show (if c' a b ≠ 0 then (pure (c' a b) : Except Exn Int) else pure (PathSorts.ALPHABETICAL a b)) = .ok (thenComparing c' PathSorts.ALPHABETICAL a b)
      show _ = Except.ok (if c' a b ≠ 0 then c' a b else PathSorts.ALPHABETICAL a b)
      split <;> rfl
    rw [e] at this
    exact this

/-! ### Examples -/

/-- Two threads print with directories first, asking the shared disk at each comparison: the one that has ended has the text of a call that is alone. -/
example : let o : Options (Except Exn) := (Options.createDefault).sort (PathSorts.DIRECTORY_FIRST Demo.dfs.isDir)
    let o' : Options (Res Nat) := (Options.createDefault).sort (PathSorts.DIRECTORY_FIRST Demo.dfs.isDir)
    let k : CmpM (Res Nat) := LiveSorts.thenComparing (LiveSorts.DIRECTORY_FIRST Demo.countingFs) LiveSorts.ALPHABETICAL
    let c : Config Nat Bool JStr := ⟨0, fun i => LiveScanner.prettyPrint TimSort.sort k Demo.countingFs Path.root o' (if i then Demo.r else Demo.a)⟩
    ∃ c', Steps c c' ∧ c'.threads true = .done (prettyPrint Demo.dfs.lift Path.root o Demo.r) ∧ c'.threads false = c.threads false := by
  intro o o' k c
  obtain ⟨c', r, h1, h2, h3⟩ := C73_no_waiting c true
  refine ⟨c', h1, ?_, h3 false (by decide)⟩
  have hd : Fixed Demo.countingFs.isDir (fun p => .ok (Demo.dfs.isDir p)) := fun _ => Demo.settled_atomic
  have hfirst : FixedOrder (LiveSorts.DIRECTORY_FIRST Demo.countingFs) (fun a b => .ok (PathSorts.DIRECTORY_FIRST Demo.dfs.isDir a b)) :=
    (C73_library_orders hd (length := fun _ => pure 0) (size := fun _ => 0) (fun _ => settled.pure _) id .nil (c := LiveSorts.ALPHABETICAL) (c' := PathSorts.ALPHABETICAL)
      (fun _ _ => settled.pure _) o ⟨[]⟩).2.1
  have hk := (C73_library_orders hd (length := fun _ => pure 0) (size := fun _ => 0) (fun _ => settled.pure _) id .nil hfirst Options.createDefault ⟨[]⟩).2.2.2.2.2.2
  have hfix : FixedAnswers Demo.countingFs o' Demo.dfs o := { Demo.counting_fixed with pathComparator := rfl }
  rw [h2, C73_same_results_live (o := fun _ => o') (o' := fun _ => o) (fun _ => hfix) (fun _ => sort_lawful (lawful_DIRECTORY_FIRST _)) (k := fun _ => k) (fun _ => hk) (fun _ => rfl) h1 h2]
  rfl

end JFTP
