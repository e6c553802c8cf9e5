import Verif.Spec.History
import Verif.Props.Limits
import Verif.Lemmas.Render
import Mathlib.Data.List.Induction
import Mathlib.Logic.Function.Iterate

/-!
C48, C49: histories of calls on options, builders and printers. C57: depths.
-/

namespace JFTP
open Spec

section
variable {m : Type → Type} [Monad m]

/-! ### C49 -/

theorem foldl_lastVal {β : Type} (pick : Setter m → Option β) (get : Options m → β) (h : ∀ s o, get (Setter.run s o) = (pick s).getD (get o)) (ss : List (Setter m)) (o : Options m) :
    get (ss.foldl (fun o s => s.run o) o) = lastVal pick (get o) ss := by
  induction ss generalizing o with
  | nil => rfl
  | cons s ss ih => rw [List.foldl_cons, ih, lastVal, h]

/-- **C49**: after any sequence of setter calls, every option has the value of the last call of its own setter, or the documented default. The comparator given to `sort` gets the alphabetical tie-break. -/
theorem C49_last_call_wins (ss : List (Setter m)) :
    let o := ss.foldl (fun o s => s.run o) (Options.createDefault : Options m)
    o.childLimit = lastVal asChildLimit (fun _ => pure (-1)) ss ∧
    o.treeFormat = lastVal asTreeFormat TreeFormats.UNICODE_BOX_DRAWING ss ∧
    o.emojiMapping = lastVal asEmojis (fun _ => pure none) ss ∧
    o.compactDirectories = lastVal asCompact false ss ∧
    o.maxDepth = lastVal asMaxDepth 20 ss ∧
    o.pathComparator = lastVal (fun s => (asSort s).map (fun c => thenComparing c PathSorts.ALPHABETICAL)) PathSorts.ALPHABETICAL ss ∧
    o.dirMatcher = lastVal asDirFilter (fun _ => pure true) ss ∧
    o.fileMatcher = lastVal asFileFilter (fun _ => pure true) ss ∧
    o.lineExtension = lastVal asExtension none ss := by
  refine ⟨?_, ?_, ?_, ?_, ?_, ?_, ?_, ?_, ?_⟩
  · exact foldl_lastVal asChildLimit Options.childLimit (by intro s o; cases s <;> rfl) ss _
  · exact foldl_lastVal asTreeFormat Options.treeFormat (by intro s o; cases s <;> rfl) ss _
  · exact foldl_lastVal asEmojis Options.emojiMapping (by intro s o; cases s <;> rfl) ss _
  · exact foldl_lastVal asCompact Options.compactDirectories (by intro s o; cases s <;> rfl) ss _
  · exact foldl_lastVal asMaxDepth Options.maxDepth (by intro s o; cases s <;> rfl) ss _
  · exact foldl_lastVal _ Options.pathComparator (by intro s o; cases s <;> rfl) ss _
  · exact foldl_lastVal asDirFilter Options.dirMatcher (by intro s o; cases s <;> rfl) ss _
  · exact foldl_lastVal asFileFilter Options.fileMatcher (by intro s o; cases s <;> rfl) ss _
  · exact foldl_lastVal asExtension Options.lineExtension (by intro s o; cases s <;> rfl) ss _

/-- Two options objects with the same field values are the same. -/
theorem Options.ext' {o o' : Options m} (h1 : o.childLimit = o'.childLimit) (h2 : o.treeFormat = o'.treeFormat) (h3 : o.emojiMapping = o'.emojiMapping)
    (h4 : o.compactDirectories = o'.compactDirectories) (h5 : o.maxDepth = o'.maxDepth) (h6 : o.pathComparator = o'.pathComparator) (h7 : o.dirMatcher = o'.dirMatcher)
    (h8 : o.fileMatcher = o'.fileMatcher) (h9 : o.lineExtension = o'.lineExtension) : o = o' := by
  cases o; cases o'; simp_all

/-- Different setters. -/
def Setter.kind : Setter m → Nat
  | .childLimit _ => 0 | .treeFormat _ => 1 | .emojis _ => 2 | .compactDirectories _ => 3 | .maxDepth _ => 4 | .sort _ => 5 | .filterDirectories _ => 6
  | .filterFiles _ => 7 | .lineExtension _ => 8

/-- **C49**: calls of different setters can be exchanged; of two calls of the same setter the first has no effect. -/
theorem C49_independent (s t : Setter m) (o : Options m) :
    (s.kind ≠ t.kind → t.run (s.run o) = s.run (t.run o)) ∧ (s.kind = t.kind → t.run (s.run o) = t.run o) := by
  constructor
  · intro h
    cases s <;> cases t <;> first | rfl | exact absurd rfl h
  · intro h
    cases s <;> cases t <;> first | rfl | cases h

/-- **C49**: `withChildLimit(n)` is `withChildLimit` with the constant function. -/
theorem C49_shorthands (o : Options m) (n : Int) : o.withChildLimit n = Setter.run (.childLimit (fun _ => pure n)) o := rfl

/-- Example: three calls, two of the same setter. -/
example : (([.maxDepth 3, .compactDirectories true, .maxDepth 5] : List (Setter (Except Exn))).foldl (fun o s => s.run o) Options.createDefault).maxDepth = 5 :=
  (C49_last_call_wins _).2.2.2.2.1

end

/-! ### C48 -/

section
variable {m : Type → Type} [Monad m]

/-- Every reference points to an existing object. -/
structure World.Ok (w : World m) : Prop where
  builders : ∀ r ∈ w.builders, r < w.options.length
  printers : ∀ x ∈ w.printers, x.1 < w.options.length

theorem World.step_length (w : World m) (op : Op m) : w.options.length ≤ (w.step op).options.length := by
  cases op with
  | newOptions => simp [World.step]
  | set r s => simp [World.step]
  | newBuilder => simp [World.step]
  | withOptions b r => unfold World.step; dsimp only; split <;> exact le_refl _
  | build b => unfold World.step; dsimp only; split; · exact le_refl _
               split <;> exact le_refl _

theorem World.Ok.step {w : World m} (h : w.Ok) (op : Op m) : (w.step op).Ok := by
  have hl := w.step_length op
  refine ⟨fun r hr => ?_, fun x hx => ?_⟩
  · cases op with
    | newOptions => exact lt_of_lt_of_le (h.builders r hr) hl
    | set r s => exact lt_of_lt_of_le (h.builders _ hr) hl
    | newBuilder =>
      simp only [World.step, List.mem_append, List.mem_singleton] at hr
      rcases hr with hr | rfl
      · exact lt_of_lt_of_le (h.builders _ hr) hl
      · simp [World.step]
    | withOptions b r' =>
      revert hr
      unfold World.step; dsimp only
      split
      · intro hr
        rcases List.mem_or_eq_of_mem_set hr with hr | rfl
        · exact h.builders _ hr
        · assumption
      · exact fun hr => h.builders _ hr
    | build b =>
      refine lt_of_lt_of_le (h.builders r ?_) hl
      revert hr
      unfold World.step; dsimp only; split; · exact id
      split <;> exact id
  · cases op with
    | newOptions => exact lt_of_lt_of_le (h.printers x hx) hl
    | set r s => exact lt_of_lt_of_le (h.printers x hx) hl
    | newBuilder => exact lt_of_lt_of_le (h.printers x hx) hl
    | withOptions b r' =>
      refine lt_of_lt_of_le (h.printers x ?_) hl
      revert hx
      unfold World.step; dsimp only; split <;> exact id
    | build b =>
      revert hx
      unfold World.step; dsimp only
      split
      · exact fun hx => h.printers x hx
      · rename_i r hr
        split
        · exact fun hx => h.printers x hx
        · intro hx
          simp only [List.mem_append, List.mem_singleton] at hx
          rcases hx with hx | rfl
          · exact h.printers x hx
          · exact h.builders r (List.mem_of_getElem? hr)

theorem World.Ok.run {w : World m} (h : w.Ok) (ops : List (Op m)) : (w.run ops).Ok := by
  induction ops generalizing w with
  | nil => exact h
  | cons op ops ih => exact ih (h.step op)

theorem World.ok_empty : (World.mk [] [] [] : World m).Ok := ⟨by simp, by simp⟩

/-- One call changes an existing options object only by a setter call on it. -/
theorem World.step_options (w : World m) (op : Op m) (r : Nat) (o : Options m) (h : w.options[r]? = some o) :
    (w.step op).options[r]? = some ((callsOn r [op]).foldl (fun o s => s.run o) o) := by
  have hr : r < w.options.length := (List.getElem?_eq_some_iff.1 h).1
  cases op with
  | newOptions => simp [World.step, callsOn, List.getElem?_append_left hr, h]
  | set r' s =>
    simp only [World.step, callsOn, List.getElem?_modify]
    by_cases hh : r' = r
    · simp [hh, h]
    · simp [hh, h]
  | newBuilder => simp [World.step, callsOn, List.getElem?_append_left hr, h]
  | withOptions b r' => unfold World.step; dsimp only; split <;> simpa [callsOn] using h
  | build b => unfold World.step; dsimp only; split; · simpa [callsOn] using h
               split <;> simpa [callsOn] using h

omit [Monad m] in
theorem callsOn_append (r : Nat) (a b : List (Op m)) : callsOn r (a ++ b) = callsOn r a ++ callsOn r b := by
  induction a with
  | nil => rfl
  | cons x xs ih => cases x <;> simp only [List.cons_append, callsOn, ih]; split <;> simp

theorem World.run_options (w : World m) (ops : List (Op m)) (r : Nat) (o : Options m) (h : w.options[r]? = some o) :
    (w.run ops).options[r]? = some ((callsOn r ops).foldl (fun o s => s.run o) o) := by
  induction ops generalizing w o with
  | nil => exact h
  | cons op ops ih =>
    have := ih (w.step op) _ (w.step_options op r o h)
    rw [← List.foldl_append, ← callsOn_append] at this
    exact this

/-- Printers are only added, at the end. -/
theorem World.run_printers (w : World m) (ops : List (Op m)) (i : Nat) (x : Nat × Printer m) (h : w.printers[i]? = some x) : (w.run ops).printers[i]? = some x := by
  induction ops generalizing w with
  | nil => exact h
  | cons op ops ih =>
    refine ih (w.step op) ?_
    cases op with
    | newOptions => exact h
    | set r s => exact h
    | newBuilder => exact h
    | withOptions b r => unfold World.step; dsimp only; split <;> exact h
    | build b =>
      unfold World.step; dsimp only
      split
      · exact h
      · split
        · exact h
        · rw [List.getElem?_append_left (List.getElem?_eq_some_iff.1 h).1]; exact h

theorem frozen_fields (ss : List (Setter m)) (o : Options m) :
    (ss.filter stillMatters).foldl (fun o s => s.run o) o =
      { ss.foldl (fun o s => s.run o) o with treeFormat := o.treeFormat, emojiMapping := o.emojiMapping } := by
  induction ss using List.reverseRecOn with
  | nil => rfl
  | append_singleton ss s ih =>
    rw [List.filter_append, List.foldl_append, List.foldl_append, ih]
    cases s <;> rfl

variable [LawfulMonad m] [MonadExceptOf Exn m]

/-- **C48**: a printer built at some point of a history prints, at any later point, what a new printer would print with the options it was built with
plus all later setter calls on the same options object, except `withTreeFormat` and `withEmojis`, which no longer matter. All other later calls — on other
options objects, on the builder — have no effect on it. -/
theorem C48_printer (fs : Fs m) (cwd : Path) (pre post : List (Op m)) (b r : Nat) (o : Options m) (hb : (World.run {} pre).builders[b]? = some r)
    (ho : (World.run {} pre).options[r]? = some o) (path : Path) :
    World.print fs cwd (World.run {} (pre ++ .build b :: post)) (World.run {} pre).printers.length path =
      some (prettyPrint fs cwd (((callsOn r post).filter stillMatters).foldl (fun o s => s.run o) o) path) := by
  have hrun : World.run {} (pre ++ .build b :: post) = World.run ((World.run {} pre).step (.build b)) post := by
    unfold World.run; rw [List.foldl_append]; rfl
  have hstep : (World.run {} pre).step (.build b) = { World.run {} pre with printers := (World.run {} pre).printers ++ [(r, Printer.build o)] } := by
    unfold World.step; dsimp only; rw [hb]; dsimp only; rw [ho]
  have hp := World.run_printers ((World.run {} pre).step (.build b)) post (World.run {} pre).printers.length (r, Printer.build o) (by rw [hstep]; simp)
  have hopt := World.run_options ((World.run {} pre).step (.build b)) post r o (by rw [hstep]; exact ho)
  rw [hrun]
  unfold World.print
  rw [hp]
  dsimp only
  rw [hopt, frozen_fields]
  dsimp only
  unfold prettyPrint Printer.prettyPrint Renderer.renderRoot
  dsimp only
  congr 1
  refine congrArg₂ (fun x (y : TreeEntry → m JStr) => x >>= y) rfl (funext fun t => ?_)
  rw [renderTree_eq _ _ o.treeFormat rfl, renderTree_eq _ _ o.treeFormat rfl]
  rfl

omit [LawfulMonad m] [MonadExceptOf Exn m] in
/-- **C48**: a builder always has an options object, so `build` always works. -/
theorem C48_build_works (pre : List (Op m)) (b r : Nat) (hb : (World.run {} pre).builders[b]? = some r) : ∃ o, (World.run {} pre).options[r]? = some o :=
  ⟨_, List.getElem?_eq_getElem ((World.ok_empty.run pre).builders r (List.mem_of_getElem? hb))⟩

/-- **C48**: in particular later `withTreeFormat`/`withEmojis` calls do not change the output. -/
theorem C48_format_is_kept (fs : Fs m) (cwd : Path) (pre post : List (Op m)) (b r : Nat) (hb : (World.run {} pre).builders[b]? = some r)
    (h : ∀ s ∈ callsOn r post, stillMatters s = false) (path : Path) :
    World.print fs cwd (World.run {} (pre ++ .build b :: post)) (World.run {} pre).printers.length path =
    World.print fs cwd (World.run {} (pre ++ [.build b])) (World.run {} pre).printers.length path := by
  obtain ⟨o, ho⟩ := C48_build_works pre b r hb
  rw [C48_printer fs cwd pre post b r o hb ho, C48_printer fs cwd pre [] b r o hb ho, List.filter_eq_nil_iff.2 (fun s hs => by simp [h s hs])]
  rfl

/-- **C48**: two printers built from different options objects do not influence each other: calls on other objects change nothing. -/
theorem C48_isolated (fs : Fs m) (cwd : Path) (pre post : List (Op m)) (b r : Nat) (hb : (World.run {} pre).builders[b]? = some r)
    (h : callsOn r post = []) (path : Path) :
    World.print fs cwd (World.run {} (pre ++ .build b :: post)) (World.run {} pre).printers.length path =
    World.print fs cwd (World.run {} (pre ++ [.build b])) (World.run {} pre).printers.length path :=
  C48_format_is_kept fs cwd pre post b r hb (by simp [h]) path

omit [LawfulMonad m] [MonadExceptOf Exn m] in
/-- **C48**: every builder starts with an options object of its own, in its default state. -/
theorem C48_own_object (pre : List (Op m)) :
    let w := World.run {} pre
    let w' := World.run {} (pre ++ [.newBuilder])
    ∃ r, w'.builders[w.builders.length]? = some r ∧ w'.options[r]? = some Options.createDefault ∧ (∀ r' ∈ w.builders, r' ≠ r) ∧ (∀ x ∈ w.printers, x.1 ≠ r) := by
  have hok := World.ok_empty (m := m) |>.run pre
  refine ⟨(World.run {} pre).options.length, ?_, ?_, ?_, ?_⟩
  · unfold World.run; rw [List.foldl_append]; simp [World.step]
  · unfold World.run; rw [List.foldl_append]; simp [World.step]
  · intro r' hr'; exact (hok.builders r' hr').ne
  · intro x hx; exact (hok.printers x hx).ne

end

/-- Example: build, then change the depth and the format: the printer follows the depth only. -/
example (path : Path) : World.print Demo.dfs.lift Demo.r (World.run {} ([.newBuilder] ++ .build 0 :: [.set 0 (.maxDepth 1), .set 0 (.treeFormat TreeFormats.CLASSIC_ASCII)])) 0 path =
    some (prettyPrint (m := Except Exn) Demo.dfs.lift Demo.r (Demo.dflt.withMaxDepth 1) path) :=
  C48_printer Demo.dfs.lift Demo.r [.newBuilder] _ 0 0 Demo.dflt rfl rfl path

/-! ### C57 -/

/-- **C57**: after any sequence of operations a depth contains exactly the symbols still on the stack; `append` pushes, `pop` removes the last one and leaves the empty depth alone. -/
theorem C57_stack (d : Depth) (s : TreeSymbol) :
    (d.append s).pop = d ∧ (d.append s).getSize = d.getSize + 1 ∧ Depth.createNewEmpty.pop = Depth.createNewEmpty ∧ (d.append s).isRoot = false ∧
    (d.append s).isEmpty = false ∧ (d.isRoot = true ↔ d = Depth.createNewEmpty) ∧ (d.isEmpty = true ↔ d = Depth.createNewEmpty) := by
  obtain ⟨l⟩ := d
  refine ⟨?_, ?_, rfl, ?_, ?_, ?_, ?_⟩
  · simp [Depth.append, Depth.pop]
  · simp [Depth.append, Depth.getSize]
  · simp [Depth.append, Depth.isRoot, Depth.getSize]
  · simp [Depth.append, Depth.isEmpty]
  · simp [Depth.isRoot, Depth.getSize, Depth.createNewEmpty]
  · simp [Depth.isEmpty, Depth.createNewEmpty]

/-- **C57**: a depth is determined by the appends that were not popped: appending a whole list and popping it again gives back the depth, popping more than the size gives the empty depth. -/
theorem C57_pushes_and_pops (d : Depth) (ss : List TreeSymbol) :
    (Depth.pop^[ss.length]) (ss.foldl Depth.append d) = d ∧ (ss.foldl Depth.append d).getSize = d.getSize + ss.length ∧
    ∀ n, d.getSize ≤ n → (Depth.pop^[n]) d = Depth.createNewEmpty := by
  have hpop : ∀ d : Depth, d.pop.symbols = d.symbols.dropLast := by
    intro d; unfold Depth.pop; split
    · rename_i h; rw [List.isEmpty_iff.1 h]; rfl
    · rfl
  refine ⟨?_, ?_, ?_⟩
  · induction ss using List.reverseRecOn generalizing d with
    | nil => rfl
    | append_singleton ss s ih =>
      rw [List.length_append, List.length_singleton, Function.iterate_succ_apply, List.foldl_append]
      show (Depth.pop^[ss.length]) (((ss.foldl Depth.append d).append s).pop) = d
      rw [(C57_stack _ s).1, ih]
  · induction ss generalizing d with
    | nil => rfl
    | cons s ss ih => rw [List.foldl_cons, ih, (C57_stack d s).2.1, List.length_cons]; omega
  · intro n
    induction n generalizing d with
    | zero =>
      intro h
      obtain ⟨l⟩ := d
      have : l = [] := List.length_eq_zero_iff.1 (by simpa [Depth.getSize] using h)
      subst this; rfl
    | succ n ih =>
      intro h
      rw [Function.iterate_succ_apply]
      refine ih _ ?_
      unfold Depth.getSize at h ⊢
      rw [hpop, List.length_dropLast]; omega

/-- **C57**: equality of depths is equality of their symbols. -/
theorem C57_equals (d e : Depth) : d.equals e = true ↔ d = e := by
  obtain ⟨l⟩ := d; obtain ⟨k⟩ := e
  simp [Depth.equals]

/-- Example. -/
example : ((Depth.createNewEmpty.append .LAST_FILE).append .EMPTY).pop.symbols = [.LAST_FILE] := rfl

end JFTP
