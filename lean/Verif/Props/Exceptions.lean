import Verif.Spec.Exceptions
import Verif.Props.Threads
import Verif.Props.Sorting
import Verif.Lemmas.Disk

/-!
C76: where exceptions come from.
-/

namespace JFTP
open Spec

namespace Exceptions76

variable {m : Type → Type} [Monad m] [MonadExceptOf Exn m] [Outcomes m]

/-- However `x` ends: a returned value satisfies `P`, an exception satisfies `E`. -/
def Ends {α : Type} (x : m α) (P : α → Prop) (E : Exn → Prop) : Prop := (∀ a, CanReturn x a → P a) ∧ ∀ e, CanThrow x e → E e

section
variable {α β : Type} {P : α → Prop} {Q : β → Prop} {E : Exn → Prop}

theorem ends_pure {a : α} (h : P a) : Ends (pure a : m α) P E :=
  ⟨fun b hb => (by have := Outcomes.pure hb; cases this; exact h), fun e he => (by have := Outcomes.pure he; cases this)⟩

theorem ends_throw {e : Exn} (h : E e) : Ends (throw e : m α) P E :=
  ⟨fun b hb => (by have := Outcomes.throw hb; cases this), fun e' he => (by have := Outcomes.throw he; cases this; exact h)⟩

theorem ends_bind {x : m α} {f : α → m β} (h1 : Ends x P E) (h2 : ∀ a, CanReturn x a → P a → Ends (f a) Q E) : Ends (x >>= f) Q E := by
  refine ⟨fun b hb => ?_, fun e he => ?_⟩
  · rcases Outcomes.bind hb with ⟨a, h3, h4⟩ | ⟨e, _, h4⟩
    · exact (h2 a h3 (h1.1 a h3)).1 b h4
    · cases h4
  · rcases Outcomes.bind he with ⟨a, h3, h4⟩ | ⟨e', h3, h4⟩
    · exact (h2 a h3 (h1.1 a h3)).2 e h4
    · cases h4; exact h1.2 e h3

theorem ends_only {x : m α} (h : Ends x (fun _ => True) E) : ∀ e, CanThrow x e → E e := h.2

theorem ends_mono {x : m α} {P' : α → Prop} (h : Ends x P E) (hp : ∀ a, P a → P' a) : Ends x P' E := ⟨fun a ha => hp a (h.1 a ha), h.2⟩

/-- An action of which only the exceptions are of interest. -/
theorem ends_of {x : m α} (h : ∀ e, CanThrow x e → E e) : Ends x (fun _ => True) E := ⟨fun _ _ => trivial, h⟩

theorem ends_weaken {x : m α} {E' : Exn → Prop} (h : Ends x P E) (hp : ∀ e, E e → E' e) : Ends x P E' := ⟨h.1, fun e he => hp e (h.2 e he)⟩

theorem ends_map {x : m α} [LawfulMonad m] {f : α → β} (h : Ends x P E) (hq : ∀ a, P a → Q (f a)) : Ends (f <$> x) Q E := by
  rw [← bind_pure_comp]
  exact ends_bind h (fun a _ ha => ends_pure (hq a ha))

end

/-! ### Scanning -/

section
variable {fs : Fs m} {o : Options m} {top : Path}

/-- All paths of the entry are known. -/
inductive Good (fs : Fs m) (top : Path) : TreeEntry → Prop where
  | dir {d es} : Known fs top d → (∀ e ∈ es, Good fs top e) → Good fs top (.dir d es)
  | file {q a} : Known fs top q → Good fs top (.file q a)
  | skipped {d} : Good fs top (.skipped d)
  | maxDepth {n} : Good fs top (.maxDepth n)

theorem ends_filter {l : List Path} (h : ∀ q ∈ l, Known fs top q) :
    Ends (Scanner.filterEntries (o.pathFilter fs) l) (fun l' => ∀ q ∈ l', Known fs top q) (Cause fs o top) := by
  induction l with
  | nil => exact ends_pure (fun q hq => by cases hq)
  | cons c l ih =>
    have hc := h c (by simp)
    unfold Scanner.filterEntries
    refine ends_bind (P := fun _ => True) ?_ (fun keep _ _ => ends_bind (ih (fun q hq => h q (by simp [hq]))) (fun l' _ hl' => ends_pure ?_))
    · refine ends_bind (ends_of (x := fs.isDir c) (fun e he => .access hc (.inl he))) (fun b hb _ => ?_)
      cases b with
      | true => exact ends_of (fun e he => .dirFilter hc hb he)
      | false => exact ends_of (fun e he => .fileFilter hc hb he)
    · intro q hq
      split at hq
      · rcases List.mem_cons.1 hq with rfl | hq
        · exact hc
        · exact hl' q hq
      · exact hl' q hq

theorem ends_childLoop {E : Exn → Prop} {visit : Path → m TreeEntry} (n : Int) (hv : ∀ q, Known fs top q → Ends (visit q) (Good fs top) E) :
    ∀ (l : List Path) (k : Int), (∀ q ∈ l, Known fs top q) → Ends (Scanner.childLoop visit n k l) (fun r => ∀ e ∈ r.1, Good fs top e) E := by
  intro l
  induction l with
  | nil => intro k _; exact ends_pure (fun e he => by cases he)
  | cons c l ih =>
    intro k h
    unfold Scanner.childLoop
    dsimp only
    split
    · exact ends_pure (fun e he => by cases he)
    · refine ends_bind (hv c (h c (by simp))) (fun t _ ht => ends_bind (ih _ (fun q hq => h q (by simp [hq]))) (fun r _ hr => ends_pure ?_))
      intro e he
      rcases List.mem_cons.1 he with rfl | he
      · exact ht
      · exact hr e he

theorem mem_streamSorted {c : Cmp} {l : List Path} {q : Path} : q ∈ streamSorted c l ↔ q ∈ l := by
  unfold streamSorted
  exact List.mem_mergeSort

theorem ends_handle (k : Nat) (q : Path) (hq : Known fs top q) : Ends (Scanner.handle fs (o.toScan fs) k q) (Good fs top) (Cause fs o top) := by
  rw [Scanner.handle]
  refine ends_bind (ends_of (x := fs.isDir q) (fun e he => .access hq (.inl he))) (fun b hb _ => ?_)
  cases b with
  | false =>
    simp only [Bool.false_eq_true, if_false]
    unfold Scanner.handleFile
    refine ends_bind (ends_of (fun e he => .access hq (.inr (.inr he)))) (fun a ha _ => ?_)
    cases a with
    | none => exact ends_throw (.attrs hq hb ha)
    | some a => exact ends_pure (.file hq)
  | true =>
    simp only [if_true]
    split
    · exact ends_pure (.dir hq (fun e he => by obtain rfl := List.mem_singleton.1 he; exact .maxDepth))
    rename_i hk
    unfold Scanner.handleDirectory
    refine ends_bind (ends_of (fun e he => .access hq (.inr (.inl he)))) (fun l hl _ => ?_)
    cases l with
    | openFailed => exact ends_throw (.list hq hb hl)
    | opened cs bad =>
      refine ends_bind (P := fun es => ∀ e ∈ es, Good fs top e) ?_ (fun es _ hes => ends_pure (.dir hq hes))
      have hcs : ∀ c ∈ cs, Known fs top c := fun c hc => .inr ⟨q, cs, bad, hl, hc⟩
      unfold Scanner.handleDirectoryChildren
      refine ends_bind (ends_of (fun e he => .limit hq he)) (fun n _ _ => ends_bind (ends_filter hcs) (fun l _ hl' => ?_))
      have rest : Ends (do
          let (es, left) ← Scanner.childLoop (fun c => Scanner.handle fs (o.toScan fs) (k + 1) c) n 0 (streamSorted (o.toScan fs).pathComparator l)
          return if left.isEmpty then es else es ++ [TreeEntry.skipped q]) (fun es => ∀ e ∈ es, Good fs top e) (Cause fs o top) := by
        refine ends_bind (ends_childLoop n (fun c hc => ends_handle (k + 1) c hc) _ _ (fun c hc => hl' c (mem_streamSorted.1 hc))) (fun r _ hr => ends_pure ?_)
        intro e he
        split at he
        · exact hr e he
        · rcases List.mem_append.1 he with he | he
          · exact hr e he
          · obtain rfl := List.mem_singleton.1 he; exact .skipped
      cases bad with
      | true => exact ends_bind (P := fun _ => False) (ends_throw (.iteration hq hb hl)) (fun _ _ h => h.elim)
      | false => simpa using rest
termination_by (o.maxDepth - k).toNat
decreasing_by
  have : (o.toScan fs).maxDepth = o.maxDepth := rfl
  omega

/-! ### Scanning with a comparator that may throw -/

theorem ends_exec {c : CmpM m} {l : List Path} {α : Type} {run : SortRun α} (ha : AsksAbout l run) :
    Ends (run.exec c) (fun x => MayReturn run x) (fun e => (∃ a ∈ l, ∃ b ∈ l, CanThrow (c a b) e) ∨ (e = .illegalArgument ∧ MayFail run)) := by
  induction ha with
  | done => exact ends_pure .done
  | fail => exact ends_throw (.inr ⟨rfl, .fail⟩)
  | @ask a b next ha hb _ ih =>
    refine ends_bind (ends_of (x := c a b) (fun e he => .inl ⟨a, ha, b, hb, he⟩)) (fun n _ _ => ?_)
    refine ends_weaken (ends_mono (ih n) (fun x hx => .ask hx)) ?_
    rintro e (h | ⟨rfl, h⟩)
    · exact .inl h
    · exact .inr ⟨rfl, .ask h⟩

theorem ends_filter_sub {l : List Path} {flt : Matcher m} : Ends (Scanner.filterEntries flt l) (fun l' => l'.Sublist l) (fun _ => True) := by
  induction l with
  | nil => exact ends_pure (List.Sublist.refl _)
  | cons c l ih =>
    unfold Scanner.filterEntries
    refine ends_bind (ends_of (fun _ _ => trivial)) (fun keep _ _ => ends_bind ih (fun l' _ hl' => ends_pure ?_))
    split
    · exact hl'.cons_cons c
    · exact hl'.cons c

theorem ends_liveHandle {c : CmpM m} (k : Nat) (q : Path) (hq : Known fs top q) :
    Ends (LiveScanner.handle TimSort.sort c fs (o.toScan fs) k q) (Good fs top) (SortCause fs o c top) := by
  rw [LiveScanner.handle]
  refine ends_bind (ends_of (x := fs.isDir q) (fun e he => .other (.access hq (.inl he)))) (fun b hb _ => ?_)
  cases b with
  | false =>
    simp only [Bool.false_eq_true, if_false]
    unfold Scanner.handleFile
    refine ends_bind (ends_of (fun e he => .other (.access hq (.inr (.inr he))))) (fun a ha _ => ?_)
    cases a with
    | none => exact ends_throw (.other (.attrs hq hb ha))
    | some a => exact ends_pure (.file hq)
  | true =>
    simp only [if_true]
    split
    · exact ends_pure (.dir hq (fun e he => by obtain rfl := List.mem_singleton.1 he; exact .maxDepth))
    rename_i hk
    unfold LiveScanner.handleDirectory
    refine ends_bind (ends_of (fun e he => .other (.access hq (.inr (.inl he))))) (fun l hl _ => ?_)
    cases l with
    | openFailed => exact ends_throw (.other (.list hq hb hl))
    | opened cs bad =>
      refine ends_bind (P := fun es => ∀ e ∈ es, Good fs top e) ?_ (fun es _ hes => ends_pure (.dir hq hes))
      have hcs : ∀ c ∈ cs, Known fs top c := fun c hc => .inr ⟨q, cs, bad, hl, hc⟩
      unfold LiveScanner.handleDirectoryChildren
      refine ends_bind (ends_of (fun e he => .other (.limit hq he))) (fun n _ _ => ends_bind (ends_weaken (ends_filter (o := o) hcs) (fun e he => .other he)) (fun l hret hl' => ?_))
      have hsub : l.Sublist cs := (ends_filter_sub (flt := o.pathFilter fs)).1 l hret
      have hs := sort_sorts l
      have rest : Ends (do
          let sorted ← (TimSort.sort l).exec c
          let (es, left) ← Scanner.childLoop (fun c' => LiveScanner.handle TimSort.sort c fs (o.toScan fs) (k + 1) c') n 0 sorted
          return if left.isEmpty then es else es ++ [TreeEntry.skipped q]) (fun es => ∀ e ∈ es, Good fs top e) (SortCause fs o c top) := by
        refine ends_bind (ends_weaken (ends_exec hs.asks) ?_) (fun l2 _ hl2 => ?_)
        · rintro e (⟨a, ha, b, hb, h⟩ | ⟨rfl, h⟩)
          · exact .compare hq hl (hsub.subset ha) (hsub.subset hb) h
          · exact .contract hq hl ((Sorting71.sort_fail h).trans hsub.length_le)
        · refine ends_bind (ends_childLoop n (fun c hc => ends_liveHandle (k + 1) c hc) _ _ (fun c hc => hl' c ((hs.permutes _ hl2).mem_iff.1 hc))) (fun r _ hr => ends_pure ?_)
          intro e he
          split at he
          · exact hr e he
          · rcases List.mem_append.1 he with he | he
            · exact hr e he
            · obtain rfl := List.mem_singleton.1 he; exact .skipped
      cases bad with
      | true => exact ends_bind (P := fun _ => False) (ends_throw (.other (.iteration hq hb hl))) (fun _ _ h => h.elim)
      | false => simpa using rest
termination_by (o.maxDepth - k).toNat
decreasing_by
  have : (o.toScan fs).maxDepth = o.maxDepth := rfl
  omega

/-! ### Rendering -/

theorem no_name {q : Path} (h : q.getFileName = none) : q.names = [] := by
  unfold Path.getFileName at h
  simpa using h

theorem ends_dirs {ds : List Path} (h : ∀ d ∈ ds, Known fs top d) : Ends (FileFormatter.formatDirs ds : m JStr) (fun _ => True) (Cause fs o top) := by
  induction ds with
  | nil => exact ends_pure trivial
  | cons d ds ih =>
    unfold FileFormatter.formatDirs
    have rest := ih (fun q hq => h q (by simp [hq]))
    cases hn : d.getFileName with
    | some n => exact ends_bind (P := fun _ => True) (ends_pure trivial) (fun _ _ _ => ends_bind rest (fun _ _ _ => ends_pure trivial))
    | none => exact ends_bind (P := fun _ => True) (ends_throw (.name (h d (by simp)) (no_name hn))) (fun _ _ _ => ends_bind rest (fun _ _ _ => ends_pure trivial))

theorem ends_emoji {q : Path} (h : Known fs top q) : Ends (FileFormatter.emojiPrefix o.emojiMapping q) (fun _ => True) (Cause fs o top) := by
  unfold FileFormatter.emojiPrefix
  refine ends_bind (ends_of (fun e he => .emoji h he)) (fun x _ _ => ?_)
  cases x <;> exact ends_pure trivial

theorem ends_begin {k : Depth} {d : Path} {ds : List Path} (hd : Known fs top d) (h : ∀ d ∈ ds, Known fs top d) :
    Ends ((LineRenderer.create o.toRender).renderDirectoryBegin k d ds) (fun _ => True) (Cause fs o top) := by
  unfold LineRenderer.renderDirectoryBegin FileFormatter.emojiFormatDirectoryBegin
  refine ends_bind (P := fun _ => True) (ends_bind (ends_emoji (o := o) hd) (fun _ _ _ => ends_bind (ends_dirs h) (fun _ _ _ => ends_pure trivial))) (fun _ _ _ => ends_pure trivial)

theorem ends_file {k : Depth} {q : Path} {a : Attrs} (h : Known fs top q) :
    Ends ((LineRenderer.create o.toRender).renderFile k q a) (fun _ => True) (Cause fs o top) := by
  unfold LineRenderer.renderFile FileFormatter.emojiFormatFile
  refine ends_bind (P := fun _ => True) (ends_bind (ends_emoji (o := o) h) (fun _ _ _ => ends_bind (P := fun _ => True) ?_ (fun _ _ _ => ends_pure trivial))) (fun _ _ _ => ends_pure trivial)
  unfold FileFormatter.formatFile
  cases hn : q.getFileName with
  | none => exact ends_bind (P := fun _ => False) (ends_throw (.name h (no_name hn))) (fun _ _ h => h.elim)
  | some n =>
    refine ends_bind (P := fun _ => True) (ends_pure trivial) (fun _ _ _ => ?_)
    split
    · exact ends_pure trivial
    · split <;> exact ends_pure trivial

theorem ends_ext {q : Path} (h : Known fs top q) : Ends (Renderer.computeLineExtension o.toRender q) (fun _ => True) (Cause fs o top) := by
  unfold Renderer.computeLineExtension
  cases hx : o.lineExtension with
  | none => rw [show o.toRender.lineExtension = none from hx]; exact ends_pure trivial
  | some f => rw [show o.toRender.lineExtension = some f from hx]; exact ends_of (fun e he => .extension h hx he)

mutual
theorem ends_tree (k : Depth) (t : TreeEntry) (h : Good fs top t) : Ends (Renderer.renderTree o.toRender (LineRenderer.create o.toRender) k t) (fun _ => True) (Cause fs o top) := by
  match t with
  | .dir d es =>
    cases h with
    | dir hd hes =>
      rw [Renderer.renderTree]
      exact ends_directory k d es [d] hd (fun q hq => by obtain rfl := List.mem_singleton.1 hq; exact hd) hes
  | .file q a =>
    cases h with
    | file hq =>
      rw [Renderer.renderTree]
      exact ends_bind (ends_file hq) (fun _ _ _ => ends_bind (ends_ext hq) (fun _ _ _ => ends_pure trivial))
  | .skipped _ => rw [Renderer.renderTree]; exact ends_pure trivial
  | .maxDepth _ => rw [Renderer.renderTree]; exact ends_pure trivial
termination_by (sizeOf t, 1)
theorem ends_directory (k : Depth) (d : Path) (es : List TreeEntry) (ds : List Path) (hd : Known fs top d) (hds : ∀ q ∈ ds, Known fs top q) (hes : ∀ e ∈ es, Good fs top e) :
    Ends (Renderer.renderDirectory o.toRender (LineRenderer.create o.toRender) k d es ds) (fun _ => True) (Cause fs o top) := by
  have kids := ends_children k es hes
  have other : Ends (do
      let line ← (LineRenderer.create o.toRender).renderDirectoryBegin k d ds
      let extension ← Renderer.computeLineExtension o.toRender d
      let childLines ← Renderer.renderChildren o.toRender (LineRenderer.create o.toRender) k es
      return line ++ extension.getD [] ++ (if es.isEmpty then [] else [NL]) ++ childLines) (fun _ => True) (Cause fs o top) :=
    ends_bind (ends_begin hd hds) (fun _ _ _ => ends_bind (ends_ext hd) (fun _ _ _ => ends_bind kids (fun _ _ _ => ends_pure trivial)))
  match es with
  | [.dir c ces] =>
    obtain ⟨hc, hces⟩ : Known fs top c ∧ ∀ e ∈ ces, Good fs top e := by
      have := hes (.dir c ces) (by simp)
      cases this with | dir h1 h2 => exact ⟨h1, h2⟩
    have step := ends_directory k c ces (ds ++ [c]) hc (fun q hq => by
      rcases List.mem_append.1 hq with hq | hq
      · exact hds q hq
      · obtain rfl := List.mem_singleton.1 hq; exact hc) hces
    rw [Renderer.renderDirectory.eq_def]
    dsimp only
    split
    · refine ends_bind (ends_ext hd) (fun x _ _ => ?_)
      cases x with
      | none => exact step
      | some x => exact ends_bind (ends_begin hd hds) (fun _ _ _ => ends_bind kids (fun _ _ _ => ends_pure trivial))
    · exact ends_bind (ends_begin hd hds) (fun _ _ _ => ends_bind (ends_ext hd) (fun _ _ _ => ends_bind kids (fun _ _ _ => ends_pure trivial)))
  | [] => rw [Renderer.renderDirectory.eq_def]; exact other
  | .file _ _ :: _ => rw [Renderer.renderDirectory.eq_def]; exact other
  | .skipped _ :: _ => rw [Renderer.renderDirectory.eq_def]; exact other
  | .maxDepth _ :: _ => rw [Renderer.renderDirectory.eq_def]; exact other
  | .dir _ _ :: _ :: _ => rw [Renderer.renderDirectory.eq_def]; exact other
termination_by (sizeOf es, 3)
theorem ends_children (k : Depth) (es : List TreeEntry) (hes : ∀ e ∈ es, Good fs top e) :
    Ends (Renderer.renderChildren o.toRender (LineRenderer.create o.toRender) k es) (fun _ => True) (Cause fs o top) := by
  match es with
  | [] => rw [Renderer.renderChildren]; exact ends_pure trivial
  | e :: rest =>
    rw [Renderer.renderChildren]
    exact ends_bind (ends_tree _ e (hes e (by simp))) (fun _ _ _ => ends_bind (ends_children k rest (fun e he => hes e (by simp [he]))) (fun _ _ _ => ends_pure trivial))
termination_by (sizeOf es, 2)
end

end

/-! ### What the library provides -/

section
variable {fs : Fs m} {cwd : Path} {E : Exn → Prop}

theorem quiet_pure {α : Type} {f : Path → α} : Only E (fun p => (pure (f p) : m α)) := fun _ _ h => by
  have := Outcomes.pure h
  cases this

/-- Proofs of `Only` go through `Ends`. -/
theorem only_ends {α : Type} {f : Path → m α} (h : Only E f) (p : Path) : Ends (f p) (fun _ => True) E := ends_of (h p)

theorem ends_all {ms : List (Matcher m)} (h : ∀ x ∈ ms, Only E x) (p : Path) : Ends (PathMatchers.all p ms) (fun _ => True) E := by
  induction ms with
  | nil => exact ends_pure trivial
  | cons x ms ih =>
    refine ends_bind (only_ends (h x (by simp)) p) (fun b _ _ => ?_)
    cases b
    · exact ends_pure trivial
    · exact ih (fun y hy => h y (by simp [hy]))

theorem ends_any {ms : List (Matcher m)} (h : ∀ x ∈ ms, Only E x) (p : Path) : Ends (PathMatchers.any p ms) (fun _ => True) E := by
  induction ms with
  | nil => exact ends_pure trivial
  | cons x ms ih =>
    refine ends_bind (only_ends (h x (by simp)) p) (fun b _ _ => ?_)
    cases b
    · exact ih (fun y hy => h y (by simp [hy]))
    · exact ends_pure trivial

theorem ends_none {ms : List (Matcher m)} (h : ∀ x ∈ ms, Only E x) (p : Path) : Ends (PathMatchers.none p ms) (fun _ => True) E := by
  induction ms with
  | nil => exact ends_pure trivial
  | cons x ms ih =>
    refine ends_bind (only_ends (h x (by simp)) p) (fun b _ _ => ?_)
    cases b
    · exact ih (fun y hy => h y (by simp [hy]))
    · exact ends_pure trivial

theorem ends_ancestor {mt : Matcher m} (h : Only E mt) : ∀ (k : Nat) (p : Option Path), (∀ q, p = some q → q.names.length < k) → Ends (PathMatchers.ancestorLoop mt p) (fun _ => True) E := by
  intro k
  induction k with
  | zero =>
    intro p hp
    cases p with
    | none => rw [PathMatchers.ancestorLoop]; exact ends_pure trivial
    | some q => exact absurd (hp q rfl) (by omega)
  | succ k ih =>
    intro p hp
    cases p with
    | none => rw [PathMatchers.ancestorLoop]; exact ends_pure trivial
    | some q =>
      rw [PathMatchers.ancestorLoop]
      refine ends_bind (only_ends h q) (fun b _ _ => ?_)
      cases b
      · exact ih _ (fun q' hq' => by have := Path.getParent_length hq'; have := hp q rfl; omega)
      · exact ends_pure trivial

theorem ends_walkEntries {d : Path} {bad : Bool} (hbad : bad = true → E (.cannotWalk d)) {v : Path → m Bool} (hv : Only E v) (cs : List Path) :
    Ends (PathMatchers.walkEntries d bad v cs) (fun _ => True) E := by
  induction cs with
  | nil =>
    unfold PathMatchers.walkEntries
    cases bad with
    | true => exact ends_throw (hbad rfl)
    | false => exact ends_pure trivial
  | cons c cs ih =>
    refine ends_bind (only_ends hv c) (fun b _ _ => ?_)
    cases b
    · exact ih
    · exact ends_pure trivial

variable (hw : ∀ e, WalkFault fs e → E e) (ha : ∀ e, AccessThrows fs e → E e)
include hw ha

theorem only_walkTest {incl : Path → Bool} {mt : Matcher m} (h : Only E mt) (k : Nat) : Only E (PathMatchers.walkTest fs incl mt k) := by
  have test (p : Path) : Ends (if incl p then mt p else pure false) (fun _ => True) E := by
    split
    · exact only_ends h p
    · exact ends_pure trivial
  have stat (p : Path) : Ends (fs.lstat p) (fun _ => True) E := ends_of (fun e he => ha e ⟨p, .inr (.inr (.inr (.inr (.inr he))))⟩)
  have list (p : Path) : Ends (fs.listDir p) (fun _ => True) E := ends_of (fun e he => ha e ⟨p, .inr (.inl he)⟩)
  induction k with
  | zero =>
    intro p
    refine ends_only ?_
    unfold PathMatchers.walkTest
    refine ends_bind (stat p) (fun r hr _ => ?_)
    cases r with
    | none => exact ends_throw (hw _ ⟨p, rfl, .inl hr⟩)
    | some r => exact test p
  | succ k ih =>
    intro p
    refine ends_only ?_
    unfold PathMatchers.walkTest
    refine ends_bind (stat p) (fun r hr _ => ?_)
    rcases r with _ | _ | _
    · exact ends_throw (hw _ ⟨p, rfl, .inl hr⟩)
    · exact test p
    refine ends_bind (list p) (fun l hl _ => ?_)
    cases l with
    | openFailed => exact ends_throw (hw _ ⟨p, rfl, .inr (.inl hl)⟩)
    | opened cs bad =>
      refine ends_bind (test p) (fun b _ _ => ?_)
      cases b
      · exact ends_walkEntries (fun hb => hw _ ⟨p, rfl, .inr (.inr ⟨cs, hb ▸ hl⟩)⟩) ih cs
      · exact ends_pure trivial

theorem ends_testDescendants {p : Path} {k : Nat} {incl : Path → Bool} {mt : Matcher m} (h : Only E mt) : Ends (PathMatchers.testDescendants fs p k mt incl) (fun _ => True) E := by
  unfold PathMatchers.testDescendants
  refine ends_bind (ends_of (x := fs.isDir p) (fun e he => ha e ⟨p, .inl he⟩)) (fun b _ _ => ?_)
  cases b with
  | false => exact ends_pure trivial
  | true =>
    refine ends_bind (ends_of (x := fs.lstat p) (fun e he => ha e ⟨p, .inr (.inr (.inr (.inr (.inr he))))⟩)) (fun r hr _ => ?_)
    rcases r with _ | _ | _
    · exact ends_throw (hw _ ⟨p, rfl, .inl hr⟩)
    · exact ends_pure trivial
    refine ends_bind (ends_of (x := fs.listDir p) (fun e he => ha e ⟨p, .inr (.inl he)⟩)) (fun l hl _ => ?_)
    cases l with
    | openFailed => exact ends_throw (hw _ ⟨p, rfl, .inr (.inl hl)⟩)
    | opened cs bad => exact ends_walkEntries (fun hb => hw _ ⟨p, rfl, .inr (.inr ⟨cs, hb ▸ hl⟩)⟩) (only_walkTest hw ha h _) cs

theorem only_lib {user : Matcher m → Prop} (hu : ∀ mt, user mt → Only E mt) {mt : Matcher m} (h : LibMatcher fs cwd user mt) : Only E mt := by
  have ok {ms : List (Matcher m)} {mode : PathMatchers.Mode} {mt : Matcher m} (hm : PathMatchers.combineMatchers ms mode = .ok mt) (h : ∀ x ∈ ms, Only E x) : Only E mt := by
    unfold PathMatchers.combineMatchers at hm
    split at hm
    · cases hm
    · cases hm
      intro p
      cases mode with
      | ALL => exact (ends_all h p).2
      | ANY => exact (ends_any h p).2
      | NONE => exact (ends_none h p).2
  induction h with
  | user h => exact hu _ h
  | not _ ih => exact fun p => (ends_bind (only_ends ih p) (fun _ _ _ => ends_pure (P := fun _ => True) trivial)).2
  | allOf _ hm ih => exact ok hm ih
  | anyOf _ hm ih => exact ok hm ih
  | noneOf _ hm ih => exact ok hm ih
  | ifMatchesThenElse _ _ _ h1 h2 h3 =>
    refine fun p => (ends_bind (Q := fun _ => True) (only_ends h1 p) (fun b _ _ => ?_)).2
    cases b
    · exact only_ends h3 p
    · exact only_ends h2 p
  | absolute _ ih => exact fun p => ih _
  | relative _ ih => exact fun p => ih _
  | @absoluteGlob glob g mt h =>
    unfold PathMatchers.hasAbsolutePathMatchingGlob at h
    split at h
    · cases h; exact quiet_pure
    · cases hg : glob g with
      | error e => rw [hg] at h; cases h
      | ok f => rw [hg] at h; cases h; exact fun p => quiet_pure (f := f) _
  | @relativeGlob glob ref g mt h =>
    unfold PathMatchers.hasRelativePathMatchingGlob at h
    split at h
    · cases h; exact quiet_pure
    · cases hg : glob g with
      | error e => rw [hg] at h; cases h
      | ok f => rw [hg] at h; cases h; exact fun p => quiet_pure (f := f) _
  | @nameGlob glob g mt h =>
    unfold PathMatchers.hasNameMatchingGlob at h
    split at h
    · cases h; exact quiet_pure
    · cases hg : glob g with
      | error e => rw [hg] at h; cases h
      | ok f => rw [hg] at h; cases h; exact quiet_pure
  | name => exact quiet_pure
  | nameIgnoreCase => exact quiet_pure
  | namePattern => exact quiet_pure
  | startingWith => exact quiet_pure
  | endingWith => exact quiet_pure
  | extension => exact quiet_pure
  | isDirectory => exact fun p e he => ha e ⟨p, .inl he⟩
  | isFile => exact fun p => (ends_bind (ends_of (x := fs.isDir p) (fun e he => ha e ⟨p, .inl he⟩)) (fun _ _ _ => ends_pure (P := fun _ => True) trivial)).2
  | isRegularFile => exact fun p e he => ha e ⟨p, .inr (.inr (.inr (.inl he)))⟩
  | isSymbolicLink => exact fun p e he => ha e ⟨p, .inr (.inr (.inr (.inr (.inl he))))⟩
  | parent _ ih =>
    intro p
    unfold PathMatchers.hasDirectParentMatching
    cases p.getParent with
    | none => exact quiet_pure (f := fun _ => false) p
    | some q => exact ih q
  | ancestor _ ih => exact fun p => (ends_ancestor ih p.names.length _ (fun q hq => Path.getParent_length hq)).2
  | child _ ih => exact fun p => (ends_testDescendants hw ha ih).2
  | descendant _ ih => exact fun p => (ends_testDescendants hw ha ih).2
  | sibling _ ih =>
    intro p
    unfold PathMatchers.hasSiblingMatching
    cases p.getParent with
    | none => exact quiet_pure (f := fun _ => false) p
    | some q => exact (ends_testDescendants hw ha ih).2

end

theorem only_limitLoop {E : Exn → Prop} {rules : List (Path → m Int)} (h : ∀ r ∈ rules, Only E r) (p : Path) : ∀ n, Ends (ChildLimitBuilder.limitLoop p n rules) (fun _ => True) E := by
  induction rules with
  | nil => exact fun n => ends_pure trivial
  | cons r rs ih =>
    intro n
    refine ends_bind (only_ends (h r (by simp)) p) (fun b _ _ => ?_)
    split
    · exact ends_pure trivial
    · exact ih (fun y hy => h y (by simp [hy])) _

theorem only_extLoop {E : Exn → Prop} {rules : List (ExtFn m)} (h : ∀ r ∈ rules, Only E r) (p : Path) : ∀ n, Ends (LineExtensionBuilder.extLoop p n rules) (fun _ => True) E := by
  induction rules with
  | nil => exact fun n => ends_pure trivial
  | cons r rs ih =>
    intro n
    refine ends_bind (only_ends (h r (by simp)) p) (fun b _ _ => ?_)
    split
    · exact ends_pure trivial
    · exact ih (fun y hy => h y (by simp [hy])) _

theorem only_matcherEmoji {E : Exn → Prop} {rules : List (EmojiMatch m)} (h : ∀ r ∈ rules, Only E r.matcher) : Only E (pathMatcherEmoji rules) := by
  intro p
  refine ends_only ?_
  induction rules with
  | nil => exact ends_pure trivial
  | cons r rs ih =>
    refine ends_bind (only_ends (h r (by simp)) p) (fun b _ _ => ?_)
    cases b
    · exact ih (fun y hy => h y (by simp [hy]))
    · exact ends_pure trivial

theorem only_sequential {E : Exn → Prop} {fns : List (EmojiFn m)} (h : ∀ r ∈ fns, Only E r) : Only E (sequentialEmoji fns) := by
  intro p
  refine ends_only ?_
  induction fns with
  | nil => exact ends_pure trivial
  | cons r rs ih =>
    refine ends_bind (only_ends (h r (by simp)) p) (fun b _ _ => ?_)
    cases b
    · exact ih (fun y hy => h y (by simp [hy]))
    · exact ends_pure trivial

theorem only_emoji {E : Exn → Prop} {fs : Fs m} (ha : ∀ e, AccessThrows fs e → E e) {e : EmojiMapping} {b : EmojiMappingBuilder m} (h1 : ∀ r ∈ b.dirMatchersEmojis, Only E r.matcher)
    (h2 : ∀ r ∈ b.fileMatchersEmojis, Only E r.matcher) : Only E (e.getPathEmoji fs b) := by
  intro p
  refine ends_only ?_
  unfold EmojiMapping.getPathEmoji
  refine ends_bind (ends_of (x := fs.isDir p) (fun e he => ha e ⟨p, .inl he⟩)) (fun b _ _ => ?_)
  cases b
  · refine ends_bind (only_ends (only_sequential ?_) p) (fun _ _ _ => ends_pure trivial)
    intro r hr
    simp only [List.mem_cons, List.not_mem_nil, or_false] at hr
    rcases hr with rfl | rfl | rfl
    · exact only_matcherEmoji h2
    · exact quiet_pure
    · exact quiet_pure
  · refine ends_bind (only_ends (only_sequential ?_) p) (fun _ _ _ => ends_pure trivial)
    intro r hr
    simp only [List.mem_cons, List.not_mem_nil, or_false] at hr
    rcases hr with rfl | rfl
    · exact only_matcherEmoji h1
    · exact quiet_pure

end Exceptions76

open Exceptions76

section
variable {m : Type → Type} [Monad m] [MonadExceptOf Exn m] [Outcomes m] {fs : Fs m} {o : Options m} {cwd : Path}

/-- **C76**: every exception of a call has one of the causes: a failure of the file system at a path that was reached, told by the exception made for it, which names the path; a callback that throws, and then it
is the same exception; or a path without a name that has to be printed. -/
theorem C76_causes (hw : cwd.abs = true) {p : Path} {e : Exn} (h : CanThrow (prettyPrint fs cwd o p) e) : Cause fs o (target cwd p) e := by
  have : Ends (prettyPrint fs cwd o p) (fun _ => True) (Cause fs o (target cwd p)) := by
    unfold prettyPrint Printer.prettyPrint Scanner.scan
    dsimp only
    rw [show (p.toAbsolutePath cwd).normalize.normalize.toAbsolutePath cwd = target cwd p from Path.target_clean hw]
    exact ends_bind (ends_handle 0 _ (.inl rfl)) (fun t _ ht => ends_tree _ t ht)
  exact this.2 e h

/-- **C76** with a comparator that may throw or break its contract. -/
theorem C76_causes_any_comparator {c : CmpM m} (hw : cwd.abs = true) {p : Path} {e : Exn}
    (h : CanThrow (LiveScanner.prettyPrint TimSort.sort c fs cwd o p) e) : SortCause fs o c (target cwd p) e := by
  have : Ends (LiveScanner.prettyPrint TimSort.sort c fs cwd o p) (fun _ => True) (SortCause fs o c (target cwd p)) := by
    unfold LiveScanner.prettyPrint
    dsimp only
    rw [show (p.toAbsolutePath cwd).normalize.normalize.toAbsolutePath cwd = target cwd p from Path.target_clean hw]
    exact ends_bind (ends_liveHandle 0 _ (.inl rfl)) (fun t _ ht => ends_weaken (ends_tree _ t ht) (fun _ h => .other h))
  exact this.2 e h

/-- **C76**: unless it is the root of the file system that is printed, a call throws only what a failure of the file system or a callback makes it throw. -/
theorem C76_kinds {E : Exn → Prop} (hw : cwd.abs = true) {p : Path} (hroot : (target cwd p).names ≠ []) (hnames : ∀ d cs bad, CanReturn (fs.listDir d) (.opened cs bad) → ∀ q ∈ cs, q.names ≠ [])
    (h1 : Only E o.childLimit) (h2 : Only E o.dirMatcher) (h3 : Only E o.fileMatcher) (h4 : Only E o.emojiMapping) (h5 : ∀ f, o.lineExtension = some f → Only E f)
    {e : Exn} (h : CanThrow (prettyPrint fs cwd o p) e) : Expected fs E e := by
  cases C76_causes hw h with
  | list _ hd hl => exact .list hd hl
  | iteration _ hd hl => exact .iteration hd hl
  | attrs _ hd hl => exact .attrs hd hl
  | name hk hn =>
    rcases hk with rfl | ⟨d, cs, bad, hl, hq⟩
    · exact absurd hn hroot
    · exact absurd hn (hnames d cs bad hl _ hq)
  | access _ h =>
    rcases h with h | h | h
    · exact .access ⟨_, .inl h⟩
    · exact .access ⟨_, .inr (.inl h)⟩
    · exact .access ⟨_, .inr (.inr (.inl h))⟩
  | limit _ h => exact .callback (h1 _ _ h)
  | dirFilter _ _ h => exact .callback (h2 _ _ h)
  | fileFilter _ _ h => exact .callback (h3 _ _ h)
  | emoji _ h => exact .callback (h4 _ _ h)
  | extension _ hf h => exact .callback (h5 _ hf _ _ h)

/-- **C76**: with a file system that does not fail and callbacks that do not throw, nothing but the root of the file system makes a call throw. -/
theorem C76_no_exception (hw : cwd.abs = true) {p : Path} (hroot : (target cwd p).names ≠ []) (hnames : ∀ d cs bad, CanReturn (fs.listDir d) (.opened cs bad) → ∀ q ∈ cs, q.names ≠ [])
    (hfs : NoFailure fs) (h1 : Only (fun _ => False) o.childLimit) (h2 : Only (fun _ => False) o.dirMatcher) (h3 : Only (fun _ => False) o.fileMatcher) (h4 : Only (fun _ => False) o.emojiMapping)
    (h5 : ∀ f, o.lineExtension = some f → Only (fun _ => False) f) (e : Exn) : ¬ CanThrow (prettyPrint fs cwd o p) e := by
  intro h
  cases C76_kinds hw hroot hnames h1 h2 h3 h4 h5 h with
  | list hd hl => exact hfs.opens _ hd hl
  | iteration hd hl => exact hfs.reads _ _ hd hl
  | attrs hd hl => exact hfs.attrs _ hd hl
  | access h => exact hfs.access _ h
  | callback h => exact h

/-- **C76**: a matcher made with the factories of `PathMatchers` throws only what the matchers given by the user throw, what the file system throws, and the `UncheckedIOException` of a failing `Files.walk`. -/
theorem C76_matchers {user : Matcher m → Prop} {mt : Matcher m} (h : LibMatcher fs cwd user mt) {p : Path} {e : Exn} (ht : CanThrow (mt p) e) :
    (∃ u, user u ∧ ∃ q, CanThrow (u q) e) ∨ WalkFault fs e ∨ AccessThrows fs e :=
  only_lib (E := fun e => (∃ u, user u ∧ ∃ q, CanThrow (u q) e) ∨ WalkFault fs e ∨ AccessThrows fs e) (fun _ h => .inr (.inl h)) (fun _ h => .inr (.inr h))
    (fun u hu q _ hq => .inl ⟨u, hu, q, hq⟩) h p e ht

/-- **C76**: the functions made by the three builders throw only what their rules throw, and what asking whether a path is a directory throws. -/
theorem C76_builders {E : Exn → Prop} :
    (∀ (f : ChildLimitBuilder.Built m) live, (∀ r ∈ f.immutLimits, Only E r) → Only E (f.applyAsInt live)) ∧
    (∀ (f : LineExtensionBuilder.Built m) live, (∀ r ∈ f.immutExtensions, Only E r) → Only E (f.apply live)) ∧
    (∀ (f : EmojiMapping) (live : EmojiMappingBuilder m), (∀ e, AccessThrows fs e → E e) → (∀ r ∈ live.dirMatchersEmojis, Only E r.matcher) → (∀ r ∈ live.fileMatchersEmojis, Only E r.matcher) →
      Only E (f.getPathEmoji fs live)) ∧
    (∀ (b : ChildLimitBuilder m) mt n, (∀ r ∈ b.limits, Only E r) → Only E mt → ∀ r ∈ (b.addMatching mt n).limits, Only E r) ∧
    (∀ (b : LineExtensionBuilder m) mt x, (∀ r ∈ b.extensions, Only E r) → Only E mt → ∀ r ∈ (b.addMatching mt x).extensions, Only E r) := by
  refine ⟨fun f live h p => (only_limitLoop h p _).2, fun f live h p => (only_extLoop h p _).2, fun f live ha h1 h2 => only_emoji ha h1 h2, fun b mt n h hm r hr => ?_, fun b mt n h hm r hr => ?_⟩
  · rcases List.mem_append.1 hr with hr | hr
    · exact h r hr
    · obtain rfl := List.mem_singleton.1 hr
      exact fun p => (ends_bind (only_ends hm p) (fun _ _ _ => ends_pure (P := fun _ => True) trivial)).2
  · rcases List.mem_append.1 hr with hr | hr
    · exact h r hr
    · obtain rfl := List.mem_singleton.1 hr
      exact fun p => (ends_bind (only_ends hm p) (fun _ _ _ => ends_pure (P := fun _ => True) trivial)).2

end

/-- A call on a dangling link throws, and the theorem names the reason. -/
example : ∃ e, CanThrow (prettyPrint Demo.dangling.toFs.lift Path.root Demo.dflt Demo.r) e ∧ Cause Demo.dangling.toFs.lift Demo.dflt (target Path.root Demo.r) e := by
  cases h : prettyPrint Demo.dangling.toFs.lift Path.root Demo.dflt Demo.r with
  | error e => exact ⟨e, rfl, C76_causes rfl h⟩
  | ok s =>
    refine absurd h (C19_dangling_link_throws (o := Demo.dflt) (q := Demo.rl) (r := ⟨true, [j!"nowhere"]⟩) (k := 1) (c := fun _ _ => 0) Demo.dangling
      (by simp [Demo.dangling, Node.WF, Node.WFAll]) rfl lawful_const rfl ?_ rfl rfl s)
    exact Visited.child (A := answers Demo.dangling.toFs Demo.dflt) (c := PathSorts.ALPHABETICAL) (maxDepth := 20) (p0 := Demo.r) (d := Demo.r)
      (cs := [Demo.rl]) (ks := [Demo.rl]) (srt := [Demo.rl]) (n := -1) .top rfl (by decide) rfl rfl (.keep rfl .nil) (by decide) (by decide) (by decide)

/-- The exception of a callback comes out as it is. -/
theorem Demo.limit_throws : CanThrow (prettyPrint Demo.dfs.lift Path.root { Demo.dflt with childLimit := fun _ => .error (.user 7) } Demo.r) (.user 7) := by
  show prettyPrint Demo.dfs.lift Path.root _ Demo.r = _
  unfold prettyPrint Printer.prettyPrint Scanner.scan
  dsimp only
  rw [Scanner.handle]
  rfl

/-- On a file system that changes all the time nothing throws. -/
example (e : Exn) : ¬ CanThrow (prettyPrint Demo.clockFs Path.root {} Demo.r) e := by
  have ok {α : Type} {f : Nat → α} {r : Except Exn α} (h : Outcomes.May (ExceptT.mk fun n => (.ok (f n), n + 1) : ExceptT Exn (StateM Nat) α) r) : ∃ n, r = .ok (f n) := by
    obtain ⟨s, s', h⟩ := h
    cases h
    exact ⟨s, rfl⟩
  refine C76_no_exception rfl (by decide) ?_ ⟨?_, ?_, ?_, ?_⟩ ?_ ?_ ?_ ?_ ?_ e
  · intro d cs bad h q hq
    obtain ⟨n, h⟩ := ok h
    cases h
    obtain rfl := List.mem_singleton.1 hq
    simp [Path.child]
    split <;> simp
  · intro d _ h; obtain ⟨n, h⟩ := ok h; cases h
  · intro d cs _ h; obtain ⟨n, h⟩ := ok h; cases h
  · intro d _ h; obtain ⟨n, h⟩ := ok h; cases h
  · rintro e ⟨q, h | h | h | h | h | h⟩ <;> (obtain ⟨n, h⟩ := ok h; cases h)
  · exact quiet_pure
  · exact quiet_pure
  · exact quiet_pure
  · exact quiet_pure
  · intro f hf; cases hf

/-- `anyOf(hasAnyDescendantMatching(m), not(isSymbolicLink()))` for a matcher `m` of the user. -/
example (u mt : Matcher (Except Exn)) (h : PathMatchers.anyOf [PathMatchers.hasAnyDescendantMatching Demo.dfs.lift u, PathMatchers.not (PathMatchers.isSymbolicLink Demo.dfs.lift)] = .ok mt) :
    LibMatcher Demo.dfs.lift Path.root (fun x => x = u) mt := by
  refine .anyOf (fun x hx => ?_) h
  rcases List.mem_cons.1 hx with rfl | hx
  · exact .descendant (.user rfl)
  · obtain rfl := List.mem_singleton.1 hx
    exact .not .isSymbolicLink

/-- Rules of a child limit that do not throw. -/
example (mt : Matcher (Except Exn)) (h : Only (fun _ => False) mt) (n : Int) : Only (fun _ => False) (((ChildLimits.builder (m := Except Exn)).addMatching mt n).build.applyAsInt ⟨[], n⟩) :=
  (C76_builders (fs := Demo.dfs.lift)).1 _ _ ((C76_builders (fs := Demo.dfs.lift)).2.2.2.1 _ _ _ (fun _ h => by cases h) h)

end JFTP
