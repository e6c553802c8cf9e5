import Verif.Props.Limits
import Verif.Lemmas.Access

/-!
C16–C21: the outside world: links, changes, failures, special files, the root directory.
-/

namespace JFTP
open Spec

/-! ### C16 -/

section
variable {σ : Type}

/-- Recording does not change a run. -/
def Transparent {α : Type} (x : ExceptT Exn (StateM σ) α) (y : ExceptT Exn (StateM (σ × List Access)) α) : Prop :=
  ∀ s l, ∃ l', (ExceptT.run y).run (s, l) = (((ExceptT.run x).run s).1, (((ExceptT.run x).run s).2, l'))

theorem Transparent.bind {α β : Type} {x : ExceptT Exn (StateM σ) α} {y : ExceptT Exn (StateM (σ × List Access)) α} {f : α → ExceptT Exn (StateM σ) β}
    {g : α → ExceptT Exn (StateM (σ × List Access)) β} (h : Transparent x y) (hf : ∀ a, Transparent (f a) (g a)) : Transparent (x >>= f) (y >>= g) := by
  intro s l
  obtain ⟨l', h1⟩ := h s l
  rw [ExceptT.run_bind, StateT.run_bind, ExceptT.run_bind, StateT.run_bind, h1]
  rcases hx : (ExceptT.run x).run s with ⟨r, s'⟩
  cases r with
  | error e => exact ⟨l', rfl⟩
  | ok a => exact hf a s' l'

theorem Transparent.pure {α : Type} (a : α) : Transparent (σ := σ) (Pure.pure a) (Pure.pure a) := fun _ l => ⟨l, rfl⟩
theorem Transparent.throw {α : Type} (e : Exn) : Transparent (σ := σ) (α := α) (throw e) (throw e) := fun _ l => ⟨l, rfl⟩
theorem Transparent.unlogged {α : Type} (x : ExceptT Exn (StateM σ) α) : Transparent x (unlogged x) := fun _ l => ⟨l, rfl⟩
theorem Transparent.logging {α : Type} (mk : α → Access) (x : ExceptT Exn (StateM σ) α) : Transparent x (logging mk x) := by
  intro s l
  have : (ExceptT.run (Spec.logging mk x)).run (s, l) = (match (ExceptT.run x).run s with
    | (.ok a, s') => (.ok a, (s', l ++ [mk a]))
    | (.error e, s') => (.error e, (s', l))) := rfl
  rw [this]
  rcases (ExceptT.run x).run s with ⟨_ | _, s'⟩
  · exact ⟨l, rfl⟩
  · exact ⟨_, rfl⟩

variable (fs : Fs (ExceptT Exn (StateM σ))) (o : ScanOpts (ExceptT Exn (StateM σ)))

theorem transparent_filterEntries (cs : List Path) :
    Transparent (Scanner.filterEntries o.pathFilter cs) (Scanner.filterEntries (logOpts o).pathFilter cs) := by
  induction cs with
  | nil => exact .pure _
  | cons c cs ih => exact .bind (.unlogged _) (fun b => .bind ih (fun ks => .pure _))

theorem transparent_childLoop {v : Path → ExceptT Exn (StateM σ) TreeEntry} {v' : Path → ExceptT Exn (StateM (σ × List Access)) TreeEntry}
    (h : ∀ p, Transparent (v p) (v' p)) (n : Int) (ps : List Path) : ∀ i, Transparent (Scanner.childLoop v n i ps) (Scanner.childLoop v' n i ps) := by
  induction ps with
  | nil => intro i; exact .pure _
  | cons p ps ih =>
    intro i
    unfold Scanner.childLoop
    dsimp only
    split
    · exact .pure _
    · exact .bind (h p) (fun e => .bind (ih _) (fun r => .pure _))

/-- Recording the accesses of a scan does not change its result or its effects. -/
theorem transparent_handle (k : Nat) (p : Path) : Transparent (Scanner.handle fs o k p) (Scanner.handle (logFs fs) (logOpts o) k p) := by
  rw [Scanner.handle, Scanner.handle]
  refine .bind (.logging _ _) (fun b => ?_)
  cases b with
  | true =>
    simp only [if_true]
    by_cases h : (k : Int) ≥ o.maxDepth
    · rw [dif_pos h, dif_pos (show (k : Int) ≥ (logOpts o).maxDepth from h)]; exact .pure _
    · rw [dif_neg h, dif_neg (show ¬ (k : Int) ≥ (logOpts o).maxDepth from h)]
      have ih := fun q => transparent_handle (k + 1) q
      refine .bind (.logging _ _) (fun r => ?_)
      cases r with
      | openFailed => exact .throw _
      | opened cs bad =>
        refine .bind (.bind (.unlogged _) (fun n => .bind (transparent_filterEntries o cs) (fun ks => ?_))) (fun es => .pure _)
        have rest : Transparent (do
            let (es, left) ← Scanner.childLoop (fun c => Scanner.handle fs o (k + 1) c) n 0 (streamSorted o.pathComparator ks)
            return if left.isEmpty then es else es ++ [TreeEntry.skipped p]) (do
            let (es, left) ← Scanner.childLoop (fun c => Scanner.handle (logFs fs) (logOpts o) (k + 1) c) n 0 (streamSorted o.pathComparator ks)
            return if left.isEmpty then es else es ++ [TreeEntry.skipped p]) :=
          .bind (transparent_childLoop ih n _ 0) (fun x => .pure _)
        cases bad with
        | true => exact .bind (.throw _) (fun _ => rest)
        | false => exact rest
  | false =>
    simp only [Bool.false_eq_true, if_false]
    refine .bind (.logging _ _) (fun r => ?_)
    cases r with
    | none => exact .throw _
    | some a => exact .pure _
termination_by (o.maxDepth - k).toNat
decreasing_by omega

/-- **C16**: for every file system (an arbitrary, changing, cyclic, adversarial oracle) and all callbacks, the scan of `top` ends (the scanner is a total
function) with the same result as without recording, and in the recorded accesses (also if it throws): a directory is opened only directly after
it answered to be a directory without following links, and was reached by fewer than `maxDepth` nested listings. -/
theorem C16_accesses (top : Path) (s : σ) : ∃ r s' log,
    (ExceptT.run (Scanner.handle fs o 0 top)).run s = (r, s') ∧
    (ExceptT.run (Scanner.handle (logFs fs) (logOpts o) 0 top)).run (s, []) = (r, (s', log)) ∧ AllAllowed top o.maxDepth log := by
  obtain ⟨l, hl⟩ := transparent_handle fs o 0 top s []
  obtain ⟨r, s', l', h1, _, h3, _⟩ := tri_handle (top := top) fs o 0 (by simp) top s []
    (fun pre x post he => by simp at he) .top
  rw [hl] at h1
  refine ⟨_, _, l, rfl, hl, ?_⟩
  cases h1; exact h3

theorem reached_length {log : List Access} {top q : Path} {k : Nat} (hl : ∀ d cs bad, .list d (.opened cs bad) ∈ log → ∀ c ∈ cs, c.names.length = d.names.length + 1)
    (h : Reached log top k q) : q.names.length = top.names.length + k := by
  induction h with
  | top => rfl
  | child _ hm hq ih => rw [hl _ _ _ hm _ hq, ih]; omega

/-- **C13**: directories at the maximal depth, or deeper, are never opened: if every listing gives names in the listed directory (one name more), only directories less than
`maxDepth` names below the scanned path are ever opened, whatever happens in between. -/
theorem C13_never_opened (top : Path) (s : σ) : ∃ r s' log,
    (ExceptT.run (Scanner.handle fs o 0 top)).run s = (r, s') ∧
    (ExceptT.run (Scanner.handle (logFs fs) (logOpts o) 0 top)).run (s, []) = (r, (s', log)) ∧
    ((∀ d cs bad, .list d (.opened cs bad) ∈ log → ∀ c ∈ cs, c.names.length = d.names.length + 1) →
      ∀ q a, .list q a ∈ log → (q.names.length : Int) < top.names.length + o.maxDepth) := by
  obtain ⟨r, s', log, h1, h2, h3⟩ := C16_accesses fs o top s
  refine ⟨r, s', log, h1, h2, fun hl q a hm => ?_⟩
  obtain ⟨pre, post, e⟩ := List.append_of_mem hm
  obtain ⟨_, k, hk, hr⟩ := h3 pre _ post e
  rw [reached_length (fun d cs bad hd => hl d cs bad (by rw [e]; simp [hd])) hr]
  omega

/-- What an arbitrary changing world may answer covers its answers. -/
theorem covers_sometime : Covers (answersSometime fs o) fs o where
  isDir p s b s' h := ⟨s, s', h⟩
  list p s r s' h cs hr := by subst hr; exact ⟨s, s', h⟩
  attrs p s r s' h a hr := by subst hr; exact ⟨s, s', h⟩
  limit p s n s' h := ⟨s, s', h⟩
  keep p s b s' h := ⟨s, s', h⟩

/-- **C16**, height: the returned tree never has more than `max 0 maxDepth + 1` levels of directories (plus a marker). -/
theorem C16_height (hc : LawfulCmp o.pathComparator) (top : Path) (s s' : σ) (t : TreeEntry)
    (h : (ExceptT.run (Scanner.handle fs o 0 top)).run s = (.ok t, s')) {d : Path} {es : List TreeEntry} {n : Nat} (hb : BelowAt (.dir d es) n t) :
    (n : Int) ≤ max 0 o.maxDepth := by
  have hs := post_handle (covers_sometime fs o) hc 0 top s t s' h
  by_cases hD : 0 ≤ o.maxDepth
  · rcases hs.depth (by simpa using hD) hb with ⟨h1, _⟩ | ⟨_, h2⟩
    · simp at h1; omega
    · cases h2
  · cases hs with
    | file => cases hb
    | tooDeep => 
      rcases hb with _ | ⟨hx, hb⟩
      · simp
      · simp at hx; subst hx; cases hb
    | dir _ hk => omega

/-- **C16**, leaves: a directory is displayed only where the file system said "directory, links not followed" at that moment. -/
theorem C16_only_directories_have_content (hc : LawfulCmp o.pathComparator) (top : Path) (s s' : σ) (t : TreeEntry)
    (h : (ExceptT.run (Scanner.handle fs o 0 top)).run s = (.ok t, s')) {d : Path} {es : List TreeEntry} (hb : Below (.dir d es) t) :
    (answersSometime fs o).isDir d true := by
  obtain ⟨k, hd⟩ := (post_handle (covers_sometime fs o) hc 0 top s t s' h).sub_below hb rfl
  exact hd.dir_inv.2.1

end

/-- **C16** on concrete disks: a displayed symbolic link, even one to a directory or to one of its own ancestors, is a leaf. -/
theorem C16_links_are_leaves (disk : Node) {cwd : Path} (hw : cwd.abs = true) {o : Options (Except Exn)} (hc : LawfulCmp o.pathComparator) {p : Path} {t : TreeEntry}
    (h : scanned disk.toFs cwd o p = .ok t) {x : TreeEntry} {q r : Path} (hb : Below x t) (hx : entryPath x = some q) (hl : disk.at q = some (.symlink r)) :
    ∃ a, x = .file q a := by
  obtain ⟨k, hs⟩ := (scanned_sound hw hc h).sub_below hb hx
  have hnd : disk.toFs.isDir q = false := by show (match disk.at q with | some (.dir _ _) => true | _ => false) = false; rw [hl]
  cases hs with
  | file => exact ⟨_, rfl⟩
  | tooDeep h1 _ => have h1 : disk.toFs.isDir q = true := h1; rw [hnd] at h1; cases h1
  | dir h1 => have h1 : disk.toFs.isDir q = true := h1; rw [hnd] at h1; cases h1

/-- An adversarial file system: everything is a directory that contains itself. -/
def Demo.loopFs : PureFs := ⟨fun _ => true, fun p => .opened [p] false, fun _ => none, fun _ => false, fun _ => false, fun _ => false⟩

theorem Demo.scanned_loop : scanned Demo.loopFs Path.root (Demo.dflt.withMaxDepth 2) Demo.r =
    .ok (.dir Demo.r [.dir Demo.r [.dir Demo.r [.maxDepth 2]]]) := by
  refine scanned_complete rfl lawful_ALPHABETICAL (fun p cs bad h a ha b hb _ _ => ?_) ?_
  · have h : Listing.opened [p] false = .opened cs bad := h
    cases h
    rw [List.mem_singleton.1 ha, List.mem_singleton.1 hb]
  · refine Scanned.dir (A := answers Demo.loopFs (Demo.dflt.withMaxDepth 2)) (c := PathSorts.ALPHABETICAL) (maxDepth := 2) (k := 0) (p := Demo.r) (n := -1)
      (cs := [Demo.r]) (ks := [Demo.r]) (srt := [Demo.r]) (es := [.dir Demo.r [.dir Demo.r [.maxDepth 2]]])
      rfl (by decide) rfl rfl (.keep rfl .nil) (by decide) (by decide) (.cons ?_ .nil)
    exact Scanned.dir (A := answers Demo.loopFs (Demo.dflt.withMaxDepth 2)) (c := PathSorts.ALPHABETICAL) (maxDepth := 2) (k := 1) (p := Demo.r) (n := -1)
      (cs := [Demo.r]) (ks := [Demo.r]) (srt := [Demo.r]) (es := [.dir Demo.r [.maxDepth 2]])
      rfl (by decide) rfl rfl (.keep rfl .nil) (by decide) (by decide) (.cons (.tooDeep rfl (by decide)) .nil)

/-! ### C17 -/

section
variable {σ : Type} {fs : Fs (ExceptT Exn (StateM σ))} {o : ScanOpts (ExceptT Exn (StateM σ))}

/-- **C17**: with arbitrary changes between any two accesses (the state is arbitrary), every directory of a returned tree that lies above the depth limit shows
paths of one single listing of it that passed the filter, sorted, at most as many as the limit it was given, followed by a marker only if it shows exactly that
many; at the depth limit it shows exactly the depth marker. -/
theorem C17_under_changes (hc : LawfulCmp o.pathComparator) (top : Path) (s s' : σ) (t : TreeEntry)
    (h : (ExceptT.run (Scanner.handle fs o 0 top)).run s = (.ok t, s')) {d : Path} {es : List TreeEntry} {k : Nat} (hb : BelowAt (.dir d es) k t) :
    (o.maxDepth ≤ k ∧ es = [.maxDepth k]) ∨ ((k : Int) < o.maxDepth ∧ ∃ n cs shown mark,
      (answersSometime fs o).limit d n ∧ (answersSometime fs o).list d cs ∧ es = shown ++ mark ∧
      (∀ e ∈ shown, ∃ q ∈ cs, entryPath e = some q ∧ (answersSometime fs o).keep q true) ∧
      (shown.filterMap entryPath).Pairwise (fun a b => o.pathComparator a b ≤ 0) ∧ (shown.filterMap entryPath).Subperm cs ∧
      ((mark = [] ∧ (n < 0 ∨ (shown.length : Int) ≤ n)) ∨ (mark = [.skipped d] ∧ (shown.length : Int) = n ∧ shown.length < cs.length))) := by
  have hs := (post_handle (covers_sometime fs o) hc 0 top s t s' h).sub hb rfl
  rw [Nat.zero_add] at hs
  obtain ⟨_, _, h | ⟨hk, n, cs, ks, srt, es', h1, h2, h3, h4, h5, h6, h7⟩⟩ := hs.dir_inv
  · exact .inl h
  · refine .inr ⟨hk, n, cs, es', moreMark n srt d, h1, h2, h7, ?_, ?_, ?_, ?_⟩
    · intro e he
      obtain ⟨q, hq, he'⟩ := h6.mem he
      have hq' : q ∈ ks := h4.mem_iff.1 ((limitTo_sublist n srt).subset hq)
      refine ⟨q, h3.subset.subset hq', he'.entryPath_eq, ?_⟩
      clear h7 h6 h5 h4 h2 h1 hq he he'
      induction h3 with
      | nil => cases hq'
      | keep hk' _ ih =>
        rcases List.mem_cons.1 hq' with rfl | hq'
        · exact hk'
        · exact ih hq'
      | drop _ _ ih => exact ih hq'
    · rw [h6.filterMap]; exact h5.sublist (limitTo_sublist n srt)
    · rw [h6.filterMap]
      exact (limitTo_sublist n srt).subperm.trans (h4.subperm.trans h3.subset.subperm)
    · have hlen : es'.length = (limitTo n srt).length := by
        have := congrArg List.length h6.paths
        simpa using this
      have hle : srt.length ≤ cs.length := by rw [h4.length_eq]; exact h3.subset.length_le
      unfold moreMark
      by_cases hm : 0 ≤ n ∧ n < srt.length
      · right
        rw [if_pos hm]
        refine ⟨rfl, ?_, ?_⟩ <;> rw [hlen, limitTo, if_neg (by omega), List.length_take] <;> omega
      · left
        rw [if_neg hm]
        refine ⟨rfl, ?_⟩
        by_cases hn : n < 0
        · exact .inl hn
        · right; rw [hlen, limitTo, if_neg hn, List.length_take]; omega

/-- **C17** as a whole: the returned tree is a correct tree for some possible answer to every access. -/
theorem C17_tree_of_possible_answers (hc : LawfulCmp o.pathComparator) (top : Path) (s s' : σ) (t : TreeEntry)
    (h : (ExceptT.run (Scanner.handle fs o 0 top)).run s = (.ok t, s')) :
    Scanned (answersSometime fs o) o.pathComparator o.maxDepth 0 top t :=
  post_handle (covers_sometime fs o) hc 0 top s t s' h

end

/-- A changing file system: the state counts accesses; `/r` is a directory at first, and each listing shows a file whose name is the time. -/
def Demo.clockFs : Fs (ExceptT Exn (StateM Nat)) where
  isDir p := ExceptT.mk fun n => (.ok (decide (p.names.length ≤ 1)), n + 1)
  listDir p := ExceptT.mk fun n => (.ok (.opened [p.child (List.replicate n 0x61)] false), n + 1)
  readAttrs _ := ExceptT.mk fun n => (.ok (some ⟨false, false⟩), n + 1)
  isRegular _ := ExceptT.mk fun n => (.ok true, n + 1)
  isLink _ := ExceptT.mk fun n => (.ok false, n + 1)
  lstat p := ExceptT.mk fun n => (.ok (some (decide (p.names.length ≤ 1))), n + 1)

/-- The hypotheses of C16/C17 are met by a run on it. -/
example : ∃ t s', (ExceptT.run (Scanner.handle Demo.clockFs ⟨1, fun _ => pure (-1), PathSorts.ALPHABETICAL, fun _ => pure true⟩ 0 Demo.r)).run 3 = (.ok t, s') := by
  refine ⟨.dir Demo.r [.file (Demo.r.child (List.replicate 4 0x61)) ⟨false, false⟩], 7, ?_⟩
  rw [Scanner.handle]
  simp [Scanner.handleDirectory, Scanner.handleDirectoryChildren, Scanner.filterEntries, Scanner.childLoop, streamSorted,
    PathMatchers.isDirectory, Scanner.handle, Scanner.handleFile, Demo.clockFs, Demo.r, Path.child, Path.empty, bind, pure, ExceptT.bind, ExceptT.mk,
    ExceptT.bindCont, ExceptT.pure, StateT.bind, StateT.pure, ExceptT.run, StateT.run]

/-! ### C18 -/

section
variable {fs : PureFs} {cwd : Path} {o : Options (Except Exn)}

/-- **C18**: if the printing succeeds, no path it had to visit failed: nothing is silently omitted. -/
theorem C18_success_means_no_failure (hfs : ProperFs fs) (hw : cwd.abs = true) {c : Cmp} (hc : LawfulCmp c) (hsort : o.pathComparator = thenComparing c PathSorts.ALPHABETICAL)
    {p : Path} {s : JStr} (h : prettyPrint fs.lift cwd o p = .ok s) {k : Nat} {q : Path} (hv : Visited (answers fs o) o.pathComparator o.maxDepth 0 (target cwd p) k q) (x : Exn) :
    ¬ Failing fs o.maxDepth k q x := by
  intro hx
  rw [prettyPrint_eq] at h
  obtain ⟨t, ht, h⟩ := except_bind_ok h
  rw [scanned_eq fs hw] at ht
  rw [← answers_eq] at hv
  exact failing_error (o := o.toScan fs.lift) hx (visited_ok (o := o.toScan fs.lift) (by show LawfulCmp o.pathComparator; rw [hsort]; exact sort_lawful hc)
    (by show DistinguishesAll o.pathComparator fs; rw [hsort]; exact sort_distinguishes hc hfs) hv ⟨t, ht⟩)

/-- **C18**: if callbacks do not throw and some visited path fails, `prettyPrint` throws the exception of a visited failing path. -/
theorem C18_failure_throws (hfs : ProperFs fs) (hw : cwd.abs = true) {c : Cmp} (hc : LawfulCmp c) (hsort : o.pathComparator = thenComparing c PathSorts.ALPHABETICAL)
    (hl : ∀ q, ∃ n, o.childLimit q = .ok n) (hf : ∀ q, ∃ b, o.dirMatcher q = .ok b) (hg : ∀ q, ∃ b, o.fileMatcher q = .ok b)
    {p : Path} {k : Nat} {q : Path} (hv : Visited (answers fs o) o.pathComparator o.maxDepth 0 (target cwd p) k q) {x : Exn} (hx : Failing fs o.maxDepth k q x) :
    ∃ e k' q', prettyPrint fs.lift cwd o p = .error e ∧ Visited (answers fs o) o.pathComparator o.maxDepth 0 (target cwd p) k' q' ∧ Failing fs o.maxDepth k' q' e := by
  have hc' : LawfulCmp o.pathComparator := by rw [hsort]; exact sort_lawful hc
  have hd' : DistinguishesAll o.pathComparator fs := by rw [hsort]; exact sort_distinguishes hc hfs
  rw [prettyPrint_eq]
  cases ht : scanned fs cwd o p with
  | ok t =>
    rw [scanned_eq fs hw] at ht
    rw [← answers_eq] at hv
    exact (failing_error (o := o.toScan fs.lift) hx (visited_ok (o := o.toScan fs.lift) hc' hd' hv ⟨t, ht⟩)).elim
  | error e =>
    rw [scanned_eq fs hw] at ht
    have hpf : ∀ r, ∃ b, (o.toScan fs.lift).pathFilter r = .ok b := by
      intro r
      show ∃ b, o.pathFilter fs.lift r = .ok b
      rw [pathFilter_eq]
      split
      · exact hf r
      · exact hg r
    obtain ⟨k', q', h1, h2⟩ := handle_error (o := o.toScan fs.lift) hc' hl hpf 0 (target cwd p) e ht
    rw [answers_eq] at h1
    exact ⟨e, k', q', rfl, h1, h2⟩

/-- **C18**: conversely, without throwing callbacks scanning only throws for a failing visited path. -/
theorem C18_scan_only_throws_for_failures (hw : cwd.abs = true) (hc : LawfulCmp o.pathComparator)
    (hl : ∀ q, ∃ n, o.childLimit q = .ok n) (hf : ∀ q, ∃ b, o.dirMatcher q = .ok b) (hg : ∀ q, ∃ b, o.fileMatcher q = .ok b)
    {p : Path} {e : Exn} (h : scanned fs cwd o p = .error e) :
    ∃ k q, Visited (answers fs o) o.pathComparator o.maxDepth 0 (target cwd p) k q ∧ Failing fs o.maxDepth k q e := by
  rw [scanned_eq fs hw] at h
  have hpf : ∀ r, ∃ b, (o.toScan fs.lift).pathFilter r = .ok b := by
    intro r
    show ∃ b, o.pathFilter fs.lift r = .ok b
    rw [pathFilter_eq]
    split
    · exact hf r
    · exact hg r
  obtain ⟨k', q', h1, h2⟩ := handle_error (o := o.toScan fs.lift) hc hl hpf 0 (target cwd p) e h
  rw [answers_eq] at h1
  exact ⟨k', q', h1, h2⟩

/-- **C18**: the exception of a failing path is an `UncheckedIOException` naming it, unless the failure happens while an opened directory is read: then it is a
`DirectoryIteratorException` (this part of the documented claim is false of the code). -/
theorem C18_kind_of_exception {D : Int} {k : Nat} {q : Path} {x : Exn} (h : Failing fs D k q x) :
    (x.isUncheckedIO = true ∧ (x = .cannotList q ∨ x = .cannotReadAttrs q)) ∨
    (x.isUncheckedIO = false ∧ x = .dirIteration q ∧ ∃ cs, fs.listDir q = .opened cs true) := by
  cases h with
  | attrs => exact .inl ⟨rfl, .inr rfl⟩
  | list => exact .inl ⟨rfl, .inl rfl⟩
  | iter _ _ h => exact .inr ⟨rfl, rfl, _, h⟩

end

/-- A file system where reading `/r` breaks off after the first entry. -/
def Demo.brokenFs : PureFs := { Demo.dfs with listDir := fun p => if p = Demo.r then .opened [Demo.b] true else .openFailed }

/-- **C18**, documented claim refuted: a read failure may escape as something else than `UncheckedIOException`. -/
theorem C18_iteration_failure_escapes :
    prettyPrint Demo.brokenFs.lift Path.root Demo.dflt Demo.r = .error (.dirIteration Demo.r) ∧ (Exn.dirIteration Demo.r).isUncheckedIO = false := by
  refine ⟨?_, rfl⟩
  have hp : ProperFs Demo.brokenFs := by
    intro p cs bad h
    have h : (if p = Demo.r then Listing.opened [Demo.b] true else .openFailed) = .opened cs bad := h
    split at h
    · rename_i hp; cases h; subst hp; exact ⟨by simp, fun c hc => ⟨j!"b.txt", by rw [List.mem_singleton.1 hc]; rfl⟩⟩
    · cases h
  rw [prettyPrint_eq, scanned_eq _ rfl, handle_unfold]
  rfl

/-- The hypotheses of `C18_failure_throws` hold there. -/
example : Visited (answers Demo.brokenFs Demo.dflt) PathSorts.ALPHABETICAL 20 0 Demo.r 0 Demo.r ∧ Failing Demo.brokenFs 20 0 Demo.r (.dirIteration Demo.r) :=
  ⟨.top, .iter (cs := [Demo.b]) rfl (by decide) rfl⟩

/-! ### C19, C20 -/

section
variable {fs : PureFs} {cwd : Path} {o : Options (Except Exn)}

/-- **C20**: a displayed non-directory entry carries the attributes the file system gives for its path (following links). -/
theorem C20_attributes_of_displayed (hw : cwd.abs = true) (hc : LawfulCmp o.pathComparator) {p : Path} {t : TreeEntry} (h : scanned fs cwd o p = .ok t)
    {q : Path} {a : Attrs} (hb : Below (.file q a) t) : fs.isDir q = false ∧ fs.readAttrs q = some a := by
  obtain ⟨k, hs⟩ := (scanned_sound hw hc h).sub_below hb rfl
  cases hs with
  | file h1 h2 => exact ⟨h1, h2⟩

/-- **C19** is false of the code: as attributes are read through links, no displayed entry is ever marked with `*`; links look like what they point to. -/
theorem C19_never_marked (hfs : FollowsLinks fs) (hw : cwd.abs = true) (hc : LawfulCmp o.pathComparator) {p : Path} {t : TreeEntry} (h : scanned fs cwd o p = .ok t)
    {q : Path} {a : Attrs} (hb : Below (.file q a) t) : fileMark a = if a.isOther then j!"?" else [] := by
  have := hfs q a (C20_attributes_of_displayed hw hc h hb).2
  unfold fileMark; simp [this]

/-- **C19**, dangling links: a link that has to be visited and whose target cannot be resolved makes the whole call throw. -/
theorem C19_dangling_link_throws (disk : Node) (hwf : disk.WF) (hw : cwd.abs = true) {c : Cmp} (hc : LawfulCmp c) (hsort : o.pathComparator = thenComparing c PathSorts.ALPHABETICAL)
    {p q r : Path} {k : Nat} (hv : Visited (answers disk.toFs o) o.pathComparator o.maxDepth 0 (target cwd p) k q) (hl : disk.at q = some (.symlink r))
    (hr : disk.follow 41 q = none) (s : JStr) : prettyPrint disk.toFs.lift cwd o p ≠ .ok s := by
  intro h
  have hnd : disk.toFs.isDir q = false := by show (match disk.at q with | some (.dir _ _) => true | _ => false) = false; rw [hl]
  refine C18_success_means_no_failure hwf.proper hw hc hsort h hv _ (.attrs hnd ?_)
  show (match disk.follow 41 q with
    | some (.regular _) => some (⟨false, false⟩ : Attrs)
    | some (.dir _ _) => some ⟨false, false⟩
    | some .special => some ⟨false, true⟩
    | some (.symlink _) => some ⟨true, false⟩
    | none => none) = none
  rw [hr]

end

namespace Demo

/-- `/r/{b, l -> /r/b}` -/
def linkDisk : Node := .dir true [(j!"r", .dir true [(j!"b", .regular 3), (j!"l", .symlink ⟨true, [j!"r", j!"b"]⟩)])]
def rb : Path := ⟨true, [j!"r", j!"b"]⟩
def rl : Path := ⟨true, [j!"r", j!"l"]⟩

theorem linkDisk_wf : linkDisk.WF := by simp [linkDisk, Node.WF, Node.WFAll]

theorem scanned_links : scanned linkDisk.toFs Path.root dflt r = .ok (.dir r [.file rb ⟨false, false⟩, .file rl ⟨false, false⟩]) := by
  refine scanned_complete rfl lawful_ALPHABETICAL (sort_distinguishes lawful_const linkDisk_wf.proper) ?_
  exact Scanned.dir (A := answers linkDisk.toFs dflt) (c := PathSorts.ALPHABETICAL) (maxDepth := 20) (k := 0) (p := r) (n := -1)
    (cs := [rb, rl]) (ks := [rb, rl]) (srt := [rb, rl]) (es := [.file rb ⟨false, false⟩, .file rl ⟨false, false⟩])
    rfl (by decide) rfl rfl (.keep rfl (.keep rfl .nil)) (by decide) (by decide) (.cons (.file rfl rfl) (.cons (.file rfl rfl) .nil))

theorem printed_links : prettyPrint linkDisk.toFs.lift Path.root dflt r = .ok (j!"r/" ++ NL :: (j!"├─ b" ++ NL :: j!"└─ l")) := by
  rw [prettyPrint_eq, scanned_links]
  have h := C01_render_is_picture (m := Except Exn) dflt.toRender (plain false) (fun _ => rfl) rfl (fun _ => rfl)
    (.dir r [.file rb ⟨false, false⟩, .file rl ⟨false, false⟩]) (by simp [Named, NamedAll, r, rb, rl]) _ (.dir (.cons .file (.cons .file .nil)))
  show Renderer.renderRoot _ _ _ = _
  rw [h]
  rfl

end Demo

/-- **C19**, documented claim refuted on a concrete disk: `/r/l` is a symbolic link, it is displayed, and there is no `*` in the output. -/
theorem C19_documented_claim_false : ∃ (disk : Node) (q r : Path) (t : TreeEntry) (s : JStr), disk.at q = some (.symlink r) ∧
    scanned disk.toFs Path.root Demo.dflt Demo.r = .ok t ∧ q ∈ entryPaths t ∧
    prettyPrint disk.toFs.lift Path.root Demo.dflt Demo.r = .ok s ∧ 0x2A ∉ s :=
  ⟨Demo.linkDisk, Demo.rl, Demo.rb, _, _, rfl, Demo.scanned_links, by decide, Demo.printed_links, by decide⟩

/-- `/r/{l -> /nowhere}` -/
def Demo.dangling : Node := .dir true [(j!"r", .dir true [(j!"l", .symlink ⟨true, [j!"nowhere"]⟩)])]

/-- Example for the dangling case. -/
example (s : JStr) : prettyPrint Demo.dangling.toFs.lift Path.root Demo.dflt Demo.r ≠ .ok s := by
  refine C19_dangling_link_throws (o := Demo.dflt) (q := Demo.rl) (r := ⟨true, [j!"nowhere"]⟩) (k := 1) (c := fun _ _ => 0) Demo.dangling
    (by simp [Demo.dangling, Node.WF, Node.WFAll]) rfl lawful_const rfl ?_ rfl rfl s
  exact Visited.child (A := answers Demo.dangling.toFs Demo.dflt) (c := PathSorts.ALPHABETICAL) (maxDepth := 20) (p0 := Demo.r) (d := Demo.r)
    (cs := [Demo.rl]) (ks := [Demo.rl]) (srt := [Demo.rl]) (n := -1) .top rfl (by decide) rfl rfl (.keep rfl .nil) (by decide) (by decide) (by decide)

/-! ### C21 -/

/-- **C21** is false of the code: whatever the options and the file system, printing `/` (under any spelling) never returns a string. -/
theorem C21_root_never_printed (fs : Fs (Except Exn)) {cwd : Path} (hw : cwd.abs = true) (o : Options (Except Exn)) (p : Path) (hp : target cwd p = Path.root) (s : JStr) :
    prettyPrint fs cwd o p ≠ .ok s := by
  intro h
  unfold prettyPrint Printer.prettyPrint at h
  obtain ⟨t, ht, h⟩ := except_bind_ok h
  unfold Scanner.scan at ht
  dsimp only at ht
  rw [Path.target_clean hw] at ht
  have htop := handle_top fs _ 0 _ t ht
  rw [show (p.toAbsolutePath cwd).normalize = Path.root from hp] at htop
  have h : Renderer.renderRoot o.toRender (LineRenderer.create o.toRender) t = .ok s := h
  rw [C01_render_is_picture_effectful] at h
  obtain ⟨D, hD, _⟩ := except_bind_ok h
  have hn := dispM_ok_named _ true t hD
  cases t with
  | dir d es => simp [entryPath] at htop; subst htop; rw [Named] at hn; exact hn.1 rfl
  | file q a => simp [entryPath] at htop; subst htop; rw [Named] at hn; exact hn rfl
  | skipped _ => cases htop
  | maxDepth _ => cases htop

/-- **C21**: if scanning works and the emoji function does not throw, the exception is a `NullPointerException`. -/
theorem C21_null_pointer (fs : Fs (Except Exn)) {cwd : Path} (o : Options (Except Exn)) (p : Path) (hp : target cwd p = Path.root)
    (t : TreeEntry) (ht : Scanner.scan fs (o.toScan fs) cwd Path.root = .ok t) (e : Option JStr) (he : o.emojiMapping Path.root = .ok e) :
    prettyPrint fs cwd o p = .error .nullPointer := by
  have hp : (p.toAbsolutePath cwd).normalize = Path.root := hp
  have htop : entryPath t = some Path.root := handle_top fs _ 0 _ t ht
  unfold prettyPrint Printer.prettyPrint
  dsimp only
  rw [hp, ht]
  show Renderer.renderRoot o.toRender (LineRenderer.create o.toRender) t = _
  rw [C01_render_is_picture_effectful]
  have hdir : ∀ ds, dirsTextM o.emojiMapping Path.root (Path.root :: ds) = (.error .nullPointer : Except Exn JStr) := by
    intro ds
    unfold dirsTextM
    rw [he]; cases e <;> rfl
  have hfile : ∀ a, fileTextM o.emojiMapping Path.root a = (.error .nullPointer : Except Exn JStr) := by
    intro a
    unfold fileTextM
    rw [he]; cases e <;> rfl
  have hd : dispM ⟨o.emojiMapping, o.compactDirectories, extensionOf o.toRender⟩ true t = .error .nullPointer := by
    cases t with
    | skipped _ => cases htop
    | maxDepth _ => cases htop
    | file q a => simp [entryPath] at htop; subst htop; rw [dispM]; simp only [hfile]; rfl
    | dir d es =>
      simp [entryPath] at htop; subst htop
      rw [dispM, dispDirM.eq_def]
      split
      · simp only [Bool.not_true, Bool.and_false, Bool.false_eq_true, if_false, hdir]; rfl
      · simp only [hdir]; rfl
  show picture _ <$> dispM ⟨o.emojiMapping, o.compactDirectories, extensionOf o.toRender⟩ true t = _
  rw [hd]; rfl

/-- **C21**, documented claim refuted: on the demo disk, `/` is a readable directory. -/
theorem C21_documented_claim_false : Demo.dfs.isDir Path.root = true ∧ (∃ cs, Demo.dfs.listDir Path.root = .opened cs false) ∧
    ∀ (o : Options (Except Exn)) (s : JStr), prettyPrint Demo.dfs.lift Path.root o Path.root ≠ .ok s :=
  ⟨rfl, ⟨_, rfl⟩, fun o s => C21_root_never_printed _ rfl o _ rfl s⟩

/-- The hypotheses of `C21_null_pointer` hold for the demo disk (with maximal depth 0, to keep the tree small). -/
example : prettyPrint Demo.dfs.lift Path.root (Demo.dflt.withMaxDepth 0) ⟨true, [j!"r", j!".."]⟩ = .error .nullPointer :=
  C21_null_pointer Demo.dfs.lift (Demo.dflt.withMaxDepth 0) ⟨true, [j!"r", j!".."]⟩ (cwd := Path.root) rfl (.dir Path.root [.maxDepth 0])
    (by rw [Scanner.scan, Scanner.handle]; rfl) none rfl

end JFTP
