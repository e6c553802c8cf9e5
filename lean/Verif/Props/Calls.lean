import Verif.Props.Kinds
import Verif.Lemmas.Calls

/-!
C65, C66: every file-system access and every callback call of a run.
-/

namespace JFTP
open Spec

section
variable {fs : PureFs} {cwd : Path} {o : Options (Except Exn)} {p : Path} {s : JStr}

theorem recorded (o : Options (Except Exn)) : Recorded ⟨o.emojiMapping, o.compactDirectories, extensionOf o.toRender⟩
    ⟨(tracedOpts o).emojiMapping, (tracedOpts o).compactDirectories, extensionOf (tracedOpts o).toRender⟩ o.lineExtension.isSome where
  compact := rfl
  emoji _ _ h := Runs.call h
  ext q x h := by
    unfold extensionOf tracedOpts Options.toRender at *
    dsimp only at *
    cases hl : o.lineExtension with
    | none => rw [hl] at h; cases h; exact Runs.pure _
    | some g => rw [hl] at h; exact Runs.call h

theorem total_lookOf (o : Options (Except Exn)) : LookM.total ⟨o.emojiMapping, o.compactDirectories, extensionOf o.toRender⟩ = lookOf o := by
  unfold LookM.total lookOf extensionOf Options.toRender
  cases o.lineExtension <;> rfl

/-- **C65, C66**: the complete record of a run. If `prettyPrint` returns the text `s` for the tree `t`, then with recorded file system and callbacks it returns the same text, and the record is:
first, for every entry of `t` in preorder, its accesses (`entryCalls`: kind; attributes of a file; one listing, one limit call and one filter call per listed entry of a directory above the
depth limit); then only emoji and extension calls: one emoji call per line, for the file or the last directory on it, in line order, and, if there is an extension function, one extension call
per displayed path in preorder. -/
theorem C65_record (hw : cwd.abs = true) (h : prettyPrint fs.lift cwd o p = .ok s) :
    ∃ t T r, scanned fs cwd o p = .ok t ∧ Prints o t T s ∧
      (prettyPrint (tracedFs fs) cwd (tracedOpts o) p).exec = (.ok s, scanCalls fs t ++ r) ∧
      (∀ c ∈ r, c.rendering = true) ∧
      r.filterMap Call.emojiOf = (T.items 0).filterMap (fun x => x.2.lastPath) ∧
      r.filterMap Call.extOf = if o.lineExtension.isSome then entryPaths t else [] := by
  obtain ⟨t, T, ht, hp⟩ := printed h
  rw [prettyPrint_eq, ht] at h
  have h : Renderer.renderRoot o.toRender (LineRenderer.create o.toRender) t = .ok s := h
  rw [C01_render_is_picture_effectful] at h
  have ht' := ht
  rw [scanned_eq fs hw] at ht'
  have hscan := runs_handle (fs := fs) (o := o) 0 _ t ht'
  obtain ⟨D, hD, hs⟩ : ∃ D, dispM ⟨o.emojiMapping, o.compactDirectories, extensionOf o.toRender⟩ true t = .ok D ∧ s = picture o.treeFormat D := by
    revert h
    show picture o.treeFormat <$> dispM ⟨o.emojiMapping, o.compactDirectories, extensionOf o.toRender⟩ true t = .ok s → _
    cases dispM ⟨o.emojiMapping, o.compactDirectories, extensionOf o.toRender⟩ true t with
    | error e => intro h; cases h
    | ok T => intro h; cases h; exact ⟨T, rfl, rfl⟩
  obtain ⟨r, hr, hrt⟩ := runs_top (recorded o) t hD (T := T) (by rw [total_lookOf]; exact hp.shows)
  refine ⟨t, T, r, ht, hp, ?_, hrt.rendering, hrt.emojis, hrt.exts⟩
  have hrender : Runs (Renderer.renderRoot (tracedOpts o).toRender (LineRenderer.create (tracedOpts o).toRender) t) s r := by
    rw [C01_render_is_picture_effectful, hs]
    exact hr.map _
  have hall : Runs (prettyPrint (tracedFs fs) cwd (tracedOpts o) p) s (scanCalls fs t ++ r) := by
    unfold prettyPrint Printer.prettyPrint
    refine Runs.bind ?_ hrender
    unfold Scanner.scan
    dsimp only
    rw [Path.target_clean hw]
    exact hscan
  have := hall []
  rw [List.nil_append] at this
  exact this

mutual
/-- The directories of a tree above the depth limit, in preorder. -/
def Spec.openedDirs : TreeEntry → List Path
  | .dir _ [.maxDepth _] => []
  | .dir d es => d :: openedDirsAll es
  | _ => []
/-- The same for lists. -/
def Spec.openedDirsAll : List TreeEntry → List Path
  | [] => []
  | e :: es => openedDirs e ++ openedDirsAll es
end

mutual
/-- The files of a tree, in preorder. -/
def Spec.filesOf : TreeEntry → List Path
  | .dir _ es => filesOfAll es
  | .file p _ => [p]
  | _ => []
/-- The same for lists. -/
def Spec.filesOfAll : List TreeEntry → List Path
  | [] => []
  | e :: es => filesOf e ++ filesOfAll es
end

theorem openedDirs_dir (d : Path) (es : List TreeEntry) : (∃ j, es = [.maxDepth j] ∧ openedDirs (.dir d es) = []) ∨
    ((∀ j, es ≠ [.maxDepth j]) ∧ openedDirs (.dir d es) = d :: openedDirsAll es) := by
  rw [openedDirs.eq_def]
  split <;> rename_i heq
  · cases heq; exact .inl ⟨_, rfl, rfl⟩
  · rename_i hne; injection heq with h1 h2; subst h1; subst h2; exact .inr ⟨fun j hj => hne j hj, rfl⟩
  · rename_i hne; exact absurd rfl (heq d es)

theorem entryCalls_opened {d : Path} {es : List TreeEntry} (h : ∀ j, es ≠ [.maxDepth j]) :
    entryCalls fs (.dir d es) = [.isDir d, .list d, .limit d] ++ (content fs d).flatMap (filterCalls fs) := by
  unfold entryCalls
  split <;> rename_i heq
  · cases heq
  · injection heq with _ heq; exact absurd heq (h _)
  · cases heq; rfl
  · cases heq
  · cases heq

/-- The projections of the calls made while filtering. -/
theorem filterCalls_proj (cs : List Path) : (cs.flatMap (filterCalls fs)).filterMap Call.listOf = [] ∧ (cs.flatMap (filterCalls fs)).filterMap Call.limitOf = [] ∧
    (cs.flatMap (filterCalls fs)).filterMap Call.attrsOf = [] ∧ (cs.flatMap (filterCalls fs)).filterMap Call.filterOf = cs := by
  induction cs with
  | nil => exact ⟨rfl, rfl, rfl, rfl⟩
  | cons c cs ih =>
    obtain ⟨h1, h2, h3, h4⟩ := ih
    rw [List.flatMap_cons]
    simp only [List.filterMap_append, h1, h2, h3, h4]
    unfold filterCalls
    cases fs.isDir c <;> exact ⟨rfl, rfl, rfl, rfl⟩

mutual
theorem scanCalls_proj (t : TreeEntry) : (scanCalls fs t).filterMap Call.listOf = openedDirs t ∧ (scanCalls fs t).filterMap Call.limitOf = openedDirs t ∧
    (scanCalls fs t).filterMap Call.attrsOf = filesOf t ∧ (scanCalls fs t).filterMap Call.filterOf = (openedDirs t).flatMap (content fs) := by
  match t with
  | .file p a => exact ⟨rfl, rfl, rfl, rfl⟩
  | .skipped p => exact ⟨rfl, rfl, rfl, rfl⟩
  | .maxDepth p => exact ⟨rfl, rfl, rfl, rfl⟩
  | .dir d es =>
    obtain ⟨h1, h2, h3, h4⟩ := scanCallsAll_proj es
    rcases openedDirs_dir d es with ⟨j, rfl, ho⟩ | ⟨hne, ho⟩
    · rw [ho]; exact ⟨rfl, rfl, rfl, rfl⟩
    · obtain ⟨f1, f2, f3, f4⟩ := filterCalls_proj (fs := fs) (content fs d)
      rw [scanCalls, entryCalls_opened hne, ho, filesOf]
      simp only [List.filterMap_append, h1, h2, h3, h4, f1, f2, f3, f4]
      exact ⟨rfl, rfl, rfl, by simp [Call.filterOf]⟩
theorem scanCallsAll_proj (es : List TreeEntry) : (scanCallsAll fs es).filterMap Call.listOf = openedDirsAll es ∧ (scanCallsAll fs es).filterMap Call.limitOf = openedDirsAll es ∧
    (scanCallsAll fs es).filterMap Call.attrsOf = filesOfAll es ∧ (scanCallsAll fs es).filterMap Call.filterOf = (openedDirsAll es).flatMap (content fs) := by
  match es with
  | [] => exact ⟨rfl, rfl, rfl, rfl⟩
  | e :: es =>
    obtain ⟨h1, h2, h3, h4⟩ := scanCallsAll_proj es
    obtain ⟨g1, g2, g3, g4⟩ := scanCalls_proj e
    rw [scanCallsAll, openedDirsAll, filesOfAll]
    simp only [List.filterMap_append, h1, h2, h3, h4, g1, g2, g3, g4, List.flatMap_append, and_self]
end

mutual
theorem openedDirs_sublist (t : TreeEntry) : (openedDirs t).Sublist (entryPaths t) := by
  match t with
  | .file p a => exact List.nil_sublist _
  | .skipped p => exact List.nil_sublist _
  | .maxDepth p => exact List.nil_sublist _
  | .dir d es =>
    rw [entryPaths_dir]
    rcases openedDirs_dir d es with ⟨j, _, ho⟩ | ⟨_, ho⟩ <;> rw [ho]
    · exact List.nil_sublist _
    · exact (openedDirsAll_sublist es).cons_cons d
theorem openedDirsAll_sublist (es : List TreeEntry) : (openedDirsAll es).Sublist (pathsAll es) := by
  match es with
  | [] => exact .refl _
  | e :: es => rw [openedDirsAll, pathsAll_cons]; exact (openedDirs_sublist e).append (openedDirsAll_sublist es)
end

mutual
theorem filesOf_sublist (t : TreeEntry) : (filesOf t).Sublist (entryPaths t) := by
  match t with
  | .file p a => exact .refl _
  | .skipped p => exact List.nil_sublist _
  | .maxDepth p => exact List.nil_sublist _
  | .dir d es => rw [entryPaths_dir, filesOf]; exact (filesOfAll_sublist es).cons d
theorem filesOfAll_sublist (es : List TreeEntry) : (filesOfAll es).Sublist (pathsAll es) := by
  match es with
  | [] => exact .refl _
  | e :: es => rw [filesOfAll, pathsAll_cons]; exact (filesOf_sublist e).append (filesOfAll_sublist es)
end

mutual
theorem scanCalls_scanning (t : TreeEntry) : ∀ c ∈ scanCalls fs t, c.rendering = false := by
  match t with
  | .file p a => intro c hc; simp [scanCalls, entryCalls] at hc; rcases hc with rfl | rfl <;> rfl
  | .skipped p => intro c hc; simp [scanCalls, entryCalls] at hc
  | .maxDepth p => intro c hc; simp [scanCalls, entryCalls] at hc
  | .dir d es =>
    intro c hc
    rw [scanCalls] at hc
    rcases List.mem_append.1 hc with hc | hc
    · rcases openedDirs_dir d es with ⟨j, rfl, _⟩ | ⟨hne, _⟩
      · simp [entryCalls] at hc; rw [hc]; rfl
      · rw [entryCalls_opened hne] at hc
        simp only [List.mem_append, List.mem_cons, List.not_mem_nil, or_false, List.mem_flatMap, filterCalls] at hc
        rcases hc with (rfl | rfl | rfl) | ⟨a, _, rfl | rfl⟩
        · rfl
        · rfl
        · rfl
        · rfl
        · split <;> rfl
    · exact scanCallsAll_scanning es c hc
theorem scanCallsAll_scanning (es : List TreeEntry) : ∀ c ∈ scanCallsAll fs es, c.rendering = false := by
  match es with
  | [] => intro c hc; cases hc
  | e :: es =>
    intro c hc
    rw [scanCallsAll] at hc
    rcases List.mem_append.1 hc with hc | hc
    · exact scanCalls_scanning e c hc
    · exact scanCallsAll_scanning es c hc
end

theorem child_inj_both {d d' : Path} {n n' : JStr} (hd : d.abs = true) (hd' : d'.abs = true) (h : d.child n = d'.child n') : d = d' := by
  unfold Path.child at h
  obtain ⟨a, ns⟩ := d
  obtain ⟨a', ns'⟩ := d'
  simp only at hd hd'
  subst hd; subst hd'
  rw [if_neg (by intro h; cases h), if_neg (by intro h; cases h)] at h
  injection h with _ h
  have : ns = ns' := (List.append_inj' h rfl).1
  rw [this]

/-- **C65**: in a run that succeeds, no directory is opened twice, no limit is asked twice for a directory, no file's attributes are read twice, no entry is given to a filter twice, and no
path is asked for an emoji or extension twice. -/
theorem C65_once (hfs : ProperFs fs) (hw : cwd.abs = true) (hc : LawfulCmp o.pathComparator) (h : prettyPrint fs.lift cwd o p = .ok s) :
    ∃ rec, (prettyPrint (tracedFs fs) cwd (tracedOpts o) p).exec = (.ok s, rec) ∧ (rec.filterMap Call.listOf).Nodup ∧ (rec.filterMap Call.limitOf).Nodup ∧
      (rec.filterMap Call.attrsOf).Nodup ∧ (rec.filterMap Call.filterOf).Nodup ∧ (rec.filterMap Call.emojiOf).Nodup ∧ (rec.filterMap Call.extOf).Nodup := by
  obtain ⟨t, T, r, ht, hp, hrun, hr, hem, hex⟩ := C65_record hw h
  obtain ⟨hnd, habs⟩ := C58_every_path_once hfs hw hc ht
  have none_of : ∀ f : Call → Option Path, (∀ c : Call, c.rendering = true → f c = none) → r.filterMap f = [] := by
    intro f hf
    rw [List.filterMap_eq_nil_iff]
    exact fun c hc => hf c (hr c hc)
  obtain ⟨h1, h2, h3, h4⟩ := scanCalls_proj (fs := fs) t
  have hscan : ∀ c ∈ scanCalls fs t, c.rendering = false := scanCalls_scanning t
  have none_scan : ∀ f : Call → Option Path, (∀ c : Call, c.rendering = false → f c = none) → (scanCalls fs t).filterMap f = [] := by
    intro f hf
    rw [List.filterMap_eq_nil_iff]
    exact fun c hc => hf c (hscan c hc)
  refine ⟨_, hrun, ?_, ?_, ?_, ?_, ?_, ?_⟩
  · rw [List.filterMap_append, h1, none_of _ (fun c hc => by cases c <;> first | rfl | cases hc), List.append_nil]
    exact (openedDirs_sublist t).nodup hnd
  · rw [List.filterMap_append, h2, none_of _ (fun c hc => by cases c <;> first | rfl | cases hc), List.append_nil]
    exact (openedDirs_sublist t).nodup hnd
  · rw [List.filterMap_append, h3, none_of _ (fun c hc => by cases c <;> first | rfl | cases hc), List.append_nil]
    exact (filesOf_sublist t).nodup hnd
  · rw [List.filterMap_append, h4, none_of _ (fun c hc => by cases c <;> first | rfl | cases hc), List.append_nil]
    have hkids : ∀ d, (content fs d).Nodup ∧ ∀ c ∈ content fs d, ∃ n, c = d.child n := by
      intro d
      unfold content
      cases hl : fs.listDir d with
      | openFailed => exact ⟨List.nodup_nil, fun c hc => by cases hc⟩
      | opened cs bad => exact hfs d cs bad hl
    rw [List.nodup_flatMap]
    refine ⟨fun d _ => (hkids d).1, ?_⟩
    have hpw := (openedDirs_sublist t).nodup hnd
    refine List.Pairwise.imp_of_mem ?_ hpw
    intro d d' hd hd' hne
    intro q hq hq'
    obtain ⟨n, rfl⟩ := (hkids d).2 q hq
    obtain ⟨n', hn'⟩ := (hkids d').2 _ hq'
    exact hne (child_inj_both (habs d ((openedDirs_sublist t).subset hd)).1 (habs d' ((openedDirs_sublist t).subset hd')).1 hn')
  · rw [List.filterMap_append, none_scan _ (fun c hc => by cases c <;> first | rfl | cases hc), List.nil_append, hem]
    have hsub : ((T.items 0).filterMap (fun x => x.2.lastPath)).Sublist (((T.items 0).flatMap (fun x => x.2.shows)).filterMap id) := by
      have key : ∀ l : List (Nat × Item), (∀ x ∈ l, ∀ ds last, x.2 = .dirs ds last → last ∈ ds) →
          (l.filterMap (fun x => x.2.lastPath)).Sublist ((l.flatMap (fun x => x.2.shows)).filterMap id) := by
        intro l
        induction l with
        | nil => intro _; exact .refl _
        | cons x l ih =>
          intro hl
          have ih := ih (fun y hy => hl y (List.mem_cons_of_mem _ hy))
          rw [List.flatMap_cons, List.filterMap_append]
          cases hi : x.2 with
          | file q a => rw [List.filterMap_cons_some (b := q) (by rw [hi]; rfl)]; exact ih.cons_cons q
          | more => rw [List.filterMap_cons_none (by rw [hi]; rfl)]; exact ih
          | dirs ds last =>
            rw [List.filterMap_cons_some (b := last) (by rw [hi]; rfl)]
            have hm := hl x List.mem_cons_self ds last hi
            have : [last].Sublist ((Item.dirs ds last).shows.filterMap id) := by
              rw [List.singleton_sublist]
              simpa [Item.shows] using hm
            exact this.append ih
      exact key _ (fun x hx ds last hi => List.mem_of_getLast? (last_mem hp.shows hx hi))
    refine hsub.nodup ?_
    rw [hp.shows.events 0]
    exact hnd
  · rw [List.filterMap_append, none_scan _ (fun c hc => by cases c <;> first | rfl | cases hc), List.nil_append, hex]
    split
    · exact hnd
    · exact List.nodup_nil

end

section
variable {fs : PureFs} {cwd : Path} {o : Options (Except Exn)} {p : Path} {s : JStr}

/-- **C66**: the emoji mapping is asked exactly once per line that is no `...`, in line order: for the file, or the last of the merged directories on the line. -/
theorem C66_emoji_per_line (hw : cwd.abs = true) (h : prettyPrint fs.lift cwd o p = .ok s) :
    ∃ (items : List (Nat × Item)) (lines : List JStr) (rec : List Call), s = joinLines lines ∧ List.Forall₂ (IsLineOf o.treeFormat (lookOf o)) items lines ∧
      (prettyPrint (tracedFs fs) cwd (tracedOpts o) p).exec = (.ok s, rec) ∧ rec.filterMap Call.emojiOf = items.filterMap (fun x => x.2.lastPath) := by
  obtain ⟨t, T, r, ht, hp, hrun, hr, hem, hex⟩ := C65_record hw h
  obtain ⟨lines, h1, h2, _⟩ := hp.lines
  refine ⟨T.items 0, lines, _, h1, h2, hrun, ?_⟩
  rw [List.filterMap_append, hem, List.filterMap_eq_nil_iff.2, List.nil_append]
  intro c hc
  have := scanCalls_scanning (fs := fs) t c hc
  cases c <;> first | rfl | cases this

end

example := C66_emoji_per_line (o := Demo.dflt) rfl Demo.printed_found

/-- Example: everything done to print `/r/{a/{x, y}, b.txt, z}`. -/
example := C65_record (o := Demo.dflt) rfl Demo.printed_found
example := C65_once (o := Demo.dflt) Demo.proper rfl lawful_ALPHABETICAL Demo.printed_found
example : scanCalls Demo.dfs Demo.found =
    [.isDir Demo.r, .list Demo.r, .limit Demo.r, .isDir Demo.b, .fileFilter Demo.b, .isDir Demo.a, .dirFilter Demo.a, .isDir Demo.z, .fileFilter Demo.z,
     .isDir Demo.a, .list Demo.a, .limit Demo.a, .isDir Demo.y, .fileFilter Demo.y, .isDir Demo.x, .fileFilter Demo.x,
     .isDir Demo.x, .attrs Demo.x, .isDir Demo.y, .attrs Demo.y, .isDir Demo.b, .attrs Demo.b, .isDir Demo.z, .attrs Demo.z] := by decide

end JFTP
