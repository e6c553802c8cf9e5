import Verif.Props.Calls
import Verif.Props.Narrow
import Verif.Props.World
import Verif.Props.Scanning

/-!
C98: what a child limit saves, and what it does not save.
-/

namespace JFTP
open Spec

theorem kept_same {A B : Answers} (hAB : ∀ q b, A.keep q b → B.keep q b) {cs ks : List Path} (h : Kept A cs ks) : Kept B cs ks := by
  induction h with
  | nil => exact .nil
  | keep h _ ih => exact .keep (hAB _ _ h) ih
  | drop h _ ih => exact .drop (hAB _ _ h) ih

theorem kept_mem {A : Answers} {cs ks : List Path} (h : Kept A cs ks) {q : Path} (hq : q ∈ ks) : A.keep q true := by
  induction h with
  | nil => cases hq
  | keep h _ ih =>
    rcases List.mem_cons.1 hq with rfl | hq
    · exact h
    · exact ih hq
  | drop _ _ ih => exact ih hq

section
variable {fs : PureFs}

theorem entryCalls_scanCalls {x t : TreeEntry} {k : Nat} (h : BelowAt x k t) : ∀ c ∈ entryCalls fs x, c ∈ scanCalls fs t := by
  induction h with
  | here =>
    intro c hc
    cases x with
    | dir p es => rw [scanCalls]; exact List.mem_append_left _ hc
    | _ => exact hc
  | @inside d es y n hy _ ih =>
    intro c hc
    rw [scanCalls]
    refine List.mem_append_right _ ?_
    obtain ⟨l, r, rfl⟩ := List.append_of_mem hy
    rw [scanCallsAll_append, scanCallsAll]
    exact List.mem_append_right _ (List.mem_append_left _ (ih c hc))

theorem entryCalls_dir {p : Path} {es : List TreeEntry} (h : ∀ n, es ≠ [.maxDepth n]) :
    entryCalls fs (.dir p es) = [.isDir p, .list p, .limit p] ++ (content fs p).flatMap (filterCalls fs) := by
  unfold entryCalls
  split
  · rename_i e; cases e
  · rename_i e; cases e; exact absurd rfl (h _)
  · rename_i e; cases e; rfl
  · rename_i e; cases e
  · rename_i e; cases e

mutual
theorem scanCalls_narrow (lim : Path → Int) (t : TreeEntry) : (scanCalls fs (narrow lim t)).Sublist (scanCalls fs t) := by
  match t with
  | .dir d es =>
    have ih := scanCallsAll_narrow lim es
    by_cases hm : ∃ n, es = [.maxDepth n]
    · obtain ⟨n, rfl⟩ := hm
      rw [narrow, if_neg (by rw [show [TreeEntry.maxDepth n].filterMap entryPath = [] from rfl]; simp), narrowAll, narrowAll, narrow]
    · have hm' : ∀ n, es ≠ [.maxDepth n] := fun n h => hm ⟨n, h⟩
      have key : ∀ es', (entryCalls fs (.dir d es')).Sublist (entryCalls fs (.dir d es)) := by
        intro es'
        rw [entryCalls_dir hm']
        by_cases h : ∃ n, es' = [.maxDepth n]
        · obtain ⟨n, rfl⟩ := h
          simp [entryCalls]
        · rw [entryCalls_dir (fun n e => h ⟨n, e⟩)]
      rw [narrow]
      split
      · rw [scanCalls, scanCalls]
        refine (key _).append ?_
        rw [scanCallsAll_append]
        simp only [scanCallsAll, scanCalls, entryCalls, List.append_nil]
        refine List.Sublist.trans ?_ ih
        conv_rhs => rw [← List.take_append_drop (lim d).toNat (narrowAll lim es), scanCallsAll_append]
        exact List.sublist_append_left _ _
      · rw [scanCalls, scanCalls]
        exact (key _).append ih
  | .file _ _ => rw [narrow]
  | .skipped _ => rw [narrow]
  | .maxDepth _ => rw [narrow]
theorem scanCallsAll_narrow (lim : Path → Int) (es : List TreeEntry) : (scanCallsAll fs (narrowAll lim es)).Sublist (scanCallsAll fs es) := by
  match es with
  | [] => rw [narrowAll]
  | e :: es => rw [narrowAll, scanCallsAll, scanCallsAll]; exact (scanCalls_narrow lim e).append (scanCallsAll_narrow lim es)
end

end

section
variable {fs : PureFs} {cwd : Path} {o : Options (Except Exn)} {p : Path} {s : JStr}

/-- **C98**: whatever its child limit (also 0), a displayed directory above the maximal depth is opened and listed to its end, and every listed entry is given to a filter. -/
theorem C98_listed (hw : cwd.abs = true) (hc : LawfulCmp o.pathComparator) (h : prettyPrint fs.lift cwd o p = .ok s) {t : TreeEntry} (ht : scanned fs cwd o p = .ok t)
    {d : Path} {es : List TreeEntry} {k : Nat} (hb : BelowAt (.dir d es) k t) (hk : (k : Int) < o.maxDepth) :
    ∃ cs rec, fs.listDir d = .opened cs false ∧ (prettyPrint (tracedFs fs) cwd (tracedOpts o) p).exec = (.ok s, rec) ∧ Call.list d ∈ rec ∧
      ∀ c ∈ cs, (if fs.isDir c = true then Call.dirFilter c else Call.fileFilter c) ∈ rec := by
  obtain ⟨t', T, r, ht', -, hrun, -⟩ := C65_record hw h
  rw [ht] at ht'; cases ht'
  have hs := (scanned_sound hw hc ht).sub hb rfl
  rw [Nat.zero_add] at hs
  obtain ⟨-, -, h1 | ⟨-, n, cs, ks, srt, es', h2, h3, h4, h5, h6, h7, rfl⟩⟩ := hs.dir_inv
  · omega
  · have hl : fs.listDir d = .opened cs false := h3
    have hne : ∀ n', es' ++ moreMark n srt d ≠ [.maxDepth n'] := by
      intro n' e
      have hmem : TreeEntry.maxDepth n' ∈ es' ++ moreMark n srt d := by rw [e]; simp
      rcases List.mem_append.1 hmem with hm | hm
      · obtain ⟨q, -, hq⟩ := h7.mem hm
        have := hq.entryPath_eq
        cases this
      · unfold moreMark at hm
        split at hm <;> simp at hm
    have hin := entryCalls_scanCalls (fs := fs) hb
    rw [entryCalls_dir hne] at hin
    refine ⟨cs, _, hl, hrun, List.mem_append_left _ (hin _ (by simp)), fun c hcs => List.mem_append_left _ (hin _ (List.mem_append_right _ (List.mem_flatMap.2 ⟨c, ?_, ?_⟩)))⟩
    · unfold content; rw [hl]; exact hcs
    · simp [filterCalls]

/-- **C98**: so it cannot protect from a directory that cannot be listed: if a directory that has to be shown above the maximal depth cannot be opened, or its listing breaks off, printing fails
with every limit for it. -/
theorem C98_unreadable (hfs : ProperFs fs) (hw : cwd.abs = true) {c : Cmp} (hc : LawfulCmp c) (hsort : o.pathComparator = thenComparing c PathSorts.ALPHABETICAL)
    {d : Path} {k : Nat} (hv : Visited (answers fs o) o.pathComparator o.maxDepth 0 (target cwd p) k d) (hd : fs.isDir d = true) (hk : (k : Int) < o.maxDepth)
    (hl : ∀ cs, fs.listDir d ≠ .opened cs false) (lim : Path → Except Exn Int) (hlim : ∀ q, q ≠ d → lim q = o.childLimit q) :
    ∃ e, prettyPrint fs.lift cwd (o.withChildLimitFn lim) p = .error e := by
  have ha : (target cwd p).abs = true := by
    unfold target; rw [Path.normalize_abs (Path.toAbsolutePath_abs hw)]
  have hdk : d.names.length = (target cwd p).names.length + k := by
    have := hv
    rw [← answers_eq] at this
    exact (this.names hfs ha).2.2
  have hv' : Visited (answers fs (o.withChildLimitFn lim)) o.pathComparator o.maxDepth 0 (target cwd p) k d := by
    have key : ∀ j q, Visited (answers fs o) o.pathComparator o.maxDepth 0 (target cwd p) j q → j ≤ k → Visited (answers fs (o.withChildLimitFn lim)) o.pathComparator o.maxDepth 0 (target cwd p) j q := by
      intro j q h
      induction h with
      | top => exact fun _ => .top
      | @child j e n cs ks srt q h0 h1 h2 h3 h4 h5 h6 h7 h8 ih =>
        intro hj
        have he : e ≠ d := by
          rintro rfl
          rw [← answers_eq] at h0
          have := (h0.names hfs ha).2.2
          omega
        have h3' : (answers fs (o.withChildLimitFn lim)).limit e n := by
          show lim e = .ok n
          rw [hlim e he]; exact h3
        exact .child (ih (by omega)) h1 h2 h3' h4 (kept_same (A := answers fs o) (B := answers fs (o.withChildLimitFn lim)) (fun _ _ h => h) h5) h6 h7 h8
    exact key k d hv (Nat.le_refl _)
  cases hr : prettyPrint fs.lift cwd (o.withChildLimitFn lim) p with
  | error e => exact ⟨e, rfl⟩
  | ok s =>
    exfalso
    have hno := fun x => C18_success_means_no_failure (o := o.withChildLimitFn lim) hfs hw hc hsort hr hv' x
    cases hld : fs.listDir d with
    | openFailed => exact hno _ (.list hd hk hld)
    | opened cs bad =>
      cases bad with
      | true => exact hno _ (.iter hd hk hld)
      | false => exact hl cs hld

/-- **C98**, in contrast: a directory rejected by the filter is not opened; whether and how it can be listed has no influence. -/
theorem C98_filter_protects (hw : cwd.abs = true) (hc : LawfulCmp o.pathComparator) {d : Path} (hd : fs.isDir d = true) (hf : o.dirMatcher d = .ok false) (hne : d ≠ target cwd p) (l : Listing) :
    prettyPrint ({ fs with listDir := fun q => if q = d then l else fs.listDir q } : PureFs).lift cwd o p = prettyPrint fs.lift cwd o p := by
  refine C07_noninterference hw hc p fun k q hv => ?_
  refine ⟨rfl, fun _ => rfl, fun _ _ => ?_, fun _ _ _ _ _ _ _ => rfl⟩
  have hq : q ≠ d := by
    rintro rfl
    cases hv with
    | top => exact hne rfl
    | child h0 h1 h2 h3 h4 h5 h6 h7 h8 =>
      have hm := h6.mem_iff.1 ((limitTo_sublist _ _).subset h8)
      have hkeep := (kept_mem h5 hm)
      have : (if fs.isDir q = true then o.dirMatcher q else o.fileMatcher q) = .ok true := hkeep
      rw [if_pos hd, hf] at this
      cases this
  show (if q = d then l else fs.listDir q) = fs.listDir q
  rw [if_neg hq]

/-- **C98**: what smaller limits save: the accesses and filter calls of the scan with smaller limits are, in the same order, some of those with the larger ones. -/
theorem C98_saved (hw : cwd.abs = true) (lim : Path → Int) (hle : ∀ q n, o.childLimit q = .ok n → limitLe (lim q) n) (h : prettyPrint fs.lift cwd o p = .ok s) {s' : JStr}
    (h' : prettyPrint fs.lift cwd (o.withChildLimitFn (fun q => .ok (lim q))) p = .ok s') :
    ∃ a r a' r', (prettyPrint (tracedFs fs) cwd (tracedOpts o) p).exec = (.ok s, a ++ r) ∧
      (prettyPrint (tracedFs fs) cwd (tracedOpts (o.withChildLimitFn (fun q => .ok (lim q)))) p).exec = (.ok s', a' ++ r') ∧
      (∀ c ∈ a ++ a', c.rendering = false) ∧ (∀ c ∈ r ++ r', c.rendering = true) ∧ a'.Sublist a := by
  obtain ⟨t, T, r, ht, -, hrun, hr, -⟩ := C65_record hw h
  obtain ⟨t', T', r', ht', -, hrun', hr', -⟩ := C65_record hw h'
  rw [C12_smaller_limits_narrow hw lim hle ht] at ht'
  cases ht'
  refine ⟨_, r, _, r', hrun, hrun', fun c hc => ?_, fun c hc => ?_, scanCalls_narrow lim t⟩
  · rcases List.mem_append.1 hc with hc | hc
    · exact scanCalls_scanning _ c hc
    · exact scanCalls_scanning _ c hc
  · rcases List.mem_append.1 hc with hc | hc
    · exact hr c hc
    · exact hr' c hc

/-- **C98**, exactly, for the limit 0: the printed directory is listed and all its entries are given to the filters, nothing else is accessed. -/
theorem C98_zero (hw : cwd.abs = true) (hc : LawfulCmp o.pathComparator) (h0 : o.childLimit (target cwd p) = .ok 0) (hd : fs.isDir (target cwd p) = true) (hk : 0 < o.maxDepth)
    (h : prettyPrint fs.lift cwd o p = .ok s) :
    ∃ cs r, fs.listDir (target cwd p) = .opened cs false ∧ (∀ c ∈ r, c.rendering = true) ∧
      (prettyPrint (tracedFs fs) cwd (tracedOpts o) p).exec = (.ok s, [.isDir (target cwd p), .list (target cwd p), .limit (target cwd p)] ++
        cs.flatMap (fun c => [.isDir c, if fs.isDir c = true then .dirFilter c else .fileFilter c]) ++ r) := by
  obtain ⟨t, T, r, ht, -, hrun, hr, -⟩ := C65_record hw h
  have hs := scanned_sound hw hc ht
  cases hs with
  | file hf _ => have hf : fs.isDir (target cwd p) = false := hf; rw [hd] at hf; cases hf
  | tooDeep _ hdeep => omega
  | @dir _ _ n cs ks srt es a1 ak a2 a3 a4 a5 a6 a7 =>
    have a2 : o.childLimit (target cwd p) = .ok n := a2
    rw [h0] at a2; cases a2
    have hl : fs.listDir (target cwd p) = .opened cs false := a3
    have hes : es = [] := by
      have : limitTo 0 srt = [] := by simp [limitTo]
      rw [this] at a7
      cases a7; rfl
    subst hes
    refine ⟨cs, r, hl, hr, ?_⟩
    rw [hrun]
    congr 2
    have hne : ∀ n', [] ++ moreMark 0 srt (target cwd p) ≠ [.maxDepth n'] := by
      intro n' e
      unfold moreMark at e
      split at e <;> simp at e
    rw [scanCalls, entryCalls_dir hne]
    have : scanCallsAll fs ([] ++ moreMark 0 srt (target cwd p)) = [] := by
      unfold moreMark
      split <;> simp [scanCallsAll, scanCalls, entryCalls]
    rw [this, List.append_nil]
    have hcs : content fs (target cwd p) = cs := by unfold content; rw [hl]
    rw [hcs]
    rfl

end

example := C98_listed (o := Demo.dflt) rfl lawful_ALPHABETICAL Demo.printed_found Demo.scanned_found (d := Demo.a) (k := 1) (.inside (List.mem_cons_self ..) .here) (by decide)
example := C98_filter_protects (fs := Demo.dfs) (cwd := Path.root) (p := Demo.r) (o := Demo.dflt.filterDirectories (fun q => pure (q != Demo.a))) rfl lawful_ALPHABETICAL (d := Demo.a) (by decide) rfl (by decide) .openFailed

/-- Example: the directory `/r/a` cannot be opened; printing `/r` fails, also with the limit 0 for it. -/
example : ∃ e, prettyPrint ({ Demo.dfs with listDir := fun q => if q = Demo.a then .openFailed else Demo.dfs.listDir q } : PureFs).lift Path.root
    (Demo.dflt.withChildLimitFn (fun q => if q = Demo.a then .ok 0 else .ok (-1))) Demo.r = .error e := by
  refine C98_unreadable (c := fun _ _ => 0) (o := Demo.dflt) (d := Demo.a) (k := 1) (fun q cs bad h => ?_) rfl (by constructor <;> simp) ?_ ?_ rfl (by decide) (fun cs h => ?_) _ (fun q hq => by rw [if_neg hq]; rfl)
  · have h : (if q = Demo.a then Listing.openFailed else Demo.dfs.listDir q) = .opened cs bad := h
    split at h
    · cases h
    · exact Demo.proper q cs bad h
  · rfl
  · exact .child (n := -1) (cs := [Demo.b, Demo.a, Demo.z]) (ks := [Demo.b, Demo.a, Demo.z]) (srt := [Demo.a, Demo.b, Demo.z]) .top rfl (by decide) rfl rfl
      (.keep rfl (.keep rfl (.keep rfl .nil))) (by decide) (by decide) (by decide)
  · cases h

example : ∃ s', prettyPrint Demo.dfs.lift Path.root (Demo.dflt.withChildLimitFn (fun _ => .ok 1)) Demo.r = .ok s' ∧ ∃ s a r a' r', (prettyPrint (tracedFs Demo.dfs) Path.root (tracedOpts Demo.dflt) Demo.r).exec = (.ok s, a ++ r) ∧
    (prettyPrint (tracedFs Demo.dfs) Path.root (tracedOpts (Demo.dflt.withChildLimitFn (fun _ => .ok 1))) Demo.r).exec = (.ok s', a' ++ r') ∧
    (∀ c ∈ a ++ a', c.rendering = false) ∧ (∀ c ∈ r ++ r', c.rendering = true) ∧ a'.Sublist a := by
  obtain ⟨-, -, -, s', -, -, h', -⟩ := C12_text (fs := Demo.dfs) (cwd := Path.root) (o := Demo.dflt) (p := Demo.r) rfl (fun _ => 1) (fun q n hn => by cases hn; exact .inl (by decide)) Demo.printed_found
    (fun t _ q _ => ⟨⟨none, rfl⟩, fun g hg => by cases hg⟩)
  exact ⟨s', h', _, C98_saved rfl (fun _ => 1) (fun q n hn => by cases hn; exact .inl (by decide)) Demo.printed_found h'⟩

/-- Example: with the limit 0 all entries of `/r` are given to the filters. -/
example : ∃ s r, (prettyPrint (tracedFs Demo.dfs) Path.root (tracedOpts (Demo.dflt.withChildLimitFn (fun _ => .ok 0))) Demo.r).exec =
    (.ok s, [.isDir Demo.r, .list Demo.r, .limit Demo.r, .isDir Demo.b, .fileFilter Demo.b, .isDir Demo.a, .dirFilter Demo.a, .isDir Demo.z, .fileFilter Demo.z] ++ r) := by
  obtain ⟨-, -, -, s', -, -, h', -⟩ := C12_text (fs := Demo.dfs) (cwd := Path.root) (o := Demo.dflt) (p := Demo.r) rfl (fun _ => 0) (fun q n hn => by cases hn; exact .inl (by decide)) Demo.printed_found
    (fun t _ q _ => ⟨⟨none, rfl⟩, fun g hg => by cases hg⟩)
  obtain ⟨cs, r, h1, -, h2⟩ := C98_zero rfl lawful_ALPHABETICAL rfl rfl (by decide) h'
  cases h1
  exact ⟨s', r, h2⟩

end JFTP
