import Verif.Spec.Change
import Verif.Props.AddedEntry

/-
C91: a change inside a displayed directory changes nothing but its block of lines.
-/

namespace JFTP
open Spec

namespace Spec

section
variable {fs fs' : PureFs} {o : Options (Except Exn)} {c : Cmp} {D : Int} {f : Path}

/-- The filter decides the same in both file systems, if it does so about `f`. -/
theorem keptSame (hA : SameOutside fs fs' f) (hf : fs'.isDir f = fs.isDir f) {cs ks : List Path} (hcs : ∀ q ∈ cs, Inside f q → q = f) (h : Kept (answers fs o) cs ks) :
    Kept (answers fs' o) cs ks := by
  have key : ∀ {q v}, (Inside f q → q = f) → (answers fs o).keep q v → (answers fs' o).keep q v := by
    intro q v hq hk
    have hk : (if fs.isDir q = true then o.dirMatcher q else o.fileMatcher q) = .ok v := hk
    show (if fs'.isDir q = true then o.dirMatcher q else o.fileMatcher q) = .ok v
    have he : fs'.isDir q = fs.isDir q := by
      by_cases hi : Inside f q
      · rw [hq hi, hf]
      · exact hA.isDir q hi
    rw [he]; exact hk
  induction h with
  | nil => exact .nil
  | keep h1 _ ih => exact .keep (key (hcs _ (by simp)) h1) (ih fun q hq => hcs q (by simp [hq]))
  | drop h1 _ ih => exact .drop (key (hcs _ (by simp)) h1) (ih fun q hq => hcs q (by simp [hq]))

/-- From outside, `f` is only entered through `f` itself. -/
def EnteredOnlyAt (fs : PureFs) (f : Path) : Prop := ∀ q cs bad, ¬ Inside f q → fs.listDir q = .opened cs bad → ∀ r ∈ cs, Inside f r → r = f

mutual
/-- Where `f` is not displayed, nothing changes. -/
theorem Scanned.outside (hA : SameOutside fs fs' f) (hf : fs'.isDir f = fs.isDir f) (he : EnteredOnlyAt fs f) {k : Nat} {p : Path} {e : TreeEntry}
    (h : Scanned (answers fs o) c D k p e) (hp : ¬ Inside f p) (hd : f ∉ entryPaths e) : Scanned (answers fs' o) c D k p e := by
  cases h with
  | @file _ _ x h1 h2 => exact .file (show fs'.isDir p = false by rw [hA.isDir p hp]; exact h1) (show fs'.readAttrs p = some x by rw [hA.attrs p hp]; exact h2)
  | tooDeep h1 h2 => exact .tooDeep (show fs'.isDir p = true by rw [hA.isDir p hp]; exact h1) h2
  | @dir _ _ n cs ks srt es h1 hk h2 h3 h4 h5 h6 h7 =>
    have h3 : fs.listDir p = .opened cs false := h3
    have hcs := he p cs false hp h3
    rcases hA.list p hp with ⟨h, _⟩ | ⟨cs0, cs', bad, hl, hl', hperm⟩
    · rw [h] at h3; cases h3
    · rw [hl] at h3; cases h3
      obtain ⟨ks', hk1, hk2⟩ := Kept.perm hperm (keptSame hA hf hcs h4)
      refine .dir (show fs'.isDir p = true by rw [hA.isDir p hp]; exact h1) hk h2 hl' hk1 (h5.trans hk2.symm) h6 (h7.outside hA hf he ?_ ?_)
      · intro q hmem
        exact hcs q (h4.subset.subset (h5.mem_iff.1 ((limitTo_sublist n srt).subset hmem)))
      · intro x hx hdx
        exact hd (mem_entryPaths_dir.2 (.inr ⟨x, List.mem_append_left _ hx, hdx⟩))
termination_by ((D - k).toNat, 0)
decreasing_by exact Prod.Lex.left _ _ (by omega)
theorem ScannedAll.outside (hA : SameOutside fs fs' f) (hf : fs'.isDir f = fs.isDir f) (he : EnteredOnlyAt fs f) {k : Nat} {ps : List Path} {es : List TreeEntry}
    (h : ScannedAll (answers fs o) c D k ps es) (hp : ∀ q ∈ ps, Inside f q → q = f) (hd : ∀ x ∈ es, f ∉ entryPaths x) : ScannedAll (answers fs' o) c D k ps es := by
  match ps, es, h with
  | _, _, .nil => exact .nil
  | p :: ps, e :: es, .cons h1 h2 =>
    have hp1 : ¬ Inside f p := by
      intro hi
      have := hp p (by simp) hi
      subst this
      exact hd e (by simp) (mem_entryPaths.2 ⟨0, e, .here, h1.entryPath_eq⟩)
    exact .cons (h1.outside hA hf he hp1 (hd _ (by simp))) (h2.outside hA hf he (fun q hq => hp q (by simp [hq])) (fun x hx => hd x (by simp [hx])))
termination_by ((D - k).toNat, ps.length + 1)
end

/-- Where `f` is displayed, its entry is replaced. -/
theorem Scanned.replaced (hA : SameOutside fs fs' f) (hf : fs'.isDir f = fs.isDir f) (he : EnteredOnlyAt fs f) {x z e : TreeEntry} {n : Nat} (hb : BelowAt x n e)
    (hx : entryPath x = some f) (hnd : (entryPaths e).Nodup) :
    ∀ {k : Nat} {p : Path}, Scanned (answers fs o) c D k p e → Scanned (answers fs' o) c D (k + n) f z → (Inside f p → p = f) →
      ∃ e', Scanned (answers fs' o) c D k p e' ∧ Replaced x z n e e' := by
  induction hb with
  | here =>
    intro k p h hz _
    have := h.entryPath_eq
    rw [hx] at this
    cases this
    exact ⟨z, hz, .here⟩
  | @inside p es y n hy hb ih =>
    intro k p' h hz hp
    have hyd : f ∈ entryPaths y := hb.mem_paths hx
    cases h with
    | tooDeep h1 h2 =>
      simp at hy; subst hy
      cases hb; cases hx
    | @dir _ _ m cs ks srt es h1 hk' h2 h3 h4 h5 h6 h7 =>
      have h3 : fs.listDir p = .opened cs false := h3
      have hy : y ∈ es := by
        rcases List.mem_append.1 hy with hy | hy
        · exact hy
        · rcases moreMark_cases m srt p with hm | hm <;> rw [hm] at hy
          · cases hy
          · simp at hy; subst hy; cases hb; cases hx
      obtain ⟨e1, e2, rfl⟩ := List.append_of_mem hy
      rw [entryPaths_flat, List.append_assoc, List.cons_append, List.flatMap_append, List.flatMap_cons, List.nodup_cons] at hnd
      have hpd : p ≠ f := by
        rintro rfl
        exact hnd.1 (by simp [hyd])
      have hp : ¬ Inside f p := fun hi => hpd (hp hi)
      have hcs := he p cs false hp h3
      generalize hps : limitTo m srt = ps at h7
      have hsub : ∀ r ∈ ps, Inside f r → r = f := fun r hmem => hcs r (h4.subset.subset (h5.mem_iff.1 ((limitTo_sublist m srt).subset (hps ▸ hmem))))
      obtain ⟨l1, q, l2, rfl, h8, h9, h10⟩ := h7.split_at
      have hnd2 := hnd.2
      rw [List.nodup_append, List.nodup_append] at hnd2
      obtain ⟨_, ⟨hny, _, hd2⟩, hd1⟩ := hnd2
      have hne1 : ∀ x ∈ e1, f ∉ entryPaths x := by
        intro x hx hdx
        exact hd1 f (List.mem_flatMap.2 ⟨x, hx, hdx⟩) f (List.mem_append_left _ hyd) rfl
      have hne2 : ∀ x ∈ e2, f ∉ entryPaths x := by
        intro x hx hdx
        exact hd2 f hyd f (List.mem_flatMap.2 ⟨x, List.mem_append_left _ hx, hdx⟩) rfl
      obtain ⟨y', hy1, hy2⟩ := ih hny h9 (by rw [show k + 1 + n = k + (n + 1) by omega]; exact hz) (hsub q (by simp))
      rcases hA.list p hp with ⟨h, _⟩ | ⟨cs0, cs', bad, hl, hl', hperm⟩
      · rw [h] at h3; cases h3
      · rw [hl] at h3; cases h3
        obtain ⟨ks', hk1, hk2⟩ := Kept.perm hperm (keptSame hA hf hcs h4)
        refine ⟨.dir p (e1 ++ y' :: (e2 ++ moreMark m srt p)), ?_, ?_⟩
        · have := Scanned.dir (A := answers fs' o) (c := c) (maxDepth := D) (k := k) (p := p) (n := m) (cs := cs') (ks := ks') (srt := srt) (es := e1 ++ y' :: e2)
            (show fs'.isDir p = true by rw [hA.isDir p hp]; exact h1) hk' h2 hl' hk1 (h5.trans hk2.symm) h6
            (by rw [hps]; exact (h8.outside hA hf he (fun r hr => hsub r (by simp [hr])) hne1).append (.cons hy1 (h10.outside hA hf he (fun r hr => hsub r (by simp [hr])) hne2)))
          rw [List.append_assoc, List.cons_append] at this
          exact this
        · rw [List.append_assoc, List.cons_append]
          exact .inside hy2

theorem Replaced.labels {L : LookM (Except Exn)} (hcomp : L.compact = false) {x x' : TreeEntry} {X' : Disp} (hx' : dispM L false x' = .ok X') {n : Nat} {t t' : TreeEntry}
    (h : Replaced x x' n t t') {T : Disp} (hT : dispM L true t = .ok T) :
    ∃ X T', dispM L false x = .ok X ∧ dispM L true t' = .ok T' ∧
      ∀ m, ∃ l1 l2, outline m T = l1 ++ (outline (m + n) X ++ l2) ∧ outline m T' = l1 ++ (outline (m + n) X' ++ l2) := by
  induction h generalizing T with
  | here =>
    refine ⟨T, X', by rw [← dispM_top_eq L _ (.inl hcomp)]; exact hT, by rw [dispM_top_eq L _ (.inl hcomp)]; exact hx', fun m => ⟨[], [], by simp, by simp⟩⟩
  | @inside q l1 l2 e e' n hi ih =>
    obtain ⟨nm, y, ks, h1, h2, h3, rfl⟩ := dispM_dir_ok hT
    obtain ⟨k1, kk, rfl, h4, h5⟩ := dispKidsM_append.1 h3
    rw [dispKidsM] at h5
    obtain ⟨k, hk, h5⟩ := except_bind_ok h5
    obtain ⟨k2, hk2, h5⟩ := except_bind_ok h5
    cases h5
    rw [← dispM_top_eq L e (.inl hcomp)] at hk
    obtain ⟨X, k', hX, hk', ho⟩ := ih hk
    rw [dispM_top_eq L e' (.inl hcomp)] at hk'
    refine ⟨X, _, hX, dispM_dir_mk h1 h2 (dispKidsM_append.2 ⟨k1, k' :: k2, rfl, h4, by rw [dispKidsM, hk', hk2]; rfl⟩), ?_⟩
    intro m
    obtain ⟨o1, o2, ho1, ho2⟩ := ho (m + 1)
    refine ⟨(m, nm ++ y.getD []) :: outlineAll (m + 1) k1 ++ o1, o2 ++ outlineAll (m + 1) k2, ?_, ?_⟩
    · rw [outline, outlineAll_append, outlineAll, ho1, show m + 1 + n = m + (n + 1) by omega]; simp
    · rw [outline, outlineAll_append, outlineAll, ho2, show m + 1 + n = m + (n + 1) by omega]; simp

/-- In proper file systems directories are entered from their parents only. -/
theorem ProperFs.enteredOnlyAt (hfs : ProperFs fs) (hf : f.abs = true) : EnteredOnlyAt fs f := by
  intro q cs bad hq hl r hr hi
  obtain ⟨n, rfl⟩ := (hfs q cs bad hl).2 r hr
  rcases inside_child hf hi with h | h
  · exact h
  · exact absurd h hq

/-- An entry found `j` levels below the top is what is found for its path alone with the remaining depth. -/
theorem scanned_alone {cwd : Path} (hw : cwd.abs = true) (hc : LawfulCmp o.pathComparator) (hd : DistinguishesAll o.pathComparator fs) {j : Nat} (hclean : target cwd f = f) {x : TreeEntry}
    (h : Scanned (answers fs o) o.pathComparator o.maxDepth j f x) : ∃ x0, scanned fs cwd (o.withMaxDepth (o.maxDepth - j)) f = .ok x0 ∧ x = bump^[j] x0 := by
  rw [← answers_eq] at h
  have h1 := h.handle_ok (o := o.toScan fs.lift) hc hd
  have h2 := handle_shifts fs.lift (o.toScan fs.lift) (o.maxDepth - j) j f
  rw [show { o.toScan fs.lift with maxDepth := o.maxDepth - (j : Int) + j } = o.toScan fs.lift from by rw [Int.sub_add_cancel]; rfl, h1] at h2
  rw [scanned_eq fs hw, hclean]
  have h2 : Except.ok x = bump^[j] <$> Scanner.handle fs.lift ((o.withMaxDepth (o.maxDepth - j)).toScan fs.lift) 0 f := h2
  revert h2
  generalize Scanner.handle fs.lift ((o.withMaxDepth (o.maxDepth - j)).toScan fs.lift) 0 f = r
  intro h2
  cases r with
  | error e => cases h2
  | ok x0 => cases h2; exact ⟨x0, rfl, rfl⟩

end
end Spec

section
variable {fs fs' : PureFs} {cwd p : Path} {o : Options (Except Exn)} {f : Path} {k : Nat} {s b : JStr}

/-- **C91**, entries: let two file systems differ only in `f` and what lies below it, `f` being a directory in both or in none, and displayed `k` levels below the top in the first. Filters, limits (child limits
included) and the comparator are arbitrary. If `f` on its own can be scanned in the second one with the remaining depth, so can be the whole, and its entry tree is the one of the first with the entry of `f` replaced. -/
theorem C91_entry (hw : cwd.abs = true) (hfs : ProperFs fs) (hc : LawfulCmp o.pathComparator) (hd' : DistinguishesAll o.pathComparator fs') (hA : SameOutside fs fs' f)
    (hf : fs'.isDir f = fs.isDir f) (hclean : target cwd f = f) {t x x' : TreeEntry} (h : scanned fs cwd o p = .ok t) (hb : BelowAt x k t) (hx : entryPath x = some f)
    (hx' : scanned fs' cwd (o.withMaxDepth (o.maxDepth - k)) f = .ok x') :
    ∃ t', scanned fs' cwd o p = .ok t' ∧ Replaced x (bump^[k] x') k t t' := by
  have hs := scanned_sound hw hc h
  obtain ⟨hnd, hpre⟩ := C58_every_path_once hfs hw hc h
  obtain ⟨hfabs, hpref⟩ := hpre f (hb.mem_paths hx)
  have hz := scanned_deeper (fs := fs') hw hc hx'
  rw [hclean] at hz
  have htop : Inside f (target cwd p) → target cwd p = f := by
    rintro ⟨h1, h2⟩
    have hn : (target cwd p).names = f.names := hpref.eq_of_length (le_antisymm hpref.length_le h2.length_le)
    revert h1 hn
    generalize target cwd p = tp
    intro h1 hn
    obtain ⟨ta, tn⟩ := tp
    obtain ⟨fa, fn⟩ := f
    simp only at h1 hn
    rw [h1, hn]
  obtain ⟨t', h1, h2⟩ := hs.replaced hA hf (hfs.enteredOnlyAt hfabs) hb hx hnd (by rw [Nat.zero_add]; exact hz) htop
  exact ⟨t', scanned_complete hw hc hd' h1, h2⟩

/-- **C91**, not displayed: if `f` is not displayed (filtered out, cut off, too deep), the change is not noticed at all. -/
theorem C91_unnoticed (hw : cwd.abs = true) (hfs : ProperFs fs) (hc : LawfulCmp o.pathComparator) (hd' : DistinguishesAll o.pathComparator fs') (hA : SameOutside fs fs' f)
    (hf : fs'.isDir f = fs.isDir f) (hfabs : f.abs = true) (hp : ¬ Inside f (target cwd p)) {t : TreeEntry} (ht : scanned fs cwd o p = .ok t) (hn : f ∉ entryPaths t) :
    scanned fs' cwd o p = .ok t ∧ prettyPrint fs'.lift cwd o p = prettyPrint fs.lift cwd o p := by
  have h1 := scanned_complete hw hc hd' ((scanned_sound hw hc ht).outside hA hf (hfs.enteredOnlyAt hfabs) hp hn)
  refine ⟨h1, ?_⟩
  rw [prettyPrint_eq, prettyPrint_eq, h1, ht]

/-- **C91**, text: without compact directories, the two texts have the same labels at the same depths before and after the block of `f`. The blocks have the labels of the texts that are returned for `f` alone, with
the remaining depth. -/
theorem C91_block (hw : cwd.abs = true) (hfs : ProperFs fs) (hc : LawfulCmp o.pathComparator) (hd : DistinguishesAll o.pathComparator fs) (hd' : DistinguishesAll o.pathComparator fs')
    (hA : SameOutside fs fs' f) (hf : fs'.isDir f = fs.isDir f) (hclean : target cwd f = f) (hcomp : o.compactDirectories = false) (h : prettyPrint fs.lift cwd o p = .ok s)
    (hb : ∀ t, scanned fs cwd o p = .ok t → ∃ x, BelowAt x k t ∧ entryPath x = some f) (hb' : prettyPrint fs'.lift cwd (o.withMaxDepth (o.maxDepth - k)) f = .ok b) :
    ∃ T T' X X' l1 l2, s = picture o.treeFormat T ∧ prettyPrint fs'.lift cwd o p = .ok (picture o.treeFormat T') ∧
      prettyPrint fs.lift cwd (o.withMaxDepth (o.maxDepth - k)) f = .ok (picture o.treeFormat X) ∧ b = picture o.treeFormat X' ∧
      outline 0 T = l1 ++ (outline k X ++ l2) ∧ outline 0 T' = l1 ++ (outline k X' ++ l2) := by
  obtain ⟨t, T, ht, hT, hs⟩ := prettyPrint_disp.1 h
  obtain ⟨x, hbx, hx⟩ := hb t ht
  obtain ⟨x', X', hx', hX', hb'⟩ := prettyPrint_disp.1 hb'
  obtain ⟨t', ht', hr⟩ := C91_entry hw hfs hc hd' hA hf hclean ht hbx hx hx'
  have hX' : dispM (labelling o) true x' = .ok X' := hX'
  have hX'' : dispM (labelling o) false (bump^[k] x') = .ok X' := by rw [dispM_bumps, ← dispM_top_eq _ _ (.inl hcomp), hX']
  obtain ⟨X, T', hX, hT', ho⟩ := hr.labels (L := labelling o) hcomp hX'' hT
  obtain ⟨l1, l2, h1, h2⟩ := ho 0
  rw [Nat.zero_add] at h1 h2
  have hsub := (scanned_sound hw hc ht).sub hbx hx
  rw [Nat.zero_add] at hsub
  obtain ⟨x0, hx0, rfl⟩ := scanned_alone hw hc hd hclean hsub
  rw [dispM_bumps, ← dispM_top_eq _ _ (.inl hcomp)] at hX
  exact ⟨T, T', X, X', l1, l2, hs, prettyPrint_disp.2 ⟨t', T', ht', hT', rfl⟩, prettyPrint_disp.2 ⟨x0, X, hx0, hX, rfl⟩, hb', h1, h2⟩

end

/-! ### A concrete case: the file `w` is added to `/r/a` of the example disk, a change inside `/r/a` -/

namespace Demo

theorem afs_outside : SameOutside dfs afs a where
  isDir q hq := afs_added.isDir_other q (by rintro rfl; exact hq ⟨rfl, [j!"w"], rfl⟩)
  attrs q hq := afs_added.attrs_other q (by rintro rfl; exact hq ⟨rfl, [j!"w"], rfl⟩)
  list q hq := afs_added.list_other q (by rintro rfl; exact hq ⟨rfl, [], rfl⟩) (by rintro rfl; exact hq ⟨rfl, [j!"w"], rfl⟩)

theorem scanned_a (D : Int) (hD : 0 < D) :
    scanned afs Path.root (dflt.withMaxDepth D) a = .ok (.dir a [.file w ⟨false, false⟩, .file x ⟨false, false⟩, .file y ⟨false, false⟩]) := by
  refine scanned_complete rfl lawful_ALPHABETICAL (sort_distinguishes lawful_const afs_proper) ?_
  show Scanned _ _ D 0 a _
  exact Scanned.dir (A := answers afs (dflt.withMaxDepth D)) (p := a) (n := -1) (cs := [y, w, x]) (ks := [y, w, x]) (srt := [w, x, y])
    (es := [.file w ⟨false, false⟩, .file x ⟨false, false⟩, .file y ⟨false, false⟩]) rfl (by omega) rfl rfl (.keep rfl (.keep rfl (.keep rfl .nil)))
    (by decide) (show List.Pairwise (fun p q => PathSorts.ALPHABETICAL p q ≤ 0) [w, x, y] by decide)
    (.cons (.file (a := ⟨false, false⟩) (show afs.isDir w = false from rfl) (show afs.readAttrs w = some _ from rfl))
      (.cons (.file (a := ⟨false, false⟩) (show afs.isDir x = false from rfl) (show afs.readAttrs x = some _ from rfl))
        (.cons (.file (a := ⟨false, false⟩) (show afs.isDir y = false from rfl) (show afs.readAttrs y = some _ from rfl)) .nil)))

theorem printed_a (D : Int) (hD : 0 < D) : prettyPrint afs.lift Path.root (dflt.withMaxDepth D) a = .ok (j!"a/\n├─ w\n├─ x\n└─ y") :=
  prettyPrint_disp.2 ⟨_, .node (j!"a/") [.node (j!"w") [], .node (j!"x") [], .node (j!"y") []], scanned_a D hD,
    dispM_dir_mk (n := j!"a/") (x := none) rfl rfl (dispKidsM_mk (.cons (by rw [dispM]; rfl) (.cons (by rw [dispM]; rfl) (.cons (by rw [dispM]; rfl) .nil)))), rfl⟩

example := C91_block (fs := dfs) (fs' := afs) (cwd := Path.root) (p := r) (o := dflt) (k := 1) (f := a) rfl proper lawful_ALPHABETICAL
  (sort_distinguishes lawful_const proper) (sort_distinguishes lawful_const afs_proper) afs_outside rfl rfl rfl printed_found
  (by
    intro t ht
    rw [scanned_found] at ht
    cases ht
    exact ⟨_, .inside (List.mem_cons_self ..) .here, rfl⟩) (printed_a _ (by decide))

/-- With max depth 0 only the top is displayed, and the change is not noticed. -/
example : prettyPrint afs.lift Path.root (dflt.withMaxDepth 0) r = prettyPrint dfs.lift Path.root (dflt.withMaxDepth 0) r :=
  (C91_unnoticed (fs := dfs) (fs' := afs) (f := a) (t := .dir r [.maxDepth 0]) rfl proper lawful_ALPHABETICAL (sort_distinguishes lawful_const afs_proper) afs_outside rfl rfl
    (by rintro ⟨_, h⟩; exact absurd h (by decide))
    (scanned_complete rfl lawful_ALPHABETICAL (sort_distinguishes lawful_const proper) (.tooDeep rfl (by decide))) (by decide)).2

end Demo
end JFTP
