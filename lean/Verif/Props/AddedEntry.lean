import Verif.Spec.AddedEntry
import Verif.Props.Added
import Verif.Props.Reorder
import Verif.Props.EndToEnd

/-
C90: one more directory is one more block of lines, the text of that directory.
-/

namespace JFTP
open Spec

namespace Spec

section
variable {fs fs' : PureFs} {o : Options (Except Exn)} {c : Cmp} {D : Int} {d f : Path}

/-- Nothing outside `f` leads into `f`. -/
def NotListed (fs : PureFs) (f : Path) : Prop := ∀ q cs bad, ¬ Inside f q → fs.listDir q = .opened cs bad → ∀ r ∈ cs, ¬ Inside f r

theorem keptAddedEntry (hA : AddedEntry fs fs' d f) {cs ks : List Path} (hf : ∀ q ∈ cs, ¬ Inside f q) (h : Kept (answers fs o) cs ks) : Kept (answers fs' o) cs ks := by
  have key : ∀ {q v}, ¬ Inside f q → (answers fs o).keep q v → (answers fs' o).keep q v := by
    intro q v hq hk
    have hk : (if fs.isDir q = true then o.dirMatcher q else o.fileMatcher q) = .ok v := hk
    show (if fs'.isDir q = true then o.dirMatcher q else o.fileMatcher q) = .ok v
    rw [hA.isDir_other q hq]; exact hk
  induction h with
  | nil => exact .nil
  | keep h1 _ ih => exact .keep (key (hf _ (by simp)) h1) (ih fun q hq => hf q (by simp [hq]))
  | drop h1 _ ih => exact .drop (key (hf _ (by simp)) h1) (ih fun q hq => hf q (by simp [hq]))

mutual
/-- Where the directory does not occur, nothing changes. -/
theorem Scanned.unchangedE (hA : AddedEntry fs fs' d f) (hfc : NotListed fs f) {k : Nat} {p : Path} {e : TreeEntry}
    (h : Scanned (answers fs o) c D k p e) (hp : ¬ Inside f p) (hd : d ∉ entryPaths e) : Scanned (answers fs' o) c D k p e := by
  cases h with
  | @file _ _ x h1 h2 => exact .file (show fs'.isDir p = false by rw [hA.isDir_other p hp]; exact h1) (show fs'.readAttrs p = some x by rw [hA.attrs_other p hp]; exact h2)
  | tooDeep h1 h2 => exact .tooDeep (show fs'.isDir p = true by rw [hA.isDir_other p hp]; exact h1) h2
  | @dir _ _ n cs ks srt es h1 hk h2 h3 h4 h5 h6 h7 =>
    have h3 : fs.listDir p = .opened cs false := h3
    have hpd : p ≠ d := by rintro rfl; exact hd (mem_entryPaths_dir.2 (.inl rfl))
    have hfcs := hfc p cs false hp h3
    rcases hA.list_other p hpd hp with ⟨h, _⟩ | ⟨cs0, cs', bad, hl, hl', hperm⟩
    · rw [h] at h3; cases h3
    · rw [hl] at h3; cases h3
      obtain ⟨ks', hk1, hk2⟩ := Kept.perm hperm (keptAddedEntry hA hfcs h4)
      refine .dir (show fs'.isDir p = true by rw [hA.isDir_other p hp]; exact h1) hk h2 hl' hk1 (h5.trans hk2.symm) h6 (h7.unchangedE hA hfc ?_ ?_)
      · intro q hmem
        exact hfcs q (h4.subset.subset (h5.mem_iff.1 ((limitTo_sublist n srt).subset hmem)))
      · intro x hx hdx
        exact hd (mem_entryPaths_dir.2 (.inr ⟨x, List.mem_append_left _ hx, hdx⟩))
termination_by ((D - k).toNat, 0)
decreasing_by exact Prod.Lex.left _ _ (by omega)
theorem ScannedAll.unchangedE (hA : AddedEntry fs fs' d f) (hfc : NotListed fs f) {k : Nat} {ps : List Path} {es : List TreeEntry}
    (h : ScannedAll (answers fs o) c D k ps es) (hp : ∀ q ∈ ps, ¬ Inside f q) (hd : ∀ x ∈ es, d ∉ entryPaths x) : ScannedAll (answers fs' o) c D k ps es := by
  match ps, es, h with
  | _, _, .nil => exact .nil
  | _, _, .cons h1 h2 =>
    exact .cons (h1.unchangedE hA hfc (hp _ (by simp)) (hd _ (by simp))) (h2.unchangedE hA hfc (fun q hq => hp q (by simp [hq])) (fun x hx => hd x (by simp [hx])))
termination_by ((D - k).toNat, ps.length + 1)
end

/-- Where the directory occurs, exactly one entry is inserted. -/
theorem Scanned.addedE (hA : AddedEntry fs fs' d f) (hfc : NotListed fs f) (hc : LawfulCmp c) (hu : ∀ q n, o.childLimit q = .ok n → n < 0)
    (hf : (if fs'.isDir f = true then o.dirMatcher f else o.fileMatcher f) = .ok true) {z : TreeEntry} {x e : TreeEntry} {n : Nat} (hb : BelowAt x n e) (hx : entryPath x = some d) (hnd : (entryPaths e).Nodup) (hdd : fs.isDir d = true) :
    ∀ {k : Nat} {p : Path}, Scanned (answers fs o) c D k p e → Scanned (answers fs' o) c D (k + n + 1) f z → ¬ Inside f p → ((k + n : Nat) : Int) < D →
      ∃ e', Scanned (answers fs' o) c D k p e' ∧ Inserted d z n e e' := by
  induction hb with
  | here =>
    intro k p h hz hp hk
    have := h.entryPath_eq
    rw [hx] at this
    cases this
    have hfd : fs'.isDir d = true := by rw [hA.isDir_other d hp]; exact hdd
    cases h with
    | file h1 h2 => have h1 : fs.isDir d = false := h1; rw [hdd] at h1; cases h1
    | tooDeep h1 h2 => omega
    | @dir _ _ n cs ks srt es h1 hk' h2 h3 h4 h5 h6 h7 =>
      have h3 : fs.listDir d = .opened cs false := h3
      have hn : n < 0 := hu d n h2
      have hfcs := hfc d cs false hp h3
      obtain ⟨cs0, cs', hl, hl', hperm⟩ := hA.list
      rw [hl] at h3; cases h3
      have hkf : Kept (answers fs' o) (f :: cs) (f :: ks) := by
        refine .keep ?_ (keptAddedEntry hA hfcs h4)
        exact hf
      obtain ⟨ks', hk1, hk2⟩ := Kept.perm hperm hkf
      obtain ⟨l1, l2, rfl, hsorted⟩ := insert_place hc f h6
      rw [limitTo_none hn] at h7
      rw [moreMark_none hn, List.append_nil] at hnd ⊢
      have hes : ∀ x ∈ es, d ∉ entryPaths x := by
        intro x hx hdx
        rw [entryPaths_flat, List.nodup_cons] at hnd
        exact hnd.1 (List.mem_flatMap.2 ⟨x, hx, hdx⟩)
      have hfs : ∀ q ∈ l1 ++ l2, ¬ Inside f q := fun q hmem => hfcs q (h4.subset.subset (h5.mem_iff.1 hmem))
      obtain ⟨e1, e2, rfl, h8, h9⟩ := (h7.unchangedE hA hfc hfs hes).split
      refine ⟨.dir d (e1 ++ z :: e2), ?_, .here⟩
      have := Scanned.dir (A := answers fs' o) (c := c) (maxDepth := D) (k := k) (p := d) (n := n) (cs := cs') (ks := ks') (srt := l1 ++ f :: l2) (es := e1 ++ z :: e2)
        hfd hk' h2 hl' hk1 (List.perm_middle.trans ((h5.cons f).trans hk2.symm)) hsorted
        (by rw [limitTo_none hn]; exact h8.append (.cons hz h9))
      rw [moreMark_none hn, List.append_nil] at this
      exact this
  | @inside p es y n hy hb ih =>
    intro k p' h hz hp hk
    have hyd : d ∈ entryPaths y := hb.mem_paths hx
    cases h with
    | tooDeep h1 h2 => omega
    | @dir _ _ m cs ks srt es h1 hk' h2 h3 h4 h5 h6 h7 =>
      have h3 : fs.listDir p = .opened cs false := h3
      have hn : m < 0 := hu p m h2
      have hfcs := hfc p cs false hp h3
      rw [limitTo_none hn] at h7
      rw [moreMark_none hn, List.append_nil] at hnd hy ⊢
      obtain ⟨e1, e2, rfl⟩ := List.append_of_mem hy
      rw [entryPaths_flat, List.flatMap_append, List.flatMap_cons, List.nodup_cons] at hnd
      have hpd : p ≠ d := by
        rintro rfl
        exact hnd.1 (by simp [hyd])
      obtain ⟨l1, q, l2, rfl, h8, h9, h10⟩ := h7.split_at
      have hfs : ∀ r ∈ l1 ++ q :: l2, ¬ Inside f r := fun r hmem => hfcs r (h4.subset.subset (h5.mem_iff.1 hmem))
      have hnd2 := hnd.2
      rw [List.nodup_append, List.nodup_append] at hnd2
      obtain ⟨_, ⟨hny, _, hd2⟩, hd1⟩ := hnd2
      have hne1 : ∀ x ∈ e1, d ∉ entryPaths x := by
        intro x hx hdx
        exact hd1 d (List.mem_flatMap.2 ⟨x, hx, hdx⟩) d (List.mem_append_left _ hyd) rfl
      have hne2 : ∀ x ∈ e2, d ∉ entryPaths x := by
        intro x hx hdx
        exact hd2 d hyd d (List.mem_flatMap.2 ⟨x, hx, hdx⟩) rfl
      obtain ⟨y', hy1, hy2⟩ := ih hny h9 (by rw [show k + 1 + n + 1 = k + (n + 1) + 1 by omega]; exact hz) (hfs q (by simp)) (by omega)
      rcases hA.list_other p hpd hp with ⟨h, _⟩ | ⟨cs0, cs', bad, hl, hl', hperm⟩
      · rw [h] at h3; cases h3
      · rw [hl] at h3; cases h3
        obtain ⟨ks', hk1, hk2⟩ := Kept.perm hperm (keptAddedEntry hA hfcs h4)
        refine ⟨.dir p (e1 ++ y' :: e2), ?_, .inside hy2⟩
        have := Scanned.dir (A := answers fs' o) (c := c) (maxDepth := D) (k := k) (p := p) (n := m) (cs := cs') (ks := ks') (srt := l1 ++ q :: l2) (es := e1 ++ y' :: e2)
          (show fs'.isDir p = true by rw [hA.isDir_other p hp]; exact h1) hk' h2 hl' hk1 (h5.trans hk2.symm) h6
          (by rw [limitTo_none hn]; exact (h8.unchangedE hA hfc (fun r hr => hfs r (by simp [hr])) hne1).append (.cons hy1 (h10.unchangedE hA hfc (fun r hr => hfs r (by simp [hr])) hne2)))
        rw [moreMark_none hn, List.append_nil] at this
        exact this

theorem Inserted.labelsE {L : LookM (Except Exn)} (hcomp : L.compact = false) {x : TreeEntry} {X : Disp} (hx : dispM L false x = .ok X) {n : Nat} {t t' : TreeEntry}
    (h : Inserted d x n t t') {T : Disp} (hT : dispM L true t = .ok T) :
    ∃ T', dispM L true t' = .ok T' ∧ ∀ m, ∃ l1 l2, outline m T = l1 ++ l2 ∧ outline m T' = l1 ++ (outline (m + n + 1) X ++ l2) := by
  induction h generalizing T with
  | @here l1 l2 =>
    obtain ⟨nm, y, ks, h1, h2, h3, rfl⟩ := dispM_dir_ok hT
    obtain ⟨k1, k2, rfl, h4, h5⟩ := dispKidsM_append.1 h3
    refine ⟨_, dispM_dir_mk h1 h2 (dispKidsM_append.2 ⟨k1, X :: k2, rfl, h4, by rw [dispKidsM, hx, h5]; rfl⟩), ?_⟩
    intro m
    refine ⟨(m, nm ++ y.getD []) :: outlineAll (m + 1) k1, outlineAll (m + 1) k2, ?_, ?_⟩
    · rw [outline, outlineAll_append]; rfl
    · rw [outline, outlineAll_append, outlineAll]; simp
  | @inside q l1 l2 e e' n hi ih =>
    obtain ⟨nm, y, ks, h1, h2, h3, rfl⟩ := dispM_dir_ok hT
    obtain ⟨k1, kk, rfl, h4, h5⟩ := dispKidsM_append.1 h3
    rw [dispKidsM] at h5
    obtain ⟨k, hk, h5⟩ := except_bind_ok h5
    obtain ⟨k2, hk2, h5⟩ := except_bind_ok h5
    cases h5
    rw [← dispM_top_eq L e (.inl hcomp)] at hk
    obtain ⟨k', hk', ho⟩ := ih hk
    rw [dispM_top_eq L e' (.inl hcomp)] at hk'
    refine ⟨_, dispM_dir_mk h1 h2 (dispKidsM_append.2 ⟨k1, k' :: k2, rfl, h4, by rw [dispKidsM, hk', hk2]; rfl⟩), ?_⟩
    intro m
    obtain ⟨o1, o2, ho1, ho2⟩ := ho (m + 1)
    refine ⟨(m, nm ++ y.getD []) :: outlineAll (m + 1) k1 ++ o1, o2 ++ outlineAll (m + 1) k2, ?_, ?_⟩
    · rw [outline, outlineAll_append, outlineAll, ho1]; simp
    · rw [outline, outlineAll_append, outlineAll, ho2, show m + 1 + n + 1 = m + (n + 1) + 1 by omega]; simp

/-- A listed child lies inside `f` only if it is `f` or its directory lies inside `f`. -/
theorem inside_child {q f : Path} {n : JStr} (hf : f.abs = true) (h : Inside f (q.child n)) : q.child n = f ∨ Inside f q := by
  obtain ⟨ha, hp⟩ := h
  have he : q.child n = ⟨q.abs, q.names ++ [n]⟩ := by
    unfold Path.child
    split
    · rename_i h0
      unfold Path.child at ha
      rw [if_pos h0, hf] at ha
      cases ha
    · rfl
  rw [he] at ha hp
  obtain ⟨l, hl⟩ := hp
  rcases List.eq_nil_or_concat l with rfl | ⟨l', y, rfl⟩
  · left
    rw [he]
    obtain ⟨fa, fn⟩ := f
    simp only [List.append_nil] at hl ha
    subst hl ha
    rfl
  · right
    rw [List.concat_eq_append, ← List.append_assoc] at hl
    exact ⟨ha, ⟨l', (List.append_inj' hl rfl).1⟩⟩

/-- In proper file systems nothing outside the new entry led into it. -/
theorem AddedEntry.not_listed (hA : AddedEntry fs fs' d f) (hfs : ProperFs fs) (hfs' : ProperFs fs') (hd : d.abs = true) :
    (∃ n, f = ⟨true, d.names ++ [n]⟩) ∧ NotListed fs f := by
  obtain ⟨cs, cs', hl, hl', hp⟩ := hA.list
  obtain ⟨hnd, hch⟩ := hfs' d cs' false hl'
  obtain ⟨n, hn⟩ := hch f (hp.mem_iff.2 (by simp))
  rw [names_child hd] at hn
  refine ⟨⟨n, hn⟩, ?_⟩
  intro q cs0 bad hqf hq r hmem hr
  obtain ⟨m, hm⟩ := (hfs q cs0 bad hq).2 r hmem
  subst hm
  rcases inside_child (by rw [hn]) hr with hm | h
  · have hqd : q = d := by
      unfold Path.child at hm
      rw [hn] at hm
      split at hm
      · cases hm
      · obtain ⟨qa, qn⟩ := q
        obtain ⟨da, dn⟩ := d
        simp only [Path.mk.injEq] at hm hd ⊢
        exact ⟨hm.1 ▸ hd.symm ▸ rfl, (List.append_inj' hm.2 rfl).1⟩
    subst hqd
    rw [hl] at hq
    cases hq
    rw [hm] at hmem
    exact (List.nodup_cons.1 (hp.nodup_iff.1 hnd)).1 hmem
  · exact hqf h

/-- Scanning `j` levels deeper with `j` more levels allowed. -/
theorem handle_shifts (fs : Fs (Except Exn)) (o : ScanOpts (Except Exn)) (D : Int) (j : Nat) (p : Path) :
    Scanner.handle fs { o with maxDepth := D + j } j p = bump^[j] <$> Scanner.handle fs { o with maxDepth := D } 0 p := by
  induction j with
  | zero =>
    show _ = id <$> _
    rw [id_map]
    rw [show D + ((0 : Nat) : Int) = D by omega]
  | succ j ih =>
    rw [show D + ((j + 1 : Nat) : Int) = D + j + 1 by omega, handle_shift, ih, Function.iterate_succ', LawfulFunctor.comp_map]

theorem dispM_bumps (L : LookM (Except Exn)) (top : Bool) (j : Nat) (e : TreeEntry) : dispM L top (bump^[j] e) = dispM L top e := by
  induction j generalizing e with
  | zero => rfl
  | succ j ih => rw [Function.iterate_succ, Function.comp, ih, dispM_bump]

/-- The entry found for `f` on its own, as it is found `j` levels below the top. -/
theorem scanned_deeper {cwd : Path} (hw : cwd.abs = true) (hc : LawfulCmp o.pathComparator) {j : Nat} {f : Path} {x : TreeEntry}
    (h : scanned fs cwd (o.withMaxDepth (o.maxDepth - j)) f = .ok x) : Scanned (answers fs o) o.pathComparator o.maxDepth j (target cwd f) (bump^[j] x) := by
  rw [scanned_eq fs hw] at h
  have h2 := handle_shifts fs.lift (o.toScan fs.lift) (o.maxDepth - j) j (target cwd f)
  rw [show { o.toScan fs.lift with maxDepth := o.maxDepth - (j : Int) } = (o.withMaxDepth (o.maxDepth - j)).toScan fs.lift from rfl, h,
    show { o.toScan fs.lift with maxDepth := o.maxDepth - (j : Int) + j } = o.toScan fs.lift from by rw [Int.sub_add_cancel]; rfl] at h2
  have := post_handle (covers_answersOf fs (o.toScan fs.lift)) hc j (target cwd f) _ h2
  rw [answers_eq] at this
  exact this

end
end Spec

section
variable {fs fs' : PureFs} {cwd p : Path} {o : Options (Except Exn)} {d f : Path} {k : Nat} {s b : JStr}

/-- **C90**, entries: let the second file system be the first one with one more entry `f` (a file, or a directory with everything below it) in the directory `d`, which is displayed above the
depth limit; let `f` pass its filter and let there be no child limit. If the first one can be scanned, and `f` on its own with the remaining depth, so can be the second one, and its entry tree
is the one of the first with exactly one more entry, what is found for `f` (`bump` adapts the numbers of the depth markers, which are not displayed). -/
theorem C90_entry (hw : cwd.abs = true) (hfs : ProperFs fs) (hfs' : ProperFs fs') (hc : LawfulCmp o.pathComparator) (hd' : DistinguishesAll o.pathComparator fs')
    (hu : ∀ q n, o.childLimit q = .ok n → n < 0) (hA : AddedEntry fs fs' d f) (hf : (if fs'.isDir f = true then o.dirMatcher f else o.fileMatcher f) = .ok true)
    (hdisp : DisplayedAt fs o (target cwd p) k d) (hdd : fs.isDir d = true) (hk : (k : Int) < o.maxDepth) (hclean : target cwd f = f) {t x : TreeEntry}
    (h : scanned fs cwd o p = .ok t) (hx : scanned fs' cwd (o.withMaxDepth (o.maxDepth - (k + 1 : Nat))) f = .ok x) :
    ∃ t', scanned fs' cwd o p = .ok t' ∧ Inserted d (bump^[k + 1] x) k t t' := by
  have hs := scanned_sound hw hc h
  obtain ⟨y, hb, hy⟩ := displayed_found hs hu hdisp (.inr (by omega))
  obtain ⟨hnd, hpre⟩ := C58_every_path_once hfs hw hc h
  obtain ⟨hdabs, hpref⟩ := hpre d (hb.mem_paths hy)
  obtain ⟨⟨n, hfn⟩, hfc⟩ := hA.not_listed hfs hfs' hdabs
  have hpf : ¬ Inside f (target cwd p) := by
    rintro ⟨-, he⟩
    rw [hfn] at he
    have := hpref.length_le
    have := he.length_le
    simp only [List.length_append, List.length_singleton] at this
    omega
  have hz := scanned_deeper (fs := fs') hw hc hx
  rw [hclean] at hz
  obtain ⟨t', h1, h2⟩ := hs.addedE hA hfc hc hu hf hb hy hnd hdd (by rw [Nat.zero_add]; exact hz) hpf (by omega)
  exact ⟨t', scanned_complete hw hc hd' h1, h2⟩

/-- **C90**, text: without compact directories, one more directory is one more block of lines. The block has the labels of the text that is returned for the new directory alone, with the
remaining depth, at greater depth; all other labels are the same, in the same order and at the same depth. -/
theorem C90_block (hw : cwd.abs = true) (hfs : ProperFs fs) (hfs' : ProperFs fs') (hc : LawfulCmp o.pathComparator) (hd' : DistinguishesAll o.pathComparator fs')
    (hu : ∀ q n, o.childLimit q = .ok n → n < 0) (hcomp : o.compactDirectories = false) (hA : AddedEntry fs fs' d f)
    (hf : (if fs'.isDir f = true then o.dirMatcher f else o.fileMatcher f) = .ok true) (hdisp : DisplayedAt fs o (target cwd p) k d) (hdd : fs.isDir d = true)
    (hk : (k : Int) < o.maxDepth) (hclean : target cwd f = f) (h : prettyPrint fs.lift cwd o p = .ok s)
    (hb : prettyPrint fs'.lift cwd (o.withMaxDepth (o.maxDepth - (k + 1 : Nat))) f = .ok b) :
    ∃ T X T' l1 l2, s = picture o.treeFormat T ∧ b = picture o.treeFormat X ∧ prettyPrint fs'.lift cwd o p = .ok (picture o.treeFormat T') ∧
      outline 0 T = l1 ++ l2 ∧ outline 0 T' = l1 ++ (outline (k + 1) X ++ l2) ∧
      (layout o.treeFormat T').length = (layout o.treeFormat T).length + (layout o.treeFormat X).length := by
  obtain ⟨t, T, ht, hT, hs⟩ := prettyPrint_disp.1 h
  obtain ⟨x, X, hx, hX, hb⟩ := prettyPrint_disp.1 hb
  obtain ⟨t', ht', hi⟩ := C90_entry hw hfs hfs' hc hd' hu hA hf hdisp hdd hk hclean ht hx
  have hX : dispM (labelling o) true x = .ok X := hX
  have hX' : dispM (labelling o) false (bump^[k + 1] x) = .ok X := by
    rw [dispM_bumps, ← dispM_top_eq _ _ (.inl hcomp), hX]
  obtain ⟨T', hT', ho⟩ := hi.labelsE (L := labelling o) hcomp hX' hT
  obtain ⟨l1, l2, h1, h2⟩ := ho 0
  rw [Nat.zero_add] at h2
  refine ⟨T, X, T', l1, l2, hs, hb, prettyPrint_disp.2 ⟨t', T', ht', hT', rfl⟩, h1, h2, ?_⟩
  rw [← outline_length o.treeFormat 0 T', ← outline_length o.treeFormat 0 T, ← outline_length o.treeFormat (k + 1) X, h1, h2]
  simp only [List.length_append]
  omega

end

/-! ### A concrete case: the directory `v` with the file `u` is added to `/r/a` of the example disk -/

namespace Demo

def v : Path := ⟨true, [j!"r", j!"a", j!"v"]⟩
def u : Path := ⟨true, [j!"r", j!"a", j!"v", j!"u"]⟩

def vfs : PureFs := { dfs with
  isDir := fun q => if q = v then true else if q = u then false else dfs.isDir q
  readAttrs := fun q => if q = u then some ⟨false, false⟩ else dfs.readAttrs q
  listDir := fun q => if q = a then .opened [y, v, x] false else if q = v then .opened [u] false else dfs.listDir q }

theorem inside_v : Inside v v := ⟨rfl, [], rfl⟩
theorem inside_u : Inside v u := ⟨rfl, [j!"u"], rfl⟩

theorem vfs_added : AddedEntry dfs vfs a v where
  isDir_other q hq := by
    have h1 : q ≠ v := by rintro rfl; exact hq inside_v
    have h2 : q ≠ u := by rintro rfl; exact hq inside_u
    show (if q = v then true else if q = u then false else dfs.isDir q) = _
    rw [if_neg h1, if_neg h2]
  attrs_other q hq := by
    have h2 : q ≠ u := by rintro rfl; exact hq inside_u
    exact if_neg h2
  list := ⟨[y, x], [y, v, x], rfl, rfl, List.Perm.swap _ _ _⟩
  list_other q hq hv := by
    have h1 : q ≠ v := by rintro rfl; exact hv inside_v
    have h : vfs.listDir q = dfs.listDir q := by
      show (if q = a then Listing.opened [y, v, x] false else if q = v then .opened [u] false else dfs.listDir q) = _
      rw [if_neg hq, if_neg h1]
    rw [h]
    cases dfs.listDir q with
    | openFailed => exact .inl ⟨rfl, rfl⟩
    | opened cs bad => exact .inr ⟨cs, cs, bad, rfl, rfl, .refl _⟩

theorem vfs_proper : ProperFs vfs := by
  intro q cs bad h
  by_cases hq : q = a
  · subst hq
    have h : Listing.opened [y, v, x] false = .opened cs bad := h
    cases h
    refine ⟨by decide, ?_⟩
    intro c hc
    simp only [List.mem_cons, List.not_mem_nil, or_false] at hc
    rcases hc with rfl | rfl | rfl
    · exact ⟨j!"y", rfl⟩
    · exact ⟨j!"v", rfl⟩
    · exact ⟨j!"x", rfl⟩
  · by_cases hv : q = v
    · subst hv
      have h : Listing.opened [u] false = .opened cs bad := h
      cases h
      refine ⟨by decide, ?_⟩
      intro c hc
      simp only [List.mem_cons, List.not_mem_nil, or_false] at hc
      subst hc
      exact ⟨j!"u", rfl⟩
    · have h' : vfs.listDir q = dfs.listDir q := by
        show (if q = a then Listing.opened [y, v, x] false else if q = v then .opened [u] false else dfs.listDir q) = _
        rw [if_neg hq, if_neg hv]
      rw [h'] at h
      exact proper q cs bad h

theorem scanned_v (D : Int) (hD : 0 < D) : scanned vfs Path.root (dflt.withMaxDepth D) v = .ok (.dir v [.file u ⟨false, false⟩]) := by
  refine scanned_complete rfl lawful_ALPHABETICAL (sort_distinguishes lawful_const vfs_proper) ?_
  show Scanned _ _ D 0 v _
  exact Scanned.dir (A := answers vfs (dflt.withMaxDepth D)) (p := v) (n := -1) (cs := [u]) (ks := [u]) (srt := [u]) (es := [.file u ⟨false, false⟩]) rfl (by omega) rfl rfl (.keep rfl .nil) (.refl _) (by simp)
    (.cons (.file (a := ⟨false, false⟩) (show vfs.isDir u = false from rfl) (show vfs.readAttrs u = some _ from rfl)) .nil)

theorem printed_v (D : Int) (hD : 0 < D) : prettyPrint vfs.lift Path.root (dflt.withMaxDepth D) v = .ok (j!"v/\n└─ u") :=
  prettyPrint_disp.2 ⟨_, .node (j!"v/") [.node (j!"u") []], scanned_v D hD, dispM_dir_mk (n := j!"v/") (x := none) rfl rfl (dispKidsM_mk (.cons (by rw [dispM]; rfl) .nil)), rfl⟩

example := C90_block (fs := dfs) (fs' := vfs) (cwd := Path.root) (p := r) (o := dflt) (k := 1) (d := a) (f := v) rfl proper vfs_proper lawful_ALPHABETICAL
  (sort_distinguishes lawful_const vfs_proper) (by intro q n h; cases h; decide) rfl vfs_added rfl
  (.child (cs := [b, a, z]) .top rfl rfl (by simp) (fun _ => rfl) (fun _ => rfl)) rfl (by decide) rfl printed_found (printed_v _ (by decide))

end Demo
end JFTP
