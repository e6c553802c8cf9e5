import Verif.Spec.Added
import Verif.Props.Mirror
import Verif.Props.Move
import Verif.Props.Limits

/-
C84: one more file is one more line.
-/

namespace JFTP
open Spec

namespace Spec

section
variable {fs fs' : PureFs} {o : Options (Except Exn)} {c : Cmp} {D : Int} {d f : Path} {a : Attrs}

theorem moreMark_none {n : Int} (hn : n < 0) (l : List Path) (p : Path) : moreMark n l p = [] := by
  unfold moreMark; rw [if_neg (by omega)]

theorem limitTo_none {n : Int} (hn : n < 0) (l : List Path) : limitTo n l = l := by
  unfold limitTo; rw [if_pos hn]

theorem keptAdded (hA : AddedFile fs fs' d f a) {cs ks : List Path} (hf : f ∉ cs) (h : Kept (answers fs o) cs ks) : Kept (answers fs' o) cs ks := by
  have key : ∀ {q v}, q ≠ f → (answers fs o).keep q v → (answers fs' o).keep q v := by
    intro q v hq hk
    have hk : (if fs.isDir q = true then o.dirMatcher q else o.fileMatcher q) = .ok v := hk
    show (if fs'.isDir q = true then o.dirMatcher q else o.fileMatcher q) = .ok v
    rw [hA.isDir_other q hq]; exact hk
  induction h with
  | nil => exact .nil
  | keep h1 _ ih => simp only [List.mem_cons, not_or] at hf; exact .keep (key (Ne.symm hf.1) h1) (ih hf.2)
  | drop h1 _ ih => simp only [List.mem_cons, not_or] at hf; exact .drop (key (Ne.symm hf.1) h1) (ih hf.2)

mutual
/-- Where the directory does not occur, nothing changes. -/
theorem Scanned.unchanged (hA : AddedFile fs fs' d f a) (hfc : ∀ q cs bad, fs.listDir q = .opened cs bad → f ∉ cs) {k : Nat} {p : Path} {e : TreeEntry}
    (h : Scanned (answers fs o) c D k p e) (hp : p ≠ f) (hd : d ∉ entryPaths e) : Scanned (answers fs' o) c D k p e := by
  cases h with
  | @file _ _ x h1 h2 => exact .file (show fs'.isDir p = false by rw [hA.isDir_other p hp]; exact h1) (show fs'.readAttrs p = some x by rw [hA.attrs_other p hp]; exact h2)
  | tooDeep h1 h2 => exact .tooDeep (show fs'.isDir p = true by rw [hA.isDir_other p hp]; exact h1) h2
  | @dir _ _ n cs ks srt es h1 hk h2 h3 h4 h5 h6 h7 =>
    have h3 : fs.listDir p = .opened cs false := h3
    have hpd : p ≠ d := by rintro rfl; exact hd (mem_entryPaths_dir.2 (.inl rfl))
    have hfcs := hfc p cs false h3
    rcases hA.list_other p hpd hp with ⟨h, _⟩ | ⟨cs0, cs', bad, hl, hl', hperm⟩
    · rw [h] at h3; cases h3
    · rw [hl] at h3; cases h3
      obtain ⟨ks', hk1, hk2⟩ := Kept.perm hperm (keptAdded hA hfcs h4)
      refine .dir (show fs'.isDir p = true by rw [hA.isDir_other p hp]; exact h1) hk h2 hl' hk1 (h5.trans hk2.symm) h6 (h7.unchanged hA hfc ?_ ?_)
      · intro hmem
        exact hfcs (h4.subset.subset (h5.mem_iff.1 ((limitTo_sublist n srt).subset hmem)))
      · intro x hx hdx
        exact hd (mem_entryPaths_dir.2 (.inr ⟨x, List.mem_append_left _ hx, hdx⟩))
termination_by ((D - k).toNat, 0)
decreasing_by exact Prod.Lex.left _ _ (by omega)
theorem ScannedAll.unchanged (hA : AddedFile fs fs' d f a) (hfc : ∀ q cs bad, fs.listDir q = .opened cs bad → f ∉ cs) {k : Nat} {ps : List Path} {es : List TreeEntry}
    (h : ScannedAll (answers fs o) c D k ps es) (hp : f ∉ ps) (hd : ∀ x ∈ es, d ∉ entryPaths x) : ScannedAll (answers fs' o) c D k ps es := by
  match ps, es, h with
  | _, _, .nil => exact .nil
  | _, _, .cons h1 h2 =>
    simp only [List.mem_cons, not_or] at hp
    exact .cons (h1.unchanged hA hfc (Ne.symm hp.1) (hd _ (by simp))) (h2.unchanged hA hfc hp.2 (fun x hx => hd x (by simp [hx])))
termination_by ((D - k).toNat, ps.length + 1)
end

theorem ScannedAll.split {A : Answers} {k : Nat} {l1 l2 : List Path} {es : List TreeEntry} (h : ScannedAll A c D k (l1 ++ l2) es) :
    ∃ e1 e2, es = e1 ++ e2 ∧ ScannedAll A c D k l1 e1 ∧ ScannedAll A c D k l2 e2 := by
  induction l1 generalizing es with
  | nil => exact ⟨[], es, rfl, .nil, h⟩
  | cons p l1 ih =>
    cases h with
    | cons h1 h2 =>
      obtain ⟨e1, e2, rfl, h3, h4⟩ := ih h2
      exact ⟨_ :: e1, e2, rfl, .cons h1 h3, h4⟩

theorem ScannedAll.append {A : Answers} {k : Nat} {l1 l2 : List Path} {e1 e2 : List TreeEntry} (h1 : ScannedAll A c D k l1 e1) (h2 : ScannedAll A c D k l2 e2) :
    ScannedAll A c D k (l1 ++ l2) (e1 ++ e2) := by
  induction l1 generalizing e1 with
  | nil => cases h1; exact h2
  | cons p l1 ih => cases h1 with | cons h h' => exact .cons h (ih h')

theorem ScannedAll.split_at {A : Answers} {k : Nat} {ps : List Path} {e1 e2 : List TreeEntry} {x : TreeEntry} (h : ScannedAll A c D k ps (e1 ++ x :: e2)) :
    ∃ l1 q l2, ps = l1 ++ q :: l2 ∧ ScannedAll A c D k l1 e1 ∧ Scanned A c D k q x ∧ ScannedAll A c D k l2 e2 := by
  induction e1 generalizing ps with
  | nil => cases h with | cons h1 h2 => exact ⟨[], _, _, rfl, .nil, h1, h2⟩
  | cons y e1 ih =>
    cases h with
    | cons h1 h2 =>
      obtain ⟨l1, q, l2, rfl, h3, h4, h5⟩ := ih h2
      exact ⟨_ :: l1, q, l2, rfl, .cons h1 h3, h4, h5⟩

/-- The place of a new element in a sorted list. -/
theorem insert_place (hc : LawfulCmp c) (f : Path) {l : List Path} (h : l.Pairwise fun a b => c a b ≤ 0) :
    ∃ l1 l2, l = l1 ++ l2 ∧ (l1 ++ f :: l2).Pairwise fun a b => c a b ≤ 0 := by
  induction l with
  | nil => exact ⟨[], [], rfl, by simp⟩
  | cons y l ih =>
    rw [List.pairwise_cons] at h
    by_cases hy : c y f ≤ 0
    · obtain ⟨l1, l2, rfl, h2⟩ := ih h.2
      refine ⟨y :: l1, l2, rfl, ?_⟩
      rw [List.cons_append, List.pairwise_cons]
      refine ⟨?_, h2⟩
      intro z hz
      rcases List.mem_append.1 hz with hz | hz
      · exact h.1 z (List.mem_append_left _ hz)
      · rcases List.mem_cons.1 hz with rfl | hz
        · exact hy
        · exact h.1 z (List.mem_append_right _ hz)
    · have hfy : c f y < 0 := (hc.antisymm f y).2 (by omega)
      refine ⟨[], y :: l, rfl, ?_⟩
      rw [List.nil_append, List.pairwise_cons, List.pairwise_cons]
      refine ⟨?_, h⟩
      intro z hz
      rcases List.mem_cons.1 hz with rfl | hz
      · omega
      · exact hc.trans f y z (by omega) (h.1 z hz)

theorem BelowAt.mem_paths {x e : TreeEntry} {n : Nat} {q : Path} (h : BelowAt x n e) (hq : entryPath x = some q) : q ∈ entryPaths e :=
  mem_entryPaths.2 ⟨n, x, h, hq⟩

theorem entryPaths_flat (p : Path) (es : List TreeEntry) : entryPaths (.dir p es) = p :: es.flatMap entryPaths := by
  have key : ∀ es, (eventsAll es).filterMap id = es.flatMap entryPaths := by
    intro es
    induction es with
    | nil => simp [eventsAll]
    | cons e es ih => rw [eventsAll, List.filterMap_append, ih]; simp [entryPaths]
  unfold entryPaths
  exact congrArg (p :: ·) (key es)

/-- Where the directory occurs, exactly one entry is inserted. -/
theorem Scanned.added (hA : AddedFile fs fs' d f a) (hfc : ∀ q cs bad, fs.listDir q = .opened cs bad → f ∉ cs) (hc : LawfulCmp c) (hu : ∀ q n, o.childLimit q = .ok n → n < 0)
    (hf : o.fileMatcher f = .ok true) {x e : TreeEntry} {n : Nat} (hb : BelowAt x n e) (hx : entryPath x = some d) (hnd : (entryPaths e).Nodup) (hdd : fs.isDir d = true) :
    ∀ {k : Nat} {p : Path}, Scanned (answers fs o) c D k p e → p ≠ f → ((k + n : Nat) : Int) < D →
      ∃ e', Scanned (answers fs' o) c D k p e' ∧ Inserted d (.file f a) n e e' := by
  induction hb with
  | here =>
    intro k p h hp hk
    have := h.entryPath_eq
    rw [hx] at this
    cases this
    have hfd : fs'.isDir d = true := by rw [hA.isDir_other d hp]; exact hdd
    cases h with
    | file h1 h2 => have h1 : fs.isDir d = false := h1; rw [hdd] at h1; cases h1
    | tooDeep h1 h2 => omega
    | @dir _ _ n cs ks srt es h1 hk' h2 h3 h4 h5 h6 h7 =>
      have h3 : fs.listDir d = .opened cs false := h3
      have hn : n < 0 := hu d n h2
      have hfcs := hfc d cs false h3
      obtain ⟨cs0, cs', hl, hl', hperm⟩ := hA.list
      rw [hl] at h3; cases h3
      have hkf : Kept (answers fs' o) (f :: cs) (f :: ks) := by
        refine .keep ?_ (keptAdded hA hfcs h4)
        show (if fs'.isDir f = true then o.dirMatcher f else o.fileMatcher f) = .ok true
        rw [hA.isFile]; exact hf
      obtain ⟨ks', hk1, hk2⟩ := Kept.perm hperm hkf
      obtain ⟨l1, l2, rfl, hsorted⟩ := insert_place hc f h6
      rw [limitTo_none hn] at h7
      rw [moreMark_none hn, List.append_nil] at hnd ⊢
      have hes : ∀ x ∈ es, d ∉ entryPaths x := by
        intro x hx hdx
        rw [entryPaths_flat, List.nodup_cons] at hnd
        exact hnd.1 (List.mem_flatMap.2 ⟨x, hx, hdx⟩)
      have hfs : f ∉ l1 ++ l2 := fun hmem => hfcs (h4.subset.subset (h5.mem_iff.1 hmem))
      obtain ⟨e1, e2, rfl, h8, h9⟩ := (h7.unchanged hA hfc hfs hes).split
      refine ⟨.dir d (e1 ++ .file f a :: e2), ?_, .here⟩
      have := Scanned.dir (A := answers fs' o) (c := c) (maxDepth := D) (k := k) (p := d) (n := n) (cs := cs') (ks := ks') (srt := l1 ++ f :: l2) (es := e1 ++ .file f a :: e2)
        hfd hk' h2 hl' hk1 (List.perm_middle.trans ((h5.cons f).trans hk2.symm)) hsorted
        (by rw [limitTo_none hn]; exact h8.append (.cons (.file hA.isFile hA.attrs) h9))
      rw [moreMark_none hn, List.append_nil] at this
      exact this
  | @inside p es y n hy hb ih =>
    intro k p' h hp hk
    have hyd : d ∈ entryPaths y := hb.mem_paths hx
    cases h with
    | tooDeep h1 h2 => omega
    | @dir _ _ m cs ks srt es h1 hk' h2 h3 h4 h5 h6 h7 =>
      have h3 : fs.listDir p = .opened cs false := h3
      have hn : m < 0 := hu p m h2
      have hfcs := hfc p cs false h3
      rw [limitTo_none hn] at h7
      rw [moreMark_none hn, List.append_nil] at hnd hy ⊢
      obtain ⟨e1, e2, rfl⟩ := List.append_of_mem hy
      rw [entryPaths_flat, List.flatMap_append, List.flatMap_cons, List.nodup_cons] at hnd
      have hpd : p ≠ d := by
        rintro rfl
        exact hnd.1 (by simp [hyd])
      obtain ⟨l1, q, l2, rfl, h8, h9, h10⟩ := h7.split_at
      have hfs : f ∉ l1 ++ q :: l2 := fun hmem => hfcs (h4.subset.subset (h5.mem_iff.1 hmem))
      simp only [List.mem_append, List.mem_cons, not_or] at hfs
      have hnd2 := hnd.2
      rw [List.nodup_append, List.nodup_append] at hnd2
      obtain ⟨_, ⟨hny, _, hd2⟩, hd1⟩ := hnd2
      have hne1 : ∀ x ∈ e1, d ∉ entryPaths x := by
        intro x hx hdx
        exact hd1 d (List.mem_flatMap.2 ⟨x, hx, hdx⟩) d (List.mem_append_left _ hyd) rfl
      have hne2 : ∀ x ∈ e2, d ∉ entryPaths x := by
        intro x hx hdx
        exact hd2 d hyd d (List.mem_flatMap.2 ⟨x, hx, hdx⟩) rfl
      obtain ⟨y', hy1, hy2⟩ := ih hny h9 (Ne.symm hfs.2.1) (by omega)
      rcases hA.list_other p hpd hp with ⟨h, _⟩ | ⟨cs0, cs', bad, hl, hl', hperm⟩
      · rw [h] at h3; cases h3
      · rw [hl] at h3; cases h3
        obtain ⟨ks', hk1, hk2⟩ := Kept.perm hperm (keptAdded hA hfcs h4)
        refine ⟨.dir p (e1 ++ y' :: e2), ?_, .inside hy2⟩
        have := Scanned.dir (A := answers fs' o) (c := c) (maxDepth := D) (k := k) (p := p) (n := m) (cs := cs') (ks := ks') (srt := l1 ++ q :: l2) (es := e1 ++ y' :: e2)
          (show fs'.isDir p = true by rw [hA.isDir_other p hp]; exact h1) hk' h2 hl' hk1 (h5.trans hk2.symm) h6
          (by rw [limitTo_none hn]; exact (h8.unchanged hA hfc hfs.1 hne1).append (.cons hy1 (h10.unchanged hA hfc hfs.2.2 hne2)))
        rw [moreMark_none hn, List.append_nil] at this
        exact this

/-! ### Labels -/

theorem outlineAll_append (n : Nat) (l l' : List Disp) : outlineAll n (l ++ l') = outlineAll n l ++ outlineAll n l' := by
  induction l with
  | nil => simp [outlineAll]
  | cons k l ih => simp [outlineAll, ih]

theorem dispKidsM_append {L : LookM (Except Exn)} {l1 l2 : List TreeEntry} {ks : List Disp} :
    dispKidsM L (l1 ++ l2) = .ok ks ↔ ∃ k1 k2, ks = k1 ++ k2 ∧ dispKidsM L l1 = .ok k1 ∧ dispKidsM L l2 = .ok k2 := by
  induction l1 generalizing ks with
  | nil =>
    constructor
    · intro h; exact ⟨[], ks, rfl, by rw [dispKidsM]; rfl, h⟩
    · rintro ⟨k1, k2, rfl, h1, h2⟩
      rw [dispKidsM] at h1; cases h1; exact h2
  | cons e l1 ih =>
    constructor
    · intro h
      rw [List.cons_append, dispKidsM] at h
      obtain ⟨k0, hk0, h⟩ := except_bind_ok h
      obtain ⟨ks', hks, h⟩ := except_bind_ok h
      cases h
      obtain ⟨k1, k2, rfl, h1, h2⟩ := ih.1 hks
      exact ⟨k0 :: k1, k2, rfl, by rw [dispKidsM, hk0, h1]; rfl, h2⟩
    · rintro ⟨k1, k2, rfl, h1, h2⟩
      rw [dispKidsM] at h1
      obtain ⟨k0, hk0, h1⟩ := except_bind_ok h1
      obtain ⟨ks', hks, h1⟩ := except_bind_ok h1
      cases h1
      rw [List.cons_append, dispKidsM, hk0, ih.2 ⟨ks', k2, rfl, hks, h2⟩]
      rfl

theorem Inserted.labels {L : LookM (Except Exn)} (hcomp : L.compact = false) {x : TreeEntry} {l : JStr} (hx : dispM L false x = .ok (.node l [])) {n : Nat} {t t' : TreeEntry}
    (h : Inserted d x n t t') {T : Disp} (hT : dispM L true t = .ok T) :
    ∃ T', dispM L true t' = .ok T' ∧ ∀ m, ∃ l1 l2, outline m T = l1 ++ l2 ∧ outline m T' = l1 ++ (m + n + 1, l) :: l2 := by
  induction h generalizing T with
  | @here l1 l2 =>
    obtain ⟨nm, y, ks, h1, h2, h3, rfl⟩ := dispM_dir_ok hT
    obtain ⟨k1, k2, rfl, h4, h5⟩ := dispKidsM_append.1 h3
    refine ⟨_, dispM_dir_mk h1 h2 (dispKidsM_append.2 ⟨k1, .node l [] :: k2, rfl, h4, by rw [dispKidsM, hx, h5]; rfl⟩), ?_⟩
    intro m
    refine ⟨(m, nm ++ y.getD []) :: outlineAll (m + 1) k1, outlineAll (m + 1) k2, ?_, ?_⟩
    · rw [outline, outlineAll_append]; rfl
    · rw [outline, outlineAll_append, outlineAll, outline, outlineAll]; simp
  | @inside q l1 l2 e e' n hi ih =>
    obtain ⟨nm, y, ks, h1, h2, h3, rfl⟩ := dispM_dir_ok hT
    obtain ⟨k1, kk, rfl, h4, h5⟩ := dispKidsM_append.1 h3
    rw [dispKidsM] at h5
    obtain ⟨k, hk, h5⟩ := except_bind_ok h5
    obtain ⟨k2, hk2, h5⟩ := except_bind_ok h5
    cases h5
    rw [← dispM_top_eq L e (.inl hcomp)] at hk
    obtain ⟨k', hk', ho⟩ := ih hk
    rw [dispM_top_eq L e' (.inl hcomp)] at hk'
    refine ⟨_, dispM_dir_mk h1 h2 (dispKidsM_append.2 ⟨k1, k' :: k2, rfl, h4, by rw [dispKidsM, hk', hk2]; rfl⟩), ?_⟩
    intro m
    obtain ⟨o1, o2, ho1, ho2⟩ := ho (m + 1)
    refine ⟨(m, nm ++ y.getD []) :: outlineAll (m + 1) k1 ++ o1, o2 ++ outlineAll (m + 1) k2, ?_, ?_⟩
    · rw [outline, outlineAll_append, outlineAll, ho1]; simp
    · rw [outline, outlineAll_append, outlineAll, ho2, show m + 1 + n + 1 = m + (n + 1) + 1 by omega]; simp

mutual
theorem outline_length (f : TreeFormat) (n : Nat) (T : Disp) : (outline n T).length = (layout f T).length := by
  match T with
  | .node l ks => rw [outline, layout, List.length_cons, List.length_cons, outlineAll_length f (n + 1) ks]
theorem outlineAll_length (f : TreeFormat) (n : Nat) (ks : List Disp) : (outlineAll n ks).length = (layoutKids f ks).length := by
  have hb : ∀ a b ls, (block a b ls).length = ls.length := by intro a b ls; cases ls <;> simp [block]
  match ks with
  | [] => rw [outlineAll, layoutKids]; rfl
  | k :: ks =>
    rw [outlineAll, layoutKids, List.length_append, outline_length f n k, outlineAll_length f n ks]
    cases ks with
    | nil => simp [hb, layoutKids]
    | cons k' ks => simp [hb]
end

/-- In proper file systems the new file was not listed before. -/
theorem AddedFile.not_listed (hA : AddedFile fs fs' d f a) (hfs : ProperFs fs) (hfs' : ProperFs fs') (hd : d.abs = true) :
    (∃ n, f = ⟨true, d.names ++ [n]⟩) ∧ ∀ q cs bad, fs.listDir q = .opened cs bad → f ∉ cs := by
  obtain ⟨cs, cs', hl, hl', hp⟩ := hA.list
  obtain ⟨hnd, hch⟩ := hfs' d cs' false hl'
  obtain ⟨n, hn⟩ := hch f (hp.mem_iff.2 (by simp))
  rw [names_child hd] at hn
  refine ⟨⟨n, hn⟩, ?_⟩
  intro q cs0 bad hq hmem
  obtain ⟨m, hm⟩ := (hfs q cs0 bad hq).2 f hmem
  have hqd : q = d := by
    unfold Path.child at hm
    rw [hn] at hm
    split at hm
    · cases hm
    · obtain ⟨qa, qn⟩ := q
      obtain ⟨da, dn⟩ := d
      simp only [Path.mk.injEq] at hm hd ⊢
      exact ⟨hm.1 ▸ hd.symm ▸ rfl, (List.append_inj' hm.2 rfl).1.symm⟩
  subst hqd
  rw [hl] at hq
  cases hq
  have := hp.nodup_iff.1 hnd
  exact (List.nodup_cons.1 this).1 hmem

end
end Spec

section
variable {fs fs' : PureFs} {cwd p : Path} {o : Options (Except Exn)} {d f : Path} {a : Attrs} {k : Nat} {s : JStr}

/-- **C84**, entries: let the second file system be the first one with one more file `f` in the directory `d`, which is displayed above the depth limit; let `f` pass the file filter
and let there be no child limit. If the first one can be scanned, so can be the second one, and its entry tree is the one of the first with exactly one more entry, `f` in `d`. -/
theorem C84_entry (hw : cwd.abs = true) (hfs : ProperFs fs) (hfs' : ProperFs fs') (hc : LawfulCmp o.pathComparator) (hd' : DistinguishesAll o.pathComparator fs')
    (hu : ∀ q n, o.childLimit q = .ok n → n < 0) (hA : AddedFile fs fs' d f a) (hf : o.fileMatcher f = .ok true) (hdisp : DisplayedAt fs o (target cwd p) k d) (hdd : fs.isDir d = true)
    (hk : (k : Int) < o.maxDepth) {t : TreeEntry} (h : scanned fs cwd o p = .ok t) :
    ∃ t', scanned fs' cwd o p = .ok t' ∧ Inserted d (.file f a) k t t' := by
  have hs := scanned_sound hw hc h
  obtain ⟨x, hb, hx⟩ := displayed_found hs hu hdisp (.inr (by omega))
  obtain ⟨hnd, hpre⟩ := C58_every_path_once hfs hw hc h
  obtain ⟨hdabs, hpref⟩ := hpre d (hb.mem_paths hx)
  obtain ⟨⟨n, hfn⟩, hfc⟩ := hA.not_listed hfs hfs' hdabs
  have hpf : target cwd p ≠ f := by
    intro he
    rw [he, hfn] at hpref
    have := hpref.length_le
    simp only [List.length_append, List.length_singleton] at this
    omega
  obtain ⟨t', h1, h2⟩ := hs.added hA hfc hc hu hf hb hx hnd hdd hpf (by omega)
  exact ⟨t', scanned_complete hw hc hd' h1, h2⟩

/-- **C84**, text: without compact directories, one more file is one more line. All other labels are the same, in the same order and at the same depth; the label of the new file (emoji,
name, mark, extension) is inserted one level below its directory. -/
theorem C84_line (hw : cwd.abs = true) (hfs : ProperFs fs) (hfs' : ProperFs fs') (hc : LawfulCmp o.pathComparator) (hd' : DistinguishesAll o.pathComparator fs')
    (hu : ∀ q n, o.childLimit q = .ok n → n < 0) (hcomp : o.compactDirectories = false) (hA : AddedFile fs fs' d f a) (hf : o.fileMatcher f = .ok true)
    (hdisp : DisplayedAt fs o (target cwd p) k d) (hdd : fs.isDir d = true) (hk : (k : Int) < o.maxDepth) {n : JStr} {e x : Option JStr} (hn : f.getFileName = some n)
    (he : o.emojiMapping f = .ok e) (hx : (labelling o).ext f = .ok x) (h : prettyPrint fs.lift cwd o p = .ok s) :
    ∃ t T t' T' l1 l2, scanned fs cwd o p = .ok t ∧ dispM (labelling o) true t = .ok T ∧ s = picture o.treeFormat T ∧
      scanned fs' cwd o p = .ok t' ∧ dispM (labelling o) true t' = .ok T' ∧ prettyPrint fs'.lift cwd o p = .ok (picture o.treeFormat T') ∧
      outline 0 T = l1 ++ l2 ∧ outline 0 T' = l1 ++ (k + 1, emojiText e ++ n ++ fileMark a ++ x.getD []) :: l2 ∧
      (layout o.treeFormat T').length = (layout o.treeFormat T).length + 1 := by
  rw [prettyPrint_eq] at h
  obtain ⟨t, ht, h⟩ := except_bind_ok h
  rw [C01_render_is_picture_effectful, ← labelling_eq] at h
  obtain ⟨T, hT, h⟩ : ∃ T, dispM (labelling o) true t = .ok T ∧ s = picture o.treeFormat T := by
    revert h
    generalize dispM (labelling o) true t = r
    cases r with
    | error e => intro h; cases h
    | ok D => intro h; cases h; exact ⟨D, rfl, rfl⟩
  obtain ⟨t', ht', hi⟩ := C84_entry hw hfs hfs' hc hd' hu hA hf hdisp hdd hk ht
  have hfl : dispM (labelling o) false (.file f a) = .ok (.node (emojiText e ++ n ++ fileMark a ++ x.getD []) []) := by
    rw [dispM]
    unfold fileTextM nameM
    rw [hx, show (labelling o).emoji f = .ok e from he, show f.names.getLast? = some n from hn]
    rfl
  obtain ⟨T', hT', ho⟩ := hi.labels (L := labelling o) hcomp hfl hT
  obtain ⟨l1, l2, h1, h2⟩ := ho 0
  rw [Nat.zero_add] at h2
  refine ⟨t, T, t', T', l1, l2, ht, hT, h, ht', hT', ?_, h1, h2, ?_⟩
  · rw [prettyPrint_eq, ht']
    show Renderer.renderRoot o.toRender (LineRenderer.create o.toRender) _ = _
    rw [C01_render_is_picture_effectful, ← labelling_eq, hT']
    rfl
  · rw [← outline_length o.treeFormat 0 T', ← outline_length o.treeFormat 0 T, h1, h2]
    simp only [List.length_append, List.length_cons]
    omega

end

/-! ### A concrete case: the file `w` is added to `/r/a` of the example disk -/

namespace Demo

def w : Path := ⟨true, [j!"r", j!"a", j!"w"]⟩

def afs : PureFs := { dfs with
  isDir := fun q => if q = w then false else dfs.isDir q
  readAttrs := fun q => if q = w then some ⟨false, false⟩ else dfs.readAttrs q
  listDir := fun q => if q = a then .opened [y, w, x] false else dfs.listDir q }

theorem afs_added : AddedFile dfs afs a w ⟨false, false⟩ where
  isFile := rfl
  attrs := rfl
  isDir_other q hq := if_neg hq
  attrs_other q hq := if_neg hq
  list := ⟨[y, x], [y, w, x], rfl, rfl, List.Perm.swap _ _ _⟩
  list_other q hq _ := by
    have h : afs.listDir q = dfs.listDir q := if_neg hq
    rw [h]
    cases dfs.listDir q with
    | openFailed => exact .inl ⟨rfl, rfl⟩
    | opened cs bad => exact .inr ⟨cs, cs, bad, rfl, rfl, .refl _⟩

theorem afs_proper : ProperFs afs := by
  intro q cs bad h
  by_cases hq : q = a
  · subst hq
    have h : Listing.opened [y, w, x] false = .opened cs bad := h
    cases h
    refine ⟨by decide, ?_⟩
    intro c hc
    simp only [List.mem_cons, List.not_mem_nil, or_false] at hc
    rcases hc with rfl | rfl | rfl
    · exact ⟨j!"y", rfl⟩
    · exact ⟨j!"w", rfl⟩
    · exact ⟨j!"x", rfl⟩
  · have h' : afs.listDir q = dfs.listDir q := if_neg hq
    rw [h'] at h
    exact proper q cs bad h

example := C84_line (fs := dfs) (fs' := afs) (cwd := Path.root) (p := r) (o := dflt) (k := 1) (n := j!"w") (e := none) (x := none) rfl proper afs_proper lawful_ALPHABETICAL
  (sort_distinguishes lawful_const afs_proper) (by intro q n h; cases h; decide) rfl afs_added rfl
  (.child (cs := [b, a, z]) .top rfl rfl (by simp) (fun _ => rfl) (fun _ => rfl)) rfl (by decide) rfl rfl rfl printed_found

end Demo
end JFTP
