import Verif.Props.Change

/-
C90, C91: the whole prints exactly if the new or changed part does.
-/

namespace JFTP
open Spec

namespace Spec

section
variable {fs fs' : PureFs} {o : Options (Except Exn)} {c : Cmp} {D : Int} {d f : Path}

/-- Without compact directories the labels of a tree exist only if those of its parts do. -/
theorem dispM_part {L : LookM (Except Exn)} (hcomp : L.compact = false) {x t : TreeEntry} {n : Nat} (hb : BelowAt x n t) {T : Disp} (hT : dispM L true t = .ok T) : ∃ X, dispM L true x = .ok X := by
  induction hb generalizing T with
  | here => exact ⟨T, hT⟩
  | @inside d es y n hy hb ih =>
    obtain ⟨nm, z, ks, h1, h2, h3, rfl⟩ := dispM_dir_ok hT
    obtain ⟨l1, l2, rfl⟩ := List.append_of_mem hy
    obtain ⟨k1, kk, rfl, h4, h5⟩ := dispKidsM_append.1 h3
    rw [dispKidsM] at h5
    obtain ⟨k, hk, h5⟩ := except_bind_ok h5
    rw [← dispM_top_eq L y (.inl hcomp)] at hk
    exact ih hk

/-- What is displayed of a tree prints on its own, with the remaining depth (without compact directories). -/
theorem part_prints {cwd p : Path} {s : JStr} {k : Nat} (hw : cwd.abs = true) (hc : LawfulCmp o.pathComparator) (hd : DistinguishesAll o.pathComparator fs)
    (hcomp : o.compactDirectories = false) (hclean : target cwd f = f) (h : prettyPrint fs.lift cwd o p = .ok s)
    (hb : ∀ t, scanned fs cwd o p = .ok t → ∃ x, BelowAt x k t ∧ entryPath x = some f) :
    ∃ b, prettyPrint fs.lift cwd (o.withMaxDepth (o.maxDepth - k)) f = .ok b := by
  obtain ⟨t, T, ht, hT, _⟩ := prettyPrint_disp.1 h
  obtain ⟨x, hbx, hx⟩ := hb t ht
  obtain ⟨X, hX⟩ := dispM_part (L := labelling o) hcomp hbx hT
  have hsub := (scanned_sound hw hc ht).sub hbx hx
  rw [Nat.zero_add] at hsub
  obtain ⟨x0, hx0, rfl⟩ := scanned_alone hw hc hd hclean hsub
  rw [dispM_bumps] at hX
  exact ⟨_, prettyPrint_disp.2 ⟨x0, X, hx0, hX, rfl⟩⟩

theorem SameOutside.symm (h : SameOutside fs fs' f) : SameOutside fs' fs f where
  isDir q hq := (h.isDir q hq).symm
  attrs q hq := (h.attrs q hq).symm
  list q hq := by
    rcases h.list q hq with ⟨h1, h2⟩ | ⟨cs, cs', bad, h1, h2, h3⟩
    · exact .inl ⟨h2, h1⟩
    · exact .inr ⟨cs', cs, bad, h2, h1, h3.symm⟩

/-- The depth of an entry is the number of names its path has more than the top. -/
theorem depth_of_path {p : Path} {t x : TreeEntry} {k : Nat} {q : Path} (hfs : ProperFs fs) (hp : p.abs = true) (hs : Scanned (answers fs o) c D 0 p t) (hb : BelowAt x k t)
    (hx : entryPath x = some q) : q.names.length = p.names.length + k := by
  have hv := hs.visited hb hx
  rw [Nat.zero_add] at hv
  rw [← answers_eq] at hv
  have := (hv.names hfs hp).2.2
  omega

/-- What is displayed outside of the new entry is displayed afterwards, too. -/
theorem DisplayedAt.added (hA : AddedEntry fs fs' d f) (hfs : ProperFs fs) (hf : f.abs = true) {top : Path} {k : Nat} {q : Path} (h : DisplayedAt fs o top k q) (hq : ¬ Inside f q) :
    DisplayedAt fs' o top k q := by
  induction h with
  | top => exact .top
  | @child k e cs q h h1 h2 h3 h4 h5 ih =>
    obtain ⟨n, rfl⟩ := (hfs e cs false h2).2 q h3
    have he : ¬ Inside f e := by
      rintro ⟨i1, i2⟩
      refine hq ⟨?_, ?_⟩
      · rw [names_child (i1.trans hf)]; exact hf.symm
      · rw [names_child (i1.trans hf)]; exact i2.trans (List.prefix_append _ _)
    have hl : ∃ cs', fs'.listDir e = .opened cs' false ∧ e.child n ∈ cs' := by
      by_cases hed : e = d
      · subst hed
        obtain ⟨cs0, cs', hl, hl', hp⟩ := hA.list
        rw [hl] at h2; cases h2
        exact ⟨cs', hl', hp.mem_iff.2 (by simp [h3])⟩
      · rcases hA.list_other e hed he with ⟨h, _⟩ | ⟨cs0, cs', bad, hl, hl', hp⟩
        · rw [h] at h2; cases h2
        · rw [hl] at h2; cases h2
          exact ⟨cs', hl', hp.mem_iff.2 h3⟩
    obtain ⟨cs', hl', hm⟩ := hl
    exact .child (ih he) (by rw [hA.isDir_other e he]; exact h1) hl' hm (by rw [hA.isDir_other _ hq]; exact h4) (by rw [hA.isDir_other _ hq]; exact h5)

end
end Spec

section
variable {fs fs' : PureFs} {cwd p : Path} {o : Options (Except Exn)} {d f : Path} {k : Nat} {s b : JStr}

/-- **C91**: the changed whole prints exactly if the changed part does (without compact directories). -/
theorem C91_returns_iff (hw : cwd.abs = true) (hfs : ProperFs fs) (hfs' : ProperFs fs') (hc : LawfulCmp o.pathComparator) (hd : DistinguishesAll o.pathComparator fs)
    (hd' : DistinguishesAll o.pathComparator fs') (hA : SameOutside fs fs' f) (hf : fs'.isDir f = fs.isDir f) (hclean : target cwd f = f) (hcomp : o.compactDirectories = false)
    (h : prettyPrint fs.lift cwd o p = .ok s) (hb : ∀ t, scanned fs cwd o p = .ok t → ∃ x, BelowAt x k t ∧ entryPath x = some f) :
    (∃ s', prettyPrint fs'.lift cwd o p = .ok s') ↔ ∃ b, prettyPrint fs'.lift cwd (o.withMaxDepth (o.maxDepth - k)) f = .ok b := by
  constructor
  · rintro ⟨s', h'⟩
    refine part_prints hw hc hd' hcomp hclean h' fun t' ht' => ?_
    obtain ⟨t, T, ht, -⟩ := prettyPrint_disp.1 h
    obtain ⟨x, hbx, hx⟩ := hb t ht
    have ha : (target cwd p).abs = true := by unfold target; rw [Path.normalize_abs (Path.toAbsolutePath_abs hw)]
    obtain ⟨-, hpre⟩ := C58_every_path_once hfs hw hc ht
    obtain ⟨hfabs, hpref⟩ := hpre f (hbx.mem_paths hx)
    have hmem : f ∈ entryPaths t' := by
      by_contra hn
      by_cases hp : Inside f (target cwd p)
      · have hpf : target cwd p = f := by
          have hnm : (target cwd p).names = f.names := hpref.eq_of_length (le_antisymm hpref.length_le hp.2.length_le)
          revert ha hnm
          generalize target cwd p = tp
          intro ha hnm
          obtain ⟨ta, tn⟩ := tp
          obtain ⟨fa, fn⟩ := f
          simp only at ha hnm hfabs
          rw [ha, hnm, hfabs]
        exact hn (mem_entryPaths.2 ⟨0, t', .here, hpf ▸ (scanned_sound hw hc ht').entryPath_eq⟩)
      · have := (C91_unnoticed hw hfs' hc hd hA.symm hf.symm hfabs hp ht' hn).1
        rw [ht] at this
        cases this
        exact hn (hbx.mem_paths hx)
    obtain ⟨k', x', hb', hx'⟩ := mem_entryPaths.1 hmem
    have e1 := depth_of_path hfs ha (scanned_sound hw hc ht) hbx hx
    have e2 := depth_of_path hfs' ha (scanned_sound hw hc ht') hb' hx'
    have : k' = k := by omega
    subst this
    exact ⟨x', hb', hx'⟩
  · rintro ⟨b, hb'⟩
    obtain ⟨_, T', _, _, _, _, _, h', _⟩ := C91_block hw hfs hc hd hd' hA hf hclean hcomp h hb hb'
    exact ⟨_, h'⟩

/-- **C90**: the whole with the new entry prints exactly if the new entry does (without compact directories). -/
theorem C90_returns_iff (hw : cwd.abs = true) (hfs : ProperFs fs) (hfs' : ProperFs fs') (hc : LawfulCmp o.pathComparator) (hd' : DistinguishesAll o.pathComparator fs')
    (hu : ∀ q n, o.childLimit q = .ok n → n < 0) (hcomp : o.compactDirectories = false) (hA : AddedEntry fs fs' d f)
    (hf : (if fs'.isDir f = true then o.dirMatcher f else o.fileMatcher f) = .ok true) (hdisp : DisplayedAt fs o (target cwd p) k d) (hdd : fs.isDir d = true)
    (hk : (k : Int) < o.maxDepth) (hclean : target cwd f = f) (h : prettyPrint fs.lift cwd o p = .ok s) :
    (∃ s', prettyPrint fs'.lift cwd o p = .ok s') ↔ ∃ b, prettyPrint fs'.lift cwd (o.withMaxDepth (o.maxDepth - (k + 1 : Nat))) f = .ok b := by
  constructor
  · rintro ⟨s', h'⟩
    refine part_prints hw hc hd' hcomp hclean h' fun t' ht' => ?_
    obtain ⟨t, T, ht, -⟩ := prettyPrint_disp.1 h
    obtain ⟨y, hby, hy⟩ := displayed_found (scanned_sound hw hc ht) hu hdisp (.inr (by omega))
    obtain ⟨-, hpre⟩ := C58_every_path_once hfs hw hc ht
    obtain ⟨hdabs, -⟩ := hpre d (hby.mem_paths hy)
    obtain ⟨⟨n, hfn⟩, -⟩ := hA.not_listed hfs hfs' hdabs
    have hnd : ¬ Inside f d := by
      rintro ⟨-, he⟩
      rw [hfn] at he
      have := he.length_le
      simp only [List.length_append, List.length_singleton] at this
      omega
    obtain ⟨cs, cs', hl, hl', hp⟩ := hA.list
    have hdf : DisplayedAt fs' o (target cwd p) (k + 1) f := by
      refine .child (hdisp.added hA hfs (by rw [hfn]) hnd) (by rw [hA.isDir_other d hnd]; exact hdd) hl' (hp.mem_iff.2 (by simp)) ?_ ?_
      · intro he; rw [if_pos he] at hf; exact hf
      · intro he; rw [if_neg (by rw [he]; decide)] at hf; exact hf
    exact displayed_found (scanned_sound hw hc ht') hu hdf (.inr (by omega))
  · rintro ⟨b, hb'⟩
    obtain ⟨_, _, T', _, _, _, _, h', _⟩ := C90_block hw hfs hfs' hc hd' hu hcomp hA hf hdisp hdd hk hclean h hb'
    exact ⟨_, h'⟩

end

/-! ### Concrete cases: those of C90 and C91 -/

namespace Demo

example : ∃ s', prettyPrint vfs.lift Path.root dflt r = .ok s' :=
  (C90_returns_iff (fs := dfs) (fs' := vfs) (cwd := Path.root) (p := r) (o := dflt) (k := 1) (d := a) (f := v) rfl proper vfs_proper lawful_ALPHABETICAL
    (sort_distinguishes lawful_const vfs_proper) (by intro q n h; cases h; decide) rfl vfs_added rfl
    (.child (cs := [b, a, z]) .top rfl rfl (by simp) (fun _ => rfl) (fun _ => rfl)) rfl (by decide) rfl printed_found).2 ⟨_, printed_v _ (by decide)⟩

example : ∃ s', prettyPrint afs.lift Path.root dflt r = .ok s' :=
  (C91_returns_iff (fs := dfs) (fs' := afs) (cwd := Path.root) (p := r) (o := dflt) (k := 1) (f := a) rfl proper afs_proper lawful_ALPHABETICAL
    (sort_distinguishes lawful_const proper) (sort_distinguishes lawful_const afs_proper) afs_outside rfl rfl rfl printed_found
    (by
      intro t ht
      rw [scanned_found] at ht
      cases ht
      exact ⟨_, .inside (List.mem_cons_self ..) .here, rfl⟩)).2 ⟨_, printed_a _ (by decide)⟩

end Demo
end JFTP
