import Verif.Props.Scanning

/-!
C08–C15, C58: order, child limit, maximal depth.
-/

namespace JFTP
open Spec

section
variable {fs : PureFs} {cwd : Path} {o : Options (Except Exn)}

/-! ### C08 -/

/-- **C08**: `String` order is the lexicographic order of code units, a proper prefix being smaller. -/
theorem C08_string_order (a b : JStr) : (compareTo a b < 0 ↔ List.Lex (fun x y => x.toNat < y.toNat) a b) ∧ (compareTo a b = 0 ↔ a = b) := by
  refine ⟨?_, compareTo_eq_zero⟩
  induction a generalizing b with
  | nil =>
    cases b with
    | nil => exact ⟨fun h => by simp [compareTo] at h, nofun⟩
    | cons y ys => exact ⟨fun _ => .nil, fun _ => by simp only [compareTo, List.length_cons]; omega⟩
  | cons x xs ih =>
    cases b with
    | nil => exact ⟨fun h => by simp only [compareTo, List.length_cons] at h; omega, nofun⟩
    | cons y ys =>
      rw [compareTo]
      by_cases h : x = y
      · subst h
        rw [if_pos rfl, ih]
        exact ⟨.cons, fun h => by cases h with
          | cons h => exact h
          | rel h => omega⟩
      · rw [if_neg h]
        refine ⟨fun h' => .rel (by omega), fun h' => ?_⟩
        cases h' with
        | cons _ => exact absurd rfl h
        | rel h' => omega

/-- **C08**: with `sort(c)` (the default order is `c = 0`), in every displayed directory the children appear in ascending order of `c`, and
children `c` considers equal appear in `String` order of their names. -/
theorem C08_children_sorted (hw : cwd.abs = true) {c : Cmp} (hc : LawfulCmp c) (hsort : o.pathComparator = thenComparing c PathSorts.ALPHABETICAL)
    {p : Path} {t : TreeEntry} (h : scanned fs cwd o p = .ok t) {d : Path} {es : List TreeEntry} (hb : Below (.dir d es) t) :
    (es.filterMap entryPath).Pairwise (fun a b => c a b < 0 ∨ (c a b = 0 ∧ compareTo (lastName a) (lastName b) ≤ 0)) := by
  have hs := scanned_sound hw (by rw [hsort]; exact sort_lawful hc) h
  obtain ⟨k, hd⟩ := hs.sub_below hb rfl
  obtain ⟨_, _, h | ⟨_, n, cs, ks, srt, es', h1, h2, h3, h4, h5, h6, h7⟩⟩ := hd.dir_inv
  · rw [h.2]; exact List.Pairwise.nil
  · rw [h7, List.filterMap_append, moreMark_paths, List.append_nil, h6.filterMap]
    refine (h5.sublist (limitTo_sublist n srt)).imp (fun {a b} hab => ?_)
    rw [hsort] at hab
    have hn : ∀ q : Path, PathSorts.nameKey q = lastName q := by
      intro q; simp [PathSorts.nameKey, lastName, Path.getFileName, List.getLastD_eq_getLast?]
    unfold thenComparing PathSorts.ALPHABETICAL at hab
    simp only [hn] at hab
    split at hab <;> omega

/-- **C08**, strict: on a file system that lists every entry once, no two siblings are equal in that order. -/
theorem C08_children_strictly_sorted (hfs : ProperFs fs) (hw : cwd.abs = true) {c : Cmp} (hc : LawfulCmp c) (hsort : o.pathComparator = thenComparing c PathSorts.ALPHABETICAL)
    {p : Path} {t : TreeEntry} (h : scanned fs cwd o p = .ok t) {d : Path} {es : List TreeEntry} (hb : Below (.dir d es) t) :
    (es.filterMap entryPath).Pairwise (fun a b => c a b < 0 ∨ (c a b = 0 ∧ compareTo (lastName a) (lastName b) < 0)) := by
  have hs := scanned_sound hw (by rw [hsort]; exact sort_lawful hc) h
  have hsorted := C08_children_sorted hw hc hsort h hb
  obtain ⟨k, hd⟩ := hs.sub_below hb rfl
  obtain ⟨_, _, h | ⟨_, n, cs, ks, srt, es', h1, h2, h3, h4, h5, h6, h7⟩⟩ := hd.dir_inv
  · rw [h.2]; exact List.Pairwise.nil
  · have e : es.filterMap entryPath = limitTo n srt := by rw [h7, List.filterMap_append, moreMark_paths, List.append_nil, h6.filterMap]
    have hn : (es.filterMap entryPath).Nodup := by
      rw [e]; exact (h4.nodup_iff.2 ((hfs d cs false h2).1.sublist h3.subset)).sublist (limitTo_sublist n srt)
    have hch : ∀ x ∈ es.filterMap entryPath, ∃ m, x = d.child m := by
      intro x hx; rw [e] at hx
      exact (hfs d cs false h2).2 x (h3.subset.subset (h4.mem_iff.1 ((limitTo_sublist n srt).subset hx)))
    have hpair := hsorted.and hn
    refine hpair.imp_of_mem (fun {a b} ha hb' hab => ?_)
    obtain ⟨ma, rfl⟩ := hch a ha
    obtain ⟨mb, rfl⟩ := hch b hb'
    rcases hab.1 with hlt | ⟨heq, hle⟩
    · exact .inl hlt
    · refine .inr ⟨heq, ?_⟩
      have hne : compareTo (lastName (d.child ma)) (lastName (d.child mb)) ≠ 0 := by
        intro hz
        have hl : ∀ m, lastName (d.child m) = m := by
          intro m; unfold lastName Path.child; split <;> simp [List.getLastD_eq_getLast?]
        rw [hl, hl] at hz
        exact hab.2 (by rw [compareTo_eq_zero.1 hz])
      omega

/-- The default options, and every result of `sort`, have a comparator of the form required by C08. -/
theorem C08_comparators (o : Options (Except Exn)) (c : Cmp) :
    (Options.createDefault : Options (Except Exn)).pathComparator = thenComparing (fun _ _ => 0) PathSorts.ALPHABETICAL ∧
    (o.sort c).pathComparator = thenComparing c PathSorts.ALPHABETICAL := ⟨rfl, rfl⟩

/-- Example: the demo disk lists `b.txt, a, z` and `y, x`; displayed are `a, b.txt, z` and `x, y`. -/
example : [Demo.a, Demo.b, Demo.z].Pairwise (fun a b => (0 : Int) < 0 ∨ ((0 : Int) = 0 ∧ compareTo (lastName a) (lastName b) < 0)) :=
  C08_children_strictly_sorted (c := fun _ _ => 0) Demo.proper rfl lawful_const rfl Demo.scanned_found .here

/-! ### C09 -/

/-- **C09**: if the same directory contents are listed in different orders, `prettyPrint` returns the same string. -/
theorem C09_listing_order_irrelevant {fs' : PureFs} (hfs : ProperFs fs) (hs : SameContent fs fs') (hw : cwd.abs = true) {c : Cmp} (hc : LawfulCmp c)
    (hsort : o.pathComparator = thenComparing c PathSorts.ALPHABETICAL) (p : Path) (s : JStr) :
    prettyPrint fs'.lift cwd o p = .ok s ↔ prettyPrint fs.lift cwd o p = .ok s := by
  have hc' : LawfulCmp o.pathComparator := by rw [hsort]; exact sort_lawful hc
  have hd' : DistinguishesAll o.pathComparator fs := by rw [hsort]; exact sort_distinguishes hc hfs
  rw [prettyPrint_eq, prettyPrint_eq]
  constructor
  · intro h
    obtain ⟨t, ht, h⟩ := except_bind_ok h
    rw [scanned_complete hw hc' hd' ((scanned_sound hw hc' ht).sameContent hs.symm)]
    exact h
  · intro h
    obtain ⟨t, ht, h⟩ := except_bind_ok h
    rw [scanned_complete hw hc' (hs.distinguishes hd') ((scanned_sound hw hc' ht).sameContent hs)]
    exact h

/-- **C09** for failing calls: if the filters do not throw, even the exception is the same. -/
theorem C09_same_exception {fs' : PureFs} (hfs : ProperFs fs) (hs : SameContent fs fs') (hw : cwd.abs = true) {c : Cmp} (hc : LawfulCmp c)
    (hsort : o.pathComparator = thenComparing c PathSorts.ALPHABETICAL) (f g : Path → Bool) (hf : ∀ q, o.dirMatcher q = .ok (f q))
    (hg : ∀ q, o.fileMatcher q = .ok (g q)) (p : Path) : prettyPrint fs'.lift cwd o p = prettyPrint fs.lift cwd o p := by
  have hc' : LawfulCmp o.pathComparator := by rw [hsort]; exact sort_lawful hc
  have hd' : DistinguishesAll o.pathComparator fs := by rw [hsort]; exact sort_distinguishes hc hfs
  rw [prettyPrint_eq, prettyPrint_eq]
  congr 1
  rw [scanned_eq fs hw, scanned_eq fs' hw]
  refine handle_sameContent (o := o.toScan fs.lift) (o' := o.toScan fs'.lift) hs hc' hd' rfl rfl rfl
    (g := fun q => if fs.isDir q = true then f q else g q) ?_ ?_ 0 _
  · intro q
    show o.pathFilter fs.lift q = _
    rw [pathFilter_eq, hf, hg]; split <;> rfl
  · intro q
    show o.pathFilter fs'.lift q = _
    rw [pathFilter_eq, hf, hg, hs.isDir]; split <;> rfl

/-- Example: the demo disk with both its directories listed backwards. -/
example : SameContent Demo.dfs { Demo.dfs with listDir := fun q => match Demo.dfs.listDir q with
    | .opened cs bad => .opened cs.reverse bad
    | .openFailed => .openFailed } where
  isDir _ := rfl
  attrs _ := rfl
  list q := by
    cases h : Demo.dfs.listDir q with
    | openFailed => exact .inl ⟨rfl, by simp [h]⟩
    | opened cs bad => exact .inr ⟨cs, cs.reverse, bad, rfl, by simp [h], List.reverse_perm cs⟩

/-! ### C10, C11 -/

/-- **C10**: if the limit function returns `n ≥ 0` for a displayed directory (above the depth limit), its displayed children are the first `n` of its filtered children in
sort order, followed by exactly one `...` iff there are more than `n`. -/
theorem C10_child_limit (hw : cwd.abs = true) (hc : LawfulCmp o.pathComparator) {p : Path} {t : TreeEntry} (h : scanned fs cwd o p = .ok t)
    {d : Path} {es : List TreeEntry} {k : Nat} (hb : BelowAt (.dir d es) k t) (hk : (k : Int) < o.maxDepth) {n : Nat} (hn : o.childLimit d = .ok n) :
    ∃ (cs sorted : List Path) (shown : List TreeEntry), fs.listDir d = .opened cs false ∧ sorted.Perm (cs.filter (passes fs o)) ∧
      sorted.Pairwise (fun a b => o.pathComparator a b ≤ 0) ∧
      shown.map entryPath = (sorted.take n).map some ∧
      es = shown ++ (if n < sorted.length then [.skipped d] else []) := by
  have hs := scanned_sound hw hc h
  have hsub := hs.sub hb rfl
  rw [Nat.zero_add] at hsub
  obtain ⟨_, _, h | ⟨_, n', cs, ks, srt, es', h1, h2, h3, h4, h5, h6, h7⟩⟩ := hsub.dir_inv
  · omega
  · have h1 : o.childLimit d = .ok n' := h1
    rw [hn] at h1; cases h1
    refine ⟨cs, srt, es', h2, by rw [← kept_filter h3]; exact h4, h5, ?_, ?_⟩
    · have := h6.paths
      unfold limitTo at this
      rw [if_neg (by omega)] at this
      simpa using this
    · rw [h7]; unfold moreMark
      congr 1
      by_cases hlt : n < srt.length
      · rw [if_pos hlt, if_pos (by omega)]
      · rw [if_neg hlt, if_neg (by omega)]

/-- **C11**: if the limit function returns a negative value, all filtered children are displayed, in sort order, and nothing else (no `...`). -/
theorem C11_negative_limit_unlimited (hw : cwd.abs = true) (hc : LawfulCmp o.pathComparator) {p : Path} {t : TreeEntry} (h : scanned fs cwd o p = .ok t)
    {d : Path} {es : List TreeEntry} {k : Nat} (hb : BelowAt (.dir d es) k t) (hk : (k : Int) < o.maxDepth) {n : Int} (hneg : n < 0) (hn : o.childLimit d = .ok n) :
    ∃ (cs sorted : List Path), fs.listDir d = .opened cs false ∧ sorted.Perm (cs.filter (passes fs o)) ∧
      sorted.Pairwise (fun a b => o.pathComparator a b ≤ 0) ∧ es.map entryPath = sorted.map some := by
  have hs := scanned_sound hw hc h
  have hsub := hs.sub hb rfl
  rw [Nat.zero_add] at hsub
  obtain ⟨_, _, h | ⟨_, n', cs, ks, srt, es', h1, h2, h3, h4, h5, h6, h7⟩⟩ := hsub.dir_inv
  · omega
  · have h1 : o.childLimit d = .ok n' := h1
    rw [hn] at h1; cases h1
    refine ⟨cs, srt, h2, by rw [← kept_filter h3]; exact h4, h5, ?_⟩
    have := h6.paths
    unfold limitTo at this
    rw [if_pos hneg] at this
    rw [h7]; unfold moreMark; rw [if_neg (by omega), List.append_nil, this]

/-- Every displayed directory above the depth limit has a limit, so C10 or C11 applies. -/
theorem C10_limit_exists (hw : cwd.abs = true) (hc : LawfulCmp o.pathComparator) {p : Path} {t : TreeEntry} (h : scanned fs cwd o p = .ok t)
    {d : Path} {es : List TreeEntry} {k : Nat} (hb : BelowAt (.dir d es) k t) (hk : (k : Int) < o.maxDepth) : ∃ n, o.childLimit d = .ok n := by
  have hs := scanned_sound hw hc h
  have hsub := hs.sub hb rfl
  rw [Nat.zero_add] at hsub
  obtain ⟨_, _, h | ⟨_, n', cs, ks, srt, es', h1, h2, h3, h4, h5, h6, h7⟩⟩ := hsub.dir_inv
  · omega
  · exact ⟨n', h1⟩

/-- The demo disk with limit 1 on `/r/a` and 2 elsewhere: `y` and `z` are cut. -/
def Demo.limited : Options (Except Exn) := Demo.dflt.withChildLimitFn (fun q => pure (if q = Demo.a then 1 else 2))

theorem Demo.scanned_limited : scanned Demo.dfs Path.root Demo.limited Demo.r =
    .ok (.dir Demo.r [.dir Demo.a [.file Demo.x ⟨false, false⟩, .skipped Demo.a], .file Demo.b ⟨false, false⟩, .skipped Demo.r]) := by
  refine scanned_complete rfl lawful_ALPHABETICAL Demo.distinguishes ?_
  refine Scanned.dir (A := answers Demo.dfs Demo.limited) (c := PathSorts.ALPHABETICAL) (maxDepth := 20) (k := 0) (p := Demo.r) (n := 2)
    (cs := [Demo.b, Demo.a, Demo.z]) (ks := [Demo.b, Demo.a, Demo.z]) (srt := [Demo.a, Demo.b, Demo.z])
    (es := [.dir Demo.a [.file Demo.x ⟨false, false⟩, .skipped Demo.a], .file Demo.b ⟨false, false⟩])
    rfl (by decide) rfl rfl (.keep rfl (.keep rfl (.keep rfl .nil))) (by decide) (by decide) ?_
  refine .cons ?_ (.cons (.file rfl rfl) .nil)
  exact Scanned.dir (A := answers Demo.dfs Demo.limited) (c := PathSorts.ALPHABETICAL) (maxDepth := 20) (k := 1) (p := Demo.a) (n := 1)
    (cs := [Demo.y, Demo.x]) (ks := [Demo.y, Demo.x]) (srt := [Demo.x, Demo.y]) (es := [.file Demo.x ⟨false, false⟩])
    rfl (by decide) rfl rfl (.keep rfl (.keep rfl .nil)) (by decide) (by decide) (.cons (.file rfl rfl) .nil)

/-- The hypotheses of C10 hold two levels down in that tree. -/
example := C10_child_limit (fs := Demo.dfs) (cwd := Path.root) rfl lawful_ALPHABETICAL Demo.scanned_limited
  (d := Demo.a) (es := [.file Demo.x ⟨false, false⟩, .skipped Demo.a]) (k := 1) (.inside (by simp) .here) (by decide) (n := 1) rfl

/-- The hypotheses of C11 hold in the unlimited demo tree. -/
example := C11_negative_limit_unlimited (fs := Demo.dfs) (cwd := Path.root) (o := Demo.dflt) rfl lawful_ALPHABETICAL Demo.scanned_found
  (d := Demo.a) (es := [.file Demo.x ⟨false, false⟩, .file Demo.y ⟨false, false⟩]) (k := 1) (.inside (by simp) .here) (by decide) (n := -1) (by decide) rfl

/-! ### C12 -/

/-- **C12**: if the limits of all directories grow, the larger tree is the smaller one with children appended at the end of directories that had a `...`. -/
theorem C12_growing_limits_append (hw : cwd.abs = true) (lim : Path → Except Exn Int)
    (hle : ∀ q n n', o.childLimit q = .ok n → lim q = .ok n' → limitLe n n') {p : Path} {t t' : TreeEntry}
    (h : scanned fs cwd o p = .ok t) (h' : scanned fs cwd (o.withChildLimitFn lim) p = .ok t') : Extends t t' := by
  rw [scanned_eq fs hw] at h h'
  exact handle_extends (o := o.toScan fs.lift) (o' := (o.withChildLimitFn lim).toScan fs.lift) rfl rfl rfl hle 0 _ t t' h h'

/-- **C12** for one directory `d`: if only its limit grows, the children shown before are an unchanged prefix of those shown after, and nothing else changes anywhere. -/
theorem C12_raising_one_limit (hfs : ProperFs fs) (hw : cwd.abs = true) (hc : LawfulCmp o.pathComparator) (d : Path) (lim : Path → Except Exn Int)
    (hne : ∀ q, q ≠ d → lim q = o.childLimit q) (hle : ∀ n n', o.childLimit d = .ok n → lim d = .ok n' → limitLe n n') {p : Path} {t t' : TreeEntry}
    (h : scanned fs cwd o p = .ok t) (h' : scanned fs cwd (o.withChildLimitFn lim) p = .ok t') : GrowsAt d t t' := by
  rw [scanned_eq fs hw] at h h'
  have ha : (target cwd p).abs = true := by
    unfold target; rw [Path.normalize_abs (Path.toAbsolutePath_abs hw)]
  exact handle_growsAt hfs (o := o.toScan fs.lift) (o' := (o.withChildLimitFn lim).toScan fs.lift) hc rfl rfl rfl d hne hle 0 _ ha t t' h h'

/-- Example: from the limited to the unlimited demo tree. -/
example : Extends (.dir Demo.r [.dir Demo.a [.file Demo.x ⟨false, false⟩, .skipped Demo.a], .file Demo.b ⟨false, false⟩, .skipped Demo.r]) Demo.found := by
  refine C12_growing_limits_append (fs := Demo.dfs) (cwd := Path.root) rfl (fun _ => pure (-1)) ?_ Demo.scanned_limited
    (p := Demo.r) (t' := Demo.found) Demo.scanned_found
  intro q n n' _ hn'; cases hn'; left; decide

/-! ### C13 -/

/-- **C13**: with max depth `d ≥ 0` nothing is displayed deeper than `d`, except the depth marker `...` one level below. -/
theorem C13_depth_bound (hw : cwd.abs = true) (hc : LawfulCmp o.pathComparator) (hD : 0 ≤ o.maxDepth) {p : Path} {t : TreeEntry} (h : scanned fs cwd o p = .ok t)
    {x : TreeEntry} {n : Nat} (hb : BelowAt x n t) :
    ((n : Int) ≤ o.maxDepth ∧ ∀ j, x ≠ .maxDepth j) ∨ ((n : Int) = o.maxDepth + 1 ∧ x = .maxDepth (n - 1)) := by
  have := (scanned_sound hw hc h).depth (by omega) hb
  simpa using this

/-- **C13**: each displayed directory at depth `d` has exactly one child, the marker, whether or not it is empty. -/
theorem C13_cut_directory (hw : cwd.abs = true) (hc : LawfulCmp o.pathComparator) {p : Path} {t : TreeEntry} (h : scanned fs cwd o p = .ok t)
    {d : Path} {es : List TreeEntry} {n : Nat} (hb : BelowAt (.dir d es) n t) (hn : (n : Int) = o.maxDepth) : es = [.maxDepth n] := by
  have hsub := (scanned_sound hw hc h).sub hb rfl
  rw [Nat.zero_add] at hsub
  obtain ⟨_, _, h | ⟨hlt, _⟩⟩ := hsub.dir_inv
  · exact h.2
  · omega

/-- The depth marker is displayed as one `...` line. -/
theorem C13_marker_line (L : Look) (n : Nat) (T : ITree) : Shows L (.maxDepth n) T ↔ T = .node .more [] := by
  constructor
  · intro h; cases h; rfl
  · rintro rfl; exact .maxDepth

/-- The demo disk with maximal depth 1. -/
def Demo.shallow : Options (Except Exn) := Demo.dflt.withMaxDepth 1

theorem Demo.scanned_shallow : scanned Demo.dfs Path.root Demo.shallow Demo.r =
    .ok (.dir Demo.r [.dir Demo.a [.maxDepth 1], .file Demo.b ⟨false, false⟩, .file Demo.z ⟨false, true⟩]) := by
  refine scanned_complete rfl lawful_ALPHABETICAL Demo.distinguishes ?_
  refine Scanned.dir (A := answers Demo.dfs Demo.shallow) (c := PathSorts.ALPHABETICAL) (maxDepth := 1) (k := 0) (p := Demo.r) (n := -1)
    (cs := [Demo.b, Demo.a, Demo.z]) (ks := [Demo.b, Demo.a, Demo.z]) (srt := [Demo.a, Demo.b, Demo.z])
    (es := [.dir Demo.a [.maxDepth 1], .file Demo.b ⟨false, false⟩, .file Demo.z ⟨false, true⟩])
    rfl (by decide) rfl rfl (.keep rfl (.keep rfl (.keep rfl .nil))) (by decide) (by decide) ?_
  exact .cons (.tooDeep rfl (by decide)) (.cons (.file rfl rfl) (.cons (.file rfl rfl) .nil))

example : BelowAt (.dir Demo.a [.maxDepth 1]) 1 (.dir Demo.r [.dir Demo.a [.maxDepth 1], .file Demo.b ⟨false, false⟩, .file Demo.z ⟨false, true⟩]) ∧
    ((1 : Nat) : Int) = Demo.shallow.maxDepth := ⟨.inside (by simp) .here, rfl⟩

/-! ### C14 -/

/-- **C14**: the tree printed with max depth `d` is the tree printed with `D ≥ d`, cut at depth `d`. -/
theorem C14_smaller_depth_truncates (hw : cwd.abs = true) (d : Nat) (D : Int) (hle : (d : Int) ≤ D) {p : Path} {t : TreeEntry}
    (h : scanned fs cwd (o.withMaxDepth D) p = .ok t) : scanned fs cwd (o.withMaxDepth d) p = .ok (cut d 0 t) := by
  rw [scanned_eq fs hw] at h ⊢
  exact handle_cut (o := (o.withMaxDepth D).toScan fs.lift) (o' := (o.withMaxDepth d).toScan fs.lift) rfl hle rfl rfl rfl 0 _ t h

/-- Example: the demo tree cut at depth 1 is the tree printed with maximal depth 1. -/
example : cut 1 0 Demo.found = .dir Demo.r [.dir Demo.a [.maxDepth 1], .file Demo.b ⟨false, false⟩, .file Demo.z ⟨false, true⟩] := rfl

/-! ### C15 -/

/-- **C15** is false of the code: with a negative max depth every printed directory only shows one marker child, whatever it contains. -/
theorem C15_negative_depth_prints_only_top (hw : cwd.abs = true) (n : Int) (hn : n < 0) (p : Path) (hd : fs.isDir (target cwd p) = true) :
    scanned fs cwd (o.withMaxDepth n) p = .ok (.dir (target cwd p) [.maxDepth 0]) := by
  rw [scanned_eq fs hw, handle_unfold, if_pos hd, if_pos]
  show n ≤ ((0 : Nat) : Int)
  omega

/-- **C15**, the printed text: the directory's name and `...`. -/
theorem C15_negative_depth_text (hw : cwd.abs = true) (n : Int) (hn : n < 0) (p : Path) (hd : fs.isDir (target cwd p) = true)
    (he : ∀ q, o.emojiMapping q = pure none) (hx : ∀ q, extensionOf o.toRender q = pure none) (hnm : (target cwd p).names ≠ []) :
    prettyPrint fs.lift cwd (o.withMaxDepth n) p =
      .ok (lastName (target cwd p) ++ j!"/" ++ NL :: (o.treeFormat.lastChildSymbol ++ SPACE :: j!"...")) := by
  rw [prettyPrint_eq, C15_negative_depth_prints_only_top hw n hn p hd]
  have h := C01_render_is_picture (o.withMaxDepth n).toRender (plain o.compactDirectories) he rfl hx
    (.dir (target cwd p) [.maxDepth 0]) (by simp [Named, NamedAll, hnm]) _ (.dir (.cons .maxDepth .nil))
  show Renderer.renderRoot _ _ _ = _
  rw [h]
  simp [picture, ITree.toDisp, toDispAll, layout, layoutKids, block, joinLines, Item.label, plain, emojiText, SPACE]
  rfl

/-- **C15**, documented claim refuted: there are a file system and options where max depth `-1` and an unreached max depth give different results. -/
theorem C15_documented_claim_false : ¬ ∀ (fs : PureFs) (o : Options (Except Exn)) (p : Path) (n : Int), n < 0 →
    (∀ t, scanned fs Path.root o p = .ok t → (∀ j, ¬ Below (.maxDepth j) t) → scanned fs Path.root (o.withMaxDepth n) p = .ok t) := by
  intro h
  have hm : ∀ j, ¬ Below (.maxDepth j) Demo.found := by
    intro j h
    rcases h with _ | ⟨hx, h⟩
    simp at hx; rcases hx with rfl | rfl | rfl
    · rcases h with _ | ⟨hx, h⟩
      simp at hx; rcases hx with rfl | rfl <;> cases h
    · cases h
    · cases h
  have h1 := h Demo.dfs Demo.dflt Demo.r (-1) (by decide) _ Demo.scanned_found hm
  rw [C15_negative_depth_prints_only_top rfl (-1) (by decide) Demo.r rfl] at h1
  cases h1

/-! ### C58 -/

/-- **C58**: no path is displayed twice, and every displayed path extends the printed one. -/
theorem C58_every_path_once (hfs : ProperFs fs) (hw : cwd.abs = true) (hc : LawfulCmp o.pathComparator) {p : Path} {t : TreeEntry} (h : scanned fs cwd o p = .ok t) :
    (entryPaths t).Nodup ∧ ∀ q ∈ entryPaths t, q.abs = true ∧ (target cwd p).names <+: q.names := by
  have ha : (target cwd p).abs = true := by
    unfold target; rw [Path.normalize_abs (Path.toAbsolutePath_abs hw)]
  exact (scanned_sound hw hc h).nodup hfs ha

example := C58_every_path_once (o := Demo.dflt) Demo.proper (cwd := Path.root) rfl lawful_ALPHABETICAL Demo.scanned_found

end
end JFTP
