import Verif.Props.Recipes
import Verif.Props.DefaultEmojis

/-
C93: the other recipes of README.md.
-/

namespace JFTP
open Spec

section
variable {fs : PureFs} {cwd : Path} (hw : cwd.abs = true)
include hw

/-- Everything is displayed down to the maximal depth. -/
theorem all_displayed {o : Options (Except Exn)} (hc : LawfulCmp o.pathComparator) {L : Look} (he : ∀ p, o.emojiMapping p = pure (L.emoji p))
    (hcd : o.compactDirectories = L.compact) (hx : ∀ p, extensionOf o.toRender p = pure (L.ext p)) (hlim : ∀ q n, o.childLimit q = .ok n → n < 0)
    (hd : ∀ q, o.dirMatcher q = .ok true) (hf : ∀ q, o.fileMatcher q = .ok true) {D : Nat} (hD : o.maxDepth = D)
    {p : Path} {s : JStr} (h : prettyPrint fs.lift cwd o p = .ok s) :
    ∃ (items : List (Nat × Item)) (lines : List JStr), s = joinLines lines ∧ List.Forall₂ (IsLineOf o.treeFormat L) items lines ∧
      ∀ q, (∃ x ∈ items, some q ∈ x.2.shows) ↔ ∃ k ≤ D, Led fs (fun _ => True) (fun _ => True) (target cwd p) k q := by
  obtain ⟨items, lines, h1, h2, h3⟩ := C06_printed_paths hw hc he hcd hx hlim h
  have hled : ∀ k q, DisplayedAt fs o (target cwd p) k q ↔ Led fs (fun _ => True) (fun _ => True) (target cwd p) k q := by
    intro k q
    constructor
    · intro h
      induction h with
      | top => exact .top
      | child _ h1 h2 h3 _ _ ih => exact .child ih h1 trivial h2 h3 trivial
    · intro h
      induction h with
      | top => exact .top
      | child _ h1 _ h2 h3 _ ih => exact .child ih h1 h2 h3 (fun _ => hd _) (fun _ => hf _)
  refine ⟨items, lines, h1, h2, fun q => (h3 q).trans ?_⟩
  simp only [hled, hD]
  constructor
  · rintro ⟨k, h, hk⟩
    exact ⟨k, by omega, h⟩
  · rintro ⟨k, hk, h⟩
    exact ⟨k, h, by omega⟩

/-- **C93**, BasicUsage.java: without options everything within 20 levels is displayed. -/
theorem C93_basic_program {s : JStr} (h : Recipes.basicUsage (m := Except Exn) fs.lift cwd = .ok s) :
    ∃ (items : List (Nat × Item)) (lines : List JStr), s = joinLines lines ∧ List.Forall₂ (IsLineOf TreeFormats.UNICODE_BOX_DRAWING (plain false)) items lines ∧
      ∀ q, (∃ x ∈ items, some q ∈ x.2.shows) ↔ ∃ k ≤ 20, Led fs (fun _ => True) (fun _ => True) (target cwd (Path.ofString j!"src/main/resources/base")) k q := by
  unfold Recipes.basicUsage at h
  simp only at h
  rw [C47_string _ _ hw] at h
  exact all_displayed (o := Options.createDefault) hw lawful_ALPHABETICAL (L := plain false) (fun _ => rfl) rfl (fun _ => rfl) (fun _ _ h => by cases h; decide) (fun _ => rfl) (fun _ => rfl) (D := 20) rfl h

/-- **C93**, FileTreeFormat.java: the same with the lines drawn in the classic format. -/
theorem C93_format_program {s : JStr} (h : Recipes.fileTreeFormat (m := Except Exn) fs.lift cwd = .ok s) :
    ∃ (items : List (Nat × Item)) (lines : List JStr), s = joinLines lines ∧ List.Forall₂ (IsLineOf TreeFormats.CLASSIC_ASCII (plain false)) items lines ∧
      ∀ q, (∃ x ∈ items, some q ∈ x.2.shows) ↔ ∃ k ≤ 20, Led fs (fun _ => True) (fun _ => True) (target cwd (Path.ofString j!"src/main/resources/tree_format")) k q := by
  unfold Recipes.fileTreeFormat at h
  simp only at h
  rw [C47_string _ _ hw] at h
  exact all_displayed (o := Options.createDefault.withTreeFormat TreeFormats.CLASSIC_ASCII) hw lawful_ALPHABETICAL (L := plain false) (fun _ => rfl) rfl (fun _ => rfl)
    (fun _ _ h => by cases h; decide) (fun _ => rfl) (fun _ => rfl) (D := 20) rfl h

/-- **C93**, MaxDepth.java: everything within three levels is displayed and nothing below; a directory at the third level has one line `...` below it. -/
theorem C93_maxDepth_program {s : JStr} (h : Recipes.maxDepth (m := Except Exn) fs.lift cwd = .ok s) :
    (∃ (items : List (Nat × Item)) (lines : List JStr), s = joinLines lines ∧ List.Forall₂ (IsLineOf TreeFormats.UNICODE_BOX_DRAWING (plain false)) items lines ∧
      ∀ q, (∃ x ∈ items, some q ∈ x.2.shows) ↔ ∃ k ≤ 3, Led fs (fun _ => True) (fun _ => True) (target cwd (Path.ofString j!"src/main/resources/max_depth")) k q) ∧
    ∃ t T, Prints (Options.createDefault.withMaxDepth 3) t T s ∧ ∀ d es, BelowAt (.dir d es) 3 t → es = [.maxDepth 3] := by
  unfold Recipes.maxDepth at h
  simp only at h
  rw [C47_string _ _ hw] at h
  refine ⟨all_displayed (o := Options.createDefault.withMaxDepth 3) hw lawful_ALPHABETICAL (L := plain false) (fun _ => rfl) rfl (fun _ => rfl)
    (fun _ _ h => by cases h; decide) (fun _ => rfl) (fun _ => rfl) (D := 3) rfl h, ?_⟩
  obtain ⟨t, T, -, hp, -, hcut⟩ := C13_text (o := Options.createDefault.withMaxDepth 3) hw lawful_ALPHABETICAL (by decide) h
  exact ⟨t, T, hp, fun d es hb => hcut d es 3 hb rfl⟩

/-- **C93**, CompactDirectories.java: everything within 20 levels is displayed, and a line below the first one that ends with a directory whose only content is a directory does not exist. -/
theorem C93_compact_program {s : JStr} (h : Recipes.compactDirectories (m := Except Exn) fs.lift cwd = .ok s) :
    (∃ (items : List (Nat × Item)) (lines : List JStr), s = joinLines lines ∧ List.Forall₂ (IsLineOf TreeFormats.UNICODE_BOX_DRAWING (plain true)) items lines ∧
      ∀ q, (∃ x ∈ items, some q ∈ x.2.shows) ↔ ∃ k ≤ 20, Led fs (fun _ => True) (fun _ => True) (target cwd (Path.ofString j!"src/main/resources/single_directory_child")) k q) ∧
    ∃ t T, Prints (Options.createDefault.withCompactDirectories true) t T s ∧
      ∀ x ∈ (T.items 0).tail, ∀ ds last, x.2 = .dirs ds last → ∃ d0 es0 es', Below (.dir d0 es0) t ∧ Chain (plain true) d0 es0 ds last es' ∧ ∀ c ces, es' ≠ [.dir c ces] := by
  unfold Recipes.compactDirectories at h
  simp only at h
  rw [C47_string _ _ hw] at h
  refine ⟨all_displayed (o := Options.createDefault.withCompactDirectories true) hw lawful_ALPHABETICAL (L := plain true) (fun _ => rfl) rfl (fun _ => rfl)
    (fun _ _ h => by cases h; decide) (fun _ => rfl) (fun _ => rfl) (D := 20) rfl h, ?_⟩
  obtain ⟨t, T, ht, hp⟩ := printed h
  refine ⟨t, T, hp, ?_⟩
  intro x hx ds last hd
  cases t with
  | dir d es =>
    obtain ⟨d0, es0, es', ⟨e, he, hb⟩, hch⟩ := (C22_lines_are_maximal_chains _ d es T hp.shows).2 x hx ds last hd
    refine ⟨d0, es0, es', .inside he hb, hch, fun c ces e => ?_⟩
    obtain ⟨_, _, _, _, _, hmax⟩ := (C22_chain_iff ..).1 hch
    exact hmax ⟨rfl, ⟨c, ces, e⟩, rfl⟩
  | file p a => cases hp.shows with | other _ h => cases h; simp [ITree.items, itemsAll] at hx
  | skipped p => cases hp.shows with | other _ h => cases h; simp [ITree.items, itemsAll] at hx
  | maxDepth p => cases hp.shows with | other _ h => cases h; simp [ITree.items, itemsAll] at hx

/-- **C93**, ChildLimitStatic.java: every directory shows its first three entries in alphabetical order, followed by `...` if it has more. -/
theorem C93_childLimitStatic_program {s : JStr} (h : Recipes.childLimitStatic (m := Except Exn) fs.lift cwd = .ok s) :
    ∃ t T, Prints (Options.createDefault.withChildLimit 3) t T s ∧ ∀ d es k, BelowAt (.dir d es) k t → k < 20 →
      ∃ (cs sorted : List Path) (shown : List TreeEntry), fs.listDir d = .opened cs false ∧ sorted.Perm cs ∧ sorted.Pairwise (fun a b => compareTo (lastName a) (lastName b) ≤ 0) ∧
        shown.map entryPath = (sorted.take 3).map some ∧ es = shown ++ (if 3 < cs.length then [.skipped d] else []) := by
  unfold Recipes.childLimitStatic at h
  simp only at h
  rw [C47_string _ _ hw] at h
  obtain ⟨t, T, ht, hp⟩ := printed h
  refine ⟨t, T, hp, fun d es k hb hk => ?_⟩
  obtain ⟨cs, srt, shown, h1, h2, h3, h4, h5⟩ := C10_child_limit (o := Options.createDefault.withChildLimit 3) hw lawful_ALPHABETICAL ht hb (by show (k : Int) < 20; omega) (n := 3) rfl
  have hall : cs.filter (passes fs (Options.createDefault.withChildLimit 3 : Options (Except Exn))) = cs := by
    rw [List.filter_eq_self]
    exact fun q _ => passes_iff.2 ⟨fun _ => rfl, fun _ => rfl⟩
  rw [hall] at h2
  refine ⟨cs, srt, shown, h1, h2, ?_, h4, ?_⟩
  · refine h3.imp fun {a b} hab => ?_
    rw [lastName_eq, lastName_eq]
    exact hab
  · rw [h5, h2.length_eq]

/-- **C93**, Sorting.java: in every directory the displayed directories come before the other entries; within both groups the order is alphabetical. -/
theorem C93_sorting_program {s : JStr} (h : Recipes.sorting (m := Except Exn) fs.isDir fs.lift cwd = .ok s) :
    ∃ t T, Prints (Options.createDefault.sort (PathSorts.DIRECTORY_FIRST fs.isDir)) t T s ∧ ∀ d es, Below (.dir d es) t →
      (es.filterMap entryPath).Pairwise (fun a b => (fs.isDir a = true ∧ fs.isDir b = false) ∨ (fs.isDir a = fs.isDir b ∧ compareTo (lastName a) (lastName b) ≤ 0)) := by
  unfold Recipes.sorting at h
  simp only at h
  rw [C47_string _ _ hw] at h
  obtain ⟨t, T, ht, hp⟩ := printed h
  refine ⟨t, T, hp, fun d es hb => ?_⟩
  refine (C08_children_sorted (o := Options.createDefault.sort (PathSorts.DIRECTORY_FIRST fs.isDir)) hw (lawful_DIRECTORY_FIRST fs.isDir) rfl ht hb).imp fun {a b} hab => ?_
  unfold PathSorts.DIRECTORY_FIRST at hab
  cases ha : fs.isDir a <;> cases hb : fs.isDir b <;> simp [ha, hb] at hab ⊢ <;> exact hab

end

namespace Demo

/-- A directory for each of the programs, with a file `a` and an empty directory `b`. -/
def pair : Node := .dir true [(j!"b", .dir true []), (j!"a", .regular 1)]

def pairDisk : Node := .dir true [(j!"src", .dir true [(j!"main", .dir true [(j!"resources", .dir true [
  (j!"base", pair), (j!"tree_format", pair), (j!"single_directory_child", pair), (j!"child_limit_static", pair), (j!"sorting", pair)])])])]

def pairFs : PureFs := pairDisk.toFs

theorem pair_proper : ProperFs pairFs := Node.WF.proper (t := pairDisk) (by simp [pairDisk, pair, Node.WF, Node.WFAll])

theorem basic_run : Recipes.basicUsage (m := Except Exn) pairFs.lift Path.root = .ok (joinLines [j!"base/", j!"├─ a", j!"└─ b/"]) := by
  unfold Recipes.basicUsage
  simp only
  rw [C47_string _ _ rfl]
  show prettyPrint _ _ _ _ = _
  have h : scanned pairFs Path.root Options.createDefault (Path.ofString j!"src/main/resources/base") = .ok (.dir (res [j!"base"]) [.file (res [j!"base", j!"a"]) ⟨false, false⟩, .dir (res [j!"base", j!"b"]) []]) := by
    refine scanned_complete rfl lawful_ALPHABETICAL (sort_distinguishes lawful_const pair_proper) ?_
    refine Scanned.dir (A := answers pairFs Options.createDefault) (c := PathSorts.ALPHABETICAL) (maxDepth := 20) (k := 0) (p := res [j!"base"]) (n := -1)
      (cs := [res [j!"base", j!"b"], res [j!"base", j!"a"]]) (ks := [res [j!"base", j!"b"], res [j!"base", j!"a"]]) (srt := [res [j!"base", j!"a"], res [j!"base", j!"b"]]) (es := [.file (res [j!"base", j!"a"]) ⟨false, false⟩, .dir (res [j!"base", j!"b"]) []])
      rfl (by decide) rfl rfl (.keep rfl (.keep rfl .nil)) (by decide) (by decide) (.cons (.file rfl rfl) (.cons ?_ .nil))
    exact Scanned.dir (A := answers pairFs Options.createDefault) (c := PathSorts.ALPHABETICAL) (maxDepth := 20) (k := 1) (p := res [j!"base", j!"b"]) (n := -1) (cs := []) (ks := []) (srt := []) (es := [])
      rfl (by decide) rfl rfl .nil (by decide) (by decide) .nil
  rw [prettyPrint_eq, h]
  show Renderer.renderRoot _ _ _ = _
  rw [C01_render_is_picture_effectful]
  simp only [dispM, dispDirM, dispKidsM]
  rfl

theorem format_run : Recipes.fileTreeFormat (m := Except Exn) pairFs.lift Path.root = .ok (joinLines [j!"tree_format/", j!"|-- a", j!"`-- b/"]) := by
  unfold Recipes.fileTreeFormat
  simp only
  rw [C47_string _ _ rfl]
  show prettyPrint _ _ _ _ = _
  have h : scanned pairFs Path.root (Options.createDefault.withTreeFormat TreeFormats.CLASSIC_ASCII) (Path.ofString j!"src/main/resources/tree_format") = .ok (.dir (res [j!"tree_format"]) [.file (res [j!"tree_format", j!"a"]) ⟨false, false⟩, .dir (res [j!"tree_format", j!"b"]) []]) := by
    refine scanned_complete rfl lawful_ALPHABETICAL (sort_distinguishes lawful_const pair_proper) ?_
    refine Scanned.dir (A := answers pairFs (Options.createDefault.withTreeFormat TreeFormats.CLASSIC_ASCII)) (c := PathSorts.ALPHABETICAL) (maxDepth := 20) (k := 0) (p := res [j!"tree_format"]) (n := -1)
      (cs := [res [j!"tree_format", j!"b"], res [j!"tree_format", j!"a"]]) (ks := [res [j!"tree_format", j!"b"], res [j!"tree_format", j!"a"]]) (srt := [res [j!"tree_format", j!"a"], res [j!"tree_format", j!"b"]]) (es := [.file (res [j!"tree_format", j!"a"]) ⟨false, false⟩, .dir (res [j!"tree_format", j!"b"]) []])
      rfl (by decide) rfl rfl (.keep rfl (.keep rfl .nil)) (by decide) (by decide) (.cons (.file rfl rfl) (.cons ?_ .nil))
    exact Scanned.dir (A := answers pairFs (Options.createDefault.withTreeFormat TreeFormats.CLASSIC_ASCII)) (c := PathSorts.ALPHABETICAL) (maxDepth := 20) (k := 1) (p := res [j!"tree_format", j!"b"]) (n := -1) (cs := []) (ks := []) (srt := []) (es := [])
      rfl (by decide) rfl rfl .nil (by decide) (by decide) .nil
  rw [prettyPrint_eq, h]
  show Renderer.renderRoot _ _ _ = _
  rw [C01_render_is_picture_effectful]
  simp only [dispM, dispDirM, dispKidsM]
  rfl

theorem compact_run : Recipes.compactDirectories (m := Except Exn) pairFs.lift Path.root = .ok (joinLines [j!"single_directory_child/", j!"├─ a", j!"└─ b/"]) := by
  unfold Recipes.compactDirectories
  simp only
  rw [C47_string _ _ rfl]
  show prettyPrint _ _ _ _ = _
  have h : scanned pairFs Path.root (Options.createDefault.withCompactDirectories true) (Path.ofString j!"src/main/resources/single_directory_child") = .ok (.dir (res [j!"single_directory_child"]) [.file (res [j!"single_directory_child", j!"a"]) ⟨false, false⟩, .dir (res [j!"single_directory_child", j!"b"]) []]) := by
    refine scanned_complete rfl lawful_ALPHABETICAL (sort_distinguishes lawful_const pair_proper) ?_
    refine Scanned.dir (A := answers pairFs (Options.createDefault.withCompactDirectories true)) (c := PathSorts.ALPHABETICAL) (maxDepth := 20) (k := 0) (p := res [j!"single_directory_child"]) (n := -1)
      (cs := [res [j!"single_directory_child", j!"b"], res [j!"single_directory_child", j!"a"]]) (ks := [res [j!"single_directory_child", j!"b"], res [j!"single_directory_child", j!"a"]]) (srt := [res [j!"single_directory_child", j!"a"], res [j!"single_directory_child", j!"b"]]) (es := [.file (res [j!"single_directory_child", j!"a"]) ⟨false, false⟩, .dir (res [j!"single_directory_child", j!"b"]) []])
      rfl (by decide) rfl rfl (.keep rfl (.keep rfl .nil)) (by decide) (by decide) (.cons (.file rfl rfl) (.cons ?_ .nil))
    exact Scanned.dir (A := answers pairFs (Options.createDefault.withCompactDirectories true)) (c := PathSorts.ALPHABETICAL) (maxDepth := 20) (k := 1) (p := res [j!"single_directory_child", j!"b"]) (n := -1) (cs := []) (ks := []) (srt := []) (es := [])
      rfl (by decide) rfl rfl .nil (by decide) (by decide) .nil
  rw [prettyPrint_eq, h]
  show Renderer.renderRoot _ _ _ = _
  rw [C01_render_is_picture_effectful]
  simp only [dispM, dispDirM, dispKidsM]
  rfl

theorem childLimitStatic_run : Recipes.childLimitStatic (m := Except Exn) pairFs.lift Path.root = .ok (joinLines [j!"child_limit_static/", j!"├─ a", j!"└─ b/"]) := by
  unfold Recipes.childLimitStatic
  simp only
  rw [C47_string _ _ rfl]
  show prettyPrint _ _ _ _ = _
  have h : scanned pairFs Path.root (Options.createDefault.withChildLimit 3) (Path.ofString j!"src/main/resources/child_limit_static") = .ok (.dir (res [j!"child_limit_static"]) [.file (res [j!"child_limit_static", j!"a"]) ⟨false, false⟩, .dir (res [j!"child_limit_static", j!"b"]) []]) := by
    refine scanned_complete rfl lawful_ALPHABETICAL (sort_distinguishes lawful_const pair_proper) ?_
    refine Scanned.dir (A := answers pairFs (Options.createDefault.withChildLimit 3)) (c := PathSorts.ALPHABETICAL) (maxDepth := 20) (k := 0) (p := res [j!"child_limit_static"]) (n := 3)
      (cs := [res [j!"child_limit_static", j!"b"], res [j!"child_limit_static", j!"a"]]) (ks := [res [j!"child_limit_static", j!"b"], res [j!"child_limit_static", j!"a"]]) (srt := [res [j!"child_limit_static", j!"a"], res [j!"child_limit_static", j!"b"]]) (es := [.file (res [j!"child_limit_static", j!"a"]) ⟨false, false⟩, .dir (res [j!"child_limit_static", j!"b"]) []])
      rfl (by decide) rfl rfl (.keep rfl (.keep rfl .nil)) (by decide) (by decide) (.cons (.file rfl rfl) (.cons ?_ .nil))
    exact Scanned.dir (A := answers pairFs (Options.createDefault.withChildLimit 3)) (c := PathSorts.ALPHABETICAL) (maxDepth := 20) (k := 1) (p := res [j!"child_limit_static", j!"b"]) (n := 3) (cs := []) (ks := []) (srt := []) (es := [])
      rfl (by decide) rfl rfl .nil (by decide) (by decide) .nil
  rw [prettyPrint_eq, h]
  show Renderer.renderRoot _ _ _ = _
  rw [C01_render_is_picture_effectful]
  simp only [dispM, dispDirM, dispKidsM]
  rfl

theorem sorting_run : Recipes.sorting (m := Except Exn) pairFs.isDir pairFs.lift Path.root = .ok (joinLines [j!"sorting/", j!"├─ b/", j!"└─ a"]) := by
  unfold Recipes.sorting
  simp only
  rw [C47_string _ _ rfl]
  show prettyPrint _ _ _ _ = _
  have h : scanned pairFs Path.root (Options.createDefault.sort (PathSorts.DIRECTORY_FIRST pairFs.isDir)) (Path.ofString j!"src/main/resources/sorting") = .ok (.dir (res [j!"sorting"]) [.dir (res [j!"sorting", j!"b"]) [], .file (res [j!"sorting", j!"a"]) ⟨false, false⟩]) := by
    refine scanned_complete rfl (sort_lawful (lawful_DIRECTORY_FIRST _)) (sort_distinguishes (lawful_DIRECTORY_FIRST _) pair_proper) ?_
    refine Scanned.dir (A := answers pairFs (Options.createDefault.sort (PathSorts.DIRECTORY_FIRST pairFs.isDir))) (c := (thenComparing (PathSorts.DIRECTORY_FIRST pairFs.isDir) PathSorts.ALPHABETICAL)) (maxDepth := 20) (k := 0) (p := res [j!"sorting"]) (n := -1)
      (cs := [res [j!"sorting", j!"b"], res [j!"sorting", j!"a"]]) (ks := [res [j!"sorting", j!"b"], res [j!"sorting", j!"a"]]) (srt := [res [j!"sorting", j!"b"], res [j!"sorting", j!"a"]]) (es := [.dir (res [j!"sorting", j!"b"]) [], .file (res [j!"sorting", j!"a"]) ⟨false, false⟩])
      rfl (by decide) rfl rfl (.keep rfl (.keep rfl .nil)) (by decide) (by decide) (.cons ?_ (.cons (.file rfl rfl) .nil))
    exact Scanned.dir (A := answers pairFs (Options.createDefault.sort (PathSorts.DIRECTORY_FIRST pairFs.isDir))) (c := (thenComparing (PathSorts.DIRECTORY_FIRST pairFs.isDir) PathSorts.ALPHABETICAL)) (maxDepth := 20) (k := 1) (p := res [j!"sorting", j!"b"]) (n := -1) (cs := []) (ks := []) (srt := []) (es := [])
      rfl (by decide) rfl rfl .nil (by decide) (by decide) .nil
  rw [prettyPrint_eq, h]
  show Renderer.renderRoot _ _ _ = _
  rw [C01_render_is_picture_effectful]
  simp only [dispM, dispDirM, dispKidsM]
  rfl

end Demo

example := C93_basic_program rfl Demo.basic_run
example := C93_format_program rfl Demo.format_run
example := C93_compact_program rfl Demo.compact_run
example := C93_childLimitStatic_program rfl Demo.childLimitStatic_run
example := C93_sorting_program rfl Demo.sorting_run
example := C93_maxDepth_program rfl Demo.maxDepth_run

end JFTP
