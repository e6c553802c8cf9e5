import Verif.Lemmas.Disk
import Verif.Props.Display

/-!
C06–C21, C58: which entries are printed.

`scanned fs cwd o p` is the entry tree behind the call `prettyPrint(p)`; how its entries are turned into lines is C01.
-/

namespace JFTP
open Spec

/-- The text of a successful call, its entry tree and the items on its lines. -/
theorem prettyPrint_ok {fs : PureFs} {cwd : Path} {o : Options (Except Exn)} {L : Look} (he : ∀ p, o.emojiMapping p = pure (L.emoji p))
    (hc : o.compactDirectories = L.compact) (hx : ∀ p, extensionOf o.toRender p = pure (L.ext p)) {p : Path} {s : JStr}
    (h : prettyPrint fs.lift cwd o p = .ok s) :
    ∃ t T lines, scanned fs cwd o p = .ok t ∧ ShowsTop L t T ∧ s = joinLines lines ∧
      List.Forall₂ (IsLineOf o.treeFormat L) (T.items 0) lines ∧ (T.items 0).flatMap (fun x => x.2.shows) = events t := by
  rw [prettyPrint_eq] at h
  obtain ⟨t, ht, h⟩ := except_bind_ok h
  obtain ⟨T, hT⟩ := ShowsTop.exists L t
  have hn : Named t := by
    rw [C01_render_is_picture_effectful] at h
    obtain ⟨D, hD, _⟩ := except_bind_ok h
    exact dispM_ok_named _ true t hD
  obtain ⟨lines, h1, h2, h3⟩ := lines_of_output o.toRender L he hc hx t hn T hT
  rw [h1] at h
  exact ⟨t, T, lines, ht, hT, (Except.ok.inj h).symm, h2, h3⟩

/-! ### C06 -/

section
variable {fs : PureFs} {cwd : Path} {o : Options (Except Exn)}

/-- Displayed paths above the depth limit are found at their depth. -/
theorem displayed_found {p : Path} {t : TreeEntry} (hs : Scanned (answers fs o) o.pathComparator o.maxDepth 0 p t)
    (hlim : ∀ q n, o.childLimit q = .ok n → n < 0) {k : Nat} {q : Path} (hd : DisplayedAt fs o p k q) (hk : k = 0 ∨ (k : Int) ≤ o.maxDepth) :
    ∃ x, BelowAt x k t ∧ entryPath x = some q := by
  induction hd with
  | top => exact ⟨t, .here, hs.entryPath_eq⟩
  | @child k d cs q _ h1 h2 h3 h4 h5 ih =>
    obtain ⟨x, hx, hxp⟩ := ih (by omega)
    have hsub := hs.sub hx hxp
    rw [Nat.zero_add] at hsub
    cases hsub with
    | file hf _ => have hf : fs.isDir d = false := hf; rw [h1] at hf; cases hf
    | tooDeep _ hdeep => omega
    | @dir _ _ n cs' ks srt es' a1 ak a2 a3 a4 a5 a6 a7 =>
      have a3 : fs.listDir d = .opened cs' false := a3
      rw [h2] at a3; cases a3
      have hn := hlim d n a2
      have hmem : q ∈ limitTo n srt := by
        unfold limitTo; rw [if_pos hn]
        rw [a5.mem_iff, kept_filter a4]
        exact List.mem_filter.2 ⟨h3, passes_iff.2 ⟨h4, h5⟩⟩
      obtain ⟨e, he, hse⟩ := a7.mem_path hmem
      exact ⟨e, hx.child (List.mem_append.2 (.inl he)), hse.entryPath_eq⟩

theorem visited_displayed {p : Path} {k : Nat} {q : Path} {c : Cmp} {D : Int} (hv : Visited (answers fs o) c D 0 p k q) :
    DisplayedAt fs o p k q ∧ (k = 0 ∨ (k : Int) ≤ D) := by
  induction hv with
  | top => exact ⟨.top, .inl rfl⟩
  | @child k d n cs ks srt q _ h1 hk h2 h3 h4 h5 h6 h7 ih =>
    refine ⟨?_, .inr (by omega)⟩
    have hm : q ∈ cs.filter (passes fs o) := by
      rw [← kept_filter h4]; exact h5.mem_iff.1 ((limitTo_sublist n srt).subset h7)
    obtain ⟨hm1, hm2⟩ := List.mem_filter.1 hm
    obtain ⟨f1, f2⟩ := passes_iff.1 hm2
    exact .child ih.1 h1 h3 hm1 f1 f2

variable (hw : cwd.abs = true) (hc : LawfulCmp o.pathComparator)
include hw hc

/-- **C06**, filters and depth: without child limit a path is displayed iff it is the printed path itself, or its parent directory is displayed, lists it, and it passes
the filter for its kind — down to the maximal depth. -/
theorem C06_display_set_to_depth (hlim : ∀ q n, o.childLimit q = .ok n → n < 0) {p : Path} {t : TreeEntry}
    (h : scanned fs cwd o p = .ok t) (q : Path) :
    q ∈ entryPaths t ↔ ∃ k : Nat, DisplayedAt fs o (target cwd p) k q ∧ (k = 0 ∨ (k : Int) ≤ o.maxDepth) := by
  have hs := scanned_sound hw hc h
  rw [mem_entryPaths]
  constructor
  · rintro ⟨n, x, hb, hq⟩
    have hv := hs.visited hb hq
    rw [Nat.zero_add] at hv
    exact ⟨n, visited_displayed hv⟩
  · rintro ⟨k, hd, hk⟩
    exact ⟨k, displayed_found hs hlim hd hk⟩

/-- **C06**: with no child limit and enough depth (no directory had to be cut), a path is displayed iff it is the printed path itself, or its parent directory is displayed and
lists it and it passes the directory filter (if a directory) or the file filter (otherwise). -/
theorem C06_exact_display_set (hlim : ∀ q n, o.childLimit q = .ok n → n < 0) {p : Path} {t : TreeEntry}
    (h : scanned fs cwd o p = .ok t) (hdeep : ∀ j, ¬ Below (.maxDepth j) t) (q : Path) :
    q ∈ entryPaths t ↔ ∃ k : Nat, DisplayedAt fs o (target cwd p) k q := by
  rw [C06_display_set_to_depth hw hc hlim h]
  refine ⟨fun ⟨k, h1, _⟩ => ⟨k, h1⟩, fun ⟨k, h1⟩ => ⟨k, h1, ?_⟩⟩
  have hs := scanned_sound hw hc h
  induction h1 with
  | top => exact .inl rfl
  | @child k d cs q hd h1 _ _ _ _ ih =>
    right
    obtain ⟨x, hx, hxp⟩ := displayed_found hs hlim hd (ih ⟨_, hd⟩)
    have hsub := hs.sub hx hxp
    rw [Nat.zero_add] at hsub
    cases hsub with
    | file hf _ => have hf : fs.isDir d = false := hf; rw [h1] at hf; cases hf
    | tooDeep _ _ => exact absurd (hx.child (x := .maxDepth k) (by simp)).isBelow (hdeep k)
    | dir _ hk _ _ _ _ _ _ => omega

/-- **C06**: the printed path itself is always displayed, whatever the filters say about it. -/
theorem C06_top_never_filtered {p : Path} {t : TreeEntry} (h : scanned fs cwd o p = .ok t) : (entryPaths t).head? = some (target cwd p) := by
  have hs := scanned_sound hw hc h
  cases hs <;> rfl

/-- **C06** on the printed text: the paths on the lines of the output are exactly those of the display set. -/
theorem C06_printed_paths {L : Look} (he : ∀ p, o.emojiMapping p = pure (L.emoji p))
    (hcd : o.compactDirectories = L.compact) (hx : ∀ p, extensionOf o.toRender p = pure (L.ext p))
    (hlim : ∀ q n, o.childLimit q = .ok n → n < 0) {p : Path} {s : JStr} (h : prettyPrint fs.lift cwd o p = .ok s) :
    ∃ (items : List (Nat × Item)) (lines : List JStr), s = joinLines lines ∧ List.Forall₂ (IsLineOf o.treeFormat L) items lines ∧
      ∀ q, (∃ x ∈ items, some q ∈ x.2.shows) ↔
        ∃ k : Nat, DisplayedAt fs o (target cwd p) k q ∧ (k = 0 ∨ (k : Int) ≤ o.maxDepth) := by
  obtain ⟨t, T, lines, ht, hT, h1, h2, h3⟩ := prettyPrint_ok he hcd hx h
  refine ⟨T.items 0, lines, h1, h2, fun q => ?_⟩
  rw [← C06_display_set_to_depth hw hc hlim ht q]
  unfold entryPaths
  rw [← h3]
  simp

end

example : Below (.dir Demo.a [.file Demo.x ⟨false, false⟩, .file Demo.y ⟨false, false⟩]) Demo.found ∧
    entryPaths Demo.found = [Demo.r, Demo.a, Demo.x, Demo.y, Demo.b, Demo.z] ∧ (∀ j, ¬ Below (.maxDepth j) Demo.found) := by
  refine ⟨.inside (by simp) .here, rfl, ?_⟩
  intro j h
  rcases h with _ | ⟨hx, h⟩
  simp at hx; rcases hx with rfl | rfl | rfl
  · rcases h with _ | ⟨hx, h⟩
    simp at hx; rcases hx with rfl | rfl <;> cases h
  · cases h
  · cases h

/-- The hypotheses of C06 hold for the demo disk; the display set there contains `/r/a/x`, two levels down. -/
example : DisplayedAt Demo.dfs Demo.dflt Demo.r 2 Demo.x ∧ Demo.x ∈ entryPaths Demo.found := by
  have h : DisplayedAt Demo.dfs Demo.dflt Demo.r 2 Demo.x :=
    .child (d := Demo.a) (cs := [Demo.y, Demo.x]) (.child (cs := [Demo.b, Demo.a, Demo.z]) .top rfl rfl (by decide) (fun _ => rfl) (fun _ => rfl))
      rfl rfl (by decide) (fun _ => rfl) (fun _ => rfl)
  refine ⟨h, (C06_display_set_to_depth (cwd := Path.root) rfl lawful_ALPHABETICAL ?_ Demo.scanned_found Demo.x).2 ⟨2, h, .inr (by decide)⟩⟩
  intro q n hq; cases hq; decide

/-! ### C07 -/

/-- **C07**: two file systems that agree on everything a run of `prettyPrint` has to look at — the displayed paths, the listings of the displayed directories above the depth limit,
and the kinds of the entries listed there — make it return the same string (or throw the same exception). What lies below rejected directories, beyond the child limit or below the depth limit is
not among these and does not matter. -/
theorem C07_noninterference {fs fs' : PureFs} {cwd : Path} (hw : cwd.abs = true) {o : Options (Except Exn)} (hc : LawfulCmp o.pathComparator) (p : Path)
    (h : ∀ k q, Visited (answers fs o) o.pathComparator o.maxDepth 0 (target cwd p) k q → SameAt fs fs' o.maxDepth k q) :
    prettyPrint fs'.lift cwd o p = prettyPrint fs.lift cwd o p := by
  rw [prettyPrint_eq, prettyPrint_eq]
  congr 1
  rw [scanned_eq fs hw, scanned_eq fs' hw]
  refine handle_congr (o := o.toScan fs.lift) (o' := o.toScan fs'.lift) rfl rfl hc 0 _ (fun k q hv => ?_)
  rw [answers_eq] at hv
  have := h k q hv
  refine ⟨this.isDir, this.attrs, this.list, fun _ _ => rfl, fun h1 h2 cs bad h3 x hx => ?_⟩
  show o.pathFilter fs'.lift x = o.pathFilter fs.lift x
  rw [pathFilter_eq, pathFilter_eq, this.kids h1 h2 cs bad h3 x hx]

/-- **C07** for successful calls, in terms of the entry tree: agreement on the displayed entries is enough. -/
theorem C07_agreement_on_displayed {fs fs' : PureFs} (hfs : ProperFs fs) {cwd : Path} (hw : cwd.abs = true) {o : Options (Except Exn)} {c : Cmp} (hc : LawfulCmp c)
    (hsort : o.pathComparator = thenComparing c PathSorts.ALPHABETICAL) (p : Path) (t : TreeEntry) (ht : scanned fs cwd o p = .ok t)
    (h : ∀ k x q, BelowAt x k t → entryPath x = some q → SameAt fs fs' o.maxDepth k q) :
    prettyPrint fs'.lift cwd o p = prettyPrint fs.lift cwd o p := by
  have hc' : LawfulCmp o.pathComparator := by rw [hsort]; exact sort_lawful hc
  have hd' : DistinguishesAll o.pathComparator fs := by rw [hsort]; exact sort_distinguishes hc hfs
  refine C07_noninterference hw hc' p (fun k q hv => ?_)
  have hs := scanned_sound hw hc' ht
  suffices ∃ x, BelowAt x k t ∧ entryPath x = some q by
    obtain ⟨x, h1, h2⟩ := this; exact h k x q h1 h2
  induction hv with
  | top => exact ⟨t, .here, hs.entryPath_eq⟩
  | @child k d n cs ks srt q _ h1 hk h2 h3 h4 h5 h6 h7 ih =>
    obtain ⟨x, hx, hxp⟩ := ih
    have hsub := hs.sub hx hxp
    rw [Nat.zero_add] at hsub
    cases hsub with
    | file hf _ => have hf : fs.isDir d = false := hf; have h1 : fs.isDir d = true := h1; rw [h1] at hf; cases hf
    | tooDeep _ hdeep => omega
    | @dir _ _ n' cs' ks' srt' es' a1 ak a2 a3 a4 a5 a6 a7 =>
      have h2 : o.childLimit d = .ok n := h2
      have a2 : o.childLimit d = .ok n' := a2
      have h3 : fs.listDir d = .opened cs false := h3
      have a3 : fs.listDir d = .opened cs' false := a3
      rw [h2] at a2; cases a2
      rw [h3] at a3; cases a3
      have : ks' = ks := by rw [kept_filter a4, kept_filter h4]
      subst this
      have hdist := (hd' d cs false h3).sublist h4.subset
      have : srt' = srt := by
        rw [← streamSorted_unique hc' hdist a5 a6, streamSorted_unique hc' hdist h5 h6]
      subst this
      obtain ⟨e, he, hse⟩ := a7.mem_path h7
      exact ⟨e, hx.child (List.mem_append.2 (.inl he)), hse.entryPath_eq⟩

/-- **C07**, depth: below the depth limit nothing is opened: file systems that agree on kinds and attributes and on the listings less than `maxDepth` levels below the printed path print the same. -/
theorem C07_below_depth_irrelevant {fs fs' : PureFs} (hfs : ProperFs fs) {cwd : Path} (hw : cwd.abs = true) {o : Options (Except Exn)} (hc : LawfulCmp o.pathComparator) (p : Path)
    (h1 : ∀ q, fs'.isDir q = fs.isDir q) (h2 : ∀ q, fs'.readAttrs q = fs.readAttrs q)
    (h3 : ∀ q, (q.names.length : Int) < (target cwd p).names.length + o.maxDepth → fs'.listDir q = fs.listDir q) :
    prettyPrint fs'.lift cwd o p = prettyPrint fs.lift cwd o p := by
  refine C07_noninterference hw hc p (fun k q hv => ?_)
  have ha : (target cwd p).abs = true := by
    unfold target; rw [Path.normalize_abs (Path.toAbsolutePath_abs hw)]
  rw [← answers_eq] at hv
  have := (hv.names hfs ha).2.2
  exact ⟨h1 q, fun _ => h2 q, fun _ hk => h3 q (by omega), fun _ _ _ _ _ x _ => h1 x⟩

/-- Example for C07: making everything below a rejected directory unreadable changes nothing: the demo disk with `a` rejected, against a disk whose `a` cannot be opened. -/
example : prettyPrint ({ Demo.dfs with listDir := fun q => if q = Demo.a then .openFailed else Demo.dfs.listDir q } : PureFs).lift Path.root
      (Demo.dflt.filterDirectories (fun q => pure (q != Demo.a))) Demo.r =
    prettyPrint Demo.dfs.lift Path.root (Demo.dflt.filterDirectories (fun q => pure (q != Demo.a))) Demo.r := by
  refine C07_noninterference rfl lawful_ALPHABETICAL Demo.r (fun k q hv => ?_)
  refine ⟨rfl, fun _ => rfl, fun hd hk => ?_, fun _ _ _ _ _ _ _ => rfl⟩
  have hne : q ≠ Demo.a := by
    intro hq; subst hq
    generalize hq : Demo.a = q at hv
    cases hv with
    | top => exact absurd hq (by decide)
    | child hv h1 hk h2 h3 h4 h5 h6 h7 =>
      subst hq
      have := h5.mem_iff.1 ((limitTo_sublist _ _).subset h7)
      rw [kept_filter h4] at this
      exact absurd (List.mem_filter.1 this).2 (by decide)
  simp [hne]
end JFTP
