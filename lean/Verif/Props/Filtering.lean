import Verif.Props.Scanning
import Verif.Props.Paths

/-!
C74: the way of showing "only the files I am interested in, and the directories that lead to them":

    PrettyPrintOptions.createDefault()
      .filterDirectories(PathMatchers.hasAnyDescendantMatching(m))
      .filterFiles(m)

(see the documentation of `ifMatchesThenElse`, options/PathMatchers.java:263-270, and examples/ProjectStructure.java:69). The matcher `m` is arbitrary (and may throw).
-/

namespace JFTP
open Spec PathMatchers

namespace Spec

/-- The options of the caller with the two filters of the idiom set: `filterDirectories(hasAnyDescendantMatching(m))` and `filterFiles(m)`. -/
def showOnly (fs : PureFs) (o : Options (Except Exn)) (mt : Matcher (Except Exn)) : Options (Except Exn) :=
  (o.filterDirectories (hasAnyDescendantMatching fs.lift mt)).filterFiles mt

end Spec

namespace Filtering74

variable {fs : PureFs} {cwd : Path} {o : Options (Except Exn)} {mt : Matcher (Except Exn)}

theorem reach_trans {m n : Nat} {a b c : Path} (h1 : Reach fs m a b) (h2 : Reach fs n b c) : Reach fs (m + n) a c := by
  induction h1 with
  | child d l hm => rw [Nat.add_comm]; exact .down d l hm h2
  | @down k _ _ _ _ _ d l hm _ ih => rw [show k + 1 + n = k + n + 1 by omega]; exact .down d l hm (ih h2)

theorem reach_isDir {n : Nat} {d q : Path} (h : Reach fs n d q) : fs.isDir d = true := by cases h <;> assumption

theorem kept_asked {A : Answers} {cs ks : List Path} (h : Kept A cs ks) {q : Path} (hq : q ∈ cs) : ∃ b, A.keep q b ∧ (b = true → q ∈ ks) := by
  induction h with
  | nil => cases hq
  | keep hk _ ih =>
    rcases List.mem_cons.1 hq with rfl | hq
    · exact ⟨true, hk, fun _ => by simp⟩
    · obtain ⟨b, hb, h⟩ := ih hq; exact ⟨b, hb, fun e => List.mem_cons_of_mem _ (h e)⟩
  | drop hk _ ih =>
    rcases List.mem_cons.1 hq with rfl | hq
    · exact ⟨false, hk, fun e => by cases e⟩
    · exact ih hq

/-- What leads to a match is displayed, if the directory filter lets the way to a match open: by induction along the way down to it. -/
theorem way_open {good : Path → Prop} {top : Path} {t : TreeEntry} (hs : Scanned (answers fs o) o.pathComparator o.maxDepth 0 top t)
    (hlim : ∀ q n, o.childLimit q = .ok n → n < 0)
    (hopen : ∀ c, fs.isDir c = true → (∃ m r, m ≤ 2147483647 ∧ Reach fs m c r ∧ good r) → ∀ b, o.dirMatcher c = .ok b → b = true)
    {n : Nat} {d q : Path} (hr : Reach fs n d q) (k : Nat)
    (hd : DisplayedAt fs o top k d) (hk : ((k + n : Nat) : Int) ≤ o.maxDepth)
    (hm : (fs.isDir q = false ∧ n ≤ 2147483647 ∧ good q ∧ o.fileMatcher q = .ok true) ∨ (fs.isDir q = true ∧ ∃ m r, n + m ≤ 2147483647 ∧ Reach fs m q r ∧ good r)) :
    DisplayedAt fs o top (k + n) q := by
  -- one step: a listed entry of a displayed directory above the depth limit that leads to a match is displayed
  have step : ∀ {k : Nat} {d c : Path} {cs : List Path} {bad : Bool}, DisplayedAt fs o top k d → ((k + 1 : Nat) : Int) ≤ o.maxDepth →
      fs.isDir d = true → fs.listDir d = .opened cs bad → c ∈ cs →
      ((fs.isDir c = false ∧ o.fileMatcher c = .ok true) ∨ (fs.isDir c = true ∧ ∃ m r, m ≤ 2147483647 ∧ Reach fs m c r ∧ good r)) →
      DisplayedAt fs o top (k + 1) c := by
    intro k d c cs bad hd hk h1 h2 h3 h4
    obtain ⟨x, hx, hxp⟩ := displayed_found hs hlim hd (.inr (by omega))
    have hsub := hs.sub hx hxp
    rw [Nat.zero_add] at hsub
    cases hsub with
    | file hf _ => have hf : fs.isDir d = false := hf; rw [h1] at hf; cases hf
    | tooDeep _ hdeep => omega
    | @dir _ _ n cs' ks srt es' a1 ak a2 a3 a4 a5 a6 a7 =>
      have a3 : fs.listDir d = .opened cs' false := a3
      rw [h2] at a3; cases a3
      obtain ⟨b, hb, _⟩ := kept_asked a4 h3
      have hb : (if fs.isDir c = true then o.dirMatcher c else o.fileMatcher c) = .ok b := hb
      refine .child hd h1 h2 h3 (fun hc => ?_) (fun hc => ?_)
      · rcases h4 with ⟨h4, _⟩ | ⟨_, h5⟩
        · rw [hc] at h4; cases h4
        rw [if_pos hc] at hb
        rw [hb, hopen c hc h5 b hb]
      · rcases h4 with ⟨_, h4⟩ | ⟨h4, _⟩
        · exact h4
        · rw [hc] at h4; cases h4
  induction hr generalizing k with
  | child h1 h2 h3 =>
    refine step hd hk h1 h2 h3 ?_
    rcases hm with ⟨e1, _, _, e2⟩ | ⟨e1, m, r, e2, e3⟩
    · exact .inl ⟨e1, e2⟩
    · exact .inr ⟨e1, m, r, by omega, e3⟩
  | @down n d c q cs bad h1 h2 h3 hr ih =>
    have hc : DisplayedAt fs o top (k + 1) c := by
      refine step hd (by omega) h1 h2 h3 (.inr ⟨reach_isDir hr, ?_⟩)
      rcases hm with ⟨_, e1, e2, _⟩ | ⟨e1, m, r, e2, e3, e4⟩
      · exact ⟨n, q, by omega, hr, e2⟩
      · exact ⟨n + m, r, by omega, reach_trans hr e3, e4⟩
    have := ih (k + 1) hc (by omega) (by
      rcases hm with ⟨e0, e1, e2⟩ | ⟨e1, m, r, e2, e3, e4⟩
      · exact .inl ⟨e0, by omega, e2⟩
      · exact .inr ⟨e1, m, r, by omega, e3, e4⟩)
    rw [show k + (n + 1) = k + 1 + n by omega]; exact this

/-- `hasAnyDescendantMatching(m)` lets the way to a match open. -/
theorem descendant_open (c : Path) (h : ∃ m r, m ≤ 2147483647 ∧ Reach fs m c r ∧ mt r = .ok true) (b : Bool)
    (hb : hasAnyDescendantMatching fs.lift mt c = .ok b) : b = true := by
  obtain ⟨m, r, h1, h2, h3⟩ := h
  cases b with
  | true => rfl
  | false =>
    have := (C44_throwing_matcher mt c).2 hb m r h1 h2
    rw [h3] at this; cases this

/-- What leads to a match is displayed. -/
theorem way_displayed {top : Path} {t : TreeEntry} (hs : Scanned (answers fs (showOnly fs o mt)) (showOnly fs o mt).pathComparator o.maxDepth 0 top t)
    (hlim : ∀ q n, o.childLimit q = .ok n → n < 0) {n : Nat} {d q : Path} (hr : Reach fs n d q) (k : Nat)
    (hd : DisplayedAt fs (showOnly fs o mt) top k d) (hk : ((k + n : Nat) : Int) ≤ o.maxDepth)
    (hm : (fs.isDir q = false ∧ n ≤ 2147483647 ∧ mt q = .ok true) ∨ (fs.isDir q = true ∧ ∃ m r, n + m ≤ 2147483647 ∧ Reach fs m q r ∧ mt r = .ok true)) :
    DisplayedAt fs (showOnly fs o mt) top (k + n) q :=
  way_open (o := showOnly fs o mt) (good := fun r => mt r = .ok true) hs hlim (fun c _ h b hb => descendant_open c h b hb) hr k hd hk
    (hm.imp (fun h => ⟨h.1, h.2.1, h.2.2, h.2.2⟩) id)

end Filtering74

open Filtering74

section
variable {fs : PureFs} {cwd : Path} {o : Options (Except Exn)} {mt : Matcher (Except Exn)}
  (hw : cwd.abs = true) (hc : LawfulCmp o.pathComparator)
include hw hc

/-- **C74**, nothing else (whatever the child limit and the depth): apart from the printed path itself, every displayed file matches, and every displayed directory contains — at some level — an entry that matches. -/
theorem C74_only_matching {p : Path} {t : TreeEntry} (h : scanned fs cwd (showOnly fs o mt) p = .ok t) {q : Path} (hq : q ∈ entryPaths t) (hne : q ≠ target cwd p) :
    (fs.isDir q = false → mt q = .ok true) ∧ (fs.isDir q = true → ∃ k r, Reach fs k q r ∧ mt r = .ok true) := by
  have hs := scanned_sound (o := showOnly fs o mt) hw hc h
  obtain ⟨n, x, hb, hx⟩ := mem_entryPaths.1 hq
  have hv := (visited_displayed (hs.visited hb hx)).1
  generalize 0 + n = j at hv
  cases hv with
  | top => exact absurd rfl hne
  | child _ _ _ _ hd hf => exact ⟨hf, fun e => (C44_throwing_matcher mt q).1 (hd e)⟩

/-- **C74**, files: without child limit, a file that is found in `n` levels below the printed path, `n` within the maximal depth, is displayed iff it matches — no matter what the
directories on the way to it are called. -/
theorem C74_files (hlim : ∀ q n, o.childLimit q = .ok n → n < 0) (hint : o.maxDepth ≤ 2147483647) {p : Path} {t : TreeEntry}
    (h : scanned fs cwd (showOnly fs o mt) p = .ok t) {n : Nat} {q : Path} (hr : Reach fs n (target cwd p) q) (hn : (n : Int) ≤ o.maxDepth) (hq : fs.isDir q = false) :
    q ∈ entryPaths t ↔ mt q = .ok true := by
  have hs := scanned_sound (o := showOnly fs o mt) hw hc h
  constructor
  · intro hm
    refine (C74_only_matching hw hc h hm ?_).1 hq
    rintro rfl
    rw [reach_isDir hr] at hq; cases hq
  · intro hm
    have := way_displayed hs hlim hr 0 .top (by omega) (.inl ⟨hq, by omega, hm⟩)
    rw [Nat.zero_add] at this
    exact mem_entryPaths.2 ⟨n, displayed_found hs hlim this (.inr hn)⟩

/-- **C74**, directories: without child limit, a directory found in `n` levels below the printed path, `n` within the maximal depth, is displayed iff something below it matches — also if that is
only found below the maximal depth (down to the 2³¹-1 levels of `Files.walk`). -/
theorem C74_directories (hlim : ∀ q n, o.childLimit q = .ok n → n < 0) {p : Path} {t : TreeEntry}
    (h : scanned fs cwd (showOnly fs o mt) p = .ok t) {n : Nat} {q : Path} (hr : Reach fs n (target cwd p) q) (hn : (n : Int) ≤ o.maxDepth) (hq : fs.isDir q = true)
    (hne : q ≠ target cwd p) (hdeep : ∀ k r, Reach fs k q r → n + k ≤ 2147483647) :
    q ∈ entryPaths t ↔ ∃ k r, Reach fs k q r ∧ mt r = .ok true := by
  have hs := scanned_sound (o := showOnly fs o mt) hw hc h
  constructor
  · intro hm
    exact (C74_only_matching hw hc h hm hne).2 hq
  · rintro ⟨k, r, h1, h2⟩
    have := way_displayed hs hlim hr 0 .top (by omega) (.inr ⟨hq, k, r, hdeep k r h1, h1, h2⟩)
    rw [Nat.zero_add] at this
    exact mem_entryPaths.2 ⟨n, displayed_found hs hlim this (.inr hn)⟩

/-- **C74**, no empty directories: if the matcher only matches files, and the tree has not been cut (no child limit, deep enough), every displayed directory but the printed one contains, at some level, a
displayed file. -/
theorem C74_no_empty_directory (hlim : ∀ q n, o.childLimit q = .ok n → n < 0) (hint : o.maxDepth ≤ 2147483647)
    (hfile : ∀ q, fs.isDir q = true → mt q ≠ .ok true) {p : Path} {t : TreeEntry}
    (h : scanned fs cwd (showOnly fs o mt) p = .ok t) {n : Nat} {q : Path} (hr : Reach fs n (target cwd p) q)
    (hdeep : ∀ k r, Reach fs k q r → ((n + k : Nat) : Int) ≤ o.maxDepth)
    (hm : q ∈ entryPaths t) (hq : fs.isDir q = true) (hne : q ≠ target cwd p) :
    ∃ k r, Reach fs k q r ∧ fs.isDir r = false ∧ mt r = .ok true ∧ r ∈ entryPaths t := by
  obtain ⟨k, r, h1, h2⟩ := (C74_only_matching hw hc h hm hne).2 hq
  have hf : fs.isDir r = false := by
    cases e : fs.isDir r with
    | false => rfl
    | true => exact absurd h2 (hfile r e)
  exact ⟨k, r, h1, hf, h2, (C74_files hw hc hlim hint h (reach_trans hr h1) (hdeep k r h1) hf).2 h2⟩

/-- **C74** on the printed text: the files named on the lines of the output are the matching ones. -/
theorem C74_printed {L : Look} (he : ∀ p, o.emojiMapping p = pure (L.emoji p))
    (hcd : o.compactDirectories = L.compact) (hx : ∀ p, extensionOf o.toRender p = pure (L.ext p))
    (hlim : ∀ q n, o.childLimit q = .ok n → n < 0) (hint : o.maxDepth ≤ 2147483647) {p : Path} {s : JStr} (h : prettyPrint fs.lift cwd (showOnly fs o mt) p = .ok s) :
    ∃ (items : List (Nat × Item)) (lines : List JStr), s = joinLines lines ∧ List.Forall₂ (IsLineOf o.treeFormat L) items lines ∧
      ∀ n q, Reach fs n (target cwd p) q → (n : Int) ≤ o.maxDepth → fs.isDir q = false → ((∃ x ∈ items, some q ∈ x.2.shows) ↔ mt q = .ok true) := by
  obtain ⟨t, T, lines, ht, hT, h1, h2, h3⟩ := prettyPrint_ok (o := showOnly fs o mt) he hcd hx h
  refine ⟨T.items 0, lines, h1, h2, fun n q hr hn hq => ?_⟩
  rw [← C74_files hw hc hlim hint ht hr hn hq]
  unfold entryPaths
  rw [← h3]
  simp

end

/-! ### C82: excluded directories are opened again for what has to be shown -/

namespace Spec

/-- `filterDirectories(D)` and `filterFiles(f)`. -/
def filtered (o : Options (Except Exn)) (D f : Matcher (Except Exn)) : Options (Except Exn) := (o.filterDirectories D).filterFiles f

end Spec

namespace Filtering74

/-- If one of the matchers answers `true` and `anyOf` answers at all, it answers `true`. -/
theorem any_true {p : Path} {ms : List (Matcher (Except Exn))} {g : Matcher (Except Exn)} (hg : g ∈ ms)
    (ht : ∀ b, g p = .ok b → b = true) {b : Bool} (h : any p ms = .ok b) : b = true := by
  induction ms with
  | nil => cases hg
  | cons r ms ih =>
    unfold any at h
    cases hr : r p with
    | error x => rw [hr] at h; cases h
    | ok c =>
      rw [hr] at h
      cases c with
      | true => cases h; rfl
      | false =>
        rcases List.mem_cons.1 hg with rfl | hg
        · exact absurd (ht _ hr) (by decide)
        · exact ih hg h

theorem any_true_inv {p : Path} {ms : List (Matcher (Except Exn))} (h : any p ms = .ok true) : ∃ g ∈ ms, g p = .ok true := by
  induction ms with
  | nil => cases h
  | cons r ms ih =>
    unfold any at h
    cases hr : r p with
    | error x => rw [hr] at h; cases h
    | ok c =>
      rw [hr] at h
      cases c with
      | true => exact ⟨r, by simp, hr⟩
      | false => obtain ⟨g, hg, h⟩ := ih h; exact ⟨g, by simp [hg], h⟩

theorem anyOf_eq {ms : List (Matcher (Except Exn))} {D : Matcher (Except Exn)} (hD : anyOf ms = .ok D) : D = fun p => any p ms := by
  cases ms with
  | nil => cases hD
  | cons r ms => cases hD; rfl

end Filtering74

section
variable {fs : PureFs} {cwd : Path} {o : Options (Except Exn)} {mt f D : Matcher (Except Exn)} {ms : List (Matcher (Except Exn))}
  (hw : cwd.abs = true) (hc : LawfulCmp o.pathComparator)
  (hin : hasAnyDescendantMatching fs.lift mt ∈ ms) (hD : anyOf ms = .ok D)
include hw hc hD

/-- **C82**, nothing else (whatever the child limit and the depth): apart from the printed path itself, every displayed file is accepted by the file filter, and every displayed directory
by one of the matchers given to `anyOf`. -/
theorem C82_only {p : Path} {t : TreeEntry} (h : scanned fs cwd (filtered o D f) p = .ok t) {q : Path} (hq : q ∈ entryPaths t) (hne : q ≠ target cwd p) :
    (fs.isDir q = false → f q = .ok true) ∧ (fs.isDir q = true → ∃ g ∈ ms, g q = .ok true) := by
  have hs := scanned_sound (o := filtered o D f) hw hc h
  obtain ⟨n, x, hb, hx⟩ := mem_entryPaths.1 hq
  have hv := (visited_displayed (hs.visited hb hx)).1
  generalize 0 + n = j at hv
  cases hv with
  | top => exact absurd rfl hne
  | child _ _ _ _ hd hf =>
    refine ⟨hf, fun e => any_true_inv ?_⟩
    have : D q = .ok true := hd e
    rwa [anyOf_eq hD] at this

include hin

/-- **C82**, files: if `hasAnyDescendantMatching(m)` is one of the matchers given to `anyOf`, a file that matches `m` and the file filter, `n` levels below the printed path and within the
maximal depth, is displayed — whatever the other matchers say about the directories on the way to it. -/
theorem C82_files (hlim : ∀ q n, o.childLimit q = .ok n → n < 0) (hint : o.maxDepth ≤ 2147483647) {p : Path} {t : TreeEntry}
    (h : scanned fs cwd (filtered o D f) p = .ok t) {n : Nat} {q : Path} (hr : Reach fs n (target cwd p) q) (hn : (n : Int) ≤ o.maxDepth) (hq : fs.isDir q = false)
    (hm : mt q = .ok true) : q ∈ entryPaths t ↔ f q = .ok true := by
  have hs := scanned_sound (o := filtered o D f) hw hc h
  constructor
  · intro hm
    refine (C82_only hw hc hD h hm ?_).1 hq
    rintro rfl
    rw [reach_isDir hr] at hq; cases hq
  · intro hf
    have := way_open (o := filtered o D f) (good := fun r => mt r = .ok true) hs hlim (fun c _ hg b hb => by
      have hb : D c = .ok b := hb
      rw [anyOf_eq hD] at hb
      exact any_true hin (fun b hb => descendant_open c hg b hb) hb) hr 0 .top (by show ((0 + n : Nat) : Int) ≤ o.maxDepth; omega) (.inl ⟨hq, by omega, hm, hf⟩)
    rw [Nat.zero_add] at this
    exact mem_entryPaths.2 ⟨n, displayed_found hs hlim this (.inr hn)⟩

/-- **C82**, directories: so is every directory that leads to a match of `m`. -/
theorem C82_directories (hlim : ∀ q n, o.childLimit q = .ok n → n < 0) {p : Path} {t : TreeEntry}
    (h : scanned fs cwd (filtered o D f) p = .ok t) {n : Nat} {q : Path} (hr : Reach fs n (target cwd p) q) (hn : (n : Int) ≤ o.maxDepth) (hq : fs.isDir q = true)
    {k : Nat} {r : Path} (hk : n + k ≤ 2147483647) (hr' : Reach fs k q r) (hm : mt r = .ok true) : q ∈ entryPaths t := by
  have hs := scanned_sound (o := filtered o D f) hw hc h
  have := way_open (o := filtered o D f) (good := fun r => mt r = .ok true) hs hlim (fun c _ hg b hb => by
      have hb : D c = .ok b := hb
      rw [anyOf_eq hD] at hb
      exact any_true hin (fun b hb => descendant_open c hg b hb) hb) hr 0 .top (by show ((0 + n : Nat) : Int) ≤ o.maxDepth; omega) (.inr ⟨hq, k, r, hk, hr', hm⟩)
  rw [Nat.zero_add] at this
  exact mem_entryPaths.2 ⟨n, displayed_found hs hlim this (.inr hn)⟩

/-- **C82** on the printed text: a file that matches `m` and the file filter is named on a line of the output. -/
theorem C82_printed {L : Look} (he : ∀ p, o.emojiMapping p = pure (L.emoji p))
    (hcd : o.compactDirectories = L.compact) (hx : ∀ p, extensionOf o.toRender p = pure (L.ext p))
    (hlim : ∀ q n, o.childLimit q = .ok n → n < 0) (hint : o.maxDepth ≤ 2147483647) {p : Path} {s : JStr} (h : prettyPrint fs.lift cwd (filtered o D f) p = .ok s) :
    ∃ (items : List (Nat × Item)) (lines : List JStr), s = joinLines lines ∧ List.Forall₂ (IsLineOf o.treeFormat L) items lines ∧
      ∀ n q, Reach fs n (target cwd p) q → (n : Int) ≤ o.maxDepth → fs.isDir q = false → mt q = .ok true → ((∃ x ∈ items, some q ∈ x.2.shows) ↔ f q = .ok true) := by
  obtain ⟨t, T, lines, ht, hT, h1, h2, h3⟩ := prettyPrint_ok (o := filtered o D f) he hcd hx h
  refine ⟨T.items 0, lines, h1, h2, fun n q hr hn hq hm => ?_⟩
  rw [← C82_files hw hc hin hD hlim hint ht hr hn hq hm]
  unfold entryPaths
  rw [← h3]
  simp

end

/-! ### Examples -/

namespace Demo

/-- Matches what is called `x` (files and directories). -/
def isX : Matcher (Except Exn) := fun q => pure (q.names.getLast? == some j!"x")

/-- `/r/{b.txt, a/{y, x}, z}` filtered for `x`: only `a` and `x` are left. -/
theorem onlyX : scanned dfs Path.root (showOnly dfs dflt isX) r = .ok (.dir r [.dir a [.file x ⟨false, false⟩]]) := by
  refine scanned_complete rfl lawful_ALPHABETICAL distinguishes ?_
  refine Scanned.dir (A := answers dfs (showOnly dfs dflt isX)) (c := PathSorts.ALPHABETICAL) (maxDepth := 20) (k := 0) (p := r) (n := -1)
    (cs := [b, a, z]) (ks := [a]) (srt := [a]) (es := [.dir a [.file x ⟨false, false⟩]])
    rfl (by decide) rfl rfl (.drop rfl (.keep rfl (.drop rfl .nil))) (by decide) (by decide) (.cons ?_ .nil)
  exact Scanned.dir (A := answers dfs (showOnly dfs dflt isX)) (c := PathSorts.ALPHABETICAL) (maxDepth := 20) (k := 1) (p := a) (n := -1)
    (cs := [y, x]) (ks := [x]) (srt := [x]) (es := [.file x ⟨false, false⟩])
    rfl (by decide) rfl rfl (.drop rfl (.keep rfl .nil)) (by decide) (by decide) (.cons (.file rfl rfl) .nil)

theorem reach_x : Reach dfs 2 r x := .down (c := a) (cs := [b, a, z]) (bad := false) rfl rfl (by decide) (.child (cs := [y, x]) (bad := false) rfl rfl (by decide))
theorem reach_y : Reach dfs 2 r y := .down (c := a) (cs := [b, a, z]) (bad := false) rfl rfl (by decide) (.child (cs := [y, x]) (bad := false) rfl rfl (by decide))

/-- The hypotheses of `C74_files` hold here, for the file that matches and for one that does not. -/
example : (x ∈ entryPaths (.dir r [.dir a [.file x ⟨false, false⟩]]) ↔ isX x = .ok true) ∧ (y ∈ entryPaths (.dir r [.dir a [.file x ⟨false, false⟩]]) ↔ isX y = .ok true) ∧
    isX x = .ok true ∧ isX y = .ok false :=
  ⟨C74_files (o := dflt) (cwd := Path.root) rfl lawful_ALPHABETICAL (fun _ _ h => by cases h; decide) (by decide) onlyX reach_x (by decide) rfl,
   C74_files (o := dflt) (cwd := Path.root) rfl lawful_ALPHABETICAL (fun _ _ h => by cases h; decide) (by decide) onlyX reach_y (by decide) rfl, rfl, rfl⟩

/-- `a` is displayed and holds a displayed file (the matcher only matches files of this disk). -/
example : ∃ k q, Reach dfs k a q ∧ dfs.isDir q = false ∧ isX q = .ok true ∧ q ∈ entryPaths (.dir r [.dir a [.file x ⟨false, false⟩]]) :=
  ⟨1, x, .child (cs := [y, x]) (bad := false) rfl rfl (by decide), rfl, rfl, by decide⟩

/-- Why `C74_no_empty_directory` asks for a matcher that only matches files: in `/r/{a/{x/}}`, with directories `a` and `x`, the directory `a` is displayed because its
entry `x` matches; `x` itself is a directory without a match below it and is not displayed. `a` is displayed without content. -/
def xdirs : Node := .dir true [(j!"r", .dir true [(j!"a", .dir true [(j!"x", .dir true [])])])]

example : scanned xdirs.toFs Path.root (showOnly xdirs.toFs dflt isX) r = .ok (.dir r [.dir a []]) := by
  have hp : ProperFs xdirs.toFs := Node.WF.proper (by simp [xdirs, Node.WF, Node.WFAll])
  refine scanned_complete rfl lawful_ALPHABETICAL (sort_distinguishes lawful_const hp) ?_
  refine Scanned.dir (A := answers xdirs.toFs (showOnly xdirs.toFs dflt isX)) (c := PathSorts.ALPHABETICAL) (maxDepth := 20) (k := 0) (p := r) (n := -1)
    (cs := [a]) (ks := [a]) (srt := [a]) (es := [.dir a []])
    rfl (by decide) rfl rfl (.keep rfl .nil) (by decide) (by decide) (.cons ?_ .nil)
  exact Scanned.dir (A := answers xdirs.toFs (showOnly xdirs.toFs dflt isX)) (c := PathSorts.ALPHABETICAL) (maxDepth := 20) (k := 1) (p := a) (n := -1)
    (cs := [x]) (ks := []) (srt := []) (es := [])
    rfl (by decide) rfl rfl (.drop rfl .nil) (by decide) (by decide) .nil

/-- `filterDirectories(anyOf(none(...), hasAnyDescendantMatching(isX)))`: the other matcher rejects all directories. -/
theorem rescueX : anyOf [fun _ => pure false, hasAnyDescendantMatching dfs.lift isX] = .ok (fun p => any p [fun _ => pure false, hasAnyDescendantMatching dfs.lift isX]) := rfl

/-- All files are accepted. `/r/{b.txt, a/{y, x}, z}`: `a` is opened again for `x`, and then also shows `y`. -/
theorem rescued : scanned dfs Path.root (filtered dflt (fun p => any p [fun _ => pure false, hasAnyDescendantMatching dfs.lift isX]) (fun _ => pure true)) r =
    .ok (.dir r [.dir a [.file x ⟨false, false⟩, .file y ⟨false, false⟩], .file b ⟨false, false⟩, .file z ⟨false, true⟩]) := by
  refine scanned_complete rfl lawful_ALPHABETICAL distinguishes ?_
  refine Scanned.dir (A := answers dfs (filtered dflt (fun p => any p [fun _ => pure false, hasAnyDescendantMatching dfs.lift isX]) (fun _ => pure true)))
    (c := PathSorts.ALPHABETICAL) (maxDepth := 20) (k := 0) (p := r) (n := -1)
    (cs := [b, a, z]) (ks := [b, a, z]) (srt := [a, b, z]) (es := [.dir a [.file x ⟨false, false⟩, .file y ⟨false, false⟩], .file b ⟨false, false⟩, .file z ⟨false, true⟩])
    rfl (by decide) rfl rfl (.keep rfl (.keep rfl (.keep rfl .nil))) (by decide) (by decide) (.cons ?_ (.cons (.file rfl rfl) (.cons (.file rfl rfl) .nil)))
  exact Scanned.dir (A := answers dfs (filtered dflt (fun p => any p [fun _ => pure false, hasAnyDescendantMatching dfs.lift isX]) (fun _ => pure true)))
    (c := PathSorts.ALPHABETICAL) (maxDepth := 20) (k := 1) (p := a) (n := -1)
    (cs := [y, x]) (ks := [y, x]) (srt := [x, y]) (es := [.file x ⟨false, false⟩, .file y ⟨false, false⟩])
    rfl (by decide) rfl rfl (.keep rfl (.keep rfl .nil)) (by decide) (by decide) (.cons (.file rfl rfl) (.cons (.file rfl rfl) .nil))

/-- The hypotheses of `C82_files` hold here. -/
example := C82_files (o := dflt) (cwd := Path.root) (mt := isX) rfl lawful_ALPHABETICAL (List.mem_cons_of_mem _ (List.mem_cons_self ..)) rescueX (fun _ _ h => by cases h; decide) (by decide) rescued reach_x (by decide) rfl rfl

end Demo
end JFTP
