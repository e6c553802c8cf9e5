import Verif.Spec.Placed
import Verif.Props.Printed

/-
C95: the exact place of every path when all options act together.
-/

namespace JFTP
open Spec

/-- In a strictly sorted list the position of an element is the number of elements before it. -/
theorem strict_position {c : Cmp} (hc : LawfulCmp c) : ∀ {l : List Path}, l.Pairwise (fun a b => c a b < 0) → ∀ {i : Nat} {q : Path}, l[i]? = some q → (l.filter fun a => decide (c a q < 0)).length = i
  | [], _, i, q, h => by simp at h
  | a :: l, hp, i, q, h => by
    obtain ⟨h1, h2⟩ := List.pairwise_cons.1 hp
    cases i with
    | zero =>
      simp only [List.getElem?_cons_zero, Option.some.injEq] at h
      subst h
      have hq : ¬ c a a < 0 := fun x => by have := (hc.antisymm _ _).1 x; omega
      rw [List.filter_cons_of_neg (by simpa using hq), List.length_eq_zero_iff, List.filter_eq_nil_iff]
      intro b hb
      have := (hc.antisymm _ _).1 (h1 b hb)
      simp; omega
    | succ j =>
      simp only [List.getElem?_cons_succ] at h
      rw [List.filter_cons_of_pos (by simpa using h1 q (List.mem_of_getElem? h)), List.length_cons, strict_position hc h2 h]

/-- Sorted, without repetition and with a comparator that distinguishes the elements: strictly sorted. -/
theorem strictly_sorted {c : Cmp} (hc : LawfulCmp c) {l : List Path} (hp : l.Pairwise (fun a b => c a b ≤ 0)) (hn : l.Nodup) (hd : Distinguishes c l) : l.Pairwise (fun a b => c a b < 0) := by
  refine (hp.and hn).imp_of_mem fun {a b} ha hb h => ?_
  have h0 : c a b ≤ 0 := h.1
  by_contra hlt
  have : c b a ≤ 0 := by
    by_contra hb'
    have := (hc.antisymm a b).2 (by omega)
    omega
  exact h.2 (hd a ha b hb h.1 this)

section
variable {fs : PureFs} {cwd : Path} {o : Options (Except Exn)}

/-- Where the filtered and sorted entries of a listing stand. -/
theorem listing_position (hfs : ProperFs fs) (hc : LawfulCmp o.pathComparator) (hd : DistinguishesAll o.pathComparator fs) {d : Path} {cs srt : List Path} (hl : fs.listDir d = .opened cs false)
    (hp : srt.Perm (cs.filter (passes fs o))) (hs : srt.Pairwise (fun a b => o.pathComparator a b ≤ 0)) (i : Nat) (q : Path) :
    srt[i]? = some q ↔ q ∈ cs ∧ passes fs o q = true ∧ i = (earlier fs o cs q).length := by
  have hn : srt.Nodup := hp.nodup_iff.2 ((hfs d cs false hl).1.filter _)
  have hdist : Distinguishes o.pathComparator srt := fun a ha b hb =>
    hd d cs false hl a (List.mem_filter.1 (hp.mem_iff.1 ha)).1 b (List.mem_filter.1 (hp.mem_iff.1 hb)).1
  have hst := strictly_sorted hc hs hn hdist
  have hcount : ∀ q, (earlier fs o cs q).length = (srt.filter fun a => decide (o.pathComparator a q < 0)).length := fun q => by
    rw [(hp.filter _).length_eq, List.filter_filter]
    unfold earlier
    congr 2; funext c; rw [Bool.and_comm]
  constructor
  · intro h
    obtain ⟨h1, h2⟩ := List.mem_filter.1 (hp.mem_iff.1 (List.mem_of_getElem? h))
    exact ⟨h1, h2, by rw [hcount, strict_position hc hst h]⟩
  · rintro ⟨h1, h2, h3⟩
    obtain ⟨j, hj⟩ := List.mem_iff_getElem?.1 (hp.mem_iff.2 (List.mem_filter.2 ⟨h1, h2⟩))
    rw [h3, hcount, strict_position hc hst hj]
    exact hj

theorem limitTo_getElem? (n : Int) (l : List Path) (i : Nat) (q : Path) : (limitTo n l)[i]? = some q ↔ l[i]? = some q ∧ (n < 0 ∨ (i : Int) < n) := by
  unfold limitTo
  split
  · rename_i h; simp [h]
  · rename_i h
    rw [List.getElem?_take]
    split
    · rename_i h2; exact ⟨fun x => ⟨x, .inr (by omega)⟩, fun x => x.1⟩
    · rename_i h2; exact ⟨fun x => (Option.some_ne_none _ x.symm).elim, fun x => by rcases x.2 with x | x <;> omega⟩

/-- The filters answered for all entries. -/
theorem kept_answered {A : Answers} {cs ks : List Path} (h : Kept A cs ks) {c : Path} (hc : c ∈ cs) : ∃ b, A.keep c b := by
  induction h with
  | nil => cases hc
  | keep h1 _ ih => rcases List.mem_cons.1 hc with rfl | hc; exact ⟨true, h1⟩; exact ih hc
  | drop h1 _ ih => rcases List.mem_cons.1 hc with rfl | hc; exact ⟨false, h1⟩; exact ih hc

variable (hfs : ProperFs fs) (hw : cwd.abs = true) (hc : LawfulCmp o.pathComparator) (hd : DistinguishesAll o.pathComparator fs)
include hfs hw hc hd

omit hw in
/-- What was visited has a place. -/
theorem visited_placed {p q : Path} {k : Nat} (hv : Visited (answers fs o) o.pathComparator o.maxDepth 0 p k q) : Placed fs o p k q := by
  induction hv with
  | top => exact .top
  | @child k d n cs ks srt q _ h1 hk h2 h3 h4 h5 h6 h7 ih =>
    rw [kept_filter h4] at h5
    obtain ⟨i, hi⟩ := List.mem_iff_getElem?.1 h7
    obtain ⟨hi, hlim⟩ := (limitTo_getElem? _ _ _ _).1 hi
    obtain ⟨a1, a2, a3⟩ := (listing_position hfs hc hd h3 h5 h6 i q).1 hi
    exact .child ih h1 hk h3 a1 a2 h2 (a3 ▸ hlim)

/-- A path that has a place has an entry at this depth. -/
theorem placed_below {p : Path} {t : TreeEntry} (h : scanned fs cwd o p = .ok t) {k : Nat} {q : Path} (hp : Placed fs o (target cwd p) k q) : ∃ x, BelowAt x k t ∧ entryPath x = some q := by
  have hs := scanned_sound hw hc h
  induction hp with
  | top => exact ⟨t, .here, hs.entryPath_eq⟩
  | @child k d cs q n _ h1 hk h2 h3 h4 h5 h6 ih =>
    obtain ⟨x, hx, hxp⟩ := ih
    have hsub := hs.sub hx hxp
    rw [Nat.zero_add] at hsub
    cases hsub with
    | file hf _ => have hf : fs.isDir d = false := hf; rw [h1] at hf; cases hf
    | tooDeep _ hdeep => omega
    | @dir _ _ n' cs' ks srt es' a1 ak a2 a3 a4 a5 a6 a7 =>
      have a3 : fs.listDir d = .opened cs' false := a3
      rw [h2] at a3; cases a3
      have a2 : o.childLimit d = .ok n' := a2
      rw [h5] at a2; cases a2
      rw [kept_filter a4] at a5
      have hi := (limitTo_getElem? n srt _ q).2 ⟨(listing_position hfs hc hd h2 a5 a6 _ q).2 ⟨h3, h4, rfl⟩, h6⟩
      obtain ⟨e, he, hse⟩ := a7.mem_path (List.mem_of_getElem? hi)
      exact ⟨e, hx.child (List.mem_append.2 (.inl he)), hse.entryPath_eq⟩

/-- **C95**: with any filters, sort order, child limits and maximal depth, a path is displayed iff it has a place: it is the printed path, or it is listed in a displayed directory above the maximal
depth, passes the filter for its kind, and fewer of its accepted siblings are sorted before it than the child limit of that directory allows. -/
theorem C95_display_set {p : Path} {t : TreeEntry} (h : scanned fs cwd o p = .ok t) (q : Path) : q ∈ entryPaths t ↔ ∃ k, Placed fs o (target cwd p) k q := by
  have hs := scanned_sound hw hc h
  rw [mem_entryPaths]
  constructor
  · rintro ⟨n, x, hb, hq⟩
    have hv := hs.visited hb hq
    rw [Nat.zero_add] at hv
    exact ⟨n, visited_placed hfs hc hd hv⟩
  · rintro ⟨k, hp⟩
    exact ⟨k, placed_below hfs hw hc hd h hp⟩

/-- If the call returned, the filters answered for every entry of a displayed directory above the maximal depth. -/
theorem placed_answered {p : Path} {t : TreeEntry} (h : scanned fs cwd o p = .ok t) {k : Nat} {d : Path} (hp : Placed fs o (target cwd p) k d) (hdir : fs.isDir d = true) (hk : (k : Int) < o.maxDepth)
    {cs : List Path} (hl : fs.listDir d = .opened cs false) : (∃ n, o.childLimit d = .ok n) ∧ ∀ c ∈ cs, ∃ b, (if fs.isDir c = true then o.dirMatcher c else o.fileMatcher c) = .ok b := by
  obtain ⟨x, hx, hxp⟩ := placed_below hfs hw hc hd h hp
  have hsub := (scanned_sound hw hc h).sub hx hxp
  rw [Nat.zero_add] at hsub
  cases hsub with
  | file hf _ => have hf : fs.isDir d = false := hf; rw [hdir] at hf; cases hf
  | tooDeep _ hdeep => omega
  | @dir _ _ n' cs' ks srt es' a1 ak a2 a3 a4 a5 a6 a7 =>
    have a3 : fs.listDir d = .opened cs' false := a3
    rw [hl] at a3; cases a3
    exact ⟨⟨n', a2⟩, fun c hcm => kept_answered a4 hcm⟩

/-- **C95**: in a displayed directory above the maximal depth, the entry number `i` (from 0) is the path before which exactly `i` accepted siblings are sorted, as long as the child limit allows it. -/
theorem C95_position {p : Path} {t : TreeEntry} (h : scanned fs cwd o p = .ok t) {d : Path} {es : List TreeEntry} {k : Nat} (hb : BelowAt (.dir d es) k t) (hk : (k : Int) < o.maxDepth) :
    ∃ (n : Int) (cs : List Path), o.childLimit d = .ok n ∧ fs.listDir d = .opened cs false ∧
      ∀ (i : Nat) (q : Path), es[i]?.bind entryPath = some q ↔ q ∈ cs ∧ passes fs o q = true ∧ i = (earlier fs o cs q).length ∧ (n < 0 ∨ (i : Int) < n) := by
  have hsub := (scanned_sound hw hc h).sub hb rfl
  rw [Nat.zero_add] at hsub
  obtain ⟨_, _, hx | ⟨_, n, cs, ks, srt, es', h1, h2, h3, h4, h5, h6, h7⟩⟩ := hsub.dir_inv
  · omega
  refine ⟨n, cs, h1, h2, fun i q => ?_⟩
  rw [kept_filter h3] at h4
  have hpaths := h6.paths
  have key : es[i]?.bind entryPath = some q ↔ (limitTo n srt)[i]? = some q := by
    rw [h7]
    have hl : es'.length = (limitTo n srt).length := by have := congrArg List.length hpaths; simpa using this
    by_cases hi : i < es'.length
    · rw [List.getElem?_append_left hi]
      have := congrArg (·[i]?) hpaths
      simp only [List.getElem?_map] at this
      cases hq : es'[i]? with
      | none => rw [List.getElem?_eq_none_iff] at hq; omega
      | some e =>
        cases hq' : (limitTo n srt)[i]? with
        | none => rw [List.getElem?_eq_none_iff] at hq'; omega
        | some e' => rw [hq, hq'] at this; simp at this; simp [this]
    · rw [List.getElem?_append_right (by omega), List.getElem?_eq_none (l := limitTo n srt) (by omega)]
      unfold moreMark
      split
      · cases hj : i - es'.length <;> simp [entryPath]
      · simp
  rw [key, limitTo_getElem?, listing_position hfs hc hd h2 h4 h5 i q]
  simp only [and_assoc]

/-- **C95** on the printed text: the paths on the lines of the output are exactly those that have a place. -/
theorem C95_text {p : Path} {s : JStr} (h : prettyPrint fs.lift cwd o p = .ok s) :
    ∃ (items : List (Nat × Item)) (lines : List JStr), s = joinLines lines ∧ List.Forall₂ (IsLineOf o.treeFormat (lookOf o)) items lines ∧
      ∀ q, (∃ x ∈ items, some q ∈ x.2.shows) ↔ ∃ k, Placed fs o (target cwd p) k q := by
  obtain ⟨t, T, ht, hp⟩ := printed h
  obtain ⟨lines, h1, h2, h3⟩ := hp.lines
  refine ⟨T.items 0, lines, h1, h2, fun q => ?_⟩
  rw [← C95_display_set hfs hw hc hd ht q]
  constructor
  · rintro ⟨x, hx, hq⟩; exact mem_shows_entryPaths hp.shows hx hq
  · intro hq
    unfold entryPaths at hq
    obtain ⟨y, hy, hyq⟩ := List.mem_filterMap.1 hq
    simp at hyq; subst hyq
    rw [← h3] at hy
    exact List.mem_flatMap.1 hy

end

/-- The hypotheses hold on the demo disk with limits 1 and 2: `/r/a/x` has a place, `/r/z` has none (two entries come before it and the limit is 2). -/
example : (∃ k, Placed Demo.dfs Demo.limited Demo.r k Demo.x) ∧ ¬ ∃ k, Placed Demo.dfs Demo.limited Demo.r k Demo.z := by
  have h := C95_display_set (fs := Demo.dfs) (cwd := Path.root) (o := Demo.limited) Demo.proper rfl lawful_ALPHABETICAL Demo.distinguishes Demo.scanned_limited
  constructor
  · exact (h Demo.x).1 (by decide)
  · intro hz
    have := (h Demo.z).2 hz
    revert this
    decide

end JFTP
