import Verif.Props.ProjectStructure
import Verif.Props.Library
import Verif.Props.Readme
import Verif.Spec.Clone

/-
C106: the "complete example" in a clone of the repository, and its expected result.
-/

namespace JFTP
open Spec PathMatchers Globs

namespace Project
open Spec.Project

/-! ### The directory filter answers -/

theorem dirFilter_answers (odd : GlobCompiler) {cwd : Path} (hcwd : Good cwd) {fs : PureFs} (hr : OnePage.Readable fs) :
    ∃ D, dirFilter (getPathMatcher odd) fs cwd (Path.ofString j!"..") = .ok D ∧ ∀ q, ∃ b, D q = .ok b := by
  obtain ⟨bt, t1, -⟩ := rel_exactly odd hcwd (ds := [j!"target"]) (g := j!"target") rfl (by simp) (by simp [Verbatim, Glob.plain, SLASH]) (by decide)
  obtain ⟨bs, s1, -⟩ := rel_exactly odd hcwd (ds := [j!"src"]) (g := j!"src") rfl (by simp) (by simp [Verbatim, Glob.plain, SLASH]) (by decide)
  obtain ⟨bi, i1, -⟩ := rel_glob odd hcwd (segs := [.name [.part .star], exactly j!"src", .dirs]) (g := j!"*/src/**") (by decide) (by simp)
    (by
      simp only [List.mem_cons, List.not_mem_nil, or_false, forall_eq_or_imp, forall_eq]
      refine ⟨⟨trivial, fun p hp => ?_⟩, exactly_ok ⟨by decide, by simp [Glob.plain]⟩ (by decide), trivial⟩
      simp only [List.mem_cons, List.not_mem_nil, or_false] at hp
      subst hp; trivial) (by decide)
  refine ⟨_, by unfold dirFilter; rw [t1, s1, i1]; rfl, fun q => ?_⟩
  obtain ⟨bh, h1, -⟩ := hidden_eq q
  obtain ⟨x, hx⟩ := OnePage.walk_answers (w := ⟨fs, cwd, asciiCasing, fun _ => Option.none⟩) hr (mt := hasName MAIN) (fun q => ⟨_, hasName_eq MAIN q⟩) (fun _ => true) (n := intMax) (by decide) q
  have hx : hasAnyDescendantMatching (m := Except Exn) fs.lift (hasName j!"FileTreePrettyPrinter.java") q = .ok x := hx
  simp only [PathMatchers.any, PathMatchers.none, h1, hx, bind, Except.bind, pure, Except.pure]
  cases x <;> cases bh <;> cases bt q <;> cases bs q <;> cases bi q <;> exact ⟨_, rfl⟩

theorem options_dir {cs : Casing} {odd : GlobCompiler} {fs : PureFs} {cwd : Path} {o : Options (Except Exn)} (h : options cs (getPathMatcher odd) fs cwd (Path.ofString j!"..") = .ok o) :
    dirFilter (getPathMatcher odd) fs cwd (Path.ofString j!"..") = .ok o.dirMatcher := by
  unfold options at h
  obtain ⟨D, hD, h⟩ := except_bind_ok h
  obtain ⟨F, -, h⟩ := except_bind_ok h
  obtain ⟨B, -, h⟩ := except_bind_ok h
  obtain ⟨X, -, h⟩ := except_bind_ok h
  obtain ⟨oe, -, h⟩ := except_bind_ok h
  cases h
  exact hD

/-! ### Reading a directory -/

section
variable {cs : Casing} {fs : PureFs} (hfs : ProperFs fs) (hnames : PlainNames fs) (hr : OnePage.Readable fs) {b : List JStr} (hb : ∀ n ∈ b, NameOk n) {m : JStr} {o : Options (Except Exn)}
  (hF : Facts cs fs (under b [m]) o) (hD : ∀ q, ∃ v, o.dirMatcher q = .ok v)

theorem under_child (b way : List JStr) (n : JStr) : (under b way).child n = under b (way ++ [n]) := by
  rw [names_child rfl]; simp [under]

theorem rank_irrefl (q : Path) : ¬ Before fs q q := by
  unfold Before
  rintro (h | ⟨-, h⟩)
  · omega
  · rw [compareTo_eq_zero.2 rfl] at h; omega

include hF hD in
theorem keep_iff {q : Path} {way : List JStr} (hq : Good q) (hway : q.names = b ++ way) : ∃ v, (answers fs o).keep q v ∧ (v = true ↔ Shown fs way q) := by
  have ha : ∃ v, (if fs.isDir q = true then o.dirMatcher q else o.fileMatcher q) = .ok v := by
    split
    · exact hD q
    · obtain ⟨v, h, -⟩ := hF.file q hq; exact ⟨v, h⟩
  obtain ⟨v, ha⟩ := ha
  refine ⟨v, ha, ?_⟩
  have := shown_passes hF (way := way) hq (by rw [hway]; simp [under]) ha
  unfold passes at this
  rw [ha] at this
  exact this

include hnames hF hD in
theorem kept_all {way : List JStr} (hd : Good (under b way)) {cs : List Path} (hl : fs.listDir (under b way) = .opened cs false) : ∀ l, (∀ q ∈ l, q ∈ cs) → Kept (answers fs o) l (l.filter (passes fs o))
  | [], _ => .nil
  | q :: l, h => by
    obtain ⟨n, rfl, hn⟩ := hnames _ _ _ hl q (h q (by simp))
    have hg := (hd.child hn).1
    obtain ⟨v, h1, -⟩ := keep_iff hF hD (way := way ++ [n]) hg (by rw [under_child]; rfl)
    have h2 : passes fs o ((under b way).child n) = v := by
      have h1 : (if fs.isDir ((under b way).child n) = true then o.dirMatcher ((under b way).child n) else o.fileMatcher ((under b way).child n)) = .ok v := h1
      unfold passes; rw [h1]
    have ih := kept_all hd hl l fun q hq => h q (by simp [hq])
    cases v with
    | true => rw [List.filter_cons_of_pos h2]; exact .keep h1 ih
    | false => rw [List.filter_cons_of_neg (by rw [h2]; simp)]; exact .drop h1 ih

/-- The entries of a directory: the shown ones in their order. -/
structure Listed (fs : PureFs) (b way : List JStr) (srt : List Path) : Prop where
  isDir : fs.isDir (under b way) = true
  ex : ∃ cs, fs.listDir (under b way) = .opened cs false ∧ ∀ q, q ∈ srt ↔ q ∈ cs ∧ ∃ n, q = under b (way ++ [n]) ∧ Shown fs (way ++ [n]) q
  sorted : srt.Pairwise (Before fs)

include hfs hnames hF hD in
theorem scan_dir {way : List JStr} (hd : Good (under b way)) (hk : way.length < 20) {srt : List Path} (h : Listed fs b way srt) {es : List TreeEntry}
    (he : ScannedAll (answers fs o) o.pathComparator o.maxDepth (way.length + 1) (srt.take (roomFor (under b way).names.getLast? srt.length)) es) :
    Scanned (answers fs o) o.pathComparator o.maxDepth way.length (under b way) (.dir (under b way) (es ++ if roomFor (under b way).names.getLast? srt.length < srt.length then [.skipped (under b way)] else [])) := by
  obtain ⟨cs, hl, hmem⟩ := h.ex
  have hlim := hF.limit _ hd
  rw [← (room_limit _ srt (under b way)).1] at he
  rw [← (room_limit _ srt (under b way)).2]
  have hpm : srt.Perm (cs.filter (passes fs o)) := by
    refine (List.perm_ext_iff_of_nodup ?_ ((hfs _ _ _ hl).1.filter _)).2 fun q => ?_
    · exact h.sorted.imp fun {a c} (hab : Before fs a c) (e : a = c) => rank_irrefl a (by subst e; exact hab)
    · rw [hmem, List.mem_filter]
      refine and_congr_right fun hq => ?_
      obtain ⟨n, rfl, hn⟩ := hnames _ _ _ hl q hq
      have hg := (hd.child hn).1
      obtain ⟨v, h1, h2⟩ := keep_iff hF hD (way := way ++ [n]) hg (by rw [under_child]; rfl)
      have h3 : passes fs o ((under b way).child n) = v := by
        have h1 : (if fs.isDir ((under b way).child n) = true then o.dirMatcher ((under b way).child n) else o.fileMatcher ((under b way).child n)) = .ok v := h1
        unfold passes; rw [h1]
      rw [h3, h2, under_child]
      constructor
      · rintro ⟨n', e, hs⟩
        have e : b ++ (way ++ [n]) = b ++ (way ++ [n']) := congrArg Path.names e
        have e : n = n' := by simpa using e
        subst e
        exact hs
      · exact fun hs => ⟨n, rfl, hs⟩
  refine Scanned.dir h.isDir (by rw [hF.depth]; omega) hlim hl (kept_all hnames hF hD hd hl cs fun q hq => hq) hpm ?_ he
  refine h.sorted.imp fun {a c} hab => ?_
  rw [hF.cmp]
  exact le_of_lt ((order_before fs a c).2 hab)

end

/-- The same for a directory whose entries are all displayed. -/
theorem room_all {name : Option JStr} (h1 : name ≠ some CLI) (h2 : name ≠ some EXAMPLES) (h3 : name ≠ some CORE) (n : Nat) : roomFor name n = n := by
  unfold roomFor
  rw [if_neg (by simp [h1, h2]), if_neg h3]

/-! ### What is shown in a clone -/

section
variable {fs : PureFs} {b : List JStr} (hr : OnePage.Readable fs) (h : Clone fs b) (hcore : CORE ∉ b)

theorem last_under (b way : List JStr) (n : JStr) : (under b (way ++ [n])).names.getLast? = some n := by simp [under]

theorem hidden_under (way : List JStr) (n : JStr) : Hidden (under b (way ++ [n])).names ↔ ∃ rest, n = 46 :: rest := by
  unfold Hidden; rw [last_under]; simp

include hr h in
theorem content_list {x : List JStr × List JStr} (hx : x ∈ content) : ∃ cs, fs.listDir (under b x.1) = .opened cs false := by
  obtain ⟨cs, h, -⟩ := hr _ (h.dir x hx); exact ⟨cs, h⟩

include hr h in
theorem reach_down {way ns : List JStr} {n : JStr} (hx : (way, ns) ∈ content) (hn : n ∈ ns) {k : Nat} {q : Path} (hq : Reach fs k (under b (way ++ [n])) q) : Reach fs (k + 1) (under b way) q := by
  obtain ⟨cs, hl⟩ := content_list hr h hx
  exact .down (h.dir _ hx) hl (h.has _ hx _ _ hl n hn) hq

include hr h in
theorem reach_main : ∀ i < 8, ∃ k, k ≤ 8 ∧ Reach fs k (under b (chain.take (i + 1))) (under b (chain ++ [MAIN])) := by
  have h8 : Reach fs 1 (under b chain) (under b (chain ++ [MAIN])) := by
    have hx : (chain, [MAIN]) ∈ content := by decide +kernel
    obtain ⟨cs, hl⟩ := content_list hr h hx
    exact .child (h.dir _ hx) hl (h.has _ hx _ _ hl MAIN (by simp))
  have h7 := reach_down hr h (way := chain.take 7) (ns := [j!"jfiletreeprettyprinter"]) (n := j!"jfiletreeprettyprinter") (by decide +kernel) (by simp) h8
  have h6 := reach_down hr h (way := chain.take 6) (ns := [j!"computerdaddyguy"]) (n := j!"computerdaddyguy") (by decide +kernel) (by simp) h7
  have h5 := reach_down hr h (way := chain.take 5) (ns := [j!"github"]) (n := j!"github") (by decide +kernel) (by simp) h6
  have h4 := reach_down hr h (way := chain.take 4) (ns := [j!"io"]) (n := j!"io") (by decide +kernel) (by simp) h5
  have h3 := reach_down hr h (way := chain.take 3) (ns := [j!"java"]) (n := j!"java") (by decide +kernel) (by simp) h4
  have h2 := reach_down hr h (way := chain.take 2) (ns := [j!"main"]) (n := j!"main") (by decide +kernel) (by simp) h3
  have h1 := reach_down hr h (way := chain.take 1) (ns := [j!"src"]) (n := j!"src") (by decide +kernel) (by simp) h2
  intro i hi
  match i, hi with
  | 0, _ => exact ⟨_, by omega, h1⟩
  | 1, _ => exact ⟨_, by omega, h2⟩
  | 2, _ => exact ⟨_, by omega, h3⟩
  | 3, _ => exact ⟨_, by omega, h4⟩
  | 4, _ => exact ⟨_, by omega, h5⟩
  | 5, _ => exact ⟨_, by omega, h6⟩
  | 6, _ => exact ⟨_, by omega, h7⟩
  | 7, _ => exact ⟨_, by omega, h8⟩

include hr h in
theorem chain_shown {i : Nat} (hi : i < 8) : HoldsMain fs (under b (chain.take (i + 1))) := by
  obtain ⟨k, hk, hq⟩ := reach_main hr h i hi
  exact ⟨k, _, by omega, hq, last_under _ _ _⟩

include hcore in
theorem file_outside {way : List JStr} {n : JStr} (hw : CORE ∉ way ++ [n]) (hn : ¬ ∃ rest, n = 46 :: rest) : FileShown (under b (way ++ [n])).names := by
  refine .inr ⟨?_, by rw [hidden_under]; exact hn⟩
  rintro ⟨above, below, -, e⟩
  have : CORE ∈ (under b (way ++ [n])).names := by rw [e]; simp
  rcases List.mem_append.1 this with h | h
  · exact hcore h
  · exact hw h

/-- Everything that is there for sure is shown. -/
theorem content_kinds : ∀ x ∈ content, ∀ n ∈ x.2, (∃ i < 8, x.1 ++ [n] = chain.take (i + 1)) ∧ x.1 ++ [n] ∈ content.map Prod.fst ∨
    (x.1 = [] ∧ n ∈ [EXAMPLES, CLI, j!"assets", j!"docs"] ∧ x.1 ++ [n] ∈ content.map Prod.fst) ∨ (x.1 ++ [n] ∈ files ∧ (x.1 ++ [n] = chain ++ [MAIN] ∨ CORE ∉ x.1 ++ [n] ∧ n.head? ≠ some 46)) := by decide +kernel

include hr h hcore in
theorem content_shown {x : List JStr × List JStr} (hx : x ∈ content) {n : JStr} (hn : n ∈ x.2) : Shown fs (x.1 ++ [n]) (under b (x.1 ++ [n])) := by
  unfold Shown
  rcases content_kinds x hx n hn with ⟨⟨i, hi, e⟩, hd⟩ | ⟨e, hk, hd⟩ | ⟨hf, hk⟩
  · obtain ⟨y, hy, ey⟩ := List.mem_map.1 hd
    rw [← ey, if_pos (h.dir y hy), ey]
    refine .inl ?_
    rw [e]
    exact chain_shown hr h hi
  · obtain ⟨y, hy, ey⟩ := List.mem_map.1 hd
    rw [← ey, if_pos (h.dir y hy), ey]
    refine .inr ⟨?_, ?_, ?_, ?_⟩
    · rw [hidden_under]
      rintro ⟨rest, rfl⟩
      simp [EXAMPLES, CLI] at hk
    · rw [e]; rintro e'; simp at e'; subst e'; revert hk; decide
    · rw [e]; rintro e'; simp at e'; subst e'; revert hk; decide
    · rw [e]; rintro ⟨mod, below, -, e'⟩; simp at e'
  · rw [if_neg (by rw [(h.file _ hf).1]; simp)]
    rcases hk with hk | ⟨hk, hh⟩
    · rw [hk]
      exact .inl ⟨b, chain.tail, by decide, by simp [under, chain]⟩
    · exact file_outside hcore hk (by rintro ⟨rest, rfl⟩; exact hh rfl)

theorem file_in_core {rest : List JStr} {n : JStr} (hn : n ≠ MAIN) : ¬ FileShown (under b (CORE :: rest ++ [n])).names := by
  rintro (⟨above, between, -, e⟩ | ⟨h1, -⟩)
  · have := last_under b (CORE :: rest) n
    rw [e, show above ++ CORE :: (between ++ [MAIN]) = (above ++ CORE :: between) ++ [MAIN] by simp, List.getLast?_concat] at this
    cases this
    exact hn rfl
  · exact h1 ⟨b, rest ++ [n], by simp, by simp [under]⟩

/-- What else is there is not shown, except for directories of the module. -/
theorem other_hidden {way : List JStr} {n : JStr} (hn : Other fs b way n) (hk : way = [CORE] → fs.isDir (under b (way ++ [n])) = true → ∃ rest, n = 46 :: rest) : ¬ Shown fs (way ++ [n]) (under b (way ++ [n])) := by
  unfold Shown
  rcases hn with ⟨hd, hm, hx⟩ | ⟨hd, hx⟩
  · rw [if_pos hd]
    rintro (h1 | ⟨h1, h2, h3, h4⟩)
    · exact hm h1
    · rw [hidden_under] at h1
      rcases hx with hx | ⟨rfl, rfl | rfl⟩ | ⟨rfl, -⟩ | ⟨rest, rfl⟩
      · exact h1 hx
      · exact h2 rfl
      · exact h3 rfl
      · exact h1 (hk rfl hd)
      · exact h4 ⟨CORE, rest ++ [n], by simp, by simp⟩
  · rw [if_neg (by rw [hd]; simp)]
    rcases hx with ⟨hx, rest, rfl⟩ | ⟨⟨rest, rfl⟩, -⟩
    · exact file_in_core hx
    · rintro (⟨above, between, -, e⟩ | ⟨-, h1⟩)
      · have := last_under b way (46 :: rest)
        rw [e, show above ++ CORE :: (between ++ [MAIN]) = (above ++ CORE :: between) ++ [MAIN] by simp, List.getLast?_concat] at this
        simp [MAIN] at this
      · exact h1 ((hidden_under _ _).2 ⟨rest, rfl⟩)

/-! ### The order -/

def rankOf (n : JStr) (dir : Bool) : Int :=
  if n = CORE then -100 else if n = EXAMPLES then -90 else if n = CLI then -80 else if n = j!"assets" then -70 else if n = j!"docs" then -60 else if dir then -1 else 0

theorem rank_under (way : List JStr) (n : JStr) : rank fs (under b (way ++ [n])) = rankOf n (fs.isDir (under b (way ++ [n]))) := by
  unfold rank rankOf
  rw [last_under]
  simp only [Option.some.injEq]

theorem before_under {way : List JStr} {n k : JStr} : Before fs (under b (way ++ [n])) (under b (way ++ [k])) ↔
    rankOf n (fs.isDir (under b (way ++ [n]))) < rankOf k (fs.isDir (under b (way ++ [k]))) ∨
    (rankOf n (fs.isDir (under b (way ++ [n]))) = rankOf k (fs.isDir (under b (way ++ [k]))) ∧ compareTo n k < 0) := by
  unfold Before
  rw [rank_under, rank_under]
  simp [lastName, under]

theorem content_kind : ∀ x ∈ content, ∀ n ∈ x.2, if x.1 ++ [n] ∈ content.map Prod.fst then True else x.1 ++ [n] ∈ files := by decide +kernel

include h in
theorem kind_under {x : List JStr × List JStr} (hx : x ∈ content) {n : JStr} (hn : n ∈ x.2) : fs.isDir (under b (x.1 ++ [n])) = decide (x.1 ++ [n] ∈ content.map Prod.fst) := by
  have := content_kind x hx n hn
  by_cases hd : x.1 ++ [n] ∈ content.map Prod.fst
  · rw [decide_eq_true hd]
    obtain ⟨y, hy, ey⟩ := List.mem_map.1 hd
    rw [← ey]; exact h.dir y hy
  · rw [if_neg hd] at this
    rw [decide_eq_false hd]
    exact (h.file _ this).1

def inOrder (way : List JStr) (n k : JStr) : Prop :=
  rankOf n (way ++ [n] ∈ content.map Prod.fst) < rankOf k (way ++ [k] ∈ content.map Prod.fst) ∨
    (rankOf n (way ++ [n] ∈ content.map Prod.fst) = rankOf k (way ++ [k] ∈ content.map Prod.fst) ∧ compareTo n k < 0)

instance (way : List JStr) : DecidableRel (inOrder way) := fun _ _ => inferInstanceAs (Decidable (_ ∨ _))

theorem content_order : ∀ x ∈ content, x.2.Pairwise (inOrder x.1) := by decide +kernel

include h in
theorem content_sorted {x : List JStr × List JStr} (hx : x ∈ content) : (x.2.map fun n => under b (x.1 ++ [n])).Pairwise (Before fs) := by
  rw [List.pairwise_map]
  refine (content_order x hx).imp_of_mem fun {n k} hn hk ho => ?_
  rw [before_under, kind_under h hx hn, kind_under h hx hk]
  exact ho

include hr h hcore in
theorem listed_content {x : List JStr × List JStr} (hx : x ∈ content) (h1 : x.1 ≠ [EXAMPLES]) (h2 : x.1 ≠ [CLI]) (h3 : x.1 ≠ [CORE]) : Listed fs b x.1 (x.2.map fun n => under b (x.1 ++ [n])) := by
  obtain ⟨cs, hl⟩ := content_list hr h hx
  refine ⟨h.dir x hx, ⟨cs, hl, fun q => ?_⟩, content_sorted h hx⟩
  rw [List.mem_map]
  constructor
  · rintro ⟨n, hn, rfl⟩
    exact ⟨h.has x hx _ _ hl n hn, n, rfl, content_shown hr h hcore hx hn⟩
  · rintro ⟨hq, n, rfl, hs⟩
    refine ⟨n, ?_, rfl⟩
    by_contra hn
    exact other_hidden (h.other x hx h1 h2 _ _ hl n hq hn) (fun e => absurd e h3) hs

theorem exists_listed (hfs : ProperFs fs) (hr : OnePage.Readable fs) {way : List JStr} (hd : fs.isDir (under b way) = true) : ∃ srt, Listed fs b way srt := by
  classical
  obtain ⟨cs, hl, -⟩ := hr _ hd
  have hc : LawfulCmp (thenComparing ((sorts fs).build.compare (sorts fs)) PathSorts.ALPHABETICAL) := sort_lawful (lawful_builder _ _)
  have hp := streamSorted_perm (thenComparing ((sorts fs).build.compare (sorts fs)) PathSorts.ALPHABETICAL) (cs.filter fun q => decide (∃ n, q = under b (way ++ [n]) ∧ Shown fs (way ++ [n]) q))
  refine ⟨streamSorted (thenComparing ((sorts fs).build.compare (sorts fs)) PathSorts.ALPHABETICAL) (cs.filter fun q => decide (∃ n, q = under b (way ++ [n]) ∧ Shown fs (way ++ [n]) q)), hd,
    ⟨cs, hl, fun q => ?_⟩, ?_⟩
  · rw [hp.mem_iff, List.mem_filter, decide_eq_true_iff]
  · refine (strictly_sorted hc (streamSorted_sorted hc _) (hp.nodup_iff.2 ((hfs _ _ _ hl).1.filter _)) ?_).imp fun {a c} hac => (order_before fs a c).1 hac
    intro x hx y hy
    rw [hp.mem_iff] at hx hy
    exact sort_distinguishes (lawful_builder _ _) hfs _ _ _ hl x (List.mem_filter.1 hx).1 y (List.mem_filter.1 hy).1

include hr h hcore in
/-- In the modules that are not opened there is something to show. -/
theorem listed_closed {way : List JStr} (hx : (way, [j!"pom.xml"]) ∈ content) {srt : List Path} (hs : Listed fs b way srt) : 0 < srt.length := by
  obtain ⟨cs, hl, hm⟩ := hs.ex
  exact List.length_pos_of_mem ((hm (under b (way ++ [j!"pom.xml"]))).2 ⟨h.has _ hx _ _ hl _ (by simp), _, rfl, content_shown hr h hcore hx (by simp)⟩)

theorem core_content : ([CORE], [j!"src"]) ∈ content := by decide +kernel

include h in
/-- In the module: `src` and the leftovers are shown. -/
theorem core_shown {cs : List Path} {bad : Bool} (hl : fs.listDir (under b [CORE]) = .opened cs bad) {n : JStr} (hq : under b ([CORE] ++ [n]) ∈ cs) (hn : n ≠ j!"src") :
    Shown fs ([CORE] ++ [n]) (under b ([CORE] ++ [n])) ↔ fs.isDir (under b [CORE, n]) = true ∧ ¬ ∃ rest, n = 46 :: rest := by
  have ho := h.other _ core_content (by decide) (by decide) _ _ hl n hq (by simpa using hn)
  constructor
  · intro hs
    by_contra hx
    refine other_hidden ho (fun _ hd => ?_) hs
    by_contra hh
    exact hx ⟨hd, hh⟩
  · rintro ⟨hd, hh⟩
    unfold Shown
    have hd : fs.isDir (under b ([CORE] ++ [n])) = true := hd
    rw [if_pos hd]
    refine .inr ⟨by rw [hidden_under]; exact hh, by simp, by simp, ?_⟩
    rintro ⟨mod, below, h1, e⟩
    simp at e
    exact hn e.2.1

include h in
theorem core_after {cs : List Path} {bad : Bool} (hl : fs.listDir (under b [CORE]) = .opened cs bad) {n : JStr} (hq : under b ([CORE] ++ [n]) ∈ cs) (hn : n ≠ j!"src")
    (hs : Shown fs ([CORE] ++ [n]) (under b ([CORE] ++ [n]))) : compareTo j!"src" n < 0 := by
  have ho := h.other _ core_content (by decide) (by decide) _ _ hl n hq (by simpa using hn)
  obtain ⟨hd, hh⟩ := (core_shown h hl hq hn).1 hs
  rcases ho with ⟨-, -, hx | ⟨hx, -⟩ | ⟨-, hx⟩ | ⟨rest, hx⟩⟩ | ⟨hx, -⟩
  · exact absurd hx hh
  · cases hx
  · exact hx
  · simp at hx
  · have hd : fs.isDir (under b ([CORE] ++ [n])) = true := hd
    rw [hx] at hd; cases hd

theorem rank_after {n : JStr} (hn : compareTo j!"src" n < 0) : rankOf n true = -1 := by
  have : ∀ k ∈ [CORE, EXAMPLES, CLI, j!"assets", j!"docs"], n ≠ k := by
    have key : ∀ k ∈ [CORE, EXAMPLES, CLI, j!"assets", j!"docs"], ¬ compareTo j!"src" k < 0 := by decide
    rintro k hk rfl
    exact key n hk hn
  simp only [List.mem_cons, List.not_mem_nil, or_false, forall_eq_or_imp, forall_eq] at this
  obtain ⟨h1, h2, h3, h4, h5⟩ := this
  unfold rankOf
  rw [if_neg h1, if_neg h2, if_neg h3, if_neg h4, if_neg h5, if_pos rfl]

include hr h hcore in
theorem listed_core {srt : List Path} (hs : Listed fs b [CORE] srt) : srt.take 1 = [under b [CORE, j!"src"]] ∧ (1 < srt.length ↔ Leftovers fs b) := by
  obtain ⟨cs, hl, hm⟩ := hs.ex
  have hsrc : under b [CORE, j!"src"] ∈ srt := (hm (under b ([CORE] ++ [j!"src"]))).2 ⟨h.has _ core_content _ _ hl _ (by simp), _, rfl, content_shown hr h hcore core_content (by simp)⟩
  have hfirst : ∃ l, srt = under b [CORE, j!"src"] :: l := by
    cases hq : srt with
    | nil => rw [hq] at hsrc; cases hsrc
    | cons a l =>
      refine ⟨l, ?_⟩
      by_contra hne
      have hne : a ≠ under b [CORE, j!"src"] := fun e => hne (by rw [e])
      have hb : Before fs a (under b [CORE, j!"src"]) := by
        have hp := hs.sorted
        rw [hq] at hp hsrc
        rcases List.mem_cons.1 hsrc with e | e
        · exact absurd e.symm hne
        · exact (List.pairwise_cons.1 hp).1 _ e
      obtain ⟨ha, n, rfl, hsh⟩ := (hm a).1 (by rw [hq]; simp)
      have hn : n ≠ j!"src" := by rintro rfl; exact hne rfl
      have hlt := core_after h hl ha hn hsh
      obtain ⟨hd, -⟩ := (core_shown h hl ha hn).1 hsh
      have hb := (before_under (way := [CORE]) (n := n) (k := j!"src")).1 hb
      have e1 : fs.isDir (under b ([CORE] ++ [n])) = true := hd
      have e2 : fs.isDir (under b ([CORE] ++ [j!"src"])) = true := h.dir (chain.take 2, [j!"main"]) (by decide +kernel)
      rw [e1, e2, rank_after hlt, show rankOf j!"src" true = -1 by decide] at hb
      have := compareTo_neg n j!"src"
      omega
  obtain ⟨l, rfl⟩ := hfirst
  refine ⟨rfl, ?_⟩
  constructor
  · intro hlen
    cases l with
    | nil => simp at hlen
    | cons a l =>
      obtain ⟨ha, n, rfl, hsh⟩ := (hm a).1 (by simp)
      have hn : n ≠ j!"src" := by
        rintro rfl
        exact rank_irrefl _ ((List.pairwise_cons.1 hs.sorted).1 (under b ([CORE] ++ [j!"src"])) (by simp))
      obtain ⟨hd, hh⟩ := (core_shown h hl ha hn).1 hsh
      exact ⟨cs, n, hl, ha, hd, hn, hh⟩
  · rintro ⟨cs', n, hl', hq, hd, hn, hh⟩
    rw [hl] at hl'
    cases hl'
    have := (hm (under b ([CORE] ++ [n]))).2 ⟨hq, n, rfl, (core_shown h hl hq hn).2 ⟨hd, hh⟩⟩
    rcases List.mem_cons.1 this with e | e
    · have e : b ++ ([CORE] ++ [n]) = b ++ [CORE, j!"src"] := congrArg Path.names e
      simp at e
      exact absurd e hn
    · have := List.length_pos_of_mem e
      simp; omega

end

/-! ### The tree -/

def fileAt (b way : List JStr) : TreeEntry := .file (under b way) ⟨false, false⟩

/-- The directories from the `i`-th one of the chain to the main class. -/
def chainAt (b : List JStr) : Nat → TreeEntry
  | 0 => .dir (under b chain) [fileAt b (chain ++ [MAIN])]
  | i + 1 => .dir (under b (chain.take (7 - i))) [chainAt b i]

def found (b : List JStr) (more : Bool) : TreeEntry :=
  .dir (under b []) ([
    .dir (under b [CORE]) ([chainAt b 6] ++ if more then [.skipped (under b [CORE])] else []),
    .dir (under b [EXAMPLES]) [.skipped (under b [EXAMPLES])],
    .dir (under b [CLI]) [.skipped (under b [CLI])],
    .dir (under b [j!"assets"]) [fileAt b [j!"assets", j!"project-structure.png"]],
    .dir (under b [j!"docs"]) (docFiles.map fun n => fileAt b [j!"docs", n])] ++ topFiles.map fun n => fileAt b [n])

theorem content_names : ∀ x ∈ content, (∀ n ∈ x.1, NameOk n) ∧ ∀ n ∈ x.2, NameOk n := by unfold NameOk; decide +kernel
theorem content_length : ∀ x ∈ content, x.1.length < 20 := by decide +kernel

section
variable {cs : Casing} {fs : PureFs} (hfs : ProperFs fs) (hnames : PlainNames fs) (hr : OnePage.Readable fs) {b : List JStr} (hb : ∀ n ∈ b, NameOk n) (h : Clone fs b) (hcore : CORE ∉ b)
  {m : JStr} {o : Options (Except Exn)} (hF : Facts cs fs (under b [m]) o) (hD : ∀ q, ∃ v, o.dirMatcher q = .ok v)

include hb in
theorem good_under {way : List JStr} (hw : ∀ n ∈ way, NameOk n) : Good (under b way) :=
  ⟨rfl, fun n hn => (List.mem_append.1 hn).elim (hb n) (hw n)⟩

include h in
theorem scan_file {way : List JStr} (hw : way ∈ files) (k : Nat) : Scanned (answers fs o) o.pathComparator o.maxDepth k (under b way) (fileAt b way) :=
  .file (h.file way hw).1 (h.file way hw).2

include h in
theorem scan_files (way : List JStr) (k : Nat) : ∀ ns : List JStr, (∀ n ∈ ns, way ++ [n] ∈ files) →
    ScannedAll (answers fs o) o.pathComparator o.maxDepth k (ns.map fun n => under b (way ++ [n])) (ns.map fun n => fileAt b (way ++ [n]))
  | [], _ => .nil
  | n :: ns, hn => .cons (scan_file h (hn n (by simp)) k) (scan_files way k ns fun n' h' => hn n' (by simp [h']))

theorem scannedAll_append {A : Answers} {c : Cmp} {D : Int} {k : Nat} {ps qs : List Path} {es fs' : List TreeEntry} (h1 : ScannedAll A c D k ps es) (h2 : ScannedAll A c D k qs fs') :
    ScannedAll A c D k (ps ++ qs) (es ++ fs') := by
  induction ps generalizing es with
  | nil => cases h1; exact h2
  | cons p ps ih => cases h1 with | cons hp hps => exact .cons hp (ih hps)

include hfs hnames hr hb h hcore hF hD in
theorem scan_content {x : List JStr × List JStr} (hx : x ∈ content) (h1 : (under b x.1).names.getLast? ≠ some EXAMPLES) (h2 : (under b x.1).names.getLast? ≠ some CLI) (h3 : (under b x.1).names.getLast? ≠ some CORE)
    {es : List TreeEntry} (he : ScannedAll (answers fs o) o.pathComparator o.maxDepth (x.1.length + 1) (x.2.map fun n => under b (x.1 ++ [n])) es) :
    Scanned (answers fs o) o.pathComparator o.maxDepth x.1.length (under b x.1) (.dir (under b x.1) es) := by
  have hl := listed_content hr h hcore hx (by intro e; rw [e] at h1; exact h1 (last_under b [] EXAMPLES)) (by intro e; rw [e] at h2; exact h2 (last_under b [] CLI)) (by intro e; rw [e] at h3; exact h3 (last_under b [] CORE))
  have := scan_dir hfs hnames hF hD (good_under hb (content_names x hx).1) (content_length x hx) hl (es := es) (by rw [room_all h2 h1 h3, List.take_length]; exact he)
  rw [room_all h2 h1 h3, if_neg (by omega), List.append_nil] at this
  exact this

include hfs hnames hr hb h hcore hF hD in
theorem scan_closed {way : List JStr} {n : JStr} (hx : (way ++ [n], [j!"pom.xml"]) ∈ content) (hn : n = EXAMPLES ∨ n = CLI) :
    Scanned (answers fs o) o.pathComparator o.maxDepth (way ++ [n]).length (under b (way ++ [n])) (.dir (under b (way ++ [n])) [.skipped (under b (way ++ [n]))]) := by
  obtain ⟨srt, hs⟩ := exists_listed hfs hr (h.dir _ hx)
  have hpos := listed_closed hr h hcore hx hs
  have hroom : roomFor (under b (way ++ [n])).names.getLast? srt.length = 0 := by
    rw [last_under]
    rcases hn with rfl | rfl <;> simp [roomFor]
  have := scan_dir hfs hnames hF hD (good_under hb (content_names _ hx).1) (content_length _ hx) hs (es := []) (by rw [hroom]; exact .nil)
  rw [hroom, if_pos hpos] at this
  exact this

theorem chain_content : ∀ i < 6, (chain.take (7 - i), [chain.getD (7 - i) []]) ∈ content ∧ chain.take (7 - i) ++ [chain.getD (7 - i) []] = chain.take (8 - i) ∧ (chain.take (7 - i)).length = 7 - i ∧
    ∃ l n, chain.take (7 - i) = l ++ [n] ∧ n ≠ EXAMPLES ∧ n ≠ CLI ∧ n ≠ CORE := by
  intro i hi
  refine ⟨?_, ?_, ?_, (chain.take (7 - i)).dropLast, (chain.take (7 - i)).getLastD [], ?_⟩
  all_goals (revert i; decide +kernel)

include hfs hnames hr hb h hcore hF hD in
theorem scan_chain : ∀ i, i ≤ 6 → Scanned (answers fs o) o.pathComparator o.maxDepth (8 - i) (under b (chain.take (8 - i))) (chainAt b i)
  | 0, _ => scan_content hfs hnames hr hb h hcore hF hD (x := (chain, [MAIN])) (by decide +kernel) (by rw [show chain = chain.dropLast ++ [j!"jfiletreeprettyprinter"] by decide, last_under]; decide)
      (by rw [show chain = chain.dropLast ++ [j!"jfiletreeprettyprinter"] by decide, last_under]; decide) (by rw [show chain = chain.dropLast ++ [j!"jfiletreeprettyprinter"] by decide, last_under]; decide)
      (.cons (scan_file h (by decide +kernel) _) .nil)
  | i + 1, hi => by
    obtain ⟨hx, e1, e2, l, n, e3, n1, n2, n3⟩ := chain_content i (by omega)
    have ih := scan_chain i (by omega)
    have := scan_content hfs hnames hr hb h hcore hF hD hx (es := [chainAt b i]) (by rw [show (chain.take (7 - i), [chain.getD (7 - i) []]).1 = l ++ [n] from e3, last_under]; simpa using n1)
      (by rw [show (chain.take (7 - i), [chain.getD (7 - i) []]).1 = l ++ [n] from e3, last_under]; simpa using n2) (by rw [show (chain.take (7 - i), [chain.getD (7 - i) []]).1 = l ++ [n] from e3, last_under]; simpa using n3)
      (by
        simp only [List.map_cons, List.map_nil]
        rw [e1, e2, show 7 - i + 1 = 8 - i by omega]
        exact .cons ih .nil)
    simp only [e2] at this
    rw [show 8 - (i + 1) = 7 - i by omega, chainAt]
    exact this

open Classical in
include hfs hnames hr hb h hcore hF hD in
theorem scan_found : Scanned (answers fs o) o.pathComparator o.maxDepth 0 (under b []) (found b (decide (Leftovers fs b))) := by
  have htop : (under b []).names.getLast? = some TOP := by rw [show (under b []).names = b by simp [under]]; exact h.name
  refine scan_content hfs hnames hr hb h hcore hF hD (x := ([], [CORE, EXAMPLES, CLI, j!"assets", j!"docs"] ++ topFiles)) (by decide +kernel) (by rw [htop]; decide) (by rw [htop]; decide) (by rw [htop]; decide) ?_
  rw [List.map_append]
  refine scannedAll_append (.cons ?_ (.cons ?_ (.cons ?_ (.cons ?_ (.cons ?_ .nil))))) (scan_files h [] 1 topFiles (by decide +kernel))
  · obtain ⟨srt, hs⟩ := exists_listed hfs hr (h.dir _ core_content)
    obtain ⟨h1, h2⟩ := listed_core hr h hcore hs
    have hroom : roomFor (under b [CORE]).names.getLast? srt.length = 1 := by
      rw [show [CORE] = [] ++ [CORE] from rfl, last_under]
      unfold roomFor
      rw [if_neg (by decide), if_pos rfl]
    have := scan_dir hfs hnames hF hD (good_under hb (content_names _ core_content).1) (content_length _ core_content) hs (es := [chainAt b 6])
      (by rw [hroom, h1]; exact .cons (scan_chain hfs hnames hr hb h hcore hF hD 6 (by omega)) .nil)
    rw [hroom] at this
    by_cases hl : Leftovers fs b
    · rw [if_pos (h2.2 hl)] at this
      rw [decide_eq_true hl]
      exact this
    · rw [if_neg fun hx => hl (h2.1 hx)] at this
      rw [decide_eq_false hl]
      exact this
  · exact scan_closed hfs hnames hr hb h hcore hF hD (way := []) (by decide +kernel) (.inl rfl)
  · exact scan_closed hfs hnames hr hb h hcore hF hD (way := []) (by decide +kernel) (.inr rfl)
  · exact scan_content hfs hnames hr hb h hcore hF hD (x := ([j!"assets"], [j!"project-structure.png"])) (by decide +kernel) (by rw [show ([j!"assets"], [j!"project-structure.png"]).1 = [] ++ [j!"assets"] from rfl, last_under]; decide)
      (by rw [show ([j!"assets"], [j!"project-structure.png"]).1 = [] ++ [j!"assets"] from rfl, last_under]; decide) (by rw [show ([j!"assets"], [j!"project-structure.png"]).1 = [] ++ [j!"assets"] from rfl, last_under]; decide)
      (scan_files h [j!"assets"] 2 [j!"project-structure.png"] (by decide +kernel))
  · exact scan_content hfs hnames hr hb h hcore hF hD (x := ([j!"docs"], docFiles)) (by decide +kernel) (by rw [show ([j!"docs"], docFiles).1 = [] ++ [j!"docs"] from rfl, last_under]; decide)
      (by rw [show ([j!"docs"], docFiles).1 = [] ++ [j!"docs"] from rfl, last_under]; decide) (by rw [show ([j!"docs"], docFiles).1 = [] ++ [j!"docs"] from rfl, last_under]; decide)
      (scan_files h [j!"docs"] 2 docFiles (by decide +kernel))

end

/-! ### The labels -/

theorem LowersAscii.keeps {lower : JStr → JStr} (hl : LowersAscii lower) : KeepsLowerAscii lower := by
  intro k hk
  have key : ∀ c ∈ j!"abcdefghijklmnopqrstuvwxyz0123456789.-_", c < 128 ∧ ¬ (65 ≤ c ∧ c ≤ 90) := by decide
  rw [hl k fun c hc => (key c (hk c hc)).1]
  exact (List.map_congr_left fun c hc => if_neg (key c (hk c hc)).2).trans (List.map_id' k)

/-- The emojis of the files, by extension and by name. -/
def fileEmojis : List (JStr × JStr) := [(j!"CHANGELOG.md", j!"🆕"), (j!"CONTRIBUTING.md", j!"🤝"), (j!"LICENSE", j!"⚖️"), (j!"README.md", j!"📘"), (j!"ROADMAP.md", j!"🗺️"), (j!"SECURITY.md", j!"🛡️"), (j!"pom.xml", j!"🛠️"),
  (j!"runMutationTests.sh", j!"📜"), (j!"project-structure.png", j!"🖼️"), (j!"How-to-build-a-native-executable-locally.md", j!"📝"), (j!"Release-process.md", j!"📝"), (j!"Renew-sonar-token.md", j!"📝"), (MAIN, j!"☕")]

/-- Lower case of a name of letters, digits and the like. -/
def low (s : JStr) : JStr := s.map fun c => if 65 ≤ c ∧ c ≤ 90 then c + 32 else c

theorem emoji_table : ∀ x ∈ fileEmojis, (∀ c ∈ x.1, c < 128) ∧ ((low x.1, x.2) ∈ DEFAULT_FILENAME_EMOJIS ∨
    (low x.1 ∉ DEFAULT_FILENAME_EMOJIS.map Prod.fst ∧ ∃ y ∈ DEFAULT_FILEEXTENSIONS_EMOJIS, y.2 = x.2 ∧ ∃ k < (low x.1).length, low x.1 = (low x.1).take k ++ [46] ++ y.1)) := by decide +kernel

theorem emoji_keys : ∀ y ∈ DEFAULT_FILEEXTENSIONS_EMOJIS, DOT ∉ y.1 ∧ y.1 ≠ [] := by decide +kernel

theorem emoji_file {cs : Casing} (hl : LowersAscii cs.lower) {fs : PureFs} {oe : Options (Except Exn)} (he : Options.withDefaultEmojis cs fs.lift Options.createDefault = .ok oe) {p : Path} (hp : fs.isDir p = false)
    {n e : JStr} (hn : p.names.getLast? = some n) (hx : (n, e) ∈ fileEmojis) : oe.emojiMapping p = .ok (some e) := by
  obtain ⟨hc, ht⟩ := emoji_table _ hx
  have hlow : cs.lower n = low n := hl n hc
  have hn : p.getFileName = some n := hn
  have hp : fs.lift.isDir (m := Except Exn) p = pure false := congrArg Except.ok hp
  rcases ht with ht | ⟨hnot, y, hy, hy2, k, -, hk⟩
  · exact C68_default_names cs (LowersAscii.keeps hl) fs.lift _ _ he _ _ ht p hp n hn hlow
  · have hy : (y.1, e) ∈ DEFAULT_FILEEXTENSIONS_EMOJIS := by rw [show e = y.2 from hy2.symm]; exact hy
    refine (C68_last_extension cs (LowersAscii.keeps hl) fs.lift _ _ he hp hn (key := y.1) ⟨(emoji_keys _ hy).1, (emoji_keys _ hy).2, (low n).take k, 0, ?_⟩ (by rw [hlow]; exact hnot)).1 e hy
    rw [hlow]
    refine hk.trans ?_
    simp [DOT]

/-- The labels in a reference folder. -/
def reference : LookM (Except Exn) where
  emoji p := .ok (some (match fileEmojis.find? fun x => p.names.getLast? = some x.1 with | some x => x.2 | .none => j!"📂"))
  compact := true
  ext p := .ok (comment (p.names.drop 1) p.names.getLast?)

theorem found_paths : ∀ more : Bool, ∀ q ∈ entryPaths (found [TOP] more), q = under [TOP] (q.names.drop 1) ∧ (q.names.drop 1 ∈ content.map Prod.fst ∨ q.names.drop 1 ∈ files) := by decide +kernel

theorem reference_dirs : ∀ y ∈ content.map Prod.fst, reference.emoji (under [TOP] y) = .ok (some j!"📂") := by decide +kernel
theorem reference_files : ∀ y ∈ files, ∃ x ∈ fileEmojis, y.getLast? = some x.1 ∧ reference.emoji (under [TOP] y) = .ok (some x.2) := by decide +kernel
theorem paths_names : ∀ y ∈ content.map Prod.fst ++ files, ∀ n ∈ y, NameOk n := by unfold NameOk; decide +kernel

theorem found_text : ∀ more : Bool, (dispM reference true (found [TOP] more)).toOption.map (picture TreeFormats.UNICODE_BOX_DRAWING) = some (joinLines (if more then expected else expectedFresh)) := by
  intro more
  cases more
  all_goals
    simp only [found, chainAt, fileAt, docFiles, topFiles, List.map_cons, List.map_nil, List.cons_append, List.nil_append, if_true, if_false, Bool.false_eq_true, dispM, dispDirM, dispKidsM]
    decide +kernel

theorem found_map (b : List JStr) (more : Bool) : mapPaths (relocate [TOP] b) (found [TOP] more) = found b more := by
  cases more <;> simp [found, chainAt, fileAt, mapPaths, mapPathsAll, relocate_under, docFiles, topFiles]

open Classical in
/-- The run in a clone. -/
theorem run_clone {cs : Casing} (hcs : LowersAscii cs.lower) (odd : GlobCompiler) {fs : PureFs} (hfs : ProperFs fs) (hnames : PlainNames fs) (hr : OnePage.Readable fs) {b : List JStr} {m : JStr}
    (hb : ∀ n ∈ b ++ [m], NameOk n) (h : Clone fs b) (hcore : CORE ∉ b) :
    run cs (getPathMatcher odd) fs (under b [m]) = .ok (joinLines (if Leftovers fs b then expected else expectedFresh)) := by
  have hcwd : Good (under b [m]) := ⟨rfl, hb⟩
  have hb : ∀ n ∈ b, NameOk n := fun n hn => hb n (by simp [hn])
  obtain ⟨oe, he⟩ := C36_default_ok (m := Except Exn) cs (LowersAscii.keeps hcs) fs.lift Options.createDefault
  obtain ⟨o, ho⟩ := (options_facts cs odd fs hcwd).2 oe he
  have hF := (options_facts cs odd fs hcwd).1 o ho
  have hD : ∀ q, ∃ v, o.dirMatcher q = .ok v := by
    obtain ⟨D, hD1, hD2⟩ := dirFilter_answers odd hcwd hr
    rw [options_dir ho] at hD1
    cases hD1
    exact hD2
  obtain ⟨oe', he1, he2⟩ := hF.emoji
  obtain ⟨g, hg1, hg2⟩ := hF.ext
  unfold run
  simp only
  rw [ho]
  show prettyPrint (m := Except Exn) _ _ _ _ = _
  have htext := found_text (decide (Leftovers fs b))
  have hdrop : (under b [m]).names.dropLast = b := by simp [under]
  have hscan : scanned fs (under b [m]) o (Path.ofString j!"..") = .ok (found b (decide (Leftovers fs b))) := by
    refine scanned_complete rfl (facts_lawful hF) (facts_distinguishes hfs hF) ?_
    rw [good_target hcwd, hdrop, show (⟨true, b⟩ : Path) = under b [] by simp [under]]
    exact scan_found hfs hnames hr hb h hcore hF hD
  have hdisp : dispM (labelling o) true (found b (decide (Leftovers fs b))) = dispM reference true (found [TOP] (decide (Leftovers fs b))) := by
    rw [← found_map]
    refine dispM_map hF.compact true _ fun q hq => ?_
    obtain ⟨e, hy⟩ := found_paths _ q hq
    generalize hyd : q.names.drop 1 = y at e hy
    subst e
    unfold LookM.Same
    rw [relocate_under [TOP]]
    have hgood : Good (under b y) := good_under hb (paths_names y (List.mem_append.2 hy))
    have hlast : (under b y).names.getLast? = (under [TOP] y).names.getLast? := by
      unfold under
      cases y with
      | nil => simpa using h.name
      | cons a y => simp only [List.getLast?_append_of_ne_nil _ (List.cons_ne_nil a y)]
    refine ⟨?_, ?_, hlast⟩
    · show o.emojiMapping (under b y) = _
      rw [he2]
      rcases hy with hy | hy
      · rw [reference_dirs y hy]
        obtain ⟨x, hx, rfl⟩ := List.mem_map.1 hy
        exact C94_directory _ _ _ _ he1 (congrArg Except.ok (h.dir x hx))
      · obtain ⟨x, hx, hx1, hx2⟩ := reference_files y hy
        rw [hx2]
        refine emoji_file hcs he1 (h.file y hy).1 ?_ hx
        have hne : y ≠ [] := by rintro rfl; cases hx1
        unfold under
        rw [List.getLast?_append_of_ne_nil _ hne]
        exact hx1
    · unfold labelling
      simp only [hg1]
      rw [hg2 _ y hgood (by rw [hdrop]; rfl), hlast]
      rfl
  cases hDs : dispM reference true (found [TOP] (decide (Leftovers fs b))) with
  | error x => rw [hDs] at htext; cases htext
  | ok D =>
    rw [hDs] at htext hdisp
    refine prettyPrint_disp.2 ⟨_, D, hscan, hdisp, ?_⟩
    have htext : picture TreeFormats.UNICODE_BOX_DRAWING D = _ := Option.some.inj htext
    rw [hF.format, htext]
    simp only [decide_eq_true_eq]

end Project

section
open Project Spec.Project
variable {cs : Casing} (hcs : LowersAscii cs.lower) (odd : GlobCompiler) {fs : PureFs} (hfs : ProperFs fs) (hnames : PlainNames fs) (hr : OnePage.Readable fs) {b : List JStr} {m : JStr}
  (hb : ∀ n ∈ b ++ [m], NameOk n) (h : Clone fs b) (hcore : CORE ∉ b)

include hcs hfs hnames hr hb h hcore

/-- **C106**: in a clone of the repository whose module `core` has leftovers of a build, the complete example prints its expected result. -/
theorem C106_expected (hl : Leftovers fs b) : Project.run cs (getPathMatcher odd) fs ⟨true, b ++ [m]⟩ = .ok (joinLines expected) := by
  classical
  have := run_clone hcs odd hfs hnames hr hb h hcore
  rw [if_pos hl] at this
  exact this

/-- **C106**, refuted for a fresh clone: without leftovers, the last line in the module is missing and the others are drawn differently. -/
theorem C106_fresh (hl : ¬ Leftovers fs b) : Project.run cs (getPathMatcher odd) fs ⟨true, b ++ [m]⟩ = .ok (joinLines expectedFresh) ∧ joinLines expectedFresh ≠ joinLines expected := by
  classical
  have := run_clone hcs odd hfs hnames hr hb h hcore
  rw [if_neg hl] at this
  exact ⟨this, by decide⟩

/-- **C106**: the expected result is printed exactly if there are leftovers. -/
theorem C106_iff : Project.run cs (getPathMatcher odd) fs ⟨true, b ++ [m]⟩ = .ok (joinLines expected) ↔ Leftovers fs b := by
  refine ⟨fun he => ?_, C106_expected hcs odd hfs hnames hr hb h hcore⟩
  by_contra hl
  obtain ⟨h1, h2⟩ := C106_fresh hcs odd hfs hnames hr hb h hcore hl
  rw [h1] at he
  exact h2 (Except.ok.inj he)

end

namespace Demo
open Project Spec.Project

def regular : Node := .regular 0

/-- The module, with one more directory if it has been built. -/
def coreNode (built : Bool) : Node :=
  .dir true ((j!"pom.xml", regular) :: (if built then [(j!"target", .dir true [])] else []) ++ [(j!"src", .dir true [(j!"test", .dir true []), (j!"main", .dir true [(j!"java", .dir true [(j!"io", .dir true [(j!"github", .dir true [
    (j!"computerdaddyguy", .dir true [(j!"jfiletreeprettyprinter", .dir true [(j!"package-info.java", regular), (MAIN, regular), (j!"scanner", .dir true [])])])])])])])])])

/-- A clone in the folder `/h`, with the directories in some other order. -/
def cloneDisk (built : Bool) : Node := .dir true [(j!"h", .dir true [(TOP, .dir true [
  (j!".git", .dir true []), (j!".gitignore", regular), (j!"runMutationTests.sh", regular), (j!"pom.xml", regular), (j!"docs", .dir true [(j!"Release-process.md", regular), (j!"Renew-sonar-token.md", regular),
    (j!"How-to-build-a-native-executable-locally.md", regular)]), (j!"assets", .dir true [(j!"project-structure.png", regular)]), (CLI, .dir true [(j!"pom.xml", regular)]), (CORE, coreNode built),
  (EXAMPLES, .dir true [(j!"pom.xml", regular)]), (j!"SECURITY.md", regular), (j!"ROADMAP.md", regular), (j!"README.md", regular), (j!"LICENSE", regular), (j!"CONTRIBUTING.md", regular), (j!"CHANGELOG.md", regular)])])]

def cloneTop : List JStr := [j!"h", TOP]

theorem clone_wf (built : Bool) : (cloneDisk built).WF := by
  cases built <;> simp [cloneDisk, coreNode, regular, Node.WF, Node.WFAll, TOP, CORE, CLI, EXAMPLES, MAIN]

theorem clone_readable (built : Bool) : OnePage.Readable (cloneDisk built).toFs := by
  refine OnePage.Open.readable ?_
  cases built <;> simp [cloneDisk, coreNode, regular, OnePage.Open, OnePage.OpenAll] <;> decide

theorem plainNames_of {t : Node} (hok : Node.NamesAre NameOk t) : PlainNames t.toFs := by
  intro d cs bad hl c hc
  have hl' : (match t.at d with
    | some (.dir true cs) => Listing.opened (cs.map (fun c : JStr × Node => d.child c.1)) false
    | _ => .openFailed) = .opened cs bad := hl
  split at hl'
  · rename_i l hat
    cases hl'
    obtain ⟨x, hx, rfl⟩ := List.mem_map.1 hc
    refine ⟨x.1, rfl, ?_⟩
    have hw := hok.get hat
    rw [Node.NamesAre] at hw
    exact hw.mem hx
  · cases hl'

theorem clone_names (built : Bool) : PlainNames (cloneDisk built).toFs := by
  refine plainNames_of ?_
  have hd : ∀ n ∈ [j!"h", TOP, j!".git", j!".gitignore", j!"runMutationTests.sh", j!"pom.xml", j!"docs", j!"Release-process.md", j!"Renew-sonar-token.md", j!"How-to-build-a-native-executable-locally.md", j!"assets",
      j!"project-structure.png", CLI, CORE, EXAMPLES, j!"SECURITY.md", j!"ROADMAP.md", j!"README.md", j!"LICENSE", j!"CONTRIBUTING.md", j!"CHANGELOG.md", j!"target", j!"src", j!"test", j!"main", j!"java", j!"io", j!"github",
      j!"computerdaddyguy", j!"jfiletreeprettyprinter", j!"package-info.java", MAIN, j!"scanner"], NameOk n := by unfold NameOk; decide +kernel
  simp only [List.mem_cons, List.not_mem_nil, or_false, forall_eq_or_imp, forall_eq] at hd
  cases built <;>
    simp only [cloneDisk, coreNode, regular, Bool.false_eq_true, if_false, if_true, List.cons_append, List.nil_append, Node.NamesAre, Node.NamesAreAll, hd, and_self]

/-- The main class is not in an empty directory. -/
theorem empty_holds {fs : PureFs} {d : Path} (h : fs.listDir d = .opened [] false) : ¬ HoldsMain fs d := by
  rintro ⟨k, q, -, hq, -⟩
  cases hq with
  | child _ hl hm => rw [h] at hl; cases hl; cases hm
  | down _ hl hm _ => rw [h] at hl; cases hl; cases hm

/-- What else is in the clone: directories (all of them empty) and files. -/
def others : List (List JStr × JStr) := [([], j!".git"), ([], j!".gitignore"), ([CORE], j!"pom.xml"), ([CORE], j!"target"), (chain.take 2, j!"test"), (chain, j!"package-info.java"), (chain, j!"scanner")]

def listed : Listing → List Path
  | .opened cs _ => cs
  | .openFailed => []

theorem clone_listed : ∀ built : Bool, ∀ x ∈ content, (∀ n ∈ x.2, under cloneTop (x.1 ++ [n]) ∈ listed ((cloneDisk built).toFs.listDir (under cloneTop x.1))) ∧
    ∀ q ∈ listed ((cloneDisk built).toFs.listDir (under cloneTop x.1)), lastName q ∈ x.2 ∨ (x.1, lastName q) ∈ others := by decide +kernel

theorem clone_dirs : ∀ built : Bool, (∀ x ∈ content, (cloneDisk built).toFs.isDir (under cloneTop x.1) = true) ∧
    ∀ x ∈ files, (cloneDisk built).toFs.isDir (under cloneTop x) = false ∧ (cloneDisk built).toFs.readAttrs (under cloneTop x) = some ⟨false, false⟩ := by decide +kernel

theorem clone_clone (built : Bool) : Clone (cloneDisk built).toFs cloneTop where
  name := by decide
  dir := (clone_dirs built).1
  file := (clone_dirs built).2
  has x hx cs bad hl n hn := by
    have := (clone_listed built x hx).1 n hn
    rw [hl] at this
    exact this
  other x hx h1 h2 cs bad hl n hq hn := by
    have := (clone_listed built x hx).2 (under cloneTop (x.1 ++ [n])) (by rw [hl]; exact hq)
    rw [show lastName (under cloneTop (x.1 ++ [n])) = n by simp [lastName, under]] at this
    rcases this with h | h
    · exact absurd h hn
    · obtain ⟨way, ns⟩ := x
      simp only [others, List.mem_cons, List.not_mem_nil, or_false, Prod.mk.injEq] at h
      rcases h with ⟨rfl, rfl⟩ | ⟨rfl, rfl⟩ | ⟨rfl, rfl⟩ | ⟨rfl, rfl⟩ | ⟨rfl, rfl⟩ | ⟨rfl, rfl⟩ | ⟨rfl, rfl⟩
      · refine .inl ⟨by cases built <;> rfl, empty_holds (by cases built <;> rfl), .inl ⟨_, rfl⟩⟩
      · refine .inr ⟨by cases built <;> rfl, .inr ⟨⟨_, rfl⟩, by rintro ⟨rest, e⟩; cases e⟩⟩
      · refine .inr ⟨by cases built <;> rfl, .inl ⟨by decide, _, rfl⟩⟩
      · cases built with
        | false =>
          have : under cloneTop ([CORE] ++ [j!"target"]) ∉ listed ((cloneDisk false).toFs.listDir (under cloneTop [CORE])) := by decide +kernel
          rw [hl] at this
          exact absurd hq this
        | true => exact .inl ⟨rfl, empty_holds rfl, .inr (.inr (.inl ⟨rfl, by decide⟩))⟩
      · exact .inl ⟨by cases built <;> rfl, empty_holds (by cases built <;> rfl), .inr (.inr (.inr ⟨_, rfl⟩))⟩
      · refine .inr ⟨by cases built <;> rfl, .inl ⟨by decide, _, rfl⟩⟩
      · exact .inl ⟨by cases built <;> rfl, empty_holds (by cases built <;> rfl), .inr (.inr (.inr ⟨_, rfl⟩))⟩

theorem clone_leftovers : Leftovers (cloneDisk true).toFs cloneTop := ⟨_, j!"target", rfl, by decide +kernel, rfl, by decide, by rintro ⟨rest, e⟩; cases e⟩

theorem clone_none : ¬ Leftovers (cloneDisk false).toFs cloneTop := by
  rintro ⟨cs, n, hl, hq, hd, hn, -⟩
  have key : ∀ q ∈ listed ((cloneDisk false).toFs.listDir (under cloneTop [CORE])), lastName q = j!"src" ∨ (cloneDisk false).toFs.isDir q = false := by decide +kernel
  rw [hl] at key
  rcases key _ hq with h | h
  · exact hn (by simpa [lastName, under] using h)
  · rw [hd] at h; cases h

theorem clone_good : ∀ n ∈ cloneTop ++ [EXAMPLES], NameOk n := by unfold NameOk; decide

theorem lowersAscii_ascii : LowersAscii asciiCasing.lower := fun _ _ => rfl

/-- A built clone, with the module `examples` as working directory. -/
example : Project.run asciiCasing (getPathMatcher fun _ => .error .illegalArgument) (cloneDisk true).toFs ⟨true, cloneTop ++ [EXAMPLES]⟩ = .ok (joinLines expected) :=
  C106_expected lowersAscii_ascii _ (clone_wf true).proper (clone_names true) (clone_readable true) clone_good (clone_clone true) (by decide) clone_leftovers

/-- A fresh clone. -/
example : Project.run asciiCasing (getPathMatcher fun _ => .error .illegalArgument) (cloneDisk false).toFs ⟨true, cloneTop ++ [EXAMPLES]⟩ ≠ .ok (joinLines expected) := fun h =>
  clone_none ((C106_iff lowersAscii_ascii _ (clone_wf false).proper (clone_names false) (clone_readable false) clone_good (clone_clone false) (by decide)).1 h)

end Demo
end JFTP
