import Verif.Model.ProjectStructure
import Verif.Props.DefaultEmojis
import Verif.Props.GlobSegments
import Verif.Props.Placed
import Verif.Props.Recipes
import Verif.Spec.ProjectStructure

/-
C97: what the complete example (ProjectStructure.java) shows.
-/

namespace JFTP
open Spec Glob Globs GlobL PathMatchers

/-- A name a file can have, on one line. -/
def Spec.Project.NameOk (n : JStr) : Prop := n ≠ [] ∧ n ≠ j!"." ∧ n ≠ j!".." ∧ SLASH ∉ n ∧ ∀ c ∈ n, c.toNat ∉ lineEnds

/-- All listed names are names on one line. -/
def Spec.Project.PlainNames (fs : PureFs) : Prop := ∀ d cs bad, fs.listDir d = .opened cs bad → ∀ c ∈ cs, ∃ n, c = d.child n ∧ NameOk n

namespace Project
open Spec.Project

/-! ### The globs of the example -/

theorem accepts_last {n : JStr} (hn : n ≠ []) {ns : List JStr} (h1 : OneLine ns) : Accepts [.dirs, exactly n] (absoluteParts ns) ↔ ns.getLast? = some n := by
  rw [show [Segment.dirs, exactly n] = ([] : List JStr).map exactly ++ .dirs :: [n].map exactly from rfl, accepts_between]
  unfold absoluteParts relativeParts
  constructor
  · rintro ⟨mid, h, _, e⟩
    split at e
    · rename_i h0
      have := congrArg List.getLast? e
      simp at this; exact absurd this hn
    · rename_i h0
      have := congrArg List.getLast? e
      rw [List.getLast?_cons_of_ne_nil h0] at this
      simpa using this
  · intro h
    have h0 : ns ≠ [] := by rintro rfl; cases h
    rw [if_neg h0]
    obtain ⟨l, rfl⟩ := List.getLast?_eq_some_iff.1 h
    refine ⟨[] :: l, by simp, ?_, by simp⟩
    intro x hx
    rcases List.mem_cons.1 hx with rfl | hx
    · simp
    · exact h1 x (by simp [hx])

theorem absoluteParts_oneLine {ns : List JStr} (h1 : OneLine ns) : OneLine (absoluteParts ns) := by
  unfold absoluteParts relativeParts
  intro x hx
  rcases List.mem_cons.1 hx with rfl | hx
  · simp
  · split at hx
    · simp at hx; subst hx; simp
    · exact h1 x hx

theorem accepts_two {n : JStr} {segs : List Segment} {ns : List JStr} (h1 : OneLine ns) : Accepts (.dirs :: exactly n :: segs) ns ↔ ∃ a b, a ≠ [] ∧ ns = a ++ n :: b ∧ Accepts segs b := by
  constructor
  · intro h
    cases h with
    | @dirs l _ r hl h2 h3 =>
      obtain ⟨b, rfl, h⟩ := (accepts_exactly (ds := [n])).1 h3
      exact ⟨l, b, hl, rfl, h⟩
  · rintro ⟨a, b, ha, rfl, h⟩
    exact .dirs ha (fun x hx => h1 x (by simp [hx])) ((accepts_exactly (ds := [n])).2 ⟨b, rfl, h⟩)

theorem accepts_dirs {ns : List JStr} (h1 : OneLine ns) : Accepts [.dirs] ns ↔ ns ≠ [] := by
  constructor
  · rintro h rfl; exact absurd (C96_lengths h).1 (by simp)
  · intro h
    have := Accepts.dirs h h1 .nil
    rwa [List.append_nil] at this

theorem absoluteParts_split {n : JStr} (hn : n ≠ []) {ns a b : List JStr} (ha : a ≠ []) : absoluteParts ns = a ++ n :: b ↔ ∃ a', a = [] :: a' ∧ ns = a' ++ n :: b := by
  unfold absoluteParts relativeParts
  cases a with
  | nil => exact absurd rfl ha
  | cons x a =>
    split
    · rename_i h0
      subst h0
      constructor
      · intro e
        simp only [List.cons_append, List.cons.injEq] at e
        have := congrArg List.length e.2
        simp at this
        have ha0 : a = [] := List.length_eq_zero_iff.1 (by omega)
        subst ha0
        simp at e
        exact absurd e.2.1 hn
      · rintro ⟨a', _, e⟩; have := congrArg List.length e; simp at this
    · constructor
      · intro e
        simp only [List.cons_append, List.cons.injEq] at e
        exact ⟨a, by rw [e.1], e.2⟩
      · rintro ⟨a', e, rfl⟩; rw [e]; rfl

theorem accepts_inside {n : JStr} (hn : n ≠ []) {ns : List JStr} (h1 : OneLine ns) : Accepts [.dirs, exactly n, .dirs] (absoluteParts ns) ↔ ∃ above below, below ≠ [] ∧ ns = above ++ n :: below := by
  rw [accepts_two (absoluteParts_oneLine h1)]
  constructor
  · rintro ⟨a, b, ha, e, h⟩
    obtain ⟨a', rfl, e'⟩ := (absoluteParts_split hn ha).1 e
    exact ⟨a', b, (accepts_dirs (fun x hx => h1 x (by rw [e']; simp [hx]))).1 h, e'⟩
  · rintro ⟨a, b, hb, rfl⟩
    exact ⟨[] :: a, b, by simp, (absoluteParts_split hn (by simp)).2 ⟨a, rfl, rfl⟩, (accepts_dirs (fun x hx => h1 x (by simp [hx]))).2 hb⟩

theorem accepts_inside_named {n k : JStr} (hn : n ≠ []) {ns : List JStr} (h1 : OneLine ns) :
    Accepts [.dirs, exactly n, .dirs, exactly k] (absoluteParts ns) ↔ ∃ above between, between ≠ [] ∧ ns = above ++ n :: (between ++ [k]) := by
  have hb : ∀ b, Accepts [.dirs, exactly k] b ↔ ∃ mid, mid ≠ [] ∧ OneLine mid ∧ b = mid ++ [k] := fun b => by
    rw [show [Segment.dirs, exactly k] = ([] : List JStr).map exactly ++ .dirs :: [k].map exactly from rfl, accepts_between]; simp
  rw [accepts_two (absoluteParts_oneLine h1)]
  constructor
  · rintro ⟨a, b, ha, e, h⟩
    obtain ⟨a', rfl, e'⟩ := (absoluteParts_split hn ha).1 e
    obtain ⟨mid, hm, _, rfl⟩ := (hb _).1 h
    exact ⟨a', mid, hm, e'⟩
  · rintro ⟨a, mid, hm, rfl⟩
    exact ⟨[] :: a, mid ++ [k], by simp, (absoluteParts_split hn (by simp)).2 ⟨a, rfl, rfl⟩, (hb _).2 ⟨mid, hm, fun x hx => h1 x (by simp [hx]), rfl⟩⟩

/-! ### Paths below the project folder -/

/-- An absolute path of names on one line. -/
structure Good (q : Path) : Prop where
  abs : q.abs = true
  names : ∀ n ∈ q.names, NameOk n

theorem Good.valid {q : Path} (h : Good q) : q.Valid := .inr ⟨fun n hn => (h.names n hn).1, fun ha => by rw [h.abs] at ha; cases ha⟩
theorem Good.oneLine {q : Path} (h : Good q) : OneLine q.names := fun n hn => (h.names n hn).2.2.2.2
theorem Good.slash {q : Path} (h : Good q) : ∀ n ∈ q.names, SLASH ∉ n := fun n hn => (h.names n hn).2.2.2.1
theorem Good.target {q : Path} (h : Good q) (cwd : Path) : target cwd q = q := by
  unfold Spec.target
  rw [Path.toAbsolutePath_self h.abs]
  exact Path.normalize_of_names h.abs fun x hx => ⟨(h.names x hx).2.1, (h.names x hx).2.2.1⟩

theorem Good.child_names {d : Path} {n : JStr} (h : Good d) : (d.child n).names = d.names ++ [n] := by
  have hne : d ≠ Path.empty := by intro e; rw [e] at h; cases h.abs
  unfold Path.child; rw [if_neg hne]

theorem Good.child {d : Path} {n : JStr} (h : Good d) (hn : NameOk n) : Good (d.child n) ∧ (d.child n).names = d.names ++ [n] := by
  have hne : d ≠ Path.empty := by intro e; rw [e] at h; cases h.abs
  have e : d.child n = ⟨d.abs, d.names ++ [n]⟩ := by unfold Path.child; rw [if_neg hne]
  rw [e]
  exact ⟨⟨h.abs, fun x hx => by rcases List.mem_append.1 hx with hx | hx; exact h.names x hx; rw [List.mem_singleton.1 hx]; exact hn⟩, rfl⟩

/-- The project folder. -/
theorem good_target {cwd : Path} (h : Good cwd) : target cwd (Path.ofString j!"..") = ⟨true, cwd.names.dropLast⟩ := by
  unfold Spec.target
  have hcw : cwd ≠ Path.empty := by rintro rfl; cases h.abs
  rw [Path.normalize_abs (Path.toAbsolutePath_abs h.abs)]
  congr 1
  show Path.normNames true (Path.toAbsolutePath ⟨false, [j!".."]⟩ cwd).names = _
  unfold Path.toAbsolutePath Path.resolve
  simp only [Bool.false_eq_true, if_false]
  rw [if_neg (by decide), if_neg hcw, Path.normNames_append]
  rw [Path.normNames_of_names fun x hx => ⟨(h.names x hx).2.1, (h.names x hx).2.2.1⟩]
  rcases List.eq_nil_or_concat cwd.names with e | ⟨l, x, e⟩
  · rw [e]; rfl
  · rw [List.concat_eq_append] at e
    have hx := (h.names x (by rw [e]; simp)).2.2.1
    rw [e, List.reverse_append, List.dropLast_concat]
    simp [Path.normStep, Path.dotName, Path.dotDotName, DOT, hx]

/-! ### The matchers and rules of the example -/

theorem hasName_eq (n : JStr) (q : Path) : (hasName n q : Except Exn Bool) = .ok (decide (q.names.getLast? = some n)) := by
  unfold hasName Path.getFileName
  cases q.names.getLast? with
  | none => rfl
  | some x => simp only [pure, Except.pure, Option.some.injEq]; rw [beq_eq_decide]

theorem named_eq (n : JStr) (q : Path) : named n q = decide (q.names.getLast? = some n) := by
  unfold named Path.getFileName
  cases q.names.getLast? with
  | none => rfl
  | some x => simp only [Option.some.injEq]; rw [beq_eq_decide]

theorem hidden_eq (q : Path) : ∃ b, (hasNameStartingWith j!"." q : Except Exn Bool) = .ok b ∧ (b = true ↔ Hidden q.names) := by
  unfold hasNameStartingWith Path.getFileName Hidden
  cases q.names.getLast? with
  | none => exact ⟨false, rfl, by simp⟩
  | some x =>
    refine ⟨_, rfl, ?_⟩
    simp only [startsWith, List.isPrefixOf_iff_prefix, Option.some.injEq]
    exact ⟨fun ⟨t, ht⟩ => ⟨t, ht.symm⟩, fun ⟨t, ht⟩ => ⟨t, ht.symm⟩⟩

section
variable (odd : GlobCompiler) {cwd : Path} (hcwd : Good cwd)
include hcwd

omit hcwd in
theorem verbatim_all {n : JStr} (h : n ∈ [CORE, EXAMPLES, CLI, MAIN, j!"src", j!"target", j!"main", j!"java"]) : Verbatim n ∧ SLASH ∉ n := by
  revert n
  simp [CORE, EXAMPLES, CLI, MAIN, Verbatim, Glob.plain, SLASH]

/-- An absolute glob of the example. -/
theorem abs_glob {segs : List Segment} {g : JStr} (hg : writeSegments segs = g) (hs : segs ≠ []) (h : ∀ s ∈ segs, s.Ok) (hstar : g ≠ j!"*") :
    ∃ (b : Path → Bool), hasAbsolutePathMatchingGlob (getPathMatcher odd) cwd g = .ok (fun q => (.ok (b q) : Except Exn Bool)) ∧
      ∀ q, Good q → (b q = true ↔ Accepts segs (absoluteParts q.names)) := by
  obtain ⟨mt, b, e1, e2, e3⟩ := C96_absolute (m := Except Exn) odd hs h (by rw [hg]; exact hstar) hcwd.abs (fun n hn => ⟨(hcwd.names n hn).2.1, (hcwd.names n hn).2.2.1⟩)
  refine ⟨b, by rw [← hg, e1]; congr 1; funext q; exact e2 q, fun q hq => ?_⟩
  rw [e3 q hq.valid (by rw [hq.abs]; simp) (by rw [hq.target]; exact hq.slash), hq.target]

/-- A glob relative to the project folder. -/
theorem rel_glob {segs : List Segment} {g : JStr} (hg : writeSegments segs = g) (hs : segs ≠ []) (h : ∀ s ∈ segs, s.Ok) (hstar : g ≠ j!"*") :
    ∃ (b : Path → Bool), hasRelativePathMatchingGlob (getPathMatcher odd) cwd (Path.ofString j!"..") g = .ok (fun q => (.ok (b q) : Except Exn Bool)) ∧
      ∀ q way, Good q → q.names = cwd.names.dropLast ++ way → (b q = true ↔ Accepts segs (relativeParts way)) := by
  obtain ⟨mt, b, e1, e2, e3⟩ := C96_relative (m := Except Exn) odd hs h (by rw [hg]; exact hstar) hcwd.abs (ref := Path.ofString j!"..") (.inr (by decide))
  refine ⟨b, by rw [← hg, e1]; congr 1; funext q; exact e2 q, fun q way hq hway => ?_⟩
  rw [e3 q way hq.valid (by rw [hq.target, good_target hcwd, hway]) (fun n hn => hq.slash n (by rw [hway]; simp [hn]))]

theorem rel_exactly {ds : List JStr} {g : JStr} (hg : joinSlash ds = g) (hne : ds ≠ []) (hd : ∀ n ∈ ds, (Verbatim n ∧ SLASH ∉ n) ∧ n ≠ []) (hstar : g ≠ j!"*") :
    ∃ (b : Path → Bool), hasRelativePathMatchingGlob (getPathMatcher odd) cwd (Path.ofString j!"..") g = .ok (fun q => (.ok (b q) : Except Exn Bool)) ∧
      ∀ q way, Good q → q.names = cwd.names.dropLast ++ way → (b q = true ↔ way = ds) := by
  obtain ⟨b, h1, h2⟩ := rel_glob odd hcwd (segs := ds.map exactly) (g := g) (by unfold writeSegments; rw [exactly_write, hg]) (by simpa using hne)
    (fun s hs => by obtain ⟨n, hn, rfl⟩ := List.mem_map.1 hs; exact exactly_ok (hd n hn).1.1 (hd n hn).1.2) hstar
  refine ⟨b, h1, fun q way hq hway => ?_⟩
  rw [h2 q way hq hway, show ds.map exactly = ds.map exactly ++ [] by simp, accepts_exactly]
  have : ∀ r, Accepts [] r ↔ r = [] := fun r => ⟨fun h => by cases h; rfl, fun h => by rw [h]; exact .nil⟩
  simp only [this, exists_eq_right, List.append_nil]
  unfold relativeParts
  split
  · rename_i h0
    subst h0
    constructor
    · intro e
      have := (hd [] (by rw [← e]; simp)).2
      exact absurd rfl this
    · intro e; exact absurd e.symm hne
  · rfl

/-- The directory filter. -/
theorem dirFilter_ok (fs : PureFs) : ∃ D, dirFilter (getPathMatcher odd) fs cwd (Path.ofString j!"..") = .ok D ∧
    ∀ q way, Good q → q.names = cwd.names.dropLast ++ way → ∀ b, D q = .ok b → (b = true ↔ DirShown fs way q) := by
  obtain ⟨bt, t1, t2⟩ := rel_exactly odd hcwd (ds := [j!"target"]) (g := j!"target") rfl (by simp) (by simp [Verbatim, Glob.plain, SLASH]) (by decide)
  obtain ⟨bs, s1, s2⟩ := rel_exactly odd hcwd (ds := [j!"src"]) (g := j!"src") rfl (by simp) (by simp [Verbatim, Glob.plain, SLASH]) (by decide)
  obtain ⟨bi, i1, i2⟩ := rel_glob odd hcwd (segs := [.name [.part .star], exactly j!"src", .dirs]) (g := j!"*/src/**") (by decide) (by simp)
    (by
      simp only [List.mem_cons, List.not_mem_nil, or_false, forall_eq_or_imp, forall_eq]
      refine ⟨⟨trivial, fun p hp => ?_⟩, exactly_ok ⟨by decide, by simp [Glob.plain]⟩ (by decide), trivial⟩
      simp only [List.mem_cons, List.not_mem_nil, or_false] at hp
      subst hp; trivial) (by decide)
  have i3 : ∀ q way, Good q → q.names = cwd.names.dropLast ++ way → (bi q = true ↔ ∃ mod below, below ≠ [] ∧ way = mod :: j!"src" :: below) := by
    intro q way hq hway
    rw [i2 q way hq hway]
    have hone : OneLine way := fun n hn => hq.oneLine n (by rw [hway]; simp [hn])
    constructor
    · intro h
      have h3 := (C96_lengths h).1
      have hne : way ≠ [] := by rintro rfl; simp [relativeParts] at h3
      rw [relativeParts, if_neg hne] at h
      cases h with
      | @name _ _ n ns _ h =>
        obtain ⟨r, rfl, h⟩ := (accepts_exactly (ds := [j!"src"])).1 h
        exact ⟨n, r, by rintro rfl; exact absurd (C96_lengths h).1 (by simp), rfl⟩
    · rintro ⟨mod, below, hb, rfl⟩
      rw [relativeParts, if_neg (by simp)]
      refine .name (means_star.2 (hq.slash _ (by rw [hway]; simp))) ((accepts_exactly (ds := [j!"src"])).2 ⟨below, rfl, ?_⟩)
      exact (accepts_dirs (fun x hx => hone x (by simp [hx]))).2 hb
  refine ⟨_, by unfold dirFilter; rw [t1, s1, i1]; rfl, fun q way hq hway b hb => ?_⟩
  obtain ⟨bh, h1, h2⟩ := hidden_eq q
  simp only [PathMatchers.any, PathMatchers.none, h1, bind, Except.bind, pure, Except.pure] at hb
  have hdesc : ∀ x, hasAnyDescendantMatching (m := Except Exn) fs.lift (hasName j!"FileTreePrettyPrinter.java") q = .ok x → (x = true ↔ HoldsMain fs q) := by
    intro x hx
    have hsp := testDescendants_spec (fs := fs) (fun _ => true) (hasName j!"FileTreePrettyPrinter.java") intMax (by decide) q
    have htst : ∀ r v, tst (fun _ => true) (hasName j!"FileTreePrettyPrinter.java") r = Except.ok v → v = decide (r.names.getLast? = some MAIN) := by
      intro r v hv
      simp only [tst, if_true] at hv
      rw [hasName_eq] at hv
      cases hv; rfl
    cases x with
    | true =>
      obtain ⟨k, r, hk, hr, ht⟩ := hsp.1 hx
      have := htst r true ht
      exact ⟨fun _ => ⟨k, r, hk, hr, by simpa using this.symm⟩, fun _ => rfl⟩
    | false =>
      refine ⟨by nofun, fun ⟨k, r, hk, hr, hm⟩ => ?_⟩
      have := htst r false (hsp.2.1 hx k r hk hr)
      simp [hm] at this
  unfold DirShown
  cases hd : hasAnyDescendantMatching (m := Except Exn) fs.lift (hasName j!"FileTreePrettyPrinter.java") q with
  | error x => rw [hd] at hb; cases hb
  | ok x =>
    rw [hd] at hb
    have hd := hdesc x hd
    have hT := t2 q way hq hway
    have hS := s2 q way hq hway
    have hI := i3 q way hq hway
    rw [← hd, ← h2, ← hI, ne_eq, ne_eq, ← hT, ← hS]
    revert hb
    cases x <;> cases bh <;> cases bt q <;> cases bs q <;> cases bi q <;> intro hb <;> cases hb <;> simp

/-- The file filter. -/
theorem fileFilter_ok : ∃ F, fileFilter (getPathMatcher odd) cwd = .ok F ∧ ∀ q, Good q → ∃ b, F q = .ok b ∧ (b = true ↔ FileShown q.names) := by
  have hcore := verbatim_all (n := CORE) (by simp)
  have hmain := verbatim_all (n := MAIN) (by simp)
  obtain ⟨b1, e1, f1⟩ := abs_glob odd hcwd (segs := [.dirs, exactly CORE, .dirs, exactly MAIN]) (g := j!"**/jfiletreeprettyprinter-core/**/FileTreePrettyPrinter.java") (by decide) (by simp)
    (by simp only [List.mem_cons, List.not_mem_nil, or_false, forall_eq_or_imp, forall_eq]; exact ⟨trivial, exactly_ok hcore.1 hcore.2, trivial, exactly_ok hmain.1 hmain.2⟩) (by decide)
  obtain ⟨b2, e2, f2⟩ := abs_glob odd hcwd (segs := [.dirs, exactly CORE, .dirs]) (g := j!"**/jfiletreeprettyprinter-core/**") (by decide) (by simp)
    (by simp only [List.mem_cons, List.not_mem_nil, or_false, forall_eq_or_imp, forall_eq]; exact ⟨trivial, exactly_ok hcore.1 hcore.2, trivial⟩) (by decide)
  refine ⟨_, by unfold fileFilter; rw [e1, e2]; rfl, fun q hq => ?_⟩
  obtain ⟨bh, h1, h2⟩ := hidden_eq q
  have hA := (f1 q hq).trans (accepts_inside_named (by decide) hq.oneLine)
  have hB := (f2 q hq).trans (accepts_inside (by decide) hq.oneLine)
  simp only [PathMatchers.any, PathMatchers.none, h1, bind, Except.bind, pure, Except.pure]
  unfold FileShown
  rw [← hA, ← hB, ← h2]
  cases b1 q <;> cases b2 q <;> cases bh <;> simp

theorem abs_last {n g : JStr} (hn : n ∈ [CORE, EXAMPLES, CLI]) (hg : j!"**/" ++ n = g) :
    ∃ (b : Path → Bool), hasAbsolutePathMatchingGlob (getPathMatcher odd) cwd g = .ok (fun q => (.ok (b q) : Except Exn Bool)) ∧ ∀ q, Good q → (b q = true ↔ q.names.getLast? = some n) := by
  have hv := verbatim_all (n := n) (by simp at hn ⊢; tauto)
  have hn0 : n ≠ [] := hv.1.1
  obtain ⟨b, e, f⟩ := abs_glob odd hcwd (segs := [.dirs, exactly n]) (g := g)
    (by
      rw [← hg]
      have hb := bare_flat n
      simp only [writeSegments, exactly, List.map_cons, List.map_nil, joinSlash, Segment.pieces, writeGlob, List.flatMap_cons, List.flatMap_nil, Piece.write, Part.write, hb]
      simp [SLASH]) (by simp)
    (by simp only [List.mem_cons, List.not_mem_nil, or_false, forall_eq_or_imp, forall_eq]; exact ⟨trivial, exactly_ok hv.1 hv.2⟩) (by rw [← hg]; simp)
  exact ⟨b, e, fun q hq => (f q hq).trans (accepts_last hn0 hq.oneLine)⟩

/-- The child limits. -/
theorem childLimits_ok : ∃ B, childLimits (getPathMatcher odd) cwd = .ok B ∧ ∀ q, Good q → B.build.applyAsInt B q =
    .ok (if q.names.getLast? = some CLI then 0 else if q.names.getLast? = some EXAMPLES then 0 else if q.names.getLast? = some CORE then 1 else -1) := by
  obtain ⟨b1, e1, f1⟩ := abs_last odd hcwd (n := CLI) (g := j!"**/jfiletreeprettyprinter-cli") (by simp) (by decide)
  obtain ⟨b2, e2, f2⟩ := abs_last odd hcwd (n := EXAMPLES) (g := j!"**/jfiletreeprettyprinter-examples") (by simp) (by decide)
  obtain ⟨b3, e3, f3⟩ := abs_last odd hcwd (n := CORE) (g := j!"**/jfiletreeprettyprinter-core") (by simp) (by decide)
  refine ⟨_, by unfold childLimits; rw [e1, e2, e3]; rfl, fun q hq => ?_⟩
  simp only [← f1 q hq, ← f2 q hq, ← f3 q hq]
  simp only [ChildLimits.builder, ChildLimitBuilder.addMatching, ChildLimitBuilder.add, ChildLimitBuilder.build, ChildLimitBuilder.Built.applyAsInt, List.nil_append, List.cons_append,
    ChildLimitBuilder.limitLoop, bind, Except.bind, pure, Except.pure, UNLIMITED]
  cases b1 q <;> cases b2 q <;> cases b3 q <;> rfl

/-- The comments. -/
theorem lineExtensions_ok : ∃ B, lineExtensions (getPathMatcher odd) cwd (Path.ofString j!"..") = .ok B ∧
    ∀ q way, Good q → q.names = cwd.names.dropLast ++ way → B.build.apply B q = .ok (comment way q.names.getLast?) := by
  obtain ⟨b1, e1, f1⟩ := rel_exactly odd hcwd (ds := [j!"src", j!"main", j!"java"]) (g := j!"src/main/java") (by decide) (by simp) (by simp [Verbatim, Glob.plain, SLASH]) (by decide)
  refine ⟨_, by unfold lineExtensions; rw [e1]; rfl, fun q way hq hway => ?_⟩
  have hq' := f1 q way hq hway
  unfold comment MAIN CLI CORE EXAMPLES
  simp only [← hq']
  simp only [LineExtensions.builder, LineExtensionBuilder.addMatching, LineExtensionBuilder.addLineBreak, LineExtensionBuilder.add, LineExtensionBuilder.build, LineExtensionBuilder.Built.apply,
    List.nil_append, List.cons_append, LineExtensionBuilder.extLoop, hasName_eq, bind, Except.bind, pure, Except.pure]
  have step : ∀ (c : Bool) (x : JStr) (R : Except Exn (Option JStr)),
      (if (if c = true then some x else Option.none) ≠ Option.none then (Except.ok (if c = true then some x else Option.none) : Except Exn (Option JStr)) else R) = if c = true then .ok (some x) else R := by
    intro c x R; cases c <;> simp
  simp only [step]
  simp only [decide_eq_true_eq]
  split_ifs <;> rfl

end

/-- The order of the example. -/
theorem sorts_rank (fs : PureFs) (q : Path) : (sorts fs).build.finalFunction q = rank fs q := by
  have key : ∀ b1 b2 b3 b4 b5 b6 : Bool, PathSortBuilder.precedenceLoop q 0 [fun _ => if b1 then -100 else 0, fun _ => if b2 then -90 else 0, fun _ => if b3 then -80 else 0,
      fun _ => if b4 then -70 else 0, fun _ => if b5 then -60 else 0, fun _ => if b6 then -1 else 0] =
      if b1 then -100 else if b2 then -90 else if b3 then -80 else if b4 then -70 else if b5 then -60 else if b6 then -1 else 0 := by
    intro b1 b2 b3 b4 b5 b6
    cases b1 <;> cases b2 <;> cases b3 <;> cases b4 <;> cases b5 <;> cases b6 <;> rfl
  refine Eq.trans ?_ ((key (named CORE q) (named EXAMPLES q) (named CLI q) (named j!"assets" q) (named j!"docs" q) (fs.isDir q)).trans ?_)
  · rfl
  · unfold rank
    simp only [named_eq, decide_eq_true_eq]

theorem order_before (fs : PureFs) (a b : Path) : thenComparing ((sorts fs).build.compare (sorts fs)) PathSorts.ALPHABETICAL a b < 0 ↔ Before fs a b := by
  unfold Before PathSortBuilder.Built.compare thenComparing
  simp only [sorts_rank, lastName_eq]
  show (if (if intCompare (rank fs a) (rank fs b) ≠ 0 then intCompare (rank fs a) (rank fs b) else compareTo (PathSorts.nameKey a) (PathSorts.nameKey b)) ≠ 0 then
    (if intCompare (rank fs a) (rank fs b) ≠ 0 then intCompare (rank fs a) (rank fs b) else compareTo (PathSorts.nameKey a) (PathSorts.nameKey b)) else
    compareTo (PathSorts.nameKey a) (PathSorts.nameKey b)) < 0 ↔ _
  unfold intCompare
  rcases lt_trichotomy (rank fs a) (rank fs b) with h | h | h
  · simp [h]
  · simp [h]
  · have h1 : ¬ rank fs a < rank fs b := by omega
    have h2 : ¬ rank fs a = rank fs b := by omega
    simp [h1, h2]

/-- What the limits leave. -/
theorem room_limit (name : Option JStr) (l : List Path) (d : Path) :
    limitTo (if name = some CLI then 0 else if name = some EXAMPLES then 0 else if name = some CORE then 1 else -1) l = l.take (roomFor name l.length) ∧
    moreMark (if name = some CLI then 0 else if name = some EXAMPLES then 0 else if name = some CORE then 1 else -1) l d = if roomFor name l.length < l.length then [.skipped d] else [] := by
  unfold limitTo moreMark roomFor
  by_cases h1 : name = some CLI
  · simp [h1]
  by_cases h2 : name = some EXAMPLES
  · simp [h2]
  by_cases h3 : name = some CORE
  · simp only [if_neg h1, if_neg h2, if_pos h3, if_neg (show ¬ (name = some CLI ∨ name = some EXAMPLES) by simp [h1, h2])]
    refine ⟨by simp, ?_⟩
    congr 1
    simp; omega
  · simp only [if_neg h1, if_neg h2, if_neg h3, if_neg (show ¬ (name = some CLI ∨ name = some EXAMPLES) by simp [h1, h2])]
    simp

/-- What is known about the options of the example. -/
structure Facts (cs : Casing) (fs : PureFs) (cwd : Path) (o : Options (Except Exn)) : Prop where
  emoji : ∃ oe, Options.withDefaultEmojis cs fs.lift Options.createDefault = .ok oe ∧ o.emojiMapping = oe.emojiMapping
  compact : o.compactDirectories = true
  depth : o.maxDepth = 20
  format : o.treeFormat = TreeFormats.UNICODE_BOX_DRAWING
  cmp : o.pathComparator = thenComparing ((sorts fs).build.compare (sorts fs)) PathSorts.ALPHABETICAL
  dir : ∀ q way, Good q → q.names = cwd.names.dropLast ++ way → ∀ b, o.dirMatcher q = .ok b → (b = true ↔ DirShown fs way q)
  file : ∀ q, Good q → ∃ b, o.fileMatcher q = .ok b ∧ (b = true ↔ FileShown q.names)
  limit : ∀ q, Good q → o.childLimit q =
    .ok (if q.names.getLast? = some CLI then 0 else if q.names.getLast? = some EXAMPLES then 0 else if q.names.getLast? = some CORE then 1 else -1)
  ext : ∃ g, o.lineExtension = some g ∧ ∀ q way, Good q → q.names = cwd.names.dropLast ++ way → g q = .ok (comment way q.names.getLast?)

theorem options_facts (cs : Casing) (odd : GlobCompiler) (fs : PureFs) {cwd : Path} (hcwd : Good cwd) :
    (∀ o, options cs (getPathMatcher odd) fs cwd (Path.ofString j!"..") = .ok o → Facts cs fs cwd o) ∧
    ∀ oe, Options.withDefaultEmojis cs fs.lift (Options.createDefault : Options (Except Exn)) = .ok oe → ∃ o, options cs (getPathMatcher odd) fs cwd (Path.ofString j!"..") = .ok o := by
  obtain ⟨D, d1, d2⟩ := dirFilter_ok odd hcwd fs
  obtain ⟨F, f1, f2⟩ := fileFilter_ok odd hcwd
  obtain ⟨B, b1, b2⟩ := childLimits_ok odd hcwd
  obtain ⟨X, x1, x2⟩ := lineExtensions_ok odd hcwd
  unfold options
  rw [d1, f1, b1, x1]
  simp only [bind, Except.bind]
  constructor
  · intro o h
    cases he : Options.withDefaultEmojis cs fs.lift (Options.createDefault : Options (Except Exn)) with
    | error x => rw [he] at h; cases h
    | ok oe =>
      rw [he] at h
      have hoe : oe.treeFormat = TreeFormats.UNICODE_BOX_DRAWING ∧ oe.maxDepth = 20 := by
        unfold Options.withDefaultEmojis at he
        obtain ⟨e, _, he⟩ := except_bind_ok he
        cases he; exact ⟨rfl, rfl⟩
      cases h
      exact ⟨⟨oe, he, rfl⟩, rfl, hoe.2, hoe.1, rfl, d2, f2, b2, ⟨_, rfl, x2⟩⟩
  · intro oe he
    rw [he]; exact ⟨_, rfl⟩

/-! ### What is shown -/

section
variable {cs : Casing} {fs : PureFs} (hfs : ProperFs fs) (hnames : PlainNames fs) {cwd : Path} (hcwd : Good cwd) {o : Options (Except Exn)} (hF : Facts cs fs cwd o)
include hfs hnames hcwd hF

omit hfs hnames hcwd in
theorem facts_lawful : LawfulCmp o.pathComparator := by rw [hF.cmp]; exact sort_lawful (lawful_builder _ _)
omit hnames hcwd in
theorem facts_distinguishes : DistinguishesAll o.pathComparator fs := by rw [hF.cmp]; exact sort_distinguishes (lawful_builder _ _) hfs

omit hfs hnames hcwd in
theorem shown_passes {q : Path} {way : List JStr} (hq : Good q) (hway : q.names = cwd.names.dropLast ++ way) {b : Bool}
    (ha : (if fs.isDir q = true then o.dirMatcher q else o.fileMatcher q) = .ok b) : passes fs o q = true ↔ Shown fs way q := by
  unfold passes Shown
  rw [ha]
  split at ha
  · rename_i hd
    rw [if_pos hd]; exact hF.dir q way hq hway b ha
  · rename_i hd
    rw [if_neg hd]
    obtain ⟨b', h1, h2⟩ := hF.file q hq
    rw [h1] at ha; cases ha; exact h2

omit hfs hnames hcwd in
/-- Room is what the child limits leave. -/
theorem room_iff {d : Path} {way : List JStr} (hd : Good d) {cs : List Path} (hcs : ∀ c ∈ cs, ∃ n, c = d.child n)
    (hp : ∀ n, d.child n ∈ cs → (passes fs o (d.child n) = true ↔ Shown fs (way ++ [n]) (d.child n))) {n : Int} (hl : o.childLimit d = .ok n) (q : Path) :
    (n < 0 ∨ ((earlier fs o cs q).length : Int) < n) ↔ Room fs way d cs q := by
  rw [hF.limit d hd] at hl
  cases hl
  have he : (earlier fs o cs q).length = 0 ↔ ∀ n, d.child n ∈ cs → Shown fs (way ++ [n]) (d.child n) → ¬ Before fs (d.child n) q := by
    rw [List.length_eq_zero_iff, earlier, List.filter_eq_nil_iff]
    constructor
    · intro h n hn hs hb
      refine h _ hn ?_
      rw [(hp n hn).2 hs, hF.cmp]
      simpa using (order_before fs _ _).2 hb
    · intro h c hc
      obtain ⟨n, rfl⟩ := hcs c hc
      rw [Bool.and_eq_true, hp n hc, decide_eq_true_eq, hF.cmp, order_before]
      exact fun ⟨h1, h2⟩ => h n hc h1 h2
  unfold Room
  rw [← he]
  by_cases h1 : d.names.getLast? = some CLI
  · simp [h1]
  by_cases h2 : d.names.getLast? = some EXAMPLES
  · simp [h2]
  by_cases h3 : d.names.getLast? = some CORE
  · rw [if_neg h1, if_neg h2, if_pos h3]
    refine ⟨fun h => ⟨h2, h1, fun _ => by omega⟩, fun h => .inr (by have := h.2.2 h3; omega)⟩
  · rw [if_neg h1, if_neg h2, if_neg h3]
    simp [h1, h2, h3]

/-- The places of the options are the picture. -/
theorem placed_picture {t : TreeEntry} (h : scanned fs cwd o (Path.ofString j!"..") = .ok t) :
    (∀ {k q}, Placed fs o ⟨true, cwd.names.dropLast⟩ k q → ∃ way, InPicture fs ⟨true, cwd.names.dropLast⟩ way q ∧ way.length = k ∧ Good q ∧ q.names = cwd.names.dropLast ++ way) ∧
    ∀ {way q}, InPicture fs ⟨true, cwd.names.dropLast⟩ way q → Placed fs o ⟨true, cwd.names.dropLast⟩ way.length q ∧ Good q ∧ q.names = cwd.names.dropLast ++ way := by
  have hc := facts_lawful hF
  have hd := facts_distinguishes hfs hF
  have htop : Good ⟨true, cwd.names.dropLast⟩ := ⟨rfl, fun n hn => hcwd.names n (List.dropLast_subset _ hn)⟩
  have hans := fun {k d} hp => placed_answered hfs hcwd.abs hc hd h (k := k) (d := d) (by rw [good_target hcwd]; exact hp)
  constructor
  · intro k q hp
    induction hp with
    | top => exact ⟨[], .top, rfl, htop, by simp⟩
    | @child k d cs q m hpl h1 hk h2 h3 h4 h5 h6 ih =>
      obtain ⟨way, i1, i2, i3, i4⟩ := ih
      obtain ⟨-, hb⟩ := hans hpl h1 hk h2
      obtain ⟨n, rfl, hn⟩ := hnames d cs false h2 _ h3
      obtain ⟨hg, hgn⟩ := i3.child hn
      have hgn' : (d.child n).names = cwd.names.dropLast ++ (way ++ [n]) := by rw [hgn, i4, List.append_assoc]
      have hps : ∀ n, d.child n ∈ cs → (passes fs o (d.child n) = true ↔ Shown fs (way ++ [n]) (d.child n)) := by
        intro n hm
        obtain ⟨n', e, hn'⟩ := hnames d cs false h2 _ hm
        obtain ⟨hg', hgn''⟩ := i3.child hn'
        rw [← e] at hg' hgn''
        obtain ⟨b, hb⟩ := hb _ hm
        exact shown_passes hF hg' (by rw [i3.child_names, i4, List.append_assoc]) hb
      have hr := (room_iff hF i3 (fun c hc => by obtain ⟨n, e, _⟩ := hnames d cs false h2 c hc; exact ⟨n, e⟩) hps h5 (d.child n)).1 h6
      rw [hF.depth] at hk
      exact ⟨way ++ [n], .child i1 h1 (by omega) h2 h3 ((hps n h3).1 h4) hr, by simp [i2], hg, hgn'⟩
  · intro way q hp
    induction hp with
    | top => exact ⟨.top, htop, by simp⟩
    | @child way d cs n hpi h1 hk h2 h3 h4 h5 ih =>
      obtain ⟨i1, i3, i4⟩ := ih
      have hk' : ((way.length : Nat) : Int) < o.maxDepth := by rw [hF.depth]; omega
      obtain ⟨⟨m, hm⟩, hb⟩ := hans i1 h1 hk' h2
      have hps : ∀ n, d.child n ∈ cs → (passes fs o (d.child n) = true ↔ Shown fs (way ++ [n]) (d.child n)) := by
        intro n hm
        obtain ⟨n', e, hn'⟩ := hnames d cs false h2 _ hm
        obtain ⟨hg', -⟩ := i3.child hn'
        rw [← e] at hg'
        obtain ⟨b, hb⟩ := hb _ hm
        exact shown_passes hF hg' (by rw [i3.child_names, i4, List.append_assoc]) hb
      obtain ⟨n', e, hn'⟩ := hnames d cs false h2 _ h3
      obtain ⟨hg', -⟩ := i3.child hn'
      rw [← e] at hg'
      have hr := (room_iff hF i3 (fun c hc => by obtain ⟨n, e, _⟩ := hnames d cs false h2 c hc; exact ⟨n, e⟩) hps hm (d.child n)).2 h5
      rw [List.length_append, List.length_singleton]
      exact ⟨.child i1 h1 hk' h2 h3 ((hps n h3).2 h4) hm hr, hg', by rw [i3.child_names, i4, List.append_assoc]⟩

/-- The entries of a displayed directory. -/
theorem entries_ok {t : TreeEntry} (h : scanned fs cwd o (Path.ofString j!"..") = .ok t) {d : Path} {es : List TreeEntry} {k : Nat} (hb : BelowAt (.dir d es) k t) (hk : k < 20) :
    ∃ (way : List JStr) (cs sorted : List Path) (shown : List TreeEntry), InPicture fs ⟨true, cwd.names.dropLast⟩ way d ∧ way.length = k ∧ fs.listDir d = .opened cs false ∧
      (∀ n, d.child n ∈ sorted ↔ d.child n ∈ cs ∧ Shown fs (way ++ [n]) (d.child n)) ∧ (∀ q ∈ sorted, ∃ n, q = d.child n) ∧ sorted.Pairwise (Before fs) ∧
      shown.map entryPath = (sorted.take (roomFor d.names.getLast? sorted.length)).map some ∧ es = shown ++ (if roomFor d.names.getLast? sorted.length < sorted.length then [.skipped d] else []) := by
  have hc := facts_lawful hF
  have hd := facts_distinguishes hfs hF
  have hs := scanned_sound hcwd.abs hc h
  have hsub := hs.sub hb rfl
  rw [Nat.zero_add] at hsub
  obtain ⟨_, hdir, hx | ⟨hk', n, cs, ks, srt, es', h1, h2, h3, h4, h5, h6, h7⟩⟩ := hsub.dir_inv
  · rw [hF.depth] at hx; omega
  have h1 : o.childLimit d = .ok n := h1
  have h2 : fs.listDir d = .opened cs false := h2
  have hpl : Placed fs o (target cwd (Path.ofString j!"..")) k d := by
    have hv := hs.visited hb rfl
    rw [Nat.zero_add] at hv
    exact visited_placed hfs hc hd hv
  rw [good_target hcwd] at hpl
  obtain ⟨way, i1, i2, i3, i4⟩ := (placed_picture hfs hnames hcwd hF h).1 hpl
  have hps : ∀ n, d.child n ∈ cs → (passes fs o (d.child n) = true ↔ Shown fs (way ++ [n]) (d.child n)) := by
    intro n hm
    obtain ⟨n', e, hn'⟩ := hnames d cs false h2 _ hm
    obtain ⟨hg', -⟩ := i3.child hn'
    rw [← e] at hg'
    obtain ⟨b, hb⟩ := kept_answered h3 hm
    exact shown_passes hF hg' (by rw [i3.child_names, i4, List.append_assoc]) hb
  rw [kept_filter h3] at h4
  have hmem : ∀ q, q ∈ srt ↔ q ∈ cs ∧ passes fs o q = true := fun q => by rw [h4.mem_iff, List.mem_filter]
  refine ⟨way, cs, srt, es', i1, i2, h2, fun n => ?_, fun q hq => ?_, ?_, ?_, ?_⟩
  · rw [hmem]
    exact ⟨fun ⟨a, b⟩ => ⟨a, (hps n a).1 b⟩, fun ⟨a, b⟩ => ⟨a, (hps n a).2 b⟩⟩
  · obtain ⟨n, e, _⟩ := hnames d cs false h2 q ((hmem q).1 hq).1
    exact ⟨n, e⟩
  · have hn : srt.Nodup := h4.nodup_iff.2 ((hfs d cs false h2).1.filter _)
    have hdist : Distinguishes o.pathComparator srt := fun a ha b hb => hd d cs false h2 a ((hmem a).1 ha).1 b ((hmem b).1 hb).1
    refine (strictly_sorted hc h5 hn hdist).imp fun {a b} hab => ?_
    rw [hF.cmp] at hab
    exact (order_before fs a b).1 hab
  · rw [hF.limit d i3] at h1
    cases h1
    rw [← (room_limit _ srt d).1]
    exact h6.paths
  · rw [hF.limit d i3] at h1
    cases h1
    rw [h7, (room_limit _ srt d).2]

end

end Project

open Spec.Project Project

/-- **C97**: the complete example can always build its options (in a locale that keeps lower-case ASCII texts): whether it prints depends on the files only. -/
theorem C97_built (cs : Casing) (hcs : KeepsLowerAscii cs.lower) (odd : GlobCompiler) (fs : PureFs) {cwd : Path} (hw : cwd.abs = true) (hn : ∀ n ∈ cwd.names, NameOk n) :
    ∃ o, Project.options cs (getPathMatcher odd) fs cwd (Path.ofString j!"..") = .ok o ∧ Project.run cs (getPathMatcher odd) fs cwd = prettyPrint fs.lift cwd o (Path.ofString j!"..") := by
  obtain ⟨oe, he⟩ := C36_default_ok (m := Except Exn) cs hcs fs.lift Options.createDefault
  obtain ⟨o, ho⟩ := (options_facts cs odd fs (cwd := cwd) ⟨hw, hn⟩).2 oe he
  refine ⟨o, ho, ?_⟩
  unfold Project.run
  simp only
  rw [ho]; rfl

/-- **C97**: the text the complete example prints in a working directory, for any content of the project folder (the parent of the working directory): the paths on its lines are exactly those of the
picture, directory chains are compacted, the emojis are the default ones, and the comments are those of the example. -/
theorem C97_picture {cs : Casing} {odd : GlobCompiler} {fs : PureFs} (hfs : ProperFs fs) (hnames : PlainNames fs) {cwd : Path} (hw : cwd.abs = true) (hn : ∀ n ∈ cwd.names, NameOk n) {s : JStr}
    (h : Project.run cs (getPathMatcher odd) fs cwd = .ok s) :
    ∃ (oe : Options (Except Exn)) (ext : Path → Option JStr) (items : List (Nat × Spec.Item)) (lines : List JStr),
      Options.withDefaultEmojis cs fs.lift Options.createDefault = .ok oe ∧ s = joinLines lines ∧
      List.Forall₂ (IsLineOf TreeFormats.UNICODE_BOX_DRAWING ⟨(lookOf oe).emoji, true, ext⟩) items lines ∧
      (∀ q, (∃ x ∈ items, some q ∈ x.2.shows) ↔ ∃ way, InPicture fs ⟨true, cwd.names.dropLast⟩ way q) ∧
      ∀ way q, InPicture fs ⟨true, cwd.names.dropLast⟩ way q → q.names = cwd.names.dropLast ++ way ∧ ext q = comment way q.names.getLast? := by
  have hcwd : Good cwd := ⟨hw, hn⟩
  unfold Project.run at h
  simp only at h
  obtain ⟨o, ho, h⟩ := except_bind_ok h
  have hF := (options_facts cs odd fs hcwd).1 o ho
  have hc := facts_lawful hF
  have hd := facts_distinguishes hfs hF
  obtain ⟨oe, he1, he2⟩ := hF.emoji
  obtain ⟨g, hg1, hg2⟩ := hF.ext
  obtain ⟨items, lines, h1, h2, h3⟩ := C95_text hfs hw hc hd h
  obtain ⟨t, -, ht, -⟩ := printed h
  have hpp := placed_picture hfs hnames hcwd hF ht
  refine ⟨oe, (lookOf o).ext, items, lines, he1, h1, ?_, fun q => ?_, fun way q hq => ?_⟩
  · have : lookOf o = ⟨(lookOf oe).emoji, true, (lookOf o).ext⟩ := by
      unfold lookOf
      rw [he2, hF.compact]
    rw [← this, ← hF.format]; exact h2
  · rw [h3 q, good_target hcwd]
    constructor
    · rintro ⟨k, hk⟩; obtain ⟨way, hw, _⟩ := hpp.1 hk; exact ⟨way, hw⟩
    · rintro ⟨way, hq⟩; exact ⟨_, (hpp.2 hq).1⟩
  · obtain ⟨-, hq1, hq2⟩ := hpp.2 hq
    refine ⟨hq2, ?_⟩
    unfold lookOf
    rw [hg1]
    show answerOf (g q) = _
    rw [hg2 q way hq1 hq2]; rfl

/-- **C97**: in every displayed directory above the maximal depth the displayed entries are those that are shown, the modules first, in the documented order; in the module `core` only the first one, in
`examples` and `cli` none; `...` follows iff something was left out. -/
theorem C97_entries {cs : Casing} {odd : GlobCompiler} {fs : PureFs} (hfs : ProperFs fs) (hnames : PlainNames fs) {cwd : Path} (hw : cwd.abs = true) (hn : ∀ n ∈ cwd.names, NameOk n)
    {o : Options (Except Exn)} (ho : Project.options cs (getPathMatcher odd) fs cwd (Path.ofString j!"..") = .ok o) {t : TreeEntry} (h : scanned fs cwd o (Path.ofString j!"..") = .ok t)
    {d : Path} {es : List TreeEntry} {k : Nat} (hb : BelowAt (.dir d es) k t) (hk : k < 20) :
    ∃ (way : List JStr) (cs sorted : List Path) (shown : List TreeEntry), InPicture fs ⟨true, cwd.names.dropLast⟩ way d ∧ way.length = k ∧ fs.listDir d = .opened cs false ∧
      (∀ n, d.child n ∈ sorted ↔ d.child n ∈ cs ∧ Shown fs (way ++ [n]) (d.child n)) ∧ (∀ q ∈ sorted, ∃ n, q = d.child n) ∧ sorted.Pairwise (Before fs) ∧
      shown.map entryPath = (sorted.take (roomFor d.names.getLast? sorted.length)).map some ∧ es = shown ++ (if roomFor d.names.getLast? sorted.length < sorted.length then [.skipped d] else []) :=
  entries_ok hfs hnames ⟨hw, hn⟩ ((options_facts cs odd fs ⟨hw, hn⟩).1 o ho) h hb hk

/-! ### Example -/

mutual
/-- All names satisfy `P`. -/
def Node.NamesAre (P : JStr → Prop) : Node → Prop
  | .dir _ cs => NamesAreAll P cs
  | _ => True
/-- The same for lists. -/
def Node.NamesAreAll (P : JStr → Prop) : List (JStr × Node) → Prop
  | [] => True
  | c :: cs => P c.1 ∧ c.2.NamesAre P ∧ NamesAreAll P cs
end

theorem Node.NamesAreAll.lookup {P : JStr → Prop} {n : JStr} {cs : List (JStr × Node)} (h : Node.NamesAreAll P cs) {t : Node} (ht : Node.lookupChild n cs = some t) : t.NamesAre P := by
  induction cs with
  | nil => cases ht
  | cons c cs ih =>
    obtain ⟨k, v⟩ := c
    rw [Node.NamesAreAll] at h
    rw [Node.lookupChild] at ht
    split at ht
    · cases ht; exact h.2.1
    · exact ih h.2.2 ht

theorem Node.NamesAre.get {P : JStr → Prop} {t : Node} (h : t.NamesAre P) {ns : List JStr} {u : Node} (hu : t.get ns = some u) : u.NamesAre P := by
  induction ns generalizing t with
  | nil => rw [Node.get] at hu; cases hu; exact h
  | cons n ns ih =>
    rw [Node.get.eq_def] at hu
    cases t with
    | dir r cs =>
      dsimp only at hu
      rw [Node.NamesAre] at h
      split at hu
      · rename_i c hc; exact ih (h.lookup hc) hu
      · cases hu
    | regular _ => cases hu
    | special => cases hu
    | symlink _ => cases hu

theorem Node.NamesAreAll.mem {P : JStr → Prop} {cs : List (JStr × Node)} (h : Node.NamesAreAll P cs) {c : JStr × Node} (hc : c ∈ cs) : P c.1 := by
  induction cs with
  | nil => cases hc
  | cons d cs ih =>
    rw [Node.NamesAreAll] at h
    rcases List.mem_cons.1 hc with rfl | hc
    · exact h.1
    · exact ih h.2.2 hc

namespace Demo

/-- A project folder `/p` with the module `core` (the main class, another file and another folder), a folder `src`, a hidden file and the working directory `/p/m`. -/
def projectDisk : Node := .dir true [(j!"p", .dir true [
  (j!"jfiletreeprettyprinter-core", .dir true [(j!"zz", .dir true []), (j!"pom.xml", .regular 1), (j!"src", .dir true [(j!"FileTreePrettyPrinter.java", .regular 1)])]),
  (j!"m", .dir true []), (j!"src", .dir true []), (j!".x", .regular 1)])]

def projectFs : PureFs := projectDisk.toFs

theorem project_proper : ProperFs projectFs := Node.WF.proper (t := projectDisk) (by simp [projectDisk, Node.WF, Node.WFAll])

def pp (ns : List JStr) : Path := ⟨true, j!"p" :: ns⟩

def compile : GlobCompiler := getPathMatcher fun _ => .error .illegalArgument

/-- The filters, limits and comments the example makes in `/p/m`. -/
def projectDir : Path → Except Exn Bool := match Project.dirFilter compile projectFs (pp [j!"m"]) (Path.ofString j!"..") with
  | .ok D => D
  | .error e => fun _ => .error e
@[inherit_doc projectDir] def projectFile : Path → Except Exn Bool := match Project.fileFilter compile (pp [j!"m"]) with
  | .ok D => D
  | .error e => fun _ => .error e
@[inherit_doc projectDir] def projectLimit : Path → Except Exn Int := match Project.childLimits compile (pp [j!"m"]) with
  | .ok B => B.build.applyAsInt B
  | .error e => fun _ => .error e
@[inherit_doc projectDir] def projectExt : Path → Except Exn (Option JStr) := match Project.lineExtensions compile (pp [j!"m"]) (Path.ofString j!"..") with
  | .ok X => X.build.apply X
  | .error e => fun _ => .error e

/-- What the example makes in `/p/m`, without the emojis. -/
def projectPlain : Options (Except Exn) := ((((((Options.createDefault : Options (Except Exn)).withCompactDirectories true).filterDirectories projectDir).filterFiles projectFile).withChildLimitFn projectLimit).withLineExtension
  (some projectExt)).sort ((Project.sorts projectFs).build.compare (Project.sorts projectFs))

/-- The default emojis. -/
def projectEmojis : EmojiFn (Except Exn) := match Options.withDefaultEmojis asciiCasing projectFs.lift (Options.createDefault : Options (Except Exn)) with
  | .ok o => o.emojiMapping
  | .error _ => fun _ => .ok none

theorem projectEmojis_eq : ∃ oe, Options.withDefaultEmojis asciiCasing projectFs.lift (Options.createDefault : Options (Except Exn)) = .ok oe ∧ projectEmojis = oe.emojiMapping := by
  obtain ⟨oe, he⟩ := C36_default_ok (m := Except Exn) asciiCasing keepsLowerAscii_ascii projectFs.lift Options.createDefault
  exact ⟨oe, he, by unfold projectEmojis; rw [he]⟩

theorem projectOptions_eq : Project.options asciiCasing compile projectFs (pp [j!"m"]) (Path.ofString j!"..") = .ok (projectPlain.withEmojis projectEmojis) := by
  obtain ⟨oe, he, h⟩ := projectEmojis_eq
  rw [h]
  have hcwd : Good (pp [j!"m"]) := ⟨rfl, by unfold NameOk; decide⟩
  obtain ⟨D, d1, -⟩ := dirFilter_ok (fun _ => .error .illegalArgument) hcwd projectFs
  obtain ⟨F, f1, -⟩ := fileFilter_ok (fun _ => .error .illegalArgument) hcwd
  obtain ⟨B, b1, -⟩ := childLimits_ok (fun _ => .error .illegalArgument) hcwd
  obtain ⟨X, x1, -⟩ := lineExtensions_ok (fun _ => .error .illegalArgument) hcwd
  have hop := (C36_default asciiCasing projectFs.lift _ oe he).2.2
  unfold Project.options projectPlain projectDir projectFile projectLimit projectExt
  unfold compile
  rw [d1, f1, b1, x1]
  simp only [bind, Except.bind]
  rw [he]
  simp only
  rw [hop]
  rfl

/-- What is found. -/
def projectFound : TreeEntry := .dir (pp []) [
  .dir (pp [CORE]) [.dir (pp [CORE, j!"src"]) [.file (pp [CORE, j!"src", MAIN]) ⟨false, false⟩], .skipped (pp [CORE])],
  .dir (pp [j!"m"]) []]

/-- The answer of a question does not depend on the emojis: without them it is computed. -/
theorem answers_emojis (fs : PureFs) (o : Options (Except Exn)) (f : EmojiFn (Except Exn)) : answers fs (o.withEmojis f) = answers fs o := rfl

attribute [local irreducible] projectFile projectLimit projectExt projectEmojis

theorem project_cwd : Good (pp [j!"m"]) := ⟨rfl, by unfold NameOk; decide⟩

theorem project_facts : Facts asciiCasing projectFs (pp [j!"m"]) (projectPlain.withEmojis projectEmojis) := (options_facts _ _ _ project_cwd).1 _ projectOptions_eq

theorem project_file {q : Path} (hq : Good q) (b : Bool) (h : FileShown q.names ↔ b = true) : projectFile q = .ok b := by
  obtain ⟨b', e, i⟩ := project_facts.file q hq
  have : b' = b := by cases b <;> cases b' <;> simp_all
  subst this
  exact e

theorem projectFile_x : projectFile (pp [j!".x"]) = .ok false := by
  refine project_file ⟨rfl, by unfold NameOk; decide⟩ _ ?_
  simp only [Bool.false_eq_true, iff_false]
  rintro (⟨above, between, hb, e⟩ | ⟨-, e⟩)
  · rw [show above ++ CORE :: (between ++ [MAIN]) = (above ++ CORE :: between) ++ [MAIN] by simp] at e
    have := congrArg List.getLast? e
    rw [List.getLast?_concat] at this
    exact absurd this (by decide)
  · exact e ⟨[120], rfl⟩

theorem projectFile_pom : projectFile (pp [CORE, j!"pom.xml"]) = .ok false := by
  refine project_file ⟨rfl, by unfold NameOk; decide⟩ _ ?_
  simp only [Bool.false_eq_true, iff_false]
  rintro (⟨above, between, hb, e⟩ | ⟨e, -⟩)
  · rw [show above ++ CORE :: (between ++ [MAIN]) = (above ++ CORE :: between) ++ [MAIN] by simp] at e
    have := congrArg List.getLast? e
    rw [List.getLast?_concat] at this
    exact absurd this (by decide)
  · exact e ⟨[j!"p"], [j!"pom.xml"], by simp, rfl⟩

theorem projectFile_main : projectFile (pp [CORE, j!"src", MAIN]) = .ok true :=
  project_file ⟨rfl, by unfold NameOk; decide⟩ _ (by simp only [iff_true]; exact .inl ⟨[j!"p"], [j!"src"], by simp, rfl⟩)

theorem project_limit {q : Path} (hq : Good q) : projectLimit q = .ok (if q.names.getLast? = some CLI then 0 else if q.names.getLast? = some EXAMPLES then 0 else if q.names.getLast? = some CORE then 1 else -1) :=
  project_facts.limit q hq

theorem projectLimit_top : projectLimit (pp []) = .ok (-1) := (project_limit ⟨rfl, by unfold NameOk; decide⟩).trans (by rfl)
theorem projectLimit_core : projectLimit (pp [CORE]) = .ok 1 := (project_limit ⟨rfl, by unfold NameOk; decide⟩).trans (by rfl)
theorem projectLimit_src : projectLimit (pp [CORE, j!"src"]) = .ok (-1) := (project_limit ⟨rfl, by unfold NameOk; decide⟩).trans (by rfl)
theorem projectLimit_m : projectLimit (pp [j!"m"]) = .ok (-1) := (project_limit ⟨rfl, by unfold NameOk; decide⟩).trans (by rfl)

theorem scanned_project : scanned projectFs (pp [j!"m"]) (projectPlain.withEmojis projectEmojis) (Path.ofString j!"..") = .ok projectFound := by
  have hd : DistinguishesAll (projectPlain.withEmojis projectEmojis).pathComparator projectFs :=
    sort_distinguishes (c := (Project.sorts projectFs).build.compare (Project.sorts projectFs)) (lawful_builder _ _) project_proper
  have hl : LawfulCmp (projectPlain.withEmojis projectEmojis).pathComparator := sort_lawful (lawful_builder (Project.sorts projectFs).build (Project.sorts projectFs))
  refine scanned_complete rfl hl hd ?_
  generalize projectEmojis = g at *
  refine Scanned.dir (A := answers projectFs (projectPlain.withEmojis g)) (c := (projectPlain.withEmojis g).pathComparator) (maxDepth := 20) (k := 0) (p := pp []) (n := -1)
    (cs := [pp [CORE], pp [j!"m"], pp [j!"src"], pp [j!".x"]]) (ks := [pp [CORE], pp [j!"m"]]) (srt := [pp [CORE], pp [j!"m"]])
    (es := [.dir (pp [CORE]) [.dir (pp [CORE, j!"src"]) [.file (pp [CORE, j!"src", MAIN]) ⟨false, false⟩], .skipped (pp [CORE])], .dir (pp [j!"m"]) []])
    rfl (by decide) projectLimit_top rfl (.keep rfl (.keep rfl (.drop rfl (.drop projectFile_x .nil)))) (by decide) ?_ (.cons ?_ (.cons ?_ .nil))
  · exact List.pairwise_pair.2 (le_of_lt ((order_before projectFs (pp [CORE]) (pp [j!"m"])).2 (.inl (by decide))))
  · refine Scanned.dir (A := answers projectFs (projectPlain.withEmojis g)) (c := (projectPlain.withEmojis g).pathComparator) (maxDepth := 20) (k := 1) (p := pp [CORE]) (n := 1)
      (cs := [pp [CORE, j!"zz"], pp [CORE, j!"pom.xml"], pp [CORE, j!"src"]]) (ks := [pp [CORE, j!"zz"], pp [CORE, j!"src"]]) (srt := [pp [CORE, j!"src"], pp [CORE, j!"zz"]])
      (es := [.dir (pp [CORE, j!"src"]) [.file (pp [CORE, j!"src", MAIN]) ⟨false, false⟩]])
      rfl (by decide) projectLimit_core rfl (.keep rfl (.drop projectFile_pom (.keep rfl .nil))) (by decide) ?_ (.cons ?_ .nil)
    · exact List.pairwise_pair.2 (le_of_lt ((order_before projectFs (pp [CORE, j!"src"]) (pp [CORE, j!"zz"])).2 (.inr (by decide))))
    · exact Scanned.dir (A := answers projectFs (projectPlain.withEmojis g)) (c := (projectPlain.withEmojis g).pathComparator) (maxDepth := 20) (k := 2) (p := pp [CORE, j!"src"]) (n := -1)
        (cs := [pp [CORE, j!"src", MAIN]]) (ks := [pp [CORE, j!"src", MAIN]]) (srt := [pp [CORE, j!"src", MAIN]]) (es := [.file (pp [CORE, j!"src", MAIN]) ⟨false, false⟩])
        rfl (by decide) projectLimit_src rfl (.keep projectFile_main .nil) (by decide) (by simp) (.cons (.file rfl rfl) .nil)
  · exact Scanned.dir (A := answers projectFs (projectPlain.withEmojis g)) (c := (projectPlain.withEmojis g).pathComparator) (maxDepth := 20) (k := 1) (p := pp [j!"m"]) (n := -1)
      (cs := []) (ks := []) (srt := []) (es := []) rfl (by decide) projectLimit_m rfl .nil (by decide) (by simp) .nil

theorem project_dirEmoji {p : Path} (h : projectFs.isDir p = true) : projectEmojis p = .ok (some j!"📂") := by
  obtain ⟨oe, he, h'⟩ := projectEmojis_eq
  rw [h']
  exact C94_directory _ _ _ _ he (congrArg Except.ok h)

theorem project_mainEmoji : projectEmojis (pp [CORE, j!"src", MAIN]) = .ok (some j!"☕") := by
  obtain ⟨oe, he, h'⟩ := projectEmojis_eq
  rw [h']
  exact (C94_shown (m := Except Exn) _ keepsLowerAscii_ascii _ _ _ he (p := pp [CORE, j!"src", MAIN]) rfl rfl).1 (j!"java", j!"☕") (by decide) (by decide) ⟨by decide, by decide, j!"filetreeprettyprinter", 0, by decide⟩ (by decide)

theorem project_run : Project.run asciiCasing compile projectFs (pp [j!"m"]) = .ok (joinLines [j!"📂 p/", j!"├─ 📂 jfiletreeprettyprinter-core/\t// The Java lib", j!"│  ├─ 📂 src/",
    j!"│  │  └─ ☕ FileTreePrettyPrinter.java\t// Lib main entry point", j!"│  └─ ...", j!"└─ 📂 m/"]) := by
  unfold Project.run
  simp only
  rw [projectOptions_eq]
  show prettyPrint (m := Except Exn) _ _ _ _ = _
  rw [prettyPrint_eq, scanned_project]
  show Renderer.renderRoot _ _ _ = _
  rw [C01_render_is_picture_effectful]
  have e1 := project_dirEmoji (p := pp []) rfl
  have e2 := project_dirEmoji (p := pp [CORE]) rfl
  have e3 := project_dirEmoji (p := pp [CORE, j!"src"]) rfl
  have e4 := project_dirEmoji (p := pp [j!"m"]) rfl
  have e5 := project_mainEmoji
  obtain ⟨g, hg, hx⟩ := project_facts.ext
  have hg' : some projectExt = some g := hg
  cases hg'
  have x1 : projectExt (pp []) = .ok Option.none := (hx _ [] ⟨rfl, by unfold NameOk; decide⟩ rfl).trans (congrArg Except.ok (by decide))
  have x2 : projectExt (pp [CORE]) = .ok (some j!"\t// The Java lib") := (hx _ [CORE] ⟨rfl, by unfold NameOk; decide⟩ rfl).trans (congrArg Except.ok (by decide))
  have x3 : projectExt (pp [CORE, j!"src"]) = .ok Option.none := (hx _ [CORE, j!"src"] ⟨rfl, by unfold NameOk; decide⟩ rfl).trans (congrArg Except.ok (by decide))
  have x4 : projectExt (pp [j!"m"]) = .ok Option.none := (hx _ [j!"m"] ⟨rfl, by unfold NameOk; decide⟩ rfl).trans (congrArg Except.ok (by decide))
  have x5 : projectExt (pp [CORE, j!"src", MAIN]) = .ok (some j!"\t// Lib main entry point") := (hx _ [CORE, j!"src", MAIN] ⟨rfl, by unfold NameOk; decide⟩ rfl).trans (congrArg Except.ok (by decide))
  unfold projectFound projectPlain
  generalize projectEmojis = f at *
  generalize projectExt = g at *
  simp only [dispM, dispDirM, dispKidsM, fileTextM, dirsTextM]
  simp only [Options.withEmojis, Options.toRender, Options.sort, Options.withLineExtension, extensionOf, e1, e2, e3, e4, e5, x1, x2, x3, x4, x5]
  rfl

theorem project_names : PlainNames projectFs := by
  intro d cs bad hl c hc
  have hl' : (match projectDisk.at d with
    | some (.dir true cs) => Listing.opened (cs.map (fun c : JStr × Node => d.child c.1)) false
    | _ => .openFailed) = .opened cs bad := hl
  split at hl'
  · rename_i l hat
    cases hl'
    obtain ⟨x, hx, rfl⟩ := List.mem_map.1 hc
    refine ⟨x.1, rfl, ?_⟩
    have hok : Node.NamesAre NameOk projectDisk := by
      have hd : ∀ n ∈ [j!"p", j!"jfiletreeprettyprinter-core", j!"zz", j!"pom.xml", j!"src", j!"FileTreePrettyPrinter.java", j!"m", j!".x"], NameOk n := by unfold NameOk; decide
      simp only [List.mem_cons, List.not_mem_nil, or_false, forall_eq_or_imp, forall_eq] at hd
      simp only [projectDisk, Node.NamesAre, Node.NamesAreAll, hd, and_self]
    have hw := hok.get hat
    rw [Node.NamesAre] at hw
    exact hw.mem hx
  · cases hl'

example := C97_built asciiCasing keepsLowerAscii_ascii (fun _ => .error .illegalArgument) projectFs project_cwd.abs project_cwd.names
example := C97_picture project_proper project_names project_cwd.abs project_cwd.names project_run
example := C97_entries project_proper project_names project_cwd.abs project_cwd.names projectOptions_eq scanned_project (d := pp [CORE]) (k := 1)
  (.inside (List.mem_cons_self ..) .here) (by decide)

end Demo

end JFTP
