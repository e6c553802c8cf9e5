import Verif.Model.Recipes
import Verif.Spec.Recipes
import Verif.Props.Glob
import Verif.Props.Limits
import Verif.Props.Rules

/-!
C93: the recipes of README.md do what they promise in every directory.
-/

namespace JFTP
open Spec PathMatchers

/-! ### Filtering.java -/

theorem last_cases (p : Path) : p.names = [] ∨ ∃ dir n, p.names = dir ++ [n] := by
  rcases List.eq_nil_or_concat p.names with h | ⟨d, n, h⟩
  · exact .inl h
  · exact .inr ⟨d, n, by simpa using h⟩

/-- The directory filter of the recipe. -/
theorem onlyKind_dir {o : Options (Except Exn)} {ending ext : JStr} {q : Path} :
    (Recipes.onlyKind ending ext o).dirMatcher q = .ok true ↔ ¬ ∃ t, q.names.getLast? = some (t ++ ending) := by
  show (PathMatchers.not (hasNameEndingWith ending) q : Except Exn Bool) = .ok true ↔ _
  unfold PathMatchers.not
  rcases last_cases q with h | ⟨d, n, h⟩
  · rw [(C42_root (m := Except Exn) q h asciiCasing ending (fun _ => true)).2.2.2.2.1]
    simp [h]; rfl
  · obtain ⟨_, _, _, _, ⟨b, h1, h2⟩, _⟩ := C42_names (m := Except Exn) q d n h asciiCasing ending (fun _ => true)
    rw [h1]
    cases b
    · have : ¬ ∃ t, n = t ++ ending := fun e => by cases h2.2 e
      simp only [h, List.getLast?_append, List.getLast?_singleton, Option.some_or, Option.some.injEq, this, not_false_eq_true, iff_true]; rfl
    · have : ∃ t, n = t ++ ending := h2.1 rfl
      simp only [h, List.getLast?_append, List.getLast?_singleton, Option.some_or, Option.some.injEq, this, not_true, iff_false]; nofun

/-- The file filter of the recipe. -/
theorem onlyKind_file {o : Options (Except Exn)} {ending ext : JStr} {q : Path} :
    (Recipes.onlyKind ending ext o).fileMatcher q = .ok true ↔ ∃ t, q.names.getLast? = some (t ++ j!"." ++ ext) := by
  show (hasExtension ext q : Except Exn Bool) = .ok true ↔ _
  rcases last_cases q with h | ⟨d, n, h⟩
  · rw [(C42_root (m := Except Exn) q h asciiCasing ext (fun _ => true)).2.2.2.2.2]
    simp only [h, List.getLast?_nil, reduceCtorEq, exists_false, iff_false]; nofun
  · obtain ⟨_, _, _, _, _, ⟨b, h1, h2⟩⟩ := C42_names (m := Except Exn) q d n h asciiCasing ext (fun _ => true)
    rw [h1]
    simp only [h, List.getLast?_append, List.getLast?_singleton, Option.some_or, Option.some.injEq, ← h2]
    exact ⟨fun e => Except.ok.inj e, fun e => by rw [e]; rfl⟩

theorem displayed_onlyKind {fs : PureFs} {o : Options (Except Exn)} {ending ext : JStr} {top q : Path} {k : Nat} :
    DisplayedAt fs (Recipes.onlyKind ending ext o) top k q ↔ Led fs (fun _ => True) (OfKind fs ending ext) top k q := by
  constructor
  · intro h
    induction h with
    | top => exact .top
    | child _ h1 h2 h3 h4 h5 ih =>
      refine .child ih h1 trivial h2 h3 ?_
      unfold OfKind
      split
      · exact onlyKind_dir.1 (h4 ‹_›)
      · exact onlyKind_file.1 (h5 (Bool.eq_false_iff.2 ‹¬ fs.isDir _ = true›))
  · intro h
    induction h with
    | top => exact .top
    | child _ h1 _ h2 h3 h4 ih =>
      unfold OfKind at h4
      refine .child ih h1 h2 h3 (fun e => ?_) (fun e => ?_)
      · rw [if_pos e] at h4; exact onlyKind_dir.2 h4
      · rw [if_neg (by simp [e])] at h4; exact onlyKind_file.2 h4

section
variable {fs : PureFs} {cwd : Path} {o : Options (Except Exn)}

/-- **C93**, Filtering.java: whatever the directory contains, with the filters of the recipe exactly those paths are named on the lines of the output that are reached through directories whose
names do not end with the given text, and that are themselves such directories or files with the given extension (down to the maximal depth, without child limit). -/
theorem C93_filtering (hw : cwd.abs = true) (hc : LawfulCmp o.pathComparator) (ending ext : JStr) {L : Look} (he : ∀ p, o.emojiMapping p = pure (L.emoji p))
    (hcd : o.compactDirectories = L.compact) (hx : ∀ p, extensionOf o.toRender p = pure (L.ext p)) (hlim : ∀ q n, o.childLimit q = .ok n → n < 0)
    {p : Path} {s : JStr} (h : prettyPrint fs.lift cwd (Recipes.onlyKind ending ext o) p = .ok s) :
    ∃ (items : List (Nat × Item)) (lines : List JStr), s = joinLines lines ∧ List.Forall₂ (IsLineOf o.treeFormat L) items lines ∧
      ∀ q, (∃ x ∈ items, some q ∈ x.2.shows) ↔
        ∃ k : Nat, Led fs (fun _ => True) (OfKind fs ending ext) (target cwd p) k q ∧ (k = 0 ∨ (k : Int) ≤ o.maxDepth) := by
  obtain ⟨items, lines, h1, h2, h3⟩ := C06_printed_paths (o := Recipes.onlyKind ending ext o) (L := L) hw hc he hcd hx hlim h
  refine ⟨items, lines, h1, h2, fun q => (h3 q).trans ?_⟩
  simp only [displayed_onlyKind]
  rfl

/-! ### ChildLimitDynamic.java -/

/-- The limit function of the recipe. -/
theorem closedAt_limit (name : JStr) (q : Path) : (Recipes.closedAt name o).childLimit q = .ok (if q.names.getLast? = some name then 0 else -1) := by
  have : (hasName name q : Except Exn Bool) = .ok (decide (q.names.getLast? = some name)) := by
    rcases last_cases q with h | ⟨d, n, h⟩
    · rw [(C42_root (m := Except Exn) q h asciiCasing name (fun _ => true)).1, h]; rfl
    · rw [(C42_names (m := Except Exn) q d n h asciiCasing name (fun _ => true)).1, h]; simp; rfl
  show ChildLimitBuilder.limitLoop (m := Except Exn) q UNLIMITED [fun path => do return if ← hasName name path then 0 else UNLIMITED] = _
  simp only [ChildLimitBuilder.limitLoop, this]
  by_cases hn : q.names.getLast? = some name
  · simp [hn, pure, Except.pure, bind, Except.bind]
  · simp [hn, pure, Except.pure, bind, Except.bind, UNLIMITED]

/-- `q` is entered: it is no directory with the given name. -/
def Spec.NotNamed (name : JStr) (q : Path) : Prop := q.names.getLast? ≠ some name

/-- `q` passes the filters of the options. -/
def Spec.Accepted (fs : PureFs) (o : Options (Except Exn)) (q : Path) : Prop :=
  (fs.isDir q = true → o.dirMatcher q = .ok true) ∧ (fs.isDir q = false → o.fileMatcher q = .ok true)

variable (hw : cwd.abs = true) (hc : LawfulCmp o.pathComparator) (name : JStr)
include hw hc

/-- **C93**, ChildLimitDynamic.java: nothing below a directory with the given name is shown, and everything else is (down to the maximal depth): a path is displayed iff it is reached through
directories that do not have this name, by entries that pass the filters. -/
theorem C93_closed_set {p : Path} {t : TreeEntry} (h : scanned fs cwd (Recipes.closedAt name o) p = .ok t) (q : Path) :
    q ∈ entryPaths t ↔ ∃ k : Nat, Led fs (NotNamed name) (Accepted fs o) (target cwd p) k q ∧ (k = 0 ∨ (k : Int) ≤ o.maxDepth) := by
  have hs := scanned_sound (o := Recipes.closedAt name o) hw hc h
  rw [mem_entryPaths]
  constructor
  · rintro ⟨n, x, hb, hq⟩
    have hv := hs.visited hb hq
    rw [Nat.zero_add] at hv
    refine ⟨n, ?_⟩
    clear hb hq
    induction hv with
    | top => exact ⟨.top, .inl rfl⟩
    | @child k d n cs ks srt q _ h1 hk h2 h3 h4 h5 h6 h7 ih =>
      refine ⟨?_, .inr (by have : (k : Int) < o.maxDepth := hk; omega)⟩
      have h2 : (Recipes.closedAt name o).childLimit d = .ok n := h2
      rw [closedAt_limit] at h2
      have hm : q ∈ cs.filter (passes fs (Recipes.closedAt name o)) := by
        rw [← kept_filter h4]; exact h5.mem_iff.1 ((limitTo_sublist n srt).subset h7)
      obtain ⟨hm1, hm2⟩ := List.mem_filter.1 hm
      refine .child ih.1 h1 ?_ h3 hm1 (passes_iff.1 hm2)
      intro e
      rw [if_pos e] at h2
      cases h2
      simp [limitTo] at h7
  · rintro ⟨k, hd, hk⟩
    refine ⟨k, ?_⟩
    induction hd with
    | top => exact ⟨t, .here, hs.entryPath_eq⟩
    | @child k d cs q _ h1 hn h2 h3 h4 ih =>
      obtain ⟨x, hx, hxp⟩ := ih (by omega)
      have hsub := hs.sub hx hxp
      rw [Nat.zero_add] at hsub
      cases hsub with
      | file hf _ => have hf : fs.isDir d = false := hf; rw [h1] at hf; cases hf
      | tooDeep _ hdeep => have hdeep : (k : Int) ≥ o.maxDepth := hdeep; omega
      | @dir _ _ n cs' ks srt es' a1 ak a2 a3 a4 a5 a6 a7 =>
        have a3 : fs.listDir d = .opened cs' false := a3
        rw [h2] at a3; cases a3
        have a2 : (Recipes.closedAt name o).childLimit d = .ok n := a2
        rw [closedAt_limit, if_neg hn] at a2
        cases a2
        have hmem : q ∈ limitTo (-1) srt := by
          unfold limitTo; rw [if_pos (by omega)]
          rw [a5.mem_iff, kept_filter a4]
          exact List.mem_filter.2 ⟨h3, passes_iff.2 h4⟩
        obtain ⟨e, he, hse⟩ := a7.mem_path hmem
        exact ⟨e, hx.child (List.mem_append.2 (.inl he)), hse.entryPath_eq⟩

/-- **C93**, ChildLimitDynamic.java: a displayed directory with the given name (above the depth limit) contains the mark `...` and nothing else if there is something in it that passes the filters, otherwise
nothing; no other displayed directory contains the mark of the child limit. -/
theorem C93_closed_marks {p : Path} {t : TreeEntry} (h : scanned fs cwd (Recipes.closedAt name o) p = .ok t) {d : Path} {es : List TreeEntry} {k : Nat} (hb : BelowAt (.dir d es) k t)
    (hk : (k : Int) < o.maxDepth) :
    ∃ cs, fs.listDir d = .opened cs false ∧
      (d.names.getLast? = some name → ((∃ c ∈ cs, Accepted fs o c) → es = [.skipped d]) ∧ ((∀ c ∈ cs, ¬ Accepted fs o c) → es = [])) ∧
      (d.names.getLast? ≠ some name → ∀ c, .skipped c ∉ es) := by
  have hacc : ∀ c, passes fs (Recipes.closedAt name o) c = true ↔ Accepted fs o c := fun c => passes_iff
  by_cases hn : d.names.getLast? = some name
  · obtain ⟨cs, srt, shown, h1, h2, h3, h4, h5⟩ := C10_child_limit (o := Recipes.closedAt name o) hw hc h hb hk (n := 0) (by rw [closedAt_limit, if_pos hn]; rfl)
    have h0 : shown = [] := by simpa using h4
    refine ⟨cs, h1, fun _ => ⟨fun ⟨c, hm, ha⟩ => ?_, fun ha => ?_⟩, fun e => absurd hn e⟩
    · rw [h5, h0, if_pos]; · rfl
      have : c ∈ srt := h2.mem_iff.2 (List.mem_filter.2 ⟨hm, (hacc c).2 ha⟩)
      exact List.length_pos_of_mem this
    · rw [h5, h0, if_neg]; · rfl
      have : srt = [] := by
        rw [List.eq_nil_iff_forall_not_mem]
        intro c hcm
        obtain ⟨a1, a2⟩ := List.mem_filter.1 (h2.mem_iff.1 hcm)
        exact ha c a1 ((hacc c).1 a2)
      rw [this]; simp
  · obtain ⟨cs, srt, h1, h2, h3, h4⟩ := C11_negative_limit_unlimited (o := Recipes.closedAt name o) hw hc h hb hk (n := -1) (by omega) (by rw [closedAt_limit, if_neg hn])
    refine ⟨cs, h1, fun e => absurd e hn, fun _ c hm => ?_⟩
    have : entryPath (.skipped c) ∈ srt.map some := by rw [← h4]; exact List.mem_map_of_mem hm
    simp [entryPath] at this

/-- **C93**, ChildLimitDynamic.java, on the printed text: the paths on the lines of the output. -/
theorem C93_closed_text {L : Look} (he : ∀ p, o.emojiMapping p = pure (L.emoji p)) (hcd : o.compactDirectories = L.compact) (hx : ∀ p, extensionOf o.toRender p = pure (L.ext p))
    {p : Path} {s : JStr} (h : prettyPrint fs.lift cwd (Recipes.closedAt name o) p = .ok s) :
    ∃ (items : List (Nat × Item)) (lines : List JStr), s = joinLines lines ∧ List.Forall₂ (IsLineOf o.treeFormat L) items lines ∧
      ∀ q, (∃ x ∈ items, some q ∈ x.2.shows) ↔
        ∃ k : Nat, Led fs (NotNamed name) (Accepted fs o) (target cwd p) k q ∧ (k = 0 ∨ (k : Int) ≤ o.maxDepth) := by
  obtain ⟨t, T, lines, ht, hT, h1, h2, h3⟩ := prettyPrint_ok (o := Recipes.closedAt name o) he hcd hx h
  refine ⟨T.items 0, lines, h1, h2, fun q => ?_⟩
  rw [← C93_closed_set hw hc name ht q]
  unfold entryPaths
  rw [← h3]
  simp

end

/-! ### LineExtension.java -/

section
open Glob Globs GlobL
variable (odd : GlobCompiler)

/-- A relative glob that is a path without special characters accepts exactly this path. -/
theorem literal_place {cwd ref : Path} (hw : cwd.abs = true) (hr : ref.Valid) {ds : List JStr} (hne : ds ≠ []) (hd : ∀ n ∈ ds, Verbatim n ∧ SLASH ∉ n) :
    ∃ (mt : Matcher (Except Exn)) (b : Path → Bool), hasRelativePathMatchingGlob (getPathMatcher odd) cwd ref (joinSlash ds) = .ok mt ∧ (∀ p, mt p = pure (b p)) ∧
      ∀ (p : Path) (rest : List JStr), p.Valid → (target cwd p).names = (target cwd ref).names ++ rest → (∀ n ∈ rest, SLASH ∉ n) → (b p = true ↔ rest = ds) := by
  have hnil : joinSlash ds ≠ [] := by
    cases ds with
    | nil => exact absurd rfl hne
    | cons n ns =>
      have := (hd n (by simp)).1.1
      cases ns <;> simp [joinSlash, this]
  have hv : Verbatim (joinSlash ds) := ⟨hnil, fun c hc => by
    by_cases e : c = SLASH
    · rw [e]; exact ⟨by decide, by simp⟩
    · obtain ⟨n, hn, hc⟩ := (mem_joinSlash e).1 hc
      exact (hd n hn).1.2 c hc⟩
  obtain ⟨mt, b, h1, h2, _, h3⟩ := C78_relative (m := Except Exn) odd (ps := [.part (.text (bare (joinSlash ds)))]) (bare_ok hv)
    (by simpa [writeGlob, Piece.write, bare_flat, Part.write] using verbatim_ne_star hv) hw hr
  refine ⟨mt, b, ?_, h2, fun p rest hp hrest hs => ?_⟩
  · rw [← h1]; congr 1; simp [writeGlob, Piece.write, bare_flat, Part.write]
  · rw [h3 p rest hp hrest, means_text, bare_fst]
    refine ⟨fun e => ?_, fun e => by rw [e]⟩
    have hre : rest ≠ [] := by rintro rfl; exact hnil e.symm
    rw [← split_joinSlash hne (fun n hn => (hd n hn).2), ← e, split_joinSlash hre hs]

/-- The rules for the places. -/
theorem placeRules_eq {cwd ref : Path} (hw : cwd.abs = true) (hr : ref.Valid) : ∀ (places : List (List JStr × JStr)), (∀ x ∈ places, x.1 ≠ [] ∧ ∀ n ∈ x.1, Verbatim n ∧ SLASH ∉ n) →
    ∃ rules : List (Rule JStr), (∀ b : LineExtensionBuilder (Except Exn),
        Recipes.placeRules (getPathMatcher odd) cwd ref (places.map fun x => (joinSlash x.1, x.2)) b = .ok (rules.foldl (fun b r => b.addMatching (fun q => pure (r.1 q)) r.2) b)) ∧
      ∀ (p : Path) (rest : List JStr), p.Valid → (target cwd p).names = (target cwd ref).names ++ rest → (∀ n ∈ rest, SLASH ∉ n) →
        rules.map (fun r => (r.1 p, r.2)) = places.map (fun x => (x.1 == rest, x.2))
  | [], _ => ⟨[], fun _ => rfl, fun _ _ _ _ _ => rfl⟩
  | x :: places, h => by
    obtain ⟨mt, b, h1, h2, h3⟩ := literal_place odd hw hr (h x (by simp)).1 (h x (by simp)).2
    obtain ⟨rules, h4, h5⟩ := placeRules_eq hw hr places (fun y hy => h y (by simp [hy]))
    refine ⟨(b, x.2) :: rules, fun b0 => ?_, fun p rest hp hrest hs => ?_⟩
    · have : mt = fun q => pure (b q) := funext h2
      simp only [List.map_cons, Recipes.placeRules, h1, h4, List.foldl_cons, this]
    · rw [List.map_cons, List.map_cons, h5 p rest hp hrest hs]
      congr 1
      have := h3 p rest hp hrest hs
      rw [Prod.mk.injEq]
      refine ⟨Bool.eq_iff_iff.2 (this.trans ?_), rfl⟩
      rw [beq_iff_eq]
      exact eq_comm

theorem firstMatch_map {α : Type} (rules : List (Rule JStr)) (extra : Rule JStr) (p : Path) (places : List (α × JStr)) (f : α → Bool)
    (h : rules.map (fun r => (r.1 p, r.2)) = places.map (fun x => (f x.1, x.2))) :
    firstMatch none ((rules ++ [extra]).map (fun r => (r.1, some r.2))) p =
      match places.find? (fun x => f x.1) with
      | some x => some x.2
      | .none => if extra.1 p = true then some extra.2 else none := by
  induction rules generalizing places with
  | nil =>
    cases places with
    | cons => simp at h
    | nil => cases e : extra.1 p <;> simp [firstMatch, e]
  | cons r rules ih =>
    cases places with
    | nil => simp at h
    | cons x places =>
      simp only [List.map_cons, List.cons.injEq, Prod.mk.injEq] at h
      have := ih places h.2
      rw [List.find?_cons]
      cases e : f x.1
      · rw [e] at h
        rw [← this]
        simp [firstMatch, h.1.1]
      · rw [e] at h
        simp [firstMatch, h.1.1, h.1.2]

/-- Displayed paths lie below the printed path. -/
theorem displayed_under {fs : PureFs} (hl : ListsNames fs) {cwd : Path} (hw : cwd.abs = true) (hcv : ∀ n ∈ cwd.names, n ≠ []) {o : Options (Except Exn)} {p : Path} (hp : p.Valid) {k : Nat} {q : Path}
    (h : DisplayedAt fs o (target cwd p) k q) :
    ∃ rest, q = ⟨true, (target cwd p).names ++ rest⟩ ∧ (∀ n ∈ rest, SLASH ∉ n) ∧ q.Valid ∧ target cwd q = q := by
  suffices ∃ rest, q = ⟨true, (target cwd p).names ++ rest⟩ ∧ ∀ n ∈ rest, n ≠ [] ∧ n ≠ j!"." ∧ n ≠ j!".." ∧ SLASH ∉ n by
    obtain ⟨rest, e, h⟩ := this
    refine ⟨rest, e, fun n hn => (h n hn).2.2.2, .inr ⟨fun x hx => ?_, fun ha => by rw [e] at ha; cases ha⟩, ?_⟩
    · rw [e] at hx
      rcases List.mem_append.1 hx with hx | hx
      · exact target_names_ne hw hcv hp x hx
      · exact (h x hx).1
    · rw [e]
      unfold target
      rw [Path.toAbsolutePath_self rfl]
      refine Path.normalize_of_names rfl (fun x hx => ?_)
      rcases List.mem_append.1 hx with hx | hx
      · exact target_clean hw x hx
      · exact ⟨(h x hx).2.1, (h x hx).2.2.1⟩
  induction h with
  | top =>
    refine ⟨[], ?_, by simp⟩
    have := target_abs (p := p) hw
    rw [List.append_nil, ← this]
  | child _ h1 h2 h3 _ _ ih =>
    obtain ⟨rest, e, h⟩ := ih
    obtain ⟨n, e', hn⟩ := hl _ _ _ h2 _ h3
    refine ⟨rest ++ [n], ?_, fun x hx => ?_⟩
    · rw [e', e]
      unfold Path.child
      rw [if_neg (by simp [Path.empty])]
      simp
    · rcases List.mem_append.1 hx with hx | hx
      · exact h x hx
      · rw [List.mem_singleton.1 hx]; exact hn

/-- The rules of the recipe can be built, and what they answer. -/
theorem comments_answer {cwd : Path} (hw : cwd.abs = true) {o : Options (Except Exn)} {p : Path} (hp : p.Valid) {places : List (List JStr × JStr)}
    (hpl : ∀ x ∈ places, x.1 ≠ [] ∧ ∀ n ∈ x.1, Verbatim n ∧ SLASH ∉ n) {ext : JStr} (hext : ∀ c ∈ ext, Glob.plain false c) (text : JStr) :
    ∃ f : Path → Option JStr, Recipes.comments (getPathMatcher odd) cwd p (places.map fun x => (joinSlash x.1, x.2)) (j!"*." ++ ext) text o = .ok (o.withLineExtension (some fun q => pure (f q))) ∧
      ∀ q way, q.Valid → (target cwd q).names = (target cwd p).names ++ way → (∀ n ∈ way, SLASH ∉ n) → SlashFree q → f q = commentAt places ext text way q.names.getLast? := by
  obtain ⟨rules, h1, h2⟩ := placeRules_eq odd hw hp places hpl
  obtain ⟨mt, h3, h4⟩ := C79_extension (m := Except Exn) odd hext
  have h5 : ∃ b : Path → Bool, ∀ q, mt q = pure (b q) := by
    cases hg : getPathMatcher odd (j!"*." ++ ext) with
    | error x =>
      have := (C42_glob (m := Except Exn) (getPathMatcher odd) (j!"*." ++ ext) Path.root).2.1 x (by simp) hg
      rw [h3] at this; cases this
    | ok t =>
      refine ⟨fun q => match q.names.getLast? with | some n => t ⟨false, [n]⟩ | .none => false, fun q => ?_⟩
      obtain ⟨mt', e1, e2⟩ := (C42_glob (m := Except Exn) (getPathMatcher odd) (j!"*." ++ ext) q).2.2 t (by simp) hg
      rw [h3] at e1; cases e1
      exact e2
  obtain ⟨b, hb⟩ := h5
  let all : List (Rule JStr) := rules ++ [(b, text)]
  let bld : LineExtensionBuilder (Except Exn) := all.foldl (fun b r => b.addMatching (fun q => pure (r.1 q)) r.2) LineExtensions.builder
  have hall : bld.build.apply bld = fun q => pure (firstMatch none (all.map fun r => (r.1, some r.2)) q) := funext fun q => C28_matching_rules (m := Except Exn) all bld q
  refine ⟨fun q => firstMatch none (all.map fun r => (r.1, some r.2)) q, ?_, fun q way w2 w3 w1 hlast => ?_⟩
  · have : mt = fun q => pure (b q) := funext hb
    rw [← hall]
    simp only [Recipes.comments, h1, h3, this, bld, all, List.foldl_append, List.foldl_cons, List.foldl_nil]
  · have hmap := h2 q way w2 w3 w1
    show firstMatch none (all.map fun r => (r.1, some r.2)) q = _
    rw [firstMatch_map rules (b, text) q places (fun y => y == way) hmap]
    unfold commentAt
    have hbq : b q = (q.names.getLast?.any fun n => (j!"." ++ ext).isSuffixOf n) := by
      have : (pure (b q) : Except Exn Bool) = hasExtension ext q := by rw [← hb, h4 q hlast]
      unfold hasExtension hasNameEndingWith Path.getFileName at this
      cases hn : q.names.getLast? with
      | none => rw [hn] at this; exact Except.ok.inj this
      | some n => rw [hn] at this; exact Except.ok.inj this
    simp only [hbq]
    cases places.find? (fun x => x.1 == way) <;> rfl

/-- What the rules of the recipe do. -/
theorem comments_built {fs : PureFs} (hl : ListsNames fs) {cwd : Path} (hw : cwd.abs = true) (hcv : ∀ n ∈ cwd.names, n ≠ []) {o : Options (Except Exn)} (hc : LawfulCmp o.pathComparator)
    {p : Path} (hp : p.Valid) (hsl : SlashFree (target cwd p)) {places : List (List JStr × JStr)} (hpl : ∀ x ∈ places, x.1 ≠ [] ∧ ∀ n ∈ x.1, Verbatim n ∧ SLASH ∉ n) {ext : JStr} (hext : ∀ c ∈ ext, Glob.plain false c) (text : JStr) :
    ∃ o', Recipes.comments (getPathMatcher odd) cwd p (places.map fun x => (joinSlash x.1, x.2)) (j!"*." ++ ext) text o = .ok o' ∧
      ∀ {L : Look}, (∀ q, o.emojiMapping q = pure (L.emoji q)) → o.compactDirectories = L.compact → ∀ {s : JStr}, prettyPrint fs.lift cwd o' p = .ok s →
        ∃ (f : Path → Option JStr) (items : List (Nat × Spec.Item)) (lines : List JStr), s = joinLines lines ∧ List.Forall₂ (IsLineOf o.treeFormat ⟨L.emoji, L.compact, f⟩) items lines ∧
          ∀ x ∈ items, ∀ q, some q ∈ x.2.shows → ∃ way, q.names = (target cwd p).names ++ way ∧ f q = commentAt places ext text way q.names.getLast? := by
  obtain ⟨f, h1, h2⟩ := comments_answer odd hw (o := o) hp hpl hext text
  refine ⟨_, h1, fun {L} he hcd {s} hs => ?_⟩
  obtain ⟨t, T, lines, ht, hT, g1, g2, g3⟩ := prettyPrint_ok (o := o.withLineExtension (some fun q => pure (f q))) (L := ⟨L.emoji, L.compact, f⟩) he hcd (fun q => rfl) hs
  refine ⟨f, T.items 0, lines, g1, g2, fun x hx q hq => ?_⟩
  have hm : q ∈ entryPaths t := by
    unfold entryPaths
    rw [← g3]
    simp only [List.mem_filterMap, List.mem_flatMap, id]
    exact ⟨some q, ⟨x, hx, hq⟩, rfl⟩
  obtain ⟨n, y, hy, hyq⟩ := mem_entryPaths.1 hm
  have hsc := scanned_sound (o := o.withLineExtension (some fun q => pure (f q))) hw hc ht
  obtain ⟨way, e, w1, w2, w3⟩ := displayed_under hl hw hcv hp (visited_displayed (hsc.visited hy hyq)).1
  have hlast : SlashFree q := by
    intro n hn
    rw [e] at hn
    rcases List.eq_nil_or_concat way with rfl | ⟨ws, w, rfl⟩
    · rw [List.append_nil] at hn; exact hsl n hn
    · have : n = w := by simpa [← List.append_assoc, eq_comm] using hn
      rw [this]; exact w1 w (by simp)
  exact ⟨way, by rw [e], h2 q way w2 (by rw [w3, e]) w1 hlast⟩

/-- **C93**, LineExtension.java: whatever the directory contains, with the rules of the recipe (places given by relative paths without special characters, and `*.ext`) every line ends with the comment of
the first place it is at, or else, if its name is base.ext, with the comment for these, or else with nothing. -/
theorem C93_comments {fs : PureFs} (hl : ListsNames fs) {cwd : Path} (hw : cwd.abs = true) (hcv : ∀ n ∈ cwd.names, n ≠ []) {o o' : Options (Except Exn)} (hc : LawfulCmp o.pathComparator)
    {p : Path} (hp : p.Valid) (hsl : SlashFree (target cwd p)) {places : List (List JStr × JStr)} (hpl : ∀ x ∈ places, x.1 ≠ [] ∧ ∀ n ∈ x.1, Verbatim n ∧ SLASH ∉ n)
    {ext : JStr} (hext : ∀ c ∈ ext, Glob.plain false c) {text : JStr}
    (h : Recipes.comments (getPathMatcher odd) cwd p (places.map fun x => (joinSlash x.1, x.2)) (j!"*." ++ ext) text o = .ok o')
    {L : Look} (he : ∀ q, o.emojiMapping q = pure (L.emoji q)) (hcd : o.compactDirectories = L.compact) {s : JStr} (hs : prettyPrint fs.lift cwd o' p = .ok s) :
    ∃ (f : Path → Option JStr) (items : List (Nat × Spec.Item)) (lines : List JStr), s = joinLines lines ∧ List.Forall₂ (IsLineOf o.treeFormat ⟨L.emoji, L.compact, f⟩) items lines ∧
      ∀ x ∈ items, ∀ q, some q ∈ x.2.shows → ∃ way, q.names = (target cwd p).names ++ way ∧ f q = commentAt places ext text way q.names.getLast? := by
  obtain ⟨o'', h1, h2⟩ := comments_built odd hl hw hcv hc hp hsl hpl hext text
  rw [h] at h1
  cases h1
  exact h2 he hcd hs

/-- **C93**, LineExtension.java: such rules can always be built. -/
theorem C93_comments_built {cwd : Path} (hw : cwd.abs = true) {o : Options (Except Exn)} {p : Path} (hp : p.Valid) {places : List (List JStr × JStr)}
    (hpl : ∀ x ∈ places, x.1 ≠ [] ∧ ∀ n ∈ x.1, Verbatim n ∧ SLASH ∉ n) {ext : JStr} (hext : ∀ c ∈ ext, Glob.plain false c) (text : JStr) :
    ∃ o', Recipes.comments (getPathMatcher odd) cwd p (places.map fun x => (joinSlash x.1, x.2)) (j!"*." ++ ext) text o = .ok o' := by
  obtain ⟨rules, h1, h2⟩ := placeRules_eq odd hw hp places hpl
  obtain ⟨mt, h3, h4⟩ := C79_extension (m := Except Exn) odd hext
  simp only [Recipes.comments, h1, h3]
  exact ⟨_, rfl⟩

end

/-! ### The programs themselves -/

section
variable {fs : PureFs} {cwd : Path} (hw : cwd.abs = true)
include hw

/-- **C93**: the program Filtering.java. -/
theorem C93_filtering_program {s : JStr} (h : Recipes.filtering (m := Except Exn) fs.lift cwd = .ok s) :
    ∃ (items : List (Nat × Item)) (lines : List JStr), s = joinLines lines ∧ List.Forall₂ (IsLineOf TreeFormats.UNICODE_BOX_DRAWING (plain false)) items lines ∧
      ∀ q, (∃ x ∈ items, some q ∈ x.2.shows) ↔
        ∃ k ≤ 20, Led fs (fun _ => True) (OfKind fs j!"no_java_file" j!"java") (target cwd (Path.ofString j!"src/main/resources/filtering")) k q := by
  unfold Recipes.filtering at h
  simp only at h
  rw [C47_string _ _ hw] at h
  obtain ⟨items, lines, h1, h2, h3⟩ := C93_filtering (o := Options.createDefault) hw lawful_ALPHABETICAL _ _ (L := plain false) (fun _ => rfl) rfl (fun _ => rfl) (fun _ _ h => by cases h; decide) h
  refine ⟨items, lines, h1, h2, fun q => (h3 q).trans ⟨fun ⟨k, a, b⟩ => ⟨k, ?_, a⟩, fun ⟨k, b, a⟩ => ⟨k, a, .inr ?_⟩⟩⟩
  · have : k = 0 ∨ (k : Int) ≤ 20 := b
    omega
  · show (k : Int) ≤ 20
    omega

/-- **C93**: the program ChildLimitDynamic.java. -/
theorem C93_childLimit_program {s : JStr} (h : Recipes.childLimitDynamic (m := Except Exn) fs.lift cwd = .ok s) :
    ∃ (items : List (Nat × Item)) (lines : List JStr), s = joinLines lines ∧ List.Forall₂ (IsLineOf TreeFormats.UNICODE_BOX_DRAWING (plain false)) items lines ∧
      ∀ q, (∃ x ∈ items, some q ∈ x.2.shows) ↔
        ∃ k ≤ 20, Led fs (NotNamed j!"node_modules") (fun _ => True) (target cwd (Path.ofString j!"src/main/resources/child_limit_dynamic")) k q := by
  unfold Recipes.childLimitDynamic at h
  simp only at h
  rw [C47_string _ _ hw] at h
  obtain ⟨items, lines, h1, h2, h3⟩ := C93_closed_text (o := Options.createDefault) hw lawful_ALPHABETICAL _ (L := plain false) (fun _ => rfl) rfl (fun _ => rfl) h
  have hacc : Accepted fs (Options.createDefault : Options (Except Exn)) = fun _ => True := funext fun q => eq_true ⟨fun _ => rfl, fun _ => rfl⟩
  rw [hacc] at h3
  refine ⟨items, lines, h1, h2, fun q => (h3 q).trans ⟨fun ⟨k, a, b⟩ => ⟨k, ?_, a⟩, fun ⟨k, b, a⟩ => ⟨k, a, .inr ?_⟩⟩⟩
  · have : k = 0 ∨ (k : Int) ≤ 20 := b
    omega
  · show (k : Int) ≤ 20
    omega

end

/-- The places of LineExtension.java, by their names. -/
def Spec.codePlaces : List (List JStr × JStr) := [
  ([j!"src", j!"main", j!"java", j!"api"], j!"\t\t\t// All API code: controllers, etc."),
  ([j!"src", j!"main", j!"java", j!"domain"], j!"\t\t\t// All domain code: value objects, etc."),
  ([j!"src", j!"main", j!"java", j!"infra"], j!"\t\t\t// All infra code: database, email service, etc."),
  ([j!"src", j!"main", j!"java", j!"api"], j!"\t\t\t// All API code: controllers, etc.")]

theorem codePlaces_written : Recipes.places = Spec.codePlaces.map fun x => (joinSlash x.1, x.2) := rfl

/-- **C93**: the program LineExtension.java. -/
theorem C93_lineExtension_program (odd : GlobCompiler) {fs : PureFs} (hl : ListsNames fs) {cwd : Path} (hw : cwd.abs = true) (hcv : ∀ n ∈ cwd.names, n ≠ []) {s : JStr}
    (h : Recipes.lineExtension (m := Except Exn) (Globs.getPathMatcher odd) fs.lift cwd = .ok s) :
    ∃ (f : Path → Option JStr) (items : List (Nat × Item)) (lines : List JStr), s = joinLines lines ∧ List.Forall₂ (IsLineOf TreeFormats.UNICODE_BOX_DRAWING ⟨fun _ => Option.none, false, f⟩) items lines ∧
      ∀ x ∈ items, ∀ q, some q ∈ x.2.shows → ∃ way, q.names = (target cwd (Path.ofString j!"src/main/resources/line_extension")).names ++ way ∧
        f q = commentAt Spec.codePlaces j!"properties" j!"\t// Config file" way q.names.getLast? := by
  have hpl : ∀ x ∈ Spec.codePlaces, x.1 ≠ [] ∧ ∀ n ∈ x.1, Verbatim n ∧ SLASH ∉ n := by
    simp [Spec.codePlaces, Verbatim, Glob.plain, SLASH]
  have hext : ∀ c ∈ (j!"properties" : JStr), Glob.plain false c := by simp [Glob.plain]
  have hv : (Path.ofString j!"src/main/resources/line_extension").Valid := .inr (by decide)
  have hsl : SlashFree (target cwd (Path.ofString j!"src/main/resources/line_extension")) := by
    intro n hn
    have e : (target cwd (Path.ofString j!"src/main/resources/line_extension")).names = Path.normNames true cwd.names ++ [j!"src", j!"main", j!"resources", j!"line_extension"] := by
      unfold target
      rw [Path.normalize_abs (Path.toAbsolutePath_abs hw)]
      show Path.normNames true (Path.toAbsolutePath ⟨false, [j!"src", j!"main", j!"resources", j!"line_extension"]⟩ cwd).names = _
      unfold Path.toAbsolutePath Path.resolve
      have hcw : cwd ≠ Path.empty := by rintro rfl; cases hw
      simp only [Bool.false_eq_true, if_false]
      rw [if_neg (by decide), if_neg hcw, Path.normNames_append]
      simp [Path.normStep, Path.dotName, Path.dotDotName]
    rw [e] at hn
    have : n = j!"line_extension" := by simpa [eq_comm] using hn
    rw [this]; decide
  obtain ⟨o', ho⟩ := C93_comments_built odd hw (o := Options.createDefault) hv hpl hext j!"\t// Config file"
  unfold Recipes.lineExtension at h
  simp only [codePlaces_written] at h
  rw [show j!"*." ++ j!"properties" = j!"*.properties" from rfl] at ho
  rw [ho] at h
  exact C93_comments odd hl hw hcv lawful_ALPHABETICAL hv hsl hpl hext ho (L := plain false) (fun _ => rfl) rfl h

/-! ### Examples -/

namespace Demo

/-- No directories whose names end with `a`, only files with the extension `txt`. -/
def ofKind : Options (Except Exn) := Recipes.onlyKind j!"a" j!"txt" dflt

theorem scanned_ofKind : scanned dfs Path.root ofKind r = .ok (.dir r [.file b ⟨false, false⟩]) := by
  refine scanned_complete rfl lawful_ALPHABETICAL distinguishes ?_
  exact Scanned.dir (A := answers dfs ofKind) (c := PathSorts.ALPHABETICAL) (maxDepth := 20) (k := 0) (p := r) (n := -1)
    (cs := [b, a, z]) (ks := [b]) (srt := [b]) (es := [.file b ⟨false, false⟩])
    rfl (by decide) rfl rfl (.keep rfl (.drop rfl (.drop rfl .nil))) (by decide) (by decide) (.cons (.file rfl rfl) .nil)

theorem printed_ofKind : prettyPrint dfs.lift Path.root ofKind r = .ok (joinLines [j!"r/", j!"└─ b.txt"]) := by
  rw [prettyPrint_eq, scanned_ofKind]
  have h := C01_render_is_picture (m := Except Exn) ofKind.toRender (Spec.plain false) (fun _ => rfl) rfl (fun _ => rfl)
    (.dir r [.file b ⟨false, false⟩]) (by simp [Named, NamedAll, r, b]) _ (.dir (.cons .file .nil))
  show Renderer.renderRoot _ _ _ = _
  rw [h]
  rfl

/-- No children in directories named `a`. -/
def closed : Options (Except Exn) := Recipes.closedAt j!"a" dflt

/-- What is found then. -/
def closedFound : TreeEntry := .dir r [.dir a [.skipped a], .file b ⟨false, false⟩, .file z ⟨false, true⟩]

theorem scanned_closed : scanned dfs Path.root closed r = .ok closedFound := by
  refine scanned_complete rfl lawful_ALPHABETICAL distinguishes ?_
  refine Scanned.dir (A := answers dfs closed) (c := PathSorts.ALPHABETICAL) (maxDepth := 20) (k := 0) (p := r) (n := -1)
    (cs := [b, a, z]) (ks := [b, a, z]) (srt := [a, b, z]) (es := [.dir a [.skipped a], .file b ⟨false, false⟩, .file z ⟨false, true⟩])
    rfl (by decide) rfl rfl (.keep rfl (.keep rfl (.keep rfl .nil))) (by decide) (by decide) ?_
  refine .cons ?_ (.cons (.file rfl rfl) (.cons (.file rfl rfl) .nil))
  exact Scanned.dir (A := answers dfs closed) (c := PathSorts.ALPHABETICAL) (maxDepth := 20) (k := 1) (p := a) (n := 0) (cs := [y, x]) (ks := [y, x]) (srt := [x, y]) (es := [])
    rfl (by decide) rfl rfl (.keep rfl (.keep rfl .nil)) (by decide) (by decide) .nil

theorem printed_closed : prettyPrint dfs.lift Path.root closed r = .ok (joinLines [j!"r/", j!"├─ a/", j!"│  └─ ...", j!"├─ b.txt", j!"└─ z?"]) := by
  rw [prettyPrint_eq, scanned_closed]
  have h := C01_render_is_picture (m := Except Exn) closed.toRender (Spec.plain false) (fun _ => rfl) rfl (fun _ => rfl)
    closedFound (by simp [closedFound, Named, NamedAll, r, a, b, z]) _ (.dir (.cons (.dir (.stop (by simp [Mergeable, Spec.plain])) (.cons .skipped .nil)) (.cons .file (.cons .file .nil))))
  show Renderer.renderRoot _ _ _ = _
  rw [h]
  rfl

/-- A comment at `a`, another for text files. -/
def notes : List (List JStr × JStr) := [([j!"a"], j!" // letters")]

/-- The options with these comments. -/
def noted : Options (Except Exn) := match Recipes.comments (Globs.getPathMatcher fun _ => .error .illegalArgument) Path.root r [(j!"a", j!" // letters")] j!"*.txt" j!" // text" dflt with
  | .ok o => o
  | .error _ => dflt

theorem noted_eq : Recipes.comments (Globs.getPathMatcher fun _ => .error .illegalArgument) Path.root r [(j!"a", j!" // letters")] j!"*.txt" j!" // text" dflt = .ok noted := rfl

theorem scanned_noted : scanned dfs Path.root noted r = .ok found := scanned_found

theorem printed_noted : prettyPrint dfs.lift Path.root noted r =
    .ok (joinLines [j!"r/", j!"├─ a/ // letters", j!"│  ├─ x", j!"│  └─ y", j!"├─ b.txt // text", j!"└─ z?"]) := by
  rw [prettyPrint_eq, scanned_noted]
  show Renderer.renderRoot _ _ _ = _
  rw [C01_render_is_picture_effectful]
  simp only [found, dispM, dispDirM, dispKidsM]
  rfl

/-- Directories like those of the example programs. -/
def exampleDisk : Node := .dir true [(j!"src", .dir true [(j!"main", .dir true [(j!"resources", .dir true [
  (j!"filtering", .dir true [(j!"old_no_java_file", .dir true [(j!"B.java", .regular 1)]), (j!"A.java", .regular 2), (j!"notes", .regular 3)]),
  (j!"child_limit_dynamic", .dir true [(j!"node_modules", .dir true [(j!"m", .regular 1)]), (j!"f", .regular 1)]),
  (j!"line_extension", .dir true [(j!"a.properties", .regular 1)])])])])]

def exampleFs : PureFs := exampleDisk.toFs

/-- A path in the directory of the examples. -/
def res (ns : List JStr) : Path := ⟨true, [j!"src", j!"main", j!"resources"] ++ ns⟩

theorem example_proper : ProperFs exampleFs := Node.WF.proper (t := exampleDisk) (by simp [exampleDisk, Node.WF, Node.WFAll])
theorem example_lists : ListsNames exampleFs := Node.NamesOk.lists (t := exampleDisk) (by simp [exampleDisk, Node.NamesOk, Node.NamesOkAll, SLASH])
theorem example_distinguishes : DistinguishesAll PathSorts.ALPHABETICAL exampleFs := sort_distinguishes lawful_const example_proper

theorem filtering_run : Recipes.filtering (m := Except Exn) exampleFs.lift Path.root = .ok (joinLines [j!"filtering/", j!"└─ A.java"]) := by
  unfold Recipes.filtering
  simp only
  rw [C47_string _ _ rfl]
  show prettyPrint _ _ _ _ = _
  have h : scanned exampleFs Path.root (Recipes.onlyKind j!"no_java_file" j!"java" Options.createDefault) (Path.ofString j!"src/main/resources/filtering") =
      .ok (.dir (res [j!"filtering"]) [.file (res [j!"filtering", j!"A.java"]) ⟨false, false⟩]) := by
    refine scanned_complete rfl lawful_ALPHABETICAL example_distinguishes ?_
    exact Scanned.dir (A := answers exampleFs (Recipes.onlyKind j!"no_java_file" j!"java" Options.createDefault)) (c := PathSorts.ALPHABETICAL) (maxDepth := 20) (k := 0) (p := res [j!"filtering"]) (n := -1)
      (cs := [res [j!"filtering", j!"old_no_java_file"], res [j!"filtering", j!"A.java"], res [j!"filtering", j!"notes"]])
      (ks := [res [j!"filtering", j!"A.java"]]) (srt := [res [j!"filtering", j!"A.java"]]) (es := [.file (res [j!"filtering", j!"A.java"]) ⟨false, false⟩])
      rfl (by decide) rfl rfl (.drop rfl (.keep rfl (.drop rfl .nil))) (by decide) (by decide) (.cons (.file rfl rfl) .nil)
  rw [prettyPrint_eq, h]
  show Renderer.renderRoot _ _ _ = _
  rw [C01_render_is_picture_effectful]
  simp only [dispM, dispDirM, dispKidsM]
  rfl

theorem childLimit_run : Recipes.childLimitDynamic (m := Except Exn) exampleFs.lift Path.root =
    .ok (joinLines [j!"child_limit_dynamic/", j!"├─ f", j!"└─ node_modules/", j!"   └─ ..."]) := by
  unfold Recipes.childLimitDynamic
  simp only
  rw [C47_string _ _ rfl]
  show prettyPrint _ _ _ _ = _
  have h : scanned exampleFs Path.root (Recipes.closedAt j!"node_modules" Options.createDefault) (Path.ofString j!"src/main/resources/child_limit_dynamic") =
      .ok (.dir (res [j!"child_limit_dynamic"]) [.file (res [j!"child_limit_dynamic", j!"f"]) ⟨false, false⟩,
        .dir (res [j!"child_limit_dynamic", j!"node_modules"]) [.skipped (res [j!"child_limit_dynamic", j!"node_modules"])]]) := by
    refine scanned_complete rfl lawful_ALPHABETICAL example_distinguishes ?_
    refine Scanned.dir (A := answers exampleFs (Recipes.closedAt j!"node_modules" Options.createDefault)) (c := PathSorts.ALPHABETICAL) (maxDepth := 20) (k := 0) (p := res [j!"child_limit_dynamic"]) (n := -1)
      (cs := [res [j!"child_limit_dynamic", j!"node_modules"], res [j!"child_limit_dynamic", j!"f"]])
      (ks := [res [j!"child_limit_dynamic", j!"node_modules"], res [j!"child_limit_dynamic", j!"f"]])
      (srt := [res [j!"child_limit_dynamic", j!"f"], res [j!"child_limit_dynamic", j!"node_modules"]])
      (es := [.file (res [j!"child_limit_dynamic", j!"f"]) ⟨false, false⟩,
        .dir (res [j!"child_limit_dynamic", j!"node_modules"]) [.skipped (res [j!"child_limit_dynamic", j!"node_modules"])]])
      rfl (by decide) rfl rfl (.keep rfl (.keep rfl .nil)) (by decide) (by decide) (.cons (.file rfl rfl) (.cons ?_ .nil))
    exact Scanned.dir (A := answers exampleFs (Recipes.closedAt j!"node_modules" Options.createDefault)) (c := PathSorts.ALPHABETICAL) (maxDepth := 20) (k := 1) (p := res [j!"child_limit_dynamic", j!"node_modules"]) (n := 0)
      (cs := [res [j!"child_limit_dynamic", j!"node_modules", j!"m"]]) (ks := [res [j!"child_limit_dynamic", j!"node_modules", j!"m"]])
      (srt := [res [j!"child_limit_dynamic", j!"node_modules", j!"m"]]) (es := [])
      rfl (by decide) rfl rfl (.keep rfl .nil) (by decide) (by decide) .nil
  rw [prettyPrint_eq, h]
  show Renderer.renderRoot _ _ _ = _
  rw [C01_render_is_picture_effectful]
  simp only [dispM, dispDirM, dispKidsM]
  rfl

/-- The options LineExtension.java makes. -/
def extended : Options (Except Exn) := match Recipes.comments (Globs.getPathMatcher fun _ => .error .illegalArgument) Path.root (Path.ofString j!"src/main/resources/line_extension") Recipes.places j!"*.properties" j!"\t// Config file"
    Options.createDefault with
  | .ok o => o
  | .error _ => dflt

theorem extended_eq : Recipes.comments (Globs.getPathMatcher fun _ => .error .illegalArgument) Path.root (Path.ofString j!"src/main/resources/line_extension") Recipes.places j!"*.properties" j!"\t// Config file"
    Options.createDefault = .ok extended := rfl

theorem lineExtension_run : Recipes.lineExtension (m := Except Exn) (Globs.getPathMatcher fun _ => .error .illegalArgument) exampleFs.lift Path.root =
    .ok (joinLines [j!"line_extension/", j!"└─ a.properties\t// Config file"]) := by
  unfold Recipes.lineExtension
  simp only [extended_eq]
  have h : scanned exampleFs Path.root extended (Path.ofString j!"src/main/resources/line_extension") =
      .ok (.dir (res [j!"line_extension"]) [.file (res [j!"line_extension", j!"a.properties"]) ⟨false, false⟩]) := by
    refine scanned_complete rfl lawful_ALPHABETICAL example_distinguishes ?_
    exact Scanned.dir (A := answers exampleFs extended) (c := PathSorts.ALPHABETICAL) (maxDepth := 20) (k := 0) (p := res [j!"line_extension"]) (n := -1)
      (cs := [res [j!"line_extension", j!"a.properties"]]) (ks := [res [j!"line_extension", j!"a.properties"]]) (srt := [res [j!"line_extension", j!"a.properties"]])
      (es := [.file (res [j!"line_extension", j!"a.properties"]) ⟨false, false⟩])
      rfl (by decide) rfl rfl (.keep rfl .nil) (by decide) (by decide) (.cons (.file rfl rfl) .nil)
  rw [prettyPrint_eq, h]
  show Renderer.renderRoot _ _ _ = _
  rw [C01_render_is_picture_effectful]
  simp only [dispM, dispDirM, dispKidsM]
  rfl

end Demo

example := C93_filtering (fs := Demo.dfs) (cwd := Path.root) rfl lawful_ALPHABETICAL j!"a" j!"txt" (L := plain false) (o := Demo.dflt) (fun _ => rfl) rfl (fun _ => rfl) (fun _ _ h => by cases h; decide) Demo.printed_ofKind
example := C93_closed_set (fs := Demo.dfs) (cwd := Path.root) (o := Demo.dflt) rfl lawful_ALPHABETICAL j!"a" Demo.scanned_closed
example := C93_closed_marks (fs := Demo.dfs) (cwd := Path.root) (o := Demo.dflt) rfl lawful_ALPHABETICAL j!"a" Demo.scanned_closed (.inside (List.mem_cons_self ..) .here) (by decide)
example := C93_closed_text (fs := Demo.dfs) (cwd := Path.root) (o := Demo.dflt) rfl lawful_ALPHABETICAL j!"a" (L := plain false) (fun _ => rfl) rfl (fun _ => rfl) Demo.printed_closed
example : ∃ o', Recipes.comments (Globs.getPathMatcher fun _ => .error .illegalArgument) Path.root Demo.r [(j!"a", j!" // letters")] j!"*.txt" j!" // text" Demo.dflt = .ok o' :=
  C93_comments_built (fun _ => .error .illegalArgument) (cwd := Path.root) rfl (p := Demo.r) (.inr (by decide)) (places := Demo.notes)
    (by simp [Demo.notes, Verbatim, Glob.plain, SLASH]) (ext := j!"txt") (by simp [Glob.plain]) j!" // text"

example := C93_comments (fun _ => .error .illegalArgument) Demo.lists (cwd := Path.root) rfl (by decide) (o := Demo.dflt) lawful_ALPHABETICAL (p := Demo.r) (.inr (by decide)) (by unfold SlashFree; decide)
  (places := Demo.notes) (by simp [Demo.notes, Verbatim, Glob.plain, SLASH]) (ext := j!"txt") (by simp [Glob.plain]) Demo.noted_eq (L := plain false) (fun _ => rfl) rfl Demo.printed_noted
example := C93_filtering_program rfl Demo.filtering_run
example := C93_childLimit_program rfl Demo.childLimit_run
example := C93_lineExtension_program (fun _ => .error .illegalArgument) Demo.example_lists (cwd := Path.root) rfl (by decide) Demo.lineExtension_run

end JFTP
