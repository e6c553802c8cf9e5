import Verif.Props.GlobOutside

/-!
C115: the globs in the examples of the documentation of `PathMatchers`.
-/

namespace JFTP
open Spec PathMatchers Globs Spec.Glob Spec.GlobL

theorem means_escaped {w s : JStr} :
    GlobMeans [.part .starStar, .part (.text ((42, true) :: bare w))] s ↔ ∃ t, s = t ++ 42 :: w ∧ ∀ c ∈ t, c.toNat ∉ lineEnds := by
  have hm : ((42, true) :: bare w).map Prod.fst = 42 :: w := by rw [List.map_cons, bare_fst]
  have hst : WholeStart (42 :: w) := by intro c hc; cases hc; decide
  unfold GlobMeans
  rw [seq_cons_iff]
  simp only [seq_one_iff]
  constructor
  · rintro ⟨a, b, e, ha, h⟩
    have h : b = codePoints (((42, true) :: bare w).map Prod.fst) := h
    rw [hm] at h
    rw [h] at e
    have es := codePoints_split e
    rw [units_codePoints] at es
    refine ⟨a.flatMap units, es, ?_⟩
    have e2 : codePoints (a.flatMap units) = a := by
      rw [es, codePoints_append (joins_start hst)] at e
      exact List.append_cancel_right e
    exact lineEnds_codePoints.1 (by rw [e2]; exact ha)
  · rintro ⟨t, rfl, ht⟩
    exact ⟨codePoints t, codePoints (42 :: w), codePoints_append (joins_start hst), lineEnds_codePoints.2 ht, by show _ = codePoints _; rw [hm]⟩

theorem escaped_ok {w : JStr} (hw : ∀ c ∈ w, Glob.plain false c) : GlobOk [.part .starStar, .part (.text ((42, true) :: bare w))] :=
  ⟨trivial, trivial, by simp, fun x hx hf => by
    rcases List.mem_cons.1 hx with rfl | hx
    · cases hf
    · obtain ⟨c, hc, rfl⟩ := List.mem_map.1 hx
      exact hw c hc⟩

theorem escaped_write (w : JStr) : writeGlob [.part .starStar, .part (.text ((42, true) :: bare w))] = j!"**\\*" ++ w := by
  have hb := bare_flat w
  simp [writeGlob, Piece.write, Part.write, hb]

theorem escaped_ne (w : JStr) : writeGlob [.part .starStar, .part (.text ((42, true) :: bare w))] ≠ j!"*" := by
  rw [escaped_write]; intro e; have := congrArg List.length e; simp at this

theorem star_join {ns : List JStr} {w : JStr} (hw : SLASH ∉ w) :
    (∃ t, joinSlash ns = t ++ 42 :: w ∧ ∀ c ∈ t, c.toNat ∉ lineEnds) ↔ ∃ dir u, ns = dir ++ [u ++ j!"*" ++ w] ∧ OneLine dir ∧ ∀ c ∈ u, c.toNat ∉ lineEnds := by
  have hx : SLASH ∉ (42 :: w : JStr) := by
    intro h
    rcases List.mem_cons.1 h with h | h
    · exact absurd h (by decide)
    · exact hw h
  rcases List.eq_nil_or_concat ns with rfl | ⟨dir, n, rfl⟩
  · constructor
    · rintro ⟨t, e, -⟩
      have := congrArg List.length e
      simp [joinSlash] at this
    · rintro ⟨dir, u, e, -⟩
      have := congrArg List.length e
      simp at this
  · rw [List.concat_eq_append]
    obtain ⟨pre, hpre, hl⟩ : ∃ pre : JStr, (∀ k : JStr, joinSlash (dir ++ [k]) = pre ++ k) ∧ ((∀ c ∈ pre, c.toNat ∉ lineEnds) ↔ OneLine dir) ∧ (pre = [] ∨ pre.getLast? = some SLASH) := by
      by_cases hd : dir = []
      · subst hd
        exact ⟨[], fun k => rfl, by simp [OneLine], .inl rfl⟩
      · refine ⟨joinSlash dir ++ [SLASH], fun k => by rw [joinSlash_append hd (by simp)]; simp [joinSlash], ?_, .inr (by simp)⟩
        rw [oneLine_join]
        constructor
        · exact fun h c hc => h c (by simp [hc])
        · intro h c hc
          rcases List.mem_append.1 hc with hc | hc
          · exact h c hc
          · rw [List.mem_singleton.1 hc]; decide
    obtain ⟨hl, hlast⟩ := hl
    rw [hpre]
    constructor
    · rintro ⟨t, e, ht⟩
      rcases List.append_eq_append_iff.1 e with ⟨u, rfl, e2⟩ | ⟨u, e1, e2⟩
      · exact ⟨dir, u, by rw [e2]; simp, hl.1 (fun c hc => ht c (by simp [hc])), fun c hc => ht c (by simp [hc])⟩
      · rcases hlast with rfl | hlast
        · obtain ⟨rfl, rfl⟩ := List.append_eq_nil_iff.1 e1.symm
          exact ⟨dir, [], by rw [← List.nil_append n, ← e2]; simp, hl.1 (by simp), by simp⟩
        · cases u with
          | nil =>
            rw [List.append_nil] at e1
            rw [List.nil_append] at e2
            exact ⟨dir, [], by rw [← e2]; simp, hl.1 (by rw [e1]; exact ht), by simp⟩
          | cons x u =>
            rw [e1, List.getLast?_append_of_ne_nil _ (by simp)] at hlast
            exact absurd (by rw [e2]; exact List.mem_append_left _ (List.mem_of_getLast? hlast)) hx
    · rintro ⟨dir', u, e, ho, hu⟩
      obtain ⟨rfl, e'⟩ := List.append_inj' e rfl
      rw [List.singleton_inj.1 e']
      refine ⟨pre ++ u, by simp, fun c hc => ?_⟩
      rcases List.mem_append.1 hc with hc | hc
      · exact hl.2 ho c hc
      · exact hu c hc

theorem star_join_root {ns : List JStr} {w : JStr} :
    (∃ t, SLASH :: joinSlash ns = t ++ 42 :: w ∧ ∀ c ∈ t, c.toNat ∉ lineEnds) ↔ ∃ t, joinSlash ns = t ++ 42 :: w ∧ ∀ c ∈ t, c.toNat ∉ lineEnds := by
  constructor
  · rintro ⟨t, e, ht⟩
    cases t with
    | nil => exact absurd (List.cons.inj e).1 (by decide)
    | cons x t => exact ⟨t, (List.cons.inj e).2, fun c hc => ht c (by simp [hc])⟩
  · rintro ⟨t, e, ht⟩
    refine ⟨SLASH :: t, by rw [e]; rfl, fun c hc => ?_⟩
    rcases List.mem_cons.1 hc with rfl | hc
    · decide
    · exact ht c hc

section
variable {m : Type → Type} [Monad m] (odd : GlobCompiler)

/-- **C115**: the glob `**\*.java` of the documentation (here with any text for `.java`) is no pattern for names that end with `.java`: as an absolute glob it accepts exactly the paths whose names
end with `*.java`, with a star (and no line break before it). -/
theorem C115_absolute {w : JStr} (h : ∀ c ∈ w, Glob.plain false c ∧ c ≠ SLASH) {cwd : Path} (hw : cwd.abs = true) (hc : ∀ n ∈ cwd.names, n ≠ j!"." ∧ n ≠ j!"..") :
    ∃ (mt : Matcher m) (b : Path → Bool), hasAbsolutePathMatchingGlob (getPathMatcher odd) cwd (j!"**\\*" ++ w) = .ok mt ∧ (∀ p, mt p = pure (b p)) ∧
      ∀ p : Path, p.Valid → ¬ (p.abs = false ∧ p.normalize.names.head? = some j!"..") →
        (b p = true ↔ ∃ dir u, (target cwd p).names = dir ++ [u ++ j!"*" ++ w] ∧ OneLine dir ∧ ∀ c ∈ u, c.toNat ∉ lineEnds) := by
  obtain ⟨mt, b, h1, h2, h3⟩ := C78_absolute (m := m) odd (escaped_ok (fun c hc => (h c hc).1)) (escaped_ne w) hw hc
  rw [escaped_write] at h1
  refine ⟨mt, b, h1, h2, fun p hv hn => ?_⟩
  rw [h3 p hv hn, means_escaped, star_join_root, star_join (fun hs => (h _ hs).2 rfl)]

/-- **C115**: as a relative glob, too: the names on the way from the reference have to end in one with a star; no path makes the matcher throw. -/
theorem C115_relative {w : JStr} (h : ∀ c ∈ w, Glob.plain false c ∧ c ≠ SLASH) {cwd ref : Path} (hw : cwd.abs = true) (hr : ref.Valid) :
    ∃ (mt : Matcher m) (b : Path → Bool), hasRelativePathMatchingGlob (getPathMatcher odd) cwd ref (j!"**\\*" ++ w) = .ok mt ∧ (∀ p, mt p = pure (b p)) ∧
      ∀ p : Path, p.Valid → ∃ way, Way (target cwd ref).names (target cwd p).names way ∧
        (b p = true ↔ ∃ dir u, way = dir ++ [u ++ j!"*" ++ w] ∧ OneLine dir ∧ ∀ c ∈ u, c.toNat ∉ lineEnds) := by
  obtain ⟨mt, b, h1, h2, h3, -⟩ := C78_relative (m := m) odd (escaped_ok (fun c hc => (h c hc).1)) (escaped_ne w) hw hr
  rw [escaped_write] at h1
  refine ⟨mt, b, h1, h2, fun p hv => ?_⟩
  obtain ⟨way, hway, hb⟩ := h3 p hv
  exact ⟨way, hway, by rw [hb, means_escaped, star_join (fun hs => (h _ hs).2 rfl)]⟩

/-- **C115**: what was meant. As an absolute glob `**/*.ext` accepts exactly the paths whose names end with `.ext`, in any directory (with a line break in none of the directories). -/
theorem C115_intended {ext : JStr} (h : ∀ c ∈ ext, Glob.plain false c ∧ c ≠ SLASH) {cwd : Path} (hw : cwd.abs = true) (hc : ∀ n ∈ cwd.names, n ≠ j!"." ∧ n ≠ j!"..") :
    ∃ (mt : Matcher m) (b : Path → Bool), hasAbsolutePathMatchingGlob (getPathMatcher odd) cwd (j!"**/*." ++ ext) = .ok mt ∧ (∀ p, mt p = pure (b p)) ∧
      ∀ p : Path, p.Valid → ¬ (p.abs = false ∧ p.normalize.names.head? = some j!"..") → (∀ n ∈ (target cwd p).names, SLASH ∉ n) →
        (b p = true ↔ ∃ dir base, (target cwd p).names = dir ++ [base ++ j!"." ++ ext] ∧ OneLine dir) := by
  obtain ⟨mt, b, h1, h2, h3⟩ := C96_absolute (m := m) odd (by simp [extSegs]) (extSegs_ok h) (extSegs_star ext) hw hc
  rw [extSegs_write] at h1
  refine ⟨mt, b, h1, h2, fun p hv hn hs => ?_⟩
  rw [h3 p hv hn hs]
  generalize (target cwd p).names = ns at hs
  have e : absoluteParts ns = relativeParts ([] :: relativeParts ns) := by rw [relativeParts, if_neg (by simp)]; rfl
  rw [e, extSegs_accepts (by
    intro n hn
    rcases List.mem_cons.1 hn with rfl | hn
    · simp
    · exact relativeParts_slash hs n hn)]
  constructor
  · rintro ⟨dirs, base, h1, h2, e⟩
    cases dirs with
    | nil => exact absurd rfl h1
    | cons d dirs =>
      have e := (List.cons.inj e).2
      have hne : ns ≠ [] := by
        rintro rfl
        rw [relativeParts, if_pos rfl] at e
        cases dirs with
        | nil => have := congrArg List.length (List.singleton_inj.1 e); simp at this
        | cons x l => have := congrArg List.length e; simp at this
      rw [relativeParts, if_neg hne] at e
      exact ⟨dirs, base, e, fun n hn => h2 n (by simp [hn])⟩
  · rintro ⟨dir, base, rfl, ho⟩
    rw [relativeParts, if_neg (by simp)]
    refine ⟨[] :: dir, base, by simp, fun n hn => ?_, rfl⟩
    rcases List.mem_cons.1 hn with rfl | hn
    · simp
    · exact ho n hn

/-- **C115**: a pattern for names (such as `*.log`, the other example of the documentation), used as an absolute glob, accepts no path at all, unless it is `*`. -/
theorem C115_names_only {ps : List Piece} (h : (Segment.name ps).Ok) (hstar : writeSegments [.name ps] ≠ j!"*") {cwd : Path} (hw : cwd.abs = true) (hc : ∀ n ∈ cwd.names, n ≠ j!"." ∧ n ≠ j!"..") :
    ∃ mt : Matcher m, hasAbsolutePathMatchingGlob (getPathMatcher odd) cwd (writeSegments [.name ps]) = .ok mt ∧
      ∀ p : Path, p.Valid → ¬ (p.abs = false ∧ p.normalize.names.head? = some j!"..") → (∀ n ∈ (target cwd p).names, SLASH ∉ n) → mt p = pure false := by
  obtain ⟨mt, b, h1, h2, h3⟩ := C96_absolute (m := m) odd (segs := [.name ps]) (by simp) (by simpa using h) hstar hw hc
  refine ⟨mt, h1, fun p hv hn hs => ?_⟩
  rw [h2]
  congr 1
  rw [Bool.eq_false_iff, ne_eq, h3 p hv hn hs]
  intro ha
  have := (C96_lengths ha).2 (by simp)
  have h0 := List.length_pos_iff.2 (relativeParts_ne (target cwd p).names)
  simp only [absoluteParts, List.length_cons, List.length_nil] at this
  omega

/-- **C115**: the examples of the documentation (PathMatchers.java:294-298, 328-334). Where it says `true` the result is `false`, and where it says that an exception is thrown the result is `false`. -/
theorem C115_examples {cwd : Path} (hw : cwd.abs = true) (hc : ∀ n ∈ cwd.names, n ≠ j!"." ∧ n ≠ j!"..") :
    (∃ mt : Matcher m, hasAbsolutePathMatchingGlob (getPathMatcher odd) cwd j!"**\\*.java" = .ok mt ∧
      mt (Path.ofString j!"/home/user/project/Main.java") = pure false ∧ mt (Path.ofString j!"/home/user/project/notes.txt") = pure false) ∧
    (∃ mt : Matcher m, hasAbsolutePathMatchingGlob (getPathMatcher odd) cwd j!"**/*.java" = .ok mt ∧
      mt (Path.ofString j!"/home/user/project/Main.java") = pure true ∧ mt (Path.ofString j!"/home/user/project/notes.txt") = pure false) ∧
    ∃ mt : Matcher m, hasRelativePathMatchingGlob (getPathMatcher odd) cwd (Path.ofString j!"/home/user/project") j!"**\\*.java" = .ok mt ∧
      mt (Path.ofString j!"/home/user/project/src/Main.java") = pure false ∧ mt (Path.ofString j!"/tmp/file.java") = pure false := by
  have hj : ∀ c ∈ j!".java", Glob.plain false c ∧ c ≠ SLASH := by simp [Glob.plain, SLASH]
  have hj' : ∀ c ∈ j!"java", Glob.plain false c ∧ c ≠ SLASH := by simp [Glob.plain, SLASH]
  have ha : ∀ p : Path, p.abs = true → target cwd p = p.normalize := fun p hp => by rw [target, Path.toAbsolutePath, if_pos hp]
  have e0 : (target cwd (Path.ofString j!"/home/user/project")).names = [j!"home", j!"user", j!"project"] := by rw [ha _ (by decide)]; decide
  have e1 : (target cwd (Path.ofString j!"/tmp/file.java")).names = [j!"tmp", j!"file.java"] := by rw [ha _ (by decide)]; decide
  have e2 : (target cwd (Path.ofString j!"/home/user/project/src/Main.java")).names = [j!"home", j!"user", j!"project", j!"src", j!"Main.java"] := by rw [ha _ (by decide)]; decide
  have e3 : (target cwd (Path.ofString j!"/home/user/project/Main.java")).names = [j!"home", j!"user", j!"project", j!"Main.java"] := by rw [ha _ (by decide)]; decide
  have e4 : (target cwd (Path.ofString j!"/home/user/project/notes.txt")).names = [j!"home", j!"user", j!"project", j!"notes.txt"] := by rw [ha _ (by decide)]; decide
  have none : ∀ {ns : List JStr}, (∀ n ∈ ns, 42 ∉ n) → ¬ ∃ dir u, ns = dir ++ [u ++ j!"*" ++ j!".java"] ∧ OneLine dir ∧ ∀ c ∈ u, c.toNat ∉ lineEnds := by
    rintro ns h ⟨dir, u, rfl, -⟩
    exact h (u ++ j!"*" ++ j!".java") (by simp) (by simp)
  refine ⟨?_, ?_, ?_⟩
  · obtain ⟨mt, b, h1, h2, h3⟩ := C115_absolute (m := m) odd hj hw hc
    refine ⟨mt, h1, ?_, ?_⟩ <;> rw [h2] <;> congr 1 <;> rw [Bool.eq_false_iff, ne_eq, h3 _ (.inr (by decide)) (by decide)]
    · rw [e3]; exact none (by decide)
    · rw [e4]; exact none (by decide)
  · obtain ⟨mt, b, h1, h2, h3⟩ := C115_intended (m := m) odd hj' hw hc
    refine ⟨mt, h1, ?_, ?_⟩ <;> rw [h2] <;> congr 1
    · rw [h3 _ (.inr (by decide)) (by decide) (by rw [e3]; decide), e3]
      exact ⟨[j!"home", j!"user", j!"project"], j!"Main", by decide, by unfold OneLine; decide⟩
    · rw [Bool.eq_false_iff, ne_eq, h3 _ (.inr (by decide)) (by decide) (by rw [e4]; decide), e4]
      rintro ⟨dir, base, e, -⟩
      have e' := congrArg List.getLast? e
      rw [List.getLast?_concat] at e'
      have e' : some j!"notes.txt" = some (base ++ j!"." ++ j!"java") := e'
      injection e' with e'
      have := congrArg List.getLast? e'
      rw [List.getLast?_append_of_ne_nil _ (by decide)] at this
      exact absurd this (by decide)
  · obtain ⟨mt, b, h1, h2, h3⟩ := C115_relative (m := m) odd hj hw (ref := Path.ofString j!"/home/user/project") (.inr (by decide))
    have no : ∀ p : Path, p.Valid → (∀ n ∈ (target cwd p).names, 42 ∉ n) → mt p = pure false := fun p hv hn => by
      obtain ⟨way, hway, hb⟩ := h3 p hv
      rw [h2]
      congr 1
      rw [Bool.eq_false_iff, ne_eq, hb]
      refine none fun n hm => ?_
      obtain ⟨c, u, d, k1, k2, rfl, -⟩ := hway.way
      rcases List.mem_append.1 hm with hm | hm
      · obtain ⟨-, rfl⟩ := List.mem_replicate.1 hm; decide
      · exact hn n (by rw [k2]; simp [hm])
    exact ⟨mt, h1, no _ (.inr (by decide)) (by rw [e2]; decide), no _ (.inr (by decide)) (by rw [e1]; decide)⟩

end

/-! ### Examples -/

/-- `/d/a*.java` is accepted. -/
example (odd : GlobCompiler) : ∃ mt : Matcher (Except Exn), hasAbsolutePathMatchingGlob (getPathMatcher odd) Path.root j!"**\\*.java" = .ok mt ∧ mt ⟨true, [j!"d", j!"a*.java"]⟩ = .ok true := by
  obtain ⟨mt, b, h1, h2, h3⟩ := C115_absolute (m := Except Exn) odd (w := j!".java") (by simp [Glob.plain, SLASH]) (cwd := Path.root) rfl (by decide)
  exact ⟨mt, h1, by rw [h2]; exact congrArg _ ((h3 _ (.inr (by decide)) (by decide)).2 ⟨[j!"d"], j!"a", by decide, by unfold OneLine; decide, by decide⟩)⟩
example (odd : GlobCompiler) := C115_relative (m := Except Exn) odd (w := j!".java") (by simp [Glob.plain, SLASH]) (cwd := Path.root) (ref := ⟨true, [j!"d"]⟩) rfl (.inr (by decide))
example (odd : GlobCompiler) := C115_intended (m := Except Exn) odd (ext := j!"java") (by simp [Glob.plain, SLASH]) (cwd := Path.root) rfl (by decide)
example (odd : GlobCompiler) := C115_examples (m := Except Exn) odd (cwd := ⟨true, [j!"home"]⟩) rfl (by decide)
/-- `*.log` -/
example (odd : GlobCompiler) := C115_names_only (m := Except Exn) odd (extSegs_ok (ext := j!"log") (by simp [Glob.plain, SLASH]) (.name [.part .star, .part (.text (bare j!".log"))]) (by simp [extSegs]))
  (by decide) (cwd := Path.root) rfl (by decide)
example : writeSegments [.name [.part .star, .part (.text (bare j!".log"))]] = j!"*.log" := by decide

end JFTP
