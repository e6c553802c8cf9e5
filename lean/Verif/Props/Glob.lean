import Verif.Lemmas.GlobParse
import Verif.Lemmas.CodePoints
import Verif.Props.Kinds
import Verif.Props.OptionsFile

/-!
C78–C81: glob patterns.
-/

namespace JFTP
open Spec PathMatchers Globs Spec.Glob Spec.GlobL

/-! ### Characters -/

theorem characters_codePoints (s : JStr) : Characters s (codePoints s) := by
  refine ⟨?_, units_codePoints s, ?_⟩
  · fun_induction codePoints s with
    | case1 => simp
    | case2 c =>
      intro n hn
      have := c.toNat_lt
      rw [List.mem_singleton.1 hn]
      omega
    | case3 c d s h ih =>
      simp only [isHigh, isLow, Bool.and_eq_true, decide_eq_true_eq] at h
      intro n hn
      rcases List.mem_cons.1 hn with e | hn
      · omega
      · exact ih n hn
    | case4 c d s h ih =>
      intro n hn
      rcases List.mem_cons.1 hn with rfl | hn
      · have := c.toNat_lt; omega
      · exact ih n hn
  · fun_induction codePoints s with
    | case1 => intro a b h; have := h.length_le; simp at this
    | case2 c => intro a b h; have := h.length_le; simp at this
    | case3 c d s h ih =>
      simp only [isHigh, isLow, Bool.and_eq_true, decide_eq_true_eq] at h
      intro a b hab
      rcases List.infix_cons_iff.1 hab with hp | hp
      · have := (List.cons_prefix_cons.1 hp).1; omega
      · exact ih a b hp
    | case4 c d s h ih =>
      intro a b hab
      rcases List.infix_cons_iff.1 hab with hp | hp
      · obtain ⟨e1, hp2⟩ := List.cons_prefix_cons.1 hp
        rintro ⟨h1, h2⟩
        subst e1
        have hd : ∃ x l, codePoints (d :: s) = x :: l ∧ (x = d.toNat ∨ 0x10000 ≤ x) := by
          cases s with
          | nil => exact ⟨_, _, rfl, .inl rfl⟩
          | cons e s =>
            rw [codePoints]
            split
            · exact ⟨_, _, rfl, .inr (by omega)⟩
            · exact ⟨_, _, rfl, .inl rfl⟩
        obtain ⟨x, l, e, hx⟩ := hd
        rw [e] at hp2
        have := (List.cons_prefix_cons.1 hp2).1
        apply h
        simp only [isHigh, isLow, Bool.and_eq_true, decide_eq_true_eq]
        omega
      · exact ih a b hp

/-- **C78**, characters: what the patterns are made of and compared with are the Unicode characters of the strings, and a character that may be written anywhere is not a surrogate. -/
theorem C78_characters (s : JStr) (cs : List Nat) (c : JChar) : (Characters s cs ↔ codePoints s = cs) ∧ (Whole c ↔ ¬ (0xD800 ≤ c.toNat ∧ c.toNat ≤ 0xDFFF)) := by
  refine ⟨⟨characters_unique, fun h => h ▸ characters_codePoints s⟩, ?_⟩
  unfold Whole isHigh isLow
  simp only [Bool.and_eq_false_iff, decide_eq_false_iff_not]
  omega

/-- `🐀` (U+1F400), whose second unit is the first of the low surrogates, is one character; the two units in the other order are two. -/
example : Characters [0xD83D, 0xDC00] [0x1F400] := (C78_characters _ _ 0).1.2 (by decide)
example : Characters [0xDC00, 0xD83D] [0xDC00, 0xD83D] := (C78_characters _ _ 0).1.2 (by decide)

section
variable {m : Type → Type} [Monad m] (odd : GlobCompiler)

/-! ### C78 -/

/-- **C78**: a name glob that follows the documentation gives a matcher that accepts a path iff its last name is one of the strings that the pattern describes. -/
theorem C78_name {ps : List Piece} (h : GlobOk ps) (hs : writeGlob ps ≠ j!"*") :
    ∃ (mt : Matcher m) (b : Path → Bool), hasNameMatchingGlob (getPathMatcher odd) (writeGlob ps) = .ok mt ∧ (∀ p, mt p = pure (b p)) ∧
      ∀ p, b p = true ↔ ∃ n, p.names.getLast? = some n ∧ GlobMeans ps n := by
  obtain ⟨pred, hp, hm⟩ := getPathMatcher_means (odd := odd) h
  refine ⟨_, fun path => match path.getFileName with | some n => pred ⟨false, [n]⟩ | .none => false, by unfold hasNameMatchingGlob; rw [if_neg hs, hp]; rfl, fun p => rfl, fun p => ?_⟩
  dsimp only [Path.getFileName]
  cases p.names.getLast? with
  | none => simp
  | some n =>
    dsimp only
    rw [hm]
    simp [pathString, joinSlash]

/-- **C78**: the absolute form is applied to the text of the absolute normalized path (paths that climb above the working directory apart, see C45). -/
theorem C78_absolute {ps : List Piece} (h : GlobOk ps) (hs : writeGlob ps ≠ j!"*") {cwd : Path} (hw : cwd.abs = true) (hc : ∀ n ∈ cwd.names, n ≠ j!"." ∧ n ≠ j!"..") :
    ∃ (mt : Matcher m) (b : Path → Bool), hasAbsolutePathMatchingGlob (getPathMatcher odd) cwd (writeGlob ps) = .ok mt ∧ (∀ p, mt p = pure (b p)) ∧
      ∀ p : Path, p.Valid → ¬ (p.abs = false ∧ p.normalize.names.head? = some j!"..") → (b p = true ↔ GlobMeans ps (SLASH :: joinSlash (target cwd p).names)) := by
  obtain ⟨pred, hp, hm⟩ := getPathMatcher_means (odd := odd) h
  refine ⟨_, fun p => pred (p.normalize.toAbsolutePath cwd), by unfold hasAbsolutePathMatchingGlob; rw [if_neg hs, hp]; rfl, fun p => rfl, fun p hv hn => ?_⟩
  dsimp only
  rw [(C45_exact hw hc hv).2 hn, hm]
  have : ((p.toAbsolutePath cwd).normalize).abs = true := by rw [Path.normalize_abs (Path.toAbsolutePath_abs hw)]
  unfold target pathString
  rw [if_pos this]

/-- **C78**: the relative form is applied to the names that lead from the reference to the path, with slashes between them. -/
theorem C78_relative {ps : List Piece} (h : GlobOk ps) (hs : writeGlob ps ≠ j!"*") {cwd ref : Path} (hw : cwd.abs = true) (hr : ref.Valid) :
    ∃ (mt : Matcher m) (b : Path → Bool), hasRelativePathMatchingGlob (getPathMatcher odd) cwd ref (writeGlob ps) = .ok mt ∧ (∀ p, mt p = pure (b p)) ∧
      (∀ p : Path, p.Valid → ∃ w, Way (target cwd ref).names (target cwd p).names w ∧ (b p = true ↔ GlobMeans ps (joinSlash w))) ∧
      ∀ (p : Path) (rest : List JStr), p.Valid → (target cwd p).names = (target cwd ref).names ++ rest → (b p = true ↔ GlobMeans ps (joinSlash rest)) := by
  obtain ⟨pred, hp, hm⟩ := getPathMatcher_means (odd := odd) h
  have e : ∀ w, pathString (relPath w) = joinSlash w := by
    intro w
    unfold relPath
    split
    · rename_i h; rw [h]; rfl
    · rfl
  refine ⟨_, fun p => pred ((ref.normalize.toAbsolutePath cwd).relativize (p.normalize.toAbsolutePath cwd)), by unfold hasRelativePathMatchingGlob; rw [if_neg hs, hp]; rfl,
    fun p => rfl, fun p hv => ?_, fun p rest hv hrest => ?_⟩
  · obtain ⟨w, h1, h2⟩ := C46_way (m := Id) hw hr hv (fun q => pure (pred q))
    refine ⟨w, h1, ?_⟩
    have h2 : pred ((ref.normalize.toAbsolutePath cwd).relativize (p.normalize.toAbsolutePath cwd)) = pred (relPath w) := h2
    dsimp only
    rw [h2, hm, e]
  · have h2 := C46_below (m := Id) hw hr hv (fun q => pure (pred q)) rest hrest
    have h2 : pred ((ref.normalize.toAbsolutePath cwd).relativize (p.normalize.toAbsolutePath cwd)) = pred (relPath rest) := h2
    dsimp only
    rw [h2, hm, e]

/-! ### C79 -/

theorem means_text {cs : List (JChar × Bool)} {s : JStr} : GlobMeans [.part (.text cs)] s ↔ s = cs.map Prod.fst := by
  unfold GlobMeans
  rw [seq_one_iff]
  exact ⟨codePoints_inj, fun h => by rw [h]; rfl⟩

/-- Characters without half of a surrogate pair at the start. -/
def WholeStart (s : JStr) : Prop := ∀ c ∈ s.head?, isLow c = false
/-- Characters without half of a surrogate pair at the end. -/
def WholeEnd (s : JStr) : Prop := ∀ c ∈ s.getLast?, isHigh c = false

theorem joins_start {a b : JStr} (h : WholeStart b) : Joins a b := fun _ _ d hd => by rw [h d hd]; simp
theorem joins_end {a b : JStr} (h : WholeEnd a) : Joins a b := fun c hc _ _ => by rw [h c hc]; simp

theorem slash_codePoints {s : JStr} : 47 ∉ codePoints s ↔ SLASH ∉ s := by
  rw [not_iff_not]
  exact mem_codePoints (c := SLASH) (by unfold Whole; decide)

theorem means_suffix {cs : List (JChar × Bool)} (hc : WholeStart (cs.map Prod.fst)) {s : JStr} (hs : SLASH ∉ s) :
    GlobMeans [.part .star, .part (.text cs)] s ↔ cs.map Prod.fst <:+ s := by
  unfold GlobMeans
  rw [seq_cons_iff]
  simp only [seq_one_iff]
  constructor
  · rintro ⟨a, b, e, _, h⟩
    have h : b = codePoints (cs.map Prod.fst) := h
    rw [h] at e
    have := codePoints_split e
    rw [units_codePoints] at this
    exact ⟨_, this.symm⟩
  · rintro ⟨t, rfl⟩
    refine ⟨codePoints t, codePoints (cs.map Prod.fst), codePoints_append (joins_start hc), ?_, rfl⟩
    exact slash_codePoints.2 (fun h => hs (by simp [h]))

theorem means_prefix {cs : List (JChar × Bool)} (hc : WholeEnd (cs.map Prod.fst)) {s : JStr} (hs : SLASH ∉ s) :
    GlobMeans [.part (.text cs), .part .star] s ↔ cs.map Prod.fst <+: s := by
  unfold GlobMeans
  rw [seq_cons_iff]
  simp only [seq_one_iff]
  constructor
  · rintro ⟨a, b, e, h, _⟩
    have h : a = codePoints (cs.map Prod.fst) := h
    rw [h] at e
    have := codePoints_split e
    rw [units_codePoints] at this
    exact ⟨_, this.symm⟩
  · rintro ⟨t, rfl⟩
    refine ⟨codePoints (cs.map Prod.fst), codePoints t, codePoints_append (joins_end hc), rfl, ?_⟩
    exact slash_codePoints.2 (fun h => hs (by simp [h]))

theorem means_infix {cs : List (JChar × Bool)} (hn : cs ≠ []) (h1 : WholeStart (cs.map Prod.fst)) (h2 : WholeEnd (cs.map Prod.fst)) {s : JStr} (hs : SLASH ∉ s) :
    GlobMeans [.part .star, .part (.text cs), .part .star] s ↔ cs.map Prod.fst <:+: s := by
  unfold GlobMeans
  rw [seq_cons_iff]
  simp only [seq_cons_iff (p := Piece.part (.text cs)), seq_one_iff]
  constructor
  · rintro ⟨a, _, e, _, b, c, rfl, h, _⟩
    have h : b = codePoints (cs.map Prod.fst) := h
    rw [h] at e
    have := codePoints_split e
    rw [List.flatMap_append, units_codePoints] at this
    exact ⟨_, _, by rw [this, List.append_assoc]⟩
  · rintro ⟨t, u, rfl⟩
    refine ⟨codePoints t, codePoints (cs.map Prod.fst ++ u), ?_, slash_codePoints.2 (fun h => hs (by simp [h])), codePoints (cs.map Prod.fst), codePoints u, codePoints_append (joins_end h2), rfl,
      slash_codePoints.2 (fun h => hs (by simp [h]))⟩
    rw [List.append_assoc]
    exact codePoints_append (joins_start (by
      intro c hc
      refine h1 c ?_
      cases cs with
      | nil => exact absurd rfl hn
      | cons x l => exact hc))

theorem means_star {s : JStr} : GlobMeans [.part .star] s ↔ SLASH ∉ s := by
  unfold GlobMeans
  rw [seq_one_iff]
  exact slash_codePoints

/-- **C78**, the exception: the pattern `*` alone is not looked at as a pattern (as documented). All three matchers then accept every path, also those that `*` does not describe: paths of several names. -/
theorem C78_star (glob : GlobCompiler) (cwd ref : Path) :
    (∃ mt : Matcher m, hasNameMatchingGlob glob j!"*" = .ok mt ∧ ∀ p, mt p = pure true) ∧
    (∃ mt : Matcher m, hasAbsolutePathMatchingGlob glob cwd j!"*" = .ok mt ∧ ∀ p, mt p = pure true) ∧
    (∃ mt : Matcher m, hasRelativePathMatchingGlob glob cwd ref j!"*" = .ok mt ∧ ∀ p, mt p = pure true) ∧
    GlobOk [.part .star] ∧ writeGlob [.part .star] = j!"*" ∧ ∀ s, GlobMeans [.part .star] s ↔ SLASH ∉ s :=
  ⟨⟨_, by unfold hasNameMatchingGlob; rw [if_pos rfl], fun p => rfl⟩, ⟨_, by unfold hasAbsolutePathMatchingGlob; rw [if_pos rfl], fun p => rfl⟩,
    ⟨_, by unfold hasRelativePathMatchingGlob; rw [if_pos rfl], fun p => rfl⟩, by simp [GlobOk, Piece.Ok, Part.Ok], by decide, fun s => means_star⟩

/-- `a/b` in `/r` is accepted by the relative glob `*`, though the pattern does not describe `a/b`. -/
example (glob : GlobCompiler) : (∃ mt : Matcher (Except Exn), hasRelativePathMatchingGlob glob Path.root ⟨true, [j!"r"]⟩ j!"*" = .ok mt ∧ mt ⟨true, [j!"r", j!"a", j!"b"]⟩ = .ok true) ∧
    ¬ GlobMeans [.part .star] j!"a/b" := by
  obtain ⟨-, -, ⟨mt, h1, h2⟩, -, -, h3⟩ := C78_star (m := Except Exn) glob Path.root ⟨true, [j!"r"]⟩
  exact ⟨⟨mt, h1, h2 _⟩, by rw [h3]; decide⟩

theorem lineEnds_codePoints {s : JStr} : (∀ c ∈ codePoints s, c ∉ lineEnds) ↔ ∀ c ∈ s, c.toNat ∉ lineEnds := by
  have key : ∀ x ∈ lineEnds, x ∈ codePoints s ↔ UInt16.ofNat x ∈ s := by
    have one : ∀ c : JChar, Whole c → ∀ x, x = c.toNat → (x ∈ codePoints s ↔ UInt16.ofNat x ∈ s) := by
      rintro c hc _ rfl
      rw [UInt16.ofNat_toNat]
      exact mem_codePoints hc
    intro x hx
    simp only [lineEnds, List.mem_cons, List.not_mem_nil, or_false] at hx
    rcases hx with h | h | h | h | h
    · exact one 0x0A (by unfold Whole; decide) x h
    · exact one 0x0D (by unfold Whole; decide) x h
    · exact one 0x85 (by unfold Whole; decide) x h
    · exact one 0x2028 (by unfold Whole; decide) x h
    · exact one 0x2029 (by unfold Whole; decide) x h
  constructor
  · intro h c hc hl
    have := (key _ hl).2 (by rw [UInt16.ofNat_toNat]; exact hc)
    exact h _ this hl
  · intro h x hx hl
    have hm := (key x hl).1 hx
    have : (UInt16.ofNat x).toNat = x := by
      simp only [lineEnds, List.mem_cons, List.not_mem_nil, or_false] at hl
      rcases hl with rfl | rfl | rfl | rfl | rfl <;> rfl
    exact h _ hm (by rw [this]; exact hl)

theorem means_starStar {s : JStr} : GlobMeans [.part .starStar] s ↔ ∀ c ∈ s, c.toNat ∉ lineEnds := by
  unfold GlobMeans
  rw [seq_one_iff]
  exact lineEnds_codePoints

/-- Characters that stand for themselves. -/
def Verbatim (t : JStr) : Prop := t ≠ [] ∧ ∀ c ∈ t, Glob.plain false c

/-- The text written without backslashes. -/
def bare (t : JStr) : List (JChar × Bool) := t.map (fun c => (c, false))

theorem bare_fst (t : JStr) : (bare t).map Prod.fst = t := by
  unfold bare
  rw [List.map_map]
  exact List.map_id' t

theorem bare_write (t : JStr) : (Part.text (bare t)).write = t := by
  unfold Part.write bare
  simp [List.flatMap_map]

theorem bare_flat (t : JStr) : (bare t).flatMap (fun x => if x.2 = true then [92, x.1] else [x.1]) = t := bare_write t

theorem bare_ok {t : JStr} (h : Verbatim t) : (Part.text (bare t)).Ok false :=
  ⟨fun e => h.1 (List.map_eq_nil_iff.1 e), fun x hx _ => by
    obtain ⟨c, hc, rfl⟩ := List.mem_map.1 hx
    exact h.2 c hc⟩

theorem verbatim_ne_star {t : JStr} (h : Verbatim t) : t ≠ j!"*" := by
  rintro rfl
  exact (h.2 42 (by simp)).1 (by decide)

/-- A name glob and a test of names. -/
theorem name_test {ps : List Piece} {g : JStr} (hg : writeGlob ps = g) (h : GlobOk ps) (hs : g ≠ j!"*") (T : JStr → Bool) :
    ∃ mt : Matcher m, hasNameMatchingGlob (getPathMatcher odd) g = .ok mt ∧
      ∀ p : Path, (∀ n, p.names.getLast? = some n → (GlobMeans ps n ↔ T n = true)) → mt p = pure (match p.getFileName with | some n => T n | .none => false) := by
  subst hg
  obtain ⟨mt, b, h1, h2, h3⟩ := C78_name (m := m) odd h hs
  refine ⟨mt, h1, fun p hp => ?_⟩
  rw [h2]
  congr 1
  rw [Bool.eq_iff_iff, h3]
  unfold Path.getFileName
  cases hn : p.names.getLast? with
  | none => simp
  | some n => simp [hp n hn]

/-- **C79**: a name glob without special characters is `hasName`. -/
theorem C79_literal {t : JStr} (h : Verbatim t) : ∃ mt : Matcher m, hasNameMatchingGlob (getPathMatcher odd) t = .ok mt ∧ ∀ p, mt p = hasName t p := by
  obtain ⟨mt, h1, h2⟩ := name_test (m := m) odd (ps := [.part (.text (bare t))]) (g := t) (by simp [writeGlob, Piece.write, bare_write]) (bare_ok h) (verbatim_ne_star h) (fun n => n == t)
  refine ⟨mt, h1, fun p => h2 p (fun n _ => ?_)⟩
  rw [means_text, bare_fst, beq_iff_eq]

/-- **C79**: with a backslash before every character any text is taken literally. -/
theorem C79_escaped {t : JStr} (h : t ≠ []) :
    ∃ mt : Matcher m, hasNameMatchingGlob (getPathMatcher odd) (t.flatMap (fun c => [92, c])) = .ok mt ∧ ∀ p, mt p = hasName t p := by
  obtain ⟨mt, h1, h2⟩ := name_test (m := m) odd (ps := [.part (.text (t.map (fun c => (c, true))))]) (g := t.flatMap (fun c => [92, c]))
    (by simp [writeGlob, Piece.write, Part.write, List.flatMap_map]) ⟨by simpa using h, fun x hx hf => by
      obtain ⟨c, _, rfl⟩ := List.mem_map.1 hx
      cases hf⟩ (by
      cases t with
      | nil => exact absurd rfl h
      | cons c t => intro e; exact absurd (List.cons.inj e).1 (by decide)) (fun n => n == t)
  refine ⟨mt, h1, fun p => h2 p (fun n _ => ?_)⟩
  rw [means_text, beq_iff_eq, List.map_map]
  simp [Function.comp_def]

/-- The file name does not contain a slash. -/
def SlashFree (p : Path) : Prop := ∀ n, p.names.getLast? = some n → SLASH ∉ n

theorem SlashFree.last {p : Path} (h : SlashFree p) {n : JStr} (hn : p.names.getLast? = some n) : SLASH ∉ n := h n hn

/-- **C79**: `*` and a text: `hasNameEndingWith`. -/
theorem C79_suffix {t : JStr} (h : Verbatim t) (hw : WholeStart t) :
    ∃ mt : Matcher m, hasNameMatchingGlob (getPathMatcher odd) (j!"*" ++ t) = .ok mt ∧ ∀ p, SlashFree p → mt p = hasNameEndingWith t p := by
  obtain ⟨mt, h1, h2⟩ := name_test (m := m) odd (ps := [.part .star, .part (.text (bare t))]) (g := j!"*" ++ t) (by simp [writeGlob, Piece.write, bare_flat, Part.write])
    ⟨trivial, trivial, bare_ok h⟩ (by simpa using h.1) (fun n => endsWith n t)
  refine ⟨mt, h1, fun p hp => h2 p (fun n hn => ?_)⟩
  rw [means_suffix (by rw [bare_fst]; exact hw) (hp.last hn), bare_fst, endsWith, List.isSuffixOf_iff_suffix]

/-- **C79**: `*.ext` is `hasExtension("ext")`. -/
theorem C79_extension {ext : JStr} (h : ∀ c ∈ ext, Glob.plain false c) :
    ∃ mt : Matcher m, hasNameMatchingGlob (getPathMatcher odd) (j!"*." ++ ext) = .ok mt ∧ ∀ p, SlashFree p → mt p = hasExtension ext p :=
  C79_suffix odd (t := DOT :: ext) ⟨by simp, fun c hc => by
    rcases List.mem_cons.1 hc with rfl | hc
    · exact ⟨by decide, by simp⟩
    · exact h c hc⟩ (fun c hc => by cases hc; decide)

/-- **C79**: a text and `*`: `hasNameStartingWith`. -/
theorem C79_prefix {t : JStr} (h : Verbatim t) (hw : WholeEnd t) :
    ∃ mt : Matcher m, hasNameMatchingGlob (getPathMatcher odd) (t ++ j!"*") = .ok mt ∧ ∀ p, SlashFree p → mt p = hasNameStartingWith t p := by
  obtain ⟨mt, h1, h2⟩ := name_test (m := m) odd (ps := [.part (.text (bare t)), .part .star]) (g := t ++ j!"*") (by simp [writeGlob, Piece.write, bare_flat, Part.write])
    ⟨bare_ok h, trivial, trivial⟩ (by simpa using h.1) (fun n => startsWith n t)
  refine ⟨mt, h1, fun p hp => h2 p (fun n hn => ?_)⟩
  rw [means_prefix (by rw [bare_fst]; exact hw) (hp.last hn), bare_fst, startsWith, List.isPrefixOf_iff_prefix]

/-- **C79**: `*text*`: the names that contain the text. -/
theorem C79_contains {t : JStr} (h : Verbatim t) (h1 : WholeStart t) (h2 : WholeEnd t) :
    ∃ (mt : Matcher m) (b : Path → Bool), hasNameMatchingGlob (getPathMatcher odd) (j!"*" ++ t ++ j!"*") = .ok mt ∧ (∀ p, mt p = pure (b p)) ∧
      ∀ p, SlashFree p → (b p = true ↔ ∃ n, p.names.getLast? = some n ∧ t <:+: n) := by
  obtain ⟨mt, b, e1, e2, e3⟩ := C78_name (m := m) odd (ps := [.part .star, .part (.text (bare t)), .part .star]) ⟨trivial, trivial, bare_ok h, trivial, trivial⟩
    (by simp [writeGlob, Piece.write, Part.write])
  refine ⟨mt, b, ?_, e2, fun p hp => ?_⟩
  · rw [← e1]; congr 1; simp [writeGlob, Piece.write, bare_flat, Part.write]
  · rw [e3]
    constructor
    · rintro ⟨n, hn, hm⟩
      rw [means_infix (bare_ok h).1 (by rwa [bare_fst]) (by rwa [bare_fst]) (hp.last hn), bare_fst] at hm
      exact ⟨n, hn, hm⟩
    · rintro ⟨n, hn, hm⟩
      refine ⟨n, hn, ?_⟩
      rwa [means_infix (bare_ok h).1 (by rwa [bare_fst]) (by rwa [bare_fst]) (hp.last hn), bare_fst]

/-- No name contains a character that ends a line. -/
def OneLine (ns : List JStr) : Prop := ∀ n ∈ ns, ∀ c ∈ n, c.toNat ∉ lineEnds

theorem oneLine_join {ns : List JStr} : OneLine ns ↔ ∀ c ∈ joinSlash ns, c.toNat ∉ lineEnds := by
  constructor
  · intro h c hc
    by_cases e : c = SLASH
    · rw [e]; decide
    · obtain ⟨n, hn, hc⟩ := (mem_joinSlash e).1 hc
      exact h n hn c hc
  · intro h n hn c hc
    by_cases e : c = SLASH
    · rw [e]; decide
    · exact h c ((mem_joinSlash e).2 ⟨n, hn, hc⟩)

section
variable {cwd ref : Path} (hw : cwd.abs = true) (hr : ref.Valid)
include hw hr

/-- **C79**: as a relative path, `**` accepts what lies in the reference iff no name on the way has a line break: not "any path". -/
theorem C79_double_star : ∃ (mt : Matcher m) (b : Path → Bool), hasRelativePathMatchingGlob (getPathMatcher odd) cwd ref j!"**" = .ok mt ∧ (∀ p, mt p = pure (b p)) ∧
    ∀ (p : Path) (rest : List JStr), p.Valid → (target cwd p).names = (target cwd ref).names ++ rest → (b p = true ↔ OneLine rest) := by
  obtain ⟨mt, b, h1, h2, _, h3⟩ := C78_relative (m := m) odd (ps := [.part .starStar]) trivial (by decide) hw hr
  exact ⟨mt, b, h1, h2, fun p rest hv hrest => by rw [h3 p rest hv hrest, means_starStar, oneLine_join]⟩

/-- **C79**: `dir/**` accepts what lies strictly below the directory: not the directory itself, and none of its parents. -/
theorem C79_below {ds : List JStr} (hne : ds ≠ []) (hd : ∀ n ∈ ds, Verbatim n ∧ SLASH ∉ n) :
    ∃ (mt : Matcher m) (b : Path → Bool), hasRelativePathMatchingGlob (getPathMatcher odd) cwd ref (joinSlash ds ++ j!"/**") = .ok mt ∧ (∀ p, mt p = pure (b p)) ∧
      ∀ (p : Path) (rest : List JStr), p.Valid → (target cwd p).names = (target cwd ref).names ++ rest → (∀ n ∈ rest, SLASH ∉ n) →
        (b p = true ↔ ∃ more, more ≠ [] ∧ rest = ds ++ more ∧ OneLine more) := by
  have hv : Verbatim (joinSlash ds ++ j!"/") := ⟨by simp, fun c hc => by
    by_cases e : c = SLASH
    · rw [e]; exact ⟨by decide, by simp⟩
    · rcases List.mem_append.1 hc with hc | hc
      · obtain ⟨n, hn, hc⟩ := (mem_joinSlash e).1 hc
        exact (hd n hn).1.2 c hc
      · exact absurd (List.mem_singleton.1 hc) e⟩
  obtain ⟨mt, b, h1, h2, _, h3⟩ := C78_relative (m := m) odd (ps := [.part (.text (bare (joinSlash ds ++ j!"/"))), .part .starStar]) ⟨bare_ok hv, trivial, trivial⟩
    (by
      simp only [writeGlob, Piece.write, Part.write, List.flatMap_cons, List.flatMap_nil, List.append_nil]
      intro e
      have := congrArg List.length e
      simp at this) hw hr
  refine ⟨mt, b, ?_, h2, fun p rest hp hrest hs => ?_⟩
  · rw [← h1]; congr 1; simp [writeGlob, Piece.write, bare_flat, Part.write]
  · rw [h3 p rest hp hrest]
    unfold GlobMeans
    rw [seq_cons_iff]
    simp only [seq_one_iff]
    constructor
    · rintro ⟨a, c, e, ha, hc⟩
      have ha : a = codePoints ((bare (joinSlash ds ++ j!"/")).map Prod.fst) := ha
      rw [bare_fst] at ha
      have es := codePoints_split e
      rw [ha, units_codePoints] at es
      have es : joinSlash rest = joinSlash ds ++ SLASH :: c.flatMap units := by rw [es]; simp [SLASH]
      have hre : rest ≠ [] := by rintro rfl; simp [joinSlash] at es
      have hcut := joinSlash_cut hre hs es
      rw [split_joinSlash hne (fun n hn => (hd n hn).2)] at hcut
      refine ⟨_, splitRaw_ne_nil _ _, hcut, ?_⟩
      rw [oneLine_join, joinSlash_split, ← lineEnds_codePoints, codePoints_units_right e]
      exact hc
    · rintro ⟨more, hm, rfl, hl⟩
      refine ⟨codePoints (joinSlash ds ++ j!"/"), codePoints (joinSlash more), ?_, ?_, ?_⟩
      · rw [← codePoints_append, joinSlash_append hne hm]
        · simp [SLASH]
        · exact joins_end (by intro c hc; simp at hc; subst hc; decide)
      · show _ = codePoints ((bare _).map Prod.fst)
        rw [bare_fst]
      · exact lineEnds_codePoints.2 (oneLine_join.1 hl)

end

/-- **C79**: as an absolute path, `**/name` accepts the paths with this name, whatever directory they are in (with a line break in none of the directories). -/
theorem C79_anywhere {cwd : Path} (hw : cwd.abs = true) (hc : ∀ n ∈ cwd.names, n ≠ j!"." ∧ n ≠ j!"..") {name : JStr} (hn : Verbatim name) (hs : SLASH ∉ name) :
    ∃ (mt : Matcher m) (b : Path → Bool), hasAbsolutePathMatchingGlob (getPathMatcher odd) cwd (j!"**/" ++ name) = .ok mt ∧ (∀ p, mt p = pure (b p)) ∧
      ∀ p : Path, p.Valid → ¬ (p.abs = false ∧ p.normalize.names.head? = some j!"..") → (∀ n ∈ (target cwd p).names, SLASH ∉ n) →
        (b p = true ↔ ∃ dir, (target cwd p).names = dir ++ [name] ∧ OneLine dir) := by
  have hv : Verbatim (SLASH :: name) := ⟨by simp, fun c hc => by
    rcases List.mem_cons.1 hc with rfl | hc
    · exact ⟨by decide, by simp⟩
    · exact hn.2 c hc⟩
  obtain ⟨mt, b, h1, h2, h3⟩ := C78_absolute (m := m) odd (ps := [.part .starStar, .part (.text (bare (SLASH :: name)))]) ⟨trivial, trivial, bare_ok hv⟩
    (by simp [writeGlob, Piece.write, bare_flat, Part.write]) hw hc
  refine ⟨mt, b, ?_, h2, fun p hp hd hsl => ?_⟩
  · rw [← h1]; congr 1; simp [writeGlob, Piece.write, bare_flat, Part.write, SLASH]
  · rw [h3 p hp hd]
    generalize (target cwd p).names = ns at hsl
    unfold GlobMeans
    rw [seq_cons_iff]
    simp only [seq_one_iff]
    constructor
    · rintro ⟨a, c, e, ha, hc⟩
      have hc : c = codePoints ((bare (SLASH :: name)).map Prod.fst) := hc
      rw [bare_fst] at hc
      have es := codePoints_split e
      rw [hc, units_codePoints] at es
      have hne : ns ≠ [] := by
        rintro rfl
        cases hx : a.flatMap units with
        | nil => rw [hx] at es; exact hn.1 (List.cons.inj es).2.symm
        | cons x l => rw [hx] at es; simp [joinSlash] at es
      have e2 : joinSlash ([] :: ns) = a.flatMap units ++ SLASH :: name := by rw [joinSlash_cons hne]; exact es
      have hcut := joinSlash_cut (by simp) (by simpa using hsl) e2
      rw [splitRaw_self hs] at hcut
      cases hx : splitRaw SLASH (a.flatMap units) with
      | nil => exact absurd hx (splitRaw_ne_nil _ _)
      | cons y dir =>
        rw [hx, List.cons_append] at hcut
        obtain ⟨hy, hcut'⟩ := List.cons_eq_cons.1 hcut
        subst hy
        refine ⟨dir, hcut', ?_⟩
        have : OneLine ([] :: dir) := by
          rw [oneLine_join, ← hx, joinSlash_split, ← lineEnds_codePoints, codePoints_units_left e]
          exact ha
        exact fun n hn => this n (by simp [hn])
    · rintro ⟨dir, rfl, hl⟩
      have hl : OneLine ([] :: dir) := fun n hn => by
        rcases List.mem_cons.1 hn with rfl | hn
        · intro c hc; cases hc
        · exact hl n hn
      refine ⟨codePoints (joinSlash ([] :: dir)), codePoints (SLASH :: name), ?_, lineEnds_codePoints.2 (oneLine_join.1 hl), ?_⟩
      · rw [← codePoints_append (joins_start (fun c hc => by cases hc; decide))]
        congr 1
        have : joinSlash ([] :: (dir ++ [name])) = joinSlash ([] :: dir) ++ SLASH :: joinSlash [name] := joinSlash_append (a := [] :: dir) (by simp) (by simp)
        rw [joinSlash_cons (by simp)] at this
        exact this
      · show _ = codePoints ((bare _).map Prod.fst)
        rw [bare_fst]

theorem means_group {alts : List (List Part)} {s : JStr} : GlobMeans [.group alts] s ↔ ∃ a ∈ alts, GlobMeans (a.map .part) s := by
  unfold GlobMeans
  rw [seq_one_iff]
  simp only [seq_map]
  rfl

theorem part_unGroup {p : Part} (h : p.Ok true) : p.Ok false := by
  cases p with
  | text cs => exact ⟨h.1, fun x hx hf => ⟨(h.2 x hx hf).1, by simp⟩⟩
  | _ => exact h

theorem parts_unGroup {a : List Part} (h : PartsOk true a) : GlobOk (a.map .part) := by
  induction a with
  | nil => trivial
  | cons p a ih =>
    cases a with
    | nil => exact part_unGroup h
    | cons q a => exact ⟨part_unGroup h.1, h.2.1, ih h.2.2⟩

/-- **C79**: a group is the choice between its alternatives: the matcher of `{a,b,...}` accepts a path iff one of the matchers of `a`, `b`, ... does. -/
theorem C79_group {alts : List (List Part)} (hne : alts ≠ []) (h : ∀ a ∈ alts, PartsOk true a) :
    ∃ (mt : Matcher m) (b : Path → Bool) (f : List Part → Path → Bool),
      hasNameMatchingGlob (getPathMatcher odd) (j!"{" ++ writeAlts alts ++ j!"}") = .ok mt ∧ (∀ p, mt p = pure (b p)) ∧
      (∀ a ∈ alts, ∃ mt' : Matcher m, hasNameMatchingGlob (getPathMatcher odd) (a.flatMap Part.write) = .ok mt' ∧ ∀ p, mt' p = pure (f a p)) ∧
      ∀ p, SlashFree p → p.names ≠ [] → b p = alts.any (fun a => f a p) := by
  obtain ⟨mt, b, h1, h2, h3⟩ := C78_name (m := m) odd (ps := [.group alts]) ⟨hne, h⟩ (by
    simp only [writeGlob, Piece.write, List.flatMap_cons]
    intro e
    exact absurd (List.cons.inj e).1 (by decide))
  have hf : ∀ a, ∃ f : Path → Bool, a ∈ alts →
      (∃ mt' : Matcher m, hasNameMatchingGlob (getPathMatcher odd) (a.flatMap Part.write) = .ok mt' ∧ ∀ p, mt' p = pure (f p)) ∧
      ∀ p, SlashFree p → p.names ≠ [] → (f p = true ↔ ∃ n, p.names.getLast? = some n ∧ GlobMeans (a.map .part) n) := by
    intro a
    by_cases ha : a ∈ alts
    · have ew : writeGlob (a.map .part) = a.flatMap Part.write := by simp [writeGlob, List.flatMap_map, Piece.write]
      by_cases hs : a.flatMap Part.write = j!"*"
      · refine ⟨fun _ => true, fun _ => ⟨⟨fun _ => pure true, ?_, fun p => rfl⟩, fun p hp hn => ?_⟩⟩
        · rw [hs]; rfl
        · simp only [true_iff]
          obtain ⟨n, hn⟩ : ∃ n, p.names.getLast? = some n := by
            cases hx : p.names.getLast? with
            | none => exact absurd (List.getLast?_eq_none_iff.1 hx) hn
            | some n => exact ⟨n, rfl⟩
          refine ⟨n, hn, ?_⟩
          obtain ⟨pred, hp1, hp2⟩ := getPathMatcher_means (odd := odd) (parts_unGroup (h a ha))
          obtain ⟨pred', hq1, hq2⟩ := getPathMatcher_means (odd := odd) (ps := [.part .star]) trivial
          rw [ew, hs] at hp1
          have : writeGlob [.part .star] = j!"*" := rfl
          rw [this, hp1] at hq1
          injection hq1 with hq1
          subst hq1
          have e := (hp2 ⟨false, [n]⟩).symm.trans (hq2 ⟨false, [n]⟩)
          exact e.2 (means_star.2 (hp.last hn))
      · obtain ⟨mt', f, g1, g2, g3⟩ := C78_name (m := m) odd (parts_unGroup (h a ha)) (by rw [ew]; exact hs)
        rw [ew] at g1
        exact ⟨f, fun _ => ⟨⟨mt', g1, g2⟩, fun p _ _ => g3 p⟩⟩
    · exact ⟨fun _ => false, fun h => absurd h ha⟩
  choose f hf using hf
  refine ⟨mt, b, f, ?_, h2, fun a ha => (hf a ha).1, fun p hp hn => ?_⟩
  · rw [← h1]; congr 1; simp [writeGlob, Piece.write]
  · rw [Bool.eq_iff_iff, h3, List.any_eq_true]
    simp only [means_group]
    constructor
    · rintro ⟨n, hl, a, ha, hm⟩; exact ⟨a, ha, ((hf a ha).2 p hp hn).2 ⟨n, hl, hm⟩⟩
    · rintro ⟨a, ha, hm⟩
      obtain ⟨n, hl, hm⟩ := ((hf a ha).2 p hp hn).1 hm
      exact ⟨n, hl, a, ha, hm⟩

end

/-! ### C80 -/

/-- A slash that every matched string must have: one outside of groups. -/
def NeedsSlash (ps : List Piece) : Prop := ∃ cs b, Piece.part (.text cs) ∈ ps ∧ (SLASH, b) ∈ cs

theorem needsSlash_means {ps : List Piece} (h : NeedsSlash ps) {s : JStr} (hm : GlobMeans ps s) : SLASH ∈ s := by
  obtain ⟨cs, b, hps, hcs⟩ := h
  unfold GlobMeans at hm
  have key : ∀ u, SeqMeans Piece.Means ps u → 47 ∈ u := by
    intro u hu
    clear hm
    induction hu with
    | nil => cases hps
    | @cons p qs x y h1 h2 ih =>
      rcases List.mem_cons.1 hps with rfl | hps
      · have h1 : x = codePoints (cs.map Prod.fst) := h1
        rw [List.mem_append, h1]
        exact .inl ((mem_codePoints (c := SLASH) (by unfold Whole; decide)).2 (List.mem_map.2 ⟨_, hcs, rfl⟩))
      · exact List.mem_append.2 (.inr (ih hps))
  by_contra hn
  exact slash_codePoints.2 hn (key _ hm)

theorem needsSlash_ne_star (odd : GlobCompiler) {ps : List Piece} (h : GlobOk ps) (hn : NeedsSlash ps) : writeGlob ps ≠ j!"*" := by
  intro e
  obtain ⟨pred, hp, hm⟩ := getPathMatcher_means (odd := odd) h
  obtain ⟨pred', hq, hm'⟩ := getPathMatcher_means (odd := odd) (ps := [.part .star]) trivial
  rw [e, show j!"*" = writeGlob [.part .star] from rfl, hq] at hp
  injection hp with hp
  subst hp
  have := (hm' ⟨false, [j!"a"]⟩).2 (means_star.2 (by decide))
  have := needsSlash_means hn ((hm _).1 this)
  exact absurd this (by decide)

/-- **C80**: a name glob with a slash outside of groups accepts nothing at all. -/
theorem C80_name_never {m : Type → Type} [Monad m] (odd : GlobCompiler) {ps : List Piece} (h : GlobOk ps) (hn : NeedsSlash ps) :
    ∃ mt : Matcher m, hasNameMatchingGlob (getPathMatcher odd) (writeGlob ps) = .ok mt ∧ ∀ p, SlashFree p → mt p = pure false := by
  have hs := needsSlash_ne_star odd h hn
  obtain ⟨mt, b, h1, h2, h3⟩ := C78_name (m := m) odd h hs
  refine ⟨mt, h1, fun p hp => ?_⟩
  rw [h2]
  congr 1
  rw [Bool.eq_false_iff]
  intro hb
  obtain ⟨n, hl, hm⟩ := (h3 p).1 hb
  exact hp.last hl (needsSlash_means hn hm)

/-- Every directory listed in the printed one is rejected: only the printed directory and files listed in it are displayed. -/
theorem flat_of_rejected {fs : PureFs} {cwd : Path} {o : Options (Except Exn)} (hw : cwd.abs = true) (hc : LawfulCmp o.pathComparator) {p : Path} {t : TreeEntry}
    (h : scanned fs cwd o p = .ok t)
    (hr : ∀ cs q, fs.listDir (target cwd p) = .opened cs false → q ∈ cs → fs.isDir q = true → o.dirMatcher q ≠ .ok true) {q : Path} (hq : q ∈ entryPaths t) :
    q = target cwd p ∨ (fs.isDir q = false ∧ ∃ cs, fs.listDir (target cwd p) = .opened cs false ∧ q ∈ cs) := by
  obtain ⟨n, x, hb, hx⟩ := mem_entryPaths.1 hq
  have hv := (scanned_sound hw hc h).visited hb hx
  generalize 0 + n = k at hv
  clear hb hx hq
  induction hv with
  | top => exact .inl rfl
  | @child k d n' cs ks srt q hv hd hk hl hlist hkept hperm hsort hm ih =>
    have hm := hperm.mem_iff.1 ((limitTo_sublist _ _).subset hm)
    rw [kept_filter hkept] at hm
    obtain ⟨hmem, hpass⟩ := List.mem_filter.1 hm
    rcases ih with rfl | ⟨hnd, _⟩
    · right
      refine ⟨?_, cs, hlist, hmem⟩
      cases hdir : fs.isDir q with
      | false => rfl
      | true =>
        exfalso
        refine hr cs q hlist hmem hdir ?_
        unfold passes at hpass
        rw [if_pos hdir] at hpass
        revert hpass
        generalize o.dirMatcher q = r
        cases r with
        | error e => intro h; cases h
        | ok b => intro h; rw [show b = true from h]
    · have hd : fs.isDir d = true := hd
      rw [hnd] at hd; cases hd

/-- A file system whose directories contain names: not empty, without slash, neither `.` nor `..`. -/
def ListsNames (fs : PureFs) : Prop :=
  ∀ d cs bad, fs.listDir d = .opened cs bad → ∀ c ∈ cs, ∃ n, c = d.child n ∧ n ≠ [] ∧ n ≠ j!"." ∧ n ≠ j!".." ∧ SLASH ∉ n

theorem target_abs {cwd p : Path} (hw : cwd.abs = true) : (target cwd p).abs = true := by
  unfold target
  rw [Path.normalize_abs (Path.toAbsolutePath_abs hw)]

theorem target_clean {cwd p : Path} (hw : cwd.abs = true) : ∀ n ∈ (target cwd p).names, Path.IsName n := by
  unfold target
  rw [Path.normalize_abs (Path.toAbsolutePath_abs hw)]
  exact Path.normNames_abs_names _

theorem target_names_ne {cwd p : Path} (hw : cwd.abs = true) (hcv : ∀ n ∈ cwd.names, n ≠ []) (hp : p.Valid) : ∀ n ∈ (target cwd p).names, n ≠ [] := by
  intro n hn
  unfold target at hn
  rw [Path.normalize_abs (Path.toAbsolutePath_abs hw)] at hn
  have hn := Path.normNames_subset _ _ n hn
  unfold Path.toAbsolutePath Path.resolve at hn
  rcases hp with rfl | ⟨hne, _⟩
  · exact hcv n (by simpa [Path.empty] using hn)
  · split at hn
    · exact hne n hn
    · split at hn
      · exact hcv n hn
      · split at hn
        · exact hne n hn
        · rcases List.mem_append.1 hn with hn | hn
          · exact hcv n hn
          · exact hne n hn

/-- An entry of the printed directory. -/
theorem listed_names {fs : PureFs} (hl : ListsNames fs) {cwd p : Path} (hw : cwd.abs = true) {cs : List Path} {q : Path} (h : fs.listDir (target cwd p) = .opened cs false) (hq : q ∈ cs) :
    ∃ n, q = ⟨true, (target cwd p).names ++ [n]⟩ ∧ n ≠ [] ∧ n ≠ j!"." ∧ n ≠ j!".." ∧ SLASH ∉ n ∧ target cwd q = q := by
  obtain ⟨n, e, h1, h2, h3, h4⟩ := hl _ _ _ h q hq
  have hne : target cwd p ≠ Path.empty := by
    intro e
    have := target_abs (p := p) hw
    rw [e] at this
    cases this
  unfold Path.child at e
  rw [if_neg hne, target_abs hw] at e
  refine ⟨n, e, h1, h2, h3, h4, ?_⟩
  rw [e]
  unfold target
  rw [Path.toAbsolutePath_self rfl]
  refine Path.normalize_of_names rfl (fun x hx => ?_)
  rcases List.mem_append.1 hx with hx | hx
  · exact target_clean hw x hx
  · rw [List.mem_singleton.1 hx]; exact ⟨h2, h3⟩

/-- **C80**: a filter for directories that is a name glob, or a glob relative to the printed path, with a slash outside of groups hides every subdirectory: only the printed
directory and the files directly in it can appear, whatever the pattern is meant to select. -/
theorem C80_flat_listing (odd : GlobCompiler) {fs : PureFs} (hl : ListsNames fs) {cwd : Path} (hw : cwd.abs = true) (hcv : ∀ n ∈ cwd.names, n ≠ []) {o : Options (Except Exn)}
    (hc : LawfulCmp o.pathComparator) {p : Path} (hp : p.Valid) {ps : List Piece} (h : GlobOk ps) (hn : NeedsSlash ps) {mt : Matcher (Except Exn)}
    (hmt : hasNameMatchingGlob (getPathMatcher odd) (writeGlob ps) = .ok mt ∨ hasRelativePathMatchingGlob (getPathMatcher odd) cwd p (writeGlob ps) = .ok mt)
    {s : JStr} (hs : prettyPrint fs.lift cwd (o.filterDirectories mt) p = .ok s) :
    ∃ t T, scanned fs cwd (o.filterDirectories mt) p = .ok t ∧ Prints (o.filterDirectories mt) t T s ∧
      ∀ q ∈ entryPaths t, q = target cwd p ∨ (fs.isDir q = false ∧ ∃ cs, fs.listDir (target cwd p) = .opened cs false ∧ q ∈ cs) := by
  obtain ⟨t, T, ht, hT⟩ := printed hs
  refine ⟨t, T, ht, hT, fun q hq => flat_of_rejected (o := o.filterDirectories mt) hw hc ht (fun cs q hlist hq hd => ?_) hq⟩
  obtain ⟨n, e, h1, h2, h3, h4, h5⟩ := listed_names hl hw hlist hq
  have hstar : writeGlob ps ≠ j!"*" := needsSlash_ne_star odd h hn
  suffices mt q = .ok false by
    show mt q ≠ .ok true
    rw [this]
    simp
  rcases hmt with hmt | hmt
  · obtain ⟨mt', e1, e2⟩ := C80_name_never (m := Except Exn) odd h hn
    rw [hmt] at e1
    injection e1 with e1
    rw [e1]
    refine e2 q (fun n' hn' => ?_)
    rw [e] at hn'
    simp at hn'
    rw [← hn']; exact h4
  · obtain ⟨mt', b, e1, e2, _, e3⟩ := C78_relative (m := Except Exn) odd h hstar hw hp
    rw [hmt] at e1
    injection e1 with e1
    rw [e1, e2]
    have hqv : q.Valid := by
      refine .inr ⟨fun x hx => ?_, fun ha => by rw [e] at ha; cases ha⟩
      rw [e] at hx
      rcases List.mem_append.1 hx with hx | hx
      · exact target_names_ne hw hcv hp x hx
      · rw [List.mem_singleton.1 hx]; exact h1
    have hb := e3 q [n] hqv (by rw [h5, e])
    have : b q = false := by
      rw [Bool.eq_false_iff]
      intro hb'
      exact h4 (needsSlash_means hn (hb.1 hb'))
    rw [this]
    rfl

/-- **C80**, command line: the same for the filter of an options file, like `type: name, glob: "src/main/**"` in README.md:474-477 and `type: path, glob: "src/main/java/**"`. -/
theorem C80_options_file (odd : GlobCompiler) {fs : PureFs} (hl : ListsNames fs) {cwd : Path} (hw : cwd.abs = true) {p : Path} {ps : List Piece} (h : GlobOk ps) (hn : NeedsSlash ps)
    (cs : Casing) {x : Cli.ExternalOptions} (hv : x.valid = true) (he : x.emojis = some true → KeepsLowerAscii cs.lower)
    (hx : x.filter.bind (·.dir) = some (.nameGlob (some (writeGlob ps))) ∨ x.filter.bind (·.dir) = some (.pathGlob (some (writeGlob ps))))
    {o : Options (Except Exn)} (ho : Cli.mapToOptions cs (getPathMatcher odd) fs.lift cwd (target cwd p) x = .ok o) {s : JStr} (hs : prettyPrint fs.lift cwd o p = .ok s) :
    ∃ t T, scanned fs cwd o p = .ok t ∧ Prints o t T s ∧
      ∀ q ∈ entryPaths t, q = target cwd p ∨ (fs.isDir q = false ∧ ∃ cs, fs.listDir (target cwd p) = .opened cs false ∧ q ∈ cs) := by
  obtain ⟨t, T, ht, hT⟩ := printed hs
  have hwf := (C51_maps_iff (m := Except Exn) (glob := getPathMatcher odd) (cwd := cwd) (target := target cwd p) cs fs.lift x hv he).1 ⟨o, ho⟩
  let G : JStr → Path → Bool := fun g => match getPathMatcher odd g with | .ok f => f | .error _ => fun _ => false
  have hG : ∀ g ∈ allGlobs x, g ≠ j!"*" → getPathMatcher odd g = .ok (G g) := by
    intro g hg hs
    obtain ⟨f, hf⟩ := hwf g hg hs
    show _ = Except.ok (match getPathMatcher odd g with | .ok f => f | .error _ => fun _ => false)
    rw [hf]
  obtain ⟨o', ho', _, _, _, _, _, hcmp, _, hdir⟩ := C50_meaning (m := Except Exn) (cwd := cwd) (target := target cwd p) cs fs.lift x hv hG he
  rw [ho] at ho'
  injection ho' with ho'
  subst ho'
  refine ⟨t, T, ht, hT, fun q hq => flat_of_rejected hw (by rw [hcmp]; exact lawful_ALPHABETICAL) ht (fun cs' q hlist hq hd => ?_) hq⟩
  obtain ⟨n, e, h1, h2, h3, h4, h5⟩ := listed_names hl hw hlist hq
  have hin : InTarget (target cwd p) q [n] := ⟨⟨target_abs hw, by rw [e]⟩, by rw [e], fun y hy => by
    rw [e] at hy
    rcases List.mem_append.1 hy with hy | hy
    · exact target_clean hw y hy
    · rw [List.mem_singleton.1 hy]; exact ⟨h2, h3⟩⟩
  rw [(hdir q [n] hin).2.1]
  have hstar : writeGlob ps ≠ j!"*" := needsSlash_ne_star odd h hn
  obtain ⟨pred, hp1, hp2⟩ := getPathMatcher_means (odd := odd) h
  have hGp : G (writeGlob ps) = pred := by
    show (match getPathMatcher odd (writeGlob ps) with | .ok f => f | .error _ => fun _ => false) = _
    rw [hp1]
  have hone : pred ⟨false, [n]⟩ = false := by
    rw [Bool.eq_false_iff]
    intro hb
    exact h4 (needsSlash_means hn ((hp2 _).1 hb))
  have hd1 : docHolds G (target cwd p) q (.nameGlob (some (writeGlob ps))) = false := by
    simp only [docHolds, nameGlobHolds, hGp, hstar, e, decide_false, Bool.false_or]
    simpa using hone
  have hd2 : docHolds G (target cwd p) q (.pathGlob (some (writeGlob ps))) = false := by
    simp only [docHolds, pathGlobHolds, hGp, hstar, e, decide_false, Bool.false_or, List.drop_left, relPath]
    simpa using hone
  rcases hx with hx | hx
  · rw [hx]
    show (Except.ok (docHolds G (target cwd p) q (.nameGlob (some (writeGlob ps)))) : Except Exn Bool) ≠ .ok true
    rw [hd1]
    exact fun h => nomatch h
  · rw [hx]
    show (Except.ok (docHolds G (target cwd p) q (.pathGlob (some (writeGlob ps)))) : Except Exn Bool) ≠ .ok true
    rw [hd2]
    exact fun h => nomatch h

/-! ### C81 -/

/-- **C81**: a glob (apart from odd bracket expressions, see `Tame`) is accepted iff it is written as the documentation says, where a hyphen before `]` stands for itself; everything else is
rejected when the matcher is created. -/
theorem C81_accepted_iff (odd : GlobCompiler) {g : JStr} (h : TameBrackets g) :
    ((∃ pred, getPathMatcher odd g = .ok pred) ↔ ∃ ps, GlobOk ps ∧ writeGlob ps = g) ∧
    ((∀ ps, GlobOk ps → writeGlob ps ≠ g) → getPathMatcher odd g = .error .illegalArgument) := by
  rcases documented_or_rejected h with hr | ⟨ps, h1, rfl⟩
  · have e : getPathMatcher odd g = .error .illegalArgument := by
      unfold getPathMatcher
      rw [show outside false g = _ from hr]
      rfl
    refine ⟨⟨fun ⟨pred, hp⟩ => (by rw [e] at hp; cases hp), fun ⟨ps, h1, h2⟩ => ?_⟩, fun _ => e⟩
    obtain ⟨pred, hp, _⟩ := getPathMatcher_means (odd := odd) h1
    rw [h2] at hp
    exact ⟨pred, hp⟩
  · obtain ⟨pred, hp, _⟩ := getPathMatcher_means (odd := odd) h1
    exact ⟨⟨fun _ => ⟨ps, h1, rfl⟩, fun _ => ⟨pred, hp⟩⟩, fun hn => absurd rfl (hn ps h1)⟩

theorem rejected_before (odd : GlobCompiler) {ps : List Piece} (h : GlobOk ps) {g : JStr} (hg : g.head? ≠ some 42) (hr : Rejected (outside false g)) :
    getPathMatcher odd (writeGlob ps ++ g) = .error .illegalArgument := by
  unfold getPathMatcher
  rw [outside_before h hg, show outside false g = _ from hr]
  rfl

/-- **C81**: after any correct beginning, each of the following is rejected when the matcher is created: a backslash at the end; a bracket expression that is not closed; a slash in a
bracket expression; a group that is not closed; a group in a group. -/
theorem C81_rejected (odd : GlobCompiler) {ps : List Piece} (h : GlobOk ps) {alts : List (List Part)} (ha : ∀ a ∈ alts, PartsOk true a) :
    getPathMatcher odd (writeGlob ps ++ j!"\\") = .error .illegalArgument ∧
    (∀ s, 93 ∉ s → getPathMatcher odd (writeGlob ps ++ j!"[" ++ s) = .error .illegalArgument) ∧
    (∀ s t, (∀ c ∈ s, c ∉ j!"]-") → getPathMatcher odd (writeGlob ps ++ j!"[" ++ s ++ j!"/" ++ t) = .error .illegalArgument) ∧
    getPathMatcher odd (writeGlob ps ++ j!"{" ++ writeAlts alts) = .error .illegalArgument ∧
    ∀ t, getPathMatcher odd (writeGlob ps ++ j!"{" ++ writeAlts alts ++ j!"{" ++ t) = .error .illegalArgument := by
  refine ⟨rejected_before odd h (by decide) (by rw [outside.eq_def]; rfl), fun s hs => ?_, fun s t hs => ?_, ?_, fun t => ?_⟩
  · rw [List.append_assoc]
    exact rejected_before odd h (fun e => absurd (Option.some.inj e) (by decide)) (outside_unclosed hs)
  · have e : writeGlob ps ++ j!"[" ++ s ++ j!"/" ++ t = writeGlob ps ++ 91 :: (s ++ 47 :: t) := by simp
    have hs' : ∀ c ∈ s, c ≠ 93 ∧ c ≠ 45 := fun c hc => by simpa using hs c hc
    rw [e]
    refine rejected_before odd h (fun e => absurd (Option.some.inj e) (by decide)) ?_
    cases s with
    | nil =>
      rw [List.nil_append, outside_lbrack, if_neg (by decide), if_neg (by decide), if_neg (by decide)]
      exact inside_slash (s := []) 0 (Nat.le_refl _) (by simp)
    | cons c s =>
      have hs2 : ∀ x ∈ s, x ≠ 93 ∧ x ≠ 45 := fun x hx => hs' x (by simp [hx])
      rw [List.cons_append, outside_lbrack]
      split
      · exact inside_slash _ (Nat.le_refl _) hs2
      · split
        · cases s with
          | nil => exact inside_slash (s := []) 0 (Nat.le_refl _) (by simp)
          | cons d s =>
            rw [List.cons_append]
            dsimp only
            rw [if_neg (show d ≠ HYPHEN from (hs2 d (by simp)).2)]
            exact inside_slash (s := d :: s) _ (Nat.le_refl _) hs2
        · rw [if_neg (show c ≠ HYPHEN from (hs' c (by simp)).2)]
          exact inside_slash (s := c :: s) _ (Nat.le_refl _) hs'
  · rw [List.append_assoc]
    refine rejected_before odd h (fun e => absurd (Option.some.inj e) (by decide)) ?_
    show Rejected (outside false (123 :: writeAlts alts))
    rw [outside_open]
    refine rejected_bind ?_
    have := outside_alts_before ha (g := []) (by simp)
    rw [List.append_nil] at this
    rw [this]
    exact rejected_bind (by rw [outside.eq_def]; rfl)
  · have e : writeGlob ps ++ j!"{" ++ writeAlts alts ++ j!"{" ++ t = writeGlob ps ++ 123 :: (writeAlts alts ++ 123 :: t) := by simp
    rw [e]
    refine rejected_before odd h (fun e => absurd (Option.some.inj e) (by decide)) ?_
    rw [outside_open]
    refine rejected_bind ?_
    rw [outside_alts_before ha (by simp)]
    exact rejected_bind (by rw [outside.eq_def]; rfl)


/-- **C81**: so is a range in a bracket expression whose end is before its start (`[z-a]`). -/
theorem C81_reversed_range (odd : GlobCompiler) {ps : List Piece} (h : GlobOk ps) {s t : JStr} {a b : JChar} (hs : ∀ c ∈ s, c ∉ j!"]-") (ha : a ∉ j!"]-") (hb : b ∉ j!"]") (hab : b < a)
    (hf : s = [] → a ∉ j!"!") : getPathMatcher odd (writeGlob ps ++ j!"[" ++ s ++ [a] ++ j!"-" ++ [b] ++ t) = .error .illegalArgument := by
  have e : writeGlob ps ++ j!"[" ++ s ++ [a] ++ j!"-" ++ [b] ++ t = writeGlob ps ++ 91 :: (s ++ a :: 45 :: b :: t) := by simp
  have hs' : ∀ c ∈ s, c ≠ 93 ∧ c ≠ 45 := fun c hc => by simpa using hs c hc
  have ha' : a ≠ 93 ∧ a ≠ 45 := by simpa using ha
  have hb' : b ≠ 93 := by simpa using hb
  rw [e]
  refine rejected_before odd h (fun e => absurd (Option.some.inj e) (by decide)) ?_
  cases s with
  | nil =>
    have hf : a ≠ 33 := by simpa using hf rfl
    rw [List.nil_append, outside_lbrack]
    split
    · rw [inside.eq_def]; rfl
    · rw [if_neg (show a ≠ HYPHEN from ha'.2)]
      exact inside_reversed (s := []) ha' hb' hab 0 (Nat.le_refl _) (by simp)
  | cons c s =>
    have hs2 : ∀ x ∈ s, x ≠ 93 ∧ x ≠ 45 := fun x hx => hs' x (by simp [hx])
    rw [List.cons_append, outside_lbrack]
    split
    · exact inside_reversed ha' hb' hab _ (Nat.le_refl _) hs2
    · split
      · cases s with
        | nil =>
          rw [List.nil_append]
          dsimp only
          rw [if_neg (show a ≠ HYPHEN from ha'.2)]
          exact inside_reversed (s := []) ha' hb' hab 0 (Nat.le_refl _) (by simp)
        | cons d s =>
          rw [List.cons_append]
          dsimp only
          rw [if_neg (show d ≠ HYPHEN from (hs2 d (by simp)).2)]
          exact inside_reversed (s := d :: s) ha' hb' hab _ (Nat.le_refl _) hs2
      · rw [if_neg (show c ≠ HYPHEN from (hs' c (by simp)).2)]
        exact inside_reversed (s := c :: s) ha' hb' hab _ (Nat.le_refl _) hs'

/-! ### Examples -/

/-- What a glob says about a text; `none` if it is rejected. -/
def globSays (g text : JStr) : Option Bool := (getPathMatcher (fun _ => .error .illegalArgument) g).toOption.map (fun f => f ⟨false, [text]⟩)

/-- `[!a-c_-]x?{b,c*}` -/
def Demo.pieces : List Piece :=
  [.part (.bracket true false [.range 97 99, .trailing 95]), .part (.text [(120, false)]), .part .question, .group [[.text [(98, false)]], [.text [(99, false)], .star]]]
/-- `src/main/**` -/
def Demo.srcMain : List Piece := [.part (.text (bare j!"src/main/")), .part .starStar]

theorem Demo.pieces_ok : GlobOk Demo.pieces := by
  simp [Demo.pieces, GlobOk, Piece.Ok, Part.Ok, Item.Ok, inBracket, Scalar, Wide, PieceFollows, Follows, PartsOk, Glob.plain, OnlyLast]
theorem Demo.srcMain_ok : GlobOk Demo.srcMain := ⟨bare_ok ⟨by decide, by simp [Glob.plain]⟩, trivial, trivial⟩
theorem Demo.srcMain_needs : NeedsSlash Demo.srcMain := by
  simp [NeedsSlash, Demo.srcMain, bare, SLASH]

example := C78_name (m := Except Exn) (fun _ => .error .illegalArgument) Demo.pieces_ok (by decide)
example := C78_absolute (m := Except Exn) (fun _ => .error .illegalArgument) Demo.srcMain_ok (by decide) (cwd := Demo.r) rfl (by decide)
example := C78_relative (m := Except Exn) (fun _ => .error .illegalArgument) Demo.srcMain_ok (by decide) (cwd := Demo.r) (ref := Demo.a) rfl (.inr (by decide))
example : writeGlob Demo.pieces = j!"[!a-c_-]x?{b,c*}" ∧ globSays j!"[!a-c_-]x?{b,c*}" j!"dxyczz" = some true ∧ globSays j!"[!a-c_-]x?{b,c*}" j!"axyczz" = some false ∧
    globSays j!"[!a-c_-]x?{b,c*}" j!"-xyczz" = some false := by decide
example := C79_literal (m := Except Exn) (fun _ => .error .illegalArgument) (t := j!"FileTreePrettyPrinter.java") ⟨by decide, by simp [Glob.plain]⟩
example := C79_escaped (m := Except Exn) (fun _ => .error .illegalArgument) (t := j!"[x]*") (by decide)
example := C79_suffix (m := Except Exn) (fun _ => .error .illegalArgument) (t := j!"Test.java") ⟨by decide, by simp [Glob.plain]⟩ (by intro c hc; cases hc; decide)
example := C79_extension (m := Except Exn) (fun _ => .error .illegalArgument) (ext := j!"java") (by simp [Glob.plain])
example := C79_prefix (m := Except Exn) (fun _ => .error .illegalArgument) (t := j!"Test") ⟨by decide, by simp [Glob.plain]⟩ (by intro c hc; cases hc; decide)
example := C79_contains (m := Except Exn) (fun _ => .error .illegalArgument) (t := j!"Test") ⟨by decide, by simp [Glob.plain]⟩ (by intro c hc; cases hc; decide)
  (by intro c hc; cases hc; decide)
example := C79_double_star (m := Except Exn) (fun _ => .error .illegalArgument) (cwd := Demo.r) (ref := Demo.a) rfl (.inr (by decide))
example := C79_below (m := Except Exn) (fun _ => .error .illegalArgument) (cwd := Demo.r) (ref := Demo.a) rfl (.inr (by decide)) (ds := [j!"src", j!"main"]) (by decide)
  (by simp [Verbatim, Glob.plain, SLASH])
example := C79_anywhere (m := Except Exn) (fun _ => .error .illegalArgument) (cwd := Demo.r) rfl (by decide) (name := j!"jfiletreeprettyprinter-core") (by simp [Verbatim, Glob.plain]) (by decide)
example := C79_group (m := Except Exn) (fun _ => .error .illegalArgument) (alts := [[.star, .text (bare j!".java")], [.star, .text (bare j!".xml")]]) (by decide)
  (by simp [PartsOk, Part.Ok, Follows, bare, Glob.plain])
example : globSays j!"*.{java,xml}" j!"pom.xml" = some true ∧ globSays j!"*.{java,xml}" j!"README.md" = some false ∧ globSays j!"**" j!"a\nb" = some false ∧
    globSays j!"*" j!"a\nb" = some true ∧ globSays j!"src/main/**" j!"src/main/a/b" = some true ∧ globSays j!"src/main/**" j!"src/main" = some false := by decide
/-- Example for C79: half of a surrogate pair is no character, so `*` and a text do not find it inside of a character; `WholeStart` is needed. -/
example : globSays [42, 0xDE00] [0xD83D, 0xDE00] = some false ∧ endsWith [0xD83D, 0xDE00] [0xDE00] = true := by decide
example : globSays j!"[" j!"[" = none ∧ globSays j!"{a" j!"a" = none ∧ globSays j!"a\\" j!"a" = none ∧ globSays j!"{a,{b}}" j!"b" = none ∧ globSays j!"[b-a]" j!"b" = none ∧
    globSays j!"a}," j!"a}," = some true := by decide
example := C81_rejected (fun _ => .error .illegalArgument) Demo.pieces_ok (alts := [[.star]]) (by simp [PartsOk, Part.Ok])
example := C81_reversed_range (fun _ => .error .illegalArgument) Demo.pieces_ok (s := j!"!x") (t := j!"].txt") (a := 122) (b := 97) (by decide) (by decide) (by decide) (by decide) (by simp)
theorem tame_of_no_bracket {g : JStr} (h : 91 ∉ g) : TameBrackets g := by
  intro pre s post e
  exact absurd (by rw [e]; simp) h

theorem split_unique {x : JChar} {a b c d : JStr} (ha : x ∉ a) (hb : x ∉ b) (h : a ++ x :: c = b ++ x :: d) : a = b ∧ c = d := by
  induction a generalizing b with
  | nil =>
    cases b with
    | nil => exact ⟨rfl, (List.cons.inj h).2⟩
    | cons y b => exact absurd (by rw [show x = y from (List.cons.inj h).1]; simp) hb
  | cons y a ih =>
    cases b with
    | nil => exact absurd (by rw [show y = x from (List.cons.inj h).1]; simp) ha
    | cons z b =>
      obtain ⟨h1, h2⟩ := List.cons.inj h
      obtain ⟨h3, h4⟩ := ih (fun h => ha (by simp [h])) (fun h => hb (by simp [h])) h2
      exact ⟨by rw [h1, h3], h4⟩

/-- One bracket expression. -/
theorem tame_one {a s post : JStr} (ha : 91 ∉ a) (hs : 91 ∉ s) (hs' : 93 ∉ s) (hp : 91 ∉ post) (ht : Tame s) : TameBrackets (a ++ 91 :: (s ++ 93 :: post)) := by
  intro pre s2 post2 e h2
  have hn : (91 : JChar) ∉ pre := by
    intro hm
    have hc := congrArg (List.count 91) e
    have hpos := List.count_pos_iff.2 hm
    rw [List.count_append, List.count_append, List.count_cons_self, List.count_cons_self, List.count_append, List.count_append, List.count_eq_zero.2 ha, List.count_eq_zero.2 hs,
      List.count_cons_of_ne (by decide), List.count_cons_of_ne (by decide), List.count_eq_zero.2 hp] at hc
    omega
  obtain ⟨_, e2⟩ := split_unique ha hn e
  obtain ⟨e3, _⟩ := split_unique hs' h2 e2
  rw [← e3]; exact ht

/-- `x[a-c-e]y` -/
example := (C81_accepted_iff (fun _ => .error .illegalArgument) (tame_one (a := j!"x") (s := j!"a-c-e") (post := j!"y") (by decide) (by decide) (by decide) (by decide)
  ⟨[97, 45, 99, 45, 101], by decide, by simp [Scalar], by decide, by decide, by decide, by decide, fun c hc hi => by
    have := hi.subset (List.mem_cons_self)
    simp only [List.mem_cons, List.not_mem_nil, or_false] at this
    unfold Wide at hc
    omega⟩)).2
example : globSays j!"x[a-c-e]y" j!"xay" = none ∧ globSays j!"x[a-ce-]y" j!"x-y" = some true ∧ globSays j!"x[^-]y" j!"x-y" = none ∧ globSays j!"x[-^]y" j!"x^y" = some true := by decide
example := (C81_accepted_iff (fun _ => .error .illegalArgument) (g := j!"{a") (tame_of_no_bracket (by decide))).2

example := C80_name_never (m := Except Exn) (fun _ => .error .illegalArgument) Demo.srcMain_ok Demo.srcMain_needs

mutual
/-- All names are names. -/
def Node.NamesOk : Node → Prop
  | .dir _ cs => NamesOkAll cs
  | _ => True
/-- The same for lists. -/
def Node.NamesOkAll : List (JStr × Node) → Prop
  | [] => True
  | c :: cs => (c.1 ≠ [] ∧ c.1 ≠ j!"." ∧ c.1 ≠ j!".." ∧ SLASH ∉ c.1) ∧ c.2.NamesOk ∧ NamesOkAll cs
end

theorem Node.NamesOkAll.lookup {n : JStr} {cs : List (JStr × Node)} (h : Node.NamesOkAll cs) {t : Node} (ht : Node.lookupChild n cs = some t) : t.NamesOk := by
  induction cs with
  | nil => cases ht
  | cons c cs ih =>
    obtain ⟨k, v⟩ := c
    rw [Node.NamesOkAll] at h
    rw [Node.lookupChild] at ht
    split at ht
    · cases ht; exact h.2.1
    · exact ih h.2.2 ht

theorem Node.NamesOk.get {t : Node} (h : t.NamesOk) {ns : List JStr} {u : Node} (hu : t.get ns = some u) : u.NamesOk := by
  induction ns generalizing t with
  | nil => rw [Node.get] at hu; cases hu; exact h
  | cons n ns ih =>
    rw [Node.get.eq_def] at hu
    cases t with
    | dir r cs =>
      dsimp only at hu
      rw [Node.NamesOk] at h
      split at hu
      · rename_i c hc; exact ih (h.lookup hc) hu
      · cases hu
    | regular _ => cases hu
    | special => cases hu
    | symlink _ => cases hu

theorem Node.NamesOkAll.mem {cs : List (JStr × Node)} (h : Node.NamesOkAll cs) {c : JStr × Node} (hc : c ∈ cs) : c.1 ≠ [] ∧ c.1 ≠ j!"." ∧ c.1 ≠ j!".." ∧ SLASH ∉ c.1 := by
  induction cs with
  | nil => cases hc
  | cons d cs ih =>
    rw [Node.NamesOkAll] at h
    rcases List.mem_cons.1 hc with rfl | hc
    · exact h.1
    · exact ih h.2.2 hc

theorem Node.NamesOk.lists {t : Node} (h : t.NamesOk) : ListsNames t.toFs := by
  intro p cs bad hl
  have hl : (match t.at p with
    | some (.dir true cs) => Listing.opened (cs.map (fun c : JStr × Node => p.child c.1)) false
    | _ => .openFailed) = .opened cs bad := hl
  split at hl
  · rename_i l hat
    cases hl
    have hw := h.get hat
    rw [Node.NamesOk] at hw
    intro c hc
    obtain ⟨x, hx, rfl⟩ := List.mem_map.1 hc
    exact ⟨x.1, rfl, hw.mem hx⟩
  · cases hl

theorem Demo.lists : ListsNames Demo.dfs := Node.NamesOk.lists (t := Demo.disk) (by simp [Demo.disk, Node.NamesOk, Node.NamesOkAll, SLASH])

/-- The options file with nothing but the filter for directories of the README. -/
def Demo.srcDoc : Cli.ExternalOptions where
  emojis := none
  compactDirectories := none
  maxDepth := none
  childLimit := none
  filter := some ⟨some (.nameGlob (some j!"src/main/**")), none⟩
  lineExtensions := none

/-- The matcher of `src/main/**`. -/
def Demo.srcMatcher : Matcher (Except Exn) := match hasNameMatchingGlob (getPathMatcher (fun _ => .error .illegalArgument)) j!"src/main/**" with
  | .ok mt => mt
  | .error _ => fun _ => .ok true

theorem Demo.srcMatcher_eq : hasNameMatchingGlob (getPathMatcher (fun _ => .error .illegalArgument)) j!"src/main/**" = .ok Demo.srcMatcher := rfl

/-- The options with that filter. -/
def Demo.srcOnly : Options (Except Exn) := Demo.dflt.filterDirectories Demo.srcMatcher

/-- The options file gives these options. -/
theorem Demo.srcDoc_maps (cs : Casing) : Cli.mapToOptions cs (getPathMatcher (fun _ => .error .illegalArgument)) Demo.dfs.lift Path.root Demo.r Demo.srcDoc = .ok Demo.srcOnly := rfl

theorem Demo.scanned_srcOnly : scanned Demo.dfs Path.root Demo.srcOnly Demo.r = .ok (.dir Demo.r [.file Demo.b ⟨false, false⟩, .file Demo.z ⟨false, true⟩]) := by
  refine scanned_complete rfl lawful_ALPHABETICAL Demo.distinguishes ?_
  exact Scanned.dir (A := answers Demo.dfs Demo.srcOnly) (c := PathSorts.ALPHABETICAL) (maxDepth := 20) (k := 0) (p := Demo.r) (n := -1)
    (cs := [Demo.b, Demo.a, Demo.z]) (ks := [Demo.b, Demo.z]) (srt := [Demo.b, Demo.z]) (es := [.file Demo.b ⟨false, false⟩, .file Demo.z ⟨false, true⟩])
    rfl (by decide) rfl rfl (.keep rfl (.drop rfl (.keep rfl .nil))) (by decide) (by decide) (.cons (.file rfl rfl) (.cons (.file rfl rfl) .nil))

theorem Demo.printed_srcOnly : prettyPrint Demo.dfs.lift Path.root Demo.srcOnly Demo.r = .ok (joinLines [j!"r/", j!"├─ b.txt", j!"└─ z?"]) := by
  rw [prettyPrint_eq, Demo.scanned_srcOnly]
  have h := C01_render_is_picture (m := Except Exn) Demo.srcOnly.toRender (Spec.plain false) (fun _ => rfl) rfl (fun _ => rfl)
    (.dir Demo.r [.file Demo.b ⟨false, false⟩, .file Demo.z ⟨false, true⟩]) (by simp [Named, NamedAll, Demo.r, Demo.b, Demo.z]) _ (.dir (.cons .file (.cons .file .nil)))
  show Renderer.renderRoot _ _ _ = _
  rw [h]
  rfl

example := C80_flat_listing (fun _ => .error .illegalArgument) Demo.lists (cwd := Path.root) rfl (by decide) (o := Demo.dflt) lawful_ALPHABETICAL (p := Demo.r) (.inr (by decide))
  Demo.srcMain_ok Demo.srcMain_needs (.inl Demo.srcMatcher_eq) Demo.printed_srcOnly
example (cs : Casing) := C80_options_file (fun _ => .error .illegalArgument) Demo.lists (cwd := Path.root) rfl (p := Demo.r) Demo.srcMain_ok Demo.srcMain_needs cs (x := Demo.srcDoc) rfl
  (fun h => nomatch h) (.inl rfl) (Demo.srcDoc_maps cs) Demo.printed_srcOnly

end JFTP
