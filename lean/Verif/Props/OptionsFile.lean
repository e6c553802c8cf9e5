import Verif.Spec.Document
import Verif.Props.Paths
import Verif.Props.Rules
import Verif.Props.Emoji

/-!
C50, C51: from an options document to the printer options.
-/

namespace JFTP
open Spec Cli

section
variable {m : Type → Type} [Monad m] [LawfulMonad m] [MonadExceptOf Exn m]
variable {glob : PathMatchers.GlobCompiler} {G : JStr → Path → Bool} {cwd target : Path}

theorem dropCommon_prefix (a r : List JStr) : Path.dropCommon a (a ++ r) = ([], r) := by
  induction a with
  | nil => cases r <;> rfl
  | cons x xs ih => rw [List.cons_append, Path.dropCommon, if_pos rfl, ih]

theorem Spec.InTarget.clean_target {target p : Path} {rest : List JStr} (h : InTarget target p rest) : ∀ n ∈ target.names, Path.IsName n :=
  fun n hn => h.clean n (by rw [h.names]; simp [hn])

omit [LawfulMonad m] [MonadExceptOf Exn m] [Monad m] in
theorem relative_below {p : Path} {rest : List JStr} (h : InTarget target p rest) (mt : Matcher m) :
    PathMatchers.hasRelativePathMatching cwd target mt p = mt (relPath (p.names.drop target.names.length)) := by
  unfold PathMatchers.hasRelativePathMatching Path.relativize relPath
  dsimp only
  rw [Path.normalize_of_names h.abs.1 h.clean_target, Path.normalize_of_names h.abs.2 h.clean, Path.toAbsolutePath_self h.abs.1, Path.toAbsolutePath_self h.abs.2,
    Path.normNames_of_names h.clean_target, Path.normNames_of_names h.clean, h.names, dropCommon_prefix]
  simp

omit [MonadExceptOf Exn m] in
mutual
theorem mapMatcher_ok (d : MatcherDoc) (hv : d.valid = true) (hg : ∀ g ∈ globsOf d, g ≠ j!"*" → glob g = .ok (G g)) :
    ∃ mt : Matcher m, mapMatcher glob cwd target d = .ok mt ∧ ∀ p rest, InTarget target p rest → mt p = pure (docHolds G target p d) := by
  match d with
  | .alwaysTrue => exact ⟨_, by rw [mapMatcher], fun p _ _ => by simp [docHolds]⟩
  | .alwaysFalse => exact ⟨_, by rw [mapMatcher], fun p _ _ => by simp [docHolds]⟩
  | .allOf none => simp [MatcherDoc.valid, MatcherDoc.validList] at hv
  | .anyOf none => simp [MatcherDoc.valid, MatcherDoc.validList] at hv
  | .noneOf none => simp [MatcherDoc.valid, MatcherDoc.validList] at hv
  | .nameGlob none => simp [MatcherDoc.valid, MatcherDoc.validGlob] at hv
  | .pathGlob none => simp [MatcherDoc.valid, MatcherDoc.validGlob] at hv
  | .allOf (some ms) =>
    simp only [MatcherDoc.valid, MatcherDoc.validList, Bool.and_eq_true] at hv
    obtain ⟨mts, h1, h2, h3⟩ := mapMatchers_ok ms hv.2 (by simpa [globsOf] using hg)
    refine ⟨fun p => PathMatchers.all p mts, ?_, fun p rest hb => ?_⟩
    · rw [mapMatcher, h1]
      show PathMatchers.combineMatchers mts .ALL = _
      unfold PathMatchers.combineMatchers
      rw [if_neg]
      rw [h2]; simpa using hv.1
    · rw [docHolds]; exact (h3 p rest hb).1
  | .anyOf (some ms) =>
    simp only [MatcherDoc.valid, MatcherDoc.validList, Bool.and_eq_true] at hv
    obtain ⟨mts, h1, h2, h3⟩ := mapMatchers_ok ms hv.2 (by simpa [globsOf] using hg)
    refine ⟨fun p => PathMatchers.any p mts, ?_, fun p rest hb => ?_⟩
    · rw [mapMatcher, h1]
      show PathMatchers.combineMatchers mts .ANY = _
      unfold PathMatchers.combineMatchers
      rw [if_neg]
      rw [h2]; simpa using hv.1
    · rw [docHolds]; exact (h3 p rest hb).2.1
  | .noneOf (some ms) =>
    simp only [MatcherDoc.valid, MatcherDoc.validList, Bool.and_eq_true] at hv
    obtain ⟨mts, h1, h2, h3⟩ := mapMatchers_ok ms hv.2 (by simpa [globsOf] using hg)
    refine ⟨fun p => PathMatchers.none p mts, ?_, fun p rest hb => ?_⟩
    · rw [mapMatcher, h1]
      show PathMatchers.combineMatchers mts .NONE = _
      unfold PathMatchers.combineMatchers
      rw [if_neg]
      rw [h2]; simpa using hv.1
    · rw [docHolds]; exact (h3 p rest hb).2.2
  | .nameGlob (some g) =>
    rw [mapMatcher]
    unfold PathMatchers.hasNameMatchingGlob
    by_cases hs : g = j!"*"
    · rw [if_pos hs]; exact ⟨_, rfl, fun p _ _ => by simp [docHolds, nameGlobHolds, hs]⟩
    · rw [if_neg hs, hg g (by simp [globsOf]) hs]
      refine ⟨_, rfl, fun p _ _ => ?_⟩
      simp [docHolds, nameGlobHolds, hs, Path.getFileName]
      cases p.names.getLast? <;> rfl
  | .pathGlob (some g) =>
    rw [mapMatcher]
    unfold PathMatchers.hasRelativePathMatchingGlob
    by_cases hs : g = j!"*"
    · rw [if_pos hs]; exact ⟨_, rfl, fun p _ _ => by simp [docHolds, pathGlobHolds, hs]⟩
    · rw [if_neg hs, hg g (by simp [globsOf]) hs]
      refine ⟨_, rfl, fun p rest hb => ?_⟩
      rw [relative_below hb]
      simp [docHolds, pathGlobHolds, hs]

theorem mapMatchers_ok (ms : List (Option MatcherDoc)) (hv : MatcherDoc.validItems ms = true) (hg : ∀ g ∈ globsOfAll ms, g ≠ j!"*" → glob g = .ok (G g)) :
    ∃ mts : List (Matcher m), mapMatchers glob cwd target ms = .ok mts ∧ mts.isEmpty = ms.isEmpty ∧ ∀ p rest, InTarget target p rest →
      PathMatchers.all p mts = pure (allHold G target p ms) ∧ PathMatchers.any p mts = pure (anyHolds G target p ms) ∧
      PathMatchers.none p mts = pure (!anyHolds G target p ms) := by
  match ms with
  | [] => exact ⟨[], by rw [mapMatchers], rfl, fun p _ _ => by simp [PathMatchers.all, PathMatchers.any, PathMatchers.none, allHold, anyHolds]⟩
  | none :: ms => simp [MatcherDoc.validItems] at hv
  | some d :: ms =>
    simp only [MatcherDoc.validItems, Bool.and_eq_true] at hv
    obtain ⟨mt, h1, h2⟩ := mapMatcher_ok d hv.1 (fun g hh => hg g (by simp [globsOfAll, hh]))
    obtain ⟨mts, h3, h4, h5⟩ := mapMatchers_ok ms hv.2 (fun g hh => hg g (by simp [globsOfAll, hh]))
    refine ⟨mt :: mts, by rw [mapMatchers, h1, h3]; rfl, rfl, fun p rest hb => ?_⟩
    obtain ⟨h6, h7, h8⟩ := h5 p rest hb
    have h9 := h2 p rest hb
    rw [PathMatchers.all, PathMatchers.any, PathMatchers.none, h9, pure_bind, pure_bind, pure_bind, h6, h7, h8, allHold, anyHolds]
    cases docHolds G target p d <;> simp
end

/-! #### Rules -/

omit [MonadExceptOf Exn m] in
theorem limitLoop_vals (p : Path) (d : Int) (fs : List (Path → m Int)) (vs : List Int) (h : fs.map (fun f => f p) = vs.map pure) :
    ∃ n, ChildLimitBuilder.limitLoop p d fs = pure n ∧ (match vs.find? (fun v => decide (0 ≤ v)) with | some v => n = v | none => n = vs.getLast?.getD d) := by
  induction fs generalizing d vs with
  | nil =>
    cases vs with
    | nil => exact ⟨d, rfl, rfl⟩
    | cons v vs => cases h
  | cons f fs ih =>
    cases vs with
    | nil => cases h
    | cons v vs =>
      rw [List.map_cons, List.map_cons, List.cons.injEq] at h
      rw [ChildLimitBuilder.limitLoop, h.1, pure_bind]
      by_cases hv : 0 ≤ v
      · rw [if_pos hv]
        refine ⟨v, rfl, ?_⟩
        rw [List.find?_cons_of_pos (by simpa using hv)]
      · rw [if_neg hv]
        obtain ⟨n, h1, h2⟩ := ih v vs h.2
        refine ⟨n, h1, ?_⟩
        rw [List.find?_cons_of_neg (by simpa using hv)]
        cases hf : vs.find? (fun v => decide (0 ≤ v)) with
        | some w => rw [hf] at h2; exact h2
        | none =>
          rw [hf] at h2
          rw [h2]
          cases vs with
          | nil => simp
          | cons w vs => rw [List.getLast?_cons_cons]; simp [List.getLast?_cons]

omit [MonadExceptOf Exn m] in
theorem mapLimitItems_ok (ls : List (Option DynamicLimitItem)) (hv : ls.all validItem = true)
    (hg : ∀ g ∈ ls.flatMap (fun i => match i with | some i => globsOfOpt i.matcher | none => []), g ≠ j!"*" → glob g = .ok (G g)) (b : ChildLimitBuilder m) :
    ∃ fs : List (Path → m Int), mapLimitItems glob cwd target b ls = .ok { b with limits := b.limits ++ fs } ∧ ∀ p rest, InTarget target p rest →
      fs.map (fun f => f p) = ((limitRules G target ls).map (fun r => if r.1 p then r.2 else -1)).map pure := by
  induction ls generalizing b with
  | nil => exact ⟨[], by simp [mapLimitItems], by simp [limitRules]⟩
  | cons i ls ih =>
    rw [List.all_cons, Bool.and_eq_true] at hv
    obtain ⟨hi, hv⟩ := hv
    match i with
    | none => simp [validItem] at hi
    | some ⟨none, _⟩ => simp [validItem] at hi
    | some ⟨some l, none⟩ => simp [validItem, validMatcher] at hi
    | some ⟨some l, some d⟩ =>
      obtain ⟨mt, h1, h2⟩ := mapMatcher_ok (m := m) (glob := glob) (G := G) (cwd := cwd) (target := target) d (by simpa [validItem, validMatcher] using hi)
        (fun g hh => hg g (by simp [globsOfOpt, hh]))
      obtain ⟨fs, h3, h4⟩ := ih hv (fun g hh => hg g (by rw [List.flatMap_cons]; exact List.mem_append_right _ hh)) (b.addMatching mt l)
      refine ⟨(fun path => do return if ← mt path then l else UNLIMITED) :: fs, ?_, fun p rest hb => ?_⟩
      · rw [mapLimitItems]
        show (mapMatcher glob cwd target d >>= _) = _
        rw [h1]
        refine Eq.trans h3 ?_
        simp [ChildLimitBuilder.addMatching, ChildLimitBuilder.add]
      · rw [List.map_cons, h4 p rest hb]
        dsimp only
        rw [h2 p rest hb, pure_bind]
        simp [limitRules, UNLIMITED]

omit [MonadExceptOf Exn m] in
theorem extLoop_vals (p : Path) (x : Option JStr) (fs : List (ExtFn m)) (vs : List (Option JStr)) (h : fs.map (fun f => f p) = vs.map pure) (hx : fs = [] → x = none) :
    LineExtensionBuilder.extLoop p x fs = pure ((vs.find? Option.isSome).getD none) := by
  induction fs generalizing x vs with
  | nil =>
    cases vs with
    | nil => rw [hx rfl]; rfl
    | cons v vs => cases h
  | cons f fs ih =>
    cases vs with
    | nil => cases h
    | cons v vs =>
      rw [List.map_cons, List.map_cons, List.cons.injEq] at h
      rw [LineExtensionBuilder.extLoop, h.1, pure_bind]
      cases v with
      | none => rw [if_neg (by simp), ih none vs h.2 (fun _ => rfl)]; rfl
      | some v => rw [if_pos (by simp)]; rfl

omit [MonadExceptOf Exn m] in
theorem mapExtensionItems_ok (es : List (Option LineExtensionDoc)) (hv : es.all validExtension = true)
    (hg : ∀ g ∈ es.flatMap (fun i => match i with | some i => globsOfOpt i.matcher | none => []), g ≠ j!"*" → glob g = .ok (G g)) (b : LineExtensionBuilder m) :
    ∃ fs : List (ExtFn m), mapExtensionItems glob cwd target b es = .ok ⟨b.extensions ++ fs⟩ ∧ ∀ p rest, InTarget target p rest →
      fs.map (fun f => f p) = ((extensionRules G target es).map (fun r => if r.1 p then r.2 else none)).map pure := by
  induction es generalizing b with
  | nil => exact ⟨[], by simp [mapExtensionItems], by simp [extensionRules]⟩
  | cons i ls ih =>
    rw [List.all_cons, Bool.and_eq_true] at hv
    obtain ⟨hi, hv⟩ := hv
    match i with
    | none => simp [validExtension] at hi
    | some ⟨none, _⟩ => simp [validExtension] at hi
    | some ⟨some l, none⟩ => simp [validExtension, validMatcher] at hi
    | some ⟨some l, some d⟩ =>
      obtain ⟨mt, h1, h2⟩ := mapMatcher_ok (m := m) (glob := glob) (G := G) (cwd := cwd) (target := target) d (by simpa [validExtension, validMatcher] using hi)
        (fun g hh => hg g (by simp [globsOfOpt, hh]))
      obtain ⟨fs, h3, h4⟩ := ih hv (fun g hh => hg g (by rw [List.flatMap_cons]; exact List.mem_append_right _ hh)) (b.addMatchingN mt (some l))
      refine ⟨(fun path => do return if ← mt path then some l else none) :: fs, ?_, fun p rest hb => ?_⟩
      · rw [mapExtensionItems]
        show (mapMatcher glob cwd target d >>= _) = _
        rw [h1]
        refine Eq.trans h3 ?_
        simp [LineExtensionBuilder.addMatchingN, LineExtensionBuilder.add]
      · rw [List.map_cons, h4 p rest hb]
        dsimp only
        rw [h2 p rest hb, pure_bind]
        simp [extensionRules]

theorem find?_rules (rules : List (Rule (Option JStr))) (h : ∀ r ∈ rules, r.2.isSome = true) (p : Path) :
    ((rules.map (fun r => if r.1 p then r.2 else none)).find? Option.isSome).getD none = firstMatch none rules p := by
  unfold firstMatch
  induction rules with
  | nil => rfl
  | cons r rules ih =>
    have ih := ih (fun r hr => h r (by simp [hr]))
    cases hr : r.1 p with
    | true =>
      rw [List.map_cons, hr, List.find?_cons_of_pos (by simpa using h r (by simp)), List.find?_cons_of_pos (by simpa using hr)]
      rfl
    | false =>
      rw [List.map_cons, hr, List.find?_cons_of_neg (by simp), List.find?_cons_of_neg (by simp [hr])]
      exact ih

theorem find?_limits (rules : List (Rule Int)) (p : Path) :
    (rules.map (fun r => if r.1 p then r.2 else -1)).find? (fun v => decide (0 ≤ v)) = (rules.find? (fun r => r.1 p && decide (0 ≤ r.2))).map Prod.snd := by
  induction rules with
  | nil => rfl
  | cons r rules ih =>
    rw [List.map_cons]
    cases hr : r.1 p with
    | false => rw [List.find?_cons_of_neg (by simp), List.find?_cons_of_neg (by simp [hr]), ih]
    | true =>
      by_cases h0 : 0 ≤ r.2
      · rw [List.find?_cons_of_pos (by simpa using h0), List.find?_cons_of_pos (by simp [hr, h0])]; rfl
      · rw [List.find?_cons_of_neg (by simpa using h0), List.find?_cons_of_neg (by simp [h0]), ih]

/-- **C50**, **C51**: a validated options document whose globs are well formed is mapped without exception, and the resulting options behave, for every path of
the printed tree, exactly as the document says; everything it does not mention has the library default. -/
theorem C50_meaning (cs : Casing) (fs : Fs m) (x : ExternalOptions) (hv : x.valid = true) (hg : ∀ g ∈ allGlobs x, g ≠ j!"*" → glob g = .ok (G g))
    (he : x.emojis = some true → KeepsLowerAscii cs.lower) :
    ∃ o : Options m, mapToOptions cs glob fs cwd target x = .ok o ∧
      (x.emojis = some true → ∃ o', Options.createDefault.withDefaultEmojis cs fs = .ok o' ∧ o.emojiMapping = o'.emojiMapping) ∧
      (x.emojis ≠ some true → o.emojiMapping = fun _ => pure none) ∧
      o.compactDirectories = x.compactDirectories.getD false ∧
      o.maxDepth = x.maxDepth.getD 20 ∧
      o.treeFormat = TreeFormats.UNICODE_BOX_DRAWING ∧ o.pathComparator = PathSorts.ALPHABETICAL ∧
      (o.lineExtension.isSome = x.lineExtensions.isSome) ∧
      ∀ p rest, InTarget target p rest →
        (match x.childLimit with
          | none => o.childLimit p = pure (-1)
          | some (.static l) => o.childLimit p = pure (l.getD 0)
          | some (.dynamic ls) => ∃ n, o.childLimit p = pure n ∧ LimitIs (limitRules G target (ls.getD [])) p n) ∧
        o.dirMatcher p = pure (match x.filter.bind (·.dir) with | none => true | some d => docHolds G target p d) ∧
        o.fileMatcher p = pure (match x.filter.bind (·.file) with | none => true | some d => docHolds G target p d) ∧
        ∀ f, o.lineExtension = some f → f p = pure (firstMatch none (extensionRules G target (x.lineExtensions.getD [])) p) := by
  unfold ExternalOptions.valid at hv
  rw [Bool.and_eq_true, Bool.and_eq_true] at hv
  obtain ⟨⟨hv1, hv2⟩, hv3⟩ := hv
  unfold allGlobs at hg
  -- emojis
  obtain ⟨o1, e1, e2, e3, e4⟩ : ∃ o1 : Options m, mapEmojis cs fs Options.createDefault x = .ok o1 ∧
      (x.emojis = some true → ∃ o', Options.createDefault.withDefaultEmojis cs fs = .ok o' ∧ o1.emojiMapping = o'.emojiMapping) ∧
      (x.emojis ≠ some true → o1.emojiMapping = fun _ => pure none) ∧ o1 = { (Options.createDefault : Options m) with emojiMapping := o1.emojiMapping } := by
    unfold mapEmojis
    by_cases h : x.emojis = some true
    · rw [if_pos h]
      obtain ⟨f, hf⟩ := C37_default_builds (m := m) cs (he h)
      refine ⟨_, by unfold Options.withDefaultEmojis; dsimp only; rw [hf]; rfl, fun _ => ⟨_, by unfold Options.withDefaultEmojis; dsimp only; rw [hf]; rfl, rfl⟩, fun hn => absurd h hn, rfl⟩
    · rw [if_neg h]
      exact ⟨_, rfl, fun hh => absurd hh h, fun _ => rfl, rfl⟩
  -- flags
  let o2 := mapMaxDepth (mapCompactDirectories o1 x) x
  have f1 : o2.emojiMapping = o1.emojiMapping ∧ o2.compactDirectories = x.compactDirectories.getD false ∧ o2.maxDepth = x.maxDepth.getD 20 ∧
      o2.treeFormat = TreeFormats.UNICODE_BOX_DRAWING ∧ o2.pathComparator = PathSorts.ALPHABETICAL ∧ o2.lineExtension = none ∧
      o2.childLimit = (fun _ => pure (-1)) ∧ o2.dirMatcher = (fun _ => pure true) ∧ o2.fileMatcher = fun _ => pure true := by
    show _ ∧ _
    simp only [o2]
    rw [e4]
    unfold mapMaxDepth mapCompactDirectories
    match x.maxDepth, x.compactDirectories with
    | none, none => exact ⟨rfl, rfl, rfl, rfl, rfl, rfl, rfl, rfl, rfl⟩
    | none, some true => exact ⟨rfl, rfl, rfl, rfl, rfl, rfl, rfl, rfl, rfl⟩
    | none, some false => exact ⟨rfl, rfl, rfl, rfl, rfl, rfl, rfl, rfl, rfl⟩
    | some _, none => exact ⟨rfl, rfl, rfl, rfl, rfl, rfl, rfl, rfl, rfl⟩
    | some _, some true => exact ⟨rfl, rfl, rfl, rfl, rfl, rfl, rfl, rfl, rfl⟩
    | some _, some false => exact ⟨rfl, rfl, rfl, rfl, rfl, rfl, rfl, rfl, rfl⟩
  -- child limit
  obtain ⟨lim, l1, l2⟩ : ∃ lim : Path → m Int, mapChildLimit glob cwd target o2 x = .ok { o2 with childLimit := lim } ∧ ∀ p rest, InTarget target p rest →
        (match x.childLimit with
          | none => lim p = pure (-1)
          | some (.static l) => lim p = pure (l.getD 0)
          | some (.dynamic ls) => ∃ n, lim p = pure n ∧ LimitIs (limitRules G target (ls.getD [])) p n) := by
    unfold mapChildLimit
    cases hc : x.childLimit with
    | none => exact ⟨o2.childLimit, rfl, fun p _ _ => by rw [f1.2.2.2.2.2.2.1]⟩
    | some c =>
      rw [hc] at hv1 hg
      match c with
      | .static none => simp [ChildLimitDoc.valid] at hv1
      | .static (some l) => exact ⟨fun _ => pure l, rfl, fun p _ _ => rfl⟩
      | .dynamic none => simp [ChildLimitDoc.valid] at hv1
      | .dynamic (some ls) =>
        simp only [ChildLimitDoc.valid, Bool.and_eq_true] at hv1
        obtain ⟨fs', h1, h2⟩ := mapLimitItems_ok (m := m) (glob := glob) (G := G) (cwd := cwd) (target := target) ls hv1.2
          (fun g hh => hg g (List.mem_append_left _ (List.mem_append_left _ hh))) ChildLimits.builder
        refine ⟨fun p => ChildLimitBuilder.limitLoop p (-1) fs', ?_, fun p rest hb => ?_⟩
        · dsimp only
          rw [h1]; rfl
        · obtain ⟨n, h3, h4⟩ := limitLoop_vals p (-1) fs' _ (h2 p rest hb)
          refine ⟨n, h3, ?_⟩
          rw [find?_limits] at h4
          unfold LimitIs
          show match (limitRules G target ls).find? (fun r => r.1 p && decide (0 ≤ r.2)) with | some r => n = r.2 | none => n < 0
          cases hf : (limitRules G target ls).find? (fun r => r.1 p && decide (0 ≤ r.2)) with
          | some r => rw [hf] at h4; exact h4
          | none =>
            rw [hf] at h4
            simp only [Option.map_none] at h4
            show n < 0
            rw [h4]
            cases hl : ((limitRules G target ls).map (fun r => if r.1 p then r.2 else -1)).getLast? with
            | none => simp
            | some v =>
              have hm := List.mem_of_getLast? hl
              obtain ⟨r, hr, rfl⟩ := List.mem_map.1 hm
              have := List.find?_eq_none.1 hf r hr
              simp only [Option.getD_some]
              split
              · rename_i hh; simp only [hh, Bool.true_and, decide_eq_true_eq] at this; omega
              · omega
  -- filters
  obtain ⟨df, ff, g1, g2⟩ : ∃ df ff : Matcher m, mapFilter glob cwd target { o2 with childLimit := lim } x =
      .ok { o2 with childLimit := lim, dirMatcher := df, fileMatcher := ff } ∧ ∀ p rest, InTarget target p rest →
        df p = pure (match x.filter.bind (·.dir) with | none => true | some d => docHolds G target p d) ∧
        ff p = pure (match x.filter.bind (·.file) with | none => true | some d => docHolds G target p d) := by
    unfold mapFilter
    cases hf : x.filter with
    | none => exact ⟨o2.dirMatcher, o2.fileMatcher, rfl, fun p _ _ => by rw [f1.2.2.2.2.2.2.2.1, f1.2.2.2.2.2.2.2.2]; exact ⟨rfl, rfl⟩⟩
    | some f =>
      rw [hf] at hv2 hg
      dsimp only at hg
      simp only [Bool.and_eq_true] at hv2
      have hm : ∀ dm : Option MatcherDoc, validOptMatcher dm = true → (∀ g ∈ globsOfOpt dm, g ≠ j!"*" → glob g = .ok (G g)) → ∀ d, dm = some d →
          ∃ mt : Matcher m, mapMatcher glob cwd target d = .ok mt ∧ ∀ p rest, InTarget target p rest → mt p = pure (docHolds G target p d) := by
        rintro _ h1 h2 d rfl
        exact mapMatcher_ok d (by simpa [validOptMatcher] using h1) h2
      have hd := hm f.dir hv2.1 (fun g hh => hg g (by simp [hh]))
      have hfi := hm f.file hv2.2 (fun g hh => hg g (by simp [hh]))
      have f8 := f1.2.2.2.2.2.2.2.1
      have f9 := f1.2.2.2.2.2.2.2.2
      obtain ⟨fd, ffile⟩ := f
      dsimp only at hd hfi ⊢
      cases fd with
      | none =>
        cases ffile with
        | none => exact ⟨o2.dirMatcher, o2.fileMatcher, rfl, fun p _ _ => by rw [f8, f9]; exact ⟨rfl, rfl⟩⟩
        | some d2 =>
          obtain ⟨mt2, h3, h4⟩ := hfi d2 rfl
          refine ⟨o2.dirMatcher, mt2, ?_, fun p rest hb => ⟨by rw [f8]; rfl, h4 p rest hb⟩⟩
          dsimp only; rw [h3]; rfl
      | some d1 =>
        obtain ⟨mt1, h1, h2⟩ := hd d1 rfl
        cases ffile with
        | none =>
          refine ⟨mt1, o2.fileMatcher, ?_, fun p rest hb => ⟨h2 p rest hb, by rw [f9]; rfl⟩⟩
          dsimp only; rw [h1]; rfl
        | some d2 =>
          obtain ⟨mt2, h3, h4⟩ := hfi d2 rfl
          refine ⟨mt1, mt2, ?_, fun p rest hb => ⟨h2 p rest hb, h4 p rest hb⟩⟩
          dsimp only; rw [h1, h3]; rfl
  -- extensions
  obtain ⟨ext, x1, x2, x3⟩ : ∃ ext : Option (ExtFn m), mapLineExtensions glob cwd target { o2 with childLimit := lim, dirMatcher := df, fileMatcher := ff } x =
      .ok { o2 with childLimit := lim, dirMatcher := df, fileMatcher := ff, lineExtension := ext } ∧ ext.isSome = x.lineExtensions.isSome ∧
      ∀ p rest, InTarget target p rest → ∀ f, ext = some f → f p = pure (firstMatch none (extensionRules G target (x.lineExtensions.getD [])) p) := by
    unfold mapLineExtensions
    cases hx : x.lineExtensions with
    | none => exact ⟨none, by rw [← f1.2.2.2.2.2.1], rfl, by simp⟩
    | some es =>
      rw [hx] at hv3 hg
      dsimp only at hg hv3
      obtain ⟨fs', h1, h2⟩ := mapExtensionItems_ok (m := m) (glob := glob) (G := G) (cwd := cwd) (target := target) es hv3 (fun g hh => hg g (List.mem_append_right _ hh)) {}
      refine ⟨some (fun p => LineExtensionBuilder.extLoop p none fs'), ?_, rfl, ?_⟩
      · dsimp only; rw [h1]; rfl
      · rintro p rest hb _ ⟨⟩
        refine (extLoop_vals p none fs' _ (h2 p rest hb) (fun _ => rfl)).trans ?_
        congr 1
        refine find?_rules _ ?_ p
        intro r hr
        unfold extensionRules at hr
        obtain ⟨e, _, hr⟩ := List.mem_filterMap.1 hr
        split at hr
        · cases hr; rfl
        · cases hr
  refine ⟨{ o2 with childLimit := lim, dirMatcher := df, fileMatcher := ff, lineExtension := ext }, ?_, ?_, ?_, f1.2.1, f1.2.2.1, f1.2.2.2.1, f1.2.2.2.2.1, x2, ?_⟩
  · unfold mapToOptions
    rw [e1]
    show (mapChildLimit glob cwd target o2 x >>= _) = _
    rw [l1]
    show (mapFilter glob cwd target _ x >>= _) = _
    rw [g1]
    exact x1
  · intro h; rw [f1.1]; exact e2 h
  · intro h; rw [f1.1]; exact e3 h
  · exact fun p rest hb => ⟨l2 p rest hb, (g2 p rest hb).1, (g2 p rest hb).2, x3 p rest hb⟩

/-! #### C51 -/

omit [LawfulMonad m] [MonadExceptOf Exn m] in
mutual
theorem mapMatcher_globs (d : MatcherDoc) (mt : Matcher m) (h : mapMatcher glob cwd target d = .ok mt) : ∀ g ∈ globsOf d, g ≠ j!"*" → ∃ f, glob g = .ok f := by
  match d with
  | .alwaysTrue => simp [globsOf]
  | .alwaysFalse => simp [globsOf]
  | .allOf none => simp [globsOf]
  | .anyOf none => simp [globsOf]
  | .noneOf none => simp [globsOf]
  | .nameGlob none => simp [globsOf]
  | .pathGlob none => simp [globsOf]
  | .allOf (some ms) =>
    rw [mapMatcher] at h
    obtain ⟨mts, h, _⟩ := except_bind_ok h
    rw [globsOf]; exact mapMatchers_globs ms mts h
  | .anyOf (some ms) =>
    rw [mapMatcher] at h
    obtain ⟨mts, h, _⟩ := except_bind_ok h
    rw [globsOf]; exact mapMatchers_globs ms mts h
  | .noneOf (some ms) =>
    rw [mapMatcher] at h
    obtain ⟨mts, h, _⟩ := except_bind_ok h
    rw [globsOf]; exact mapMatchers_globs ms mts h
  | .nameGlob (some g) =>
    rw [mapMatcher] at h
    unfold PathMatchers.hasNameMatchingGlob at h
    intro g' hg' hs
    rw [globsOf, List.mem_singleton] at hg'
    subst hg'
    rw [if_neg hs] at h
    obtain ⟨f, h, _⟩ := except_bind_ok h
    exact ⟨f, h⟩
  | .pathGlob (some g) =>
    rw [mapMatcher] at h
    unfold PathMatchers.hasRelativePathMatchingGlob at h
    intro g' hg' hs
    rw [globsOf, List.mem_singleton] at hg'
    subst hg'
    rw [if_neg hs] at h
    obtain ⟨f, h, _⟩ := except_bind_ok h
    exact ⟨f, h⟩
theorem mapMatchers_globs (ms : List (Option MatcherDoc)) (mts : List (Matcher m)) (h : mapMatchers glob cwd target ms = .ok mts) :
    ∀ g ∈ globsOfAll ms, g ≠ j!"*" → ∃ f, glob g = .ok f := by
  match ms with
  | [] => simp [globsOfAll]
  | none :: ms => rw [mapMatchers] at h; cases h
  | some d :: ms =>
    rw [mapMatchers] at h
    obtain ⟨mt, h1, h⟩ := except_bind_ok h
    obtain ⟨mts', h2, _⟩ := except_bind_ok h
    intro g hg
    rw [globsOfAll] at hg
    rcases List.mem_append.1 hg with hg | hg
    · exact mapMatcher_globs d mt h1 g hg
    · exact mapMatchers_globs ms mts' h2 g hg
end

omit [LawfulMonad m] [MonadExceptOf Exn m] in
theorem mapLimitItems_globs (ls : List (Option DynamicLimitItem)) (b b' : ChildLimitBuilder m) (h : mapLimitItems glob cwd target b ls = .ok b') :
    ∀ g ∈ ls.flatMap (fun i => match i with | some i => globsOfOpt i.matcher | none => []), g ≠ j!"*" → ∃ f, glob g = .ok f := by
  induction ls generalizing b with
  | nil => simp
  | cons i ls ih =>
    match i with
    | none => rw [mapLimitItems] at h; cases h
    | some ⟨l, dm⟩ =>
      rw [mapLimitItems] at h
      obtain ⟨mt, h1, h⟩ := except_bind_ok h
      cases l with
      | none => cases h
      | some l =>
        intro g hg
        rw [List.flatMap_cons] at hg
        rcases List.mem_append.1 hg with hg | hg
        · cases dm with
          | none => cases h1
          | some d => exact mapMatcher_globs d mt h1 g hg
        · exact ih _ h g hg

omit [LawfulMonad m] [MonadExceptOf Exn m] in
theorem mapExtensionItems_globs (ls : List (Option LineExtensionDoc)) (b b' : LineExtensionBuilder m) (h : mapExtensionItems glob cwd target b ls = .ok b') :
    ∀ g ∈ ls.flatMap (fun i => match i with | some i => globsOfOpt i.matcher | none => []), g ≠ j!"*" → ∃ f, glob g = .ok f := by
  induction ls generalizing b with
  | nil => simp
  | cons i ls ih =>
    match i with
    | none => rw [mapExtensionItems] at h; cases h
    | some ⟨l, dm⟩ =>
      rw [mapExtensionItems] at h
      obtain ⟨mt, h1, h⟩ := except_bind_ok h
      intro g hg
      rw [List.flatMap_cons] at hg
      rcases List.mem_append.1 hg with hg | hg
      · cases dm with
        | none => cases h1
        | some d => exact mapMatcher_globs d mt h1 g hg
      · exact ih _ h g hg

/-- **C51**: a validated document is mapped without exception exactly if all its globs (other than `*`, which is never compiled) are well formed. -/
theorem C51_maps_iff (cs : Casing) (fs : Fs m) (x : ExternalOptions) (hv : x.valid = true) (he : x.emojis = some true → KeepsLowerAscii cs.lower) :
    (∃ o : Options m, mapToOptions cs glob fs cwd target x = .ok o) ↔ ∀ g ∈ allGlobs x, g ≠ j!"*" → ∃ f, glob g = .ok f := by
  constructor
  · rintro ⟨o, h⟩
    unfold mapToOptions at h
    obtain ⟨o1, _, h⟩ := except_bind_ok h
    obtain ⟨o2, h2, h⟩ := except_bind_ok h
    obtain ⟨o3, h3, h⟩ := except_bind_ok h
    intro g hg hs
    unfold allGlobs at hg
    rcases List.mem_append.1 hg with hg | hg
    · rcases List.mem_append.1 hg with hg | hg
      · unfold mapChildLimit at h2
        split at hg
        · rename_i ls hc
          rw [hc] at h2
          obtain ⟨b, h2, _⟩ := except_bind_ok h2
          exact mapLimitItems_globs ls _ b h2 g hg hs
        · cases hg
      · unfold mapFilter at h3
        cases hf : x.filter with
        | none => rw [hf] at hg; cases hg
        | some f =>
          rw [hf] at hg h3
          dsimp only at h3
          rcases List.mem_append.1 hg with hg | hg
          · cases hd : f.dir with
            | none => rw [hd] at hg; cases hg
            | some d =>
              rw [hd] at hg h3
              obtain ⟨mt, h4, _⟩ := except_bind_ok h3
              exact mapMatcher_globs d mt h4 g hg hs
          · cases hd : f.file with
            | none => rw [hd] at hg; cases hg
            | some d =>
              rw [hd] at hg
              have : ∃ mt : Matcher m, mapMatcher glob cwd target d = .ok mt := by
                cases hd' : f.dir with
                | none =>
                  rw [hd', hd] at h3
                  obtain ⟨_, _, h3⟩ := except_bind_ok h3
                  obtain ⟨mt, h3, _⟩ := except_bind_ok h3
                  exact ⟨mt, h3⟩
                | some d' =>
                  rw [hd', hd] at h3
                  obtain ⟨_, _, h3⟩ := except_bind_ok h3
                  obtain ⟨_, _, h3⟩ := except_bind_ok h3
                  obtain ⟨mt, h3, _⟩ := except_bind_ok h3
                  exact ⟨mt, h3⟩
              obtain ⟨mt, h4⟩ := this
              exact mapMatcher_globs d mt h4 g hg hs
    · unfold mapLineExtensions at h
      cases hx : x.lineExtensions with
      | none => rw [hx] at hg; cases hg
      | some es =>
        rw [hx] at hg h
        obtain ⟨b, h, _⟩ := except_bind_ok h
        exact mapExtensionItems_globs es _ b h g hg hs
  · intro h
    obtain ⟨o, ho, _⟩ := C50_meaning (m := m) (glob := glob) (G := fun g => match glob g with | .ok f => f | .error _ => fun _ => false) (cwd := cwd) (target := target) cs fs x hv
      (fun g hg hs => by obtain ⟨f, hf⟩ := h g hg hs; rw [hf]) he
    exact ⟨o, ho⟩

end

/-- An options document with all keys. -/
def Demo.doc : ExternalOptions where
  emojis := some true
  compactDirectories := some true
  maxDepth := some 3
  childLimit := some (.dynamic (some [some ⟨some (-1), some (.nameGlob (some j!"a*"))⟩, some ⟨some 2, some (.pathGlob (some j!"a"))⟩]))
  filter := some ⟨some (.noneOf (some [some (.nameGlob (some j!".git"))])), none⟩
  lineExtensions := some [some ⟨some j!" <- here", some (.allOf (some [some .alwaysTrue, some (.pathGlob (some j!"*"))]))⟩]

/-- A glob compiler that only knows plain names and rejects `[`. -/
def Demo.glob : PathMatchers.GlobCompiler := fun g => if g = j!"[" then .error .illegalArgument else .ok (fun p => decide (p.names = [g]))

/-- Example: the document is valid and is mapped (C50, C51 apply), `/r/a` is limited to 2 children, and a malformed glob is the only thing that can fail. -/
example : Demo.doc.valid = true ∧ (∀ g ∈ allGlobs Demo.doc, g ≠ j!"*" → Demo.glob g = .ok (fun p => decide (p.names = [g]))) ∧
    InTarget Demo.r Demo.a [j!"a"] ∧ LimitIs (limitRules (fun g p => decide (p.names = [g])) Demo.r
      [some ⟨some (-1), some (.nameGlob (some j!"a*"))⟩, some ⟨some 2, some (.pathGlob (some j!"a"))⟩]) Demo.a 2 := by
  refine ⟨rfl, ?_, ⟨⟨rfl, rfl⟩, rfl, by decide⟩, ?_⟩
  · intro g hg _
    have : g = j!"a*" ∨ g = j!"a" ∨ g = j!".git" ∨ g = j!"*" := by simpa [allGlobs, Demo.doc, globsOfOpt, globsOf, globsOfAll, or_assoc] using hg
    unfold Demo.glob
    rw [if_neg]
    rcases this with rfl | rfl | rfl | rfl <;> decide
  · unfold LimitIs limitRules; simp [docHolds, nameGlobHolds, pathGlobHolds, relPath, Demo.a, Demo.r]

end JFTP
