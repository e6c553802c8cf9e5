import Verif.Lemmas.Relocate

/-
C116: moving a directory does not change its text, whatever is chosen with the building blocks of the library.
-/

namespace JFTP
open Spec Spec.OnePage

namespace OnePage

variable {w w' : Place} {b b' : List JStr}

/-! ### Settings -/

theorem truth_same (h : SameDir w w' b b') {inner : Bool} {c c' : Cond} (hc : CondSame w w' b b' inner c c') : Agree w b b' inner (c.truth w) (c'.truth w') := by
  intro rest hf hi
  rw [Bool.eq_iff_iff, truth_iff, truth_iff]
  exact cond_same h hc hf hi

/-- The settings answer the same for what is found from `/b` and for the corresponding paths. -/
structure SettingsSame (w : Place) (b b' : List JStr) (S S' : Settings) : Prop where
  showDir : Agree w b b' true S.showDir S'.showDir
  showFile : Agree w b b' true S.showFile S'.showFile
  order : CmpSame w b b' S.order S'.order
  limit : Agree w b b' false S.limit S'.limit
  maxDepth : S'.maxDepth = S.maxDepth
  compact : S'.compact = S.compact
  emoji : Agree w b b' false S.emoji S'.emoji
  ext : Agree w b b' false S.ext S'.ext
  branch : S'.branch = S.branch
  lastBranch : S'.lastBranch = S.lastBranch
  bar : S'.bar = S.bar
  blank : S'.blank = S.blank

theorem sortRule_same (h : SameDir w w' b b') {r r' : SortRule} (hr : SortRuleSame w w' b b' r r') : Agree w b b' true (r.says w) (r'.says w') := by
  intro rest hf hi
  cases hr with
  | add ha => exact ha rest hf hi
  | addMatching hc => simp only [SortRule.says, truth_same h hc rest hf hi]
  | addFirst hc => simp only [SortRule.says, truth_same h hc rest hf hi]
  | addLast hc => simp only [SortRule.says, truth_same h hc rest hf hi]

theorem find_rank_same (h : SameDir w w' b b') {rs rs' : List SortRule} (hr : List.Forall₂ (SortRuleSame w w' b b') rs rs') {rest : List JStr} (hf : Found w.fs b rest) (hi : rest ≠ []) :
    (rs'.find? (fun r => decide (r.says w' (under b' rest) ≠ 0))).map (fun r => r.says w' (under b' rest)) = (rs.find? (fun r => decide (r.says w (under b rest) ≠ 0))).map (fun r => r.says w (under b rest)) := by
  induction hr with
  | nil => rfl
  | @cons r r' rs rs' h1 h2 ih =>
    have e := sortRule_same h h1 rest hf fun _ => hi
    simp only [List.find?_cons, e]
    split
    · simp only [Option.map_some, e]
    · exact ih

theorem rank_eq (rs : List SortRule) (p : Path) : rank w rs p = ((rs.find? (fun r => decide (r.says w p ≠ 0))).map (fun r => r.says w p)).getD 0 := by
  unfold rank
  split <;> rename_i heq <;> simp only [heq] <;> rfl

theorem rank_same (h : SameDir w w' b b') {rs rs' : List SortRule} (hr : List.Forall₂ (SortRuleSame w w' b b') rs rs') : Agree w b b' true (rank w rs) (rank w' rs') := by
  intro rest hf hi
  rw [rank_eq, rank_eq, find_rank_same h hr hf (hi rfl)]

theorem limitRule_same (h : SameDir w w' b b') {r r' : LimitRule} (hr : LimitRuleSame w w' b b' r r') : Agree w b b' false (r.says w) (r'.says w') := by
  intro rest hf hi
  cases hr with
  | add ha => exact ha rest hf hi
  | addMatching hc => simp only [LimitRule.says, truth_same h hc rest hf hi]

theorem find_limit_same (h : SameDir w w' b b') {rs rs' : List LimitRule} (hr : List.Forall₂ (LimitRuleSame w w' b b') rs rs') {rest : List JStr} (hf : Found w.fs b rest) :
    (rs'.find? (fun r => decide (0 ≤ r.says w' (under b' rest)))).map (fun r => r.says w' (under b' rest)) = (rs.find? (fun r => decide (0 ≤ r.says w (under b rest)))).map (fun r => r.says w (under b rest)) := by
  induction hr with
  | nil => rfl
  | @cons r r' rs rs' h1 h2 ih =>
    have e := limitRule_same h h1 rest hf (by simp)
    simp only [List.find?_cons, e]
    split
    · simp only [Option.map_some, e]
    · exact ih

theorem limitOf_eq (n : Int) (rs : List LimitRule) (p : Path) :
    limitOf w n rs p = ((rs.find? (fun r => decide (0 ≤ r.says w p))).map (fun r => r.says w p)).getD (if rs.isEmpty then n else -1) := by
  unfold limitOf
  split <;> rename_i heq <;> simp [heq]

theorem limitOf_same (h : SameDir w w' b b') {n : Int} {rs rs' : List LimitRule} (hr : List.Forall₂ (LimitRuleSame w w' b b') rs rs') : Agree w b b' false (limitOf w n rs) (limitOf w' n rs') := by
  intro rest hf _
  rw [limitOf_eq, limitOf_eq, find_limit_same h hr hf]
  cases hr <;> rfl

theorem extRule_same (h : SameDir w w' b b') {r r' : ExtRule} (hr : ExtRuleSame w w' b b' r r') : Agree w b b' false (r.says w) (r'.says w') := by
  intro rest hf hi
  cases hr with
  | add ha => exact ha rest hf hi
  | addMatching hc => simp only [ExtRule.says, truth_same h hc rest hf hi]
  | addLineBreak hc => simp only [ExtRule.says, truth_same h hc rest hf hi]

theorem exts_same (h : SameDir w w' b b') {rs rs' : List ExtRule} (hr : List.Forall₂ (ExtRuleSame w w' b b') rs rs') :
    Agree w b b' false (fun p => rs.findSome? fun r => r.says w p) (fun p => rs'.findSome? fun r => r.says w' p) := by
  intro rest hf hi
  dsimp only
  induction hr with
  | nil => rfl
  | @cons r r' rs rs' h1 h2 ih => simp only [List.findSome?_cons, extRule_same h h1 rest hf hi, ih]

/-- The calls are the same, up to the matchers, which answer the same for `p` as for `p'`. -/
inductive EmojiSame (p p' : Path) : EmojiCall → EmojiCall → Prop where
  | same {c} : c.asDirRule = none → c.asFileRule = none → EmojiSame p p' c c
  | dir {mt mt' e} : mt' p' = mt p → EmojiSame p p' (.addDirectoryEmoji mt e) (.addDirectoryEmoji mt' e)
  | file {mt mt' e} : mt' p' = mt p → EmojiSame p p' (.addFileEmoji mt e) (.addFileEmoji mt' e)

theorem emojiSame_map {p p' : Path} {α : Type} {f : EmojiCall → Option α} (h1 : ∀ mt mt' e, f (.addDirectoryEmoji mt e) = f (.addDirectoryEmoji mt' e))
    (h2 : ∀ mt mt' e, f (.addFileEmoji mt e) = f (.addFileEmoji mt' e)) {cs cs' : List EmojiCall} (h : List.Forall₂ (EmojiSame p p') cs cs') : cs'.filterMap f = cs.filterMap f := by
  induction h with
  | nil => rfl
  | cons h _ ih =>
    rw [List.filterMap_cons, List.filterMap_cons, ih]
    cases h with
    | same => rfl
    | dir => rw [h1]
    | file => rw [h2]

theorem customDir_same {p p' : Path} {cs cs' : List EmojiCall} (h : List.Forall₂ (EmojiSame p p') cs cs') :
    customEmoji (cs'.filterMap EmojiCall.asDirRule) p' = customEmoji (cs.filterMap EmojiCall.asDirRule) p := by
  unfold customEmoji
  induction h with
  | nil => rfl
  | cons h _ ih =>
    cases h with
    | same h1 h2 => simp only [List.filterMap_cons, h1]; exact ih
    | @dir mt mt' e he =>
      simp only [List.filterMap_cons, EmojiCall.asDirRule, List.find?_cons, he]
      split
      · rfl
      · exact ih
    | file he => simp only [List.filterMap_cons, EmojiCall.asDirRule]; exact ih

theorem customFile_same {p p' : Path} {cs cs' : List EmojiCall} (h : List.Forall₂ (EmojiSame p p') cs cs') :
    customEmoji (cs'.filterMap EmojiCall.asFileRule) p' = customEmoji (cs.filterMap EmojiCall.asFileRule) p := by
  unfold customEmoji
  induction h with
  | nil => rfl
  | cons h _ ih =>
    cases h with
    | same h1 h2 => simp only [List.filterMap_cons, h2]; exact ih
    | @file mt mt' e he =>
      simp only [List.filterMap_cons, EmojiCall.asFileRule, List.find?_cons, he]
      split
      · rfl
      · exact ih
    | dir he => simp only [List.filterMap_cons, EmojiCall.asFileRule]; exact ih

theorem iconOf_same {lower : JStr → JStr} {isDir isDir' : Path → Bool} {p p' : Path} {cs cs' : List EmojiCall} (h : List.Forall₂ (EmojiSame p p') cs cs') (hd : isDir' p' = isDir p)
    (hn : p'.names.getLast? = p.names.getLast?) : iconOf lower isDir' cs' p' = iconOf lower isDir cs p := by
  have hn' : p'.getFileName = p.getFileName := hn
  unfold iconOf dirEmoji fileEmoji
  rw [hd, hn, hn', customDir_same h, customFile_same h, emojiSame_map (f := EmojiCall.asDirName) (fun _ _ _ => rfl) (fun _ _ _ => rfl) h,
    emojiSame_map (f := EmojiCall.asDefaultDir) (fun _ _ _ => rfl) (fun _ _ _ => rfl) h, emojiSame_map (f := EmojiCall.asFileName) (fun _ _ _ => rfl) (fun _ _ _ => rfl) h,
    emojiSame_map (f := EmojiCall.asFileExt) (fun _ _ _ => rfl) (fun _ _ _ => rfl) h, emojiSame_map (f := EmojiCall.asDefaultFile) (fun _ _ _ => rfl) (fun _ _ _ => rfl) h]

theorem emojiSame_refl {p p' : Path} : ∀ {cs : List EmojiCall}, (∀ c ∈ cs, c.asDirRule = none ∧ c.asFileRule = none) → List.Forall₂ (EmojiSame p p') cs cs
  | [], _ => .nil
  | c :: cs, h => .cons (.same (h c (by simp)).1 (h c (by simp)).2) (emojiSame_refl fun x hx => h x (by simp [hx]))

theorem default_rules : ∀ c ∈ defaultCalls, c.asDirRule = none ∧ c.asFileRule = none := by
  intro c hc
  simp only [defaultCalls, List.mem_append, List.mem_map] at hc
  rcases hc with ⟨x, -, rfl⟩ | ⟨x, -, rfl⟩ <;> exact ⟨rfl, rfl⟩

theorem movedIcon_same (h : SameDir w w' b b') {c c' : IconCall} (hc : IconCallSame w w' b b' c c') {rest : List JStr} (hf : Found w.fs b rest) :
    EmojiSame (under b rest) (under b' rest) (c.said w) (c'.said w') := by
  cases hc with
  | addDirectoryEmoji hc => exact .dir (truth_same h hc rest hf (by simp))
  | addFileEmoji hc => exact .file (truth_same h hc rest hf (by simp))
  | _ => exact .same rfl rfl

theorem movedIcons_same (h : SameDir w w' b b') (d : Bool) {cs cs' : List IconCall} (hc : List.Forall₂ (IconCallSame w w' b b') cs cs') {rest : List JStr} (hf : Found w.fs b rest) :
    List.Forall₂ (EmojiSame (under b rest) (under b' rest)) (iconCalls w d cs) (iconCalls w' d cs') := by
  unfold iconCalls
  have h2 : List.Forall₂ (EmojiSame (under b rest) (under b' rest)) (cs.map (IconCall.said w)) (cs'.map (IconCall.said w')) := by
    rw [List.forall₂_map_left_iff, List.forall₂_map_right_iff]
    exact hc.imp fun _ _ hx => movedIcon_same h hx hf
  cases d with
  | false => exact h2
  | true => exact List.rel_append (emojiSame_refl default_rules) h2

theorem choose_same (h : SameDir w w' b b') {x x' : Choice} (hx : ChoiceSame w w' b b' x x') {S S' : Settings} (hS : SettingsSame w b b' S S') :
    SettingsSame w b b' (x.choose w S) (x'.choose w' S') := by
  obtain ⟨h1, h2, h3, h4, h5, h6, h7, h8, h9, h10, h11, h12⟩ := hS
  cases hx with
  | withMaxDepth => exact ⟨h1, h2, h3, h4, rfl, h6, h7, h8, h9, h10, h11, h12⟩
  | withCompactDirectories => exact ⟨h1, h2, h3, h4, h5, rfl, h7, h8, h9, h10, h11, h12⟩
  | withTreeFormat => exact ⟨h1, h2, h3, h4, h5, h6, h7, h8, rfl, rfl, rfl, rfl⟩
  | filterDirectories hc => exact ⟨truth_same h hc, h2, h3, h4, h5, h6, h7, h8, h9, h10, h11, h12⟩
  | filterFiles hc => exact ⟨h1, truth_same h hc, h3, h4, h5, h6, h7, h8, h9, h10, h11, h12⟩
  | sort hc => exact ⟨h1, h2, hc, h4, h5, h6, h7, h8, h9, h10, h11, h12⟩
  | @sortBy rs rs' hr =>
    refine ⟨h1, h2, ?_, h4, h5, h6, h7, h8, h9, h10, h11, h12⟩
    intro r1 r2 hf1 hf2 hn1 hn2
    show (if rank w' rs' (under b' r1) < rank w' rs' (under b' r2) then (-1 : Int) else if rank w' rs' (under b' r1) = rank w' rs' (under b' r2) then 0 else 1) = _
    rw [rank_same h hr r1 hf1 fun _ => hn1, rank_same h hr r2 hf2 fun _ => hn2]
    rfl
  | withChildLimit => exact ⟨h1, h2, h3, fun _ _ _ => rfl, h5, h6, h7, h8, h9, h10, h11, h12⟩
  | withChildLimitFn ha => exact ⟨h1, h2, h3, ha, h5, h6, h7, h8, h9, h10, h11, h12⟩
  | withChildLimits hr => exact ⟨h1, h2, h3, limitOf_same h hr, h5, h6, h7, h8, h9, h10, h11, h12⟩
  | withDefaultEmojis =>
    refine ⟨h1, h2, h3, h4, h5, h6, fun rest hf _ => ?_, h8, h9, h10, h11, h12⟩
    show some (iconOf w'.casing.lower w'.fs.isDir defaultCalls (under b' rest)) = some (iconOf w.casing.lower w.fs.isDir defaultCalls (under b rest))
    rw [h.casing, iconOf_same (emojiSame_refl default_rules) (h.below.isDir rest) (last_moved h.name rest)]
  | withEmojiFn ha => exact ⟨h1, h2, h3, h4, h5, h6, ha, h8, h9, h10, h11, h12⟩
  | @withEmojis d cs cs' hc =>
    refine ⟨h1, h2, h3, h4, h5, h6, fun rest hf _ => ?_, h8, h9, h10, h11, h12⟩
    show some (iconOf w'.casing.lower w'.fs.isDir (iconCalls w' d cs') (under b' rest)) = some (iconOf w.casing.lower w.fs.isDir (iconCalls w d cs) (under b rest))
    rw [h.casing, iconOf_same (movedIcons_same h d hc hf) (h.below.isDir rest) (last_moved h.name rest)]
  | withLineExtensionFn ha => exact ⟨h1, h2, h3, h4, h5, h6, h7, ha, h9, h10, h11, h12⟩
  | withLineExtension hr => exact ⟨h1, h2, h3, h4, h5, h6, h7, exts_same h hr, h9, h10, h11, h12⟩

theorem settings_refl (S : Settings) (h1 : ∀ p, S.showDir p = true) (h2 : ∀ p, S.showFile p = true) (h3 : ∀ p q, S.order p q = 0) (h4 : ∀ p, S.limit p = -1) (h5 : ∀ p, S.emoji p = none)
    (h6 : ∀ p, S.ext p = none) : SettingsSame w b b' S S :=
  ⟨fun _ _ _ => by rw [h1, h1], fun _ _ _ => by rw [h2, h2], fun _ _ _ _ _ _ => by rw [h3, h3], fun _ _ _ => by rw [h4, h4], rfl, rfl, fun _ _ _ => by rw [h5, h5], fun _ _ _ => by rw [h6, h6], rfl, rfl, rfl, rfl⟩

theorem chosen_same (h : SameDir w w' b b') {xs xs' : List Choice} (hx : List.Forall₂ (ChoiceSame w w' b b') xs xs') : SettingsSame w b b' (chosenBy w xs) (chosenBy w' xs') := by
  have key : ∀ {xs xs' : List Choice}, List.Forall₂ (ChoiceSame w w' b b') xs xs' → ∀ {S S' : Settings}, SettingsSame w b b' S S' →
      SettingsSame w b b' (xs.foldl (Choice.choose w) S) (xs'.foldl (Choice.choose w') S') := by
    intro xs xs' hx
    induction hx with
    | nil => exact fun hS => hS
    | cons h1 _ ih => exact fun hS => ih (choose_same h h1 hS)
  exact key hx (settings_refl _ (fun _ => rfl) (fun _ => rfl) (fun _ _ => rfl) (fun _ => rfl) (fun _ => rfl) (fun _ => rfl))

theorem SettingsSame.answers {S S' : Settings} (h : SettingsSame w b b' S S') : SameAnswers w.fs (optionsOf S) (optionsOf S') b b' where
  childLimit r hf := congrArg Except.ok (h.limit r hf (by simp))
  dirMatcher r hr hf := congrArg Except.ok (h.showDir r hf fun _ => hr)
  fileMatcher r hr hf := congrArg Except.ok (h.showFile r hf fun _ => hr)
  comparator r1 r2 h1 h2 f1 f2 := by
    have e : PathSorts.ALPHABETICAL (under b' r1) (under b' r2) = PathSorts.ALPHABETICAL (under b r1) (under b r2) := (sameAnswers_default (fs := w.fs)).comparator r1 r2 h1 h2 f1 f2
    show thenComparing S'.order PathSorts.ALPHABETICAL _ _ = thenComparing S.order PathSorts.ALPHABETICAL _ _
    unfold thenComparing
    simp only [e, h.order r1 r2 f1 f2 h1 h2]
  emoji r hr hf := congrArg Except.ok (h.emoji r hf (by simp))
  ext r hr hf := congrArg Except.ok (h.ext r hf (by simp))
  maxDepth := h.maxDepth
  compact := h.compact
  format := by simp only [optionsOf, h.branch, h.lastBranch, h.bar, h.blank]

theorem same_print (h : SameDir w w' b b') (hfs : ProperFs w.fs) (hfs' : ProperFs w'.fs) (hw : w.cwd.abs = true) (hw' : w'.cwd.abs = true) {xs xs' : List Choice}
    (hx : List.Forall₂ (ChoiceSame w w' b b') xs xs') (hc : ∀ c, .sort c ∈ xs → LawfulCmp c) (hc' : ∀ c, .sort c ∈ xs' → LawfulCmp c) {p p' : Path} (hp : target w.cwd p = under b [])
    (hp' : target w'.cwd p' = under b' []) (s : JStr) :
    prettyPrint w'.fs.lift w'.cwd (optionsOf (chosenBy w' xs')) p' = .ok s ↔ prettyPrint w.fs.lift w.cwd (optionsOf (chosenBy w xs)) p = .ok s := by
  have hS := chosen_same h hx
  have hl := lawful_choose (w := w) (S := standard) lawful_const hc
  have hl' := lawful_choose (w := w') (S := standard) lawful_const hc'
  exact C83_move hw hw' h.below hS.answers (sort_lawful hl) (sort_lawful hl') (sort_distinguishes hl hfs) (sort_distinguishes hl' hfs') hp hp' h.name
    (congrArg Except.ok (hS.emoji [] .here (by simp))) (congrArg Except.ok (hS.ext [] .here (by simp))) s

/-! ### Which calls succeed -/

mutual
theorem good_glob (hg : w'.glob = w.glob) (c : Cond) : c.Good w' ↔ c.Good w := by
  match c with
  | .not c => exact good_glob hg c
  | .allOf cs => exact and_congr .rfl (allGood_glob hg cs)
  | .anyOf cs => exact and_congr .rfl (allGood_glob hg cs)
  | .noneOf cs => exact and_congr .rfl (allGood_glob hg cs)
  | .ifThenElse i t e => exact and_congr (good_glob hg i) (and_congr (good_glob hg t) (good_glob hg e))
  | .absolute c => exact good_glob hg c
  | .relative _ c => exact good_glob hg c
  | .absoluteGlob g => simp only [Cond.Good, hg]
  | .relativeGlob _ g => simp only [Cond.Good, hg]
  | .nameGlob g => simp only [Cond.Good, hg]
  | .parent c => exact good_glob hg c
  | .ancestor c => exact good_glob hg c
  | .child c => exact good_glob hg c
  | .descendant c => exact good_glob hg c
  | .sibling c => exact good_glob hg c
  | .test _ => exact .rfl
  | .name _ => exact .rfl
  | .nameIgnoreCase _ => exact .rfl
  | .namePattern _ => exact .rfl
  | .nameStart _ => exact .rfl
  | .nameEnd _ => exact .rfl
  | .extension _ => exact .rfl
  | .isDirectory => exact .rfl
  | .isFile => exact .rfl
  | .isRegularFile => exact .rfl
  | .isSymbolicLink => exact .rfl
theorem allGood_glob (hg : w'.glob = w.glob) (cs : List Cond) : Cond.AllGood w' cs ↔ Cond.AllGood w cs := by
  match cs with
  | [] => exact .rfl
  | c :: cs => exact and_congr (good_glob hg c) (allGood_glob hg cs)
end

mutual
theorem good_same (hg : w'.glob = w.glob) {inner : Bool} {c c' : Cond} (h : CondSame w w' b b' inner c c') : c'.Good w' ↔ c.Good w := by
  match h with
  | .not (c := c) (c' := c') h => exact good_same (c := c) (c' := c') hg h
  | .allOf h => exact and_congr (allGood_same hg h).1 (allGood_same hg h).2
  | .anyOf h => exact and_congr (allGood_same hg h).1 (allGood_same hg h).2
  | .noneOf h => exact and_congr (allGood_same hg h).1 (allGood_same hg h).2
  | .ifThenElse h1 h2 h3 => exact and_congr (good_same hg h1) (and_congr (good_same hg h2) (good_same hg h3))
  | .relative (c := c) _ _ ht => exact good_glob (c := c) hg
  | .relativeGlob (ref := r) (g := g) _ _ => exact good_glob hg (.relativeGlob r g)
  | .nameGlob (g := g) => exact good_glob hg (.nameGlob g)
  | .parent (c := c) (c' := c') h => exact good_same (c := c) (c' := c') hg h
  | .child (c := c) (c' := c') h => exact good_same (c := c) (c' := c') hg h
  | .descendant (c := c) (c' := c') h => exact good_same (c := c) (c' := c') hg h
  | .sibling (c := c) (c' := c') h => exact good_same (c := c) (c' := c') hg h
  | .test _ => exact .rfl
  | .name => exact .rfl
  | .nameIgnoreCase => exact .rfl
  | .namePattern => exact .rfl
  | .nameStart => exact .rfl
  | .nameEnd => exact .rfl
  | .extension => exact .rfl
  | .isDirectory => exact .rfl
  | .isFile => exact .rfl
  | .isRegularFile => exact .rfl
  | .isSymbolicLink => exact .rfl
theorem allGood_same (hg : w'.glob = w.glob) {inner : Bool} {cs cs' : List Cond} (h : CondsSame w w' b b' inner cs cs') : (cs' ≠ [] ↔ cs ≠ []) ∧ (Cond.AllGood w' cs' ↔ Cond.AllGood w cs) := by
  match h with
  | .nil => exact ⟨.rfl, .rfl⟩
  | .cons h1 h2 => exact ⟨by simp, and_congr (good_same hg h1) (allGood_same hg h2).2⟩
end

theorem forall_same {α : Type} {R : α → α → Prop} {P P' : α → Prop} (h : ∀ x x', R x x' → (P' x' ↔ P x)) {l l' : List α} (hl : List.Forall₂ R l l') : (∀ x ∈ l', P' x) ↔ ∀ x ∈ l, P x := by
  induction hl with
  | nil => simp
  | cons h1 _ ih => simp only [List.mem_cons, forall_eq_or_imp, h _ _ h1, ih]

theorem clash_same (h : SameDir w w' b b') (d : Bool) {cs cs' : List IconCall} (hc : List.Forall₂ (IconCallSame w w' b b') cs cs') (lower : JStr → JStr) :
    NoClash lower (iconCalls w' d cs') ↔ NoClash lower (iconCalls w d cs) := by
  have := movedIcons_same h d hc .here
  unfold NoClash
  rw [emojiSame_map (f := EmojiCall.asDirName) (fun _ _ _ => rfl) (fun _ _ _ => rfl) this, emojiSame_map (f := EmojiCall.asFileName) (fun _ _ _ => rfl) (fun _ _ _ => rfl) this,
    emojiSame_map (f := EmojiCall.asFileExt) (fun _ _ _ => rfl) (fun _ _ _ => rfl) this]

theorem choiceGood_same (h : SameDir w w' b b') {x x' : Choice} (hx : ChoiceSame w w' b b' x x') : x'.Good w' ↔ x.Good w := by
  have hg := h.glob
  cases hx with
  | filterDirectories hc => exact good_same hg hc
  | filterFiles hc => exact good_same hg hc
  | sortBy hr =>
    refine forall_same (fun r r' hr => ?_) hr
    cases hr with
    | add => exact .rfl
    | addMatching hc => exact good_same hg hc
    | addFirst hc => exact good_same hg hc
    | addLast hc => exact good_same hg hc
  | withChildLimits hr =>
    refine forall_same (fun r r' hr => ?_) hr
    cases hr with
    | add => exact .rfl
    | addMatching hc => exact good_same hg hc
  | withDefaultEmojis => simp only [Choice.Good, h.casing]
  | withEmojis hc =>
    simp only [Choice.Good, h.casing, clash_same h _ hc]
    refine and_congr (forall_same (fun r r' hr => ?_) hc) .rfl
    cases hr with
    | addDirectoryEmoji hc => exact good_same hg hc
    | addFileEmoji hc => exact good_same hg hc
    | _ => exact .rfl
  | withLineExtension hr =>
    refine forall_same (fun r r' hr => ?_) hr
    cases hr with
    | add => exact .rfl
    | addMatching hc => exact good_same hg hc
    | addLineBreak hc => exact good_same hg hc
  | _ => exact .rfl

end OnePage

variable {w w' : Place} {b b' : List JStr}

/-- **C116**: the calls for the one place succeed if and only if those for the other one do. -/
theorem C116_builds (h : SameDir w w' b b') (hw : w.cwd.abs = true) (hw' : w'.cwd.abs = true) {xs xs' : List Choice} (hx : List.Forall₂ (ChoiceSame w w' b b') xs xs') :
    (∃ ob, calls w' xs' = .ok ob) ↔ ∃ ob, calls w xs = .ok ob := by
  rw [C103_builds hw', C103_builds hw]
  exact OnePage.forall_same (fun _ _ hx => OnePage.choiceGood_same h hx) hx

/-- **C116**: a directory is at two places (possibly of different machines), and the options are chosen by the same calls, with own functions that answer the same at both places and with relative paths
that are relative to the directory. Whatever texts are printed for it at both places, they are the same. -/
theorem C116_texts (h : SameDir w w' b b') (hfs : ProperFs w.fs) (hfs' : ProperFs w'.fs) (hw : w.cwd.abs = true) (hw' : w'.cwd.abs = true) {xs xs' : List Choice}
    (hx : List.Forall₂ (ChoiceSame w w' b b') xs xs') (hc : ∀ c, .sort c ∈ xs → LawfulCmp c) (hc' : ∀ c, .sort c ∈ xs' → LawfulCmp c) {ob ob' : Object} (ho : calls w xs = .ok ob)
    (ho' : calls w' xs' = .ok ob') {p p' : Path} (hp : target w.cwd p = under b []) (hp' : target w'.cwd p' = under b' []) {s s' : JStr} (hs : ob.print w p = .ok s) (hs' : ob'.print w' p' = .ok s') :
    s' = s := by
  have hl := OnePage.lawful_choose (w := w) (S := standard) lawful_const hc
  have hl' := OnePage.lawful_choose (w := w') (S := standard) lawful_const hc'
  have h1 := (OnePage.calls_faithful hw xs (OnePage.faithful_standard _) ho).sound hl hfs hw hs
  have h2 := (OnePage.calls_faithful hw' xs' (OnePage.faithful_standard _) ho').sound hl' hfs' hw' hs'
  have h3 := (OnePage.same_print h hfs hfs' hw hw' hx hc hc' hp hp' s).2 h1
  exact Except.ok.inj (h2.symm.trans h3)

/-- **C116**: if moreover everything on both disks can be read, then the same text is printed at both places, or at none of them a text is printed. -/
theorem C116_move (h : SameDir w w' b b') (hfs : ProperFs w.fs) (hfs' : ProperFs w'.fs) (hr : OnePage.Readable w.fs) (hr' : OnePage.Readable w'.fs) (hw : w.cwd.abs = true) (hw' : w'.cwd.abs = true)
    {xs xs' : List Choice} (hx : List.Forall₂ (ChoiceSame w w' b b') xs xs') (hc : ∀ c, .sort c ∈ xs → LawfulCmp c) (hc' : ∀ c, .sort c ∈ xs' → LawfulCmp c) {ob ob' : Object}
    (ho : calls w xs = .ok ob) (ho' : calls w' xs' = .ok ob') {p p' : Path} (hp : target w.cwd p = under b []) (hp' : target w'.cwd p' = under b' []) (s : JStr) :
    ob'.print w' p' = .ok s ↔ ob.print w p = .ok s := by
  have hl := OnePage.lawful_choose (w := w) (S := standard) lawful_const hc
  have hl' := OnePage.lawful_choose (w := w') (S := standard) lawful_const hc'
  have h1 := OnePage.calls_faithful hw xs (OnePage.faithful_standard _) ho
  have h2 := OnePage.calls_faithful hw' xs' (OnePage.faithful_standard _) ho'
  have h3 := OnePage.same_print h hfs hfs' hw hw' hx hc hc' hp hp' s
  exact ⟨fun hs => h1.complete hr hl hfs hw (h3.1 (h2.sound hl' hfs' hw' hs)), fun hs => h2.complete hr' hl' hfs' hw' (h3.2 (h1.sound hl hfs hw hs))⟩

/-- **C116**: the sorts of `PathSorts` answer the same at both places (the one by size if the sizes are the same), and they are orders. -/
theorem C116_sorts (h : SameDir w w' b b') {size size' : Path → Int} (hz : OnePage.Agree w b b' true size size') :
    (CmpSame w b b' PathSorts.ALPHABETICAL PathSorts.ALPHABETICAL ∧ LawfulCmp PathSorts.ALPHABETICAL) ∧
    (CmpSame w b b' (PathSorts.DIRECTORY_FIRST w.fs.isDir) (PathSorts.DIRECTORY_FIRST w'.fs.isDir) ∧ LawfulCmp (PathSorts.DIRECTORY_FIRST w.fs.isDir)) ∧
    (CmpSame w b b' (PathSorts.DIRECTORY_LAST w.fs.isDir) (PathSorts.DIRECTORY_LAST w'.fs.isDir) ∧ LawfulCmp (PathSorts.DIRECTORY_LAST w.fs.isDir)) ∧
    (CmpSame w b b' (PathSorts.BY_FILE_SIZE w.fs.isDir size) (PathSorts.BY_FILE_SIZE w'.fs.isDir size') ∧ LawfulCmp (PathSorts.BY_FILE_SIZE w.fs.isDir size)) ∧
    (CmpSame w b b' (PathSorts.BY_EXTENSION w.casing.fold w.fs.isDir) (PathSorts.BY_EXTENSION w'.casing.fold w'.fs.isDir) ∧ LawfulCmp (PathSorts.BY_EXTENSION w.casing.fold w.fs.isDir)) := by
  have hn : ∀ rest, PathSorts.nameKey (under b' rest) = PathSorts.nameKey (under b rest) := fun rest => by
    unfold PathSorts.nameKey Path.getFileName; rw [OnePage.last_moved h.name rest]
  refine ⟨⟨?_, lawful_ALPHABETICAL⟩, ⟨?_, lawful_DIRECTORY_FIRST _⟩, ⟨?_, lawful_DIRECTORY_LAST _⟩, ⟨?_, lawful_BY_FILE_SIZE _ _⟩, ⟨?_, lawful_BY_EXTENSION _ _⟩⟩ <;> intro r1 r2 f1 f2 n1 n2
  · simp only [PathSorts.ALPHABETICAL, hn]
  · simp only [PathSorts.DIRECTORY_FIRST, h.below.isDir]
  · simp only [PathSorts.DIRECTORY_LAST, PathSorts.DIRECTORY_FIRST, reversed, h.below.isDir]
  · simp only [PathSorts.BY_FILE_SIZE, h.below.isDir, hz r1 f1 fun _ => n1, hz r2 f2 fun _ => n2]
  · simp only [PathSorts.BY_EXTENSION, h.below.isDir, hn, h.casing]

/-! ### Real disks -/

/-- The same node, without symbolic links in it, at two places of two disks. -/
theorem OnePage.sameDir_of_node {t t' : Node} (he : w.fs = t.toFs) (he' : w'.fs = t'.toFs) (h : t'.get b' = t.get b) (hl : ∀ rest q, t.get (b ++ rest) ≠ some (.symlink q)) (ht : t.Real)
    (hn : b'.getLast? = b.getLast?) (hc : w'.casing = w.casing) (hg : w'.glob = w.glob) (hr : ∀ n ∈ b ++ b', n ≠ j!"." ∧ n ≠ j!"..") : SameDir w w' b b' := by
  have hat : ∀ rest, t'.at (under b' rest) = t.at (under b rest) := by
    intro rest
    show t'.get (b' ++ rest) = t.get (b ++ rest)
    rw [get_append, get_append, h]
  refine ⟨by rw [he, he']; exact .of_node h hl, fun rest => ?_, fun rest => ?_, hn, hc, hg, hr, by rw [he]; exact ht.realNames⟩
  · rw [he, he']
    simp only [Node.toFs, hat]
  · rw [he, he']
    simp only [Node.toFs, hat]

/-- **C116** for disks whose directories can all be listed: the same directory, without symbolic links in it, at two places under the same name; the same calls with the building blocks of the library. If
they succeed for the one place, they do for the other one, and then the texts are the same. -/
theorem C116_disk {t t' : Node} (hwf : t.WF) (hwf' : t'.WF) (hop : OnePage.Open t) (hop' : OnePage.Open t') (he : w.fs = t.toFs) (he' : w'.fs = t'.toFs) (hg : t'.get b' = t.get b)
    (hl : ∀ rest q, t.get (b ++ rest) ≠ some (.symlink q)) (ht : t.Real) (hn : b'.getLast? = b.getLast?) (hcs : w'.casing = w.casing) (hgl : w'.glob = w.glob)
    (hr : ∀ n ∈ b ++ b', n ≠ j!"." ∧ n ≠ j!"..") (hw : w.cwd.abs = true) (hw' : w'.cwd.abs = true) {xs xs' : List Choice} (hx : List.Forall₂ (ChoiceSame w w' b b') xs xs')
    (hc : ∀ c, .sort c ∈ xs → LawfulCmp c) (hc' : ∀ c, .sort c ∈ xs' → LawfulCmp c) {p p' : Path} (hp : target w.cwd p = under b []) (hp' : target w'.cwd p' = under b' []) {ob : Object}
    (ho : calls w xs = .ok ob) : ∃ ob', calls w' xs' = .ok ob' ∧ ∀ s, ob'.print w' p' = .ok s ↔ ob.print w p = .ok s := by
  have h := OnePage.sameDir_of_node he he' hg hl ht hn hcs hgl hr
  obtain ⟨ob', ho'⟩ := (C116_builds h hw hw' hx).2 ⟨ob, ho⟩
  exact ⟨ob', ho', C116_move h (by rw [he]; exact hwf.proper) (by rw [he']; exact hwf'.proper) (by rw [he]; exact hop.readable) (by rw [he']; exact hop'.readable) hw hw' hx hc hc' ho ho' hp hp'⟩

/-! ### A concrete case: `/r` of the example disk copied to `/backup/old/r` of another one -/

namespace Demo

/-- Where the copy is printed; the working directory is another one. -/
def copyPlace : Place := { place with fs := copyDisk.toFs, cwd := ⟨true, [j!"backup"]⟩ }

/-- Files without siblings of a certain name; a glob relative to the printed directory; directories first. -/
def moving (fs : PureFs) (ref : Path) : List Choice :=
  [.filterFiles (.anyOf [.not (.name j!"y"), .sibling (.nameEnd j!".txt"), .parent (.descendant (.name j!"z"))]), .withChildLimits 3 [.addMatching (.allOf [.child (.name j!"x"), .isDirectory]) 1],
    .sort (PathSorts.DIRECTORY_LAST fs.isDir), .withLineExtension [.addMatching (.relativeGlob ref j!"*") j!" <- here", .addMatching (.relative ref (.name j!"a")) j!" <- a"],
    .withEmojis false [.setDefaultFileEmoji j!"f", .addDirectoryEmoji (.relative ref (.test fun p => p.names.length == 1)) j!"d"]]

theorem movingSame (h : SameDir place copyPlace [j!"r"] [j!"backup", j!"old", j!"r"]) :
    List.Forall₂ (ChoiceSame place copyPlace [j!"r"] [j!"backup", j!"old", j!"r"]) (moving dfs r) (moving copyDisk.toFs ⟨false, [j!"old", j!"r"]⟩) := by
  have h1 : (placed place.cwd r).normalize = under [j!"r"] [] := by decide
  have h2 : (placed copyPlace.cwd ⟨false, [j!"old", j!"r"]⟩).normalize = under [j!"backup", j!"old", j!"r"] [] := by decide
  refine .cons (.filterFiles (.anyOf (.cons (.not .name) (.cons (.sibling .nameEnd) (.cons (.parent (.descendant .name)) .nil)))))
    (.cons (.withChildLimits (.cons (.addMatching (.allOf (.cons (.child .name) (.cons .isDirectory .nil)))) .nil))
    (.cons (.sort (C116_sorts h (size := fun _ => 0) (size' := fun _ => 0) (fun _ _ _ => rfl)).2.2.1.1)
    (.cons (.withLineExtension (.cons (.addMatching (.relativeGlob h1 h2)) (.cons (.addMatching (.relative h1 h2 trivial)) .nil)))
    (.cons (.withEmojis (.cons .setDefaultFileEmoji (.cons (.addDirectoryEmoji (.relative h1 h2 trivial)) .nil))) .nil))))

theorem sameDir : SameDir place copyPlace [j!"r"] [j!"backup", j!"old", j!"r"] :=
  OnePage.sameDir_of_node (t := disk) (t' := copyDisk) rfl rfl copied_get noLinks (by simp [disk, Node.Real, Node.RealAll]) rfl rfl rfl (by decide)

/-- The calls succeed for both places, and the texts are the same. -/
example : ∃ ob ob', calls place (moving dfs r) = .ok ob ∧ calls copyPlace (moving copyDisk.toFs ⟨false, [j!"old", j!"r"]⟩) = .ok ob' ∧
    ∀ s, ob'.print copyPlace ⟨false, [j!"old", j!"r"]⟩ = .ok s ↔ ob.print place r = .ok s := by
  have hl : ∀ (fs : PureFs) (ref : Path) (c : Cmp), Choice.sort c ∈ moving fs ref → LawfulCmp c := by
    intro fs ref c hc
    simp only [moving, List.mem_cons, reduceCtorEq, Choice.sort.injEq, List.not_mem_nil, or_false, false_or] at hc
    rw [hc]; exact lawful_DIRECTORY_LAST _
  obtain ⟨ob, ho⟩ := (C103_builds (w := place) rfl (moving dfs r)).2 (by
    simp [moving, Choice.Good, Cond.Good, Cond.AllGood, LimitRule.Good, ExtRule.Good, IconCall.Good, NoClash, CaseClash, iconCalls, IconCall.said, EmojiCall.asDirName, EmojiCall.asFileName, EmojiCall.asFileExt])
  obtain ⟨ob', ho', h⟩ := C116_disk (t := disk) (t' := copyDisk) disk_wf copyDisk_wf (by simp [disk, OnePage.Open, OnePage.OpenAll]) (by simp [copyDisk, OnePage.Open, OnePage.OpenAll]) (w := place) (w' := copyPlace)
    rfl rfl copied_get noLinks (by simp [disk, Node.Real, Node.RealAll]) rfl rfl rfl (by decide) rfl rfl (movingSame sameDir) (hl _ _) (hl _ _) (p := r) (p' := ⟨false, [j!"old", j!"r"]⟩) rfl rfl ho
  exact ⟨ob, ob', ho, ho', h⟩

/-- Why conditions on ancestors are left out: they see where the directory is. -/
example : ¬ (Cond.ancestor (.name j!"backup")).holds place (under [j!"r"] [j!"b.txt"]) ∧
    (Cond.ancestor (.name j!"backup")).holds copyPlace (under [j!"backup", j!"old", j!"r"] [j!"b.txt"]) := by
  constructor
  · rintro ⟨q, ⟨-, ⟨n, ns, h⟩, -⟩, d, m, hd, rfl⟩
    rw [hd] at h
    have : j!"backup" ∈ (under [j!"r"] [j!"b.txt"]).names := by rw [h]; simp
    revert this
    decide
  · exact ⟨⟨true, [j!"backup"]⟩, ⟨rfl, ⟨j!"old", [j!"r", j!"b.txt"], rfl⟩, fun h => by cases h⟩, [], j!"backup", rfl, rfl⟩

end Demo
end JFTP
