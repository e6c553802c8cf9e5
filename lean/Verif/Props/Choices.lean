import Verif.Lemmas.Follow
import Verif.Spec.Choices
import Verif.Props.Library

/-!
C103: sequences of setter calls with builders and conditions print the text of the one-page program.
-/

namespace JFTP
open Spec Spec.OnePage

namespace OnePage

variable {w : Place}

/-! ### Conditions -/

theorem truth_iff {c : Cond} {p : Path} : c.truth w p = true ↔ c.holds w p := by simp [Cond.truth]

theorem make_follows (hw : w.cwd.abs = true) {c : Cond} {mt : Matcher (Except Exn)} (h : c.make w = .ok mt) : Follows (OnePage.Readable w.fs) mt (c.truth w) := by
  refine ⟨fun p b hb => ?_, fun hr p => C102_answers hr h p⟩
  have := C102_right hw h hb
  rw [← truth_iff] at this
  cases b <;> cases ht : c.truth w p <;> simp [ht] at this ⊢

theorem foldlM_iff {α β : Type} {f : β → α → Except Exn β} {P : α → Prop} (hf : ∀ b x, (∃ b', f b x = .ok b') ↔ P x) :
    ∀ (l : List α) (b : β), (∃ b', l.foldlM f b = .ok b') ↔ ∀ x ∈ l, P x
  | [], b => by simp [pure, Except.pure]
  | x :: l, b => by
    rw [List.foldlM_cons]
    constructor
    · rintro ⟨b', h⟩
      obtain ⟨b1, h1, h⟩ := except_bind_ok h
      have := (foldlM_iff hf l b1).1 ⟨b', h⟩
      intro y hy
      rcases List.mem_cons.1 hy with rfl | hy
      · exact (hf b y).1 ⟨b1, h1⟩
      · exact this y hy
    · intro h
      obtain ⟨b1, h1⟩ := (hf b x).2 (h x (by simp))
      obtain ⟨b', h2⟩ := (foldlM_iff hf l b1).2 fun y hy => h y (by simp [hy])
      exact ⟨b', by rw [h1]; exact h2⟩

theorem bind_iff {α β : Type} {x : Except Exn α} {f : α → β} : (∃ b, (do return f (← x) : Except Exn β) = .ok b) ↔ ∃ a, x = .ok a := by
  cases x with
  | ok a => exact ⟨fun _ => ⟨a, rfl⟩, fun _ => ⟨f a, rfl⟩⟩
  | error e => exact ⟨fun ⟨_, h⟩ => (by cases h), fun ⟨_, h⟩ => (by cases h)⟩

/-! ### Orders -/

theorem follows_pure {α : Type} {R : Prop} (f : Path → α) : Follows R (fun p => .ok (f p)) f := ⟨fun p a h => by cases h; rfl, fun _ p => ⟨_, rfl⟩⟩

theorem follows_if {α : Type} {R : Prop} {mt : Matcher (Except Exn)} {g : Path → Bool} (h : Follows R mt g) (x y : α) :
    Follows R (fun p => do return if ← mt p then x else y) (fun p => if g p then x else y) := by
  refine ⟨fun p a ha => ?_, fun hR p => ?_⟩
  · obtain ⟨b, hb, ha⟩ := except_bind_ok ha
    cases ha
    rw [h.right p b hb]
  · obtain ⟨b, hb⟩ := h.answers hR p
    exact ⟨if b then x else y, by rw [hb]; rfl⟩

theorem sortRule_iff (b : List (Path → Except Exn Int)) (r : SortRule) : (∃ b', r.call w b = .ok b') ↔ r.Good w := by
  cases r with
  | add f => exact ⟨fun _ => trivial, fun _ => ⟨_, rfl⟩⟩
  | addMatching c n => exact bind_iff.trans (C102_makes w c)
  | addFirst c => exact bind_iff.trans (C102_makes w c)
  | addLast c => exact bind_iff.trans (C102_makes w c)

theorem sortRules_orders (hw : w.cwd.abs = true) : ∀ (rules : List SortRule) (b b' : List (Path → Except Exn Int)), rules.foldlM (SortRule.call w) b = .ok b' →
    ∃ l, b' = b ++ l ∧ List.Forall₂ (fun f r => Follows (OnePage.Readable w.fs) f (SortRule.says w r)) l rules
  | [], b, b', h => by cases h; exact ⟨[], by simp, .nil⟩
  | r :: rules, b, b', h => by
    rw [List.foldlM_cons] at h
    obtain ⟨b1, h1, h⟩ := except_bind_ok h
    obtain ⟨l, hl, hf⟩ := sortRules_orders hw rules b1 b' h
    have : ∃ f, b1 = b ++ [f] ∧ Follows (OnePage.Readable w.fs) f (SortRule.says w r) := by
      cases r with
      | add f => cases h1; exact ⟨_, rfl, follows_pure f⟩
      | addMatching c n =>
        obtain ⟨mt, h2, h1⟩ := except_bind_ok h1
        cases h1
        exact ⟨_, rfl, follows_if (make_follows hw h2) n 0⟩
      | addFirst c =>
        obtain ⟨mt, h2, h1⟩ := except_bind_ok h1
        cases h1
        exact ⟨_, rfl, follows_if (make_follows hw h2) (-2147483648) 0⟩
      | addLast c =>
        obtain ⟨mt, h2, h1⟩ := except_bind_ok h1
        cases h1
        exact ⟨_, rfl, follows_if (make_follows hw h2) 2147483647 0⟩
    obtain ⟨f, hf1, hf2⟩ := this
    exact ⟨f :: l, by rw [hl, hf1]; simp, .cons hf2 hf⟩

theorem precedence_rank {R : Prop} {l : List (Path → Except Exn Int)} {rules : List SortRule} (h : List.Forall₂ (fun f r => Follows R f (SortRule.says w r)) l rules) :
    Follows R (fun p => LiveSorts.precedenceLoop p 0 l) (rank w rules) := by
  induction h with
  | nil => exact follows_pure _
  | @cons f r l rules h1 h2 ih =>
    refine ⟨fun p a ha => ?_, fun hR p => ?_⟩
    · rw [LiveSorts.precedenceLoop] at ha
      obtain ⟨x, hx, ha⟩ := except_bind_ok ha
      have := h1.right p x hx
      subst this
      unfold rank
      by_cases h0 : r.says w p = 0
      · have ha : LiveSorts.precedenceLoop p 0 l = .ok a := by
          rw [show DEFAULT_PRECEDENCE = 0 from rfl, h0] at ha
          simpa using ha
        have := ih.right p a ha
        rw [this]
        unfold rank
        simp only [List.find?_cons, h0, ne_eq, not_true_eq_false, decide_false]
      · rw [show DEFAULT_PRECEDENCE = 0 from rfl, if_pos h0] at ha
        cases ha
        simp [h0]
    · rw [LiveSorts.precedenceLoop, h1.eq hR p]
      by_cases h0 : r.says w p = 0
      · obtain ⟨a, ha⟩ := ih.answers hR p
        exact ⟨a, by rw [h0]; exact ha⟩
      · exact ⟨r.says w p, by show (if r.says w p ≠ DEFAULT_PRECEDENCE then _ else _) = _; rw [show DEFAULT_PRECEDENCE = 0 from rfl, if_pos h0]; rfl⟩

/-- Every answer of the comparator is that of `d`, and if `R` holds it always answers. -/
structure FollowsCmp (R : Prop) (c : CmpM (Except Exn)) (d : Cmp) : Prop where
  right : ∀ a b r, c a b = .ok r → r = d a b
  answers : R → ∀ a b, ∃ r, c a b = .ok r

theorem FollowsCmp.thenAlpha {R : Prop} {c : CmpM (Except Exn)} {d : Cmp} (h : FollowsCmp R c d) :
    FollowsCmp R (LiveSorts.thenComparing c LiveSorts.ALPHABETICAL) (thenComparing d PathSorts.ALPHABETICAL) := by
  refine ⟨fun a b r hr => ?_, fun hR a b => ?_⟩
  · obtain ⟨x, hx, hr⟩ := except_bind_ok hr
    have := h.right a b x hx
    subst this
    unfold thenComparing
    dsimp only
    split at hr
    · cases hr; rw [if_pos ‹_›]
    · cases hr; rw [if_neg ‹_›]
  · obtain ⟨x, hx⟩ := h.answers hR a b
    unfold LiveSorts.thenComparing
    rw [hx]
    by_cases h0 : x ≠ 0
    · exact ⟨x, by show (if x ≠ 0 then _ else _) = _; rw [if_pos h0]; rfl⟩
    · exact ⟨_, by show (if x ≠ 0 then _ else _) = _; rw [if_neg h0]; rfl⟩

theorem built_follows {R : Prop} {l : List (Path → Except Exn Int)} {rules : List SortRule} (h : List.Forall₂ (fun f r => Follows R f (SortRule.says w r)) l rules) :
    FollowsCmp R (LiveSorts.built l) (thenComparing (fun p q => if rank w rules p < rank w rules q then -1 else if rank w rules p = rank w rules q then 0 else 1) PathSorts.ALPHABETICAL) := by
  have hk := precedence_rank h
  refine FollowsCmp.thenAlpha (d := fun p q => if rank w rules p < rank w rules q then -1 else if rank w rules p = rank w rules q then 0 else 1) ⟨fun a b r hr => ?_, fun hR a b => ?_⟩
  · obtain ⟨x, hx, hr⟩ := except_bind_ok hr
    obtain ⟨y, hy, hr⟩ := except_bind_ok hr
    cases hr
    rw [hk.right a x hx, hk.right b y hy]; rfl
  · have hx : LiveSorts.precedenceLoop a DEFAULT_PRECEDENCE l = .ok (rank w rules a) := hk.eq hR a
    have hy : LiveSorts.precedenceLoop b DEFAULT_PRECEDENCE l = .ok (rank w rules b) := hk.eq hR b
    unfold LiveSorts.comparing
    dsimp only
    rw [hx, hy]
    exact ⟨_, rfl⟩

theorem then_twice (d : Cmp) : thenComparing (thenComparing d PathSorts.ALPHABETICAL) PathSorts.ALPHABETICAL = thenComparing d PathSorts.ALPHABETICAL := by
  funext a b
  unfold thenComparing
  dsimp only
  split <;> simp_all

theorem lawful_rank (rules : List SortRule) : LawfulCmp fun p q => if rank w rules p < rank w rules q then -1 else if rank w rules p = rank w rules q then 0 else 1 :=
  lawful_intCompare.comap (rank w rules)

/-! ### Child limits -/

theorem limitRule_iff (b : ChildLimitBuilder (Except Exn)) (r : LimitRule) : (∃ b', r.call w b = .ok b') ↔ r.Good w := by
  cases r with
  | add f => exact ⟨fun _ => trivial, fun _ => ⟨_, rfl⟩⟩
  | addMatching c n => exact bind_iff.trans (C102_makes w c)

theorem limitRules_limits (hw : w.cwd.abs = true) : ∀ (rules : List LimitRule) (b b' : ChildLimitBuilder (Except Exn)), rules.foldlM (LimitRule.call w) b = .ok b' →
    b'.defaultLimit = b.defaultLimit ∧ ∃ l, b'.limits = b.limits ++ l ∧ List.Forall₂ (fun f r => Follows (OnePage.Readable w.fs) f (LimitRule.says w r)) l rules
  | [], b, b', h => by cases h; exact ⟨rfl, [], by simp, .nil⟩
  | r :: rules, b, b', h => by
    rw [List.foldlM_cons] at h
    obtain ⟨b1, h1, h⟩ := except_bind_ok h
    obtain ⟨hd, l, hl, hf⟩ := limitRules_limits hw rules b1 b' h
    have : b1.defaultLimit = b.defaultLimit ∧ ∃ f, b1.limits = b.limits ++ [f] ∧ Follows (OnePage.Readable w.fs) f (LimitRule.says w r) := by
      cases r with
      | add f => cases h1; exact ⟨rfl, _, rfl, follows_pure f⟩
      | addMatching c n =>
        obtain ⟨mt, h2, h1⟩ := except_bind_ok h1
        cases h1
        exact ⟨rfl, _, rfl, follows_if (make_follows hw h2) n (-1)⟩
    obtain ⟨hd1, f, hf1, hf2⟩ := this
    exact ⟨hd.trans hd1, f :: l, by rw [hl, hf1]; simp, .cons hf2 hf⟩

theorem limitLoop_right {R : Prop} {p : Path} {l : List (Path → Except Exn Int)} {rules : List LimitRule} (h : List.Forall₂ (fun f r => Follows R f (LimitRule.says w r)) l rules) {d n : Int}
    (hn : ChildLimitBuilder.limitLoop p d l = .ok n) : n = limitOf w d rules p ∨ (n < 0 ∧ limitOf w d rules p < 0) := by
  unfold limitOf
  induction h generalizing d with
  | nil => cases hn; exact .inl rfl
  | @cons f r l rules h1 h2 ih =>
    rw [ChildLimitBuilder.limitLoop] at hn
    obtain ⟨k, hk, hn⟩ := except_bind_ok hn
    have := h1.right p k hk
    subst this
    by_cases hk0 : 0 ≤ r.says w p
    · rw [if_pos hk0] at hn
      cases hn
      simp [hk0]
    · rw [if_neg hk0] at hn
      have := ih hn
      simp only [List.find?_cons, hk0, decide_false]
      cases hf : rules.find? (fun r => decide (0 ≤ r.says w p)) with
      | some x => rw [hf] at this; exact this
      | none =>
        rw [hf] at this
        refine .inr ?_
        dsimp only at this ⊢
        cases rules with
        | nil => simp at this ⊢; omega
        | cons y ys => simp at this ⊢; omega

theorem limitLoop_answers {R : Prop} (hR : R) {p : Path} {l : List (Path → Except Exn Int)} {rules : List LimitRule} (h : List.Forall₂ (fun f r => Follows R f (LimitRule.says w r)) l rules) (d : Int) :
    ∃ n, ChildLimitBuilder.limitLoop p d l = .ok n := by
  induction h generalizing d with
  | nil => exact ⟨d, rfl⟩
  | @cons f r l rules h1 h2 ih =>
    obtain ⟨k, hk⟩ := h1.answers hR p
    rw [ChildLimitBuilder.limitLoop, hk]
    by_cases h0 : k ≥ 0
    · exact ⟨k, by show (if k ≥ 0 then _ else _) = _; rw [if_pos h0]; rfl⟩
    · obtain ⟨n, hn⟩ := ih k
      exact ⟨n, by show (if k ≥ 0 then _ else _) = _; rw [if_neg h0]; exact hn⟩

/-! ### Line extensions -/

theorem extRule_iff (b : LineExtensionBuilder (Except Exn)) (r : ExtRule) : (∃ b', r.call w b = .ok b') ↔ r.Good w := by
  cases r with
  | add f => exact ⟨fun _ => trivial, fun _ => ⟨_, rfl⟩⟩
  | addMatching c n => exact bind_iff.trans (C102_makes w c)
  | addLineBreak c => exact bind_iff.trans (C102_makes w c)

theorem extRules_extensions (hw : w.cwd.abs = true) : ∀ (rules : List ExtRule) (b b' : LineExtensionBuilder (Except Exn)), rules.foldlM (ExtRule.call w) b = .ok b' →
    ∃ l, b'.extensions = b.extensions ++ l ∧ List.Forall₂ (fun f r => Follows (OnePage.Readable w.fs) f (ExtRule.says w r)) l rules
  | [], b, b', h => by cases h; exact ⟨[], by simp, .nil⟩
  | r :: rules, b, b', h => by
    rw [List.foldlM_cons] at h
    obtain ⟨b1, h1, h⟩ := except_bind_ok h
    obtain ⟨l, hl, hf⟩ := extRules_extensions hw rules b1 b' h
    have : ∃ f, b1.extensions = b.extensions ++ [f] ∧ Follows (OnePage.Readable w.fs) f (ExtRule.says w r) := by
      cases r with
      | add f => cases h1; exact ⟨_, rfl, follows_pure f⟩
      | addMatching c x =>
        obtain ⟨mt, h2, h1⟩ := except_bind_ok h1
        cases h1
        exact ⟨_, rfl, follows_if (make_follows hw h2) (some x) none⟩
      | addLineBreak c =>
        obtain ⟨mt, h2, h1⟩ := except_bind_ok h1
        cases h1
        exact ⟨_, rfl, follows_if (make_follows hw h2) (some []) none⟩
    obtain ⟨f, hf1, hf2⟩ := this
    exact ⟨f :: l, by rw [hl, hf1]; simp, .cons hf2 hf⟩

theorem extLoop_follows {R : Prop} {l : List (ExtFn (Except Exn))} {rules : List ExtRule} (h : List.Forall₂ (fun f r => Follows R f (ExtRule.says w r)) l rules) :
    Follows R (fun p => LineExtensionBuilder.extLoop p none l) fun p => rules.findSome? fun r => r.says w p := by
  induction h with
  | nil => exact follows_pure _
  | @cons f r l rules h1 h2 ih =>
    refine ⟨fun p a ha => ?_, fun hR p => ?_⟩
    · rw [LineExtensionBuilder.extLoop] at ha
      obtain ⟨x, hx, ha⟩ := except_bind_ok ha
      have := h1.right p x hx
      subst this
      rw [List.findSome?_cons]
      cases hs : r.says w p with
      | none => rw [hs] at ha; exact ih.right p a ha
      | some y => rw [hs] at ha; cases ha; rfl
    · rw [LineExtensionBuilder.extLoop, h1.eq hR p]
      cases hs : r.says w p with
      | none => exact ih.answers hR p
      | some y => exact ⟨some y, rfl⟩

/-! ### Emojis -/

theorem iconCall_iff (b : EmojiMappingBuilder (Except Exn)) (c : IconCall) : (∃ b', c.call w b = .ok b') ↔ c.Good w := by
  cases c with
  | addDirectoryEmoji c e => exact bind_iff.trans (C102_makes w c)
  | addFileEmoji c e => exact bind_iff.trans (C102_makes w c)
  | _ => exact ⟨fun _ => trivial, fun _ => ⟨_, rfl⟩⟩

/-- The same rule, with a matcher that follows a set of paths. -/
structure SameMatch (R : Prop) (x y : EmojiMatch (Except Exn)) : Prop where
  emoji : x.emoji = y.emoji
  answers : ∃ g, y.matcher = (fun p => .ok (g p)) ∧ Follows R x.matcher g

/-- The same builder, except that the matchers follow sets of paths. -/
structure SameIcons (R : Prop) (b b0 : EmojiMappingBuilder (Except Exn)) : Prop where
  defaultDir : b.defaultDirEmoji = b0.defaultDirEmoji
  dirs : List.Forall₂ (SameMatch R) b.dirMatchersEmojis b0.dirMatchersEmojis
  dirNames : b.dirNamesEmojis = b0.dirNamesEmojis
  defaultFile : b.defaultFileEmoji = b0.defaultFileEmoji
  files : List.Forall₂ (SameMatch R) b.fileMatchersEmojis b0.fileMatchersEmojis
  fileNames : b.fileNamesEmojis = b0.fileNamesEmojis
  fileExts : b.fileExtensionsEmojis = b0.fileExtensionsEmojis

theorem forall₂_snoc {α β : Type} {P : α → β → Prop} {as : List α} {bs : List β} {x : α} {y : β} (h : List.Forall₂ P as bs) (hxy : P x y) :
    List.Forall₂ P (as ++ [x]) (bs ++ [y]) := by
  induction h with
  | nil => exact .cons hxy .nil
  | cons h1 _ ih => exact .cons h1 ih

theorem iconCall_same (hw : w.cwd.abs = true) {b b' b0 : EmojiMappingBuilder (Except Exn)} (hs : SameIcons (OnePage.Readable w.fs) b b0) {c : IconCall} (h : c.call w b = .ok b') :
    SameIcons (OnePage.Readable w.fs) b' (EmojiCall.run b0 (c.said w)) := by
  obtain ⟨h1, h2, h3, h4, h5, h6, h7⟩ := hs
  cases c with
  | setDefaultDirectoryEmoji e => cases h; exact ⟨rfl, h2, h3, h4, h5, h6, h7⟩
  | setDirectoryNameEmoji n e => cases h; exact ⟨h1, h2, congrArg (fun t : StrMap => t.put n e) h3, h4, h5, h6, h7⟩
  | addDirectoryEmoji c e =>
    obtain ⟨mt, hm, h⟩ := except_bind_ok h
    cases h
    exact ⟨h1, forall₂_snoc h2 ⟨rfl, c.truth w, rfl, make_follows hw hm⟩, h3, h4, h5, h6, h7⟩
  | setDefaultFileEmoji e => cases h; exact ⟨h1, h2, h3, rfl, h5, h6, h7⟩
  | setFileNameEmoji n e => cases h; exact ⟨h1, h2, h3, h4, h5, congrArg (fun t : StrMap => t.put n e) h6, h7⟩
  | setFileExtensionEmoji n e => cases h; exact ⟨h1, h2, h3, h4, h5, h6, congrArg (fun t : StrMap => t.put n e) h7⟩
  | addFileEmoji c e =>
    obtain ⟨mt, hm, h⟩ := except_bind_ok h
    cases h
    exact ⟨h1, h2, h3, h4, forall₂_snoc h5 ⟨rfl, c.truth w, rfl, make_follows hw hm⟩, h6, h7⟩

theorem iconCalls_same (hw : w.cwd.abs = true) : ∀ (cs : List IconCall) {b b' b0 : EmojiMappingBuilder (Except Exn)}, SameIcons (OnePage.Readable w.fs) b b0 →
    cs.foldlM (IconCall.call w) b = .ok b' → SameIcons (OnePage.Readable w.fs) b' ((cs.map (IconCall.said w)).foldl EmojiCall.run b0)
  | [], b, b', b0, hs, h => by cases h; exact hs
  | c :: cs, b, b', b0, hs, h => by
    rw [List.foldlM_cons] at h
    obtain ⟨b1, h1, h⟩ := except_bind_ok h
    exact iconCalls_same hw cs (iconCall_same hw hs h1) h

theorem SameIcons.build {R : Prop} {b b0 : EmojiMappingBuilder (Except Exn)} (h : SameIcons R b b0) (cs : Casing) : b.build cs = b0.build cs := by
  unfold EmojiMappingBuilder.build
  rw [h.dirNames, h.fileNames, h.fileExts, h.defaultDir, h.defaultFile]

/-- The mapping after the calls of the start and these calls. -/
theorem icons_same (hw : w.cwd.abs = true) {fromDefault : Bool} {cs : List IconCall} {b : EmojiMappingBuilder (Except Exn)}
    (h : cs.foldlM (IconCall.call w) (if fromDefault then EmojiMappingBuilder.newDefaultInstance else EmojiMappingBuilder.newBlankInstance) = .ok b) :
    SameIcons (OnePage.Readable w.fs) b (emojiBuilder (iconCalls w fromDefault cs)) := by
  have hstart : (if fromDefault then EmojiMappingBuilder.newDefaultInstance else EmojiMappingBuilder.newBlankInstance : EmojiMappingBuilder (Except Exn)) =
      emojiBuilder (if fromDefault then defaultCalls else []) := by
    cases fromDefault
    · rfl
    · exact newDefaultInstance_eq
  have hs : SameIcons (OnePage.Readable w.fs) (if fromDefault then EmojiMappingBuilder.newDefaultInstance else EmojiMappingBuilder.newBlankInstance)
      (emojiBuilder (if fromDefault then defaultCalls else [])) := by
    rw [← hstart]
    cases fromDefault <;> exact ⟨rfl, .nil, rfl, rfl, .nil, rfl, rfl⟩
  have := iconCalls_same hw cs hs h
  unfold iconCalls emojiBuilder
  rw [List.foldl_append]
  exact this

theorem matches_le {R : Prop} {l l0 : List (EmojiMatch (Except Exn))} (h : List.Forall₂ (SameMatch R) l l0) (p : Path) :
    (∀ e, pathMatcherEmoji l p = .ok e → pathMatcherEmoji l0 p = .ok e) ∧ (R → ∃ e, pathMatcherEmoji l p = .ok e) := by
  induction h with
  | nil => exact ⟨fun _ h => h, fun _ => ⟨none, rfl⟩⟩
  | @cons x y l l0 h1 h2 ih =>
    obtain ⟨he, g, hg, hf⟩ := h1
    constructor
    · intro e h
      rw [pathMatcherEmoji] at h ⊢
      obtain ⟨b, hb, h⟩ := except_bind_ok h
      rw [hg]
      have := hf.right p b hb
      subst this
      show (if g p = true then _ else _) = _
      cases hgp : g p with
      | true => rw [hgp] at h; cases h; rw [he]; rfl
      | false => rw [hgp] at h; exact ih.1 e h
    · intro hR
      rw [pathMatcherEmoji, hf.eq hR p]
      cases hgp : g p with
      | true => exact ⟨some x.emoji, rfl⟩
      | false => exact ih.2 hR

theorem icons_follow {R : Prop} {b b0 : EmojiMappingBuilder (Except Exn)} (h : SameIcons R b b0) (f : EmojiMapping) (fs : PureFs) (p : Path) :
    (∀ e, f.getPathEmoji fs.lift b p = .ok e → f.getPathEmoji fs.lift b0 p = .ok e) ∧ (R → ∃ e, f.getPathEmoji fs.lift b p = .ok e) := by
  have hd := matches_le h.dirs p
  have hf := matches_le h.files p
  have key : ∀ {x : Except Exn (Option JStr)} {rest : List (EmojiFn (Except Exn))} {m1 m2 : List (EmojiMatch (Except Exn))} {d : JStr},
      (∀ fn ∈ rest, ∃ e, fn p = .ok e) →
      ((∀ e, pathMatcherEmoji m1 p = .ok e → pathMatcherEmoji m2 p = .ok e) ∧ (R → ∃ e, pathMatcherEmoji m1 p = .ok e)) →
      (∀ e, (do let e ← sequentialEmoji (pathMatcherEmoji m1 :: rest) p; return some (e.getD d) : Except Exn (Option JStr)) = .ok e →
        (do let e ← sequentialEmoji (pathMatcherEmoji m2 :: rest) p; return some (e.getD d) : Except Exn (Option JStr)) = .ok e) ∧
      (R → ∃ e, (do let e ← sequentialEmoji (pathMatcherEmoji m1 :: rest) p; return some (e.getD d) : Except Exn (Option JStr)) = .ok e) := by
    intro _ rest m1 m2 d hrest hm
    have hseq : ∃ e, sequentialEmoji rest p = .ok e := by
      induction rest with
      | nil => exact ⟨none, rfl⟩
      | cons fn rest ih =>
        obtain ⟨e, he⟩ := hrest fn (by simp)
        rw [sequentialEmoji, he]
        cases e with
        | some e => exact ⟨some e, rfl⟩
        | none => exact ih fun fn h => hrest fn (by simp [h])
    constructor
    · intro e h
      obtain ⟨a, ha, h⟩ := except_bind_ok h
      rw [sequentialEmoji] at ha
      obtain ⟨r, hr, ha⟩ := except_bind_ok ha
      rw [sequentialEmoji, hm.1 r hr]
      cases r with
      | some e => cases ha; exact h
      | none => show (sequentialEmoji rest p >>= _) = _; rw [show sequentialEmoji rest p = .ok a from ha]; exact h
    · intro hR
      obtain ⟨r, hr⟩ := hm.2 hR
      rw [sequentialEmoji, hr]
      cases r with
      | some e => exact ⟨_, rfl⟩
      | none =>
        obtain ⟨e, he⟩ := hseq
        exact ⟨some (e.getD d), by show (sequentialEmoji rest p >>= _) = _; rw [he]; rfl⟩
  unfold EmojiMapping.getPathEmoji
  have hdir : PathMatchers.isDirectory (m := Except Exn) fs.lift p = .ok (fs.isDir p) := rfl
  rw [hdir]
  cases fs.isDir p with
  | true => exact key (x := .ok none) (by simp [pure, Except.pure]) hd
  | false => exact key (x := .ok none) (by simp [pure, Except.pure]) hf

theorem icon_eq (cs : Casing) {cls : List EmojiCall} {f : EmojiMapping} (h : EmojiMappingBuilder.build cs (emojiBuilder cls : EmojiMappingBuilder (Except Exn)) = .ok f) (fs : PureFs) (p : Path) :
    f.getPathEmoji fs.lift (emojiBuilder cls : EmojiMappingBuilder (Except Exn)) p = .ok (some (iconOf cs.lower fs.isDir cls p)) := by
  unfold iconOf
  cases hd : fs.isDir p with
  | true => rw [if_pos rfl]; exact C36_directory cs cls f h fs.lift p (congrArg Except.ok hd)
  | false =>
    rw [if_neg (by simp)]
    refine C36_file cs cls f h fs.lift p (congrArg Except.ok hd) _ (fun n hn => ?_) (fun hn => ?_)
    · have hn : p.names.getLast? = some n := hn
      rw [hn]; exact extensions_parts cs.lower n
    · have hn : p.names.getLast? = none := hn
      rw [hn]; rfl

theorem noClash_iff (cs : Casing) (cls : List EmojiCall) : (∃ f, EmojiMappingBuilder.build cs (emojiBuilder cls : EmojiMappingBuilder (Except Exn)) = .ok f) ↔ NoClash cs.lower cls := by
  rw [C37_build_ok_iff]
  unfold NoClash
  rw [not_or, not_or]

/-! ### One call -/

/-- Every answer of the options object is that of the settings, and if `R` holds it always answers. -/
structure FaithfulOb (R : Prop) (ob : Object) (S : Spec.OnePage.Settings) : Prop where
  options : Faithful R { ob.options with pathComparator := thenComparing S.order PathSorts.ALPHABETICAL } S
  order : FollowsCmp R ob.comparator (thenComparing S.order PathSorts.ALPHABETICAL)

theorem FaithfulOb.sound {R : Prop} {ob : Object} {S : Spec.OnePage.Settings} (h : FaithfulOb R ob S) (hc : LawfulCmp S.order) (hfs : ProperFs w.fs) (hw : w.cwd.abs = true) {p : Path} {s : JStr}
    (hp : ob.print w p = .ok s) : prettyPrint w.fs.lift w.cwd (optionsOf S) p = .ok s := by
  refine h.options.sound hc hfs hw ?_
  rw [← print_lawful (sort_lawful hc)]
  exact print_le (fun a b r hr => by rw [h.order.right a b r hr]) hp

theorem FaithfulOb.complete {R : Prop} {ob : Object} {S : Spec.OnePage.Settings} (h : FaithfulOb R ob S) (hR : R) (hc : LawfulCmp S.order) (hfs : ProperFs w.fs) (hw : w.cwd.abs = true) {p : Path} {s : JStr}
    (hp : prettyPrint w.fs.lift w.cwd (optionsOf S) p = .ok s) : ob.print w p = .ok s := by
  have := h.options.complete hR hc hfs hw hp
  rw [← print_lawful (sort_lawful hc)] at this
  refine print_le (fun a b r hr => ?_) this
  obtain ⟨r', hr'⟩ := h.order.answers hR a b
  rw [hr', h.order.right a b r' hr']; exact hr

theorem call_iff (hw : w.cwd.abs = true) (ob : Object) (c : Choice) : (∃ ob', c.call w ob = .ok ob') ↔ c.Good w := by
  cases c with
  | withTreeFormat n l c e =>
    refine bind_iff.trans ?_
    constructor
    · rintro ⟨f, hf⟩
      by_contra hb
      have : ¬ ∃ w, n.length = w ∧ l.length = w ∧ c.length = w ∧ e.length = w := by
        rintro ⟨w, rfl, h1, h2, h3⟩
        exact hb ⟨h1, h2, h3⟩
      rw [(C05_treeFormat_create n l c e).2 this] at hf
      cases hf
    · rintro ⟨h1, h2, h3⟩
      exact ⟨_, (C05_treeFormat_create n l c e).1 ⟨_, rfl, h1, h2, h3⟩⟩
  | filterDirectories c => exact bind_iff.trans (C102_makes w c)
  | filterFiles c => exact bind_iff.trans (C102_makes w c)
  | sortBy rules => exact bind_iff.trans (foldlM_iff sortRule_iff rules _)
  | withChildLimits n rules => exact bind_iff.trans (foldlM_iff limitRule_iff rules _)
  | withLineExtension rules => exact bind_iff.trans (foldlM_iff extRule_iff rules _)
  | withDefaultEmojis =>
    refine bind_iff.trans ?_
    show (∃ o', (do let e ← EmojiMappingBuilder.newDefaultInstance.build w.casing; return _ : Except Exn (Options (Except Exn))) = .ok o') ↔ NoClash w.casing.lower defaultCalls
    rw [bind_iff, newDefaultInstance_eq]
    exact noClash_iff w.casing defaultCalls
  | withEmojis fromDefault cs =>
    show _ ↔ (∀ c ∈ cs, c.Good w) ∧ NoClash w.casing.lower (iconCalls w fromDefault cs)
    rw [← foldlM_iff iconCall_iff cs (if fromDefault then EmojiMappingBuilder.newDefaultInstance else EmojiMappingBuilder.newBlankInstance), ← noClash_iff]
    constructor
    · rintro ⟨o', h⟩
      obtain ⟨b, hb, h⟩ := except_bind_ok h
      obtain ⟨e, he, h⟩ := except_bind_ok h
      exact ⟨⟨b, hb⟩, e, by rw [← (icons_same hw hb).build]; exact he⟩
    · rintro ⟨⟨b, hb⟩, e, he⟩
      rw [← (icons_same hw hb).build] at he
      refine ⟨ob.set (·.withEmojis (e.getPathEmoji w.fs.lift b)), ?_⟩
      show (List.foldlM _ _ _ >>= _) = _
      rw [hb]
      show (EmojiMappingBuilder.build _ _ >>= _) = _
      rw [he]
      rfl
  | _ => exact ⟨fun _ => trivial, fun _ => ⟨_, rfl⟩⟩

theorem call_faithful (hw : w.cwd.abs = true) {c : Choice} {ob ob' : Object} {S : Spec.OnePage.Settings}
    (ho : FaithfulOb (OnePage.Readable w.fs) ob S) (h : c.call w ob = .ok ob') : FaithfulOb (OnePage.Readable w.fs) ob' (c.choose w S) := by
  obtain ⟨⟨h1, h2, h3, h4, h5, h6, h7, h8, h9, h10⟩, h0⟩ := ho
  cases c with
  | withMaxDepth n => cases h; exact ⟨⟨h1, h2, h3, h4, h5, rfl, h7, h8, h9, h10⟩, h0⟩
  | withCompactDirectories b => cases h; exact ⟨⟨h1, h2, h3, h4, h5, h6, rfl, h8, h9, h10⟩, h0⟩
  | withTreeFormat n l c e =>
    obtain ⟨f, hf, h⟩ := except_bind_ok h
    cases h
    refine ⟨⟨h1, h2, h3, h4, h5, h6, h7, h8, h9, ?_⟩, h0⟩
    by_cases hb : ∃ w, n.length = w ∧ l.length = w ∧ c.length = w ∧ e.length = w
    · rw [(C05_treeFormat_create n l c e).1 hb] at hf; cases hf; rfl
    · rw [(C05_treeFormat_create n l c e).2 hb] at hf; cases hf
  | filterDirectories c =>
    obtain ⟨mt, hm, h⟩ := except_bind_ok h
    cases h
    exact ⟨⟨make_follows hw hm, h2, h3, h4, h5, h6, h7, h8, h9, h10⟩, h0⟩
  | filterFiles c =>
    obtain ⟨mt, hm, h⟩ := except_bind_ok h
    cases h
    exact ⟨⟨h1, make_follows hw hm, h3, h4, h5, h6, h7, h8, h9, h10⟩, h0⟩
  | sort c =>
    cases h
    exact ⟨⟨h1, h2, rfl, h4, h5, h6, h7, h8, h9, h10⟩, FollowsCmp.thenAlpha ⟨fun a b r hr => by cases hr; rfl, fun _ a b => ⟨_, rfl⟩⟩⟩
  | sortBy rules =>
    obtain ⟨b, hb, h⟩ := except_bind_ok h
    cases h
    obtain ⟨l, rfl, hl⟩ := sortRules_orders hw rules _ _ hb
    have := (built_follows hl).thenAlpha
    rw [then_twice] at this
    exact ⟨⟨h1, h2, rfl, h4, h5, h6, h7, h8, h9, h10⟩, this⟩
  | withChildLimit n => cases h; exact ⟨⟨h1, h2, h3, fun p k hk => by cases hk; exact .inl rfl, fun _ p => ⟨n, rfl⟩, h6, h7, h8, h9, h10⟩, h0⟩
  | withChildLimitFn f => cases h; exact ⟨⟨h1, h2, h3, fun p k hk => by cases hk; exact .inl rfl, fun _ p => ⟨f p, rfl⟩, h6, h7, h8, h9, h10⟩, h0⟩
  | withChildLimits n rules =>
    obtain ⟨b, hb, h⟩ := except_bind_ok h
    cases h
    obtain ⟨hd, l, hl, hf⟩ := limitRules_limits hw rules _ _ hb
    have hl' : b.limits = l := by rw [hl]; rfl
    have hd' : b.defaultLimit = n := hd
    refine ⟨⟨h1, h2, h3, fun p k hk => ?_, fun hR p => ?_, h6, h7, h8, h9, h10⟩, h0⟩
    · have hk : ChildLimitBuilder.limitLoop p b.defaultLimit b.limits = .ok k := hk
      rw [hl', hd'] at hk
      exact limitLoop_right hf hk
    · show ∃ k, ChildLimitBuilder.limitLoop p b.defaultLimit b.limits = .ok k
      rw [hl', hd']
      exact limitLoop_answers hR hf n
  | withDefaultEmojis =>
    obtain ⟨o', ho', h⟩ := except_bind_ok h
    obtain ⟨f, hf, ho'⟩ := except_bind_ok ho'
    cases h
    cases ho'
    have key : ∀ p, f.getPathEmoji w.fs.lift (EmojiMappingBuilder.newDefaultInstance : EmojiMappingBuilder (Except Exn)) p = .ok (some (iconOf w.casing.lower w.fs.isDir defaultCalls p)) := by
      rw [newDefaultInstance_eq] at hf ⊢
      exact icon_eq w.casing hf w.fs
    exact ⟨⟨h1, h2, h3, h4, h5, h6, h7, ⟨fun p a ha => Except.ok.inj (ha.symm.trans (key p)), fun _ p => ⟨_, key p⟩⟩, h9, h10⟩, h0⟩
  | withEmojiFn f => cases h; exact ⟨⟨h1, h2, h3, h4, h5, h6, h7, follows_pure f, h9, h10⟩, h0⟩
  | withEmojis fromDefault cs =>
    obtain ⟨b, hb, h⟩ := except_bind_ok h
    obtain ⟨f, hf, h⟩ := except_bind_ok h
    cases h
    have hsame := icons_same hw hb
    rw [hsame.build] at hf
    refine ⟨⟨h1, h2, h3, h4, h5, h6, h7, ⟨fun p a ha => ?_, fun hR p => (icons_follow hsame f w.fs p).2 hR⟩, h9, h10⟩, h0⟩
    exact Except.ok.inj (((icons_follow hsame f w.fs p).1 a ha).symm.trans (icon_eq w.casing hf w.fs p))
  | withLineExtensionFn f => cases h; exact ⟨⟨h1, h2, h3, h4, h5, h6, h7, h8, follows_pure f, h10⟩, h0⟩
  | withLineExtension rules =>
    obtain ⟨b, hb, h⟩ := except_bind_ok h
    cases h
    obtain ⟨l, hl, hf⟩ := extRules_extensions hw rules _ _ hb
    have hl' : b.extensions = l := by rw [hl]; rfl
    refine ⟨⟨h1, h2, h3, h4, h5, h6, h7, h8, ?_, h10⟩, h0⟩
    have := extLoop_follows hf
    rw [← hl'] at this
    exact this

theorem calls_faithful (hw : w.cwd.abs = true) : ∀ (cs : List Choice) {ob ob' : Object} {S : Spec.OnePage.Settings},
    FaithfulOb (OnePage.Readable w.fs) ob S → cs.foldlM (Choice.call w) ob = .ok ob' → FaithfulOb (OnePage.Readable w.fs) ob' (cs.foldl (Choice.choose w) S)
  | [], ob, ob', S, ho, h => by cases h; exact ho
  | c :: cs, ob, ob', S, ho, h => by
    rw [List.foldlM_cons] at h
    obtain ⟨o1, h1, h⟩ := except_bind_ok h
    exact calls_faithful hw cs (call_faithful hw ho h1) h

theorem faithful_standard (R : Prop) : FaithfulOb R Object.createDefault standard :=
  ⟨⟨follows_pure _, follows_pure _, rfl, fun p n h => by cases h; exact .inl rfl, fun _ p => ⟨-1, rfl⟩, rfl, rfl, follows_pure _, follows_pure _, by decide⟩,
    ⟨fun a b r h => by cases h; rfl, fun _ a b => ⟨_, rfl⟩⟩⟩

theorem lawful_choose {S : Spec.OnePage.Settings} (hS : LawfulCmp S.order) : ∀ {cs : List Choice}, (∀ c, .sort c ∈ cs → LawfulCmp c) → LawfulCmp (cs.foldl (Choice.choose w) S).order
  | [], _ => hS
  | c :: cs, h => by
    refine lawful_choose (S := c.choose w S) ?_ fun d hd => h d (by simp [hd])
    cases c with
    | sort c => exact h c (by simp)
    | sortBy rules => exact lawful_rank rules
    | _ => exact hS

end OnePage

/-- **C103**: a sequence of calls succeeds if and only if each of them can. -/
theorem C103_builds {w : Place} (hw : w.cwd.abs = true) (cs : List Choice) : (∃ ob, calls w cs = .ok ob) ↔ ∀ c ∈ cs, c.Good w :=
  OnePage.foldlM_iff (OnePage.call_iff hw) cs _

/-- **C103**: whatever is called and whatever the disk contains: a text that is printed is the text of the one-page program for the settings that the calls ask for. -/
theorem C103_sound {w : Place} (hfs : ProperFs w.fs) (hw : w.cwd.abs = true) {cs : List Choice} (hc : ∀ c, .sort c ∈ cs → LawfulCmp c) {ob : Object} (h : calls w cs = .ok ob) {p : Path}
    {t : FileTree} (ht : Holds w.fs (target w.cwd p) t) {s : JStr} (hp : ob.print w p = .ok s) : OnePage.text (chosenBy w cs) (target w.cwd p) t = some s := by
  have hl := OnePage.lawful_choose (w := w) (S := standard) lawful_const hc
  have hf := OnePage.calls_faithful hw cs (OnePage.faithful_standard _) h
  exact (C100_one_page hfs hw (OnePage.obeys_optionsOf _) hl ht s).1 (hf.sound hl hfs hw hp)

/-- **C103**: where everything can be read, this text is printed, and nothing is printed only if there is none. -/
theorem C103_prints {w : Place} (hfs : ProperFs w.fs) (hr : OnePage.Readable w.fs) (hw : w.cwd.abs = true) {cs : List Choice} (hc : ∀ c, .sort c ∈ cs → LawfulCmp c)
    {ob : Object} (h : calls w cs = .ok ob) {p : Path} {t : FileTree} (ht : Holds w.fs (target w.cwd p) t) (s : JStr) :
    ob.print w p = .ok s ↔ OnePage.text (chosenBy w cs) (target w.cwd p) t = some s := by
  have hl := OnePage.lawful_choose (w := w) (S := standard) lawful_const hc
  have hf := OnePage.calls_faithful hw cs (OnePage.faithful_standard _) h
  exact ⟨C103_sound hfs hw hc h ht, fun hp => hf.complete hr hl hfs hw ((C100_one_page hfs hw (OnePage.obeys_optionsOf _) hl ht s).2 hp)⟩

/-- **C103** on disks whose directories can all be listed: what is printed, or that nothing is, is what the one-page program says. -/
theorem C103_disk {disk : Node} (hd : disk.WF) (ho : OnePage.Open disk) {w : Place} (he : w.fs = disk.toFs) (hw : w.cwd.abs = true) {cs : List Choice} (hc : ∀ c, .sort c ∈ cs → LawfulCmp c)
    (hg : ∀ c ∈ cs, c.Good w) (p : Path) :
    ∃ ob, calls w cs = .ok ob ∧ ∀ s, ob.print w p = .ok s ↔ OnePage.text (chosenBy w cs) (target w.cwd p) (treeAt disk (target w.cwd p)) = some s := by
  obtain ⟨o, h⟩ := (C103_builds hw cs).2 hg
  refine ⟨o, h, C103_prints (by rw [he]; exact hd.proper) (by rw [he]; exact ho.readable) hw hc h ?_⟩
  rw [he]
  exact OnePage.holds_at hd (target_abs hw)

/-! ### Examples -/

namespace OnePage

theorem named_last {P : JStr → Prop} {p : Path} : Spec.OnePage.Named P p ↔ ∃ n, p.names.getLast? = some n ∧ P n := by
  constructor
  · rintro ⟨dir, n, h, hn⟩
    exact ⟨n, by rw [h]; simp, hn⟩
  · rintro ⟨n, h, hn⟩
    obtain ⟨dir, hd⟩ := List.getLast?_eq_some_iff.1 h
    exact ⟨dir, n, hd, hn⟩

theorem truth_name {n : JStr} : (Cond.name n).truth w = fun p => p.names.getLast? == some n := by
  funext p
  rw [Bool.eq_iff_iff, truth_iff]
  simp [Cond.holds, named_last]

theorem truth_not {c : Cond} : (Cond.not c).truth w = fun p => !c.truth w p := by
  funext p
  rw [Bool.eq_iff_iff, truth_iff]
  simp [Cond.holds, ← truth_iff]

/-- The name of the path ends with the text. -/
def endsWith (n : JStr) (p : Path) : Bool := match p.names.getLast? with | some x => n.isSuffixOf x | none => false

theorem truth_nameEnd {n : JStr} : (Cond.nameEnd n).truth w = endsWith n := by
  funext p
  unfold endsWith
  rw [Bool.eq_iff_iff, truth_iff, Cond.holds, named_last]
  cases p.names.getLast? with
  | none => simp
  | some x =>
    simp only [Option.some.injEq, exists_eq_left', List.isSuffixOf_iff_suffix, List.IsSuffix]
    exact ⟨fun ⟨t, h⟩ => ⟨t, h.symm⟩, fun ⟨t, h⟩ => ⟨t, h.symm⟩⟩

theorem rank_single (r : SortRule) (p : Path) : rank w [r] p = r.says w p := by
  unfold rank
  by_cases h : r.says w p = 0 <;> simp [h]

theorem limit_single (r : LimitRule) (n : Int) (p : Path) : limitOf w n [r] p = if 0 ≤ r.says w p then r.says w p else -1 := by
  unfold limitOf
  by_cases h : 0 ≤ r.says w p <;> simp [h]

/-- No `z`; files with names ending with `.txt` first; at most one entry in `a`; a remark behind `r`. The second call of the filter replaces the first. -/
def program1 : List Choice := [.filterFiles (.name j!"x"), .filterFiles (.not (.name j!"z")), .sortBy [.addFirst (.nameEnd j!".txt")], .withChildLimits (-1) [.addMatching (.name j!"a") 1],
  .withLineExtension [.add fun _ => none, .addMatching (.name j!"r") j!" <- top"]]

def rank1 (p : Path) : Int := if endsWith j!".txt" p then -2147483648 else 0

/-- What it asks for. -/
def settings1 : Spec.OnePage.Settings :=
  { standard with
    showFile := fun p => !(p.names.getLast? == some j!"z")
    order := fun p q => if rank1 p < rank1 q then -1 else if rank1 p = rank1 q then 0 else 1
    limit := fun p => if p.names.getLast? == some j!"a" then 1 else -1
    ext := fun p => if p.names.getLast? == some j!"r" then some j!" <- top" else none }

theorem settings1_eq (w : Place) : chosenBy w program1 = settings1 := by
  have hr : ∀ p, rank w [.addFirst (.nameEnd j!".txt")] p = rank1 p := by
    intro p
    rw [rank_single, SortRule.says, truth_nameEnd]; rfl
  have hl : limitOf w (-1) [.addMatching (.name j!"a") 1] = fun p => if p.names.getLast? == some j!"a" then 1 else -1 := by
    funext p
    rw [limit_single, LimitRule.says, truth_name]
    by_cases h : (p.names.getLast? == some j!"a") = true <;> simp [h]
  have he : (fun p => List.findSome? (fun r : ExtRule => r.says w p) [.add fun _ => none, .addMatching (.name j!"r") j!" <- top"]) =
      fun p => if p.names.getLast? == some j!"r" then some j!" <- top" else none := by
    funext p
    simp only [List.findSome?_cons, List.findSome?_nil, ExtRule.says, truth_name]
    by_cases h : (p.names.getLast? == some j!"r") = true <;> simp [h]
  unfold chosenBy program1
  simp only [List.foldl, Choice.choose, truth_not, truth_name, hr, hl, he, settings1]

end OnePage

example : ∃ ob, calls Demo.place OnePage.program1 = .ok ob ∧ ob.print Demo.place Demo.r = .ok j!"r/ <- top\n├─ b.txt\n└─ a/\n   ├─ x\n   └─ ..." := by
  obtain ⟨o, h, hp⟩ := C103_disk (disk := Demo.disk) Demo.disk_wf (by simp [Demo.disk, OnePage.Open, OnePage.OpenAll]) (w := Demo.place) rfl rfl (cs := OnePage.program1)
    (by simp [OnePage.program1]) (by simp [OnePage.program1, Choice.Good, Cond.Good, SortRule.Good, LimitRule.Good, ExtRule.Good]) Demo.r
  refine ⟨o, h, (hp _).2 ?_⟩
  rw [OnePage.settings1_eq]
  decide +kernel

/-- A tree format with symbols of different lengths is refused, and so is a condition made from nothing. -/
example : (¬ ∃ o, calls Demo.place [.withMaxDepth 3, .withTreeFormat j!"+-" j!"+-" j!"| " j!" "] = .ok o) ∧
    ¬ ∃ o, calls Demo.place [.withEmojis true [.setDefaultFileEmoji j!"f", .addFileEmoji (.anyOf []) j!"e"]] = .ok o := by
  rw [C103_builds rfl, C103_builds rfl]
  exact ⟨fun h => by have := h _ (.tail _ (.head _)); simp [Choice.Good] at this, fun h => by have := (h _ (.head _)).1 _ (.tail _ (.head _)); simp [IconCall.Good, Cond.Good] at this⟩

/-- A disk with a directory that cannot be listed and a link that leads nowhere: if both are filtered out and something is printed, it is this. -/
example {ob : Object} (h : calls { Demo.place with fs := OnePage.partly.toFs } [.filterDirectories (.not (.name j!"secret")), .filterFiles (.not (.name j!"lost"))] = .ok ob) {s : JStr}
    (hp : ob.print { Demo.place with fs := OnePage.partly.toFs } Demo.r = .ok s) : s = j!"r/\n├─ link\n├─ run\n└─ src/\n   └─ main/\n      ├─ A\n      ├─ B?\n      └─ C" := by
  have hwf : OnePage.partly.WF := by simp [OnePage.partly, Node.WF, Node.WFAll]
  have := C103_sound (w := { Demo.place with fs := OnePage.partly.toFs }) hwf.proper rfl (by simp) h (OnePage.holds_at hwf rfl) hp
  unfold chosenBy at this
  simp only [List.foldl, Choice.choose, OnePage.truth_not, OnePage.truth_name] at this
  refine Option.some.inj (this.symm.trans ?_)
  decide +kernel

end JFTP
