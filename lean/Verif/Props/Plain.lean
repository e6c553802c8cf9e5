import Verif.Spec.Plain
import Verif.Props.Locale
import Verif.Props.OnePage
import Verif.Props.Recreate

/-
C123: a text with emojis says all that the text without says, and which lines are markers.
-/

namespace JFTP
open Spec

namespace Plain

theorem drop_word {e : JStr} (h : SPACE ∉ e) (r : JStr) : ((e ++ SPACE :: r).dropWhile (· != SPACE)).drop 1 = r := by
  induction e with
  | nil => simp
  | cons c e ih =>
    have hc : c ≠ SPACE := fun he => h (by simp [he])
    simp [hc, ih (fun he => h (by simp [he]))]

/-- The emoji of a line is one word. -/
def Word (L : Look) (i : Item) : Prop :=
  match i with
  | .file p _ => ∃ e, L.emoji p = some e ∧ SPACE ∉ e
  | .dirs _ last => ∃ e, L.emoji last = some e ∧ SPACE ∉ e
  | .more => True

theorem label_shape {L : Look} {i : Item} (h : Word L i) (hi : i ≠ .more) :
    ∃ e, SPACE ∉ e ∧ i.label L = e ++ SPACE :: i.label { L with emoji := fun _ => none } := by
  cases i with
  | file p a =>
    obtain ⟨e, he, hs⟩ := h
    exact ⟨e, hs, by simp [Item.label, he, emojiText, SPACE]⟩
  | dirs ds last =>
    obtain ⟨e, he, hs⟩ := h
    exact ⟨e, hs, by simp [Item.label, he, emojiText, SPACE]⟩
  | more => exact absurd rfl hi

theorem label_ne_dots {L : Look} {i : Item} (h : Word L i) (hi : i ≠ .more) : i.label L ≠ j!"..." := by
  obtain ⟨e, _, he⟩ := label_shape h hi
  intro hd
  have : SPACE ∈ i.label L := by rw [he]; simp
  rw [hd] at this
  exact absurd this (by decide)

theorem bare_label {L : Look} {i : Item} (h : Word L i) : bareLabel (i.label L) = i.label { L with emoji := fun _ => none } := by
  by_cases hi : i = .more
  · subst hi; rfl
  · unfold bareLabel
    rw [if_neg (label_ne_dots h hi)]
    obtain ⟨e, hs, he⟩ := label_shape h hi
    rw [he, drop_word hs]

mutual
theorem bare_tree {L : Look} (n : Nat) : ∀ T : ITree, (∀ x ∈ T.items n, Word L x.2) → bareTree (T.toDisp L) = T.toDisp { L with emoji := fun _ => none }
  | .node i ks, h => by
    simp only [ITree.items, List.mem_cons] at h
    simp only [ITree.toDisp, bareTree]
    rw [bare_label (h (n, i) (.inl rfl)), bare_trees (n + 1) ks (fun x hx => h x (.inr hx))]
theorem bare_trees {L : Look} (n : Nat) : ∀ Ts : List ITree, (∀ x ∈ itemsAll n Ts, Word L x.2) → bareTrees (toDispAll L Ts) = toDispAll { L with emoji := fun _ => none } Ts
  | [], _ => rfl
  | T :: Ts, h => by
    simp only [itemsAll, List.mem_append] at h
    simp only [toDispAll, bareTrees]
    rw [bare_tree n T (fun x hx => h x (.inl hx)), bare_trees n Ts (fun x hx => h x (.inr hx))]
end

theorem count_dots {L : Look} : ∀ xs : List (Nat × Item), (∀ x ∈ xs, Word L x.2) →
    (xs.map (fun x => x.2.label L)).count j!"..." = (xs.flatMap (fun x => x.2.shows)).count none
  | [], _ => rfl
  | (n, i) :: xs, h => by
    have ih := count_dots xs (fun x hx => h x (List.mem_cons_of_mem _ hx))
    have hi := h (n, i) List.mem_cons_self
    simp only [List.map_cons, List.flatMap_cons, List.count_append, List.count_cons, ih]
    have : (if i.label L == j!"..." then 1 else 0) = (i.shows).count none := by
      by_cases hm : i = .more
      · subst hm; rfl
      · have hne := label_ne_dots hi hm
        rw [if_neg (by simpa using hne)]
        symm
        rw [List.count_eq_zero]
        cases i with
        | file p a => simp [Item.shows]
        | dirs ds last => simp [Item.shows]
        | more => exact absurd rfl hm
    rw [this]
    omega

section
variable {fs : PureFs} {cwd p : Path} {o : Options (Except Exn)} {s : JStr}

/-- Every displayed entry has an emoji of one word. -/
def Words (o : Options (Except Exn)) (t : TreeEntry) : Prop := ∀ q ∈ entryPaths t, ∃ e, (lookOf o).emoji q = some e ∧ SPACE ∉ e

theorem words_items {t : TreeEntry} {T : ITree} (h : ShowsTop (lookOf o) t T) (hW : Words o t) : ∀ x ∈ T.items 0, Word (lookOf o) x.2 := by
  intro x hx
  have hmem := fun q hq => mem_shows_entryPaths (q := q) h hx hq
  have hlast := fun ds last he => last_mem (ds := ds) (last := last) h hx he
  obtain ⟨n, i⟩ := x
  cases i with
  | file q a => exact hW q (hmem q (by simp [Item.shows]))
  | dirs ds last =>
    refine hW last (hmem last ?_)
    simp only [Item.shows, List.mem_map, Option.some.injEq, exists_eq_right]
    exact List.mem_of_getLast? (hlast ds last rfl)
  | more => trivial

theorem word_default (lower : JStr → JStr) (p : Path) (exts : List JStr) : SPACE ∉ fileEmoji lower defaultCalls p exts := by
  have hall : ∀ e ∈ (DEFAULT_FILENAME_EMOJIS.map Prod.snd ++ DEFAULT_FILEEXTENSIONS_EMOJIS.map Prod.snd ++ [j!"📄"]), SPACE ∉ e := by decide
  have h1 : defaultCalls.filterMap EmojiCall.asFileRule = [] := by rfl
  have h2 : defaultCalls.filterMap EmojiCall.asFileName = DEFAULT_FILENAME_EMOJIS := by rfl
  have h3 : defaultCalls.filterMap EmojiCall.asFileExt = DEFAULT_FILEEXTENSIONS_EMOJIS := by rfl
  have h4 : defaultCalls.filterMap EmojiCall.asDefaultFile = [] := by rfl
  apply hall
  unfold fileEmoji
  rw [h1, h2, h3, h4]
  simp only [customEmoji, List.find?_nil, Option.map_none, Option.none_or, List.getLast?_nil, Option.or_none]
  rcases hn : (p.getFileName.bind fun n => lastSet lower DEFAULT_FILENAME_EMOJIS (lower n)) with _ | e
  · rcases hx : (candidates exts).findSome? (lastSet lower DEFAULT_FILEEXTENSIONS_EMOJIS) with _ | e
    · simp
    · obtain ⟨k, _, hk⟩ := List.exists_of_findSome?_eq_some hx
      simp [lastSet_mem hk]
  · obtain ⟨n, _, hk⟩ := Option.bind_eq_some_iff.1 hn
    simp [lastSet_mem hk]

/-- The default emojis: always one, without space and line feed. -/
theorem default_emoji {cs : Casing} {o₀ : Options (Except Exn)} (h : Options.withDefaultEmojis cs fs.lift o₀ = .ok o) (q : Path) :
    ∃ e, (lookOf o).emoji q = some e ∧ SPACE ∉ e ∧ NL ∉ e := by
  cases hd : fs.isDir q with
  | true =>
    have := (C36_default cs fs.lift o₀ o h).1 q (show Except.ok (fs.isDir q) = _ by rw [hd]; rfl)
    exact ⟨j!"📂", by simp only [lookOf, this]; rfl, by decide, by decide⟩
  | false =>
    obtain ⟨exts, hx1, hx2⟩ := exts_of cs.lower q
    have := (C36_default cs fs.lift o₀ o h).2.1 q exts (show Except.ok (fs.isDir q) = _ by rw [hd]; rfl) hx1 hx2
    exact ⟨_, by simp only [lookOf, this]; rfl, word_default _ _ _, C36_default_emojis_clean _ _ _⟩

theorem events_below {x t : TreeEntry} (h : Below x t) : ∀ e ∈ events x, e ∈ events t := by
  induction h with
  | here => exact fun _ h => h
  | @inside d es y hy _ ih =>
    intro e he
    have := ih e he
    simp only [events, List.mem_cons]
    right
    clear ih
    induction es with
    | nil => cases hy
    | cons z es ih2 =>
      simp only [eventsAll, List.mem_append]
      rcases List.mem_cons.1 hy with rfl | hy
      · exact .inl this
      · exact .inr (ih2 hy)

mutual
theorem mark_cut (hlim : ∀ q n, o.childLimit q = .ok n → n < 0) {top : Path} {c : Cmp} {D : Int} {k : Nat} {q : Path} {t : TreeEntry}
    (h : Scanned (answers fs o) c D k q t) (hd : DisplayedAt fs o top k q) (hn : none ∈ events t) :
    ∃ (k' : Nat) (q' : Path), DisplayedAt fs o top k' q' ∧ fs.isDir q' = true ∧ D ≤ k' := by
  match h with
  | .file _ _ => simp [events] at hn
  | .tooDeep h1 h2 => exact ⟨k, q, hd, h1, h2⟩
  | .dir (n := n) (srt := srt) (cs := cs) (ks := ks) (es := es) h1 hk hl hc hks hp _ hes =>
    have hneg := hlim q n hl
    have hm : moreMark n srt q = [] := by unfold moreMark; rw [if_neg (by omega)]
    rw [hm, List.append_nil] at hn
    simp only [events, List.mem_cons, reduceCtorEq, false_or] at hn
    refine mark_cut_all hlim hes (fun r hr => ?_) hn
    have hmem : r ∈ cs.filter (passes fs o) := by
      rw [← kept_filter hks]; exact hp.mem_iff.1 ((limitTo_sublist n srt).subset hr)
    obtain ⟨hm1, hm2⟩ := List.mem_filter.1 hmem
    obtain ⟨f1, f2⟩ := passes_iff.1 hm2
    exact .child hd h1 hc hm1 f1 f2
theorem mark_cut_all (hlim : ∀ q n, o.childLimit q = .ok n → n < 0) {top : Path} {c : Cmp} {D : Int} {k : Nat} {ps : List Path} {es : List TreeEntry}
    (h : ScannedAll (answers fs o) c D k ps es) (hd : ∀ r ∈ ps, DisplayedAt fs o top k r) (hn : none ∈ eventsAll es) :
    ∃ (k' : Nat) (q' : Path), DisplayedAt fs o top k' q' ∧ fs.isDir q' = true ∧ D ≤ k' := by
  match h with
  | .nil => simp [eventsAll] at hn
  | .cons h1 h2 =>
    simp only [eventsAll, List.mem_append] at hn
    rcases hn with hn | hn
    · exact mark_cut hlim h1 (hd _ List.mem_cons_self) hn
    · exact mark_cut_all hlim h2 (fun r hr => hd r (List.mem_cons_of_mem _ hr)) hn
end

theorem complete_iff (hw : cwd.abs = true) (hc : LawfulCmp o.pathComparator) (hlim : ∀ q n, o.childLimit q = .ok n → n < 0) {t : TreeEntry}
    (h : scanned fs cwd o p = .ok t) :
    none ∉ events t ↔ ∀ (k : Nat) (q : Path), DisplayedAt fs o (target cwd p) k q → fs.isDir q = true → (k : Int) < o.maxDepth := by
  have hs := scanned_sound hw hc h
  constructor
  · intro hn
    have hno : ∀ j, ¬ Below (.maxDepth j) t := fun j hb => hn (events_below hb none (by simp [events]))
    have key : ∀ (k : Nat) (d : Path), fs.isDir d = true → (∃ x, BelowAt x k t ∧ entryPath x = some d) → (k : Int) < o.maxDepth := by
      rintro k d hd ⟨x, hx, hxp⟩
      have hsub := hs.sub hx hxp
      rw [Nat.zero_add] at hsub
      cases hsub with
      | file hf _ => have hf : fs.isDir d = false := hf; rw [hd] at hf; cases hf
      | tooDeep _ _ => exact absurd (hx.child (x := .maxDepth k) (by simp)).isBelow (hno k)
      | dir _ hk _ _ _ _ _ _ => exact hk
    have all : ∀ (k : Nat) (q : Path), DisplayedAt fs o (target cwd p) k q → k = 0 ∨ (k : Int) ≤ o.maxDepth := by
      intro k q hd
      induction hd with
      | top => exact .inl rfl
      | @child k d cs q hd h1 _ _ _ _ ih =>
        have := key k d h1 (displayed_found hs hlim hd ih)
        omega
    exact fun k q hd hq => key k q hq (displayed_found hs hlim hd (all k q hd))
  · intro hall hn
    obtain ⟨k, q, h1, h2, h3⟩ := mark_cut hlim hs .top hn
    have := hall k q h1 h2
    omega

end
end Plain

open Plain

section
variable {fs : PureFs} {cwd p : Path} {o : Options (Except Exn)} {s : JStr}

/-- **C123.** If every displayed entry has an emoji that is one word, the text without emojis can be made from the text alone, and the number of labels that are
three dots is the number of places where something is left out. -/
theorem C123_plain (h : prettyPrint fs.lift cwd o p = .ok s) {w : Nat} (hf : TreeFormatOK o.treeFormat w) (hr : Readable o.treeFormat) (hnl : FormatNoNL o.treeFormat)
    {t : TreeEntry} (ht : scanned fs cwd o p = .ok t) (hc : CleanText o t) (hW : ∀ q ∈ entryPaths t, ∃ e, (lookOf o).emoji q = some e ∧ SPACE ∉ e) :
    (∃ s', prettyPrint fs.lift cwd (o.withEmojis (fun _ => pure none)) p = .ok s' ∧ plainText o.treeFormat s = some s') ∧
    dots o.treeFormat s = some ((events t).count none) := by
  obtain ⟨t', T, ht', hp⟩ := printed h
  rw [ht] at ht'
  cases ht'
  have hdec : decode o.treeFormat s = some (T.toDisp (lookOf o)) := by
    rw [hp.text]
    exact C03_decode_roundtrip _ w hf hr hnl _ (hp.labels_noNL hc)
  have hwi := words_items hp.shows hW
  constructor
  · obtain ⟨s', h'⟩ := Locale.returns_emoji (o := o) (E := o.emojiMapping) (E' := fun _ => pure none) (fun _ => ⟨none, rfl⟩) h
    refine ⟨s', h', ?_⟩
    obtain ⟨t'', T', ht'', hp'⟩ := printed h'
    have ht3 : scanned fs cwd o p = .ok t'' := ht''
    rw [ht] at ht3
    cases ht3
    have hT : T' = T := hp'.shows.unique (hp.shows.emoji_irrel (fun _ => none))
    unfold plainText
    rw [hdec, hp'.text, hT, Option.map_some, bare_tree 0 T hwi]
    rfl
  · unfold dots labels
    rw [hdec, Option.map_some, preorder_toDisp, List.map_map, ← hp.shows.events 0, ← count_dots _ hwi]
    rfl

/-- **C123** for the default emojis: the text without emojis can be read off the text with them, and the latter tells whether everything is shown. -/
theorem C123_default (hw : cwd.abs = true) {cs : Casing} {o₀ : Options (Except Exn)} (he : Options.withDefaultEmojis cs fs.lift o₀ = .ok o)
    (hl : LawfulCmp o₀.pathComparator) (hlim : ∀ q n, o₀.childLimit q = .ok n → n < 0) {w : Nat} (hf : TreeFormatOK o₀.treeFormat w) (hr : Readable o₀.treeFormat)
    (hnl : FormatNoNL o₀.treeFormat) (hx : ∀ q x, (lookOf o₀).ext q = some x → NL ∉ x) (h : prettyPrint fs.lift cwd o p = .ok s)
    (hn : ∀ t, scanned fs cwd o₀ p = .ok t → ∀ q ∈ entryPaths t, NL ∉ lastName q) :
    (∃ s', prettyPrint fs.lift cwd (o₀.withEmojis (fun _ => pure none)) p = .ok s' ∧ plainText o₀.treeFormat s = some s') ∧
    (dots o₀.treeFormat s = some 0 ↔
      ∀ (k : Nat) (q : Path), DisplayedAt fs o₀ (target cwd p) k q → fs.isDir q = true → (k : Int) < o₀.maxDepth) := by
  have ho := (C36_default cs fs.lift o₀ o he).2.2
  obtain ⟨t, T, ht, -⟩ := printed h
  have ht0 : scanned fs cwd o₀ p = .ok t := by rw [ho] at ht; exact ht
  have hfm : o.treeFormat = o₀.treeFormat := by rw [ho]; rfl
  have hex : (lookOf o).ext = (lookOf o₀).ext := by rw [ho]; rfl
  have hemo : o.withEmojis (fun _ => pure none) = o₀.withEmojis (fun _ => pure none) := by rw [ho]; rfl
  have hclean : CleanText o t := ⟨hn t ht0, fun q _ e hq => by
      obtain ⟨e', h1, -, h3⟩ := default_emoji he q
      rw [h1] at hq; cases hq; exact h3, fun q _ x hq => hx q x (by rw [← hex]; exact hq)⟩
  obtain ⟨h1, h2⟩ := C123_plain h (by rw [hfm]; exact hf) (by rw [hfm]; exact hr) (by rw [hfm]; exact hnl) ht hclean (fun q _ => by
      obtain ⟨e', h1, h2, -⟩ := default_emoji he q; exact ⟨e', h1, h2⟩)
  rw [hfm] at h1 h2
  refine ⟨by rw [← hemo]; exact h1, ?_⟩
  rw [h2, ← complete_iff hw hl hlim ht0, Option.some.injEq, List.count_eq_zero]

end

namespace Plain

/-- A directory with a file called `...`. -/
def ownName : Node := .dir true [(j!"r", .dir true [(j!"...", .regular 0)])]
/-- A directory with a file called `a`. -/
def other : Node := .dir true [(j!"r", .dir true [(j!"a", .regular 0)])]

/-- Nothing in any directory is shown. -/
def nothing : OnePage.Settings := { OnePage.standard with limit := fun _ => 0 }

theorem obeys_nothing : OnePage.Obeys (Demo.dflt.withChildLimit 0) nothing :=
  ⟨fun _ _ => rfl, fun _ _ => rfl, rfl, fun _ _ => rfl, rfl, rfl, fun _ _ => rfl, fun _ _ => rfl, by decide, by decide, by decide, by decide⟩

/-- The emoji `F` for everything. -/
def letters : OnePage.Settings := { OnePage.standard with emoji := fun _ => some j!"F" }

theorem obeys_letters : OnePage.Obeys (Demo.dflt.withEmojis (fun _ => pure (some j!"F"))) letters :=
  ⟨fun _ _ => rfl, fun _ _ => rfl, rfl, fun _ _ => rfl, rfl, rfl, fun _ _ => rfl, fun _ _ => rfl, by decide, by decide, by decide, by decide⟩

end Plain

/-- **C123.** Without emojis the text does not tell: the same text is returned where everything is shown (a file called `...`) and where everything is left out. -/
theorem C123_without : ∃ s, prettyPrint ownName.toFs.lift Path.root (Options.createDefault : Options (Except Exn)) Demo.r = .ok s ∧
    prettyPrint other.toFs.lift Path.root ((Options.createDefault : Options (Except Exn)).withChildLimit 0) Demo.r = .ok s := by
  have h1 : ownName.WF := by simp [ownName, Node.WF, Node.WFAll]
  have h2 : other.WF := by simp [other, Node.WF, Node.WFAll]
  exact ⟨j!"r/\n└─ ...", (C100_default h1 rfl _ _).2 (by decide), (C100_disk h2 rfl obeys_nothing lawful_const _ _).2 (by decide)⟩

/-- With emojis the two differ. -/
example : prettyPrint ownName.toFs.lift Path.root (Demo.dflt.withEmojis (fun _ => pure (some j!"F"))) Demo.r = .ok j!"F r/\n└─ F ..." := by
  have h1 : ownName.WF := by simp [ownName, Node.WF, Node.WFAll]
  exact (C100_disk h1 rfl obeys_letters lawful_const _ _).2 (by decide)

/-- The demo disk with the default emojis: the text without emojis is found, and nothing is left out. -/
example : ∃ (o : Options (Except Exn)) (s : JStr), Options.withDefaultEmojis asciiCasing Demo.dfs.lift Demo.dflt = .ok o ∧
    prettyPrint Demo.dfs.lift Path.root o Demo.r = .ok s ∧
    plainText TreeFormats.UNICODE_BOX_DRAWING s = some (joinLines [j!"r/", j!"├─ a/", j!"│  ├─ x", j!"│  └─ y", j!"├─ b.txt", j!"└─ z?"]) ∧
    (dots TreeFormats.UNICODE_BOX_DRAWING s = some 0 ↔
      ∀ (k : Nat) (q : Path), DisplayedAt Demo.dfs Demo.dflt (target Path.root Demo.r) k q → Demo.dfs.isDir q = true → (k : Int) < 20) := by
  obtain ⟨o, ho⟩ := C36_default_ok (m := Except Exn) asciiCasing keepsLowerAscii_ascii Demo.dfs.lift Demo.dflt
  obtain ⟨s, hs⟩ := C107_returns ho Demo.printed_found
  obtain ⟨⟨s', h1, h2⟩, h3⟩ := C123_default rfl ho lawful_ALPHABETICAL (fun _ n h => by cases h; decide) Recreate.unicode.1 Recreate.unicode.2.1 Recreate.unicode.2.2
    (fun q x hx => by cases hx) hs (fun t ht => (Demo.found_clean t ht).names)
  have h1' : prettyPrint Demo.dfs.lift Path.root Demo.dflt Demo.r = .ok s' := h1
  rw [Demo.printed_found] at h1'
  cases h1'
  exact ⟨o, s, ho, hs, h2, h3⟩

end JFTP
