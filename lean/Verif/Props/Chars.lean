import Verif.Props.Printed
import Verif.Spec.Chars

/-!
C67: which characters a printed text contains, and what the built-in tree formats are.
-/

namespace JFTP
open Spec

theorem mem_joinLines {c : JChar} {ls : List JStr} (h : c ∈ joinLines ls) : c = NL ∨ ∃ l ∈ ls, c ∈ l := by
  induction ls with
  | nil => cases h
  | cons l ls ih =>
    cases ls with
    | nil => exact Or.inr ⟨l, by simp, h⟩
    | cons l' ls' =>
      simp only [joinLines, List.mem_append, List.mem_cons] at h
      rcases h with h | h | h
      · exact Or.inr ⟨l, by simp, h⟩
      · exact Or.inl h
      · rcases ih h with h | ⟨k, hk, h⟩
        · exact Or.inl h
        · exact Or.inr ⟨k, by simp only [List.mem_cons] at hk ⊢; exact Or.inr hk, h⟩

theorem joinLines_mem {c : JChar} {ls : List JStr} {l : JStr} (hl : l ∈ ls) (h : c ∈ l) : c ∈ joinLines ls := by
  induction ls with
  | nil => cases hl
  | cons l' ls ih =>
    cases ls with
    | nil => simp only [List.mem_singleton] at hl; subst hl; exact h
    | cons l'' ls' =>
      simp only [joinLines, List.mem_append, List.mem_cons]
      rcases List.mem_cons.1 hl with rfl | hl
      · exact Or.inl h
      · exact Or.inr (Or.inr (ih hl))

theorem mem_linePrefix {f : TreeFormat} {n : Nat} {pre : JStr} (h : LinePrefix f n pre) {c : JChar} (hc : c ∈ pre) : c = SPACE ∨ OccursInFormat f c := by
  unfold LinePrefix at h
  cases n with
  | zero => simp only [DrawnAt] at h; subst h; cases hc
  | succ n =>
    obtain ⟨segs, b, _, h2, h3, rfl⟩ := h
    simp only [List.append_nil, List.mem_append, List.mem_flatten, List.mem_map, List.mem_singleton] at hc
    unfold OccursInFormat
    rcases hc with ⟨_, ⟨s, hs, rfl⟩, hc⟩ | hc | hc
    · simp only [List.mem_append, List.mem_singleton] at hc
      rcases hc with hc | hc
      · rcases h2 s hs with rfl | rfl <;> simp [hc]
      · exact Or.inl hc
    · rcases h3 with rfl | rfl <;> simp [hc]
    · exact Or.inl hc

theorem mem_emojiText {e : Option JStr} {c : JChar} (h : c ∈ emojiText e) : c = SPACE ∨ ∃ x, e = some x ∧ c ∈ x := by
  cases e with
  | none => cases h
  | some x =>
    simp only [emojiText, List.mem_append] at h
    rcases h with h | h
    · exact Or.inr ⟨x, rfl, h⟩
    · exact Or.inl (by simpa [SPACE] using h)

theorem mem_getD {e : Option JStr} {c : JChar} (h : c ∈ e.getD []) : ∃ x, e = some x ∧ c ∈ x := by
  cases e with
  | none => cases h
  | some x => exact ⟨x, rfl, h⟩

theorem mem_fileMark {a : Attrs} {c : JChar} (h : c ∈ fileMark a) : c ∈ j!" /*?." := by
  unfold fileMark at h
  split at h
  · simp at h; subst h; decide
  · split at h
    · simp at h; subst h; decide
    · cases h

theorem mem_zip {f : TreeFormat} {items : List (Nat × Item)} {pres : List JStr} (h : List.Forall₂ (fun (x : Nat × Item) pre => LinePrefix f x.1 pre) items pres)
    {g : Nat × Item → JStr} {l : JStr} (hl : l ∈ List.zipWith (· ++ ·) pres (items.map g)) : ∃ x ∈ items, ∃ pre, LinePrefix f x.1 pre ∧ l = pre ++ g x := by
  induction h with
  | nil => cases hl
  | cons h1 _ ih =>
    simp only [List.map_cons, List.zipWith_cons_cons, List.mem_cons] at hl
    rcases hl with rfl | hl
    · exact ⟨_, by simp, _, h1, rfl⟩
    · obtain ⟨x, hx, h⟩ := ih hl
      exact ⟨x, by simp [hx], h⟩

section
variable {fs : PureFs} {cwd : Path} {o : Options (Except Exn)} {p : Path} {s : JStr}

/-- Where the characters of a label come from. -/
theorem Spec.Prints.label_chars {t : TreeEntry} {T : ITree} (h : Prints o t T s) {x : Nat × Item} (hx : x ∈ T.items 0) {c : JChar}
    (hc : c ∈ x.2.label (lookOf o)) : c ∈ j!" /*?." ∨ OccursIn (lookOf o) (entryPaths t) c := by
  have hmem := fun q hq => mem_shows_entryPaths (q := q) h.shows hx hq
  have hlast := fun ds last he => last_mem (ds := ds) (last := last) h.shows hx he
  obtain ⟨n, i⟩ := x
  unfold OccursIn
  cases i with
  | file q a =>
    have hq := hmem q (by simp [Item.shows])
    simp only [Item.label, List.mem_append] at hc
    rcases hc with ((hc | hc) | hc) | hc
    · rcases mem_emojiText hc with rfl | hc
      · left; decide
      · exact Or.inr ⟨q, hq, Or.inr (Or.inl hc)⟩
    · exact Or.inr ⟨q, hq, Or.inl hc⟩
    · exact Or.inl (mem_fileMark hc)
    · exact Or.inr ⟨q, hq, Or.inr (Or.inr (mem_getD hc))⟩
  | dirs ds last =>
    have hq := hmem last (by
      simp only [Item.shows, List.mem_map, Option.some.injEq, exists_eq_right]
      exact List.mem_of_getLast? (hlast ds last rfl))
    simp only [Item.label, List.mem_append, List.mem_flatten, List.mem_map] at hc
    rcases hc with (hc | ⟨_, ⟨d, hd, rfl⟩, hc⟩) | hc
    · rcases mem_emojiText hc with rfl | hc
      · left; decide
      · exact Or.inr ⟨last, hq, Or.inr (Or.inl hc)⟩
    · simp only [List.mem_append] at hc
      rcases hc with hc | hc
      · exact Or.inr ⟨d, hmem d (by simp [Item.shows, hd]), Or.inl hc⟩
      · left; simp at hc; subst hc; decide
    · exact Or.inr ⟨last, hq, Or.inr (Or.inr (mem_getD hc))⟩
  | more => left; simp [Item.label] at hc; subst hc; decide

/-- **C67**: the returned text contains no characters other than line feeds, the fixed characters (space, `/`, `*`, `?`, `.`), those of the tree format and those of the names, emojis and
extensions of displayed entries (so no carriage return, tab or control character is ever introduced). -/
theorem C67_alphabet (h : prettyPrint fs.lift cwd o p = .ok s) : ∃ t, scanned fs cwd o p = .ok t ∧
    ∀ c ∈ s, c = NL ∨ c ∈ j!" /*?." ∨ OccursInFormat o.treeFormat c ∨ OccursIn (lookOf o) (entryPaths t) c := by
  obtain ⟨t, T, ht, hp⟩ := printed h
  refine ⟨t, ht, fun c hc => ?_⟩
  obtain ⟨pres, hpre, hl⟩ := layout_split o.treeFormat T
  have hs := hp.text
  unfold picture at hs
  rw [hs] at hc
  rcases mem_joinLines hc with rfl | ⟨l, hl', hc⟩
  · exact Or.inl rfl
  · right
    rw [hl] at hl'
    obtain ⟨x, hx, pre, h1, rfl⟩ := mem_zip hpre hl'
    rcases List.mem_append.1 hc with hc | hc
    · rcases mem_linePrefix h1 hc with rfl | hc
      · left; decide
      · exact Or.inr (Or.inl hc)
    · rcases hp.label_chars hx hc with hc | hc
      · exact Or.inl hc
      · exact Or.inr (Or.inr hc)

theorem block_mem {a b x : JStr} {xs : List JStr} {c : JChar} : (∃ l ∈ block a b (x :: xs), c ∈ l) ↔ c ∈ a ∨ c ∈ x ∨ (c ∈ b ∧ xs ≠ []) ∨ ∃ l ∈ xs, c ∈ l := by
  simp only [block, List.mem_cons, List.mem_map]
  constructor
  · rintro ⟨l, rfl | ⟨k, hk, rfl⟩, hc⟩
    · rcases List.mem_append.1 hc with hc | hc
      · exact Or.inl hc
      · exact Or.inr (Or.inl hc)
    · rcases List.mem_append.1 hc with hc | hc
      · exact Or.inr (Or.inr (Or.inl ⟨hc, List.ne_nil_of_mem hk⟩))
      · exact Or.inr (Or.inr (Or.inr ⟨k, hk, hc⟩))
  · rintro (hc | hc | ⟨hc, hx⟩ | ⟨k, hk, hc⟩)
    · exact ⟨_, Or.inl rfl, List.mem_append_left _ hc⟩
    · exact ⟨_, Or.inl rfl, List.mem_append_right _ hc⟩
    · obtain ⟨k, ks, rfl⟩ := List.exists_cons_of_ne_nil hx
      exact ⟨_, Or.inr ⟨k, by simp, rfl⟩, List.mem_append_left _ hc⟩
    · exact ⟨_, Or.inr ⟨k, hk, rfl⟩, List.mem_append_right _ hc⟩

theorem layoutKids_eq_nil {f : TreeFormat} {L : Look} {ks : List ITree} : layoutKids f (toDispAll L ks) = [] ↔ ks = [] := by
  cases ks with
  | nil => simp [toDispAll, layoutKids]
  | cons k ks =>
    obtain ⟨i, below⟩ := k
    simp only [toDispAll, ITree.toDisp, layoutKids, layout, block]
    split <;> simp

theorem toDispAll_isEmpty {L : Look} {ks : List ITree} : (toDispAll L ks).isEmpty = ks.isEmpty := by
  cases ks <;> rfl

/-- A character of the continuation symbol that is nowhere else occurs exactly below non-last items. -/
theorem cont_mem (f : TreeFormat) (L : Look) (c : JChar) (h1 : c ∉ f.nonLastChildSymbol) (h2 : c ∉ f.lastChildSymbol) (h3 : c ∈ f.continuationSymbol)
    (h4 : c ∉ f.emptySymbol) (h5 : c ≠ SPACE) (n : Nat) (ks : List ITree) (hl : ∀ x ∈ itemsAll n ks, c ∉ x.2.label L) :
    (∃ l ∈ layoutKids f (toDispAll L ks), c ∈ l) ↔ ForkedAll ks := by
  match ks with
  | [] => simp [toDispAll, layoutKids, ForkedAll]
  | .node i below :: later =>
    have ih1 := cont_mem f L c h1 h2 h3 h4 h5 (n + 1) below (fun x hx => hl x (by simp [itemsAll, ITree.items, hx]))
    have ih2 := cont_mem f L c h1 h2 h3 h4 h5 n later (fun x hx => hl x (by simp [itemsAll, hx]))
    have hi := hl (n, i) (by simp [itemsAll, ITree.items])
    simp only [] at hi
    have hb := fun a b : JStr => block_mem (a := a) (b := b) (x := i.label L) (xs := layoutKids f (toDispAll L below)) (c := c)
    simp only [toDispAll, ITree.toDisp, layoutKids, layout, ForkedAll, toDispAll_isEmpty]
    cases later with
    | nil =>
      simp only [List.isEmpty_nil, if_true, hb, ih1]
      simp [h2, h4, h5, hi, ForkedAll]
    | cons k later =>
      have : (∃ l ∈ block (f.nonLastChildSymbol ++ [SPACE]) (f.continuationSymbol ++ [SPACE]) (i.label L :: layoutKids f (toDispAll L below)) ++
          layoutKids f (toDispAll L (k :: later)), c ∈ l) ↔ ((c ∈ f.continuationSymbol ++ [SPACE] ∧ below ≠ []) ∨ ForkedAll below) ∨ ForkedAll (k :: later) := by
        simp only [List.mem_append (s := block _ _ _), or_and_right, exists_or, hb, ih1, ih2]
        simp [h1, h5, hi, layoutKids_eq_nil]
      simp only [List.isEmpty_cons, Bool.false_eq_true, if_false, this]
      simp [h3, or_assoc]

/-- **C67**, what `CLASSIC_ASCII` prints when names, emojis and extensions are ASCII: the only character that is not ASCII is `│`, and it occurs exactly if something is displayed below an item that is
not the last one among its siblings. -/
theorem C67_classic_ascii (h : prettyPrint fs.lift cwd o p = .ok s) (hf : o.treeFormat = TreeFormats.CLASSIC_ASCII)
    (ha : ∀ t, scanned fs cwd o p = .ok t → ∀ c, OccursIn (lookOf o) (entryPaths t) c → IsAscii c) :
    (∀ c ∈ s, IsAscii c ∨ c = BAR) ∧ ∃ t T, scanned fs cwd o p = .ok t ∧ Prints o t T s ∧ (BAR ∈ s ↔ T.Forked) := by
  constructor
  · obtain ⟨t, ht, hc⟩ := C67_alphabet h
    intro c hcs
    have hfmt : ∀ c, OccursInFormat TreeFormats.CLASSIC_ASCII c → IsAscii c ∨ c = BAR := by
      intro c hc
      have hm : c ∈ j!"|-`│ " := by
        unfold OccursInFormat TreeFormats.CLASSIC_ASCII at hc
        simp at hc ⊢
        tauto
      revert c
      have : ∀ c ∈ j!"|-`│ ", IsAscii c ∨ c = BAR := by unfold IsAscii; decide
      intro c _ hm
      exact this c hm
    have hfix : ∀ c ∈ j!" /*?.", IsAscii c := by unfold IsAscii; decide
    rcases hc c hcs with rfl | hc | hc | hc
    · left; unfold IsAscii; decide
    · exact Or.inl (hfix c hc)
    · rw [hf] at hc; exact hfmt c hc
    · exact Or.inl (ha t ht c hc)
  · obtain ⟨t, T, ht, hp⟩ := printed h
    refine ⟨t, T, ht, hp, ?_⟩
    have hlab : ∀ x ∈ T.items 0, BAR ∉ x.2.label (lookOf o) := by
      intro x hx hc
      rcases hp.label_chars hx hc with hc | hc
      · revert hc; decide
      · have := ha t ht _ hc; revert this; unfold IsAscii; decide
    have hs := hp.text
    rw [hf] at hs
    obtain ⟨i, ks⟩ := T
    have hk := cont_mem TreeFormats.CLASSIC_ASCII (lookOf o) BAR (by decide) (by decide) (by decide) (by decide) (by decide) 1 ks
      (fun x hx => hlab x (by simp [ITree.items, hx]))
    have hi := hlab (0, i) (by simp [ITree.items])
    show _ ↔ ForkedAll ks
    rw [← hk, hs]
    unfold picture
    simp only [ITree.toDisp, layout]
    constructor
    · intro hc
      rcases mem_joinLines hc with hc | ⟨l, hl, hc⟩
      · exact absurd hc (by decide)
      · rcases List.mem_cons.1 hl with rfl | hl
        · exact absurd hc hi
        · exact ⟨l, hl, hc⟩
    · rintro ⟨l, hl, hc⟩
      exact joinLines_mem (List.mem_cons_of_mem _ hl) hc

end

/-- **C67**: in both built-in formats the four symbols are different, so last and other children, and continued and finished levels, are drawn differently; the branch symbols are the ones documented. -/
theorem C67_builtin_symbols :
    (∀ f ∈ [TreeFormats.CLASSIC_ASCII, TreeFormats.UNICODE_BOX_DRAWING],
      [f.nonLastChildSymbol, f.lastChildSymbol, f.continuationSymbol, f.emptySymbol].Nodup ∧ (∀ c ∈ f.emptySymbol, c = SPACE)) ∧
    (∀ c, OccursInFormat TreeFormats.CLASSIC_ASCII c ↔ c ∈ j!"|--`--│ ") ∧ (∀ c, OccursInFormat TreeFormats.UNICODE_BOX_DRAWING c ↔ c ∈ j!"├─└─│ ") := by
  refine ⟨by decide, fun c => ?_, fun c => ?_⟩
  · unfold OccursInFormat TreeFormats.CLASSIC_ASCII; simp; tauto
  · unfold OccursInFormat TreeFormats.UNICODE_BOX_DRAWING; simp; tauto

namespace Demo

/-- Default options with the format `CLASSIC_ASCII`. -/
def classic : Options (Except Exn) := { dflt with treeFormat := TreeFormats.CLASSIC_ASCII }

theorem scanned_classic : scanned dfs Path.root classic r = .ok found := scanned_found

theorem printed_classic : prettyPrint dfs.lift Path.root classic r =
    .ok (joinLines [j!"r/", j!"|-- a/", j!"│   |-- x", j!"│   `-- y", j!"|-- b.txt", j!"`-- z?"]) := by
  rw [C01_text_returned (o := classic) scanned_classic found_named found_quiet
    (.dir (.cons (.dir (.stop (fun c ces h => by simp [Mergeable] at h)) (.cons .file (.cons .file .nil))) (.cons .file (.cons .file .nil))))]
  rfl

theorem classic_ascii : ∀ t, scanned dfs Path.root classic r = .ok t → ∀ c, OccursIn (lookOf classic) (entryPaths t) c → IsAscii c := by
  intro t ht
  rw [scanned_classic] at ht
  cases ht
  have h : ∀ q ∈ entryPaths found, ∀ c ∈ lastName q, IsAscii c := by unfold IsAscii; decide
  rintro c ⟨q, hq, hc | ⟨e, he, _⟩ | ⟨e, he, _⟩⟩
  · exact h q hq c hc
  · cases he
  · cases he

example := C67_classic_ascii printed_classic rfl classic_ascii
example := C67_alphabet printed_found

end Demo

/-- **C67**, claim refuted: a text printed with `CLASSIC_ASCII` for ASCII names, without emojis and extensions, need not be ASCII. -/
theorem C67_ascii_claim_false : ¬ ∀ (fs : PureFs) (cwd : Path) (o : Options (Except Exn)) (p : Path) (s : JStr), prettyPrint fs.lift cwd o p = .ok s →
    o.treeFormat = TreeFormats.CLASSIC_ASCII → (∀ t, scanned fs cwd o p = .ok t → ∀ c, OccursIn (lookOf o) (entryPaths t) c → IsAscii c) → ∀ c ∈ s, IsAscii c := by
  intro h
  have := h _ _ _ _ _ Demo.printed_classic rfl Demo.classic_ascii BAR (by decide)
  revert this; unfold IsAscii; decide

end JFTP
