import Verif.Spec.Size
import Verif.Props.Reorder
import Verif.Props.OnePage
import Verif.Props.Bounds

/-
C124: the size of the text, with and without compact directories.
-/

namespace JFTP
open Spec

namespace Size

/-- The characters of a line, with its line break. -/
def cost (w : Nat) (L : Look) (x : Nat × Item) : Nat := x.1 * (w + 1) + (x.2.label L).length + 1

/-- The characters of several lines. -/
def costs (w : Nat) (L : Look) (xs : List (Nat × Item)) : Nat := (xs.map (cost w L)).sum

theorem costs_cons (w : Nat) (L : Look) (x : Nat × Item) (xs : List (Nat × Item)) : costs w L (x :: xs) = cost w L x + costs w L xs := by simp [costs]

theorem costs_append (w : Nat) (L : Look) (xs ys : List (Nat × Item)) : costs w L (xs ++ ys) = costs w L xs + costs w L ys := by simp [costs]

section
variable {w : Nat} {L : Look}

mutual
theorem chars_deeper (emoji ext : Path → Option JStr) (k : Nat) : ∀ e : TreeEntry, charsOf w emoji ext k e ≤ charsOf w emoji ext (k + 1) e
  | .dir d es => by
    have := chars_deeper_all emoji ext (k + 1) es
    have h2 : k * (w + 1) ≤ (k + 1) * (w + 1) := Nat.mul_le_mul_right _ (by omega)
    simp only [charsOf]
    omega
  | .file p a => by
    have h2 : k * (w + 1) ≤ (k + 1) * (w + 1) := Nat.mul_le_mul_right _ (by omega)
    simp only [charsOf]
    omega
  | .skipped _ => by
    have h2 : k * (w + 1) ≤ (k + 1) * (w + 1) := Nat.mul_le_mul_right _ (by omega)
    simp only [charsOf]
    omega
  | .maxDepth _ => by
    have h2 : k * (w + 1) ≤ (k + 1) * (w + 1) := Nat.mul_le_mul_right _ (by omega)
    simp only [charsOf]
    omega
theorem chars_deeper_all (emoji ext : Path → Option JStr) (k : Nat) : ∀ es : List TreeEntry, charsOfAll w emoji ext k es ≤ charsOfAll w emoji ext (k + 1) es
  | [] => Nat.le_refl _
  | e :: es => by
    have h1 := chars_deeper emoji ext k e
    have h2 := chars_deeper_all emoji ext k es
    simp only [charsOfAll]
    omega
end

mutual
theorem chars_prune (emoji ext : Path → Option JStr) (keep : Path → Bool) (k : Nat) : ∀ e : TreeEntry, charsOf w emoji ext k (prune keep e) ≤ charsOf w emoji ext k e
  | .dir d es => by
    have := chars_prune_all emoji ext keep (k + 1) es
    simp only [prune, charsOf]
    omega
  | .file _ _ => Nat.le_refl _
  | .skipped _ => Nat.le_refl _
  | .maxDepth _ => Nat.le_refl _
theorem chars_prune_all (emoji ext : Path → Option JStr) (keep : Path → Bool) (k : Nat) : ∀ es : List TreeEntry,
    charsOfAll w emoji ext k (pruneAll keep es) ≤ charsOfAll w emoji ext k es
  | [] => Nat.le_refl _
  | e :: es => by
    have h1 := chars_prune emoji ext keep k e
    have h2 := chars_prune_all emoji ext keep k es
    simp only [pruneAll]
    split <;> simp only [charsOfAll] <;> omega
end

theorem label_dirs_cons (d : Path) (ds : List Path) (last : Path) :
    ((Item.dirs (d :: ds) last).label L).length = (lastName d).length + 1 + ((Item.dirs ds last).label L).length := by
  simp only [Item.label, List.map_cons, List.flatten_cons, List.length_append]
  simp
  omega

theorem label_dirs_one (d : Path) : ((Item.dirs [d] d).label L).length = (emojiText (L.emoji d)).length + (lastName d).length + 1 + ((L.ext d).getD []).length := by
  simp only [Item.label, List.map_cons, List.map_nil, List.flatten_cons, List.flatten_nil, List.length_append]
  simp
  omega

theorem chain_le {d : Path} {es : List TreeEntry} {ds : List Path} {last : Path} {es' : List TreeEntry} (h : Chain L d es ds last es') : ∀ k : Nat,
    k * (w + 1) + ((Item.dirs ds last).label L).length + 1 + charsOfAll w L.emoji L.ext (k + 1) es' ≤ charsOf w L.emoji L.ext k (.dir d es) := by
  induction h with
  | stop _ => intro k; rw [label_dirs_one]; simp only [charsOf]; omega
  | @step d es c ces ds last es' hm _ ih =>
    intro k
    obtain ⟨-, rfl, -⟩ := hm
    have h1 := ih (k + 1)
    have h2 := chars_deeper_all (w := w) L.emoji L.ext (k + 1) es'
    rw [label_dirs_cons]
    simp only [charsOf, charsOfAll] at h1 ⊢
    rw [Nat.add_mul] at h1
    rw [Nat.add_mul]
    omega

mutual
theorem shows_le {e : TreeEntry} {T : ITree} (h : Shows L e T) (k : Nat) : costs w L (T.items k) ≤ charsOf w L.emoji L.ext k e := by
  match h with
  | .file => simp [ITree.items, itemsAll, costs, cost, charsOf, Item.label]; omega
  | .skipped => simp [ITree.items, itemsAll, costs, cost, charsOf, Item.label]
  | .maxDepth => simp [ITree.items, itemsAll, costs, cost, charsOf, Item.label]
  | .dir hc hk =>
    have h1 := shows_le_all hk (k + 1)
    have h2 := chain_le (w := w) hc k
    rw [ITree.items, costs_cons]
    simp only [cost]
    omega
theorem shows_le_all {es : List TreeEntry} {Ts : List ITree} (h : ShowsAll L es Ts) (k : Nat) : costs w L (itemsAll k Ts) ≤ charsOfAll w L.emoji L.ext k es := by
  match h with
  | .nil => simp [itemsAll, costs, charsOfAll]
  | .cons h1 h2 =>
    have := shows_le h1 k
    have := shows_le_all h2 k
    rw [itemsAll, costs_append, charsOfAll]
    omega
end

mutual
theorem shows_eq (hoff : L.compact = false) {e : TreeEntry} {T : ITree} (h : Shows L e T) (k : Nat) : costs w L (T.items k) = charsOf w L.emoji L.ext k e := by
  match h with
  | .file => simp [ITree.items, itemsAll, costs, cost, charsOf, Item.label]; omega
  | .skipped => simp [ITree.items, itemsAll, costs, cost, charsOf, Item.label]
  | .maxDepth => simp [ITree.items, itemsAll, costs, cost, charsOf, Item.label]
  | .dir (.stop _) hk =>
    have h1 := shows_eq_all hoff hk (k + 1)
    rw [ITree.items, costs_cons]
    simp only [cost, label_dirs_one, charsOf]
    omega
  | .dir (.step hm _) _ => exact absurd (hoff.symm.trans hm.1) (by decide)
theorem shows_eq_all (hoff : L.compact = false) {es : List TreeEntry} {Ts : List ITree} (h : ShowsAll L es Ts) (k : Nat) :
    costs w L (itemsAll k Ts) = charsOfAll w L.emoji L.ext k es := by
  match h with
  | .nil => simp [itemsAll, costs, charsOfAll]
  | .cons h1 h2 =>
    have := shows_eq hoff h1 k
    have := shows_eq_all hoff h2 k
    rw [itemsAll, costs_append, charsOfAll]
    omega
end

theorem top_le {t : TreeEntry} {T : ITree} (h : ShowsTop L t T) : costs w L (T.items 0) ≤ charsOf w L.emoji L.ext 0 t := by
  cases h with
  | dir hk =>
    have := shows_le_all (w := w) hk (0 + 1)
    rw [ITree.items, costs_cons]
    simp only [cost, label_dirs_one, charsOf]
    omega
  | other _ hs => exact shows_le hs 0

theorem top_eq (hoff : L.compact = false) {t : TreeEntry} {T : ITree} (h : ShowsTop L t T) : costs w L (T.items 0) = charsOf w L.emoji L.ext 0 t := by
  cases h with
  | dir hk =>
    have := shows_eq_all (w := w) hoff hk (0 + 1)
    rw [ITree.items, costs_cons]
    simp only [cost, label_dirs_one, charsOf]
    omega
  | other _ hs => exact shows_eq hoff hs 0

end

theorem text_costs {f : TreeFormat} {w : Nat} (hw : TreeFormatOK f w) (L : Look) (T : ITree) : (picture f (T.toDisp L)).length + 1 = costs w L (T.items 0) := by
  rw [picture_length hw, preorder_toDisp, List.map_map]
  rfl

end Size

open Size

section
variable {fs : PureFs} {cwd p : Path} {o : Options (Except Exn)} {s : JStr}

/-- **C124.** Without compact directories the length of the text is the sum over the displayed entries; with compact directories it is at most that. -/
theorem C124_size {w : Nat} (hf : TreeFormatOK o.treeFormat w) (h : prettyPrint fs.lift cwd o p = .ok s) {t : TreeEntry} (ht : scanned fs cwd o p = .ok t) :
    s.length + 1 ≤ charsOf w (lookOf o).emoji (lookOf o).ext 0 t ∧
    (o.compactDirectories = false → s.length + 1 = charsOf w (lookOf o).emoji (lookOf o).ext 0 t) := by
  obtain ⟨t', T, ht', hp⟩ := printed h
  rw [ht] at ht'
  cases ht'
  rw [hp.text, text_costs hf]
  exact ⟨top_le hp.shows, fun hoff => top_eq hoff hp.shows⟩

/-- **C124.** Compact directories never make the text longer. -/
theorem C124_compact {w : Nat} (hf : TreeFormatOK o.treeFormat w) {s' : JStr} (h : prettyPrint fs.lift cwd (o.withCompactDirectories false) p = .ok s)
    (h' : prettyPrint fs.lift cwd (o.withCompactDirectories true) p = .ok s') : s'.length ≤ s.length := by
  obtain ⟨t, -, ht, -⟩ := printed h
  have ht' : scanned fs cwd (o.withCompactDirectories true) p = .ok t := ht
  have h1 := (C124_size (o := o.withCompactDirectories false) hf h ht).2 rfl
  have h2 := (C124_size (o := o.withCompactDirectories true) hf h' ht').1
  have h3 : charsOf w (lookOf (o.withCompactDirectories true)).emoji (lookOf (o.withCompactDirectories true)).ext 0 t =
      charsOf w (lookOf (o.withCompactDirectories false)).emoji (lookOf (o.withCompactDirectories false)).ext 0 t := rfl
  omega

/-- **C124.** Compact directories never make the text have more lines. -/
theorem C124_lines (hf : FormatNoNL o.treeFormat) {s' : JStr} (h : prettyPrint fs.lift cwd (o.withCompactDirectories false) p = .ok s)
    (h' : prettyPrint fs.lift cwd (o.withCompactDirectories true) p = .ok s') (hc : ∀ t, scanned fs cwd o p = .ok t → CleanText o t) :
    (linesOf s').length ≤ (linesOf s).length := by
  have hcl : ∀ (b : Bool) (t : TreeEntry), scanned fs cwd (o.withCompactDirectories b) p = .ok t → CleanText (o.withCompactDirectories b) t :=
    fun b t ht => ⟨(hc t ht).names, (hc t ht).emojis, (hc t ht).exts⟩
  obtain ⟨t, ht, hl⟩ := C02_text_lines_compact_off (o := o.withCompactDirectories false) h hf rfl (hcl false)
  obtain ⟨t', T, ht', hT, hl', -⟩ := C02_text_lines (o := o.withCompactDirectories true) h' hf (hcl true)
  have ht2 : scanned fs cwd (o.withCompactDirectories false) p = .ok t' := ht'
  rw [ht] at ht2
  cases ht2
  rw [hl, hl', ← itemsLength, ← hT.events 0]
  have hne : ∀ x ∈ T.items 0, 1 ≤ x.2.shows.length := by
    intro x hx
    rcases hi : x.2 with ⟨q, a⟩ | ⟨ds, last⟩ | _
    · exact Nat.le_refl _
    · have := last_mem hT hx hi
      cases ds with
      | nil => cases this
      | cons d ds => simp [Item.shows]
    · exact Nat.le_refl _
  generalize T.items 0 = l at hne
  induction l with
  | nil => exact Nat.le_refl _
  | cons x xs ih =>
    have h1 := hne x (by simp)
    have h2 := ih (fun y hy => hne y (by simp [hy]))
    rw [List.flatMap_cons, List.length_append, List.length_cons]
    omega

/-- **C124.** Without compact directories and child limits, stricter filters never make the text longer. -/
theorem C124_filters {w : Nat} (hf : TreeFormatOK o.treeFormat w) (hoff : o.compactDirectories = false) (hw : cwd.abs = true) (hc : LawfulCmp o.pathComparator)
    (hd : DistinguishesAll o.pathComparator fs) (hu : ∀ q n, o.childLimit q = .ok n → n < 0) (dm fm : Matcher (Except Exn))
    (hs : Stricter o ((o.filterDirectories dm).filterFiles fm)) {s' : JStr} (h : prettyPrint fs.lift cwd o p = .ok s)
    (h' : prettyPrint fs.lift cwd ((o.filterDirectories dm).filterFiles fm) p = .ok s') : s'.length ≤ s.length := by
  obtain ⟨t, -, ht, -⟩ := printed h
  have ht' := C64_prune hw hc hd hu dm fm hs ht
  have h1 := (C124_size hf h ht).2 hoff
  have h2 := (C124_size (o := (o.filterDirectories dm).filterFiles fm) hf h' ht').1
  have h3 := chars_prune (w := w) (lookOf o).emoji (lookOf o).ext (passes fs ((o.filterDirectories dm).filterFiles fm)) 0 t
  have h4 : charsOf w (lookOf ((o.filterDirectories dm).filterFiles fm)).emoji (lookOf ((o.filterDirectories dm).filterFiles fm)).ext 0 =
      charsOf w (lookOf o).emoji (lookOf o).ext 0 := rfl
  rw [h4] at h2
  omega

end

namespace Size

/-- A chain of two directories with one file. -/
def disk : Node := .dir true [(j!"r", .dir true [(j!"a", .dir true [(j!"b", .dir true [(j!"x", .regular 0)])])])]

/-- Merged directories. -/
def merged : OnePage.Settings := { OnePage.standard with compact := true }

theorem obeys_merged : OnePage.Obeys (Demo.dflt.withCompactDirectories true) merged :=
  ⟨fun _ _ => rfl, fun _ _ => rfl, rfl, fun _ _ => rfl, rfl, rfl, fun _ _ => rfl, fun _ _ => rfl, by decide, by decide, by decide, by decide⟩

end Size

/-- Both texts for one directory. -/
example : ∃ s s', prettyPrint disk.toFs.lift Path.root (Demo.dflt.withCompactDirectories false) Demo.r = .ok s ∧
    prettyPrint disk.toFs.lift Path.root (Demo.dflt.withCompactDirectories true) Demo.r = .ok s' ∧ s.length = 28 ∧ s'.length = 18 ∧ s'.length ≤ s.length := by
  have h1 : disk.WF := by simp [disk, Node.WF, Node.WFAll]
  have e1 : prettyPrint disk.toFs.lift Path.root (Demo.dflt.withCompactDirectories false) Demo.r = .ok j!"r/\n└─ a/\n   └─ b/\n      └─ x" := (C100_default h1 rfl _ _).2 (by decide)
  have e2 : prettyPrint disk.toFs.lift Path.root (Demo.dflt.withCompactDirectories true) Demo.r = .ok j!"r/\n└─ a/b/\n   └─ x" := (C100_disk h1 rfl obeys_merged lawful_const _ _).2 (by decide)
  exact ⟨_, _, e1, e2, by decide, by decide, C124_compact (o := Demo.dflt) (w := 2) builtin_formats_ok.1 e1 e2⟩

/-- The demo disk, which has no chain. -/
example : ∃ s s', prettyPrint Demo.dfs.lift Path.root (Demo.dflt.withCompactDirectories false) Demo.r = .ok s ∧
    prettyPrint Demo.dfs.lift Path.root (Demo.dflt.withCompactDirectories true) Demo.r = .ok s' ∧ (linesOf s').length ≤ (linesOf s).length := by
  have hch : ∀ t, scanned Demo.dfs Path.root Demo.dflt Demo.r = .ok t → NoChain t := by
    intro t ht
    rw [Demo.scanned_found] at ht
    cases ht
    intro e he d c ces hb
    simp at he
    rcases he with rfl | rfl | rfl
    · rcases hb with _ | ⟨hx, hb⟩
      simp at hx
      rcases hx with rfl | rfl <;> cases hb
    · cases hb
    · cases hb
  have h' := (C24_text_same (o := Demo.dflt) hch).trans Demo.printed_found
  exact ⟨_, _, Demo.printed_found, h', C124_lines (o := Demo.dflt) builtin_formats_noNL.1 Demo.printed_found h' Demo.found_clean⟩

namespace Size

/-- Every directory whose name is not `b`. -/
def notB (p : Path) : Bool := decide (lastName p ≠ j!"b")

/-- Demo: without the directories called `b`. -/
def without (o : Options (Except Exn)) : Options (Except Exn) := (o.filterDirectories (fun p => pure (notB p))).filterFiles (fun _ => pure true)

theorem disk_distinguishes : DistinguishesAll PathSorts.ALPHABETICAL disk.toFs :=
  sort_distinguishes lawful_const (Node.WF.proper (by simp [disk, Node.WF, Node.WFAll]))

theorem without_stricter : Stricter Demo.dflt (without Demo.dflt) :=
  ⟨fun q => by
    by_cases h : notB q = true
    · exact .inr ⟨congrArg Except.ok h, rfl⟩
    · exact .inl (congrArg Except.ok (by simpa using h)), fun _ => .inr ⟨rfl, rfl⟩⟩

/-- A long emoji for the directories called `a`. -/
def longA (p : Path) : Option JStr := if lastName p = j!"a" then some j!"0123456789" else none

/-- Demo: merged directories, long emojis for those called `a`. -/
def loud : Options (Except Exn) := { Demo.dflt.withCompactDirectories true with emojiMapping := fun p => pure (longA p) }

theorem loud_stricter : Stricter loud (without loud) :=
  ⟨fun q => by
    by_cases h : notB q = true
    · exact .inr ⟨congrArg Except.ok h, rfl⟩
    · exact .inl (congrArg Except.ok (by simpa using h)), fun _ => .inr ⟨rfl, rfl⟩⟩

end Size

/-- The texts for one directory, with and without the directories called `b`. -/
example : ∃ s s', prettyPrint disk.toFs.lift Path.root Demo.dflt Demo.r = .ok s ∧ prettyPrint disk.toFs.lift Path.root (without Demo.dflt) Demo.r = .ok s' ∧
    s.length = 28 ∧ s'.length = 8 ∧ s'.length ≤ s.length := by
  have h1 : disk.WF := by simp [disk, Node.WF, Node.WFAll]
  have e1 : prettyPrint disk.toFs.lift Path.root Demo.dflt Demo.r = .ok j!"r/\n└─ a/\n   └─ b/\n      └─ x" := (C100_default h1 rfl _ _).2 (by decide)
  have ho : OnePage.Obeys (without Demo.dflt) { OnePage.standard with showDir := notB } :=
    ⟨fun _ _ => rfl, fun _ _ => rfl, rfl, fun _ _ => rfl, rfl, rfl, fun _ _ => rfl, fun _ _ => rfl, by decide, by decide, by decide, by decide⟩
  have e2 : prettyPrint disk.toFs.lift Path.root (without Demo.dflt) Demo.r = .ok j!"r/\n└─ a/" := (C100_disk h1 rfl ho lawful_const _ _).2 (by decide)
  exact ⟨_, _, e1, e2, by decide, by decide,
    C124_filters (o := Demo.dflt) (w := 2) builtin_formats_ok.1 rfl rfl lawful_ALPHABETICAL disk_distinguishes (fun q n h => by cases h; decide) _ _ without_stricter e1 e2⟩

/-- **C124.** Compact directories must be off for that: on a merged line only the emoji of the last directory is displayed, so a filter that removes the last
directory can bring a longer emoji to light. -/
theorem C124_filters_compact_longer : ∃ (disk : Node) (o : Options (Except Exn)) (dm fm : Matcher (Except Exn)) (p : Path) (s s' : JStr),
    disk.WF ∧ o.compactDirectories = true ∧ (∀ q n, o.childLimit q = .ok n → n < 0) ∧ Stricter o ((o.filterDirectories dm).filterFiles fm) ∧
    prettyPrint disk.toFs.lift Path.root o p = .ok s ∧ prettyPrint disk.toFs.lift Path.root ((o.filterDirectories dm).filterFiles fm) p = .ok s' ∧ s.length < s'.length := by
  have h1 : disk.WF := by simp [disk, Node.WF, Node.WFAll]
  have ho : OnePage.Obeys loud { OnePage.standard with compact := true, emoji := longA } :=
    ⟨fun _ _ => rfl, fun _ _ => rfl, rfl, fun _ _ => rfl, rfl, rfl, fun _ _ => rfl, fun _ _ => rfl, by decide, by decide, by decide, by decide⟩
  have ho' : OnePage.Obeys (without loud) { OnePage.standard with compact := true, emoji := longA, showDir := notB } :=
    ⟨fun _ _ => rfl, fun _ _ => rfl, rfl, fun _ _ => rfl, rfl, rfl, fun _ _ => rfl, fun _ _ => rfl, by decide, by decide, by decide, by decide⟩
  have e1 : prettyPrint disk.toFs.lift Path.root loud Demo.r = .ok j!"r/\n└─ a/b/\n   └─ x" := (C100_disk h1 rfl ho lawful_const _ _).2 (by decide)
  have e2 : prettyPrint disk.toFs.lift Path.root (without loud) Demo.r = .ok j!"r/\n└─ 0123456789 a/" := (C100_disk h1 rfl ho' lawful_const _ _).2 (by decide)
  exact ⟨disk, loud, _, _, Demo.r, _, _, h1, rfl, fun q n h => by cases h; decide, loud_stricter, e1, e2, by decide⟩

end JFTP
