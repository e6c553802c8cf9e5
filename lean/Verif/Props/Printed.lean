import Verif.Props.World

/-!
End-to-end forms of C01–C04, C06, C08, C10–C14, C20, C22–C27, C40, C58: what the string returned by `prettyPrint` looks like. No assumption on the callbacks: they may throw.
-/

namespace JFTP
open Spec

/-! ### C01 -/

/-- **C01** end to end, for arbitrary options: whenever `prettyPrint` returns a string, it is the standard picture of the scanned tree. -/
theorem C01_text (fs : Fs (Except Exn)) (cwd : Path) (o : Options (Except Exn)) (p : Path) (s : JStr) (h : prettyPrint fs cwd o p = .ok s) :
    ∃ t T, Scanner.scan fs (o.toScan fs) cwd ((p.toAbsolutePath cwd).normalize) = .ok t ∧ Prints o t T s := by
  obtain ⟨t, ht, h⟩ := except_bind_ok h
  have h' : Renderer.renderRoot o.toRender (LineRenderer.create o.toRender) t = .ok s := h
  rw [C01_render_is_picture_effectful] at h'
  obtain ⟨D, hD, h'⟩ := except_bind_ok h'
  obtain ⟨hn, T, hT, rfl⟩ := dispM_ok_shows _ t hD
  have hL : LookM.total ⟨o.toRender.emojiMapping, o.toRender.compactDirectories, extensionOf o.toRender⟩ = lookOf o := by
    unfold LookM.total lookOf extensionOf Options.toRender
    cases o.lineExtension <;> rfl
  rw [hL] at hT h'
  exact ⟨t, T, ht, hn, hT, (Except.ok.inj h').symm⟩

/-- Callbacks of the options do not throw on the paths of the tree. -/
def Quiet (o : Options (Except Exn)) (t : TreeEntry) : Prop :=
  ∀ q ∈ entryPaths t, (∃ e, o.emojiMapping q = .ok e) ∧ ∀ g, o.lineExtension = some g → ∃ x, g q = .ok x

section
variable {fs : PureFs} {cwd : Path} {o : Options (Except Exn)} {p : Path} {s : JStr}

/-- The same in terms of `scanned`. -/
theorem printed (h : prettyPrint fs.lift cwd o p = .ok s) : ∃ t T, scanned fs cwd o p = .ok t ∧ Prints o t T s :=
  C01_text fs.lift cwd o p s h

/-- **C02, C20, C22, C25, C40** on the returned text: its lines are the lines of the items, one per item, and the items show the entries in preorder. -/
theorem Spec.Prints.lines {t : TreeEntry} {T : ITree} (h : Prints o t T s) :
    ∃ lines, s = joinLines lines ∧ List.Forall₂ (IsLineOf o.treeFormat (lookOf o)) (T.items 0) lines ∧
      (T.items 0).flatMap (fun x => x.2.shows) = events t :=
  ⟨_, h.text, h.shows.lines h.named, h.shows.events 0⟩

theorem forall₂_mem {α β : Type} {R : α → β → Prop} {l : List α} {l' : List β} (h : List.Forall₂ R l l') {x : α} (hx : x ∈ l) : ∃ y ∈ l', R x y := by
  induction h with
  | nil => cases hx
  | cons h1 _ ih =>
    rcases List.mem_cons.1 hx with rfl | hx
    · exact ⟨_, by simp, h1⟩
    · obtain ⟨l, hl, h⟩ := ih hx; exact ⟨l, by simp [hl], h⟩

/-! ### C02 -/

theorem mem_shows_entryPaths {L : Look} {t : TreeEntry} {T : ITree} (h : ShowsTop L t T) {x : Nat × Item} (hx : x ∈ T.items 0) {q : Path}
    (hq : some q ∈ x.2.shows) : q ∈ entryPaths t := by
  unfold entryPaths
  rw [List.mem_filterMap]
  refine ⟨some q, ?_, rfl⟩
  rw [← h.events 0]
  exact List.mem_flatMap.2 ⟨x, hx, hq⟩

/-- Every merged line has a last directory. -/
theorem last_mem {L : Look} {t : TreeEntry} {T : ITree} (h : ShowsTop L t T) {x : Nat × Item} (hx : x ∈ T.items 0) {ds : List Path} {last : Path}
    (he : x.2 = .dirs ds last) : ds.getLast? = some last := by
  cases h with
  | dir hs =>
    simp only [ITree.items, List.mem_cons] at hx
    rcases hx with rfl | hx
    · cases he; rfl
    · have := hs.itemOk _ x hx
      rw [he] at this
      obtain ⟨_, _, _, _, hc⟩ := this
      exact hc.getLast?
  | other _ h =>
    have := h.itemOk _ x hx
    rw [he] at this
    obtain ⟨_, _, _, _, hc⟩ := this
    exact hc.getLast?

theorem emojiText_noNL {e : Option JStr} (h : ∀ x, e = some x → (10 : JChar) ∉ x) : NoNL (emojiText e) := by
  unfold NoNL NL
  cases e with
  | none => simp [emojiText]
  | some x => have := h x rfl; simp [emojiText, this]

theorem getD_noNL {e : Option JStr} (h : ∀ x, e = some x → (10 : JChar) ∉ x) : NoNL (e.getD []) := by
  unfold NoNL NL
  cases e with
  | none => simp
  | some x => simpa using h x rfl

/-- Clean names, emojis and extensions make clean labels. -/
theorem Spec.Prints.labels_noNL {t : TreeEntry} {T : ITree} (h : Prints o t T s) (hc : CleanText o t) :
    ∀ l ∈ labels (T.toDisp (lookOf o)), NoNL l := by
  intro l hl
  unfold labels at hl
  rw [preorder_toDisp, List.map_map] at hl
  obtain ⟨x, hx, rfl⟩ := List.mem_map.1 hl
  have hmem := fun q hq => mem_shows_entryPaths (q := q) h.shows hx hq
  have hlast := fun ds last he => last_mem (ds := ds) (last := last) h.shows hx he
  obtain ⟨n, i⟩ := x
  simp only [Function.comp]
  cases i with
  | file q a =>
    have hq := hmem q (by simp [Item.shows])
    have h1 := emojiText_noNL (hc.emojis q hq)
    have h2 := hc.names q hq
    have h3 := getD_noNL (hc.exts q hq)
    have h4 : NoNL (fileMark a) := by unfold fileMark NoNL NL; split <;> [decide; (split <;> decide)]
    unfold NoNL NL at *
    simp [Item.label, h1, h2, h3, h4]
  | dirs ds last =>
    have hq := hmem last (by
      simp only [Item.shows, List.mem_map, Option.some.injEq, exists_eq_right]
      exact List.mem_of_getLast? (hlast ds last rfl))
    have h1 := emojiText_noNL (hc.emojis last hq)
    have h3 := getD_noNL (hc.exts last hq)
    have h2 : NoNL (ds.map (fun d => lastName d ++ j!"/")).flatten := by
      unfold NoNL NL
      simp only [List.mem_flatten, List.mem_map, not_exists, not_and]
      rintro _ ⟨d, hd, rfl⟩
      have := hc.names d (hmem d (by simp [Item.shows, hd]))
      simp [this]
    unfold NoNL NL at *
    simp only [Item.label, List.mem_append, not_or]
    exact ⟨⟨h1, h2⟩, h3⟩
  | more => unfold NoNL NL; simp [Item.label]

theorem itemsLength (T : ITree) : (T.items 0).length = T.count := by
  have h := length_preorder 0 (T.toDisp ⟨fun _ => none, false, fun _ => none⟩)
  rw [preorder_toDisp, List.length_map, toDisp_count] at h
  exact h

/-- **C02** end to end: if no displayed name, emoji or extension and no tree symbol contains a line feed, the returned text has exactly one line per displayed item (file, directory or
merged chain, `...`), each of them the line of that item, in order. -/
theorem C02_text_lines (h : prettyPrint fs.lift cwd o p = .ok s) (hf : FormatNoNL o.treeFormat)
    (hc : ∀ t, scanned fs cwd o p = .ok t → CleanText o t) :
    ∃ t T, scanned fs cwd o p = .ok t ∧ ShowsTop (lookOf o) t T ∧ (linesOf s).length = T.count ∧
      List.Forall₂ (IsLineOf o.treeFormat (lookOf o)) (T.items 0) (linesOf s) := by
  obtain ⟨t, T, ht, hp⟩ := printed h
  have hl := hp.labels_noNL (hc t ht)
  have hlines : linesOf s = layout o.treeFormat (T.toDisp (lookOf o)) := by rw [hp.text]; exact linesOf_picture hf _ hl
  refine ⟨t, T, ht, hp.shows, ?_, ?_⟩
  · rw [hp.text]; exact C02_one_line_per_item _ hf _ _ hl
  · rw [hlines]; exact hp.shows.lines hp.named

/-- **C02** without compact mode: the number of lines is the number of entries. -/
theorem C02_text_lines_compact_off (h : prettyPrint fs.lift cwd o p = .ok s) (hf : FormatNoNL o.treeFormat) (hoff : o.compactDirectories = false)
    (hc : ∀ t, scanned fs cwd o p = .ok t → CleanText o t) :
    ∃ t, scanned fs cwd o p = .ok t ∧ (linesOf s).length = (events t).length := by
  obtain ⟨t, T, ht, hT, hlen, _⟩ := C02_text_lines h hf hc
  refine ⟨t, ht, ?_⟩
  rw [hlen, ← hT.events 0, ← itemsLength]
  have h1 : ∀ x ∈ T.items 0, x.2.shows.length = 1 := by
    intro x hx
    rcases hi : x.2 with ⟨q, a⟩ | ⟨ds, last⟩ | _
    · rfl
    · have := C24_compact_off_single (lookOf o) hoff t T hT x hx ds last hi
      subst this; rfl
    · rfl
  generalize T.items 0 = l at h1
  induction l with
  | nil => rfl
  | cons x xs ih =>
    rw [List.flatMap_cons, List.length_append, h1 x (by simp), List.length_cons, ih (fun y hy => h1 y (by simp [hy]))]
    omega

/-! ### C03, C04 -/

/-- **C03** end to end: the decoder recovers the displayed labels and their nesting from the returned text and the tree format alone. -/
theorem C03_text_decodes (h : prettyPrint fs.lift cwd o p = .ok s) (w : Nat) (hw : TreeFormatOK o.treeFormat w) (hr : Readable o.treeFormat) (hf : FormatNoNL o.treeFormat)
    (hc : ∀ t, scanned fs cwd o p = .ok t → CleanText o t) :
    ∃ t T, scanned fs cwd o p = .ok t ∧ ShowsTop (lookOf o) t T ∧ decode o.treeFormat s = some (T.toDisp (lookOf o)) := by
  obtain ⟨t, T, ht, hp⟩ := printed h
  refine ⟨t, T, ht, hp.shows, ?_⟩
  rw [hp.text]
  exact C03_decode_roundtrip _ w hw hr hf _ (hp.labels_noNL (hc t ht))

/-- **C03** end to end: two calls (with whatever file systems and paths) that return the same text displayed the same labels with the same nesting. -/
theorem C03_same_text_same_display {fs' : PureFs} {cwd' p' : Path} (h : prettyPrint fs.lift cwd o p = .ok s) (h' : prettyPrint fs'.lift cwd' o p' = .ok s)
    (w : Nat) (hw : TreeFormatOK o.treeFormat w) (hr : Readable o.treeFormat) (hf : FormatNoNL o.treeFormat)
    (hc : ∀ t, scanned fs cwd o p = .ok t → CleanText o t) (hc' : ∀ t, scanned fs' cwd' o p' = .ok t → CleanText o t) :
    ∃ t T t' T', scanned fs cwd o p = .ok t ∧ ShowsTop (lookOf o) t T ∧ scanned fs' cwd' o p' = .ok t' ∧ ShowsTop (lookOf o) t' T' ∧
      T.toDisp (lookOf o) = T'.toDisp (lookOf o) := by
  obtain ⟨t, T, h1, h2, h3⟩ := C03_text_decodes h w hw hr hf hc
  obtain ⟨t', T', h1', h2', h3'⟩ := C03_text_decodes h' w hw hr hf hc'
  rw [h3] at h3'
  exact ⟨t, T, t', T', h1, h2, h1', h2', Option.some.inj h3'⟩

/-- **C04** end to end: the i-th line of the returned text is the i-th item's: `depth` segments of width `w + 1` (the last one a branch symbol, the earlier ones continuation or
empty symbols, each followed by a space), and then its label. -/
theorem C04_text_columns (h : prettyPrint fs.lift cwd o p = .ok s) (w : Nat) (hw : TreeFormatOK o.treeFormat w) (hf : FormatNoNL o.treeFormat)
    (hc : ∀ t, scanned fs cwd o p = .ok t → CleanText o t) :
    ∃ t T, scanned fs cwd o p = .ok t ∧ ShowsTop (lookOf o) t T ∧
      List.Forall₂ (fun (x : Nat × Item) line => LinePrefix o.treeFormat x.1 (line.take (x.1 * (w + 1))) ∧
        line.drop (x.1 * (w + 1)) = x.2.label (lookOf o)) (T.items 0) (linesOf s) := by
  obtain ⟨t, T, ht, hp⟩ := printed h
  refine ⟨t, T, ht, hp.shows, ?_⟩
  have hl := hp.labels_noNL (hc t ht)
  rw [hp.text, linesOf_picture hf _ hl]
  have hd := layout_drawn o.treeFormat (T.toDisp (lookOf o))
  rw [preorder_toDisp, List.forall₂_map_left_iff] at hd
  refine hd.imp ?_
  rintro ⟨n, i⟩ line hline
  have h1 := C04_label_column _ w hw n _ _ hline
  refine ⟨?_, h1.1⟩
  obtain ⟨pre, hpre, rfl⟩ := drawn_split hline
  have h2 := C04_label_column _ w hw n [] pre hpre
  have : pre.length = n * (w + 1) := by simpa using h2.2
  simp only
  rw [← this, List.take_left']
  · exact hpre
  · rfl

/-! ### C20 -/

/-- **C20** end to end: each displayed non-directory has a line of the form tree prefix, emoji, name, `?` iff the attributes (links followed) say "other", extension. -/
theorem C20_text (hfs : FollowsLinks fs) (hw : cwd.abs = true) (hc : LawfulCmp o.pathComparator) (h : prettyPrint fs.lift cwd o p = .ok s) :
    ∃ t lines, scanned fs cwd o p = .ok t ∧ s = joinLines lines ∧
      ∀ q ∈ entryPaths t, fs.isDir q = false → ∃ line ∈ lines, ∃ a n pre name, fs.readAttrs q = some a ∧ LinePrefix o.treeFormat n pre ∧ q.getFileName = some name ∧
        line = pre ++ (emojiText ((lookOf o).emoji q) ++ (name ++ ((if a.isOther then j!"?" else []) ++ ((lookOf o).ext q).getD []))) := by
  obtain ⟨t, T, ht, hp⟩ := printed h
  obtain ⟨lines, hs, hl, hev⟩ := hp.lines
  refine ⟨t, lines, ht, hs, fun q hq hnd => ?_⟩
  have hsc := scanned_sound hw hc ht
  have hq' : some q ∈ (T.items 0).flatMap (fun x => x.2.shows) := by
    rw [hev]
    unfold entryPaths at hq
    obtain ⟨y, hy, hyq⟩ := List.mem_filterMap.1 hq
    simp at hyq; rw [← hyq]; exact hy
  obtain ⟨⟨n, i⟩, hx, hqx⟩ := List.mem_flatMap.1 hq'
  obtain ⟨line, hline, hlx⟩ := forall₂_mem hl hx
  have hbelow : ∃ x, Below x t ∧ entryPath x = some q := by
    obtain ⟨k, x, hb, hx⟩ := mem_entryPaths.1 hq; exact ⟨x, hb.isBelow, hx⟩
  obtain ⟨x, hxb, hxp⟩ := hbelow
  have hfile : ∀ a, x = .file q a → fs.readAttrs q = some a ∧ fileMark a = if a.isOther then j!"?" else [] := by
    rintro a rfl
    exact ⟨(C20_attributes_of_displayed hw hc ht hxb).2, C19_never_marked hfs hw hc ht hxb⟩
  cases hlx with
  | @file n q' a pre name hpre hname =>
    simp only [Item.shows, List.mem_singleton, Option.some.injEq] at hqx
    subst hqx
    have hB : Below (.file q a) t := by
      cases hp.shows with
      | dir hks =>
        simp only [ITree.items, List.mem_cons, Prod.mk.injEq, reduceCtorEq, and_false, false_or] at hx
        obtain ⟨e, he, hb⟩ := hks.itemOk _ _ hx
        exact .inside he hb
      | other _ hsh =>
        obtain ⟨e, he, hb⟩ := hsh.itemOk _ _ hx
        simp at he; subst he; exact hb
    refine ⟨_, hline, a, n, pre, name, (C20_attributes_of_displayed hw hc ht hB).2, hpre, hname, ?_⟩
    rw [C19_never_marked hfs hw hc ht hB]
  | @dirs n ds last pre names hpre hnames hlast =>
    exfalso
    simp only [Item.shows, List.mem_map, Option.some.injEq, exists_eq_right] at hqx
    -- a directory of a merged line is a directory
    have hB : ∃ es, Below (.dir q es) t := by
      cases hp.shows with
      | dir hks =>
        simp only [ITree.items, List.mem_cons, Prod.mk.injEq] at hx
        rcases hx with ⟨rfl, hx⟩ | hx
        · cases hx; simp at hqx; subst hqx; exact ⟨_, .here⟩
        · obtain ⟨d0, es0, es1, ⟨e, he, hb⟩, hch⟩ := hks.itemOk _ _ hx
          obtain ⟨es, hb'⟩ := hch.mem_below q hqx
          exact ⟨es, .inside he (hb'.trans hb)⟩
      | other _ hsh =>
        obtain ⟨d0, es0, es1, ⟨e, he, hb⟩, hch⟩ := hsh.itemOk _ _ hx
        obtain ⟨es, hb'⟩ := hch.mem_below q hqx
        simp at he; subst he; exact ⟨es, hb'.trans hb⟩
    obtain ⟨es, hB⟩ := hB
    have := hsc.sub_below hB rfl
    obtain ⟨k, hk⟩ := this
    have hd : fs.isDir q = true := by cases hk <;> assumption
    rw [hnd] at hd; cases hd
  | more _ => simp [Item.shows] at hqx

/-! ### When a text is returned -/

/-- **C01**, converse: if scanning succeeds, no displayed entry is a root directory, and emoji mapping and extension function do not throw on the displayed paths, the picture is returned. -/
theorem C01_text_returned {t : TreeEntry} (ht : scanned fs cwd o p = .ok t) (hn : Named t) (hq : Quiet o t) {T : ITree} (hT : ShowsTop (lookOf o) t T) :
    prettyPrint fs.lift cwd o p = .ok (picture o.treeFormat (T.toDisp (lookOf o))) := by
  rw [prettyPrint_eq, ht]
  show Renderer.renderRoot o.toRender (LineRenderer.create o.toRender) t = _
  rw [C01_render_is_picture_effectful]
  have hag : LookM.AgreeOn (m := Except Exn) ⟨o.toRender.emojiMapping, o.toRender.compactDirectories, extensionOf o.toRender⟩ (Look.lift (lookOf o)) (entryPaths t) := by
    refine ⟨rfl, fun q hqq => ?_⟩
    obtain ⟨⟨e, he⟩, hx⟩ := hq q hqq
    constructor
    · show o.emojiMapping q = pure (answerOf (o.emojiMapping q))
      rw [he]; rfl
    · show extensionOf o.toRender q = pure ((lookOf o).ext q)
      unfold extensionOf lookOf Options.toRender
      cases hl : o.lineExtension with
      | none => rfl
      | some g => obtain ⟨x, hx⟩ := hx g hl; simp only [hx]; rfl
  rw [dispM_congr _ _ true t hag, dispM_top (lookOf o) t hn T hT]
  rfl

/-! ### Labels and prefixes -/

/-- The shape of a displayed tree. -/
theorem layout_split (f : TreeFormat) (T : ITree) : ∃ pres : List JStr, List.Forall₂ (fun (x : Nat × Item) pre => LinePrefix f x.1 pre) (T.items 0) pres ∧
    ∀ L : Look, layout f (T.toDisp L) = List.zipWith (· ++ ·) pres ((T.items 0).map (fun x => x.2.label L)) := by
  refine ⟨layout f (erase (T.toDisp ⟨fun _ => none, false, fun _ => none⟩)), ?_, fun L => ?_⟩
  · have h := layout_drawn f (erase (T.toDisp ⟨fun _ => none, false, fun _ => none⟩))
    rw [preorder_erase, preorder_toDisp, List.map_map, List.forall₂_map_left_iff] at h
    exact h
  · rw [layout_erase f (T.toDisp L), erase_toDisp L ⟨fun _ => none, false, fun _ => none⟩]
    congr 1
    unfold labels
    rw [preorder_toDisp, List.map_map]; rfl

/-! ### C22–C26, C40 -/

/-- **C22** end to end: in the text of a directory every line below the first one that shows directories shows the maximal chain of merged directories starting with its first one: all names, each
followed by a slash, between emoji and extension of the last directory; the first line shows the printed directory alone. The lines show each directory and file of the tree exactly once, in preorder. -/
theorem C22_text (h : prettyPrint fs.lift cwd o p = .ok s) {d : Path} {es : List TreeEntry} (ht : scanned fs cwd o p = .ok (.dir d es)) :
    ∃ (items : List (Nat × Item)) (lines : List JStr), s = joinLines lines ∧ List.Forall₂ (IsLineOf o.treeFormat (lookOf o)) items lines ∧
      items.flatMap (fun x => x.2.shows) = events (.dir d es) ∧ items.head? = some (0, .dirs [d] d) ∧
      ∀ x ∈ items.tail, ∀ ds last, x.2 = .dirs ds last → ∃ d0 es0 es', (∃ e ∈ es, Below (.dir d0 es0) e) ∧ Chain (lookOf o) d0 es0 ds last es' := by
  obtain ⟨t, T, ht', hp⟩ := printed h
  rw [ht] at ht'; cases ht'
  obtain ⟨lines, h1, h2, h3⟩ := hp.lines
  have h4 := C22_lines_are_maximal_chains (lookOf o) d es T hp.shows
  exact ⟨T.items 0, lines, h1, h2, h3, h4.1, h4.2⟩

/-- **C23** end to end: without emojis and extensions, names and nesting of all displayed entries can be read back from the returned text, in compact as in normal mode. -/
theorem C23_text (h : prettyPrint fs.lift cwd o p = .ok s) (w : Nat) (hw : TreeFormatOK o.treeFormat w) (hr : Readable o.treeFormat) (hf : FormatNoNL o.treeFormat)
    (he : ∀ q, o.emojiMapping q = .ok none) (hx : ∀ g, o.lineExtension = some g → ∀ q, g q = .ok none)
    (hcl : ∀ t, scanned fs cwd o p = .ok t → CleanNames t) :
    ∃ t, scanned fs cwd o p = .ok t ∧ (decode o.treeFormat s).map expand = some (skeleton t) := by
  obtain ⟨t, T, ht, hp⟩ := printed h
  have hL : lookOf o = plain o.compactDirectories := by
    unfold lookOf plain
    congr 1
    · funext q; rw [he]; rfl
    · funext q
      cases hl : o.lineExtension with
      | none => rfl
      | some g => simp only [hx g hl]; rfl
  have hT := hp.shows
  rw [hL] at hT
  refine ⟨t, ht, ?_⟩
  rw [hp.text, hL, C03_decode_roundtrip _ w hw hr hf _ (hT.noNL (hcl t ht)), Option.map_some, hT.expand (hcl t ht)]

/-- **C24** end to end: with compact mode off every line shows exactly one directory, one file or `...`. -/
theorem C24_text_off (h : prettyPrint fs.lift cwd o p = .ok s) (hoff : o.compactDirectories = false) :
    ∃ (t : TreeEntry) (items : List (Nat × Item)) (lines : List JStr), scanned fs cwd o p = .ok t ∧ s = joinLines lines ∧
      List.Forall₂ (IsLineOf o.treeFormat (lookOf o)) items lines ∧ items.flatMap (fun x => x.2.shows) = events t ∧ ∀ x ∈ items, x.2.shows.length = 1 := by
  obtain ⟨t, T, ht, hp⟩ := printed h
  obtain ⟨lines, h1, h2, h3⟩ := hp.lines
  refine ⟨t, T.items 0, lines, ht, h1, h2, h3, fun x hx => ?_⟩
  rcases hi : x.2 with ⟨q, a⟩ | ⟨ds, last⟩ | _
  · rfl
  · have := C24_compact_off_single (lookOf o) hoff t T hp.shows x hx ds last hi
    subst this; rfl
  · rfl

/-- **C24** end to end: where no directory below the top has a directory as its only entry, the compact switch makes no difference, also not for failing callbacks. -/
theorem C24_text_same (hch : ∀ t, scanned fs cwd o p = .ok t → NoChain t) :
    prettyPrint fs.lift cwd (o.withCompactDirectories true) p = prettyPrint fs.lift cwd (o.withCompactDirectories false) p := by
  have hs : ∀ b, scanned fs cwd (o.withCompactDirectories b) p = scanned fs cwd o p := fun _ => rfl
  rw [prettyPrint_eq, prettyPrint_eq, hs, hs]
  cases ht : scanned fs cwd o p with
  | error e => rfl
  | ok t => exact C24_no_chain_same o.toRender t (hch t ht)

/-- The path that determines emoji and extension of a line (`none` for `...`). -/
def Spec.Item.carrier : Item → Option Path
  | .file q _ => some q
  | .dirs _ last => some last
  | .more => none

/-- **C25** end to end: compared with the text without extension function, the same lines are printed, and each one has the extension of its (last) path appended, nothing if that is null or the line is `...`.
Compact mode off: with compact mode on an extension may also split a line (C26). -/
theorem C25_text (hoff : o.compactDirectories = false) {t : TreeEntry} (ht : scanned fs cwd o p = .ok t) (hn : Named t) (hq : Quiet o t) :
    ∃ (items : List (Nat × Item)) (bare : List JStr), List.Forall₂ (IsLineOf o.treeFormat { lookOf o with ext := fun _ => none }) items bare ∧
      prettyPrint fs.lift cwd (o.withLineExtension none) p = .ok (joinLines bare) ∧
      prettyPrint fs.lift cwd o p = .ok (joinLines (List.zipWith (· ++ ·) bare (items.map (fun x => (x.2.carrier.bind (lookOf o).ext).getD [])))) := by
  obtain ⟨T, hT⟩ := ShowsTop.exists (lookOf o) t
  have hL : lookOf (o.withLineExtension none) = { lookOf o with ext := fun _ => none } := rfl
  have hT' : ShowsTop { lookOf o with ext := fun _ => none } t T := hT.off_irrel hoff hoff
  have ht' : scanned fs cwd (o.withLineExtension none) p = .ok t := ht
  have hq' : Quiet (o.withLineExtension none) t := fun q h => ⟨(hq q h).1, fun g hg => by cases hg⟩
  obtain ⟨pres, _, h2⟩ := layout_split o.treeFormat T
  refine ⟨T.items 0, layout o.treeFormat (T.toDisp { lookOf o with ext := fun _ => none }), hT'.lines hn, ?_, ?_⟩
  · rw [C01_text_returned ht' hn hq' (hL ▸ hT'), hL]; rfl
  · rw [C01_text_returned ht hn hq hT]
    unfold picture
    rw [h2, h2, zipWith_append_assoc]
    congr 3
    rw [List.zipWith_map, List.zipWith_self]
    apply List.map_congr_left
    rintro ⟨n, i⟩ _
    cases i <;> simp [Item.label, Item.carrier]

/-- **C40** end to end, in both modes: compared with the text without emojis, the same lines are printed, and each one has the emoji of its (last) path and one space inserted between tree prefix and name, nothing
if that is null or the line is `...`. -/
theorem C40_text {t : TreeEntry} (ht : scanned fs cwd o p = .ok t) (hn : Named t) (hq : Quiet o t) :
    ∃ (items : List (Nat × Item)) (pres bare : List JStr), List.Forall₂ (fun x pre => LinePrefix o.treeFormat x.1 pre) items pres ∧
      List.Forall₂ (IsLineOf o.treeFormat { lookOf o with emoji := fun _ => none }) items (List.zipWith (· ++ ·) pres bare) ∧
      prettyPrint fs.lift cwd (o.withEmojis (fun _ => pure none)) p = .ok (joinLines (List.zipWith (· ++ ·) pres bare)) ∧
      prettyPrint fs.lift cwd o p = .ok (joinLines (List.zipWith (· ++ ·) pres
        (List.zipWith (· ++ ·) (items.map (fun x => match x.2.carrier.bind (lookOf o).emoji with | none => [] | some e => e ++ j!" ")) bare))) := by
  obtain ⟨T, hT⟩ := ShowsTop.exists (lookOf o) t
  have hL : lookOf (o.withEmojis (fun _ => pure none)) = { lookOf o with emoji := fun _ => none } := rfl
  have hT' : ShowsTop { lookOf o with emoji := fun _ => none } t T := hT.emoji_irrel _
  have ht' : scanned fs cwd (o.withEmojis (fun _ => pure none)) p = .ok t := ht
  have hq' : Quiet (o.withEmojis (fun _ => pure none)) t := fun q h => ⟨⟨none, rfl⟩, (hq q h).2⟩
  obtain ⟨pres, h1, h2⟩ := layout_split o.treeFormat T
  refine ⟨T.items 0, pres, (T.items 0).map (fun x => x.2.label { lookOf o with emoji := fun _ => none }), h1, ?_, ?_, ?_⟩
  · rw [← h2]; exact hT'.lines hn
  · rw [C01_text_returned ht' hn hq' (hL ▸ hT'), hL, ← h2]; rfl
  · rw [C01_text_returned ht hn hq hT]
    unfold picture
    rw [h2]
    congr 3
    rw [List.zipWith_map, List.zipWith_self]
    apply List.map_congr_left
    rintro ⟨n, i⟩ _
    cases i with
    | file q a => cases he : (lookOf o).emoji q <;> simp [Item.label, Item.carrier, emojiText, he]
    | dirs ds last => cases he : (lookOf o).emoji last <;> simp [Item.label, Item.carrier, emojiText, he]
    | more => simp [Item.label, Item.carrier]

/-- **C26** end to end: a displayed directory whose extension is not null (the empty string included) is the last one on its line, and if its only entry is a directory, that one starts a line of its own. -/
theorem C26_text (h : prettyPrint fs.lift cwd o p = .ok s) :
    ∃ (t : TreeEntry) (items : List (Nat × Item)) (lines : List JStr), scanned fs cwd o p = .ok t ∧ s = joinLines lines ∧
      List.Forall₂ (IsLineOf o.treeFormat (lookOf o)) items lines ∧ items.flatMap (fun x => x.2.shows) = events t ∧
      (∀ x ∈ items, ∀ ds last, x.2 = .dirs ds last → ∀ d ∈ ds.dropLast, (lookOf o).ext d = none) ∧
      (∀ d c ces x, Below (.dir d [.dir c ces]) t → (lookOf o).ext d = some x → ∃ y ∈ items, ∃ ds last, y.2 = .dirs (c :: ds) last) := by
  obtain ⟨t, T, ht, hp⟩ := printed h
  obtain ⟨lines, h1, h2, h3⟩ := hp.lines
  refine ⟨t, T.items 0, lines, ht, h1, h2, h3, ?_, ?_⟩
  · intro x hx ds last he
    cases hp.shows with
    | dir hs =>
      simp only [ITree.items, List.mem_cons] at hx
      rcases hx with rfl | hx
      · cases he; simp
      · have := hs.itemOk _ x hx
        rw [he] at this
        obtain ⟨_, _, _, _, hc⟩ := this
        exact C26_extension_ends_chain _ _ _ _ _ _ hc
    | other _ hs =>
      have := hs.itemOk _ x hx
      rw [he] at this
      obtain ⟨_, _, _, _, hc⟩ := this
      exact C26_extension_ends_chain _ _ _ _ _ _ hc
  · intro d c ces x hb hx
    exact hp.shows.own_line hb (by rw [hx]; simp) 0

/-! ### Which entries the text shows: C06, C08, C10–C14, C58 -/

/-- **C06** end to end, for arbitrary callbacks: without child limit, the paths on the lines of the returned text are exactly those the filters let through, down to the maximal depth; the first
line is that of the printed path itself. -/
theorem C06_text (hw : cwd.abs = true) (hc : LawfulCmp o.pathComparator) (hlim : ∀ q n, o.childLimit q = .ok n → n < 0) (h : prettyPrint fs.lift cwd o p = .ok s) :
    ∃ (items : List (Nat × Item)) (lines : List JStr), s = joinLines lines ∧ List.Forall₂ (IsLineOf o.treeFormat (lookOf o)) items lines ∧
      (∀ q, (∃ x ∈ items, some q ∈ x.2.shows) ↔ ∃ k : Nat, DisplayedAt fs o (target cwd p) k q ∧ (k = 0 ∨ (k : Int) ≤ o.maxDepth)) ∧
      (items.flatMap (fun x => x.2.shows)).head? = some (some (target cwd p)) := by
  obtain ⟨t, T, ht, hp⟩ := printed h
  obtain ⟨lines, h1, h2, h3⟩ := hp.lines
  refine ⟨T.items 0, lines, h1, h2, fun q => ?_, ?_⟩
  · rw [← C06_display_set_to_depth hw hc hlim ht q]
    constructor
    · rintro ⟨x, hx, hq⟩; exact mem_shows_entryPaths hp.shows hx hq
    · intro hq
      unfold entryPaths at hq
      obtain ⟨y, hy, hyq⟩ := List.mem_filterMap.1 hq
      simp at hyq; subst hyq
      rw [← h3] at hy
      exact List.mem_flatMap.1 hy
  · rw [h3]
    have hsc := (scanned_sound hw hc ht).entryPath_eq
    cases t with
    | dir d es => simp [entryPath] at hsc; simp [events, hsc]
    | file q a => simp [entryPath] at hsc; simp [events, hsc]
    | skipped _ => cases hsc
    | maxDepth _ => cases hsc

/-- **C08** end to end, for options on which `sort(c)` was called last: the text shows a tree in which the children of every directory are in ascending order of `c`, those `c` considers equal in `String` order of their names. -/
theorem C08_text (hw : cwd.abs = true) {c : Cmp} (hc : LawfulCmp c) (h : prettyPrint fs.lift cwd (o.sort c) p = .ok s) :
    ∃ t T, scanned fs cwd (o.sort c) p = .ok t ∧ Prints (o.sort c) t T s ∧ ∀ d es, Below (.dir d es) t →
      (es.filterMap entryPath).Pairwise (fun a b => c a b < 0 ∨ (c a b = 0 ∧ compareTo (lastName a) (lastName b) ≤ 0)) := by
  obtain ⟨t, T, ht, hp⟩ := printed h
  exact ⟨t, T, ht, hp, fun d es hb => C08_children_sorted hw hc rfl ht hb⟩

/-- **C10**, **C11**, **C13** end to end: in the tree shown by the text, a directory at depth `k` shows: at the depth limit just one marker; above it the first `n` (all for a negative limit) of its
filtered children in sort order, and a marker iff the limit is not negative and there are more. -/
theorem C10_text (hw : cwd.abs = true) (hc : LawfulCmp o.pathComparator) (h : prettyPrint fs.lift cwd o p = .ok s) :
    ∃ t T, scanned fs cwd o p = .ok t ∧ Prints o t T s ∧ ∀ d es k, BelowAt (.dir d es) k t →
      (o.maxDepth ≤ k ∧ es = [.maxDepth k]) ∨
      ((k : Int) < o.maxDepth ∧ ∃ (n : Int) (cs sorted : List Path) (shown : List TreeEntry), o.childLimit d = .ok n ∧ fs.listDir d = .opened cs false ∧
        sorted.Perm (cs.filter (passes fs o)) ∧ sorted.Pairwise (fun a b => o.pathComparator a b ≤ 0) ∧
        shown.map entryPath = (if n < 0 then sorted else sorted.take n.toNat).map some ∧
        es = shown ++ (if 0 ≤ n ∧ n < sorted.length then [.skipped d] else [])) := by
  obtain ⟨t, T, ht, hp⟩ := printed h
  refine ⟨t, T, ht, hp, fun d es k hb => ?_⟩
  have hsub := (scanned_sound hw hc ht).sub hb rfl
  rw [Nat.zero_add] at hsub
  cases hsub with
  | tooDeep _ hk => exact .inl ⟨hk, rfl⟩
  | @dir _ _ n cs ks srt es' a1 a2 a3 a4 a5 a6 a7 a8 =>
    refine .inr ⟨a2, n, cs, srt, es', a3, a4, ?_, a7, ?_, rfl⟩
    · rw [← kept_filter a5]; exact a6
    · rw [a8.paths]; rfl

/-- **C13** end to end: the tree shown by the text has nothing deeper than the maximal depth `≥ 0`, except one marker below each directory at that depth. -/
theorem C13_text (hw : cwd.abs = true) (hc : LawfulCmp o.pathComparator) (hD : 0 ≤ o.maxDepth) (h : prettyPrint fs.lift cwd o p = .ok s) :
    ∃ t T, scanned fs cwd o p = .ok t ∧ Prints o t T s ∧ (∀ x n, BelowAt x n t → ((n : Int) ≤ o.maxDepth ∧ ∀ j, x ≠ .maxDepth j) ∨ ((n : Int) = o.maxDepth + 1 ∧ x = .maxDepth (n - 1))) ∧
      (∀ d es n, BelowAt (.dir d es) n t → (n : Int) = o.maxDepth → es = [.maxDepth n]) := by
  obtain ⟨t, T, ht, hp⟩ := printed h
  exact ⟨t, T, ht, hp, fun x n hb => C13_depth_bound hw hc hD ht hb, fun d es n hb hn => C13_cut_directory hw hc ht hb hn⟩

mutual
theorem cut_paths (d k : Nat) (t : TreeEntry) : ∀ q ∈ entryPaths (cut d k t), q ∈ entryPaths t := by
  match t with
  | .dir e es =>
    intro q hq
    rw [cut] at hq
    split at hq
    · rw [mem_entryPaths_dir] at hq ⊢
      rcases hq with h | ⟨x, hx, hq⟩
      · exact .inl h
      · simp at hx; subst hx; simp [entryPaths, events] at hq
    · rw [mem_entryPaths_dir] at hq ⊢
      rcases hq with h | ⟨x, hx, hq⟩
      · exact .inl h
      · obtain ⟨y, hy, h⟩ := cutAll_paths d (k + 1) es x hx q hq
        exact .inr ⟨y, hy, h⟩
  | .file _ _ => intro q hq; rw [cut] at hq; exact hq
  | .skipped _ => intro q hq; rw [cut] at hq; exact hq
  | .maxDepth _ => intro q hq; rw [cut] at hq; exact hq
theorem cutAll_paths (d k : Nat) (es : List TreeEntry) : ∀ x ∈ cutAll d k es, ∀ q ∈ entryPaths x, ∃ y ∈ es, q ∈ entryPaths y := by
  match es with
  | [] => intro x hx; rw [cutAll] at hx; cases hx
  | e :: es =>
    intro x hx q hq
    rw [cutAll] at hx
    rcases List.mem_cons.1 hx with rfl | hx
    · exact ⟨e, by simp, cut_paths d k e q hq⟩
    · obtain ⟨y, hy, h⟩ := cutAll_paths d k es x hx q hq
      exact ⟨y, by simp [hy], h⟩
end

mutual
theorem cut_named (d k : Nat) (t : TreeEntry) (h : Named t) : Named (cut d k t) := by
  match t with
  | .dir e es =>
    rw [cut]
    split
    · exact ⟨h.1, trivial, trivial⟩
    · exact ⟨h.1, cutAll_named d (k + 1) es h.2⟩
  | .file _ _ => rw [cut]; exact h
  | .skipped _ => rw [cut]; exact h
  | .maxDepth _ => rw [cut]; exact h
theorem cutAll_named (d k : Nat) (es : List TreeEntry) (h : NamedAll es) : NamedAll (cutAll d k es) := by
  match es with
  | [] => rw [cutAll]; exact h
  | e :: es => rw [cutAll]; exact ⟨cut_named d k e h.1, cutAll_named d k es h.2⟩
end

/-- **C14** end to end: if printing with max depth `D ≥ d` returns a text, which shows the tree `t`, and emoji mapping and extension function do not throw on its paths, printing with max depth `d` returns a text that shows `t` cut at depth `d`. -/
theorem C14_text (hw : cwd.abs = true) (d : Nat) (D : Int) (hle : (d : Int) ≤ D) (h : prettyPrint fs.lift cwd (o.withMaxDepth D) p = .ok s)
    (hq : ∀ t, scanned fs cwd (o.withMaxDepth D) p = .ok t → Quiet o t) :
    ∃ t T T' s', scanned fs cwd (o.withMaxDepth D) p = .ok t ∧ Prints (o.withMaxDepth D) t T s ∧ prettyPrint fs.lift cwd (o.withMaxDepth d) p = .ok s' ∧ Prints (o.withMaxDepth d) (cut d 0 t) T' s' := by
  obtain ⟨t, T, ht, hp⟩ := printed h
  have ht' := C14_smaller_depth_truncates hw d D hle ht
  obtain ⟨T', hT'⟩ := ShowsTop.exists (lookOf (o.withMaxDepth d)) (cut d 0 t)
  have hn := cut_named d 0 t hp.named
  have hr := C01_text_returned ht' hn (fun q h => hq t ht q (cut_paths d 0 t q h)) hT'
  exact ⟨t, T, T', _, ht, hp, hr, hn, hT', rfl⟩

/-- **C58** end to end: no path stands on two lines or twice on one line, and all lie in or below the printed path. -/
theorem C58_text (hfs : ProperFs fs) (hw : cwd.abs = true) (hc : LawfulCmp o.pathComparator) (h : prettyPrint fs.lift cwd o p = .ok s) :
    ∃ (items : List (Nat × Item)) (lines : List JStr), s = joinLines lines ∧ List.Forall₂ (IsLineOf o.treeFormat (lookOf o)) items lines ∧
      ((items.flatMap (fun x => x.2.shows)).filterMap id).Nodup ∧
      ∀ q ∈ (items.flatMap (fun x => x.2.shows)).filterMap id, q.abs = true ∧ (target cwd p).names <+: q.names := by
  obtain ⟨t, T, ht, hp⟩ := printed h
  obtain ⟨lines, h1, h2, h3⟩ := hp.lines
  have h4 := C58_every_path_once hfs hw hc ht
  refine ⟨T.items 0, lines, h1, h2, ?_⟩
  rw [h3]
  exact h4

end

/-! ### C27 -/

section
variable {σ : Type}

/-- A world whose file system and callbacks (the extension function aside) do not write to the call log. -/
structure SilentWorld (fs : Fs (LogM σ)) (o : Options (LogM σ)) : Prop where
  isDir : ∀ p, Logs (fs.isDir p) []
  listDir : ∀ p, Logs (fs.listDir p) []
  readAttrs : ∀ p, Logs (fs.readAttrs p) []
  limit : ∀ p, Logs (o.childLimit p) []
  dirs : ∀ p, Logs (o.dirMatcher p) []
  files : ∀ p, Logs (o.fileMatcher p) []
  emoji : ∀ p, Logs (o.emojiMapping p) []

variable {fs : Fs (LogM σ)} {o : Options (LogM σ)}

theorem logs_filter (hs : SilentWorld fs o) (cs : List Path) : Logs (Scanner.filterEntries (o.toScan fs).pathFilter cs) [] := by
  induction cs with
  | nil => exact .pure _
  | cons c cs ih =>
    refine Logs.bind (t1 := []) (?_ : Logs ((o.toScan fs).pathFilter c) []) (fun b => Logs.bind (t1 := []) ih (fun ks => .pure _))
    show Logs (PathMatchers.ifMatchesThenElse (PathMatchers.isDirectory fs) o.dirMatcher o.fileMatcher c) []
    unfold PathMatchers.ifMatchesThenElse PathMatchers.isDirectory
    refine Logs.bind (t1 := []) (hs.isDir c) (fun b => ?_)
    cases b
    · exact hs.files c
    · exact hs.dirs c

theorem logs_childLoop {v : Path → LogM σ TreeEntry} (h : ∀ p, Logs (v p) []) (n : Int) (ps : List Path) : ∀ i, Logs (Scanner.childLoop v n i ps) [] := by
  induction ps with
  | nil => intro i; exact .pure _
  | cons p ps ih =>
    intro i
    unfold Scanner.childLoop
    dsimp only
    split
    · exact .pure _
    · exact Logs.bind (t1 := []) (h p) (fun e => Logs.bind (t1 := []) (ih _) (fun r => .pure _))

theorem logs_handle (hs : SilentWorld fs o) (k : Nat) (p : Path) : Logs (Scanner.handle fs (o.toScan fs) k p) [] := by
  rw [Scanner.handle]
  refine Logs.bind (t1 := []) (hs.isDir p) (fun b => ?_)
  cases b with
  | true =>
    simp only [if_true]
    by_cases h : (k : Int) ≥ (o.toScan fs).maxDepth
    · rw [dif_pos h]; exact .pure _
    · rw [dif_neg h]
      have ih := fun q => logs_handle hs (k + 1) q
      refine Logs.bind (t1 := []) (hs.listDir p) (fun r => ?_)
      cases r with
      | openFailed => exact .throw _
      | opened cs bad =>
        refine Logs.bind (t1 := []) (Logs.bind (t1 := []) (hs.limit p) (fun n => Logs.bind (t1 := []) (logs_filter hs cs) (fun ks => ?_))) (fun es => .pure _)
        have rest : Logs (do
            let (es, left) ← Scanner.childLoop (fun c => Scanner.handle fs (o.toScan fs) (k + 1) c) n 0 (streamSorted (o.toScan fs).pathComparator ks)
            return if left.isEmpty then es else es ++ [TreeEntry.skipped p]) [] :=
          Logs.bind (t1 := []) (logs_childLoop ih n _ 0) (fun x => .pure _)
        cases bad with
        | true => exact Logs.bind (t1 := []) (.throw _) (fun _ => rest)
        | false => exact rest
  | false =>
    simp only [Bool.false_eq_true, if_false]
    refine Logs.bind (t1 := []) (hs.readAttrs p) (fun r => ?_)
    cases r with
    | none => exact .throw _
    | some a => exact .pure _
termination_by ((o.toScan fs).maxDepth - k).toNat
decreasing_by omega

/-- **C27** end to end: an arbitrary stateful, possibly throwing extension function, in an arbitrary stateful world (file system and all other callbacks): a call of `prettyPrint` that returns a text called it exactly
once for every directory and file of the tree it found, in display order. -/
theorem C27_text (g : Path → σ → Except Exn (Option JStr) × σ) (hs : SilentWorld fs o) (ho : o.lineExtension = some (recording g)) (cwd p : Path)
    (l l' : List Path) (s s' : σ) (r : JStr) (h : (prettyPrint fs cwd o p).exec l s = (.ok r, (l', s'))) :
    ∃ t s1, (Scanner.scan fs (o.toScan fs) cwd (target cwd p)).exec l s = (.ok t, (l, s1)) ∧ l' = l ++ entryPaths t := by
  have hp : prettyPrint fs cwd o p = (Scanner.scan fs (o.toScan fs) cwd (target cwd p) >>= Renderer.renderRoot o.toRender (LineRenderer.create o.toRender)) := rfl
  rw [hp, exec_bind] at h
  have hsc : Logs (Scanner.scan fs (o.toScan fs) cwd (target cwd p)) [] := logs_handle hs 0 _
  have h1 := hsc l s
  rcases hx : (Scanner.scan fs (o.toScan fs) cwd (target cwd p)).exec l s with ⟨a, l1, s1⟩
  rw [hx] at h h1
  cases a with
  | error e => cases h
  | ok t =>
    simp only [List.append_nil] at h1
    subst h1
    refine ⟨t, s1, rfl, ?_⟩
    simp only at h
    rw [C01_render_is_picture_effectful, map_eq_pure_bind] at h
    have hL : Logs (dispM ⟨o.toRender.emojiMapping, o.toRender.compactDirectories, extensionOf o.toRender⟩ true t) (entryPaths t) := by
      refine logs_dispM _ hs.emoji ?_ true t
      intro q
      show Logs (extensionOf o.toRender q) [q]
      unfold extensionOf Options.toRender
      rw [ho]
      exact Logs.recording g q
    have h2 := Logs.bind hL (fun D => Logs.pure (picture o.toRender.treeFormat D)) l1 s1
    rw [h] at h2
    simpa using h2

end

/-! ### Examples -/

namespace Demo

theorem found_named : Named found := by simp [found, Named, NamedAll, r, a, x, y, b, z]

theorem found_quiet : Quiet dflt found := fun _ _ => ⟨⟨none, rfl⟩, fun g hg => by cases hg⟩

/-- The text for the demo disk. -/
theorem printed_found : prettyPrint dfs.lift Path.root dflt r = .ok (joinLines [j!"r/", j!"├─ a/", j!"│  ├─ x", j!"│  └─ y", j!"├─ b.txt", j!"└─ z?"]) := by
  rw [C01_text_returned scanned_found found_named found_quiet (.dir (.cons (.dir (.stop (fun c ces h => by simp [Mergeable] at h)) (.cons .file (.cons .file .nil))) (.cons .file (.cons .file .nil))))]
  rfl

theorem found_clean : ∀ t, scanned dfs Path.root dflt r = .ok t → CleanText dflt t := by
  intro t ht
  rw [scanned_found] at ht
  cases ht
  refine ⟨?_, ?_, ?_⟩
  · decide
  · intro q _ e he; cases he
  · intro q _ e he; cases he

/-- Hypotheses of C02, C03, C04, C20, C22, C24, C25, C26, C40, C06, C08, C10, C13, C14, C58 end to end on the demo disk. -/
example := C02_text_lines printed_found builtin_formats_noNL.1 found_clean
example := C02_text_lines_compact_off printed_found builtin_formats_noNL.1 rfl found_clean
example := C03_text_decodes printed_found 2 builtin_formats_ok.1 builtin_formats_ok.2.1 builtin_formats_noNL.1 found_clean
example := C04_text_columns printed_found 2 builtin_formats_ok.1 builtin_formats_noNL.1 found_clean
example := C22_text printed_found scanned_found
example := C24_text_off printed_found rfl
example := C25_text (o := dflt) rfl scanned_found found_named found_quiet
example := C40_text (o := dflt) scanned_found found_named found_quiet
example := C26_text printed_found
example := C06_text (o := dflt) rfl lawful_ALPHABETICAL (fun q n h => by cases h; decide) printed_found
example := C10_text (o := dflt) rfl lawful_ALPHABETICAL printed_found
example := C13_text (o := dflt) rfl lawful_ALPHABETICAL (by decide) printed_found
example := C58_text (o := dflt) proper rfl lawful_ALPHABETICAL printed_found

end Demo
end JFTP
