import Verif.Props.Layout
import Verif.Lemmas.Skeleton
import Verif.Lemmas.Trace

/-!
C20, C22–C27, C40: what stands on the lines.
-/

namespace JFTP
open Spec

/-! ### All lines of the output -/

section
variable {m : Type → Type} [Monad m] [LawfulMonad m] [MonadExceptOf Exn m]

/-- **C02, C20, C22, C25, C40**: the output consists of exactly one line per displayed item in display order, and every line is: tree prefix, then — for a file —
the emoji and a space if there is one, the file name, `*`/`?` according to its attributes, the extension of that path; for a directory or merged chain,
emoji and extension of the last directory around the names, each followed by a slash; and for a marker just `...`. The displayed items are the entries of the
tree in preorder, each exactly once. -/
theorem lines_of_output (o : RenderOpts m) (L : Look) (he : ∀ p, o.emojiMapping p = pure (L.emoji p))
    (hc : o.compactDirectories = L.compact) (hx : ∀ p, extensionOf o p = pure (L.ext p))
    (t : TreeEntry) (hn : Named t) (T : ITree) (hT : ShowsTop L t T) :
    ∃ lines, Renderer.renderRoot o (LineRenderer.create o) t = pure (joinLines lines) ∧
      List.Forall₂ (IsLineOf o.treeFormat L) (T.items 0) lines ∧
      (T.items 0).flatMap (fun x => x.2.shows) = events t :=
  ⟨_, C01_render_is_picture o L he hc hx t hn T hT, hT.lines hn, hT.events 0⟩

end

/-- Example: the items of the compact demo tree with their depths. -/
example : Demo.shownCompact.items 0 =
    [(0, .dirs [Demo.p0] Demo.p0), (1, .dirs [Demo.p1, Demo.p2] Demo.p2), (2, .file Demo.p3 ⟨false, false⟩), (1, .file Demo.p4 ⟨false, true⟩)] := rfl

/-! ### C20 -/

/-- **C20**: the mark of a displayed non-directory: with attributes read following links (so never "symbolic link") it is `?` exactly for
`isOther`, and nothing otherwise. -/
theorem C20_mark (a : Attrs) (h : a.isSymbolicLink = false) :
    (a.isOther = true → fileMark a = j!"?") ∧ (a.isOther = false → fileMark a = []) := by
  unfold fileMark; constructor <;> intro h' <;> simp [h, h']

/-- **C20** on the rendered line of a single file entry, in every effect context: emoji prefix, name, mark, extension. -/
theorem C20_file_line {m : Type → Type} [Monad m] [LawfulMonad m] [MonadExceptOf Exn m] (o : RenderOpts m) (lr : LineRenderer m)
    (d : Depth) (p : Path) (a : Attrs) (name : JStr) (hp : p.getFileName = some name) :
    Renderer.renderTree o lr d (.file p a) = (do
      let e ← lr.emojiMapping p
      let x ← Renderer.computeLineExtension o p
      pure (lr.treeFormatter.format d ++ (emojiText e ++ name ++ fileMark a) ++ x.getD [])) := by
  rw [Renderer.renderTree]
  simp only [LineRenderer.renderFile, FileFormatter.emojiFormatFile, FileFormatter.emojiPrefix, FileFormatter.formatFile, hp, bind_assoc, pure_bind]
  refine bind_congr (fun e => ?_)
  cases e <;> cases h1 : a.isSymbolicLink <;> cases h2 : a.isOther <;> simp [fileMark, emojiText, h1, h2, SPACE]

example : fileMark ⟨false, true⟩ = j!"?" ∧ fileMark ⟨false, false⟩ = [] := ⟨rfl, rfl⟩

/-! ### C22 -/

/-- **C22**: explicit form of the maximal chains: `ds` is the list of directories of a sequence of directory entries that starts at the given one, where each
one's only content is the next one and each but the last one has a null extension, and which cannot be continued. -/
theorem C22_chain_iff (L : Look) (d : Path) (es : List TreeEntry) (ds : List Path) (last : Path) (es' : List TreeEntry) :
    Chain L d es ds last es' ↔ ∃ links : List (Path × List TreeEntry),
      links.map Prod.fst = ds ∧ links.head? = some (d, es) ∧ links.getLast? = some (last, es') ∧
      (∀ i a b, links[i]? = some a → links[i + 1]? = some b →
        L.compact = true ∧ a.2 = [.dir b.1 b.2] ∧ L.ext a.1 = none) ∧
      ¬ (L.compact = true ∧ (∃ c ces, es' = [.dir c ces]) ∧ L.ext last = none) := by
  constructor
  · intro h
    induction h with
    | @stop d es hs =>
      refine ⟨[(d, es)], rfl, rfl, rfl, ?_, ?_⟩
      · intro i a b _ hb; simp at hb
      · rintro ⟨h1, ⟨c, ces, h2⟩, h3⟩; exact hs c ces ⟨h1, h2, h3⟩
    | @step d es c ces ds last es' hm _ ih =>
      obtain ⟨links, h1, h2, h3, h4, h5⟩ := ih
      refine ⟨(d, es) :: links, by simp [h1], rfl, by rw [List.getLast?_cons, h3]; rfl, ?_, h5⟩
      intro i a b ha hb
      cases i with
      | zero =>
        simp at ha hb
        subst ha
        rw [List.head?_eq_getElem?] at h2
        rw [h2] at hb
        cases hb
        exact hm
      | succ i => exact h4 i a b (by simpa using ha) (by simpa using hb)
  · rintro ⟨links, h1, h2, h3, h4, h5⟩
    induction links generalizing d es ds with
    | nil => simp at h2
    | cons x xs ih =>
      simp at h2; subst h2
      cases xs with
      | nil =>
        simp at h3; obtain ⟨rfl, rfl⟩ := h3
        subst h1
        exact .stop (fun c ces hm => h5 ⟨hm.1, ⟨c, ces, hm.2.1⟩, hm.2.2⟩)
      | cons y ys =>
        have hm := h4 0 (d, es) y rfl rfl
        subst h1
        refine .step (c := y.1) (ces := y.2) hm (ih y.1 y.2 _ rfl rfl ?_ ?_)
        · rw [← h3]; simp [List.getLast?_cons]
        · intro i a b ha hb; exact h4 (i + 1) a b (by simpa using ha) (by simpa using hb)

/-- **C22**: every directory line below the top is the maximal chain of the directory entry it starts with; the top line is a single directory. -/
theorem C22_lines_are_maximal_chains (L : Look) (d : Path) (es : List TreeEntry) (T : ITree) (h : ShowsTop L (.dir d es) T) :
    (T.items 0).head? = some (0, .dirs [d] d) ∧
    ∀ x ∈ (T.items 0).tail, ∀ ds last, x.2 = .dirs ds last →
      ∃ d0 es0 es', (∃ e ∈ es, Below (.dir d0 es0) e) ∧ Chain L d0 es0 ds last es' := by
  cases h with
  | dir hs =>
    refine ⟨rfl, ?_⟩
    intro x hx ds last hd
    have := hs.itemOk 1 x hx
    rw [hd] at this
    exact this
  | other hne _ => exact absurd rfl (hne d es)

/-- **C22**: a directory below the top is displayed as its maximal chain with the content of the last directory. -/
theorem C22_shows_chain (L : Look) (d : Path) (es : List TreeEntry) (ds : List Path) (last : Path) (es' : List TreeEntry)
    (hc : Chain L d es ds last es') (T : ITree) :
    Shows L (.dir d es) T ↔ ∃ ks, T = .node (.dirs ds last) ks ∧ ShowsAll L es' ks := by
  constructor
  · intro h
    cases h with
    | dir hc' hs =>
      obtain ⟨h1, h2, h3⟩ := hc'.unique hc
      subst h1 h2 h3
      exact ⟨_, rfl, hs⟩
  · rintro ⟨ks, rfl, hs⟩; exact .dir hc hs

example : Chain (Demo.look true) Demo.p1 [.dir Demo.p2 [.file Demo.p3 ⟨false, false⟩]] [Demo.p1, Demo.p2] Demo.p2 [.file Demo.p3 ⟨false, false⟩] :=
  .step (c := Demo.p2) (ces := [.file Demo.p3 ⟨false, false⟩]) (by simp [Mergeable, Demo.look, Demo.p1, Demo.p4]) (.stop (by simp [Mergeable]))

/-! ### C23 -/

/-- **C23**: without emojis and extensions, `decode` followed by splitting the directory labels at slashes recovers names and nesting of the entry tree from the text
alone, in compact as in normal mode. -/
theorem C23_names_and_nesting_recovered {m : Type → Type} [Monad m] [LawfulMonad m] [MonadExceptOf Exn m]
    (o : RenderOpts m) (w : Nat) (hw : TreeFormatOK o.treeFormat w) (hr : Readable o.treeFormat) (hf : FormatNoNL o.treeFormat)
    (he : ∀ p, o.emojiMapping p = pure none) (hx : ∀ p, extensionOf o p = pure none) (t : TreeEntry) (hn : Named t) (hcl : CleanNames t) :
    ∃ s, Renderer.renderRoot o (LineRenderer.create o) t = pure s ∧ (decode o.treeFormat s).map expand = some (skeleton t) := by
  obtain ⟨T, hT⟩ := ShowsTop.exists (plain o.compactDirectories) t
  refine ⟨_, C01_render_is_picture o (plain o.compactDirectories) he rfl hx t hn T hT, ?_⟩
  rw [C03_decode_roundtrip _ w hw hr hf _ (hT.noNL hcl), Option.map_some, hT.expand hcl]

/-- **C23**, consequence: trees that differ in names or nesting never print the same compact text. -/
theorem C23_compact_injective (o : RenderOpts (Except Exn)) (w : Nat) (hw : TreeFormatOK o.treeFormat w) (hr : Readable o.treeFormat)
    (hf : FormatNoNL o.treeFormat) (he : ∀ p, o.emojiMapping p = pure none) (hx : ∀ p, extensionOf o p = pure none) (t t' : TreeEntry)
    (hn : Named t) (hn' : Named t') (hcl : CleanNames t) (hcl' : CleanNames t')
    (h : Renderer.renderRoot o (LineRenderer.create o) t = Renderer.renderRoot o (LineRenderer.create o) t') : skeleton t = skeleton t' := by
  obtain ⟨s, hs, hd⟩ := C23_names_and_nesting_recovered o w hw hr hf he hx t hn hcl
  obtain ⟨s', hs', hd'⟩ := C23_names_and_nesting_recovered o w hw hr hf he hx t' hn' hcl'
  rw [hs, hs'] at h
  cases Except.ok.inj h
  rw [hd] at hd'
  exact Option.some.inj hd'

theorem Demo.clean : CleanNames Demo.tree := by
  constructor
  · intro d es h
    rcases h with _ | ⟨hx, h⟩
    · decide
    · simp at hx; rcases hx with rfl | rfl
      · rcases h with _ | ⟨hx, h⟩
        · decide
        · simp at hx; subst hx; rcases h with _ | ⟨hx, h⟩
          · decide
          · simp at hx; subst hx; cases h
      · cases h
  · intro p a h
    rcases h with _ | ⟨hx, h⟩
    simp at hx; rcases hx with rfl | rfl
    · rcases h with _ | ⟨hx, h⟩
      simp at hx; subst hx; rcases h with _ | ⟨hx, h⟩
      simp at hx; subst hx; cases h; decide
    · cases h; decide

example : skeleton Demo.tree = .dir j!"proj" [.dir j!"src" [.dir j!"main" [.leaf j!"A.java"]], .leaf j!"x?"] := rfl

/-- Limit of C23: the marker line is not distinguishable from a file called `...`. -/
theorem C23_ellipsis_ambiguous (o : RenderOpts (Except Exn)) (he : ∀ p, o.emojiMapping p = pure none)
    (hx : ∀ p, extensionOf o p = pure none) (d : Path) (hd : d.names ≠ []) :
    Renderer.renderRoot o (LineRenderer.create o) (.dir d [.skipped d]) =
    Renderer.renderRoot o (LineRenderer.create o) (.dir d [.file ⟨true, d.names ++ [j!"..."]⟩ ⟨false, false⟩]) := by
  rw [C01_render_is_picture o (plain o.compactDirectories) he rfl hx _ ?_ _ (.dir (.cons .skipped .nil)),
    C01_render_is_picture o (plain o.compactDirectories) he rfl hx _ ?_ _ (.dir (.cons .file .nil))]
  · congr 2
    simp [ITree.toDisp, toDispAll, Item.label, plain, emojiText, fileMark, lastName, List.getLastD_eq_getLast?]
  · simp [Named, NamedAll, hd]
  · simp [Named, NamedAll, hd]

/-! ### C24 -/

/-- **C24**: with compact off every directory has its own line. -/
theorem C24_compact_off_single (L : Look) (hL : L.compact = false) (t : TreeEntry) (T : ITree) (h : ShowsTop L t T) :
    ∀ x ∈ T.items 0, ∀ ds last, x.2 = .dirs ds last → ds = [last] := by
  have key : ∀ es : List TreeEntry, ∀ i, ItemOk L es i → ∀ ds last, i = .dirs ds last → ds = [last] := by
    rintro es i hi ds last rfl
    obtain ⟨d, es0, es', _, hc⟩ := hi
    cases hc with
    | stop _ => rfl
    | step hm _ => have := hm.1; rw [hL] at this; cases this
  intro x hx ds last hd
  cases h with
  | dir hs =>
    simp only [ITree.items, List.mem_cons] at hx
    rcases hx with rfl | hx
    · simp only at hd; cases hd; rfl
    · exact key _ _ (hs.itemOk _ x hx) ds last hd
  | other _ h => exact key _ _ (h.itemOk _ x hx) ds last hd

section
variable {m : Type → Type} [Monad m] [LawfulMonad m] [MonadExceptOf Exn m]

theorem dispDirM_other_eq (L : LookM m) (top : Bool) (d : Path) (es : List TreeEntry) (ps : List Path) (h : ∀ c ces, es ≠ [.dir c ces]) :
    dispDirM L top d es ps = (do
      let names ← dirsTextM L.emoji d ps
      let x ← L.ext d
      let ks ← dispKidsM L es
      return Disp.node (names ++ x.getD []) ks) := by
  rw [dispDirM.eq_def]
  split
  · rename_i c ces; exact absurd rfl (h c ces)
  · rfl

mutual
theorem dispM_noChain (e : EmojiFn m) (x : ExtFn m) (t : TreeEntry) (h : ∀ d c ces, ¬ Below (.dir d [.dir c ces]) t) :
    dispM ⟨e, true, x⟩ false t = dispM ⟨e, false, x⟩ false t := by
  match t with
  | .dir d es =>
    have ih := dispKidsM_noChain e x es (fun y hy d c ces hb => h d c ces (.inside hy hb))
    have hne : ∀ c ces, es ≠ [.dir c ces] := by rintro c ces rfl; exact h d c ces .here
    rw [dispM, dispM, dispDirM_other_eq _ _ _ _ _ hne, dispDirM_other_eq _ _ _ _ _ hne, ih]
  | .file p a => rw [dispM, dispM]
  | .skipped _ => rw [dispM, dispM]
  | .maxDepth _ => rw [dispM, dispM]
theorem dispKidsM_noChain (e : EmojiFn m) (x : ExtFn m) (es : List TreeEntry)
    (h : ∀ y ∈ es, ∀ d c ces, ¬ Below (.dir d [.dir c ces]) y) :
    dispKidsM ⟨e, true, x⟩ es = dispKidsM ⟨e, false, x⟩ es := by
  match es with
  | [] => rw [dispKidsM, dispKidsM]
  | y :: ys =>
    rw [dispKidsM, dispKidsM, dispM_noChain e x y (h y (by simp)), dispKidsM_noChain e x ys (fun z hz => h z (by simp [hz]))]
end

/-- **C24**: trees without single-directory chains print identically in both modes, in every effect context. -/
theorem C24_no_chain_same (o : RenderOpts m) (t : TreeEntry) (h : NoChain t) :
    Renderer.renderRoot { o with compactDirectories := true } (LineRenderer.create { o with compactDirectories := true }) t =
    Renderer.renderRoot { o with compactDirectories := false } (LineRenderer.create { o with compactDirectories := false }) t := by
  rw [C01_render_is_picture_effectful, C01_render_is_picture_effectful]
  congr 1
  show dispM ⟨o.emojiMapping, true, extensionOf o⟩ true t = dispM ⟨o.emojiMapping, false, extensionOf o⟩ true t
  cases t with
  | dir d es =>
    have ih := dispKidsM_noChain o.emojiMapping (extensionOf o) es h
    rw [dispM, dispM]
    by_cases hs : ∃ c ces, es = [.dir c ces]
    · obtain ⟨c, ces, rfl⟩ := hs
      rw [dispDirM.eq_def, dispDirM.eq_def]
      simp only [Bool.not_true, Bool.and_false, Bool.false_eq_true, if_false]
      rw [dispM_noChain o.emojiMapping (extensionOf o) (.dir c ces) (h _ (by simp))]
    · have hne : ∀ c ces, es ≠ [.dir c ces] := fun c ces hh => hs ⟨c, ces, hh⟩
      rw [dispDirM_other_eq _ _ _ _ _ hne, dispDirM_other_eq _ _ _ _ _ hne, ih]
  | file p a => rw [dispM, dispM]
  | skipped _ => rw [dispM, dispM]
  | maxDepth _ => rw [dispM, dispM]

end

/-- The hypothesis holds for a tree with a single-directory top (never merged) and a two-entry directory below. -/
example : NoChain (.dir Demo.p0 [.dir Demo.p1 [.file Demo.p3 ⟨false, false⟩, .dir Demo.p2 []]]) := by
  intro e he d c ces hb
  simp at he; subst he
  rcases hb with _ | ⟨hx, hb⟩
  simp at hx; rcases hx with rfl | rfl
  · cases hb
  · rcases hb with _ | ⟨hx, hb⟩; cases hx

/-! ### C25, C40 -/

/-- **C25**: two extension functions that both leave the displayed items as they are: lines differ only in the extension at their end, which is that of the (last)
path on the line, and `...` lines do not differ. -/
theorem C25_extension_at_end (f : TreeFormat) (L : Look) (n : Nat) (i : Item) (line : JStr) (h : IsLineOf f L (n, i) line) :
    ∃ front, line = front ++ (match i with | .file p _ => (L.ext p).getD [] | .dirs _ last => (L.ext last).getD [] | .more => []) ∧
      IsLineOf f { L with ext := fun _ => none } (n, i) front := by
  cases h with
  | @file _ p a pre name hp hn =>
    refine ⟨pre ++ (emojiText (L.emoji p) ++ (name ++ fileMark a)), by simp only [List.append_assoc], ?_⟩
    simpa using IsLineOf.file (L := { L with ext := fun _ => none }) (a := a) hp hn
  | @dirs _ ds last pre names hp hn hl =>
    refine ⟨pre ++ (emojiText (L.emoji last) ++ (names.map (· ++ [SLASH])).flatten), by simp only [List.append_assoc], ?_⟩
    simpa using IsLineOf.dirs (L := { L with ext := fun _ => none }) hp hn hl
  | more hp => exact ⟨_, by simp, .more hp⟩

/-- **C40**: without an emoji the text after the tree prefix is the bare line; with an emoji `e` it is `e`, one space, the bare line; `...` lines are always bare. -/
theorem C40_emoji_in_front (f : TreeFormat) (L : Look) (n : Nat) (i : Item) (line : JStr) (h : IsLineOf f L (n, i) line) :
    ∃ pre text, LinePrefix f n pre ∧ IsLineOf f { L with emoji := fun _ => none } (n, i) (pre ++ text) ∧
      line = pre ++ (match (match i with | .file p _ => L.emoji p | .dirs _ last => L.emoji last | .more => none) with
        | none => text
        | some e => e ++ SPACE :: text) := by
  cases h with
  | @file _ p a pre name hp hn =>
    refine ⟨pre, name ++ (fileMark a ++ (L.ext p).getD []), hp, by simpa [emojiText] using IsLineOf.file (L := { L with emoji := fun _ => none }) hp hn, ?_⟩
    cases hE : L.emoji p <;> simp [emojiText, hE, SPACE]
  | @dirs _ ds last pre names hp hn hl =>
    refine ⟨pre, (names.map (· ++ [SLASH])).flatten ++ (L.ext last).getD [], hp, by simpa [emojiText] using IsLineOf.dirs (L := { L with emoji := fun _ => none }) hp hn hl, ?_⟩
    cases hE : L.emoji last <;> simp [emojiText, hE, SPACE]
  | @more _ pre hp => exact ⟨pre, j!"...", hp, .more hp, rfl⟩

/-- Example for C25 and C40: a line with both. -/
example : IsLineOf TreeFormats.UNICODE_BOX_DRAWING ⟨fun _ => some j!"E", false, fun _ => some j!" ext"⟩ (0, .file Demo.p3 ⟨false, true⟩) j!"E A.java? ext" :=
  IsLineOf.file (pre := []) (p := Demo.p3) (a := ⟨false, true⟩) (name := j!"A.java") rfl rfl

/-! ### C26 -/

/-- **C26**: a directory whose extension is not null (the empty string included) is never merged with its content: wherever it occurs on a line it is the last one on it. -/
theorem C26_extension_ends_chain (L : Look) (d : Path) (es : List TreeEntry) (ds : List Path) (last : Path) (es' : List TreeEntry)
    (h : Chain L d es ds last es') : ∀ x ∈ ds.dropLast, L.ext x = none := by
  induction h with
  | stop _ => intro x hx; simp at hx
  | step hm hc ih =>
    intro x hx
    rw [List.dropLast_cons_of_ne_nil (by rw [hc.head_eq]; simp)] at hx
    rcases List.mem_cons.1 hx with rfl | hx
    · exact hm.2.2
    · exact ih x hx

/-- **C26**: in particular its only child directory gets a line of its own, one level deeper. -/
theorem C26_child_on_own_line (L : Look) (d c : Path) (ces : List TreeEntry) (x : JStr) (hx : L.ext d = some x) (T : ITree)
    (h : Shows L (.dir d [.dir c ces]) T) : ∃ Tc, T = .node (.dirs [d] d) [Tc] ∧ Shows L (.dir c ces) Tc := by
  cases h with
  | dir hc hs =>
    cases hc with
    | stop _ =>
      cases hs with
      | cons h1 h2 => cases h2; exact ⟨_, rfl, h1⟩
    | step hm _ => have := hm.2.2; rw [hx] at this; cases this

example : Shows ⟨fun _ => none, true, fun p => if p = Demo.p1 then some [] else none⟩ (.dir Demo.p1 [.dir Demo.p2 []])
    (.node (.dirs [Demo.p1] Demo.p1) [.node (.dirs [Demo.p2] Demo.p2) []]) :=
  .dir (.stop (by simp [Mergeable])) (.cons (.dir (.stop (by simp [Mergeable])) .nil) .nil)

/-! ### C27 -/

/-- **C27**: an arbitrary stateful, possibly throwing extension function `g` (state `σ`, which emoji mapping and everything else may share), called through a wrapper that logs its
arguments: rendering calls it exactly once for every displayed directory and file, in display order; if some callback throws, the calls made until then are
an initial segment of that sequence. Independent of compact mode. -/
theorem C27_extension_calls {σ : Type} (g : Path → σ → Except Exn (Option JStr) × σ) (emoji : Path → σ → Except Exn (Option JStr) × σ)
    (compact : Bool) (f : TreeFormat) (t : TreeEntry) (l : List Path) (s : σ) :
    let o : RenderOpts (LogM σ) := ⟨fun p => silent (emoji p), compact, f, some (recording g)⟩
    (∀ r l' s', (Renderer.renderRoot o (LineRenderer.create o) t).exec l s = (.ok r, (l', s')) → l' = l ++ entryPaths t) ∧
    (∀ e l' s', (Renderer.renderRoot o (LineRenderer.create o) t).exec l s = (.error e, (l', s')) →
      ∃ pre, pre <+: entryPaths t ∧ l' = l ++ pre) := by
  intro o
  have h : Logs (Renderer.renderRoot o (LineRenderer.create o) t) (entryPaths t) := by
    rw [C01_render_is_picture_effectful, map_eq_pure_bind]
    exact (Logs.bind (logs_dispM _ (fun p => Logs.silent _) (fun p => Logs.recording g p) true t) (fun _ => Logs.pure _)).congr (by simp)
  have h := h l s
  constructor
  · intro r l' s' hr; rw [hr] at h; exact h
  · intro r l' s' hr; rw [hr] at h; exact h

example : entryPaths Demo.tree = [Demo.p0, Demo.p1, Demo.p2, Demo.p3, Demo.p4] := rfl

/-- The displayed directories and files are those of the displayed items, so the calls are in display order. -/
theorem C27_display_order (L : Look) (t : TreeEntry) (T : ITree) (h : ShowsTop L t T) :
    ((T.items 0).flatMap (fun x => x.2.shows)).filterMap id = entryPaths t := by
  rw [h.events 0]; rfl

end JFTP
