import Verif.Lemmas.Layout
import Verif.Lemmas.NamedOk
import Verif.Model.Printer

/-!
C01–C05: the shape of the printed text.
-/

namespace JFTP
open Spec

/-! ### A concrete tree used in the examples of this file -/

namespace Demo

def p0 : Path := ⟨true, [j!"proj"]⟩
def p1 : Path := ⟨true, [j!"proj", j!"src"]⟩
def p2 : Path := ⟨true, [j!"proj", j!"src", j!"main"]⟩
def p3 : Path := ⟨true, [j!"proj", j!"src", j!"main", j!"A.java"]⟩
def p4 : Path := ⟨true, [j!"proj", j!"x"]⟩

/-- `proj/{src/{main/{A.java}}, x}` -/
def tree : TreeEntry :=
  .dir p0 [.dir p1 [.dir p2 [.file p3 ⟨false, false⟩]], .file p4 ⟨false, true⟩]

/-- extension on `src`, emoji on files ending the chain -/
def look (compact : Bool) : Look :=
  ⟨fun p => if p = p3 then some j!"E" else none, compact, fun p => if p = p4 then some j!" <- here" else none⟩

def opts (compact : Bool) : RenderOpts (Except Exn) :=
  ⟨fun p => pure ((look compact).emoji p), compact, TreeFormats.UNICODE_BOX_DRAWING, some (fun p => pure ((look compact).ext p))⟩

/-- what is displayed without compaction -/
def shown : ITree :=
  .node (.dirs [p0] p0) [.node (.dirs [p1] p1) [.node (.dirs [p2] p2) [.node (.file p3 ⟨false, false⟩) []]], .node (.file p4 ⟨false, true⟩) []]

/-- what is displayed with compaction -/
def shownCompact : ITree :=
  .node (.dirs [p0] p0) [.node (.dirs [p1, p2] p2) [.node (.file p3 ⟨false, false⟩) []], .node (.file p4 ⟨false, true⟩) []]

theorem named : Named tree := by simp [tree, Named, NamedAll, p0, p1, p2, p3, p4]

theorem shows_shown : ShowsTop (look false) tree shown := by
  refine .dir (.cons (.dir (.stop ?_) (.cons (.dir (.stop ?_) (.cons .file .nil)) .nil)) (.cons .file .nil)) <;>
    simp [Mergeable, look]

theorem shows_compact : ShowsTop (look true) tree shownCompact := by
  refine .dir (.cons (.dir (.step (c := p2) (ces := [.file p3 ⟨false, false⟩]) ?_ (.stop ?_)) (.cons .file .nil)) (.cons .file .nil)) <;>
    simp [Mergeable, look, p1, p4]

end Demo

/-! ### C01 -/

section
variable {m : Type → Type} [Monad m] [LawfulMonad m] [MonadExceptOf Exn m]

/-- The options' extension function as a plain effectful function (no function: always null). -/
def extensionOf (o : RenderOpts m) : ExtFn m :=
  match o.lineExtension with
  | none => fun _ => pure none
  | some g => g

/-- **C01** in every effect context (callbacks may throw, have side effects, and the emoji and extension functions may be stateful): rendering an
entry tree is collecting the labels of the displayed lines and laying them out as the standard picture; callbacks are
called only to compute labels. -/
theorem C01_render_is_picture_effectful (o : RenderOpts m) (t : TreeEntry) :
    Renderer.renderRoot o (LineRenderer.create o) t =
      picture o.treeFormat <$> dispM ⟨o.emojiMapping, o.compactDirectories, extensionOf o⟩ true t := by
  have hext : extensionOf o = Renderer.computeLineExtension o := by
    funext p
    unfold extensionOf Renderer.computeLineExtension
    cases o.lineExtension <;> rfl
  have h := renderTree_eq o (LineRenderer.create o) o.treeFormat rfl Depth.createNewEmpty t
  unfold Renderer.renderRoot
  rw [h, hext]
  have hr : Depth.createNewEmpty.isRoot = true := rfl
  rw [hr]
  have : blockText o.treeFormat Depth.createNewEmpty = picture o.treeFormat := by
    funext D
    unfold blockText picture
    rw [format_root _ hr, contPrefix_root _ hr, block_self_map]
    simp
  rw [this]
  rfl

/-- **C01**, callbacks that are functions of the path: the rendered text is the standard picture of the displayed tree. -/
theorem C01_render_is_picture (o : RenderOpts m) (L : Look) (he : ∀ p, o.emojiMapping p = pure (L.emoji p))
    (hc : o.compactDirectories = L.compact) (hx : ∀ p, extensionOf o p = pure (L.ext p))
    (t : TreeEntry) (hn : Named t) (T : ITree) (hT : ShowsTop L t T) :
    Renderer.renderRoot o (LineRenderer.create o) t = pure (picture o.treeFormat (T.toDisp L)) := by
  rw [C01_render_is_picture_effectful]
  have : (⟨o.emojiMapping, o.compactDirectories, extensionOf o⟩ : LookM m) = Look.lift L := by
    unfold Look.lift
    congr 1
    · funext p; exact he p
    · funext p; exact hx p
  rw [this, dispM_top L t hn T hT, map_pure]

/-- Every entry tree has exactly one displayed form, so C01 always applies. -/
theorem C01_displayed_tree_exists_unique (L : Look) (t : TreeEntry) :
    ∃ T, ShowsTop L t T ∧ ∀ T', ShowsTop L t T' → T' = T := by
  obtain ⟨T, h⟩ := ShowsTop.exists L t
  exact ⟨T, h, fun T' h' => h'.unique h⟩

end

/-- **C01** end to end: whenever `prettyPrint` returns a string, it is the standard picture of the scanned tree. -/
theorem C01_prettyPrint_is_picture (fs : Fs (Except Exn)) (cwd : Path) (o : Options (Except Exn)) (L : Look)
    (he : ∀ p, o.emojiMapping p = pure (L.emoji p)) (hc : o.compactDirectories = L.compact)
    (hx : ∀ p, extensionOf o.toRender p = pure (L.ext p)) (p : Path) (s : JStr) (h : prettyPrint fs cwd o p = .ok s) :
    ∃ t T, Scanner.scan fs (o.toScan fs) cwd ((p.toAbsolutePath cwd).normalize) = .ok t ∧ ShowsTop L t T ∧
      s = picture o.treeFormat (T.toDisp L) := by
  obtain ⟨t, ht, h⟩ := except_bind_ok h
  obtain ⟨T, hT⟩ := ShowsTop.exists L t
  have h' : Renderer.renderRoot o.toRender (LineRenderer.create o.toRender) t = .ok s := h
  have hn : Named t := by
    rw [C01_render_is_picture_effectful] at h'
    obtain ⟨D, hD, _⟩ := except_bind_ok h'
    exact dispM_ok_named _ true t hD
  rw [C01_render_is_picture o.toRender L he hc hx t hn T hT] at h'
  exact ⟨t, T, ht, hT, (Except.ok.inj h').symm⟩

/-- Example for C01: the hypotheses hold for `Demo.tree`, compact, and the text is
```
proj/
├─ src/main/
│  └─ E A.java
└─ x? <- here
```
-/
example : Renderer.renderRoot (Demo.opts true) (LineRenderer.create (Demo.opts true)) Demo.tree =
    .ok (j!"proj/" ++ NL :: j!"├─ src/main/" ++ NL :: j!"│  └─ E A.java" ++ NL :: j!"└─ x? <- here") := by
  rw [C01_render_is_picture (Demo.opts true) (Demo.look true) (fun _ => rfl) rfl (fun _ => rfl) Demo.tree Demo.named _ Demo.shows_compact]
  rfl

/-- The same tree without compaction. -/
example : Renderer.renderRoot (Demo.opts false) (LineRenderer.create (Demo.opts false)) Demo.tree =
    .ok (j!"proj/" ++ NL :: j!"├─ src/" ++ NL :: j!"│  └─ main/" ++ NL :: j!"│     └─ E A.java" ++ NL :: j!"└─ x? <- here") := by
  rw [C01_render_is_picture (Demo.opts false) (Demo.look false) (fun _ => rfl) rfl (fun _ => rfl) Demo.tree Demo.named _ Demo.shows_shown]
  rfl

/-! ### C02 -/

mutual
/-- Number of displayed lines of an item tree. -/
def Spec.ITree.count : ITree → Nat
  | .node _ ks => 1 + itemCount ks
/-- Number of displayed lines of a list of item trees. -/
def Spec.itemCount : List ITree → Nat
  | [] => 0
  | k :: ks => k.count + itemCount ks
end

mutual
theorem toDisp_count (L : Look) (T : ITree) : (T.toDisp L).count = T.count := by
  match T with
  | .node i ks => simp [ITree.toDisp, Disp.count, ITree.count, toDispAll_count L ks]
theorem toDispAll_count (L : Look) (ks : List ITree) : countKids (toDispAll L ks) = itemCount ks := by
  match ks with
  | [] => simp [toDispAll, countKids, itemCount]
  | k :: ks => simp [toDispAll, countKids, itemCount, toDisp_count L k, toDispAll_count L ks]
end

/-- **C02**: if no label (name, emoji, extension) and no tree symbol contains a line feed, the printed text has exactly one line per displayed item (file,
directory or merged chain of directories, `...`), and the lines are the laid out labels in order. -/
theorem C02_one_line_per_item (f : TreeFormat) (hf : FormatNoNL f) (L : Look) (T : ITree) (hl : ∀ l ∈ labels (T.toDisp L), NoNL l) :
    (linesOf (picture f (T.toDisp L))).length = T.count := by
  rw [linesOf_picture hf _ hl, length_layout, toDisp_count]

/-- Both built-in formats satisfy the hypotheses. -/
theorem builtin_formats_noNL : FormatNoNL TreeFormats.UNICODE_BOX_DRAWING ∧ FormatNoNL TreeFormats.CLASSIC_ASCII := by
  refine ⟨⟨?_, ?_, ?_, ?_⟩, ⟨?_, ?_, ?_, ?_⟩⟩ <;> unfold NoNL <;> decide

example : (∀ l ∈ labels (Demo.shownCompact.toDisp (Demo.look true)), NoNL l) ∧
    (linesOf (picture TreeFormats.UNICODE_BOX_DRAWING (Demo.shownCompact.toDisp (Demo.look true)))).length = 4 := by
  have h : ∀ l ∈ labels (Demo.shownCompact.toDisp (Demo.look true)), NoNL l := by
    have e : labels (Demo.shownCompact.toDisp (Demo.look true)) = [j!"proj/", j!"src/main/", j!"E A.java", j!"x? <- here"] := rfl
    rw [e]; unfold NoNL; decide
  refine ⟨h, ?_⟩
  rw [C02_one_line_per_item _ builtin_formats_noNL.1 _ _ h]
  rfl

/-! ### C03 -/

/-- **C03**: the decoder of `Spec/Decode.lean`, which only sees the text and the tree format, recovers the displayed tree of labels from the picture. -/
theorem C03_decode_roundtrip (f : TreeFormat) (w : Nat) (hw : TreeFormatOK f w) (hr : Readable f) (hf : FormatNoNL f)
    (D : Disp) (hl : ∀ l ∈ labels D, NoNL l) : decode f (picture f D) = some D :=
  decode_picture hw hr hf D hl

/-- **C03**, consequence: different displayed trees print different texts. -/
theorem C03_picture_injective (f : TreeFormat) (w : Nat) (hw : TreeFormatOK f w) (hr : Readable f) (hf : FormatNoNL f)
    (D D' : Disp) (hl : ∀ l ∈ labels D, NoNL l) (hl' : ∀ l ∈ labels D', NoNL l) (h : picture f D = picture f D') : D = D' := by
  have h1 := C03_decode_roundtrip f w hw hr hf D hl
  rw [h, C03_decode_roundtrip f w hw hr hf D' hl'] at h1
  exact (Option.some.inj h1).symm

/-- The built-in formats are readable (so are all formats whose branch symbols differ from continuation and empty symbols). -/
theorem builtin_formats_ok :
    TreeFormatOK TreeFormats.UNICODE_BOX_DRAWING 2 ∧ Readable TreeFormats.UNICODE_BOX_DRAWING ∧
    TreeFormatOK TreeFormats.CLASSIC_ASCII 3 ∧ Readable TreeFormats.CLASSIC_ASCII := by
  unfold TreeFormatOK Readable; decide

example : decode TreeFormats.UNICODE_BOX_DRAWING
    (j!"proj/" ++ NL :: j!"├─ src/main/" ++ NL :: j!"│  └─ E A.java" ++ NL :: j!"└─ x? <- here") =
    some (.node j!"proj/" [.node j!"src/main/" [.node j!"E A.java" []], .node j!"x? <- here" []]) :=
  C03_decode_roundtrip _ 2 builtin_formats_ok.1 builtin_formats_ok.2.1 builtin_formats_noNL.1
    (.node j!"proj/" [.node j!"src/main/" [.node j!"E A.java" []], .node j!"x? <- here" []]) (by unfold NoNL; decide)

/-- The condition on the symbols cannot be dropped: with a branch symbol equal to the continuation symbol two different trees print the same text. -/
theorem C03_condition_needed : ∃ (f : TreeFormat) (D D' : Disp), TreeFormatOK f 1 ∧ D ≠ D' ∧ picture f D = picture f D' := by
  refine ⟨⟨j!"|", j!"|", j!"|", j!"|"⟩, .node [] [.node [] [.node [] []]], .node [] [.node [] [], .node j!"| " []], ?_, ?_, ?_⟩
  · unfold TreeFormatOK; decide
  · intro h; simp at h
  · rfl

/-! ### C04 -/

/-- **C04**: line by line, the picture consists of correctly drawn lines for the labels with their depths, in display order: at depth `n` the prefix consists of
`n` segments, the last one a branch symbol, the earlier ones continuation or empty symbols. -/
theorem C04_lines_drawn (f : TreeFormat) (D : Disp) : List.Forall₂ (DrawnAt f) (preorder 0 D) (layout f D) := layout_drawn f D

/-- **C04**: with symbols of one length `w` the label of a line at depth `n` starts in column `n * (w + 1)`, whatever the tree. -/
theorem C04_label_column (f : TreeFormat) (w : Nat) (hw : TreeFormatOK f w) (n : Nat) (l line : JStr) (h : DrawnAt f (n, l) line) :
    line.drop (n * (w + 1)) = l ∧ line.length = n * (w + 1) + l.length := by
  cases n with
  | zero => simp only [DrawnAt] at h; subst h; simp
  | succ n =>
    obtain ⟨segs, b, h1, h2, h3, rfl⟩ := h
    have hb : b.length = w := by rcases h3 with rfl | rfl; exacts [hw.1, hw.2.1]
    have hs : ((segs.map (· ++ [SPACE])).flatten).length = n * (w + 1) := by
      rw [← h1]; clear h1
      induction segs with
      | nil => simp
      | cons s ss ih =>
        have hsl : s.length = w := by rcases h2 s (by simp) with rfl | rfl; exacts [hw.2.2.1, hw.2.2.2]
        simp only [List.map_cons, List.flatten_cons, List.length_append, List.length_cons, List.length_nil, hsl,
          ih (fun x hx => h2 x (by simp [hx]))]
        rw [Nat.add_mul]; omega
    have hp : ((segs.map (· ++ [SPACE])).flatten ++ (b ++ [SPACE])).length = (n + 1) * (w + 1) := by
      simp only [List.length_append, hs, hb, List.length_cons, List.length_nil]; rw [Nat.add_mul]; omega
    exact ⟨List.drop_left' hp, by rw [List.length_append, hp]⟩

/-- **C04** end to end on the text: the i-th line of the output carries the i-th displayed label at column `depth * (w+1)`. -/
theorem C04_text_aligned (f : TreeFormat) (w : Nat) (hw : TreeFormatOK f w) (hf : FormatNoNL f) (D : Disp)
    (hl : ∀ l ∈ labels D, NoNL l) :
    List.Forall₂ (fun (x : Nat × JStr) line => line.drop (x.1 * (w + 1)) = x.2 ∧ line.length = x.1 * (w + 1) + x.2.length)
      (preorder 0 D) (linesOf (picture f D)) := by
  rw [linesOf_picture hf D hl]
  exact (C04_lines_drawn f D).imp (fun x line h => C04_label_column f w hw x.1 x.2 line h)

example : (preorder 0 (Demo.shown.toDisp (Demo.look false))) =
    [(0, j!"proj/"), (1, j!"src/"), (2, j!"main/"), (3, j!"E A.java"), (1, j!"x? <- here")] := rfl

/-! ### C05 -/

/-- **C05**: constructing a tree format succeeds exactly when the four symbols have the same length, keeps them, and throws
`IllegalArgumentException` otherwise. -/
theorem C05_treeFormat_create (a b c d : JStr) :
    ((∃ w, a.length = w ∧ b.length = w ∧ c.length = w ∧ d.length = w) → TreeFormat.create a b c d = .ok ⟨a, b, c, d⟩) ∧
    ((¬ ∃ w, a.length = w ∧ b.length = w ∧ c.length = w ∧ d.length = w) → TreeFormat.create a b c d = .error .illegalArgument) := by
  constructor
  · rintro ⟨w, h1, h2, h3, h4⟩
    simp [TreeFormat.create, distinct, h1, h2, h3, h4]
  · intro h
    unfold TreeFormat.create
    dsimp only
    split
    · rfl
    · rename_i hd
      exfalso; apply h
      simp only [ne_eq, Decidable.not_not, distinct] at hd
      have hnil : ∀ {l : List Nat} {p : Nat → Bool}, l.filter p = [] → ∀ x ∈ l, p x = false := by
        intro l p h x hx
        cases hp : p x with
        | false => rfl
        | true => have : x ∈ l.filter p := List.mem_filter.2 ⟨hx, hp⟩; rw [h] at this; cases this
      simp only [List.length_cons, Nat.add_eq_right, List.length_eq_zero_iff] at hd
      have hb := hnil hd b.length (by simp)
      have hb' : b.length = a.length := by simpa using hb
      refine ⟨a.length, rfl, hb', ?_, ?_⟩
      · by_cases hcb : c.length = b.length
        · rw [hcb, hb']
        · have := hnil hd c.length (by simp [hcb]); simpa using this
      · by_cases hdb : d.length = b.length
        · rw [hdb, hb']
        · by_cases hdc : d.length = c.length
          · by_cases hcb : c.length = b.length
            · rw [hdc, hcb, hb']
            · have := hnil hd c.length (by simp [hcb]); rw [hdc]; simpa using this
          · have := hnil hd d.length (by simp [hdb, hdc]); simpa using this

/-- So every format that can be constructed satisfies the equal-length hypothesis of C03 and C04. -/
theorem C05_constructed_ok (a b c d : JStr) (f : TreeFormat) (h : TreeFormat.create a b c d = .ok f) :
    f = ⟨a, b, c, d⟩ ∧ TreeFormatOK f a.length := by
  by_cases hw : ∃ w, a.length = w ∧ b.length = w ∧ c.length = w ∧ d.length = w
  · rw [(C05_treeFormat_create a b c d).1 hw] at h
    cases h
    obtain ⟨w, h1, h2, h3, h4⟩ := hw
    exact ⟨rfl, rfl, h2.trans h1.symm, h3.trans h1.symm, h4.trans h1.symm⟩
  · rw [(C05_treeFormat_create a b c d).2 hw] at h; cases h

example : TreeFormat.create j!"+-" j!"`-" j!"| " j!"  " = .ok ⟨j!"+-", j!"`-", j!"| ", j!"  "⟩ ∧
    TreeFormat.create j!"+--" j!"`-" j!"| " j!"  " = .error .illegalArgument := ⟨rfl, rfl⟩

/-- The characters used in the statements are the Java ones. -/
theorem C01_characters : ([NL] = j!"\n" ∧ [SPACE] = j!" " ∧ [SLASH] = j!"/" ∧ [DOT] = j!"." ∧ [PERCENT] = j!"%") := by decide

end JFTP
