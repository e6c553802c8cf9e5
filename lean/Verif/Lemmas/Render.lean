import Verif.Spec.Layout

/-! The renderer refines "label the entries, then lay out". -/

namespace JFTP
open Spec

theorem joinLines_cons_of_ne {l : JStr} {ls : List JStr} (h : ls ≠ []) :
    joinLines (l :: ls) = l ++ NL :: joinLines ls := by
  cases ls with
  | nil => exact absurd rfl h
  | cons a as => rfl

theorem joinLines_append {a b : List JStr} (ha : a ≠ []) (hb : b ≠ []) :
    joinLines (a ++ b) = joinLines a ++ NL :: joinLines b := by
  induction a with
  | nil => exact absurd rfl ha
  | cons x xs ih =>
    by_cases hx : xs = []
    · subst hx; simp [joinLines_cons_of_ne hb, joinLines]
    · rw [List.cons_append, joinLines_cons_of_ne (by simp [hx]), ih hx, joinLines_cons_of_ne hx]
      simp

theorem block_block (a b c d : JStr) (l : List JStr) :
    block a b (block c d l) = block (a ++ c) (b ++ d) l := by
  cases l <;> simp [block]

theorem block_self_map (a : JStr) (l : List JStr) : block a a l = l.map (a ++ ·) := by
  cases l <;> simp [block]

theorem block_ne_nil {a b : JStr} {l : List JStr} (h : l ≠ []) : block a b l ≠ [] := by
  cases l <;> simp_all [block]

theorem layout_ne_nil (f : TreeFormat) (d : Disp) : layout f d ≠ [] := by
  cases d; simp [layout]

theorem layoutKids_ne_nil {f : TreeFormat} {ks : List Disp} (h : ks ≠ []) : layoutKids f ks ≠ [] := by
  cases ks with
  | nil => exact absurd rfl h
  | cons k ks =>
    rw [layoutKids]
    split
    · exact block_ne_nil (layout_ne_nil _ _)
    · simp [block_ne_nil (layout_ne_nil f k)]

/-! ### Prefixes -/

/-- Symbol printed for an ancestor level. -/
def contSymbol : TreeSymbol → TreeSymbol
  | .LAST_FILE => .EMPTY
  | .NON_LAST_FILE => .CONTINUATION
  | s => s

/-- The prefix of the lines that follow the first line of an entry at this depth. -/
def contPrefix (f : TreeFormat) (d : Depth) : JStr :=
  (d.symbols.map (fun s => (TreeFormatter.getInstance f).formatSymbol (contSymbol s) ++ [SPACE])).flatten

theorem formatLoop_append (f : TreeFormat) (l : List TreeSymbol) (s : TreeSymbol) :
    (TreeFormatter.getInstance f).formatLoop (l ++ [s]) =
      (l.map (fun s => (TreeFormatter.getInstance f).formatSymbol (contSymbol s) ++ [SPACE])).flatten
        ++ (TreeFormatter.getInstance f).formatSymbol s ++ [SPACE] := by
  induction l with
  | nil => simp [TreeFormatter.formatLoop, TreeFormatter.getInstance, TreeFormatter.new]
  | cons t ts ih =>
    rw [List.cons_append, TreeFormatter.formatLoop, ih]
    cases t <;> simp [contSymbol, TreeFormatter.getInstance, TreeFormatter.new]

theorem format_append (f : TreeFormat) (d : Depth) (s : TreeSymbol) :
    (TreeFormatter.getInstance f).format (d.append s) =
      contPrefix f d ++ ((TreeFormatter.getInstance f).formatSymbol s ++ [SPACE]) := by
  simp [TreeFormatter.format, Depth.append, formatLoop_append, contPrefix]

theorem contPrefix_append (f : TreeFormat) (d : Depth) (s : TreeSymbol) :
    contPrefix f (d.append s) =
      contPrefix f d ++ ((TreeFormatter.getInstance f).formatSymbol (contSymbol s) ++ [SPACE]) := by
  simp [Depth.append, contPrefix]

theorem isRoot_append (d : Depth) (s : TreeSymbol) : (d.append s).isRoot = false := by
  simp [Depth.isRoot, Depth.append, Depth.getSize]

theorem format_root (t : TreeFormatter) {d : Depth} (h : d.isRoot = true) : t.format d = [] := by
  cases d with
  | mk l => cases l with
    | nil => simp [TreeFormatter.format, TreeFormatter.formatLoop]
    | cons a as => simp [Depth.isRoot, Depth.getSize] at h

theorem contPrefix_root (f : TreeFormat) {d : Depth} (h : d.isRoot = true) : contPrefix f d = [] := by
  cases d with
  | mk l => cases l with
    | nil => simp [contPrefix]
    | cons a as => simp [Depth.isRoot, Depth.getSize] at h

section
variable {m : Type → Type} [Monad m] [LawfulMonad m] [MonadExceptOf Exn m]

omit [LawfulMonad m] in
theorem namesM_eq (ds : List Path) : FileFormatter.formatDirs (m := m) ds = namesM ds := by
  induction ds with
  | nil => rfl
  | cons d ds ih =>
    unfold FileFormatter.formatDirs namesM Path.getFileName
    rw [ih]
    rfl

theorem fileTextM_eq (emoji : EmojiFn m) (p : Path) (a : Attrs) : FileFormatter.emojiFormatFile emoji p a = fileTextM emoji p a := by
  unfold FileFormatter.emojiFormatFile FileFormatter.emojiPrefix FileFormatter.formatFile fileTextM nameM Path.getFileName fileMark emojiText
  simp only [bind_assoc]
  apply bind_congr; intro e
  cases e <;> cases p.names.getLast? <;> cases a.isSymbolicLink <;> cases a.isOther <;>
    simp [SPACE, -bind_pure_comp]

theorem dirsTextM_eq (emoji : EmojiFn m) (d : Path) (ds : List Path) :
    FileFormatter.emojiFormatDirectoryBegin emoji d ds = dirsTextM emoji d ds := by
  unfold FileFormatter.emojiFormatDirectoryBegin FileFormatter.emojiPrefix dirsTextM emojiText
  simp only [bind_assoc, namesM_eq]
  apply bind_congr; intro e
  cases e <;> simp [SPACE, -bind_pure_comp]

/-- The look given by the options in force and the snapshot of the line renderer. -/
def lookIn (o : RenderOpts m) (lr : LineRenderer m) : LookM m :=
  ⟨lr.emojiMapping, o.compactDirectories, Renderer.computeLineExtension o⟩

/-- The text of a block at a depth. -/
def blockText (f : TreeFormat) (d : Depth) (D : Disp) : JStr :=
  joinLines (block ((TreeFormatter.getInstance f).format d) (contPrefix f d) (layout f D))

/-- The text of a list of children below a depth. -/
def kidsText (f : TreeFormat) (d : Depth) (Ds : List Disp) : JStr :=
  joinLines ((layoutKids f Ds).map (contPrefix f d ++ ·))

theorem blockText_node (f : TreeFormat) (d : Depth) (l : JStr) (ks : List Disp) :
    blockText f d (.node l ks) =
      (TreeFormatter.getInstance f).format d ++ l ++ (if ks.isEmpty then [] else [NL]) ++ kidsText f d ks := by
  cases ks with
  | nil => simp [blockText, layout, layoutKids, block, joinLines, kidsText]
  | cons k ks =>
    have h := layoutKids_ne_nil (f := f) (ks := k :: ks) (by simp)
    rw [blockText, layout, block, joinLines_cons_of_ne (by simp [h])]
    simp [kidsText]

theorem kidsText_cons (f : TreeFormat) (d : Depth) (k : Disp) (ks : List Disp) :
    kidsText f d (k :: ks) =
      blockText f (d.append (if ks.isEmpty then .LAST_FILE else .NON_LAST_FILE)) k
        ++ (if ks.isEmpty then [] else [NL]) ++ kidsText f d ks := by
  cases ks with
  | nil =>
    simp only [kidsText, layoutKids, blockText, List.isEmpty_nil, if_true, format_append, contPrefix_append,
      ← block_self_map, block_block]
    simp [contSymbol, TreeFormatter.formatSymbol, block, joinLines, TreeFormatter.getInstance, TreeFormatter.new]
  | cons k' ks =>
    have h1 := layoutKids_ne_nil (f := f) (ks := k' :: ks) (by simp)
    have h2 : block (f.nonLastChildSymbol ++ [SPACE]) (f.continuationSymbol ++ [SPACE]) (layout f k) ≠ [] :=
      block_ne_nil (layout_ne_nil _ _)
    rw [kidsText, layoutKids]
    simp only [List.isEmpty_cons, Bool.false_eq_true, if_false, List.map_append]
    rw [joinLines_append (by simp [h2]) (by simp [h1])]
    simp only [blockText, kidsText, format_append, contPrefix_append, ← block_self_map, block_block]
    simp [contSymbol, TreeFormatter.formatSymbol, TreeFormatter.getInstance, TreeFormatter.new]

variable (o : RenderOpts m) (lr : LineRenderer m) (f : TreeFormat)

theorem length_dispKidsM_aux (L : LookM m) (e : TreeEntry) (es : List TreeEntry) {β : Type} (g : List Disp → m β) :
    (dispKidsM L (e :: es) >>= g) =
      (do let k ← dispM L false e; let ks ← dispKidsM L es; g (k :: ks)) := by
  simp [dispKidsM, bind_assoc]

/-- The list of displayed children is empty exactly when the list of entries is. -/
theorem dispKidsM_isEmpty (L : LookM m) (es : List TreeEntry) {β : Type} (g : Bool → List Disp → m β) :
    (dispKidsM L es >>= fun ks => g ks.isEmpty ks) = (dispKidsM L es >>= fun ks => g es.isEmpty ks) := by
  cases es with
  | nil => simp [dispKidsM]
  | cons e es => simp [length_dispKidsM_aux]

variable {o lr f} in
theorem renderDirectory_other (hlr : lr.treeFormatter = TreeFormatter.getInstance f) (d : Depth) (p : Path) (es : List TreeEntry)
    (ps : List Path) (hes : ∀ c ces, es ≠ [.dir c ces])
    (ih : Renderer.renderChildren o lr d es = kidsText f d <$> dispKidsM (lookIn o lr) es) :
    Renderer.renderDirectory o lr d p es ps = blockText f d <$> dispDirM (lookIn o lr) d.isRoot p es ps := by
  have h1 : Renderer.renderDirectory o lr d p es ps = do
      let line ← lr.renderDirectoryBegin d p ps
      let extension ← Renderer.computeLineExtension o p
      let childLines ← Renderer.renderChildren o lr d es
      return line ++ extension.getD [] ++ (if es.isEmpty then [] else [NL]) ++ childLines := by
    rw [Renderer.renderDirectory.eq_def]
    split
    · exact absurd rfl (hes _ _)
    · rfl
  have h2 : dispDirM (lookIn o lr) d.isRoot p es ps = do
      let names ← dirsTextM lr.emojiMapping p ps
      let x ← Renderer.computeLineExtension o p
      let ks ← dispKidsM (lookIn o lr) es
      return .node (names ++ x.getD []) ks := by
    rw [dispDirM.eq_def]
    split
    · exact absurd rfl (hes _ _)
    · rfl
  rw [h1, h2, ih]
  simp only [LineRenderer.renderDirectoryBegin, dirsTextM_eq, map_eq_pure_bind, bind_assoc, pure_bind, hlr,
    blockText_node]
  apply bind_congr; intro names
  apply bind_congr; intro x
  rw [dispKidsM_isEmpty (g := fun b ks => pure ((TreeFormatter.getInstance f).format d ++ (names ++ x.getD [])
    ++ (if b then [] else [NL]) ++ kidsText f d ks))]
  simp

mutual
theorem renderTree_eq (hlr : lr.treeFormatter = TreeFormatter.getInstance f) (d : Depth) (t : TreeEntry) :
    Renderer.renderTree o lr d t = blockText f d <$> dispM (lookIn o lr) d.isRoot t := by
  match t with
  | .dir p es => rw [Renderer.renderTree, dispM]; exact renderDirectory_eq hlr d p es [p]
  | .file p a =>
    simp [Renderer.renderTree, dispM, LineRenderer.renderFile, fileTextM_eq, lookIn, hlr,
      blockText_node, kidsText, layoutKids, joinLines, map_eq_pure_bind, -bind_pure_comp]
  | .skipped p =>
    simp [Renderer.renderTree, dispM, LineRenderer.renderEllipsis, FileFormatter.ellipsis, hlr, blockText_node, kidsText, layoutKids, joinLines]
  | .maxDepth n =>
    simp [Renderer.renderTree, dispM, LineRenderer.renderEllipsis, FileFormatter.ellipsis, hlr, blockText_node, kidsText, layoutKids, joinLines]
termination_by (sizeOf t, 1)

theorem renderDirectory_eq (hlr : lr.treeFormatter = TreeFormatter.getInstance f) (d : Depth) (p : Path) (es : List TreeEntry)
    (ps : List Path) :
    Renderer.renderDirectory o lr d p es ps = blockText f d <$> dispDirM (lookIn o lr) d.isRoot p es ps := by
  match es with
  | [.dir c ces] =>
    have ihs := fun qs => renderDirectory_eq hlr d c ces qs
    have ihk := renderChildren_eq hlr d [.dir c ces]
    simp only [dispKidsM] at ihk
    rw [Renderer.renderDirectory, dispDirM]
    by_cases hc : o.compactDirectories = true ∧ d.isRoot = false
    · simp only [lookIn, hc.1, hc.2, Bool.not_false, Bool.and_self, if_true]
      simp only [map_eq_pure_bind, bind_assoc]
      apply bind_congr; intro x
      cases x with
      | none => simp only [hc.1, hc.2, map_eq_pure_bind, lookIn] at ihs ⊢; exact ihs _
      | some x =>
        simp [LineRenderer.renderDirectoryBegin, dirsTextM_eq, ihk, hlr, blockText_node, bind_assoc, lookIn, hc.1, map_eq_pure_bind, -bind_pure_comp]
    · have h1 : (o.compactDirectories && !d.isRoot) = false := by
        cases h : o.compactDirectories <;> simp_all
      have h2 : ((lookIn o lr).compact && !d.isRoot) = false := h1
      simp only [h1, h2]
      simp [LineRenderer.renderDirectoryBegin, dirsTextM_eq, ihk, hlr, blockText_node, bind_assoc, map_eq_pure_bind,
        lookIn, -bind_pure_comp]
  | [] => exact renderDirectory_other hlr d p [] ps (by simp) (renderChildren_eq hlr d [])
  | .file q a :: r => exact renderDirectory_other hlr d p _ ps (by simp) (renderChildren_eq hlr d (.file q a :: r))
  | .skipped q :: r => exact renderDirectory_other hlr d p _ ps (by simp) (renderChildren_eq hlr d (.skipped q :: r))
  | .maxDepth q :: r => exact renderDirectory_other hlr d p _ ps (by simp) (renderChildren_eq hlr d (.maxDepth q :: r))
  | .dir q a :: b :: r => exact renderDirectory_other hlr d p _ ps (by simp) (renderChildren_eq hlr d (.dir q a :: b :: r))
termination_by (sizeOf es, 3)

theorem renderChildren_eq (hlr : lr.treeFormatter = TreeFormatter.getInstance f) (d : Depth) (es : List TreeEntry) :
    Renderer.renderChildren o lr d es = kidsText f d <$> dispKidsM (lookIn o lr) es := by
  match es with
  | [] => simp [Renderer.renderChildren, dispKidsM, kidsText, layoutKids, joinLines]
  | e :: rest =>
    have ih1 := fun s => renderTree_eq hlr (d.append s) e
    have ih2 := renderChildren_eq hlr d rest
    rw [Renderer.renderChildren, dispKidsM]
    simp only [ih1, ih2, map_eq_pure_bind, bind_assoc, pure_bind, isRoot_append]
    apply bind_congr; intro k
    simp only [kidsText_cons]
    rw [dispKidsM_isEmpty (g := fun b ks => pure (blockText f (d.append (if b then .LAST_FILE else .NON_LAST_FILE)) k
        ++ (if b then [] else [NL]) ++ kidsText f d ks))]
    cases rest <;> simp
termination_by (sizeOf es, 2)
end

end
end JFTP
