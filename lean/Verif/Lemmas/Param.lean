import Verif.Props.Layout

/-!
Parametricity: related accesses and callbacks in two effect contexts give related calls of the printer. The code uses nothing of the effects but return, sequence and `throw`.
-/

namespace JFTP.Spec

/-- A relation between computations in two effect contexts that is preserved by returning, sequencing and throwing. -/
structure MonadRel (m n : Type → Type) [Monad m] [MonadExceptOf Exn m] [Monad n] [MonadExceptOf Exn n] where
  Rel : {α : Type} → m α → n α → Prop
  pure : ∀ {α : Type} (a : α), Rel (pure a : m α) (pure a : n α)
  bind : ∀ {α β : Type} {x : m α} {y : n α} {f : α → m β} {g : α → n β}, Rel x y → (∀ a, Rel (f a) (g a)) → Rel (x >>= f) (y >>= g)
  throw : ∀ {α : Type} (e : Exn), Rel (throw e : m α) (throw e : n α)

namespace MonadRel
variable {m n : Type → Type} [Monad m] [MonadExceptOf Exn m] [Monad n] [MonadExceptOf Exn n] (R : MonadRel m n)

/-- Related file systems and options. -/
structure Opts (fs : Fs m) (o : ScanOpts m) (fs' : Fs n) (o' : ScanOpts n) : Prop where
  isDir : ∀ p, R.Rel (fs.isDir p) (fs'.isDir p)
  listDir : ∀ p, R.Rel (fs.listDir p) (fs'.listDir p)
  readAttrs : ∀ p, R.Rel (fs.readAttrs p) (fs'.readAttrs p)
  maxDepth : o.maxDepth = o'.maxDepth
  childLimit : ∀ p, R.Rel (o.childLimit p) (o'.childLimit p)
  pathComparator : o.pathComparator = o'.pathComparator
  pathFilter : ∀ p, R.Rel (o.pathFilter p) (o'.pathFilter p)

variable {R}

theorem rel_filterEntries {f : Matcher m} {g : Matcher n} (h : ∀ p, R.Rel (f p) (g p)) (cs : List Path) :
    R.Rel (Scanner.filterEntries f cs) (Scanner.filterEntries g cs) := by
  induction cs with
  | nil => exact R.pure _
  | cons c cs ih => exact R.bind (h c) (fun b => R.bind ih (fun ks => R.pure _))

theorem rel_childLoop {v : Path → m TreeEntry} {w : Path → n TreeEntry} (h : ∀ p, R.Rel (v p) (w p)) (k : Int) (ps : List Path) :
    ∀ i, R.Rel (Scanner.childLoop v k i ps) (Scanner.childLoop w k i ps) := by
  induction ps with
  | nil => intro i; exact R.pure _
  | cons p ps ih =>
    intro i
    unfold Scanner.childLoop
    dsimp only
    split
    · exact R.pure _
    · exact R.bind (h p) (fun e => R.bind (ih _) (fun r => R.pure _))

variable {fs : Fs m} {o : ScanOpts m} {fs' : Fs n} {o' : ScanOpts n}

theorem rel_handle (h : R.Opts fs o fs' o') (k : Nat) (p : Path) : R.Rel (Scanner.handle fs o k p) (Scanner.handle fs' o' k p) := by
  rw [Scanner.handle, Scanner.handle]
  refine R.bind (h.isDir p) (fun b => ?_)
  cases b with
  | true =>
    simp only [if_true]
    by_cases hk : (k : Int) ≥ o.maxDepth
    · rw [dif_pos hk, dif_pos (h.maxDepth ▸ hk)]; exact R.pure _
    · rw [dif_neg hk, dif_neg (h.maxDepth ▸ hk)]
      have ih := fun q => rel_handle h (k + 1) q
      unfold Scanner.handleDirectory
      refine R.bind (h.listDir p) (fun r => ?_)
      cases r with
      | openFailed => exact R.throw _
      | opened cs bad =>
        refine R.bind ?_ (fun es => R.pure _)
        unfold Scanner.handleDirectoryChildren
        refine R.bind (h.childLimit p) (fun l => R.bind (rel_filterEntries h.pathFilter cs) (fun ks => ?_))
        rw [h.pathComparator]
        cases bad with
        | true => exact R.bind (R.throw _) (fun _ => R.bind (rel_childLoop ih l _ 0) (fun r => R.pure _))
        | false => exact R.bind (rel_childLoop ih l _ 0) (fun r => R.pure _)
  | false =>
    simp only [Bool.false_eq_true, if_false]
    unfold Scanner.handleFile
    refine R.bind (h.readAttrs p) (fun r => ?_)
    cases r with
    | none => exact R.throw _
    | some a => exact R.pure _
termination_by (o.maxDepth - k).toNat
decreasing_by omega

/-! ### Labels -/

theorem rel_namesM (ds : List Path) : R.Rel (namesM ds) (namesM ds) := by
  induction ds with
  | nil => exact R.pure _
  | cons d ds ih =>
    unfold namesM
    cases d.names.getLast? with
    | none => exact R.bind (R.throw _) (fun r => R.bind ih (fun rest => R.pure _))
    | some _ => exact R.bind (R.pure _) (fun r => R.bind ih (fun rest => R.pure _))

variable {L : LookM m} {L' : LookM n} (he : ∀ p, R.Rel (L.emoji p) (L'.emoji p)) (hc : L.compact = L'.compact) (hx : ∀ p, R.Rel (L.ext p) (L'.ext p))

include he in
theorem rel_dirsTextM (d : Path) (ds : List Path) : R.Rel (dirsTextM L.emoji d ds) (dirsTextM L'.emoji d ds) :=
  R.bind (he d) (fun _ => R.bind (rel_namesM ds) (fun _ => R.pure _))

include he in
theorem rel_fileTextM (p : Path) (a : Attrs) : R.Rel (fileTextM L.emoji p a) (fileTextM L'.emoji p a) := by
  refine R.bind (he p) (fun _ => R.bind ?_ (fun _ => R.pure _))
  unfold nameM
  cases p.names.getLast? with
  | none => exact R.throw _
  | some _ => exact R.pure _

include he hc hx
mutual
theorem rel_dispM (top : Bool) (t : TreeEntry) : R.Rel (dispM L top t) (dispM L' top t) := by
  match t with
  | .dir d es => rw [dispM, dispM]; exact rel_dispDirM top d es [d]
  | .file p a => rw [dispM, dispM]; exact R.bind (rel_fileTextM he p a) (fun _ => R.bind (hx p) (fun _ => R.pure _))
  | .skipped _ => rw [dispM, dispM]; exact R.pure _
  | .maxDepth _ => rw [dispM, dispM]; exact R.pure _
termination_by (sizeOf t, 1)
theorem rel_dispDirM (top : Bool) (d : Path) (es : List TreeEntry) (ps : List Path) : R.Rel (dispDirM L top d es ps) (dispDirM L' top d es ps) := by
  have other : R.Rel (do
      let names ← dirsTextM L.emoji d ps
      let x ← L.ext d
      let ks ← dispKidsM L es
      return Disp.node (names ++ x.getD []) ks) (do
      let names ← dirsTextM L'.emoji d ps
      let x ← L'.ext d
      let ks ← dispKidsM L' es
      return Disp.node (names ++ x.getD []) ks) :=
    R.bind (rel_dirsTextM he d ps) (fun _ => R.bind (hx d) (fun _ => R.bind (rel_dispKidsM es) (fun _ => R.pure _)))
  match es with
  | [.dir c ces] =>
    have kid := rel_dispM false (.dir c ces)
    have step := rel_dispDirM top c ces (ps ++ [c])
    rw [dispDirM.eq_def L, dispDirM.eq_def L', hc]
    dsimp only
    split
    · refine R.bind (hx d) (fun r => ?_)
      cases r with
      | none => exact step
      | some x => exact R.bind (rel_dirsTextM he d ps) (fun _ => R.bind kid (fun _ => R.pure _))
    · exact R.bind (rel_dirsTextM he d ps) (fun _ => R.bind (hx d) (fun _ => R.bind kid (fun _ => R.pure _)))
  | [] => rw [dispDirM.eq_def L, dispDirM.eq_def L']; exact other
  | .file _ _ :: _ => rw [dispDirM.eq_def L, dispDirM.eq_def L']; exact other
  | .skipped _ :: _ => rw [dispDirM.eq_def L, dispDirM.eq_def L']; exact other
  | .maxDepth _ :: _ => rw [dispDirM.eq_def L, dispDirM.eq_def L']; exact other
  | .dir _ _ :: _ :: _ => rw [dispDirM.eq_def L, dispDirM.eq_def L']; exact other
termination_by (sizeOf es, 3)
theorem rel_dispKidsM (es : List TreeEntry) : R.Rel (dispKidsM L es) (dispKidsM L' es) := by
  match es with
  | [] => rw [dispKidsM, dispKidsM]; exact R.pure _
  | e :: rest =>
    rw [dispKidsM, dispKidsM]
    exact R.bind (rel_dispM false e) (fun _ => R.bind (rel_dispKidsM rest) (fun _ => R.pure _))
termination_by (sizeOf es, 2)
end

omit he hc hx in
/-- Related callbacks render related texts. -/
theorem rel_render [LawfulMonad m] [LawfulMonad n] {o : RenderOpts m} {o' : RenderOpts n} (hf : o.treeFormat = o'.treeFormat) (he : ∀ p, R.Rel (o.emojiMapping p) (o'.emojiMapping p))
    (hc : o.compactDirectories = o'.compactDirectories) (hx : ∀ p, R.Rel (extensionOf o p) (extensionOf o' p)) (t : TreeEntry) :
    R.Rel (Renderer.renderRoot o (LineRenderer.create o) t) (Renderer.renderRoot o' (LineRenderer.create o') t) := by
  rw [C01_render_is_picture_effectful, C01_render_is_picture_effectful, map_eq_pure_bind, map_eq_pure_bind, hf]
  exact R.bind (rel_dispM (L := ⟨_, _, _⟩) (L' := ⟨_, _, _⟩) he hc hx true t) (fun _ => R.pure _)

omit he hc hx in
/-- Related file systems and options print related texts. -/
theorem rel_prettyPrint [LawfulMonad m] [LawfulMonad n] {fs : Fs m} {fs' : Fs n} {o : Options m} {o' : Options n} (hs : R.Opts fs (o.toScan fs) fs' (o'.toScan fs')) (hf : o.treeFormat = o'.treeFormat)
    (he : ∀ p, R.Rel (o.emojiMapping p) (o'.emojiMapping p)) (hc : o.compactDirectories = o'.compactDirectories) (hx : ∀ p, R.Rel (extensionOf o.toRender p) (extensionOf o'.toRender p)) (cwd p : Path) :
    R.Rel (prettyPrint fs cwd o p) (prettyPrint fs' cwd o' p) :=
  R.bind (x := Scanner.handle fs (o.toScan fs) 0 _) (y := Scanner.handle fs' (o'.toScan fs') 0 _) (rel_handle hs 0 _) (fun t => rel_render (o := o.toRender) (o' := o'.toRender) hf he hc hx t)

end MonadRel
end JFTP.Spec
