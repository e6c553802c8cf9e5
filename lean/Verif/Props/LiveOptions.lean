import Verif.Spec.LiveOptions
import Verif.Props.Under

/-!
C75: modifying the options object while a call is running.
-/

namespace JFTP
open Spec

namespace Live75

set_option linter.unusedSectionVars false

section
variable {m : Type → Type} [Monad m] [MonadExceptOf Exn m] [PostMonad m]
open PostMonad

/-- Everything that may be read during the call, but for the filter, is covered. -/
structure LiveCovers (A : Answers) (C : Cmp → Prop) (M : Int → Prop) (fs : Fs m) (g : LiveOpts m) (filter : Matcher m) : Prop where
  isDir : ∀ p, Post (fs.isDir p) (A.isDir p)
  list : ∀ p, Post (fs.listDir p) (fun r => ∀ cs, r = .opened cs false → A.list p cs)
  attrs : ∀ p, Post (fs.readAttrs p) (fun r => ∀ a, r = some a → A.attrs p a)
  limit : ∀ p, Post (do (← g.getChildLimit) p) (A.limit p)
  keep : ∀ p, Post (filter p) (A.keep p)
  cmp : Post g.pathComparator C
  depth : Post g.getMaxDepth (fun d => M d.toInt)

variable {A : Answers} {C : Cmp → Prop} {M : Int → Prop} {fs : Fs m} {g : LiveOpts m} {filter : Matcher m}

theorem post_filter (hA : LiveCovers A C M fs g filter) (cs : List Path) : Post (Scanner.filterEntries filter cs) (fun ks => Kept A cs ks) := by
  induction cs with
  | nil => exact PostMonad.pure .nil
  | cons c cs ih =>
    unfold Scanner.filterEntries
    refine PostMonad.bind (hA.keep c) (fun b hb => PostMonad.bind ih (fun ks hk => PostMonad.pure ?_))
    cases b with
    | true => exact .keep hb hk
    | false => exact .drop hb hk

theorem post_childLoop (k : Nat) (visit : Path → m TreeEntry) (hv : ∀ p, Post (visit p) (ScannedLive A C M k p)) (n : Int) (ps : List Path) : ∀ i : Nat,
    Post (Scanner.childLoop visit n i ps) (fun r =>
      ∃ shown, ps = shown ++ r.2 ∧ ScannedLiveAll A C M k shown r.1 ∧ (n < 0 → r.2 = []) ∧ (0 ≤ n → shown = ps.take (n - i).toNat)) := by
  induction ps with
  | nil =>
    intro i
    exact PostMonad.pure ⟨[], rfl, .nil, fun _ => rfl, fun _ => by simp⟩
  | cons p ps ih =>
    intro i
    unfold Scanner.childLoop
    dsimp only
    split
    · rename_i h
      refine PostMonad.pure ⟨[], rfl, .nil, fun hn => by omega, fun _ => ?_⟩
      have : (n - i).toNat = 0 := by omega
      simp [this]
    · rename_i h
      refine PostMonad.bind (hv p) (fun e he => PostMonad.bind (ih (i + 1)) (fun r hr => PostMonad.pure ?_))
      obtain ⟨shown, h1, h2, h3, h4⟩ := hr
      refine ⟨p :: shown, by simp [← h1], .cons he h2, h3, fun hn => ?_⟩
      have : (n - i).toNat = (n - (i + 1 : Nat)).toNat + 1 := by omega
      rw [this, List.take_succ_cons, h4 hn]

theorem split_limit {n : Int} {srt shown left : List Path} (h1 : srt = shown ++ left) (h3 : n < 0 → left = []) (h4 : 0 ≤ n → shown = srt.take n.toNat) (p : Path) (es : List TreeEntry) :
    limitTo n srt = shown ∧ (if left.isEmpty then es else es ++ [TreeEntry.skipped p]) = es ++ moreMark n srt p := by
  constructor
  · unfold limitTo
    split
    · rename_i hneg; rw [h1, h3 hneg]; simp
    · rename_i hpos; rw [h4 (by omega)]
  · have hlen := congrArg List.length h1
    rw [List.length_append] at hlen
    unfold moreMark
    cases left with
    | nil =>
      have : ¬ (0 ≤ n ∧ n < srt.length) := by
        rintro ⟨h0, h5⟩
        have := congrArg List.length (h4 h0)
        simp at this hlen
        omega
      rw [if_neg this]; simp
    | cons x xs =>
      have h0 : 0 ≤ n := by
        by_contra hneg
        have := h3 (by omega)
        cases this
      have : 0 ≤ n ∧ n < srt.length := by
        refine ⟨h0, ?_⟩
        have := congrArg List.length (h4 h0)
        simp at this hlen
        omega
      rw [if_pos this]; simp

/-- Whatever the scanner returns is a correct tree. -/
theorem post_handle (hA : LiveCovers A C M fs g filter) (hC : ∀ c, C c → LawfulCmp c) (k : Nat) (p : Path) :
    Post (LiveOpts.handle fs g filter k p) (ScannedLive A C M k p) := by
  rw [LiveOpts.handle]
  refine PostMonad.bind (hA.isDir p) (fun b hb => ?_)
  cases b with
  | true =>
    simp only [if_true]
    refine PostMonad.bind hA.depth (fun d hd => ?_)
    split
    · rename_i h; exact PostMonad.pure (.tooDeep hb hd h)
    · rename_i h
      have hle := LiveOpts.int32_le d
      have ih := fun q => post_handle hA hC (k + 1) q
      unfold LiveOpts.handleDirectory
      refine PostMonad.bind (hA.list p) (fun r hr => ?_)
      cases r with
      | openFailed => exact PostMonad.throw
      | opened cs bad =>
        refine PostMonad.bind hA.cmp (fun c hc => ?_)
        refine PostMonad.bind (P := fun es => bad = false ∧ ∃ n ks srt es', A.limit p n ∧ Kept A cs ks ∧ srt.Perm ks ∧
          srt.Pairwise (fun a b => c a b ≤ 0) ∧ ScannedLiveAll A C M (k + 1) (limitTo n srt) es' ∧ es = es' ++ moreMark n srt p) ?_ (fun es hes => PostMonad.pure ?_)
        · unfold Scanner.handleDirectoryChildren
          refine PostMonad.bind (hA.limit p) (fun n hn => PostMonad.bind (P := fun ks => Kept A cs ks) ?_ (fun ks hk => ?_))
          · exact post_filter hA cs
          · cases bad with
            | true => exact PostMonad.bind PostMonad.throw (P := fun _ => False) (fun _ h => h.elim)
            | false =>
              simp only [Bool.false_eq_true, if_false]
              refine PostMonad.bind (post_childLoop (k + 1) _ ih n _ 0) (fun r hr => PostMonad.pure ?_)
              obtain ⟨es, left⟩ := r
              obtain ⟨shown, h1, h2, h3, h4⟩ := hr
              dsimp only at h1 h2 h3 h4 ⊢
              obtain ⟨e1, e2⟩ := split_limit h1 h3 (fun h0 => by have := h4 h0; simpa using this) p es
              exact ⟨trivial, n, ks, _, es, hn, hk, streamSorted_perm _ _, streamSorted_sorted (hC c hc) _, by rw [e1]; exact h2, e2⟩
        · obtain ⟨rfl, n, ks, srt, es', h1, h2, h3, h4, h5, rfl⟩ := hes
          exact .dir hb hd (by omega) h1 (hr cs rfl) h2 hc h3 h4 h5
  | false =>
    simp only [Bool.false_eq_true, if_false]
    unfold Scanner.handleFile
    refine PostMonad.bind (hA.attrs p) (fun r hr => ?_)
    cases r with
    | none => exact PostMonad.throw
    | some a => exact PostMonad.pure (.file hb (hr a rfl))
termination_by 2147483647 - k
decreasing_by omega

/-! ### Rendering -/

/-- The possible answers in `R` cover everything the callbacks may return and the compact switch may be. -/
structure LiveLook (R : LookR) (g : LiveOpts m) (lr : LineRenderer m) : Prop where
  emoji : ∀ p, Post (lr.emojiMapping p) (R.emoji p)
  compact : Post g.areCompactDirectoriesUsed R.compact
  ext : ∀ p, Post (LiveOpts.computeLineExtension g p) (R.ext p)

variable {R : LookR} {lr : LineRenderer m} {f : TreeFormat} [LawfulMonad m]

theorem post_begin (hL : LiveLook R g lr) (hlr : lr.treeFormatter = TreeFormatter.getInstance f) (d : Depth) (p : Path) (ps : List Path) :
    Post (lr.renderDirectoryBegin d p ps) (fun l => ∃ x, R.emoji p x ∧ (∀ q ∈ ps, q.names ≠ []) ∧ ∀ y : Option JStr, l ++ y.getD [] = (TreeFormatter.getInstance f).format d ++ dirsLabel x ps y) := by
  unfold LineRenderer.renderDirectoryBegin
  rw [dirsTextM_eq]
  have hc : Under72.LookCovers (m := m) ⟨R.emoji, fun _ => True, fun _ _ => True⟩ ⟨lr.emojiMapping, false, fun _ => throw Exn.nullPointer⟩ :=
    ⟨hL.emoji, trivial, fun _ => PostMonad.throw⟩
  refine PostMonad.bind (Under72.post_dirsTextM hc p ps) (fun n hn => PostMonad.pure ?_)
  obtain ⟨x, h1, h2, h3⟩ := hn
  exact ⟨x, h1, h2, fun y => by rw [hlr, List.append_assoc, h3 y]⟩

theorem post_file (hL : LiveLook R g lr) (hlr : lr.treeFormatter = TreeFormatter.getInstance f) (d : Depth) (p : Path) (a : Attrs) :
    Post (LiveOpts.renderTree g lr d (.file p a)) (fun s => ∃ D, Drawn R (.file p a) D ∧ s = blockText f d D) := by
  rw [LiveOpts.renderTree]
  unfold LineRenderer.renderFile
  rw [fileTextM_eq]
  unfold fileTextM
  simp only [bind_assoc, pure_bind]
  refine PostMonad.bind (hL.emoji p) (fun x hx => PostMonad.bind (Under72.post_nameM p) (fun n hn => PostMonad.bind (hL.ext p) (fun y hy => PostMonad.pure ?_)))
  refine ⟨_, .file hn.1 hx hy, ?_⟩
  rw [hn.2, blockText_node, hlr]
  simp [fileLabel, kidsText, layoutKids, joinLines]

omit [LawfulMonad m] in
theorem post_mark (hlr : lr.treeFormatter = TreeFormatter.getInstance f) (d : Depth) (e : TreeEntry) (he : Drawn R e (.node j!"..." [])) :
    Post (pure (lr.renderEllipsis d) : m JStr) (fun s => ∃ D, Drawn R e D ∧ s = blockText f d D) := by
  refine PostMonad.pure ⟨_, he, ?_⟩
  simp [LineRenderer.renderEllipsis, FileFormatter.ellipsis, hlr, blockText_node, kidsText, layoutKids, joinLines]

theorem drawnAll_isEmpty {es : List TreeEntry} {Ds : List Disp} (h : DrawnAll R es Ds) : Ds.isEmpty = es.isEmpty := by
  cases h <;> rfl

mutual
theorem post_tree (hL : LiveLook R g lr) (hlr : lr.treeFormatter = TreeFormatter.getInstance f) (d : Depth) (hd : d.isRoot = false) (t : TreeEntry) :
    Post (LiveOpts.renderTree g lr d t) (fun s => ∃ D, Drawn R t D ∧ s = blockText f d D) := by
  match t with
  | .dir p es =>
    rw [LiveOpts.renderTree]
    refine PostMonad.mono (post_dir hL hlr d hd [] p es) ?_
    rintro s ⟨D, ⟨ds, last, es', x, y, ks, h1, h2, h3, h4, rfl⟩, rfl⟩
    exact ⟨_, .dir h1 h2 h3 h4, rfl⟩
  | .file p a => exact post_file hL hlr d p a
  | .skipped _ => rw [LiveOpts.renderTree]; exact post_mark hlr d _ .skipped
  | .maxDepth _ => rw [LiveOpts.renderTree]; exact post_mark hlr d _ .maxDepth
termination_by (sizeOf t, 1)

theorem post_dir (hL : LiveLook R g lr) (hlr : lr.treeFormatter = TreeFormatter.getInstance f) (d : Depth) (hd : d.isRoot = false) (pre : List Path) (p : Path) (es : List TreeEntry) :
    Post (LiveOpts.renderDirectory g lr d p es (pre ++ [p])) (fun s => ∃ D, Under72.LineFrom R pre p es D ∧ s = blockText f d D) := by
  have kids := post_kids hL hlr d es
  have other (hs : ¬ R.compact false → ∀ c ces, es ≠ [.dir c ces]) : Post (do
      let line ← lr.renderDirectoryBegin d p (pre ++ [p])
      let extension ← LiveOpts.computeLineExtension g p
      let childLines ← LiveOpts.renderChildren g lr d es
      return line ++ extension.getD [] ++ (if es.isEmpty then [] else [NL]) ++ childLines) (fun s => ∃ D, Under72.LineFrom R pre p es D ∧ s = blockText f d D) := by
    refine PostMonad.bind (post_begin hL hlr d p _) (fun l ⟨x, h1, h2, h3⟩ => PostMonad.bind (hL.ext p) (fun y hy => PostMonad.bind kids (fun cl ⟨Ds, h4, h5⟩ => PostMonad.pure ?_)))
    refine ⟨_, ⟨[p], p, es, x, y, Ds, .stop hy (fun hc _ => hs hc), h2, h1, h4, rfl⟩, ?_⟩
    rw [h3 y, blockText_node, h5, drawnAll_isEmpty h4]
  match es with
  | [.dir c ces] =>
    have step := post_dir hL hlr d hd (pre ++ [p]) c ces
    rw [LiveOpts.renderDirectory.eq_def]
    dsimp only
    refine PostMonad.bind hL.compact (fun b hb => ?_)
    cases b with
    | true =>
      simp only [hd, Bool.not_false, Bool.and_self, if_true]
      refine PostMonad.bind (hL.ext p) (fun y hy => ?_)
      cases y with
      | none =>
        simp only
        refine PostMonad.mono step ?_
        rintro s ⟨D, ⟨ds, last, es', x, y, ks, h1, h2, h3, h4, rfl⟩, rfl⟩
        exact ⟨_, ⟨p :: ds, last, es', x, y, ks, .step hb hy h1, by simpa using h2, h3, h4, rfl⟩, by simp⟩
      | some y =>
        simp only
        refine PostMonad.bind (post_begin hL hlr d p _) (fun l ⟨x, h1, h2, h3⟩ => PostMonad.bind kids (fun cl ⟨Ds, h4, h5⟩ => PostMonad.pure ?_))
        refine ⟨_, ⟨[p], p, _, x, some y, Ds, .stop hy (fun _ h => by cases h), h2, h1, h4, rfl⟩, ?_⟩
        have := h3 (some y)
        simp only [Option.getD_some] at this
        rw [this, blockText_node, h5, drawnAll_isEmpty h4]
        rfl
    | false =>
      simp only [Bool.false_and, Bool.false_eq_true, if_false]
      exact other (fun h => (h hb).elim)
  | [] => rw [LiveOpts.renderDirectory.eq_def]; exact PostMonad.bind hL.compact (fun _ _ => other (fun _ _ _ h => by cases h))
  | .file _ _ :: _ => rw [LiveOpts.renderDirectory.eq_def]; exact PostMonad.bind hL.compact (fun _ _ => other (fun _ _ _ h => by cases h))
  | .skipped _ :: _ => rw [LiveOpts.renderDirectory.eq_def]; exact PostMonad.bind hL.compact (fun _ _ => other (fun _ _ _ h => by cases h))
  | .maxDepth _ :: _ => rw [LiveOpts.renderDirectory.eq_def]; exact PostMonad.bind hL.compact (fun _ _ => other (fun _ _ _ h => by cases h))
  | .dir _ _ :: _ :: _ => rw [LiveOpts.renderDirectory.eq_def]; exact PostMonad.bind hL.compact (fun _ _ => other (fun _ _ _ h => by cases h))
termination_by (sizeOf es, 3)

theorem post_kids (hL : LiveLook R g lr) (hlr : lr.treeFormatter = TreeFormatter.getInstance f) (d : Depth) (es : List TreeEntry) :
    Post (LiveOpts.renderChildren g lr d es) (fun s => ∃ Ds, DrawnAll R es Ds ∧ s = kidsText f d Ds) := by
  match es with
  | [] => rw [LiveOpts.renderChildren]; exact PostMonad.pure ⟨[], .nil, by simp [kidsText, layoutKids, joinLines]⟩
  | e :: rest =>
    have ih1 := fun s => post_tree hL hlr (d.append s) (isRoot_append d s) e
    have ih2 := post_kids hL hlr d rest
    rw [LiveOpts.renderChildren]
    refine PostMonad.bind (ih1 _) (fun l ⟨D, h1, h2⟩ => PostMonad.bind ih2 (fun o ⟨Ds, h3, h4⟩ => PostMonad.pure ⟨D :: Ds, .cons h1 h3, ?_⟩))
    rw [kidsText_cons, drawnAll_isEmpty h3, h2, h4]
    cases rest <;> simp
termination_by (sizeOf es, 2)
end

theorem post_top (hL : LiveLook R g lr) (hlr : lr.treeFormatter = TreeFormatter.getInstance f) (t : TreeEntry) :
    Post (LiveOpts.renderTree g lr Depth.createNewEmpty t) (fun s => ∃ D, DrawnTop R t D ∧ s = picture f D) := by
  have hp : ∀ D, blockText f Depth.createNewEmpty D = picture f D := by
    intro D
    unfold blockText picture
    cases h : layout f D with
    | nil => rfl
    | cons l ls => simp [block, Depth.createNewEmpty, contPrefix, TreeFormatter.format, TreeFormatter.formatLoop]
  match t with
  | .dir p es =>
    rw [LiveOpts.renderTree]
    have kids := post_kids hL hlr Depth.createNewEmpty es
    have other : Post (do
        let line ← lr.renderDirectoryBegin Depth.createNewEmpty p [p]
        let extension ← LiveOpts.computeLineExtension g p
        let childLines ← LiveOpts.renderChildren g lr Depth.createNewEmpty es
        return line ++ extension.getD [] ++ (if es.isEmpty then [] else [NL]) ++ childLines) (fun s => ∃ D, DrawnTop R (.dir p es) D ∧ s = picture f D) := by
      refine PostMonad.bind (post_begin hL hlr _ p _) (fun l ⟨x, h1, h2, h3⟩ => PostMonad.bind (hL.ext p) (fun y hy => PostMonad.bind kids (fun cl ⟨Ds, h4, h5⟩ => PostMonad.pure ?_)))
      refine ⟨_, .dir (h2 p (by simp)) h1 hy h4, ?_⟩
      rw [← hp, h3 y, blockText_node, h5, drawnAll_isEmpty h4]
    match es with
    | [.dir c ces] =>
      rw [LiveOpts.renderDirectory.eq_def]
      dsimp only
      have hr : Depth.createNewEmpty.isRoot = true := rfl
      simp only [hr, Bool.not_true, Bool.and_false, Bool.false_eq_true, if_false]
      exact PostMonad.bind hL.compact (fun _ _ => other)
    | [] => rw [LiveOpts.renderDirectory.eq_def]; exact PostMonad.bind hL.compact (fun _ _ => other)
    | .file _ _ :: _ => rw [LiveOpts.renderDirectory.eq_def]; exact PostMonad.bind hL.compact (fun _ _ => other)
    | .skipped _ :: _ => rw [LiveOpts.renderDirectory.eq_def]; exact PostMonad.bind hL.compact (fun _ _ => other)
    | .maxDepth _ :: _ => rw [LiveOpts.renderDirectory.eq_def]; exact PostMonad.bind hL.compact (fun _ _ => other)
    | .dir _ _ :: _ :: _ => rw [LiveOpts.renderDirectory.eq_def]; exact PostMonad.bind hL.compact (fun _ _ => other)
  | .file p a =>
    refine PostMonad.mono (post_file hL hlr _ p a) ?_
    rintro s ⟨D, h, rfl⟩
    exact ⟨D, .other (fun _ _ h => by cases h) h, hp D⟩
  | .skipped q =>
    rw [LiveOpts.renderTree]
    refine PostMonad.mono (post_mark (R := R) hlr _ (.skipped q) .skipped) ?_
    rintro s ⟨D, h, rfl⟩
    exact ⟨D, .other (fun _ _ h => by cases h) h, hp D⟩
  | .maxDepth n =>
    rw [LiveOpts.renderTree]
    refine PostMonad.mono (post_mark (R := R) hlr _ (.maxDepth n) .maxDepth) ?_
    rintro s ⟨D, h, rfl⟩
    exact ⟨D, .other (fun _ _ h => by cases h) h, hp D⟩

end

section
variable {m : Type → Type} [Monad m] [MonadExceptOf Exn m] [LawfulMonad m]

/-- The fields hold Java `int`s. -/
def IntDepth (o : Options m) : Prop := -2147483648 ≤ o.maxDepth ∧ o.maxDepth ≤ 2147483647

theorem toInt_depth {d : Int} (h : -2147483648 ≤ d ∧ d ≤ 2147483647) : (Int32.ofInt d).toInt = d := by
  rw [Int32.toInt_ofInt]
  simp only [Int32.size]
  exact Int.bmod_eq_of_le (by omega) (by omega)

theorem handle_unchanged (fs : Fs m) (o : Options m) (hd : IntDepth o) (k : Nat) (p : Path) :
    LiveOpts.handle fs (unchanged fs o) (o.pathFilter fs) k p = Scanner.handle fs (o.toScan fs) k p := by
  rw [LiveOpts.handle, Scanner.handle]
  refine bind_congr fun b => ?_
  cases b with
  | false => rfl
  | true =>
    have e : (unchanged fs o).getMaxDepth = pure (Int32.ofInt o.maxDepth) := rfl
    simp only [if_true]
    rw [e, pure_bind, toInt_depth hd]
    have hm : (o.toScan fs).maxDepth = o.maxDepth := rfl
    by_cases h : (k : Int) ≥ o.maxDepth
    · rw [dif_pos h, dif_pos (by rw [hm]; exact h)]
    · rw [dif_neg h, dif_neg (by rw [hm]; exact h)]
      have ih : (fun c => LiveOpts.handle fs (unchanged fs o) (o.pathFilter fs) (k + 1) c) = fun c => Scanner.handle fs (o.toScan fs) (k + 1) c :=
        funext fun c => handle_unchanged fs o hd (k + 1) c
      unfold LiveOpts.handleDirectory Scanner.handleDirectory
      refine bind_congr fun r => ?_
      cases r with
      | openFailed => rfl
      | opened cs bad =>
        have e2 : (unchanged fs o).pathComparator = pure o.pathComparator := rfl
        simp only
        rw [e2, pure_bind, ih]
        have e3 : (fun p => do (← (unchanged fs o).getChildLimit) p) = o.childLimit := by
          funext q
          show (pure o.childLimit >>= fun f => f q) = _
          rw [pure_bind]
        rw [e3]
        rfl
termination_by 2147483647 - k
decreasing_by
  have := hd.2
  omega

theorem ext_unchanged (fs : Fs m) (o : Options m) (p : Path) : LiveOpts.computeLineExtension (unchanged fs o) p = Renderer.computeLineExtension o.toRender p := by
  unfold LiveOpts.computeLineExtension Renderer.computeLineExtension
  have e : (unchanged fs o).getLineExtension = pure o.lineExtension := rfl
  have e' : o.toRender.lineExtension = o.lineExtension := rfl
  rw [e, e', pure_bind]
  cases o.lineExtension with
  | none => rfl
  | some f => simp

mutual
theorem tree_unchanged (fs : Fs m) (o : Options m) (lr : LineRenderer m) (d : Depth) (t : TreeEntry) :
    LiveOpts.renderTree (unchanged fs o) lr d t = Renderer.renderTree o.toRender lr d t := by
  match t with
  | .dir p es => rw [LiveOpts.renderTree, Renderer.renderTree]; exact dir_unchanged fs o lr d p es [p]
  | .file p a => rw [LiveOpts.renderTree, Renderer.renderTree, ext_unchanged]
  | .skipped _ => rw [LiveOpts.renderTree, Renderer.renderTree]
  | .maxDepth _ => rw [LiveOpts.renderTree, Renderer.renderTree]
termination_by (sizeOf t, 1)
theorem dir_unchanged (fs : Fs m) (o : Options m) (lr : LineRenderer m) (d : Depth) (p : Path) (es : List TreeEntry) (ps : List Path) :
    LiveOpts.renderDirectory (unchanged fs o) lr d p es ps = Renderer.renderDirectory o.toRender lr d p es ps := by
  have e : (unchanged fs o).areCompactDirectoriesUsed = pure o.toRender.compactDirectories := rfl
  have ihk := kids_unchanged fs o lr d es
  match es with
  | [.dir c ces] =>
    have ihs := fun qs => dir_unchanged fs o lr d c ces qs
    rw [LiveOpts.renderDirectory.eq_def, Renderer.renderDirectory.eq_def]
    simp only [e, pure_bind, ext_unchanged, ihk, ihs]
    rfl
  | [] => rw [LiveOpts.renderDirectory.eq_def, Renderer.renderDirectory.eq_def]; simp only [e, pure_bind, ext_unchanged, ihk]
  | .file _ _ :: _ => rw [LiveOpts.renderDirectory.eq_def, Renderer.renderDirectory.eq_def]; simp only [e, pure_bind, ext_unchanged, ihk]
  | .skipped _ :: _ => rw [LiveOpts.renderDirectory.eq_def, Renderer.renderDirectory.eq_def]; simp only [e, pure_bind, ext_unchanged, ihk]
  | .maxDepth _ :: _ => rw [LiveOpts.renderDirectory.eq_def, Renderer.renderDirectory.eq_def]; simp only [e, pure_bind, ext_unchanged, ihk]
  | .dir _ _ :: _ :: _ => rw [LiveOpts.renderDirectory.eq_def, Renderer.renderDirectory.eq_def]; simp only [e, pure_bind, ext_unchanged, ihk]
termination_by (sizeOf es, 3)
theorem kids_unchanged (fs : Fs m) (o : Options m) (lr : LineRenderer m) (d : Depth) (es : List TreeEntry) :
    LiveOpts.renderChildren (unchanged fs o) lr d es = Renderer.renderChildren o.toRender lr d es := by
  match es with
  | [] => rw [LiveOpts.renderChildren, Renderer.renderChildren]
  | e :: rest =>
    rw [LiveOpts.renderChildren, Renderer.renderChildren, kids_unchanged fs o lr d rest]
    simp only [tree_unchanged fs o lr _ e]
termination_by (sizeOf es, 2)
end

omit [LawfulMonad m] in
/-- The getter of the filter is not used below the top. -/
theorem handle_filter (fs : Fs m) (g : LiveOpts m) (pf : m (Matcher m)) (flt : Matcher m) (k : Nat) (p : Path) [LawfulMonad m] :
    LiveOpts.handle fs { g with pathFilter := pf } flt k p = LiveOpts.handle fs g flt k p := by
  rw [LiveOpts.handle, LiveOpts.handle]
  refine bind_congr fun b => ?_
  cases b with
  | false => rfl
  | true =>
    simp only [if_true]
    refine bind_congr fun d => ?_
    split
    · rfl
    · rename_i h
      have hle := LiveOpts.int32_le d
      have ih : (fun c => LiveOpts.handle fs { g with pathFilter := pf } flt (k + 1) c) = fun c => LiveOpts.handle fs g flt (k + 1) c :=
        funext fun c => handle_filter fs g pf flt (k + 1) c
      rw [ih]
      rfl
termination_by 2147483647 - k
decreasing_by omega

mutual
theorem tree_filter (g : LiveOpts m) (pf : m (Matcher m)) (lr : LineRenderer m) (d : Depth) (t : TreeEntry) :
    LiveOpts.renderTree { g with pathFilter := pf } lr d t = LiveOpts.renderTree g lr d t := by
  match t with
  | .dir p es => rw [LiveOpts.renderTree, LiveOpts.renderTree]; exact dir_filter g pf lr d p es [p]
  | .file p a => rw [LiveOpts.renderTree, LiveOpts.renderTree]; rfl
  | .skipped _ => rw [LiveOpts.renderTree, LiveOpts.renderTree]
  | .maxDepth _ => rw [LiveOpts.renderTree, LiveOpts.renderTree]
termination_by (sizeOf t, 1)
theorem dir_filter (g : LiveOpts m) (pf : m (Matcher m)) (lr : LineRenderer m) (d : Depth) (p : Path) (es : List TreeEntry) (ps : List Path) :
    LiveOpts.renderDirectory { g with pathFilter := pf } lr d p es ps = LiveOpts.renderDirectory g lr d p es ps := by
  have ihk := kids_filter g pf lr d es
  have e : LiveOpts.computeLineExtension { g with pathFilter := pf } p = LiveOpts.computeLineExtension g p := rfl
  match es with
  | [.dir c ces] =>
    have ihs := fun qs => dir_filter g pf lr d c ces qs
    rw [LiveOpts.renderDirectory.eq_def, LiveOpts.renderDirectory.eq_def]
    simp only [ihk, ihs, e]
  | [] => rw [LiveOpts.renderDirectory.eq_def, LiveOpts.renderDirectory.eq_def]; simp only [ihk, e]
  | .file _ _ :: _ => rw [LiveOpts.renderDirectory.eq_def, LiveOpts.renderDirectory.eq_def]; simp only [ihk, e]
  | .skipped _ :: _ => rw [LiveOpts.renderDirectory.eq_def, LiveOpts.renderDirectory.eq_def]; simp only [ihk, e]
  | .maxDepth _ :: _ => rw [LiveOpts.renderDirectory.eq_def, LiveOpts.renderDirectory.eq_def]; simp only [ihk, e]
  | .dir _ _ :: _ :: _ => rw [LiveOpts.renderDirectory.eq_def, LiveOpts.renderDirectory.eq_def]; simp only [ihk, e]
termination_by (sizeOf es, 3)
theorem kids_filter (g : LiveOpts m) (pf : m (Matcher m)) (lr : LineRenderer m) (d : Depth) (es : List TreeEntry) :
    LiveOpts.renderChildren { g with pathFilter := pf } lr d es = LiveOpts.renderChildren g lr d es := by
  match es with
  | [] => rw [LiveOpts.renderChildren, LiveOpts.renderChildren]
  | e :: rest =>
    rw [LiveOpts.renderChildren, LiveOpts.renderChildren, kids_filter g pf lr d rest]
    simp only [tree_filter g pf lr _ e]
termination_by (sizeOf es, 2)
end

end
end Live75

open Live75

/-- **C75**: an options object that is not modified during the call: the call of the other properties. -/
theorem C75_unchanged {m : Type → Type} [Monad m] [MonadExceptOf Exn m] [LawfulMonad m] (fs : Fs m) (cwd : Path) (pr : Printer m) (o : Options m)
    (hd : -2147483648 ≤ o.maxDepth ∧ o.maxDepth ≤ 2147483647) (p : Path) :
    LiveOpts.prettyPrint fs cwd pr (unchanged fs o) p = pr.prettyPrint fs cwd o p := by
  unfold LiveOpts.prettyPrint LiveOpts.scan Printer.prettyPrint Scanner.scan Renderer.renderRoot
  have e : (unchanged fs o).pathFilter = pure (o.pathFilter fs) := rfl
  simp only [e, pure_bind, handle_unchanged fs o hd, tree_unchanged]

section
variable {σ : Type} {fs : Fs (WorldM σ)} {cwd : Path} {pr : Printer (WorldM σ)} {g : LiveOpts (WorldM σ)}

namespace Live75

theorem post_sometime {α : Type} (x : WorldM σ α) : PostMonad.Post x (Sometime x) := fun s _ s' h => ⟨s, s', h⟩

theorem covers_live (filter : Matcher (WorldM σ)) : LiveCovers (liveAnswers fs g filter) (Sometime g.pathComparator) (liveDepths g) fs g filter where
  isDir p := post_sometime _
  list p := PostMonad.mono (post_sometime _) (fun r hr cs e => by subst e; exact hr)
  attrs p := PostMonad.mono (post_sometime _) (fun r hr cs e => by subst e; exact hr)
  limit p := PostMonad.bind (post_sometime _) (fun f hf => PostMonad.mono (post_sometime _) (fun n hn => ⟨f, hf, hn⟩))
  keep p := post_sometime _
  cmp := post_sometime _
  depth := PostMonad.mono (post_sometime _) (fun d hd => ⟨d, hd, rfl⟩)

theorem looks_live : LiveLook (liveLooks pr g) g pr.lineRenderer where
  emoji p := post_sometime _
  compact := post_sometime _
  ext p := by
    unfold LiveOpts.computeLineExtension
    refine PostMonad.bind (post_sometime _) (fun r hr => ?_)
    cases r with
    | none => exact PostMonad.pure (.inl ⟨hr, rfl⟩)
    | some _ =>
      refine PostMonad.bind (post_sometime _) (fun r hr => ?_)
      cases r with
      | none => exact PostMonad.throw
      | some f => exact PostMonad.mono (post_sometime _) (fun y hy => .inr ⟨f, hr, hy⟩)

end Live75

/-- **C75**: whoever modifies the options object (and anything else) while the call is running: a returned text is the picture, in the tree format of the moment the printer was built, of a
tree that is correct for the *one* filter of the moment the call started and, directory by directory, for some depth limit, some child limit and some order that were set at some moment; emojis are those of the
printer, the extension of every line and the compact switch for every directory are ones of some moment. -/
theorem C75_text {f : TreeFormat} (hf : pr.lineRenderer.treeFormatter = TreeFormatter.getInstance f) (hw : cwd.abs = true) (hC : ∀ c, Sometime g.pathComparator c → LawfulCmp c)
    {p : Path} {s s' : σ} {txt : JStr} (h : (ExceptT.run (LiveOpts.prettyPrint fs cwd pr g p)).run s = (.ok txt, s')) :
    ∃ filter s1, (ExceptT.run g.pathFilter).run s = (.ok filter, s1) ∧
      ∃ t D, ScannedLive (liveAnswers fs g filter) (Sometime g.pathComparator) (liveDepths g) 0 (target cwd p) t ∧ DrawnTop (liveLooks pr g) t D ∧ txt = picture f D := by
  unfold LiveOpts.prettyPrint LiveOpts.scan at h
  simp only [bind_assoc] at h
  rw [ExceptT.run_bind, StateT.run_bind] at h
  rcases hq : (ExceptT.run g.pathFilter).run s with ⟨r, s1⟩
  rw [hq] at h
  cases r with
  | error e => cases h
  | ok filter =>
    refine ⟨filter, s1, rfl, ?_⟩
    have hp : PostMonad.Post (LiveOpts.handle fs g filter 0 (((p.toAbsolutePath cwd).normalize).normalize.toAbsolutePath cwd) >>= fun t => LiveOpts.renderTree g pr.lineRenderer Depth.createNewEmpty t)
        (fun txt => ∃ t D, ScannedLive (liveAnswers fs g filter) (Sometime g.pathComparator) (liveDepths g) 0 (target cwd p) t ∧ DrawnTop (liveLooks pr g) t D ∧ txt = picture f D) := by
      refine PostMonad.bind (post_handle (covers_live filter) hC 0 _) (fun t ht => PostMonad.mono (post_top looks_live hf t) ?_)
      rintro txt ⟨D, hD, rfl⟩
      rw [Path.target_clean hw] at ht
      exact ⟨t, D, ht, hD, rfl⟩
    exact hp s1 txt s' h

namespace Live75
variable {A : Answers} {C : Cmp → Prop} {M : Int → Prop}

theorem live_entryPath {k : Nat} {p : Path} {e : TreeEntry} (h : ScannedLive A C M k p e) : entryPath e = some p := by
  cases h <;> rfl

theorem liveAll_mem {k : Nat} {ps : List Path} {es : List TreeEntry} (h : ScannedLiveAll A C M k ps es) {e : TreeEntry} (he : e ∈ es) : ∃ p ∈ ps, ScannedLive A C M k p e := by
  induction es generalizing ps with
  | nil => cases he
  | cons x xs ih =>
    cases h with
    | cons h1 h2 =>
      rcases List.mem_cons.1 he with rfl | he
      · exact ⟨_, by simp, h1⟩
      · obtain ⟨p, hp, h⟩ := ih h2 he
        exact ⟨p, by simp [hp], h⟩

/-- Every entry below is correct at its depth; how it got there. -/
theorem live_sub {k n : Nat} {p q : Path} {e x : TreeEntry} (h : ScannedLive A C M k p e) (hb : BelowAt x n e) (hq : entryPath x = some q) :
    ScannedLive A C M (k + n) q x ∧ (n = 0 ∨ ∃ d, M d ∧ ((k + n : Nat) : Int) ≤ d) ∧ (n = 0 ∨ ∃ d cs, A.list d cs ∧ q ∈ cs ∧ A.keep q true) := by
  induction hb generalizing k p with
  | here => rw [live_entryPath h] at hq; cases hq; exact ⟨h, .inl rfl, .inl rfl⟩
  | @inside d es y n hy hb ih =>
    cases h with
    | tooDeep h1 h2 =>
      simp at hy; subst hy
      cases hb; cases hq
    | @dir _ _ D c n' cs ks srt es' h1 hM hk h2 h3 h4 hc h5 h6 h7 =>
      rcases List.mem_append.1 hy with hy | hy
      · obtain ⟨r, hr, hs⟩ := liveAll_mem h7 hy
        obtain ⟨g1, g2, g3⟩ := ih hs
        rw [show k + 1 + n = k + (n + 1) by omega] at g1 g2
        refine ⟨g1, .inr ?_, .inr ?_⟩
        · rcases g2 with rfl | g2
          · exact ⟨D, hM, by omega⟩
          · exact g2
        · rcases g3 with rfl | g3
          · cases hb
            rw [live_entryPath hs] at hq; cases hq
            have := Under72.kept_keep h4 (h5.mem_iff.1 ((limitTo_sublist _ srt).subset hr))
            exact ⟨_, cs, h3, this.1, this.2⟩
          · exact g3
      · unfold moreMark at hy
        split at hy
        · simp at hy; subst hy; cases hb; cases hq
        · cases hy

end Live75

/-- **C75**, depth and filter: in a tree as in `C75_text` nothing is deeper than the largest depth limit there was, and everything but the printed path was listed and
accepted by the filter of the start. -/
theorem C75_depth_and_filter {filter : Matcher (WorldM σ)} {p : Path} {t : TreeEntry} (h : ScannedLive (liveAnswers fs g filter) (Sometime g.pathComparator) (liveDepths g) 0 p t)
    {n : Nat} {x : TreeEntry} {q : Path} (hb : BelowAt x n t) (hq : entryPath x = some q) (hn : n ≠ 0) :
    (∃ i : Int32, Sometime g.getMaxDepth i ∧ (n : Int) ≤ i.toInt) ∧ (∃ d cs, Sometime (fs.listDir d) (.opened cs false) ∧ q ∈ cs) ∧ Sometime (filter q) true := by
  obtain ⟨_, h2, h3⟩ := live_sub h hb hq
  rw [Nat.zero_add] at h2
  rcases h2 with h2 | ⟨d, ⟨i, hi, rfl⟩, hd⟩
  · exact absurd h2 hn
  rcases h3 with h3 | ⟨d, cs, h4, h5, h6⟩
  · exact absurd h3 hn
  exact ⟨⟨i, hi, hd⟩, ⟨d, cs, h4, h5⟩, h6⟩

/-- **C75**, what cannot be changed any more: two worlds in which the options objects always have the same depth limit, child limit, order, compact switch and extension function, and have the same filters when
the call starts. Whatever the filters, the tree format and the emoji mapping are set to later on, the calls have the same result (text or exception) and the same effects. -/
theorem C75_fixed_at_start {obj obj' : σ → Options (WorldM σ)} (h1 : ∀ s, (obj s).maxDepth = (obj' s).maxDepth) (h2 : ∀ s, (obj s).childLimit = (obj' s).childLimit)
    (h3 : ∀ s, (obj s).pathComparator = (obj' s).pathComparator) (h4 : ∀ s, (obj s).compactDirectories = (obj' s).compactDirectories)
    (h5 : ∀ s, (obj s).lineExtension = (obj' s).lineExtension) (s : σ) (h6 : (obj s).dirMatcher = (obj' s).dirMatcher) (h7 : (obj s).fileMatcher = (obj' s).fileMatcher) (p : Path) :
    (ExceptT.run (LiveOpts.prettyPrint fs cwd pr (oneThread fs obj) p)).run s = (ExceptT.run (LiveOpts.prettyPrint fs cwd pr (oneThread fs obj') p)).run s := by
  have key : ∀ (g g' : LiveOpts (WorldM σ)), g.getMaxDepth = g'.getMaxDepth → g.getChildLimit = g'.getChildLimit → g.pathComparator = g'.pathComparator →
      g.areCompactDirectoriesUsed = g'.areCompactDirectoriesUsed → g.getLineExtension = g'.getLineExtension → ∀ flt,
      LiveOpts.handle fs g flt = LiveOpts.handle fs g' flt ∧ LiveOpts.renderTree g pr.lineRenderer = LiveOpts.renderTree g' pr.lineRenderer := by
    -- the getter of the filter is used nowhere but at the start
    rintro ⟨a, b, c, d, e, f⟩ ⟨a', b', c', d', e', f'⟩ rfl rfl rfl rfl rfl flt
    constructor
    · funext k p
      exact handle_filter fs ⟨a, b, c, d', e, f⟩ d flt k p
    · funext k t
      exact tree_filter ⟨a, b, c, d', e, f⟩ d _ k t
  have e1 : (oneThread fs obj).getMaxDepth = (oneThread fs obj').getMaxDepth := by simp only [oneThread, h1]
  have e2 : (oneThread fs obj).getChildLimit = (oneThread fs obj').getChildLimit := by simp only [oneThread, h2]
  have e3 : (oneThread fs obj).pathComparator = (oneThread fs obj').pathComparator := by simp only [oneThread, h3]
  have e4 : (oneThread fs obj).areCompactDirectoriesUsed = (oneThread fs obj').areCompactDirectoriesUsed := by simp only [oneThread, h4]
  have e5 : (oneThread fs obj).getLineExtension = (oneThread fs obj').getLineExtension := by simp only [oneThread, h5]
  have e6 : (ExceptT.run (oneThread fs obj).pathFilter).run s = (.ok ((obj s).pathFilter fs), s) := rfl
  have e7 : (ExceptT.run (oneThread fs obj').pathFilter).run s = (.ok ((obj s).pathFilter fs), s) := by
    show (Except.ok ((obj' s).pathFilter fs), s) = _
    unfold Options.pathFilter
    rw [h6, h7]
  unfold LiveOpts.prettyPrint LiveOpts.scan
  simp only [bind_assoc]
  rw [ExceptT.run_bind, StateT.run_bind, ExceptT.run_bind, StateT.run_bind, e6, e7]
  obtain ⟨k1, k2⟩ := key (oneThread fs obj) (oneThread fs obj') e1 e2 e3 e4 e5 ((obj s).pathFilter fs)
  show StateT.run (ExceptT.run (LiveOpts.handle fs (oneThread fs obj) ((obj s).pathFilter fs) 0 _ >>= _)) s = StateT.run (ExceptT.run (LiveOpts.handle fs (oneThread fs obj') ((obj s).pathFilter fs) 0 _ >>= _)) s
  rw [k1, k2]

/-- **C75**, one thread: the extension of a line is that of the function set when the line is written, or none if none is set; the two reads of the field cannot differ. -/
theorem C75_one_thread_extension (obj : σ → Options (WorldM σ)) (p : Path) (s : σ) :
    (ExceptT.run (LiveOpts.computeLineExtension (oneThread fs obj) p)).run s =
      match (obj s).lineExtension with
      | none => (.ok none, s)
      | some f => (ExceptT.run (f p)).run s := by
  unfold LiveOpts.computeLineExtension
  have e : (ExceptT.run (oneThread fs obj).getLineExtension).run s = (.ok (obj s).lineExtension, s) := rfl
  rw [ExceptT.run_bind, StateT.run_bind, e]
  cases h : (obj s).lineExtension with
  | none => rfl
  | some f =>
    show (ExceptT.run ((oneThread fs obj).getLineExtension >>= _)).run s = _
    rw [ExceptT.run_bind, StateT.run_bind, e, h]
    rfl

end

/-! ### Examples -/

namespace Demo

/-- A disk on which every path is an ordinary file. -/
def onlyFiles : Fs (WorldM Bool) where
  isDir _ := pure false
  isLink _ := pure false
  lstat _ := pure (some false)
  isRegular _ := pure true
  listDir _ := pure .openFailed
  readAttrs _ := pure (some ⟨false, false⟩)

/-- Another thread switches the line extension on and off all the time; the extension itself is always null. -/
def flipping : LiveOpts (WorldM Bool) :=
  { unchanged onlyFiles {} with getLineExtension := ExceptT.mk fun s => (.ok (if s then some (fun _ => pure none) else none), !s) }

end Demo

/-- **C75**, several threads: the extension function is read twice without protection (renderer/DefaultTreeEntryRenderer.java:88-91). If another thread sets it to null between the two reads, the call
throws a `NullPointerException`, though it would succeed with the old and with the new options. -/
theorem C75_race :
    (ExceptT.run (LiveOpts.prettyPrint Demo.onlyFiles Path.root (Printer.build {}) Demo.flipping ⟨true, [j!"f"]⟩)).run true = (.error .nullPointer, true) ∧
    (ExceptT.run (LiveOpts.prettyPrint Demo.onlyFiles Path.root (Printer.build {}) Demo.flipping ⟨true, [j!"f"]⟩)).run false = (.ok j!"f", true) ∧
    (ExceptT.run (LiveOpts.prettyPrint Demo.onlyFiles Path.root (Printer.build {}) (unchanged Demo.onlyFiles {}) ⟨true, [j!"f"]⟩)).run true = (.ok j!"f", true) ∧
    (ExceptT.run (LiveOpts.prettyPrint Demo.onlyFiles Path.root (Printer.build {}) (unchanged Demo.onlyFiles { lineExtension := some fun _ => pure none }) ⟨true, [j!"f"]⟩)).run true = (.ok j!"f", true) := by
  have h : ∀ g flt, LiveOpts.handle Demo.onlyFiles g flt 0 ⟨true, [j!"f"]⟩ = pure (.file ⟨true, [j!"f"]⟩ ⟨false, false⟩) := by
    intro g flt
    rw [LiveOpts.handle]
    rfl
  have e : Path.toAbsolutePath ((Path.toAbsolutePath ⟨true, [j!"f"]⟩ Path.root).normalize.normalize) Path.root = ⟨true, [j!"f"]⟩ := by decide
  unfold LiveOpts.prettyPrint LiveOpts.scan
  simp only [e, h, bind_assoc, pure_bind, LiveOpts.renderTree]
  exact ⟨rfl, rfl, rfl, rfl⟩

namespace Demo

/-- The world has a switch; the extension function turns the switch on (and answers null). The options object is compact iff the switch is on, and has a filter that rejects everything once it is on. -/
def selfCompacting (s : Bool) : Options (WorldM Bool) where
  compactDirectories := s
  fileMatcher := fun _ => pure (!s)
  lineExtension := some fun _ => ExceptT.mk fun _ => (.ok none, true)

/-- `/d/e/` below the printed `/r`, written in one line: the extension of `/r` was asked for before, and has turned compaction on. -/
example : let d : Path := Demo.r.child j!"d"
    let e : Path := d.child j!"e"
    (ExceptT.run (LiveOpts.renderTree (oneThread onlyFiles selfCompacting) (Printer.build (selfCompacting false)).lineRenderer Depth.createNewEmpty
      (.dir Demo.r [.dir d [.dir e []]]))).run false = (.ok (picture TreeFormats.UNICODE_BOX_DRAWING (.node j!"r/" [.node j!"d/e/" []])), true) := by
  intro d e
  simp only [LiveOpts.renderTree, LiveOpts.renderDirectory.eq_def, LiveOpts.renderChildren]
  rfl

/-- The hypotheses of `C75_fixed_at_start` are met by this object and one without filter. -/
example (p : Path) : (ExceptT.run (LiveOpts.prettyPrint onlyFiles Path.root (Printer.build (selfCompacting false)) (oneThread onlyFiles selfCompacting) p)).run false =
    (ExceptT.run (LiveOpts.prettyPrint onlyFiles Path.root (Printer.build (selfCompacting false)) (oneThread onlyFiles (fun s => { selfCompacting s with fileMatcher := fun _ => pure true })) p)).run false :=
  C75_fixed_at_start (obj := selfCompacting) (obj' := fun s => { selfCompacting s with fileMatcher := fun _ => pure true }) (fun _ => rfl) (fun _ => rfl) (fun _ => rfl) (fun _ => rfl) (fun _ => rfl) false rfl rfl p

end Demo

/-- The hypotheses of `C75_text` and `C75_depth_and_filter` are met by the calls of `C75_race`, and by every call of C72. -/
example : (∃ filter s1, (ExceptT.run Demo.flipping.pathFilter).run false = (.ok filter, s1) ∧
      ∃ t D, ScannedLive (liveAnswers Demo.onlyFiles Demo.flipping filter) (Sometime Demo.flipping.pathComparator) (liveDepths Demo.flipping) 0 (target Path.root ⟨true, [j!"f"]⟩) t ∧
        DrawnTop (liveLooks (Printer.build {}) Demo.flipping) t D ∧ j!"f" = picture TreeFormats.UNICODE_BOX_DRAWING D) :=
  C75_text (pr := Printer.build {}) rfl rfl (fun c ⟨s, s', h⟩ => by cases h; exact lawful_ALPHABETICAL) C75_race.2.1

end JFTP
