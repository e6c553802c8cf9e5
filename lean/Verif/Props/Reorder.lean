import Verif.Props.Mirror
import Verif.Props.Narrow

/-!
C88: the sort order only decides about the order of siblings.
-/

namespace JFTP
open Spec

namespace Spec

/-! ### Scanning -/

theorem forall₂_perm {α β : Type} {R : α → β → Prop} {l l' : List α} (hp : l.Perm l') : ∀ {r : List β}, List.Forall₂ R l r → ∃ r', List.Forall₂ R l' r' ∧ r.Perm r' := by
  induction hp with
  | nil => intro r h; cases h; exact ⟨[], .nil, .refl _⟩
  | cons x _ ih =>
    intro r h
    cases h with
    | cons h1 h2 =>
      obtain ⟨r', h, hp⟩ := ih h2
      exact ⟨_, .cons h1 h, hp.cons _⟩
  | swap x y l =>
    intro r h
    cases h with
    | cons h1 h2 =>
      cases h2 with
      | cons h2 h3 => exact ⟨_, .cons h2 (.cons h1 h3), .swap _ _ _⟩
  | trans _ _ ih1 ih2 =>
    intro r h
    obtain ⟨r1, h1, p1⟩ := ih1 h
    obtain ⟨r2, h2, p2⟩ := ih2 h1
    exact ⟨r2, h2, p1.trans p2⟩

theorem reorderedAll_of {es es' : List TreeEntry} (h : List.Forall₂ Reordered es es') : ReorderedAll es es' := by
  induction h with
  | nil => exact .nil
  | cons h _ ih => exact .cons h ih

theorem ReorderedAll.forall₂ {es es' : List TreeEntry} (h : ReorderedAll es es') : List.Forall₂ Reordered es es' := by
  match es, es', h with
  | _, _, .nil => exact .nil
  | _, _, .cons h hs => exact .cons h hs.forall₂

theorem visitAll_reorder {v v' : Path → Except Exn TreeEntry} {l l' : List Path} {es : List TreeEntry} (hp : l.Perm l')
    (hv : ∀ q e, q ∈ l → v q = .ok e → ∃ e', v' q = .ok e' ∧ Reordered e e') (h : visitAll v l = .ok es) :
    ∃ es' es'', ReorderedAll es es' ∧ es'.Perm es'' ∧ visitAll v' l' = .ok es'' := by
  have h1 : ∃ es', List.Forall₂ Reordered es es' ∧ List.Forall₂ (fun q e => v' q = .ok e) l es' := by
    replace h := visitAll_ok h
    clear hp
    induction h with
    | nil => exact ⟨[], .nil, .nil⟩
    | cons hx _ ih =>
      obtain ⟨e', he, hr⟩ := hv _ _ (by simp) hx
      obtain ⟨es', h1, h2⟩ := ih (fun q e hq => hv q e (by simp [hq]))
      exact ⟨e' :: es', .cons hr h1, .cons he h2⟩
  obtain ⟨es', hr, hs⟩ := h1
  obtain ⟨es'', hs', hp'⟩ := forall₂_perm hp hs
  exact ⟨es', es'', reorderedAll_of hr, hp', visitAll_of_forall₂ hs'⟩

theorem handle_reorder {fs : PureFs} {o o' : ScanOpts (Except Exn)} (hD : o'.maxDepth = o.maxDepth) (hF : o'.pathFilter = o.pathFilter) (hL : o'.childLimit = o.childLimit)
    (hu : ∀ q n, o.childLimit q = .ok n → n < 0) (k : Nat) (p : Path) (e : TreeEntry) (h : Scanner.handle fs.lift o k p = .ok e) :
    ∃ e', Scanner.handle fs.lift o' k p = .ok e' ∧ Reordered e e' := by
  rw [handle_unfold] at h ⊢
  rw [hD, hF, hL]
  split at h
  · rename_i hd
    rw [if_pos hd]
    split at h
    · rename_i hk
      cases h
      rw [if_pos hk]
      exact ⟨_, rfl, .dir (.cons .maxDepth .nil) (.refl _)⟩
    · rename_i hk
      rw [if_neg hk]
      cases hls : fs.listDir p with
      | openFailed => rw [hls] at h; cases h
      | opened cs bad =>
        rw [hls] at h
        dsimp only at h ⊢
        obtain ⟨n, hn, h⟩ := except_bind_ok h
        obtain ⟨ks, hks, h⟩ := except_bind_ok h
        have hn0 := hu p n hn
        have hm : ∀ l, moreMark n l p = [] := by intro l; unfold moreMark; rw [if_neg (by omega)]
        have hl : ∀ l : List Path, limitTo n l = l := by intro l; unfold limitTo; rw [if_pos hn0]
        rw [hn, hks]
        show ∃ e', (if bad = true then _ else _) = _ ∧ _
        split at h
        · cases h
        · rename_i hb
          rw [if_neg hb]
          obtain ⟨es, hes, h⟩ := except_bind_ok h
          cases h
          rw [hl] at hes
          rw [hm, hl, hm]
          have hp : (streamSorted o.pathComparator ks).Perm (streamSorted o'.pathComparator ks) := (streamSorted_perm _ _).trans (streamSorted_perm _ _).symm
          obtain ⟨es', es'', h1, h2, h3⟩ := visitAll_reorder (v' := Scanner.handle fs.lift o' (k + 1)) hp
            (fun q e _ he => handle_reorder hD hF hL hu (k + 1) q e he) hes
          rw [h3]
          refine ⟨_, rfl, ?_⟩
          rw [List.append_nil, List.append_nil]
          exact .dir h1 h2
  · rename_i hd
    rw [if_neg hd]
    cases ha : fs.readAttrs p with
    | some a => rw [ha] at h; cases h; exact ⟨_, rfl, .file⟩
    | none => rw [ha] at h; cases h
termination_by (o.maxDepth - k).toNat
decreasing_by omega

/-! ### Labels -/

theorem shuffledAll_of {ks ks' : List Disp} (h : List.Forall₂ Shuffled ks ks') : ShuffledAll ks ks' := by
  induction h with
  | nil => exact .nil
  | cons h _ ih => exact .cons h ih

theorem dispKidsM_reorder {L : LookM (Except Exn)} {es es' es'' : List TreeEntry} {ks : List Disp} (hr : ReorderedAll es es') (hp : es'.Perm es'')
    (ih : ∀ e ∈ es, ∀ e' D, Reordered e e' → dispM L false e = .ok D → ∃ D', dispM L false e' = .ok D' ∧ Shuffled D D') (h : dispKidsM L es = .ok ks) :
    ∃ ks' ks'', dispKidsM L es'' = .ok ks'' ∧ ShuffledAll ks ks' ∧ ks'.Perm ks'' := by
  have h1 : ∃ ks', List.Forall₂ Shuffled ks ks' ∧ List.Forall₂ (fun e k => dispM L false e = .ok k) es' ks' := by
    replace h := dispKidsM_forall₂ h
    replace hr := hr.forall₂
    clear hp
    induction h generalizing es' with
    | nil => cases hr; exact ⟨[], .nil, .nil⟩
    | cons hx hs ih' =>
      cases hr with
      | cons hr1 hr2 =>
        obtain ⟨D', hd, hsh⟩ := ih _ (by simp) _ _ hr1 hx
        obtain ⟨ks', h1, h2⟩ := ih' (fun e he => ih e (by simp [he])) hr2
        exact ⟨D' :: ks', .cons hsh h1, .cons hd h2⟩
  obtain ⟨ks', hs, hd⟩ := h1
  obtain ⟨ks'', hd', hp'⟩ := forall₂_perm hp hd
  exact ⟨ks', ks'', dispKidsM_mk hd', shuffledAll_of hs, hp'⟩

theorem dispDirM_reorder_other {L : LookM (Except Exn)} {top : Bool} {d : Path} {es es' es'' : List TreeEntry} {ps : List Path} {D : Disp} (hes : ∀ c ces, es ≠ [.dir c ces])
    (hr : ReorderedAll es es') (hp : es'.Perm es'')
    (ih : ∀ e ∈ es, ∀ e' D, Reordered e e' → dispM L false e = .ok D → ∃ D', dispM L false e' = .ok D' ∧ Shuffled D D') (h : dispDirM L top d es ps = .ok D) :
    ∃ D', dispDirM L top d es'' ps = .ok D' ∧ Shuffled D D' := by
  have hes' : ∀ c ces, es'' ≠ [.dir c ces] := by
    intro c ces hm
    subst hm
    rw [List.perm_singleton] at hp
    subst hp
    cases hr with
    | cons hd hs =>
      cases hs
      cases hd
      exact hes _ _ rfl
  rw [dispDirM.eq_def] at h ⊢
  split at h
  · exact absurd rfl (hes _ _)
  · obtain ⟨n, hn, h⟩ := except_bind_ok h
    obtain ⟨x, hx, h⟩ := except_bind_ok h
    obtain ⟨ks, hk, h⟩ := except_bind_ok h
    cases h
    obtain ⟨ks', ks'', h1, h2, h3⟩ := dispKidsM_reorder hr hp ih hk
    rw [hn, hx, h1]
    exact ⟨_, rfl, .node h2 h3⟩

theorem dispM_reorder_of (L : LookM (Except Exn)) (top : Bool) (e e' : TreeEntry)
    (ih : ∀ d es es' es'', e = .dir d es → ReorderedAll es es' → es'.Perm es'' → ∀ D, dispDirM L top d es [d] = .ok D → ∃ D', dispDirM L top d es'' [d] = .ok D' ∧ Shuffled D D')
    (hr : Reordered e e') {D : Disp} (h : dispM L top e = .ok D) : ∃ D', dispM L top e' = .ok D' ∧ Shuffled D D' := by
  cases hr with
  | file =>
    refine ⟨D, h, ?_⟩
    rw [dispM] at h
    obtain ⟨n, hn, h⟩ := except_bind_ok h
    obtain ⟨x, hx, h⟩ := except_bind_ok h
    cases h
    exact .node .nil (.refl _)
  | skipped => rw [dispM] at h ⊢; cases h; exact ⟨_, rfl, .node .nil (.refl _)⟩
  | maxDepth => rw [dispM] at h ⊢; cases h; exact ⟨_, rfl, .node .nil (.refl _)⟩
  | dir h1 h2 =>
    rw [dispM] at h ⊢
    exact ih _ _ _ _ rfl h1 h2 D h

theorem dispDirM_reorder (L : LookM (Except Exn)) (N : Nat) : ∀ (top : Bool) (d : Path) (es es' es'' : List TreeEntry) (ps : List Path), sizeOf es ≤ N →
    ReorderedAll es es' → es'.Perm es'' → ∀ D, dispDirM L top d es ps = .ok D → ∃ D', dispDirM L top d es'' ps = .ok D' ∧ Shuffled D D' := by
  induction N with
  | zero => intro _ _ es _ _ _ hN; cases es <;> simp at hN
  | succ N ih =>
    intro top d es es' es'' ps hN hr hp D h
    by_cases hes : ∃ c ces, es = [.dir c ces]
    · obtain ⟨c, ces, rfl⟩ := hes
      simp only [List.cons.sizeOf_spec, List.nil.sizeOf_spec, TreeEntry.dir.sizeOf_spec] at hN
      cases hr with
      | cons hr1 hrs =>
        cases hrs
        cases hr1 with
        | @dir _ _ ces1 ces2 g1 g2 =>
          rw [List.singleton_perm] at hp
          subst hp
          have k1 := ih top c ces ces1 ces2 (ps ++ [c]) (by omega) g1 g2
          have k2 := ih false c ces ces1 ces2 [c] (by omega) g1 g2
          rw [dispDirM] at h ⊢
          simp only [dispM] at h ⊢
          split
          · rename_i hc
            rw [if_pos hc] at h
            obtain ⟨x, hx, h⟩ := except_bind_ok h
            rw [hx]
            cases x with
            | none => exact k1 D h
            | some x =>
              obtain ⟨n, hn, h⟩ := except_bind_ok h
              obtain ⟨k, hk, h⟩ := except_bind_ok h
              cases h
              obtain ⟨k', hk', hs⟩ := k2 k hk
              refine ⟨.node (n ++ x) [k'], ?_, .node (.cons hs .nil) (.refl _)⟩
              show (dirsTextM L.emoji d ps >>= _) = _
              rw [hn, hk']
              rfl
          · rename_i hc
            rw [if_neg hc] at h
            obtain ⟨n, hn, h⟩ := except_bind_ok h
            obtain ⟨x, hx, h⟩ := except_bind_ok h
            obtain ⟨k, hk, h⟩ := except_bind_ok h
            cases h
            obtain ⟨k', hk', hs⟩ := k2 k hk
            rw [hn, hx, hk']
            exact ⟨_, rfl, .node (.cons hs .nil) (.refl _)⟩
    · refine dispDirM_reorder_other (fun c ces hc => hes ⟨c, ces, hc⟩) hr hp (fun e he e' D hr hD => dispM_reorder_of L false e e' ?_ hr hD) h
      intro d' es1 es2 es3 heq h1 h2
      have := List.sizeOf_lt_of_mem he
      rw [heq, TreeEntry.dir.sizeOf_spec] at this
      exact ih false d' es1 es2 es3 [d'] (by omega) h1 h2

theorem dispM_reorder (L : LookM (Except Exn)) (top : Bool) {e e' : TreeEntry} (hr : Reordered e e') {D : Disp} (h : dispM L top e = .ok D) :
    ∃ D', dispM L top e' = .ok D' ∧ Shuffled D D' :=
  dispM_reorder_of L top e e' (fun d es es' es'' _ h1 h2 => dispDirM_reorder L _ top d es es' es'' [d] (Nat.le_refl _) h1 h2) hr h

/-! ### What the two trees have in common -/

theorem preorderKids_perm {ks ks' : List Disp} (h : ks.Perm ks') (n : Nat) : (preorderKids n ks).Perm (preorderKids n ks') := by
  induction h with
  | nil => exact .refl _
  | cons x _ ih => rw [preorderKids, preorderKids]; exact ih.append_left _
  | swap x y l =>
    simp only [preorderKids, ← List.append_assoc]
    exact List.perm_append_comm.append_right _
  | trans _ _ h1 h2 => exact h1.trans h2

mutual
theorem Shuffled.preorder_perm {D D' : Disp} (h : Shuffled D D') (n : Nat) : (preorder n D).Perm (preorder n D') := by
  match D, D', h with
  | .node l ks, _, .node h1 h2 =>
    rw [preorder, preorder]
    exact ((h1.preorder_perm (n + 1)).trans (preorderKids_perm h2 (n + 1))).cons _
theorem ShuffledAll.preorder_perm {ks ks' : List Disp} (h : ShuffledAll ks ks') (n : Nat) : (preorderKids n ks).Perm (preorderKids n ks') := by
  match ks, ks', h with
  | _, _, .nil => exact .refl _
  | _, _, .cons h1 h2 =>
    rw [preorderKids, preorderKids]
    exact (h1.preorder_perm n).append (h2.preorder_perm n)
end

theorem joinLines_length (ls : List JStr) : (joinLines ls).length + 1 = (ls.map (fun l => l.length + 1)).sum ∨ ls = [] := by
  induction ls with
  | nil => exact .inr rfl
  | cons l ls ih =>
    refine .inl ?_
    cases ls with
    | nil => simp [joinLines]
    | cons l' ls =>
      rcases ih with ih | ih
      · simp only [joinLines, List.length_append, List.length_cons, List.map_cons, List.sum_cons] at ih ⊢
        omega
      · cases ih

/-- The length of a text, counted from the labels and their depths. -/
theorem picture_length {f : TreeFormat} {w : Nat} (hw : TreeFormatOK f w) (D : Disp) :
    (picture f D).length + 1 = ((preorder 0 D).map (fun x => x.1 * (w + 1) + x.2.length + 1)).sum := by
  have h : (layout f D).map (fun l => l.length + 1) = (preorder 0 D).map (fun x => x.1 * (w + 1) + x.2.length + 1) := by
    have := C04_lines_drawn f D
    revert this
    generalize preorder 0 D = xs
    generalize layout f D = ls
    intro this
    induction this with
    | nil => rfl
    | cons h _ ih => rw [List.map_cons, List.map_cons, ih, (C04_label_column f w hw _ _ _ h).2]
  rcases joinLines_length (layout f D) with h1 | h1
  · rw [picture, h1, h]
  · cases D; rw [layout] at h1; cases h1

theorem prettyPrint_disp {fs : PureFs} {cwd p : Path} {o : Options (Except Exn)} {s : JStr} :
    prettyPrint fs.lift cwd o p = .ok s ↔ ∃ t D, scanned fs cwd o p = .ok t ∧ dispM (labelling o) true t = .ok D ∧ s = picture o.treeFormat D := by
  rw [prettyPrint_eq]
  constructor
  · intro h
    obtain ⟨t, ht, h⟩ := except_bind_ok h
    rw [C01_render_is_picture_effectful, ← labelling_eq] at h
    revert h
    cases hD : dispM (labelling o) true t with
    | error e => intro h; cases h
    | ok D => intro h; cases h; exact ⟨t, D, ht, hD, rfl⟩
  · rintro ⟨t, D, ht, hD, rfl⟩
    rw [ht]
    show Renderer.renderRoot o.toRender (LineRenderer.create o.toRender) _ = _
    rw [C01_render_is_picture_effectful, ← labelling_eq, hD]
    rfl

end Spec

variable {fs : PureFs} {cwd p : Path} {o : Options (Except Exn)} {c c' : Cmp} {s : JStr}

/-- **C88**: if there is no child limit and printing with the order `c` returns a text, printing with any other order `c'` returns a text as well. The entry trees and the
displayed trees are the same up to the order of siblings: the same entries with the same children, the same labels with the same labels below them. (The comparators have to
obey the contract of `Comparator`, see C71 for other ones.) -/
theorem C88_siblings_only (hw : cwd.abs = true) (_hc : LawfulCmp c) (_hc' : LawfulCmp c') (hu : ∀ q n, o.childLimit q = .ok n → n < 0)
    (h : prettyPrint fs.lift cwd (o.sort c) p = .ok s) :
    ∃ t t' D D', scanned fs cwd (o.sort c) p = .ok t ∧ dispM (labelling o) true t = .ok D ∧ s = picture o.treeFormat D ∧
      scanned fs cwd (o.sort c') p = .ok t' ∧ dispM (labelling o) true t' = .ok D' ∧ prettyPrint fs.lift cwd (o.sort c') p = .ok (picture o.treeFormat D') ∧
      Reordered t t' ∧ Shuffled D D' := by
  obtain ⟨t, D, ht, hD, hs⟩ := prettyPrint_disp.1 h
  have ht1 := ht
  rw [scanned_eq fs hw] at ht1
  obtain ⟨t', ht', hr⟩ := handle_reorder (o := (o.sort c).toScan fs.lift) (o' := (o.sort c').toScan fs.lift) rfl rfl rfl hu 0 _ t ht1
  rw [← scanned_eq fs hw] at ht'
  obtain ⟨D', hD', hsh⟩ := dispM_reorder (labelling o) true hr hD
  exact ⟨t, t', D, D', ht, hD, hs, ht', hD', prettyPrint_disp.2 ⟨t', D', ht', hD', rfl⟩, hr, hsh⟩

/-- **C88**, exceptions: whether a call returns does not depend on the order. -/
theorem C88_returns_iff (hw : cwd.abs = true) (hc : LawfulCmp c) (hc' : LawfulCmp c') (hu : ∀ q n, o.childLimit q = .ok n → n < 0) :
    (∃ s, prettyPrint fs.lift cwd (o.sort c) p = .ok s) ↔ ∃ s, prettyPrint fs.lift cwd (o.sort c') p = .ok s := by
  constructor
  · rintro ⟨s, h⟩
    obtain ⟨_, _, _, D', _, _, _, _, _, h, _⟩ := C88_siblings_only hw hc hc' hu h
    exact ⟨_, h⟩
  · rintro ⟨s, h⟩
    obtain ⟨_, _, _, D', _, _, _, _, _, h, _⟩ := C88_siblings_only hw hc' hc hu h
    exact ⟨_, h⟩

/-- **C88**, the texts: both have a line for each label, the same labels at the same depths in another order; so they have the same number of lines and the same length. -/
theorem C88_same_labels (hw : cwd.abs = true) (hc : LawfulCmp c) (hc' : LawfulCmp c') (hu : ∀ q n, o.childLimit q = .ok n → n < 0) {w : Nat}
    (hf : TreeFormatOK o.treeFormat w) {s' : JStr} (h : prettyPrint fs.lift cwd (o.sort c) p = .ok s) (h' : prettyPrint fs.lift cwd (o.sort c') p = .ok s') :
    ∃ D D', s = picture o.treeFormat D ∧ s' = picture o.treeFormat D' ∧ (preorder 0 D).Perm (preorder 0 D') ∧
      (layout o.treeFormat D).length = (layout o.treeFormat D').length ∧ s.length = s'.length := by
  obtain ⟨t, t', D, D', _, _, hs, _, _, hp, _, hsh⟩ := C88_siblings_only hw hc hc' hu h
  rw [hp] at h'
  cases h'
  have hperm := hsh.preorder_perm 0
  refine ⟨D, D', hs, rfl, hperm, ?_, ?_⟩
  · rw [← (C04_lines_drawn _ D).length_eq, ← (C04_lines_drawn _ D').length_eq]
    exact hperm.length_eq
  · have h1 := picture_length hf D
    have h2 := picture_length hf D'
    rw [(hperm.map _).sum_nat, ← h2] at h1
    rw [hs]; omega

/-! ### A concrete case -/

namespace Demo

/-- The default order of the demo disk against another one (directories first). -/
example := C88_siblings_only (fs := dfs) (o := dflt) (c := fun _ _ => 0) (c' := PathSorts.DIRECTORY_FIRST dfs.isDir) rfl lawful_const (lawful_DIRECTORY_FIRST dfs.isDir)
  (by intro q n h; cases h; decide) printed_found

/-- The demo tree and its mirror image are reordered. -/
example : Reordered (.dir r [.file x ⟨false, false⟩, .file y ⟨false, true⟩]) (.dir r [.file y ⟨false, true⟩, .file x ⟨false, false⟩]) :=
  .dir (.cons .file (.cons .file .nil)) (.swap _ _ _)

/-- Trees with another nesting are not. -/
example : ¬ Shuffled (.node j!"r/" [.node j!"a/" [.node j!"x" []], .node j!"b" []]) (.node j!"r/" [.node j!"a/" [.node j!"b" []], .node j!"x" []]) := by
  intro h
  have := h.preorder_perm 0
  revert this
  decide

end Demo
end JFTP
