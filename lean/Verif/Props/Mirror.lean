import Verif.Spec.Mirror
import Verif.Props.Printed
import Verif.Lemmas.Compose

/-
C85: reversing the comparator reverses the children of every directory, and nothing else.
-/

namespace JFTP
open Spec

namespace Spec

theorem mirrorEntries_eq (es : List TreeEntry) : mirrorEntries es = es.map mirrorEntry := by
  induction es with
  | nil => rfl
  | cons e es ih => simp [mirrorEntries, ih]

theorem mirrorAll_eq (ks : List Disp) : mirrorAll ks = ks.map mirror := by
  induction ks with
  | nil => rfl
  | cons e es ih => simp [mirrorAll, ih]

theorem labelling_eq (o : Options (Except Exn)) :
    labelling o = ⟨o.toRender.emojiMapping, o.toRender.compactDirectories, extensionOf o.toRender⟩ := by
  unfold labelling extensionOf Options.toRender
  congr 1
  funext p
  cases o.lineExtension <;> rfl

/-! ### Labels -/

theorem dispKidsM_mk {L : LookM (Except Exn)} {es : List TreeEntry} {ks : List Disp} (h : List.Forall₂ (fun e k => dispM L false e = .ok k) es ks) :
    dispKidsM L es = .ok ks := by
  induction h with
  | nil => rw [dispKidsM]; rfl
  | cons h _ ih => rw [dispKidsM, h, ih]; rfl

theorem dispDirM_other_mirror {L : LookM (Except Exn)} {top : Bool} {d : Path} {es : List TreeEntry} {ps : List Path} {D : Disp} (hes : ∀ c ces, es ≠ [.dir c ces])
    (ih : ∀ ks, dispKidsM L es = .ok ks → dispKidsM L (mirrorEntries es).reverse = .ok (mirrorAll ks).reverse) (h : dispDirM L top d es ps = .ok D) :
    dispDirM L top d (mirrorEntries es).reverse ps = .ok (mirror D) := by
  have hes' : ∀ c ces, (mirrorEntries es).reverse ≠ [.dir c ces] := by
    intro c ces hm
    rw [mirrorEntries_eq, List.reverse_eq_iff, List.reverse_singleton, List.map_eq_singleton_iff] at hm
    obtain ⟨e, rfl, he⟩ := hm
    cases e with
    | dir d es => exact hes _ _ rfl
    | file p a => cases he
    | skipped p => cases he
    | maxDepth p => cases he
  rw [dispDirM.eq_def] at h ⊢
  split at h
  · exact absurd rfl (hes _ _)
  · obtain ⟨n, hn, h⟩ := except_bind_ok h
    obtain ⟨x, hx, h⟩ := except_bind_ok h
    obtain ⟨ks, hk, h⟩ := except_bind_ok h
    cases h
    rw [hn, hx, ih ks hk, mirror]; rfl

mutual
theorem dispM_mirror (L : LookM (Except Exn)) (top : Bool) (e : TreeEntry) {D : Disp} (h : dispM L top e = .ok D) : dispM L top (mirrorEntry e) = .ok (mirror D) := by
  match e with
  | .file p a =>
    rw [mirrorEntry]
    have : mirror D = D := by
      rw [dispM] at h
      obtain ⟨n, hn, h⟩ := except_bind_ok h
      obtain ⟨x, hx, h⟩ := except_bind_ok h
      cases h
      rfl
    rw [this]; exact h
  | .skipped p => rw [dispM] at h; cases h; rw [mirrorEntry, dispM]; rfl
  | .maxDepth n => rw [dispM] at h; cases h; rw [mirrorEntry, dispM]; rfl
  | .dir d es =>
    rw [dispM] at h
    rw [mirrorEntry, dispM]
    exact dispDirM_mirror L top d es [d] h
termination_by (sizeOf e, 1)
theorem dispDirM_mirror (L : LookM (Except Exn)) (top : Bool) (d : Path) (es : List TreeEntry) (ps : List Path) {D : Disp} (h : dispDirM L top d es ps = .ok D) :
    dispDirM L top d (mirrorEntries es).reverse ps = .ok (mirror D) := by
  match es with
  | [.dir c ces] =>
    have h1 := fun D => dispDirM_mirror L top c ces (ps ++ [c]) (D := D)
    have h2 := fun D => dispM_mirror L false (.dir c ces) (D := D)
    rw [mirrorEntry] at h2
    rw [dispDirM] at h
    rw [mirrorEntries, mirrorEntries, mirrorEntry, List.reverse_singleton, dispDirM]
    split
    · rename_i hc
      rw [if_pos hc] at h
      obtain ⟨x, hx, h⟩ := except_bind_ok h
      rw [hx]
      cases x with
      | none => exact h1 D h
      | some x =>
        obtain ⟨n, hn, h⟩ := except_bind_ok h
        obtain ⟨k, hk, h⟩ := except_bind_ok h
        cases h
        show (dirsTextM L.emoji d ps >>= _) = _
        rw [hn, h2 k hk]
        rfl
    · rename_i hc
      rw [if_neg hc] at h
      obtain ⟨n, hn, h⟩ := except_bind_ok h
      obtain ⟨x, hx, h⟩ := except_bind_ok h
      obtain ⟨k, hk, h⟩ := except_bind_ok h
      cases h
      rw [hn, hx, h2 k hk]
      rfl
  | [] => exact dispDirM_other_mirror (by simp) (fun ks hk => dispKidsM_mirror L _ hk) h
  | .file q a :: r => exact dispDirM_other_mirror (by simp) (fun ks hk => dispKidsM_mirror L (.file q a :: r) hk) h
  | .skipped q :: r => exact dispDirM_other_mirror (by simp) (fun ks hk => dispKidsM_mirror L (.skipped q :: r) hk) h
  | .maxDepth q :: r => exact dispDirM_other_mirror (by simp) (fun ks hk => dispKidsM_mirror L (.maxDepth q :: r) hk) h
  | .dir q a :: b :: r => exact dispDirM_other_mirror (by simp) (fun ks hk => dispKidsM_mirror L (.dir q a :: b :: r) hk) h
termination_by (sizeOf es, 3)
theorem dispKidsM_mirror (L : LookM (Except Exn)) (es : List TreeEntry) {ks : List Disp} (h : dispKidsM L es = .ok ks) :
    dispKidsM L (mirrorEntries es).reverse = .ok (mirrorAll ks).reverse := by
  refine dispKidsM_mk ?_
  rw [List.forall₂_reverse_iff]
  match es, ks, h with
  | [], ks, h => rw [dispKidsM] at h; cases h; exact .nil
  | e :: es, ks, h =>
    rw [dispKidsM] at h
    obtain ⟨k, hk, h⟩ := except_bind_ok h
    obtain ⟨ks', hks, h⟩ := except_bind_ok h
    cases h
    refine .cons (dispM_mirror L false e hk) ?_
    have := dispKidsM_mirror L es hks
    have := dispKidsM_forall₂ this
    rwa [List.forall₂_reverse_iff] at this
termination_by (sizeOf es, 2)
end

/-! ### Scanning -/

theorem ScannedAll.reverse {A : Answers} {c : Cmp} {D : Int} {k : Nat} {ps : List Path} {es : List TreeEntry} (h : ScannedAll A c D k ps es) :
    ScannedAll A c D k ps.reverse es.reverse := by
  have app : ∀ {ps es}, ScannedAll A c D k ps es → ∀ {q x}, Scanned A c D k q x → ScannedAll A c D k (ps ++ [q]) (es ++ [x]) := by
    intro ps
    induction ps with
    | nil => intro es h q x hx; cases h; exact .cons hx .nil
    | cons p ps ih => intro es h q x hx; cases h with | cons h1 h2 => exact .cons h1 (ih h2 hx)
  induction ps generalizing es with
  | nil => cases h; exact .nil
  | cons p ps ih =>
    cases h with
    | cons h1 h2 => rw [List.reverse_cons, List.reverse_cons]; exact app (ih h2) h1

mutual
theorem Scanned.mirror {fs : PureFs} {o o' : Options (Except Exn)} {c c' : Cmp} {D : Int} (ha : answers fs o' = answers fs o) (hu : ∀ q n, o.childLimit q = .ok n → n < 0)
    (hc : ∀ p cs bad, fs.listDir p = .opened cs bad → ∀ a ∈ cs, ∀ b ∈ cs, c a b ≤ 0 → c' b a ≤ 0) {k : Nat} {p : Path} {e : TreeEntry} (h : Scanned (answers fs o) c D k p e) :
    Scanned (answers fs o') c' D k p (mirrorEntry e) := by
  rw [ha]
  cases h with
  | file h1 h2 => exact .file h1 h2
  | tooDeep h1 h2 => exact .tooDeep h1 h2
  | @dir _ _ n cs ks srt es h1 hk h2 h3 h4 h5 h6 h7 =>
    have hn : n < 0 := hu p n h2
    have hm : ∀ l, moreMark n l p = [] := by intro l; unfold moreMark; rw [if_neg (by omega)]
    have hl : ∀ l, limitTo n l = l := by intro l; unfold limitTo; rw [if_pos hn]
    rw [hl] at h7
    rw [hm, List.append_nil, mirrorEntry]
    have h7' := (h7.mirror ha hu hc).reverse
    rw [ha] at h7'
    have := Scanned.dir (A := answers fs o) (c := c') (maxDepth := D) (k := k) (p := p) (n := n) (cs := cs) (ks := ks) (srt := srt.reverse) (es := (mirrorEntries es).reverse)
      h1 hk h2 h3 h4 ((List.reverse_perm _).trans h5) ?_ (by rw [hl]; exact h7')
    · rw [hm, List.append_nil] at this; exact this
    · rw [List.pairwise_reverse]
      refine h6.imp_of_mem ?_
      intro a b ha hb hab
      exact hc p cs false h3 a (h4.subset.subset (h5.mem_iff.1 ha)) b (h4.subset.subset (h5.mem_iff.1 hb)) hab
termination_by ((D - k).toNat, 0)
decreasing_by exact Prod.Lex.left _ _ (by omega)
theorem ScannedAll.mirror {fs : PureFs} {o o' : Options (Except Exn)} {c c' : Cmp} {D : Int} (ha : answers fs o' = answers fs o) (hu : ∀ q n, o.childLimit q = .ok n → n < 0)
    (hc : ∀ p cs bad, fs.listDir p = .opened cs bad → ∀ a ∈ cs, ∀ b ∈ cs, c a b ≤ 0 → c' b a ≤ 0) {k : Nat} {ps : List Path} {es : List TreeEntry}
    (h : ScannedAll (answers fs o) c D k ps es) : ScannedAll (answers fs o') c' D k ps (mirrorEntries es) := by
  match ps, es, h with
  | _, _, .nil => exact .nil
  | _, _, .cons h1 h2 => exact .cons (h1.mirror ha hu hc) (h2.mirror ha hu hc)
termination_by ((D - k).toNat, ps.length + 1)
end

end Spec

variable {fs : PureFs} {cwd p : Path} {o : Options (Except Exn)} {c : Cmp} {s : JStr}

/-- **C85**: let `c` be a comparator that never considers two different entries of one directory equal, and let there be no child limit. If `sort(c)` prints the displayed tree `D`,
then `sort(c.reversed())` prints the same tree with the children of every entry in reverse order: the same labels with the same children. -/
theorem C85_mirror (hw : cwd.abs = true) (hfs : ProperFs fs) (hc : LawfulCmp c) (hs : StrictOn c fs) (hu : ∀ q n, o.childLimit q = .ok n → n < 0)
    (h : prettyPrint fs.lift cwd (o.sort c) p = .ok s) :
    ∃ t D, scanned fs cwd (o.sort c) p = .ok t ∧ dispM (labelling o) true t = .ok D ∧ s = picture o.treeFormat D ∧
      scanned fs cwd (o.sort (reversed c)) p = .ok (mirrorEntry t) ∧ dispM (labelling o) true (mirrorEntry t) = .ok (mirror D) ∧
      prettyPrint fs.lift cwd (o.sort (reversed c)) p = .ok (picture o.treeFormat (mirror D)) := by
  rw [prettyPrint_eq] at h
  obtain ⟨t, ht, h⟩ := except_bind_ok h
  rw [C01_render_is_picture_effectful, ← labelling_eq] at h
  have hlab : labelling (o.sort c) = labelling o := rfl
  have hlab' : labelling (o.sort (reversed c)) = labelling o := rfl
  rw [hlab] at h
  obtain ⟨D, hD, h⟩ : ∃ D, dispM (labelling o) true t = .ok D ∧ s = picture o.treeFormat D := by
    revert h
    generalize dispM (labelling o) true t = r
    cases r with
    | error e => intro h; cases h
    | ok D => intro h; cases h; exact ⟨D, rfl, rfl⟩
  have hrev : ∀ p cs bad, fs.listDir p = .opened cs bad → ∀ a ∈ cs, ∀ b ∈ cs, thenComparing c PathSorts.ALPHABETICAL a b ≤ 0 →
      thenComparing (reversed c) PathSorts.ALPHABETICAL b a ≤ 0 := by
    intro p cs bad hl a ha b hb hab
    by_cases h0 : c a b = 0
    · rw [hs p cs bad hl a ha b hb h0]
      have := (sort_lawful (lawful_reversed hc)).antisymm b b
      omega
    · unfold thenComparing reversed at *
      simp only [ne_eq, h0, not_false_eq_true, if_true] at hab ⊢
      exact hab
  have hsc := (scanned_sound hw (sort_lawful hc) ht).mirror (o' := o.sort (reversed c)) rfl hu hrev
  have ht' := scanned_complete hw (o := o.sort (reversed c)) (sort_lawful (lawful_reversed hc)) (sort_distinguishes (lawful_reversed hc) hfs) hsc
  have hD' := dispM_mirror _ true t hD
  refine ⟨t, D, ht, hD, h, ht', hD', ?_⟩
  rw [prettyPrint_eq, ht']
  show Renderer.renderRoot (o.sort (reversed c)).toRender (LineRenderer.create (o.sort (reversed c)).toRender) _ = _
  rw [C01_render_is_picture_effectful, ← labelling_eq, hlab', hD']
  rfl

/-- **C85** for names: `sort(ALPHABETICAL.reversed())` against the default order. -/
theorem C85_alphabetical (hw : cwd.abs = true) (hfs : ProperFs fs) (ho : o.pathComparator = PathSorts.ALPHABETICAL) (hu : ∀ q n, o.childLimit q = .ok n → n < 0)
    (h : prettyPrint fs.lift cwd o p = .ok s) :
    ∃ t D, scanned fs cwd o p = .ok t ∧ dispM (labelling o) true t = .ok D ∧ s = picture o.treeFormat D ∧
      scanned fs cwd (o.sort (reversed PathSorts.ALPHABETICAL)) p = .ok (mirrorEntry t) ∧
      prettyPrint fs.lift cwd (o.sort (reversed PathSorts.ALPHABETICAL)) p = .ok (picture o.treeFormat (mirror D)) := by
  have hso : o.sort PathSorts.ALPHABETICAL = o := by
    unfold Options.sort
    have : thenComparing PathSorts.ALPHABETICAL PathSorts.ALPHABETICAL = o.pathComparator := by
      rw [ho]; funext a b; unfold thenComparing; dsimp only; split <;> rfl
    rw [this]
  have hst : StrictOn PathSorts.ALPHABETICAL fs := by
    intro q cs bad hl a ha b hb hab
    have := sort_distinguishes lawful_const hfs q cs bad hl
    rw [← alphabetical_eq] at this
    refine this a ha b hb (by omega) ?_
    have := lawful_ALPHABETICAL.antisymm a b
    have := lawful_ALPHABETICAL.antisymm b a
    omega
  rw [← hso] at h
  obtain ⟨t, D, h1, h2, h3, h4, _, h5⟩ := C85_mirror hw hfs lawful_ALPHABETICAL hst hu h
  rw [hso] at h1
  exact ⟨t, D, h1, h2, h3, h4, h5⟩

/-- Mirroring twice changes nothing, so each of the two texts determines the tree of the other one. -/
theorem C85_involutive : ∀ D : Disp, mirror (mirror D) = D := by
  have key : ∀ n (D : Disp), sizeOf D ≤ n → mirror (mirror D) = D := by
    intro n
    induction n with
    | zero => intro D h; cases D; simp at h
    | succ n ih =>
      intro D h
      cases D with
      | node l ks =>
        rw [mirror, mirror, mirrorAll_eq, mirrorAll_eq, List.map_reverse, List.reverse_reverse, List.map_map]
        congr 1
        have : ∀ k ∈ ks, (mirror ∘ mirror) k = id k := by
          intro k hk
          have := List.sizeOf_lt_of_mem hk
          simp only [Disp.node.sizeOf_spec] at h
          exact ih k (by omega)
        rw [List.map_congr_left this, List.map_id]
  exact fun D => key _ D (Nat.le_refl _)

/-! ### A concrete case -/

namespace Demo

example : ∃ t D, scanned dfs Path.root dflt r = .ok t ∧ dispM (labelling dflt) true t = .ok D ∧
    joinLines [j!"r/", j!"├─ a/", j!"│  ├─ x", j!"│  └─ y", j!"├─ b.txt", j!"└─ z?"] = picture dflt.treeFormat D ∧
    scanned dfs Path.root (dflt.sort (reversed PathSorts.ALPHABETICAL)) r = .ok (mirrorEntry t) ∧
    prettyPrint dfs.lift Path.root (dflt.sort (reversed PathSorts.ALPHABETICAL)) r = .ok (picture dflt.treeFormat (mirror D)) :=
  C85_alphabetical rfl proper rfl (by intro q n h; cases h; decide) printed_found

end Demo
end JFTP
