import Verif.Spec.Under
import Verif.Props.Sorting

/-!
C72: the text of a call when everything may change at any moment.
-/

namespace JFTP
open Spec

namespace Under72

/-! ### Labels under changing callbacks -/

section
variable {m : Type → Type} [Monad m] [MonadExceptOf Exn m] [PostMonad m]
open PostMonad

/-- The possible answers in `R` cover everything the callbacks may return. -/
structure LookCovers (R : LookR) (L : LookM m) : Prop where
  emoji : ∀ p, Post (L.emoji p) (R.emoji p)
  compact : R.compact L.compact
  ext : ∀ p, Post (L.ext p) (R.ext p)

theorem post_nameM (p : Path) : Post (nameM p : m JStr) (fun n => p.names ≠ [] ∧ n = lastName p) := by
  unfold nameM
  cases h : p.names.getLast? with
  | none => exact PostMonad.throw
  | some n =>
    refine PostMonad.pure ⟨fun h' => by simp [h'] at h, ?_⟩
    unfold lastName
    rw [List.getLastD_eq_getLast?, h]
    rfl

theorem post_namesM (ds : List Path) : Post (namesM ds : m JStr) (fun n => (∀ q ∈ ds, q.names ≠ []) ∧ n = (ds.map (fun d => lastName d ++ j!"/")).flatten) := by
  induction ds with
  | nil => exact PostMonad.pure ⟨fun q hq => (by cases hq), rfl⟩
  | cons d ds ih =>
    unfold namesM
    cases h : d.names.getLast? with
    | none => exact PostMonad.bind (P := fun _ => False) PostMonad.throw (fun _ h => h.elim)
    | some n =>
      refine PostMonad.bind (P := fun r => r = n ++ j!"/") (PostMonad.pure rfl) (fun r hr => PostMonad.bind ih (fun rest hrest => PostMonad.pure ?_))
      subst hr
      refine ⟨fun q hq => ?_, ?_⟩
      · rcases List.mem_cons.1 hq with rfl | hq
        · exact fun h' => by simp [h'] at h
        · exact hrest.1 q hq
      · rw [hrest.2]
        have : lastName d = n := by unfold lastName; rw [List.getLastD_eq_getLast?, h]; rfl
        simp [this]

variable {R : LookR} {L : LookM m} (hL : LookCovers R L)

include hL in
theorem post_dirsTextM (d : Path) (ds : List Path) :
    Post (dirsTextM L.emoji d ds) (fun n => ∃ x, R.emoji d x ∧ (∀ q ∈ ds, q.names ≠ []) ∧ ∀ y, n ++ y.getD [] = dirsLabel x ds y) := by
  unfold dirsTextM
  refine PostMonad.bind (hL.emoji d) (fun x hx => PostMonad.bind (post_namesM ds) (fun n hn => PostMonad.pure ⟨x, hx, hn.1, fun y => ?_⟩))
  rw [hn.2]
  rfl

/-- What a directory line below the printed entry, which already has the directories `pre`, becomes. -/
def LineFrom (R : LookR) (pre : List Path) (d : Path) (es : List TreeEntry) (D : Disp) : Prop :=
  ∃ ds last es' x y ks, ChainR R d es ds last es' y ∧ (∀ q ∈ pre ++ ds, q.names ≠ []) ∧ R.emoji last x ∧ DrawnAll R es' ks ∧ D = .node (dirsLabel x (pre ++ ds) y) ks

include hL
mutual
theorem post_dispM (t : TreeEntry) : Post (dispM L false t) (Drawn R t) := by
  match t with
  | .dir d es =>
    rw [dispM]
    refine PostMonad.mono (post_dispDirM [] d es) ?_
    rintro D ⟨ds, last, es', x, y, ks, h1, h2, h3, h4, rfl⟩
    exact .dir h1 h2 h3 h4
  | .file p a =>
    rw [dispM]
    unfold fileTextM
    refine PostMonad.bind (P := fun n => ∃ x, p.names ≠ [] ∧ R.emoji p x ∧ ∀ y, n ++ y.getD [] = fileLabel x p a y) ?_ (fun n hn => PostMonad.bind (hL.ext p) (fun y hy => PostMonad.pure ?_))
    · refine PostMonad.bind (hL.emoji p) (fun x hx => PostMonad.bind (post_nameM p) (fun n hn => PostMonad.pure ⟨x, hn.1, hx, fun y => ?_⟩))
      rw [hn.2]
      rfl
    · obtain ⟨x, h1, h2, h3⟩ := hn
      rw [h3 y]
      exact .file h1 h2 hy
  | .skipped _ => rw [dispM]; exact PostMonad.pure .skipped
  | .maxDepth _ => rw [dispM]; exact PostMonad.pure .maxDepth
termination_by (sizeOf t, 1)
theorem post_dispDirM (pre : List Path) (d : Path) (es : List TreeEntry) : Post (dispDirM L false d es (pre ++ [d])) (LineFrom R pre d es) := by
  have other (hs : ∀ c ces, es ≠ [.dir c ces]) : Post (do
      let names ← dirsTextM L.emoji d (pre ++ [d])
      let x ← L.ext d
      let ks ← dispKidsM L es
      return Disp.node (names ++ x.getD []) ks) (LineFrom R pre d es) :=
    PostMonad.bind (post_dirsTextM hL d _) (fun n ⟨x, h1, h2, h3⟩ => PostMonad.bind (hL.ext d) (fun y hy =>
      PostMonad.bind (post_dispKidsM es) (fun ks hks => PostMonad.pure
        ⟨[d], d, es, x, y, ks, .stop hy (fun _ _ => hs), h2, h1, hks, by rw [h3 y]⟩)))
  match es with
  | [.dir c ces] =>
    have kid := post_dispM (.dir c ces)
    have step := post_dispDirM (pre ++ [d]) c ces
    rw [dispDirM.eq_def]
    dsimp only
    split
    · rename_i hcmp
      have hcmp : R.compact true := by have := hL.compact; rw [show L.compact = true by simpa using hcmp] at this; exact this
      refine PostMonad.bind (hL.ext d) (fun y hy => ?_)
      cases y with
      | none =>
        simp only
        refine PostMonad.mono step ?_
        rintro D ⟨ds, last, es', x, y, ks, h1, h2, h3, h4, rfl⟩
        exact ⟨d :: ds, last, es', x, y, ks, .step hcmp hy h1, by simpa using h2, h3, h4, by simp⟩
      | some y =>
        simp only
        exact PostMonad.bind (post_dirsTextM hL d _) (fun n ⟨x, h1, h2, h3⟩ => PostMonad.bind kid (fun k hk => PostMonad.pure
          ⟨[d], d, _, x, some y, [k], .stop hy (fun _ h => by cases h), h2, h1, .cons hk .nil, by rw [← h3 (some y)]; rfl⟩))
    · rename_i hcmp
      have hcmp : R.compact false := by have := hL.compact; rw [show L.compact = false by simpa using hcmp] at this; exact this
      exact PostMonad.bind (post_dirsTextM hL d _) (fun n ⟨x, h1, h2, h3⟩ => PostMonad.bind (hL.ext d) (fun y hy => PostMonad.bind kid (fun k hk => PostMonad.pure
        ⟨[d], d, _, x, y, [k], .stop hy (fun h => (h hcmp).elim), h2, h1, .cons hk .nil, by rw [← h3 y]⟩)))
  | [] => rw [dispDirM.eq_def]; exact other (fun _ _ h => by cases h)
  | .file _ _ :: _ => rw [dispDirM.eq_def]; exact other (fun _ _ h => by cases h)
  | .skipped _ :: _ => rw [dispDirM.eq_def]; exact other (fun _ _ h => by cases h)
  | .maxDepth _ :: _ => rw [dispDirM.eq_def]; exact other (fun _ _ h => by cases h)
  | .dir _ _ :: _ :: _ => rw [dispDirM.eq_def]; exact other (fun _ _ h => by cases h)
termination_by (sizeOf es, 3)
theorem post_dispKidsM (es : List TreeEntry) : Post (dispKidsM L es) (DrawnAll R es) := by
  match es with
  | [] => rw [dispKidsM]; exact PostMonad.pure .nil
  | e :: rest =>
    rw [dispKidsM]
    exact PostMonad.bind (post_dispM e) (fun k hk => PostMonad.bind (post_dispKidsM rest) (fun ks hks => PostMonad.pure (.cons hk hks)))
termination_by (sizeOf es, 2)
end

theorem post_dispTop (t : TreeEntry) : Post (dispM L true t) (DrawnTop R t) := by
  match t with
  | .dir d es =>
    rw [dispM]
    have other : Post (do
        let names ← dirsTextM L.emoji d [d]
        let x ← L.ext d
        let ks ← dispKidsM L es
        return Disp.node (names ++ x.getD []) ks) (DrawnTop R (.dir d es)) :=
      PostMonad.bind (post_dirsTextM hL d _) (fun n ⟨x, h1, h2, h3⟩ => PostMonad.bind (hL.ext d) (fun y hy =>
        PostMonad.bind (post_dispKidsM hL es) (fun ks hks => PostMonad.pure (by rw [h3 y]; exact .dir (h2 d (by simp)) h1 hy hks))))
    match es with
    | [.dir c ces] =>
      rw [dispDirM.eq_def]
      simp only [Bool.not_true, Bool.and_false, Bool.false_eq_true, if_false]
      exact PostMonad.bind (post_dirsTextM hL d _) (fun n ⟨x, h1, h2, h3⟩ => PostMonad.bind (hL.ext d) (fun y hy => PostMonad.bind (post_dispM hL (.dir c ces)) (fun k hk => PostMonad.pure
        (by rw [h3 y]; exact .dir (h2 d (by simp)) h1 hy (.cons hk .nil)))))
    | [] => rw [dispDirM.eq_def]; exact other
    | .file _ _ :: _ => rw [dispDirM.eq_def]; exact other
    | .skipped _ :: _ => rw [dispDirM.eq_def]; exact other
    | .maxDepth _ :: _ => rw [dispDirM.eq_def]; exact other
    | .dir _ _ :: _ :: _ => rw [dispDirM.eq_def]; exact other
  | .file p a =>
    have h := post_dispM hL (.file p a)
    rw [dispM] at h ⊢
    exact PostMonad.mono h (fun D hD => .other (fun _ _ h => by cases h) hD)
  | .skipped _ => rw [dispM]; exact PostMonad.pure (.other (fun _ _ h => by cases h) .skipped)
  | .maxDepth _ => rw [dispM]; exact PostMonad.pure (.other (fun _ _ h => by cases h) .maxDepth)

omit hL in
/-- What rendering returns. -/
theorem post_render [LawfulMonad m] {o : RenderOpts m} (hL : LookCovers R ⟨o.emojiMapping, o.compactDirectories, extensionOf o⟩) (t : TreeEntry) :
    Post (Renderer.renderRoot o (LineRenderer.create o) t) (fun txt => ∃ D, DrawnTop R t D ∧ txt = picture o.treeFormat D) := by
  rw [C01_render_is_picture_effectful, map_eq_pure_bind]
  exact PostMonad.bind (post_dispTop hL t) (fun D hD => PostMonad.pure ⟨D, hD, rfl⟩)

end

/-! ### Lines -/

section
variable {A : Answers} {R : LookR} {c : Cmp} {maxDepth : Int}

theorem kept_keep {cs ks : List Path} (h : Kept A cs ks) {q : Path} (hq : q ∈ ks) : q ∈ cs ∧ A.keep q true := by
  induction h with
  | nil => cases hq
  | keep hk _ ih =>
    rcases List.mem_cons.1 hq with rfl | hq
    · exact ⟨by simp, hk⟩
    · exact ⟨List.mem_cons_of_mem _ (ih hq).1, (ih hq).2⟩
  | drop _ _ ih => exact ⟨List.mem_cons_of_mem _ (ih hq).1, (ih hq).2⟩

/-- All directories and files of a scanned tree were seen. -/
theorem seen_below {top : Path} {t : TreeEntry} (h : Scanned A c maxDepth 0 top t) {n : Nat} {x : TreeEntry} (hb : BelowAt x n t) {q : Path} (hq : entryPath x = some q) : Seen A top q := by
  cases n with
  | zero =>
    have hs := h.sub hb hq
    cases hb
    rw [h.entryPath_eq] at hq
    cases hq
    exact .inl rfl
  | succ n =>
    obtain ⟨d, es, hd, hx⟩ := hb.parent
    have hs := h.sub hd rfl
    obtain ⟨_, _, ⟨_, rfl⟩ | ⟨hk, n, cs, ks, srt, es', h1, h2, h3, h4, h5, h6, rfl⟩⟩ := hs.dir_inv
    · simp at hx; subst hx; cases hq
    · rcases List.mem_append.1 hx with hx | hx
      · obtain ⟨q', hq', he'⟩ := h6.mem hx
        rw [he'.entryPath_eq] at hq
        cases hq
        have := kept_keep h3 (h4.mem_iff.1 ((limitTo_sublist _ srt).subset hq'))
        exact .inr ⟨d, cs, h2, this.1, this.2⟩
      · unfold moreMark at hx
        split at hx
        · simp at hx; subst hx; cases hq
        · cases hx

theorem dir_below {top : Path} {t : TreeEntry} (h : Scanned A c maxDepth 0 top t) {d : Path} {es : List TreeEntry} (hb : Below (.dir d es) t) : Seen A top d ∧ A.isDir d true := by
  obtain ⟨n, hn⟩ := hb.at
  exact ⟨seen_below h hn rfl, (h.sub hn rfl).dir_inv.2.1⟩

theorem file_below {top : Path} {t : TreeEntry} (h : Scanned A c maxDepth 0 top t) {p : Path} {a : Attrs} (hb : Below (.file p a) t) : Seen A top p ∧ A.isDir p false ∧ A.attrs p a := by
  obtain ⟨n, hn⟩ := hb.at
  refine ⟨seen_below h hn rfl, ?_⟩
  cases h.sub hn rfl with
  | file h1 h2 => exact ⟨h1, h2⟩

/-- The directories of a line. -/
theorem chain_below {d : Path} {es : List TreeEntry} {ds : List Path} {last : Path} {es' : List TreeEntry} {y : Option JStr} (h : ChainR R d es ds last es' y) :
    Below (.dir last es') (.dir d es) ∧ R.ext last y ∧
    ∃ init, ds = init ++ [last] ∧ (∀ q ∈ ds, ∃ qs, Below (.dir q qs) (.dir d es)) ∧ ∀ q ∈ init, R.compact true ∧ R.ext q none := by
  induction h with
  | stop hy _ => exact ⟨.here, hy, [], rfl, fun q hq => by simp at hq; subst hq; exact ⟨_, .here⟩, fun q hq => by cases hq⟩
  | @step d c ces ds last es' y hc hn _ ih =>
    obtain ⟨h1, h2, init, rfl, h3, h4⟩ := ih
    refine ⟨.inside (by simp) h1, h2, d :: init, rfl, fun q hq => ?_, fun q hq => ?_⟩
    · rcases List.mem_cons.1 hq with rfl | hq
      · exact ⟨_, .here⟩
      · obtain ⟨qs, hqs⟩ := h3 q hq
        exact ⟨qs, .inside (by simp) hqs⟩
    · rcases List.mem_cons.1 hq with rfl | hq
      · exact ⟨hc, hn⟩
      · exact h4 q hq

variable {top : Path} {t : TreeEntry} (ht : Scanned A c maxDepth 0 top t)

include ht
mutual
theorem drawn_labels {e : TreeEntry} {D : Disp} (h : Drawn R e D) (hb : Below e t) {l : JStr} (hl : HasLabel l D) : LabelOf A R top l := by
  cases h with
  | file h1 h2 h3 =>
    cases hl with
    | here => obtain ⟨g1, g2, g3⟩ := file_below ht hb; exact .file g1 g2 g3 h2 h3
    | inside hk _ => cases hk
  | skipped =>
    cases hl with
    | here => exact .more
    | inside hk _ => cases hk
  | maxDepth =>
    cases hl with
    | here => exact .more
    | inside hk _ => cases hk
  | dir h1 h2 h3 h4 =>
    obtain ⟨g1, g2, init, rfl, g3, g4⟩ := chain_below h1
    cases hl with
    | here => exact .dirs (fun q hq => by obtain ⟨qs, hqs⟩ := g3 q hq; exact dir_below ht (hqs.trans hb)) g4 h3 g2
    | inside hk hl => exact drawnAll_labels h4 (fun e he => (Below.inside he .here).trans (g1.trans hb)) hk hl
termination_by (sizeOf D, 0)
theorem drawnAll_labels {es : List TreeEntry} {Ds : List Disp} (h : DrawnAll R es Ds) (hb : ∀ e ∈ es, Below e t) {l : JStr} {k : Disp} (hk : k ∈ Ds) (hl : HasLabel l k) :
    LabelOf A R top l := by
  cases h with
  | nil => cases hk
  | cons h1 h2 =>
    rcases List.mem_cons.1 hk with rfl | hk
    · exact drawn_labels h1 (hb _ (by simp)) hl
    · exact drawnAll_labels h2 (fun e he => hb e (by simp [he])) hk hl
termination_by (sizeOf Ds, 1)
end

theorem drawnTop_labels {D : Disp} (h : DrawnTop R t D) {l : JStr} (hl : HasLabel l D) : LabelOf A R top l := by
  cases h with
  | dir h1 h2 h3 h4 =>
    cases hl with
    | here => exact .dirs (ds := []) (fun q hq => by simp at hq; subst hq; exact dir_below ht .here) (fun q hq => by cases hq) h2 h3
    | inside hk hl => exact drawnAll_labels ht h4 (fun e he => .inside he .here) hk hl
  | other _ h => exact drawn_labels ht h .here hl

end
end Under72

open Under72

/-! ### C72 -/

section
variable {σ : Type} {fs : Fs (WorldM σ)} {cwd : Path} {o : Options (WorldM σ)}

theorem looks_sometime : LookCovers (looksSometime o) ⟨o.toRender.emojiMapping, o.toRender.compactDirectories, extensionOf o.toRender⟩ where
  emoji p s x s' h := ⟨s, s', h⟩
  compact := rfl
  ext p s y s' h := by
    unfold looksSometime
    dsimp only
    unfold extensionOf at h
    have e : o.toRender.lineExtension = o.lineExtension := rfl
    rw [e] at h
    cases hx : o.lineExtension with
    | none => rw [hx] at h; cases h; rfl
    | some g => rw [hx] at h; exact ⟨s, s', h⟩

/-- **C72**: whatever changes between any two accesses and callback calls, if `prettyPrint` returns, then the text is the standard picture of a tree that is correct for some
possible answer to every question, with labels built from possible answers of the callbacks, each asked for the path it is displayed at. -/
theorem C72_text (hw : cwd.abs = true) (hc : LawfulCmp o.pathComparator) {p : Path} {s s' : σ} {txt : JStr} (h : (ExceptT.run (prettyPrint fs cwd o p)).run s = (.ok txt, s')) :
    ∃ t D, Scanned (answersSometime fs (o.toScan fs)) o.pathComparator o.maxDepth 0 (target cwd p) t ∧ DrawnTop (looksSometime o) t D ∧ txt = picture o.treeFormat D := by
  have hp : PostMonad.Post (prettyPrint fs cwd o p)
      (fun txt => ∃ t D, Scanned (answersSometime fs (o.toScan fs)) o.pathComparator o.maxDepth 0 (target cwd p) t ∧ DrawnTop (looksSometime o) t D ∧ txt = picture o.treeFormat D) := by
    refine PostMonad.bind (x := Scanner.handle fs (o.toScan fs) 0 _) (post_handle (covers_sometime fs (o.toScan fs)) hc 0 _) (fun t ht => PostMonad.mono (post_render looks_sometime t) ?_)
    rintro txt ⟨D, hD, rfl⟩
    rw [Path.target_clean hw] at ht
    exact ⟨t, D, ht, hD, rfl⟩
  exact hp s txt s' h

/-- **C72** with an arbitrary comparator, which may break its contract, have side effects and throw: the same, in any order of siblings. -/
theorem C72_text_any_comparator {c : CmpM (WorldM σ)} (hw : cwd.abs = true) {p : Path} {s s' : σ} {txt : JStr}
    (h : (ExceptT.run (LiveScanner.prettyPrint TimSort.sort c fs cwd o p)).run s = (.ok txt, s')) :
    ∃ t D, Scanned (answersSometime fs (o.toScan fs)) (fun _ _ => 0) o.maxDepth 0 (target cwd p) t ∧ DrawnTop (looksSometime o) t D ∧ txt = picture o.treeFormat D := by
  have hp : PostMonad.Post (LiveScanner.prettyPrint TimSort.sort c fs cwd o p)
      (fun txt => ∃ t D, Scanned (answersSometime fs (o.toScan fs)) (fun _ _ => 0) o.maxDepth 0 (target cwd p) t ∧ DrawnTop (looksSometime o) t D ∧ txt = picture o.treeFormat D) := by
    refine PostMonad.bind (x := LiveScanner.handle _ c fs (o.toScan fs) 0 _)
      (Sorting71.post_handle sort_sorts (covers_sometime fs (o.toScan fs)) c (fun a b => Sorting71.post_true (c a b)) 0 _) (fun t ht => PostMonad.mono (post_render looks_sometime t) ?_)
    rintro txt ⟨D, hD, rfl⟩
    rw [Path.target_clean hw] at ht
    exact ⟨t, D, ht, hD, rfl⟩
  exact hp s txt s' h

/-- **C72**, line by line: every line of a returned text shows only the printed path and paths that a listing contained and the filter accepted; a directory shown on the
line of another one only if it is the last one or said "no extension". -/
theorem C72_lines {c : CmpM (WorldM σ)} (hw : cwd.abs = true) {p : Path} {s s' : σ} {txt : JStr}
    (h : (ExceptT.run (LiveScanner.prettyPrint TimSort.sort c fs cwd o p)).run s = (.ok txt, s')) :
    ∃ D, txt = picture o.treeFormat D ∧ ∀ l, HasLabel l D → LabelOf (answersSometime fs (o.toScan fs)) (looksSometime o) (target cwd p) l := by
  obtain ⟨t, D, ht, hD, rfl⟩ := C72_text_any_comparator hw h
  exact ⟨D, rfl, fun l hl => drawnTop_labels ht hD hl⟩

end

/-! ### With functions of the path nothing is left open -/

namespace Under72
variable {L : Look}

theorem chainR_iff {d : Path} {es : List TreeEntry} {ds : List Path} {last : Path} {es' : List TreeEntry} {y : Option JStr} :
    ChainR L.toR d es ds last es' y ↔ Chain L d es ds last es' ∧ L.ext last = y := by
  constructor
  · intro h
    induction h with
    | stop hy hs =>
      refine ⟨.stop ?_, hy⟩
      rintro c ces ⟨h1, h2, h3⟩
      exact hs (fun h => by cases h1.symm.trans h) (hy.symm.trans h3) c ces h2
    | step hc hn _ ih => exact ⟨.step ⟨hc, rfl, hn⟩ ih.1, ih.2⟩
  · rintro ⟨h, rfl⟩
    induction h with
    | stop hs => exact .stop rfl (fun hc hy c ces he => hs c ces ⟨by cases h : L.compact; exact absurd h hc; rfl, he, hy⟩)
    | step hm _ ih => obtain ⟨h1, rfl, h3⟩ := hm; exact .step h1 h3 ih

mutual
theorem drawn_shows {e : TreeEntry} {D : Disp} (h : Drawn L.toR e D) : ∃ T, Shows L e T ∧ D = T.toDisp L := by
  cases h with
  | file h1 h2 h3 => cases h2; cases h3; exact ⟨_, .file, rfl⟩
  | skipped => exact ⟨_, .skipped, rfl⟩
  | maxDepth => exact ⟨_, .maxDepth, rfl⟩
  | dir h1 h2 h3 h4 =>
    obtain ⟨hc, rfl⟩ := chainR_iff.1 h1
    obtain ⟨Ts, h5, rfl⟩ := drawnAll_shows h4
    cases h3
    exact ⟨_, .dir hc h5, rfl⟩
termination_by (sizeOf D, 0)
theorem drawnAll_shows {es : List TreeEntry} {Ds : List Disp} (h : DrawnAll L.toR es Ds) : ∃ Ts, ShowsAll L es Ts ∧ Ds = toDispAll L Ts := by
  cases h with
  | nil => exact ⟨_, .nil, rfl⟩
  | cons h1 h2 =>
    obtain ⟨T, g1, rfl⟩ := drawn_shows h1
    obtain ⟨Ts, g2, rfl⟩ := drawnAll_shows h2
    exact ⟨_, .cons g1 g2, rfl⟩
termination_by (sizeOf Ds, 1)
end
end Under72

/-- **C72**: when the callbacks are functions of the path, the only displayed tree that is possible is the one of the other properties. -/
theorem C72_functions {L : Look} {t : TreeEntry} {D : Disp} (h : DrawnTop L.toR t D) : ∃ T, ShowsTop L t T ∧ D = T.toDisp L := by
  cases h with
  | dir h1 h2 h3 h4 =>
    obtain ⟨Ts, h5, rfl⟩ := drawnAll_shows h4
    cases h2; cases h3
    exact ⟨_, .dir h5, rfl⟩
  | other h1 h2 =>
    obtain ⟨T, h3, rfl⟩ := drawn_shows h2
    exact ⟨_, .other h1 h3, rfl⟩

/-! ### Examples -/

namespace Demo

/-- Options whose line extension is the current time, in strokes. -/
def clockOpts : Options (WorldM Nat) := { maxDepth := 1, lineExtension := some fun _ => ExceptT.mk fun n => (.ok (some (List.replicate n 0x7C)), n + 1) }

end Demo

/-- The hypotheses of C72 are met by a call on a disk on which every listing shows a file whose name is the time. -/
theorem Demo.clock_call : (ExceptT.run (prettyPrint Demo.clockFs Path.root Demo.clockOpts Demo.r)).run 3 =
    (.ok (picture TreeFormats.UNICODE_BOX_DRAWING (.node j!"r/||||||||" [.node j!"aaaa|||||||||" []])), 10) := by
  show ExceptT.run (Scanner.handle Demo.clockFs (Demo.clockOpts.toScan Demo.clockFs) 0 _ >>= fun t => Renderer.renderRoot Demo.clockOpts.toRender (LineRenderer.create Demo.clockOpts.toRender) t) 3 = _
  have e : Path.toAbsolutePath ((Demo.r.toAbsolutePath Path.root).normalize.normalize) Path.root = Demo.r := by decide
  rw [e]
  have h1 : ∀ q, Scanner.handle Demo.clockFs (Demo.clockOpts.toScan Demo.clockFs) (0 + 1) q = (do
      let b ← Demo.clockFs.isDir q
      if b then pure (.dir q [.maxDepth 1]) else Scanner.handleFile Demo.clockFs q) := by
    intro q
    rw [Scanner.handle]
    rfl
  have h2 : (ExceptT.run (Scanner.handle Demo.clockFs (Demo.clockOpts.toScan Demo.clockFs) 0 Demo.r)).run 3 = (.ok (.dir Demo.r [.file (Demo.r.child j!"aaaa") ⟨false, false⟩]), 8) := by
    rw [Scanner.handle]
    simp only [h1]
    simp [Scanner.handleDirectory, Scanner.handleDirectoryChildren, Scanner.filterEntries, Scanner.childLoop, streamSorted, PathMatchers.isDirectory, Scanner.handleFile, Demo.clockFs,
      Demo.clockOpts, Options.toScan, Options.pathFilter, PathMatchers.ifMatchesThenElse, UNLIMITED, Demo.r, Path.child, Path.empty, bind, pure, ExceptT.bind, ExceptT.mk,
      ExceptT.bindCont, ExceptT.pure, StateT.bind, StateT.pure, ExceptT.run, StateT.run]
  have h3 : (ExceptT.run (dispM (m := WorldM Nat) ⟨Demo.clockOpts.toRender.emojiMapping, false, extensionOf Demo.clockOpts.toRender⟩ true
      (.dir Demo.r [.file (Demo.r.child j!"aaaa") ⟨false, false⟩]))).run 8 = (.ok (.node j!"r/||||||||" [.node j!"aaaa|||||||||" []]), 10) := by
    rw [dispM, dispDirM.eq_def]
    simp only [dispKidsM, dispM]
    rfl
  simp only [C01_render_is_picture_effectful]
  rw [ExceptT.run_bind]
  show StateT.run _ _ = _
  rw [StateT.run_bind, h2]
  show StateT.run (ExceptT.run (_ <$> dispM _ true _)) 8 = _
  rw [ExceptT.run_map, StateT.run_map]
  show (fun p : _ × _ => (Except.map _ p.1, p.2)) <$> StateT.run (ExceptT.run (dispM _ true _)) 8 = _
  exact congrArg _ h3

/-- The same call with the JDK's sort. -/
theorem Demo.clock_call_any : (ExceptT.run (LiveScanner.prettyPrint TimSort.sort (fun a b => pure (PathSorts.ALPHABETICAL a b)) Demo.clockFs Path.root Demo.clockOpts Demo.r)).run 3 =
    (.ok (picture TreeFormats.UNICODE_BOX_DRAWING (.node j!"r/||||||||" [.node j!"aaaa|||||||||" []])), 10) := by
  have := C71_lawful Demo.clockFs Path.root Demo.clockOpts lawful_ALPHABETICAL Demo.r
  exact (congrArg (fun x => StateT.run (ExceptT.run x) 3) this).trans Demo.clock_call

/-- Answers that change between calls matter: with `compact`, the directory `d` may be asked once only, so both displays of it are possible, but nothing in between. -/
example : let R : LookR := ⟨fun _ x => x = none, fun b => b = true, fun _ y => y = none ∨ y = some j!" new"⟩
    let d : Path := Demo.r.child j!"d"
    let e : Path := d.child j!"e"
    Drawn R (.dir d [.dir e []]) (.node j!"d/e/" []) ∧ Drawn R (.dir d [.dir e []]) (.node j!"d/ new" [.node j!"e/" []]) ∧
      ¬ Drawn R (.dir d [.dir e []]) (.node j!"d/" [.node j!"e/" []]) := by
  intro R d e
  refine ⟨.dir (ds := [d, e]) (x := none) (y := none) (.step rfl (.inl rfl) (.stop (.inl rfl) (fun _ _ _ _ h => by cases h))) (by decide) rfl .nil,
    .dir (ds := [d]) (x := none) (y := some j!" new") (.stop (.inr rfl) (fun _ h => by cases h)) (by decide) rfl
      (.cons (.dir (ds := [e]) (x := none) (y := none) (.stop (.inl rfl) (fun _ _ _ _ h => by cases h)) (by decide) rfl .nil) .nil), ?_⟩
  intro h
  generalize hD : Disp.node _ _ = D at h
  cases h with
  | dir h1 h2 h3 h4 =>
    cases h1 with
    | stop hy hs =>
      rcases hy with rfl | rfl
      · exact hs (fun h => by cases h) rfl _ _ rfl
      · injection hD with hl _
        cases h3
        revert hl
        decide
    | step _ _ h5 =>
      cases h5 with
      | stop _ _ => cases h4; injection hD with _ hk; cases hk
