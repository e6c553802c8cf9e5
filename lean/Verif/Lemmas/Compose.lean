import Verif.Spec.Compose
import Verif.Lemmas.Handle

/-
Scanning a subdirectory on its own, with one level less.
-/

namespace JFTP.Spec

mutual
/-- Depth markers renumbered by one. -/
def bump : TreeEntry → TreeEntry
  | .dir d es => .dir d (bumpAll es)
  | .file p a => .file p a
  | .skipped p => .skipped p
  | .maxDepth n => .maxDepth (n + 1)
/-- The same for lists. -/
def bumpAll : List TreeEntry → List TreeEntry
  | [] => []
  | e :: es => bump e :: bumpAll es
end

theorem bumpAll_eq (es : List TreeEntry) : bumpAll es = es.map bump := by
  induction es with
  | nil => rfl
  | cons e es ih => rw [bumpAll, ih]; rfl

theorem childLoop_map (v : Path → Except Exn TreeEntry) (g : TreeEntry → TreeEntry) (n : Int) (ps : List Path) : ∀ i,
    Scanner.childLoop (fun p => g <$> v p) n i ps = (fun r => (r.1.map g, r.2)) <$> Scanner.childLoop v n i ps := by
  induction ps with
  | nil => intro i; rfl
  | cons p ps ih =>
    intro i
    unfold Scanner.childLoop
    dsimp only
    split
    · rfl
    · rw [ih]
      cases v p with
      | error e => rfl
      | ok e =>
        cases h : Scanner.childLoop v n (i + 1) ps with
        | error x => simp only [Functor.map, Except.map, bind, Except.bind]
        | ok r => simp only [Functor.map, Except.map, bind, Except.bind]; rfl

variable (fs : Fs (Except Exn)) (o : ScanOpts (Except Exn))

/-- Scanning one level deeper with one more level allowed gives the same tree, with other numbers in its depth markers. -/
theorem handle_shift (D : Int) (k : Nat) (p : Path) :
    Scanner.handle fs { o with maxDepth := D + 1 } (k + 1) p = bump <$> Scanner.handle fs { o with maxDepth := D } k p := by
  rw [Scanner.handle, Scanner.handle]
  cases h : PathMatchers.isDirectory fs p with
  | error e => rfl
  | ok b =>
    cases b with
    | false =>
      simp only [bind, Except.bind, Bool.false_eq_true, if_false]
      unfold Scanner.handleFile
      cases fs.readAttrs p with
      | error e => rfl
      | ok a => cases a <;> rfl
    | true =>
      simp only [bind, Except.bind, if_true]
      by_cases hk : (k : Int) ≥ D
      · rw [dif_pos hk, dif_pos (by omega)]; rfl
      · rw [dif_neg hk, dif_neg (by omega)]
        unfold Scanner.handleDirectory
        cases fs.listDir p with
        | error e => rfl
        | ok r =>
          cases r with
          | openFailed => rfl
          | opened cs bad =>
            unfold Scanner.handleDirectoryChildren
            have ih : (fun c => Scanner.handle fs { o with maxDepth := D + 1 } (k + 1 + 1) c) =
                fun c => bump <$> Scanner.handle fs { o with maxDepth := D } (k + 1) c := by
              funext c; exact handle_shift D (k + 1) c
            simp only [ih, bind, Except.bind]
            cases o.childLimit p with
            | error e => rfl
            | ok n =>
              dsimp only
              cases Scanner.filterEntries o.pathFilter cs with
              | error e => rfl
              | ok ks =>
                cases bad with
                | true => rfl
                | false =>
                  simp only [Bool.false_eq_true, if_false]
                  rw [childLoop_map]
                  cases Scanner.childLoop (fun c => Scanner.handle fs { o with maxDepth := D } (k + 1) c) n 0 (streamSorted o.pathComparator ks) with
                  | error e => rfl
                  | ok r =>
                    obtain ⟨es, left⟩ := r
                    simp only [Functor.map, Except.map, pure, Except.pure, bump, bumpAll_eq]
                    cases left <;> simp [bump]
termination_by (D - k).toNat
decreasing_by omega

section
variable {m : Type → Type} [Monad m] [MonadExceptOf Exn m]

mutual
/-- The numbers in depth markers are not displayed. -/
theorem dispM_bump (L : LookM m) (top : Bool) (e : TreeEntry) : dispM L top (bump e) = dispM L top e := by
  match e with
  | .dir d es => rw [bump, dispM, dispM]; exact dispDirM_bump L top d es [d]
  | .file p a => rfl
  | .skipped p => rfl
  | .maxDepth n => rw [bump, dispM, dispM]
theorem dispDirM_bump (L : LookM m) (top : Bool) (d : Path) (es : List TreeEntry) (ps : List Path) :
    dispDirM L top d (bumpAll es) ps = dispDirM L top d es ps := by
  match es with
  | [.dir c ces] =>
    rw [bumpAll, bumpAll, bump, dispDirM.eq_def, dispDirM.eq_def]
    dsimp only
    have h1 := fun ps => dispDirM_bump L top c ces ps
    have h2 : dispM L false (.dir c (bumpAll ces)) = dispM L false (.dir c ces) := by
      rw [dispM, dispM]; exact dispDirM_bump L false c ces [c]
    simp only [h1, h2]
  | [] => rfl
  | .file p a :: es =>
    have h := dispKidsM_bump L (.file p a :: es)
    rw [bumpAll, bump] at *
    rw [dispDirM.eq_def, dispDirM.eq_def]
    dsimp only
    rw [h]
  | .skipped p :: es =>
    have h := dispKidsM_bump L (.skipped p :: es)
    rw [bumpAll, bump] at *
    rw [dispDirM.eq_def, dispDirM.eq_def]
    dsimp only
    rw [h]
  | .maxDepth n :: es =>
    have h := dispKidsM_bump L (.maxDepth n :: es)
    rw [bumpAll, bump] at *
    rw [dispDirM.eq_def, dispDirM.eq_def]
    dsimp only
    rw [h]
  | .dir c ces :: e :: es =>
    have h := dispKidsM_bump L (.dir c ces :: e :: es)
    rw [bumpAll, bumpAll, bump] at *
    rw [dispDirM.eq_def, dispDirM.eq_def]
    dsimp only
    rw [h]
theorem dispKidsM_bump (L : LookM m) (es : List TreeEntry) : dispKidsM L (bumpAll es) = dispKidsM L es := by
  match es with
  | [] => rfl
  | e :: es => rw [bumpAll, dispKidsM, dispKidsM, dispM_bump L false e, dispKidsM_bump L es]
end

/-- Whether an entry is the printed one matters only if it can be merged with its content. -/
theorem dispM_top_eq (L : LookM m) (e : TreeEntry) (h : L.compact = false ∨ ¬ SingleDir e) : dispM L true e = dispM L false e := by
  match e with
  | .file p a => rw [dispM, dispM]
  | .skipped p => rw [dispM, dispM]
  | .maxDepth n => rw [dispM, dispM]
  | .dir d es =>
    rw [dispM, dispM, dispDirM.eq_def, dispDirM.eq_def]
    split
    · rename_i c ces
      rcases h with h | h
      · simp [h]
      · exact absurd ⟨_, _, _, rfl⟩ h
    · rfl

end

theorem layoutKids_stack (f : TreeFormat) (ks : List Disp) : layoutKids f ks = stack f (ks.map (layout f)) := by
  induction ks with
  | nil => simp [layoutKids, stack]
  | cons k ks ih =>
    rw [layoutKids]
    cases ks with
    | nil => simp [stack]
    | cons k' ks => simp only [List.isEmpty_cons, Bool.false_eq_true, if_false, ih, List.map_cons, stack]

theorem dispKidsM_forall₂ {L : LookM (Except Exn)} {es : List TreeEntry} {ks : List Disp} (h : dispKidsM L es = .ok ks) :
    List.Forall₂ (fun e k => dispM L false e = .ok k) es ks := by
  induction es generalizing ks with
  | nil => rw [dispKidsM] at h; cases h; exact .nil
  | cons e es ih =>
    rw [dispKidsM] at h
    obtain ⟨k, hk, h⟩ := except_bind_ok h
    obtain ⟨ks', hks, h⟩ := except_bind_ok h
    cases h
    exact .cons hk (ih hks)

/-- The printed directory: a header, and the displayed children. -/
theorem dispM_dir_ok {L : LookM (Except Exn)} {d : Path} {es : List TreeEntry} {D : Disp} (h : dispM L true (.dir d es) = .ok D) :
    ∃ n x ks, dirsTextM L.emoji d [d] = .ok n ∧ L.ext d = .ok x ∧ dispKidsM L es = .ok ks ∧ D = .node (n ++ x.getD []) ks := by
  rw [dispM, dispDirM.eq_def] at h
  split at h
  · simp only [Bool.not_true, Bool.and_false, Bool.false_eq_true, if_false] at h
    obtain ⟨n, hn, h⟩ := except_bind_ok h
    obtain ⟨x, hx, h⟩ := except_bind_ok h
    obtain ⟨k, hk, h⟩ := except_bind_ok h
    cases h
    refine ⟨n, x, [k], hn, hx, ?_, rfl⟩
    rw [dispKidsM, dispKidsM, hk]; rfl
  · obtain ⟨n, hn, h⟩ := except_bind_ok h
    obtain ⟨x, hx, h⟩ := except_bind_ok h
    obtain ⟨ks, hk, h⟩ := except_bind_ok h
    cases h
    exact ⟨n, x, ks, hn, hx, hk, rfl⟩

theorem target_child {cwd p : Path} (hw : cwd.abs = true) {n : JStr} (h1 : n ≠ j!".") (h2 : n ≠ j!"..") :
    target cwd ((target cwd p).child n) = (target cwd p).child n := by
  have ha := Path.toAbsolutePath_abs (p := p) hw
  have ht : target cwd p = ⟨true, Path.normNames true (p.toAbsolutePath cwd).names⟩ := Path.normalize_abs ha
  have hc : (target cwd p).child n = ⟨true, Path.normNames true (p.toAbsolutePath cwd).names ++ [n]⟩ := by
    rw [ht]; unfold Path.child; rw [if_neg (by intro h; cases h)]
  rw [hc]
  unfold target
  rw [Path.toAbsolutePath_self rfl]
  refine Path.normalize_of_names rfl (fun x hx => ?_)
  rcases List.mem_append.1 hx with hx | hx
  · exact Path.normNames_abs_names _ x hx
  · simp at hx; subst hx; exact ⟨h1, h2⟩

end JFTP.Spec

namespace JFTP.Spec

theorem childLoop_mem {v : Path → Except Exn TreeEntry} {n : Int} {ps : List Path} : ∀ {i : Int} {es : List TreeEntry} {left : List Path},
    Scanner.childLoop v n i ps = .ok (es, left) → ∀ e ∈ es, ∃ c ∈ ps, v c = .ok e := by
  induction ps with
  | nil => intro i es left h; cases h; simp
  | cons p ps ih =>
    intro i es left h
    unfold Scanner.childLoop at h
    dsimp only at h
    split at h
    · cases h; simp
    · obtain ⟨x, hx, h⟩ := except_bind_ok h
      obtain ⟨r, hr, h⟩ := except_bind_ok h
      obtain ⟨es', left'⟩ := r
      cases h
      intro e he
      rcases List.mem_cons.1 he with rfl | he
      · exact ⟨p, by simp, hx⟩
      · obtain ⟨c, hc, hv⟩ := ih hr e he
        exact ⟨c, by simp [hc], hv⟩

theorem filterEntries_subset {f : Matcher (Except Exn)} {cs ks : List Path} (h : Scanner.filterEntries f cs = .ok ks) : ∀ c ∈ ks, c ∈ cs := by
  induction cs generalizing ks with
  | nil => cases h; simp
  | cons c cs ih =>
    unfold Scanner.filterEntries at h
    obtain ⟨b, _, h⟩ := except_bind_ok h
    obtain ⟨ks', hk, h⟩ := except_bind_ok h
    cases h
    intro x hx
    split at hx
    · rcases List.mem_cons.1 hx with rfl | hx
      · simp
      · exact List.mem_cons_of_mem _ (ih hk x hx)
    · exact List.mem_cons_of_mem _ (ih hk x hx)

/-- The children of a scanned directory are scanned one level deeper, for any comparator. -/
theorem handle_dir_ok {fs : PureFs} {o : ScanOpts (Except Exn)} {k : Nat} {p d : Path} {es : List TreeEntry}
    (h : Scanner.handle fs.lift o k p = .ok (.dir d es)) : d = p ∧ ∀ e ∈ es, entryPath e = none ∨
      ∃ cs bad c, fs.listDir p = .opened cs bad ∧ c ∈ cs ∧ Scanner.handle fs.lift o (k + 1) c = .ok e := by
  rw [Scanner.handle] at h
  obtain ⟨b, _, h⟩ := except_bind_ok h
  split at h
  · split at h
    · cases h; exact ⟨rfl, fun e he => by simp at he; subst he; exact .inl rfl⟩
    · unfold Scanner.handleDirectory at h
      obtain ⟨r, hr, h⟩ := except_bind_ok h
      have hr : fs.listDir p = r := Except.ok.inj hr
      cases r with
      | openFailed => cases h
      | opened cs bad =>
        dsimp only at h
        obtain ⟨es', hes, h⟩ := except_bind_ok h
        cases h
        refine ⟨rfl, fun e he => ?_⟩
        unfold Scanner.handleDirectoryChildren at hes
        obtain ⟨n, _, hes⟩ := except_bind_ok hes
        obtain ⟨ks, hk, hes⟩ := except_bind_ok hes
        cases bad with
        | true => cases hes
        | false =>
          simp only [Bool.false_eq_true, if_false] at hes
          obtain ⟨r, hl, hes⟩ := except_bind_ok hes
          obtain ⟨es1, left⟩ := r
          cases hes
          have key : ∀ e ∈ es1, ∃ cs' bad c, fs.listDir p = .opened cs' bad ∧ c ∈ cs' ∧ Scanner.handle fs.lift o (k + 1) c = .ok e := by
            intro e he
            obtain ⟨c, hc, hv⟩ := childLoop_mem hl e he
            exact ⟨cs, false, c, hr, filterEntries_subset hk c ((streamSorted_perm _ _).mem_iff.1 hc), hv⟩
          dsimp only at he
          split at he
          · exact .inr (key e he)
          · rcases List.mem_append.1 he with he | he
            · exact .inr (key e he)
            · simp at he; subst he; exact .inl rfl
  · unfold Scanner.handleFile at h
    obtain ⟨r, _, h⟩ := except_bind_ok h
    cases r <;> cases h

end JFTP.Spec
