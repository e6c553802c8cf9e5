import Verif.Props.Program
import Verif.Props.Reorder
import Verif.Props.Sorting

/-!
Callbacks that answer at least as often, and options whose answers are those of settings.
-/

namespace JFTP
open Spec

/-- Every answer of the first is one of the second. -/
structure Spec.LookM.Le (L L' : LookM (Except Exn)) : Prop where
  compact : L.compact = L'.compact
  emoji : ∀ q x, L.emoji q = .ok x → L'.emoji q = .ok x
  ext : ∀ q x, L.ext q = .ok x → L'.ext q = .ok x

theorem dirsTextM_le {L L' : LookM (Except Exn)} (hle : L.Le L') {d : Path} {ds : List Path} {s : JStr} (h : dirsTextM L.emoji d ds = .ok s) :
    dirsTextM L'.emoji d ds = .ok s := by
  unfold dirsTextM at h ⊢
  obtain ⟨e, he, h⟩ := except_bind_ok h
  have : L'.emoji d = .ok e := hle.emoji _ _ he
  rw [this]; exact h

theorem fileTextM_le {L L' : LookM (Except Exn)} (hle : L.Le L') {p : Path} {a : Attrs} {s : JStr} (h : fileTextM L.emoji p a = .ok s) :
    fileTextM L'.emoji p a = .ok s := by
  unfold fileTextM at h ⊢
  obtain ⟨e, he, h⟩ := except_bind_ok h
  have : L'.emoji p = .ok e := hle.emoji _ _ he
  rw [this]; exact h

theorem ext_le {L L' : LookM (Except Exn)} (hle : L.Le L') {p : Path} {x : Option JStr} (h : L.ext p = .ok x) :
    L'.ext p = .ok x := hle.ext _ _ h

theorem dispDirM_other_le {L L' : LookM (Except Exn)} (hle : L.Le L') {top : Bool} {d : Path} {es : List TreeEntry} {ps : List Path} {D : Disp}
    (hes : ∀ c ces, es ≠ [.dir c ces]) (ih : ∀ Ds, dispKidsM L es = .ok Ds → dispKidsM L' es = .ok Ds)
    (h : dispDirM L top d es ps = .ok D) : dispDirM L' top d es ps = .ok D := by
  rw [dispDirM.eq_def] at h ⊢
  split at h
  · exact absurd rfl (hes _ _)
  · obtain ⟨s, hs, h⟩ := except_bind_ok h
    obtain ⟨x, hx, h⟩ := except_bind_ok h
    obtain ⟨Ds, hD, h⟩ := except_bind_ok h
    rw [dirsTextM_le hle hs, ext_le hle hx, ih Ds hD]
    exact h

mutual
/-- When labelling the entries succeeds, it succeeds with the same result for callbacks that answer at least as often. -/
theorem dispM_le {L L' : LookM (Except Exn)} (hle : L.Le L') (top : Bool) (e : TreeEntry) {D : Disp} (h : dispM L top e = .ok D) :
    dispM L' top e = .ok D := by
  match e with
  | .file p a =>
    rw [dispM] at h ⊢
    obtain ⟨s, hs, h⟩ := except_bind_ok h
    obtain ⟨x, hx, h⟩ := except_bind_ok h
    rw [fileTextM_le hle hs, ext_le hle hx]
    exact h
  | .skipped p => rw [dispM] at h ⊢; exact h
  | .maxDepth n => rw [dispM] at h ⊢; exact h
  | .dir d es =>
    rw [dispM] at h ⊢
    exact dispDirM_le hle top d es [d] h
termination_by (sizeOf e, 1)
theorem dispDirM_le {L L' : LookM (Except Exn)} (hle : L.Le L') (top : Bool) (d : Path) (es : List TreeEntry) (ps : List Path) {D : Disp}
    (h : dispDirM L top d es ps = .ok D) : dispDirM L' top d es ps = .ok D := by
  match es with
  | [.dir c ces] =>
    have key : ∀ {D'}, dispM L false (.dir c ces) = .ok D' → dispM L' false (.dir c ces) = .ok D' := fun h =>
      dispM_le hle false (.dir c ces) h
    have step : ∀ {D'}, dispDirM L top c ces (ps ++ [c]) = .ok D' → dispDirM L' top c ces (ps ++ [c]) = .ok D' := fun h =>
      dispDirM_le hle top c ces (ps ++ [c]) h
    rw [dispDirM] at h ⊢
    have hcm : L'.compact = L.compact := hle.compact.symm
    rw [hcm]
    split at h
    · rename_i hc
      rw [if_pos hc]
      obtain ⟨x, hx, h⟩ := except_bind_ok h
      rw [ext_le hle hx]
      cases x with
      | none => exact step h
      | some x =>
        obtain ⟨_, h1, h⟩ := except_bind_ok h
        obtain ⟨_, h2, h⟩ := except_bind_ok h
        have h1' := dirsTextM_le hle h1
        have h2' := key h2
        show (Except.ok _ >>= _) = _
        simp only [Except.bind, bind] at h1' h2' ⊢
        rw [h1', h2']
        exact h
    · rename_i hc
      rw [if_neg hc]
      obtain ⟨_, h1, h⟩ := except_bind_ok h
      obtain ⟨_, hx, h⟩ := except_bind_ok h
      obtain ⟨_, h2, h⟩ := except_bind_ok h
      rw [dirsTextM_le hle h1, ext_le hle hx, key h2]
      exact h
  | [] => exact dispDirM_other_le hle (by simp) (fun _ => dispKidsM_le hle _) h
  | .file q a :: r => exact dispDirM_other_le hle (by simp) (fun _ => dispKidsM_le hle (.file q a :: r)) h
  | .skipped q :: r => exact dispDirM_other_le hle (by simp) (fun _ => dispKidsM_le hle (.skipped q :: r)) h
  | .maxDepth q :: r => exact dispDirM_other_le hle (by simp) (fun _ => dispKidsM_le hle (.maxDepth q :: r)) h
  | .dir q a :: b :: r => exact dispDirM_other_le hle (by simp) (fun _ => dispKidsM_le hle (.dir q a :: b :: r)) h
termination_by (sizeOf es, 3)
theorem dispKidsM_le {L L' : LookM (Except Exn)} (hle : L.Le L') (es : List TreeEntry) {Ds : List Disp} (h : dispKidsM L es = .ok Ds) :
    dispKidsM L' es = .ok Ds := by
  match es with
  | [] => rw [dispKidsM] at h ⊢; exact h
  | e :: es =>
    rw [dispKidsM] at h ⊢
    obtain ⟨_, h1, h⟩ := except_bind_ok h
    obtain ⟨_, h2, h⟩ := except_bind_ok h
    rw [dispM_le hle false e h1]
    rw [dispKidsM_le hle es h2]
    exact h
termination_by (sizeOf es, 2)
end

namespace OnePage

/-- Every answer of `f` is that of `g`, and if `R` holds then `f` always answers. -/
structure Follows {α : Type} (R : Prop) (f : Path → Except Exn α) (g : Path → α) : Prop where
  right : ∀ p a, f p = .ok a → a = g p
  answers : R → ∀ p, ∃ a, f p = .ok a

theorem Follows.eq {α : Type} {R : Prop} {f : Path → Except Exn α} {g : Path → α} (h : Follows R f g) (hR : R) (p : Path) : f p = .ok (g p) := by
  obtain ⟨a, ha⟩ := h.answers hR p
  rw [ha, h.right p a ha]

/-- Every answer of the options is that of the settings (child limits up to the choice of the negative number), and if `R` holds they always answer. -/
structure Faithful (R : Prop) (o : Options (Except Exn)) (S : Spec.OnePage.Settings) : Prop where
  dirs : Follows R o.dirMatcher S.showDir
  files : Follows R o.fileMatcher S.showFile
  order : o.pathComparator = thenComparing S.order PathSorts.ALPHABETICAL
  limit : ∀ p n, o.childLimit p = .ok n → n = S.limit p ∨ (n < 0 ∧ S.limit p < 0)
  limits : R → ∀ p, ∃ n, o.childLimit p = .ok n
  maxDepth : o.maxDepth = S.maxDepth
  compact : o.compactDirectories = S.compact
  emoji : Follows R o.emojiMapping S.emoji
  ext : Follows R (labelling o).ext S.ext
  format : o.treeFormat = ⟨S.branch, S.lastBranch, S.bar, S.blank⟩

section
variable {R : Prop} {o : Options (Except Exn)} {S : Spec.OnePage.Settings} {fs : PureFs} {cwd : Path}

theorem Faithful.sound (h : Faithful R o S) (hc : LawfulCmp S.order) (hfs : ProperFs fs) (hw : cwd.abs = true) {p : Path} {s : JStr}
    (hp : prettyPrint fs.lift cwd o p = .ok s) : prettyPrint fs.lift cwd (optionsOf S) p = .ok s := by
  rw [prettyPrint_disp] at hp ⊢
  obtain ⟨t, D, h1, h2, rfl⟩ := hp
  have hag : AgreeIn (fun _ => True) (answers fs o) (answers fs (optionsOf S)) := by
    refine ⟨fun _ _ _ h => h, fun _ _ _ h => h, fun _ _ _ h => h, ?_, ?_, fun _ _ _ _ _ _ => trivial⟩
    · intro q n _ hn
      exact ⟨S.limit q, rfl, (h.limit q n hn).imp Eq.symm id⟩
    · intro q b _ hb
      show (if fs.isDir q = true then Except.ok (S.showDir q) else Except.ok (S.showFile q)) = .ok b
      have hb : (if fs.isDir q = true then o.dirMatcher q else o.fileMatcher q) = .ok b := hb
      split at hb
      · rw [if_pos ‹_›, h.dirs.right _ _ hb]
      · rw [if_neg ‹_›, h.files.right _ _ hb]
  have hs := scanned_sound hw (by rw [h.order]; exact sort_lawful hc) h1
  rw [h.order, h.maxDepth] at hs
  refine ⟨t, D, scanned_complete (o := optionsOf S) hw (sort_lawful hc) (sort_distinguishes hc hfs) (hag.scanned trivial hs), ?_, ?_⟩
  · refine dispM_le ⟨h.compact, fun q x hx => ?_, fun q x hx => ?_⟩ true t h2
    · exact congrArg Except.ok (h.emoji.right q x hx).symm
    · exact congrArg Except.ok (h.ext.right q x hx).symm
  · rw [h.format]; rfl

theorem Faithful.complete (h : Faithful R o S) (hR : R) (hc : LawfulCmp S.order) (hfs : ProperFs fs) (hw : cwd.abs = true) {p : Path} {s : JStr}
    (hp : prettyPrint fs.lift cwd (optionsOf S) p = .ok s) : prettyPrint fs.lift cwd o p = .ok s := by
  rw [prettyPrint_disp] at hp ⊢
  obtain ⟨t, D, h1, h2, rfl⟩ := hp
  have hag : AgreeIn (fun _ => True) (answers fs (optionsOf S)) (answers fs o) := by
    refine ⟨fun _ _ _ h => h, fun _ _ _ h => h, fun _ _ _ h => h, ?_, ?_, fun _ _ _ _ _ _ => trivial⟩
    · intro q n _ hn
      cases show Except.ok (S.limit q) = Except.ok n from hn
      obtain ⟨n', hn'⟩ := h.limits hR q
      exact ⟨n', hn', (h.limit q n' hn').imp id fun x => ⟨x.2, x.1⟩⟩
    · intro q b _ hb
      show (if fs.isDir q = true then o.dirMatcher q else o.fileMatcher q) = .ok b
      have hb : (if fs.isDir q = true then Except.ok (S.showDir q) else Except.ok (S.showFile q)) = .ok b := hb
      rw [h.dirs.eq hR, h.files.eq hR]; exact hb
  have hs := scanned_sound (o := optionsOf S) hw (sort_lawful hc) h1
  refine ⟨t, D, scanned_complete hw (by rw [h.order]; exact sort_lawful hc) (by rw [h.order]; exact sort_distinguishes hc hfs) ?_, ?_, ?_⟩
  · rw [h.order, h.maxDepth]; exact hag.scanned trivial hs
  · refine dispM_le ⟨h.compact.symm, fun q x hx => ?_, fun q x hx => ?_⟩ true t h2
    · rw [← hx]; exact h.emoji.eq hR q
    · rw [← hx]; exact h.ext.eq hR q
  · rw [h.format]; rfl

end

/-! ### Comparators that may throw -/

theorem exec_le {c c' : CmpM (Except Exn)} (h : ∀ a b r, c a b = .ok r → c' a b = .ok r) {α : Type} : ∀ (x : SortRun α) (a : α), x.exec c = .ok a → x.exec c' = .ok a
  | .done _, _, hx => hx
  | .fail, _, hx => by cases hx
  | .crash, _, hx => by cases hx
  | .ask u v next, a, hx => by
    rw [SortRun.exec] at hx ⊢
    obtain ⟨r, hr, hx⟩ := except_bind_ok hx
    rw [h u v r hr]
    exact exec_le h (next r) a hx

theorem childLoop_le {visit visit' : Path → Except Exn TreeEntry} (h : ∀ q e, visit q = .ok e → visit' q = .ok e) (n : Int) : ∀ (l : List Path) (k : Int) (r : List TreeEntry × List Path),
    Scanner.childLoop visit n k l = .ok r → Scanner.childLoop visit' n k l = .ok r
  | [], k, r, hr => by rw [Scanner.childLoop] at hr ⊢; exact hr
  | q :: l, k, r, hr => by
    rw [Scanner.childLoop] at hr ⊢
    dsimp only at hr ⊢
    split at hr
    · rw [if_pos ‹_›]; exact hr
    · rw [if_neg ‹_›]
      obtain ⟨e, he, hr⟩ := except_bind_ok hr
      obtain ⟨r', hr', hr⟩ := except_bind_ok hr
      have h2 := childLoop_le h n l _ r' hr'
      rw [h q e he]
      show (Scanner.childLoop (m := Except Exn) _ _ _ _ >>= _) = _
      rw [h2]
      exact hr

theorem handle_le {c c' : CmpM (Except Exn)} (h : ∀ a b r, c a b = .ok r → c' a b = .ok r) (fs : Fs (Except Exn)) (o : ScanOpts (Except Exn)) (k : Nat) (p : Path) (t : TreeEntry)
    (ht : LiveScanner.handle TimSort.sort c fs o k p = .ok t) : LiveScanner.handle TimSort.sort c' fs o k p = .ok t := by
  rw [LiveScanner.handle] at ht ⊢
  obtain ⟨b, hb, ht⟩ := except_bind_ok ht
  rw [hb]
  cases b with
  | false => exact ht
  | true =>
    simp only [if_true] at ht
    show (if _ : (k : Int) ≥ o.maxDepth then _ else _) = _
    split at ht
    · rename_i hk; rw [dif_pos hk]; exact ht
    · rename_i hk
      rw [dif_neg hk]
      have ih := fun q e => handle_le h fs o (k + 1) q e
      unfold LiveScanner.handleDirectory at ht ⊢
      obtain ⟨r, hr, ht⟩ := except_bind_ok ht
      rw [hr]
      cases r with
      | openFailed => exact ht
      | opened cs bad =>
        obtain ⟨es, hes, ht⟩ := except_bind_ok ht
        show (LiveScanner.handleDirectoryChildren (m := Except Exn) _ _ _ _ _ _ _ >>= _) = _
        have : LiveScanner.handleDirectoryChildren TimSort.sort c' o (fun q => LiveScanner.handle TimSort.sort c' fs o (k + 1) q) p cs bad = .ok es := by
          unfold LiveScanner.handleDirectoryChildren at hes ⊢
          obtain ⟨n, hn, hes⟩ := except_bind_ok hes
          obtain ⟨ks, hks, hes⟩ := except_bind_ok hes
          rw [hn]
          show (Scanner.filterEntries (m := Except Exn) _ _ >>= _) = _
          rw [hks]
          cases bad with
          | true => exact hes
          | false =>
            obtain ⟨srt, hs, hes⟩ := except_bind_ok hes
            obtain ⟨r, hl, hes⟩ := except_bind_ok hes
            show (SortRun.exec c' (TimSort.sort ks) >>= _) = _
            rw [exec_le h _ _ hs]
            show (Scanner.childLoop (m := Except Exn) _ _ _ _ >>= _) = _
            rw [childLoop_le ih n srt 0 r hl]
            exact hes
        rw [this]
        exact ht
termination_by (o.maxDepth - k).toNat
decreasing_by omega

/-- Printing with a comparator that throws more often. -/
theorem print_le {c c' : CmpM (Except Exn)} (h : ∀ a b r, c a b = .ok r → c' a b = .ok r) {fs : Fs (Except Exn)} {cwd : Path} {o : Options (Except Exn)} {p : Path} {s : JStr}
    (hs : LiveScanner.prettyPrint TimSort.sort c fs cwd o p = .ok s) : LiveScanner.prettyPrint TimSort.sort c' fs cwd o p = .ok s := by
  unfold LiveScanner.prettyPrint at hs ⊢
  obtain ⟨t, ht, hs⟩ := except_bind_ok hs
  dsimp only at hs ⊢
  rw [handle_le h _ _ _ _ _ ht]
  exact hs

/-- With a comparator that always answers like a lawful one. -/
theorem print_lawful {d : Cmp} (hd : LawfulCmp d) (fs : Fs (Except Exn)) (cwd : Path) (o : Options (Except Exn)) (p : Path) :
    LiveScanner.prettyPrint TimSort.sort (fun a b => .ok (d a b)) fs cwd o p = prettyPrint fs cwd { o with pathComparator := d } p := by
  have := C71_lawful fs cwd { o with pathComparator := d } hd p
  rw [← this]
  show (LiveScanner.handle _ _ fs (o.toScan fs) 0 _ >>= _) = (LiveScanner.handle _ _ fs (Options.toScan fs { o with pathComparator := d }) 0 _ >>= _)
  rw [← Sorting71.handle_own _ _ fs (o.toScan fs) d]
  rfl

end OnePage

end JFTP
