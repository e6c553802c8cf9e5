import Verif.Spec.Scan
import Verif.Lemmas.Display
import Verif.Spec.Printed

namespace JFTP.Spec

/-- In `Except`, a bind that succeeds comes from two successes. -/
theorem except_bind_ok {ε α β : Type} {x : Except ε α} {g : α → Except ε β} {b : β} (h : (x >>= g) = .ok b) :
    ∃ a, x = .ok a ∧ g a = .ok b := by
  cases x with
  | error e => cases h
  | ok a => exact ⟨a, rfl, h⟩

theorem namesM_ok {ds : List Path} {s : JStr} (h : namesM (m := Except Exn) ds = .ok s) :
    ∀ d ∈ ds, d.names ≠ [] := by
  induction ds generalizing s with
  | nil => simp
  | cons d ds ih =>
    rw [namesM] at h
    intro x hx
    cases hd : d.names.getLast? with
    | none => rw [hd] at h; cases h
    | some n =>
      rw [hd] at h
      obtain ⟨r, hr, h⟩ := except_bind_ok h
      rcases List.mem_cons.1 hx with rfl | hx
      · intro h0
        simp [h0] at hd
      · obtain ⟨r', hr', _⟩ := except_bind_ok h
        exact ih hr' x hx

theorem dirBegin_ok {e : EmojiFn (Except Exn)} {d : Path} {ds : List Path} {s : JStr}
    (h : dirsTextM e d ds = .ok s) : ∀ d ∈ ds, d.names ≠ [] := by
  unfold dirsTextM at h
  obtain ⟨_, _, h⟩ := except_bind_ok h
  obtain ⟨_, h', _⟩ := except_bind_ok h
  exact namesM_ok h'

theorem fileFormat_ok {e : EmojiFn (Except Exn)} {p : Path} {a : Attrs} {s : JStr}
    (h : fileTextM e p a = .ok s) : p.names ≠ [] := by
  unfold fileTextM nameM at h
  obtain ⟨_, _, h⟩ := except_bind_ok h
  obtain ⟨_, h', _⟩ := except_bind_ok h
  intro h0
  rw [h0] at h'
  cases h'

theorem dispDirM_other_ok {L : LookM (Except Exn)} {top : Bool} {d : Path} {es : List TreeEntry} {ps : List Path} {D : Disp}
    (hes : ∀ c ces, es ≠ [.dir c ces]) (h : dispDirM L top d es ps = .ok D) :
    (∃ s, dirsTextM L.emoji d ps = .ok s) ∧ ∃ Ds, dispKidsM L es = .ok Ds := by
  rw [dispDirM.eq_def] at h
  split at h
  · exact absurd rfl (hes _ _)
  · obtain ⟨s, hs, h⟩ := except_bind_ok h
    obtain ⟨_, _, h⟩ := except_bind_ok h
    obtain ⟨Ds, hD, _⟩ := except_bind_ok h
    exact ⟨⟨s, hs⟩, Ds, hD⟩

mutual
theorem dispM_ok_named (L : LookM (Except Exn)) (top : Bool) (e : TreeEntry) {D : Disp} (h : dispM L top e = .ok D) : Named e := by
  match e with
  | .file p a =>
    rw [dispM] at h
    obtain ⟨_, h', _⟩ := except_bind_ok h
    exact fileFormat_ok h'
  | .skipped p => simp [Named]
  | .maxDepth n => simp [Named]
  | .dir d es =>
    rw [dispM] at h
    have := dispDirM_ok_named L top d es [d] h
    simp only [Named]
    exact ⟨this.1 d (by simp), this.2⟩
termination_by (sizeOf e, 1)
theorem dispDirM_ok_named (L : LookM (Except Exn)) (top : Bool) (d : Path) (es : List TreeEntry) (ps : List Path) {D : Disp}
    (h : dispDirM L top d es ps = .ok D) : (∀ d ∈ ps, d.names ≠ []) ∧ NamedAll es := by
  match es with
  | [.dir c ces] =>
    rw [dispDirM] at h
    have key : ∀ {D'}, dispM L false (.dir c ces) = .ok D' → NamedAll [.dir c ces] := fun h =>
      ⟨dispM_ok_named L false (.dir c ces) h, trivial⟩
    split at h
    · obtain ⟨x, hx, h⟩ := except_bind_ok h
      cases x with
      | none =>
        have := dispDirM_ok_named L top c ces (ps ++ [c]) h
        refine ⟨fun d hd => this.1 d (by simp [hd]), ?_⟩
        simp only [NamedAll, Named, and_true]
        exact ⟨this.1 c (by simp), this.2⟩
      | some x =>
        obtain ⟨_, h1, h⟩ := except_bind_ok h
        obtain ⟨_, h2, _⟩ := except_bind_ok h
        exact ⟨dirBegin_ok h1, key h2⟩
    · obtain ⟨_, h1, h⟩ := except_bind_ok h
      obtain ⟨_, _, h⟩ := except_bind_ok h
      obtain ⟨_, h2, _⟩ := except_bind_ok h
      exact ⟨dirBegin_ok h1, key h2⟩
  | [] => obtain ⟨⟨_, h1⟩, _, h2⟩ := dispDirM_other_ok (by simp) h; exact ⟨dirBegin_ok h1, dispKidsM_ok_named L _ h2⟩
  | .file q a :: r => obtain ⟨⟨_, h1⟩, _, h2⟩ := dispDirM_other_ok (by simp) h; exact ⟨dirBegin_ok h1, dispKidsM_ok_named L (.file q a :: r) h2⟩
  | .skipped q :: r => obtain ⟨⟨_, h1⟩, _, h2⟩ := dispDirM_other_ok (by simp) h; exact ⟨dirBegin_ok h1, dispKidsM_ok_named L (.skipped q :: r) h2⟩
  | .maxDepth q :: r => obtain ⟨⟨_, h1⟩, _, h2⟩ := dispDirM_other_ok (by simp) h; exact ⟨dirBegin_ok h1, dispKidsM_ok_named L (.maxDepth q :: r) h2⟩
  | .dir q a :: b :: r =>
    obtain ⟨⟨_, h1⟩, _, h2⟩ := dispDirM_other_ok (by simp) h; exact ⟨dirBegin_ok h1, dispKidsM_ok_named L (.dir q a :: b :: r) h2⟩
termination_by (sizeOf es, 3)
theorem dispKidsM_ok_named (L : LookM (Except Exn)) (es : List TreeEntry) {Ds : List Disp} (h : dispKidsM L es = .ok Ds) : NamedAll es := by
  match es with
  | [] => simp [NamedAll]
  | e :: es =>
    rw [dispKidsM] at h
    obtain ⟨_, h1, h⟩ := except_bind_ok h
    obtain ⟨_, h2, _⟩ := except_bind_ok h
    exact ⟨dispM_ok_named L false e h1, dispKidsM_ok_named L es h2⟩
termination_by (sizeOf es, 2)
end

/-! ### Callbacks that may throw, made total -/

theorem answerOf_eq {r : Except Exn (Option JStr)} {x : Option JStr} (h : r = .ok x) : r = pure (answerOf r) := by rw [h]; rfl

theorem dirsTextM_total {L : LookM (Except Exn)} {d : Path} {ds : List Path} {s : JStr} (h : dirsTextM L.emoji d ds = .ok s) :
    dirsTextM (m := Except Exn) (Look.lift L.total).emoji d ds = .ok s := by
  unfold dirsTextM at h ⊢
  obtain ⟨e, he, h⟩ := except_bind_ok h
  have : (Look.lift L.total : LookM (Except Exn)).emoji d = .ok e := by simp [Look.lift, LookM.total, he, answerOf]; rfl
  rw [this]; exact h

theorem fileTextM_total {L : LookM (Except Exn)} {p : Path} {a : Attrs} {s : JStr} (h : fileTextM L.emoji p a = .ok s) :
    fileTextM (m := Except Exn) (Look.lift L.total).emoji p a = .ok s := by
  unfold fileTextM at h ⊢
  obtain ⟨e, he, h⟩ := except_bind_ok h
  have : (Look.lift L.total : LookM (Except Exn)).emoji p = .ok e := by simp [Look.lift, LookM.total, he, answerOf]; rfl
  rw [this]; exact h

theorem ext_total {L : LookM (Except Exn)} {p : Path} {x : Option JStr} (h : L.ext p = .ok x) :
    (Look.lift L.total : LookM (Except Exn)).ext p = .ok x := by
  simp [Look.lift, LookM.total, h, answerOf]; rfl

theorem dispDirM_other_total {L : LookM (Except Exn)} {top : Bool} {d : Path} {es : List TreeEntry} {ps : List Path} {D : Disp}
    (hes : ∀ c ces, es ≠ [.dir c ces]) (ih : ∀ Ds, dispKidsM L es = .ok Ds → dispKidsM (m := Except Exn) (Look.lift L.total) es = .ok Ds)
    (h : dispDirM L top d es ps = .ok D) : dispDirM (m := Except Exn) (Look.lift L.total) top d es ps = .ok D := by
  rw [dispDirM.eq_def] at h ⊢
  split at h
  · exact absurd rfl (hes _ _)
  · obtain ⟨s, hs, h⟩ := except_bind_ok h
    obtain ⟨x, hx, h⟩ := except_bind_ok h
    obtain ⟨Ds, hD, h⟩ := except_bind_ok h
    rw [dirsTextM_total hs, ext_total hx, ih Ds hD]
    exact h

mutual
/-- When labelling the entries succeeds, the result is the one of the total callbacks. -/
theorem dispM_total (L : LookM (Except Exn)) (top : Bool) (e : TreeEntry) {D : Disp} (h : dispM L top e = .ok D) :
    dispM (m := Except Exn) (Look.lift L.total) top e = .ok D := by
  match e with
  | .file p a =>
    rw [dispM] at h ⊢
    obtain ⟨s, hs, h⟩ := except_bind_ok h
    obtain ⟨x, hx, h⟩ := except_bind_ok h
    rw [fileTextM_total hs, ext_total hx]
    exact h
  | .skipped p => rw [dispM] at h ⊢; exact h
  | .maxDepth n => rw [dispM] at h ⊢; exact h
  | .dir d es =>
    rw [dispM] at h ⊢
    exact dispDirM_total L top d es [d] h
termination_by (sizeOf e, 1)
theorem dispDirM_total (L : LookM (Except Exn)) (top : Bool) (d : Path) (es : List TreeEntry) (ps : List Path) {D : Disp}
    (h : dispDirM L top d es ps = .ok D) : dispDirM (m := Except Exn) (Look.lift L.total) top d es ps = .ok D := by
  match es with
  | [.dir c ces] =>
    have key : ∀ {D'}, dispM L false (.dir c ces) = .ok D' → dispM (m := Except Exn) (Look.lift L.total) false (.dir c ces) = .ok D' := fun h =>
      dispM_total L false (.dir c ces) h
    have step : ∀ {D'}, dispDirM L top c ces (ps ++ [c]) = .ok D' → dispDirM (m := Except Exn) (Look.lift L.total) top c ces (ps ++ [c]) = .ok D' := fun h =>
      dispDirM_total L top c ces (ps ++ [c]) h
    rw [dispDirM] at h ⊢
    have hcm : (Look.lift L.total : LookM (Except Exn)).compact = L.compact := rfl
    rw [hcm]
    split at h
    · rename_i hc
      rw [if_pos hc]
      obtain ⟨x, hx, h⟩ := except_bind_ok h
      rw [ext_total hx]
      cases x with
      | none => exact step h
      | some x =>
        obtain ⟨_, h1, h⟩ := except_bind_ok h
        obtain ⟨_, h2, h⟩ := except_bind_ok h
        have h1' := dirsTextM_total h1
        have h2' := key h2
        show (Except.ok _ >>= _) = _
        simp only [Except.bind, bind] at h1' h2' ⊢
        rw [h1', h2']
        exact h
    · rename_i hc
      rw [if_neg hc]
      obtain ⟨_, h1, h⟩ := except_bind_ok h
      obtain ⟨_, hx, h⟩ := except_bind_ok h
      obtain ⟨_, h2, h⟩ := except_bind_ok h
      rw [dirsTextM_total h1, ext_total hx, key h2]
      exact h
  | [] => exact dispDirM_other_total (by simp) (fun _ => dispKidsM_total L _) h
  | .file q a :: r => exact dispDirM_other_total (by simp) (fun _ => dispKidsM_total L (.file q a :: r)) h
  | .skipped q :: r => exact dispDirM_other_total (by simp) (fun _ => dispKidsM_total L (.skipped q :: r)) h
  | .maxDepth q :: r => exact dispDirM_other_total (by simp) (fun _ => dispKidsM_total L (.maxDepth q :: r)) h
  | .dir q a :: b :: r => exact dispDirM_other_total (by simp) (fun _ => dispKidsM_total L (.dir q a :: b :: r)) h
termination_by (sizeOf es, 3)
theorem dispKidsM_total (L : LookM (Except Exn)) (es : List TreeEntry) {Ds : List Disp} (h : dispKidsM L es = .ok Ds) :
    dispKidsM (m := Except Exn) (Look.lift L.total) es = .ok Ds := by
  match es with
  | [] => rw [dispKidsM] at h ⊢; exact h
  | e :: es =>
    rw [dispKidsM] at h ⊢
    obtain ⟨_, h1, h⟩ := except_bind_ok h
    obtain ⟨_, h2, h⟩ := except_bind_ok h
    rw [dispM_total L false e h1]
    rw [dispKidsM_total L es h2]
    exact h
termination_by (sizeOf es, 2)
end

/-- When labelling the entries succeeds, the result is the displayed tree of the total callbacks. -/
theorem dispM_ok_shows (L : LookM (Except Exn)) (t : TreeEntry) {D : Disp} (h : dispM L true t = .ok D) :
    Named t ∧ ∃ T, ShowsTop L.total t T ∧ D = T.toDisp L.total := by
  have hn := dispM_ok_named L true t h
  obtain ⟨T, hT⟩ := ShowsTop.exists L.total t
  have h' := dispM_total L true t h
  rw [dispM_top L.total t hn T hT] at h'
  exact ⟨hn, T, hT, (Except.ok.inj h').symm⟩

end JFTP.Spec

namespace JFTP.Spec

/-! ### Callbacks are only consulted on displayed paths -/

section
variable {m : Type → Type} [Monad m] [LawfulMonad m] [MonadExceptOf Exn m]

theorem mem_entryPaths_dir {q d : Path} {es : List TreeEntry} : q ∈ entryPaths (.dir d es) ↔ q = d ∨ ∃ e ∈ es, q ∈ entryPaths e := by
  have key : ∀ es : List TreeEntry, q ∈ (eventsAll es).filterMap id ↔ ∃ e ∈ es, q ∈ entryPaths e := by
    intro es
    induction es with
    | nil => simp [eventsAll]
    | cons e es ih => rw [eventsAll, List.filterMap_append, List.mem_append, ih]; simp [entryPaths]
  unfold entryPaths
  rw [events, List.filterMap_cons]
  simp only [id, List.mem_cons]
  rw [key]; rfl

/-- Two looks that agree on some paths. -/
def LookM.AgreeOn (L L' : LookM m) (ps : List Path) : Prop := L.compact = L'.compact ∧ ∀ q ∈ ps, L.emoji q = L'.emoji q ∧ L.ext q = L'.ext q

omit [LawfulMonad m] [MonadExceptOf Exn m] in
theorem LookM.AgreeOn.sub {L L' : LookM m} {ps qs : List Path} (h : L.AgreeOn L' ps) (hs : ∀ q ∈ qs, q ∈ ps) : L.AgreeOn L' qs :=
  ⟨h.1, fun q hq => h.2 q (hs q hq)⟩

omit [LawfulMonad m] in
theorem dirsTextM_congr {L L' : LookM m} {d : Path} (h : L.emoji d = L'.emoji d) (ps : List Path) : dirsTextM L.emoji d ps = dirsTextM L'.emoji d ps := by
  unfold dirsTextM; rw [h]

omit [LawfulMonad m] in
theorem dispDirM_other_congr {L L' : LookM m} {top : Bool} {d : Path} {es : List TreeEntry} {ps : List Path} (hes : ∀ c ces, es ≠ [.dir c ces])
    (h : L.emoji d = L'.emoji d ∧ L.ext d = L'.ext d) (ih : dispKidsM L es = dispKidsM L' es) : dispDirM L top d es ps = dispDirM L' top d es ps := by
  rw [dispDirM.eq_def, dispDirM.eq_def]
  split
  · exact absurd rfl (hes _ _)
  · rw [dirsTextM_congr h.1, h.2, ih]

mutual
theorem dispM_congr (L L' : LookM m) (top : Bool) (e : TreeEntry) (h : L.AgreeOn L' (entryPaths e)) : dispM L top e = dispM L' top e := by
  match e with
  | .file p a =>
    have hp := h.2 p (by simp [entryPaths, events])
    rw [dispM, dispM, hp.2]; unfold fileTextM; rw [hp.1]
  | .skipped p => rw [dispM, dispM]
  | .maxDepth n => rw [dispM, dispM]
  | .dir d es => rw [dispM, dispM]; exact dispDirM_congr L L' top d es [d] h
termination_by (sizeOf e, 1)
theorem dispDirM_congr (L L' : LookM m) (top : Bool) (d : Path) (es : List TreeEntry) (ps : List Path) (h : L.AgreeOn L' (entryPaths (.dir d es))) :
    dispDirM L top d es ps = dispDirM L' top d es ps := by
  have hd := h.2 d (mem_entryPaths_dir.2 (.inl rfl))
  match es with
  | [.dir c ces] =>
    have hc : L.AgreeOn L' (entryPaths (.dir c ces)) := h.sub (fun q hq => mem_entryPaths_dir.2 (.inr ⟨_, by simp, hq⟩))
    rw [dispDirM, dispDirM, h.1, hd.2, dispDirM_congr L L' top c ces (ps ++ [c]) hc, dispM_congr L L' false (.dir c ces) hc, dirsTextM_congr hd.1]
  | [] => exact dispDirM_other_congr (by simp) hd (dispKidsM_congr L L' _ (h.2 · <| mem_entryPaths_dir.2 <| .inr ·) h.1)
  | .file q a :: r => exact dispDirM_other_congr (by simp) hd (dispKidsM_congr L L' (.file q a :: r) (h.2 · <| mem_entryPaths_dir.2 <| .inr ·) h.1)
  | .skipped q :: r => exact dispDirM_other_congr (by simp) hd (dispKidsM_congr L L' (.skipped q :: r) (h.2 · <| mem_entryPaths_dir.2 <| .inr ·) h.1)
  | .maxDepth q :: r => exact dispDirM_other_congr (by simp) hd (dispKidsM_congr L L' (.maxDepth q :: r) (h.2 · <| mem_entryPaths_dir.2 <| .inr ·) h.1)
  | .dir q a :: b :: r => exact dispDirM_other_congr (by simp) hd (dispKidsM_congr L L' (.dir q a :: b :: r) (h.2 · <| mem_entryPaths_dir.2 <| .inr ·) h.1)
termination_by (sizeOf es, 3)
theorem dispKidsM_congr (L L' : LookM m) (es : List TreeEntry)
    (h : ∀ q, (∃ e ∈ es, q ∈ entryPaths e) → L.emoji q = L'.emoji q ∧ L.ext q = L'.ext q) (hc : L.compact = L'.compact) :
    dispKidsM L es = dispKidsM L' es := by
  match es with
  | [] => rw [dispKidsM, dispKidsM]
  | e :: es =>
    rw [dispKidsM, dispKidsM, dispM_congr L L' false e ⟨hc, fun q hq => h q ⟨e, by simp, hq⟩⟩,
      dispKidsM_congr L L' es (fun q ⟨x, hx, hq⟩ => h q ⟨x, by simp [hx], hq⟩) hc]
termination_by (sizeOf es, 2)
end

end

/-! ### Emojis do not influence which lines there are -/

theorem Chain.emoji_irrel {L : Look} (g : Path → Option JStr) {d es ds last es'} (h : Chain L d es ds last es') :
    Chain { L with emoji := g } d es ds last es' := by
  induction h with
  | stop h => exact .stop (fun c ces hm => h c ces hm)
  | step hm _ ih => exact .step hm ih

mutual
theorem Shows.emoji_irrel {L : Look} (g : Path → Option JStr) {e : TreeEntry} {T : ITree} (h : Shows L e T) : Shows { L with emoji := g } e T := by
  cases h with
  | file => exact .file
  | skipped => exact .skipped
  | maxDepth => exact .maxDepth
  | dir hc hk => exact .dir (hc.emoji_irrel g) (hk.emoji_irrel g)
theorem ShowsAll.emoji_irrel {L : Look} (g : Path → Option JStr) {es : List TreeEntry} {Ts : List ITree} (h : ShowsAll L es Ts) :
    ShowsAll { L with emoji := g } es Ts := by
  cases h with
  | nil => exact .nil
  | cons h hs => exact .cons (h.emoji_irrel g) (hs.emoji_irrel g)
end

theorem ShowsTop.emoji_irrel {L : Look} (g : Path → Option JStr) {e : TreeEntry} {T : ITree} (h : ShowsTop L e T) : ShowsTop { L with emoji := g } e T := by
  cases h with
  | dir hk => exact .dir (hk.emoji_irrel g)
  | other hn h => exact .other hn (h.emoji_irrel g)

/-! ### Without compact mode extensions do not either -/

theorem Chain.off_irrel {L L' : Look} (hL : L.compact = false) (hL' : L'.compact = false) {d es ds last es'} (h : Chain L d es ds last es') :
    Chain L' d es ds last es' := by
  cases h with
  | stop h => exact .stop (fun c ces hm => by have := hm.1; rw [hL'] at this; cases this)
  | step hm _ => have := hm.1; rw [hL] at this; cases this

mutual
theorem Shows.off_irrel {L L' : Look} (hL : L.compact = false) (hL' : L'.compact = false) {e : TreeEntry} {T : ITree} (h : Shows L e T) : Shows L' e T := by
  cases h with
  | file => exact .file
  | skipped => exact .skipped
  | maxDepth => exact .maxDepth
  | dir hc hk => exact .dir (hc.off_irrel hL hL') (hk.off_irrel hL hL')
theorem ShowsAll.off_irrel {L L' : Look} (hL : L.compact = false) (hL' : L'.compact = false) {es : List TreeEntry} {Ts : List ITree} (h : ShowsAll L es Ts) :
    ShowsAll L' es Ts := by
  cases h with
  | nil => exact .nil
  | cons h hs => exact .cons (h.off_irrel hL hL') (hs.off_irrel hL hL')
end

theorem ShowsTop.off_irrel {L L' : Look} (hL : L.compact = false) (hL' : L'.compact = false) {e : TreeEntry} {T : ITree} (h : ShowsTop L e T) : ShowsTop L' e T := by
  cases h with
  | dir hk => exact .dir (hk.off_irrel hL hL')
  | other hn h => exact .other hn (h.off_irrel hL hL')

end JFTP.Spec

namespace JFTP
open Spec

/-- The scanner's result stands for the scanned path, whatever the file system does. -/
theorem handle_top (fs : Fs (Except Exn)) (o : ScanOpts (Except Exn)) (k : Nat) (p : Path) (t : TreeEntry)
    (h : Scanner.handle fs o k p = .ok t) : entryPath t = some p := by
  rw [Scanner.handle] at h
  obtain ⟨b, _, h⟩ := except_bind_ok h
  split at h
  · split at h
    · cases h; rfl
    · unfold Scanner.handleDirectory at h
      obtain ⟨r, _, h⟩ := except_bind_ok h
      cases r with
      | openFailed => cases h
      | opened cs bad =>
        obtain ⟨es, _, h⟩ := except_bind_ok h
        cases h; rfl
  · unfold Scanner.handleFile at h
    obtain ⟨r, _, h⟩ := except_bind_ok h
    cases r with
    | none => cases h
    | some a => cases h; rfl

end JFTP
