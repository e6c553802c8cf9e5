import Verif.Spec.Items
import Verif.Lemmas.Render

/-
Which calls a logging extension function receives.
-/

namespace JFTP.Spec

variable {σ : Type}

/-- Computations with a call log and an arbitrary other state. -/
abbrev LogM (σ : Type) := ExceptT Exn (StateM (List Path × σ))

/-- Run from log `l` and state `s`: result, log and state afterwards. -/
def LogM.exec {α : Type} (x : LogM σ α) (l : List Path) (s : σ) : Except Exn α × (List Path × σ) := (ExceptT.run x).run (l, s)

/-- An action of the rest of the world: it may use and change the other state and throw, and cannot touch the log. -/
def silent {α : Type} (g : σ → Except Exn α × σ) : LogM σ α :=
  ExceptT.mk (fun st => let r := g st.2; (r.1, (st.1, r.2)))

/-- A stateful extension function that also records the paths it is called with. -/
def recording (g : Path → σ → Except Exn (Option JStr) × σ) : ExtFn (LogM σ) := fun p => do
  modify (fun st => (st.1 ++ [p], st.2))
  silent (g p)

/-- `x` logs exactly `tr` when it succeeds and a prefix of `tr` when it throws. -/
def Logs {α : Type} (x : LogM σ α) (tr : List Path) : Prop :=
  ∀ l s, match x.exec l s with
    | (.ok _, (l', _)) => l' = l ++ tr
    | (.error _, (l', _)) => ∃ pre, pre <+: tr ∧ l' = l ++ pre

theorem Logs.pure {α : Type} (a : α) : Logs (pure a : LogM σ α) [] := by
  intro l s
  simp [LogM.exec, ExceptT.run, Pure.pure, ExceptT.pure, ExceptT.mk, StateT.run, StateT.pure]

theorem exec_bind {α β : Type} (x : LogM σ α) (f : α → LogM σ β) (l : List Path) (s : σ) :
    (x >>= f).exec l s = match x.exec l s with
      | (.ok a, (l', s')) => (f a).exec l' s'
      | (.error e, st) => (.error e, st) := by
  unfold LogM.exec
  rw [ExceptT.run_bind]
  simp only [StateT.run_bind]
  show (match (ExceptT.run x).run (l, s) with | (a, st) => _) = _
  obtain ⟨r, l', s'⟩ := (ExceptT.run x).run (l, s)
  cases r <;> rfl

theorem Logs.bind {α β : Type} {x : LogM σ α} {f : α → LogM σ β} {t1 t2 : List Path} (h1 : Logs x t1) (h2 : ∀ a, Logs (f a) t2) :
    Logs (x >>= f) (t1 ++ t2) := by
  intro l s
  rw [exec_bind]
  have h := h1 l s
  rcases hx : x.exec l s with ⟨r, l', s'⟩
  rw [hx] at h
  cases r with
  | error e =>
    obtain ⟨pre, hp, he⟩ := h
    exact ⟨pre, hp.trans (List.prefix_append _ _), he⟩
  | ok a =>
    have h := h; simp only at h
    subst h
    have h' := h2 a (l ++ t1) s'
    rcases hy : (f a).exec (l ++ t1) s' with ⟨r, l2, s2⟩
    rw [hy] at h'
    simp only
    rw [hy]
    cases r with
    | ok b => simp only at h' ⊢; rw [h', List.append_assoc]
    | error e =>
      obtain ⟨pre, hp, he⟩ := h'
      exact ⟨t1 ++ pre, (List.prefix_append_right_inj t1).2 hp, by rw [he, List.append_assoc]⟩

theorem Logs.silent {α : Type} (g : σ → Except Exn α × σ) : Logs (silent g) [] := by
  intro l s
  simp only [LogM.exec, JFTP.Spec.silent, ExceptT.run, ExceptT.mk, StateT.run]
  split
  · rename_i h; injection h with _ h; injection h with h _; simp [← h]
  · rename_i h; injection h with _ h; injection h with h _; exact ⟨[], List.nil_prefix, by simp [← h]⟩

theorem Logs.recording (g : Path → σ → Except Exn (Option JStr) × σ) (p : Path) : Logs (recording g p) [p] := by
  have h1 : Logs (modify (fun st => (st.1 ++ [p], st.2)) : LogM σ PUnit) [p] := by
    intro l s
    rfl
  exact h1.bind (fun _ => Logs.silent (g p))

theorem Logs.throw {α : Type} (e : Exn) : Logs (throw e : LogM σ α) [] := by
  intro l s
  exact ⟨[], List.nil_prefix, by simp⟩

theorem Logs.congr {α : Type} {x : LogM σ α} {t t' : List Path} (h : Logs x t) (e : t = t') : Logs x t' := e ▸ h

theorem logs_namesM (ds : List Path) : Logs (namesM (m := LogM σ) ds) [] := by
  induction ds with
  | nil => exact .pure _
  | cons d ds ih =>
    unfold namesM
    dsimp only
    cases d.names.getLast? with
    | none => exact Logs.bind (t1 := []) (.throw _) (fun _ => Logs.bind (t1 := []) ih (fun _ => .pure _))
    | some n => exact Logs.bind (t1 := []) (.pure _) (fun _ => Logs.bind (t1 := []) ih (fun _ => .pure _))

variable (L : LookM (LogM σ)) (g : Path → σ → Except Exn (Option JStr) × σ)
  (he : ∀ p, Logs (L.emoji p) []) (hx : ∀ p, Logs (L.ext p) [p])

include he in
theorem logs_dirBegin (d : Path) (ds : List Path) : Logs (dirsTextM L.emoji d ds) [] := by
  unfold dirsTextM
  exact Logs.bind (t1 := []) (he d) (fun _ => Logs.bind (t1 := []) (logs_namesM ds) (fun _ => .pure _))

include he in
theorem logs_file (p : Path) (a : Attrs) : Logs (fileTextM L.emoji p a) [] := by
  unfold fileTextM
  refine Logs.bind (t1 := []) (he p) (fun _ => Logs.bind (t1 := []) ?_ (fun _ => .pure _))
  unfold nameM
  cases p.names.getLast? with
  | none => exact .throw _
  | some n => exact .pure _

/-- The directories and files of a list of entries in preorder. -/
def pathsAll (es : List TreeEntry) : List Path := (eventsAll es).filterMap id

theorem entryPaths_dir (d : Path) (es : List TreeEntry) : entryPaths (.dir d es) = d :: pathsAll es := by
  simp [entryPaths, events, pathsAll]

theorem pathsAll_cons (e : TreeEntry) (es : List TreeEntry) : pathsAll (e :: es) = entryPaths e ++ pathsAll es := by
  simp [entryPaths, eventsAll, pathsAll, List.filterMap_append]

include he hx
mutual
theorem logs_dispM (top : Bool) (t : TreeEntry) : Logs (dispM L top t) (entryPaths t) := by
  match t with
  | .dir d es =>
    rw [dispM, entryPaths_dir]
    exact logs_dispDirM top d es [d]
  | .file p a =>
    rw [dispM]
    exact Logs.bind (t1 := []) (logs_file L he p a) (fun _ => Logs.bind (t1 := [p]) (hx p) (fun _ => .pure _))
  | .skipped _ => rw [dispM]; exact .pure _
  | .maxDepth _ => rw [dispM]; exact .pure _
termination_by (sizeOf t, 1)
theorem logs_dispDirM (top : Bool) (d : Path) (es : List TreeEntry) (ps : List Path) :
    Logs (dispDirM L top d es ps) (d :: pathsAll es) := by
  have other : Logs (do
      let names ← dirsTextM L.emoji d ps
      let x ← L.ext d
      let ks ← dispKidsM L es
      return Disp.node (names ++ x.getD []) ks) (d :: pathsAll es) :=
    (Logs.bind (t1 := []) (logs_dirBegin L he d ps) (fun _ => Logs.bind (t1 := [d]) (hx d) (fun _ =>
      Logs.bind (logs_dispKidsM es) (fun _ => .pure _)))).congr (by simp)
  match es with
  | [.dir c ces] =>
    have kid := logs_dispM false (.dir c ces)
    have step := logs_dispDirM top c ces (ps ++ [c])
    have e : pathsAll [.dir c ces] = entryPaths (.dir c ces) := by rw [pathsAll_cons]; simp [pathsAll, eventsAll]
    rw [dispDirM.eq_def]
    dsimp only
    split
    · refine Logs.bind (t1 := [d]) (t2 := pathsAll [.dir c ces]) (hx d) (fun r => ?_)
      cases r with
      | none => simp only; rw [e, entryPaths_dir]; exact step
      | some x =>
        simp only
        exact (Logs.bind (t1 := []) (logs_dirBegin L he d ps) (fun _ => Logs.bind kid (fun _ => .pure _))).congr (by simp [e])
    · exact (Logs.bind (t1 := []) (logs_dirBegin L he d ps) (fun _ => Logs.bind (t1 := [d]) (hx d) (fun _ =>
        Logs.bind kid (fun _ => .pure _)))).congr (by simp [e])
  | [] => rw [dispDirM.eq_def]; exact other
  | .file _ _ :: _ => rw [dispDirM.eq_def]; exact other
  | .skipped _ :: _ => rw [dispDirM.eq_def]; exact other
  | .maxDepth _ :: _ => rw [dispDirM.eq_def]; exact other
  | .dir _ _ :: _ :: _ => rw [dispDirM.eq_def]; exact other
termination_by (sizeOf es, 3)
theorem logs_dispKidsM (es : List TreeEntry) : Logs (dispKidsM L es) (pathsAll es) := by
  match es with
  | [] => rw [dispKidsM]; exact .pure _
  | e :: rest =>
    rw [dispKidsM, pathsAll_cons]
    exact (Logs.bind (logs_dispM false e) (fun _ => Logs.bind (logs_dispKidsM rest) (fun _ => .pure _))).congr (by simp)
termination_by (sizeOf es, 2)
end

end JFTP.Spec
