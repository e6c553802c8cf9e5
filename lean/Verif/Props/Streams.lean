import Verif.Props.Printed
import Verif.Spec.Streams

/-!
C69: directory streams are closed.
-/

namespace JFTP
open Spec

/-! ### Records -/

theorem Spec.Nested.mono {n k : Nat} {w : List Ev} (h : Nested n w) (hk : n ≤ k) : Nested k w := by
  induction h generalizing k with
  | nil => exact .nil
  | stream _ _ ih1 ih2 =>
    cases k with
    | zero => omega
    | succ k => exact .stream (ih1 (by omega)) (ih2 (by omega))

theorem Spec.Nested.append {n : Nat} {w w' : List Ev} (h : Nested n w) (h' : Nested n w') : Nested n (w ++ w') := by
  induction h with
  | nil => exact h'
  | stream h1 _ _ ih2 =>
    have := Nested.stream (p := by assumption) h1 (ih2 h')
    simpa using this

section
variable {σ : Type} {α β : Type}

theorem Spec.Closes.mono {n k : Nat} {x : StreamM σ α} (h : Closes n x) (hk : n ≤ k) : Closes k x := by
  intro l s
  obtain ⟨w, h1, h2⟩ := h l s
  exact ⟨w, h1, h2.mono hk⟩

theorem closes_pure (n : Nat) (a : α) : Closes n (pure a : StreamM σ α) := fun l s => ⟨[], by simp [ExceptT.run, Pure.pure, ExceptT.pure, ExceptT.mk, StateT.run, StateT.pure], .nil⟩

theorem closes_throw (n : Nat) (e : Exn) : Closes n (throw e : StreamM σ α) := fun l s => ⟨[], by simp [throw, throwThe, MonadExceptOf.throw, ExceptT.run, Pure.pure, ExceptT.mk, StateT.run, StateT.pure], .nil⟩

theorem closes_outside (n : Nat) (x : WorldM σ α) : Closes n (outside x) := fun l s => ⟨[], by simp [outside, ExceptT.run, ExceptT.mk, StateT.run], .nil⟩

theorem run_bind (x : StreamM σ α) (f : α → StreamM σ β) (st : List Ev × σ) :
    (ExceptT.run (x >>= f)).run st = match (ExceptT.run x).run st with
      | (.ok a, st') => (ExceptT.run (f a)).run st'
      | (.error e, st') => (.error e, st') := by
  rw [ExceptT.run_bind]
  simp only [StateT.run_bind]
  show (match (ExceptT.run x).run st with | (a, st) => _) = _
  obtain ⟨r, st'⟩ := (ExceptT.run x).run st
  cases r <;> rfl

theorem Spec.Closes.bind {n : Nat} {x : StreamM σ α} {f : α → StreamM σ β} (h1 : Closes n x) (h2 : ∀ a, Closes n (f a)) : Closes n (x >>= f) := by
  intro l s
  rw [run_bind]
  obtain ⟨w, hw, hn⟩ := h1 l s
  rcases hx : (ExceptT.run x).run (l, s) with ⟨r, l', s'⟩
  rw [hx] at hw
  simp only at hw
  subst hw
  cases r with
  | error e => exact ⟨w, rfl, hn⟩
  | ok a =>
    obtain ⟨w', hw', hn'⟩ := h2 a (l ++ w) s'
    exact ⟨w ++ w', by rw [hw', List.append_assoc], hn.append hn'⟩

theorem Spec.Closes.map {n : Nat} {x : StreamM σ α} (f : α → β) (h1 : Closes n x) : Closes n (f <$> x) := by
  rw [map_eq_pure_bind]
  exact h1.bind (fun a => closes_pure n _)

theorem closes_ite {n : Nat} {c : Prop} [Decidable c] {x y : StreamM σ α} (hx : Closes n x) (hy : Closes n y) : Closes n (if c then x else y) := by
  split <;> assumption

theorem run_try (body : StreamM σ α) (st : List Ev × σ) :
    (ExceptT.run (tryCatch (Except.ok <$> body) (fun e => pure (Except.error e)) : StreamM σ (Except Exn α))).run st =
      (.ok ((ExceptT.run body).run st).1, ((ExceptT.run body).run st).2) := by
  show (ExceptT.run (ExceptT.tryCatch (Except.ok <$> body) (fun e => pure (Except.error e)) : StreamM σ (Except Exn α))).run st = _
  unfold ExceptT.tryCatch
  have h2 : (ExceptT.run (Except.ok <$> body : StreamM σ (Except Exn α))).run st =
      (match ((ExceptT.run body).run st).1 with | .ok a => .ok (.ok a) | .error e => .error e, ((ExceptT.run body).run st).2) := by
    rw [map_eq_pure_bind, run_bind]
    rcases (ExceptT.run body).run st with ⟨r, st'⟩
    cases r <;> rfl
  show (StateT.run (ExceptT.run (Except.ok <$> body) >>= _) st) = _
  rw [StateT.run_bind, h2]
  rcases (ExceptT.run body).run st with ⟨r, st'⟩
  cases r <;> rfl

/-- What `tryWithResource` does: the body, then the closing, whose failure counts only if the body succeeded. -/
theorem run_tryWith (body : StreamM σ α) (close : StreamM σ Bool) (e : Exn) (st : List Ev × σ) :
    (ExceptT.run (tryWithResource body close e)).run st =
      match (ExceptT.run body).run st with
      | (r, st') => match (ExceptT.run close).run st' with
        | (.error e', st'') => (.error e', st'')
        | (.ok c, st'') => (match r with | .error e' => .error e' | .ok v => if c then .ok v else .error e, st'') := by
  unfold tryWithResource
  rw [run_bind, run_try]
  rcases (ExceptT.run body).run st with ⟨r, st'⟩
  simp only
  rw [run_bind]
  rcases (ExceptT.run close).run st' with ⟨c, st''⟩
  cases c with
  | error e' => rfl
  | ok c => cases r with
    | error e' => rfl
    | ok v => cases c <;> rfl

theorem run_emit (e : Ev) (l : List Ev) (s : σ) : (ExceptT.run (emit e : StreamM σ Unit)).run (l, s) = (.ok (), (l ++ [e], s)) := rfl

/-- What `tryWithResource` does to the record: the body, then the closing. -/
theorem closes_tryWith {n : Nat} (p : Path) (body : StreamM σ α) {close : StreamM σ Bool} (e : Exn) (hb : Closes n body)
    (hc : ∀ l s, ((ExceptT.run close).run (l, s)).2.1 = l ++ [.closed p]) (l : List Ev) (s : σ) :
    ∃ w, ((ExceptT.run (tryWithResource body close e)).run (l, s)).2.1 = l ++ w ++ [.closed p] ∧ Nested n w := by
  obtain ⟨w, hw, hn⟩ := hb l s
  refine ⟨w, ?_, hn⟩
  rw [run_tryWith]
  rcases hx : (ExceptT.run body).run (l, s) with ⟨r, l', s'⟩
  rw [hx] at hw
  simp only at hw
  subst hw
  simp only
  have h2 := hc (l ++ w) s'
  rcases hy : (ExceptT.run close).run (l ++ w, s') with ⟨c, st''⟩
  rw [hy] at h2
  cases c <;> exact h2

theorem closes_stream {n : Nat} {x : WorldM σ Listing} {p : Path} (f : Listing → StreamM σ α) (e : Exn) (hfail : Closes (n + 1) (f .openFailed))
    (hf : ∀ cs bad, ∃ (γ : Type) (body : StreamM σ γ) (close : StreamM σ Bool) (k : γ → StreamM σ α), f (.opened cs bad) = tryWithResource body close e >>= k ∧ Closes n body ∧
      (∀ l s, ((ExceptT.run close).run (l, s)).2.1 = l ++ [.closed p]) ∧ ∀ a, Closes (n + 1) (k a)) :
    Closes (n + 1) (openRecorded x p >>= f) := by
  intro l s
  rw [run_bind]
  have h0 := closes_outside 0 x l s
  have h1 : (ExceptT.run (openRecorded x p)).run (l, s) = match (ExceptT.run (outside x)).run (l, s) with
      | (.ok (.opened cs bad), (l', s')) => (.ok (.opened cs bad), (l' ++ [.opened p], s'))
      | (.ok .openFailed, st) => (.ok .openFailed, st)
      | (.error e, st) => (.error e, st) := by
    unfold openRecorded
    rw [run_bind]
    rcases (ExceptT.run (outside x)).run (l, s) with ⟨r, l', s'⟩
    cases r with
    | error e => rfl
    | ok v => cases v <;> rfl
  rw [h1]
  have hw : ((ExceptT.run (outside x)).run (l, s)).2.1 = l := rfl
  rcases hx : (ExceptT.run (outside x)).run (l, s) with ⟨r, l', s'⟩
  rw [hx] at hw
  simp only at hw
  subst hw
  cases r with
  | error e => exact ⟨[], by simp, .nil⟩
  | ok v =>
    cases v with
    | openFailed => exact hfail l' s'
    | opened cs bad =>
      simp only
      obtain ⟨γ, body, close, k, h2, hb, hc, hk⟩ := hf cs bad
      rw [h2, run_bind]
      obtain ⟨w, hw, hn⟩ := closes_tryWith p body e hb hc (l' ++ [.opened p]) s'
      rcases hy : (ExceptT.run (tryWithResource body close e)).run (l' ++ [.opened p], s') with ⟨r, l2, s2⟩
      rw [hy] at hw
      simp only at hw
      subst hw
      simp only [hy]
      cases r with
      | error e' => exact ⟨.opened p :: w ++ .closed p :: [], by simp, .stream hn .nil⟩
      | ok v =>
        obtain ⟨w2, hw2, hn2⟩ := hk v (l' ++ [.opened p] ++ w ++ [.closed p]) s2
        refine ⟨.opened p :: w ++ .closed p :: w2, ?_, .stream hn hn2⟩
        simp only [hw2]; simp

/-! ### Scanner -/

theorem closes_filterEntries {n : Nat} {f : Matcher (StreamM σ)} (h : ∀ p, Closes n (f p)) (cs : List Path) : Closes n (Scanner.filterEntries f cs) := by
  induction cs with
  | nil => exact closes_pure _ _
  | cons c cs ih => exact (h c).bind (fun _ => ih.bind (fun _ => closes_pure _ _))

theorem closes_childLoop {n : Nat} {v : Path → StreamM σ TreeEntry} (h : ∀ p, Closes n (v p)) (lim : Int) (ps : List Path) : ∀ i, Closes n (Scanner.childLoop v lim i ps) := by
  induction ps with
  | nil => intro i; exact closes_pure _ _
  | cons c ps ih =>
    intro i
    unfold Scanner.childLoop
    exact closes_ite (closes_pure _ _) ((h c).bind (fun _ => (ih _).bind (fun _ => closes_pure _ _)))

theorem closes_children {n : Nat} {o : ScanOpts (StreamM σ)} {v : Path → StreamM σ TreeEntry} (hl : ∀ p, Closes n (o.childLimit p)) (hf : ∀ p, Closes n (o.pathFilter p))
    (hv : ∀ p, Closes n (v p)) (dir : Path) (cs : List Path) (bad : Bool) : Closes n (Scanner.handleDirectoryChildren o v dir cs bad) := by
  unfold Scanner.handleDirectoryChildren
  refine (hl dir).bind (fun _ => (closes_filterEntries hf cs).bind (fun _ => ?_))
  cases bad
  · exact (closes_childLoop hv _ _ _).bind (fun _ => closes_pure _ _)
  · exact (closes_throw n _).bind (fun _ => (closes_childLoop hv _ _ _).bind (fun _ => closes_pure _ _))

theorem closes_closeDir (fs : StreamFs (WorldM σ)) (p : Path) (l : List Ev) (s : σ) :
    ((ExceptT.run ((recordedFs fs).closeDir p)).run (l, s)).2.1 = l ++ [.closed p] := by
  show ((ExceptT.run (emit (.closed p) >>= fun _ => outside (fs.closeDir p))).run (l, s)).2.1 = _
  rw [run_bind, run_emit]
  rfl

theorem closes_closeWalk (fs : StreamFs (WorldM σ)) (p : Path) (l : List Ev) (s : σ) :
    ((ExceptT.run (do (recordedFs fs).closeWalk p; return true)).run (l, s)).2.1 = l ++ [.closed p] := by
  show ((ExceptT.run ((emit (.closed p) >>= fun _ => outside (fs.closeWalk p)) >>= fun _ => pure true)).run (l, s)).2.1 = _
  rw [run_bind, run_bind, run_emit]
  simp only
  have : ((ExceptT.run (outside (fs.closeWalk p))).run (l ++ [.closed p], s)).2.1 = l ++ [.closed p] := rfl
  rcases hx : (ExceptT.run (outside (fs.closeWalk p))).run (l ++ [.closed p], s) with ⟨r, l', s'⟩
  rw [hx] at this
  simp only [hx]
  cases r <;> exact this

theorem closes_handle (fs : StreamFs (WorldM σ)) {k : Nat} {o : ScanOpts (StreamM σ)} (hl : ∀ p, Closes k (o.childLimit p)) (hf : ∀ p, Closes k (o.pathFilter p)) (d : Nat) (p : Path) :
    Closes ((o.maxDepth - d).toNat + k) (StreamScanner.handle (recordedFs fs) o d p) := by
  rw [StreamScanner.handle]
  refine (closes_outside _ _).bind (fun b => ?_)
  cases b with
  | false =>
    refine (closes_outside _ _).bind (fun a => ?_)
    cases a with
    | none => exact closes_throw _ _
    | some a => exact closes_pure _ _
  | true =>
    simp only [if_true]
    split
    · exact closes_pure _ _
    · rename_i h
      have he : (o.maxDepth - d).toNat + k = ((o.maxDepth - (d + 1 : Nat)).toNat + k) + 1 := by omega
      have ih : ∀ c, Closes ((o.maxDepth - (d + 1 : Nat)).toNat + k) (StreamScanner.handle (recordedFs fs) o (d + 1) c) := fun c => closes_handle fs hl hf (d + 1) c
      rw [he]
      unfold StreamScanner.handleDirectory
      refine closes_stream _ (Exn.cannotList p) (closes_throw _ _) (fun cs bad => ?_)
      exact ⟨_, _, _, _, rfl, closes_children (fun q => (hl q).mono (by omega)) (fun q => (hf q).mono (by omega)) ih p cs bad, closes_closeDir fs p, fun _ => closes_pure _ _⟩
termination_by (o.maxDepth - d).toNat
decreasing_by omega

/-! ### Renderer -/

theorem closes_nameM {n : Nat} (p : Path) : Closes n (nameM p : StreamM σ JStr) := by
  unfold nameM
  split
  · exact closes_pure _ _
  · exact closes_throw _ _

theorem closes_namesM {n : Nat} (ds : List Path) : Closes n (namesM ds : StreamM σ JStr) := by
  induction ds with
  | nil => exact closes_pure _ _
  | cons d ds ih =>
    unfold namesM
    cases d.names.getLast? with
    | some x => exact (closes_pure _ _).bind (fun _ => ih.bind (fun _ => closes_pure _ _))
    | none => exact (closes_throw _ _).bind (fun _ => ih.bind (fun _ => closes_pure _ _))

section
variable {n : Nat} {L : LookM (StreamM σ)} (he : ∀ p, Closes n (L.emoji p)) (hx : ∀ p, Closes n (L.ext p))
include he

theorem closes_dirsTextM (d : Path) (ds : List Path) : Closes n (dirsTextM L.emoji d ds) :=
  (he d).bind (fun _ => (closes_namesM ds).bind (fun _ => closes_pure _ _))

theorem closes_fileTextM (p : Path) (a : Attrs) : Closes n (fileTextM L.emoji p a) :=
  (he p).bind (fun _ => (closes_nameM p).bind (fun _ => closes_pure _ _))

include hx

mutual
theorem closes_dispM (top : Bool) (e : TreeEntry) : Closes n (dispM L top e) := by
  match e with
  | .dir d es => rw [dispM]; exact closes_dispDirM top d es [d]
  | .file p a => rw [dispM]; exact (closes_fileTextM he p a).bind (fun _ => (hx p).bind (fun _ => closes_pure _ _))
  | .skipped _ => rw [dispM]; exact closes_pure _ _
  | .maxDepth _ => rw [dispM]; exact closes_pure _ _
termination_by (sizeOf e, 1)
theorem closes_dispDirM (top : Bool) (d : Path) (es : List TreeEntry) (merged : List Path) : Closes n (dispDirM L top d es merged) := by
  have hother : Closes n (do
      let names ← dirsTextM L.emoji d merged
      let x ← L.ext d
      let ks ← dispKidsM L es
      return Disp.node (names ++ x.getD []) ks) :=
    (closes_dirsTextM he d merged).bind (fun _ => (hx d).bind (fun _ => (closes_dispKidsM es).bind (fun _ => closes_pure _ _)))
  rw [dispDirM.eq_def]
  split
  · rename_i c ces
    have h1 := closes_dispDirM top c ces (merged ++ [c])
    have h2 := closes_dispM false (.dir c ces)
    split
    · refine (hx d).bind (fun x => ?_)
      cases x with
      | none => exact h1
      | some x => exact (closes_dirsTextM he d merged).bind (fun _ => h2.bind (fun _ => closes_pure _ _))
    · exact (closes_dirsTextM he d merged).bind (fun _ => (hx d).bind (fun _ => h2.bind (fun _ => closes_pure _ _)))
  · exact hother
termination_by (sizeOf es, 3)
theorem closes_dispKidsM (es : List TreeEntry) : Closes n (dispKidsM L es) := by
  match es with
  | [] => rw [dispKidsM]; exact closes_pure _ _
  | e :: rest =>
    rw [dispKidsM]
    exact (closes_dispM false e).bind (fun _ => (closes_dispKidsM rest).bind (fun _ => closes_pure _ _))
termination_by (sizeOf es, 2)
end
end

/-! ### C69 -/

theorem closes_pathFilter (fs : StreamFs (WorldM σ)) {k : Nat} {o : Options (StreamM σ)} (ho : ClosingCallbacks k o) (p : Path) : Closes k (o.pathFilter (recordedFs fs).toFs p) := by
  refine (closes_outside _ _).bind (fun b => ?_)
  cases b
  · exact ho.fileMatcher p
  · exact ho.dirMatcher p

/-- **C69**: whatever the file system and other processes do (the state `σ` is arbitrary, and so is every answer, including failures of `close()`), and whether `prettyPrint` returns or throws, each directory
stream it opened has been closed exactly once, in reverse order of opening, and never more than `max 0 maxDepth` of its streams were open at the same time (plus those of the callbacks, which are assumed to close
theirs). -/
theorem C69_streams_closed (fs : StreamFs (WorldM σ)) (cwd : Path) (o : Options (StreamM σ)) (k : Nat) (ho : ClosingCallbacks k o) (p : Path) :
    Closes (o.maxDepth.toNat + k) (StreamScanner.prettyPrint (recordedFs fs) cwd o p) := by
  unfold StreamScanner.prettyPrint
  refine Closes.bind ?_ (fun t => ?_)
  · have h := closes_handle fs (k := k) (o := o.toScan (recordedFs fs).toFs) ho.childLimit (closes_pathFilter fs ho) 0
      (((p.toAbsolutePath cwd).normalize).normalize.toAbsolutePath cwd)
    refine h.mono ?_
    show (o.maxDepth - (0 : Nat)).toNat + k ≤ _
    simp
  · rw [C01_render_is_picture_effectful]
    refine Closes.map _ ((closes_dispM ho.emojiMapping ?_ true t).mono (by omega))
    intro q
    show Closes k (extensionOf o.toRender q)
    unfold extensionOf
    cases hg : o.lineExtension with
    | none =>
      have : o.toRender.lineExtension = none := hg
      rw [this]
      exact closes_pure _ _
    | some g =>
      have : o.toRender.lineExtension = some g := hg
      rw [this]
      exact ho.lineExtension g hg q

theorem closes_walkTest {n : Nat} (fs : StreamFs (WorldM σ)) (incl : Path → Bool) {test : Matcher (StreamM σ)} (h : ∀ p, Closes n (test p)) (d : Nat) :
    ∀ p, Closes n (PathMatchers.walkTest (recordedFs fs).toFs incl test d p) := by
  have htest : ∀ p, Closes n (if incl p then test p else pure false) := fun p => closes_ite (h p) (closes_pure _ _)
  induction d with
  | zero =>
    intro p
    unfold PathMatchers.walkTest
    refine (closes_outside _ _).bind (fun b => ?_)
    cases b
    · exact closes_throw _ _
    · exact htest p
  | succ d ih =>
    intro p
    unfold PathMatchers.walkTest
    refine (closes_outside _ _).bind (fun b => ?_)
    rcases b with _ | _ | _
    · exact closes_throw _ _
    · exact htest p
    · refine (closes_outside _ _).bind (fun l => ?_)
      cases l with
      | openFailed => exact closes_throw _ _
      | opened cs bad =>
        refine (htest p).bind (fun b => ?_)
        cases b
        · exact closes_walkEntries _ _ ih cs
        · exact closes_pure _ _
where
  closes_walkEntries (dir : Path) (bad : Bool) {v : Path → StreamM σ Bool} (hv : ∀ p, Closes n (v p)) (cs : List Path) : Closes n (PathMatchers.walkEntries dir bad v cs) := by
    induction cs with
    | nil => cases bad; exacts [closes_pure _ _, closes_throw _ _]
    | cons c cs ih =>
      unfold PathMatchers.walkEntries
      refine (hv c).bind (fun b => ?_)
      cases b
      · exact ih
      · exact closes_pure _ _

theorem closes_testDescendants {n : Nat} (fs : StreamFs (WorldM σ)) (p : Path) (d : Nat) {test : Matcher (StreamM σ)} (h : ∀ p, Closes n (test p)) (incl : Path → Bool) :
    Closes (n + 1) (StreamScanner.testDescendants (recordedFs fs) p d test incl) := by
  unfold StreamScanner.testDescendants
  refine (closes_outside _ _).bind (fun b => ?_)
  cases b
  · exact closes_pure _ _
  refine (closes_outside _ _).bind (fun b => ?_)
  rcases b with _ | _ | _
  · exact (closes_throw _ _)
  · exact closes_pure _ _
  · refine closes_stream _ (Exn.cannotWalk p) (closes_throw _ _) (fun cs bad => ?_)
    refine ⟨_, _, _, pure, (bind_pure _).symm, closes_walkTest.closes_walkEntries p bad (closes_walkTest fs incl h (d - 1)) cs, closes_closeWalk fs p, fun _ => closes_pure _ _⟩

/-- **C69**: the matchers that look at other entries close the stream they open, also when the search stops early at the first match or the nested matcher throws. -/
theorem C69_matchers_close (fs : StreamFs (WorldM σ)) (n : Nat) (test : Matcher (StreamM σ)) (h : ∀ p, Closes n (test p)) (p : Path) :
    Closes (n + 1) (StreamScanner.hasAnyDirectChildMatching (recordedFs fs) test p) ∧ Closes (n + 1) (StreamScanner.hasAnyDescendantMatching (recordedFs fs) test p) ∧
    Closes (n + 1) (StreamScanner.hasSiblingMatching (recordedFs fs) test p) := by
  refine ⟨closes_testDescendants _ _ _ h _, closes_testDescendants _ _ _ h _, ?_⟩
  unfold StreamScanner.hasSiblingMatching
  split
  · exact closes_testDescendants _ _ _ h _
  · exact closes_pure _ _

end

/-- Is the event an opening? -/
def Spec.Ev.isOpen : Ev → Bool
  | .opened _ => true
  | .closed _ => false

theorem nested_total {n : Nat} {w : List Ev} (h : Nested n w) : (∀ p, w.count (.opened p) = w.count (.closed p)) ∧ w.countP Ev.isOpen = w.countP (fun e => !e.isOpen) := by
  induction h with
  | nil => simp
  | @stream n p inside after _ _ ih1 ih2 =>
    constructor
    · intro q
      have h1 := ih1.1 q
      have h2 := ih2.1 q
      simp only [List.cons_append, List.count_cons, List.count_append, beq_iff_eq, reduceCtorEq, Ev.opened.injEq, Ev.closed.injEq, if_false, h1, h2]
      omega
    · have h1 := ih1.2
      have h2 := ih2.2
      simp only [List.cons_append, List.countP_cons, List.countP_append, Ev.isOpen, h1, h2]
      simp
      omega

theorem prefix_append_cases {α : Type} {pre a b : List α} (h : pre <+: a ++ b) : pre <+: a ∨ ∃ t, pre = a ++ t ∧ t <+: b := by
  rcases List.prefix_or_prefix_of_prefix h (List.prefix_append a b) with h1 | ⟨t, rfl⟩
  · exact .inl h1
  · exact .inr ⟨t, rfl, (List.prefix_append_right_inj a).1 h⟩

/-- **C69**, spelled out: in a nested record every path has as many closings as openings; at every moment no stream has been closed more often than opened and at most `n` streams are open. -/
theorem C69_nested_counts {n : Nat} {w : List Ev} (h : Nested n w) : (∀ p, w.count (.opened p) = w.count (.closed p)) ∧
    ∀ pre, pre <+: w → (∀ p, pre.count (.closed p) ≤ pre.count (.opened p)) ∧ pre.countP Ev.isOpen ≤ pre.countP (fun e => !e.isOpen) + n := by
  refine ⟨(nested_total h).1, ?_⟩
  induction h with
  | nil => intro pre hp; simp [List.prefix_nil.1 hp]
  | @stream n p inside after hi _ ih1 ih2 =>
    intro pre hp
    cases pre with
    | nil => simp
    | cons e pre =>
      have hp0 : e :: pre <+: Ev.opened p :: (inside ++ Ev.closed p :: after) := by simpa using hp
      obtain ⟨rfl, hp'⟩ := List.cons_prefix_cons.1 hp0
      have key : (∀ q, pre.count (.closed q) ≤ pre.count (.opened q) + (if q = p then 1 else 0)) ∧ pre.countP Ev.isOpen ≤ pre.countP (fun e => !e.isOpen) + n := by
        rcases prefix_append_cases hp' with hp | ⟨t, rfl, ht⟩
        · obtain ⟨h1, h2⟩ := ih1 pre hp
          exact ⟨fun q => by have := h1 q; omega, h2⟩
        · obtain ⟨h1, h2⟩ := nested_total hi
          cases t with
          | nil =>
            simp only [List.append_nil]
            exact ⟨fun q => by rw [h1 q]; omega, by omega⟩
          | cons e t =>
            obtain ⟨rfl, ht'⟩ := List.cons_prefix_cons.1 ht
            obtain ⟨h3, h4⟩ := ih2 t ht'
            constructor
            · intro q
              have h1 := h1 q
              have h3 := h3 q
              simp only [List.count_append, List.count_cons, beq_iff_eq, reduceCtorEq, Ev.closed.injEq, if_false]
              by_cases hq : q = p
              · subst hq; simp; omega
              · simp [hq, Ne.symm hq]; omega
            · rw [List.countP_append, List.countP_append, List.countP_cons_of_neg (by simp [Ev.isOpen]), List.countP_cons_of_pos (by rfl)]
              omega
      obtain ⟨k1, k2⟩ := key
      constructor
      · intro q
        have := k1 q
        simp only [List.count_cons, beq_iff_eq, reduceCtorEq, Ev.opened.injEq, if_false]
        by_cases hq : q = p
        · subst hq; simpa using this
        · simpa [hq, Ne.symm hq] using this
      · rw [List.countP_cons_of_pos (by rfl), List.countP_cons_of_neg (by simp [Ev.isOpen])]
        omega

/-! ### Closing that always succeeds -/

theorem world_bind {σ α β : Type} (x : WorldM σ α) (f : α → WorldM σ β) (st : σ) :
    (ExceptT.run (x >>= f)).run st = match (ExceptT.run x).run st with
      | (.ok a, st') => (ExceptT.run (f a)).run st'
      | (.error e, st') => (.error e, st') := by
  rw [ExceptT.run_bind]
  simp only [StateT.run_bind]
  show (match (ExceptT.run x).run st with | (a, st) => _) = _
  obtain ⟨r, st'⟩ := (ExceptT.run x).run st
  cases r <;> rfl

theorem world_try {σ α : Type} (body : WorldM σ α) (st : σ) :
    (ExceptT.run (tryCatch (Except.ok <$> body) (fun e => pure (Except.error e)) : WorldM σ (Except Exn α))).run st =
      (.ok ((ExceptT.run body).run st).1, ((ExceptT.run body).run st).2) := by
  show (ExceptT.run (ExceptT.tryCatch (Except.ok <$> body) (fun e => pure (Except.error e)) : WorldM σ (Except Exn α))).run st = _
  unfold ExceptT.tryCatch
  have h2 : (ExceptT.run (Except.ok <$> body : WorldM σ (Except Exn α))).run st =
      (match ((ExceptT.run body).run st).1 with | .ok a => .ok (.ok a) | .error e => .error e, ((ExceptT.run body).run st).2) := by
    rw [map_eq_pure_bind, world_bind]
    rcases (ExceptT.run body).run st with ⟨r, st'⟩
    cases r <;> rfl
  show (StateT.run (ExceptT.run (Except.ok <$> body) >>= _) st) = _
  rw [StateT.run_bind, h2]
  rcases (ExceptT.run body).run st with ⟨r, st'⟩
  cases r <;> rfl

theorem world_tryWith {σ α : Type} (body : WorldM σ α) (close : WorldM σ Bool) (e : Exn) (st : σ) :
    (ExceptT.run (tryWithResource body close e)).run st =
      match (ExceptT.run body).run st with
      | (r, st') => match (ExceptT.run close).run st' with
        | (.error e', st'') => (.error e', st'')
        | (.ok c, st'') => (match r with | .error e' => .error e' | .ok v => if c then .ok v else .error e, st'') := by
  unfold tryWithResource
  rw [world_bind, world_try]
  rcases (ExceptT.run body).run st with ⟨r, st'⟩
  simp only
  rw [world_bind]
  rcases (ExceptT.run close).run st' with ⟨c, st''⟩
  cases c with
  | error e' => rfl
  | ok c => cases r with
    | error e' => rfl
    | ok v => cases c <;> rfl

theorem tryWith_pure {σ α : Type} (body : WorldM σ α) (e : Exn) : tryWithResource body (pure true) e = body := by
  funext st
  show StateT.run (ExceptT.run (tryWithResource body (pure true) e)) st = StateT.run (ExceptT.run body) st
  rw [world_tryWith]
  rcases StateT.run (ExceptT.run body) st with ⟨r, st'⟩
  cases r <;> rfl

theorem handle_streams {σ : Type} (fs : Fs (WorldM σ)) (o : ScanOpts (WorldM σ)) (d : Nat) (p : Path) : StreamScanner.handle fs.streams o d p = Scanner.handle fs o d p := by
  rw [StreamScanner.handle, Scanner.handle]
  show (PathMatchers.isDirectory fs p >>= _) = _
  congr 1
  funext b
  cases b with
  | false => rfl
  | true =>
    simp only [if_true]
    split
    · rfl
    · rename_i h
      have ih : (fun c => StreamScanner.handle fs.streams o (d + 1) c) = (fun c => Scanner.handle fs o (d + 1) c) := by
        funext c
        exact handle_streams fs o (d + 1) c
      rw [ih]
      unfold StreamScanner.handleDirectory Scanner.handleDirectory
      show (fs.listDir p >>= _) = _
      congr 1
      funext l
      cases l with
      | openFailed => rfl
      | opened cs bad =>
        simp only
        show (tryWithResource _ (pure true) _ >>= _) = _
        rw [tryWith_pure]
termination_by (o.maxDepth - d).toNat
decreasing_by omega

/-- **C69**: if closing never fails the library behaves as in the rest of this development, which does not mention closing: the text or exception and the effects on the world are the same. -/
theorem C69_closing_invisible {σ : Type} (fs : Fs (WorldM σ)) (cwd : Path) (o : Options (WorldM σ)) (p : Path) :
    StreamScanner.prettyPrint fs.streams cwd o p = prettyPrint fs cwd o p := by
  unfold StreamScanner.prettyPrint StreamScanner.scan
  rw [handle_streams]
  rfl

/-- **C69**: the same for the matchers that look at other entries. -/
theorem C69_matchers_invisible {σ : Type} (fs : Fs (WorldM σ)) (test : Matcher (WorldM σ)) :
    StreamScanner.hasAnyDirectChildMatching fs.streams test = PathMatchers.hasAnyDirectChildMatching fs test ∧
    StreamScanner.hasAnyDescendantMatching fs.streams test = PathMatchers.hasAnyDescendantMatching fs test ∧
    StreamScanner.hasSiblingMatching fs.streams test = PathMatchers.hasSiblingMatching fs test := by
  have key : ∀ p d incl, StreamScanner.testDescendants fs.streams p d test incl = PathMatchers.testDescendants fs p d test incl := by
    intro p d incl
    unfold StreamScanner.testDescendants PathMatchers.testDescendants
    show (PathMatchers.isDirectory fs p >>= _) = _
    congr 1
    funext b
    cases b with
    | false => rfl
    | true =>
      simp only [Bool.not_true, Bool.false_eq_true, if_false]
      show (fs.lstat p >>= _) = _
      congr 1
      funext b
      rcases b with _ | _ | _
      · rfl
      · rfl
      show (fs.listDir p >>= _) = _
      congr 1
      funext l
      cases l with
      | openFailed => rfl
      | opened cs bad =>
        show tryWithResource _ (pure true) _ = _
        rw [tryWith_pure]
        rfl
  refine ⟨funext fun p => key _ _ _, funext fun p => key _ _ _, funext fun p => ?_⟩
  unfold StreamScanner.hasSiblingMatching PathMatchers.hasSiblingMatching
  cases p.getParent with
  | none => rfl
  | some q => exact key _ _ _

/-! ### Closing that fails -/

/-- `x'` is `x` with additional failures: it succeeds if and only if `x` succeeds and `P` holds of the result. -/
def Restricts {α : Type} (x' x : Except Exn α) (P : α → Prop) (Q : Exn → Prop) : Prop :=
  (∀ a, x' = .ok a ↔ x = .ok a ∧ P a) ∧ ∀ e, x' = .error e → x = .error e ∨ Q e

theorem Restricts.refl {α : Type} (x : Except Exn α) (Q : Exn → Prop) : Restricts x x (fun _ => True) Q := ⟨fun a => by simp, fun e h => .inl h⟩

theorem Restricts.bind {α β : Type} {x' x : Except Exn α} {f' f : α → Except Exn β} {P : α → Prop} {P' : α → β → Prop} {R : β → Prop} {Q : Exn → Prop}
    (h : Restricts x' x P Q) (hf : ∀ a, P a → Restricts (f' a) (f a) (P' a) Q) (hR : ∀ a b, x = .ok a → f a = .ok b → (R b ↔ P a ∧ P' a b)) : Restricts (x' >>= f') (x >>= f) R Q := by
  obtain ⟨h1, h2⟩ := h
  cases hx' : x' with
  | ok a =>
    obtain ⟨hx, hp⟩ := (h1 a).1 hx'
    subst hx
    obtain ⟨f1, f2⟩ := hf a hp
    refine ⟨fun b => ?_, f2⟩
    show f' a = .ok b ↔ f a = .ok b ∧ R b
    rw [f1 b]
    constructor
    · rintro ⟨h3, h4⟩; exact ⟨h3, (hR a b rfl h3).2 ⟨hp, h4⟩⟩
    · rintro ⟨h3, h4⟩; exact ⟨h3, ((hR a b rfl h3).1 h4).2⟩
  | error e =>
    refine ⟨fun b => ⟨fun h => (by cases h), ?_⟩, ?_⟩
    · rintro ⟨h3, h4⟩
      cases x with
      | error e' => cases h3
      | ok a =>
        have := (h1 a).2 ⟨rfl, ((hR a b rfl h3).1 h4).1⟩
        rw [hx'] at this
        cases this
    · intro e' he
      cases he
      rcases h2 e hx' with h | h
      · subst h; exact .inl rfl
      · exact .inr h

section
variable {closes : Path → Bool} {fs : PureFs}

/-- All listed directories of the tree can be closed. -/
def AllClose (closes : Path → Bool) (t : TreeEntry) : Prop := ∀ d, ListedIn d t → closes d = true

/-- The exceptions of failed closings. -/
def CloseExn (closes : Path → Bool) (e : Exn) : Prop := ∃ d, closes d = false ∧ e = .cannotList d

theorem restricts_childLoop {v' v : Path → Except Exn TreeEntry} (hv : ∀ c, Restricts (v' c) (v c) (AllClose closes) (CloseExn closes)) (lim : Int) (cs : List Path) (k : Int) :
    Restricts (Scanner.childLoop v' lim k cs) (Scanner.childLoop v lim k cs) (fun r => ∀ e ∈ r.1, AllClose closes e) (CloseExn closes) := by
  induction cs generalizing k with
  | nil => exact ⟨fun a => by constructor <;> intro h <;> simp_all [Scanner.childLoop, pure, Except.pure]; rintro e he; cases h; simp at he, fun e h => .inl h⟩
  | cons c cs ih =>
    unfold Scanner.childLoop
    simp only
    split
    · refine ⟨fun a => ⟨fun h => ⟨h, ?_⟩, fun h => h.1⟩, fun e h => .inl h⟩
      cases h
      simp
    · refine (hv c).bind (P' := fun _ r => ∀ e ∈ r.1.drop 1, AllClose closes e) (fun t _ => ?_) ?_
      · refine (ih _).bind (P' := fun _ _ => True) (fun r _ => Restricts.refl _ _) ?_
        rintro ⟨es, left⟩ b _ hb
        cases hb
        simp
      · intro t b _ hb
        cases hx : Scanner.childLoop v lim (k + 1) cs with
        | error e => rw [hx] at hb; cases hb
        | ok r => rw [hx] at hb; cases hb; simp

theorem restricts_children (o : ScanOpts (Except Exn)) {v' v : Path → Except Exn TreeEntry} (hv : ∀ c, Restricts (v' c) (v c) (AllClose closes) (CloseExn closes)) (p : Path)
    (cs : List Path) (bad : Bool) :
    Restricts (Scanner.handleDirectoryChildren o v' p cs bad) (Scanner.handleDirectoryChildren o v p cs bad) (fun es => ∀ e ∈ es, AllClose closes e) (CloseExn closes) := by
  unfold Scanner.handleDirectoryChildren
  refine (Restricts.refl _ _).bind (P' := fun _ es => ∀ e ∈ es, AllClose closes e) (fun lim _ => ?_) (fun _ _ _ _ => by simp)
  refine (Restricts.refl _ _).bind (P' := fun _ es => ∀ e ∈ es, AllClose closes e) (fun kept _ => ?_) (fun _ _ _ _ => by simp)
  cases bad with
  | true => exact ⟨fun a => ⟨fun h => (by cases h), fun h => (by cases h.1)⟩, fun e h => .inl h⟩
  | false =>
    refine (restricts_childLoop hv lim _ 0).bind (P' := fun _ _ => True) (fun r _ => Restricts.refl _ _) ?_
    rintro ⟨es, left⟩ b _ hb
    cases hb
    simp only [and_true]
    split
    · rfl
    · constructor
      · intro h e he; exact h e (by simp [he])
      · intro h e he
        rcases List.mem_append.1 he with he | he
        · exact h e he
        · simp at he; subst he; intro d hd; cases hd

theorem children_noMark {o : ScanOpts (Except Exn)} {v : Path → Except Exn TreeEntry} (hv : ∀ c t, v c = .ok t → entryPath t ≠ none) {p : Path} {cs : List Path} {bad : Bool}
    {es : List TreeEntry} (h : Scanner.handleDirectoryChildren o v p cs bad = .ok es) (k : Nat) : .maxDepth k ∉ es := by
  have loop : ∀ (lim i : Int) (cs : List Path) r, Scanner.childLoop v lim i cs = .ok r → .maxDepth k ∉ r.1 := by
    intro lim i cs
    induction cs generalizing i with
    | nil => intro r hr; cases hr; simp
    | cons c cs ih =>
      intro r hr
      unfold Scanner.childLoop at hr
      simp only at hr
      split at hr
      · cases hr; simp
      · obtain ⟨t, ht, hr⟩ := except_bind_ok hr
        obtain ⟨r', hr', hr⟩ := except_bind_ok hr
        cases hr
        have := ih _ r' hr'
        have h2 := hv c t ht
        intro hm
        rcases List.mem_cons.1 hm with rfl | hm
        · exact h2 rfl
        · exact this hm
  unfold Scanner.handleDirectoryChildren at h
  obtain ⟨lim, _, h⟩ := except_bind_ok h
  obtain ⟨kept, _, h⟩ := except_bind_ok h
  cases bad with
  | true => cases h
  | false =>
    obtain ⟨r, hr, h⟩ := except_bind_ok h
    have := loop _ _ _ r hr
    cases h
    split
    · exact this
    · simp [this]

theorem except_tryWith {α : Type} (body : Except Exn α) (c : Bool) (e : Exn) :
    tryWithResource body (pure c) e = match body with | .error e' => .error e' | .ok v => if c then .ok v else .error e := by
  unfold tryWithResource
  cases body <;> cases c <;> rfl

theorem restricts_handle (o : ScanOpts (Except Exn)) (depth : Nat) (p : Path) :
    Restricts (StreamScanner.handle (stableStreams fs closes) o depth p) (Scanner.handle fs.lift o depth p) (AllClose closes) (CloseExn closes) := by
  rw [StreamScanner.handle, Scanner.handle]
  cases hd : fs.isDir p with
  | false =>
    have h1 : (PathMatchers.isDirectory (stableStreams fs closes).toFs p : Except Exn Bool) = .ok false := congrArg Except.ok hd
    have h2 : (PathMatchers.isDirectory fs.lift p : Except Exn Bool) = .ok false := congrArg Except.ok hd
    rw [h1, h2]
    show Restricts (Scanner.handleFile fs.lift p) (Scanner.handleFile fs.lift p) _ _
    refine ⟨fun t => ⟨fun h => ⟨h, ?_⟩, fun h => h.1⟩, fun e h => .inl h⟩
    have h3 : (match fs.readAttrs p with | some a => pure (.file p a) | none => throw (Exn.cannotReadAttrs p) : Except Exn TreeEntry) = .ok t := h
    cases ha : fs.readAttrs p with
    | none => rw [ha] at h3; cases h3
    | some a => rw [ha] at h3; cases h3; intro d hd; cases hd
  | true =>
    have h1 : (PathMatchers.isDirectory (stableStreams fs closes).toFs p : Except Exn Bool) = .ok true := congrArg Except.ok hd
    have h2 : (PathMatchers.isDirectory fs.lift p : Except Exn Bool) = .ok true := congrArg Except.ok hd
    rw [h1, h2]
    show Restricts (if h : (depth : Int) ≥ o.maxDepth then pure (TreeEntry.dir p [.maxDepth depth]) else StreamScanner.handleDirectory (stableStreams fs closes) o _ p)
      (if h : (depth : Int) ≥ o.maxDepth then pure (TreeEntry.dir p [.maxDepth depth]) else Scanner.handleDirectory fs.lift o _ p) _ _
    split
    · refine ⟨fun t => ⟨fun h => ⟨h, ?_⟩, fun h => h.1⟩, fun e h => .inl h⟩
      cases h
      intro d hd
      cases hd with
      | here h => exact absurd rfl (h _)
      | deeper h h' => simp at h; subst h; cases h'
    · have ih : ∀ c, Restricts (StreamScanner.handle (stableStreams fs closes) o (depth + 1) c) (Scanner.handle fs.lift o (depth + 1) c) (AllClose closes) (CloseExn closes) :=
        fun c => restricts_handle o (depth + 1) c
      unfold StreamScanner.handleDirectory Scanner.handleDirectory
      show Restricts ((pure (fs.listDir p) : Except Exn Listing) >>= _) ((pure (fs.listDir p) : Except Exn Listing) >>= _) _ _
      cases fs.listDir p with
      | openFailed => exact ⟨fun t => ⟨fun h => (by cases h), fun h => (by cases h.1)⟩, fun e h => .inl h⟩
      | opened cs bad =>
        have hk := restricts_children o ih p cs bad
        show Restricts (tryWithResource (Scanner.handleDirectoryChildren o _ p cs bad) (pure (closes p)) (Exn.cannotList p) >>= fun es => pure (TreeEntry.dir p es))
          (Scanner.handleDirectoryChildren o _ p cs bad >>= fun es => pure (TreeEntry.dir p es)) _ _
        refine Restricts.bind (P := fun es => closes p = true ∧ ∀ e ∈ es, AllClose closes e) (P' := fun _ _ => True) ?_ (fun _ _ => Restricts.refl _ _) ?_
        · rw [except_tryWith]
          obtain ⟨k1, k2⟩ := hk
          constructor
          · intro es
            cases hb : Scanner.handleDirectoryChildren o (fun c => StreamScanner.handle (stableStreams fs closes) o (depth + 1) c) p cs bad with
            | error e =>
              refine ⟨fun h => (by cases h), fun h => ?_⟩
              have := (k1 es).2 ⟨h.1, h.2.2⟩
              rw [hb] at this
              cases this
            | ok es' =>
              cases hc : closes p with
              | false => refine ⟨fun h => (by cases h), fun h => (by cases h.2.1)⟩
              | true =>
                show Except.ok es' = Except.ok es ↔ _
                rw [← hb, k1 es]
                simp
          · intro e
            cases hb : Scanner.handleDirectoryChildren o (fun c => StreamScanner.handle (stableStreams fs closes) o (depth + 1) c) p cs bad with
            | error e' => intro h; cases h; exact k2 e hb
            | ok es' =>
              cases hc : closes p with
              | false => intro h; cases h; exact .inr ⟨p, hc, rfl⟩
              | true => intro h; cases h
        · intro es t hes ht
          cases ht
          simp only [and_true]
          constructor
          · intro h
            refine ⟨h p (.here ?_), fun e he d hd => h d (.deeper he hd)⟩
            rintro k rfl
            exact children_noMark (fun c t hc => by rw [handle_top _ _ _ _ _ hc]; simp) hes k (by simp)
          · rintro ⟨h1, h2⟩ d hd
            cases hd with
            | here _ => exact h1
            | deeper he hd => exact h2 _ he d hd
termination_by (o.maxDepth - depth).toNat
decreasing_by omega

/-- **C69**: when `close()` may fail with an `IOException`, a text is returned only if it is the text of the undisturbed call and all listed directories were closed without failure; otherwise the
exception is that of the undisturbed call, or an `UncheckedIOException` that names a directory whose stream failed to close. No failure is swallowed and no text is altered. -/
theorem C69_close_failure (fs : PureFs) (closes : Path → Bool) (cwd : Path) (o : Options (Except Exn)) (p : Path) :
    (∀ s, StreamScanner.prettyPrint (stableStreams fs closes) cwd o p = .ok s ↔
      prettyPrint fs.lift cwd o p = .ok s ∧ ∀ t, scanned fs cwd o p = .ok t → ∀ d, ListedIn d t → closes d = true) ∧
    ∀ e, StreamScanner.prettyPrint (stableStreams fs closes) cwd o p = .error e →
      prettyPrint fs.lift cwd o p = .error e ∨ ∃ d, closes d = false ∧ e = .cannotList d := by
  have h : Restricts (StreamScanner.scan (stableStreams fs closes) (o.toScan fs.lift) cwd ((p.toAbsolutePath cwd).normalize)) (scanned fs cwd o p) (AllClose closes) (CloseExn closes) :=
    restricts_handle _ _ _
  obtain ⟨h1, h2⟩ := h.bind (f' := fun t => Renderer.renderRoot o.toRender (LineRenderer.create o.toRender) t) (f := fun t => Renderer.renderRoot o.toRender (LineRenderer.create o.toRender) t)
    (P' := fun _ _ => True) (R := fun _ => ∀ t, scanned fs cwd o p = .ok t → AllClose closes t) (fun _ _ => Restricts.refl _ _) (by
      intro t s ht _
      rw [ht]
      simp)
  exact ⟨h1, h2⟩

end

namespace Demo

/-- The demo disk with streams that all close. -/
def streams : StreamFs (WorldM Nat) := stableStreams dfs (fun _ => true)

/-- Directories with a direct child that is a directory; the filter itself opens streams. -/
def searching : Options (StreamM Nat) := { dirMatcher := StreamScanner.hasAnyDirectChildMatching (recordedFs streams) (PathMatchers.isDirectory (recordedFs streams).toFs) }

theorem searching_closing : ClosingCallbacks 1 searching where
  childLimit _ := closes_pure _ _
  dirMatcher p := (C69_matchers_close streams 0 _ (fun _ => closes_outside _ _) p).1
  fileMatcher _ := closes_pure _ _
  emojiMapping _ := closes_pure _ _
  lineExtension g h := by cases h

/-- Hypotheses of C69_streams_closed: at most 21 streams are open at the same time. -/
example : Closes 21 (StreamScanner.prettyPrint (recordedFs streams) Path.root searching r) := C69_streams_closed streams Path.root searching 1 searching_closing r

/-- The record is not empty: a directory whose child limit function throws has been opened and is closed, whether `close()` fails or not, and the exception is that of the function. -/
example (c : Bool) : (ExceptT.run (StreamScanner.handleDirectory (recordedFs (stableStreams dfs (fun _ => c)))
      ((({} : Options (StreamM Nat)).withChildLimitFn (fun _ => throw (.user 1))).toScan (recordedFs streams).toFs) (fun _ => throw (.user 2)) r)).run ([], 0) =
    (.error (.user 1), ([.opened r, .closed r], 0)) := by
  cases c <;> rfl

/-- Two streams, one inside the other. -/
example : Nested 2 [.opened r, .opened a, .closed a, .closed r] := .stream (inside := [.opened a, .closed a]) (after := []) (.stream (inside := []) (after := []) .nil .nil) .nil

/-- The stream of `r/a` fails to close: no text. -/
example (s : JStr) : StreamScanner.prettyPrint (stableStreams dfs (fun q => decide (q ≠ a))) Path.root dflt r ≠ .ok s := by
  intro h
  have := ((C69_close_failure dfs _ Path.root dflt r).1 s).1 h
  have h2 := this.2 _ scanned_found a (.deeper (List.mem_cons_self ..) (.here (by intro k h; simp at h)))
  simp at h2

end Demo
end JFTP
