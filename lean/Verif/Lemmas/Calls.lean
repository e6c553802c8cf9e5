import Verif.Spec.Calls
import Verif.Lemmas.Handle
import Verif.Lemmas.NamedOk
import Verif.Lemmas.Compose
import Verif.Lemmas.Trace

/-
The record of a run that succeeds.
-/

namespace JFTP.Spec

/-- `x` returns `a` and appends `tr` to the record. -/
def Runs {α : Type} (x : Traced α) (a : α) (tr : List Call) : Prop := ∀ l, (ExceptT.run x).run l = (.ok a, l ++ tr)

theorem Runs.pure {α : Type} (a : α) : Runs (pure a) a [] := by
  intro l
  rw [List.append_nil]; rfl

theorem Runs.bind {α β : Type} {x : Traced α} {f : α → Traced β} {a : α} {b : β} {t1 t2 : List Call} (h1 : Runs x a t1) (h2 : Runs (f a) b t2) :
    Runs (x >>= f) b (t1 ++ t2) := by
  intro l
  rw [ExceptT.run_bind]
  simp only [StateT.run_bind]
  have h := h1 l
  show (match (ExceptT.run x).run l with | (a, st) => _) = _
  rw [h]
  have h' := h2 (l ++ t1)
  rw [List.append_assoc] at h'
  exact h'

theorem Runs.call {α : Type} {c : Call} {x : Except Exn α} {a : α} (h : x = .ok a) : Runs (call c x) a [c] := by
  subst h; intro l; rfl

theorem Runs.congr {α : Type} {x : Traced α} {a : α} {t t' : List Call} (h : Runs x a t) (e : t = t') : Runs x a t' := e ▸ h

theorem Runs.map {α β : Type} {x : Traced α} {a : α} {t : List Call} (h : Runs x a t) (f : α → β) : Runs (f <$> x) (f a) t := by
  rw [map_eq_pure_bind]
  exact (h.bind (Runs.pure (f a))).congr (List.append_nil _)

theorem Runs.then_pure {α β : Type} {x : Traced α} {a : α} {b : β} {t : List Call} {f : α → β} (h : Runs x a t) (hb : b = f a) :
    Runs (x >>= fun a => Pure.pure (f a)) b t := by
  subst hb
  exact (h.bind (Runs.pure (f a))).congr (List.append_nil _)

section scan
variable {fs : PureFs} {o : Options (Except Exn)}

theorem runs_filter {q : Path} {b : Bool} (h : o.pathFilter fs.lift q = .ok b) : Runs ((tracedOpts o).pathFilter (tracedFs fs) q) b (filterCalls fs q) := by
  unfold Options.pathFilter PathMatchers.ifMatchesThenElse at *
  have h : (if fs.isDir q = true then o.dirMatcher q else o.fileMatcher q) = .ok b := h
  refine (Runs.bind (t1 := [.isDir q]) (a := fs.isDir q) (Runs.call rfl) (t2 := [if fs.isDir q then .dirFilter q else .fileFilter q]) ?_).congr rfl
  revert h
  cases fs.isDir q with
  | true => exact fun h => Runs.call h
  | false => exact fun h => Runs.call h

theorem runs_filterEntries {cs ks : List Path} (h : Scanner.filterEntries (o.pathFilter fs.lift) cs = .ok ks) :
    Runs (Scanner.filterEntries ((tracedOpts o).pathFilter (tracedFs fs)) cs) ks (cs.flatMap (filterCalls fs)) := by
  induction cs generalizing ks with
  | nil => cases h; exact .pure _
  | cons c cs ih =>
    rw [Scanner.filterEntries] at h ⊢
    obtain ⟨b, hb, h⟩ := except_bind_ok h
    obtain ⟨ks', hk, h⟩ := except_bind_ok h
    cases h
    rw [List.flatMap_cons]
    exact Runs.bind (runs_filter hb) (Runs.then_pure (ih hk) rfl)

theorem runs_childLoop {v : Path → Except Exn TreeEntry} {v' : Path → Traced TreeEntry} (hv : ∀ q e, v q = .ok e → Runs (v' q) e (scanCalls fs e)) (n : Int) (ps : List Path) :
    ∀ i r, Scanner.childLoop v n i ps = .ok r → Runs (Scanner.childLoop v' n i ps) r (scanCallsAll fs r.1) := by
  induction ps with
  | nil => intro i r h; cases h; exact .pure _
  | cons p ps ih =>
    intro i r h
    rw [Scanner.childLoop] at h ⊢
    dsimp only at h ⊢
    split at h
    · rename_i hc; rw [if_pos hc]; cases h; exact .pure _
    · rename_i hc
      rw [if_neg hc]
      obtain ⟨e, he, h⟩ := except_bind_ok h
      obtain ⟨⟨es, left⟩, hes, h⟩ := except_bind_ok h
      cases h
      exact Runs.bind (hv p e he) (Runs.then_pure (ih _ _ hes) rfl)

theorem scanCallsAll_append (es es' : List TreeEntry) : scanCallsAll fs (es ++ es') = scanCallsAll fs es ++ scanCallsAll fs es' := by
  induction es with
  | nil => rfl
  | cons e es ih => rw [List.cons_append, scanCallsAll, scanCallsAll, ih, List.append_assoc]

theorem runs_handle (k : Nat) (p : Path) (e : TreeEntry) (h : Scanner.handle fs.lift (o.toScan fs.lift) k p = .ok e) :
    Runs (Scanner.handle (tracedFs fs) ((tracedOpts o).toScan (tracedFs fs)) k p) e (scanCalls fs e) := by
  rw [Scanner.handle] at *
  obtain ⟨b, hb, h⟩ := except_bind_ok h
  have hb : fs.isDir p = b := Except.ok.inj hb
  cases b with
  | false =>
    simp only [Bool.false_eq_true, if_false] at h
    unfold Scanner.handleFile at h
    obtain ⟨a, ha, h⟩ := except_bind_ok h
    have ha : fs.readAttrs p = a := Except.ok.inj ha
    cases a with
    | none => cases h
    | some a =>
      cases h
      refine (Runs.bind (t1 := [.isDir p]) (a := false) (Runs.call (by rw [hb])) (t2 := [.attrs p]) ?_).congr rfl
      simp only [Bool.false_eq_true, if_false]
      unfold Scanner.handleFile
      have h1 : Runs ((tracedFs fs).readAttrs p) (some a) [.attrs p] := Runs.call (by rw [ha])
      exact h1.bind (t2 := []) (Runs.pure _)
  | true =>
    simp only [if_true] at h
    by_cases hk : (k : Int) ≥ (o.toScan fs.lift).maxDepth
    · rw [dif_pos hk] at h
      cases h
      refine (Runs.bind (t1 := [.isDir p]) (a := true) (Runs.call (by rw [hb])) (t2 := []) ?_).congr rfl
      simp only [if_true]
      rw [dif_pos (show (k : Int) ≥ ((tracedOpts o).toScan (tracedFs fs)).maxDepth from hk)]
      exact Runs.pure _
    · rw [dif_neg hk] at h
      unfold Scanner.handleDirectory at h
      obtain ⟨r, hr, h⟩ := except_bind_ok h
      have hr : fs.listDir p = r := Except.ok.inj hr
      cases r with
      | openFailed => cases h
      | opened cs bad =>
        obtain ⟨ces, hces, h⟩ := except_bind_ok h
        cases h
        unfold Scanner.handleDirectoryChildren at hces
        obtain ⟨n, hn, hces⟩ := except_bind_ok hces
        obtain ⟨ks, hks, hces⟩ := except_bind_ok hces
        cases bad with
        | true => cases hces
        | false =>
          simp only [Bool.false_eq_true, if_false] at hces
          obtain ⟨⟨es, left⟩, hes, hces⟩ := except_bind_ok hces
          have hv : ∀ q e, Scanner.handle fs.lift (o.toScan fs.lift) (k + 1) q = .ok e →
              Runs (Scanner.handle (tracedFs fs) ((tracedOpts o).toScan (tracedFs fs)) (k + 1) q) e (scanCalls fs e) := fun q e he => runs_handle (k + 1) q e he
          have hloop := runs_childLoop hv n _ 0 _ hes
          have hne : ∀ j, ces ≠ [.maxDepth j] := by
            intro j hj
            cases hces
            cases hle : left.isEmpty with
            | true =>
              rw [hle] at hj
              simp only [if_true] at hj
              subst hj
              have := childLoop_mem hes
              obtain ⟨q, _, hq⟩ := this _ List.mem_cons_self
              have := handle_top _ _ _ _ _ hq
              cases this
            | false =>
              rw [hle] at hj
              cases es with
              | nil => cases hj
              | cons e es => cases es <;> cases hj
          have hsc : scanCalls fs (.dir p ces) = [.isDir p] ++ ([.list p] ++ ([.limit p] ++ (cs.flatMap (filterCalls fs) ++ (scanCallsAll fs es ++ [])))) := by
            have hec : entryCalls fs (.dir p ces) = [.isDir p, .list p, .limit p] ++ (content fs p).flatMap (filterCalls fs) := by
              unfold entryCalls
              split <;> rename_i heq
              · cases heq
              · injection heq with _ heq; exact absurd heq (hne _)
              · cases heq; rfl
              · cases heq
              · cases heq
            rw [scanCalls, hec, content, hr]
            cases hces
            cases left.isEmpty <;> simp [scanCallsAll_append, scanCallsAll, scanCalls, entryCalls]
          refine Runs.congr ?_ hsc.symm
          refine Runs.bind (a := true) (Runs.call (by rw [hb])) ?_
          simp only [if_true]
          rw [dif_neg (show ¬ (k : Int) ≥ ((tracedOpts o).toScan (tracedFs fs)).maxDepth from hk)]
          unfold Scanner.handleDirectory
          refine Runs.bind (a := .opened cs false) (Runs.call (by rw [hr])) ?_
          dsimp only
          unfold Scanner.handleDirectoryChildren
          simp only [bind_assoc]
          refine Runs.bind (a := n) (Runs.call hn) (Runs.bind (runs_filterEntries hks) ?_)
          simp only [Bool.false_eq_true, if_false]
          rw [List.append_nil]
          refine Runs.then_pure (a := ces) (Runs.then_pure hloop ?_) rfl
          cases hces
          rfl
termination_by ((o.toScan fs.lift).maxDepth - k).toNat
decreasing_by omega

end scan

/-! ### Rendering -/

/-- A record of rendering calls: emojis of `ems`, extensions of `exs` (none if there is no extension function), each in this order. -/
structure RTrace (b : Bool) (tr : List Call) (ems exs : List Path) : Prop where
  rendering : ∀ c ∈ tr, c.rendering = true
  emojis : tr.filterMap Call.emojiOf = ems
  exts : tr.filterMap Call.extOf = if b then exs else []

theorem RTrace.nil (b : Bool) : RTrace b [] [] [] := ⟨by simp, rfl, by simp⟩

theorem RTrace.append {b : Bool} {t1 t2 : List Call} {e1 e2 x1 x2 : List Path} (h1 : RTrace b t1 e1 x1) (h2 : RTrace b t2 e2 x2) :
    RTrace b (t1 ++ t2) (e1 ++ e2) (x1 ++ x2) := by
  refine ⟨?_, ?_, ?_⟩
  · intro c hc
    rcases List.mem_append.1 hc with h | h
    · exact h1.rendering c h
    · exact h2.rendering c h
  · rw [List.filterMap_append, h1.emojis, h2.emojis]
  · rw [List.filterMap_append, h1.exts, h2.exts]
    cases b <;> simp

theorem RTrace.emoji (b : Bool) (p : Path) : RTrace b [.emoji p] [p] [] := by
  refine ⟨by simp [Call.rendering], rfl, ?_⟩
  cases b <;> rfl

theorem RTrace.ext (b : Bool) (p : Path) : RTrace b (if b then [.ext p] else []) [] [p] := by
  refine ⟨?_, ?_, ?_⟩ <;> cases b <;> simp [Call.rendering, Call.emojiOf, Call.extOf]

theorem RTrace.congr {b : Bool} {tr : List Call} {e e' x x' : List Path} (h : RTrace b tr e x) (he : e = e') (hx : x = x') : RTrace b tr e' x' := he ▸ hx ▸ h

/-- The paths whose emojis are on the lines. -/
def lasts (l : List (Nat × Item)) : List Path := l.filterMap (fun x => x.2.lastPath)

section render
variable {L : LookM (Except Exn)} {Lt : LookM Traced} {b : Bool}

/-- `Lt` is `L` with recorded calls. -/
structure Recorded (L : LookM (Except Exn)) (Lt : LookM Traced) (b : Bool) : Prop where
  compact : Lt.compact = L.compact
  emoji : ∀ p x, L.emoji p = .ok x → Runs (Lt.emoji p) x [.emoji p]
  ext : ∀ p x, L.ext p = .ok x → Runs (Lt.ext p) x (if b then [.ext p] else [])

theorem runs_namesM {ds : List Path} {s : JStr} (h : namesM (m := Except Exn) ds = .ok s) : Runs (namesM ds) s [] := by
  induction ds generalizing s with
  | nil => cases h; exact .pure _
  | cons d ds ih =>
    rw [namesM] at h ⊢
    cases hd : d.names.getLast? with
    | none => rw [hd] at h; cases h
    | some n =>
      rw [hd] at h
      obtain ⟨r, hr, h⟩ := except_bind_ok h
      cases hr
      obtain ⟨r', hr', h⟩ := except_bind_ok h
      cases h
      exact Runs.bind (t1 := []) (Runs.pure _) (Runs.then_pure (ih hr') rfl)

variable (hR : Recorded L Lt b)
include hR

theorem runs_dirsText {d : Path} {ds : List Path} {s : JStr} (h : dirsTextM L.emoji d ds = .ok s) : Runs (dirsTextM Lt.emoji d ds) s [.emoji d] := by
  unfold dirsTextM at *
  obtain ⟨e, he, h⟩ := except_bind_ok h
  obtain ⟨ns, hns, h⟩ := except_bind_ok h
  cases h
  exact Runs.bind (t2 := []) (hR.emoji d e he) (Runs.then_pure (runs_namesM hns) rfl)

theorem runs_fileText {p : Path} {a : Attrs} {s : JStr} (h : fileTextM L.emoji p a = .ok s) : Runs (fileTextM Lt.emoji p a) s [.emoji p] := by
  unfold fileTextM at *
  obtain ⟨e, he, h⟩ := except_bind_ok h
  obtain ⟨n, hn, h⟩ := except_bind_ok h
  cases h
  refine Runs.bind (t2 := []) (hR.emoji p e he) (Runs.then_pure (a := n) ?_ rfl)
  unfold nameM at *
  cases hp : p.names.getLast? with
  | none => rw [hp] at hn; cases hn
  | some n' => rw [hp] at hn; cases hn; exact .pure _

/-- A directory that is not merged. -/
theorem runs_other {d : Path} {es : List TreeEntry} {ps : List Path} {D : Disp} {em ex : List Path}
    (h : (do
      let names ← dirsTextM L.emoji d ps
      let x ← L.ext d
      let ks ← dispKidsM L es
      return Disp.node (names ++ x.getD []) ks) = .ok D)
    (hk : ∀ Ds, dispKidsM L es = .ok Ds → ∃ tr, Runs (dispKidsM Lt es) Ds tr ∧ RTrace b tr em ex) :
    ∃ tr, Runs (do
      let names ← dirsTextM Lt.emoji d ps
      let x ← Lt.ext d
      let ks ← dispKidsM Lt es
      return Disp.node (names ++ x.getD []) ks) D tr ∧ RTrace b tr (d :: em) (d :: ex) := by
  obtain ⟨s, hs, h⟩ := except_bind_ok h
  obtain ⟨x, hx, h⟩ := except_bind_ok h
  obtain ⟨Ds, hD, h⟩ := except_bind_ok h
  cases h
  obtain ⟨tr, h1, h2⟩ := hk Ds hD
  exact ⟨_, Runs.bind (runs_dirsText hR hs) (Runs.bind (hR.ext d x hx) (Runs.then_pure h1 rfl)),
    ((RTrace.emoji b d).append ((RTrace.ext b d).append h2)).congr rfl rfl⟩

mutual
theorem runs_dispM (e : TreeEntry) {D : Disp} (h : dispM L false e = .ok D) {T : ITree} (hT : Shows L.total e T) (n : Nat) :
    ∃ tr, Runs (dispM Lt false e) D tr ∧ RTrace b tr (lasts (T.items n)) (entryPaths e) := by
  match e with
  | .file p a =>
    cases hT
    rw [dispM] at h ⊢
    obtain ⟨s, hs, h⟩ := except_bind_ok h
    obtain ⟨x, hx, h⟩ := except_bind_ok h
    cases h
    exact ⟨_, Runs.bind (runs_fileText hR hs) (Runs.then_pure (hR.ext p x hx) rfl), ((RTrace.emoji b p).append (RTrace.ext b p)).congr rfl rfl⟩
  | .skipped p => cases hT; rw [dispM] at h ⊢; cases h; exact ⟨[], .pure _, .nil b⟩
  | .maxDepth j => cases hT; rw [dispM] at h ⊢; cases h; exact ⟨[], .pure _, .nil b⟩
  | .dir d es =>
    cases hT with
    | dir hch hks =>
      rw [dispM] at h ⊢
      obtain ⟨tr, h1, h2⟩ := runs_dispDirM false d es [d] h (.inr ⟨rfl, hch⟩) hks (n + 1)
      refine ⟨tr, h1, h2.congr ?_ (entryPaths_dir d es).symm⟩
      simp [ITree.items, lasts, Item.lastPath]
termination_by (sizeOf e, 1)
theorem runs_dispDirM (top : Bool) (d : Path) (es : List TreeEntry) (ps : List Path) {D : Disp} (h : dispDirM L top d es ps = .ok D)
    {ds : List Path} {last : Path} {es' : List TreeEntry} {ks : List ITree}
    (hch : (top = true ∧ last = d ∧ es' = es) ∨ (top = false ∧ Chain L.total d es ds last es')) (hks : ShowsAll L.total es' ks) (n : Nat) :
    ∃ tr, Runs (dispDirM Lt top d es ps) D tr ∧ RTrace b tr (last :: lasts (itemsAll n ks)) (d :: pathsAll es) := by
  have other : (∀ c ces, ¬ (top = false ∧ Mergeable L.total d es c ces)) → last = d ∧ es' = es := by
    intro hm
    rcases hch with ⟨_, h1, h2⟩ | ⟨ht, hch⟩
    · exact ⟨h1, h2⟩
    · cases hch with
      | stop _ => exact ⟨rfl, rfl⟩
      | step hmg _ => exact absurd ⟨ht, hmg⟩ (hm _ _)
  match es with
  | [.dir c ces] =>
    have kid : es' = [.dir c ces] → ∀ D', dispM L false (.dir c ces) = .ok D' →
        ∃ tr, Runs (dispM Lt false (.dir c ces)) D' tr ∧ RTrace b tr (lasts (itemsAll n ks)) (entryPaths (.dir c ces)) := by
      intro he D' hD'
      subst he
      cases hks with
      | cons hT hnil =>
        cases hnil
        obtain ⟨tr, h1, h2⟩ := runs_dispM (.dir c ces) hD' hT n
        exact ⟨tr, h1, h2.congr (by simp [itemsAll]) rfl⟩
    have e : pathsAll [.dir c ces] = entryPaths (.dir c ces) := by rw [pathsAll_cons]; simp [pathsAll, eventsAll]
    rw [dispDirM.eq_def] at h ⊢
    dsimp only at h ⊢
    rw [hR.compact]
    rw [e]
    by_cases hc : (L.compact && !top) = true
    · rw [if_pos hc] at h ⊢
      simp only [Bool.and_eq_true, Bool.not_eq_true'] at hc
      obtain ⟨r, hr, h⟩ := except_bind_ok h
      have hr' : L.total.ext d = r := by
        show answerOf (L.ext d) = r
        rw [hr]; rfl
      cases r with
      | none =>
        rcases hch with ⟨ht, _⟩ | ⟨_, hch⟩
        · rw [ht] at hc; cases hc.2
        · cases hch with
          | stop hs => exact absurd ⟨hc.1, rfl, hr'⟩ (hs c ces)
          | step hmg hch' =>
            obtain ⟨_, he, _⟩ := hmg
            cases he
            obtain ⟨tr, h1, h2⟩ := runs_dispDirM top c ces (ps ++ [c]) h (.inr ⟨hc.2, hch'⟩) hks n
            refine ⟨_, Runs.bind (hR.ext d none hr) h1, ((RTrace.ext b d).append h2).congr rfl ?_⟩
            rw [entryPaths_dir]; rfl
      | some x =>
        obtain ⟨rfl, rfl⟩ := other (fun c' ces' hm => by
          have := hm.2.2.2
          rw [hr'] at this
          cases this)
        obtain ⟨s, hs, h⟩ := except_bind_ok h
        obtain ⟨k, hk, h⟩ := except_bind_ok h
        cases h
        obtain ⟨tr, h1, h2⟩ := kid rfl k hk
        exact ⟨_, Runs.bind (hR.ext _ _ hr) (Runs.bind (runs_dirsText hR hs) (Runs.then_pure h1 rfl)),
          ((RTrace.ext b _).append ((RTrace.emoji b _).append h2)).congr rfl rfl⟩
    · rw [if_neg hc] at h ⊢
      obtain ⟨rfl, rfl⟩ := other (fun c' ces' hm => by
        apply hc
        have h1 : L.compact = true := hm.2.1
        rw [h1, hm.1]; rfl)
      obtain ⟨s, hs, h⟩ := except_bind_ok h
      obtain ⟨x, hx, h⟩ := except_bind_ok h
      obtain ⟨k, hk, h⟩ := except_bind_ok h
      cases h
      obtain ⟨tr, h1, h2⟩ := kid rfl k hk
      exact ⟨_, Runs.bind (runs_dirsText hR hs) (Runs.bind (hR.ext _ _ hx) (Runs.then_pure h1 rfl)),
        ((RTrace.emoji b _).append ((RTrace.ext b _).append h2)).congr rfl rfl⟩
  | [] =>
    obtain ⟨rfl, rfl⟩ := other (fun c' ces' hm => by have := hm.2.2.1; cases this)
    rw [dispDirM.eq_def] at h ⊢
    exact runs_other hR h (fun Ds hD => runs_dispKidsM [] hD hks n)
  | .file q a :: r =>
    obtain ⟨rfl, rfl⟩ := other (fun c' ces' hm => by have := hm.2.2.1; cases this)
    rw [dispDirM.eq_def] at h ⊢
    exact runs_other hR h (fun Ds hD => runs_dispKidsM (.file q a :: r) hD hks n)
  | .skipped q :: r =>
    obtain ⟨rfl, rfl⟩ := other (fun c' ces' hm => by have := hm.2.2.1; cases this)
    rw [dispDirM.eq_def] at h ⊢
    exact runs_other hR h (fun Ds hD => runs_dispKidsM (.skipped q :: r) hD hks n)
  | .maxDepth q :: r =>
    obtain ⟨rfl, rfl⟩ := other (fun c' ces' hm => by have := hm.2.2.1; cases this)
    rw [dispDirM.eq_def] at h ⊢
    exact runs_other hR h (fun Ds hD => runs_dispKidsM (.maxDepth q :: r) hD hks n)
  | .dir q qs :: x :: r =>
    obtain ⟨rfl, rfl⟩ := other (fun c' ces' hm => by have := hm.2.2.1; cases this)
    rw [dispDirM.eq_def] at h ⊢
    exact runs_other hR h (fun Ds hD => runs_dispKidsM (.dir q qs :: x :: r) hD hks n)
termination_by (sizeOf es, 3)
theorem runs_dispKidsM (es : List TreeEntry) {Ds : List Disp} (h : dispKidsM L es = .ok Ds) {ks : List ITree} (hks : ShowsAll L.total es ks) (n : Nat) :
    ∃ tr, Runs (dispKidsM Lt es) Ds tr ∧ RTrace b tr (lasts (itemsAll n ks)) (pathsAll es) := by
  match es with
  | [] => cases hks; rw [dispKidsM] at h ⊢; cases h; exact ⟨[], .pure _, .nil b⟩
  | e :: rest =>
    cases hks with
    | cons hT hrest =>
      rw [dispKidsM] at h ⊢
      obtain ⟨k, hk, h⟩ := except_bind_ok h
      obtain ⟨ks', hk', h⟩ := except_bind_ok h
      cases h
      obtain ⟨t1, h1, h2⟩ := runs_dispM e hk hT n
      obtain ⟨t2, h3, h4⟩ := runs_dispKidsM rest hk' hrest n
      refine ⟨_, Runs.bind h1 (Runs.then_pure h3 rfl), (h2.append h4).congr ?_ (pathsAll_cons _ _).symm⟩
      simp [itemsAll, lasts]
termination_by (sizeOf es, 2)
end

theorem runs_top (e : TreeEntry) {D : Disp} (h : dispM L true e = .ok D) {T : ITree} (hT : ShowsTop L.total e T) :
    ∃ tr, Runs (dispM Lt true e) D tr ∧ RTrace b tr (lasts (T.items 0)) (entryPaths e) := by
  cases hT with
  | @dir d es ks hks =>
    rw [dispM] at h ⊢
    obtain ⟨tr, h1, h2⟩ := runs_dispDirM hR true d es [d] h (ds := [d]) (.inl ⟨rfl, rfl, rfl⟩) hks 1
    refine ⟨tr, h1, h2.congr ?_ (entryPaths_dir d es).symm⟩
    simp [ITree.items, lasts, Item.lastPath]
  | other hne hs =>
    have e1 : dispM L true e = dispM L false e := by
      cases e with
      | dir d es => exact absurd rfl (hne d es)
      | file p a => rw [dispM, dispM]
      | skipped p => rw [dispM, dispM]
      | maxDepth p => rw [dispM, dispM]
    have e2 : dispM Lt true e = dispM Lt false e := by
      cases e with
      | dir d es => exact absurd rfl (hne d es)
      | file p a => rw [dispM, dispM]
      | skipped p => rw [dispM, dispM]
      | maxDepth p => rw [dispM, dispM]
    rw [e1] at h
    rw [e2]
    exact runs_dispM hR e h hs 0

end render

end JFTP.Spec
