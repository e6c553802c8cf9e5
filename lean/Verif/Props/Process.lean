import Verif.Lemmas.Console
import Verif.Lemmas.Norm
import Verif.Props.OptionsFile

/-!
C52–C55: the command line program.
-/

namespace JFTP
open Spec Cli

/-! ### C52: options file lookup -/

section
variable {env : Env} {d : Bool}

theorem atPlace_total (env : Env) (p : Path) : ∃ s, AtPlace env p s := by
  cases h1 : env.fileExists p with
  | false => exact ⟨_, .missing h1⟩
  | true =>
    cases h2 : env.isFile p with
    | false => exact ⟨_, .notFile h1 h2⟩
    | true =>
      cases h3 : env.canRead p with
      | false => exact ⟨_, .unreadable h1 h2 h3⟩
      | true =>
        match h4 : env.yaml p with
        | none => exact ⟨_, .malformed h1 h2 h3 h4⟩
        | some none => exact ⟨_, .nullDocument h1 h2 h3 h4⟩
        | some (some x) =>
          cases h5 : x.valid with
          | false => exact ⟨_, .invalid h1 h2 h3 h4 h5⟩
          | true => exact ⟨_, .good h1 h2 h3 h4 h5⟩

theorem Spec.AtPlace.unique {p : Path} {s s' : FileState} (h : AtPlace env p s) (h' : AtPlace env p s') : s = s' := by
  cases h <;> cases h' <;> simp_all

/-- What reading a file gives. -/
def readResult : FileState → Except CliExn (Option ExternalOptions)
  | .missing => .ok none
  | .bad e => .error e
  | .good x => .ok (some x)

theorem says_readSimple {p : Path} {s : FileState} (h : AtPlace env (target env.cwd p) s) : Says d (readSimple env p) (readResult s) := by
  unfold readSimple
  unfold target at h
  have dbg : ∀ t, Says d (printDebug env.fmt j!"Options file found: %s" [t]) (.ok ()) := fun t => says_printDebug_s env.fmt j!"Options file found: " t (by decide)
  have dump : ∀ t, Says d (printDebug env.fmt j!"%s" [t]) (.ok ()) := fun t => says_printDebug_s env.fmt [] t (by decide)
  cases h with
  | missing h1 => simp only [h1]; exact .pure _
  | notFile h1 h2 => simp only [h1, h2]; exact .throw _
  | unreadable h1 h2 h3 => simp only [h1, h2, h3]; exact .throw _
  | malformed h1 h2 h3 h4 =>
    simp only [h1, h2, h3]
    refine .bind (dbg _) (.bind_error ?_)
    unfold load; rw [h4]; exact .throw _
  | nullDocument h1 h2 h3 h4 =>
    simp only [h1, h2, h3]
    refine .bind (dbg _) (.bind (x := none) ?_ ?_)
    · unfold load; rw [h4]; exact .bind (dump _) (.pure _)
    · exact .bind_error (.throw _)
  | invalid h1 h2 h3 h4 h5 =>
    rename_i x
    simp only [h1, h2, h3]
    refine .bind (dbg _) (.bind (x := some x) ?_ ?_)
    · unfold load; rw [h4]; exact .bind (dump _) (.pure _)
    · refine .bind_error ?_
      unfold validate; simp only [h5]; exact .throw _
  | good h1 h2 h3 h4 h5 =>
    rename_i x
    simp only [h1, h2, h3]
    refine .bind (dbg _) (.bind (x := some x) ?_ (.bind (x := x) ?_ (.bind (x := ()) ?_ (.pure _))))
    · unfold load; rw [h4]; exact .bind (dump _) (.pure _)
    · unfold validate; simp only [h5]; exact .pure _
    · exact says_printDebug_plain env.fmt (.inr (by decide))

theorem says_readFallback {ps : List Path} {r : Except CliExn (Option ExternalOptions)} (h : FirstOf env (ps.map (target env.cwd)) r)
    (hd : d = false ∨ ∀ p ∈ ps, Plain (pathString p)) : Says d (readFallback env ps) r := by
  induction ps with
  | nil =>
    unfold readFallback
    cases h with
    | nothing _ => exact .bind (says_printDebug_plain env.fmt (.inr (by decide))) (.pure _)
    | used h => simp at h
    | refused h => simp at h
  | cons p ps ih =>
    unfold readFallback
    have hmsg : AtPlace env (target env.cwd p) .missing → FirstOf env (ps.map (target env.cwd)) r →
        Says d (do match ← readSimple env p with
          | some x => return some x
          | none => do printDebug env.fmt (j!"Options file does not exist: " ++ pathString p); readFallback env ps) r := by
      intro hm hf
      refine .bind (says_readSimple hm) (.bind (x := ()) (says_printDebug_plain env.fmt ?_) (ih hf ?_))
      · rcases hd with hd | hd
        · exact .inl hd
        · refine .inr fun hx => ?_
          rcases List.mem_append.1 hx with hx | hx
          · revert hx; decide
          · exact hd p (by simp) hx
      · rcases hd with hd | hd
        · exact .inl hd
        · exact .inr fun q hq => hd q (by simp [hq])
    cases h with
    | nothing h => exact hmsg (h _ (by simp)) (.nothing fun q hq => h q (by simp [hq]))
    | used h hm hg =>
      rename_i l₁ l₂ q x
      cases l₁ with
      | nil =>
        simp only [List.map_cons, List.nil_append, List.cons.injEq] at h
        rw [← h.1] at hg
        exact .bind (says_readSimple hg) (.pure _)
      | cons a l₁ =>
        simp only [List.map_cons, List.cons_append, List.cons.injEq] at h
        exact hmsg (h.1 ▸ hm a (by simp)) (.used h.2 (fun q hq => hm q (by simp [hq])) hg)
    | refused h hm hg =>
      rename_i l₁ l₂ q e
      cases l₁ with
      | nil =>
        simp only [List.map_cons, List.nil_append, List.cons.injEq] at h
        rw [← h.1] at hg
        exact .bind_error (says_readSimple hg)
      | cons a l₁ =>
        simp only [List.map_cons, List.cons_append, List.cons.injEq] at h
        exact hmsg (h.1 ▸ hm a (by simp)) (.refused h.2 (fun q hq => hm q (by simp [hq])) hg)

theorem target_inDir {cwd dir : Path} (ha : dir.abs = true) (hc : ∀ n ∈ dir.names, n ≠ j!"." ∧ n ≠ j!"..") :
    target cwd (dir.resolve ⟨false, [optionsFileName]⟩) = optionsFileIn dir := by
  have hr : dir.resolve ⟨false, [optionsFileName]⟩ = optionsFileIn dir := by
    unfold Path.resolve
    rw [if_neg (by decide), if_neg (by decide), if_neg (by rintro rfl; cases ha), ha]; rfl
  rw [hr]
  unfold target
  rw [Path.toAbsolutePath_self rfl]
  refine Path.normalize_of_names rfl ?_
  intro n hn
  rcases List.mem_append.1 hn with hn | hn
  · exact hc n hn
  · rw [List.mem_singleton] at hn; subst hn; exact ⟨by decide, by decide⟩

theorem places_eq (hp : PlainDirs env) {tgt : Path} (ha : tgt.abs = true) (hc : ∀ n ∈ tgt.names, n ≠ j!"." ∧ n ≠ j!"..") :
    (fallbackPaths env tgt).map (target env.cwd) = places env tgt := by
  unfold fallbackPaths places
  simp only [List.map_cons, List.map_nil]
  rw [target_inDir ha hc, target_inDir hp.home.1 hp.home.2]
  have : target env.cwd ((⟨false, [Path.dotName]⟩ : Path).resolve ⟨false, [optionsFileName]⟩) = optionsFileIn env.cwd := by
    show target env.cwd ⟨false, [Path.dotName, optionsFileName]⟩ = _
    unfold target
    rw [Path.toAbsolutePath_rel hp.cwd.1 rfl, Path.normalize_abs rfl]
    show (⟨true, Path.normNames true (env.cwd.names ++ [Path.dotName, optionsFileName])⟩ : Path) = _
    unfold Path.normNames
    rw [List.foldl_append, Path.foldl_names true env.cwd.names [] hp.cwd.2]
    show (⟨true, (optionsFileName :: (env.cwd.names.reverse ++ [])).reverse⟩ : Path) = _
    simp [optionsFileIn, optionsFileName]
  rw [this]

theorem targetOf_clean (hp : PlainDirs env) (args : Args) : (targetOf env args).abs = true ∧ ∀ n ∈ (targetOf env args).names, n ≠ j!"." ∧ n ≠ j!".." := by
  unfold targetOf
  split
  · rename_i p _
    unfold target
    rw [Path.normalize_abs (Path.toAbsolutePath_abs hp.cwd.1)]
    exact ⟨rfl, Path.normNames_abs_names _⟩
  · exact hp.cwd

/-- Without percent signs in the names of target and home directory, or with a given options file, the debug messages about options files can be printed. -/
def QuietNames (env : Env) (tgt : Path) (given : Option Path) : Prop :=
  given ≠ none ∨ ((∀ n ∈ tgt.names, Plain n) ∧ ∀ n ∈ env.home.names, Plain n)

theorem plain_joinSlash {ns : List JStr} (h : ∀ n ∈ ns, Plain n) : Plain (joinSlash ns) := by
  induction ns with
  | nil => decide
  | cons n ns ih =>
    cases ns with
    | nil => exact h n (by simp)
    | cons n' ns =>
      rw [joinSlash]
      · intro hx
        rcases List.mem_append.1 hx with hx | hx
        · exact h n (by simp) hx
        · rcases List.mem_cons.1 hx with hx | hx
          · revert hx; decide
          · exact ih (fun x hx => h x (by simp [hx])) hx
      · simp

theorem plain_pathString {p : Path} (h : ∀ n ∈ p.names, Plain n) : Plain (pathString p) := by
  unfold pathString
  split
  · intro hx
    rcases List.mem_cons.1 hx with hx | hx
    · revert hx; decide
    · exact plain_joinSlash h hx
  · exact plain_joinSlash h

theorem fallback_plain {tgt : Path} (h1 : ∀ n ∈ tgt.names, Plain n) (h2 : ∀ n ∈ env.home.names, Plain n) :
    ∀ p ∈ fallbackPaths env tgt, Plain (pathString p) := by
  have hd : ∀ dir : Path, (∀ n ∈ dir.names, Plain n) → Plain (pathString (dir.resolve ⟨false, [optionsFileName]⟩)) := by
    intro dir h
    refine plain_pathString ?_
    unfold Path.resolve
    rw [if_neg (by decide), if_neg (by decide)]
    split
    · decide
    · intro n hn
      rcases List.mem_append.1 hn with hn | hn
      · exact h n hn
      · rw [List.mem_singleton] at hn; subst hn; decide
  intro p hp
  simp only [fallbackPaths, List.mem_cons, List.not_mem_nil, or_false] at hp
  rcases hp with rfl | rfl | rfl
  · exact hd _ h1
  · exact hd _ (by decide)
  · exact hd _ h2

theorem says_readExternal (hp : PlainDirs env) {tgt : Path} (ha : tgt.abs = true) (hc : ∀ n ∈ tgt.names, n ≠ j!"." ∧ n ≠ j!"..")
    {given : Option Path} {r : Except CliExn (Option ExternalOptions)} (h : Chosen env tgt given r) (hd : d = false ∨ QuietNames env tgt given) :
    Says d (readExternalOptions env tgt (given.map (target env.cwd))) r := by
  unfold readExternalOptions
  have tt : ∀ p, target env.cwd (target env.cwd p) = target env.cwd p := by
    intro p
    have habs : (target env.cwd p).abs = true := by
      unfold target; rw [Path.normalize_abs (Path.toAbsolutePath_abs hp.cwd.1)]
    have hn := Path.normalize_idem_abs (Path.toAbsolutePath_abs (p := p) hp.cwd.1)
    show ((target env.cwd p).toAbsolutePath env.cwd).normalize = _
    rw [Path.toAbsolutePath_self habs]
    exact hn
  cases h with
  | givenMissing h => rw [← tt] at h; exact .bind (says_readSimple h) (by exact .throw _)
  | givenBad h => rw [← tt] at h; exact .bind_error (says_readSimple h)
  | givenGood h => rw [← tt] at h; exact .bind (says_readSimple h) (.pure _)
  | fallback h =>
    rw [← places_eq hp ha hc] at h
    refine .bind (says_printDebug_plain env.fmt (.inr (by decide))) (says_readFallback h ?_)
    rcases hd with hd | hd | hd
    · exact .inl hd
    · exact absurd rfl hd
    · exact .inr (fallback_plain hd.1 hd.2)

theorem firstOf_total (env : Env) (ps : List Path) : ∃ r, FirstOf env ps r := by
  induction ps with
  | nil => exact ⟨_, .nothing (by simp)⟩
  | cons p ps ih =>
    obtain ⟨s, hs⟩ := atPlace_total env p
    cases s with
    | bad e => exact ⟨_, .refused (l₁ := []) rfl (by simp) hs⟩
    | good x => exact ⟨_, .used (l₁ := []) rfl (by simp) hs⟩
    | missing =>
      obtain ⟨r, hr⟩ := ih
      cases hr with
      | nothing h => exact ⟨_, .nothing fun q hq => by rcases List.mem_cons.1 hq with rfl | hq; exacts [hs, h q hq]⟩
      | used h hm hg => exact ⟨_, .used (l₁ := p :: _) (by rw [h]; rfl) (fun q hq => by rcases List.mem_cons.1 hq with rfl | hq; exacts [hs, hm q hq]) hg⟩
      | refused h hm hg => exact ⟨_, .refused (l₁ := p :: _) (by rw [h]; rfl) (fun q hq => by rcases List.mem_cons.1 hq with rfl | hq; exacts [hs, hm q hq]) hg⟩

theorem chosen_total (env : Env) (tgt : Path) (given : Option Path) : ∃ r, Chosen env tgt given r := by
  cases given with
  | none => obtain ⟨r, h⟩ := firstOf_total env (places env tgt); exact ⟨r, .fallback h⟩
  | some p =>
    obtain ⟨s, hs⟩ := atPlace_total env (target env.cwd p)
    cases s with
    | missing => exact ⟨_, .givenMissing hs⟩
    | bad e => exact ⟨_, .givenBad hs⟩
    | good x => exact ⟨_, .givenGood hs⟩

/-- **C52**: with debug mode off, reading the options does nothing but give the specified document, and there always is one specified result. -/
theorem C52_lookup (hp : PlainDirs env) {tgt : Path} (ha : tgt.abs = true) (hc : ∀ n ∈ tgt.names, n ≠ j!"." ∧ n ≠ j!"..") (given : Option Path)
    (c : Console) (hq : c.debug = false) : ∃ r, Chosen env tgt given r ∧ (readExternalOptions env tgt (given.map (target env.cwd))).run.run c = (r, c) ∧
      ∀ r', Chosen env tgt given r' → r' = r := by
  have run : ∀ r, Chosen env tgt given r → exec (readExternalOptions env tgt (given.map (target env.cwd))) c = (r, c) := by
    intro r h
    obtain ⟨msgs, hm, e⟩ := says_readExternal hp ha hc h (.inl rfl) c hq
    rw [e, hm rfl]; simp [debugLines]
  obtain ⟨r, h⟩ := chosen_total env tgt given
  refine ⟨r, h, run r h, fun r' h' => ?_⟩
  have := (run r' h').symm.trans (run r h)
  exact (Prod.mk.inj this).1

/-! ### C53–C55: output and exit code -/

/-- The last step of a run. -/
def lastStep (env : Env) : Outcome → CliM Nat
  | .notFound t => do
    printError env.fmt j!"Path not found: %s" [pathString t]
    return 1
  | .failed e => throw e
  | .tree s => do
    print env.fmt s
    return 0

/-- Exception handling around an action. -/
def guarded (env : Env) (a : CliM Nat) (c : Console) : Nat × Console :=
  match exec a c with
  | (.ok code, c') => (code, c')
  | (.error e, c') =>
    match exec (handleExecutionException env e) c' with
    | (.ok code, c'') => (code, c'')
    | (.error e', c'') => (1, { c'' with err := c''.err ++ env.stackTrace e' })

theorem run_eq (env : Env) (args : Args) : run env args = guarded env (call env args) {} := by
  unfold run execute guarded exec
  simp only [StateT.run_bind]
  rcases h : (call env args).run.run {} with ⟨e | x, c'⟩
  · simp only [bind]
    generalize (handleExecutionException env e).run = hh
    rcases h' : hh c' with ⟨e' | y, c''⟩ <;> simp only [StateT.run, StateT.bind, bind, h'] <;> rfl
  · rfl

/-- The action only appends to the console, and what it does does not depend on the console. -/
def Appends {α : Type} (a : CliM α) : Prop :=
  ∃ r o e, ∀ c : Console, exec a c = (r, { c with out := c.out ++ o, err := c.err ++ e })

theorem Appends.pure {α : Type} (x : α) : Appends (Pure.pure x : CliM α) := ⟨.ok x, [], [], fun c => by simp [exec_pure]⟩

theorem Appends.throw {α : Type} (e : CliExn) : Appends (MonadExcept.throw e : CliM α) := ⟨.error e, [], [], fun c => by simp [exec_throw]⟩

theorem Appends.bind {α β : Type} {a : CliM α} {f : α → CliM β} (ha : Appends a) (hf : ∀ x, Appends (f x)) : Appends (a >>= f) := by
  obtain ⟨r, o, e, h⟩ := ha
  cases r with
  | error x => exact ⟨.error x, o, e, fun c => by rw [exec_bind_error (h c)]⟩
  | ok x =>
    obtain ⟨r', o', e', h'⟩ := hf x
    exact ⟨r', o ++ o', e ++ e', fun c => by rw [exec_bind_ok (h c), h']; simp⟩

theorem Appends.printfln (F : SpecParser) (toErr : Bool) (msg : JStr) (args : List JStr) : Appends (Cli.printfln F toErr msg args) := by
  cases h : parseFmt F (msg ++ [NL]) with
  | error e => exact ⟨.error e, [], [], fun c => by rw [exec_printfln_bad F h]; simp⟩
  | ok ps =>
    cases toErr with
    | false => exact ⟨_, _, [], fun c => by rw [exec_printfln_ok F h]; simp only [written, List.append_nil]; rfl⟩
    | true => exact ⟨_, [], _, fun c => by rw [exec_printfln_ok F h]; simp only [written, List.append_nil]; rfl⟩

theorem appends_lastStep (env : Env) (r : Outcome) : Appends (lastStep env r) := by
  cases r with
  | notFound t => exact .bind (.printfln _ _ _ _) (fun _ => .pure _)
  | failed e => exact .throw _
  | tree s => exact .bind (.printfln _ _ _ _) (fun _ => .pure _)

theorem appends_handle (env : Env) (e : CliExn) : Appends (handleExecutionException env e) := by
  cases e <;> exact .bind (.printfln _ _ _ _) (fun _ => .pure _)

theorem guarded_appends (env : Env) {a : CliM Nat} (ha : Appends a) :
    ∃ code o e, ∀ c : Console, guarded env a c = (code, { c with out := c.out ++ o, err := c.err ++ e }) := by
  obtain ⟨r, o, e, h⟩ := ha
  cases r with
  | ok code => exact ⟨code, o, e, fun c => by unfold guarded; rw [h]⟩
  | error x =>
    obtain ⟨r', o', e', h'⟩ := appends_handle env x
    cases r' with
    | ok code => exact ⟨code, o ++ o', e ++ e', fun c => by unfold guarded; rw [h]; simp only []; rw [h']; simp⟩
    | error y => exact ⟨1, o ++ o', e ++ (e' ++ env.stackTrace y), fun c => by unfold guarded; rw [h]; simp only []; rw [h']; simp⟩

theorem says_detect (args : Args) (hp : PlainDirs env) : Says d (detectTargetPath env args) (.ok (targetOf env args)) := by
  unfold detectTargetPath targetOf
  cases args.target with
  | some p =>
    exact .bind (.pure _) (.bind (x := ()) (says_printDebug_s env.fmt j!"Target path: " _ (by decide)) (.pure _))
  | none =>
    refine .bind (x := ()) (says_printDebug_plain env.fmt (msg := j!"No target provided: use current directory") (.inr (by decide))) ?_
    refine .bind (x := (⟨false, [Path.dotName]⟩ : Path)) (.pure _) ?_
    refine .bind (x := ()) (says_printDebug_s env.fmt j!"Target path: " _ (by decide)) ?_
    have : ((⟨false, [Path.dotName]⟩ : Path).toAbsolutePath env.cwd).normalize = env.cwd := by
      rw [Path.toAbsolutePath_rel hp.cwd.1 rfl, Path.normalize_abs rfl]
      show (⟨true, Path.normNames true (env.cwd.names ++ [Path.dotName])⟩ : Path) = _
      unfold Path.normNames
      rw [List.foldl_append, Path.foldl_names true env.cwd.names [] hp.cwd.2]
      show (⟨true, (env.cwd.names.reverse ++ []).reverse⟩ : Path) = _
      have := hp.cwd.1
      cases h : env.cwd
      rw [h] at this
      simp_all
    simp only [this]
    exact .pure _

theorem exec_ofLib_ok {α : Type} (a : α) (c : Console) : exec (ofLib (.ok a)) c = (.ok a, c) := rfl

theorem exec_ofLib_error {α : Type} (e : Exn) (c : Console) : exec (ofLib (.error e : Except Exn α)) c = (.error (.lib e), c) := rfl

theorem call_ends (hp : PlainDirs env) {args : Args} {r : Outcome} (h : Ends env args r)
    (hd : args.debug = false ∨ QuietNames env (targetOf env args) args.optionsFile) :
    ∃ msgs, (args.debug = false → msgs = []) ∧ exec (call env args) {} = exec (lastStep env r) { debug := args.debug, out := debugLines msgs } := by
  have hclean := targetOf_clean hp args
  obtain ⟨m₁, h₁, e₁⟩ := says_detect (d := args.debug) args hp { debug := args.debug } rfl
  have hload : ∀ x, Chosen env (targetOf env args) args.optionsFile (.ok x) → ∀ ro : Except Exn _, optionsFor env (targetOf env args) x = ro →
      Says args.debug (loadOptions env (targetOf env args) (args.optionsFile.map (target env.cwd))) (match ro with | .ok o => .ok o | .error e => .error (.lib e)) := by
    intro x hc ro ho
    unfold loadOptions
    refine .bind (says_readExternal hp hclean.1 hclean.2 hc hd) ?_
    cases x with
    | none => cases ho; exact .pure _
    | some x =>
      simp only [optionsFor] at ho
      simp only [ho]
      cases ro with
      | ok o => exact .pure _
      | error e => exact .throw _
  unfold call
  rw [exec_bind_ok (show exec (modify fun c => { c with debug := args.debug } : CliM Unit) {} = (.ok (), { debug := args.debug }) from rfl), exec_bind_ok e₁]
  have habs : args.optionsFile.map (fun p => (p.toAbsolutePath env.cwd).normalize) = args.optionsFile.map (target env.cwd) := rfl
  cases h with
  | notFound hx =>
    refine ⟨m₁, h₁, ?_⟩
    simp only [hx]; rfl
  | badOptions hx hc =>
    rename_i e
    have hs : Says args.debug (loadOptions env (targetOf env args) (args.optionsFile.map (target env.cwd))) (.error e) := by
      unfold loadOptions
      exact .bind_error (says_readExternal hp hclean.1 hclean.2 hc hd)
    obtain ⟨m₂, h₂, e₂⟩ := hs { debug := args.debug, out := [] ++ debugLines m₁ } rfl
    refine ⟨m₁ ++ m₂, fun h => by rw [h₁ h, h₂ h]; rfl, ?_⟩
    simp only [hx, habs]
    rw [if_neg (by decide), exec_bind_error e₂]
    simp [lastStep, exec_throw, debugLines]
  | unusableOptions hx hc ho =>
    obtain ⟨m₂, h₂, e₂⟩ := hload _ hc _ ho { debug := args.debug, out := [] ++ debugLines m₁ } rfl
    refine ⟨m₁ ++ m₂, fun h => by rw [h₁ h, h₂ h]; rfl, ?_⟩
    simp only [hx, habs]
    rw [if_neg (by decide), exec_bind_error e₂]
    simp [lastStep, exec_throw, debugLines]
  | unprintable hx hc ho hpr =>
    obtain ⟨m₂, h₂, e₂⟩ := hload _ hc _ ho { debug := args.debug, out := [] ++ debugLines m₁ } rfl
    refine ⟨m₁ ++ m₂, fun h => by rw [h₁ h, h₂ h]; rfl, ?_⟩
    simp only [hx, habs]
    rw [if_neg (by decide), exec_bind_ok e₂, hpr, exec_bind_error (exec_ofLib_error _ _)]
    simp [lastStep, exec_throw, debugLines]
  | printed hx hc ho hpr =>
    obtain ⟨m₂, h₂, e₂⟩ := hload _ hc _ ho { debug := args.debug, out := [] ++ debugLines m₁ } rfl
    refine ⟨m₁ ++ m₂, fun h => by rw [h₁ h, h₂ h]; rfl, ?_⟩
    simp only [hx, habs]
    rw [if_neg (by decide), exec_bind_ok e₂, hpr, exec_bind_ok (exec_ofLib_ok _ _)]
    simp [lastStep, debugLines]

theorem run_ends (hp : PlainDirs env) {args : Args} {r : Outcome} (h : Ends env args r)
    (hd : args.debug = false ∨ QuietNames env (targetOf env args) args.optionsFile) :
    ∃ msgs, (args.debug = false → msgs = []) ∧ run env args = guarded env (lastStep env r) { debug := args.debug, out := debugLines msgs } := by
  obtain ⟨msgs, hm, e⟩ := call_ends hp h hd
  refine ⟨msgs, hm, ?_⟩
  rw [run_eq]; unfold guarded; rw [e]

theorem run_quiet (hp : PlainDirs env) {args : Args} {r : Outcome} (h : Ends env args r) (hd : args.debug = false) :
    run env args = guarded env (lastStep env r) {} := by
  obtain ⟨msgs, hm, e⟩ := run_ends hp h (.inl hd)
  rw [e, hm hd, hd]; rfl

theorem ends_total (env : Env) (args : Args) : ∃ r, Ends env args r := by
  cases hx : env.fileExists (targetOf env args) with
  | false => exact ⟨_, .notFound hx⟩
  | true =>
    obtain ⟨r, hc⟩ := chosen_total env (targetOf env args) args.optionsFile
    cases r with
    | error e => exact ⟨_, .badOptions hx hc⟩
    | ok x =>
      cases ho : optionsFor env (targetOf env args) x with
      | error e => exact ⟨_, .unusableOptions hx hc ho⟩
      | ok o =>
        cases hpr : prettyPrint env.fs.lift env.cwd o (targetOf env args) with
        | error e => exact ⟨_, .unprintable hx hc ho hpr⟩
        | ok s => exact ⟨_, .printed hx hc ho hpr⟩

theorem guarded_throw (env : Env) (e : CliExn) (c : Console) : ∃ t, guarded env (throw e) c = (1, { c with err := c.err ++ t }) ∧
    (Plain (failureText env e) → t = j!"[ERROR] " ++ failureText env e ++ j!"\n") ∧ ((∀ x, env.stackTrace x ≠ []) → t ≠ []) := by
  have hh : handleExecutionException env e = (printfln env.fmt true (j!"[ERROR] " ++ failureText env e) [] >>= fun _ => pure 1) := by cases e <;> rfl
  cases hf : parseFmt env.fmt (failureText env e ++ [NL]) with
  | error x =>
    have hf' : parseFmt env.fmt (j!"[ERROR] " ++ failureText env e ++ [NL]) = .error x := by
      rw [List.append_assoc, parseFmt_plain env.fmt (by decide), hf]; rfl
    refine ⟨env.stackTrace x, ?_, fun hpl => ?_, fun h => h x⟩
    · unfold guarded; rw [exec_throw]; simp only []; rw [hh, exec_bind_error (exec_printfln_bad env.fmt hf' c)]
    · rw [parseFmt_end env.fmt hpl] at hf; cases hf
  | ok ps =>
    have hf' : parseFmt env.fmt (j!"[ERROR] " ++ failureText env e ++ [NL]) = .ok (j!"[ERROR] ".map .lit ++ ps) := by
      rw [List.append_assoc, parseFmt_plain env.fmt (by decide), hf]; rfl
    have hx := exec_printfln_ok env.fmt (toErr := true) (args := []) hf' c
    rw [runFmt_lits] at hx
    cases hm : (runFmt ps []).2 with
    | true =>
      rw [hm] at hx
      refine ⟨j!"[ERROR] " ++ (runFmt ps []).1 ++ env.stackTrace .illegalFormat, ?_, fun hpl => ?_, fun _ => by simp⟩
      · unfold guarded; rw [exec_throw]; simp only []; rw [hh, exec_bind_error hx]; simp [written]
      · rw [parseFmt_end env.fmt hpl] at hf; cases hf; rw [runFmt_lits'] at hm; cases hm
    | false =>
      rw [hm] at hx
      refine ⟨j!"[ERROR] " ++ (runFmt ps []).1, ?_, fun hpl => ?_, fun _ => by simp⟩
      · unfold guarded; rw [exec_throw]; simp only []; rw [hh, exec_bind_ok hx, exec_pure]; simp [written]
      · rw [parseFmt_end env.fmt hpl] at hf; cases hf; rw [runFmt_lits', List.append_assoc]; rfl

/-- A failing action, as far as the handler is concerned. -/
theorem guarded_error {a : CliM Nat} {e : CliExn} {c c' : Console} (h : exec a c = (.error e, c')) : guarded env a c = guarded env (throw e) c' := by
  unfold guarded; rw [h, exec_throw]

theorem guarded_notFound (env : Env) (t : Path) (c : Console) : guarded env (lastStep env (.notFound t)) c =
    (1, { c with err := c.err ++ (j!"[ERROR] Path not found: " ++ pathString t ++ j!"\n") }) := by
  have h := exec_printfln_s env.fmt true (a := j!"[ERROR] Path not found: ") (b := []) (by decide) (by decide) (pathString t) c
  have h' : exec (lastStep env (.notFound t)) c = _ := exec_bind_ok h
  unfold guarded
  rw [h', exec_pure]
  simp [written]; rfl

/-- **C53**: with debug mode off, the library's string is printed, followed by a line break, if it contains no percent sign. -/
theorem C53_prints (hp : PlainDirs env) {args : Args} (hd : args.debug = false) {s : JStr} (h : Ends env args (.tree s)) (hs : Plain s) :
    run env args = (0, { out := s ++ j!"\n" }) := by
  rw [run_quiet hp h hd]
  have h' : exec (lastStep env (.tree s)) {} = _ := exec_bind_ok (exec_printfln_plain env.fmt false hs [] {})
  unfold guarded
  rw [h', exec_pure]; rfl

/-- **C53**, converse: exit code 0 means that the library returned a string. -/
theorem C53_code_zero (hp : PlainDirs env) {args : Args} (hd : args.debug = false) (h : (run env args).1 = 0) : ∃ s, Ends env args (.tree s) := by
  obtain ⟨r, hr⟩ := ends_total env args
  rw [run_quiet hp hr hd] at h
  cases r with
  | tree s => exact ⟨s, hr⟩
  | notFound t => rw [guarded_notFound] at h; cases h
  | failed e => obtain ⟨t, ht, _⟩ := guarded_throw env e {}; rw [lastStep, ht] at h; cases h

/-- **C53** is false for strings with percent signs: `%%` is printed as `%`, `%n` as a line break. -/
theorem C53_false (hp : PlainDirs env) {args : Args} (hd : args.debug = false) {a b : JStr} (ha : Plain a) (hb : Plain b) :
    (Ends env args (.tree (a ++ j!"%%" ++ b)) → run env args = (0, { out := a ++ j!"%" ++ b ++ j!"\n" })) ∧
    (Ends env args (.tree (a ++ j!"%n" ++ b)) → run env args = (0, { out := a ++ j!"\n" ++ b ++ j!"\n" })) := by
  constructor <;> intro h <;> rw [run_quiet hp h hd]
  · have h' : exec (lastStep env (.tree _)) {} = _ := exec_bind_ok (exec_printfln_percent env.fmt false ha hb [] {})
    unfold guarded; rw [h', exec_pure]; rfl
  · have h' : exec (lastStep env (.tree _)) {} = _ := exec_bind_ok (exec_printfln_n env.fmt false ha hb [] {})
    unfold guarded; rw [h', exec_pure]; rfl

/-- **C54**: a missing target. -/
theorem C54_not_found (hp : PlainDirs env) {args : Args} (hd : args.debug = false) (h : env.fileExists (targetOf env args) = false) :
    run env args = (1, { err := j!"[ERROR] Path not found: " ++ pathString (targetOf env args) ++ j!"\n" }) := by
  rw [run_quiet hp (.notFound h) hd, guarded_notFound]; rfl

/-- **C54**: every failure before printing gives exit code 1, no standard output, and an error message. -/
theorem C54_failed (hp : PlainDirs env) {args : Args} (hd : args.debug = false) {e : CliExn} (h : Ends env args (.failed e)) :
    (run env args).1 = 1 ∧ (run env args).2.out = [] ∧ ((∀ x, env.stackTrace x ≠ []) → (run env args).2.err ≠ []) ∧
    (Plain (failureText env e) → (run env args).2.err = j!"[ERROR] " ++ failureText env e ++ j!"\n") := by
  rw [run_quiet hp h hd, lastStep]
  obtain ⟨t, ht, h1, h2⟩ := guarded_throw env e {}
  rw [ht]
  exact ⟨rfl, rfl, h2, h1⟩

/-- Exit codes. -/
def Codes (a : CliM Nat) : Prop := ∀ c code c', exec a c = (.ok code, c') → code = 0 ∨ code = 1

theorem Codes.bind {α : Type} {a : CliM α} {f : α → CliM Nat} (h : ∀ x, Codes (f x)) : Codes (a >>= f) := by
  intro c code c' he
  rw [exec_bind] at he
  rcases hx : exec a c with ⟨e | x, c''⟩
  · rw [hx] at he; cases he
  · rw [hx] at he; exact h x c'' code c' he

theorem Codes.pure {n : Nat} (h : n = 0 ∨ n = 1) : Codes (Pure.pure n) := by
  intro c code c' he
  rw [exec_pure] at he
  cases he; exact h

/-- **C54**: the exit code is 0 or 1 in every run, with or without debug mode. -/
theorem C54_codes (env : Env) (args : Args) : (run env args).1 = 0 ∨ (run env args).1 = 1 := by
  have hc : Codes (call env args) := by
    unfold call
    refine .bind fun _ => .bind fun t => ?_
    split
    · exact .bind fun _ => .pure (.inr rfl)
    · exact .bind fun _ => .bind fun _ => .bind fun _ => .pure (.inl rfl)
  have hh : ∀ e, Codes (handleExecutionException env e) := by
    intro e
    unfold handleExecutionException
    cases e <;> exact .bind fun _ => .pure (.inr rfl)
  rw [run_eq]
  unfold guarded
  rcases h : exec (call env args) {} with ⟨e | code, c'⟩
  · simp only []
    rcases h' : exec (handleExecutionException env e) c' with ⟨e' | code, c''⟩
    · exact .inr rfl
    · exact hh e _ _ _ h'
  · exact hc _ _ _ h

/-- **C54**: a failing run that writes to the standard output had a string with a percent sign to print. -/
theorem C54_output_on_failure (hp : PlainDirs env) {args : Args} (hd : args.debug = false) (hc : (run env args).1 = 1) (ho : (run env args).2.out ≠ []) :
    ∃ s, Ends env args (.tree s) ∧ PERCENT ∈ s := by
  obtain ⟨r, hr⟩ := ends_total env args
  cases r with
  | tree s =>
    refine ⟨s, hr, ?_⟩
    by_contra hs
    rw [C53_prints hp hd hr hs] at hc; cases hc
  | notFound t => rw [run_quiet hp hr hd, guarded_notFound] at ho; exact absurd rfl ho
  | failed e => exact absurd (C54_failed hp hd hr).2.1 ho

/-- **C54** is false if the string contains `%s`: the part before it is printed, then the run fails. -/
theorem C54_false (hp : PlainDirs env) {args : Args} (hd : args.debug = false) {a b : JStr} (ha : Plain a) (hb : Plain b)
    (h : Ends env args (.tree (a ++ j!"%s" ++ b))) : (run env args).1 = 1 ∧ (run env args).2.out = a := by
  rw [run_quiet hp h hd]
  have h' : exec (lastStep env (.tree _)) {} = _ := exec_bind_error (exec_printfln_missing env.fmt false ha hb {})
  rw [guarded_error h']
  obtain ⟨t, ht, _⟩ := guarded_throw env .illegalFormat (written false a {})
  rw [ht]
  exact ⟨rfl, rfl⟩

theorem ends_debug {args : Args} {b : Bool} {r : Outcome} : Ends env { args with debug := b } r ↔ Ends env args r := by
  constructor
  all_goals
    intro h
    cases h with
    | notFound h => exact .notFound h
    | badOptions h1 h2 => exact .badOptions h1 h2
    | unusableOptions h1 h2 h3 => exact .unusableOptions h1 h2 h3
    | unprintable h1 h2 h3 h4 => exact .unprintable h1 h2 h3 h4
    | printed h1 h2 h3 h4 => exact .printed h1 h2 h3 h4

/-- **C55**: debug mode only adds `[DEBUG]` messages in front of the normal output, if an options file is given or the names of the target and home
directory contain no percent sign. -/
theorem C55_adds_messages (hp : PlainDirs env) (args : Args) (hn : args.optionsFile ≠ none ∨
      ((∀ n ∈ (targetOf env args).names, PERCENT ∉ n) ∧ ∀ n ∈ env.home.names, PERCENT ∉ n)) :
    (run env { args with debug := true }).1 = (run env { args with debug := false }).1 ∧
    (run env { args with debug := true }).2.err = (run env { args with debug := false }).2.err ∧
    ∃ msgs, (run env { args with debug := true }).2.out = debugLines msgs ++ (run env { args with debug := false }).2.out := by
  obtain ⟨r, hr⟩ := ends_total env args
  rw [run_quiet hp (ends_debug.2 hr) rfl]
  obtain ⟨msgs, _, he⟩ := run_ends (args := { args with debug := true }) hp (ends_debug.2 hr) (.inr hn)
  rw [he]
  obtain ⟨code, o, e, h⟩ := guarded_appends env (appends_lastStep env r)
  rw [h, h]
  exact ⟨rfl, rfl, msgs, by simp⟩

/-- **C55** is false otherwise: if `%s` occurs in the path of the options file that is looked for in the target directory and does not exist, debug mode makes
the run fail. -/
theorem C55_false (hp : PlainDirs env) (args : Args) (hx : env.fileExists (targetOf env args) = true) (ho : args.optionsFile = none) (hd : args.debug = true)
    (hm : env.fileExists (optionsFileIn (targetOf env args)) = false) {a b : JStr} (ha : Plain a) (hb : Plain b)
    (hs : pathString (optionsFileIn (targetOf env args)) = a ++ j!"%s" ++ b) : (run env args).1 = 1 := by
  have hclean := targetOf_clean hp args
  obtain ⟨m₁, _, e₁⟩ := says_detect (d := args.debug) args hp { debug := args.debug } rfl
  have hfail : ∀ c : Console, c.debug = true → ∃ c', exec (loadOptions env (targetOf env args) none) c = (.error .illegalFormat, c') := by
    intro c hc
    have hfirst : (targetOf env args).resolve ⟨false, [optionsFileName]⟩ = optionsFileIn (targetOf env args) := by
      unfold Path.resolve
      rw [if_neg (by decide), if_neg (by decide), if_neg (by intro h; have := hclean.1; rw [h] at this; cases this), hclean.1]; rfl
    obtain ⟨m₂, _, e₂⟩ := says_printDebug_plain (d := true) env.fmt (msg := j!"No options file provided, looking for fallback options files...") (.inr (by decide)) c hc
    have hs3 : Says true (readSimple env (optionsFileIn (targetOf env args))) (.ok none) := by
      refine says_readSimple (s := .missing) ?_
      rw [← hfirst, target_inDir hclean.1 hclean.2]
      exact .missing hm
    obtain ⟨m₃, _, e₃⟩ := hs3 { c with out := c.out ++ debugLines m₂ } hc
    have hpr : ∀ c : Console, c.debug = true → exec (printDebug env.fmt (j!"Options file does not exist: " ++ pathString (optionsFileIn (targetOf env args)))) c =
        (.error .illegalFormat, written false (j!"[DEBUG] Options file does not exist: " ++ a) c) := by
      intro c hc
      rw [exec_printDebug, if_pos hc, hs]
      have := exec_printfln_missing env.fmt false (a := j!"[DEBUG] Options file does not exist: " ++ a) (b := b) (by
        intro hm; rcases List.mem_append.1 hm with hm | hm
        · revert hm; decide
        · exact ha hm) hb c
      rw [← this]; simp
    unfold loadOptions readExternalOptions
    simp only []
    rw [exec_bind, exec_bind_ok e₂]
    unfold fallbackPaths
    rw [readFallback, hfirst, exec_bind_ok e₃]
    simp only []
    rw [exec_bind_error (hpr { c with out := c.out ++ debugLines m₂ ++ debugLines m₃ } hc)]
    exact ⟨_, rfl⟩
  have hcall : ∃ c', exec (call env args) {} = (.error .illegalFormat, c') := by
    unfold call
    rw [exec_bind_ok (show exec (modify fun c => { c with debug := args.debug } : CliM Unit) {} = (.ok (), { debug := args.debug }) from rfl), exec_bind_ok e₁]
    simp only [hx, ho]
    rw [if_neg (by decide)]
    obtain ⟨c', h'⟩ := hfail { debug := args.debug, out := [] ++ debugLines m₁ } hd
    exact ⟨c', exec_bind_error h'⟩
  obtain ⟨c', h'⟩ := hcall
  rw [run_eq, guarded_error h']
  obtain ⟨t, ht, _⟩ := guarded_throw env .illegalFormat c'
  rw [ht]

end

/-! ### Examples -/

/-- A machine where only the regular file `p` exists. -/
def Demo.machine (p : Path) : Env where
  cwd := ⟨true, [j!"w"]⟩
  home := ⟨true, [j!"h"]⟩
  fs := ⟨fun _ => false, fun _ => .openFailed, fun _ => some ⟨false, false⟩, fun _ => true, fun _ => false, fun _ => false⟩
  fileExists q := decide (q = p)
  isFile _ := true
  canRead _ := true
  yaml _ := none
  violations _ := []
  reflect _ := .other []
  casing := asciiCasing
  glob := Demo.glob
  fmt _ := none
  message _ := []
  stackTrace _ := j!"error"

theorem Demo.machine_plain (p : Path) : PlainDirs (Demo.machine p) :=
  ⟨⟨rfl, show ∀ n ∈ [j!"w"], n ≠ j!"." ∧ n ≠ j!".." by decide⟩, ⟨rfl, show ∀ n ∈ [j!"h"], n ≠ j!"." ∧ n ≠ j!".." by decide⟩⟩

theorem Demo.file {p : Path} {n : JStr} (h1 : (p.toAbsolutePath ⟨true, [j!"w"]⟩).normalize = p) (h2 : p.normalize.toAbsolutePath ⟨true, [j!"w"]⟩ = p) (hn : p.getFileName = some n) :
    prettyPrint (m := Except Exn) (Demo.machine p).fs.lift (Demo.machine p).cwd Options.createDefault p = .ok n := by
  have hs : Scanner.scan (m := Except Exn) (Demo.machine p).fs.lift ((Options.createDefault (m := Except Exn)).toScan (Demo.machine p).fs.lift) (Demo.machine p).cwd p = .ok (.file p ⟨false, false⟩) := by
    unfold Scanner.scan
    show Scanner.handle _ _ 0 (p.normalize.toAbsolutePath ⟨true, [j!"w"]⟩) = _
    rw [h2, Scanner.handle]; rfl
  unfold prettyPrint Printer.prettyPrint
  show (Scanner.scan (m := Except Exn) _ _ _ (p.toAbsolutePath ⟨true, [j!"w"]⟩).normalize >>= _) = _
  rw [h1, hs]
  show Renderer.renderRoot _ _ _ = _
  unfold Renderer.renderRoot
  rw [Renderer.renderTree]
  unfold LineRenderer.renderFile FileFormatter.emojiFormatFile FileFormatter.formatFile
  rw [hn]
  simp [Renderer.computeLineExtension, Options.toRender, Options.createDefault, Printer.build, LineRenderer.create, FileFormatter.emojiPrefix]
  rfl

/-- The command line `prettyprint p`. -/
def Demo.cmd (p : Path) : Args := { target := some p }

theorem Demo.ends {p : Path} {s : JStr} (hc : targetOf (Demo.machine p) (Demo.cmd p) = p)
    (h1 : decide (optionsFileIn p = p) = false) (h2 : decide (optionsFileIn ⟨true, [j!"w"]⟩ = p) = false) (h3 : decide (optionsFileIn ⟨true, [j!"h"]⟩ = p) = false)
    (hs : prettyPrint (m := Except Exn) (Demo.machine p).fs.lift (Demo.machine p).cwd Options.createDefault p = .ok s) : Ends (Demo.machine p) (Demo.cmd p) (.tree s) := by
  refine .printed (x := none) (o := Options.createDefault) (by rw [hc]; exact decide_eq_true rfl) ?_ rfl (by rw [hc]; exact hs)
  refine .fallback (.nothing ?_)
  rw [hc]
  intro q hq
  simp only [places, List.mem_cons, List.not_mem_nil, or_false] at hq
  rcases hq with rfl | rfl | rfl
  · exact .missing h1
  · exact .missing h2
  · exact .missing h3

/-- Example for C52: an unreadable `.prettyprint` in the working directory is an error; it is not skipped although the home directory comes after it. -/
example : Chosen (Demo.machine ⟨true, [j!"w", j!".prettyprint"]⟩) ⟨true, [j!"r"]⟩ none
    (.error (.externalOptions ⟨true, [j!"w", j!".prettyprint"]⟩ j!"IO error or malformed options file")) :=
  .fallback (.refused (l₁ := [⟨true, [j!"r", j!".prettyprint"]⟩]) rfl (by
    intro q hq; rw [List.mem_singleton] at hq; subst hq; exact .missing (by decide)) (.malformed (by decide) rfl rfl rfl))

/-- Example for C52, C53: no options file exists, the target is printed. -/
example : run (Demo.machine ⟨true, [j!"r"]⟩) (Demo.cmd ⟨true, [j!"r"]⟩) = (0, { out := j!"r\n" }) :=
  C53_prints (Demo.machine_plain _) rfl (Demo.ends (s := j!"r") (by decide) (by decide) (by decide) (by decide) (Demo.file (by decide) (by decide) (by decide))) (by decide)

/-- C53 is false: the file `/100%%` is printed as `100%`. -/
theorem C53_witness : ∃ (env : Env) (args : Args) (s : JStr), PlainDirs env ∧ args.debug = false ∧ Ends env args (.tree s) ∧ (run env args).1 = 0 ∧ (run env args).2.out ≠ s ++ j!"\n" := by
  refine ⟨Demo.machine ⟨true, [j!"100%%"]⟩, Demo.cmd ⟨true, [j!"100%%"]⟩, j!"100%%", Demo.machine_plain _, rfl, ?_, ?_⟩
  · exact Demo.ends (by decide) (by decide) (by decide) (by decide) (Demo.file (by decide) (by decide) (by decide))
  · rw [(C53_false (Demo.machine_plain _) (args := Demo.cmd ⟨true, [j!"100%%"]⟩) rfl (a := j!"100") (b := []) (by decide) (by decide)).1 (Demo.ends (by decide) (by decide) (by decide) (by decide) (Demo.file (by decide) (by decide) (by decide)))]
    exact ⟨rfl, by decide⟩

/-- C54 is false: with the file `/a%s`, `a` is printed and the exit code is 1. -/
theorem C54_witness : ∃ (env : Env) (args : Args), PlainDirs env ∧ args.debug = false ∧ (run env args).1 = 1 ∧ (run env args).2.out ≠ [] := by
  refine ⟨Demo.machine ⟨true, [j!"a%s"]⟩, Demo.cmd ⟨true, [j!"a%s"]⟩, Demo.machine_plain _, rfl, ?_⟩
  have := C54_false (Demo.machine_plain _) (args := Demo.cmd ⟨true, [j!"a%s"]⟩) rfl (a := j!"a") (b := []) (by decide) (by decide)
    (Demo.ends (p := ⟨true, [j!"a%s"]⟩) (by decide) (by decide) (by decide) (by decide) (Demo.file (by decide) (by decide) (by decide)))
  rw [this.1, this.2]; decide

/-- Example for C54: a missing target. -/
example : run (Demo.machine ⟨true, [j!"r"]⟩) (Demo.cmd ⟨true, [j!"x"]⟩) = (1, { err := j!"[ERROR] Path not found: /x\n" }) :=
  C54_not_found (Demo.machine_plain _) rfl (by decide)

/-- Example for C54: a bad options file. -/
example : Ends (Demo.machine ⟨true, [j!"r"]⟩) { target := some ⟨true, [j!"r"]⟩, optionsFile := some ⟨true, [j!"r"]⟩ }
    (.failed (.externalOptions ⟨true, [j!"r"]⟩ j!"IO error or malformed options file")) :=
  .badOptions (by decide) (.givenBad (.malformed (by decide) rfl rfl rfl))

/-- C55 is false: with the file `/x%s/r`, exit code 0 without and 1 with debug mode. -/
theorem C55_witness : ∃ (env : Env) (args : Args), PlainDirs env ∧ (run env { args with debug := false }).1 = 0 ∧ (run env { args with debug := true }).1 = 1 := by
  refine ⟨Demo.machine ⟨true, [j!"x%s", j!"r"]⟩, Demo.cmd ⟨true, [j!"x%s", j!"r"]⟩, Demo.machine_plain _, ?_, ?_⟩
  · rw [C53_prints (Demo.machine_plain _) rfl (ends_debug.2 (Demo.ends (s := j!"r") (by decide) (by decide) (by decide) (by decide) (Demo.file (by decide) (by decide) (by decide)))) (by decide)]
  · exact C55_false (Demo.machine_plain _) _ (by decide) rfl rfl (by decide) (a := j!"/x") (b := j!"/r/.prettyprint") (by decide) (by decide) (by decide)

/-- Example for C55: the hypothesis holds for `/r`. -/
example : (∀ n ∈ (targetOf (Demo.machine ⟨true, [j!"r"]⟩) (Demo.cmd ⟨true, [j!"r"]⟩)).names, PERCENT ∉ n) ∧ ∀ n ∈ (Demo.machine ⟨true, [j!"r"]⟩).home.names, PERCENT ∉ n := by decide

end JFTP
