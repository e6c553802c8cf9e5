import Verif.Spec.Nulls
import Verif.Props.Objects

/-!
C77: null arguments.
-/

namespace JFTP
open Spec

namespace Nulls77

theorem afterAll_eq {σ C : Type} {call : C → Call σ Unit} {meaning : C → Meaning σ} (h : ∀ c, Means (call c) (meaning c)) (s : σ) (cs : List C) :
    afterAll call s cs = afterAccepted meaning s cs := by
  induction cs generalizing s with
  | nil => rfl
  | cons c cs ih =>
    have hs := h c s
    unfold afterAll afterAccepted at *
    rw [List.foldl_cons, ih]
    cases hm : meaning c with
    | none =>
      rw [hm] at hs
      rw [List.filterMap_cons_none hm, hs]
    | some f =>
      rw [hm] at hs
      rw [List.filterMap_cons_some hm, List.foldl_cons, hs]

section
variable {m : Type → Type} [Monad m]

theorem setter_means (s : NSetter m) : Means s.call ((setterOf s).map Setter.run) := by
  intro o
  cases s with
  | compactDirectories _ => rfl
  | maxDepth _ => rfl
  | lineExtension _ => rfl
  | _ x => cases x <;> rfl

theorem modify_set {α : Type} (f : α → α) (l : List α) (r : Nat) (h : r < l.length) : l.modify r f = l.set r (f l[r]) := by
  apply List.ext_getElem
  · simp
  · intro i h1 h2
    simp only [List.getElem_modify, List.getElem_set]
    split
    · subst_vars; rfl
    · rfl

/-- One call. -/
theorem op_call (c : NOp m) (w : World m) :
    (ExceptT.run c.call).run w = match opOf c with
      | none => (.error .nullPointer, w)
      | some op => (.ok (), w.step op) := by
  cases c with
  | newOptions => rfl
  | newBuilder => rfl
  | build b => rfl
  | withOptions b r => cases r <;> rfl
  | set r s =>
    have := setter_means s (w.options[r]?.getD Options.createDefault)
    show (((s.call (w.options[r]?.getD Options.createDefault)).1, { w with options := w.options.set r (s.call (w.options[r]?.getD Options.createDefault)).2 }) : Except Exn Unit × World m) = _
    cases ht : setterOf s with
    | none =>
      rw [ht] at this
      have this : s.call (w.options[r]?.getD Options.createDefault) = (.error .nullPointer, w.options[r]?.getD Options.createDefault) := this
      simp only [this, opOf, ht, Option.map_none]
      by_cases hr : r < w.options.length
      · rw [List.getElem?_eq_getElem hr]; simp
      · rw [List.set_eq_of_length_le (by omega)]
    | some t =>
      rw [ht] at this
      have this : s.call (w.options[r]?.getD Options.createDefault) = (.ok (), t.run (w.options[r]?.getD Options.createDefault)) := this
      simp only [this, opOf, ht, Option.map_some, World.step]
      by_cases hr : r < w.options.length
      · rw [List.getElem?_eq_getElem hr, modify_set _ _ _ hr]; simp
      · rw [List.set_eq_of_length_le (by omega), List.modify_eq_self (by omega)]

/-- The calls of a customizer end with the first rejected one. -/
theorem callAll_eq (cs : List (NOp m)) (w : World m) :
    (AllAccepted cs → (ExceptT.run (NOp.callAll cs)).run w = (.ok (), w.run (acceptedPrefix cs))) ∧
    (¬ AllAccepted cs → (ExceptT.run (NOp.callAll cs)).run w = (.error .nullPointer, w.run (acceptedPrefix cs))) := by
  induction cs generalizing w with
  | nil => exact ⟨fun _ => rfl, fun h => absurd (fun c hc => (by cases hc)) h⟩
  | cons c cs ih =>
    rw [NOp.callAll, ExceptT.run_bind, StateT.run_bind, op_call c w, acceptedPrefix]
    cases ho : opOf c with
    | none => exact ⟨fun h => absurd ho (h c (by simp)), fun _ => rfl⟩
    | some op =>
      refine ⟨fun h => (ih (w.step op)).1 (fun c' hc' => h c' (by simp [hc'])), fun h => (ih (w.step op)).2 (fun h' => h (fun c' hc' => ?_))⟩
      rcases List.mem_cons.1 hc' with rfl | hc'
      · rw [ho]; exact fun h => by cases h
      · exact h' c' hc'

theorem customize_ok {w : World m} {b r r' : Nat} {f : Customizer m} (h1 : AllAccepted (f.calls r)) (h2 : f.result r = .ok (some r')) :
    (ExceptT.run (World.customizeOptions b r (some f))).run w = (.ok (), w.run (acceptedPrefix (f.calls r) ++ [.withOptions b r'])) := by
  unfold World.customizeOptions
  rw [ExceptT.run_bind, StateT.run_bind]
  show (ExceptT.run (NOp.callAll (f.calls r) >>= _)).run w = _
  rw [ExceptT.run_bind, StateT.run_bind, (callAll_eq _ w).1 h1, h2]
  show ((.ok (), (w.run (acceptedPrefix (f.calls r))).step (.withOptions b r')) : Except Exn Unit × World m) = _
  unfold World.run
  rw [List.foldl_append]; rfl

theorem customize_null {w : World m} {b r : Nat} {f : Customizer m} (h1 : AllAccepted (f.calls r)) (h2 : f.result r = .ok none) :
    (ExceptT.run (World.customizeOptions b r (some f))).run w = (.error .nullPointer, w.run (acceptedPrefix (f.calls r))) := by
  unfold World.customizeOptions
  rw [ExceptT.run_bind, StateT.run_bind]
  show (ExceptT.run (NOp.callAll (f.calls r) >>= _)).run w = _
  rw [ExceptT.run_bind, StateT.run_bind, (callAll_eq _ w).1 h1, h2]; rfl

theorem customize_throws {w : World m} {b r : Nat} {f : Customizer m} {e : Exn} (h1 : AllAccepted (f.calls r)) (h2 : f.result r = .error e) :
    (ExceptT.run (World.customizeOptions b r (some f))).run w = (.error e, w.run (acceptedPrefix (f.calls r))) := by
  unfold World.customizeOptions
  rw [ExceptT.run_bind, StateT.run_bind]
  show (ExceptT.run (NOp.callAll (f.calls r) >>= _)).run w = _
  rw [ExceptT.run_bind, StateT.run_bind, (callAll_eq _ w).1 h1, h2]; rfl

theorem customize_rejected {w : World m} {b r : Nat} {f : Customizer m} (h1 : ¬ AllAccepted (f.calls r)) :
    (ExceptT.run (World.customizeOptions b r (some f))).run w = (.error .nullPointer, w.run (acceptedPrefix (f.calls r))) := by
  unfold World.customizeOptions
  rw [ExceptT.run_bind, StateT.run_bind]
  show (ExceptT.run (NOp.callAll (f.calls r) >>= _)).run w = _
  rw [ExceptT.run_bind, StateT.run_bind, (callAll_eq _ w).2 h1]; rfl

theorem sameAs_state {w : World m} {c : NCall m} {ops : List (Op m)} (h : SameAs w c ops) : ((ExceptT.run c.call).run w).2 = w.run ops := by
  have builder {b r : Nat} {f : Option (Customizer m)} (hb : w.builders[b]? = some r) : (ExceptT.run (NCall.call (.customizeOptions b f))).run w = (ExceptT.run (World.customizeOptions b r f)).run w := by
    show (match w.builders[b]? with | none => (.ok (), w) | some r => World.customizeOptions b r f w : Except Exn Unit × World m) = _
    rw [hb]; rfl
  have absent {b : Nat} {f : Option (Customizer m)} (hb : w.builders[b]? = none) : (ExceptT.run (NCall.call (.customizeOptions b f))).run w = (.ok (), w) := by
    show (match w.builders[b]? with | none => (.ok (), w) | some r => World.customizeOptions b r f w : Except Exn Unit × World m) = _
    rw [hb]
  cases h with
  | accepted h => show ((ExceptT.run (NOp.call _)).run w).2 = _; rw [op_call, h]; rfl
  | rejected h => show ((ExceptT.run (NOp.call _)).run w).2 = _; rw [op_call, h]; rfl
  | @noCustomizer b =>
    cases hb : w.builders[b]? with
    | none => rw [absent hb]; rfl
    | some r => rw [builder hb]; rfl
  | customized hb h1 h2 => rw [builder hb, customize_ok h1 h2]
  | @failed b r f hb h1 =>
    rw [builder hb]
    by_cases ha : AllAccepted (f.calls r)
    · cases hf : f.result r with
      | error e => rw [customize_throws ha hf]
      | ok x =>
        cases x with
        | none => rw [customize_null ha hf]
        | some r' => exact absurd ⟨ha, r', hf⟩ h1
    · rw [customize_rejected ha]
  | nobody hb => rw [absent hb]; rfl

theorem sameAs_total (w : World m) (c : NCall m) : ∃ ops, SameAs w c ops := by
  cases c with
  | op c =>
    cases h : opOf c with
    | none => exact ⟨_, .rejected h⟩
    | some op => exact ⟨_, .accepted h⟩
  | customizeOptions b f =>
    cases f with
    | none => exact ⟨_, .noCustomizer⟩
    | some f =>
      cases hb : w.builders[b]? with
      | none => exact ⟨_, .nobody hb⟩
      | some r =>
        by_cases h : AllAccepted (f.calls r) ∧ ∃ r', f.result r = .ok (some r')
        · obtain ⟨h1, r', h2⟩ := h
          exact ⟨_, .customized hb h1 h2⟩
        · exact ⟨_, .failed hb h⟩

end
end Nulls77

open Nulls77

section
variable {m : Type → Type} [Monad m]

/-- **C77**: a setter of the options that gets null throws and changes nothing, except that null disables the line extension; otherwise it is the setter of C49. -/
theorem C77_setter (s : NSetter m) : Means s.call ((setterOf s).map Setter.run) := setter_means s

/-- **C77**: whatever calls are made on an options object, with null or not, the object is in the state it would be in without the rejected calls. -/
theorem C77_options_history (o : Options m) (cs : List (NSetter m)) : afterAll NSetter.call o cs = (cs.filterMap setterOf).foldl (fun o s => s.run o) o := by
  rw [afterAll_eq (fun s => setter_means s)]
  unfold afterAccepted
  induction cs generalizing o with
  | nil => rfl
  | cons c cs ih =>
    cases h : setterOf c with
    | none => rw [List.filterMap_cons_none (by rw [h]; rfl), List.filterMap_cons_none h, ih]
    | some s => rw [List.filterMap_cons_some (by rw [h]; rfl), List.filterMap_cons_some h, List.foldl_cons, List.foldl_cons, ih]

/-- **C77**: every call on one of the rule builders is accepted exactly if no required argument is null; a rejected one throws `NullPointerException` and changes nothing. -/
theorem C77_builders [LawfulMonad m] : (∀ c : NLimitCall m, Means c.call (limitMeaning c)) ∧ (∀ c : NExtCall m, Means c.call (extMeaning c)) ∧ (∀ c : NSortCall, Means c.call (sortMeaning c)) ∧
    ∀ c : NEmojiCall m, Means c.call (emojiMeaning c) := by
  refine ⟨fun c b => ?_, fun c b => ?_, fun c b => ?_, fun c b => ?_⟩
  · cases c with
    | setDefault n => rfl
    | add f => cases f <;> rfl
    | addMatching mt n =>
      cases mt with
      | none => rfl
      | some mt =>
        show ((.ok (), b.addMatching mt n) : Except Exn Unit × ChildLimitBuilder m) = (.ok (), _)
        simp only [ChildLimitBuilder.addMatching, ChildLimitBuilder.add, UNLIMITED, bind_pure_comp]
  · cases c with
    | add f => cases f <;> rfl
    | addMatching mt x =>
      cases mt with
      | none => rfl
      | some mt =>
        show ((.ok (), b.addMatchingN mt x) : Except Exn Unit × LineExtensionBuilder m) = (.ok (), _)
        simp only [LineExtensionBuilder.addMatchingN, LineExtensionBuilder.add, bind_pure_comp]
    | addLineBreak mt =>
      cases mt with
      | none => rfl
      | some mt =>
        show ((.ok (), b.addMatchingN mt (some [])) : Except Exn Unit × LineExtensionBuilder m) = (.ok (), _)
        simp only [LineExtensionBuilder.addMatchingN, LineExtensionBuilder.add, bind_pure_comp]
  · cases c with
    | add f => cases f <;> rfl
    | addMatching mt n => cases mt <;> rfl
    | addFirst mt => cases mt <;> rfl
    | addLast mt => cases mt <;> rfl
  · cases c with
    | setDefaultDirectoryEmoji e => cases e <;> rfl
    | setDefaultFileEmoji e => cases e <;> rfl
    | _ x e => cases x <;> cases e <;> rfl

/-- **C77**: the same for all histories of calls on a rule builder. -/
theorem C77_builder_history [LawfulMonad m] :
    (∀ (b : ChildLimitBuilder m) cs, afterAll NLimitCall.call b cs = afterAccepted limitMeaning b cs) ∧
    (∀ (b : LineExtensionBuilder m) cs, afterAll NExtCall.call b cs = afterAccepted extMeaning b cs) ∧
    (∀ (b : PathSortBuilder) cs, afterAll NSortCall.call b cs = afterAccepted sortMeaning b cs) ∧
    ∀ (b : EmojiMappingBuilder m) cs, afterAll NEmojiCall.call b cs = afterAccepted emojiMeaning b cs :=
  ⟨fun b cs => afterAll_eq C77_builders.1 b cs, fun b cs => afterAll_eq C77_builders.2.1 b cs, fun b cs => afterAll_eq (C77_builders (m := m)).2.2.1 b cs, fun b cs => afterAll_eq C77_builders.2.2.2 b cs⟩

/-- **C77**: `add(matcher, null)` of the line extension builder is accepted and has no effect on the extensions, wherever it is made, if the matcher answers. -/
theorem C77_null_extension [LawfulMonad m] (mt : Matcher m) (p : Path) (b : Bool) (hm : mt p = pure b) (pre post : List (ExtFn m)) :
    let f := ((LineExtensionBuilder.addMatchingN ⟨pre⟩ mt none).extensions ++ post)
    LineExtensionBuilder.extLoop p none f = LineExtensionBuilder.extLoop p none (pre ++ post) := by
  show LineExtensionBuilder.extLoop p none (pre ++ [_] ++ post) = _
  induction pre with
  | nil =>
    show LineExtensionBuilder.extLoop p none (_ :: post) = LineExtensionBuilder.extLoop p none post
    rw [LineExtensionBuilder.extLoop, hm]
    cases b <;> simp
  | cons r pre ih =>
    show LineExtensionBuilder.extLoop p none (r :: (pre ++ [_] ++ post)) = LineExtensionBuilder.extLoop p none (r :: (pre ++ post))
    rw [LineExtensionBuilder.extLoop, LineExtensionBuilder.extLoop]
    refine bind_congr fun x => ?_
    cases x with
    | none => simpa using ih
    | some x => rfl

/-- **C77**: `customizeOptions` in all cases. What the customizer did to options objects stays even if the call throws, and the builder gets the new options object only if the call returns. -/
theorem C77_customize (w : World m) (b r : Nat) (f : Customizer m) :
    (ExceptT.run (World.customizeOptions b r (none : Option (Customizer m)))).run w = (.error .nullPointer, w) ∧
    (¬ AllAccepted (f.calls r) → (ExceptT.run (World.customizeOptions b r (some f))).run w = (.error .nullPointer, w.run (acceptedPrefix (f.calls r)))) ∧
    (AllAccepted (f.calls r) → ∀ e, f.result r = .error e → (ExceptT.run (World.customizeOptions b r (some f))).run w = (.error e, w.run (acceptedPrefix (f.calls r)))) ∧
    (AllAccepted (f.calls r) → f.result r = .ok none → (ExceptT.run (World.customizeOptions b r (some f))).run w = (.error .nullPointer, w.run (acceptedPrefix (f.calls r)))) ∧
    (AllAccepted (f.calls r) → ∀ r', f.result r = .ok (some r') → (ExceptT.run (World.customizeOptions b r (some f))).run w = (.ok (), w.run (acceptedPrefix (f.calls r) ++ [.withOptions b r']))) :=
  ⟨rfl, customize_rejected, fun h _ => customize_throws h, customize_null, fun h _ => customize_ok h⟩

/-- **C77**: every history of calls on options, builders and printers, with null arguments and failing customizers, has the effect of a history without, in which the rejected calls are missing; so C48 and C49
hold for the printers it makes. -/
theorem C77_history (w : World m) (cs : List (NCall m)) : ∃ ops, SameHistory w cs ops ∧ afterAll NCall.call w cs = w.run ops := by
  induction cs generalizing w with
  | nil => exact ⟨[], .nil, rfl⟩
  | cons c cs ih =>
    obtain ⟨ops, h⟩ := sameAs_total w c
    obtain ⟨rest, h1, h2⟩ := ih (w.run ops)
    refine ⟨ops ++ rest, .cons h h1, ?_⟩
    unfold afterAll at *
    rw [List.foldl_cons, sameAs_state h, h2]
    unfold World.run
    rw [List.foldl_append]

end

section
variable {m : Type → Type} [Monad m] [MonadExceptOf Exn m]

theorem Nulls77.copyAll_null {α : Type} {l : List (Option α)} (h : none ∈ l) : NFactories.copyAll l = .error .nullPointer := by
  induction l with
  | nil => cases h
  | cons x l ih =>
    cases x with
    | none => rfl
    | some x =>
      have h : none ∈ l := by simpa using h
      rw [NFactories.copyAll, ih h]; rfl

theorem Nulls77.copyAll_ok {α : Type} {l : List (Option α)} (h : none ∉ l) : NFactories.copyAll l = .ok (l.filterMap id) := by
  induction l with
  | nil => rfl
  | cons x l ih =>
    cases x with
    | none => exact absurd h (by simp)
    | some x =>
      have h : none ∉ l := by simpa using h
      rw [NFactories.copyAll, ih h]; rfl

/-- **C77**: a tree format cannot have a null symbol, whatever the lengths of the others. -/
theorem C77_treeFormat (a b c d : Option JStr) :
    ((a = none ∨ b = none ∨ c = none ∨ d = none) → NFactories.treeFormat a b c d = .error .nullPointer) ∧
    ∀ x y z w, a = some x → b = some y → c = some z → d = some w → NFactories.treeFormat a b c d = TreeFormat.create x y z w := by
  constructor
  · intro h
    cases a <;> cases b <;> cases c <;> cases d <;> first | rfl | simp at h
  · rintro x y z w rfl rfl rfl rfl
    rfl

/-- **C77**: combining matchers. With an `Iterable`: `NullPointerException` if it is or contains null, `IllegalArgumentException` if it is empty; with variable arguments: `NullPointerException` if one of them
is null, and there is no other way to fail. -/
theorem C77_combine (mode : PathMatchers.Mode) (ms : List (Option (Matcher m))) (mt : Option (Matcher m)) :
    NFactories.combineMatchers (m := m) none mode = .error .nullPointer ∧
    (none ∈ ms → NFactories.combineMatchers (some ms) mode = .error .nullPointer) ∧
    (none ∉ ms → NFactories.combineMatchers (some ms) mode = PathMatchers.combineMatchers (ms.filterMap id) mode) ∧
    (NFactories.combineMatchers (m := m) (some []) mode = .error .illegalArgument) ∧
    NFactories.combineVarargs mt none mode = .error .nullPointer ∧
    (none ∈ mt :: ms → NFactories.combineVarargs mt (some ms) mode = .error .nullPointer) ∧
    (none ∉ mt :: ms → ∃ f, NFactories.combineVarargs mt (some ms) mode = .ok f ∧ PathMatchers.combineMatchers ((mt :: ms).filterMap id) mode = .ok f) := by
  have comb1 {l : List (Option (Matcher m))} (h : none ∈ l) : NFactories.combineMatchers (some l) mode = .error .nullPointer := by
    show (NFactories.copyAll l >>= fun l => PathMatchers.combineMatchers l mode) = _
    rw [copyAll_null h]; rfl
  have comb2 {l : List (Option (Matcher m))} (h : none ∉ l) : NFactories.combineMatchers (some l) mode = PathMatchers.combineMatchers (l.filterMap id) mode := by
    show (NFactories.copyAll l >>= fun l => PathMatchers.combineMatchers l mode) = _
    rw [copyAll_ok h]; rfl
  refine ⟨rfl, comb1, comb2, rfl, by cases mt <;> rfl, fun h => ?_, fun h => ?_⟩
  · cases mt with
    | none => rfl
    | some x =>
      have h : none ∈ ms := by simpa using h
      show ((NFactories.copyAll ms >>= fun rest => pure ((x :: rest).map some)) >>= fun l => NFactories.combineMatchers (some l) mode) = _
      rw [copyAll_null h]; rfl
  · cases mt with
    | none => simp at h
    | some x =>
      have h : none ∉ ms := by simpa using h
      refine ⟨_, ?_, rfl⟩
      show ((NFactories.copyAll ms >>= fun rest => pure ((x :: rest).map some)) >>= fun l => NFactories.combineMatchers (some l) mode) = _
      rw [copyAll_ok h]
      show NFactories.combineMatchers (some ((x :: ms.filterMap id).map some)) mode = _
      rw [comb2 (by simp)]
      simp [PathMatchers.combineMatchers, List.filterMap_map]

/-- **C77**: the other factories of `PathMatchers`: a null argument is rejected when the matcher is made (not when it is used), and otherwise they are the ones of the other properties. -/
theorem C77_factories (fs : Fs m) (cs : Casing) (glob : PathMatchers.GlobCompiler) (cwd : Path) :
    (∀ mt : Option (Matcher m), NFactories.not mt = match mt with | none => .error .nullPointer | some f => .ok (PathMatchers.not f)) ∧
    (∀ i t e : Option (Matcher m), NFactories.ifMatchesThenElse i t e = match i, t, e with | some i, some t, some e => .ok (PathMatchers.ifMatchesThenElse i t e) | _, _, _ => .error .nullPointer) ∧
    (∀ g, NFactories.hasAbsolutePathMatchingGlob (m := m) glob cwd g = match g with | none => .error .nullPointer | some g => PathMatchers.hasAbsolutePathMatchingGlob glob cwd g) ∧
    (∀ r g, NFactories.hasRelativePathMatchingGlob (m := m) glob cwd r g = match r, g with | some r, some g => PathMatchers.hasRelativePathMatchingGlob glob cwd r g | _, _ => .error .nullPointer) ∧
    (∀ mt : Option (Matcher m), NFactories.hasAbsolutePathMatching cwd mt = match mt with | none => .error .nullPointer | some f => .ok (PathMatchers.hasAbsolutePathMatching cwd f)) ∧
    (∀ (r : Option Path) (mt : Option (Matcher m)), NFactories.hasRelativePathMatching cwd r mt = match r, mt with | some r, some f => .ok (PathMatchers.hasRelativePathMatching cwd r f) | _, _ => .error .nullPointer) ∧
    (∀ (f : NFactories.StringFactory) s, f.call (m := m) cs glob s = match s with | none => .error .nullPointer | some s => f.make cs glob s) ∧
    (∀ r, NFactories.hasNameMatching (m := m) r = match r with | none => .error .nullPointer | some r => .ok (PathMatchers.hasNameMatching r)) ∧
    (∀ (f : NFactories.RelatedFactory) (mt : Option (Matcher m)), f.call fs mt = match mt with | none => .error .nullPointer | some g => .ok (f.make fs g)) := by
  refine ⟨fun x => ?_, fun x y z => ?_, fun x => ?_, fun x y => ?_, fun x => ?_, fun x y => ?_, fun f x => ?_, fun x => ?_, fun f x => ?_⟩
  · cases x <;> rfl
  · cases x <;> cases y <;> cases z <;> rfl
  · cases x <;> rfl
  · cases x <;> cases y <;> rfl
  · cases x <;> rfl
  · cases x <;> cases y <;> rfl
  · cases x <;> rfl
  · cases x <;> rfl
  · cases x <;> rfl

/-- **C77**: printing null throws before anything else happens. -/
theorem C77_print_null [LawfulMonad m] (fs : Fs m) (cwd : Path) (pr : Printer m) (o : Options m) (hthrow : ∀ {α β : Type} (e : Exn) (f : α → m β), (throw e >>= f) = throw e) :
    pr.prettyPrintN fs cwd o none = throw .nullPointer ∧ pr.prettyPrintStringN fs cwd o none = throw .nullPointer ∧
    (∀ p, pr.prettyPrintN fs cwd o (some p) = pr.prettyPrint fs cwd o p) ∧ ∀ s, pr.prettyPrintStringN fs cwd o (some s) = pr.prettyPrintString fs cwd o s :=
  ⟨hthrow _ _, hthrow _ _, fun _ => pure_bind _ _, fun _ => pure_bind _ _⟩

end

/-- An options object after a rejected call between two accepted ones. -/
example : (afterAll NSetter.call (Options.createDefault : Options (Except Exn)) [.maxDepth 3, .treeFormat none, .filterFiles none, .compactDirectories true]).maxDepth = 3 ∧
    (afterAll NSetter.call (Options.createDefault : Options (Except Exn)) [.maxDepth 3, .treeFormat none, .filterFiles none, .compactDirectories true]).compactDirectories = true := ⟨rfl, rfl⟩

/-- A customizer that limits the depth of the builder's options and then returns null: the call throws, but the limit stays. -/
example : let w := (World.run {} [.newBuilder] : World (Except Exn))
    (ExceptT.run (NCall.call (.customizeOptions 0 (some ⟨fun r => [.set r (.maxDepth 1)], fun _ => .ok none⟩)))).run w = (.error .nullPointer, w.run [.set 0 (.maxDepth 1)]) := rfl

/-- The same as a history without null. -/
example : ∃ ops, SameHistory ({} : World (Except Exn)) [.op .newBuilder, .op (.withOptions 0 none), .customizeOptions 0 (some ⟨fun r => [.set r (.maxDepth 1), .set r (.sort none), .set r (.maxDepth 2)], fun r => .ok (some r)⟩), .op (.build 0)] ops ∧
    ops = [.newBuilder, .set 0 (.maxDepth 1), .build 0] := by
  refine ⟨[.newBuilder] ++ ([] ++ ([.set 0 (.maxDepth 1)] ++ ([.build 0] ++ []))), .cons (.accepted rfl) (.cons (.rejected rfl) (.cons (.failed (r := 0) rfl ?_) (.cons (.accepted rfl) .nil))), rfl⟩
  rintro ⟨h, -⟩
  exact h (.set 0 (.sort none)) (by simp) rfl

/-- `add(isFile(), null)` between two rules. -/
example (x y : ExtFn (Except Exn)) : LineExtensionBuilder.extLoop Path.root none ((LineExtensionBuilder.addMatchingN ⟨[x]⟩ (fun _ => .ok true) none).extensions ++ [y]) = LineExtensionBuilder.extLoop Path.root none [x, y] :=
  C77_null_extension _ _ true rfl [x] [y]

/-- `anyOf(m, null)` and `anyOf(m)`. -/
example (x : Matcher (Except Exn)) : NFactories.combineVarargs (some x) (some [none]) .ANY = .error .nullPointer ∧ ∃ f, NFactories.combineVarargs (some x) (some []) .ANY = .ok f ∧ PathMatchers.anyOf [x] = .ok f :=
  ⟨(C77_combine .ANY [none] (some x)).2.2.2.2.2.1 (by simp), (C77_combine .ANY [] (some x)).2.2.2.2.2.2 (by simp)⟩

/-- A null symbol among symbols of different lengths. -/
example : NFactories.treeFormat (some j!"a") (some j!"ab") none (some []) = .error .nullPointer := (C77_treeFormat _ _ _ _).1 (by simp)

/-- Exceptions end a computation also where the world has a state. -/
example {σ α β : Type} (e : Exn) (f : α → ExceptT Exn (StateM σ) β) : ((throw e : ExceptT Exn (StateM σ) α) >>= f) = throw e := rfl

end JFTP
