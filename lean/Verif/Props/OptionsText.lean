import Verif.Props.EndToEnd
import Verif.Props.Glob
import Verif.Props.Schema

/-!
C87: from an options file that conforms to the published schema to the printed text, with the documented meaning of globs.
-/

namespace JFTP
open Spec Cli Glob Globs

/-- `G` gives every pattern that follows the documentation its documented meaning. -/
def Spec.DocumentedGlobs (G : JStr → Path → Bool) : Prop := ∀ ps, GlobOk ps → ∀ q, G (writeGlob ps) q = true ↔ GlobMeans ps (pathString q)

/-- The text follows the documentation of globs. -/
def Spec.Documented (g : JStr) : Prop := ∃ ps, GlobOk ps ∧ writeGlob ps = g

theorem documented_compiles {odd : PathMatchers.GlobCompiler} {G : JStr → Path → Bool} (hG : DocumentedGlobs G) {g : JStr} (h : Documented g) : getPathMatcher odd g = .ok (G g) := by
  obtain ⟨ps, hps, rfl⟩ := h
  obtain ⟨pred, h1, h2⟩ := GlobL.getPathMatcher_means (odd := odd) hps
  rw [h1]
  congr 1
  funext q
  rw [Bool.eq_iff_iff, h2 q, hG ps hps q]

/-- There is such a `G` (so the documentation gives no pattern two meanings). -/
theorem documentedGlobs_exist : ∃ G, DocumentedGlobs G := by
  refine ⟨fun g q => match getPathMatcher (fun _ => .error .illegalArgument) g with | .ok f => f q | .error _ => false, fun ps h q => ?_⟩
  obtain ⟨pred, h1, h2⟩ := GlobL.getPathMatcher_means (odd := fun _ => .error .illegalArgument) h
  simp only [h1]
  exact h2 q

section
variable {env : Env} {G : JStr → Path → Bool} {odd : PathMatchers.GlobCompiler} {args : Args} {p : Path} {j : Json}

/-- **C86** with the globs of the JDK: wherever the options document comes from, if its globs follow the documentation, the library returns the text `s` to the program exactly if `s` is the text the
request asks for, where each glob has its documented meaning. -/
theorem C86_documented_globs (hp : PlainDirs env) (hfs : ProperFs env.fs) (hr : RealNames env.fs) (hglob : env.glob = getPathMatcher odd) (hG : DocumentedGlobs G) {x : Option ExternalOptions}
    (hex : env.fileExists (targetOf env args) = true) (hch : Chosen env (targetOf env args) args.optionsFile (.ok x)) (hdoc : ∀ g ∈ allGlobs (x.getD {}), Documented g)
    (he : (x.getD {}).emojis = some true → KeepsLowerAscii env.casing.lower) (s : JStr) :
    Ends env args (.tree s) ↔ DocPrints env.casing.lower env.fs G (targetOf env args) (x.getD {}) s :=
  C86_ends hp hfs hr hex hch (fun g hg _ => by rw [hglob]; exact documented_compiles hG (hdoc g hg)) he s

/-- **C87**: let the options file given on the command line conform to the published schema, without empty values and numbers beyond 32 bits, and let its globs follow the documentation. Then the run
prints the text the document asks for, where each glob has its documented meaning, and the exit code is 0; if the document asks for no text, because something cannot be read, nothing is printed and the
exit code is 1. -/
theorem C87_prints (hp : PlainDirs env) (hfs : ProperFs env.fs) (hr : RealNames env.fs) (hglob : env.glob = getPathMatcher odd) (hG : DocumentedGlobs G) (hd : args.debug = false)
    (ht : env.fileExists (targetOf env args) = true) (ho : args.optionsFile = some p) (h1 : env.fileExists (target env.cwd p) = true) (h2 : env.isFile (target env.cwd p) = true)
    (h3 : env.canRead (target env.cwd p) = true) (hy : env.yaml (target env.cwd p) = (Bind.externalOptions j).map some) (hj : Schema.conforms j = true) (he : ¬ HasEmpty j) (hb : ¬ HasBigInt j)
    (hcs : KeepsLowerAscii env.casing.lower) :
    ∃ x, Bind.externalOptions j = some x ∧ ((∀ g ∈ allGlobs x, Documented g) →
      (∀ s, DocPrints env.casing.lower env.fs G (targetOf env args) x s → PERCENT ∉ s → run env args = (0, { out := s ++ j!"\n" })) ∧
      ((∀ s, ¬ DocPrints env.casing.lower env.fs G (targetOf env args) x s) → (run env args).1 = 1 ∧ (run env args).2.out = []) ∧
      ∀ s s', DocPrints env.casing.lower env.fs G (targetOf env args) x s → DocPrints env.casing.lower env.fs G (targetOf env args) x s' → s = s') := by
  obtain ⟨x, hx, hch⟩ := (C70_run hp hd ho ht h1 h2 h3 hy hj).2 he hb
  refine ⟨x, hx, fun hdoc => ?_⟩
  have hg : ∀ g ∈ allGlobs ((some x).getD {}), g ≠ j!"*" → env.glob g = .ok (G g) := fun g hg _ => by rw [hglob]; exact documented_compiles hG (hdoc g hg)
  exact ⟨fun s hs hn => C86_output hp hfs hr hd ht hch hg (fun _ => hcs) hs hn, fun hs => C86_otherwise hp hfs hr hd ht hch hg (fun _ => hcs) hs,
    fun s s' hs hs' => C86_unique hp hfs hr hch hg (fun _ => hcs) hs hs'⟩

/-- **C87**: if one of the globs does not follow the documentation (brackets as in C81), nothing is printed to the standard output and the exit code is 1, even if the glob would never be used. -/
theorem C87_malformed_glob (hp : PlainDirs env) (hglob : env.glob = getPathMatcher odd) (hd : args.debug = false)
    (ht : env.fileExists (targetOf env args) = true) (ho : args.optionsFile = some p) (h1 : env.fileExists (target env.cwd p) = true) (h2 : env.isFile (target env.cwd p) = true)
    (h3 : env.canRead (target env.cwd p) = true) (hy : env.yaml (target env.cwd p) = (Bind.externalOptions j).map some) (hj : Schema.conforms j = true) (hcs : KeepsLowerAscii env.casing.lower)
    {x : ExternalOptions} (hx : Bind.externalOptions j = some x) {g : JStr} (hg : g ∈ allGlobs x) (hgt : TameBrackets g) (hgn : ¬ Documented g) :
    (run env args).1 = 1 ∧ (run env args).2.out = [] := by
  by_cases he : HasEmpty j ∨ HasBigInt j
  · exact (C70_run hp hd ho ht h1 h2 h3 hy hj).1 he
  obtain ⟨x', hx', hch⟩ := (C70_run hp hd ho ht h1 h2 h3 hy hj).2 (fun h => he (.inl h)) (fun h => he (.inr h))
  rw [hx] at hx'
  cases hx'
  have hv : x.valid = true := by
    obtain ⟨x', hx', hv⟩ := (C70_conforming_usable_iff hj).2 ⟨fun h => he (.inl h), fun h => he (.inr h)⟩
    rw [hx] at hx'
    cases hx'
    exact hv
  have hstar : g ≠ j!"*" := by
    rintro rfl
    exact hgn ⟨[.part .star], trivial, rfl⟩
  have hno : ¬ ∃ f, env.glob g = .ok f := by
    rw [hglob]
    exact fun h => hgn ((C81_accepted_iff odd hgt).1.1 h)
  cases hm : optionsFor env (targetOf env args) (some x) with
  | ok o => exact absurd ((C51_maps_iff _ _ x hv (fun _ => hcs)).1 ⟨o, hm⟩ g hg hstar) hno
  | error e => exact ⟨(C54_failed hp hd (.unusableOptions ht hch hm)).1, (C54_failed hp hd (.unusableOptions ht hch hm)).2.1⟩

end

/-! ### Example -/

namespace Demo

theorem request_documented : ∀ g ∈ allGlobs request, Documented g := by
  intro g hg
  have : g = j!"b*" ∨ g = j!"b.txt" := by
    revert g
    decide
  rcases this with rfl | rfl
  · exact ⟨[.part (.text [(98, false)]), .part .star], ⟨⟨by decide, by simp [Glob.plain]⟩, trivial, trivial⟩, by decide⟩
  · exact ⟨[.part (.text (bare j!"b.txt"))], bare_ok ⟨by decide, by simp [Glob.plain]⟩, by decide⟩

/-- `prettyprint -o /o /r`, where the file `/o` contains the JSON document for `Demo.request`. -/
def withFile : Env := { documented with fileExists := fun p => decide (p = r ∨ p = ⟨true, [j!"o"]⟩), yaml := fun _ => (Bind.externalOptions (write request)).map some }

theorem request_conforms : Schema.conforms (write request) = true := by decide

theorem request_usable : ¬ HasEmpty (write request) ∧ ¬ HasBigInt (write request) :=
  (C70_conforming_usable_iff request_conforms).1 ⟨request, C70_write_read (by decide), by decide⟩

theorem globSet_documented : DocumentedGlobs globSet := by
  intro ps h q
  obtain ⟨pred, h1, h2⟩ := GlobL.getPathMatcher_means (odd := fun _ => .error Exn.nullPointer) h
  have : globSet (writeGlob ps) = pred := by
    funext q
    unfold globSet
    rw [show documented.glob (writeGlob ps) = .ok pred from h1]
  rw [this, h2]

/-- Example for C87: the text is printed. -/
example : run withFile { target := some r, optionsFile := some ⟨true, [j!"o"]⟩ } = (0, { out := joinLines [j!"r/", j!"├─ a/", j!"│  └─ ...", j!"└─ b.txt <-"] ++ j!"\n" }) := by
  obtain ⟨x, hx, h⟩ := C87_prints (env := withFile) (args := { target := some r, optionsFile := some ⟨true, [j!"o"]⟩ }) (p := ⟨true, [j!"o"]⟩) (j := write request) (G := globSet)
    ⟨(machine_plain r).1, (machine_plain r).2⟩ proper real rfl globSet_documented rfl (by decide) rfl (by decide) rfl rfl rfl request_conforms request_usable.1 request_usable.2 keepsLowerAscii_ascii
  rw [C70_write_read (by decide)] at hx
  cases hx
  exact (h request_documented).1 _ request_prints (by decide)

example (s : JStr) := C86_documented_globs (env := documented) (args := cmd r) (x := some request) (G := globSet) ⟨(machine_plain r).1, (machine_plain r).2⟩ proper real rfl globSet_documented rfl
  (.fallback (.used (l₁ := []) rfl (by simp) (.good (by decide) rfl rfl rfl (by decide)))) request_documented (fun h => by cases h) s

/-- `filter: {dir: {type: name, glob: "{a"}}` -/
def openGroup : ExternalOptions := { filter := some ⟨some (.nameGlob (some j!"{a")), none⟩ }

/-- The same run with this document. -/
def withOpenGroup : Env := { withFile with yaml := fun _ => (Bind.externalOptions (write openGroup)).map some }

theorem openGroup_undocumented : ¬ Documented j!"{a" := fun h =>
  absurd ((C81_accepted_iff (fun _ => .error .illegalArgument) (tame_of_no_bracket (by decide))).1.2 h) (by rintro ⟨f, h⟩; cases h)

/-- Example for C87: a group that is not closed, in a filter for directories. -/
example : (run withOpenGroup { target := some r, optionsFile := some ⟨true, [j!"o"]⟩ }).1 = 1 :=
  (C87_malformed_glob (env := withOpenGroup) (args := { target := some r, optionsFile := some ⟨true, [j!"o"]⟩ }) (p := ⟨true, [j!"o"]⟩) (j := write openGroup) (x := openGroup)
    ⟨(machine_plain r).1, (machine_plain r).2⟩ rfl rfl (by decide) rfl (by decide) rfl rfl rfl (by decide) keepsLowerAscii_ascii (C70_write_read (by decide)) (g := j!"{a") (by decide)
    (tame_of_no_bracket (by decide)) openGroup_undocumented).1

end Demo
end JFTP
