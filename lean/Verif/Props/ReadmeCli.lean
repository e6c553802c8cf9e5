import Verif.Model.ReadmeCli
import Verif.Spec.ReadmeCli
import Verif.Props.Program
import Verif.Props.Readme
import Verif.Props.Glob

/-!
C118: the chapters of the README about the command line.
-/

namespace JFTP
open Spec Spec.OnePage Cli Spec.ReadmeCli

variable {env : Env}

namespace ReadmeCli

section
variable {fe f cr : Path → Bool} {y : Path → Option (Option ExternalOptions)}

theorem readSimple_same {p : Path} (h : SameAt env (withFiles env fe f cr y) (target env.cwd p)) : readSimple (withFiles env fe f cr y) p = readSimple env p := by
  unfold target at h
  have h1 := h.fileExists
  have h2 := h.isFile
  have h3 := h.canRead
  have h4 := h.yaml
  unfold readSimple load
  have hc : (withFiles env fe f cr y).cwd = env.cwd := rfl
  simp only [hc, h1, h2, h3, h4]
  rfl

theorem readFallback_same : ∀ {ps : List Path}, (∀ p ∈ ps, SameAt env (withFiles env fe f cr y) (target env.cwd p)) → readFallback (withFiles env fe f cr y) ps = readFallback env ps
  | [], _ => rfl
  | p :: ps, h => by
    rw [readFallback, readFallback, readSimple_same (h p (by simp)), readFallback_same (fun q hq => h q (by simp [hq]))]
    rfl

theorem call_same (hp : PlainDirs env) {args : Args} (h : ∀ p ∈ consulted env args, SameAt env (withFiles env fe f cr y) p) :
    exec (call (withFiles env fe f cr y) args) {} = exec (call env args) {} := by
  obtain ⟨ha, hc⟩ := targetOf_clean hp args
  have hx : (withFiles env fe f cr y).fileExists (targetOf env args) = env.fileExists (targetOf env args) := (h _ (by simp [consulted])).fileExists
  have hread : readExternalOptions (withFiles env fe f cr y) (targetOf env args) (args.optionsFile.map (target env.cwd)) = readExternalOptions env (targetOf env args) (args.optionsFile.map (target env.cwd)) := by
    unfold readExternalOptions
    cases hq : args.optionsFile with
    | some p =>
      have hpp : target env.cwd (target env.cwd p) = target env.cwd p := by
        have hc := targetOf_clean hp { target := some p }
        exact target_self hc.1 hc.2
      simp only [Option.map_some]
      rw [readSimple_same (by rw [hpp]; exact h _ (by simp [consulted, hq]))]
    | none =>
      simp only [Option.map_none]
      rw [show fallbackPaths (withFiles env fe f cr y) (targetOf env args) = fallbackPaths env (targetOf env args) from rfl, readFallback_same]
      · rfl
      · intro q hq'
        refine h _ ?_
        simp only [consulted, hq]
        rw [← places_eq hp ha hc]
        exact List.mem_cons_of_mem _ (List.mem_map.2 ⟨q, hq', rfl⟩)
  obtain ⟨m₁, h₁, e₁⟩ := says_detect (d := args.debug) args hp { debug := args.debug } rfl
  unfold call
  rw [exec_bind_ok (show exec (modify fun c => { c with debug := args.debug } : CliM Unit) {} = (.ok (), { debug := args.debug }) from rfl),
    exec_bind_ok (show exec (modify fun c => { c with debug := args.debug } : CliM Unit) {} = (.ok (), { debug := args.debug }) from rfl), exec_bind_ok e₁,
    exec_bind_ok (show exec (detectTargetPath (withFiles env fe f cr y) args) _ = _ from e₁), hx]
  have hl : loadOptions (withFiles env fe f cr y) (targetOf env args) (args.optionsFile.map (target env.cwd)) = loadOptions env (targetOf env args) (args.optionsFile.map (target env.cwd)) := by
    unfold loadOptions
    rw [hread]
    rfl
  split
  · rfl
  · show exec (loadOptions (withFiles env fe f cr y) (targetOf env args) (args.optionsFile.map (target env.cwd)) >>= _) _ = exec (loadOptions env (targetOf env args) (args.optionsFile.map (target env.cwd)) >>= _) _
    rw [hl]
    rfl

end

end ReadmeCli
open ReadmeCli

/-- **C118**: a run, in debug mode or not, depends on no options files but the given one, or without `-o` those in the target, in the working directory and in the home directory. -/
theorem C118_only_places (hp : PlainDirs env) (args : Args) (fe f cr : Path → Bool) (y : Path → Option (Option ExternalOptions)) (h : ∀ p ∈ consulted env args, SameAt env (withFiles env fe f cr y) p) :
    run (withFiles env fe f cr y) args = run env args := by
  rw [run_eq, run_eq]
  unfold guarded
  rw [call_same hp h]
  rfl

/-- **C118**, the second place of the README: a `.prettyprint` file beside the executable is not looked at, unless the executable is in the target, the working directory or the home directory, or the file
is given or itself printed. Whatever is there, or is done to it, the run is the same. -/
theorem C118_not_beside_executable (hp : PlainDirs env) {args : Args} {exe : Path} (h1 : optionsFileIn exe ∉ consulted env args) (fe f cr : Path → Bool) (y : Path → Option (Option ExternalOptions))
    (h : ∀ p, p ≠ optionsFileIn exe → SameAt env (withFiles env fe f cr y) p) : run (withFiles env fe f cr y) args = run env args := by
  refine C118_only_places hp args fe f cr y fun p hq => h p ?_
  rintro rfl
  exact h1 hq

/-- **C118**: the order of the README is that of the program exactly if the executable is in the working directory. -/
theorem C118_lookup_order (env : Env) (exe tgt : Path) : readmePlaces env exe tgt = places env tgt ↔ exe.names = env.cwd.names := by
  unfold readmePlaces places optionsFileIn
  simp

/-- **C118**: the same document gives the same run, whether it is given with `-o` or found; finding no file is like finding the empty document. -/
theorem C118_same_document (hp : PlainDirs env) {a b : Args} (ht : b.target = a.target) (ha : a.debug = false) (hb : b.debug = false) {x y : Option ExternalOptions}
    (hx : Chosen env (targetOf env a) a.optionsFile (.ok x)) (hy : Chosen env (targetOf env b) b.optionsFile (.ok y)) (h : x.getD {} = y.getD {}) : run env a = run env b := by
  have htt : targetOf env b = targetOf env a := by unfold targetOf; rw [ht]
  rw [htt] at hy
  have ho : optionsFor env (targetOf env a) x = optionsFor env (targetOf env a) y := by
    have e : ∀ z : Option ExternalOptions, optionsFor env (targetOf env a) z = mapToOptions env.casing env.glob env.fs.lift env.cwd (targetOf env a) (z.getD {}) := by
      intro z; cases z <;> rfl
    rw [e, e, h]
  have key : ∀ r, Ends env a r → Ends env b r := by
    intro r hr
    have huniq : ∀ r', Chosen env (targetOf env a) a.optionsFile r' → r' = .ok x := by
      obtain ⟨ha', hc'⟩ := targetOf_clean hp a
      obtain ⟨r0, _, _, hu⟩ := C52_lookup hp ha' hc' a.optionsFile {} rfl
      intro r' h'; rw [hu _ h', hu _ hx]
    cases hr with
    | notFound h1 => rw [← htt]; exact .notFound (by rw [htt]; exact h1)
    | badOptions h1 h2 => exact absurd (huniq _ h2) (by simp)
    | unusableOptions h1 h2 h3 => cases huniq _ h2; exact .unusableOptions (by rw [htt]; exact h1) (by rw [htt]; exact hy) (by rw [htt, ← ho]; exact h3)
    | unprintable h1 h2 h3 h4 => cases huniq _ h2; exact .unprintable (by rw [htt]; exact h1) (by rw [htt]; exact hy) (by rw [htt, ← ho]; exact h3) (by rw [htt]; exact h4)
    | printed h1 h2 h3 h4 => cases huniq _ h2; exact .printed (by rw [htt]; exact h1) (by rw [htt]; exact hy) (by rw [htt, ← ho]; exact h3) (by rw [htt]; exact h4)
  obtain ⟨r, hr⟩ := ends_total env a
  rw [run_quiet hp hr ha, run_quiet hp (key r hr) hb]

/-- **C118**, README.md:386-402: a directory named `base` with the content of the example, listed in any order, wherever it is and however its path is written: without options files the program prints
what the README shows. -/
theorem C118_base (hp : PlainDirs env) (hfs : ProperFs env.fs) {args : Args} (hd : args.debug = false) (hx : env.fileExists (targetOf env args) = true)
    (hn : Chosen env (targetOf env args) args.optionsFile (.ok none)) (hb : (targetOf env args).names.getLast? = some j!"base")
    (h : SameBelow Spec.Readme.disk.toFs env.fs (Spec.Readme.place j!"base") (targetOf env args).names) :
    run env args = (0, { out := joinLines Spec.Readme.baseText ++ j!"\n" }) := by
  obtain ⟨ha, hc⟩ := targetOf_clean hp args
  have hu : targetOf env args = under (targetOf env args).names [] := by
    unfold under
    rw [List.append_nil]
    cases hq : targetOf env args with | mk b ns => rw [hq] at ha; simp only at ha; rw [ha]
  have htt : target env.cwd (targetOf env args) = under (targetOf env args).names [] := (target_self ha hc).trans hu
  have h1 : target Path.root (Path.ofString j!"src/main/resources/base") = under (Spec.Readme.place j!"base") [] :=
    Readme.target_place (name := j!"base") Readme.root_clean (by decide) (by decide)
  have hs : OnePage.text standard (under (Spec.Readme.place j!"base") []) (treeAt Spec.Readme.disk (under (Spec.Readme.place j!"base") [])) = some (joinLines Spec.Readme.baseText) := by decide +kernel
  have hprint : prettyPrint (m := Except Exn) env.fs.lift env.cwd Options.createDefault (targetOf env args) = Except.ok (joinLines Spec.Readme.baseText) := by
    refine (C83_move (p := Path.ofString j!"src/main/resources/base") (cwd := Path.root) rfl hp.cwd.1 h sameAnswers_default lawful_ALPHABETICAL lawful_ALPHABETICAL (sort_distinguishes lawful_const Readme.disk_wf.proper)
      (sort_distinguishes lawful_const hfs) h1 htt (by rw [hb]; rfl) rfl rfl _).2 ?_
    exact (C100_disk Readme.disk_wf rfl OnePage.obeys_standard lawful_const _ _).2 (by rw [h1]; exact hs)
  exact C53_prints hp hd (.printed hx hn rfl hprint) (by decide +kernel)

/-- **C118**, README.md:386-402: the command of the README, in the directory of the project. -/
theorem C118_usage (hp : PlainDirs env) (hfs : ProperFs env.fs) (hx : env.fileExists (targetOf env exampleArgs) = true) (hn : ∀ q ∈ places env (targetOf env exampleArgs), env.fileExists q = false)
    (h : SameBelow Spec.Readme.disk.toFs env.fs (Spec.Readme.place j!"base") (env.cwd.names ++ j!"jfiletreeprettyprinter-examples" :: Spec.Readme.place j!"base")) :
    run env exampleArgs = (0, { out := joinLines Spec.Readme.baseText ++ j!"\n" }) := by
  have ht : (targetOf env exampleArgs).names = env.cwd.names ++ j!"jfiletreeprettyprinter-examples" :: Spec.Readme.place j!"base" := by
    show (target env.cwd (Path.ofString _)).names = _
    rw [show Path.ofString j!"jfiletreeprettyprinter-examples/src/main/resources/base/" = ⟨false, j!"jfiletreeprettyprinter-examples" :: Spec.Readme.place j!"base"⟩ by decide]
    unfold target
    have hcw : env.cwd ≠ Path.empty := by intro e; have := hp.cwd.1; rw [e] at this; cases this
    have e : (⟨false, j!"jfiletreeprettyprinter-examples" :: Spec.Readme.place j!"base"⟩ : Path).toAbsolutePath env.cwd =
        ⟨true, env.cwd.names ++ j!"jfiletreeprettyprinter-examples" :: Spec.Readme.place j!"base"⟩ := by
      unfold Path.toAbsolutePath Path.resolve
      simp only [Bool.false_eq_true, if_false]
      rw [if_neg (by simp [Path.empty]), if_neg hcw, hp.cwd.1]
    rw [e, Path.normalize_of_names rfl]
    intro n hn'
    rcases List.mem_append.1 hn' with h | h
    · exact hp.cwd.2 n h
    · have : ∀ n ∈ j!"jfiletreeprettyprinter-examples" :: Spec.Readme.place j!"base", n ≠ j!"." ∧ n ≠ j!".." := by decide
      exact this n h
  refine C118_base hp hfs rfl hx (.fallback (.nothing fun q hq => .missing (hn q hq))) ?_ (by rw [ht]; exact h)
  rw [ht, List.getLast?_append_of_ne_nil _ (by simp)]; rfl

/-! ### The example options file -/

/-- **C118**, README.md:462-482: the example options file conforms to the published schema and is accepted. -/
theorem C118_example_valid : Schema.conforms exampleFile = true ∧ ∃ x, Bind.externalOptions exampleFile = some x ∧ x.valid = true := by
  refine ⟨by decide +kernel, _, rfl, by decide +kernel⟩

namespace ReadmeCli

/-- The example options file. -/
def exampleDoc : ExternalOptions where
  emojis := some true
  maxDepth := some 2
  compactDirectories := some true
  childLimit := some (.static (some 3))
  lineExtensions := some [some ⟨some j!" // Main entry point", some (.nameGlob (some j!"FileTreePrettyPrinter.java"))⟩]
  filter := some ⟨some (.nameGlob (some j!"src/main/**")), some (.nameGlob (some j!"*.java"))⟩

theorem bind_example : Bind.externalOptions exampleFile = some exampleDoc := by rfl

theorem nameGlob_of {g : JStr} (hg : g ≠ j!"*") {mt : Matcher Id} (h : PathMatchers.hasNameMatchingGlob env.glob g = .ok mt) :
    (env.glob g).isOk = true ∧ ∀ p, nameGlobHolds (OnePage.globSet env) g p = mt p := by
  unfold PathMatchers.hasNameMatchingGlob at h
  rw [if_neg hg] at h
  cases hc : env.glob g with
  | error e => rw [hc] at h; cases h
  | ok f =>
    rw [hc] at h
    cases h
    refine ⟨rfl, fun p => ?_⟩
    unfold nameGlobHolds OnePage.globSet
    simp only [hc, hg, decide_false, Bool.false_or]
    rfl

end ReadmeCli

namespace ReadmeCli

/-- What the example options file chooses. -/
abbrev choices (env : Env) (tgt : Path) : Settings := ofDocument env.casing.lower env.fs.isDir (OnePage.globSet env) tgt exampleDoc

section
variable {odd : PathMatchers.GlobCompiler} (hglob : env.glob = Globs.getPathMatcher odd)
include hglob

theorem globs_good : OnePage.globsGood env exampleDoc = true := by
  have h1 := (nameGlob_of (env := env) (g := j!"FileTreePrettyPrinter.java") (by decide) (by rw [hglob]; exact (C79_literal odd (t := j!"FileTreePrettyPrinter.java") ⟨by decide, by simp [Glob.plain]⟩).choose_spec.1)).1
  have h2 := (nameGlob_of (env := env) (g := j!"src/main/**") (by decide) (by rw [hglob]; exact (C80_name_never odd Demo.srcMain_ok Demo.srcMain_needs).choose_spec.1)).1
  have h3 := (nameGlob_of (env := env) (g := j!"*.java") (by decide) (by rw [hglob]; exact (C79_extension odd (ext := j!"java") (by simp [Glob.plain])).choose_spec.1)).1
  unfold OnePage.globsGood
  rw [show allGlobs exampleDoc = [j!"src/main/**", j!"*.java", j!"FileTreePrettyPrinter.java"] from rfl]
  simp [h1, h2, h3]

theorem show_dir {tgt p : Path} (hs : SlashFree p) : (choices env tgt).showDir p = false := by
  obtain ⟨mt, h1, h2⟩ := C80_name_never (m := Id) odd Demo.srcMain_ok Demo.srcMain_needs
  rw [← hglob] at h1
  exact ((nameGlob_of (g := j!"src/main/**") (by decide) h1).2 p).trans (h2 p hs)

theorem show_file {tgt p : Path} (hs : SlashFree p) {n : JStr} (hn : p.names.getLast? = some n) : (choices env tgt).showFile p = endsWith n j!".java" := by
  obtain ⟨mt, h1, h2⟩ := C79_extension (m := Id) odd (ext := j!"java") (by simp [Glob.plain])
  rw [← hglob] at h1
  refine ((nameGlob_of (g := j!"*.java") (by decide) h1).2 p).trans ((h2 p hs).trans ?_)
  simp only [PathMatchers.hasExtension, PathMatchers.hasNameEndingWith, Path.getFileName, hn]
  rfl

theorem ext_eq {tgt p : Path} {n : JStr} (hn : p.names.getLast? = some n) : (choices env tgt).ext p = if n = j!"FileTreePrettyPrinter.java" then some j!" // Main entry point" else none := by
  obtain ⟨mt, h1, h2⟩ := C79_literal (m := Id) odd (t := j!"FileTreePrettyPrinter.java") ⟨by decide, by simp [Glob.plain]⟩
  rw [← hglob] at h1
  have h : nameGlobHolds (OnePage.globSet env) j!"FileTreePrettyPrinter.java" p = (n == j!"FileTreePrettyPrinter.java") := by
    rw [(nameGlob_of (g := j!"FileTreePrettyPrinter.java") (by decide) h1).2 p, h2 p]
    simp only [PathMatchers.hasName, Path.getFileName, hn]
    rfl
  have e : (choices env tgt).ext p = firstMatch none [((fun p => nameGlobHolds (OnePage.globSet env) j!"FileTreePrettyPrinter.java" p), some j!" // Main entry point")] p := rfl
  rw [e]
  unfold firstMatch
  simp only [List.find?_cons, List.find?_nil, h]
  by_cases hq : n = j!"FileTreePrettyPrinter.java"
  · subst hq; rfl
  · rw [if_neg hq, beq_eq_false_iff_ne.2 hq]

end

theorem emoji_dir {tgt p : Path} (hp : env.fs.isDir p = true) : (choices env tgt).emoji p = some j!"📂" := by
  simp only [choices, ofDocument, exampleDoc, if_true, hp]

theorem emoji_java {tgt p : Path} (hl : KeepsLowerAscii env.casing.lower) (hp : env.fs.isDir p = false) {n b : JStr} (hn : p.names.getLast? = some n) (hb : env.casing.lower n = b ++ j!".java") :
    (choices env tgt).emoji p = some j!"☕" := by
  simp only [choices, ofDocument, exampleDoc, if_true, hp, Bool.false_eq_true, if_false, hn, Option.map_some, Option.getD_some]
  obtain ⟨o', ho⟩ := C36_default_ok (m := Except Exn) env.casing hl env.fs.lift Options.createDefault
  have hd : env.fs.lift.isDir p = (pure false : Except Exn Bool) := by show pure (env.fs.isDir p) = _; rw [hp]
  have h1 := (C36_default _ _ _ _ ho).2.1 p (OnePage.extensions (env.casing.lower n)) hd
    (fun n' hn' => by have : n = n' := by simpa [Path.getFileName, hn] using hn'
                      subst this; exact OnePage.extensions_parts _ _) (fun h => by simp [Path.getFileName, hn] at h)
  have hnot : ∀ k ∈ DEFAULT_FILENAME_EMOJIS.map Prod.fst, ¬ j!".java" <:+ k := by decide
  have h2 := (C68_last_extension env.casing hl env.fs.lift _ _ ho (key := j!"java") hd hn ⟨by decide, by decide, b, 0, by rw [hb]; simp [DOT]⟩ (fun h => hnot _ h (by rw [hb]; exact ⟨b, rfl⟩))).1 j!"☕" (by decide)
  rw [h1] at h2
  exact Except.ok.inj h2

/-- A file as an entry of the one-page program. -/
def kid (S : Settings) (tgt : Path) (x : JStr × Option Attrs) : Kid :=
  ⟨tgt.child x.1, false, complete S 1 (tgt.child x.1) (.file x.2), OnePage.block S 1 (tgt.child x.1) (.file x.2)⟩

/-- Insert a file. -/
def ins (x : JStr × Option Attrs) : List (JStr × Option Attrs) → List (JStr × Option Attrs)
  | [] => [x]
  | y :: ys => if precedes y.1 x.1 then y :: ins x ys else x :: y :: ys

/-- The java files, sorted. -/
def sorted : List (JStr × FileTree) → List (JStr × Option Attrs)
  | [] => []
  | (n, .file a) :: es => if endsWith n j!".java" then ins (n, a) (sorted es) else sorted es
  | _ :: es => sorted es

theorem mem_ins {x z : JStr × Option Attrs} : ∀ {l}, z ∈ ins x l ↔ z = x ∨ z ∈ l
  | [] => by simp [ins]
  | y :: ys => by
    unfold ins
    split
    · rw [List.mem_cons, mem_ins, List.mem_cons]; tauto
    · rw [List.mem_cons]

theorem mem_sorted {z : JStr × Option Attrs} : ∀ {es}, z ∈ sorted es ↔ JavaFile es z
  | [] => by simp [sorted, JavaFile]
  | (n, .file a) :: es => by
    have ih := mem_sorted (z := z) (es := es)
    unfold sorted
    unfold JavaFile at ih ⊢
    rw [List.mem_cons, Prod.mk.injEq]
    by_cases h : endsWith n j!".java" = true
    · rw [if_pos h, mem_ins, ih]
      have h' : j!".java" <:+ n := List.isSuffixOf_iff_suffix.1 h
      constructor
      · rintro (rfl | ⟨h1, h2⟩)
        · exact ⟨.inl ⟨rfl, rfl⟩, h'⟩
        · exact ⟨.inr h1, h2⟩
      · rintro ⟨⟨h1, h2⟩ | h1, h3⟩
        · left; cases z; simp only at h1 h2; cases h2; rw [h1]
        · exact .inr ⟨h1, h3⟩
    · rw [if_neg h, ih]
      constructor
      · rintro ⟨h1, h2⟩; exact ⟨.inr h1, h2⟩
      · rintro ⟨⟨h1, h2⟩ | h1, h3⟩
        · rw [h1] at h3; exact absurd (List.isSuffixOf_iff_suffix.2 h3) h
        · exact ⟨h1, h3⟩
  | (n, .dir ds) :: es => by
    have ih := mem_sorted (z := z) (es := es)
    unfold JavaFile at ih ⊢
    simp [sorted, ih]
  | (n, .closed) :: es => by
    have ih := mem_sorted (z := z) (es := es)
    unfold JavaFile at ih ⊢
    simp [sorted, ih]

theorem precedes_trans {a b c : JStr} (h1 : precedes a b = true) (h2 : precedes b c = true) : precedes a c = true := by
  rw [OnePage.precedes_iff] at *
  have := compareTo_trans a b c (by omega) (by omega)
  rcases Int.lt_or_eq_of_le this with h | h
  · exact h
  · rw [compareTo_eq_zero] at h
    subst h
    have := compareTo_neg a b
    omega

theorem precedes_other {a b : JStr} (h1 : ¬ precedes a b = true) (h2 : a ≠ b) : precedes b a = true := by
  rw [OnePage.precedes_iff] at *
  have := compareTo_neg a b
  have : compareTo a b ≠ 0 := fun h => h2 (compareTo_eq_zero.1 h)
  omega

theorem ins_ordered {x : JStr × Option Attrs} : ∀ {l : List (JStr × Option Attrs)}, (∀ z ∈ l, z.1 ≠ x.1) → l.Pairwise (fun a b => precedes a.1 b.1 = true) →
    (ins x l).Pairwise (fun a b => precedes a.1 b.1 = true)
  | [], _, _ => by simp [ins]
  | y :: ys, hx, h => by
    obtain ⟨h1, h2⟩ := List.pairwise_cons.1 h
    unfold ins
    split
    · rename_i hyx
      refine List.pairwise_cons.2 ⟨fun z hz => ?_, ins_ordered (fun z hz => hx z (by simp [hz])) h2⟩
      rcases mem_ins.1 hz with rfl | hz
      · exact hyx
      · exact h1 z hz
    · rename_i hyx
      have hxy := precedes_other hyx (hx y (by simp))
      refine List.pairwise_cons.2 ⟨fun z hz => ?_, h⟩
      rcases List.mem_cons.1 hz with rfl | hz
      · exact hxy
      · exact precedes_trans hxy (h1 z hz)

theorem sorted_ordered : ∀ {es : List (JStr × FileTree)}, (es.map Prod.fst).Nodup → (sorted es).Pairwise (fun a b => precedes a.1 b.1 = true)
  | [], _ => by simp [sorted]
  | (n, .file a) :: es, h => by
    obtain ⟨h1, h2⟩ := List.nodup_cons.1 h
    unfold sorted
    split
    · refine ins_ordered (fun z hz e => h1 ?_) (sorted_ordered h2)
      simp only at e
      rw [← e]
      exact List.mem_map.2 ⟨_, (mem_sorted.1 hz).1, rfl⟩
    · exact sorted_ordered h2
  | (n, .dir ds) :: es, h => by
    obtain ⟨_, h2⟩ := List.nodup_cons.1 h
    exact sorted_ordered (es := es) h2
  | (n, .closed) :: es, h => by
    obtain ⟨_, h2⟩ := List.nodup_cons.1 h
    exact sorted_ordered (es := es) h2

theorem last_child (p : Path) (n : JStr) : (p.child n).names.getLast? = some n := by unfold Path.child; split <;> simp

theorem name_child (p : Path) (n : JStr) : name (p.child n) = n := by
  unfold name
  rw [List.getLastD_eq_getLast?, last_child]; rfl

theorem insert_kid (env : Env) (tgt : Path) (x : JStr × Option Attrs) : ∀ l : List (JStr × Option Attrs),
    OnePage.insert (choices env tgt) (kid (choices env tgt) tgt x) (l.map (kid (choices env tgt) tgt)) = (ins x l).map (kid (choices env tgt) tgt)
  | [] => rfl
  | y :: ys => by
    have hn : ∀ z : JStr × Option Attrs, name (tgt.child z.1) = z.1 := fun z => name_child _ _
    have hb : OnePage.before (choices env tgt) (kid (choices env tgt) tgt y).path (kid (choices env tgt) tgt x).path = precedes y.1 x.1 := by
      show (decide ((0 : Int) < 0) || ((0 : Int) == 0 && precedes (name (tgt.child y.1)) (name (tgt.child x.1)))) = _
      rw [hn, hn]; simp
    rw [List.map_cons, OnePage.insert, hb, ins, insert_kid env tgt x ys]
    split <;> rfl

theorem arrange_eq {odd : PathMatchers.GlobCompiler} (hglob : env.glob = Globs.getPathMatcher odd) (tgt : Path) :
    ∀ es : List (JStr × FileTree), (∀ e ∈ es, SLASH ∉ e.1) → OnePage.arrange (choices env tgt) (OnePage.kidsOf (choices env tgt) 1 tgt es) = (sorted es).map (kid (choices env tgt) tgt)
  | [], _ => rfl
  | (n, t) :: es, h => by
    have ih := arrange_eq hglob tgt es fun e he => h e (by simp [he])
    have hsl : SlashFree (tgt.child n) := by
      intro n' hn'
      rw [last_child] at hn'
      cases hn'
      exact h (n, t) (by simp)
    cases t with
    | file a =>
      show (if (choices env tgt).showFile (tgt.child n) = true then OnePage.insert (choices env tgt) (kid (choices env tgt) tgt (n, a)) (OnePage.arrange (choices env tgt) (OnePage.kidsOf (choices env tgt) 1 tgt es))
        else OnePage.arrange (choices env tgt) (OnePage.kidsOf (choices env tgt) 1 tgt es)) = _
      rw [ih, show_file hglob hsl (last_child tgt n), sorted]
      split
      · exact insert_kid env tgt (n, a) (sorted es)
      · rfl
    | dir ds =>
      rw [OnePage.kidsOf, OnePage.arrange]
      show (if (choices env tgt).showDir (tgt.child n) = true then _ else _) = _
      rw [show_dir hglob hsl]
      · exact ih
      · intro _ h; cases h
    | closed =>
      rw [OnePage.kidsOf, OnePage.arrange]
      show (if (choices env tgt).showDir (tgt.child n) = true then _ else _) = _
      rw [show_dir hglob hsl]
      · exact ih
      · intro _ h; cases h

theorem hang_branches (env : Env) (tgt : Path) : ∀ ls : List JStr, hang (choices env tgt) (ls.map fun l => [l]) = branches ls
  | [] => rfl
  | [l] => by simp [hang, indent, branches, ofDocument, standard]
  | l :: l' :: ls => by
    have ih := hang_branches env tgt (l' :: ls)
    simp only [List.map_cons] at ih
    simp only [List.map_cons, hang, branches, ih]
    simp [indent, ofDocument, standard]

theorem holds_file {fs : PureFs} {p : Path} {t : FileTree} (h : Holds fs p t) (e : ∃ a, t = .file a) : fs.isDir p = false := by
  obtain ⟨a, e⟩ := e
  cases h with
  | file h => exact h
  | dir _ _ _ => cases e
  | closed _ _ => cases e

theorem text_eq {odd : PathMatchers.GlobCompiler} (hglob : env.glob = Globs.getPathMatcher odd) (hl : KeepsLowerAscii env.casing.lower)
    (hj : ∀ a, ∃ b, env.casing.lower (a ++ j!".java") = b ++ j!".java") {tgt : Path} (hd : env.fs.isDir tgt = true) {last : JStr} (hlast : tgt.names.getLast? = some last)
    {es : List (JStr × FileTree)} (hes : ∀ e ∈ es, SLASH ∉ e.1) (hf : ∀ n a, (n, FileTree.file a) ∈ es → env.fs.isDir (tgt.child n) = false) :
    OnePage.text (choices env tgt) tgt (.dir es) = if ((sorted es).take 3).all (fun x => x.2.isSome) then some (joinLines (exampleLines last (sorted es))) else none := by
  have hnames : tgt.names ≠ [] := by intro e; rw [e] at hlast; cases hlast
  have hname : name tgt = last := by unfold name; rw [List.getLastD_eq_getLast?, hlast]; rfl
  have hlim : (choices env tgt).limit tgt = 3 := rfl
  have hcomp : complete (choices env tgt) 0 tgt (.dir es) = ((sorted es).take 3).all (fun x => x.2.isSome) := by
    rw [OnePage.complete, arrange_eq hglob tgt es hes, hlim]
    rw [show (decide ((choices env tgt).maxDepth ≤ ((0 : Nat) : Int))) = false from rfl, Bool.false_or]
    unfold leave
    rw [if_neg (by decide), ← List.map_take, List.all_map]
    rfl
  have hline : ∀ x ∈ (sorted es).take 3, (kid (choices env tgt) tgt x).lines [] = [javaLine x] := by
    intro x hx
    obtain ⟨h1, b, hb⟩ := mem_sorted.1 (List.mem_of_mem_take hx)
    obtain ⟨b', hb'⟩ := hj b
    rw [hb] at hb'
    show OnePage.block (choices env tgt) 1 (tgt.child x.1) (.file x.2) [] = _
    rw [OnePage.block, emoji_java hl (hf _ _ h1) (last_child _ _) hb', ext_eq hglob (last_child _ _), name_child]
    obtain ⟨n, a⟩ := x
    unfold javaLine comment icon mark
    cases a <;> by_cases hq : n = j!"FileTreePrettyPrinter.java" <;> simp [hq]
  have hblock : OnePage.block (choices env tgt) 0 tgt (.dir es) [] = exampleLines last (sorted es) := by
    rw [OnePage.block, if_neg (show ¬ ((choices env tgt).maxDepth ≤ ((0 : Nat) : Int)) from (by decide : ¬ ((2 : Int) ≤ ((0 : Nat) : Int)))), arrange_eq hglob tgt es hes, OnePage.dirLines_plain]
    · rw [emoji_dir hd, hname, ext_eq hglob hlast, hlim]
      unfold exampleLines
      congr 1
      · unfold comment; split <;> simp [icon]
      · rw [← hang_branches env tgt, List.map_append]
        congr 2
        · unfold leave
          rw [if_neg (by decide), ← List.map_take, List.map_map, List.map_map]
          exact List.map_congr_left hline
        · unfold OnePage.dots leave
          rw [if_neg (show ¬ (3 : Int) < 0 by decide), ← List.map_take, List.length_map, List.length_map, List.length_take]
          by_cases h : 3 < (sorted es).length
          · rw [if_pos h, if_pos (by have : (3 : Int).toNat = 3 := rfl; omega)]; rfl
          · rw [if_neg h, if_neg (by have : (3 : Int).toNat = 3 := rfl; omega)]; rfl
    · exact fun c hm => absurd hm.2.2.2.2.1 (by decide)
  unfold OnePage.text
  rw [hcomp, hblock, OnePage.joinLines_intercalate]
  by_cases h : ((sorted es).take 3).all (fun x => x.2.isSome) = true
  · rw [if_pos ⟨hnames, h⟩, if_pos h]
  · rw [if_neg (fun h' => h h'.2), if_neg h]

end ReadmeCli

/-- **C118**, README.md:462-482: with the example options file, wherever it is found, the program prints of a directory its first three files, by name, whose names end in `.java`, and `...` if there are
more; nothing of the directories in it, as the glob `src/main/**` describes no name. If one of these files cannot be read, it fails. -/
theorem C118_example (hp : PlainDirs env) (hfs : ProperFs env.fs) (hr : RealNames env.fs) (hl : KeepsLowerAscii env.casing.lower) (hj : ∀ a, ∃ b, env.casing.lower (a ++ j!".java") = b ++ j!".java")
    {odd : PathMatchers.GlobCompiler} (hglob : env.glob = Globs.getPathMatcher odd) {args : Args} (hd : args.debug = false) (hx : env.fileExists (targetOf env args) = true)
    (hch : Chosen env (targetOf env args) args.optionsFile (.ok (Bind.externalOptions exampleFile))) {es : List (JStr × FileTree)} (ht : Holds env.fs (targetOf env args) (.dir es))
    (hes : ∀ e ∈ es, SLASH ∉ e.1) {last : JStr} (hlast : (targetOf env args).names.getLast? = some last) :
    ∃ files : List (JStr × Option Attrs), (∀ x, x ∈ files ↔ JavaFile es x) ∧ files.Pairwise (fun a b => precedes a.1 b.1 = true) ∧
      ((∀ x ∈ files.take 3, x.2 ≠ none) → PERCENT ∉ joinLines (exampleLines last files) → run env args = (0, { out := joinLines (exampleLines last files) ++ j!"\n" })) ∧
      ((∃ x ∈ files.take 3, x.2 = none) → (run env args).1 = 1 ∧ (run env args).2.out = []) := by
  rw [bind_example] at hch
  have hdir : env.fs.isDir (targetOf env args) = true ∧ (∀ n a, (n, FileTree.file a) ∈ es → env.fs.isDir ((targetOf env args).child n) = false) ∧ (es.map Prod.fst).Nodup := by
    cases ht with
    | dir h1 h2 h3 =>
      refine ⟨h1, fun n a hm => ?_, ?_⟩
      · exact holds_file (h3 _ hm) ⟨a, rfl⟩
      · have := (hfs _ _ _ h2).1
        rw [show es.map (fun e => (targetOf env args).child e.1) = (es.map Prod.fst).map (targetOf env args).child by rw [List.map_map]; rfl] at this
        exact this.of_map
  have hprog : OnePage.program env args (.dir es) = if ((sorted es).take 3).all (fun x => x.2.isSome) then some (joinLines (exampleLines last (sorted es))) else none := by
    unfold OnePage.program
    rw [if_pos hx, OnePage.document_eq hch]
    show (if OnePage.globsGood env exampleDoc = true then _ else none) = _
    rw [if_pos (globs_good hglob)]
    exact text_eq hglob hl hj hdir.1 hlast hes hdir.2.1
  refine ⟨sorted es, fun _ => mem_sorted, sorted_ordered hdir.2.2, fun h1 h2 => ?_, fun ⟨x, h1, h2⟩ => ?_⟩
  · refine C101_prints hp hfs hr hl hd ht ?_ h2
    rw [hprog, if_pos]
    rw [List.all_eq_true]
    intro x hx'
    cases hq : x.2 with
    | none => exact absurd hq (h1 x hx')
    | some a => rfl
  · refine C101_fails hp hfs hr hl hd ht ?_
    rw [hprog, if_neg]
    intro h
    have := List.all_eq_true.1 h x h1
    rw [h2] at this
    cases this

namespace Demo

/-- The directory of the executable. -/
def bin : Path := ⟨true, [j!"opt", j!"bin"]⟩

/-- The demo disk with an options file beside the executable and nowhere else. -/
def beside : Env := { documented with fileExists := fun p => decide (p = r ∨ p = optionsFileIn bin) }

theorem beside_plain : PlainDirs beside := ⟨(machine_plain r).1, (machine_plain r).2⟩

theorem beside_found : FirstOf beside (readmePlaces beside bin (targetOf beside (cmd r))) (.ok (some request)) :=
  .used (l₁ := [optionsFileIn r]) (p := optionsFileIn bin) (l₂ := [optionsFileIn beside.home]) rfl (by
    intro q hq
    rw [List.mem_singleton] at hq
    subst hq
    exact .missing (by decide)) (.good (by decide) rfl rfl rfl (by decide))

theorem beside_chosen : Chosen beside (targetOf beside (cmd r)) (cmd r).optionsFile (.ok none) := by
  refine .fallback (.nothing fun q hq => .missing ?_)
  have : ∀ q ∈ places beside (targetOf beside (cmd r)), beside.fileExists q = false := by decide
  exact this q hq

theorem beside_run : run beside (cmd r) = (0, { out := joinLines [j!"r/", j!"├─ a/", j!"│  ├─ x", j!"│  └─ y", j!"├─ b.txt", j!"└─ z?"] ++ j!"\n" }) := by
  have h := C101_disk (env := beside) (disk := disk) (args := cmd r) beside_plain rfl disk_wf (by simp [disk, Node.Real, Node.RealAll]) keepsLowerAscii_ascii rfl
  have e : OnePage.program beside (cmd r) (treeAt disk (targetOf beside (cmd r))) = some (joinLines [j!"r/", j!"├─ a/", j!"│  ├─ x", j!"│  └─ y", j!"├─ b.txt", j!"└─ z?"]) := by decide +kernel
  rw [e] at h
  exact h (by decide)

theorem beside_given : run beside { cmd r with optionsFile := some (optionsFileIn bin) } = (0, { out := joinLines [j!"r/", j!"├─ a/", j!"│  └─ ...", j!"└─ b.txt <-"] ++ j!"\n" }) := by
  have h := C101_disk (env := beside) (disk := disk) (args := { cmd r with optionsFile := some (optionsFileIn bin) }) beside_plain rfl disk_wf (by simp [disk, Node.Real, Node.RealAll]) keepsLowerAscii_ascii rfl
  have e : OnePage.program beside { cmd r with optionsFile := some (optionsFileIn bin) } (treeAt disk (targetOf beside { cmd r with optionsFile := some (optionsFileIn bin) })) =
    some (joinLines [j!"r/", j!"├─ a/", j!"│  └─ ...", j!"└─ b.txt <-"]) := by decide +kernel
  rw [e] at h
  exact h (by decide)

end Demo

/-- **C118**: what the README says of the second place is false: there is a run whose only options file, a valid one, is beside the executable; by the README it is used, but the program prints something else
than with this file. -/
theorem C118_lookup_false : ∃ (env : Env) (args : Args) (exe : Path) (x : ExternalOptions), PlainDirs env ∧ args.optionsFile = none ∧ FirstOf env (readmePlaces env exe (targetOf env args)) (.ok (some x)) ∧
    Chosen env (targetOf env args) args.optionsFile (.ok none) ∧ (run env args).1 = 0 ∧ (run env { args with optionsFile := some (optionsFileIn exe) }).1 = 0 ∧
    (run env args).2.out ≠ (run env { args with optionsFile := some (optionsFileIn exe) }).2.out := by
  refine ⟨Demo.beside, Demo.cmd Demo.r, Demo.bin, Demo.request, Demo.beside_plain, rfl, Demo.beside_found, Demo.beside_chosen, ?_, ?_, ?_⟩
  · rw [Demo.beside_run]
  · rw [Demo.beside_given]
  · rw [Demo.beside_run, Demo.beside_given]; decide

namespace Demo

/-- The file beside the executable is damaged: nothing changes. -/
example : run (withFiles beside beside.fileExists beside.isFile beside.canRead (fun p => if p = optionsFileIn bin then none else beside.yaml p)) { cmd r with debug := true } = run beside { cmd r with debug := true } :=
  C118_not_beside_executable beside_plain (exe := bin) (by decide) beside.fileExists beside.isFile beside.canRead (fun p => if p = optionsFileIn bin then none else beside.yaml p)
    fun p hp => ⟨rfl, rfl, rfl, by simp [withFiles, hp]⟩

/-- A document in the target, and the same one given. -/
example : run documented (cmd r) = run documented { cmd r with optionsFile := some (optionsFileIn r) } :=
  C118_same_document (env := documented) ⟨(machine_plain r).1, (machine_plain r).2⟩ rfl rfl rfl (x := some request) (y := some request)
    (.fallback (.used (l₁ := []) (p := optionsFileIn r) (l₂ := [optionsFileIn documented.cwd, optionsFileIn documented.home]) rfl (by simp) (.good (by decide) rfl rfl rfl (by decide))))
    (.givenGood (by rw [show target documented.cwd (optionsFileIn r) = optionsFileIn r by decide]; exact .good (by decide) rfl rfl rfl (by decide))) rfl

/-- The project in /home/me. -/
def checkoutDisk : Node := .dir true [(j!"home", .dir true [(j!"me", .dir true [(j!"jfiletreeprettyprinter-examples", Spec.Readme.disk), (j!"pom.xml", .regular 5)])]), (j!"h", .dir true [])]

/-- A machine with it. -/
def checkout : Env := { machine r with
  cwd := readmeHome
  fs := checkoutDisk.toFs
  fileExists := fun p => decide (p = ⟨true, [j!"home", j!"me", j!"jfiletreeprettyprinter-examples", j!"src", j!"main", j!"resources", j!"base"]⟩) }

example : run checkout exampleArgs = (0, { out := joinLines Spec.Readme.baseText ++ j!"\n" }) :=
  C118_usage (env := checkout) ⟨⟨rfl, by decide⟩, (machine_plain r).2⟩ (Node.WF.proper (t := checkoutDisk) (by
    have h := Readme.disk_wf
    simp [checkoutDisk, Node.WF, Node.WFAll, h])) (by decide) (by decide)
    (Readme.has_of_checkout (t := checkoutDisk) (cwd := ⟨true, [j!"home", j!"me", j!"jfiletreeprettyprinter-examples"]⟩) rfl j!"base")

/-- Java files, one of them a link and one a pipe, and others. -/
def javaDisk : Node := .dir true [(j!"r", .dir true [(j!"Z.java", .regular 1), (j!"notes.txt", .regular 1), (j!"src", .dir true [(j!"main", .dir true [(j!"X.java", .regular 1)])]),
  (j!"FileTreePrettyPrinter.java", .regular 1), (j!"A.java", .symlink ⟨true, [j!"r", j!"Z.java"]⟩), (j!"M.java", .special), (j!".prettyprint", .regular 1)])]

/-- A machine with the example options file in the target. -/
def javaMachine : Env := { machine r with
  fs := javaDisk.toFs
  fileExists := fun p => decide (p = r ∨ p = optionsFileIn r)
  yaml := fun _ => some (Bind.externalOptions exampleFile)
  glob := Globs.getPathMatcher (fun _ => .error Exn.nullPointer) }

theorem javaDisk_wf : javaDisk.WF := by simp [javaDisk, Node.WF, Node.WFAll]

/-- The entries of the directory. -/
def javaEntries : List (JStr × FileTree) := match treeAt javaDisk r with | .dir es => es | _ => []

theorem javaMachine_chosen : Chosen javaMachine (targetOf javaMachine (cmd r)) (cmd r).optionsFile (.ok (Bind.externalOptions exampleFile)) :=
  .fallback (.used (l₁ := []) (p := optionsFileIn r) (l₂ := [optionsFileIn javaMachine.cwd, optionsFileIn javaMachine.home]) rfl (by simp)
    (.good (x := exampleDoc) (by decide) rfl rfl rfl (by decide +kernel)))

/-- The hypotheses of `C118_example` hold. -/
example := C118_example (env := javaMachine) ⟨(machine_plain r).1, (machine_plain r).2⟩ javaDisk_wf.proper (Node.Real.realNames (t := javaDisk) (by simp [javaDisk, Node.Real, Node.RealAll]))
  keepsLowerAscii_ascii (fun a => ⟨a.map asciiLowerChar, by show List.map asciiLowerChar (a ++ j!".java") = _; rw [List.map_append]; rfl⟩) (odd := fun _ => .error Exn.nullPointer) rfl
  (args := cmd r) rfl (by decide) javaMachine_chosen (es := javaEntries) (OnePage.holds_at javaDisk_wf rfl) (by decide +kernel) (last := j!"r") (by decide)

/-- What is printed. -/
example : run javaMachine (cmd r) = (0, { out := joinLines [j!"📂 r/", j!"├─ ☕ A.java", j!"├─ ☕ FileTreePrettyPrinter.java // Main entry point", j!"├─ ☕ M.java?", j!"└─ ..."] ++ j!"\n" }) := by
  have h := C101_disk (env := javaMachine) (disk := javaDisk) (args := cmd r) ⟨(machine_plain r).1, (machine_plain r).2⟩ rfl javaDisk_wf (by simp [javaDisk, Node.Real, Node.RealAll]) keepsLowerAscii_ascii rfl
  have e : OnePage.program javaMachine (cmd r) (treeAt javaDisk (targetOf javaMachine (cmd r))) =
    some (joinLines [j!"📂 r/", j!"├─ ☕ A.java", j!"├─ ☕ FileTreePrettyPrinter.java // Main entry point", j!"├─ ☕ M.java?", j!"└─ ..."]) := by decide +kernel
  rw [e] at h
  exact h (by decide)

end Demo
end JFTP
