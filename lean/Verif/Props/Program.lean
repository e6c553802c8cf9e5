import Verif.Spec.Program
import Verif.Props.OnePage
import Verif.Props.EndToEnd

/-!
C101: the command line program computes the text of the one-page program.
-/

namespace JFTP
open Spec Spec.OnePage Cli

namespace OnePage

theorem pieces_eq (n : JStr) : pieces n = splitRaw DOT n := by
  induction n with
  | nil => rfl
  | cons c cs ih =>
    rw [pieces, splitRaw, ih]
    have := splitRaw_ne_nil DOT cs
    cases h : splitRaw DOT cs with
    | nil => exact absurd h this
    | cons w ws => rfl

theorem trim_spec (ps : List JStr) : ∃ k, ps = trim ps ++ List.replicate k [] ∧ (trim ps).getLast? ≠ some [] := by
  induction ps with
  | nil => exact ⟨0, rfl, by simp [trim]⟩
  | cons w ws ih =>
    obtain ⟨k, h1, h2⟩ := ih
    rw [trim]
    cases h : trim ws with
    | nil =>
      rw [h] at h1
      by_cases hw : w = []
      · subst hw
        refine ⟨k + 1, ?_, by simp⟩
        rw [List.replicate_succ, h1]; simp
      · refine ⟨k, ?_, by simp [hw]⟩
        simp only [hw, if_false]
        rw [h1]; simp
    | cons v vs =>
      rw [h] at h1 h2
      refine ⟨k, by rw [h1]; rfl, ?_⟩
      simpa [List.getLast?_cons_cons] using h2

theorem extensions_parts (lower : JStr → JStr) (n : JStr) : ExtParts lower n (extensions (lower n)) := by
  generalize hm : lower n = m
  unfold extensions ExtParts
  rw [hm]
  obtain ⟨k, h1, h2⟩ := trim_spec (pieces m)
  have hn := joinDots_splitRaw m
  have hp := splitRaw_parts m
  rw [← pieces_eq] at hn hp
  generalize trim (pieces m) = qs at h1 h2
  rw [h1] at hn hp
  cases qs with
  | nil =>
    cases k with
    | zero => rw [pieces_eq] at h1; exact absurd h1 (by simpa using splitRaw_ne_nil DOT m)
    | succ k =>
      have : m = List.replicate k DOT := by
        rw [← hn, List.nil_append, List.replicate_succ]
        have := joinDots_append_dots [[]] (by simp) k
        simpa [joinDots] using this
      refine .inr ⟨rfl, ?_⟩
      cases k with
      | zero => left; exact ⟨[], 0, by simp, by simpa using this, fun _ => rfl⟩
      | succ k => right; exact ⟨k, this⟩
  | cons base exts =>
    rw [joinDots_append_dots _ (by simp)] at hn
    cases exts with
    | nil =>
      refine .inr ⟨rfl, .inl ⟨base, k, hp base (by simp), by simpa [joinDots] using hn.symm, fun hb => ?_⟩⟩
      simp [hb] at h2
    | cons e es =>
      exact .inl ⟨base, ⟨by simp, fun x hx => hp x (by simp only [List.mem_append]; exact .inl hx), by simpa [List.getLast?_cons_cons] using h2, k, hn.symm⟩⟩

theorem parts_tail {lower : JStr → JStr} {n : JStr} {exts : List JStr} (h : ExtParts lower n exts) : (splitDots (lower n)).tail = exts := by
  rcases h with ⟨base, h⟩ | ⟨rfl, h | ⟨k, h⟩⟩
  · rw [splitDots_hasExts h]; rfl
  · obtain ⟨b, hb⟩ := splitDots_hasNoExt h; rw [hb]; rfl
  · rw [h, splitDots_dots]; rfl

/-- Options that answer like the settings on all paths. -/
def optionsOf (S : Settings) : Options (Except Exn) :=
  { (Options.createDefault : Options (Except Exn)).sort S.order with
    dirMatcher := fun p => .ok (S.showDir p)
    fileMatcher := fun p => .ok (S.showFile p)
    childLimit := fun p => .ok (S.limit p)
    maxDepth := S.maxDepth
    compactDirectories := S.compact
    emojiMapping := fun p => .ok (S.emoji p)
    lineExtension := some fun p => .ok (S.ext p)
    treeFormat := ⟨S.branch, S.lastBranch, S.bar, S.blank⟩ }

theorem obeys_optionsOf (S : Settings) : OnePage.Obeys (optionsOf S) S :=
  ⟨fun _ _ => rfl, fun _ _ => rfl, rfl, fun _ _ => rfl, rfl, rfl, fun _ _ => rfl, fun _ _ => rfl, rfl, rfl, rfl, rfl⟩

theorem obeys_document (lower : JStr → JStr) (fs : PureFs) (G : JStr → Path → Bool) (tgt : Path) (x : ExternalOptions) :
    JFTP.Obeys lower fs G tgt x (optionsOf (ofDocument lower fs.isDir G tgt x)) where
  look := by
    refine ⟨rfl, fun _ _ _ => rfl, fun h p => ?_, fun h p hp => ?_, fun h p hp exts h1 h2 => ?_⟩
    · show (if x.emojis = some true then _ else none) = none
      rw [if_neg h]
    · show (if x.emojis = some true then _ else none) = _
      rw [if_pos h, if_pos hp]
    · show (if x.emojis = some true then _ else none) = _
      rw [if_pos h, hp]
      have e : (p.names.getLast?.map fun n => extensions (lower n)).getD [] = exts := by
        rcases hn : p.getFileName with _ | n
        · have hn' : p.names.getLast? = none := hn
          rw [h2 hn, hn']; rfl
        · have hn' : p.names.getLast? = some n := hn
          rw [hn']
          exact (parts_tail (extensions_parts lower n)).symm.trans (parts_tail (h1 n hn))
      rw [e]; rfl
  quiet _ _ _ := ⟨rfl, rfl⟩
  depth := rfl
  format := rfl
  sorts := rfl
  limit p _ _ := by
    refine ⟨_, rfl, ?_⟩
    unfold docLimit
    simp only [ofDocument]
    split
    · rename_i h; simp only [h]; decide
    · rename_i h; simp only [h]
    · rename_i ls h
      simp only [h]
      unfold LimitIs
      split
      · rename_i hf; rw [hf]
      · rename_i hf; rw [hf]; decide
  filter p _ _ := by
    unfold docKeeps
    cases h : fs.isDir p
    · show Except.ok (match x.filter.bind (·.file) with | some d => docHolds G tgt p d | none => true) = _
      cases h' : x.filter.bind (·.file) <;> simp [h']
    · show Except.ok (match x.filter.bind (·.dir) with | some d => docHolds G tgt p d | none => true) = _
      cases h' : x.filter.bind (·.dir) <;> simp [h']

theorem documentAt_eq {env : Env} {p : Path} {st : FileState} (h : AtPlace env p st) :
    documentAt env p = match st with | .missing => some none | .bad _ => none | .good x => some (some x) := by
  unfold documentAt
  cases h with
  | missing h => simp [h]
  | notFile h1 h2 => simp [h1, h2]
  | unreadable h1 h2 h3 => simp [h1, h2, h3]
  | malformed h1 h2 h3 h4 => simp [h1, h2, h3, h4]
  | nullDocument h1 h2 h3 h4 => simp [h1, h2, h3, h4]
  | invalid h1 h2 h3 h4 h5 => simp [h1, h2, h3, h4, h5]
  | good h1 h2 h3 h4 h5 => simp [h1, h2, h3, h4, h5]

theorem firstDocument_skip {env : Env} {l₁ l₂ : List Path} (h : ∀ q ∈ l₁, AtPlace env q .missing) : firstDocument env (l₁ ++ l₂) = firstDocument env l₂ := by
  induction l₁ with
  | nil => rfl
  | cons q l₁ ih =>
    rw [List.cons_append, firstDocument, documentAt_eq (h q (by simp))]
    exact ih fun q hq => h q (by simp [hq])

theorem firstDocument_eq {env : Env} {ps : List Path} {r : Except CliExn (Option ExternalOptions)} (h : FirstOf env ps r) : firstDocument env ps = r.toOption := by
  cases h with
  | nothing h =>
    have := firstDocument_skip (l₂ := []) h
    rw [List.append_nil] at this
    rw [this]; rfl
  | used h1 h2 h3 => rw [h1, firstDocument_skip h2, firstDocument, documentAt_eq h3]; rfl
  | refused h1 h2 h3 => rw [h1, firstDocument_skip h2, firstDocument, documentAt_eq h3]; rfl

theorem document_eq {env : Env} {args : Args} {r : Except CliExn (Option ExternalOptions)} (h : Chosen env (targetOf env args) args.optionsFile r) :
    document env args = r.toOption.map (·.getD {}) := by
  unfold document
  generalize args.optionsFile = given at h
  cases h with
  | givenMissing h => simp only [documentAt_eq h]; rfl
  | givenBad h => simp only [documentAt_eq h]; rfl
  | givenGood h => simp only [documentAt_eq h]; rfl
  | fallback h => simp only [firstDocument_eq h]

theorem globSet_eq {env : Env} {g : JStr} {f : Path → Bool} (h : env.glob g = .ok f) : env.glob g = .ok (globSet env g) := by
  unfold globSet
  rw [h]

end OnePage

/-- **C101**: the library returns the text `s` to the program exactly if the one-page program says so. -/
theorem C101_ends {env : Env} (hp : PlainDirs env) (hfs : ProperFs env.fs) (hr : RealNames env.fs) (hl : KeepsLowerAscii env.casing.lower) {args : Args} {t : FileTree}
    (ht : Holds env.fs (targetOf env args) t) (s : JStr) : Ends env args (.tree s) ↔ OnePage.program env args t = some s := by
  obtain ⟨ha, hc⟩ := targetOf_clean hp args
  have htt : target env.cwd (targetOf env args) = targetOf env args := target_self ha hc
  have hin : InTarget (targetOf env args) (targetOf env args) [] := ⟨⟨ha, ha⟩, by simp, hc⟩
  obtain ⟨r, hch⟩ := chosen_total env (targetOf env args) args.optionsFile
  have huniq : ∀ r', Chosen env (targetOf env args) args.optionsFile r' → r' = r := by
    obtain ⟨r0, _, _, hu⟩ := C52_lookup hp ha hc args.optionsFile {} rfl
    intro r' h; rw [hu _ h, hu _ hch]
  unfold OnePage.program
  rw [OnePage.document_eq hch]
  cases hex : env.fileExists (targetOf env args) with
  | false =>
    refine ⟨fun h => ?_, fun h => by simp at h⟩
    cases h with | printed h => rw [hex] at h; cases h
  | true =>
    rw [if_pos rfl]
    cases r with
    | error e =>
      refine ⟨fun h => ?_, fun h => by simp [Except.toOption] at h⟩
      cases h with | printed _ h => cases huniq _ h
    | ok x =>
      show _ ↔ (if globsGood env (x.getD {}) = true then _ else none) = some s
      by_cases hg : globsGood env (x.getD {}) = true
      · rw [if_pos hg]
        have hg' : ∀ g ∈ allGlobs (x.getD {}), g ≠ j!"*" → env.glob g = .ok (globSet env g) := by
          intro g hm hs
          have := List.all_eq_true.1 hg g hm
          simp only [Bool.or_eq_true, decide_eq_true_eq, hs, false_or] at this
          cases he : env.glob g with
          | error e => rw [he] at this; cases this
          | ok f => rw [← he]; exact OnePage.globSet_eq he
        rw [C86_ends hp hfs hr hex hch hg' (fun _ => hl), ← obeys_prints (OnePage.obeys_document _ _ _ _ _) hfs hr hp.cwd.1 htt hin s,
          C100_one_page hfs hp.cwd.1 (OnePage.obeys_optionsOf _) lawful_const (by rw [htt]; exact ht), htt]
      · rw [if_neg hg]
        refine ⟨fun h => ?_, fun h => by cases h⟩
        cases h with
        | @printed x' o _ _ h2 h3 h4 =>
          cases huniq _ h2
          refine absurd ?_ hg
          unfold globsGood
          rw [List.all_eq_true]
          intro g hm
          cases x with
          | none => exact absurd hm (by simp [allGlobs])
          | some x =>
            have h3 : mapToOptions env.casing env.glob env.fs.lift env.cwd _ x = .ok o := h3
            simp only [Bool.or_eq_true, decide_eq_true_eq]
            by_cases hs : g = j!"*"
            · exact .inl hs
            · obtain ⟨f, hf⟩ := (C51_maps_iff env.casing env.fs.lift x (chosen_valid hch) (fun _ => hl)).1 ⟨o, h3⟩ g hm hs
              rw [hf]; exact .inr rfl

/-- **C101**: the program prints that text and a line break, with exit code 0 (texts with percent signs: C53). -/
theorem C101_prints {env : Env} (hp : PlainDirs env) (hfs : ProperFs env.fs) (hr : RealNames env.fs) (hl : KeepsLowerAscii env.casing.lower) {args : Args} (hd : args.debug = false)
    {t : FileTree} (ht : Holds env.fs (targetOf env args) t) {s : JStr} (h : OnePage.program env args t = some s) (hs : PERCENT ∉ s) : run env args = (0, { out := s ++ j!"\n" }) :=
  C53_prints hp hd ((C101_ends hp hfs hr hl ht s).2 h) hs

/-- **C101**: if the one-page program has no text, the exit code is 1 and nothing is written to the standard output. -/
theorem C101_fails {env : Env} (hp : PlainDirs env) (hfs : ProperFs env.fs) (hr : RealNames env.fs) (hl : KeepsLowerAscii env.casing.lower) {args : Args} (hd : args.debug = false)
    {t : FileTree} (ht : Holds env.fs (targetOf env args) t) (h : OnePage.program env args t = none) : (run env args).1 = 1 ∧ (run env args).2.out = [] := by
  obtain ⟨r, hr'⟩ := ends_total env args
  cases r with
  | tree s => rw [(C101_ends hp hfs hr hl ht s).1 hr'] at h; cases h
  | notFound t' => cases hr' with | notFound hn => rw [C54_not_found hp hd hn]; exact ⟨rfl, rfl⟩
  | failed e => exact ⟨(C54_failed hp hd hr').1, (C54_failed hp hd hr').2.1⟩

/-- **C101** on disks: what the program writes and returns, for every disk. -/
theorem C101_disk {env : Env} (hp : PlainDirs env) {disk : Node} (he : env.fs = disk.toFs) (hw : disk.WF) (hr : disk.Real) (hl : KeepsLowerAscii env.casing.lower) {args : Args}
    (hd : args.debug = false) :
    match OnePage.program env args (treeAt disk (targetOf env args)) with
    | some s => PERCENT ∉ s → run env args = (0, { out := s ++ j!"\n" })
    | none => (run env args).1 = 1 ∧ (run env args).2.out = [] := by
  have ht : Holds env.fs (targetOf env args) (treeAt disk (targetOf env args)) := by rw [he]; exact OnePage.holds_at hw (targetOf_clean hp args).1
  have hfs : ProperFs env.fs := he ▸ hw.proper
  have hr : RealNames env.fs := he ▸ hr.realNames
  split
  · rename_i s h; exact C101_prints hp hfs hr hl hd ht h
  · rename_i h; exact C101_fails hp hfs hr hl hd ht h

/-- The program with the options document of the demo disk. -/
example : run Demo.documented (Demo.cmd Demo.r) = (0, { out := joinLines [j!"r/", j!"├─ a/", j!"│  └─ ...", j!"└─ b.txt <-"] ++ j!"\n" }) := by
  have h := C101_disk (env := Demo.documented) (disk := Demo.disk) (args := Demo.cmd Demo.r) ⟨(Demo.machine_plain Demo.r).1, (Demo.machine_plain Demo.r).2⟩ rfl Demo.disk_wf (by simp [Demo.disk, Node.Real, Node.RealAll]) keepsLowerAscii_ascii rfl
  have e : OnePage.program Demo.documented (Demo.cmd Demo.r) (treeAt Demo.disk (targetOf Demo.documented (Demo.cmd Demo.r))) =
    some (joinLines [j!"r/", j!"├─ a/", j!"│  └─ ...", j!"└─ b.txt <-"]) := by decide
  rw [e] at h
  exact h (by decide)

/-- The same disk with another document: emojis, and at most one entry in each directory except `r`. -/
def OnePage.machine2 : Env := { Demo.documented with
  yaml := fun _ => some (some { emojis := some true, childLimit := some (.dynamic (some [some ⟨some 1, some (.noneOf (some [some (.nameGlob (some j!"r"))]))⟩])) }) }

example : run OnePage.machine2 (Demo.cmd Demo.r) = (0, { out := joinLines [j!"📂 r/", j!"├─ 📂 a/", j!"│  ├─ 📄 x", j!"│  └─ ...", j!"├─ 📝 b.txt", j!"└─ 📄 z?"] ++ j!"\n" }) := by
  have h := C101_disk (env := OnePage.machine2) (disk := Demo.disk) (args := Demo.cmd Demo.r) ⟨(Demo.machine_plain Demo.r).1, (Demo.machine_plain Demo.r).2⟩ rfl Demo.disk_wf
    (by simp [Demo.disk, Node.Real, Node.RealAll]) keepsLowerAscii_ascii rfl
  have e : OnePage.program OnePage.machine2 (Demo.cmd Demo.r) (treeAt Demo.disk (targetOf OnePage.machine2 (Demo.cmd Demo.r))) =
    some (joinLines [j!"📂 r/", j!"├─ 📂 a/", j!"│  ├─ 📄 x", j!"│  └─ ...", j!"├─ 📝 b.txt", j!"└─ 📄 z?"]) := by decide +kernel
  rw [e] at h
  exact h (by decide)

/-- A document with a glob that cannot be compiled: the program fails. -/
example : (run { Demo.documented with yaml := fun _ => some (some { filter := some ⟨some (.nameGlob (some j!"[")), none⟩ }) } (Demo.cmd Demo.r)).1 = 1 := by
  have h := C101_disk (env := { Demo.documented with yaml := fun _ => some (some { filter := some ⟨some (.nameGlob (some j!"[")), none⟩ }) }) (disk := Demo.disk) (args := Demo.cmd Demo.r)
    ⟨(Demo.machine_plain Demo.r).1, (Demo.machine_plain Demo.r).2⟩ rfl Demo.disk_wf (by simp [Demo.disk, Node.Real, Node.RealAll]) keepsLowerAscii_ascii rfl
  have e : OnePage.program { Demo.documented with yaml := fun _ => some (some { filter := some ⟨some (.nameGlob (some j!"[")), none⟩ }) } (Demo.cmd Demo.r)
    (treeAt Demo.disk (targetOf { Demo.documented with yaml := fun _ => some (some { filter := some ⟨some (.nameGlob (some j!"[")), none⟩ }) } (Demo.cmd Demo.r))) = none := by decide +kernel
  rw [e] at h
  exact h.1

end JFTP
