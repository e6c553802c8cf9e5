import Verif.Props.DefaultEmojis
import Verif.Props.OnePage
import Verif.Props.Move
import Verif.Props.Reorder
import Verif.Props.Recipes
import Verif.Spec.Readme

/-
C105: the example programs print what the README shows, wherever their directories are and in whatever order they are listed.
-/

namespace JFTP
open Spec Spec.OnePage Spec.Readme

theorem Readme.disk_wf : disk.WF := by
  simp [disk, base, filtering, sorting, emojis, childLimitStatic, childLimitDynamic, lineExtension, singleDirectoryChild, maxDepth, treeFormat, Node.WF, Node.WFAll]

section
variable {fs : PureFs} {cwd : Path} {name : JStr}

theorem Readme.target_place (hw : Clean cwd) {s : JStr} (hs : Path.ofString s = ⟨false, place name⟩) (hn : name ≠ Path.dotName ∧ name ≠ Path.dotDotName) :
    target cwd (Path.ofString s) = under (cwd.names ++ place name) [] := by
  unfold target
  have hcw : cwd ≠ Path.empty := by rintro rfl; cases hw.1
  have e : (Path.ofString s).toAbsolutePath cwd = ⟨true, cwd.names ++ place name⟩ := by
    rw [hs]
    unfold Path.toAbsolutePath Path.resolve
    simp only [Bool.false_eq_true, if_false]
    rw [if_neg (by simp [Path.empty, place]), if_neg hcw, hw.1]
  rw [e, Path.normalize_of_names rfl]
  · simp [under]
  · intro n hn'
    rcases List.mem_append.1 hn' with h | h
    · exact (hw.2 n h).2
    · simp only [place, List.mem_cons, List.not_mem_nil, or_false] at h
      rcases h with rfl | rfl | rfl | rfl
      · exact ⟨by decide, by decide⟩
      · exact ⟨by decide, by decide⟩
      · exact ⟨by decide, by decide⟩
      · exact hn

theorem Readme.root_clean : Clean Path.root := ⟨rfl, by simp [Path.root]⟩

theorem Readme.file_name (rest : List JStr) : (under (cwd.names ++ place name) rest).getFileName = (under (place name) rest).getFileName := by
  cases rest with
  | nil => simp [Path.getFileName, under, place]
  | cons r rest => simp only [Path.getFileName, under, List.getLast?_append_of_ne_nil _ (List.cons_ne_nil r rest)]

/-- A program that prints the directory of an example with options that answer as in the repository. -/
theorem Readme.run (hw : Clean cwd) (hfs : ProperFs fs) (h : Has fs cwd name) {o o' : Options (Except Exn)} (ho : SameAnswers disk.toFs o o' (place name) (cwd.names ++ place name)) {S : Settings} (hS : Obeys o S)
    (hc : LawfulCmp S.order) {c : Cmp} (hc' : LawfulCmp c) (hso : o'.pathComparator = thenComparing c PathSorts.ALPHABETICAL)
    (he : o'.emojiMapping (under (cwd.names ++ place name) []) = o.emojiMapping (under (place name) []))
    (hx : extAnswer o' (under (cwd.names ++ place name) []) = extAnswer o (under (place name) [])) {s : JStr} (hs : Path.ofString s = ⟨false, place name⟩)
    (hn : name ≠ Path.dotName ∧ name ≠ Path.dotDotName) {T : JStr} (hT : OnePage.text S (under (place name) []) (treeAt disk (under (place name) [])) = some T) :
    prettyPrint fs.lift cwd o' (Path.ofString s) = .ok T := by
  have h1 := Readme.target_place Readme.root_clean hs hn
  rw [show Path.root.names ++ place name = place name from rfl] at h1
  have hd : DistinguishesAll o.pathComparator disk.toFs := by rw [hS.order]; exact sort_distinguishes hc Readme.disk_wf.proper
  have hd' : DistinguishesAll o'.pathComparator fs := by rw [hso]; exact sort_distinguishes hc' hfs
  refine (C83_move rfl hw.1 h ho (by rw [hS.order]; exact sort_lawful hc) (by rw [hso]; exact sort_lawful hc') hd hd' (p := Path.ofString s) h1 (Readme.target_place hw hs hn) (by simp [place]) he hx _).2 ?_
  exact (C100_disk Readme.disk_wf rfl hS hc _ _).2 (by rw [h1]; exact hT)

/-- **C105**: BasicUsage.java prints what the README shows. -/
theorem C105_basicUsage (hw : Clean cwd) (hfs : ProperFs fs) (h : Has fs cwd j!"base") : Recipes.basicUsage (m := Except Exn) fs.lift cwd = .ok (joinLines baseText) := by
  unfold Recipes.basicUsage
  rw [C47_string _ _ hw.1]
  exact Readme.run hw hfs h sameAnswers_default OnePage.obeys_standard lawful_const lawful_const rfl rfl rfl rfl (by decide) (by decide +kernel)

/-- **C105**: Filtering.java prints what the README shows. -/
theorem C105_filtering (hw : Clean cwd) (hfs : ProperFs fs) (h : Has fs cwd j!"filtering") : Recipes.filtering (m := Except Exn) fs.lift cwd = .ok (joinLines filteringText) := by
  unfold Recipes.filtering
  rw [C47_string _ _ hw.1]
  refine Readme.run (o := Recipes.onlyKind j!"no_java_file" j!"java" Options.createDefault)
    (S := { standard with showDir := fun p => !endsWith (OnePage.name p) j!"no_java_file", showFile := fun p => endsWith (OnePage.name p) j!".java" }) hw hfs h ?_ ?_ lawful_const lawful_const rfl rfl rfl rfl (by decide) (by decide +kernel)
  · refine ⟨fun _ _ => rfl, fun rest _ _ => ?_, fun rest _ _ => ?_, sameAnswers_default.comparator, fun _ _ _ => rfl, fun _ _ _ => rfl, rfl, rfl, rfl⟩
    · simp only [Recipes.onlyKind, Options.filterDirectories, Options.filterFiles, PathMatchers.not, PathMatchers.hasNameEndingWith, Readme.file_name]
    · simp only [Recipes.onlyKind, Options.filterDirectories, Options.filterFiles, PathMatchers.hasExtension, PathMatchers.hasNameEndingWith, Readme.file_name]
  · refine ⟨fun p hp => ?_, fun p hp => ?_, rfl, fun _ _ => rfl, rfl, rfl, fun _ _ => rfl, fun _ _ => rfl, by decide, by decide, by decide, by decide⟩
    · obtain ⟨ns, n, e⟩ := List.eq_nil_or_concat p.names |>.resolve_left hp
      simp [Recipes.onlyKind, Options.filterDirectories, Options.filterFiles, PathMatchers.not, PathMatchers.hasNameEndingWith, Path.getFileName, OnePage.name, e]
      rfl
    · obtain ⟨ns, n, e⟩ := List.eq_nil_or_concat p.names |>.resolve_left hp
      simp [Recipes.onlyKind, Options.filterDirectories, Options.filterFiles, PathMatchers.hasExtension, PathMatchers.hasNameEndingWith, Path.getFileName, OnePage.name, e]
      rfl

/-- **C105**: Sorting.java prints what the README shows. -/
theorem C105_sorting (hw : Clean cwd) (hfs : ProperFs fs) (h : Has fs cwd j!"sorting") : Recipes.sorting (m := Except Exn) fs.isDir fs.lift cwd = .ok (joinLines sortingText) := by
  unfold Recipes.sorting
  rw [C47_string _ _ hw.1]
  refine Readme.run (o := Options.createDefault.sort (PathSorts.DIRECTORY_FIRST disk.toFs.isDir))
    (S := { standard with order := PathSorts.DIRECTORY_FIRST disk.toFs.isDir }) hw hfs h ?_ ?_ (lawful_DIRECTORY_FIRST _) (lawful_DIRECTORY_FIRST fs.isDir) rfl rfl rfl rfl (by decide) (by decide +kernel)
  · refine ⟨fun _ _ => rfl, fun rest _ _ => rfl, fun rest _ _ => rfl, fun r1 r2 h1 h2 f1 f2 => ?_, fun _ _ _ => rfl, fun _ _ _ => rfl, rfl, rfl, rfl⟩
    show thenComparing (PathSorts.DIRECTORY_FIRST fs.isDir) PathSorts.ALPHABETICAL _ _ = thenComparing (PathSorts.DIRECTORY_FIRST disk.toFs.isDir) PathSorts.ALPHABETICAL _ _
    have := sameAnswers_default.comparator (b := place j!"sorting") (b' := cwd.names ++ place j!"sorting") r1 r2 h1 h2 f1 f2
    have this : PathSorts.ALPHABETICAL _ _ = PathSorts.ALPHABETICAL _ _ := this
    unfold thenComparing PathSorts.DIRECTORY_FIRST
    simp only [this, h.isDir]
  · exact ⟨fun _ _ => rfl, fun _ _ => rfl, rfl, fun _ _ => rfl, rfl, rfl, fun _ _ => rfl, fun _ _ => rfl, by decide, by decide, by decide, by decide⟩

/-- **C105**: ChildLimitStatic.java prints what the README shows. -/
theorem C105_childLimitStatic (hw : Clean cwd) (hfs : ProperFs fs) (h : Has fs cwd j!"child_limit_static") : Recipes.childLimitStatic (m := Except Exn) fs.lift cwd = .ok (joinLines childLimitStaticText) := by
  unfold Recipes.childLimitStatic
  rw [C47_string _ _ hw.1]
  refine Readme.run (o := Options.createDefault.withChildLimit 3) (S := { standard with limit := fun _ => 3 }) hw hfs h ?_ ?_ lawful_const lawful_const rfl rfl rfl rfl (by decide) (by decide +kernel)
  · exact ⟨fun _ _ => rfl, fun _ _ _ => rfl, fun _ _ _ => rfl, sameAnswers_default.comparator, fun _ _ _ => rfl, fun _ _ _ => rfl, rfl, rfl, rfl⟩
  · exact ⟨fun _ _ => rfl, fun _ _ => rfl, rfl, fun _ _ => rfl, rfl, rfl, fun _ _ => rfl, fun _ _ => rfl, by decide, by decide, by decide, by decide⟩

/-- **C105**: ChildLimitDynamic.java prints what the README shows. -/
theorem C105_childLimitDynamic (hw : Clean cwd) (hfs : ProperFs fs) (h : Has fs cwd j!"child_limit_dynamic") : Recipes.childLimitDynamic (m := Except Exn) fs.lift cwd = .ok (joinLines childLimitDynamicText) := by
  unfold Recipes.childLimitDynamic
  rw [C47_string _ _ hw.1]
  have key : ∀ p : Path, (Recipes.closedAt (m := Except Exn) j!"node_modules" Options.createDefault).childLimit p = .ok (if p.getFileName = some j!"node_modules" then 0 else -1) := fun p => closedAt_limit _ p
  refine Readme.run (o := Recipes.closedAt j!"node_modules" Options.createDefault) (S := { standard with limit := fun p => if OnePage.name p = j!"node_modules" then 0 else -1 }) hw hfs h ?_ ?_ lawful_const lawful_const rfl rfl rfl rfl (by decide) (by decide +kernel)
  · exact ⟨fun rest _ => by rw [key, key, Readme.file_name], fun _ _ _ => rfl, fun _ _ _ => rfl, sameAnswers_default.comparator, fun _ _ _ => rfl, fun _ _ _ => rfl, rfl, rfl, rfl⟩
  · refine ⟨fun _ _ => rfl, fun _ _ => rfl, rfl, fun p hp => ?_, rfl, rfl, fun _ _ => rfl, fun _ _ => rfl, by decide, by decide, by decide, by decide⟩
    rw [key]
    obtain ⟨ns, n, e⟩ := List.eq_nil_or_concat p.names |>.resolve_left hp
    simp [Path.getFileName, OnePage.name, e]

/-- **C105**: CompactDirectories.java prints what the README shows. -/
theorem C105_compactDirectories (hw : Clean cwd) (hfs : ProperFs fs) (h : Has fs cwd j!"single_directory_child") :
    Recipes.compactDirectories (m := Except Exn) fs.lift cwd = .ok (joinLines singleDirectoryChildText) := by
  unfold Recipes.compactDirectories
  rw [C47_string _ _ hw.1]
  refine Readme.run (o := Options.createDefault.withCompactDirectories true) (S := { standard with compact := true }) hw hfs h ?_ ?_ lawful_const lawful_const rfl rfl rfl rfl (by decide) (by decide +kernel)
  · exact ⟨fun _ _ => rfl, fun _ _ _ => rfl, fun _ _ _ => rfl, sameAnswers_default.comparator, fun _ _ _ => rfl, fun _ _ _ => rfl, rfl, rfl, rfl⟩
  · exact ⟨fun _ _ => rfl, fun _ _ => rfl, rfl, fun _ _ => rfl, rfl, rfl, fun _ _ => rfl, fun _ _ => rfl, by decide, by decide, by decide, by decide⟩

/-- **C105**: FileTreeFormat.java prints what the README shows. -/
theorem C105_fileTreeFormat (hw : Clean cwd) (hfs : ProperFs fs) (h : Has fs cwd j!"tree_format") : Recipes.fileTreeFormat (m := Except Exn) fs.lift cwd = .ok (joinLines treeFormatText) := by
  unfold Recipes.fileTreeFormat
  rw [C47_string _ _ hw.1]
  refine Readme.run (o := Options.createDefault.withTreeFormat TreeFormats.CLASSIC_ASCII) (S := { standard with branch := j!"|--", lastBranch := j!"`--", bar := TreeFormats.CLASSIC_ASCII.continuationSymbol, blank := j!"   " }) hw hfs h ?_ ?_ lawful_const lawful_const rfl rfl rfl rfl (by decide) (by decide +kernel)
  · exact ⟨fun _ _ => rfl, fun _ _ _ => rfl, fun _ _ _ => rfl, sameAnswers_default.comparator, fun _ _ _ => rfl, fun _ _ _ => rfl, rfl, rfl, rfl⟩
  · exact ⟨fun _ _ => rfl, fun _ _ => rfl, rfl, fun _ _ => rfl, rfl, rfl, fun _ _ => rfl, fun _ _ => rfl, by decide, by decide, by decide, by decide⟩

/-- **C105**, refuted for MaxDepth.java: what it prints is what the README shows except for the last line. -/
theorem C105_maxDepth (hw : Clean cwd) (hfs : ProperFs fs) (h : Has fs cwd j!"max_depth") :
    Recipes.maxDepth (m := Except Exn) fs.lift cwd = .ok (joinLines maxDepthPrinted) ∧ joinLines maxDepthPrinted ≠ joinLines maxDepthText := by
  refine ⟨?_, by decide⟩
  unfold Recipes.maxDepth
  rw [C47_string _ _ hw.1]
  refine Readme.run (o := Options.createDefault.withMaxDepth 3) (S := { standard with maxDepth := 3 }) hw hfs h ?_ ?_ lawful_const lawful_const rfl rfl rfl rfl (by decide) (by decide +kernel)
  · exact ⟨fun _ _ => rfl, fun _ _ _ => rfl, fun _ _ _ => rfl, sameAnswers_default.comparator, fun _ _ _ => rfl, fun _ _ _ => rfl, rfl, rfl, rfl⟩
  · exact ⟨fun _ _ => rfl, fun _ _ => rfl, rfl, fun _ _ => rfl, rfl, rfl, fun _ _ => rfl, fun _ _ => rfl, by decide, by decide, by decide, by decide⟩

/-- Two calls that look up the same entries and whose emojis and extensions agree on them return the same text. -/
theorem Readme.agree {o o1 : Options (Except Exn)} {p : Path} {t : TreeEntry} {s : JStr} (h : prettyPrint fs.lift cwd o1 p = .ok s) (ht : scanned fs cwd o1 p = .ok t) (hs : scanned fs cwd o p = scanned fs cwd o1 p)
    (hf : o.treeFormat = o1.treeFormat) (hc : o.compactDirectories = o1.compactDirectories) (hl : ∀ q ∈ entryPaths t, o.emojiMapping q = o1.emojiMapping q ∧ extAnswer o q = extAnswer o1 q) :
    prettyPrint fs.lift cwd o p = .ok s := by
  obtain ⟨t', D, h1, h2, h3⟩ := prettyPrint_disp.1 h
  rw [ht] at h1
  cases h1
  refine prettyPrint_disp.2 ⟨t, D, by rw [hs, ht], ?_, by rw [h3, hf]⟩
  rw [← h2]
  exact dispM_congr _ _ _ _ ⟨hc, hl⟩

/-- The entries found in the directory of an example are those in the repository. -/
theorem Readme.found (hw : Clean cwd) (hfs : ProperFs fs) (h : Has fs cwd name) {o o' : Options (Except Exn)} (ho : SameAnswers disk.toFs o o' (place name) (cwd.names ++ place name)) {c : Cmp} (hc : LawfulCmp c)
    (hso : o'.pathComparator = thenComparing c PathSorts.ALPHABETICAL) {s : JStr} (hs : Path.ofString s = ⟨false, place name⟩) (hn : name ≠ Path.dotName ∧ name ≠ Path.dotDotName) {t : TreeEntry}
    (ht : Scanned (answers disk.toFs o) o.pathComparator o.maxDepth 0 (under (place name) []) t) :
    scanned fs cwd o' (Path.ofString s) = .ok (mapPaths (relocate (place name) (cwd.names ++ place name)) t) := by
  have h1 := ht.move h ho .here
  rw [← ho.maxDepth, ← Readme.target_place hw hs hn] at h1
  exact scanned_complete hw.1 (by rw [hso]; exact sort_lawful hc) (by rw [hso]; exact sort_distinguishes hc hfs) h1

/-- A directory with one entry. -/
theorem Readme.only {A : Answers} {c : Cmp} {d : Int} {k : Nat} {p q : Path} {e : TreeEntry} (h1 : A.isDir p true) (h2 : (k : Int) < d) (h3 : A.limit p (-1)) (h4 : A.list p [q]) (h5 : A.keep q true)
    (h6 : Scanned A c d (k + 1) q e) : Scanned A c d k p (.dir p [e]) :=
  Scanned.dir h1 h2 h3 h4 (.keep h5 .nil) (.refl _) (List.pairwise_singleton _ _) (.cons h6 .nil)

/-- The emojis of the names in the directory of Emojis.java. -/
def Readme.table : List (JStr × JStr) := [(j!"emojis", j!"📂"), (j!"Dockerfile", j!"🐳"), (j!"Jenkinsfile", j!"🤵"), (j!"file.avi", j!"🎬"), (j!"file.docx", j!"📝"), (j!"file.ini", j!"⚙️"), (j!"file.java", j!"☕"),
  (j!"file.jpeg", j!"🖼️"), (j!"file.mp3", j!"🎵"), (j!"file.pdf", j!"📕"), (j!"file.xlsx", j!"📊"), (j!"file.zip", j!"📦"), (j!"readme", j!"📘")]

def Readme.icon (p : Path) : Option JStr := (Readme.table.find? (fun x => x.1 == OnePage.name p)).map Prod.snd

theorem Readme.name_eq (p : Path) : OnePage.name p = p.getFileName.getD [] := by
  unfold OnePage.name Path.getFileName
  cases h : p.names.getLast? with
  | none => rw [List.getLast?_eq_none_iff] at h; rw [h]; rfl
  | some n => rw [List.getLastD_eq_getLast?, h]

/-- **C105**, refuted for Emojis.java: what it prints instead of what the README shows. -/
theorem C105_emojis (cs : Casing) (hcs : KeepsLowerAscii cs.lower) (h1 : cs.lower j!"Dockerfile" = j!"dockerfile") (h2 : cs.lower j!"Jenkinsfile" = j!"jenkinsfile") (hw : Clean cwd) (hfs : ProperFs fs)
    (h : Has fs cwd j!"emojis") : Recipes.emojis (m := Except Exn) cs fs.lift cwd = .ok (joinLines emojisPrinted) ∧ joinLines emojisPrinted ≠ joinLines emojisText := by
  refine ⟨?_, by decide⟩
  unfold Recipes.emojis
  obtain ⟨o', ho⟩ := C36_default_ok (m := Except Exn) cs hcs fs.lift Options.createDefault
  rw [ho]
  simp only
  rw [C47_string _ _ hw.1]
  have hop := (C36_default cs fs.lift _ o' ho).2.2
  have hicon : ∀ rest, Readme.icon (under (cwd.names ++ place j!"emojis") rest) = Readme.icon (under (place j!"emojis") rest) := by
    intro rest; unfold Readme.icon; rw [Readme.name_eq, Readme.name_eq, Readme.file_name]
  have hsame : SameAnswers disk.toFs (Options.createDefault.withEmojis fun p => .ok (Readme.icon p)) (Options.createDefault.withEmojis fun p => .ok (Readme.icon p)) (place j!"emojis") (cwd.names ++ place j!"emojis") :=
    ⟨fun _ _ => rfl, fun _ _ _ => rfl, fun _ _ _ => rfl, sameAnswers_default.comparator, fun rest _ _ => congrArg Except.ok (hicon rest), fun _ _ _ => rfl, rfl, rfl, rfl⟩
  let U : JStr → Path := fun n => under (place j!"emojis") [n]
  have hfound := Readme.found (o' := Options.createDefault.withEmojis fun p => .ok (Readme.icon p)) hw hfs h hsame lawful_const rfl (s := j!"src/main/resources/emojis") rfl (by decide)
    (t := .dir (under (place j!"emojis") []) [.file (U j!"Dockerfile") ⟨false, false⟩, .file (U j!"Jenkinsfile") ⟨false, false⟩, .file (U j!"file.avi") ⟨false, false⟩, .file (U j!"file.docx") ⟨false, false⟩,
      .file (U j!"file.ini") ⟨false, false⟩, .file (U j!"file.java") ⟨false, false⟩, .file (U j!"file.jpeg") ⟨false, false⟩, .file (U j!"file.mp3") ⟨false, false⟩, .file (U j!"file.pdf") ⟨false, false⟩,
      .file (U j!"file.xlsx") ⟨false, false⟩, .file (U j!"file.zip") ⟨false, false⟩, .file (U j!"readme") ⟨false, false⟩])
    (Scanned.dir (n := -1)
      (cs := [U j!"Dockerfile", U j!"Jenkinsfile", U j!"file.avi", U j!"file.docx", U j!"file.ini", U j!"file.java", U j!"file.jpeg", U j!"file.mp3", U j!"file.pdf", U j!"file.xlsx", U j!"file.zip", U j!"readme"])
      (ks := [U j!"Dockerfile", U j!"Jenkinsfile", U j!"file.avi", U j!"file.docx", U j!"file.ini", U j!"file.java", U j!"file.jpeg", U j!"file.mp3", U j!"file.pdf", U j!"file.xlsx", U j!"file.zip", U j!"readme"])
      (srt := [U j!"Dockerfile", U j!"Jenkinsfile", U j!"file.avi", U j!"file.docx", U j!"file.ini", U j!"file.java", U j!"file.jpeg", U j!"file.mp3", U j!"file.pdf", U j!"file.xlsx", U j!"file.zip", U j!"readme"])
      rfl (by decide) rfl rfl (.keep rfl (.keep rfl (.keep rfl (.keep rfl (.keep rfl (.keep rfl (.keep rfl (.keep rfl (.keep rfl (.keep rfl (.keep rfl (.keep rfl .nil)))))))))))) (.refl _) (by decide)
      (.cons (.file rfl rfl) (.cons (.file rfl rfl) (.cons (.file rfl rfl) (.cons (.file rfl rfl) (.cons (.file rfl rfl) (.cons (.file rfl rfl) (.cons (.file rfl rfl) (.cons (.file rfl rfl)
        (.cons (.file rfl rfl) (.cons (.file rfl rfl) (.cons (.file rfl rfl) (.cons (.file rfl rfl) .nil)))))))))))))
  refine Readme.agree (o1 := Options.createDefault.withEmojis fun p => .ok (Readme.icon p)) (Readme.run hw hfs h hsame (S := { standard with emoji := Readme.icon }) ?_ lawful_const lawful_const rfl
    (congrArg Except.ok (hicon [])) rfl (s := j!"src/main/resources/emojis") rfl (by decide) (by decide +kernel)) hfound (by rw [hop]; rfl) (by rw [hop]; rfl) (by rw [hop]; rfl) ?_
  · exact ⟨fun _ _ => rfl, fun _ _ => rfl, rfl, fun _ _ => rfl, rfl, rfl, fun _ _ => rfl, fun _ _ => rfl, by decide, by decide, by decide, by decide⟩
  · intro q hq
    refine ⟨?_, by rw [hop]; rfl⟩
    have hdir : fs.lift.isDir (under (cwd.names ++ place j!"emojis") []) = (pure true : Except Exn Bool) := congrArg Except.ok (h.isDir [])
    have hfile : ∀ n, disk.toFs.isDir (U n) = false → fs.lift.isDir (under (cwd.names ++ place j!"emojis") [n]) = (pure false : Except Exn Bool) := fun n hn => congrArg Except.ok ((h.isDir [n]).trans hn)
    have hU : ∀ n, relocate (place j!"emojis") (cwd.names ++ place j!"emojis") (U n) = under (cwd.names ++ place j!"emojis") [n] := fun n => relocate_under _ _ _
    have hname : ∀ n, (under (cwd.names ++ place j!"emojis") [n]).getFileName = some n := by intro n; simp [under, Path.getFileName, place]
    have hkeep : ∀ key ∈ readmeExtensions.map Prod.fst, cs.lower (j!"file." ++ key) = j!"file." ++ key ∧ LastExt (j!"file." ++ key) key ∧ j!"file." ++ key ∉ DEFAULT_FILENAME_EMOJIS.map Prod.fst := by
      intro key hk
      refine ⟨hcs _ ?_, ⟨?_, ?_, j!"file", 0, by simp [DOT]⟩, ?_⟩
      · revert key; decide
      · revert key; decide
      · revert key; decide
      · revert key; decide
    have hx : ∀ x ∈ readmeExtensions, x.1 ≠ j!"docx" → disk.toFs.isDir (U (j!"file." ++ x.1)) = false → o'.emojiMapping (under (cwd.names ++ place j!"emojis") [j!"file." ++ x.1]) = pure (some x.2) := by
      intro x hx hd hi
      obtain ⟨k1, k2, k3⟩ := hkeep x.1 (List.mem_map_of_mem hx)
      exact (C94_shown cs hcs fs.lift _ o' ho (hfile _ hi) (hname _)).1 x hx hd (by rw [k1]; exact k2) (by rw [k1]; exact k3)
    have hnm : ∀ n x, x ∈ readmeNames → x.1 ≠ j!"readme" → disk.toFs.isDir (U n) = false → cs.lower n = x.1 → o'.emojiMapping (under (cwd.names ++ place j!"emojis") [n]) = pure (some x.2) :=
      fun n x hx hd hi hl => (C94_shown cs hcs fs.lift _ o' ho (hfile _ hi) (hname _)).2 x hx hd hl
    have hi : ∀ n, (Options.createDefault.withEmojis fun p => (.ok (Readme.icon p) : Except Exn (Option JStr))).emojiMapping (under (cwd.names ++ place j!"emojis") [n]) = .ok (Readme.icon (U n)) :=
      fun n => congrArg Except.ok (hicon [n])
    simp only [entryPaths, mapPaths, mapPathsAll, hU, relocate_under, events, eventsAll, List.append_nil, List.nil_append, moreMark, List.filterMap_cons, List.filterMap_nil, id, List.cons_append, List.mem_cons,
      List.not_mem_nil, or_false] at hq
    rcases hq with rfl | rfl | rfl | rfl | rfl | rfl | rfl | rfl | rfl | rfl | rfl | rfl | rfl
    · rw [C94_directory cs fs.lift _ o' ho hdir]
      exact (congrArg Except.ok (hicon [])).symm
    · rw [hi, hnm _ (j!"dockerfile", j!"🐳") (by decide) (by decide) rfl h1]; rfl
    · rw [hi, hnm _ (j!"jenkinsfile", j!"🤵") (by decide) (by decide) rfl h2]; rfl
    · rw [hi]; exact hx (j!"avi", j!"🎬") (by decide) (by decide) rfl
    · obtain ⟨k1, k2, k3⟩ := hkeep j!"docx" (by decide)
      rw [hi, ((C94_differences cs hcs fs.lift _ o' ho (hfile j!"file.docx" rfl) (hname _)).1 (by rw [show j!"file.docx" = j!"file." ++ j!"docx" from rfl, k1]; exact k2)
        (by rw [show j!"file.docx" = j!"file." ++ j!"docx" from rfl, k1]; exact k3)).2]; rfl
    · rw [hi]; exact hx (j!"ini", j!"⚙️") (by decide) (by decide) rfl
    · rw [hi]; exact hx (j!"java", j!"☕") (by decide) (by decide) rfl
    · rw [hi]; exact hx (j!"jpeg", j!"🖼️") (by decide) (by decide) rfl
    · rw [hi]; exact hx (j!"mp3", j!"🎵") (by decide) (by decide) rfl
    · rw [hi]; exact hx (j!"pdf", j!"📕") (by decide) (by decide) rfl
    · rw [hi]; exact hx (j!"xlsx", j!"📊") (by decide) (by decide) rfl
    · rw [hi]; exact hx (j!"zip", j!"📦") (by decide) (by decide) rfl
    · rw [hi, ((C94_differences cs hcs fs.lift _ o' ho (hfile j!"readme" rfl) (hname _)).2 (hcs _ (by decide))).2]; rfl

/-- The comments of LineExtension.java, by the place below the printed directory, which has `k` names. -/
def Readme.comment (k : Nat) (p : Path) : Option JStr := commentAt Spec.codePlaces j!"properties" j!"\t// Config file" (p.names.drop k) p.names.getLast?

/-- **C105**: LineExtension.java. -/
theorem C105_lineExtension (odd : PathMatchers.GlobCompiler) (hw : Clean cwd) (hfs : ProperFs fs) (h : Has fs cwd j!"line_extension") :
    Recipes.lineExtension (m := Except Exn) (Globs.getPathMatcher odd) fs.lift cwd = .ok (joinLines lineExtensionText) := by
  have hpl : ∀ x ∈ Spec.codePlaces, x.1 ≠ [] ∧ ∀ n ∈ x.1, Verbatim n ∧ SLASH ∉ n := by
    simp [Spec.codePlaces, Verbatim, Glob.plain, SLASH]
  have hext : ∀ c ∈ (j!"properties" : JStr), Glob.plain false c := by simp [Glob.plain]
  have hv : (Path.ofString j!"src/main/resources/line_extension").Valid := .inr (by decide)
  obtain ⟨f, ho, hf⟩ := comments_answer odd hw.1 (o := Options.createDefault) hv hpl hext j!"\t// Config file"
  unfold Recipes.lineExtension
  simp only [codePlaces_written]
  rw [show j!"*." ++ j!"properties" = j!"*.properties" from rfl] at ho
  rw [ho]
  simp only
  let b := place j!"line_extension"
  let b' := cwd.names ++ place j!"line_extension"
  have htarget : target cwd (Path.ofString j!"src/main/resources/line_extension") = under b' [] := Readme.target_place hw rfl (by decide)
  have hcom : ∀ rest, Readme.comment b'.length (under b' rest) = Readme.comment b.length (under b rest) := by
    intro rest
    have : (under b' rest).names.getLast? = (under b rest).names.getLast? := Readme.file_name rest
    unfold Readme.comment
    rw [this]
    simp [under]
  have hsame : SameAnswers disk.toFs (Options.createDefault.withLineExtension (some fun p => .ok (Readme.comment b.length p))) (Options.createDefault.withLineExtension (some fun p => .ok (Readme.comment b'.length p))) b b' :=
    ⟨fun _ _ => rfl, fun _ _ _ => rfl, fun _ _ _ => rfl, sameAnswers_default.comparator, fun _ _ _ => rfl, fun rest _ _ => congrArg Except.ok (hcom rest), rfl, rfl, rfl⟩
  let U : List JStr → Path := fun n => under b n
  have hfound := Readme.found (o' := Options.createDefault.withLineExtension (some fun p => .ok (Readme.comment b'.length p))) hw hfs h hsame lawful_const rfl (s := j!"src/main/resources/line_extension") rfl (by decide)
    (t := .dir (U []) [.dir (U [j!"src"]) [.dir (U [j!"src", j!"main"]) [
      .dir (U [j!"src", j!"main", j!"java"]) [
        .dir (U [j!"src", j!"main", j!"java", j!"api"]) [.file (U [j!"src", j!"main", j!"java", j!"api", j!"Controller.java"]) ⟨false, false⟩],
        .dir (U [j!"src", j!"main", j!"java", j!"domain"]) [.file (U [j!"src", j!"main", j!"java", j!"domain", j!"ValueObject.java"]) ⟨false, false⟩],
        .dir (U [j!"src", j!"main", j!"java", j!"infra"]) [.file (U [j!"src", j!"main", j!"java", j!"infra", j!"Repository.java"]) ⟨false, false⟩]],
      .dir (U [j!"src", j!"main", j!"resources"]) [.file (U [j!"src", j!"main", j!"resources", j!"application.properties"]) ⟨false, false⟩]]]])
    (Scanned.dir (n := -1) (cs := [U [j!"src"]]) (ks := [U [j!"src"]]) (srt := [U [j!"src"]]) rfl (by decide) rfl rfl (.keep rfl .nil) (.refl _) (by decide) (.cons
      (Scanned.dir (n := -1) (cs := [U [j!"src", j!"main"]]) (ks := [U [j!"src", j!"main"]]) (srt := [U [j!"src", j!"main"]]) rfl (by decide) rfl rfl (.keep rfl .nil) (.refl _) (by decide) (.cons
        (Scanned.dir (n := -1) (cs := [U [j!"src", j!"main", j!"java"], U [j!"src", j!"main", j!"resources"]]) (ks := [U [j!"src", j!"main", j!"java"], U [j!"src", j!"main", j!"resources"]])
          (srt := [U [j!"src", j!"main", j!"java"], U [j!"src", j!"main", j!"resources"]]) rfl (by decide) rfl rfl (.keep rfl (.keep rfl .nil)) (.refl _) (by decide) (.cons
          (Scanned.dir (n := -1) (cs := [U [j!"src", j!"main", j!"java", j!"api"], U [j!"src", j!"main", j!"java", j!"domain"], U [j!"src", j!"main", j!"java", j!"infra"]])
            (ks := [U [j!"src", j!"main", j!"java", j!"api"], U [j!"src", j!"main", j!"java", j!"domain"], U [j!"src", j!"main", j!"java", j!"infra"]])
            (srt := [U [j!"src", j!"main", j!"java", j!"api"], U [j!"src", j!"main", j!"java", j!"domain"], U [j!"src", j!"main", j!"java", j!"infra"]])
            rfl (by decide) rfl rfl (.keep rfl (.keep rfl (.keep rfl .nil))) (.refl _) (by decide)
            (.cons (Readme.only rfl (by decide) rfl rfl rfl (.file rfl rfl)) (.cons (Readme.only rfl (by decide) rfl rfl rfl (.file rfl rfl)) (.cons (Readme.only rfl (by decide) rfl rfl rfl (.file rfl rfl)) .nil)))) (.cons
          (Readme.only rfl (by decide) rfl rfl rfl (.file rfl rfl)) .nil))) .nil)) .nil))
  refine Readme.agree (o1 := Options.createDefault.withLineExtension (some fun p => .ok (Readme.comment b'.length p))) (Readme.run hw hfs h hsame (S := { standard with ext := Readme.comment b.length }) ?_ lawful_const lawful_const rfl
    rfl (congrArg Except.ok (hcom [])) (s := j!"src/main/resources/line_extension") rfl (by decide) (by decide +kernel)) hfound rfl rfl rfl ?_
  · exact ⟨fun _ _ => rfl, fun _ _ => rfl, rfl, fun _ _ => rfl, rfl, rfl, fun _ _ => rfl, fun _ _ => rfl, by decide, by decide, by decide, by decide⟩
  · intro q hq
    refine ⟨rfl, congrArg Except.ok ?_⟩
    have hans : ∀ rest : List JStr, (∀ n ∈ rest, n ≠ [] ∧ n ≠ Path.dotName ∧ n ≠ Path.dotDotName ∧ SLASH ∉ n) → f (under b' rest) = Readme.comment b'.length (under b' rest) := by
      intro rest hr
      have hall : ∀ n ∈ (under b' rest).names, n ≠ [] ∧ n ≠ Path.dotName ∧ n ≠ Path.dotDotName := by
        intro n hn
        rcases List.mem_append.1 hn with hn | hn
        · rcases List.mem_append.1 hn with hn | hn
          · exact hw.2 n hn
          · exact (show ∀ n ∈ place j!"line_extension", n ≠ [] ∧ n ≠ Path.dotName ∧ n ≠ Path.dotDotName by decide) n hn
        · exact ⟨(hr n hn).1, (hr n hn).2.1, (hr n hn).2.2.1⟩
      rw [hf (under b' rest) rest (.inr ⟨fun x hx => (hall x hx).1, fun ha => by cases ha⟩) ?_ (fun n hn => (hr n hn).2.2.2) ?_]
      · unfold Readme.comment
        simp [under]
      · rw [htarget]
        unfold target
        rw [Path.toAbsolutePath_self rfl, Path.normalize_of_names rfl fun x hx => (hall x hx).2]
        simp [under]
      · intro n hn
        rw [show (under b' rest).names.getLast? = (under b rest).names.getLast? from Readme.file_name rest] at hn
        rcases List.mem_append.1 (List.mem_of_getLast? hn) with hn | hn
        · exact (show ∀ n ∈ place j!"line_extension", SLASH ∉ n by decide) n hn
        · exact (hr n hn).2.2.2
    simp only [entryPaths, mapPaths, mapPathsAll, U, b, relocate_under, events, eventsAll, List.append_nil, List.nil_append, List.filterMap_cons, List.filterMap_nil, id, List.cons_append, List.mem_cons,
      List.not_mem_nil, or_false] at hq
    rcases hq with rfl | rfl | rfl | rfl | rfl | rfl | rfl | rfl | rfl | rfl | rfl | rfl <;> exact hans _ (by decide)

end

/-! ### Disks on which the examples are -/

mutual
/-- No symbolic links at all. -/
def Readme.linkFree : Node → Bool
  | .dir _ cs => Readme.linkFreeAll cs
  | .symlink _ => false
  | _ => true
/-- The same for lists. -/
def Readme.linkFreeAll : List (JStr × Node) → Bool
  | [] => true
  | (_, c) :: cs => Readme.linkFree c && Readme.linkFreeAll cs
end

theorem Readme.linkFree_lookup {n : JStr} {c : Node} : ∀ {cs : List (JStr × Node)}, Readme.linkFreeAll cs = true → Node.lookupChild n cs = some c → Readme.linkFree c = true
  | [], _, h => by simp [Node.lookupChild] at h
  | (k, x) :: cs, hl, h => by
    rw [Readme.linkFreeAll, Bool.and_eq_true] at hl
    rw [Node.lookupChild] at h
    split at h
    · cases h; exact hl.1
    · exact Readme.linkFree_lookup hl.2 h

theorem Readme.linkFree_get : ∀ (rest : List JStr) {t : Node}, Readme.linkFree t = true → ∀ q, t.get rest ≠ some (.symlink q)
  | [], t, h, q => by
    rw [Node.get]
    rintro ⟨⟩
    cases h
  | n :: rest, t, h, q => by
    cases t with
    | dir rd cs =>
      rw [Node.get]
      split
      · rename_i c hc
        exact Readme.linkFree_get rest (Readme.linkFree_lookup (by simpa [Readme.linkFree] using h) hc) q
      · simp
    | regular s => simp [Node.get]
    | special => simp [Node.get]
    | symlink q => simp [Node.get]

/-- On a disk that has the module of the examples at the working directory, all of the examples are there. -/
theorem Readme.has_of_checkout {t : Node} {cwd : Path} (h : t.get cwd.names = some disk) (name : JStr) : Has t.toFs cwd name := by
  refine .of_node ?_ fun rest q => Readme.linkFree_get _ (by decide) q
  rw [get_append, h]
  rfl

/-- The same disk, but every directory is listed backwards. -/
def Readme.backwards (fs : PureFs) : PureFs := { fs with listDir := fun p => match fs.listDir p with | .opened cs bad => .opened cs.reverse bad | .openFailed => .openFailed }

theorem Readme.has_backwards {fs : PureFs} {cwd : Path} {name : JStr} (h : Has fs cwd name) : Has (Readme.backwards fs) cwd name where
  isDir := h.isDir
  attrs := h.attrs
  list rest := by
    rcases h.list rest with ⟨h1, h2⟩ | ⟨ns, ns', bad, h1, h2, h3⟩
    · exact .inl ⟨h1, by simp only [Readme.backwards, h2]⟩
    · exact .inr ⟨ns, ns'.reverse, bad, h1, by simp only [Readme.backwards, h2, List.map_reverse], (List.reverse_perm ns').trans h3⟩

theorem Readme.proper_backwards {fs : PureFs} (h : ProperFs fs) : ProperFs (Readme.backwards fs) := by
  intro p cs bad hp
  simp only [Readme.backwards] at hp
  split at hp
  · rename_i cs' bad' hc
    cases hp
    obtain ⟨h1, h2⟩ := h p _ _ hc
    exact ⟨List.nodup_reverse.2 h1, fun c hc => h2 c (List.mem_reverse.1 hc)⟩
  · cases hp

namespace Demo

/-- The module in /home/me, beside other things. -/
def readmeDisk : Node := .dir true [(j!"home", .dir true [(j!"me", Spec.Readme.disk), (j!"you", .regular 3)]), (j!"tmp", .dir false []), (j!"link", .symlink Path.root)]

def readmeHome : Path := ⟨true, [j!"home", j!"me"]⟩

def readmeFs : PureFs := Readme.backwards readmeDisk.toFs

theorem readmeFs_proper : ProperFs readmeFs := Readme.proper_backwards (Node.WF.proper (t := readmeDisk) (by
  have h := Readme.disk_wf
  simp [readmeDisk, Node.WF, Node.WFAll, h]))

theorem readmeHome_clean : Clean readmeHome := ⟨rfl, by decide⟩

theorem readme_has (name : JStr) : Has readmeFs readmeHome name := Readme.has_backwards (Readme.has_of_checkout (t := readmeDisk) (cwd := readmeHome) rfl name)

example := C105_basicUsage readmeHome_clean readmeFs_proper (readme_has _)
example := C105_filtering readmeHome_clean readmeFs_proper (readme_has _)
example := C105_sorting readmeHome_clean readmeFs_proper (readme_has _)
example := C105_childLimitStatic readmeHome_clean readmeFs_proper (readme_has _)
example := C105_childLimitDynamic readmeHome_clean readmeFs_proper (readme_has _)
example := C105_compactDirectories readmeHome_clean readmeFs_proper (readme_has _)
example := C105_fileTreeFormat readmeHome_clean readmeFs_proper (readme_has _)
example := C105_maxDepth readmeHome_clean readmeFs_proper (readme_has _)
example := C105_emojis asciiCasing keepsLowerAscii_ascii (by decide) (by decide) readmeHome_clean readmeFs_proper (readme_has _)
example (odd : PathMatchers.GlobCompiler) := C105_lineExtension odd readmeHome_clean readmeFs_proper (readme_has _)

end Demo
end JFTP
