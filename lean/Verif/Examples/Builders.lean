import Verif.Examples.Display
import Verif.Props.Rules
import Verif.Props.Emoji
import Verif.Props.Matching
import Verif.Props.Paths

/-!
Concrete cases that meet the hypotheses of the theorems on builders, sorts, emojis and matchers (C28–C47).
-/

namespace JFTP
open Spec

namespace Demo

/-- "called `a`" -/
def isA : Path → Bool := fun q => lastName q == j!"a"

/-- 3 entries in directories called `a`, else 5. -/
def limRules : List (Rule Int) := [(isA, 3), (fun _ => true, 5)]

/-- `/r/{b/, a (empty file)}`, directories last. -/
def dirsLast : Options (Except Exn) := dflt.sort (PathSorts.DIRECTORY_LAST emptyFileDisk.toFs.isDir)

theorem scanned_dirsLast : scanned emptyFileDisk.toFs Path.root dirsLast r = .ok (.dir r [.file a ⟨false, false⟩, .dir eb []]) := by
  refine scanned_complete rfl (sort_lawful (lawful_DIRECTORY_LAST _)) (sort_distinguishes (lawful_DIRECTORY_LAST _) emptyFileDisk_proper) ?_
  refine Scanned.dir (A := answers emptyFileDisk.toFs dirsLast) (c := dirsLast.pathComparator) (maxDepth := 20) (k := 0) (p := r) (n := -1)
    (cs := [eb, a]) (ks := [eb, a]) (srt := [a, eb]) (es := [.file a ⟨false, false⟩, .dir eb []])
    rfl (by decide) rfl rfl (.keep rfl (.keep rfl .nil)) (by decide) (by decide) (.cons (.file rfl rfl) (.cons ?_ .nil))
  exact Scanned.dir (A := answers emptyFileDisk.toFs dirsLast) (c := dirsLast.pathComparator) (maxDepth := 20) (k := 1) (p := eb) (n := -1)
    (cs := []) (ks := []) (srt := []) (es := []) rfl (by decide) rfl rfl .nil (by decide) (by decide) .nil

/-- `/r/{b/, a (3 bytes)}` by size. -/
def threeBytes : Path → Int := fun q => if q = a then 3 else 0
def bySize3 : Options (Except Exn) := dflt.sort (PathSorts.BY_FILE_SIZE emptyFileDisk.toFs.isDir threeBytes)

theorem scanned_bySize3 : scanned emptyFileDisk.toFs Path.root bySize3 r = .ok (.dir r [.dir eb [], .file a ⟨false, false⟩]) := by
  refine scanned_complete rfl (sort_lawful (lawful_BY_FILE_SIZE _ _)) (sort_distinguishes (lawful_BY_FILE_SIZE _ _) emptyFileDisk_proper) ?_
  refine Scanned.dir (A := answers emptyFileDisk.toFs bySize3) (c := bySize3.pathComparator) (maxDepth := 20) (k := 0) (p := r) (n := -1)
    (cs := [eb, a]) (ks := [eb, a]) (srt := [eb, a]) (es := [.dir eb [], .file a ⟨false, false⟩])
    rfl (by decide) rfl rfl (.keep rfl (.keep rfl .nil)) (by decide) (by decide) (.cons ?_ (.cons (.file rfl rfl) .nil))
  exact Scanned.dir (A := answers emptyFileDisk.toFs bySize3) (c := bySize3.pathComparator) (maxDepth := 20) (k := 1) (p := eb) (n := -1)
    (cs := []) (ks := []) (srt := []) (es := []) rfl (by decide) rfl rfl .nil (by decide) (by decide) .nil

/-- What can be found below `/r` on the demo disk. -/
theorem reach_r {k : Nat} {q : Path} (h : Reach dfs k r q) : q ∈ [a, b, x, y, z] := by
  have step : ∀ {k : Nat} {d q : Path}, Reach dfs k d q → (d = r ∨ d = a) → q ∈ [a, b, x, y, z] := by
    intro k d q h
    induction h with
    | child h1 h2 h3 =>
      rintro (rfl | rfl)
      · rw [show dfs.listDir r = .opened [b, a, z] false from rfl] at h2; cases h2
        revert h3; simp only [List.mem_cons, List.not_mem_nil, or_false]; rintro (rfl | rfl | rfl) <;> simp
      · rw [show dfs.listDir a = .opened [y, x] false from rfl] at h2; cases h2
        revert h3; simp only [List.mem_cons, List.not_mem_nil, or_false]; rintro (rfl | rfl) <;> simp
    | down h1 h2 h3 h4 ih =>
      have hdir := Filtering74.reach_isDir h4
      rintro (rfl | rfl)
      · rw [show dfs.listDir r = .opened [b, a, z] false from rfl] at h2; cases h2
        simp only [List.mem_cons, List.not_mem_nil, or_false] at h3
        rcases h3 with rfl | rfl | rfl
        · cases hdir
        · exact ih (.inr rfl)
        · cases hdir
      · rw [show dfs.listDir a = .opened [y, x] false from rfl] at h2; cases h2
        simp only [List.mem_cons, List.not_mem_nil, or_false] at h3
        rcases h3 with rfl | rfl <;> cases hdir
  exact step h (.inl rfl)

theorem listable_r : Listable dfs 2147483647 r := by
  refine ⟨fun _ => ⟨_, rfl⟩, fun k q _ h hd => ?_, fun k q _ h => ?_⟩
  · have := reach_r h
    simp only [List.mem_cons, List.not_mem_nil, or_false] at this
    rcases this with rfl | rfl | rfl | rfl | rfl
    · exact ⟨_, rfl⟩
    all_goals cases hd
  · have := reach_r h
    simp only [List.mem_cons, List.not_mem_nil, or_false] at this
    rcases this with rfl | rfl | rfl | rfl | rfl <;> decide

/-- Three names: with an extension, with two dots and capitals, and without a dot. -/
def f1 : Path := ⟨true, [j!"main.c"]⟩
def f2 : Path := ⟨true, [j!"x.tar.GZ"]⟩
def f3 : Path := ⟨true, [j!"LICENSE"]⟩

end Demo

open Demo

/-! ### C28–C30 -/

example := C28_all_null (m := Except Exn) [fun _ => pure none, fun q => pure (if q = a then some j!" A" else none)] LineExtensions.builder b
  (by simp; rfl)
example := C28_matching_rules (m := Except Exn) [(isA, j!" A"), (fun _ => true, j!" other")] LineExtensions.builder a
example := C29_exact (m := Except Exn) [fun q => if isA q then 3 else -1, fun _ => 5] 7 a
example := C29_first_match_partial (m := Except Exn) 7 limRules b (.inr ⟨_, rfl, by decide⟩)
example := C29_default_ignored (m := Except Exn) 7 [(isA, 3)] (by simp) b (by simp [isA]; decide)
example := C29_unlimited_rule_ignored (m := Except Exn) 7 (-1) (by decide) (isA, -1) limRules a rfl rfl (isA, 3) rfl (by decide)
example := C30_independent_partial (m := Except Exn) (limitBuilder 7 limRules) [.setDefault 1, .addMatching (fun _ => pure true) 0] a (.inl (by intro h; cases h))
example := C30_follows_setDefault (m := Except Exn) ChildLimits.builder rfl 3 a

/-! ### C31–C35 -/

example := C31_last [.addFirst (fun _ => false)] [] isA PathSorts.builder a b (by simp [SortCall.rule]) rfl (by decide)
example := C32_combinations lawful_ALPHABETICAL lawful_const dflt
example := C32_contract lawful_ALPHABETICAL a b z
example := C33_directories_last (fs := emptyFileDisk.toFs) (cwd := Path.root) (o := dirsLast) emptyFileDisk_proper rfl rfl scanned_dirsLast .here
example := C34_directories_before_nonempty_files (fs := emptyFileDisk.toFs) (cwd := Path.root) (o := bySize3) emptyFileDisk_proper rfl threeBytes rfl scanned_bySize3 .here
  (i := 0) (j := 1) rfl rfl rfl rfl (by decide)
example := C34_documented_claim_false emptyFileDisk.toFs.isDir emptySize a eb rfl rfl rfl (by decide)
example := (C35_directories_first id emptyFileDisk.toFs.isDir eb a rfl).1 rfl
example := (C35_no_extension id (fun _ => false) f3 f1 rfl rfl ⟨j!"LICENSE", 0, by decide, rfl, by decide⟩).1 j!"main" [j!"c"] ⟨by simp, by decide, by decide, 0, rfl⟩
example := C35_extensions id (fun _ => false) f1 f2 rfl rfl (bp := j!"main") (ep := [j!"c"]) (bq := j!"x") (eq := [j!"tar", j!"GZ"])
  ⟨by simp, by decide, by decide, 0, rfl⟩ ⟨by simp, by decide, by decide, 0, rfl⟩
example := (C35_dots_only id (fun _ => false) ⟨true, [j!"..."]⟩ f3 rfl rfl 2 rfl).1 ⟨j!"LICENSE", 0, by decide, rfl, by decide⟩

/-! ### C36–C40 -/

example := C36_directory (m := Except Exn) asciiCasing [.setDirectoryNameEmoji j!"A" j!"[a]", .addDirectoryEmoji (· = r) j!"[r]"] _ rfl dfs.lift a rfl
example := C36_file (m := Except Exn) asciiCasing [.setFileExtensionEmoji j!"TXT" j!"[t]", .addFileEmoji (· = x) j!"[x]"] _ rfl dfs.lift b rfl [j!"txt"]
  (fun n hn => by cases hn; exact .inl ⟨j!"b", by simp, by decide, by decide, 0, by decide⟩) (fun h => by cases h)
example := C36_custom_rules_short_circuit (m := Except Exn) (Classical.choose (C37_default_builds (m := Except Exn) asciiCasing keepsLowerAscii_ascii))
  (emojiBuilder [.addFileEmoji (· = x) j!"[x]", .addFileEmoji (· = b) j!"[b]"]) dfs.lift b [_] [] _ false rfl rfl (by simp; rfl) rfl
example := C37_build_ok_iff (m := Except Exn) asciiCasing [.setFileNameEmoji j!"README" j!"R"]
example := C37_only_illegal_state (m := Except Exn) asciiCasing _ _ (C37_readme_throws (m := Except Exn) j!"R")
example := C37_names_ignore_case asciiCasing [(j!"README", j!"R")] _ rfl ⟨true, [j!"Readme"]⟩ ⟨true, [j!"README"]⟩ _ _ rfl rfl (by decide)
example := C37_second_spelling_throws (m := Except Exn) asciiCasing [.setFileNameEmoji j!"README" j!"R", .setFileNameEmoji j!"readme" j!"r"] j!"README" j!"readme" j!"R" j!"r" (by decide) (by decide) (by simp) (by simp)
example := C37_readme_throws (m := Except Exn) j!"R"
example := C37_default_builds (m := Except Exn) asciiCasing keepsLowerAscii_ascii
example := C38_candidates asciiCasing j!"A.b.C.d" j!"a" [j!"b", j!"c", j!"d"] ⟨by simp, by decide, by decide, 0, by decide⟩
example := C38_no_candidates asciiCasing j!"LICENSE" (.inl ⟨j!"license", 0, by decide, by decide, by decide⟩)
example := C39_immutable_partial (m := Except Exn) (emojiBuilder [.addFileEmoji (· = x) j!"[x]"]) (Classical.choose (C37_default_builds (m := Except Exn) asciiCasing keepsLowerAscii_ascii)) dfs.lift
  [.setFileNameEmoji j!"b.txt" j!"late"] b (by simp)
example := C39_late_rule_applies (m := Except Exn) (emojiBuilder [.addFileEmoji (· = x) j!"[x]"]) (Classical.choose (C37_default_builds (m := Except Exn) asciiCasing keepsLowerAscii_ascii)) dfs.lift
  (· = b) j!"late" b false rfl (by decide) (fun g hg => by cases hg with | head => rfl | tail _ h => cases h)
example := C40_emoji_in_front TreeFormats.UNICODE_BOX_DRAWING (look true) 2 (.file p3 ⟨false, false⟩) _
  (.file (pre := j!"│  └─ ") (name := j!"A.java") ⟨[j!"│ "], j!"└─", rfl, by decide, by decide, rfl⟩ rfl)

/-! ### C41–C44 -/

section
open PathMatchers

example := (C41_branch (m := Except Exn) a (hasName j!"a") (fun _ => pure true) (fun _ => throw (Exn.user 1))).1 rfl
example := C41_none_not_any (m := Except Exn) [hasName j!"a", hasName j!"b"] _ _ rfl rfl
example := C42_root (m := Except Exn) Path.root rfl asciiCasing j!"r" (fun _ => true)
example := C43_parent (m := Except Exn) x [j!"r", j!"a"] j!"x" rfl (.inl rfl) (hasName j!"a")
example := C43_no_parent (m := Except Exn) ⟨false, [j!"a"]⟩ (.inr ⟨rfl, rfl⟩) (fun _ => pure true)
example := C43_any_ancestor (m := Except Exn) isA x
example := (C43_nearest_first (m := Except Exn) (hasName j!"r") x a rfl).2 rfl
example := C44_child (fs := dfs) isA r (fun _ => ⟨_, rfl, by decide⟩)
example := C44_descendant (fs := dfs) isA r listable_r
example := C44_sibling (fs := dfs) isA b r rfl (fun _ => ⟨_, rfl, by decide⟩)
example := C44_no_parent (fs := dfs) (hasName j!"a") Path.root rfl
example := C44_not_directory (fs := dfs) (hasName j!"a") b rfl
example := C44_not_itself (fs := dfs) (d := r) proper (by decide) (.inr ⟨by decide, by decide⟩) reach_x
example := C44_failures (fs := { dfs with statFails := fun p => decide (p = b) }) (hasName j!"q") r (.cannotWalk b) (by decide)

/-! ### C45–C47 -/

example := C45_exact (cwd := r) (p := ⟨false, [j!"..", j!"x"]⟩) rfl (by decide) (.inr ⟨by decide, by decide⟩)
example := C45_documented_partial (m := Except Exn) (cwd := r) (p := ⟨false, [j!"q", j!"..", j!"a"]⟩) rfl (by decide) (.inr ⟨by decide, by decide⟩) (by decide) (hasName j!"a")
example := C45_climbing_differs (cwd := r) (p := ⟨false, [j!"..", j!"x"]⟩) rfl (by decide) (.inr ⟨by decide, by decide⟩) rfl (by decide)
example := C46_way (m := Except Exn) (cwd := r) (ref := ⟨false, [j!"a"]⟩) (p := ⟨false, [j!"b.txt"]⟩) rfl (.inr ⟨by decide, by decide⟩) (.inr ⟨by decide, by decide⟩) (hasName j!"b.txt")
example := C46_leads_there (cwd := r) (ref := ⟨false, [j!"a"]⟩) (p := ⟨false, [j!"b.txt"]⟩) rfl (way_dropCommon _ _)
example := C47_depends_on_target dfs.lift r (Printer.build dflt) dflt (Path.ofString j!"a//b/") (Path.ofString j!"./a/b") (by decide)
example := C47_absolute_form dfs.lift r rfl (Printer.build dflt) dflt (Path.ofString j!"../r/a")
example := C47_insert dfs.lift r rfl (Printer.build dflt) dflt false [j!"a"] [j!"x"] [j!"q", j!".."] (.pair (by decide) (by decide)) (by decide)
example := C47_trailing_slash j!"a/b" (by decide)
example := C47_string dfs.lift r rfl (Printer.build dflt) dflt j!"a/b"

end

end JFTP
