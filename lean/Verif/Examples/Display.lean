import Verif.Examples.Scanning

/-!
Concrete cases that meet the hypotheses of the theorems on the outside world, compact directories and line extensions (C16–C27).
-/

namespace JFTP
open Spec PathMatchers

namespace Demo

/-- The options of a scan of the changing file system `clockFs`. -/
def clockScan : ScanOpts (ExceptT Exn (StateM Nat)) := ⟨1, fun _ => pure (-1), PathSorts.ALPHABETICAL, fun _ => pure true⟩

/-- A run on the changing file system, started at time 3. -/
theorem clock_run : (ExceptT.run (Scanner.handle clockFs clockScan 0 r)).run 3 = (.ok (.dir r [.file (r.child (List.replicate 4 0x61)) ⟨false, false⟩]), 7) := by
  rw [Scanner.handle]
  simp [clockScan, Scanner.handleDirectory, Scanner.handleDirectoryChildren, Scanner.filterEntries, Scanner.childLoop, streamSorted,
    PathMatchers.isDirectory, Scanner.handle, Scanner.handleFile, Demo.clockFs, Demo.r, Path.child, Path.empty, bind, pure, ExceptT.bind, ExceptT.mk,
    ExceptT.bindCont, ExceptT.pure, StateT.bind, StateT.pure, ExceptT.run, StateT.run]

/-- Printing a path that does not exist. -/
theorem scanned_missing : scanned dfs Path.root dflt ⟨true, [j!"nope"]⟩ = .error (.cannotReadAttrs ⟨true, [j!"nope"]⟩) := by
  rw [scanned_eq dfs rfl, Scanner.handle]
  rfl

theorem found_cleanNames : ∀ t, scanned dfs Path.root dflt r = .ok t → CleanNames t := by
  intro t ht
  rw [scanned_found] at ht
  cases ht
  constructor <;> intro p a h
  all_goals
    have hm : p ∈ entryPaths found := by
      obtain ⟨n, h⟩ := h.at
      exact mem_entryPaths.2 ⟨n, _, h, rfl⟩
    exact (show ∀ q ∈ entryPaths found, SLASH ∉ lastName q ∧ NL ∉ lastName q by decide) p hm

theorem found_noChain : NoChain found := by
  intro e he d c ces h
  simp only [List.mem_cons, List.not_mem_nil, or_false] at he
  rcases he with rfl | rfl | rfl
  · cases h with
    | inside hm h =>
      simp only [List.mem_cons, List.not_mem_nil, or_false] at hm
      rcases hm with rfl | rfl <;> cases h
  · cases h
  · cases h

/-- `/f`, the only file, in a world with a counter. -/
def oneFile : Fs (LogM Nat) where
  isDir _ := pure false
  listDir _ := pure .openFailed
  readAttrs _ := silent (fun n => (.ok (some ⟨false, false⟩), n + 1))
  isRegular _ := pure true
  isLink _ := pure false
  lstat _ := pure (some false)

/-- The extension is the counter, in unary. -/
def countExt (_ : Path) (n : Nat) : Except Exn (Option JStr) × Nat := (.ok (some (List.replicate n 0x2A)), n + 1)

def countOpts : Options (LogM Nat) := { (Options.createDefault : Options (LogM Nat)) with lineExtension := some (recording countExt) }

theorem oneFile_silent : SilentWorld oneFile countOpts where
  isDir _ := .pure _
  listDir _ := .pure _
  readAttrs _ := Logs.silent (fun n : Nat => (.ok (some (⟨false, false⟩ : Attrs)), n + 1))
  limit _ := .pure _
  dirs _ := .pure _
  files _ := .pure _
  emoji _ := .pure _

theorem oneFile_run : (prettyPrint oneFile Path.root countOpts ⟨true, [j!"f"]⟩).exec [] 4 = (.ok j!"f*****", ([⟨true, [j!"f"]⟩], 6)) := by
  have h : prettyPrint oneFile Path.root countOpts ⟨true, [j!"f"]⟩ =
      (Scanner.handle oneFile (countOpts.toScan oneFile) 0 ⟨true, [j!"f"]⟩ >>= Renderer.renderRoot countOpts.toRender (LineRenderer.create countOpts.toRender)) := rfl
  have h1 : (Scanner.handle oneFile (countOpts.toScan oneFile) 0 ⟨true, [j!"f"]⟩).exec [] 4 = (.ok (.file ⟨true, [j!"f"]⟩ ⟨false, false⟩), ([], 5)) := by
    rw [Scanner.handle]; rfl
  rw [h, exec_bind, h1]
  show (Renderer.renderRoot countOpts.toRender (LineRenderer.create countOpts.toRender) (.file ⟨true, [j!"f"]⟩ ⟨false, false⟩)).exec [] 5 = _
  rw [C01_render_is_picture_effectful, dispM]
  rfl

end Demo

open Demo

/-! ### C16, C17 -/

example := C16_height clockFs clockScan lawful_ALPHABETICAL r 3 7 _ clock_run .here
example := C16_only_directories_have_content clockFs clockScan lawful_ALPHABETICAL r 3 7 _ clock_run .here
example := C17_under_changes lawful_ALPHABETICAL r 3 7 _ clock_run .here
example := C17_tree_of_possible_answers lawful_ALPHABETICAL r 3 7 _ clock_run

/-! ### C18–C21 -/

example := C18_success_means_no_failure (o := dflt) proper rfl lawful_const dflt_sort printed_found .top
example := C18_scan_only_throws_for_failures (o := dflt) rfl lawful_ALPHABETICAL (fun _ => ⟨_, rfl⟩) (fun _ => ⟨_, rfl⟩) (fun _ => ⟨_, rfl⟩) scanned_missing
example := C18_kind_of_exception (fs := dfs) (D := 20) (k := 0) (q := ⟨true, [j!"nope"]⟩) (.attrs rfl rfl)
example := C19_never_marked (o := dflt) (Node.followsLinks linkDisk) rfl lawful_ALPHABETICAL scanned_links (q := rl) (a := ⟨false, false⟩) (.inside (by simp) .here)
example := C20_mark ⟨false, true⟩ rfl
example := C20_file_line (opts true) (LineRenderer.create (opts true)) Depth.createNewEmpty p4 ⟨false, true⟩ j!"x" rfl
example := C20_text (o := dflt) (Node.followsLinks disk) rfl lawful_ALPHABETICAL printed_found
example := C20_attributes_of_displayed (o := dflt) rfl lawful_ALPHABETICAL scanned_found (q := z) (a := ⟨false, true⟩) (.inside (by simp) .here)
example := C21_root_never_printed dfs.lift (cwd := r) rfl dflt ⟨false, [j!".."]⟩ rfl

/-! ### C22–C24 -/

example := C22_lines_are_maximal_chains (look true) _ _ _ shows_compact
example := C22_shows_chain (look true) p1 [.dir p2 [.file p3 ⟨false, false⟩]] [p1, p2] p2 [.file p3 ⟨false, false⟩]
  (.step (c := p2) (ces := [.file p3 ⟨false, false⟩]) (by simp [Mergeable, look, p1, p4]) (.stop (by simp [Mergeable])))
example := C23_text printed_found 2 builtin_formats_ok.1 builtin_formats_ok.2.1 builtin_formats_noNL.1 (fun _ => rfl) (fun g h => by cases h) found_cleanNames
example := C23_names_and_nesting_recovered dflt.toRender 2 builtin_formats_ok.1 builtin_formats_ok.2.1 builtin_formats_noNL.1 (fun _ => rfl) (fun _ => rfl) found found_named
  (found_cleanNames _ scanned_found)
example := C23_compact_injective dflt.toRender 2 builtin_formats_ok.1 builtin_formats_ok.2.1 builtin_formats_noNL.1 (fun _ => rfl) (fun _ => rfl) found found found_named found_named
  (found_cleanNames _ scanned_found) (found_cleanNames _ scanned_found) rfl
example := C23_ellipsis_ambiguous dflt.toRender (fun _ => rfl) (fun _ => rfl) a (by decide)
example := C24_compact_off_single (look false) rfl tree shown shows_shown
example := C24_no_chain_same dflt.toRender found found_noChain
example := C24_text_same (fs := dfs) (cwd := Path.root) (o := dflt) (p := r) (fun t ht => by rw [scanned_found] at ht; cases ht; exact found_noChain)

/-! ### C25–C27 -/

/-- `└─ x? <- here` -/
example := C25_extension_at_end TreeFormats.UNICODE_BOX_DRAWING (look true) 1 (.file p4 ⟨false, true⟩) _
  (.file (pre := j!"└─ ") (name := j!"x") ⟨[], j!"└─", rfl, by simp, by decide, rfl⟩ rfl)

example := C26_extension_ends_chain (look true) p1 [.dir p2 [.file p3 ⟨false, false⟩]] [p1, p2] p2 [.file p3 ⟨false, false⟩]
  (.step (c := p2) (ces := [.file p3 ⟨false, false⟩]) (by simp [Mergeable, look, p1, p4]) (.stop (by simp [Mergeable]))) p1 (by simp)
/-- An empty extension of `src` keeps `main` on its own line. -/
example := C26_child_on_own_line ⟨fun _ => none, true, fun q => if q = p1 then some [] else none⟩ p1 p2 [.file p3 ⟨false, false⟩] [] rfl _
  (.dir (.stop (fun c ces h => by simp [Mergeable] at h)) (.cons (.dir (.stop (fun c ces h => by simp [Mergeable] at h)) (.cons .file .nil)) .nil))
example := C27_display_order (look true) tree shownCompact shows_compact
example := C27_text countExt oneFile_silent rfl Path.root ⟨true, [j!"f"]⟩ [] _ 4 _ _ oneFile_run

end JFTP
