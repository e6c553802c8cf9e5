import Verif.Examples.Builders
import Verif.Props.Process
import Verif.Props.OptionsFile
import Verif.Props.Objects
import Verif.Props.Kinds
import Verif.Props.Bounds
import Verif.Props.Streams
import Verif.Props.Sorting
import Verif.Props.Under
import Verif.Props.Threads
import Verif.Props.LiveOptions
import Verif.Props.Exceptions
import Verif.Props.Nulls

/-!
Concrete cases that meet the hypotheses of the theorems on objects, options files, the command line, changing disks, comparators, threads and exceptions (C48–C82).
-/

namespace JFTP
open Spec

namespace Demo

/-- The globs of the demo document, as matched by `Demo.glob`. -/
theorem doc_globs : ∀ g ∈ allGlobs doc, g ≠ j!"*" → glob g = .ok (fun p => decide (p.names = [g])) := by
  intro g hg _
  have : g = j!"a*" ∨ g = j!"a" ∨ g = j!".git" ∨ g = j!"*" := by simpa [allGlobs, doc, globsOfOpt, globsOf, globsOfAll, or_assoc] using hg
  unfold glob
  rw [if_neg]
  rcases this with rfl | rfl | rfl | rfl <;> decide

/-- The machine with the file `/r`, the command line `prettyprint /r`. -/
theorem ends_r : Ends (machine ⟨true, [j!"r"]⟩) (cmd ⟨true, [j!"r"]⟩) (.tree j!"r") :=
  ends (by decide) (by decide) (by decide) (by decide) (file (by decide) (by decide) (by decide))

theorem run_r : Cli.run (machine ⟨true, [j!"r"]⟩) (cmd ⟨true, [j!"r"]⟩) = (0, { out := j!"r\n" }) :=
  C53_prints (machine_plain _) rfl ends_r (by decide)

/-- The file `/a%s`: output and exit code 1. -/
theorem ends_percent : Ends (machine ⟨true, [j!"a%s"]⟩) (cmd ⟨true, [j!"a%s"]⟩) (.tree j!"a%s") :=
  ends (by decide) (by decide) (by decide) (by decide) (file (by decide) (by decide) (by decide))

theorem run_percent : (Cli.run (machine ⟨true, [j!"a%s"]⟩) (cmd ⟨true, [j!"a%s"]⟩)).1 = 1 ∧ (Cli.run (machine ⟨true, [j!"a%s"]⟩) (cmd ⟨true, [j!"a%s"]⟩)).2.out = j!"a" :=
  C54_false (machine_plain _) rfl (a := j!"a") (b := []) (by decide) (by decide) ends_percent

/-- What can be found below `/r/a`. -/
theorem reach_a {k : Nat} {q : Path} (h : Reach dfs k a q) : k = 1 ∧ q ∈ [x, y] := by
  cases h with
  | child h1 h2 h3 =>
    rw [show dfs.listDir a = .opened [y, x] false from rfl] at h2; cases h2
    refine ⟨rfl, ?_⟩
    revert h3; simp only [List.mem_cons, List.not_mem_nil, or_false]; rintro (rfl | rfl) <;> simp
  | down h1 h2 h3 h4 =>
    have hdir := Filtering74.reach_isDir h4
    rw [show dfs.listDir a = .opened [y, x] false from rfl] at h2; cases h2
    simp only [List.mem_cons, List.not_mem_nil, or_false] at h3
    rcases h3 with rfl | rfl <;> cases hdir

theorem names_listed {d : Path} {cs : List Path} {bad : Bool} (h : dfs.listDir d = .opened cs bad) : ∀ q ∈ cs, q.names ≠ [] := by
  intro q hq
  obtain ⟨n, rfl⟩ := (proper d cs bad h).2 q hq
  simp [Path.child]
  split <;> simp

theorem fixed_pure {σ α : Type} {v : α} : (pure v : Res σ α).Settled (pure v : Except Exn α) := Threads73.settled.pure _

/-- Default options with filters print a tree of the demo disk. -/
theorem prints_filtered {fs : PureFs} {d f : Matcher (Except Exn)} {t : TreeEntry} {T : ITree} (ht : scanned fs Path.root (filtered dflt d f) r = .ok t) (hn : Named t)
    (hT : ShowsTop (plain false) t T) : prettyPrint fs.lift Path.root (filtered dflt d f) r = .ok (picture TreeFormats.UNICODE_BOX_DRAWING (T.toDisp (plain false))) :=
  C01_text_returned (o := filtered dflt d f) ht hn (fun _ _ => ⟨⟨none, rfl⟩, fun g hg => by cases hg⟩) hT

theorem printed_onlyX : prettyPrint dfs.lift Path.root (showOnly dfs dflt isX) r = .ok (joinLines [j!"r/", j!"└─ a/", j!"   └─ x"]) :=
  prints_filtered onlyX (by simp [Named, NamedAll, r, a, x]) (.dir (.cons (.dir (.stop (fun c ces h => by simp [Mergeable] at h)) (.cons .file .nil)) .nil))

theorem printed_rescued : prettyPrint dfs.lift Path.root (filtered dflt (fun p => PathMatchers.any p [fun _ => pure false, PathMatchers.hasAnyDescendantMatching dfs.lift isX]) (fun _ => pure true)) r =
    .ok (joinLines [j!"r/", j!"├─ a/", j!"│  ├─ x", j!"│  └─ y", j!"├─ b.txt", j!"└─ z?"]) :=
  prints_filtered rescued (by simp [Named, NamedAll, r, a, x, y, b, z])
    (.dir (.cons (.dir (.stop (fun c ces h => by simp [Mergeable] at h)) (.cons .file (.cons .file .nil))) (.cons .file (.cons .file .nil))))

theorem printed_noDirs : prettyPrint dfs.lift Path.root noDirs r = .ok (joinLines [j!"r/", j!"├─ b.txt", j!"└─ z?"]) :=
  prints_filtered (d := fun _ => pure false) (f := fun _ => pure true)
    (C64_prune (o := dflt) rfl lawful_ALPHABETICAL distinguishes (fun q n h => by cases h; decide) _ _ noDirs_stricter scanned_found)
    (t := .dir r [.file b ⟨false, false⟩, .file z ⟨false, true⟩]) (by simp [Named, NamedAll, r, b, z]) (.dir (.cons .file (.cons .file .nil)))

/-- Only files of the demo disk are called `x`. -/
theorem isX_file : ∀ q, dfs.isDir q = true → isX q ≠ .ok true := by
  intro q hd
  have : ∀ ns : List JStr, (match disk.get ns with | some (.dir _ _) => true | _ => false) = true → ns = [] ∨ ns = [j!"r"] ∨ ns = [j!"r", j!"a"] := by
    intro ns h
    match ns with
    | [] => simp
    | n :: ns =>
      by_cases hn : n = j!"r"
      · subst hn
        match ns with
        | [] => simp
        | n :: ns =>
          by_cases ha : n = j!"a"
          · subst ha
            match ns with
            | [] => simp
            | n :: ns =>
              replace h : (match (Node.dir true [(j!"y", .regular 0), (j!"x", .regular 1)]).get (n :: ns) with | some (.dir _ _) => true | _ => false) = true := h
              by_cases hy : j!"y" = n <;> by_cases hx : j!"x" = n <;> cases ns <;> simp [hy, hx, Node.get, Node.lookupChild] at h
          · replace h : (match (Node.dir true [(j!"b.txt", .regular 3), (j!"a", .dir true [(j!"y", .regular 0), (j!"x", .regular 1)]), (j!"z", .special)]).get (n :: ns) with
              | some (.dir _ _) => true | _ => false) = true := h
            by_cases hb : j!"b.txt" = n <;> by_cases hz : j!"z" = n <;> cases ns <;> simp [hb, hz, Ne.symm ha, Node.get, Node.lookupChild] at h
      · simp [disk, Node.get, Node.lookupChild, Ne.symm hn] at h
  have := this q.names hd
  unfold isX
  rcases this with h | h | h <;> rw [h] <;> decide

/-- A comparator that throws. -/
theorem throwing_call : CanThrow (LiveScanner.prettyPrint (m := Except Exn) TimSort.sort (fun _ _ => .error (.user 7)) dfs.lift Path.root dflt r) (.user 7) := by
  show LiveScanner.prettyPrint (m := Except Exn) _ _ _ _ _ _ = _
  unfold LiveScanner.prettyPrint
  dsimp only
  rw [LiveScanner.handle]
  rfl

/-- `/r/{b, l -> b}` with `filterDirectories(isSymbolicLink())`. -/
theorem printed_noDirLinks : prettyPrint linkDisk.toFs.lift Path.root (dflt.filterDirectories (PathMatchers.isSymbolicLink linkDisk.toFs.lift)) r =
    .ok (joinLines [j!"r/", j!"├─ b", j!"└─ l"]) :=
  prints_filtered (d := PathMatchers.isSymbolicLink linkDisk.toFs.lift) (f := fun _ => pure true) (t := .dir r [.file rb ⟨false, false⟩, .file rl ⟨false, false⟩]) (by
      refine scanned_complete rfl lawful_ALPHABETICAL (sort_distinguishes lawful_const linkDisk_wf.proper) ?_
      exact Scanned.dir (A := answers linkDisk.toFs (filtered dflt (PathMatchers.isSymbolicLink linkDisk.toFs.lift) (fun _ => pure true))) (c := PathSorts.ALPHABETICAL) (maxDepth := 20) (k := 0) (p := r) (n := -1)
        (cs := [rb, rl]) (ks := [rb, rl]) (srt := [rb, rl]) (es := [.file rb ⟨false, false⟩, .file rl ⟨false, false⟩])
        rfl (by decide) rfl rfl (.keep rfl (.keep rfl .nil)) (by decide) (by decide) (.cons (.file rfl rfl) (.cons (.file rfl rfl) .nil)))
    (by simp [Named, NamedAll, r, rb, rl]) (.dir (.cons .file (.cons .file .nil)))

end Demo

open Demo

/-! ### C48 -/

example := C48_build_works (m := Except Exn) [.newBuilder, .newBuilder, .set 0 (.maxDepth 1)] 1 1 rfl
example := C48_format_is_kept (m := Except Exn) dfs.lift Path.root [.newBuilder] [.set 0 (.treeFormat TreeFormats.CLASSIC_ASCII)] 0 0 rfl (by decide) r
example := C48_isolated (m := Except Exn) dfs.lift Path.root [.newBuilder] [.newBuilder, .set 1 (.maxDepth 0)] 0 0 rfl (by decide) r

/-! ### C50–C55 -/

example := C50_meaning (m := Except Exn) (G := fun g p => decide (p.names = [g])) (cwd := Path.root) (target := r) asciiCasing dfs.lift doc rfl doc_globs (fun _ => keepsLowerAscii_ascii)
example := C51_maps_iff (m := Except Exn) (glob := glob) (cwd := Path.root) (target := r) asciiCasing dfs.lift doc rfl (fun _ => keepsLowerAscii_ascii)
example := C52_lookup (machine_plain ⟨true, [j!"w", j!".prettyprint"]⟩) (tgt := r) rfl (by decide) .none {} rfl
example := C53_code_zero (machine_plain _) (args := cmd ⟨true, [j!"r"]⟩) rfl (by rw [run_r])
example := (C53_false (machine_plain ⟨true, [j!"100%%"]⟩) (args := cmd ⟨true, [j!"100%%"]⟩) rfl (a := j!"100") (b := []) (by decide) (by decide)).1
  (ends (by decide) (by decide) (by decide) (by decide) (file (by decide) (by decide) (by decide)))
example := C54_failed (machine_plain ⟨true, [j!"r"]⟩) (args := { target := some ⟨true, [j!"r"]⟩, optionsFile := some ⟨true, [j!"r"]⟩ }) rfl
  (.badOptions (by decide) (.givenBad (.malformed (by decide) rfl rfl rfl)))
example := C54_output_on_failure (machine_plain _) (args := cmd ⟨true, [j!"a%s"]⟩) rfl run_percent.1 (by rw [run_percent.2]; decide)
example := C54_false (machine_plain _) (args := cmd ⟨true, [j!"a%s"]⟩) rfl (a := j!"a") (b := []) (by decide) (by decide) ends_percent
example := C55_adds_messages (machine_plain ⟨true, [j!"r"]⟩) (cmd ⟨true, [j!"r"]⟩) (.inr (by decide))
example := C55_false (machine_plain ⟨true, [j!"x%s", j!"r"]⟩) { cmd ⟨true, [j!"x%s", j!"r"]⟩ with debug := true } (by decide) rfl rfl (by decide)
  (a := j!"/x") (b := j!"/r/.prettyprint") (by decide) (by decide) (by decide)

/-! ### C59, C60 -/

example := C59_isFile (m := Except Exn) linkDisk.toFs.lift rl
example := C59_exclusive linkDisk rl (b := false) (c := false) (d := true) (f := true) (by decide) (by decide) (by decide) (by decide)
example := C59_filter_directories_by_link (o := dflt) (cwd := Path.root) rfl lawful_ALPHABETICAL printed_noDirLinks
example := C60_rejected (m := Except Exn) glob Path.root r j!"[" (by decide) _ rfl
example := C60_absolute (m := Except Exn) glob Path.root j!"a" (by decide) (by unfold glob; rw [if_neg (by decide)]) rfl (by decide)
example := C60_relative (m := Except Exn) glob Path.root r j!"a" (by decide) (by unfold glob; rw [if_neg (by decide)]) rfl (.inr ⟨by decide, by decide⟩)

/-! ### C64, C69 -/

example := C64_text (o := dflt) (cwd := Path.root) rfl lawful_ALPHABETICAL distinguishes (fun _ _ h => by cases h; decide) _ _ noDirs_stricter printed_found printed_noDirs

example := C69_matchers_close streams 0 (PathMatchers.isDirectory (recordedFs streams).toFs) (fun _ => closes_outside _ _) r
example := C69_nested_counts (n := 2) (w := [.opened r, .opened a, .closed a, .closed r])
  (.stream (inside := [.opened a, .closed a]) (after := []) (.stream (inside := []) (after := []) .nil .nil) .nil)

/-! ### C71, C72 -/

example := C71_any_comparator _ _ _ _ badOrder_run .here
example := C71_exceptions _ _ _ _ throwing_run
example := C71_siblings_only dfs Path.root dflt (fun a b => pure (PathSorts.ALPHABETICAL a b))
  (fun a b => if a = Path.root then throw (.user 1) else pure (PathSorts.ALPHABETICAL a b)) (by
    intro d cs hd u hu v _ _ _
    rw [if_neg]
    rintro rfl
    exact absurd rfl (names_listed hd _ hu)) r
example := C71_fixed_disk (m := Except Exn) dfs threeBytes (fun ch => ch) a b
example := C71_built_fixed (m := Except Exn) [fun q => if q = a then 0 else 1, threeBytes] PathSorts.builder a b
example := C71_sort_fixed (m := Except Exn) dfs.lift Path.root dflt (c := LiveSorts.DIRECTORY_FIRST dfs.lift) (c' := PathSorts.DIRECTORY_FIRST dfs.isDir)
  (fun u v => (C71_fixed_disk dfs threeBytes (fun ch => ch) u v).2.1) (lawful_DIRECTORY_FIRST _) r
example := C72_text (cwd := Path.root) rfl lawful_ALPHABETICAL clock_call
example := C72_text_any_comparator (cwd := Path.root) rfl clock_call_any
example := C72_lines (cwd := Path.root) rfl clock_call_any
example := C72_functions (L := plain false) (t := .file b ⟨false, false⟩) (.other (fun _ _ h => by cases h) (.file (by decide) rfl rfl))

/-! ### C73 -/

example : True := by
  let c : Config Nat Bool JStr := ⟨0, fun i => prettyPrint countingFs Path.root {} (if i then r else a)⟩
  obtain ⟨c', res, h1, h2, -⟩ := C73_no_waiting c true
  have h3 := C73_same_results (o := fun _ => {}) (o' := fun _ => {}) (fun _ => counting_fixed) (fun _ => rfl) h1 h2
  have h4 : res = .ok (joinLines [j!"r/", j!"├─ a/", j!"│  ├─ x", j!"│  └─ y", j!"├─ b.txt", j!"└─ z?"]) := h3.trans printed_found
  have := C73_any_interleaving (cwd := Path.root) rfl (o := fun _ => {}) (fun _ => lawful_ALPHABETICAL) (fun _ => rfl) h1 (h2.trans (congrArg _ h4))
  trivial

/-- The rest of the system goes on for ever. -/
example := C73_terminates (σ := Nat) (ι := Bool) (fun n => ⟨n, fun i => prettyPrint countingFs Path.root {} (if i then r else a)⟩) (fun _ => none) (fun _ => .other rfl) true

example := C73_library_builders (fs := countingFs) (f := dfs) (fun _ => settled_atomic) (ls := [fun _ => pure 3]) (ls' := [fun _ => pure 3]) (.cons (fun _ => fixed_pure) .nil) 7
  (xs := [fun _ => pure none]) (xs' := [fun _ => pure none]) (.cons (fun _ => fixed_pure) .nil) ⟨asciiCasing, j!"D", [], j!"F", [], []⟩
  (b := { dirMatchersEmojis := [⟨fun _ => pure true, j!"D"⟩] })
  (b' := { dirMatchersEmojis := [⟨fun _ => pure true, j!"D"⟩] }) (.cons ⟨rfl, fun _ => fixed_pure⟩ .nil) .nil

/-! ### C74, C82 -/

example := C74_only_matching (o := dflt) (cwd := Path.root) rfl lawful_ALPHABETICAL onlyX (q := a) (by decide) (by decide)
example := C74_directories (o := dflt) (cwd := Path.root) rfl lawful_ALPHABETICAL (fun _ _ h => by cases h; decide) onlyX (n := 1) (q := a)
  (.child (cs := [b, a, z]) (bad := false) rfl rfl (by decide)) (by decide) rfl (by decide) (fun k q h => by obtain ⟨rfl, -⟩ := reach_a h; decide)
example := C74_no_empty_directory (o := dflt) (cwd := Path.root) rfl lawful_ALPHABETICAL (fun _ _ h => by cases h; decide) (by decide) isX_file onlyX (n := 1) (q := a)
  (.child (cs := [b, a, z]) (bad := false) rfl rfl (by decide)) (fun k q h => by obtain ⟨rfl, -⟩ := reach_a h; decide) (by decide) rfl (by decide)
example := C74_printed (o := dflt) (cwd := Path.root) (L := plain false) rfl lawful_ALPHABETICAL (fun _ => rfl) rfl (fun _ => rfl) (fun _ _ h => by cases h; decide) (by decide) printed_onlyX
example := C82_only (o := dflt) (cwd := Path.root) rfl lawful_ALPHABETICAL rescueX rescued (q := a) (by decide) (by decide)
example := C82_directories (o := dflt) (cwd := Path.root) (mt := isX) rfl lawful_ALPHABETICAL (List.mem_cons_of_mem _ (List.mem_cons_self ..)) rescueX
  (fun _ _ h => by cases h; decide) rescued (n := 1) (q := a) (.child (cs := [b, a, z]) (bad := false) rfl rfl (by decide)) (by decide) rfl (k := 1) (r := x) (by decide)
  (.child (cs := [y, x]) (bad := false) rfl rfl (by decide)) rfl

example := C82_printed (o := dflt) (cwd := Path.root) (L := plain false) (mt := isX) rfl lawful_ALPHABETICAL (List.mem_cons_of_mem _ (List.mem_cons_self ..)) rescueX
  (fun _ => rfl) rfl (fun _ => rfl) (fun _ _ h => by cases h; decide) (by decide) printed_rescued

/-! ### C75–C77 -/

example := C75_unchanged (m := Except Exn) dfs.lift Path.root (Printer.build dflt) dflt (by decide) r
example := C76_kinds (E := fun e => e = .user 7) (cwd := Path.root) (p := r) rfl (by decide) (by
    intro d cs bad h q hq
    exact names_listed (d := d) (bad := bad) (Except.ok.inj h) q hq) (fun q e h => by cases h; rfl) (fun q e h => by cases h) (fun q e h => by cases h) (fun q e h => by cases h) (fun f h => by cases h) limit_throws
example := C76_causes_any_comparator (cwd := Path.root) (p := r) rfl throwing_call
example := C76_matchers (m := Except Exn) (fs := dfs.lift) (cwd := Path.root) (user := fun u => u = fun _ => .error (.user 7)) (mt := PathMatchers.not (fun _ => .error (.user 7))) (.not (.user rfl)) (p := r) (e := .user 7) (show _ = _ from rfl)
example := C77_builders (m := Except Exn)
example := C77_builder_history (m := Except Exn)
example := C77_print_null (m := Except Exn) dfs.lift Path.root (Printer.build dflt) dflt (fun _ _ => rfl)

end JFTP
