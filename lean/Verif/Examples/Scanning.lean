import Verif.Props.Printed
import Verif.Props.Limits
import Verif.Props.World
import Verif.Props.Filtering

/-!
Concrete cases that meet the hypotheses of the theorems on layout, filters, limits and depth (C01–C16). The disk is the one of `Lemmas/Disk.lean`: `/r/{b.txt, a/{y, x}, z}`.
Each `example := C.. ...` is the theorem applied to that case: all hypotheses are discharged.
-/

namespace JFTP
open Spec PathMatchers

namespace Demo

/-- The entries of `/r/{b.txt, a/{y, x}, z}`, cut at depth 1. -/
theorem scanned_cut : scanned dfs Path.root (dflt.withMaxDepth 1) r =
    .ok (.dir r [.dir a [.maxDepth 1], .file b ⟨false, false⟩, .file z ⟨false, true⟩]) := by
  have h := C14_smaller_depth_truncates (o := dflt) (cwd := Path.root) rfl 1 20 (by decide) (p := r) (t := found) scanned_found
  exact h

/-- Child limit 1 in `/r`, none elsewhere. -/
def lim1 : Path → Except Exn Int := fun q => pure (if q = r then 1 else -1)

theorem scanned_lim1 : scanned dfs Path.root (dflt.withChildLimitFn lim1) r =
    .ok (.dir r [.dir a [.file x ⟨false, false⟩, .file y ⟨false, false⟩], .skipped r]) := by
  refine scanned_complete rfl lawful_ALPHABETICAL distinguishes ?_
  refine Scanned.dir (A := answers dfs (dflt.withChildLimitFn lim1)) (c := PathSorts.ALPHABETICAL) (maxDepth := 20) (k := 0) (p := r) (n := 1)
    (cs := [b, a, z]) (ks := [b, a, z]) (srt := [a, b, z]) (es := [.dir a [.file x ⟨false, false⟩, .file y ⟨false, false⟩]])
    rfl (by decide) rfl rfl (.keep rfl (.keep rfl (.keep rfl .nil))) (by decide) (by decide) (.cons ?_ .nil)
  exact Scanned.dir (A := answers dfs (dflt.withChildLimitFn lim1)) (c := PathSorts.ALPHABETICAL) (maxDepth := 20) (k := 1) (p := a) (n := -1)
    (cs := [y, x]) (ks := [y, x]) (srt := [x, y]) (es := [.file x ⟨false, false⟩, .file y ⟨false, false⟩])
    rfl (by decide) rfl rfl (.keep rfl (.keep rfl .nil)) (by decide) (by decide) (.cons (.file rfl rfl) (.cons (.file rfl rfl) .nil))

theorem noLimit : ∀ q n, dflt.childLimit q = .ok n → n < 0 := fun _ _ h => by cases h; decide

/-- Another disk, the same below `/r`. -/
def dfs' : PureFs := { dfs with listDir := fun p => if p = ⟨true, [j!"other"]⟩ then .openFailed else dfs.listDir p }

/-- Another disk: what is listed two levels down and deeper cannot be listed here. -/
def dfsDeep : PureFs := { dfs with listDir := fun p => if p.names.length < 2 then dfs.listDir p else .openFailed }

/-- The same disk, all listings reversed. -/
def dfsRev : PureFs := { dfs with listDir := fun p => match dfs.listDir p with | .openFailed => .openFailed | .opened cs bad => .opened cs.reverse bad }

theorem dfsRev_same : SameContent dfs dfsRev where
  isDir _ := rfl
  attrs _ := rfl
  list p := by
    show (dfs.listDir p = .openFailed ∧ (match dfs.listDir p with | .openFailed => Listing.openFailed | .opened cs bad => .opened cs.reverse bad) = .openFailed) ∨ ∃ cs cs' bad, _
    cases h : dfs.listDir p with
    | openFailed => exact .inl ⟨rfl, rfl⟩
    | opened cs bad => exact .inr ⟨cs, cs.reverse, bad, rfl, by simp [dfsRev, h], cs.reverse_perm⟩

theorem dflt_sort : dflt.pathComparator = thenComparing (fun _ _ => 0) PathSorts.ALPHABETICAL := rfl

end Demo

open Demo

/-! ### C01 -/

example := C01_render_is_picture_effectful (opts true) tree
example := C01_prettyPrint_is_picture dfs.lift Path.root dflt (plain false) (fun _ => rfl) rfl (fun _ => rfl) r _ printed_found
example := C01_text dfs.lift Path.root dflt r _ printed_found
example := C01_text_returned scanned_found found_named found_quiet (.dir (.cons (.dir (.stop (fun c ces h => by simp [Mergeable] at h)) (.cons .file (.cons .file .nil))) (.cons .file (.cons .file .nil))))

/-! ### C03 -/

example := C03_picture_injective _ 2 builtin_formats_ok.1 builtin_formats_ok.2.1 builtin_formats_noNL.1 (shown.toDisp (look false)) (shown.toDisp (look false))
  (by have e : labels (shown.toDisp (look false)) = [j!"proj/", j!"src/", j!"main/", j!"E A.java", j!"x? <- here"] := rfl
      rw [e]; unfold NoNL; decide)
  (by have e : labels (shown.toDisp (look false)) = [j!"proj/", j!"src/", j!"main/", j!"E A.java", j!"x? <- here"] := rfl
      rw [e]; unfold NoNL; decide) rfl
/-- Two disks and two spellings of the printed path. -/
example := C03_same_text_same_display printed_found
  (show prettyPrint dfs'.lift Path.root dflt r = .ok _ by
    rw [C07_agreement_on_displayed (fs := dfs) proper rfl (o := dflt) lawful_const dflt_sort r found scanned_found (fun k e q hb hq => by
      have hm : q ∈ entryPaths found := mem_entryPaths.2 ⟨k, e, hb, hq⟩
      have hne : q ≠ ⟨true, [j!"other"]⟩ := by rintro rfl; exact absurd hm (by decide)
      exact ⟨rfl, fun _ => rfl, fun _ _ => if_neg hne, fun _ _ _ _ _ _ _ => rfl⟩)]
    exact printed_found)
  2 builtin_formats_ok.1 builtin_formats_ok.2.1 builtin_formats_noNL.1 found_clean

/-! ### C04, C05 -/

example := C04_label_column TreeFormats.CLASSIC_ASCII 3 builtin_formats_ok.2.2.1 2 j!"A.java" j!"│   `-- A.java" ⟨[j!"│  "], j!"`--", rfl, by decide, by decide, rfl⟩
example := C04_text_aligned _ 2 builtin_formats_ok.1 builtin_formats_noNL.1 (shown.toDisp (look false))
  (by have e : labels (shown.toDisp (look false)) = [j!"proj/", j!"src/", j!"main/", j!"E A.java", j!"x? <- here"] := rfl
      rw [e]; unfold NoNL; decide)
example := C05_constructed_ok j!"+-" j!"`-" j!"| " j!"  " _ rfl

/-! ### C06 -/

example := C06_exact_display_set (o := dflt) rfl lawful_ALPHABETICAL noLimit scanned_found (fun j h => by
  cases h with
  | inside hm h =>
    simp only [List.mem_cons, List.not_mem_nil, or_false] at hm
    rcases hm with rfl | rfl | rfl
    · cases h with
      | inside hm h =>
        simp only [List.mem_cons, List.not_mem_nil, or_false] at hm
        rcases hm with rfl | rfl <;> cases h
    · cases h
    · cases h) b
example := C06_top_never_filtered (o := dflt) rfl lawful_ALPHABETICAL scanned_found
example := C06_printed_paths (o := dflt) (L := plain false) rfl lawful_ALPHABETICAL (fun _ => rfl) rfl (fun _ => rfl) noLimit printed_found

/-! ### C07 -/

example := C07_below_depth_irrelevant (fs := dfs) (fs' := dfsDeep) proper (cwd := Path.root) rfl (o := dflt.withMaxDepth 1) lawful_ALPHABETICAL r (fun _ => rfl) (fun _ => rfl)
  (fun q hq => if_pos (by
    have e : ((target Path.root r).names.length : Int) + (dflt.withMaxDepth 1).maxDepth = 2 := rfl
    omega))

/-! ### C08, C09 -/

example := C08_children_sorted (o := dflt) rfl lawful_const dflt_sort scanned_found (d := a) (es := [.file x ⟨false, false⟩, .file y ⟨false, false⟩]) (.inside (by simp) .here)
example := C08_text (o := dflt) (c := fun _ _ => 0) rfl lawful_const printed_found
example := (C09_listing_order_irrelevant (o := dflt) (cwd := Path.root) proper dfsRev_same rfl lawful_const dflt_sort r _).2 printed_found
example := C09_same_exception (o := dflt) (cwd := Path.root) proper dfsRev_same rfl lawful_const dflt_sort (fun _ => true) (fun _ => true) (fun _ => rfl) (fun _ => rfl) r

/-! ### C10–C12 -/

example := C10_limit_exists (o := dflt.withChildLimitFn lim1) rfl lawful_ALPHABETICAL scanned_lim1 (d := r) (k := 0) .here (by decide)
example := C12_raising_one_limit (o := dflt.withChildLimitFn lim1) proper rfl lawful_ALPHABETICAL r (fun _ => pure (-1)) (fun q hq => by
    show _ = (pure (if q = r then 1 else -1) : Except Exn Int); rw [if_neg hq])
  (fun n n' h h' => by cases h; cases h'; exact .inl (by decide)) scanned_lim1 scanned_found

/-! ### C13–C15 -/

example := C13_depth_bound (o := dflt.withMaxDepth 1) rfl lawful_ALPHABETICAL (by decide) scanned_cut (x := .maxDepth 1) (n := 2) (.inside (x := .dir a [.maxDepth 1]) (by simp) (.inside (by simp) .here))
example := C13_cut_directory (o := dflt.withMaxDepth 1) rfl lawful_ALPHABETICAL scanned_cut (d := a) (es := [.maxDepth 1]) (n := 1) (.inside (by simp) .here) rfl
example := C14_text (o := dflt) (cwd := Path.root) rfl 1 20 (by decide) printed_found (fun t ht => by
  rw [show dflt.withMaxDepth 20 = dflt from rfl, scanned_found] at ht; cases ht; exact found_quiet)
example := C15_negative_depth_prints_only_top (fs := dfs) (cwd := Path.root) (o := dflt) rfl (-1) (by decide) r rfl
example := C15_negative_depth_text (fs := dfs) (cwd := Path.root) (o := dflt) rfl (-1) (by decide) r rfl (fun _ => rfl) (fun _ => rfl) (by decide)

/-! ### C16 -/

example := C16_links_are_leaves linkDisk rfl lawful_ALPHABETICAL scanned_links (x := .file rl ⟨false, false⟩) (.inside (x := .file rl ⟨false, false⟩) (by simp) .here) rfl rfl

end JFTP
