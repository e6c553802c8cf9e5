import Verif.Props.OnePage

/-
Names that contain line feeds: C02 and C03 need their hypothesis.
-/

namespace JFTP

open Spec Spec.OnePage

/-- `/r` with three files, and `/r` with two files, the name of one of which has two lines. -/
def LineFeeds.three : Node := .dir true [(j!"r", .dir true [(j!"x", .regular 0), (j!"y", .regular 0), (j!"z", .regular 0)])]
def LineFeeds.two : Node := .dir true [(j!"r", .dir true [(j!"x\n├─ y", .regular 0), (j!"z", .regular 0)])]

theorem LineFeeds.two_wf : LineFeeds.two.WF := by simp [LineFeeds.two, Node.WF, Node.WFAll]
theorem LineFeeds.three_wf : LineFeeds.three.WF := by simp [LineFeeds.three, Node.WF, Node.WFAll]

/-- **C03**: the hypothesis about line feeds cannot be dropped: two directories with different numbers of entries, printed with the default options, give the same text. -/
theorem C03_line_feeds_ambiguous : ∃ (disk disk' : Node) (p : Path) (s : JStr) (cs cs' : List Path), disk.WF ∧ disk'.WF ∧
    disk.toFs.listDir p = .opened cs false ∧ disk'.toFs.listDir p = .opened cs' false ∧ cs.length ≠ cs'.length ∧
    prettyPrint (m := Except Exn) disk.toFs.lift Path.root Options.createDefault p = .ok s ∧ prettyPrint (m := Except Exn) disk'.toFs.lift Path.root Options.createDefault p = .ok s :=
  ⟨LineFeeds.two, LineFeeds.three, Demo.r, j!"r/\n├─ x\n├─ y\n└─ z", [⟨true, [j!"r", j!"x\n├─ y"]⟩, ⟨true, [j!"r", j!"z"]⟩],
    [⟨true, [j!"r", j!"x"]⟩, ⟨true, [j!"r", j!"y"]⟩, ⟨true, [j!"r", j!"z"]⟩], LineFeeds.two_wf, LineFeeds.three_wf, by decide, by decide, by decide,
    (C100_default LineFeeds.two_wf rfl _ _).2 (by decide +kernel), (C100_default LineFeeds.three_wf rfl _ _).2 (by decide +kernel)⟩

/-- **C02**: nor can it there: a directory with two entries is printed on four lines. -/
theorem C02_line_feeds_more_lines : ∃ (disk : Node) (p : Path) (s : JStr) (cs : List Path), disk.WF ∧ disk.toFs.listDir p = .opened cs false ∧ (∀ c ∈ cs, disk.toFs.isDir c = false) ∧
    prettyPrint (m := Except Exn) disk.toFs.lift Path.root Options.createDefault p = .ok s ∧ (linesOf s).length = cs.length + 2 :=
  ⟨LineFeeds.two, Demo.r, j!"r/\n├─ x\n├─ y\n└─ z", [⟨true, [j!"r", j!"x\n├─ y"]⟩, ⟨true, [j!"r", j!"z"]⟩], LineFeeds.two_wf, by decide, by decide,
    (C100_default LineFeeds.two_wf rfl _ _).2 (by decide +kernel), by decide⟩

end JFTP
