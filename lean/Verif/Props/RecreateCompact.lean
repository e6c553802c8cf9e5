import Verif.Props.Recreate
import Verif.Props.Snapshot

/-
C109 with compact directories: a line with several names stands for directories inside each other.
-/

namespace JFTP
open Spec

namespace Recreate

/-- Nothing but names is shown; directories may be compact. -/
def Nude (L : LookM (Except Exn)) : Prop := (∀ q, L.emoji q = .ok none) ∧ ∀ q, L.ext q = .ok none

/-- The names of directories, one behind the other. -/
def joined : List Path → JStr
  | [] => []
  | d :: ds => lastName d ++ j!"/" ++ joined ds

theorem namesM_joined : ∀ {ms : List Path}, (∀ m ∈ ms, m.names ≠ []) → namesM (m := Except Exn) ms = .ok (joined ms)
  | [], _ => rfl
  | d :: ds, h => by
    have hd : d.names.getLast? = some (lastName d) := OnePage.name_some (h d (.head _))
    rw [namesM, namesM_joined fun m hm => h m (.tail _ hm), hd]
    simp [bind, Except.bind, pure, Except.pure, joined]

theorem dirsText_joined {L : LookM (Except Exn)} (hL : Nude L) (d : Path) {ms : List Path} (h : ∀ m ∈ ms, m.names ≠ []) : dirsTextM L.emoji d ms = .ok (joined ms) := by
  unfold dirsTextM
  rw [hL.1, namesM_joined h]
  simp [emojiText, bind, Except.bind, pure, Except.pure]

theorem disp_leaf {L : LookM (Except Exn)} (hL : Nude L) (top : Bool) {e : TreeEntry} {l : JStr} (h : skeleton e = .leaf l) (hn : Named e) : dispM L top e = .ok (.node l []) := by
  cases e with
  | dir d es => rw [skeleton] at h; cases h
  | file p a =>
    rw [skeleton] at h
    cases h
    rw [Named] at hn
    have hd : p.names.getLast? = some (lastName p) := OnePage.name_some hn
    rw [dispM, hL.2]
    unfold fileTextM nameM
    rw [hL.1, hd]
    simp [emojiText, bind, Except.bind, pure, Except.pure]
  | skipped p => rw [skeleton] at h; cases h; rw [dispM]; rfl
  | maxDepth n => rw [skeleton] at h; cases h; rw [dispM]; rfl

theorem joined_append (ms : List Path) (c : Path) : joined (ms ++ [c]) = joined ms ++ (lastName c ++ j!"/") := by
  induction ms with
  | nil => simp [joined]
  | cons m ms ih => simp [joined, ih]

mutual
/-- Entries with the same names and nesting are displayed alike. -/
theorem disp_same {L : LookM (Except Exn)} (hL : Nude L) (top : Bool) (e e' : TreeEntry) (h : skeleton e = skeleton e') (hn : Named e) (hn' : Named e') : dispM L top e = dispM L top e' := by
  match e, e' with
  | .dir d es, .dir d' es' =>
    rw [skeleton, skeleton] at h
    injection h with h1 h2
    rw [Named] at hn hn'
    rw [dispM, dispM]
    exact dispDir_same hL top d d' es es' h2 hn.2 hn'.2 [d] [d'] (by simp [hn.1]) (by simp [hn'.1]) (by simp [joined, h1])
  | .dir d es, .file _ _ => rw [skeleton, skeleton] at h; cases h
  | .dir d es, .skipped _ => rw [skeleton, skeleton] at h; cases h
  | .dir d es, .maxDepth _ => rw [skeleton, skeleton] at h; cases h
  | .file p a, e' => rw [disp_leaf hL top (by rw [skeleton]) hn, disp_leaf hL top (by rw [← h, skeleton]) hn']
  | .skipped p, e' => rw [disp_leaf hL top (by rw [skeleton]) hn, disp_leaf hL top (by rw [← h, skeleton]) hn']
  | .maxDepth p, e' => rw [disp_leaf hL top (by rw [skeleton]) hn, disp_leaf hL top (by rw [← h, skeleton]) hn']
termination_by (sizeOf e, 1)
theorem dispDir_same {L : LookM (Except Exn)} (hL : Nude L) (top : Bool) (d d' : Path) (es es' : List TreeEntry) (h : skeletonAll es = skeletonAll es') (hn : NamedAll es) (hn' : NamedAll es') (ms ms' : List Path)
    (hm : ∀ m ∈ ms, m.names ≠ []) (hm' : ∀ m ∈ ms', m.names ≠ []) (hj : joined ms = joined ms') : dispDirM L top d es ms = dispDirM L top d' es' ms' := by
  by_cases hone : (L.compact && !top) = true ∧ ∃ c ces, es = [.dir c ces]
  · obtain ⟨hc, c, ces, rfl⟩ := hone
    match es', h, hn' with
    | [], h, _ => rw [skeletonAll, skeletonAll] at h; cases h
    | e :: f :: l, h, _ => simp [skeletonAll] at h
    | [.file _ _], h, _ => simp [skeletonAll, skeleton] at h
    | [.skipped _], h, _ => simp [skeletonAll, skeleton] at h
    | [.maxDepth _], h, _ => simp [skeletonAll, skeleton] at h
    | [.dir c' ces'], h, hn' =>
      simp only [skeletonAll, skeleton, List.cons.injEq, NTree.dir.injEq, and_true] at h
      simp only [NamedAll, Named, and_true] at hn hn'
      rw [dispDirM.eq_def, dispDirM.eq_def]
      simp only [hc, if_true, hL.2]
      show dispDirM L top c ces (ms ++ [c]) = dispDirM L top c' ces' (ms' ++ [c'])
      refine dispDir_same hL top c c' ces ces' h.2 hn.2 hn'.2 (ms ++ [c]) (ms' ++ [c']) ?_ ?_ (by rw [joined_append, joined_append, hj, h.1])
      · intro m hm1
        rcases List.mem_append.1 hm1 with h | h
        · exact hm m h
        · rw [List.mem_singleton.1 h]; exact hn.1
      · intro m hm1
        rcases List.mem_append.1 hm1 with h | h
        · exact hm' m h
        · rw [List.mem_singleton.1 h]; exact hn'.1
  · have hplain : ∀ (d : Path) (es : List TreeEntry) (ms : List Path), (∀ m ∈ ms, m.names ≠ []) → ¬ ((L.compact && !top) = true ∧ ∃ c ces, es = [.dir c ces]) →
        dispDirM L top d es ms = (dispKidsM L es).map fun ks => .node (joined ms) ks := by
      intro d es ms hm hone
      rw [dispDirM.eq_def]
      split
      · rename_i c ces
        rw [if_neg (fun hc => hone ⟨hc, c, ces, rfl⟩), dirsText_joined hL d hm, hL.2, dispKidsM, dispKidsM]
        cases dispM L false (.dir c ces) <;> simp [bind, Except.bind, pure, Except.pure, Except.map]
      · rw [dirsText_joined hL d hm, hL.2]
        cases dispKidsM L es <;> simp [bind, Except.bind, pure, Except.pure, Except.map]
    have hone' : ¬ ((L.compact && !top) = true ∧ ∃ c ces, es' = [.dir c ces]) := by
      rintro ⟨hc, c', ces', rfl⟩
      apply hone
      refine ⟨hc, ?_⟩
      match es, h with
      | [], h => rw [skeletonAll, skeletonAll] at h; cases h
      | e :: f :: l, h => simp [skeletonAll] at h
      | [.file _ _], h => simp [skeletonAll, skeleton] at h
      | [.skipped _], h => simp [skeletonAll, skeleton] at h
      | [.maxDepth _], h => simp [skeletonAll, skeleton] at h
      | [.dir c ces], h => exact ⟨c, ces, rfl⟩
    rw [hplain d es ms hm hone, hplain d' es' ms' hm' hone', hj, dispKids_same hL es es' h hn hn']
termination_by (sizeOf es, 3)
theorem dispKids_same {L : LookM (Except Exn)} (hL : Nude L) (es es' : List TreeEntry) (h : skeletonAll es = skeletonAll es') (hn : NamedAll es) (hn' : NamedAll es') : dispKidsM L es = dispKidsM L es' := by
  match es, es' with
  | [], [] => rfl
  | [], _ :: _ => rw [skeletonAll, skeletonAll] at h; cases h
  | _ :: _, [] => rw [skeletonAll, skeletonAll] at h; cases h
  | e :: es, e' :: es' =>
    rw [skeletonAll, skeletonAll] at h
    injection h with h1 h2
    rw [NamedAll] at hn hn'
    rw [dispKidsM, dispKidsM, disp_same hL false e e' h1 hn.1 hn'.1, dispKids_same hL es es' h2 hn.2 hn'.2]
termination_by (sizeOf es, 2)
end

mutual
/-- The files and directories are those that the labels without compact directories stand for. -/
theorem make_grow (e : TreeEntry) (h : ∀ q ∈ entryPaths e, SLASH ∉ lastName q) : make (lab e) = grow (skeleton e) := by
  match e with
  | .dir d es =>
    rw [lab, make_dir, skeleton, grow, makeAll_growAll es fun e he q hq => h q (mem_entryPaths_dir.2 (.inr ⟨e, he, hq⟩))]
  | .file p a =>
    have hp := h p (by simp [entryPaths, events])
    rw [lab, skeleton, grow]
    refine make_file ?_ _
    intro hs
    rcases List.mem_append.1 hs with hs | hs
    · exact hp hs
    · unfold fileMark at hs
      split at hs
      · revert hs; decide
      · split at hs
        · revert hs; decide
        · cases hs
  | .skipped _ => rfl
  | .maxDepth _ => rfl
termination_by (sizeOf e, 1)
/-- The same for lists. -/
theorem makeAll_growAll (es : List TreeEntry) (h : ∀ e ∈ es, ∀ q ∈ entryPaths e, SLASH ∉ lastName q) : makeAll (labAll es) = growAll (skeletonAll es) := by
  match es with
  | [] => rfl
  | e :: es => rw [labAll, makeAll, skeletonAll, growAll, make_grow e (h e (.head _)), makeAll_growAll es fun e he => h e (.tail _ he)]
termination_by (sizeOf es, 2)
end

end Recreate

variable {fs fs' : PureFs} {cwd cwd' p p' : Path} {o : Options (Except Exn)} {s : JStr}

/-- **C109** with or without compact directories: a line with several names and slashes stands for directories inside each other. Read this way, the text gives names and nesting; with these directories and with empty files, made
anywhere, one gets the same text, with compact directories if they were compact. -/
theorem C109_compact (hw : cwd.abs = true) (hfs : ProperFs fs) (ho : NamesInOrder o) (hdepth : o.maxDepth ≤ 20) (h : prettyPrint fs.lift cwd o p = .ok s)
    (hplain : ∀ t, scanned fs cwd o p = .ok t → ∀ q ∈ entryPaths t, NL ∉ lastName q ∧ SLASH ∉ lastName q ∧ (fs.isDir q = false → fs.readAttrs q = some ⟨false, false⟩))
    {w : Nat} (hf : TreeFormatOK o.treeFormat w) (hr : Readable o.treeFormat) (hnl : FormatNoNL o.treeFormat) :
    ∃ N, (decode o.treeFormat s).map expand = some N ∧ (grown N).WF ∧
      ∀ (fs' : PureFs) (cwd' p' : Path) (dir : List JStr), ProperFs fs' → cwd'.abs = true → SameBelow (grown N).toFs fs' [(grow N).1] (dir ++ [(grow N).1]) → target cwd' p' = ⟨true, dir ++ [(grow N).1]⟩ →
        prettyPrint fs'.lift cwd' (((Options.createDefault (m := Except Exn)).withTreeFormat o.treeFormat).withCompactDirectories o.compactDirectories) p' = .ok s := by
  obtain ⟨t, ht, hdec⟩ := C23_text h w hf hr hnl ho.emoji (fun g hg => by rw [ho.ext] at hg; cases hg) (fun t ht => by
    refine ⟨fun d es hb => ?_, fun q a hb => ?_⟩
    · obtain ⟨n, hn⟩ := hb.at
      have := hplain t ht d (mem_entryPaths.2 ⟨n, _, hn, rfl⟩)
      exact ⟨this.2.1, this.1⟩
    · obtain ⟨n, hn⟩ := hb.at
      have := hplain t ht q (mem_entryPaths.2 ⟨n, _, hn, rfl⟩)
      exact ⟨this.2.1, this.1⟩)
  obtain ⟨t₁, E, ht₁, hE, hs⟩ := prettyPrint_disp.1 h
  rw [ht] at ht₁
  cases ht₁
  have hb : Recreate.Nude (labelling o) := ⟨ho.emoji, fun q => by unfold labelling; rw [ho.ext]⟩
  have hnamed := dispM_ok_named _ _ _ hE
  have hscan := scanned_sound hw (by rw [ho.order]; exact lawful_ALPHABETICAL) ht
  rw [ho.order] at hscan
  obtain ⟨hkey, hname⟩ := Recreate.key_of hfs ho.limit hdepth hscan (fun q hq => ⟨(hplain t ht q hq).2.1, (hplain t ht q hq).2.2⟩)
  have hgrow := Recreate.make_grow t fun q hq => (hplain t ht q hq).2.1
  unfold Recreate.Key at hkey
  rw [hgrow] at hkey hname
  have hwf : (grown (skeleton t)).WF := by
    unfold grown
    rw [Node.WF, Node.WFAll, Node.WFAll]
    exact ⟨List.nodup_singleton _, hkey.1, trivial⟩
  refine ⟨skeleton t, hdec, hwf, ?_⟩
  intro fs' cwd' p' dir hfs' hw' hsame hp'
  have hn : Path.IsName (grow (skeleton t)).1 := by
    rw [hname]
    have hne : (target cwd p).names ≠ [] := by
      cases hscan with
      | file _ _ => exact hnamed
      | tooDeep _ _ => exact hnamed.1
      | dir _ _ _ _ _ _ _ _ => exact hnamed.1
    exact target_clean (p := p) hw _ (List.mem_of_getLast? (OnePage.name_some hne))
  have hroot : target Path.root ⟨true, [(grow (skeleton t)).1]⟩ = ⟨true, [(grow (skeleton t)).1]⟩ := by
    refine target_self rfl (fun n h => ?_)
    rw [List.mem_singleton.1 h]
    exact hn
  have hat : (grown (skeleton t)).at ⟨true, [(grow (skeleton t)).1]⟩ = some (grow (skeleton t)).2 := by
    show (grown (skeleton t)).get [(grow (skeleton t)).1] = _
    simp [grown, Node.get, Node.lookupChild]
  obtain ⟨t', h1, -, h2, h3⟩ := hkey.2 (grown (skeleton t)) ⟨true, [(grow (skeleton t)).1]⟩ hwf rfl (by simp) hat rfl
  have hprint : prettyPrint (grown (skeleton t)).toFs.lift Path.root (((Options.createDefault (m := Except Exn)).withTreeFormat o.treeFormat).withCompactDirectories o.compactDirectories)
      ⟨true, [(grow (skeleton t)).1]⟩ = .ok s := by
    refine prettyPrint_disp.2 ⟨t', E, ?_, ?_, hs⟩
    · refine scanned_complete (o := ((Options.createDefault (m := Except Exn)).withTreeFormat o.treeFormat).withCompactDirectories o.compactDirectories) rfl lawful_ALPHABETICAL
        (sort_distinguishes lawful_const hwf.proper) ?_
      rw [hroot]
      exact h1
    · have hL : labelling (((Options.createDefault (m := Except Exn)).withTreeFormat o.treeFormat).withCompactDirectories o.compactDirectories) = labelling o := by
        unfold labelling
        rw [ho.ext]
        congr 1
        funext q
        exact (ho.emoji q).symm
      rw [hL, Recreate.disp_same hb true t' t h2 h3 hnamed]
      exact hE
  exact (C83_builtin (cwd := Path.root) (cwd' := cwd') (p := ⟨true, [(grow (skeleton t)).1]⟩) (p' := p') rfl hw' hsame hwf.proper hfs' (by rw [hroot]; rfl) (by rw [hp']; simp [under]) (by simp)
    o.treeFormat (-1) 20 o.compactDirectories none (by simp) s).2 hprint

namespace Recreate

/-- `/r/{b.txt, a/c/{y, x}}` -/
def nested : Node := .dir true [(j!"r", .dir true [(j!"b.txt", .regular 3), (j!"a", .dir true [(j!"c", .dir true [(j!"y", .regular 0), (j!"x", .regular 1)])])])]

theorem nested_wf : nested.WF := by simp [nested, Node.WF, Node.WFAll]

/-- Compact directories, otherwise the default options. -/
def compactly : Options (Except Exn) := (Options.createDefault (m := Except Exn)).withCompactDirectories true

theorem compactly_obeys : OnePage.Obeys compactly { OnePage.standard with compact := true } :=
  ⟨fun _ _ => rfl, fun _ _ => rfl, rfl, fun _ _ => rfl, rfl, rfl, fun _ _ => rfl, fun _ _ => rfl, by decide, by decide, by decide, by decide⟩

def nr : Path := ⟨true, [j!"r"]⟩
def na : Path := ⟨true, [j!"r", j!"a"]⟩
def nb : Path := ⟨true, [j!"r", j!"b.txt"]⟩
def nc : Path := ⟨true, [j!"r", j!"a", j!"c"]⟩
def nx : Path := ⟨true, [j!"r", j!"a", j!"c", j!"x"]⟩
def ny : Path := ⟨true, [j!"r", j!"a", j!"c", j!"y"]⟩

/-- The entries found below `/r`. -/
def nestedFound : TreeEntry := .dir nr [.dir na [.dir nc [.file nx ⟨false, false⟩, .file ny ⟨false, false⟩]], .file nb ⟨false, false⟩]

theorem nested_scanned : scanned nested.toFs Path.root compactly nr = .ok nestedFound := by
  refine scanned_complete rfl lawful_ALPHABETICAL (sort_distinguishes lawful_const nested_wf.proper) ?_
  refine Scanned.dir (A := answers nested.toFs compactly) (c := PathSorts.ALPHABETICAL) (maxDepth := 20) (k := 0) (p := nr) (n := -1) (cs := [nb, na]) (ks := [nb, na]) (srt := [na, nb])
    (es := [.dir na [.dir nc [.file nx ⟨false, false⟩, .file ny ⟨false, false⟩]], .file nb ⟨false, false⟩])
    rfl (by decide) rfl rfl (.keep rfl (.keep rfl .nil)) (by decide) (by decide) ?_
  refine .cons ?_ (.cons (.file rfl rfl) .nil)
  refine Scanned.dir (A := answers nested.toFs compactly) (c := PathSorts.ALPHABETICAL) (maxDepth := 20) (k := 1) (p := na) (n := -1) (cs := [nc]) (ks := [nc]) (srt := [nc])
    (es := [.dir nc [.file nx ⟨false, false⟩, .file ny ⟨false, false⟩]])
    rfl (by decide) rfl rfl (.keep rfl .nil) (by decide) (by decide) ?_
  refine .cons ?_ .nil
  exact Scanned.dir (A := answers nested.toFs compactly) (c := PathSorts.ALPHABETICAL) (maxDepth := 20) (k := 2) (p := nc) (n := -1) (cs := [ny, nx]) (ks := [ny, nx]) (srt := [nx, ny])
    (es := [.file nx ⟨false, false⟩, .file ny ⟨false, false⟩])
    rfl (by decide) rfl rfl (.keep rfl (.keep rfl .nil)) (by decide) (by decide) (.cons (.file rfl rfl) (.cons (.file rfl rfl) .nil))

/-- The line `a/c/` stands for the directory `c` in the directory `a`. -/
example : prettyPrint (grown (.dir j!"r" [.dir j!"a" [.dir j!"c" [.leaf j!"x", .leaf j!"y"]], .leaf j!"b.txt"])).toFs.lift Path.root compactly nr = .ok j!"r/\n├─ a/c/\n│  ├─ x\n│  └─ y\n└─ b.txt" := by
  have h : prettyPrint nested.toFs.lift Path.root compactly nr = .ok j!"r/\n├─ a/c/\n│  ├─ x\n│  └─ y\n└─ b.txt" := (C100_disk nested_wf rfl compactly_obeys lawful_const _ _).2 (by decide)
  have hp : ∀ t, scanned nested.toFs Path.root compactly nr = .ok t → ∀ q ∈ entryPaths t, NL ∉ lastName q ∧ SLASH ∉ lastName q ∧ (nested.toFs.isDir q = false → nested.toFs.readAttrs q = some ⟨false, false⟩) := by
    intro t ht
    rw [nested_scanned] at ht
    cases ht
    decide
  obtain ⟨N, h1, h2, h3⟩ := C109_compact rfl nested_wf.proper ⟨rfl, fun _ n h => by cases h; decide, fun _ => rfl, rfl⟩ (by decide) h hp unicode.1 unicode.2.1 unicode.2.2
  have h4 : decode TreeFormats.UNICODE_BOX_DRAWING j!"r/\n├─ a/c/\n│  ├─ x\n│  └─ y\n└─ b.txt" = some (.node j!"r/" [.node j!"a/c/" [.node j!"x" [], .node j!"y" []], .node j!"b.txt" []]) :=
    C03_decode_roundtrip _ 2 unicode.1 unicode.2.1 unicode.2.2 (.node j!"r/" [.node j!"a/c/" [.node j!"x" [], .node j!"y" []], .node j!"b.txt" []]) (by unfold NoNL; decide)
  have h5 : (decode compactly.treeFormat j!"r/\n├─ a/c/\n│  ├─ x\n│  └─ y\n└─ b.txt").map expand = some (.dir j!"r" [.dir j!"a" [.dir j!"c" [.leaf j!"x", .leaf j!"y"]], .leaf j!"b.txt"]) := by
    rw [show compactly.treeFormat = TreeFormats.UNICODE_BOX_DRAWING from rfl, h4]
    rfl
  cases h1.symm.trans h5
  exact h3 _ Path.root nr [] h2.proper rfl (same_toFs _ _) rfl

end Recreate
end JFTP
