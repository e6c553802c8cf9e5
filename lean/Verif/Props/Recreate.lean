import Verif.Spec.Recreate
import Verif.Props.OnePage
import Verif.Props.Reorder
import Verif.Props.Move
import Verif.Props.EndToEnd

/-
C109: recreating the files and directories that a text shows, and printing them, gives the same text.
-/

namespace JFTP
open Spec

namespace Recreate

mutual
/-- The displayed tree when only names are shown. -/
def lab : TreeEntry → Disp
  | .dir d es => .node (lastName d ++ j!"/") (labAll es)
  | .file p a => .node (lastName p ++ fileMark a) []
  | .skipped _ => .node j!"..." []
  | .maxDepth _ => .node j!"..." []
/-- The same for lists. -/
def labAll : List TreeEntry → List Disp
  | [] => []
  | e :: es => lab e :: labAll es
end

theorem labAll_eq (es : List TreeEntry) : labAll es = es.map lab := by
  induction es with
  | nil => rfl
  | cons e es ih => simp [labAll, ih]

theorem makeAll_eq (ds : List Disp) : makeAll ds = ds.map make := by
  induction ds with
  | nil => rfl
  | cons e es ih => simp [makeAll, ih]

/-- The labels are names only. -/
def Bare (L : LookM (Except Exn)) : Prop := (∀ q, L.emoji q = .ok none) ∧ L.compact = false ∧ ∀ q, L.ext q = .ok none

theorem dirText {L : LookM (Except Exn)} (hL : Bare L) {d : Path} (h : d.names ≠ []) : dirsTextM L.emoji d [d] = .ok (lastName d ++ j!"/") := by
  have hd : d.names.getLast? = some (lastName d) := OnePage.name_some h
  unfold dirsTextM namesM namesM
  rw [hL.1, hd]
  simp [emojiText, bind, Except.bind, pure, Except.pure]

theorem fileText {L : LookM (Except Exn)} (hL : Bare L) {d : Path} (h : d.names ≠ []) (a : Attrs) : fileTextM L.emoji d a = .ok (lastName d ++ fileMark a) := by
  have hd : d.names.getLast? = some (lastName d) := OnePage.name_some h
  unfold fileTextM nameM
  rw [hL.1, hd]
  simp [emojiText, bind, Except.bind, pure, Except.pure]

theorem dispDir_bare {L : LookM (Except Exn)} (hL : Bare L) (top : Bool) {d : Path} (hd : d.names ≠ []) {es : List TreeEntry} {ks : List Disp} (h : dispKidsM L es = .ok ks) :
    dispDirM L top d es [d] = .ok (.node (lastName d ++ j!"/") ks) := by
  rw [dispDirM.eq_def]
  split
  · rename_i c ces
    rw [dispKidsM, dispKidsM] at h
    obtain ⟨k, hk, h⟩ := except_bind_ok h
    cases h
    rw [hL.2.1, if_neg (by simp), dirText hL hd, hL.2.2, hk]
    simp [bind, Except.bind, pure, Except.pure]
  · rw [dirText hL hd, hL.2.2, h]
    simp [bind, Except.bind, pure, Except.pure]

mutual
theorem disp_lab {L : LookM (Except Exn)} (hL : Bare L) (top : Bool) (e : TreeEntry) (h : Named e) : dispM L top e = .ok (lab e) := by
  match e with
  | .file p a =>
    rw [Named] at h
    rw [dispM, fileText hL h, hL.2.2, lab]
    simp [bind, Except.bind, pure, Except.pure]
  | .skipped p => rw [dispM, lab]; rfl
  | .maxDepth n => rw [dispM, lab]; rfl
  | .dir d es =>
    rw [Named] at h
    rw [dispM, lab]
    exact dispDir_bare hL top h.1 (dispKids_lab hL es h.2)
termination_by (sizeOf e, 1)
theorem dispKids_lab {L : LookM (Except Exn)} (hL : Bare L) (es : List TreeEntry) (h : NamedAll es) : dispKidsM L es = .ok (labAll es) := by
  match es with
  | [] => rw [dispKidsM, labAll]; rfl
  | e :: es =>
    rw [NamedAll] at h
    rw [dispKidsM, disp_lab hL false e h.1, dispKids_lab hL es h.2, labAll]
    rfl
termination_by (sizeOf es, 2)
end

theorem lastName_child (p : Path) (n : JStr) : lastName (p.child n) = n := by
  unfold lastName Path.child
  split <;> simp

theorem nameKey_eq (p : Path) : PathSorts.nameKey p = lastName p := OnePage.name_eq p

/-- The entries that are made in place of the entry `e`, found at the depth `k`: wherever they are made, printing finds entries with the same labels. -/
def Key (k : Nat) (e : TreeEntry) : Prop :=
  (make (lab e)).2.WF ∧ ∀ (disk : Node) (q : Path), disk.WF → q.abs = true → q.names ≠ [] → disk.at q = some (make (lab e)).2 → lastName q = (make (lab e)).1 →
    ∃ e', Scanned (answers disk.toFs Options.createDefault) PathSorts.ALPHABETICAL 20 k q e' ∧ lab e' = lab e ∧ skeleton e' = skeleton e ∧ Named e'

/-- What is assumed of displayed entries: no slash in a name, and no mark behind it. -/
def Fine (fs : PureFs) (q : Path) : Prop := SLASH ∉ lastName q ∧ (fs.isDir q = false → fs.readAttrs q = some ⟨false, false⟩)

theorem make_dir (n : JStr) (ks : List Disp) : make (.node (n ++ j!"/") ks) = (n, .dir true (makeAll ks)) := by
  rw [make, if_pos (by rw [List.getLast?_append]; rfl)]
  simp

theorem make_file {n : JStr} (h : SLASH ∉ n) (ks : List Disp) : make (.node n ks) = (n, .regular 0) := by
  rw [make, if_neg (fun hc => h (List.mem_of_getLast? hc))]

theorem wfAll_iff (cs : List (JStr × Node)) : Node.WFAll cs ↔ ∀ c ∈ cs, c.2.WF := by
  induction cs with
  | nil => simp [Node.WFAll]
  | cons c cs ih => simp [Node.WFAll, ih]

theorem kept_all (fs : PureFs) (cs : List Path) : Kept (answers fs (Options.createDefault (m := Except Exn))) cs cs := by
  induction cs with
  | nil => exact .nil
  | cons c cs ih =>
    refine .keep ?_ ih
    show (Options.createDefault (m := Except Exn)).pathFilter fs.lift c = .ok true
    rw [pathFilter_eq]
    split <;> rfl

theorem disk_isDir {disk : Node} {q : Path} {b : Bool} {cs : List (JStr × Node)} (h : disk.at q = some (.dir b cs)) : disk.toFs.isDir q = true := by
  show (match disk.at q with | some (.dir _ _) => true | _ => false) = true
  rw [h]

theorem disk_list {disk : Node} {q : Path} {cs : List (JStr × Node)} (h : disk.at q = some (.dir true cs)) : disk.toFs.listDir q = .opened (cs.map (fun c => q.child c.1)) false := by
  show (match disk.at q with | some (.dir true cs) => Listing.opened (cs.map (fun c : JStr × Node => q.child c.1)) false | _ => .openFailed) = _
  rw [h]

theorem disk_file {disk : Node} {q : Path} {n : Nat} (h : disk.at q = some (.regular n)) : disk.toFs.isDir q = false ∧ disk.toFs.readAttrs q = some ⟨false, false⟩ := by
  constructor
  · show (match disk.at q with | some (.dir _ _) => true | _ => false) = false
    rw [h]
  · show (match disk.follow 41 q with
      | some (.regular _) => some (⟨false, false⟩ : Attrs)
      | some (.dir _ _) => some ⟨false, false⟩
      | some .special => some ⟨false, true⟩
      | some (.symlink _) => some ⟨true, false⟩
      | none => none) = _
    have : disk.follow 41 q = some (.regular n) := by rw [Node.follow, h]
    rw [this]

theorem make_kids {disk : Node} (hw : disk.WF) {q : Path} (ha : q.abs = true) {k : Nat} {ps : List Path} {es : List TreeEntry}
    (h : List.Forall₂ (fun p e => Key k e ∧ (make (lab e)).1 = lastName p) ps es)
    (hat : ∀ e ∈ es, disk.at (q.child (make (lab e)).1) = some (make (lab e)).2) :
    ∃ es', ScannedAll (answers disk.toFs Options.createDefault) PathSorts.ALPHABETICAL 20 k (ps.map (fun p => q.child (lastName p))) es' ∧ labAll es' = labAll es ∧ skeletonAll es' = skeletonAll es ∧ NamedAll es' := by
  induction h with
  | nil => exact ⟨[], .nil, rfl, rfl, trivial⟩
  | @cons p e ps es h1 _ ih =>
    obtain ⟨es', h2, h3, h3', h4⟩ := ih (fun e he => hat e (.tail _ he))
    have hq : (q.child (make (lab e)).1).abs = true := by rw [OnePage.child_abs ha]
    obtain ⟨e', h5, h6, h6', h7⟩ := h1.1.2 disk _ hw hq (OnePage.child_names _ _) (hat e (.head _)) (lastName_child _ _)
    rw [h1.2] at h5
    exact ⟨e' :: es', .cons h5 h2, by rw [labAll, labAll, h6, h3], by rw [skeletonAll, skeletonAll, h6', h3'], h7, h4⟩

theorem make_dir_key {k : Nat} (hk : k < 20) {n : JStr} {d : Path} (hd : lastName d = n) {ps : List Path} {es : List TreeEntry}
    (h : List.Forall₂ (fun p e => Key (k + 1) e ∧ (make (lab e)).1 = lastName p) ps es) (hnd : (ps.map lastName).Nodup) (hs : ps.Pairwise (fun a b => PathSorts.ALPHABETICAL a b ≤ 0)) :
    Key k (.dir d es) := by
  have hnames : (es.map (fun e => (make (lab e)).1)) = ps.map lastName := by
    clear hnd hs
    induction h with
    | nil => rfl
    | cons h1 _ ih => simp [h1.2, ih]
  have hwf : ∀ e ∈ es, (make (lab e)).2.WF := by
    intro e he
    obtain ⟨p, _, hp⟩ := forall₂_mem h.flip he
    exact hp.1.1
  have hm : make (lab (.dir d es)) = (n, .dir true (es.map (fun e => make (lab e)))) := by
    rw [lab, make_dir, hd, makeAll_eq, labAll_eq, List.map_map]
    rfl
  unfold Key
  rw [hm]
  refine ⟨?_, ?_⟩
  · rw [Node.WF, wfAll_iff, List.map_map]
    refine ⟨?_, ?_⟩
    · show (es.map (fun e => (make (lab e)).1)).Nodup
      rw [hnames]; exact hnd
    · intro c hc
      obtain ⟨e, he, rfl⟩ := List.mem_map.1 hc
      exact hwf e he
  · intro disk q hw ha hne hat hq
    obtain ⟨es', h1, h2, h2', h3⟩ := make_kids hw ha h (fun e he => OnePage.at_child hw ha hat (List.mem_map.2 ⟨e, he, rfl⟩))
    have hl : disk.toFs.listDir q = .opened (ps.map (fun p => q.child (lastName p))) false := by
      rw [disk_list hat, List.map_map]
      have : (es.map ((fun c : JStr × Node => q.child c.1) ∘ fun e => make (lab e))) = (es.map (fun e => (make (lab e)).1)).map q.child := by simp
      rw [this, hnames, List.map_map]
      rfl
    refine ⟨.dir q es', ?_, ?_, ?_, ?_⟩
    · have := Scanned.dir (A := answers disk.toFs Options.createDefault) (c := PathSorts.ALPHABETICAL) (maxDepth := 20) (k := k) (p := q) (n := -1)
        (cs := ps.map (fun p => q.child (lastName p))) (ks := ps.map (fun p => q.child (lastName p))) (srt := ps.map (fun p => q.child (lastName p))) (es := es')
        (disk_isDir hat) (by omega) rfl hl (kept_all _ _) (List.Perm.refl _) ?_ h1
      · simpa [moreMark] using this
      · rw [List.pairwise_map]
        refine hs.imp ?_
        intro a b hab
        unfold PathSorts.ALPHABETICAL at hab ⊢
        rw [nameKey_eq, nameKey_eq] at hab ⊢
        rw [lastName_child, lastName_child]
        exact hab
    · rw [lab, lab, h2, hq, hd]
    · rw [skeleton, skeleton, h2', hq, hd]
    · exact ⟨hne, h3⟩

variable {fs : PureFs} {o : Options (Except Exn)}

mutual
theorem key_of (hfs : ProperFs fs) (ho : ∀ q n, o.childLimit q = .ok n → n < 0) {D : Int} (hD : D ≤ 20) {k : Nat} {p : Path} {e : TreeEntry}
    (h : Scanned (answers fs o) PathSorts.ALPHABETICAL D k p e) (hf : ∀ q ∈ entryPaths e, Fine fs q) : Key k e ∧ (make (lab e)).1 = lastName p := by
  cases h with
  | @file _ _ a h1 h2 =>
    have hp := hf p (by simp [entryPaths, events])
    have ha : a = ⟨false, false⟩ := by
      have := hp.2 h1
      rw [show fs.readAttrs p = some a from h2] at this
      exact Option.some.inj this
    subst ha
    have hm : make (lab (.file p ⟨false, false⟩)) = (lastName p, .regular 0) := by
      rw [lab]
      have : lastName p ++ fileMark ⟨false, false⟩ = lastName p := by simp [fileMark]
      rw [this]; exact make_file hp.1 _
    refine ⟨⟨by rw [hm]; trivial, ?_⟩, by rw [hm]⟩
    intro disk q hw hq hne hat hn
    rw [hm] at hat hn
    exact ⟨.file q ⟨false, false⟩, .file (disk_file hat).1 (disk_file hat).2, by rw [lab, lab, hn], by rw [skeleton, skeleton, hn], hne⟩
  | tooDeep h1 h2 =>
    have hm : make (lab (.dir p [.maxDepth k])) = (lastName p, .dir true [(j!"...", .regular 0)]) := by
      rw [lab, make_dir]
      rfl
    refine ⟨⟨by rw [hm]; simp [Node.WF, Node.WFAll], ?_⟩, by rw [hm]⟩
    intro disk q hw hq hne hat hn
    rw [hm] at hat hn
    by_cases hk : (20 : Int) ≤ k
    · exact ⟨.dir q [.maxDepth k], .tooDeep (disk_isDir hat) hk, by rw [lab, lab, hn], by rw [skeleton, skeleton, hn], hne, trivial, trivial⟩
    · have hc : disk.at (q.child j!"...") = some (.regular 0) := OnePage.at_child hw hq hat (.head _)
      refine ⟨.dir q [.file (q.child j!"...") ⟨false, false⟩], ?_, ?_, ?_, hne, OnePage.child_names _ _, trivial⟩
      · have := Scanned.dir (A := answers disk.toFs Options.createDefault) (c := PathSorts.ALPHABETICAL) (maxDepth := 20) (k := k) (p := q) (n := -1)
          (cs := [q.child j!"..."]) (ks := [q.child j!"..."]) (srt := [q.child j!"..."]) (es := [.file (q.child j!"...") ⟨false, false⟩])
          (disk_isDir hat) (by omega) rfl (disk_list hat) (kept_all _ _) (List.Perm.refl _) (List.pairwise_singleton _ _) (.cons (.file (disk_file hc).1 (disk_file hc).2) .nil)
        simpa [moreMark] using this
      · rw [lab, lab, hn, labAll, labAll, lab, lastName_child]; rfl
      · rw [skeleton, skeleton, hn, skeletonAll, skeletonAll, skeleton, lastName_child]; rfl
  | @dir _ _ n cs ks srt es h1 hk h2 h3 h4 h5 h6 h7 =>
    have hn : n < 0 := ho p n h2
    have hm : ∀ l, moreMark n l p = [] := by intro l; unfold moreMark; rw [if_neg (by omega)]
    have hl : ∀ l, limitTo n l = l := by intro l; unfold limitTo; rw [if_pos hn]
    rw [hl] at h7
    rw [hm, List.append_nil] at hf ⊢
    have hf' : ∀ e ∈ es, ∀ q ∈ entryPaths e, Fine fs q := fun e he q hq => hf q (mem_entryPaths_dir.2 (.inr ⟨e, he, hq⟩))
    have h8 := keys_of hfs ho hD h7 hf'
    refine ⟨make_dir_key (by omega) rfl h8 ?_ h6, by rw [lab, make_dir]⟩
    obtain ⟨hnd, hch⟩ := hfs p cs false h3
    have hks : srt.Nodup := h5.nodup_iff.2 (h4.subset.nodup hnd)
    refine (List.nodup_map_iff_inj_on hks).2 ?_
    intro a ha b hb hab
    obtain ⟨x, rfl⟩ := hch a (h4.subset.subset (h5.mem_iff.1 ha))
    obtain ⟨y, rfl⟩ := hch b (h4.subset.subset (h5.mem_iff.1 hb))
    rw [lastName_child, lastName_child] at hab
    rw [hab]
termination_by ((D - k).toNat, 0)
decreasing_by exact Prod.Lex.left _ _ (by omega)
theorem keys_of (hfs : ProperFs fs) (ho : ∀ q n, o.childLimit q = .ok n → n < 0) {D : Int} (hD : D ≤ 20) {k : Nat} {ps : List Path} {es : List TreeEntry}
    (h : ScannedAll (answers fs o) PathSorts.ALPHABETICAL D k ps es) (hf : ∀ e ∈ es, ∀ q ∈ entryPaths e, Fine fs q) :
    List.Forall₂ (fun p e => Key k e ∧ (make (lab e)).1 = lastName p) ps es := by
  match ps, es, h with
  | _, _, .nil => exact .nil
  | _, _, .cons h1 h2 => exact .cons (key_of hfs ho hD h1 (hf _ (.head _))) (keys_of hfs ho hD h2 (fun e he => hf e (.tail _ he)))
termination_by ((D - k).toNat, ps.length + 1)
end

end Recreate

variable {fs fs' : PureFs} {cwd cwd' p p' : Path} {o : Options (Except Exn)} {s : JStr}

/-- **C109**: let only names be shown, in alphabetical order and without child limit (filters are free, and so is the tree format). From the returned text one can read off the files and directories it shows.
Make them, anywhere, on any machine: a file for every name, a directory for every name with a slash. Printed with the default options and the same tree format, they give the same text. -/
theorem C109_recreate (hw : cwd.abs = true) (hfs : ProperFs fs) (ho : NamesOnly o) (h : prettyPrint fs.lift cwd o p = .ok s)
    (hplain : ∀ t, scanned fs cwd o p = .ok t → ∀ q ∈ entryPaths t, NL ∉ lastName q ∧ SLASH ∉ lastName q ∧ (fs.isDir q = false → fs.readAttrs q = some ⟨false, false⟩))
    {w : Nat} (hf : TreeFormatOK o.treeFormat w) (hr : Readable o.treeFormat) (hnl : FormatNoNL o.treeFormat) :
    ∃ D, decode o.treeFormat s = some D ∧ (made D).WF ∧
      ∀ (fs' : PureFs) (cwd' p' : Path) (dir : List JStr), ProperFs fs' → cwd'.abs = true → SameBelow (made D).toFs fs' [(make D).1] (dir ++ [(make D).1]) → target cwd' p' = ⟨true, dir ++ [(make D).1]⟩ →
        prettyPrint fs'.lift cwd' ((Options.createDefault (m := Except Exn)).withTreeFormat o.treeFormat) p' = .ok s := by
  obtain ⟨t, E, ht, hE, hs⟩ := prettyPrint_disp.1 h
  have hb : Recreate.Bare (labelling o) := ⟨ho.emoji, ho.compact, fun q => by unfold labelling; rw [ho.ext]⟩
  obtain ⟨hnamed, T, hT, hET⟩ := dispM_ok_shows _ _ hE
  rw [Recreate.disp_lab hb true t hnamed] at hE
  cases hE
  have hscan := scanned_sound hw (by rw [ho.order]; exact lawful_ALPHABETICAL) ht
  rw [ho.order] at hscan
  obtain ⟨hkey, hname⟩ := Recreate.key_of hfs ho.limit ho.depth hscan (fun q hq => ⟨(hplain t ht q hq).2.1, (hplain t ht q hq).2.2⟩)
  have hclean : CleanText o t := by
    refine ⟨fun q hq => (hplain t ht q hq).1, fun q hq e he => ?_, fun q hq x hx => ?_⟩
    · have he : answerOf (o.emojiMapping q) = some e := he
      rw [ho.emoji q] at he; cases he
    · unfold lookOf at hx; rw [ho.ext] at hx; cases hx
  have hL : (labelling o).total = lookOf o := by
    unfold LookM.total lookOf labelling
    cases o.lineExtension <;> rfl
  rw [hL] at hT hET
  have hp : Prints o t T s := ⟨hnamed, hT, by rw [hs, hET]⟩
  have hD : decode o.treeFormat s = some (Recreate.lab t) := by
    rw [hs]
    refine C03_decode_roundtrip _ w hf hr hnl _ ?_
    rw [hET]
    exact hp.labels_noNL hclean
  have hwf : (made (Recreate.lab t)).WF := by
    unfold made
    rw [Node.WF, Node.WFAll, Node.WFAll]
    exact ⟨List.nodup_singleton _, hkey.1, trivial⟩
  refine ⟨Recreate.lab t, hD, hwf, ?_⟩
  intro fs' cwd' p' dir hfs' hw' hsame hp'
  have hn : Path.IsName (make (Recreate.lab t)).1 := by
    rw [hname]
    have hne : (target cwd p).names ≠ [] := by
      cases hscan with
      | file _ _ => exact hnamed
      | tooDeep _ _ => exact hnamed.1
      | dir _ _ _ _ _ _ _ _ => exact hnamed.1
    exact target_clean (p := p) hw _ (List.mem_of_getLast? (OnePage.name_some hne))
  have hroot : target Path.root ⟨true, [(make (Recreate.lab t)).1]⟩ = ⟨true, [(make (Recreate.lab t)).1]⟩ := by
    refine target_self rfl (fun n h => ?_)
    rw [List.mem_singleton.1 h]
    exact hn
  have hat : (made (Recreate.lab t)).at ⟨true, [(make (Recreate.lab t)).1]⟩ = some (make (Recreate.lab t)).2 := by
    show (made (Recreate.lab t)).get [(make (Recreate.lab t)).1] = _
    simp [made, Node.get, Node.lookupChild]
  obtain ⟨t', h1, h2, -, h3⟩ := hkey.2 (made (Recreate.lab t)) ⟨true, [(make (Recreate.lab t)).1]⟩ hwf rfl (by simp) hat rfl
  have hprint : prettyPrint (made (Recreate.lab t)).toFs.lift Path.root ((Options.createDefault (m := Except Exn)).withTreeFormat o.treeFormat) ⟨true, [(make (Recreate.lab t)).1]⟩ = .ok s := by
    refine prettyPrint_disp.2 ⟨t', Recreate.lab t', ?_, Recreate.disp_lab ⟨fun _ => rfl, rfl, fun _ => rfl⟩ true t' h3, by rw [h2]; exact hs⟩
    refine scanned_complete (o := (Options.createDefault (m := Except Exn)).withTreeFormat o.treeFormat) rfl lawful_ALPHABETICAL (sort_distinguishes lawful_const hwf.proper) ?_
    rw [hroot]
    exact h1
  have := C83_builtin (cwd := Path.root) (cwd' := cwd') (p := ⟨true, [(make (Recreate.lab t)).1]⟩) (p' := p') rfl hw' hsame hwf.proper hfs' (by rw [hroot]; rfl) (by rw [hp']; simp [under]) (by simp)
    o.treeFormat (-1) 20 false none (by simp) s
  exact this.2 hprint

/-- The default options, with any filters and any smaller depth, show names only. -/
theorem namesOnly (dm fm : Matcher (Except Exn)) {d : Int} (hd : d ≤ 20) (f : TreeFormat) :
    NamesOnly (((((Options.createDefault (m := Except Exn)).filterDirectories dm).filterFiles fm).withMaxDepth d).withTreeFormat f) :=
  ⟨rfl, fun _ n h => by cases h; decide, fun _ => rfl, rfl, rfl, hd⟩

namespace Recreate

/-- `/r/{b.txt, a/{y, x}}` -/
def plain : Node := .dir true [(j!"r", .dir true [(j!"b.txt", .regular 3), (j!"a", .dir true [(j!"y", .regular 0), (j!"x", .regular 1)])])]

theorem plain_wf : plain.WF := by simp [plain, Node.WF, Node.WFAll]

/-- A directory with a fifo `a` and a file `a!`. -/
def fifo : Node := .dir true [(j!"r", .dir true [(j!"a", .special), (j!"a!", .regular 0)])]

theorem fifo_wf : fifo.WF := by simp [fifo, Node.WF, Node.WFAll]

/-- At most one entry per directory. -/
def oneEach : OnePage.Settings := { OnePage.standard with limit := fun _ => 1 }

theorem obeys_oneEach : OnePage.Obeys ((Options.createDefault (m := Except Exn)).withChildLimit 1) oneEach :=
  ⟨fun _ _ => rfl, fun _ _ => rfl, rfl, fun _ _ => rfl, rfl, rfl, fun _ _ => rfl, fun _ _ => rfl, by decide, by decide, by decide, by decide⟩

theorem unicode : TreeFormatOK TreeFormats.UNICODE_BOX_DRAWING 2 ∧ Readable TreeFormats.UNICODE_BOX_DRAWING ∧ FormatNoNL TreeFormats.UNICODE_BOX_DRAWING :=
  ⟨by unfold TreeFormatOK; decide, by unfold Readable; decide, builtin_formats_noNL.1⟩

end Recreate

/-- **C109** for the default options. -/
theorem C109_default (hw : cwd.abs = true) (hfs : ProperFs fs) (h : prettyPrint fs.lift cwd (Options.createDefault (m := Except Exn)) p = .ok s)
    (hplain : ∀ t, scanned fs cwd Options.createDefault p = .ok t → ∀ q ∈ entryPaths t, NL ∉ lastName q ∧ SLASH ∉ lastName q ∧ (fs.isDir q = false → fs.readAttrs q = some ⟨false, false⟩)) :
    ∃ D, decode TreeFormats.UNICODE_BOX_DRAWING s = some D ∧ (made D).WF ∧
      ∀ (fs' : PureFs) (cwd' p' : Path) (dir : List JStr), ProperFs fs' → cwd'.abs = true → SameBelow (made D).toFs fs' [(make D).1] (dir ++ [(make D).1]) → target cwd' p' = ⟨true, dir ++ [(make D).1]⟩ →
        prettyPrint fs'.lift cwd' (Options.createDefault (m := Except Exn)) p' = .ok s :=
  C109_recreate hw hfs ⟨rfl, fun _ n h => by cases h; decide, fun _ => rfl, rfl, rfl, by decide⟩ h hplain Recreate.unicode.1 Recreate.unicode.2.1 Recreate.unicode.2.2

/-- **C109** needs the absence of marks: with a fifo `a` beside a file `a!`, the text shows `a?` before `a!`, and files with these names are printed in the other order. -/
theorem C109_marks_needed : ∃ (disk : Node) (p : Path) (s s' : JStr) (D : Disp), disk.WF ∧ prettyPrint disk.toFs.lift Path.root (Options.createDefault (m := Except Exn)) p = .ok s ∧
    decode TreeFormats.UNICODE_BOX_DRAWING s = some D ∧ prettyPrint (made D).toFs.lift Path.root (Options.createDefault (m := Except Exn)) ⟨true, [(make D).1]⟩ = .ok s' ∧ s' ≠ s := by
  refine ⟨Recreate.fifo, Demo.r, j!"r/\n├─ a?\n└─ a!", j!"r/\n├─ a!\n└─ a?", .node j!"r/" [.node j!"a?" [], .node j!"a!" []], Recreate.fifo_wf,
    (C100_default Recreate.fifo_wf rfl _ _).2 (by decide), ?_, (C100_default (by simp [made, make, makeAll, SLASH, Node.WF, Node.WFAll]) rfl _ _).2 (by decide), by decide⟩
  exact C03_decode_roundtrip _ 2 Recreate.unicode.1 Recreate.unicode.2.1 Recreate.unicode.2.2 (.node j!"r/" [.node j!"a?" [], .node j!"a!" []]) (by unfold NoNL; decide)

/-- **C109** needs the absence of child limits: a file called `...` stands before the letters. -/
theorem C109_limit_needed : ∃ (disk : Node) (p : Path) (s s' : JStr) (D : Disp), disk.WF ∧ prettyPrint disk.toFs.lift Path.root ((Options.createDefault (m := Except Exn)).withChildLimit 1) p = .ok s ∧
    decode TreeFormats.UNICODE_BOX_DRAWING s = some D ∧ prettyPrint (made D).toFs.lift Path.root (Options.createDefault (m := Except Exn)) ⟨true, [(make D).1]⟩ = .ok s' ∧ s' ≠ s := by
  refine ⟨Recreate.plain, ⟨true, [j!"r", j!"a"]⟩, j!"a/\n├─ x\n└─ ...", j!"a/\n├─ ...\n└─ x", .node j!"a/" [.node j!"x" [], .node j!"..." []], Recreate.plain_wf,
    (C100_disk Recreate.plain_wf rfl Recreate.obeys_oneEach lawful_const _ _).2 (by decide), ?_, (C100_default (by simp [made, make, makeAll, SLASH, Node.WF, Node.WFAll]) rfl _ _).2 (by decide), by decide⟩
  exact C03_decode_roundtrip _ 2 Recreate.unicode.1 Recreate.unicode.2.1 Recreate.unicode.2.2 (.node j!"a/" [.node j!"x" [], .node j!"..." []]) (by unfold NoNL; decide)

namespace Recreate

open Demo (r a x y b)

/-- The entries found below `/r`. -/
def plainFound : TreeEntry := .dir r [.dir a [.file x ⟨false, false⟩, .file y ⟨false, false⟩], .file b ⟨false, false⟩]

theorem plain_scanned : scanned plain.toFs Path.root (Options.createDefault (m := Except Exn)) r = .ok plainFound := by
  refine scanned_complete rfl lawful_ALPHABETICAL (sort_distinguishes lawful_const plain_wf.proper) ?_
  refine Scanned.dir (A := answers plain.toFs Options.createDefault) (c := PathSorts.ALPHABETICAL) (maxDepth := 20) (k := 0) (p := r) (n := -1) (cs := [b, a]) (ks := [b, a]) (srt := [a, b])
    (es := [.dir a [.file x ⟨false, false⟩, .file y ⟨false, false⟩], .file b ⟨false, false⟩])
    rfl (by decide) rfl rfl (.keep rfl (.keep rfl .nil)) (by decide) (by decide) ?_
  refine .cons ?_ (.cons (.file rfl rfl) .nil)
  exact Scanned.dir (A := answers plain.toFs Options.createDefault) (c := PathSorts.ALPHABETICAL) (maxDepth := 20) (k := 1) (p := a) (n := -1) (cs := [y, x]) (ks := [y, x]) (srt := [x, y])
    (es := [.file x ⟨false, false⟩, .file y ⟨false, false⟩])
    rfl (by decide) rfl rfl (.keep rfl (.keep rfl .nil)) (by decide) (by decide) (.cons (.file rfl rfl) (.cons (.file rfl rfl) .nil))

/-- What is below a path of a disk is below the same path of the same disk. -/
theorem same_toFs (t : Node) (b : List JStr) : SameBelow t.toFs t.toFs b b := by
  refine ⟨fun _ => rfl, fun _ => rfl, fun rest => ?_⟩
  have hch : ∀ n, (under b rest).child n = under b (rest ++ [n]) := by
    intro n
    rw [names_child rfl]; simp [under]
  simp only [Node.toFs, hch]
  cases t.at (under b rest) with
  | none => exact .inl ⟨rfl, rfl⟩
  | some u =>
    cases u with
    | dir rd cs =>
      cases rd with
      | false => exact .inl ⟨rfl, rfl⟩
      | true => exact .inr ⟨cs.map Prod.fst, cs.map Prod.fst, false, by simp [List.map_map, Function.comp_def], by simp [List.map_map, Function.comp_def], .refl _⟩
    | regular _ => exact .inl ⟨rfl, rfl⟩
    | special => exact .inl ⟨rfl, rfl⟩
    | symlink _ => exact .inl ⟨rfl, rfl⟩

/-- The hypotheses are met by a concrete disk: the files and directories which the text of `/r` shows, made on an empty disk, are printed alike. -/
example : prettyPrint (made (.node j!"r/" [.node j!"a/" [.node j!"x" [], .node j!"y" []], .node j!"b.txt" []])).toFs.lift Path.root (Options.createDefault (m := Except Exn)) r =
    .ok j!"r/\n├─ a/\n│  ├─ x\n│  └─ y\n└─ b.txt" := by
  have h : prettyPrint plain.toFs.lift Path.root (Options.createDefault (m := Except Exn)) r = .ok j!"r/\n├─ a/\n│  ├─ x\n│  └─ y\n└─ b.txt" :=
    (C100_default plain_wf rfl _ _).2 (by decide)
  have hp : ∀ t, scanned plain.toFs Path.root (Options.createDefault (m := Except Exn)) r = .ok t → ∀ q ∈ entryPaths t, NL ∉ lastName q ∧ SLASH ∉ lastName q ∧ (plain.toFs.isDir q = false → plain.toFs.readAttrs q = some ⟨false, false⟩) := by
    intro t ht
    rw [plain_scanned] at ht
    cases ht
    decide
  obtain ⟨D, h1, h2, h3⟩ := C109_default rfl plain_wf.proper h hp
  have h4 : decode TreeFormats.UNICODE_BOX_DRAWING j!"r/\n├─ a/\n│  ├─ x\n│  └─ y\n└─ b.txt" = some (.node j!"r/" [.node j!"a/" [.node j!"x" [], .node j!"y" []], .node j!"b.txt" []]) :=
    C03_decode_roundtrip _ 2 unicode.1 unicode.2.1 unicode.2.2 (.node j!"r/" [.node j!"a/" [.node j!"x" [], .node j!"y" []], .node j!"b.txt" []]) (by unfold NoNL; decide)
  cases h1.symm.trans h4
  exact h3 _ Path.root r [] h2.proper rfl (same_toFs _ _) rfl

end Recreate

end JFTP
