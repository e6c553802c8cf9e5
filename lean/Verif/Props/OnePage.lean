import Verif.Spec.OnePage
import Verif.Props.Printed
import Verif.Props.Limits
import Verif.Props.Move
import Verif.Props.Glob

/-!
C100: the printer computes the text of the one-page program.
-/

namespace JFTP
open Spec Spec.OnePage

namespace OnePage

theorem child_names (p : Path) (n : JStr) : (p.child n).names ≠ [] := by
  unfold Path.child; split <;> simp

theorem name_eq (p : Path) : p.getFileName.getD [] = name p := by
  unfold Path.getFileName name
  rw [List.getLastD_eq_getLast?]

theorem name_some {p : Path} (h : p.names ≠ []) : p.names.getLast? = some (name p) := by
  unfold name
  rw [List.getLastD_eq_getLast?]
  cases h' : p.names.getLast? with
  | none => exact absurd (List.getLast?_eq_none_iff.1 h') h
  | some x => rfl

theorem precedes_iff : ∀ a b : JStr, precedes a b = true ↔ compareTo a b < 0
  | [], [] => by simp [precedes, compareTo]
  | [], y :: ys => by simp [precedes, compareTo]; try omega
  | x :: xs, [] => by simp [precedes, compareTo]; try omega
  | x :: xs, y :: ys => by
    unfold precedes compareTo
    by_cases h : x = y
    · subst h; simp [precedes_iff xs ys]
    · have h' : x.toNat ≠ y.toNat := fun e => h (UInt16.toNat_inj.1 e)
      rw [if_neg h]; simp [h]; omega

theorem before_iff (S : Settings) (a b : Path) : before S a b = true ↔ thenComparing S.order PathSorts.ALPHABETICAL a b < 0 := by
  unfold before thenComparing PathSorts.ALPHABETICAL PathSorts.nameKey
  rw [name_eq, name_eq]
  dsimp only
  by_cases h : S.order a b = 0
  · rw [if_neg (by simpa using h)]; simp [h, precedes_iff]
  · rw [if_pos h]; simp [h]

theorem insert_perm (S : Settings) (x : Kid) : ∀ l, (OnePage.insert S x l).Perm (x :: l)
  | [] => by simp [OnePage.insert]
  | y :: ys => by
    unfold OnePage.insert
    split
    · exact ((insert_perm S x ys).cons y).trans (List.Perm.swap x y ys)
    · exact List.Perm.refl _

/-- The order of the entries. -/
def InOrder (S : Settings) (a b : Kid) : Prop := thenComparing S.order PathSorts.ALPHABETICAL a.path b.path ≤ 0

theorem insert_sorted {S : Settings} (hc : LawfulCmp S.order) (x : Kid) : ∀ {l : List Kid}, l.Pairwise (InOrder S) → (OnePage.insert S x l).Pairwise (InOrder S)
  | [], _ => by simp [OnePage.insert]
  | y :: ys, h => by
    have hl := sort_lawful hc
    obtain ⟨h1, h2⟩ := List.pairwise_cons.1 h
    unfold OnePage.insert
    split
    · rename_i hb
      rw [before_iff] at hb
      refine List.pairwise_cons.2 ⟨fun z hz => ?_, insert_sorted hc x h2⟩
      rcases List.mem_cons.1 ((insert_perm S x ys).mem_iff.1 hz) with rfl | hz
      · unfold InOrder; omega
      · exact h1 z hz
    · rename_i hb
      rw [before_iff] at hb
      have hxy : InOrder S x y := by
        unfold InOrder
        by_contra hlt
        have := (hl.antisymm y.path x.path).2 (by omega)
        exact hb this
      refine List.pairwise_cons.2 ⟨fun z hz => ?_, h⟩
      rcases List.mem_cons.1 hz with rfl | hz
      · exact hxy
      · exact hl.trans _ _ _ hxy (h1 z hz)

/-- An entry that is accepted. -/
def accepted (S : Settings) (x : Kid) : Bool := if x.isDir then S.showDir x.path else S.showFile x.path

theorem arrange_perm (S : Settings) : ∀ l, (arrange S l).Perm (l.filter (accepted S))
  | [] => List.Perm.refl _
  | x :: xs => by
    unfold arrange
    by_cases h : accepted S x = true
    · rw [List.filter_cons_of_pos h, if_pos (by unfold accepted at h; exact h)]
      exact (insert_perm S x _).trans ((arrange_perm S xs).cons x)
    · rw [List.filter_cons_of_neg h, if_neg (by unfold accepted at h; exact h)]
      exact arrange_perm S xs

theorem arrange_sorted {S : Settings} (hc : LawfulCmp S.order) : ∀ l, (arrange S l).Pairwise (InOrder S)
  | [] => List.Pairwise.nil
  | x :: xs => by
    unfold arrange
    by_cases h : accepted S x = true
    · rw [if_pos (by unfold accepted at h; exact h)]; exact insert_sorted hc x (arrange_sorted hc xs)
    · rw [if_neg (by unfold accepted at h; exact h)]; exact arrange_sorted hc xs

theorem arrange_mem {S : Settings} {l : List Kid} {x : Kid} (h : x ∈ arrange S l) : x ∈ l :=
  (List.mem_filter.1 ((arrange_perm S l).mem_iff.1 h)).1

section
variable {fs : PureFs} {o : Options (Except Exn)} {S : Settings}

/-- What the renderer makes of the callbacks. -/
abbrev look (o : Options (Except Exn)) : LookM (Except Exn) := ⟨o.toRender.emojiMapping, o.toRender.compactDirectories, extensionOf o.toRender⟩

/-- The names of directories on one line. -/
def slashed (ds : List Path) : JStr := (ds.map (fun d => name d ++ j!"/")).flatten

/-- The lines of an entry are those of the correct entry tree `e`, `k` levels below. -/
def RightEntry (fs : PureFs) (o : Options (Except Exn)) (k : Nat) (x : Kid) (e : TreeEntry) : Prop :=
  Scanned (answers fs o) o.pathComparator o.maxDepth k x.path e ∧
    (∃ d, dispM (look o) (decide (k = 0)) e = .ok d ∧ layout o.treeFormat d = x.lines []) ∧
    (x.isDir = true → ∃ es, e = .dir x.path es ∧ ∀ merged : List Path, (∀ d ∈ merged, d.names ≠ []) →
      ∃ d, dispDirM (look o) (decide (k = 0)) x.path es (merged ++ [x.path]) = .ok d ∧ layout o.treeFormat d = x.lines (slashed merged)) ∧
    (x.isDir = false → ∃ a, e = .file x.path a)

/-- The lines of an entry are right. -/
structure Right (fs : PureFs) (o : Options (Except Exn)) (k : Nat) (x : Kid) : Prop where
  isDir : fs.isDir x.path = x.isDir
  named : x.path.names ≠ []
  entry : x.ok = true → ∃ e, RightEntry fs o k x e
  failing : x.ok = false → ∀ e, ¬ Scanned (answers fs o) o.pathComparator o.maxDepth k x.path e

theorem slashed_snoc (ds : List Path) (p : Path) : slashed (ds ++ [p]) = slashed ds ++ name p ++ j!"/" := by
  simp [slashed]

theorem dirsText (ho : Obeys o S) {p : Path} (hp : p.names ≠ []) {ds : List Path} (h : ∀ d ∈ ds, d.names ≠ []) :
    dirsTextM (look o).emoji p ds = .ok (icon (S.emoji p) ++ slashed ds) := by
  have h1 : (look o).emoji p = .ok (S.emoji p) := ho.emoji p hp
  unfold dirsTextM
  rw [h1, namesM_pure (m := Except Exn) ds h]
  show Except.ok (emojiText (S.emoji p) ++ _) = _
  cases S.emoji p <;> rfl

theorem extension_eq (ho : Obeys o S) {p : Path} (hp : p.names ≠ []) : (look o).ext p = .ok (S.ext p) := by
  have h := ho.ext p hp
  show extensionOf o.toRender p = .ok (S.ext p)
  rw [← h]
  unfold extensionOf Options.toRender
  cases o.lineExtension <;> rfl

theorem indent_eq (a b : JStr) (l : List JStr) : indent a b l = Spec.block (a ++ [SPACE]) (b ++ [SPACE]) l := by
  cases l <;> rfl

theorem hang_eq (ho : Obeys o S) : ∀ ds : List Disp, hang S (ds.map (layout o.treeFormat)) = layoutKids o.treeFormat ds
  | [] => rfl
  | [d] => by
    simp only [List.map_cons, List.map_nil, hang, layoutKids, List.isEmpty_nil, if_true, indent_eq, ho.lastBranch, ho.blank]
  | d :: d' :: ds => by
    have ih := hang_eq ho (d' :: ds)
    rw [List.map_cons] at ih
    rw [List.map_cons, List.map_cons, hang, ih]
    · conv_rhs => rw [layoutKids]
      rw [indent_eq, ho.branch, ho.bar, if_neg (by simp)]
    · simp

/-- The correct entries of several shown entries, and what is displayed of them. -/
theorem right_all {k : Nat} : ∀ {l : List Kid}, (∀ x ∈ l, Right fs o (k + 1) x) → l.all (·.ok) = true →
    ∃ es ds, ScannedAll (answers fs o) o.pathComparator o.maxDepth (k + 1) (l.map Kid.path) es ∧ dispKidsM (look o) es = .ok ds ∧
      ds.map (layout o.treeFormat) = l.map (fun x => x.lines []) ∧ List.Forall₂ (RightEntry fs o (k + 1)) l es
  | [], _, _ => ⟨[], [], .nil, by rw [dispKidsM]; rfl, rfl, .nil⟩
  | x :: xs, h, hok => by
    simp only [List.all_cons, Bool.and_eq_true] at hok
    obtain ⟨e, he⟩ := (h x (by simp)).entry hok.1
    obtain ⟨h1, ⟨d, h2, h3⟩, -, -⟩ := id he
    obtain ⟨es, ds, i1, i2, i3, i4⟩ := right_all (fun y hy => h y (List.mem_cons_of_mem _ hy)) hok.2
    refine ⟨e :: es, d :: ds, .cons h1 i1, ?_, by rw [List.map_cons, List.map_cons, h3, i3], .cons he i4⟩
    have h2' : dispM (look o) false e = .ok d := h2
    rw [dispKidsM, h2', i2]; rfl

theorem kept_of {cs : List Kid} (ho : Obeys o S) (h : ∀ x ∈ cs, fs.isDir x.path = x.isDir ∧ x.path.names ≠ []) :
    Kept (answers fs o) (cs.map Kid.path) ((cs.filter (accepted S)).map Kid.path) := by
  induction cs with
  | nil => exact .nil
  | cons x xs ih =>
    have ih := ih fun y hy => h y (List.mem_cons_of_mem _ hy)
    obtain ⟨h1, h2⟩ := h x (by simp)
    have key : (answers fs o).keep x.path (accepted S x) := by
      show (if fs.isDir x.path = true then o.dirMatcher x.path else o.fileMatcher x.path) = .ok (accepted S x)
      unfold accepted
      rw [h1, ho.dirs _ h2, ho.files _ h2]
      split <;> rfl
    by_cases hx : accepted S x = true
    · rw [List.filter_cons_of_pos hx]; rw [hx] at key; exact .keep key ih
    · rw [List.filter_cons_of_neg hx]; rw [Bool.not_eq_true] at hx; rw [hx] at key; exact .drop key ih

theorem layout_node (f : TreeFormat) (l : JStr) (ks : List Disp) : layout f (.node l ks) = l :: layoutKids f ks := rfl

theorem leave_paths (n : Int) (kids : List Kid) : (leave n kids).map Kid.path = limitTo n (kids.map Kid.path) := by
  unfold leave limitTo
  split <;> simp [List.map_take]

theorem leave_more (n : Int) (kids : List Kid) (p : Path) : moreMark n (kids.map Kid.path) p = if (leave n kids).length < kids.length then [.skipped p] else [] := by
  unfold leave moreMark
  by_cases h : n < 0
  · rw [if_pos h, if_neg (by omega), if_neg (by omega)]
  · rw [if_neg h, List.length_map, List.length_take]
    by_cases h' : n < kids.length
    · rw [if_pos (by omega), if_pos (by omega)]
    · rw [if_neg (by omega), if_neg (by omega)]

theorem dispKids_append {es es' : List TreeEntry} {ds ds' : List Disp} (h : dispKidsM (look o) es = .ok ds) (h' : dispKidsM (look o) es' = .ok ds') :
    dispKidsM (look o) (es ++ es') = .ok (ds ++ ds') := by
  induction es generalizing ds with
  | nil =>
    rw [dispKidsM] at h
    cases h; exact h'
  | cons e es ih =>
    rw [dispKidsM] at h
    obtain ⟨d, h1, h2⟩ := except_bind_ok h
    obtain ⟨r, h3, h4⟩ := except_bind_ok h2
    have h4 : d :: r = ds := by injection h4
    rw [List.cons_append, dispKidsM, h1, ih h3, ← h4]
    rfl

theorem dispDir_plain (ho : Obeys o S) {p : Path} (hp : p.names ≠ []) {top : Bool} {es : List TreeEntry} {ds : List Disp} (h : dispKidsM (look o) es = .ok ds) {merged : List Path}
    (hm : ∀ d ∈ merged, d.names ≠ []) (hno : (∀ c ces, es ≠ [.dir c ces]) ∨ S.compact = false ∨ top = true ∨ S.ext p ≠ none) :
    dispDirM (look o) top p es merged = .ok (.node (icon (S.emoji p) ++ slashed merged ++ (S.ext p).getD []) ds) := by
  have hc : (look o).compact = S.compact := ho.compact
  rw [dispDirM.eq_def]
  split
  · rename_i c ces
    rw [dispKidsM] at h
    obtain ⟨d, h1, h2⟩ := except_bind_ok h
    have h2 : [d] = ds := by rw [dispKidsM] at h2; injection h2
    subst h2
    rw [dirsText ho hp hm, extension_eq ho hp, h1, hc]
    split
    · rename_i hct
      cases hx : S.ext p with
      | none => rcases hno with hno | hno | hno | hno
                · exact absurd rfl (hno c ces)
                · simp [hno] at hct
                · simp [hno] at hct
                · exact absurd hx hno
      | some x => rfl
    · rfl
  · rw [dirsText ho hp hm, extension_eq ho hp, h]
    rfl

/-- The line of `...`, if entries are left out. -/
def dots (n : Int) (kids : List Kid) : List (List JStr) := if (leave n kids).length < kids.length then [[j!"..."]] else []

/-- The directory comes on one line with its only entry. -/
def Merges (S : Settings) (k : Nat) (p : Path) (kids : List Kid) (c : Kid) : Prop :=
  leave (S.limit p) kids = [c] ∧ dots (S.limit p) kids = [] ∧ c.isDir = true ∧ S.compact = true ∧ 0 < k ∧ S.ext p = none

theorem dirLines_merge {k : Nat} {p : Path} {kids : List Kid} {c : Kid} (h : Merges S k p kids c) (pre : JStr) : dirLines S k p pre kids = c.lines (pre ++ name p ++ j!"/") := by
  obtain ⟨h1, h2, h3, h4, h5, h6⟩ := h
  have e : dirLines S k p pre kids = match leave (S.limit p) kids, dots (S.limit p) kids with
      | [c], [] => if c.isDir && S.compact && decide (0 < k) && (S.ext p).isNone then c.lines (pre ++ name p ++ j!"/")
        else (icon (S.emoji p) ++ (pre ++ name p ++ j!"/") ++ (S.ext p).getD []) :: hang S [c.lines []]
      | _, _ => (icon (S.emoji p) ++ (pre ++ name p ++ j!"/") ++ (S.ext p).getD []) :: hang S ((leave (S.limit p) kids).map (fun c => c.lines []) ++ dots (S.limit p) kids) := rfl
  rw [e, h1, h2]
  simp [h3, h4, h5, h6]

theorem dirLines_plain {k : Nat} {p : Path} {kids : List Kid} (h : ∀ c, ¬ Merges S k p kids c) (pre : JStr) :
    dirLines S k p pre kids = (icon (S.emoji p) ++ (pre ++ name p ++ j!"/") ++ (S.ext p).getD []) :: hang S ((leave (S.limit p) kids).map (fun c => c.lines []) ++ dots (S.limit p) kids) := by
  have e : dirLines S k p pre kids = match leave (S.limit p) kids, dots (S.limit p) kids with
      | [c], [] => if c.isDir && S.compact && decide (0 < k) && (S.ext p).isNone then c.lines (pre ++ name p ++ j!"/")
        else (icon (S.emoji p) ++ (pre ++ name p ++ j!"/") ++ (S.ext p).getD []) :: hang S [c.lines []]
      | _, _ => (icon (S.emoji p) ++ (pre ++ name p ++ j!"/") ++ (S.ext p).getD []) :: hang S ((leave (S.limit p) kids).map (fun c => c.lines []) ++ dots (S.limit p) kids) := rfl
  rw [e]
  split
  · rename_i c h1 h2
    rw [if_neg]
    · rw [h1, h2]; rfl
    · intro hc
      simp only [Bool.and_eq_true, decide_eq_true_eq, Option.isNone_iff_eq_none] at hc
      exact h c ⟨h1, h2, hc.1.1.1, hc.1.1.2, hc.1.2, hc.2⟩
  · rfl

theorem scannedAll_path {A : Answers} {c : Cmp} {D : Int} {k : Nat} {ps : List Path} {es : List TreeEntry} (h : ScannedAll A c D k ps es) {p : Path} (hp : p ∈ ps) : ∃ e, Scanned A c D k p e := by
  induction ps generalizing es with
  | nil => cases hp
  | cons q qs ih =>
    cases h with
    | cons h1 h2 =>
      rcases List.mem_cons.1 hp with rfl | hp
      · exact ⟨_, h1⟩
      · exact ih h2 hp

theorem right_dir_entry (ho : Obeys o S) (hc : LawfulCmp S.order) {k : Nat} {p : Path} (hp : p.names ≠ []) (hk : (k : Int) < S.maxDepth) (hd : fs.isDir p = true) {kids : List Kid}
    (hl : fs.listDir p = .opened (kids.map Kid.path) false) (h : ∀ x ∈ kids, Right fs o (k + 1) x) (hok : (leave (S.limit p) (arrange S kids)).all (·.ok) = true) (b : Bool) : ∃ e, RightEntry fs o k ⟨p, true, b, fun pre => dirLines S k p pre (arrange S kids)⟩ e := by
  have hlim : o.childLimit p = .ok (S.limit p) := ho.limit p hp
  have hshown : ∀ x ∈ leave (S.limit p) (arrange S kids), Right fs o (k + 1) x := fun x hx => h x (arrange_mem (by
    unfold leave at hx
    split at hx
    · exact hx
    · exact List.mem_of_mem_take hx))
  obtain ⟨es, ds, e1, e2, e3, e4⟩ := right_all hshown hok
  obtain ⟨ms, f1, f2⟩ : ∃ ms, dispKidsM (look o) (moreMark (S.limit p) ((arrange S kids).map Kid.path) p) = .ok ms ∧ ms.map (layout o.treeFormat) = dots (S.limit p) (arrange S kids) := by
    rw [leave_more]
    unfold dots
    split
    · refine ⟨[.node j!"..." []], ?_, rfl⟩
      rw [dispKidsM, dispM, dispKidsM]; rfl
    · exact ⟨[], by rw [dispKidsM]; rfl, rfl⟩
  have hkids := dispKids_append e2 f1
  have hdisp : ∀ merged : List Path, (∀ d ∈ merged, d.names ≠ []) → ∃ d, dispDirM (look o) (decide (k = 0)) p (es ++ moreMark (S.limit p) ((arrange S kids).map Kid.path) p) (merged ++ [p]) = .ok d ∧
      layout o.treeFormat d = dirLines S k p (slashed merged) (arrange S kids) := by
    intro merged hm
    have hm' : ∀ d ∈ merged ++ [p], d.names ≠ [] := by
      intro d hd
      rcases List.mem_append.1 hd with hd | hd
      · exact hm d hd
      · rw [List.mem_singleton.1 hd]; exact hp
    by_cases hmg : ∃ c, Merges S k p (arrange S kids) c
    · obtain ⟨c, hmg⟩ := hmg
      obtain ⟨h1, h2, h3, h4, h5, h6⟩ := id hmg
      rw [h1] at e4
      obtain ⟨ces, hes, i4⟩ : ∃ ces, es = [.dir c.path ces] ∧ ∀ merged : List Path, (∀ d ∈ merged, d.names ≠ []) →
          ∃ d, dispDirM (look o) (decide (k + 1 = 0)) c.path ces (merged ++ [c.path]) = .ok d ∧ layout o.treeFormat d = c.lines (slashed merged) := by
        cases e4 with
        | cons he hn =>
          cases hn
          obtain ⟨-, -, i3, -⟩ := he
          obtain ⟨ces, rfl, i4⟩ := i3 h3
          exact ⟨ces, rfl, i4⟩
      have hmm : moreMark (S.limit p) ((arrange S kids).map Kid.path) p = [] := by
        rw [leave_more]
        unfold dots at h2
        split
        · rename_i hlt; rw [if_pos hlt] at h2; cases h2
        · rfl
      obtain ⟨d, j1, j2⟩ := i4 (merged ++ [p]) hm'
      refine ⟨d, ?_, by rw [dirLines_merge hmg, j2, slashed_snoc]⟩
      have k0 : decide (k = 0) = false := by simp; omega
      have hcc : ((look o).compact && !false) = true := by
        have : (look o).compact = S.compact := ho.compact
        rw [this, h4]; rfl
      rw [hes, hmm, List.append_nil, dispDirM, k0, if_pos hcc, extension_eq ho hp, h6]
      exact j1
    · have hmg' : ∀ c, ¬ Merges S k p (arrange S kids) c := fun c hc => hmg ⟨c, hc⟩
      refine ⟨_, dispDir_plain ho hp hkids hm' ?_, ?_⟩
      · by_contra hno
        simp only [not_or, not_forall, ne_eq, not_not] at hno
        obtain ⟨⟨c, ces, hes⟩, hcomp, htop, hext⟩ := hno
        have hmm : moreMark (S.limit p) ((arrange S kids).map Kid.path) p = [] := by
          rw [leave_more] at hes ⊢
          split
          · rename_i hlt
            rw [if_pos hlt] at hes
            cases es with
            | nil => cases hes
            | cons a as => simp at hes
          · rfl
        rw [hmm, List.append_nil] at hes
        rw [hes] at e4
        generalize hleave : leave (S.limit p) (arrange S kids) = l at e4
        cases e4 with
        | cons he hn =>
          cases hn
          rename_i x
          refine hmg' x ⟨hleave, ?_, ?_, by simpa using hcomp, ?_, hext⟩
          · rw [leave_more] at hmm
            unfold dots
            split
            · rename_i hlt; rw [if_pos hlt] at hmm; cases hmm
            · rfl
          · cases hx : x.isDir with
            | true => rfl
            | false => obtain ⟨a, ha⟩ := he.2.2.2 hx; cases ha
          · simp at htop; omega
      · rw [dirLines_plain hmg', layout_node, ← hang_eq ho, List.map_append, e3, f2, slashed_snoc]
  refine ⟨_, .dir (A := answers fs o) (cs := kids.map Kid.path) (ks := (kids.filter (accepted S)).map Kid.path) (srt := (arrange S kids).map Kid.path) hd (by rw [ho.maxDepth]; exact hk) hlim hl
    (kept_of ho fun x hx => ⟨(h x hx).isDir, (h x hx).named⟩) ((arrange_perm S kids).map _) ?_ (by rw [← leave_paths]; exact e1), ?_, fun _ => ⟨_, rfl, hdisp⟩, by simp⟩
  · rw [List.pairwise_map, ho.order]; exact arrange_sorted hc kids
  · obtain ⟨d, h1, h2⟩ := hdisp [] (by simp)
    exact ⟨d, by rw [dispM]; exact h1, h2⟩

theorem right_dir (ho : Obeys o S) (hc : LawfulCmp S.order) (hfs : ProperFs fs) {k : Nat} {p : Path} (hp : p.names ≠ []) (hk : (k : Int) < S.maxDepth) (hd : fs.isDir p = true) {kids : List Kid}
    (hl : fs.listDir p = .opened (kids.map Kid.path) false) (h : ∀ x ∈ kids, Right fs o (k + 1) x) :
    Right fs o k ⟨p, true, (leave (S.limit p) (arrange S kids)).all (·.ok), fun pre => dirLines S k p pre (arrange S kids)⟩ := by
  refine ⟨hd, hp, fun hok => right_dir_entry ho hc hp hk hd hl h hok _, fun hno e hs => ?_⟩
  cases hs with
  | file hf _ => have hf : fs.isDir p = false := hf; rw [hd] at hf; cases hf
  | tooDeep _ hdeep => rw [ho.maxDepth] at hdeep; omega
  | @dir _ _ n cs ks srt es a1 ak a2 a3 a4 a5 a6 a7 =>
    have a2 : o.childLimit p = .ok n := a2
    rw [ho.limit p hp] at a2; cases a2
    have a3 : fs.listDir p = .opened cs false := a3
    rw [hl] at a3; cases a3
    have hks : ks = (kids.filter (accepted S)).map Kid.path :=
      kept_unique (fun q b b' h1 h2 => by
        have h1 : (if fs.isDir q = true then o.dirMatcher q else o.fileMatcher q) = .ok b := h1
        have h2 : (if fs.isDir q = true then o.dirMatcher q else o.fileMatcher q) = .ok b' := h2
        rw [h1] at h2; injection h2) a4 (kept_of ho fun x hx => ⟨(h x hx).isDir, (h x hx).named⟩)
    subst hks
    have hc' : LawfulCmp o.pathComparator := by rw [ho.order]; exact sort_lawful hc
    have hdist : Distinguishes o.pathComparator ((kids.filter (accepted S)).map Kid.path) := by
      have := sort_distinguishes hc hfs p _ _ hl
      rw [ho.order]
      intro x hx y hy
      exact this x (by obtain ⟨z, hz, rfl⟩ := List.mem_map.1 hx; exact List.mem_map.2 ⟨z, (List.mem_filter.1 hz).1, rfl⟩) y (by
        obtain ⟨z, hz, rfl⟩ := List.mem_map.1 hy; exact List.mem_map.2 ⟨z, (List.mem_filter.1 hz).1, rfl⟩)
    have hsrt : srt = (arrange S kids).map Kid.path := by
      rw [← streamSorted_unique hc' hdist a5 a6]
      refine streamSorted_unique hc' hdist ((arrange_perm S kids).map _) ?_
      rw [List.pairwise_map, ho.order]; exact arrange_sorted hc kids
    subst hsrt
    rw [← leave_paths] at a7
    have hall : ∀ x ∈ leave (S.limit p) (arrange S kids), x.ok = true := by
      intro x hx
      have hm : x ∈ kids := arrange_mem (by
        unfold leave at hx
        split at hx
        · exact hx
        · exact List.mem_of_mem_take hx)
      cases hxo : x.ok with
      | true => rfl
      | false =>
        obtain ⟨e, he⟩ := scannedAll_path a7 (List.mem_map.2 ⟨x, hx, rfl⟩)
        exact absurd he ((h x hm).failing hxo e)
    rw [← List.all_eq_true] at hall
    have hno : (leave (S.limit p) (arrange S kids)).all (·.ok) = false := hno
    rw [hall] at hno; cases hno

theorem right_tooDeep (ho : Obeys o S) {k : Nat} {p : Path} (hp : p.names ≠ []) (hk : S.maxDepth ≤ k) (hd : fs.isDir p = true) :
    Right fs o k ⟨p, true, true, fun pre => [icon (S.emoji p) ++ (pre ++ name p ++ j!"/") ++ (S.ext p).getD [], S.lastBranch ++ j!" ..."]⟩ := by
  have hdisp : ∀ merged : List Path, (∀ d ∈ merged, d.names ≠ []) → ∃ d, dispDirM (look o) (decide (k = 0)) p [.maxDepth k] (merged ++ [p]) = .ok d ∧
      layout o.treeFormat d = [icon (S.emoji p) ++ (slashed merged ++ name p ++ j!"/") ++ (S.ext p).getD [], S.lastBranch ++ j!" ..."] := by
    intro merged hm
    have hkids : dispKidsM (look o) [.maxDepth k] = .ok [.node j!"..." []] := by rw [dispKidsM, dispM, dispKidsM]; rfl
    refine ⟨_, dispDir_plain ho hp hkids ?_ (.inl (by simp)), ?_⟩
    · intro d hd
      rcases List.mem_append.1 hd with hd | hd
      · exact hm d hd
      · rw [List.mem_singleton.1 hd]; exact hp
    · rw [layout_node, ← hang_eq ho, slashed_snoc]
      simp [hang, indent, layout, layoutKids]
  refine ⟨hd, hp, fun _ => ⟨_, .tooDeep hd (by rw [ho.maxDepth]; exact hk), ?_, fun _ => ⟨_, rfl, hdisp⟩, by simp⟩, by simp⟩
  obtain ⟨d, h1, h2⟩ := hdisp [] (by simp)
  exact ⟨d, by rw [dispM]; exact h1, h2⟩

theorem right_file (ho : Obeys o S) {k : Nat} {p : Path} (hp : p.names ≠ []) (hd : fs.isDir p = false) :
    Right fs o k ⟨p, false, (fs.readAttrs p).isSome, fun _ => [icon (S.emoji p) ++ name p ++ ((fs.readAttrs p).map mark).getD [] ++ (S.ext p).getD []]⟩ := by
  refine ⟨hd, hp, fun hok => ?_, fun hno e hs => ?_⟩
  · obtain ⟨a, ha⟩ := Option.isSome_iff_exists.1 hok
    rw [ha]
    refine ⟨_, .file hd ha, ⟨.node (icon (S.emoji p) ++ name p ++ mark a ++ (S.ext p).getD []) [], ?_, rfl⟩, by simp, fun _ => ⟨a, rfl⟩⟩
    have h1 : (look o).emoji p = .ok (S.emoji p) := ho.emoji p hp
    rw [dispM, extension_eq ho hp]
    unfold fileTextM nameM
    rw [h1, name_some hp]
    show Except.ok (Disp.node (emojiText (S.emoji p) ++ name p ++ fileMark a ++ _) _) = _
    cases S.emoji p <;> rfl
  · cases hs with
    | file _ ha =>
      have ha : fs.readAttrs p = some _ := ha
      have hno : (fs.readAttrs p).isSome = false := hno
      rw [ha] at hno; cases hno
    | tooDeep h1 _ => have h1 : fs.isDir p = true := h1; rw [hd] at h1; cases h1
    | dir h1 => have h1 : fs.isDir p = true := h1; rw [hd] at h1; cases h1

theorem right_closed (ho : Obeys o S) {k : Nat} {p : Path} (hp : p.names ≠ []) (hd : fs.isDir p = true) (hl : ∀ cs, fs.listDir p ≠ .opened cs false) :
    Right fs o k ⟨p, true, decide (S.maxDepth ≤ k), fun pre => [icon (S.emoji p) ++ (pre ++ name p ++ j!"/") ++ (S.ext p).getD [], S.lastBranch ++ j!" ..."]⟩ := by
  by_cases hk : S.maxDepth ≤ k
  · rw [decide_eq_true hk]; exact right_tooDeep ho hp hk hd
  · refine ⟨hd, hp, fun hok => absurd (of_decide_eq_true hok) hk, fun _ e hs => ?_⟩
    cases hs with
    | file h1 _ => have h1 : fs.isDir p = false := h1; rw [hd] at h1; cases h1
    | tooDeep _ hdeep => rw [ho.maxDepth] at hdeep; omega
    | dir _ _ _ h3 => exact hl _ h3

/-- The kind of a tree. -/
def FileTree.isDir : FileTree → Bool
  | .file _ => false
  | _ => true

theorem kidsOf_eq (S : Settings) (k : Nat) (p : Path) :
    ∀ es, kidsOf S k p es = es.map (fun e => ⟨p.child e.1, FileTree.isDir e.2, complete S k (p.child e.1) e.2, OnePage.block S k (p.child e.1) e.2⟩)
  | [] => by rw [kidsOf]; rfl
  | (n, t) :: es => by
    rw [List.map_cons, ← kidsOf_eq S k p es]
    cases t <;> rfl

theorem right_tree (ho : Obeys o S) (hc : LawfulCmp S.order) (hfs : ProperFs fs) (k : Nat) (p : Path) (hp : p.names ≠ []) (t : FileTree) (h : Holds fs p t) :
    Right fs o k ⟨p, FileTree.isDir t, complete S k p t, OnePage.block S k p t⟩ := by
  match t, h with
  | .file _, .file h1 => exact right_file ho hp h1
  | .closed, .closed h1 h2 => exact right_closed ho hp h1 h2
  | .dir es, .dir h1 h2 h3 =>
    by_cases hk : S.maxDepth ≤ k
    · have e1 : OnePage.block S k p (.dir es) = fun pre => [icon (S.emoji p) ++ (pre ++ name p ++ j!"/") ++ (S.ext p).getD [], S.lastBranch ++ j!" ..."] := by
        funext pre; rw [OnePage.block, if_pos hk]
      have e2 : complete S k p (.dir es) = true := by rw [complete, decide_eq_true hk, Bool.true_or]
      rw [e1, e2]
      exact right_tooDeep ho hp hk h1
    · have e1 : OnePage.block S k p (.dir es) = fun pre => dirLines S k p pre (arrange S (kidsOf S (k + 1) p es)) := by
        funext pre; rw [OnePage.block, if_neg hk]
      have e2 : complete S k p (.dir es) = (leave (S.limit p) (arrange S (kidsOf S (k + 1) p es))).all (·.ok) := by rw [complete, decide_eq_false hk, Bool.false_or]
      rw [e1, e2]
      refine right_dir ho hc hfs hp (by omega) h1 ?_ ?_
      · rw [h2, kidsOf_eq, List.map_map]; rfl
      · intro x hx
        rw [kidsOf_eq] at hx
        obtain ⟨e, he, rfl⟩ := List.mem_map.1 hx
        have : sizeOf e.2 < sizeOf es := by
          have := List.sizeOf_lt_of_mem he
          cases e; simp at this ⊢; omega
        exact right_tree ho hc hfs (k + 1) (p.child e.1) (child_names _ _) e.2 (h3 e he)
termination_by sizeOf t
decreasing_by simp; omega

theorem joinLines_intercalate : ∀ ls : List JStr, joinLines ls = List.intercalate j!"\n" ls
  | [] => rfl
  | [l] => by simp [joinLines, List.intercalate]
  | l :: l' :: ls => by
    have ih := joinLines_intercalate (l' :: ls)
    rw [joinLines, ih]
    · simp [List.intercalate, List.intersperse, NL]
    · simp

end
end OnePage

open OnePage

/-- **C100**: whatever a directory tree contains and whatever is chosen, printing returns exactly the text computed by the one-page program; it fails if and only if this says so. -/
theorem C100_one_page {fs : PureFs} (hfs : ProperFs fs) {cwd : Path} (hw : cwd.abs = true) {o : Options (Except Exn)} {S : Settings} (ho : Obeys o S) (hc : LawfulCmp S.order) {p : Path}
    {t : FileTree} (ht : Holds fs (target cwd p) t) (s : JStr) : prettyPrint fs.lift cwd o p = .ok s ↔ OnePage.text S (target cwd p) t = some s := by
  have hc' : LawfulCmp o.pathComparator := by rw [ho.order]; exact sort_lawful hc
  by_cases hp : (target cwd p).names = []
  · unfold OnePage.text
    rw [if_neg (by simp [hp])]
    refine ⟨fun h => ?_, by simp⟩
    have hroot : target cwd p = Path.root := by
      have := target_abs (p := p) hw
      generalize target cwd p = q at this hp
      obtain ⟨a, ns⟩ := q
      simp only at this hp
      rw [this, hp]; rfl
    exact absurd h (C21_root_never_printed _ hw o p hroot s)
  · have hr := right_tree ho hc hfs 0 (target cwd p) hp t ht
    unfold OnePage.text
    cases hok : complete S 0 (target cwd p) t with
    | true =>
      obtain ⟨e, h1, ⟨d, h2, h3⟩, -, -⟩ := hr.entry hok
      rw [if_pos ⟨hp, rfl⟩, prettyPrint_eq, scanned_complete hw hc' (by rw [ho.order]; exact sort_distinguishes hc hfs) h1]
      show Renderer.renderRoot _ _ _ = _ ↔ _
      rw [C01_render_is_picture_effectful]
      have h2' : dispM (look o) true e = .ok d := h2
      rw [h2']
      show Except.ok (picture o.treeFormat d) = _ ↔ _
      unfold picture
      rw [h3, joinLines_intercalate]
      simp
    | false =>
      rw [if_neg (by simp)]
      refine ⟨fun h => ?_, by simp⟩
      rw [prettyPrint_eq] at h
      obtain ⟨e, h1, -⟩ := except_bind_ok h
      exact absurd (scanned_sound hw hc' h1) (hr.failing hok e)

/-! ### Disks -/

namespace OnePage

theorem lookup_mem {n : JStr} {c : Node} : ∀ {cs : List (JStr × Node)}, (cs.map Prod.fst).Nodup → (n, c) ∈ cs → Node.lookupChild n cs = some c
  | (n', c') :: cs, hn, hm => by
    rw [Node.lookupChild]
    rw [List.map_cons, List.nodup_cons] at hn
    rcases List.mem_cons.1 hm with h | h
    · cases h; rw [if_pos rfl]
    · rw [if_neg, lookup_mem hn.2 h]
      intro he
      exact hn.1 (he ▸ List.mem_map.2 ⟨_, h, rfl⟩)

theorem child_abs {p : Path} (h : p.abs = true) (n : JStr) : p.child n = ⟨true, p.names ++ [n]⟩ := by
  unfold Path.child
  rw [if_neg, h]
  intro he
  rw [he] at h
  cases h

theorem at_child {disk : Node} (hd : disk.WF) {p : Path} (ha : p.abs = true) {r : Bool} {cs : List (JStr × Node)} (h : disk.at p = some (.dir r cs)) {n : JStr} {c : Node} (hc : (n, c) ∈ cs) :
    disk.at (p.child n) = some c := by
  have hw := hd.get h
  rw [Node.WF] at hw
  rw [child_abs ha]
  show disk.get (p.names ++ [n]) = some c
  rw [get_append, show disk.get p.names = some (.dir r cs) from h]
  show Node.get (.dir r cs) [n] = some c
  simp only [Node.get, lookup_mem hw.1 hc]

theorem treesOf_eq (disk : Node) (p : Path) : ∀ cs, treesOf disk p cs = cs.map (fun c => (c.1, treeOf disk (p.child c.1) c.2))
  | [] => by rw [treesOf]; rfl
  | (n, c) :: cs => by rw [treesOf, treesOf_eq disk p cs]; rfl

theorem holds_of {disk : Node} (hd : disk.WF) (p : Path) (ha : p.abs = true) (n : Node) (h : disk.at p = some n) : Holds disk.toFs p (treeOf disk p n) := by
  match n with
  | .regular _ => rw [treeOf]; exact .file (by show (match disk.at p with | some (.dir _ _) => true | _ => false) = false; rw [h]); all_goals (intros; contradiction)
  | .special => rw [treeOf]; exact .file (by show (match disk.at p with | some (.dir _ _) => true | _ => false) = false; rw [h]); all_goals (intros; contradiction)
  | .symlink _ => rw [treeOf]; exact .file (by show (match disk.at p with | some (.dir _ _) => true | _ => false) = false; rw [h]); all_goals (intros; contradiction)
  | .dir false cs =>
    rw [treeOf]
    refine .closed (by show (match disk.at p with | some (.dir _ _) => true | _ => false) = true; rw [h]) fun cs' hl => ?_
    have hl : (match disk.at p with
      | some (.dir true cs) => Listing.opened (cs.map (fun c : JStr × Node => p.child c.1)) false
      | _ => .openFailed) = .opened cs' false := hl
    rw [h] at hl; cases hl
  | .dir true cs =>
    rw [treeOf, treesOf_eq]
    refine .dir (by show (match disk.at p with | some (.dir _ _) => true | _ => false) = true; rw [h]) ?_ ?_
    · show (match disk.at p with
        | some (.dir true cs) => Listing.opened (cs.map (fun c : JStr × Node => p.child c.1)) false
        | _ => .openFailed) = _
      rw [h, List.map_map]; rfl
    · intro e he
      obtain ⟨c, hc, rfl⟩ := List.mem_map.1 he
      have : sizeOf c.2 < sizeOf cs := by
        have := List.sizeOf_lt_of_mem hc
        cases c; simp at this ⊢; omega
      exact holds_of hd (p.child c.1) (by rw [child_abs ha]) c.2 (at_child hd ha h hc)
termination_by sizeOf n
decreasing_by simp; omega

theorem holds_at {disk : Node} (hd : disk.WF) {p : Path} (ha : p.abs = true) : Holds disk.toFs p (treeAt disk p) := by
  unfold treeAt
  cases h : disk.at p with
  | some n => exact holds_of hd p ha n h
  | none => exact .file (by show (match disk.at p with | some (.dir _ _) => true | _ => false) = false; rw [h])

end OnePage

/-- **C100** on disks: for every disk, every path and all choices, printing returns the text of the one-page program for the tree that the disk has there. -/
theorem C100_disk {disk : Node} (hd : disk.WF) {cwd : Path} (hw : cwd.abs = true) {o : Options (Except Exn)} {S : Settings} (ho : Obeys o S) (hc : LawfulCmp S.order) (p : Path) (s : JStr) :
    prettyPrint disk.toFs.lift cwd o p = .ok s ↔ OnePage.text S (target cwd p) (treeAt disk (target cwd p)) = some s :=
  C100_one_page hd.proper hw ho hc (holds_at hd (target_abs hw)) s

theorem OnePage.obeys_standard : Obeys Demo.dflt standard :=
  ⟨fun _ _ => rfl, fun _ _ => rfl, rfl, fun _ _ => rfl, rfl, rfl, fun _ _ => rfl, fun _ _ => rfl, by decide, by decide, by decide, by decide⟩

/-- **C100** without any choice. -/
theorem C100_default {disk : Node} (hd : disk.WF) {cwd : Path} (hw : cwd.abs = true) (p : Path) (s : JStr) :
    prettyPrint (m := Except Exn) disk.toFs.lift cwd Options.createDefault p = .ok s ↔ OnePage.text standard (target cwd p) (treeAt disk (target cwd p)) = some s :=
  C100_disk hd hw OnePage.obeys_standard lawful_const p s

/-- The one-page program on the demo disk. -/
example : prettyPrint (m := Except Exn) Demo.disk.toFs.lift Path.root Options.createDefault Demo.r = .ok j!"r/\n├─ a/\n│  ├─ x\n│  └─ y\n├─ b.txt\n└─ z?" :=
  (C100_default Demo.disk_wf rfl _ _).2 (by decide)

/-- A disk with a link that leads nowhere and a directory that cannot be listed. -/
def OnePage.partly : Node := .dir true [(j!"r", .dir true
  [(j!"run", .regular 3), (j!"secret", .dir false []), (j!"lost", .symlink ⟨true, [j!"no"]⟩), (j!"link", .symlink ⟨true, [j!"r", j!"run"]⟩),
    (j!"src", .dir true [(j!"main", .dir true [(j!"C", .regular 0), (j!"A", .regular 0), (j!"B", .special)])])])]

/-- Directories first, compact, at most two entries except below `r`, neither `secret` nor `lost`. -/
def OnePage.chosen : Settings :=
  { standard with
    showDir := fun p => name p != j!"secret"
    showFile := fun p => name p != j!"lost"
    order := PathSorts.DIRECTORY_FIRST OnePage.partly.toFs.isDir
    limit := fun p => if name p = j!"r" then -1 else 2
    compact := true
    emoji := fun p => if name p = j!"run" then some j!"!" else none
    ext := fun p => if name p = j!"r" then some j!" (top)" else none }

/-- Options with these answers. -/
def OnePage.choice : Options (Except Exn) :=
  { Demo.dflt.sort OnePage.chosen.order with
    dirMatcher := fun p => .ok (OnePage.chosen.showDir p)
    fileMatcher := fun p => .ok (OnePage.chosen.showFile p)
    childLimit := fun p => .ok (OnePage.chosen.limit p)
    compactDirectories := true
    emojiMapping := fun p => .ok (OnePage.chosen.emoji p)
    lineExtension := some fun p => .ok (OnePage.chosen.ext p) }

theorem OnePage.obeys_chosen : Obeys OnePage.choice OnePage.chosen :=
  ⟨fun _ _ => rfl, fun _ _ => rfl, rfl, fun _ _ => rfl, rfl, rfl, fun _ _ => rfl, fun _ _ => rfl, by decide, by decide, by decide, by decide⟩

/-- With all options together. -/
example : prettyPrint OnePage.partly.toFs.lift Path.root OnePage.choice Demo.r = .ok j!"r/ (top)\n├─ src/main/\n│  ├─ A\n│  ├─ B?\n│  └─ ...\n├─ link\n└─ ! run" :=
  (C100_disk (by simp [OnePage.partly, Node.WF, Node.WFAll]) rfl OnePage.obeys_chosen (lawful_DIRECTORY_FIRST _) _ _).2 (by decide)

/-- Without options nothing is printed of it. -/
example (s : JStr) : prettyPrint (m := Except Exn) OnePage.partly.toFs.lift Path.root Options.createDefault Demo.r ≠ .ok s := fun h => by
  have h := (C100_default (by simp [OnePage.partly, Node.WF, Node.WFAll]) rfl _ _).1 h
  have e : OnePage.text standard (target Path.root Demo.r) (treeAt OnePage.partly (target Path.root Demo.r)) = none := by decide
  rw [e] at h; cases h

end JFTP
