import Verif.Spec.ReadPaths
import Verif.Props.Connect
import Verif.Props.RecreateCompact
import Verif.Props.Snapshot
import Verif.Props.Printed
import Verif.Spec.Skeleton

/-
C121: the paths of the displayed entries can be read off the text.
-/

namespace JFTP
open Spec

namespace ReadPaths
open Connect Recreate

/-! ### The symbols of a line -/

theorem begins_append {x : JStr} {w : Nat} (hx : x.length = w) (y rest : JStr) (hy : y.length = w) : begins y (x ++ [SPACE] ++ rest) = decide (x = y) := by
  unfold begins
  have : (x ++ [SPACE] ++ rest).take (y.length + 1) = x ++ [SPACE] := by
    rw [List.take_append_of_le_length (by simp; omega), List.take_of_length_le (by simp; omega)]
  rw [this, Bool.eq_iff_iff]
  simp

theorem readRow_row {f : TreeFormat} {w : Nat} (hf : TreeFormatOK f w) (hr : Readable f) (l : JStr) :
    ∀ (a : List Sym), (∀ s ∈ a, s.right = false) → ∀ (b : Sym), b.right = true → ∀ fuel, a.length < fuel → readRow f fuel (Row.text f (a ++ [b], l)) = (a.length + 1, l) := by
  intro a
  induction a with
  | nil =>
    intro _ b hb fuel hfuel
    cases fuel with
    | zero => simp at hfuel
    | succ fuel =>
      have ht : Row.text f ([] ++ [b], l) = b.text f ++ [SPACE] ++ l := by simp [Row.text]
      have hlen : (b.text f).length = w := by cases b <;> simp only [Sym.text] <;> first | exact hf.1 | exact hf.2.1 | exact hf.2.2.1 | exact hf.2.2.2
      rw [ht, readRow, begins_append hlen _ _ hf.1, begins_append hlen _ _ hf.2.1]
      have hd : (b.text f ++ [SPACE] ++ l).drop (f.lastChildSymbol.length + 1) = l := by
        rw [hf.2.1]
        exact List.drop_left' (by simp [hlen])
      rw [if_pos (by cases b <;> simp [Sym.right, Sym.text] at hb ⊢), hd]
      rfl
  | cons x a ih =>
    intro ha b hb fuel hfuel
    cases fuel with
    | zero => simp at hfuel
    | succ fuel =>
      have ht : Row.text f (x :: a ++ [b], l) = x.text f ++ [SPACE] ++ Row.text f (a ++ [b], l) := by simp [Row.text]
      have hlen : (x.text f).length = w := by cases x <;> simp only [Sym.text] <;> first | exact hf.1 | exact hf.2.1 | exact hf.2.2.1 | exact hf.2.2.2
      have hx := ha x (.head _)
      have hd : (x.text f ++ [SPACE] ++ Row.text f (a ++ [b], l)).drop (f.emptySymbol.length + 1) = Row.text f (a ++ [b], l) := by
        rw [hf.2.2.2]
        exact List.drop_left' (by simp [hlen])
      rw [ht, readRow, begins_append hlen _ _ hf.1, begins_append hlen _ _ hf.2.1, begins_append hlen _ _ hf.2.2.1, begins_append hlen _ _ hf.2.2.2, hd,
        ih (fun s hs => ha s (.tail _ hs)) b hb fuel (by simpa using hfuel)]
      obtain ⟨r1, r2, r3, r4⟩ := hr
      cases x <;> simp [Sym.right] at hx <;> simp [Sym.text, r1, r2, r3, r4, Ne.symm r1, Ne.symm r2, Ne.symm r3, Ne.symm r4]

theorem length_text (f : TreeFormat) (a : List Sym) (l : JStr) : a.length ≤ (Row.text f (a, l)).length := by
  induction a with
  | nil => simp
  | cons x a ih =>
    have ht : Row.text f (x :: a, l) = x.text f ++ [SPACE] ++ Row.text f (a, l) := by simp [Row.text]
    rw [ht]
    simp
    omega

mutual
theorem rows_preorder (n : Nat) : (D : Disp) → (rows D).map (fun r => (r.1.length + n, r.2)) = preorder n D
  | .node l ks => by
    rw [rows, preorder, List.map_cons, kids_preorder n ks]
    simp
theorem kids_preorder (n : Nat) : (ks : List Disp) → (kids ks).map (fun r => (r.1.length + n, r.2)) = preorderKids (n + 1) ks
  | [] => rfl
  | k :: ks => by
    have hu : ∀ (b : Sym) (rs : List Row), (Connect.under b rs).map (fun r => (r.1.length + n, r.2)) = rs.map (fun r => (r.1.length + (n + 1), r.2)) := by
      intro b rs
      cases rs with
      | nil => rfl
      | cons r rs =>
        simp only [Connect.under, push, List.map_cons, List.map_map, List.length_cons]
        congr 1
        · rw [Nat.add_assoc, Nat.add_comm 1 n]
        · apply List.map_congr_left
          intro x _
          simp only [Function.comp, push, List.length_cons]
          rw [Nat.add_assoc, Nat.add_comm 1 n]
    rw [kids, preorderKids, List.map_append, hu, rows_preorder (n + 1) k, kids_preorder n ks]
end

theorem readLines {f : TreeFormat} {w : Nat} (hf : TreeFormatOK f w) (hr : Readable f) {R : List Row} (h : Drawing R) :
    ∃ l rest, R.map (Row.text f) = l :: rest ∧ (0, l) :: rest.map (fun line => readRow f line.length line) = R.map (fun r => (r.1.length, r.2)) := by
  obtain ⟨l, hl⟩ := h.first
  cases R with
  | nil => simp at hl
  | cons r rest =>
    cases hl
    refine ⟨l, rest.map (Row.text f), by simp [Row.text], ?_⟩
    rw [List.map_cons, List.map_map]
    congr 1
    apply List.map_congr_left
    intro r hr'
    obtain ⟨i, hi⟩ := List.getElem?_of_mem hr'
    obtain ⟨a, b, h1, h2, h3⟩ := h.label i r hi
    have : r = (a ++ [b], r.2) := by rw [← h1]
    rw [this]
    show readRow f (Row.text f (a ++ [b], r.2)).length (Row.text f (a ++ [b], r.2)) = _
    have hl := length_text f (a ++ [b]) r.2
    rw [readRow_row hf hr r.2 a h3 b h2 _ (by simp at hl; omega)]
    simp

/-! ### The stack -/

mutual
/-- The paths in a tree. -/
def rel : Disp → List (List JStr)
  | .node l ks => heads (parts l) ++ (relAll ks).map (parts l ++ ·)
/-- The same for lists. -/
def relAll : List Disp → List (List JStr)
  | [] => []
  | k :: ks => rel k ++ relAll ks
end

mutual
theorem read_tree : (D : Disp) → ∀ (n : Nat) (st : List (List JStr)) (rest : List (Nat × JStr)), n ≤ st.length →
    ∃ st', st'.take n = st.take n ∧ n ≤ st'.length ∧ readPaths st (preorder n D ++ rest) = (rel D).map ((st.take n).flatten ++ ·) ++ readPaths st' rest
  | .node l ks => fun n st rest hn => by
    have hlen : (st.take n ++ [parts l]).length = n + 1 := by simp [hn]
    obtain ⟨st', h1, h2, h3⟩ := read_trees ks (n + 1) (st.take n ++ [parts l]) rest (by omega)
    have hst : (st.take n ++ [parts l]).take (n + 1) = st.take n ++ [parts l] := List.take_of_length_le (by omega)
    rw [hst] at h1 h3
    refine ⟨st', ?_, by omega, ?_⟩
    · have : st'.take n = (st'.take (n + 1)).take n := by rw [List.take_take, Nat.min_eq_left (by omega)]
      rw [this, h1, List.take_append_of_le_length (by simp [hn]), List.take_take, Nat.min_self]
    · rw [preorder, List.cons_append, readPaths, h3, rel, List.map_append, List.map_map, List.append_assoc]
      congr 2
      apply List.map_congr_left
      intro x _
      simp
theorem read_trees : (ks : List Disp) → ∀ (n : Nat) (st : List (List JStr)) (rest : List (Nat × JStr)), n ≤ st.length →
    ∃ st', st'.take n = st.take n ∧ n ≤ st'.length ∧ readPaths st (preorderKids n ks ++ rest) = (relAll ks).map ((st.take n).flatten ++ ·) ++ readPaths st' rest
  | [] => fun n st rest hn => ⟨st, rfl, hn, by simp [preorderKids, relAll]⟩
  | k :: ks => fun n st rest hn => by
    obtain ⟨st1, h1, h2, h3⟩ := read_tree k n st (preorderKids n ks ++ rest) hn
    obtain ⟨st2, h4, h5, h6⟩ := read_trees ks n st1 rest h2
    refine ⟨st2, h4.trans h1, h5, ?_⟩
    rw [preorderKids, List.append_assoc, h3, h6, relAll, List.map_append, List.append_assoc, h1]
end

theorem readText_picture {f : TreeFormat} {w : Nat} (hf : TreeFormatOK f w) (hr : Readable f) (hnl : FormatNoNL f) {D : Disp} (hD : ∀ l ∈ labels D, NoNL l) : readText f (picture f D) = rel D := by
  obtain ⟨l, rest, h1, h2⟩ := readLines hf hr (drawing_tree.2 ⟨D, rfl⟩)
  rw [text_rows] at h1
  unfold readText
  rw [linesOf_picture hnl D hD, h1]
  dsimp only
  rw [h2]
  have := rows_preorder 0 D
  simp only [Nat.add_zero] at this
  rw [this]
  obtain ⟨st', _, _, h3⟩ := read_tree D 0 [] [] (Nat.zero_le _)
  simpa [readPaths] using h3

/-! ### The names -/

mutual
/-- The paths in a tree of names. -/
def ways : NTree → List (List JStr)
  | .dir n ks => [n] :: (waysAll ks).map (n :: ·)
  | .leaf n => [[n]]
/-- The same for lists. -/
def waysAll : List NTree → List (List JStr)
  | [] => []
  | k :: ks => ways k ++ waysAll ks
end

theorem ways_nest (ks : List NTree) : ∀ {ns : List JStr}, ns ≠ [] → ways (nest ks ns) = heads ns ++ (waysAll ks).map (ns ++ ·)
  | [], h => absurd rfl h
  | [n], _ => by simp [nest, ways, heads]
  | n :: m :: ns, _ => by
    rw [nest, ways, waysAll, waysAll, List.append_nil, ways_nest ks (ns := m :: ns) (by simp), heads, List.map_append, List.map_map]
    rfl
    simp

mutual
/-- Only labels with a slash have something below them. -/
def Tidy : Disp → Prop
  | .node l ks => (SLASH ∉ l → ks = []) ∧ TidyAll ks
/-- The same for lists. -/
def TidyAll : List Disp → Prop
  | [] => True
  | k :: ks => Tidy k ∧ TidyAll ks
end

theorem split_ne (l : JStr) : splitRaw SLASH l ≠ [] := by
  cases l with
  | nil => simp [splitRaw]
  | cons c l =>
    rw [splitRaw]
    split
    · simp
    · split <;> simp

theorem parts_ne (l : JStr) : parts l ≠ [] := by
  unfold parts
  split
  · rename_i h
    intro h0
    have : (splitRaw SLASH l).length ≤ 1 := by
      have := congrArg List.length h0
      simp at this
      omega
    have h2 : 2 ≤ (splitRaw SLASH l).length := by
      clear h0 this
      induction l with
      | nil => cases h
      | cons c l ih =>
        rw [splitRaw]
        split
        · have := List.length_pos_iff.2 (split_ne l)
          rw [List.length_cons]
          omega
        · rename_i hc
          have := ih ((List.mem_cons.1 h).resolve_left fun h0 => hc h0.symm)
          split
          · rename_i h0; rw [h0] at this; simp at this
          · rename_i h0; rw [h0] at this; simpa using this
    omega
  · simp

mutual
theorem rel_expand : (D : Disp) → Tidy D → rel D = ways (expand D)
  | .node l ks => fun h => by
    rw [Tidy] at h
    rw [rel, expand]
    split
    · rename_i hl
      have hp : parts l = (splitRaw SLASH l).dropLast := by unfold parts; rw [if_pos hl]
      rw [← hp, ways_nest _ (parts_ne l), relAll_expand ks h.2]
    · rename_i hl
      rw [h.1 hl, relAll, ways]
      unfold parts
      rw [if_neg hl]
      simp [heads]
theorem relAll_expand : (ks : List Disp) → TidyAll ks → relAll ks = waysAll (expandAll ks)
  | [] => fun _ => rfl
  | k :: ks => fun h => by rw [relAll, expandAll, waysAll, rel_expand k h.1, relAll_expand ks h.2]
end

theorem slash_names : ∀ {ms : List Path} {x : JStr}, ms ≠ [] → namesM (m := Except Exn) ms = .ok x → SLASH ∈ x
  | [], _, h, _ => absurd rfl h
  | d :: ds, x, _, h => by
    rw [namesM] at h
    split at h
    · obtain ⟨n, h1, h⟩ := except_bind_ok h
      obtain ⟨r, _, h⟩ := except_bind_ok h
      cases h
      cases h1
      exact List.mem_append_left _ (List.mem_append_right _ (.head _))
    · cases h

theorem slash_dirs {emoji : EmojiFn (Except Exn)} {d : Path} {ms : List Path} {x : JStr} (hm : ms ≠ []) (h : dirsTextM emoji d ms = .ok x) : SLASH ∈ x := by
  unfold dirsTextM at h
  obtain ⟨e, _, h⟩ := except_bind_ok h
  obtain ⟨ns, h2, h⟩ := except_bind_ok h
  cases h
  exact List.mem_append_right _ (slash_names hm h2)

mutual
theorem tidy_disp {L : LookM (Except Exn)} (top : Bool) (e : TreeEntry) {D : Disp} (h : dispM L top e = .ok D) : Tidy D := by
  match e with
  | .file p a =>
    rw [dispM] at h
    obtain ⟨n, _, h⟩ := except_bind_ok h
    obtain ⟨x, _, h⟩ := except_bind_ok h
    cases h
    exact ⟨fun _ => rfl, trivial⟩
  | .skipped p => rw [dispM] at h; cases h; exact ⟨fun _ => rfl, trivial⟩
  | .maxDepth n => rw [dispM] at h; cases h; exact ⟨fun _ => rfl, trivial⟩
  | .dir d es =>
    rw [dispM] at h
    exact tidy_dispDir top d es [d] (by simp) h
termination_by (sizeOf e, 1)
theorem tidy_dispDir {L : LookM (Except Exn)} (top : Bool) (d : Path) (es : List TreeEntry) (ms : List Path) (hm : ms ≠ []) {D : Disp} (h : dispDirM L top d es ms = .ok D) : Tidy D := by
  rw [dispDirM.eq_def] at h
  split at h
  · rename_i c ces
    split at h
    · obtain ⟨x, _, h⟩ := except_bind_ok h
      split at h
      · exact tidy_dispDir top c ces (ms ++ [c]) (by simp) h
      · obtain ⟨n, h1, h⟩ := except_bind_ok h
        obtain ⟨k, h2, h⟩ := except_bind_ok h
        cases h
        exact ⟨fun h => absurd (List.mem_append_left _ (slash_dirs hm h1)) h, tidy_disp false (.dir c ces) h2, trivial⟩
    · obtain ⟨n, h1, h⟩ := except_bind_ok h
      obtain ⟨x, _, h⟩ := except_bind_ok h
      obtain ⟨k, h2, h⟩ := except_bind_ok h
      cases h
      exact ⟨fun h => absurd (List.mem_append_left _ (slash_dirs hm h1)) h, tidy_disp false (.dir c ces) h2, trivial⟩
  · obtain ⟨n, h1, h⟩ := except_bind_ok h
    obtain ⟨x, _, h⟩ := except_bind_ok h
    obtain ⟨ks, h2, h⟩ := except_bind_ok h
    cases h
    exact ⟨fun h => absurd (List.mem_append_left _ (slash_dirs hm h1)) h, tidy_dispKids es h2⟩
termination_by (sizeOf es, 3)
theorem tidy_dispKids {L : LookM (Except Exn)} (es : List TreeEntry) {ks : List Disp} (h : dispKidsM L es = .ok ks) : TidyAll ks := by
  match es with
  | [] => rw [dispKidsM] at h; cases h; trivial
  | e :: es =>
    rw [dispKidsM] at h
    obtain ⟨k, h1, h⟩ := except_bind_ok h
    obtain ⟨ks, h2, h⟩ := except_bind_ok h
    cases h
    exact ⟨tidy_disp false e h1, tidy_dispKids es h2⟩
termination_by (sizeOf es, 2)
end

/-! ### The entries -/

theorem stands_cons {base : List JStr} {n : JStr} {xs : List (Option Path)} {ys : List (List JStr)} (h : List.Forall₂ (Stands (base ++ [n])) xs ys) : List.Forall₂ (Stands base) xs (ys.map (n :: ·)) := by
  induction h with
  | nil => exact .nil
  | @cons x y _ _ h1 _ ih =>
    refine .cons ?_ ih
    cases x with
    | none =>
      obtain ⟨ms, rfl⟩ := h1
      exact ⟨n :: ms, rfl⟩
    | some q =>
      show q = _
      rw [show q = _ from h1]
      simp

variable {fs : PureFs} {o : Options (Except Exn)}

theorem waysAll_append (a b : List NTree) : waysAll (a ++ b) = waysAll a ++ waysAll b := by
  induction a with
  | nil => rfl
  | cons x a ih => rw [List.cons_append, waysAll, waysAll, ih, List.append_assoc]

theorem skeletonAll_append (a b : List TreeEntry) : skeletonAll (a ++ b) = skeletonAll a ++ skeletonAll b := by
  induction a with
  | nil => rfl
  | cons x a ih => rw [List.cons_append, skeletonAll, skeletonAll, ih]; rfl

theorem eventsAll_append (a b : List TreeEntry) : eventsAll (a ++ b) = eventsAll a ++ eventsAll b := by
  induction a with
  | nil => rfl
  | cons x a ih => rw [List.cons_append, eventsAll, eventsAll, ih, List.append_assoc]

theorem limitTo_subset {n : Int} {l : List Path} : ∀ x ∈ limitTo n l, x ∈ l := by
  intro x hx
  unfold limitTo at hx
  split at hx
  · exact hx
  · exact List.mem_of_mem_take hx

mutual
theorem stands_of (hfs : ProperFs fs) {c : Cmp} {D : Int} {k : Nat} {base : List JStr} {n : JStr} {e : TreeEntry} (h : Scanned (answers fs o) c D k ⟨true, base ++ [n]⟩ e)
    (hf : ∀ q ∈ entryPaths e, Fine fs q) : List.Forall₂ (Stands base) (events e) (ways (skeleton e)) := by
  have hlast : lastName ⟨true, base ++ [n]⟩ = n := by simp [lastName]
  cases h with
  | @file _ _ a h1 h2 =>
    have hp := hf ⟨true, base ++ [n]⟩ (by simp [entryPaths, events])
    have ha : a = ⟨false, false⟩ := by
      have := hp.2 h1
      rw [show fs.readAttrs ⟨true, base ++ [n]⟩ = some a from h2] at this
      exact Option.some.inj this
    subst ha
    rw [skeleton, hlast, ways, events]
    exact .cons (by show _ = _; simp [fileMark]) .nil
  | tooDeep h1 h2 =>
    rw [skeleton, hlast, ways, events]
    exact .cons rfl (.cons ⟨[n], rfl⟩ .nil)
  | @dir _ _ m cs ks srt es h1 hk h2 h3 h4 h5 h6 h7 =>
    rw [skeleton, hlast, ways, events]
    refine .cons rfl (stands_cons ?_)
    rw [eventsAll_append, skeletonAll_append, waysAll_append]
    refine List.rel_append (standsAll_of hfs h7 (fun q hq => ?_) (fun e he q hq => hf q (mem_entryPaths_dir.2 (.inr ⟨e, List.mem_append_left _ he, hq⟩)))) ?_
    · obtain ⟨hnd, hch⟩ := hfs _ cs false h3
      obtain ⟨x, rfl⟩ := hch q (h4.subset.subset (h5.mem_iff.1 (limitTo_subset q hq)))
      exact ⟨x, by rw [OnePage.child_abs rfl]⟩
    · unfold moreMark
      split
      · exact .cons ⟨[], rfl⟩ .nil
      · exact .nil
termination_by ((D - k).toNat, 0)
decreasing_by exact Prod.Lex.left _ _ (by omega)
theorem standsAll_of (hfs : ProperFs fs) {c : Cmp} {D : Int} {k : Nat} {base : List JStr} {ps : List Path} {es : List TreeEntry} (h : ScannedAll (answers fs o) c D k ps es)
    (hps : ∀ q ∈ ps, ∃ n, q = ⟨true, base ++ [n]⟩) (hf : ∀ e ∈ es, ∀ q ∈ entryPaths e, Fine fs q) : List.Forall₂ (Stands base) (eventsAll es) (waysAll (skeletonAll es)) := by
  match ps, es, h with
  | _, _, .nil => exact .nil
  | p :: ps, e :: es, .cons h1 h2 =>
    obtain ⟨n, rfl⟩ := hps p (.head _)
    rw [eventsAll, skeletonAll, waysAll]
    exact List.rel_append (stands_of hfs h1 (hf e (.head _))) (standsAll_of hfs h2 (fun q hq => hps q (.tail _ hq)) (fun e he => hf e (.tail _ he)))
termination_by ((D - k).toNat, ps.length + 1)
end

theorem top_named {cwd p : Path} {s : JStr} (hw : cwd.abs = true) (hc : LawfulCmp o.pathComparator) (h : prettyPrint fs.lift cwd o p = .ok s) : (target cwd p).names ≠ [] := by
  obtain ⟨t, E, ht, hE, hs⟩ := prettyPrint_disp.1 h
  obtain ⟨hnamed, -⟩ := dispM_ok_shows _ _ hE
  have hscan := scanned_sound hw hc ht
  cases hscan with
  | file _ _ => exact hnamed
  | tooDeep _ _ => exact hnamed.1
  | dir _ _ _ _ _ _ _ _ => exact hnamed.1

end ReadPaths

variable {fs : PureFs} {cwd p : Path} {o : Options (Except Exn)} {s : JStr}

/-- **C121**: reading the text line by line gives the paths of the displayed entries, all of them and in the same order, with and without compact directories. -/
theorem C121_read (hw : cwd.abs = true) (hfs : ProperFs fs) (hc : LawfulCmp o.pathComparator) (ho : OnlyNames o) (h : prettyPrint fs.lift cwd o p = .ok s)
    (hplain : ∀ t, scanned fs cwd o p = .ok t → ∀ q ∈ entryPaths t, NL ∉ lastName q ∧ SLASH ∉ lastName q ∧ (fs.isDir q = false → fs.readAttrs q = some ⟨false, false⟩))
    {w : Nat} (hf : TreeFormatOK o.treeFormat w) (hr : Readable o.treeFormat) (hnl : FormatNoNL o.treeFormat) :
    ∃ t, scanned fs cwd o p = .ok t ∧ List.Forall₂ (Stands (target cwd p).names.dropLast) (events t) (readText o.treeFormat s) := by
  obtain ⟨t, E, ht, hE, hs⟩ := prettyPrint_disp.1 h
  obtain ⟨hnamed, T, hT, hET⟩ := dispM_ok_shows _ _ hE
  have htidy := ReadPaths.tidy_disp true t hE
  have hscan := scanned_sound hw hc ht
  refine ⟨t, ht, ?_⟩
  have hne := ReadPaths.top_named hw hc h
  have htop : target cwd p = ⟨true, (target cwd p).names.dropLast ++ [(target cwd p).names.getLast hne]⟩ := by
    rw [List.dropLast_append_getLast]
    have := target_abs (p := p) hw
    cases hq : target cwd p
    rw [hq] at this
    cases this
    rfl
  have hclean : CleanText o t := by
    refine ⟨fun q hq => (hplain t ht q hq).1, fun q hq e he => ?_, fun q hq x hx => ?_⟩
    · have he : answerOf (o.emojiMapping q) = some e := he
      rw [ho.emoji q] at he; cases he
    · unfold lookOf at hx; rw [ho.ext] at hx; cases hx
  have hL : (labelling o).total = lookOf o := by
    unfold LookM.total lookOf labelling
    cases o.lineExtension <;> rfl
  rw [hL] at hT hET
  have hp : Prints o t T s := ⟨hnamed, hT, by rw [hs, hET]⟩
  have hlab : ∀ l ∈ labels E, NoNL l := by rw [hET]; exact hp.labels_noNL hclean
  obtain ⟨t', ht', hdec⟩ := C23_text h w hf hr hnl ho.emoji (fun g hg => by rw [ho.ext] at hg; cases hg) (fun t ht => by
    refine ⟨fun d es hb => ?_, fun q a hb => ?_⟩
    · obtain ⟨n, hn⟩ := hb.at
      have := hplain t ht d (mem_entryPaths.2 ⟨n, _, hn, rfl⟩)
      exact ⟨this.2.1, this.1⟩
    · obtain ⟨n, hn⟩ := hb.at
      have := hplain t ht q (mem_entryPaths.2 ⟨n, _, hn, rfl⟩)
      exact ⟨this.2.1, this.1⟩)
  rw [ht] at ht'
  cases ht'
  rw [hs, C03_decode_roundtrip _ w hf hr hnl E hlab] at hdec
  have hdec : expand E = skeleton t := Option.some.inj hdec
  rw [hs, ReadPaths.readText_picture hf hr hnl hlab, ReadPaths.rel_expand E htidy, hdec]
  rw [htop] at hscan
  exact ReadPaths.stands_of hfs hscan (fun q hq => ⟨(hplain t ht q hq).2.1, (hplain t ht q hq).2.2⟩)

/-- **C121** on disks with regular files and readable directories only, for the default options: what is read off the text is there, and everything within 20 levels is read off. (A directory at the level 20 is
followed by a line `...`.) -/
theorem C121_disk {disk : Node} (hd : disk.WF) (hO : Ordinary disk) (hw : cwd.abs = true) (h : prettyPrint disk.toFs.lift cwd (Options.createDefault (m := Except Exn)) p = .ok s) :
    (∀ ns ∈ readText TreeFormats.UNICODE_BOX_DRAWING s, (disk.get ((target cwd p).names.dropLast ++ ns)).isSome ∨ ns.getLast? = some j!"...") ∧
    ∀ rest, rest.length ≤ 20 → (disk.get ((target cwd p).names ++ rest)).isSome → lastName (target cwd p) :: rest ∈ readText TreeFormats.UNICODE_BOX_DRAWING s := by
  have he := Snapshot.exists_of_printed hw h
  have hshown : ∀ t, scanned disk.toFs cwd Options.createDefault p = .ok t → ∀ q, q ∈ entryPaths t ↔ Shown disk.toFs Snapshot.dflt (target cwd p) q := fun t ht q =>
    C06_display_set_to_depth (o := Options.createDefault) hw lawful_ALPHABETICAL (fun _ n h => by cases h; decide) ht q
  have hpl := Snapshot.plain_disk hd hO hw he
  obtain ⟨t, ht, hall⟩ := C121_read (o := Options.createDefault) hw hd.proper lawful_ALPHABETICAL ⟨fun _ => rfl, rfl⟩ h (fun t ht q hq => hpl q ((hshown t ht q).1 hq)) Recreate.unicode.1 Recreate.unicode.2.1 Recreate.unicode.2.2
  have hne := ReadPaths.top_named (o := Options.createDefault) hw lawful_ALPHABETICAL h
  have hsplit : (target cwd p).names = (target cwd p).names.dropLast ++ [lastName (target cwd p)] := by
    conv_lhs => rw [← List.dropLast_append_getLast hne]
    congr 2
    have := OnePage.name_some hne
    rw [List.getLast?_eq_some_getLast hne] at this
    exact Option.some.inj this
  have htop : target cwd p = under (target cwd p).names [] := Snapshot.under_of_abs (target_abs (p := p) hw)
  constructor
  · intro ns hns
    obtain ⟨x, hx, hst⟩ := forall₂_mem hall.flip hns
    cases x with
    | none =>
      obtain ⟨ms, rfl⟩ := hst
      exact .inr (by simp)
    | some q =>
      have hq : q ∈ entryPaths t := by
        unfold entryPaths
        rw [List.mem_filterMap]
        exact ⟨some q, hx, rfl⟩
      have hsh := (hshown t ht q).1 hq
      rw [htop] at hsh
      obtain ⟨k, hk, -⟩ := id hsh
      obtain ⟨r, rfl, -⟩ := Snapshot.displayed_inv hd.proper hk
      have hsome := ((Snapshot.shown_disk hd hO he r).1 hsh).2
      have hst : under (target cwd p).names r = ⟨true, (target cwd p).names.dropLast ++ ns⟩ := hst
      unfold under at hst
      injection hst with _ hst
      rw [← hst]
      exact .inl hsome
  · intro rest hlen hsome
    have hsh := (Snapshot.shown_disk hd hO he rest).2 ⟨hlen, hsome⟩
    rw [← htop] at hsh
    have hq := (hshown t ht _).2 hsh
    unfold entryPaths at hq
    rw [List.mem_filterMap] at hq
    obtain ⟨x, hx, hxq⟩ := hq
    cases hxq
    obtain ⟨ns, hns, hst⟩ := forall₂_mem hall hx
    have hst : under (target cwd p).names rest = ⟨true, (target cwd p).names.dropLast ++ ns⟩ := hst
    unfold under at hst
    injection hst with _ hst
    rw [hsplit, List.append_assoc, List.dropLast_concat] at hst
    rw [← List.append_cancel_left hst] at hns
    exact hns

namespace ReadPaths

/-- Two directories in the first line below `r/`, and what is read off. -/
example : readText TreeFormats.UNICODE_BOX_DRAWING j!"r/\n├─ a/c/\n│  ├─ x\n│  └─ y\n└─ b.txt" = [[j!"r"], [j!"r", j!"a"], [j!"r", j!"a", j!"c"], [j!"r", j!"a", j!"c", j!"x"], [j!"r", j!"a", j!"c", j!"y"], [j!"r", j!"b.txt"]] := by decide

/-- The disk with this text has these paths. -/
example : ∃ t, scanned Recreate.nested.toFs Path.root Recreate.compactly Recreate.nr = .ok t ∧
    List.Forall₂ (Stands []) (events t) (readText TreeFormats.UNICODE_BOX_DRAWING j!"r/\n├─ a/c/\n│  ├─ x\n│  └─ y\n└─ b.txt") := by
  refine C121_read (o := Recreate.compactly) (p := Recreate.nr) rfl Recreate.nested_wf.proper lawful_ALPHABETICAL ⟨fun _ => rfl, rfl⟩ ((C100_disk Recreate.nested_wf rfl Recreate.compactly_obeys lawful_const _ _).2 (by decide))
    ?_ Recreate.unicode.1 Recreate.unicode.2.1 Recreate.unicode.2.2
  intro t ht
  rw [Recreate.nested_scanned] at ht
  cases ht
  decide

end ReadPaths
end JFTP
