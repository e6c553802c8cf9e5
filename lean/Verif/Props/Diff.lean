import Verif.Spec.Diff
import Verif.Props.Change
import Verif.Props.ChangeText
import Verif.Props.Placed

/-
C112: which lines change when an entry is added to a directory.
-/

namespace JFTP
open Spec

namespace Spec

theorem layoutKids_siblings (f : TreeFormat) : ∀ ks : List Disp, layoutKids f ks = siblings f (ks.map (layout f))
  | [] => rfl
  | [k] => by simp [layoutKids, siblings, SPACE]
  | k :: k' :: ks => by
    rw [layoutKids, if_neg (by simp), layoutKids_siblings f (k' :: ks)]
    simp [siblings, SPACE]

theorem map_block (pre x y : JStr) (l : List JStr) : (block x y l).map (pre ++ ·) = block (pre ++ x) (pre ++ y) l := by
  cases l <;> simp [block, Function.comp_def]

theorem block_append (x y : JStr) {l l' : List JStr} (h : l ≠ []) : block x y (l ++ l') = block x y l ++ l'.map (y ++ ·) := by
  cases l with
  | nil => exact absurd rfl h
  | cons a l => simp [block]

theorem block_ne_nil {x y : JStr} {l : List JStr} (h : l ≠ []) : block x y l ≠ [] := by
  cases l <;> simp_all [block]

theorem layoutKids_at (f : TreeFormat) : ∀ (l1 l2 : List Disp), ∃ (a : List JStr) (x : JStr) (b : Bool), ∀ k, layoutKids f (l1 ++ k :: l2) =
    a ++ (block x ((if b then f.continuationSymbol else f.emptySymbol) ++ j!" ") (layout f k) ++ layoutKids f l2)
  | [], l2 => by
    cases l2 with
    | nil => exact ⟨[], f.lastChildSymbol ++ [SPACE], false, fun k => by simp [layoutKids, SPACE]⟩
    | cons d ds => exact ⟨[], f.nonLastChildSymbol ++ [SPACE], true, fun k => by rw [List.nil_append, layoutKids]; simp [SPACE]⟩
  | d :: l1, l2 => by
    obtain ⟨a, x, b, h⟩ := layoutKids_at f l1 l2
    refine ⟨block (f.nonLastChildSymbol ++ [SPACE]) (f.continuationSymbol ++ [SPACE]) (layout f d) ++ a, x, b, fun k => ?_⟩
    rw [List.cons_append, layoutKids, if_neg (by simp), h k, List.append_assoc]

/-- The lines of the two trees: only those of the children of `d` differ. -/
theorem Inserted.lines {L : LookM (Except Exn)} (hcomp : L.compact = false) (f : TreeFormat) {d : Path} {x : TreeEntry} {X : Disp} (hx : dispM L false x = .ok X) {n : Nat} {t t' : TreeEntry}
    (h : Inserted d x n t t') {T : Disp} (hT : dispM L true t = .ok T) :
    ∃ T' l1 l2 k1 k2 a c pre, dispM L true t' = .ok T' ∧ BelowAt (.dir d (l1 ++ l2)) n t ∧ BelowAt (.dir d (l1 ++ x :: l2)) n t' ∧ dispKidsM L l1 = .ok k1 ∧ dispKidsM L l2 = .ok k2 ∧
      Indent f n pre ∧ a ≠ [] ∧ layout f T = a ++ ((layoutKids f (k1 ++ k2)).map (pre ++ ·) ++ c) ∧ layout f T' = a ++ ((layoutKids f (k1 ++ X :: k2)).map (pre ++ ·) ++ c) := by
  induction h generalizing T with
  | @here l1 l2 =>
    obtain ⟨nm, y, ks, h1, h2, h3, rfl⟩ := dispM_dir_ok hT
    obtain ⟨k1, k2, rfl, h4, h5⟩ := dispKidsM_append.1 h3
    refine ⟨_, l1, l2, k1, k2, [nm ++ y.getD []], [], [], dispM_dir_mk h1 h2 (dispKidsM_append.2 ⟨k1, X :: k2, rfl, h4, by rw [dispKidsM, hx, h5]; rfl⟩), .here, .here, h4, h5,
      ⟨[], rfl, rfl⟩, by simp, ?_, ?_⟩
    · rw [layout]; simp
    · rw [layout]; simp
  | @inside q l1 l2 e e' n hi ih =>
    obtain ⟨nm, y, ks, h1, h2, h3, rfl⟩ := dispM_dir_ok hT
    obtain ⟨k1, kk, rfl, h4, h5⟩ := dispKidsM_append.1 h3
    rw [dispKidsM] at h5
    obtain ⟨k, hk, h5⟩ := except_bind_ok h5
    obtain ⟨k2, hk2, h5⟩ := except_bind_ok h5
    cases h5
    rw [← dispM_top_eq L e (.inl hcomp)] at hk
    obtain ⟨k', m1, m2, j1, j2, a, c, pre, hk', hb, hb', hj1, hj2, ⟨more, hm, hpre⟩, ha, ho, ho'⟩ := ih hk
    rw [dispM_top_eq L e' (.inl hcomp)] at hk'
    obtain ⟨a0, x0, b0, hsp⟩ := layoutKids_at f k1 k2
    refine ⟨_, m1, m2, j1, j2, (nm ++ y.getD []) :: (a0 ++ block x0 ((if b0 then f.continuationSymbol else f.emptySymbol) ++ j!" ") a),
      c.map (((if b0 then f.continuationSymbol else f.emptySymbol) ++ j!" ") ++ ·) ++ layoutKids f k2, ((if b0 then f.continuationSymbol else f.emptySymbol) ++ j!" ") ++ pre,
      dispM_dir_mk h1 h2 (dispKidsM_append.2 ⟨k1, k' :: k2, rfl, h4, by rw [dispKidsM, hk', hk2]; rfl⟩), .inside (by simp) hb, .inside (by simp) hb', hj1, hj2, ⟨b0 :: more, by simp [hm], by simp [hpre]⟩, by simp, ?_, ?_⟩
    · rw [layout, hsp, ho, block_append _ _ ha]; simp [Function.comp_def]
    · rw [layout, hsp, ho', block_append _ _ ha]; simp [Function.comp_def]

theorem siblings_split (f : TreeFormat) {B2 : List (List JStr)} (h2 : B2 ≠ []) : ∀ B1 : List (List JStr), siblings f (B1 ++ B2) =
    B1.flatMap (block (f.nonLastChildSymbol ++ j!" ") (f.continuationSymbol ++ j!" ")) ++ siblings f B2
  | [] => by simp
  | b :: B1 => by
    obtain ⟨c, cs, hc⟩ : ∃ c cs, B1 ++ B2 = c :: cs := by
      cases B1 with
      | nil => cases B2 with
        | nil => exact absurd rfl h2
        | cons c cs => exact ⟨c, cs, rfl⟩
      | cons c cs => exact ⟨c, cs ++ B2, rfl⟩
    rw [List.cons_append, hc, siblings, ← hc, siblings_split f h2 B1, List.flatMap_cons, List.append_assoc]

theorem dispKidsM_forall {L : LookM (Except Exn)} : ∀ {es : List TreeEntry} {ks : List Disp}, dispKidsM L es = .ok ks → List.Forall₂ (fun e k => dispM L false e = .ok k) es ks
  | [], ks, h => by rw [dispKidsM] at h; cases h; exact .nil
  | e :: es, ks, h => by
    rw [dispKidsM] at h
    obtain ⟨k, hk, h⟩ := except_bind_ok h
    obtain ⟨ks', hks, h⟩ := except_bind_ok h
    cases h
    exact .cons hk (dispKidsM_forall hks)

theorem ScannedAll.forall₂ {A : Answers} {c : Cmp} {D : Int} {k : Nat} : ∀ {ps : List Path} {es : List TreeEntry}, ScannedAll A c D k ps es → List.Forall₂ (fun p e => Scanned A c D k p e) ps es
  | _, _, .nil => .nil
  | _, _, .cons h hs => .cons h (ScannedAll.forall₂ hs)

theorem forall₂_snoc {α β : Type} {R : α → β → Prop} : ∀ {l : List α} {a : α} {m : List β}, List.Forall₂ R (l ++ [a]) m → ∃ m0 b, m = m0 ++ [b] ∧ List.Forall₂ R l m0 ∧ R a b
  | [], _, _, .cons h .nil => ⟨[], _, rfl, .nil, h⟩
  | _ :: _, _, _, .cons h hs => by
    obtain ⟨m0, b, rfl, h1, h2⟩ := forall₂_snoc hs
    exact ⟨_ :: m0, b, rfl, .cons h h1, h2⟩

theorem forall₂_comp {α β γ : Type} {R : α → β → Prop} {S : β → γ → Prop} : ∀ {l : List α} {m : List β} {n : List γ}, List.Forall₂ R l m → List.Forall₂ S m n → List.Forall₂ (fun a c => ∃ b, R a b ∧ S b c) l n
  | _, _, _, .nil, .nil => .nil
  | _, _, _, .cons h hs, .cons g gs => .cons ⟨_, h, g⟩ (forall₂_comp hs gs)

/-- What is scanned in a directory without child limit above the depth limit: all that is shown in it, in order. -/
theorem Scanned.children {fs : PureFs} {o : Options (Except Exn)} {D : Int} (hfs : ProperFs fs) (hc : LawfulCmp o.pathComparator) (hd : DistinguishesAll o.pathComparator fs)
    (hu : ∀ q n, o.childLimit q = .ok n → n < 0) {k : Nat} {d : Path} {es : List TreeEntry} (h : Scanned (answers fs o) o.pathComparator D k d (.dir d es)) (hk : (k : Int) < D) :
    ∃ qs, ScannedAll (answers fs o) o.pathComparator D (k + 1) qs es ∧ qs.Pairwise (fun a b => o.pathComparator a b < 0) ∧ ∀ q, q ∈ qs ↔ ShownIn fs o d q := by
  obtain ⟨-, -, h | ⟨-, n, cs, ks, srt, es', h1, h2, h3, h4, h5, h6, rfl⟩⟩ := h.dir_inv
  · omega
  · have hn : n < 0 := hu d n h1
    have h2 : fs.listDir d = .opened cs false := h2
    rw [limitTo_none hn] at h6
    rw [moreMark_none hn, List.append_nil]
    have hsub : ∀ q ∈ srt, q ∈ cs := fun q hq => h3.subset.subset (h4.mem_iff.1 hq)
    refine ⟨srt, h6, strictly_sorted hc h5 (h4.nodup_iff.2 (h3.subset.nodup (hfs d cs false h2).1)) (fun a ha b hb => hd d cs false h2 a (hsub a ha) b (hsub b hb)), ?_⟩
    intro q
    rw [h4.mem_iff, kept_filter h3, List.mem_filter]
    constructor
    · rintro ⟨hq, hp⟩
      refine ⟨cs, h2, hq, ?_, ?_⟩
      · intro hdir
        unfold passes at hp
        rw [if_pos hdir] at hp
        split at hp
        · rename_i b hb; rw [hb, hp]
        · cases hp
      · intro hdir
        unfold passes at hp
        rw [if_neg (by rw [hdir]; decide)] at hp
        split at hp
        · rename_i b hb; rw [hb, hp]
        · cases hp
    · rintro ⟨cs', h2', hq, hp1, hp2⟩
      rw [h2] at h2'
      cases h2'
      refine ⟨hq, ?_⟩
      unfold passes
      cases hdir : fs.isDir q with
      | true => rw [if_pos rfl, hp1 hdir]
      | false => rw [if_neg (by decide), hp2 hdir]

end Spec

section
variable {fs fs' : PureFs} {cwd p : Path} {o : Options (Except Exn)} {d f : Path} {k : Nat} {s b : JStr}

/-- **C112**: without compact directories and child limits, the text before and after the entry `f` is added to the displayed directory `d` (at depth `k`). The lines before and after the lines of the children of
`d` are the same, letter by letter. The children are all that is listed in `d` and passes its filter, in sort order; their lines are the lines of their own texts (with the remaining depth), all attached to the
same indentation; the new lines are the lines of the text of `f` alone, at its place in the sort order. -/
theorem C112_block (hw : cwd.abs = true) (hfs : ProperFs fs) (hfs' : ProperFs fs') (hc : LawfulCmp o.pathComparator) (hd : DistinguishesAll o.pathComparator fs)
    (hd' : DistinguishesAll o.pathComparator fs') (hu : ∀ q n, o.childLimit q = .ok n → n < 0) (hcomp : o.compactDirectories = false) (hA : AddedEntry fs fs' d f)
    (hf : (if fs'.isDir f = true then o.dirMatcher f else o.fileMatcher f) = .ok true) (hdisp : DisplayedAt fs o (target cwd p) k d) (hdd : fs.isDir d = true)
    (hk : (k : Int) < o.maxDepth) (hclean : target cwd f = f) (hcl : ∀ q, ShownIn fs o d q → target cwd q = q) (h : prettyPrint fs.lift cwd o p = .ok s)
    (hb : prettyPrint fs'.lift cwd (o.withMaxDepth (o.maxDepth - (k + 1 : Nat))) f = .ok b) :
    ∃ before after pre qs1 qs2 B1 B2 X, Indent o.treeFormat k pre ∧ before ≠ [] ∧ X ≠ [] ∧
      (∀ q, q ∈ qs1 ++ qs2 ↔ ShownIn fs o d q) ∧ (qs1 ++ f :: qs2).Pairwise (fun a b => o.pathComparator a b < 0) ∧
      List.Forall₂ (fun q B => prettyPrint fs.lift cwd (o.withMaxDepth (o.maxDepth - (k + 1 : Nat))) q = .ok (joinLines B)) qs1 B1 ∧
      List.Forall₂ (fun q B => prettyPrint fs.lift cwd (o.withMaxDepth (o.maxDepth - (k + 1 : Nat))) q = .ok (joinLines B)) qs2 B2 ∧
      b = joinLines X ∧
      s = joinLines (before ++ ((siblings o.treeFormat (B1 ++ B2)).map (pre ++ ·) ++ after)) ∧
      prettyPrint fs'.lift cwd o p = .ok (joinLines (before ++ ((siblings o.treeFormat (B1 ++ X :: B2)).map (pre ++ ·) ++ after))) := by
  obtain ⟨t, T, ht, hT, hs⟩ := prettyPrint_disp.1 h
  obtain ⟨x, X, hx, hX, hbp⟩ := prettyPrint_disp.1 hb
  obtain ⟨t', ht', hi⟩ := C90_entry hw hfs hfs' hc hd' hu hA hf hdisp hdd hk hclean ht hx
  have hX : dispM (labelling o) true x = .ok X := hX
  have hX' : dispM (labelling o) false (bump^[k + 1] x) = .ok X := by
    rw [dispM_bumps, ← dispM_top_eq _ _ (.inl hcomp), hX]
  obtain ⟨T', l1, l2, k1, k2, a, c, pre, hT', hbl, hbl', hk1, hk2, hind, ha, hl, hl'⟩ := hi.lines (L := labelling o) hcomp o.treeFormat hX' hT
  have hsub := (scanned_sound hw hc ht).sub hbl rfl
  have hsub' := (scanned_sound hw hc ht').sub hbl' rfl
  rw [Nat.zero_add] at hsub hsub'
  obtain ⟨qs, hq1, hq2, hq3⟩ := hsub.children hfs hc hd hu hk
  obtain ⟨qs', hq1', hq2', hq3'⟩ := hsub'.children hfs' hc hd' hu hk
  obtain ⟨q1, f', q2, rfl, hs1, hsf, hs2⟩ := hq1'.split_at
  have hqs : qs = q1 ++ q2 := by
    have e1 := hq1.filterMap
    rw [List.filterMap_append, hs1.filterMap, hs2.filterMap] at e1
    exact e1.symm
  subst hqs
  have hff : f' = f := by
    have e1 := hsf.entryPath_eq
    have hz := scanned_deeper (fs := fs') hw hc hx
    rw [hclean] at hz
    have e2 := hz.entryPath_eq
    rw [e1] at e2
    exact Option.some.inj e2
  subst hff
  have halone : ∀ {ps : List Path} {es : List TreeEntry} {ks : List Disp}, (∀ q ∈ ps, ShownIn fs o d q) → ScannedAll (answers fs o) o.pathComparator o.maxDepth (k + 1) ps es → dispKidsM (labelling o) es = .ok ks →
      List.Forall₂ (fun q B => prettyPrint fs.lift cwd (o.withMaxDepth (o.maxDepth - (k + 1 : Nat))) q = .ok (joinLines B)) ps (ks.map (layout o.treeFormat)) := by
    intro ps es ks hps hsc hdk
    have h2 := forall₂_comp hsc.forall₂ (dispKidsM_forall hdk)
    clear hsc hdk
    induction h2 with
    | nil => exact .nil
    | @cons q K ps' ks' h3 _ ih =>
      refine .cons ?_ (ih fun q hq => hps q (by simp [hq]))
      obtain ⟨e, he, hK⟩ := h3
      obtain ⟨x0, hx0, rfl⟩ := scanned_alone hw hc hd (hcl q (hps q (by simp))) he
      rw [dispM_bumps, ← dispM_top_eq _ _ (.inl hcomp)] at hK
      exact prettyPrint_disp.2 ⟨x0, K, hx0, hK, rfl⟩
  obtain ⟨e1, e2, he, hsc1, hsc2⟩ := hq1.split
  have hlen : e1.length = l1.length := by
    rw [← hsc1.forall₂.length_eq, hs1.forall₂.length_eq]
  obtain ⟨rfl, rfl⟩ := List.append_inj he hlen.symm
  refine ⟨a, c, pre, q1, q2, k1.map (layout o.treeFormat), k2.map (layout o.treeFormat), layout o.treeFormat X, hind, ha, ?_, hq3, hq2', ?_, ?_, hbp, ?_, ?_⟩
  · cases X; simp [layout]
  · exact halone (fun q hq => (hq3 q).1 (by simp [hq])) hsc1 hk1
  · exact halone (fun q hq => (hq3 q).1 (by simp [hq])) hsc2 hk2
  · rw [hs, picture, hl, layoutKids_siblings, List.map_append]
  · refine prettyPrint_disp.2 ⟨t', T', ht', hT', ?_⟩
    rw [picture, hl', layoutKids_siblings, List.map_append, List.map_cons]

/-- **C112**, in the middle: if a sibling that is sorted after `f` is displayed, the text gains the lines of `f`, and all other lines stay as they are, letter by letter. -/
theorem C112_middle (hw : cwd.abs = true) (hfs : ProperFs fs) (hfs' : ProperFs fs') (hc : LawfulCmp o.pathComparator) (hd : DistinguishesAll o.pathComparator fs)
    (hd' : DistinguishesAll o.pathComparator fs') (hu : ∀ q n, o.childLimit q = .ok n → n < 0) (hcomp : o.compactDirectories = false) (hA : AddedEntry fs fs' d f)
    (hf : (if fs'.isDir f = true then o.dirMatcher f else o.fileMatcher f) = .ok true) (hdisp : DisplayedAt fs o (target cwd p) k d) (hdd : fs.isDir d = true)
    (hk : (k : Int) < o.maxDepth) (hclean : target cwd f = f) (hcl : ∀ q, ShownIn fs o d q → target cwd q = q) (h : prettyPrint fs.lift cwd o p = .ok s)
    (hb : prettyPrint fs'.lift cwd (o.withMaxDepth (o.maxDepth - (k + 1 : Nat))) f = .ok b) {g : Path} (hg : ShownIn fs o d g) (hfg : o.pathComparator f g < 0) :
    ∃ before after pre X, Indent o.treeFormat k pre ∧ before ≠ [] ∧ X ≠ [] ∧ b = joinLines X ∧ s = joinLines (before ++ after) ∧
      prettyPrint fs'.lift cwd o p = .ok (joinLines (before ++
        (block (pre ++ o.treeFormat.nonLastChildSymbol ++ j!" ") (pre ++ o.treeFormat.continuationSymbol ++ j!" ") X ++ after))) := by
  obtain ⟨a, c, pre, qs1, qs2, B1, B2, X, hind, ha, hX, hmem, hsort, h1, h2, hbX, hs, hs'⟩ := C112_block hw hfs hfs' hc hd hd' hu hcomp hA hf hdisp hdd hk hclean hcl h hb
  have hB2 : B2 ≠ [] := by
    rintro rfl
    cases h2
    have hmg := (hmem g).2 hg
    rw [List.append_nil] at hmg
    have := (List.pairwise_append.1 hsort).2.2 g hmg f (by simp)
    have := (hc.antisymm g f).1 (by omega)
    omega
  refine ⟨a ++ (B1.flatMap (block (o.treeFormat.nonLastChildSymbol ++ j!" ") (o.treeFormat.continuationSymbol ++ j!" "))).map (pre ++ ·), (siblings o.treeFormat B2).map (pre ++ ·) ++ c, pre, X, hind, by simp [ha], hX, hbX, ?_, ?_⟩
  · rw [hs, siblings_split _ hB2]; simp
  · rw [hs', siblings_split _ (List.cons_ne_nil X B2), show X :: B2 = [X] ++ B2 from rfl, siblings_split _ hB2 [X], List.flatMap_singleton, List.map_append, List.map_append, map_block]; simp

/-- **C112**, at the end: if `f` is sorted behind all displayed siblings, the last of which is `g`, the lines of `f` follow those of `g`, and the only other changes are the symbols by which `g` and what is
below it are attached. -/
theorem C112_last (hw : cwd.abs = true) (hfs : ProperFs fs) (hfs' : ProperFs fs') (hc : LawfulCmp o.pathComparator) (hd : DistinguishesAll o.pathComparator fs)
    (hd' : DistinguishesAll o.pathComparator fs') (hu : ∀ q n, o.childLimit q = .ok n → n < 0) (hcomp : o.compactDirectories = false) (hA : AddedEntry fs fs' d f)
    (hf : (if fs'.isDir f = true then o.dirMatcher f else o.fileMatcher f) = .ok true) (hdisp : DisplayedAt fs o (target cwd p) k d) (hdd : fs.isDir d = true)
    (hk : (k : Int) < o.maxDepth) (hclean : target cwd f = f) (hcl : ∀ q, ShownIn fs o d q → target cwd q = q) (h : prettyPrint fs.lift cwd o p = .ok s)
    (hb : prettyPrint fs'.lift cwd (o.withMaxDepth (o.maxDepth - (k + 1 : Nat))) f = .ok b) {g : Path} (hg : ShownIn fs o d g)
    (hlast : ∀ q, ShownIn fs o d q → q = g ∨ o.pathComparator q g < 0) (hgf : o.pathComparator g f < 0) :
    ∃ before after pre X G, Indent o.treeFormat k pre ∧ before ≠ [] ∧ X ≠ [] ∧ b = joinLines X ∧
      prettyPrint fs.lift cwd (o.withMaxDepth (o.maxDepth - (k + 1 : Nat))) g = .ok (joinLines G) ∧
      s = joinLines (before ++ (block (pre ++ o.treeFormat.lastChildSymbol ++ j!" ") (pre ++ o.treeFormat.emptySymbol ++ j!" ") G ++ after)) ∧
      prettyPrint fs'.lift cwd o p = .ok (joinLines (before ++
        (block (pre ++ o.treeFormat.nonLastChildSymbol ++ j!" ") (pre ++ o.treeFormat.continuationSymbol ++ j!" ") G ++
        (block (pre ++ o.treeFormat.lastChildSymbol ++ j!" ") (pre ++ o.treeFormat.emptySymbol ++ j!" ") X ++ after)))) := by
  obtain ⟨a, c, pre, qs1, qs2, B1, B2, X, hind, ha, hX, hmem, hsort, h1, h2, hbX, hs, hs'⟩ := C112_block hw hfs hfs' hc hd hd' hu hcomp hA hf hdisp hdd hk hclean hcl h hb
  have hqs2 : qs2 = [] := by
    cases qs2 with
    | nil => rfl
    | cons q qs2 =>
      exfalso
      have hfq : o.pathComparator f q < 0 := (List.pairwise_cons.1 (List.pairwise_append.1 hsort).2.1).1 q (by simp)
      have hgq := hc.trans g f q (by omega) (by omega)
      rcases hlast q ((hmem q).1 (by simp)) with rfl | hq
      · have := (hc.antisymm q f).1 (by omega); omega
      · have := (hc.antisymm q g).1 (by omega); omega
  subst hqs2
  cases h2
  rw [List.append_nil] at hmem
  obtain ⟨qs0, g', rfl⟩ : ∃ qs0 g', qs1 = qs0 ++ [g'] := by
    have hne : qs1 ≠ [] := by rintro rfl; exact absurd ((hmem g).2 hg) (by simp)
    exact ⟨_, _, (List.dropLast_append_getLast hne).symm⟩
  have hgg : g' = g := by
    rcases hlast g' ((hmem g').1 (by simp)) with h0 | h0
    · exact h0
    · have hin := (hmem g).2 hg
      rw [List.mem_append] at hin
      rcases hin with hin | hin
      · have hs0 := (List.pairwise_append.1 hsort).1
        have h3 := (List.pairwise_append.1 hs0).2.2 g hin g' (by simp)
        have := (hc.antisymm g' g).1 (by omega)
        omega
      · exact (List.mem_singleton.1 hin).symm
  subst hgg
  obtain ⟨B0, G, rfl, h4, h5⟩ := forall₂_snoc h1
  · refine ⟨a ++ (B0.flatMap (block (o.treeFormat.nonLastChildSymbol ++ j!" ") (o.treeFormat.continuationSymbol ++ j!" "))).map (pre ++ ·), c, pre, X, G, hind, by simp [ha], hX, hbX, h5, ?_, ?_⟩
    · rw [hs, List.append_nil, siblings_split _ (by simp), List.map_append, siblings, map_block]; simp
    · rw [hs', List.append_assoc, siblings_split _ (by simp), List.map_append, List.singleton_append, siblings, siblings, List.map_append, map_block, map_block]; simp

/-- **C112**, alone: if nothing was displayed in `d`, the text gains the lines of `f`, and all other lines stay as they are, letter by letter. -/
theorem C112_first (hw : cwd.abs = true) (hfs : ProperFs fs) (hfs' : ProperFs fs') (hc : LawfulCmp o.pathComparator) (hd : DistinguishesAll o.pathComparator fs)
    (hd' : DistinguishesAll o.pathComparator fs') (hu : ∀ q n, o.childLimit q = .ok n → n < 0) (hcomp : o.compactDirectories = false) (hA : AddedEntry fs fs' d f)
    (hf : (if fs'.isDir f = true then o.dirMatcher f else o.fileMatcher f) = .ok true) (hdisp : DisplayedAt fs o (target cwd p) k d) (hdd : fs.isDir d = true)
    (hk : (k : Int) < o.maxDepth) (hclean : target cwd f = f) (h : prettyPrint fs.lift cwd o p = .ok s)
    (hb : prettyPrint fs'.lift cwd (o.withMaxDepth (o.maxDepth - (k + 1 : Nat))) f = .ok b) (hno : ∀ q, ¬ ShownIn fs o d q) :
    ∃ before after pre X, Indent o.treeFormat k pre ∧ before ≠ [] ∧ X ≠ [] ∧ b = joinLines X ∧ s = joinLines (before ++ after) ∧
      prettyPrint fs'.lift cwd o p = .ok (joinLines (before ++
        (block (pre ++ o.treeFormat.lastChildSymbol ++ j!" ") (pre ++ o.treeFormat.emptySymbol ++ j!" ") X ++ after))) := by
  obtain ⟨a, c, pre, qs1, qs2, B1, B2, X, hind, ha, hX, hmem, hsort, h1, h2, hbX, hs, hs'⟩ := C112_block hw hfs hfs' hc hd hd' hu hcomp hA hf hdisp hdd hk hclean
    (fun q hq => absurd hq (hno q)) h hb
  have hnil : qs1 ++ qs2 = [] := List.eq_nil_iff_forall_not_mem.2 fun q hq => hno q ((hmem q).1 hq)
  obtain ⟨rfl, rfl⟩ := List.append_eq_nil_iff.1 hnil
  cases h1; cases h2
  refine ⟨a, c, pre, X, hind, ha, hX, hbX, ?_, ?_⟩
  · rw [hs]; simp [siblings]
  · rw [hs', List.nil_append, siblings, map_block]; simp

end

/-! ### Concrete cases: the directory `v` with the file `u` is added to `/r/a` of the example disk (before `x` and `y`) -/

namespace Demo

theorem shownIn_a {q : Path} (h : ShownIn dfs dflt a q) : q = y ∨ q = x := by
  obtain ⟨cs, h1, h2, -⟩ := h
  cases h1
  rcases List.mem_cons.1 h2 with h | h
  · exact .inl h
  · exact .inr (List.mem_singleton.1 h)

example : ∃ before after pre X, Indent dflt.treeFormat 1 pre ∧ before ≠ [] ∧ X ≠ [] ∧ j!"v/\n└─ u" = joinLines X ∧ joinLines [j!"r/", j!"├─ a/", j!"│  ├─ x", j!"│  └─ y", j!"├─ b.txt", j!"└─ z?"] = joinLines (before ++ after) ∧
    prettyPrint vfs.lift Path.root dflt r = .ok (joinLines (before ++ (block (pre ++ j!"├─" ++ j!" ") (pre ++ j!"│ " ++ j!" ") X ++ after))) :=
  C112_middle (fs := dfs) (fs' := vfs) (cwd := Path.root) (p := r) (o := dflt) (k := 1) (d := a) (f := v) (g := x) rfl proper vfs_proper lawful_ALPHABETICAL
    (sort_distinguishes lawful_const proper) (sort_distinguishes lawful_const vfs_proper) (by intro q n h; cases h; decide) rfl vfs_added rfl
    (.child (cs := [b, a, z]) .top rfl rfl (by simp) (fun _ => rfl) (fun _ => rfl)) rfl (by decide) rfl (fun q hq => by rcases shownIn_a hq with rfl | rfl <;> rfl) printed_found (printed_v _ (by decide))
    ⟨[y, x], rfl, by simp, fun _ => rfl, fun _ => rfl⟩ (by decide)

theorem dflt_obeys : OnePage.Obeys dflt OnePage.standard :=
  ⟨fun _ _ => rfl, fun _ _ => rfl, rfl, fun _ _ => rfl, rfl, rfl, fun _ _ => rfl, fun _ _ => rfl, by decide, by decide, by decide, by decide⟩

theorem cy_printed (o : Options (Except Exn)) (he : o.emojiMapping cy = .ok none) (hx : (labelling o).ext cy = .ok none) : prettyPrint cfs'.lift Path.root o cy = .ok j!"y" := by
  refine prettyPrint_disp.2 ⟨.file cy ⟨false, false⟩, .node j!"y" [], ?_, ?_, rfl⟩
  · rw [scanned_eq _ rfl, Scanner.handle.eq_def]; rfl
  · rw [dispM, fileTextM]
    show (do let name ← (do let e ← o.emojiMapping cy; _); _) = _
    rw [he, hx]; rfl

/-- `y` is added behind `x`. -/
example := C112_last (fs := cfs) (fs' := cfs') (cwd := Path.root) (p := r) (o := dflt) (k := 2) (d := cn) (f := cy) (g := cx) (b := j!"y") (s := j!"r/\n├─ m/\n│  └─ n/\n│     └─ x\n└─ z") rfl cfs_proper cfs'_proper
  lawful_ALPHABETICAL (sort_distinguishes lawful_const cfs_proper) (sort_distinguishes lawful_const cfs'_proper) (by intro q n h; cases h; decide) rfl cfs_added rfl
  (.child (cs := [cn]) (.child (cs := [cm, cz]) (q := cm) .top rfl rfl (by simp) (fun _ => rfl) (fun _ => rfl)) rfl rfl (by simp) (fun _ => rfl) (fun _ => rfl)) rfl (by decide) rfl
  (by rintro q ⟨cs, h1, h2, -⟩; cases h1; cases List.mem_singleton.1 h2; rfl) ((C100_disk cdisk_wf rfl dflt_obeys lawful_const _ _).2 (by decide)) (cy_printed _ rfl rfl)
  ⟨[cx], rfl, by simp, fun _ => rfl, fun _ => rfl⟩ (by rintro q ⟨cs, h1, h2, -⟩; cases h1; exact .inl (List.mem_singleton.1 h2)) (by decide)

/-- The same with a filter that hides `x`: `y` is alone. -/
example := C112_first (fs := cfs) (fs' := cfs') (cwd := Path.root) (p := r) (o := dflt.filterFiles (fun q => pure (q != cx))) (k := 2) (d := cn) (f := cy) (b := j!"y") (s := j!"r/\n├─ m/\n│  └─ n/\n└─ z") rfl cfs_proper
  cfs'_proper lawful_ALPHABETICAL (sort_distinguishes lawful_const cfs_proper) (sort_distinguishes lawful_const cfs'_proper) (by intro q n h; cases h; decide) rfl cfs_added rfl
  (.child (cs := [cn]) (.child (cs := [cm, cz]) (q := cm) .top rfl rfl (by simp) (fun _ => rfl) (fun h => by cases h)) rfl rfl (by simp) (fun _ => rfl) (fun h => by cases h)) rfl (by decide) rfl
  ((C100_disk (S := { OnePage.standard with showFile := fun q => q != cx }) cdisk_wf rfl
    ⟨fun _ _ => rfl, fun _ _ => rfl, rfl, fun _ _ => rfl, rfl, rfl, fun _ _ => rfl, fun _ _ => rfl, by decide, by decide, by decide, by decide⟩ lawful_const _ _).2 (by decide)) (cy_printed _ rfl rfl)
  (by rintro q ⟨cs, h1, h2, -, h3⟩; cases h1; cases List.mem_singleton.1 h2; cases h3 rfl)

end Demo
end JFTP
