import Verif.Props.ChangeReturns
import Verif.Props.OnePage

/-
C91, C90: a change inside a directory changes nothing but its block of lines, letter by letter, with and without compact directories.
-/

namespace JFTP
open Spec

namespace Spec

/-- `Swapped B B' n T T'`: the displayed tree `T'` is `T` with `B'` in the place of `B`, which is `n` levels below the top. -/
inductive Swapped (B B' : ITree) : Nat → ITree → ITree → Prop where
  | here : Swapped B B' 0 B B'
  | inside {i l1 l2 k k' n} : Swapped B B' n k k' → Swapped B B' (n + 1) (.node i (l1 ++ k :: l2)) (.node i (l1 ++ k' :: l2))

theorem toDispAll_append {L : Look} : ∀ {l1 l2 : List ITree}, toDispAll L (l1 ++ l2) = toDispAll L l1 ++ toDispAll L l2
  | [], _ => rfl
  | k :: ks, l2 => by simp [toDispAll, toDispAll_append (l1 := ks)]

theorem itemsAll_append {n : Nat} : ∀ {l1 l2 : List ITree}, itemsAll n (l1 ++ l2) = itemsAll n l1 ++ itemsAll n l2
  | [], _ => rfl
  | k :: ks, l2 => by simp [itemsAll, itemsAll_append (l1 := ks)]

theorem block_length (a b : JStr) (l : List JStr) : (block a b l).length = l.length := by
  cases l <;> simp [block]

mutual
theorem layout_items {f : TreeFormat} {L : Look} (m : Nat) (T : ITree) : (layout f (T.toDisp L)).length = (T.items m).length := by
  match T with
  | .node i ks => simp [ITree.toDisp, layout, ITree.items, layoutKids_items (m + 1) ks]
theorem layoutKids_items {f : TreeFormat} {L : Look} (m : Nat) (ks : List ITree) : (layoutKids f (toDispAll L ks)).length = (itemsAll m ks).length := by
  match ks with
  | [] => rfl
  | k :: ks =>
    rw [toDispAll, layoutKids, itemsAll, List.length_append, ← layoutKids_items m ks, ← layout_items (f := f) (L := L) m k]
    split
    · rename_i h
      rw [List.isEmpty_iff] at h
      rw [h, block_length]; simp [layoutKids]
    · rw [List.length_append, block_length]
end

/-- The lines of the children before one of them, and those after it, do not depend on that one. -/
theorem layoutKids_split (f : TreeFormat) : ∀ (l1 l2 : List Disp), ∃ a x y, ∀ k, layoutKids f (l1 ++ k :: l2) = a ++ (block x y (layout f k) ++ layoutKids f l2)
  | [], l2 => by
    cases l2 with
    | nil => exact ⟨[], f.lastChildSymbol ++ [SPACE], f.emptySymbol ++ [SPACE], fun k => by simp [layoutKids]⟩
    | cons d ds => exact ⟨[], f.nonLastChildSymbol ++ [SPACE], f.continuationSymbol ++ [SPACE], fun k => by rw [List.nil_append, layoutKids]; simp⟩
  | d :: l1, l2 => by
    obtain ⟨a, x, y, h⟩ := layoutKids_split f l1 l2
    refine ⟨block (f.nonLastChildSymbol ++ [SPACE]) (f.continuationSymbol ++ [SPACE]) (layout f d) ++ a, x, y, fun k => ?_⟩
    rw [List.cons_append, layoutKids, if_neg (by simp), h k, List.append_assoc]

theorem block_split (x y : JStr) (a c : List JStr) {b b' : List JStr} (hb : b ≠ []) (hb' : b' ≠ []) :
    ∃ a2 b2 b2' c2, block x y (a ++ (b ++ c)) = a2 ++ (b2 ++ c2) ∧ block x y (a ++ (b' ++ c)) = a2 ++ (b2' ++ c2) ∧ a2.length = a.length ∧ b2.length = b.length ∧ b2'.length = b'.length := by
  cases a with
  | nil =>
    cases b with
    | nil => exact absurd rfl hb
    | cons u us =>
      cases b' with
      | nil => exact absurd rfl hb'
      | cons v vs =>
        exact ⟨[], (x ++ u) :: us.map (y ++ ·), (x ++ v) :: vs.map (y ++ ·), c.map (y ++ ·), by simp [block], by simp [block], rfl, by simp, by simp⟩
  | cons z zs =>
    exact ⟨(x ++ z) :: zs.map (y ++ ·), b.map (y ++ ·), b'.map (y ++ ·), c.map (y ++ ·), by simp [block], by simp [block], by simp, by simp, by simp⟩

theorem items_ne_nil (m : Nat) (T : ITree) : T.items m ≠ [] := by
  cases T; simp [ITree.items]

/-- Items and lines outside the swapped part are the same, letter by letter. -/
theorem Swapped.split {f : TreeFormat} {L : Look} {B B' : ITree} {n : Nat} {T T' : ITree} (h : Swapped B B' n T T') :
    ∀ m, ∃ l1 l2 a b b' c, T.items m = l1 ++ (B.items (m + n) ++ l2) ∧ T'.items m = l1 ++ (B'.items (m + n) ++ l2) ∧
      layout f (T.toDisp L) = a ++ (b ++ c) ∧ layout f (T'.toDisp L) = a ++ (b' ++ c) ∧
      a.length = l1.length ∧ b.length = (B.items (m + n)).length ∧ b'.length = (B'.items (m + n)).length := by
  induction h with
  | here => exact fun m => ⟨[], [], [], layout f (B.toDisp L), layout f (B'.toDisp L), [], by simp, by simp, by simp, by simp, rfl, layout_items _ _, layout_items _ _⟩
  | @inside i l1 l2 k k' n hs ih =>
    intro m
    obtain ⟨p1, p2, a, b, b', c, h1, h2, h3, h4, h5, h6, h7⟩ := ih (m + 1)
    obtain ⟨a0, x, y, h8⟩ := layoutKids_split f (toDispAll L l1) (toDispAll L l2)
    have hb : b ≠ [] := by
      intro h0; rw [h0] at h6; exact items_ne_nil _ B (List.length_eq_zero_iff.1 h6.symm)
    have hb' : b' ≠ [] := by
      intro h0; rw [h0] at h7; exact items_ne_nil _ B' (List.length_eq_zero_iff.1 h7.symm)
    obtain ⟨a2, b2, b2', c2, g1, g2, g3, g4, g5⟩ := block_split x y a c hb hb'
    have e : m + 1 + n = m + (n + 1) := by omega
    rw [e] at h1 h2 h6 h7
    have ha0 : a0.length = (itemsAll (m + 1) l1).length := by
      have := layoutKids_items (f := f) (L := L) (m + 1) (l1 ++ k :: l2)
      rw [toDispAll_append, toDispAll, h8, itemsAll_append, itemsAll] at this
      simp only [List.length_append, block_length] at this
      rw [layout_items (m + 1) k, layoutKids_items (m + 1) l2] at this
      omega
    refine ⟨(m, i) :: itemsAll (m + 1) l1 ++ p1, p2 ++ itemsAll (m + 1) l2, i.label L :: a0 ++ a2, b2, b2', c2 ++ layoutKids f (toDispAll L l2), ?_, ?_, ?_, ?_, ?_, g4.trans h6, g5.trans h7⟩
    · rw [ITree.items, itemsAll_append, itemsAll, h1]; simp
    · rw [ITree.items, itemsAll_append, itemsAll, h2]; simp
    · rw [ITree.toDisp, layout, toDispAll_append, toDispAll, h8, h3, g1]; simp
    · rw [ITree.toDisp, layout, toDispAll_append, toDispAll, h8, h4, g2]; simp
    · simp [ha0, g3, h5]

theorem ShowsAll.split {L : Look} {e : TreeEntry} {l2 : List TreeEntry} : ∀ {l1 : List TreeEntry} {Ts : List ITree}, ShowsAll L (l1 ++ e :: l2) Ts →
    ∃ T1 T T2, Ts = T1 ++ T :: T2 ∧ ShowsAll L l1 T1 ∧ Shows L e T ∧ ShowsAll L l2 T2
  | [], _, .cons h hs => ⟨[], _, _, rfl, .nil, h, hs⟩
  | _ :: _, _, .cons h hs => by
    obtain ⟨T1, T, T2, rfl, h1, h2, h3⟩ := ShowsAll.split hs
    exact ⟨_ :: T1, T, T2, rfl, .cons h h1, h2, h3⟩

/-- The block of the entry `x` at the path `f`: its first line shows the directories `ds`, then `f`; the block shows `ds` and what is in `x`, nothing else. -/
def BlockOf (x : TreeEntry) (f : Path) (ds : List Path) (B : ITree) : Prop :=
  ∃ i ks, B = .node i ks ∧ (ds.map some ++ [some f]) <+: i.shows ∧ ∀ m, (B.items m).flatMap (fun y => y.2.shows) = ds.map some ++ events x

/-- The entry is a directory. -/
def IsDirEntry : TreeEntry → Prop
  | .dir _ _ => True
  | _ => False

theorem Chain.head {L : Look} {d es ds last es'} (h : Chain L d es ds last es') : ∃ r, ds = d :: r := by
  cases h with
  | stop _ => exact ⟨[], rfl⟩
  | step _ _ => exact ⟨_, rfl⟩

theorem Shows.blockOf {L : Look} {x : TreeEntry} {f : Path} (hx : entryPath x = some f) {T : ITree} (h : Shows L x T) : BlockOf x f [] T := by
  have he := h.events
  cases h with
  | file => cases hx; exact ⟨_, _, rfl, List.prefix_rfl, he⟩
  | skipped => cases hx
  | maxDepth => cases hx
  | dir hc hs =>
    cases hx
    obtain ⟨r, rfl⟩ := hc.head
    exact ⟨_, _, rfl, ⟨r.map some, by simp [Item.shows]⟩, he⟩

theorem ShowsTop.blockOf {L : Look} {x : TreeEntry} {f : Path} (hx : entryPath x = some f) {T : ITree} (h : ShowsTop L x T) : BlockOf x f [] T := by
  have he := h.events
  cases h with
  | dir hs => cases hx; exact ⟨_, _, rfl, List.prefix_rfl, he⟩
  | other _ h => exact h.blockOf hx

theorem Replaced.isDir {x x' : TreeEntry} (hd : IsDirEntry x ↔ IsDirEntry x') {f : Path} (hx : entryPath x = some f) (hx' : entryPath x' = some f) {n : Nat} {t t' : TreeEntry}
    (h : Replaced x x' n t t') : ∀ c, (∃ ces, t = .dir c ces) ↔ ∃ ces, t' = .dir c ces := by
  intro c
  cases h with
  | here =>
    cases x <;> cases x' <;> simp_all [IsDirEntry, entryPath]
  | inside _ => constructor <;> (rintro ⟨ces, h⟩; cases h; exact ⟨_, rfl⟩)

/-- If an entry is replaced, one displayed block is replaced. -/
theorem Replaced.swapped {L : Look} {x x' : TreeEntry} (hd : IsDirEntry x ↔ IsDirEntry x') {f : Path} (hx : entryPath x = some f) (hx' : entryPath x' = some f) {n : Nat} {t t' : TreeEntry}
    (h : Replaced x x' n t t') : ∀ {T T' : ITree}, Shows L t T → Shows L t' T' → ∃ j ds B B', Swapped B B' j T T' ∧ BlockOf x f ds B ∧ BlockOf x' f ds B' ∧ (ds ≠ [] → L.compact = true) := by
  induction h with
  | here => exact fun hT hT' => ⟨0, [], _, _, .here, hT.blockOf hx, hT'.blockOf hx', fun h => absurd rfl h⟩
  | @inside q l1 l2 e e' n hr ih =>
    intro T T' hT hT'
    have hee := hr.isDir hd hx hx'
    cases hT with
    | @dir _ _ ds last es1 ks hc hs =>
      cases hT' with
      | @dir _ _ ds' last' es1' ks' hc' hs' =>
        have hm : (∃ c ces, Mergeable L q (l1 ++ e :: l2) c ces) ↔ ∃ c ces, Mergeable L q (l1 ++ e' :: l2) c ces := by
          constructor
          · rintro ⟨c, ces, h1, h2, h3⟩
            rw [List.append_eq_singleton_iff] at h2
            rcases h2 with ⟨rfl, h2⟩ | ⟨_, h2⟩
            · simp only [List.cons.injEq] at h2
              obtain ⟨rfl, rfl⟩ := h2
              obtain ⟨ces', rfl⟩ := (hee c).1 ⟨ces, rfl⟩
              exact ⟨c, ces', h1, rfl, h3⟩
            · cases h2
          · rintro ⟨c, ces, h1, h2, h3⟩
            rw [List.append_eq_singleton_iff] at h2
            rcases h2 with ⟨rfl, h2⟩ | ⟨_, h2⟩
            · simp only [List.cons.injEq] at h2
              obtain ⟨rfl, rfl⟩ := h2
              obtain ⟨ces', rfl⟩ := (hee c).2 ⟨ces, rfl⟩
              exact ⟨c, ces', h1, rfl, h3⟩
            · cases h2
        cases hc with
        | stop hno =>
          cases hc' with
          | step hm' _ => exact absurd (hm.2 ⟨_, _, hm'⟩) (by rintro ⟨c, ces, h⟩; exact hno c ces h)
          | stop hno' =>
            obtain ⟨T1, T, T2, rfl, h1, h2, h3⟩ := hs.split
            obtain ⟨T1', T', T2', rfl, h1', h2', h3'⟩ := hs'.split
            rw [h1'.unique h1, h3'.unique h3]
            obtain ⟨j, ds, B, B', hsw, hb, hb', hcm⟩ := ih h2 h2'
            exact ⟨j + 1, ds, B, B', .inside hsw, hb, hb', hcm⟩
        | @step _ _ c ces ds last _ hm1 hc1 =>
          cases hc' with
          | stop hno' => exact absurd (hm.1 ⟨_, _, hm1⟩) (by rintro ⟨c, ces, h⟩; exact hno' c ces h)
          | @step _ _ c' ces' ds' last' _ hm1' hc1' =>
            obtain ⟨hcomp, he, -⟩ := hm1
            obtain ⟨-, he', -⟩ := hm1'
            rw [List.append_eq_singleton_iff] at he he'
            rcases he with ⟨rfl, he⟩ | ⟨_, he⟩
            · simp only [List.cons.injEq] at he
              obtain ⟨rfl, rfl⟩ := he
              rcases he' with ⟨_, he'⟩ | ⟨_, he'⟩
              · simp only [List.cons.injEq, and_true] at he'
                subst he'
                obtain ⟨j, ds0, B, B', hsw, hb, hb', -⟩ := ih (.dir hc1 hs) (.dir hc1' hs')
                generalize hU : ITree.node (.dirs ds last) ks = U at hsw
                generalize hU' : ITree.node (.dirs ds' last') ks' = U' at hsw
                cases hsw with
                | here =>
                  subst hU hU'
                  obtain ⟨i, k0, hB, hpre, hev⟩ := hb
                  obtain ⟨i', k0', hB', hpre', hev'⟩ := hb'
                  cases hB; cases hB'
                  refine ⟨0, q :: ds0, _, _, .here, ⟨_, _, rfl, ?_, fun m => ?_⟩, ⟨_, _, rfl, ?_, fun m => ?_⟩, fun _ => hcomp⟩
                  · simpa [Item.shows] using hpre
                  · have := hev m
                    simp only [ITree.items, List.flatMap_cons, Item.shows] at this ⊢
                    simp [this]
                  · simpa [Item.shows] using hpre'
                  · have := hev' m
                    simp only [ITree.items, List.flatMap_cons, Item.shows] at this ⊢
                    simp [this]
                | @inside i k1 k2 k k' n hi =>
                  cases hU; cases hU'
                  exact ⟨_, ds0, B, B', .inside hi, hb, hb', fun _ => hcomp⟩
              · cases he'
            · cases he

theorem Replaced.swappedTop {L : Look} {x x' : TreeEntry} (hd : IsDirEntry x ↔ IsDirEntry x') {f : Path} (hx : entryPath x = some f) (hx' : entryPath x' = some f) {n : Nat} {t t' : TreeEntry}
    (h : Replaced x x' n t t') {T T' : ITree} (hT : ShowsTop L t T) (hT' : ShowsTop L t' T') :
    ∃ j ds B B', Swapped B B' j T T' ∧ BlockOf x f ds B ∧ BlockOf x' f ds B' ∧ (ds ≠ [] → L.compact = true) := by
  cases h with
  | here => exact ⟨0, [], _, _, .here, hT.blockOf hx, hT'.blockOf hx', fun h => absurd rfl h⟩
  | @inside q l1 l2 e e' n hr =>
    cases hT with
    | other hn _ => exact absurd rfl (hn _ _)
    | dir hs =>
      cases hT' with
      | other hn _ => exact absurd rfl (hn _ _)
      | dir hs' =>
        obtain ⟨T1, T, T2, rfl, h1, h2, h3⟩ := hs.split
        obtain ⟨T1', T', T2', rfl, h1', h2', h3'⟩ := hs'.split
        rw [h1'.unique h1, h3'.unique h3]
        obtain ⟨j, ds, B, B', hsw, hb, hb', hcm⟩ := hr.swapped hd hx hx' h2 h2'
        exact ⟨j + 1, ds, B, B', .inside hsw, hb, hb', hcm⟩

mutual
theorem items_depth {m : Nat} {T : ITree} {y : Nat × Item} (hy : y ∈ T.items m) : m ≤ y.1 := by
  match T with
  | .node i ks =>
    rw [ITree.items] at hy
    rcases List.mem_cons.1 hy with rfl | hy
    · exact le_rfl
    · exact Nat.le_of_succ_le (itemsAll_depth hy)
theorem itemsAll_depth {m : Nat} {ks : List ITree} {y : Nat × Item} (hy : y ∈ itemsAll m ks) : m ≤ y.1 := by
  match ks with
  | [] => cases hy
  | k :: ks =>
    rw [itemsAll] at hy
    rcases List.mem_append.1 hy with hy | hy
    · exact items_depth hy
    · exact itemsAll_depth hy
end

theorem BlockOf.isBlock {x : TreeEntry} {f : Path} {ds : List Path} {B : ITree} (h : BlockOf x f ds B) (hx : ∀ q ∈ entryPaths x, Inside f q) (n : Nat) : IsBlock f n ds (B.items n) := by
  obtain ⟨i, ks, rfl, h1, h2⟩ := h
  refine ⟨⟨i, rfl, h1⟩, fun y hy => itemsAll_depth (m := n + 1) hy, fun y hy q hq => ?_⟩
  have hm : some q ∈ (ITree.items n (.node i ks)).flatMap (fun y => y.2.shows) := List.mem_flatMap.2 ⟨y, hy, hq⟩
  rw [h2 n, List.mem_append] at hm
  rcases hm with hm | hm
  · exact .inl (by simpa using hm)
  · exact .inr (hx q (by unfold entryPaths; exact List.mem_filterMap.2 ⟨some q, hm, rfl⟩))

end Spec

section
variable {fs fs' : PureFs} {cwd p : Path} {o : Options (Except Exn)} {d f : Path} {s s' : JStr}

theorem forall₂_split {α β : Type} {R : α → β → Prop} : ∀ {l1 l2 : List α} {r1 r2 : List β}, List.Forall₂ R (l1 ++ l2) (r1 ++ r2) → l1.length = r1.length →
    List.Forall₂ R l1 r1 ∧ List.Forall₂ R l2 r2
  | [], _, [], _, h, _ => ⟨.nil, h⟩
  | [], _, _ :: _, _, _, e => by simp at e
  | _ :: _, _, [], _, _, e => by simp at e
  | _ :: _, _, _ :: _, _, .cons h hs, e => by
    obtain ⟨h1, h2⟩ := forall₂_split hs (by simpa using e)
    exact ⟨.cons h h1, h2⟩

/-- If `f` is displayed before the change and the whole can be scanned afterwards, `f` is displayed at the same level afterwards. -/
theorem found_after (hw : cwd.abs = true) (hfs : ProperFs fs) (hfs' : ProperFs fs') (hc : LawfulCmp o.pathComparator) (hd : DistinguishesAll o.pathComparator fs)
    (hA : SameOutside fs fs' f) (hf : fs'.isDir f = fs.isDir f) {t t' x : TreeEntry} {k : Nat} (ht : scanned fs cwd o p = .ok t) (ht' : scanned fs' cwd o p = .ok t') (hbx : BelowAt x k t)
    (hx : entryPath x = some f) : ∃ x', BelowAt x' k t' ∧ entryPath x' = some f := by
  have ha : (target cwd p).abs = true := by unfold target; rw [Path.normalize_abs (Path.toAbsolutePath_abs hw)]
  obtain ⟨-, hpre⟩ := C58_every_path_once hfs hw hc ht
  obtain ⟨hfabs, hpref⟩ := hpre f (hbx.mem_paths hx)
  have hmem : f ∈ entryPaths t' := by
    by_contra hn
    by_cases hp : Inside f (target cwd p)
    · have hpf : target cwd p = f := by
        have hnm : (target cwd p).names = f.names := hpref.eq_of_length (le_antisymm hpref.length_le hp.2.length_le)
        revert ha hnm
        generalize target cwd p = tp
        intro ha hnm
        obtain ⟨ta, tn⟩ := tp
        obtain ⟨fa, fn⟩ := f
        simp only at ha hnm hfabs
        rw [ha, hnm, hfabs]
      exact hn (mem_entryPaths.2 ⟨0, t', .here, hpf ▸ (scanned_sound hw hc ht').entryPath_eq⟩)
    · have := (C91_unnoticed hw hfs' hc hd hA.symm hf.symm hfabs hp ht' hn).1
      rw [ht] at this
      cases this
      exact hn (hbx.mem_paths hx)
  obtain ⟨k', x', hb', hx'⟩ := mem_entryPaths.1 hmem
  have e1 := depth_of_path hfs ha (scanned_sound hw hc ht) hbx hx
  have e2 := depth_of_path hfs' ha (scanned_sound hw hc ht') hb' hx'
  have : k' = k := by omega
  subst this
  exact ⟨x', hb', hx'⟩

/-- What is displayed of `f` lies inside `f`. -/
theorem inside_of_sub (hw : cwd.abs = true) (hfs : ProperFs fs) (hc : LawfulCmp o.pathComparator) (hd : DistinguishesAll o.pathComparator fs) (hclean : target cwd f = f) {t x : TreeEntry} {k : Nat}
    (ht : scanned fs cwd o p = .ok t) (hb : BelowAt x k t) (hx : entryPath x = some f) :
    (∃ x0, scanned fs cwd (o.withMaxDepth (o.maxDepth - k)) f = .ok x0 ∧ x = bump^[k] x0) ∧ (∀ q ∈ entryPaths x, Inside f q) ∧ (IsDirEntry x ↔ fs.isDir f = true) := by
  have hsub := (scanned_sound hw hc ht).sub hb hx
  rw [Nat.zero_add] at hsub
  obtain ⟨x0, hx0, hxe⟩ := scanned_alone hw hc hd hclean hsub
  refine ⟨⟨x0, hx0, hxe⟩, ?_, ?_⟩
  · obtain ⟨hfabs, -⟩ := (C58_every_path_once hfs hw hc ht).2 f (hb.mem_paths hx)
    exact fun q hq => ⟨((hsub.nodup hfs hfabs).2 q hq).1.trans hfabs.symm, ((hsub.nodup hfs hfabs).2 q hq).2⟩
  · cases hsub with
    | file h1 _ => simp only [IsDirEntry, false_iff]; intro h; have h1 : fs.isDir f = false := h1; rw [h] at h1; cases h1
    | tooDeep h1 _ => simp only [IsDirEntry, true_iff]; exact h1
    | dir h1 => simp only [IsDirEntry, true_iff]; exact h1

/-- **C91**, letter by letter, with or without compact directories and whatever the filters, limits and order: let two file systems differ only in `f` and what lies below it, `f` being a directory in
both or in none, and displayed. If both are printed, the two texts have the same lines before and after the block of `f`. The block starts with the line that shows `f`, possibly behind parents with which
it is merged (the same in both texts); all its other lines are deeper, and they show only what lies inside `f`. -/
theorem C91_lines (hw : cwd.abs = true) (hfs : ProperFs fs) (hfs' : ProperFs fs') (hc : LawfulCmp o.pathComparator) (hd : DistinguishesAll o.pathComparator fs)
    (hd' : DistinguishesAll o.pathComparator fs') (hA : SameOutside fs fs' f) (hf : fs'.isDir f = fs.isDir f) (hclean : target cwd f = f) (h : prettyPrint fs.lift cwd o p = .ok s)
    (h' : prettyPrint fs'.lift cwd o p = .ok s') (hm : ∀ t, scanned fs cwd o p = .ok t → f ∈ entryPaths t) :
    ∃ (above block block' below : List JStr) (i1 b b' i2 : List (Nat × Item)) (n : Nat) (ds : List Path),
      s = joinLines (above ++ (block ++ below)) ∧ s' = joinLines (above ++ (block' ++ below)) ∧
      List.Forall₂ (IsLineOf o.treeFormat (lookOf o)) i1 above ∧ List.Forall₂ (IsLineOf o.treeFormat (lookOf o)) b block ∧
      List.Forall₂ (IsLineOf o.treeFormat (lookOf o)) b' block' ∧ List.Forall₂ (IsLineOf o.treeFormat (lookOf o)) i2 below ∧
      IsBlock f n ds b ∧ IsBlock f n ds b' ∧ (ds ≠ [] → o.compactDirectories = true) := by
  obtain ⟨t, T, ht, hP⟩ := printed h
  obtain ⟨t', T', ht', hP'⟩ := printed h'
  obtain ⟨k, x, hb, hx⟩ := mem_entryPaths.1 (hm t ht)
  obtain ⟨x', hb', hx'⟩ := found_after hw hfs hfs' hc hd hA hf ht ht' hb hx
  obtain ⟨-, hin, hdir⟩ := inside_of_sub hw hfs hc hd hclean ht hb hx
  obtain ⟨⟨x0, hx0, hxe⟩, hin', hdir'⟩ := inside_of_sub hw hfs' hc hd' hclean ht' hb' hx'
  obtain ⟨t2, ht2, hr⟩ := C91_entry hw hfs hc hd' hA hf hclean ht hb hx hx0
  rw [ht'] at ht2
  cases ht2
  rw [← hxe] at hr
  obtain ⟨j, ds, B, B', hsw, hB, hB', hcm⟩ := hr.swappedTop (L := lookOf o) (by rw [hdir, hdir', hf]) hx hx' hP.shows hP'.shows
  obtain ⟨l1, l2, a, b, b', c, e1, e2, e3, e4, e5, e6, e7⟩ := hsw.split (f := o.treeFormat) (L := lookOf o) 0
  have hl := hP.shows.lines (f := o.treeFormat) hP.named
  have hl' := hP'.shows.lines (f := o.treeFormat) hP'.named
  rw [e1, e3] at hl
  rw [e2, e4] at hl'
  obtain ⟨f1, hl⟩ := forall₂_split hl e5.symm
  obtain ⟨f2, f3⟩ := forall₂_split hl e6.symm
  obtain ⟨_, hl'⟩ := forall₂_split hl' e5.symm
  obtain ⟨f4, _⟩ := forall₂_split hl' e7.symm
  refine ⟨a, b, b', c, l1, _, _, l2, _, ds, ?_, ?_, f1, f2, f4, f3, hB.isBlock hin _, hB'.isBlock hin' _, hcm⟩
  · rw [hP.text, picture, e3]
  · rw [hP'.text, picture, e4]

/-- One more entry in `d` is a change inside `d`. -/
theorem AddedEntry.outside (hA : AddedEntry fs fs' d f) (hf : Inside d f) : SameOutside fs fs' d where
  isDir q hq := hA.isDir_other q (fun h => hq ⟨h.1.trans hf.1, hf.2.trans h.2⟩)
  attrs q hq := hA.attrs_other q (fun h => hq ⟨h.1.trans hf.1, hf.2.trans h.2⟩)
  list q hq := hA.list_other q (by rintro rfl; exact hq ⟨rfl, List.prefix_rfl⟩) (fun h => hq ⟨h.1.trans hf.1, hf.2.trans h.2⟩)

/-- **C90**, letter by letter, with or without compact directories and whatever the filters, limits and order: one more entry in the displayed directory `d` (a file, or a directory with everything below it)
changes nothing but the block of `d`. -/
theorem C90_lines (hw : cwd.abs = true) (hfs : ProperFs fs) (hfs' : ProperFs fs') (hc : LawfulCmp o.pathComparator) (hd : DistinguishesAll o.pathComparator fs)
    (hd' : DistinguishesAll o.pathComparator fs') (hA : AddedEntry fs fs' d f) (hclean : target cwd d = d) (h : prettyPrint fs.lift cwd o p = .ok s)
    (h' : prettyPrint fs'.lift cwd o p = .ok s') (hm : ∀ t, scanned fs cwd o p = .ok t → d ∈ entryPaths t) :
    ∃ (above block block' below : List JStr) (i1 b b' i2 : List (Nat × Item)) (n : Nat) (ds : List Path),
      s = joinLines (above ++ (block ++ below)) ∧ s' = joinLines (above ++ (block' ++ below)) ∧
      List.Forall₂ (IsLineOf o.treeFormat (lookOf o)) i1 above ∧ List.Forall₂ (IsLineOf o.treeFormat (lookOf o)) b block ∧
      List.Forall₂ (IsLineOf o.treeFormat (lookOf o)) b' block' ∧ List.Forall₂ (IsLineOf o.treeFormat (lookOf o)) i2 below ∧
      IsBlock d n ds b ∧ IsBlock d n ds b' ∧ (ds ≠ [] → o.compactDirectories = true) := by
  obtain ⟨t, -, ht, -⟩ := printed h
  obtain ⟨hdabs, -⟩ := (C58_every_path_once hfs hw hc ht).2 d (hm t ht)
  obtain ⟨⟨n, hfn⟩, -⟩ := hA.not_listed hfs hfs' hdabs
  have hin : Inside d f := by rw [hfn]; exact ⟨hdabs.symm, List.prefix_append _ _⟩
  refine C91_lines hw hfs hfs' hc hd hd' (AddedEntry.outside hA hin) (hA.isDir_other d ?_) hclean h h' hm
  rintro ⟨-, he⟩
  rw [hfn] at he
  have := he.length_le
  simp only [List.length_append, List.length_singleton] at this
  omega

end

/-! ### A concrete case: the file `y` is added to `/r/m/n`, which is displayed in one line with `/r/m` -/

namespace Demo

def cdisk : Node := .dir true [(j!"r", .dir true [(j!"m", .dir true [(j!"n", .dir true [(j!"x", .regular 0)])]), (j!"z", .regular 0)])]
theorem cdisk_wf : cdisk.WF := by simp [cdisk, Node.WF, Node.WFAll]
def cm : Path := ⟨true, [j!"r", j!"m"]⟩
def cn : Path := ⟨true, [j!"r", j!"m", j!"n"]⟩
def cx : Path := ⟨true, [j!"r", j!"m", j!"n", j!"x"]⟩
def cy : Path := ⟨true, [j!"r", j!"m", j!"n", j!"y"]⟩
def cz : Path := ⟨true, [j!"r", j!"z"]⟩
def cfs : PureFs := cdisk.toFs
def cfs' : PureFs := { cfs with
  isDir := fun q => if q = cy then false else cfs.isDir q
  readAttrs := fun q => if q = cy then some ⟨false, false⟩ else cfs.readAttrs q
  listDir := fun q => if q = cn then .opened [cy, cx] false else cfs.listDir q }

theorem cfs_added : AddedEntry cfs cfs' cn cy where
  isDir_other q hq := if_neg (by rintro rfl; exact hq ⟨rfl, List.prefix_rfl⟩)
  attrs_other q hq := if_neg (by rintro rfl; exact hq ⟨rfl, List.prefix_rfl⟩)
  list := ⟨[cx], [cy, cx], rfl, rfl, .refl _⟩
  list_other q hq _ := by
    have h : cfs'.listDir q = cfs.listDir q := if_neg hq
    rw [h]
    cases cfs.listDir q with
    | openFailed => exact .inl ⟨rfl, rfl⟩
    | opened cs bad => exact .inr ⟨cs, cs, bad, rfl, rfl, .refl _⟩

theorem cfs_proper : ProperFs cfs := cdisk_wf.proper

theorem cfs'_proper : ProperFs cfs' := by
  intro q cs bad h
  by_cases hq : q = cn
  · subst hq
    have h : Listing.opened [cy, cx] false = .opened cs bad := h
    cases h
    refine ⟨by decide, ?_⟩
    intro c hc
    simp only [List.mem_cons, List.not_mem_nil, or_false] at hc
    rcases hc with rfl | rfl
    · exact ⟨j!"y", rfl⟩
    · exact ⟨j!"x", rfl⟩
  · have h' : cfs'.listDir q = cfs.listDir q := if_neg hq
    rw [h'] at h
    exact cfs_proper q cs bad h

def ccomp : Options (Except Exn) := dflt.withCompactDirectories true

theorem ccomp_obeys : OnePage.Obeys ccomp { OnePage.standard with compact := true } :=
  ⟨fun _ _ => rfl, fun _ _ => rfl, rfl, fun _ _ => rfl, rfl, rfl, fun _ _ => rfl, fun _ _ => rfl, by decide, by decide, by decide, by decide⟩

theorem cprinted : prettyPrint cfs.lift Path.root ccomp r = .ok j!"r/\n├─ m/n/\n│  └─ x\n└─ z" :=
  (C100_disk cdisk_wf rfl ccomp_obeys lawful_const _ _).2 (by decide)

theorem cprinted' : prettyPrint cfs'.lift Path.root ccomp r = .ok j!"r/\n├─ m/n/\n│  ├─ x\n│  └─ y\n└─ z" :=
  (C100_one_page cfs'_proper rfl ccomp_obeys lawful_const (p := r)
    (t := .dir [(j!"m", .dir [(j!"n", .dir [(j!"y", .file (some ⟨false, false⟩)), (j!"x", .file (some ⟨false, false⟩))])]), (j!"z", .file (some ⟨false, false⟩))])
    (.dir rfl rfl (by
      intro e he
      simp only [List.mem_cons, List.not_mem_nil, or_false] at he
      rcases he with rfl | rfl
      · refine .dir rfl rfl fun e he => ?_
        simp only [List.mem_cons, List.not_mem_nil, or_false] at he
        subst he
        refine .dir rfl rfl fun e he => ?_
        simp only [List.mem_cons, List.not_mem_nil, or_false] at he
        rcases he with rfl | rfl
        · exact .file (fs := cfs') (p := cy) rfl
        · exact .file (fs := cfs') (p := cx) rfl
      · exact .file (fs := cfs') (p := cz) rfl)) _).2 (by decide)

theorem cscanned : scanned cfs Path.root ccomp r = .ok (.dir r [.dir cm [.dir cn [.file cx ⟨false, false⟩]], .file cz ⟨false, false⟩]) := by
  refine scanned_complete rfl lawful_ALPHABETICAL (sort_distinguishes lawful_const cfs_proper) ?_
  refine Scanned.dir (A := answers cfs ccomp) (p := r) (n := -1) (cs := [cm, cz]) (ks := [cm, cz]) (srt := [cm, cz]) rfl (by decide) rfl rfl (.keep rfl (.keep rfl .nil)) (.refl _) (by decide)
    (.cons ?_ (.cons (.file (show cfs.isDir cz = false from rfl) (show cfs.readAttrs cz = some _ from rfl)) .nil))
  refine Scanned.dir (A := answers cfs ccomp) (p := cm) (n := -1) (cs := [cn]) (ks := [cn]) (srt := [cn]) rfl (by decide) rfl rfl (.keep rfl .nil) (.refl _) (by simp) (.cons ?_ .nil)
  exact Scanned.dir (A := answers cfs ccomp) (p := cn) (n := -1) (cs := [cx]) (ks := [cx]) (srt := [cx]) rfl (by decide) rfl rfl (.keep rfl .nil) (.refl _) (by simp)
    (.cons (.file (show cfs.isDir cx = false from rfl) (show cfs.readAttrs cx = some _ from rfl)) .nil)

example := C90_lines rfl cfs_proper cfs'_proper lawful_ALPHABETICAL (sort_distinguishes lawful_const cfs_proper) (sort_distinguishes lawful_const cfs'_proper) cfs_added rfl cprinted cprinted'
  (by intro t ht; rw [cscanned] at ht; cases ht; decide)

/-- The same as a change inside `/r/m/n`. -/
example := C91_lines (f := cn) rfl cfs_proper cfs'_proper lawful_ALPHABETICAL (sort_distinguishes lawful_const cfs_proper) (sort_distinguishes lawful_const cfs'_proper)
  (AddedEntry.outside cfs_added ⟨rfl, [j!"y"], rfl⟩) rfl rfl cprinted cprinted' (by intro t ht; rw [cscanned] at ht; cases ht; decide)

end Demo
end JFTP
