import Verif.Spec.Items
import Verif.Lemmas.Display
import Verif.Lemmas.Layout

namespace JFTP.Spec

mutual
theorem preorder_toDisp (L : Look) (n : Nat) (T : ITree) :
    preorder n (T.toDisp L) = (T.items n).map (fun x => (x.1, x.2.label L)) := by
  match T with
  | .node i ks => simp [ITree.toDisp, preorder, ITree.items, preorderKids_toDispAll L (n+1) ks]
theorem preorderKids_toDispAll (L : Look) (n : Nat) (Ts : List ITree) :
    preorderKids n (toDispAll L Ts) = (itemsAll n Ts).map (fun x => (x.1, x.2.label L)) := by
  match Ts with
  | [] => simp [toDispAll, preorderKids, itemsAll]
  | k :: ks => simp [toDispAll, preorderKids, itemsAll, preorder_toDisp L n k, preorderKids_toDispAll L n ks]
end

theorem Chain.events {L : Look} {d es ds last es'} (h : Chain L d es ds last es') :
    some d :: eventsAll es = ds.map some ++ eventsAll es' := by
  induction h with
  | stop _ => rfl
  | @step d es c ces ds last es' hm _ ih =>
    obtain ⟨_, rfl, _⟩ := hm
    simp [eventsAll, JFTP.Spec.events, ih]

theorem Chain.getLast? {L : Look} {d es ds last es'} (h : Chain L d es ds last es') : ds.getLast? = some last := by
  induction h with
  | stop _ => rfl
  | @step d es c ces ds last es' hm h ih =>
    rw [List.getLast?_cons, ih]; rfl

mutual
theorem Shows.events {L : Look} {e : TreeEntry} {T : ITree} (h : Shows L e T) (n : Nat) :
    (T.items n).flatMap (fun x => x.2.shows) = events e := by
  cases h with
  | file => rfl
  | skipped => rfl
  | maxDepth => rfl
  | dir hc hs =>
    simp only [ITree.items, List.flatMap_cons, hs.events (n+1)]
    exact hc.events.symm
theorem ShowsAll.events {L : Look} {es : List TreeEntry} {Ts : List ITree} (h : ShowsAll L es Ts) (n : Nat) :
    (itemsAll n Ts).flatMap (fun x => x.2.shows) = eventsAll es := by
  cases h with
  | nil => rfl
  | cons h hs => simp only [itemsAll, List.flatMap_append, eventsAll, h.events n, hs.events n]
end

theorem ShowsTop.events {L : Look} {e : TreeEntry} {T : ITree} (h : ShowsTop L e T) (n : Nat) :
    (T.items n).flatMap (fun x => x.2.shows) = JFTP.Spec.events e := by
  cases h with
  | dir hs =>
    simp only [ITree.items, List.flatMap_cons, hs.events (n+1)]
    rfl
  | other _ h => exact h.events n

/-- What every displayed item of a tree looks like, in terms of the entries. -/
def ItemOk (L : Look) (es : List TreeEntry) : Item → Prop
  | .file p a => ∃ e ∈ es, Below (.file p a) e
  | .dirs ds last => ∃ d es0 es', (∃ e ∈ es, Below (.dir d es0) e) ∧ Chain L d es0 ds last es'
  | .more => True

theorem ItemOk.mono {L : Look} {es es' : List TreeEntry} (h : ∀ x, (∃ e ∈ es, Below x e) → ∃ e ∈ es', Below x e) {i : Item}
    (hi : ItemOk L es i) : ItemOk L es' i := by
  cases i with
  | file p a => exact h _ hi
  | dirs ds last => obtain ⟨d, es0, es1, hb, hc⟩ := hi; exact ⟨d, es0, es1, h _ hb, hc⟩
  | more => trivial

theorem Chain.isBelow {L : Look} {d es ds last es'} (h : Chain L d es ds last es') : Below (.dir last es') (.dir d es) := by
  induction h with
  | stop _ => exact .here
  | step hm _ ih => obtain ⟨_, rfl, _⟩ := hm; exact .inside (by simp) ih

theorem Chain.mem_below {L : Look} {d es ds last es'} (h : Chain L d es ds last es') : ∀ x ∈ ds, ∃ xs, Below (.dir x xs) (.dir d es) := by
  induction h with
  | stop _ => intro x hx; simp at hx; subst hx; exact ⟨_, .here⟩
  | step hm _ ih =>
    obtain ⟨_, rfl, _⟩ := hm
    intro x hx
    rcases List.mem_cons.1 hx with rfl | hx
    · exact ⟨_, .here⟩
    · obtain ⟨xs, hb⟩ := ih x hx; exact ⟨xs, .inside (by simp) hb⟩

theorem Below.trans {a b c : TreeEntry} (h1 : Below a b) (h2 : Below b c) : Below a c := by
  induction h2 with
  | here => exact h1
  | inside hm _ ih => exact .inside hm ih

mutual
theorem Shows.itemOk {L : Look} {e : TreeEntry} {T : ITree} (h : Shows L e T) (n : Nat) :
    ∀ x ∈ T.items n, ItemOk L [e] x.2 := by
  cases h with
  | file => intro x hx; simp [ITree.items, itemsAll] at hx; subst hx; exact ⟨_, by simp, .here⟩
  | skipped => intro x hx; simp [ITree.items, itemsAll] at hx; subst hx; trivial
  | maxDepth => intro x hx; simp [ITree.items, itemsAll] at hx; subst hx; trivial
  | dir hc hs =>
    intro x hx
    simp only [ITree.items, List.mem_cons] at hx
    rcases hx with rfl | hx
    · exact ⟨_, _, _, ⟨_, by simp, .here⟩, hc⟩
    · refine ItemOk.mono ?_ (hs.itemOk _ x hx)
      rintro y ⟨e, he, hb⟩
      exact ⟨_, by simp, (Below.inside he hb).trans hc.isBelow⟩
theorem ShowsAll.itemOk {L : Look} {es : List TreeEntry} {Ts : List ITree} (h : ShowsAll L es Ts) (n : Nat) :
    ∀ x ∈ itemsAll n Ts, ItemOk L es x.2 := by
  cases h with
  | nil => intro x hx; simp [itemsAll] at hx
  | cons h hs =>
    intro x hx
    simp only [itemsAll, List.mem_append] at hx
    rcases hx with hx | hx
    · refine ItemOk.mono ?_ (h.itemOk _ x hx)
      rintro y ⟨e, he, hb⟩; simp at he; subst he; exact ⟨_, by simp, hb⟩
    · refine ItemOk.mono ?_ (hs.itemOk _ x hx)
      rintro y ⟨e, he, hb⟩; exact ⟨e, by simp [he], hb⟩
end

mutual
theorem Named.of_below {e t : TreeEntry} (h : Below e t) (hn : Named t) : Named e := by
  cases h with
  | here => exact hn
  | inside hm hb => exact Named.of_below hb (NamedAll.mem hn.2 hm)
theorem NamedAll.mem {es : List TreeEntry} (h : NamedAll es) {x} (hx : x ∈ es) : Named x := by
  induction es with
  | nil => cases hx
  | cons e es ih =>
    rcases List.mem_cons.1 hx with rfl | hx
    · exact h.1
    · exact ih h.2 hx
end

theorem lastName_of_named {p : Path} (h : p.names ≠ []) : p.getFileName = some (lastName p) := by
  unfold Path.getFileName lastName
  rw [List.getLastD_eq_getLast?]
  cases h' : p.names.getLast? with
  | none => simp at h'; contradiction
  | some x => rfl

theorem Chain.named {L : Look} {d es ds last es'} (h : Chain L d es ds last es') (hn : Named (.dir d es)) :
    ∀ x ∈ ds, x.names ≠ [] := by
  induction h with
  | stop _ => intro x hx; simp at hx; subst hx; exact hn.1
  | step hm _ ih =>
    obtain ⟨_, rfl, _⟩ := hm
    intro x hx
    rcases List.mem_cons.1 hx with rfl | hx
    · exact hn.1
    · exact ih hn.2.1 x hx

theorem map_getFileName {ds : List Path} (h : ∀ x ∈ ds, x.names ≠ []) :
    ds.map Path.getFileName = (ds.map lastName).map some := by
  rw [List.map_map]
  exact List.map_congr_left (fun x hx => lastName_of_named (h x hx))

theorem drawn_split {f : TreeFormat} {n : Nat} {l line : JStr} (h : DrawnAt f (n, l) line) :
    ∃ pre, LinePrefix f n pre ∧ line = pre ++ l := by
  cases n with
  | zero => exact ⟨[], rfl, by simpa [DrawnAt] using h⟩
  | succ n =>
    obtain ⟨segs, b, h1, h2, h3, rfl⟩ := h
    exact ⟨_, ⟨segs, b, h1, h2, h3, rfl⟩, by simp⟩

theorem isLineOf_of_ok {f : TreeFormat} {L : Look} {n : Nat} {es : List TreeEntry} {i : Item} {line : JStr}
    (hn : NamedAll es) (hi : ItemOk L es i) (h : DrawnAt f (n, i.label L) line) : IsLineOf f L (n, i) line := by
  obtain ⟨pre, hpre, rfl⟩ := drawn_split h
  cases i with
  | file p a =>
    obtain ⟨e, he, hb⟩ := hi
    have hp : p.names ≠ [] := Named.of_below hb (hn.mem he)
    have := IsLineOf.file (L := L) (a := a) hpre (lastName_of_named hp)
    simpa [Item.label, fileMark, List.append_assoc] using this
  | dirs ds last =>
    obtain ⟨d, es0, es', ⟨e, he, hb⟩, hc⟩ := hi
    have hp := hc.named (Named.of_below hb (hn.mem he))
    have := IsLineOf.dirs (L := L) hpre (map_getFileName hp) hc.getLast?
    have e : (fun d : Path => lastName d ++ j!"/") = ((fun x : JStr => x ++ [SLASH]) ∘ lastName) := rfl
    simpa only [Item.label, e, List.map_map, List.append_assoc] using this
  | more => exact .more hpre

theorem ShowsTop.lines {f : TreeFormat} {L : Look} {t : TreeEntry} {T : ITree} (hn : Named t) (h : ShowsTop L t T) :
    List.Forall₂ (IsLineOf f L) (T.items 0) (layout f (T.toDisp L)) := by
  have hd := layout_drawn f (T.toDisp L)
  rw [preorder_toDisp, List.forall₂_map_left_iff] at hd
  have key : ∀ x ∈ T.items 0, ∀ line, DrawnAt f (x.1, x.2.label L) line → IsLineOf f L x line := by
    intro x hx line hl
    cases h with
    | dir hs =>
      simp only [ITree.items, List.mem_cons] at hx
      rcases hx with rfl | hx
      · obtain ⟨pre, hpre, rfl⟩ := drawn_split hl
        have := IsLineOf.dirs (f := f) (L := L) (ds := [_]) hpre (names := [lastName _]) (by simpa using lastName_of_named hn.1) rfl
        simpa [Item.label, SLASH] using this
      · exact isLineOf_of_ok hn.2 (hs.itemOk _ x hx) hl
    | other _ h => exact isLineOf_of_ok (es := [t]) ⟨hn, trivial⟩ (h.itemOk _ x hx) hl
  generalize T.items 0 = xs at hd key
  generalize layout f (T.toDisp L) = ls at hd
  clear h
  induction hd with
  | nil => exact .nil
  | cons h _ ih => exact .cons (key _ (by simp) _ h) (ih (fun x hx => key x (by simp [hx])))

/-! ### Tree prefixes do not depend on the labels -/

mutual
/-- The same tree with empty labels. -/
def erase : Disp → Disp
  | .node _ ks => .node [] (eraseAll ks)
/-- The same for lists. -/
def eraseAll : List Disp → List Disp
  | [] => []
  | k :: ks => erase k :: eraseAll ks
end

mutual
theorem preorder_erase (n : Nat) (D : Disp) : preorder n (erase D) = (preorder n D).map (fun x => (x.1, [])) := by
  match D with
  | .node l ks => rw [erase, preorder, preorder, preorderKids_erase, List.map_cons]
theorem preorderKids_erase (n : Nat) (Ds : List Disp) : preorderKids n (eraseAll Ds) = (preorderKids n Ds).map (fun x => (x.1, [])) := by
  match Ds with
  | [] => rfl
  | k :: ks => rw [eraseAll, preorderKids, preorderKids, preorder_erase, preorderKids_erase, List.map_append]
end

theorem block_zipWith (a b : JStr) (P Ls : List JStr) : block a b (List.zipWith (· ++ ·) P Ls) = List.zipWith (· ++ ·) (block a b P) Ls := by
  cases P with
  | nil => simp [block]
  | cons x xs =>
    cases Ls with
    | nil => simp [block]
    | cons y ys => simp [block, List.map_zipWith, List.zipWith_map_left]

theorem eraseAll_isEmpty (ks : List Disp) : (eraseAll ks).isEmpty = ks.isEmpty := by cases ks <;> rfl

mutual
theorem layout_erase' (f : TreeFormat) (n : Nat) (D : Disp) : layout f D = List.zipWith (· ++ ·) (layout f (erase D)) ((preorder n D).map Prod.snd) := by
  match D with
  | .node l ks => rw [erase, layout, layout, preorder, List.map_cons, List.zipWith_cons_cons, layoutKids_erase f (n + 1) ks]; rfl
theorem layoutKids_erase (f : TreeFormat) (n : Nat) (Ds : List Disp) :
    layoutKids f Ds = List.zipWith (· ++ ·) (layoutKids f (eraseAll Ds)) ((preorderKids n Ds).map Prod.snd) := by
  match Ds with
  | [] => rfl
  | k :: ks =>
    have hlen : (layout f (erase k)).length = ((preorder n k).map Prod.snd).length := by
      rw [(layout_drawn f (erase k)).length_eq.symm, preorder_erase, List.length_map, List.length_map, length_preorder, length_preorder]
    have ih1 := layout_erase' f n k
    have ih2 := layoutKids_erase f n ks
    rw [eraseAll, layoutKids, layoutKids, preorderKids, List.map_append, eraseAll_isEmpty]
    split
    · rename_i hks
      have : ks = [] := by simpa using hks
      subst this
      simp only [preorderKids, List.map_nil, List.append_nil]
      rw [ih1, block_zipWith]
    · rw [List.zipWith_append, ← block_zipWith, ← ih1, ← ih2]
      have : ∀ a b (l : List JStr), (block a b l).length = l.length := by intro a b l; cases l <;> simp [block]
      rw [this, hlen]
end

theorem layout_erase (f : TreeFormat) (D : Disp) : layout f D = List.zipWith (· ++ ·) (layout f (erase D)) (labels D) := layout_erase' f 0 D

mutual
theorem erase_toDisp (L L' : Look) (T : ITree) : erase (T.toDisp L) = erase (T.toDisp L') := by
  match T with
  | .node i ks => rw [ITree.toDisp, ITree.toDisp, erase, erase, eraseAll_toDispAll L L']
theorem eraseAll_toDispAll (L L' : Look) (Ts : List ITree) : eraseAll (toDispAll L Ts) = eraseAll (toDispAll L' Ts) := by
  match Ts with
  | [] => rfl
  | k :: ks => rw [toDispAll, toDispAll, eraseAll, eraseAll, erase_toDisp L L', eraseAll_toDispAll L L']
end

theorem zipWith_append_assoc (a b c : List JStr) :
    List.zipWith (· ++ ·) (List.zipWith (· ++ ·) a b) c = List.zipWith (· ++ ·) a (List.zipWith (· ++ ·) b c) := by
  induction a generalizing b c with
  | nil => simp
  | cons x xs ih => cases b <;> cases c <;> simp [ih]

/-! ### Directories that end a chain -/

theorem Chain.below_cases {L : Look} {d es ds last es'} (h : Chain L d es ds last es') {x : TreeEntry} (hb : Below x (.dir d es)) :
    x = .dir last es' ∨ (∃ d' c' ces', x = .dir d' [.dir c' ces'] ∧ L.ext d' = none) ∨ ∃ e ∈ es', Below x e := by
  induction h with
  | stop _ =>
    cases hb with
    | here => exact .inl rfl
    | inside hm hb => exact .inr (.inr ⟨_, hm, hb⟩)
  | step hm _ ih =>
    obtain ⟨_, rfl, hx⟩ := hm
    cases hb with
    | here => exact .inr (.inl ⟨_, _, _, rfl, hx⟩)
    | inside hm hb => simp at hm; subst hm; exact ih hb

theorem Shows.head {L : Look} {c : Path} {ces : List TreeEntry} {T : ITree} (h : Shows L (.dir c ces) T) (n : Nat) :
    ∃ y ∈ T.items n, ∃ ds last, y.2 = .dirs (c :: ds) last := by
  cases h with
  | dir hc _ =>
    refine ⟨_, by rw [ITree.items]; exact List.mem_cons_self, ?_⟩
    have := hc.head_eq
    exact ⟨_, _, by rw [this]; rfl⟩

mutual
theorem Shows.own_line {L : Look} {e : TreeEntry} {T : ITree} (h : Shows L e T) {d c : Path} {ces : List TreeEntry} (hb : Below (.dir d [.dir c ces]) e)
    (hx : L.ext d ≠ none) (n : Nat) : ∃ y ∈ T.items n, ∃ ds last, y.2 = .dirs (c :: ds) last := by
  cases h with
  | file => cases hb
  | skipped => cases hb
  | maxDepth => cases hb
  | dir hc hk =>
    rcases hc.below_cases hb with h | ⟨_, _, _, h, h'⟩ | ⟨e, he, hb'⟩
    · cases h
      cases hk with
      | cons hk _ =>
        obtain ⟨y, hy, h⟩ := hk.head (n + 1)
        exact ⟨y, by rw [ITree.items, itemsAll]; exact List.mem_cons_of_mem _ (List.mem_append_left _ hy), h⟩
    · cases h; exact absurd h' hx
    · obtain ⟨y, hy, h⟩ := hk.own_line he hb' hx (n + 1)
      exact ⟨y, by rw [ITree.items]; exact List.mem_cons_of_mem _ hy, h⟩
theorem ShowsAll.own_line {L : Look} {es : List TreeEntry} {Ts : List ITree} (h : ShowsAll L es Ts) {e : TreeEntry} (he : e ∈ es) {d c : Path} {ces : List TreeEntry}
    (hb : Below (.dir d [.dir c ces]) e) (hx : L.ext d ≠ none) (n : Nat) : ∃ y ∈ itemsAll n Ts, ∃ ds last, y.2 = .dirs (c :: ds) last := by
  cases h with
  | nil => cases he
  | cons h hs =>
    rw [itemsAll]
    rcases List.mem_cons.1 he with rfl | he
    · obtain ⟨y, hy, h⟩ := h.own_line hb hx n; exact ⟨y, List.mem_append_left _ hy, h⟩
    · obtain ⟨y, hy, h⟩ := hs.own_line he hb hx n; exact ⟨y, List.mem_append_right _ hy, h⟩
end

theorem ShowsTop.own_line {L : Look} {e : TreeEntry} {T : ITree} (h : ShowsTop L e T) {d c : Path} {ces : List TreeEntry} (hb : Below (.dir d [.dir c ces]) e)
    (hx : L.ext d ≠ none) (n : Nat) : ∃ y ∈ T.items n, ∃ ds last, y.2 = .dirs (c :: ds) last := by
  cases h with
  | dir hk =>
    cases hb with
    | here =>
      cases hk with
      | cons hk _ =>
        obtain ⟨y, hy, h⟩ := hk.head (n + 1)
        exact ⟨y, by rw [ITree.items, itemsAll]; exact List.mem_cons_of_mem _ (List.mem_append_left _ hy), h⟩
    | inside he hb =>
      obtain ⟨y, hy, h⟩ := hk.own_line he hb hx (n + 1)
      exact ⟨y, by rw [ITree.items]; exact List.mem_cons_of_mem _ hy, h⟩
  | other _ h => exact h.own_line hb hx n

end JFTP.Spec
