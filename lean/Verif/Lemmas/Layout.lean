import Verif.Spec.Decode
import Verif.Lemmas.Render
import Mathlib.Data.List.Forall2

namespace JFTP.Spec

mutual
theorem length_layout (f : TreeFormat) (d : Disp) : (layout f d).length = d.count := by
  match d with
  | .node l ks => simp [layout, Disp.count, length_layoutKids f ks]; omega
theorem length_layoutKids (f : TreeFormat) (ks : List Disp) : (layoutKids f ks).length = countKids ks := by
  match ks with
  | [] => simp [layoutKids, countKids]
  | k :: ks =>
    have hb : ∀ a b (l : List JStr), (block a b l).length = l.length := by
      intro a b l; cases l <;> simp [block]
    rw [layoutKids, countKids]
    split
    · rename_i h
      have : ks = [] := by simpa using h
      subst this
      simp [hb, length_layout f k, countKids]
    · simp [hb, length_layout f k, length_layoutKids f ks]
end

mutual
theorem length_preorder (n : Nat) (d : Disp) : (preorder n d).length = d.count := by
  match d with
  | .node l ks => simp [preorder, Disp.count, length_preorderKids (n + 1) ks]; omega
theorem length_preorderKids (n : Nat) (ks : List Disp) : (preorderKids n ks).length = countKids ks := by
  match ks with
  | [] => simp [preorderKids, countKids]
  | k :: ks => simp [preorderKids, countKids, length_preorder n k, length_preorderKids n ks]
end

/-! ### Lines of the text -/

theorem splitRaw_ne_nil (c : JChar) (s : JStr) : splitRaw c s ≠ [] := by
  induction s with
  | nil => simp [splitRaw]
  | cons x xs ih => rw [splitRaw]; split <;> simp; split <;> simp

theorem splitRaw_append {c : JChar} {a : JStr} (ha : c ∉ a) (b : JStr) :
    splitRaw c (a ++ c :: b) = a :: splitRaw c b := by
  induction a with
  | nil => simp [splitRaw]
  | cons x xs ih =>
    have hx : x ≠ c := fun h => ha (by simp [h])
    rw [List.cons_append, splitRaw, if_neg hx, ih (fun h => ha (by simp [h]))]

theorem splitRaw_self {c : JChar} {a : JStr} (ha : c ∉ a) : splitRaw c a = [a] := by
  induction a with
  | nil => simp [splitRaw]
  | cons x xs ih =>
    have hx : x ≠ c := fun h => ha (by simp [h])
    rw [splitRaw, if_neg hx, ih (fun h => ha (by simp [h]))]

theorem linesOf_joinLines {ls : List JStr} (h : ∀ l ∈ ls, NoNL l) (hne : ls ≠ []) : linesOf (joinLines ls) = ls := by
  induction ls with
  | nil => exact absurd rfl hne
  | cons l ls ih =>
    by_cases hls : ls = []
    · subst hls; exact splitRaw_self (h l (by simp))
    · rw [joinLines_cons_of_ne hls, linesOf, splitRaw_append (h l (by simp))]
      congr 1; exact ih (fun x hx => h x (by simp [hx])) hls

theorem block_noNL {a b : JStr} {l : List JStr} (ha : NoNL a) (hb : NoNL b) (hl : ∀ x ∈ l, NoNL x) :
    ∀ x ∈ block a b l, NoNL x := by
  cases l with
  | nil => simp [block]
  | cons y ys =>
    intro x hx
    simp only [block, List.mem_cons, List.mem_map] at hx
    rcases hx with rfl | ⟨z, hz, rfl⟩
    · simpa [NoNL] using ⟨ha, hl y (by simp)⟩
    · simpa [NoNL] using ⟨hb, hl z (by simp [hz])⟩

theorem noNL_space {s : JStr} (h : NoNL s) : NoNL (s ++ [SPACE]) := by
  simp only [NoNL, List.mem_append, not_or, List.mem_singleton]
  exact ⟨h, by decide⟩

mutual
theorem layout_noNL {f : TreeFormat} (hf : FormatNoNL f) (n : Nat) (d : Disp) (h : ∀ x ∈ preorder n d, NoNL x.2) :
    ∀ x ∈ layout f d, NoNL x := by
  match d with
  | .node l ks =>
    intro x hx
    simp only [layout, List.mem_cons] at hx
    rcases hx with rfl | hx
    · exact h (n, x) (by simp [preorder])
    · exact layoutKids_noNL hf (n + 1) ks (fun y hy => h y (by simp [preorder, hy])) x hx
theorem layoutKids_noNL {f : TreeFormat} (hf : FormatNoNL f) (n : Nat) (ks : List Disp) (h : ∀ x ∈ preorderKids n ks, NoNL x.2) :
    ∀ x ∈ layoutKids f ks, NoNL x := by
  match ks with
  | [] => simp [layoutKids]
  | k :: ks =>
    have h1 := layout_noNL hf n k (fun y hy => h y (by simp [preorderKids, hy]))
    have h2 := layoutKids_noNL hf n ks (fun y hy => h y (by simp [preorderKids, hy]))
    rw [layoutKids]
    split
    · exact block_noNL (noNL_space hf.2.1) (noNL_space hf.2.2.2) h1
    · intro x hx
      rcases List.mem_append.1 hx with hx | hx
      · exact block_noNL (noNL_space hf.1) (noNL_space hf.2.2.1) h1 x hx
      · exact h2 x hx
end

mutual
theorem preorder_snd (n k : Nat) (d : Disp) : (preorder n d).map Prod.snd = (preorder k d).map Prod.snd := by
  match d with
  | .node l ks => simp [preorder, preorderKids_snd (n + 1) (k + 1) ks]
theorem preorderKids_snd (n k : Nat) (ks : List Disp) : (preorderKids n ks).map Prod.snd = (preorderKids k ks).map Prod.snd := by
  match ks with
  | [] => simp [preorderKids]
  | x :: xs => simp [preorderKids, preorder_snd n k x, preorderKids_snd n k xs]
end

theorem linesOf_picture {f : TreeFormat} (hf : FormatNoNL f) (d : Disp) (h : ∀ l ∈ labels d, NoNL l) :
    linesOf (picture f d) = layout f d := by
  refine linesOf_joinLines (layout_noNL hf 0 d ?_) (layout_ne_nil f d)
  intro x hx
  exact h x.2 (List.mem_map.2 ⟨x, hx, rfl⟩)

/-! ### Alignment -/

theorem drawnAt_block_first {f : TreeFormat} {n : Nat} {l line b : JStr} (h : DrawnAt f (n + 1, l) line)
    {c : JStr} (hc : c = f.continuationSymbol ∨ c = f.emptySymbol) (hb : b = c ++ [SPACE]) :
    DrawnAt f (n + 2, l) (b ++ line) := by
  obtain ⟨segs, br, h1, h2, h3, h4⟩ := h
  refine ⟨c :: segs, br, by simp [h1], ?_, h3, ?_⟩
  · intro s hs
    rcases List.mem_cons.1 hs with rfl | hs
    · exact hc
    · exact h2 s hs
  · simp [hb, h4]

mutual
theorem preorder_succ (n : Nat) (d : Disp) : preorder (n + 1) d = (preorder n d).map (fun x => (x.1 + 1, x.2)) := by
  match d with
  | .node l ks => simp [preorder, preorderKids_succ (n + 1) ks]
theorem preorderKids_succ (n : Nat) (ks : List Disp) :
    preorderKids (n + 1) ks = (preorderKids n ks).map (fun x => (x.1 + 1, x.2)) := by
  match ks with
  | [] => simp [preorderKids]
  | x :: xs => simp [preorderKids, preorder_succ n x, preorderKids_succ n xs]
end

mutual
theorem preorder_ge (n : Nat) (d : Disp) : ∀ x ∈ preorder n d, n ≤ x.1 := by
  match d with
  | .node l ks =>
    intro x hx
    simp only [preorder, List.mem_cons] at hx
    rcases hx with rfl | hx
    · exact Nat.le_refl _
    · exact Nat.le_of_succ_le (preorderKids_ge (n + 1) ks x hx)
theorem preorderKids_ge (n : Nat) (ks : List Disp) : ∀ x ∈ preorderKids n ks, n ≤ x.1 := by
  match ks with
  | [] => simp [preorderKids]
  | k :: ks =>
    intro x hx
    simp only [preorderKids, List.mem_append] at hx
    rcases hx with hx | hx
    · exact preorder_ge n k x hx
    · exact preorderKids_ge n ks x hx
end

theorem shift_forall (f : TreeFormat) {c : JStr} (hc : c = f.continuationSymbol ∨ c = f.emptySymbol)
    {xs : List (Nat × JStr)} {ls : List JStr} (hx : ∀ x ∈ xs, 1 ≤ x.1) (h : List.Forall₂ (DrawnAt f) xs ls) :
    List.Forall₂ (DrawnAt f) (xs.map (fun x => (x.1 + 1, x.2))) (ls.map ((c ++ [SPACE]) ++ ·)) := by
  induction h with
  | nil => exact .nil
  | cons h1 _ ih =>
    rename_i a b l1 l2 _
    refine .cons ?_ (ih (fun x hx' => hx x (by simp [hx'])))
    obtain ⟨n, l⟩ := a
    have : 1 ≤ n := hx (n, l) (by simp)
    obtain ⟨k, rfl⟩ : ∃ k, n = k + 1 := ⟨n - 1, by omega⟩
    exact drawnAt_block_first h1 hc rfl

theorem shift_drawn (f : TreeFormat) {c : JStr} (hc : c = f.continuationSymbol ∨ c = f.emptySymbol)
    {ks : List Disp} {ls : List JStr} (h : List.Forall₂ (DrawnAt f) (preorderKids 1 ks) ls) :
    List.Forall₂ (DrawnAt f) (preorderKids 2 ks) (ls.map ((c ++ [SPACE]) ++ ·)) := by
  rw [preorderKids_succ 1]
  exact shift_forall f hc (preorderKids_ge 1 ks) h

mutual
theorem layout_drawn (f : TreeFormat) (d : Disp) : List.Forall₂ (DrawnAt f) (preorder 0 d) (layout f d) := by
  match d with
  | .node l ks =>
    rw [preorder, layout]
    exact .cons rfl (layoutKids_drawn f ks)
theorem layoutKids_drawn (f : TreeFormat) (ks : List Disp) : List.Forall₂ (DrawnAt f) (preorderKids 1 ks) (layoutKids f ks) := by
  match ks with
  | [] => simp [preorderKids, layoutKids]
  | k :: ks =>
    have ih := layoutKids_drawn f ks
    match k with
    | .node l kk =>
    have ihk := layoutKids_drawn f kk
    have key : ∀ (br c : JStr), (br = f.nonLastChildSymbol ∨ br = f.lastChildSymbol) →
        (c = f.continuationSymbol ∨ c = f.emptySymbol) →
        List.Forall₂ (DrawnAt f) (preorder 1 (.node l kk)) (block (br ++ [SPACE]) (c ++ [SPACE]) (layout f (.node l kk))) := by
      intro br c hbr hc
      rw [preorder, layout, block]
      refine .cons ⟨[], br, rfl, by simp, hbr, by simp⟩ ?_
      exact shift_drawn f hc ihk
    rw [preorderKids, layoutKids]
    split
    · rename_i h
      have : ks = [] := by simpa using h
      subst this
      simpa [preorderKids] using key _ _ (.inr rfl) (.inr rfl)
    · exact List.rel_append (key _ _ (.inl rfl) (.inl rfl)) ih
end

/-! ### Decoding -/

theorem takeWhile_append_of {α : Type} {p : α → Bool} {a b : List α} (ha : ∀ x ∈ a, p x = true)
    (hb : ∀ x ∈ b.head?, p x = false) : (a ++ b).takeWhile p = a := by
  induction a with
  | nil => cases b with
    | nil => rfl
    | cons y ys => simp [hb y (by simp)]
  | cons x xs ih => simp [ha x (by simp), ih (fun y hy => ha y (by simp [hy]))]

theorem dropWhile_append_of {α : Type} {p : α → Bool} {a b : List α} (ha : ∀ x ∈ a, p x = true)
    (hb : ∀ x ∈ b.head?, p x = false) : (a ++ b).dropWhile p = b := by
  induction a with
  | nil => cases b with
    | nil => rfl
    | cons y ys => simp [hb y (by simp)]
  | cons x xs ih => simp [ha x (by simp), ih (fun y hy => ha y (by simp [hy]))]

variable {f : TreeFormat} {w : Nat}

theorem continues_cont (_hf : TreeFormatOK f w) {c : JStr} (hc : c = f.continuationSymbol ∨ c = f.emptySymbol) (l : JStr) :
    continues f ((c ++ [SPACE]) ++ l) = true := by
  have ht : ∀ (c l : JStr), ((c ++ [SPACE]) ++ l).take (c.length + 1) = c ++ [SPACE] := by
    intro c l; exact List.take_left' (by simp)
  unfold continues
  rcases hc with rfl | rfl
  · rw [ht]; simp
  · rw [ht]; simp

theorem continues_branch (hf : TreeFormatOK f w) (hr : Readable f) {b : JStr}
    (hb : b = f.nonLastChildSymbol ∨ b = f.lastChildSymbol) (l : JStr) :
    continues f ((b ++ [SPACE]) ++ l) = false := by
  have hl : b.length = w := by rcases hb with rfl | rfl; exacts [hf.1, hf.2.1]
  have ht : ((b ++ [SPACE]) ++ l).take (w + 1) = b ++ [SPACE] := List.take_left' (by simp [hl])
  unfold continues
  rw [hf.2.2.1, hf.2.2.2, ht]
  simp only [Bool.or_eq_false_iff, beq_eq_false_iff_ne, ne_eq, List.append_left_inj]
  obtain ⟨h1, h2, h3, h4⟩ := hr
  rcases hb with rfl | rfl
  · exact ⟨h1, h2⟩
  · exact ⟨h3, h4⟩

theorem layoutKids_head (hf : TreeFormatOK f w) (hr : Readable f) (ks : List Disp) :
    ∀ x ∈ (layoutKids f ks).head?, continues f x = false := by
  cases ks with
  | nil => simp [layoutKids]
  | cons k ks =>
    cases k with
    | node l kk =>
      intro x hx
      rw [layoutKids] at hx
      split at hx <;> simp only [layout, block, List.cons_append, List.head?_cons, Option.mem_def, Option.some.injEq] at hx <;> subst hx
      · exact continues_branch hf hr (.inr rfl) l
      · exact continues_branch hf hr (.inl rfl) l

mutual
theorem decodeKids_block (hf : TreeFormatOK f w) (hr : Readable f) (l : JStr) (kk : List Disp) (rest : List Disp) {b c : JStr}
    (hb : b = f.nonLastChildSymbol ∨ b = f.lastChildSymbol) (hc : c = f.continuationSymbol ∨ c = f.emptySymbol) :
    decodeKids f (block (b ++ [SPACE]) (c ++ [SPACE]) (layout f (.node l kk)) ++ layoutKids f rest) =
      .node l kk :: decodeKids f (layoutKids f rest) := by
  have hlb : b.length = w := by rcases hb with rfl | rfl; exacts [hf.1, hf.2.1]
  have hlc : c.length = w := by rcases hc with rfl | rfl; exacts [hf.2.2.1, hf.2.2.2]
  have hd : ∀ (a l : JStr), a.length = w → List.drop (w + 1) ((a ++ [SPACE]) ++ l) = l := by
    intro a l h; exact List.drop_left' (by simp [h])
  have hcont : ∀ x ∈ (layoutKids f kk).map ((c ++ [SPACE]) ++ ·), continues f x = true := by
    intro x hx
    obtain ⟨y, _, rfl⟩ := List.mem_map.1 hx
    exact continues_cont hf hc y
  rw [layout, block, List.cons_append, decodeKids, takeWhile_append_of hcont (layoutKids_head hf hr rest),
    dropWhile_append_of hcont (layoutKids_head hf hr rest), hf.2.2.1]
  simp only [hd b l hlb, List.map_map]
  congr 2
  have : (layoutKids f kk).map ((fun x => List.drop (w + 1) x) ∘ fun x => (c ++ [SPACE]) ++ x) = layoutKids f kk := by
    conv_rhs => rw [← List.map_id (layoutKids f kk)]
    apply List.map_congr_left
    intro x _
    exact hd c x hlc
  rw [this]
  exact decodeKids_layoutKids hf hr kk
termination_by sizeOf kk + 1

theorem decodeKids_layoutKids (hf : TreeFormatOK f w) (hr : Readable f) (ks : List Disp) :
    decodeKids f (layoutKids f ks) = ks := by
  match ks with
  | [] => simp [layoutKids, decodeKids]
  | .node l kk :: ks =>
    have ih := decodeKids_layoutKids hf hr ks
    rw [layoutKids]
    split
    · rename_i h
      have : ks = [] := by simpa using h
      subst this
      have := decodeKids_block hf hr l kk [] (.inr rfl) (.inr rfl)
      rw [ih] at this
      simpa [layoutKids] using this
    · rw [decodeKids_block hf hr l kk ks (.inl rfl) (.inl rfl), ih]
termination_by sizeOf ks
end

theorem decode_picture (hf : TreeFormatOK f w) (hr : Readable f) (hn : FormatNoNL f) (d : Disp) (h : ∀ l ∈ labels d, NoNL l) :
    decode f (picture f d) = some d := by
  rw [decode, linesOf_picture hn d h]
  cases d with
  | node l ks => simp only [layout]; rw [decodeKids_layoutKids hf hr ks]

end JFTP.Spec
