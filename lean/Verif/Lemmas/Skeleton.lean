import Verif.Spec.Skeleton
import Verif.Lemmas.Items

namespace JFTP.Spec

theorem splitRaw_dirs (names : List JStr) (h : ∀ n ∈ names, SLASH ∉ n) :
    splitRaw SLASH ((names.map (· ++ [SLASH])).flatten) = names ++ [[]] := by
  induction names with
  | nil => rfl
  | cons n ns ih =>
    have : ((n :: ns).map (· ++ [SLASH])).flatten = n ++ SLASH :: (ns.map (· ++ [SLASH])).flatten := by simp
    rw [this, splitRaw_append (h n (by simp)), ih (fun x hx => h x (by simp [hx]))]
    rfl

theorem fileMark_clean (a : Attrs) : SLASH ∉ fileMark a ∧ NL ∉ fileMark a := by
  unfold fileMark; split
  · decide
  · split <;> decide

theorem Chain.skeleton {L : Look} {d es ds last es'} (h : Chain L d es ds last es') :
    JFTP.Spec.skeleton (.dir d es) = nest (skeletonAll es') (ds.map lastName) := by
  induction h with
  | stop _ => rfl
  | @step d es c ces ds last es' hm hc ih =>
    obtain ⟨_, rfl, _⟩ := hm
    have : ds ≠ [] := by rw [hc.head_eq]; simp
    obtain ⟨x, xs, rfl⟩ := List.exists_cons_of_ne_nil this
    simp only [List.map_cons, nest]
    simp only [List.map_cons] at ih
    rw [← ih]
    simp [JFTP.Spec.skeleton, skeletonAll]

theorem Chain.clean {L : Look} {d es ds last es'} (h : Chain L d es ds last es') {P : Path → Prop}
    (hd : ∀ x xs, Below (.dir x xs) (.dir d es) → P x) : ∀ x ∈ ds, P x := by
  induction h with
  | stop _ => intro x hx; simp at hx; subst hx; exact hd _ _ .here
  | step hm _ ih =>
    obtain ⟨_, rfl, _⟩ := hm
    intro x hx
    rcases List.mem_cons.1 hx with rfl | hx
    · exact hd _ _ .here
    · exact ih (fun y ys hy => hd y ys (.inside (by simp) hy)) x hx

theorem dirLabel_plain (b : Bool) (ds : List Path) (last : Path) :
    (Item.dirs ds last).label (plain b) = ((ds.map lastName).map (· ++ [SLASH])).flatten := by
  simp [Item.label, plain, emojiText, List.map_map]; rfl

theorem expand_dirs (b : Bool) (ds : List Path) (last : Path) (hne : ds ≠ []) (ks : List Disp)
    (h : ∀ d ∈ ds, SLASH ∉ lastName d) :
    expand (.node ((Item.dirs ds last).label (plain b)) ks) = nest (expandAll ks) (ds.map lastName) := by
  rw [dirLabel_plain, expand, splitRaw_dirs _ (by simpa using h), if_pos]
  · simp
  · obtain ⟨x, xs, rfl⟩ := List.exists_cons_of_ne_nil hne
    simp

theorem CleanNames.mem {d : Path} {es : List TreeEntry} (h : CleanNames (.dir d es)) {e} (he : e ∈ es) : CleanNames e :=
  ⟨fun x xs hx => h.1 x xs (.inside he hx), fun x xs hx => h.2 x xs (.inside he hx)⟩

theorem CleanNames.below {t e : TreeEntry} (h : CleanNames t) (hb : Below e t) : CleanNames e :=
  ⟨fun x xs hx => h.1 x xs (hx.trans hb), fun x xs hx => h.2 x xs (hx.trans hb)⟩

mutual
theorem Shows.expand {b : Bool} {e : TreeEntry} {T : ITree} (h : Shows (plain b) e T) (hc : CleanNames e) :
    JFTP.Spec.expand (T.toDisp (plain b)) = JFTP.Spec.skeleton e := by
  cases h with
  | @file p a =>
    have hp := (hc.2 _ _ .here).1
    have hm := (fileMark_clean a).1
    have : SLASH ∉ (Item.file p a).label (plain b) := by
      unfold fileMark at hm
      simp only [Item.label, plain, emojiText, List.nil_append, Option.getD_none, List.append_nil, List.mem_append, not_or]
      exact ⟨hp, hm⟩
    rw [ITree.toDisp, JFTP.Spec.expand, if_neg this]
    simp [Item.label, plain, emojiText, JFTP.Spec.skeleton, fileMark]
  | skipped => rfl
  | maxDepth => rfl
  | dir hch hs =>
    have ih := hs.expand (fun e he => (hc.below hch.isBelow).mem he)
    rw [ITree.toDisp, expand_dirs _ _ _ (by rw [hch.head_eq]; simp) _ (hch.clean (fun x xs hx => (hc.1 x xs hx).1)), ih, hch.skeleton]
theorem ShowsAll.expand {b : Bool} {es : List TreeEntry} {Ts : List ITree} (h : ShowsAll (plain b) es Ts)
    (hc : ∀ e ∈ es, CleanNames e) : expandAll (toDispAll (plain b) Ts) = skeletonAll es := by
  cases h with
  | nil => rfl
  | cons h hs =>
    simp only [toDispAll, expandAll, skeletonAll]
    rw [h.expand (hc _ (by simp)), hs.expand (fun e he => hc e (by simp [he]))]
end

theorem ShowsTop.expand {b : Bool} {e : TreeEntry} {T : ITree} (h : ShowsTop (plain b) e T) (hc : CleanNames e) :
    JFTP.Spec.expand (T.toDisp (plain b)) = JFTP.Spec.skeleton e := by
  cases h with
  | dir hs =>
    rw [ITree.toDisp, expand_dirs _ _ _ (by simp) _ (by simpa using (hc.1 _ _ .here).1), hs.expand (fun e he => hc.mem he)]
    rfl
  | other _ h => exact h.expand hc

theorem noNL_label_plain {b : Bool} {i : Item} (h : match i with
    | .file p _ => NL ∉ lastName p
    | .dirs ds _ => ∀ d ∈ ds, NL ∉ lastName d
    | .more => True) : NoNL (i.label (plain b)) := by
  cases i with
  | file p a =>
    have hm := (fileMark_clean a).2
    unfold fileMark at hm
    simp only [NoNL, Item.label, plain, emojiText, List.nil_append, Option.getD_none, List.append_nil, List.mem_append, not_or]
    exact ⟨h, hm⟩
  | dirs ds last =>
    rw [dirLabel_plain]
    intro hx
    simp only [List.mem_flatten, List.mem_map] at hx
    obtain ⟨l, ⟨_, ⟨d, hd, rfl⟩, rfl⟩, hl⟩ := hx
    rcases List.mem_append.1 hl with hl | hl
    · exact h d hd hl
    · exact absurd hl (by decide)
  | more => show NL ∉ j!"..."; decide

theorem ShowsTop.noNL {b : Bool} {e : TreeEntry} {T : ITree} (h : ShowsTop (plain b) e T) (hc : CleanNames e) :
    ∀ l ∈ labels (T.toDisp (plain b)), NoNL l := by
  intro l hl
  unfold labels at hl
  rw [preorder_toDisp, List.map_map] at hl
  obtain ⟨x, hx, rfl⟩ := List.mem_map.1 hl
  have sub : ∀ es : List TreeEntry, (∀ e ∈ es, CleanNames e) → ItemOk (plain b) es x.2 → NoNL (x.2.label (plain b)) := by
    intro es hes hi
    apply noNL_label_plain
    obtain ⟨n, i⟩ := x
    cases i with
    | file p a => obtain ⟨e, he, hb⟩ := hi; exact ((hes e he).2 _ _ hb).2
    | dirs ds last =>
      obtain ⟨d, es0, es', ⟨e, he, hb⟩, hch⟩ := hi
      exact hch.clean (fun y ys hy => ((hes e he).1 y ys (hy.trans hb)).2)
    | more => trivial
  cases h with
  | dir hs =>
    simp only [ITree.items, List.mem_cons] at hx
    rcases hx with rfl | hx
    · exact noNL_label_plain (i := .dirs [_] _) (by simpa using (hc.1 _ _ .here).2)
    · exact sub _ (fun e he => hc.mem he) (hs.itemOk _ x hx)
  | other _ h => exact sub [e] (by simpa using hc) (h.itemOk _ x hx)

end JFTP.Spec
