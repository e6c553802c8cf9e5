import Verif.Spec.Display
import Verif.Lemmas.Render

namespace JFTP.Spec

theorem mergeable_or (L : Look) (d : Path) (es : List TreeEntry) :
    (∃ c ces, Mergeable L d es c ces) ∨ (∀ c ces, ¬ Mergeable L d es c ces) := by
  by_cases h : ∃ c ces, Mergeable L d es c ces
  · exact .inl h
  · exact .inr (by simpa using h)

theorem Mergeable.unique {L : Look} {d es c ces c' ces'} (h : Mergeable L d es c ces) (h' : Mergeable L d es c' ces') :
    c = c' ∧ ces = ces' := by
  have := h.2.1.symm.trans h'.2.1
  simpa using this

/-- Every directory entry starts exactly one chain. -/
theorem Chain.exists (L : Look) (d : Path) (es : List TreeEntry) : ∃ ds last es', Chain L d es ds last es' := by
  rcases mergeable_or L d es with ⟨c, ces, h⟩ | h
  · have hs : sizeOf ces < sizeOf es := by rw [h.2.1]; simp; omega
    obtain ⟨ds, last, es', hc⟩ := Chain.exists L c ces
    exact ⟨_, _, _, .step h hc⟩
  · exact ⟨_, _, _, .stop h⟩
termination_by sizeOf es

theorem Chain.unique {L : Look} {d es ds last es' ds' last' es''} (h : Chain L d es ds last es')
    (h' : Chain L d es ds' last' es'') : ds = ds' ∧ last = last' ∧ es' = es'' := by
  induction h generalizing ds' last' es'' with
  | stop hn =>
    cases h' with
    | stop => exact ⟨rfl, rfl, rfl⟩
    | step hm => exact absurd hm (hn _ _)
  | step hm hc ih =>
    cases h' with
    | stop hn => exact absurd hm (hn _ _)
    | step hm' hc' =>
      obtain ⟨rfl, rfl⟩ := Mergeable.unique hm hm'
      obtain ⟨rfl, rfl, rfl⟩ := ih hc'
      exact ⟨rfl, rfl, rfl⟩

theorem Chain.size {L : Look} {d es ds last es'} (h : Chain L d es ds last es') : sizeOf es' ≤ sizeOf es := by
  induction h with
  | stop => exact Nat.le_refl _
  | step hm _ ih => rw [hm.2.1]; simp; omega

theorem Chain.head_eq {L : Look} {d es ds last es'} (h : Chain L d es ds last es') : ds = [d] ++ ds.tail := by
  cases h <;> rfl

mutual
theorem Shows.exists (L : Look) (e : TreeEntry) : ∃ T, Shows L e T := by
  match e with
  | .file p a => exact ⟨_, .file⟩
  | .skipped p => exact ⟨_, .skipped⟩
  | .maxDepth n => exact ⟨_, .maxDepth⟩
  | .dir d es =>
    obtain ⟨ds, last, es', hc⟩ := Chain.exists L d es
    have := hc.size
    obtain ⟨ks, hk⟩ := ShowsAll.exists L es'
    exact ⟨_, .dir hc hk⟩
termination_by sizeOf e
decreasing_by simp; omega
theorem ShowsAll.exists (L : Look) (es : List TreeEntry) : ∃ Ts, ShowsAll L es Ts := by
  match es with
  | [] => exact ⟨_, .nil⟩
  | e :: es =>
    obtain ⟨T, h⟩ := Shows.exists L e
    obtain ⟨Ts, hs⟩ := ShowsAll.exists L es
    exact ⟨_, .cons h hs⟩
termination_by sizeOf es
end

mutual
theorem Shows.unique {L : Look} {e : TreeEntry} {T T' : ITree} (h : Shows L e T) (h' : Shows L e T') : T = T' := by
  match h, h' with
  | .file, .file => rfl
  | .skipped, .skipped => rfl
  | .maxDepth, .maxDepth => rfl
  | .dir hc hk, .dir hc' hk' =>
    obtain ⟨rfl, rfl, rfl⟩ := hc.unique hc'
    rw [ShowsAll.unique hk hk']
theorem ShowsAll.unique {L : Look} {es : List TreeEntry} {Ts Ts' : List ITree} (h : ShowsAll L es Ts) (h' : ShowsAll L es Ts') :
    Ts = Ts' := by
  match h, h' with
  | .nil, .nil => rfl
  | .cons h hs, .cons h' hs' => rw [Shows.unique h h', ShowsAll.unique hs hs']
end

theorem ShowsTop.exists (L : Look) (e : TreeEntry) : ∃ T, ShowsTop L e T := by
  cases e with
  | dir d es =>
    obtain ⟨ks, h⟩ := ShowsAll.exists L es
    exact ⟨_, .dir h⟩
  | _ => obtain ⟨T, h⟩ := Shows.exists L _; exact ⟨T, .other (by simp) h⟩

theorem ShowsTop.unique {L : Look} {e : TreeEntry} {T T' : ITree} (h : ShowsTop L e T) (h' : ShowsTop L e T') : T = T' := by
  cases h with
  | dir hk =>
    cases h' with
    | dir hk' => rw [hk.unique hk']
    | other hn => exact absurd rfl (hn _ _)
  | other hn hs =>
    cases h' with
    | dir => exact absurd rfl (hn _ _)
    | other _ hs' => exact hs.unique hs'

/-! ### The monadic display of functional callbacks is the specified one -/

section
variable {m : Type → Type} [Monad m] [LawfulMonad m] [MonadExceptOf Exn m]

/-- Functional callbacks seen in an effect context. -/
def Look.lift (L : Look) : LookM m := ⟨fun p => pure (L.emoji p), L.compact, fun p => pure (L.ext p)⟩

theorem getFileName_eq {p : Path} (h : p.names ≠ []) : p.getFileName = some (lastName p) := by
  unfold Path.getFileName lastName
  cases hn : p.names with
  | nil => exact absurd hn h
  | cons a as => simp [List.getLast?_cons, List.getLastD_cons]

theorem namesM_pure (ds : List Path) (h : ∀ d ∈ ds, d.names ≠ []) :
    namesM (m := m) ds = pure (ds.map (fun d => lastName d ++ j!"/")).flatten := by
  induction ds with
  | nil => simp [namesM]
  | cons d ds ih =>
    have hd : d.names.getLast? = some (lastName d) := getFileName_eq (h d (by simp))
    rw [namesM, hd, ih (fun x hx => h x (by simp [hx]))]
    simp

theorem extension_pure (L : Look) (p : Path) : (Look.lift L : LookM m).ext p = pure (L.ext p) := rfl

theorem chainLabel (L : Look) (d : Path) (ps : List Path) (h : ∀ d ∈ ps, d.names ≠ []) :
    dirsTextM (m := m) (Look.lift L : LookM m).emoji d ps =
      pure (emojiText (L.emoji d) ++ (ps.map (fun d => lastName d ++ j!"/")).flatten) := by
  unfold dirsTextM
  simp only [Look.lift, namesM_pure ps h, pure_bind]

theorem dispDirM_other (L : Look) (d : Path) (es : List TreeEntry) (ps : List Path) (hp : ∀ d ∈ ps, d.names ≠ [])
    (ks : List ITree) {top : Bool} (hes : ∀ c ces, es ≠ [.dir c ces])
    (ih : dispKidsM (m := m) (Look.lift L) es = pure (toDispAll L ks)) :
    dispDirM (m := m) (Look.lift L) top d es ps =
      pure (.node (emojiText (L.emoji d) ++ (ps.map (fun d => lastName d ++ j!"/")).flatten ++ (L.ext d).getD [])
        (toDispAll L ks)) := by
  rw [dispDirM.eq_def]
  split
  · exact absurd rfl (hes _ _)
  · simp [chainLabel L d ps hp, extension_pure, ih]

mutual
theorem dispM_pure (L : Look) (e : TreeEntry) (hn : Named e) (T : ITree) (hs : Shows L e T) :
    dispM (m := m) (Look.lift L) false e = pure (T.toDisp L) := by
  match e, hs with
  | .file p a, .file =>
    simp only [Named] at hn
    rw [dispM]
    have hd : p.names.getLast? = some (lastName p) := getFileName_eq hn
    unfold fileTextM nameM
    rw [hd]
    simp [extension_pure, Look.lift, ITree.toDisp, Item.label, toDispAll]
  | .skipped p, .skipped => simp [dispM, ITree.toDisp, Item.label, toDispAll]
  | .maxDepth n, .maxDepth => simp [dispM, ITree.toDisp, Item.label, toDispAll]
  | .dir d es, .dir hc hk =>
    simp only [Named] at hn
    rw [dispM]
    have := dispDirM_pure L d es hn.2 [d] (by simpa using hn.1) _ _ _ _ hc hk
    rw [this, ITree.toDisp, Item.label]
    have hd : [d] ++ List.tail _ = _ := hc.head_eq.symm
    rw [hd]
termination_by (sizeOf e, 1)

theorem dispDirM_pure (L : Look) (d : Path) (es : List TreeEntry) (hn : NamedAll es) (ps : List Path) (hp : ∀ d ∈ ps, d.names ≠ [])
    (ds : List Path) (last : Path) (es' : List TreeEntry) (ks : List ITree) (hc : Chain L d es ds last es') (hk : ShowsAll L es' ks) :
    dispDirM (m := m) (Look.lift L) false d es ps =
      pure (.node (emojiText (L.emoji last) ++ ((ps ++ ds.tail).map (fun d => lastName d ++ j!"/")).flatten ++ (L.ext last).getD [])
        (toDispAll L ks)) := by
  have ihK := dispKidsM_pure L es
  have ihD : ∀ c ces, es = [.dir c ces] → ∀ (hn : Named (.dir c ces)) T, Shows L (.dir c ces) T →
      dispM (m := m) (Look.lift L) false (.dir c ces) = pure (T.toDisp L) := fun c ces h hn T hs =>
    have : sizeOf (TreeEntry.dir c ces) < sizeOf es := by rw [h]; simp; omega
    dispM_pure L _ hn T hs
  cases hc with
  | step hm hc =>
    obtain ⟨h1, rfl, h3⟩ := hm
    clear ihD ihK
    rename_i c ces ds
    simp only [NamedAll, Named] at hn
    rw [dispDirM]
    have hcmp : ((Look.lift L : LookM m).compact && !false) = true := by simp [Look.lift, h1]
    rw [hcmp, extension_pure, h3]
    simp only [if_true, pure_bind]
    rw [dispDirM_pure L c ces hn.1.2 (ps ++ [c]) (by
      intro x hx; rcases List.mem_append.1 hx with hx | hx
      · exact hp x hx
      · simp at hx; rw [hx]; exact hn.1.1) _ _ _ _ hc hk]
    have h : (ps ++ [c]) ++ ds.tail = ps ++ ds := by
      rw [List.append_assoc]; congr 1; exact hc.head_eq.symm
    rw [h, List.tail_cons]
  | stop hstop =>
    simp only [List.tail_cons, List.append_nil]
    match es with
    | [.dir c ces] =>
      rw [dispDirM]
      cases hk with
      | cons hk1 hk2 =>
      cases hk2
      rename_i T
      have hk' : dispM (m := m) (Look.lift L) false (.dir c ces) = pure (T.toDisp L) := ihD c ces rfl hn.1 T hk1
      split
      · rename_i hcmp
        rw [extension_pure, pure_bind]
        cases hx : L.ext d with
        | none => exact absurd ⟨by simpa [Look.lift] using hcmp, rfl, hx⟩ (hstop c ces)
        | some x => simp [chainLabel L d ps hp, hk', toDispAll]
      · simp [chainLabel L d ps hp, hk', toDispAll, extension_pure]
    | [] => exact dispDirM_other L d _ ps hp ks (by simp) (ihK hn ks hk)
    | .file q a :: r => exact dispDirM_other L d _ ps hp ks (by simp) (ihK hn ks hk)
    | .skipped q :: r => exact dispDirM_other L d _ ps hp ks (by simp) (ihK hn ks hk)
    | .maxDepth q :: r => exact dispDirM_other L d _ ps hp ks (by simp) (ihK hn ks hk)
    | .dir q a :: b :: r => exact dispDirM_other L d _ ps hp ks (by simp) (ihK hn ks hk)
termination_by (sizeOf es, 3)

theorem dispKidsM_pure (L : Look) (es : List TreeEntry) (hn : NamedAll es) (ks : List ITree) (hk : ShowsAll L es ks) :
    dispKidsM (m := m) (Look.lift L) es = pure (toDispAll L ks) := by
  match es, hk with
  | [], .nil => simp [dispKidsM, toDispAll]
  | e :: es, .cons h hs =>
    rw [dispKidsM, dispM_pure L e hn.1 _ h, pure_bind, dispKidsM_pure L es hn.2 _ hs]
    simp [toDispAll]
termination_by (sizeOf es, 2)
end

theorem dispM_top (L : Look) (e : TreeEntry) (hn : Named e) (T : ITree) (hs : ShowsTop L e T) :
    dispM (m := m) (Look.lift L) true e = pure (T.toDisp L) := by
  cases hs with
  | other hno hs =>
    have h := dispM_pure (m := m) L e hn T hs
    cases e with
    | dir d es => exact absurd rfl (hno _ _)
    | _ => rw [dispM] at h ⊢; exact h
  | dir hk =>
    rename_i d es ks
    simp only [Named] at hn
    have ihK := dispKidsM_pure (m := m) L es hn.2 ks hk
    rw [dispM]
    simp only [ITree.toDisp, Item.label]
    by_cases hes : ∃ c ces, es = [.dir c ces]
    · obtain ⟨c, ces, rfl⟩ := hes
      cases hk with
      | cons hk1 hk2 =>
      cases hk2
      rename_i T
      have hk' : dispM (m := m) (Look.lift L) false (.dir c ces) = pure (T.toDisp L) := dispM_pure L _ hn.2.1 T hk1
      rw [dispDirM]
      simp [chainLabel L d [d] (by simpa using hn.1), hk', toDispAll, extension_pure]
    · exact dispDirM_other L d es [d] (by simpa using hn.1) ks (fun c ces h => hes ⟨c, ces, h⟩) ihK

end
end JFTP.Spec
