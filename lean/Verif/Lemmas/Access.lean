import Verif.Spec.Access

/-
The accesses of the scanner, for arbitrary (changing) file systems and callbacks.
-/

namespace JFTP.Spec

theorem Reached.mono {l l' : List Access} (h : l <+: l') {top : Path} {k : Nat} {q : Path} (hr : Reached l top k q) : Reached l' top k q := by
  induction hr with
  | top => exact .top
  | child _ h1 h2 ih => exact .child ih (h.subset h1) h2

theorem AllAllowed.snoc {top : Path} {D : Int} {l : List Access} (h : AllAllowed top D l) {x : Access} (hx : Allowed top D l x) :
    AllAllowed top D (l ++ [x]) := by
  intro pre y post he
  rcases List.eq_nil_or_concat post with rfl | ⟨post', z, rfl⟩
  · obtain ⟨rfl, h2⟩ := List.append_inj' he rfl
    cases h2; exact hx
  · rw [List.concat_eq_append, ← List.cons_append, ← List.append_assoc] at he
    obtain ⟨h1, _⟩ := List.append_inj' he rfl
    exact h pre y post' h1

section
variable {σ : Type}

/-- If the log is fine and satisfies `J` before, it is fine and longer after, and satisfies `Q` if the computation returns. -/
def Tri (top : Path) (D : Int) {α : Type} (J : List Access → Prop) (x : ExceptT Exn (StateM (σ × List Access)) α) (Q : α → List Access → Prop) : Prop :=
  ∀ s l, AllAllowed top D l → J l → ∃ r s' l', (ExceptT.run x).run (s, l) = (r, (s', l')) ∧ l <+: l' ∧ AllAllowed top D l' ∧ ∀ a, r = .ok a → Q a l'

variable {top : Path} {D : Int} {α β : Type}

theorem Tri.bind {J : List Access → Prop} {x : ExceptT Exn (StateM (σ × List Access)) α} {f : α → ExceptT Exn (StateM (σ × List Access)) β}
    {Q : α → List Access → Prop} {R : β → List Access → Prop} (h : Tri top D J x Q) (hf : ∀ a, Tri top D (Q a) (f a) R) : Tri top D J (x >>= f) R := by
  intro s l hl hj
  obtain ⟨r, s', l', h1, h2, h3, h4⟩ := h s l hl hj
  rw [ExceptT.run_bind, StateT.run_bind, h1]
  cases r with
  | error e => exact ⟨.error e, s', l', rfl, h2, h3, fun a ha => by cases ha⟩
  | ok a =>
    obtain ⟨r', s'', l'', g1, g2, g3, g4⟩ := hf a s' l' h3 (h4 a rfl)
    exact ⟨r', s'', l'', g1, h2.trans g2, g3, g4⟩

theorem Tri.pure {J : List Access → Prop} {a : α} {Q : α → List Access → Prop} (h : ∀ l, J l → Q a l) :
    Tri (σ := σ) top D J (Pure.pure a) Q := by
  intro s l hl hj
  exact ⟨.ok a, s, l, rfl, List.prefix_refl _, hl, fun b hb => by cases hb; exact h l hj⟩

theorem Tri.throw {J : List Access → Prop} {e : Exn} {Q : α → List Access → Prop} : Tri (σ := σ) top D J (throw e) Q := by
  intro s l hl hj
  exact ⟨.error e, s, l, rfl, List.prefix_refl _, hl, fun b hb => by cases hb⟩

theorem Tri.pre {J J' : List Access → Prop} {x : ExceptT Exn (StateM (σ × List Access)) α} {Q : α → List Access → Prop} (h : Tri top D J x Q)
    (hj : ∀ l, J' l → J l) : Tri top D J' x Q := fun s l hl hl' => h s l hl (hj l hl')

/-- A fact that survives growing the log can be carried along. -/
theorem Tri.frame {J K : List Access → Prop} {x : ExceptT Exn (StateM (σ × List Access)) α} {Q : α → List Access → Prop} (h : Tri top D J x Q)
    (hK : ∀ l l', l <+: l' → K l → K l') : Tri top D (fun l => J l ∧ K l) x (fun a l => Q a l ∧ K l) := by
  intro s l hl hj
  obtain ⟨r, s', l', h1, h2, h3, h4⟩ := h s l hl hj.1
  exact ⟨r, s', l', h1, h2, h3, fun a ha => ⟨h4 a ha, hK _ _ h2 hj.2⟩⟩

theorem tri_unlogged {J : List Access → Prop} (x : ExceptT Exn (StateM σ) α) : Tri top D J (unlogged x) (fun _ l => J l) := by
  intro s l hl hj
  exact ⟨((ExceptT.run x).run s).1, ((ExceptT.run x).run s).2, l, rfl, List.prefix_refl _, hl, fun _ _ => hj⟩

theorem tri_logging {J : List Access → Prop} (mk : α → Access) (x : ExceptT Exn (StateM σ) α) (h : ∀ l a, J l → Allowed top D l (mk a)) :
    Tri top D J (logging mk x) (fun a l => ∃ l0, l = l0 ++ [mk a] ∧ J l0) := by
  intro s l hl hj
  have : (ExceptT.run (logging mk x)).run (s, l) = (match (ExceptT.run x).run s with
    | (.ok a, s') => (.ok a, (s', l ++ [mk a]))
    | (.error e, s') => (.error e, (s', l))) := rfl
  rw [this]
  rcases hx : (ExceptT.run x).run s with ⟨r, s'⟩
  cases r with
  | error e => exact ⟨.error e, s', l, rfl, List.prefix_refl _, hl, fun b hb => by cases hb⟩
  | ok a => exact ⟨.ok a, s', l ++ [mk a], rfl, List.prefix_append _ _, hl.snoc (h l a hj), fun b hb => by cases hb; exact ⟨l, rfl, hj⟩⟩

variable (fs : Fs (ExceptT Exn (StateM σ))) (o : ScanOpts (ExceptT Exn (StateM σ)))

theorem tri_filterEntries {J : List Access → Prop} (cs : List Path) :
    Tri top D J (Scanner.filterEntries (logOpts o).pathFilter cs) (fun ks l => J l ∧ ks ⊆ cs) := by
  induction cs with
  | nil => exact .pure (fun l h => ⟨h, by simp⟩)
  | cons c cs ih =>
    unfold Scanner.filterEntries
    refine .bind (tri_unlogged _) (fun b => .bind ih (fun ks => .pure (fun l h => ⟨h.1, ?_⟩)))
    intro x hx
    cases b with
    | true =>
      rcases List.mem_cons.1 hx with rfl | hx
      · simp
      · exact List.mem_cons_of_mem _ (h.2 hx)
    | false => exact List.mem_cons_of_mem _ (h.2 hx)

theorem tri_childLoop {J : Path → List Access → Prop} (hJ : ∀ p l l', l <+: l' → J p l → J p l')
    (visit : Path → ExceptT Exn (StateM (σ × List Access)) TreeEntry) (hv : ∀ p, Tri top D (J p) (visit p) (fun _ _ => True)) (n : Int) (ps : List Path) :
    ∀ i, Tri top D (fun l => ∀ p ∈ ps, J p l) (Scanner.childLoop visit n i ps) (fun _ _ => True) := by
  induction ps with
  | nil => intro i; exact .pure (fun _ _ => trivial)
  | cons p ps ih =>
    intro i
    unfold Scanner.childLoop
    dsimp only
    split
    · exact .pure (fun _ _ => trivial)
    · refine Tri.bind (Q := fun _ l => True ∧ ∀ p ∈ ps, J p l) ?_ (fun e => ?_)
      · refine ((hv p).frame (K := fun l => ∀ p ∈ ps, J p l) (fun l l' h hk q hq => hJ q l l' h (hk q hq))).pre ?_
        intro l h
        exact ⟨h p (by simp), fun q hq => h q (by simp [hq])⟩
      · refine .bind ((ih (i + 1)).pre (fun l h => h.2)) (fun r => .pure (fun _ _ => trivial))

theorem tri_handle (k : Nat) (hk : (k : Int) ≤ max o.maxDepth 0) (p : Path) :
    Tri top o.maxDepth (fun l => Reached l top k p) (Scanner.handle (logFs fs) (logOpts o) k p) (fun _ _ => True) := by
  rw [Scanner.handle]
  refine .bind (tri_logging (Access.isDir p) (fs.isDir p) (fun l a h => ⟨k, hk, h⟩)) (fun b => ?_)
  cases b with
  | true =>
    simp only [if_true]
    split
    · exact .pure (fun _ _ => trivial)
    · rename_i h
      have h : ¬ ((k : Int) ≥ o.maxDepth) := h
      have ih := fun q => tri_handle (k + 1) (by omega) q
      unfold Scanner.handleDirectory
      refine .bind (tri_logging (Access.list p) (fs.listDir p) (fun l a hl => ?_)) (fun r => ?_)
      · obtain ⟨l0, rfl, hl0⟩ := hl
        exact ⟨by simp, k, by omega, hl0.mono (List.prefix_append _ _)⟩
      · cases r with
        | openFailed => exact .throw
        | opened cs bad =>
          refine Tri.bind (Q := fun _ _ => True) ?_ (fun es => .pure (fun _ _ => trivial))
          unfold Scanner.handleDirectoryChildren
          refine Tri.bind (tri_unlogged (o.childLimit p)) (fun n => Tri.bind (tri_filterEntries o cs) (fun ks => ?_))
          cases bad with
          | true => exact Tri.bind (Q := fun _ _ => False) .throw (fun _ s l _ h => h.elim)
          | false =>
            simp only [Bool.false_eq_true, if_false]
            refine Tri.bind (Q := fun _ _ => True) ?_ (fun x => .pure (fun _ _ => trivial))
            refine (tri_childLoop (J := fun q l => Reached l top (k + 1) q) (fun q l l' hp hr => hr.mono hp) _ ih n _ 0).pre ?_
            rintro l ⟨⟨l0, rfl, l1, rfl, h1⟩, hsub⟩ q hq
            have hq : q ∈ ks := (List.mergeSort_perm _ _).mem_iff.1 hq
            exact .child (bad := false) ((h1.mono (List.prefix_append _ _)).mono (List.prefix_append _ _)) (by simp) (hsub hq)
  | false =>
    simp only [Bool.false_eq_true, if_false]
    unfold Scanner.handleFile
    refine .bind (tri_logging (Access.attrs p) (fs.readAttrs p) (fun l a hl => ?_)) (fun r => ?_)
    · obtain ⟨l0, rfl, hl0⟩ := hl
      exact ⟨by simp, k, hk, hl0.mono (List.prefix_append _ _)⟩
    · cases r with
      | none => exact .throw
      | some a => exact .pure (fun _ _ => trivial)
termination_by (o.maxDepth - k).toNat
decreasing_by omega

end
end JFTP.Spec
