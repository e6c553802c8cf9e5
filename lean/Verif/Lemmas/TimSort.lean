import Verif.Lemmas.Sorting

/-
`TimSort` meets the contract of the sort, for lists of any length.
-/

namespace JFTP
namespace Spec
namespace Tim
open TimSort

/-! ### Whatever the comparator answers -/

/-- Whatever the comparator answers: only elements of `l` are compared, no array is accessed outside of its bounds, and what is returned satisfies `P`. -/
structure Fine {α : Type} (l : List Path) (r : SortRun α) (P : α → Prop) : Prop where
  asks : AsksAbout l r
  post : ∀ x, MayReturn r x → P x

variable {l : List Path}

theorem fine_pure {α : Type} {P : α → Prop} {a : α} (h : P a) : Fine l (pure a : SortRun α) P := ⟨.done, fun x hx => by rw [mayReturn_pure.1 hx]; exact h⟩
theorem fine_fail {α : Type} {P : α → Prop} : Fine l (.fail : SortRun α) P := ⟨.fail, fun x hx => by cases hx⟩

theorem fine_bind {α β : Type} {r : SortRun α} {f : α → SortRun β} {P : α → Prop} {Q : β → Prop} (h : Fine l r P) (hf : ∀ x, P x → Fine l (f x) Q) : Fine l (r >>= f) Q :=
  ⟨asks_bind h.asks (fun x hx => (hf x (h.post x hx)).asks), fun y hy => by
    obtain ⟨x, h1, h2⟩ := mayReturn_bind hy
    exact (hf x (h.post x h1)).post y h2⟩

theorem fine_mono {α : Type} {r : SortRun α} {P Q : α → Prop} (h : Fine l r P) (hq : ∀ x, P x → Q x) : Fine l r Q := ⟨h.asks, fun x hx => hq x (h.post x hx)⟩

theorem fine_compare {a b : Path} (ha : a ∈ l) (hb : b ∈ l) : Fine l (SortRun.compare a b) (fun _ => True) := ⟨asks_compare ha hb, fun _ _ => trivial⟩

theorem fine_read {l' : List Path} {i : Nat} (h : i < l'.length) : Fine l (SortRun.read l' i) (fun x => l'[i]? = some x) := ⟨asks_read h, fun _ hx => mayReturn_read hx⟩

theorem double_fine {key : Path} {run : List Path} {index : Nat → Nat} {go : Int → Bool} {maxOfs : Nat} (hk : key ∈ l) (hr : ∀ x ∈ run, x ∈ l)
    (hi : ∀ ofs, ofs < maxOfs → index ofs < run.length) (fuel lastOfs ofs : Nat) (hf : maxOfs - ofs < fuel) (h1 : lastOfs < ofs) (h2 : lastOfs < maxOfs) :
    Fine l (double key run index go maxOfs fuel lastOfs ofs) (fun r => r.1 < r.2 ∧ r.2 ≤ maxOfs) := by
  induction fuel generalizing lastOfs ofs with
  | zero => omega
  | succ fuel ih =>
    unfold double
    split
    · rename_i hlt
      refine fine_bind (fine_read (hi ofs hlt)) (fun x hx => fine_bind (fine_compare hk (hr x (List.mem_of_getElem? hx))) (fun r _ => ?_))
      split
      · exact ih ofs (ofs * 2 + 1) (by omega) (by omega) hlt
      · exact fine_pure ⟨h1, by omega⟩
    · exact fine_pure ⟨h2, Nat.le_refl _⟩

theorem search_fine {key : Path} {run : List Path} {above : Int → Bool} (hk : key ∈ l) (hr : ∀ x ∈ run, x ∈ l) (fuel lo hi : Nat) (hf : hi - lo < fuel) (h1 : lo ≤ hi) (h2 : hi ≤ run.length) :
    Fine l (search key run above fuel lo hi) (fun i => i ≤ run.length) := by
  induction fuel generalizing lo hi with
  | zero => omega
  | succ fuel ih =>
    unfold search
    split
    · rename_i hlt
      refine fine_bind (fine_read (by omega)) (fun x hx => fine_bind (fine_compare hk (hr x (List.mem_of_getElem? hx))) (fun r _ => ?_))
      split
      · exact ih _ _ (by omega) (by omega) h2
      · exact ih _ _ (by omega) (by omega) (by omega)
    · exact fine_pure h2

theorem gallop_fine {above : Int → Bool} {key : Path} {run : List Path} {hint : Nat} (hk : key ∈ l) (hr : ∀ x ∈ run, x ∈ l) (hh : hint < run.length) :
    Fine l (gallop above key run hint) (fun i => i ≤ run.length) := by
  unfold gallop
  refine fine_bind (fine_read hh) (fun x hx => fine_bind (fine_compare hk (hr x (List.mem_of_getElem? hx))) (fun r _ => ?_))
  split
  · refine fine_bind (double_fine hk hr (fun ofs h => by omega) _ 0 1 (by omega) (by omega) (by omega)) (fun p hp => ?_)
    obtain ⟨a, b⟩ := p
    dsimp only at hp ⊢
    exact search_fine hk hr _ _ _ (by omega) (by omega) (by omega)
  · refine fine_bind (double_fine hk hr (fun ofs h => by omega) _ 0 1 (by omega) (by omega) (by omega)) (fun p hp => ?_)
    obtain ⟨a, b⟩ := p
    dsimp only at hp ⊢
    exact search_fine hk hr _ _ _ (by omega) (by omega) (by omega)

theorem gallopLeft_fine {key : Path} {run : List Path} {hint : Nat} (hk : key ∈ l) (hr : ∀ x ∈ run, x ∈ l) (hh : hint < run.length) :
    Fine l (gallopLeft key run hint) (fun i => i ≤ run.length) := gallop_fine hk hr hh
theorem gallopRight_fine {key : Path} {run : List Path} {hint : Nat} (hk : key ∈ l) (hr : ∀ x ∈ run, x ∈ l) (hh : hint < run.length) :
    Fine l (gallopRight key run hint) (fun i => i ≤ run.length) := gallop_fine hk hr hh

/-- Everything the variables of a merge hold. -/
def all (s : Merging) : List Path := s.out ++ (s.run1 ++ s.run2)

/-- The number of elements not yet moved. -/
def size (s : Merging) : Nat := s.run1.length + s.run2.length

theorem drop_one_of_get {run : List Path} {x : Path} (h : run[0]? = some x) : run = x :: run.drop 1 := by
  cases run with
  | nil => simp at h
  | cons a t => simp only [List.getElem?_cons_zero, Option.some.injEq] at h; subst h; rfl

theorem take_last_of_get {run : List Path} {x : Path} (h : run[run.length - 1]? = some x) : run = run.take (run.length - 1) ++ [x] := by
  have hlt : run.length - 1 < run.length := by
    by_contra hn
    rw [List.getElem?_eq_none (by omega)] at h; cases h
  rw [List.getElem?_eq_getElem hlt] at h
  injection h with h
  subst h
  have := List.take_append_getElem hlt
  rw [this, Nat.sub_add_cancel (by omega), List.take_length]

/-- What is true after a round of a merge. -/
def After (Inv : Merging → Prop) (s : Merging) (r : Merging × Nat × Nat × Bool) : Prop :=
  (all r.1).Perm (all s) ∧ size r.1 < size s ∧ (r.2.2.2 = false → Inv r.1)

theorem mergeLoop_fine {Inv : Merging → Prop} {step : Merging → Nat → Nat → SortRun (Merging × Nat × Nat × Bool)} {gallop : Merging → SortRun (Merging × Nat × Nat × Bool)}
    (hl : ∀ s, Inv s → ∀ n, Inv { s with minGallop := n }) 
    (hs : ∀ s c1 c2, Inv s → (∀ x ∈ all s, x ∈ l) → Fine l (step s c1 c2) (After Inv s)) (hg : ∀ s, Inv s → (∀ x ∈ all s, x ∈ l) → Fine l (gallop s) (After Inv s)) (fuel : Nat) (b : Bool) (s : Merging) (c1 c2 : Nat)
    (hf : size s < fuel) (hi : Inv s) (hm : ∀ x ∈ all s, x ∈ l) : Fine l (mergeLoop step gallop fuel b s c1 c2) (fun s' => (all s').Perm (all s)) := by
  induction fuel generalizing b s c1 c2 with
  | zero => omega
  | succ fuel ih =>
    cases b with
    | false =>
      rw [mergeLoop]
      refine fine_bind (hs s c1 c2 hi hm) (fun r hr => ?_)
      obtain ⟨s', d1, d2, stop⟩ := r
      obtain ⟨h1, h2, h3⟩ := hr
      dsimp only at h1 h2 h3 ⊢
      cases stop with
      | true => exact fine_pure h1
      | false =>
        exact fine_mono (ih _ s' d1 d2 (by omega) (h3 rfl) (fun x hx => hm x (h1.mem_iff.1 hx))) (fun x hx => hx.trans h1)
    | true =>
      rw [mergeLoop]
      refine fine_bind (hg s hi hm) (fun r hr => ?_)
      obtain ⟨s', d1, d2, stop⟩ := r
      obtain ⟨h1, h2, h3⟩ := hr
      dsimp only at h1 h2 h3 ⊢
      cases stop with
      | true => exact fine_pure h1
      | false =>
        have hm' : ∀ x ∈ all s', x ∈ l := fun x hx => hm x (h1.mem_iff.1 hx)
        simp only [Bool.false_eq_true, if_false]
        split
        · exact fine_mono (ih _ s' 0 0 (by omega) (h3 rfl) hm') (fun x hx => hx.trans h1)
        · exact fine_mono (ih _ _ 0 0 (by show size s' < fuel; omega) (hl _ (h3 rfl) _) hm') (fun x hx => hx.trans h1)

def InvLo (s : Merging) : Prop := 2 ≤ s.run1.length ∧ 1 ≤ s.run2.length
def InvHi (s : Merging) : Prop := 1 ≤ s.run1.length ∧ 2 ≤ s.run2.length

theorem mem_all1 {s : Merging} (hm : ∀ x ∈ all s, x ∈ l) : ∀ x ∈ s.run1, x ∈ l := fun x hx => hm x (by simp [all, hx])
theorem mem_all2 {s : Merging} (hm : ∀ x ∈ all s, x ∈ l) : ∀ x ∈ s.run2, x ∈ l := fun x hx => hm x (by simp [all, hx])

theorem perm_move1 {out a r1 r2 : List Path} : (out ++ a ++ (r1 ++ r2)).Perm (out ++ ((a ++ r1) ++ r2)) := by simp
theorem perm_move2 {out a r1 r2 : List Path} : (out ++ a ++ (r1 ++ r2)).Perm (out ++ (r1 ++ (a ++ r2))) := by
  rw [List.append_assoc]
  refine List.Perm.append_left _ ?_
  rw [← List.append_assoc, ← List.append_assoc]
  exact List.Perm.append_right _ List.perm_append_comm

theorem stepLo_fine {s : Merging} {c1 c2 : Nat} (hi : InvLo s) (hm : ∀ x ∈ all s, x ∈ l) : Fine l (stepLo s c1 c2) (After InvLo s) := by
  obtain ⟨h1, h2⟩ := hi
  unfold stepLo
  refine fine_bind (fine_read (by omega)) (fun y hy => fine_bind (fine_read (by omega)) (fun x hx => ?_))
  have ey := drop_one_of_get hy
  have ex := drop_one_of_get hx
  refine fine_bind (fine_compare (mem_all2 hm y (List.mem_of_getElem? hy)) (mem_all1 hm x (List.mem_of_getElem? hx))) (fun r _ => ?_)
  split
  · refine fine_pure ⟨?_, ?_, ?_⟩
    · show (s.out ++ [y] ++ (s.run1 ++ s.run2.drop 1)).Perm (s.out ++ (s.run1 ++ s.run2))
      conv_rhs => rw [ey]
      exact perm_move2
    · simp only [size, List.length_drop]; omega
    · intro h; simp only [decide_eq_false_iff_not, List.length_drop] at h
      exact ⟨h1, by simp only [List.length_drop]; omega⟩
  · refine fine_pure ⟨?_, ?_, ?_⟩
    · show (s.out ++ [x] ++ (s.run1.drop 1 ++ s.run2)).Perm (s.out ++ (s.run1 ++ s.run2))
      conv_rhs => rw [ex]
      exact perm_move1
    · simp only [size, List.length_drop]; omega
    · intro h; simp only [decide_eq_false_iff_not, List.length_drop] at h
      exact ⟨by simp only [List.length_drop]; omega, h2⟩

theorem drop_take_parts {run : List Path} {k : Nat} (h : k ≤ run.length) : ∃ a b, run = a ++ b ∧ run.take k = a ∧ run.drop k = b ∧ a.length = k :=
  ⟨_, _, (List.take_append_drop k run).symm, rfl, rfl, by rw [List.length_take]; omega⟩

theorem gallopLo_fine {s : Merging} (hi : InvLo s) (hm : ∀ x ∈ all s, x ∈ l) : Fine l (gallopLo s) (After InvLo s) := by
  obtain ⟨h1, h2⟩ := hi
  obtain ⟨out, run1, run2, mg⟩ := s
  dsimp only at h1 h2
  have m1 := mem_all1 hm
  have m2 := mem_all2 hm
  dsimp only at m1 m2
  unfold gallopLo
  dsimp only
  refine fine_bind (fine_read (by omega)) (fun y hy => ?_)
  have ey := drop_one_of_get hy
  obtain ⟨r2, hr2⟩ : ∃ r2, run2.drop 1 = r2 := ⟨_, rfl⟩
  simp only [hr2] at ey ⊢
  subst ey
  refine fine_bind (gallopRight_fine (m2 y (by simp)) m1 (by omega)) (fun k1 hk1 => ?_)
  obtain ⟨a1, b1, e1, et1, ed1, ek1⟩ := drop_take_parts hk1
  simp only [et1, ed1]
  subst e1
  simp only [List.length_append, List.length_cons] at *
  split
  · exact fine_pure ⟨perm_move1, by simp only [size, List.length_append, List.length_cons]; omega, fun h => by cases h⟩
  · rename_i hn1
    split
    · refine fine_pure ⟨?_, by simp only [size, List.length_append, List.length_cons]; omega, fun h => by cases h⟩
      show (out ++ a1 ++ [y] ++ (b1 ++ r2)).Perm (out ++ ((a1 ++ b1) ++ y :: r2))
      exact perm_move2.trans perm_move1
    · rename_i hn2
      have hb1 : 2 ≤ b1.length := by omega
      refine fine_bind (fine_read (by omega)) (fun x hx => ?_)
      have ex := drop_one_of_get hx
      obtain ⟨b1', hb1'⟩ : ∃ b1', b1.drop 1 = b1' := ⟨_, rfl⟩
      simp only [hb1'] at ex ⊢
      subst ex
      refine fine_bind (gallopLeft_fine (m1 x (by simp)) (fun z hz => m2 z (by simp [hz])) (by omega)) (fun k2 hk2 => ?_)
      obtain ⟨a2, b2, e2, et2, ed2, ek2⟩ := drop_take_parts hk2
      simp only [et2, ed2]
      subst e2
      simp only [List.length_append, List.length_cons] at *
      have hp : (out ++ a1 ++ [y] ++ a2 ++ ((x :: b1') ++ b2)).Perm (out ++ ((a1 ++ x :: b1') ++ y :: (a2 ++ b2))) :=
        perm_move2.trans (perm_move2.trans perm_move1)
      split
      · exact fine_pure ⟨hp, by simp only [size, List.length_append, List.length_cons]; omega, fun h => by cases h⟩
      · rename_i hn3
        have hp' : (out ++ a1 ++ [y] ++ a2 ++ [x] ++ (b1' ++ b2)).Perm (out ++ ((a1 ++ x :: b1') ++ y :: (a2 ++ b2))) := perm_move1.trans hp
        split
        · exact fine_pure ⟨hp', by simp only [size, List.length_append, List.length_cons]; omega, fun h => by cases h⟩
        · exact fine_pure ⟨hp', by simp only [size, List.length_append, List.length_cons]; omega, fun _ => ⟨by dsimp only; omega, by dsimp only; omega⟩⟩

theorem finishLo_fine {s : Merging} : Fine l (finishLo s) (fun r => r.1.Perm (all s)) := by
  unfold finishLo
  dsimp only
  split
  · refine fine_pure ?_
    show (s.out ++ s.run2 ++ s.run1).Perm (s.out ++ (s.run1 ++ s.run2))
    rw [List.append_assoc]
    exact List.Perm.append_left _ List.perm_append_comm
  · split
    · exact fine_fail
    · refine fine_pure ?_
      show (s.out ++ s.run1 ++ s.run2).Perm (s.out ++ (s.run1 ++ s.run2))
      simp

theorem mergeLo_fine {mg : Int} {run1 run2 : List Path} (h1 : 1 ≤ run1.length) (h2 : 1 ≤ run2.length) (m1 : ∀ x ∈ run1, x ∈ l) (m2 : ∀ x ∈ run2, x ∈ l) :
    Fine l (mergeLo mg run1 run2) (fun r => r.1.Perm (run1 ++ run2)) := by
  unfold mergeLo
  refine fine_bind (fine_read (by omega)) (fun y hy => ?_)
  have ey := drop_one_of_get hy
  obtain ⟨r2, hr2⟩ : ∃ r2, run2.drop 1 = r2 := ⟨_, rfl⟩
  simp only [hr2] at ey ⊢
  subst ey
  have hp : ([y] ++ (run1 ++ r2)).Perm (run1 ++ y :: r2) := (List.perm_middle (a := y) (l₁ := run1) (l₂ := r2)).symm
  split
  · refine fine_pure (List.Perm.trans ?_ hp)
    cases r2 with
    | nil => simp
    | cons a t => simp at *
  · rename_i hn2
    split
    · refine fine_pure (List.Perm.trans ?_ hp)
      rw [List.append_assoc]
      exact List.Perm.append_left _ List.perm_append_comm
    · rename_i hn1
      have hmem : ∀ x ∈ all { out := [y], run1 := run1, run2 := r2, minGallop := mg }, x ∈ l := by
        intro x hx
        simp only [all, List.mem_append, List.mem_cons, List.not_mem_nil, or_false] at hx
        rcases hx with rfl | hx | hx
        · exact m2 _ (by simp)
        · exact m1 _ hx
        · exact m2 _ (by simp [hx])
      refine fine_bind (mergeLoop_fine (Inv := InvLo) (fun s hs n => hs) (fun s c1 c2 => stepLo_fine) (fun s => gallopLo_fine) _ _ _ _ _ ?_ ?_ hmem) (fun s hs => ?_)
      · simp only [size, List.length_cons]; omega
      · exact ⟨by dsimp only; omega, by dsimp only; omega⟩
      · exact fine_mono finishLo_fine (fun r hr => hr.trans (hs.trans hp))

theorem stepHi_fine {s : Merging} {c1 c2 : Nat} (hi : InvHi s) (hm : ∀ x ∈ all s, x ∈ l) : Fine l (stepHi s c1 c2) (After InvHi s) := by
  obtain ⟨h1, h2⟩ := hi
  obtain ⟨out, run1, run2, mg⟩ := s
  dsimp only at h1 h2
  have m1 := mem_all1 hm
  have m2 := mem_all2 hm
  dsimp only at m1 m2
  unfold stepHi
  dsimp only
  refine fine_bind (fine_read (by omega)) (fun y hy => fine_bind (fine_read (by omega)) (fun x hx => ?_))
  have ey := take_last_of_get hy
  have ex := take_last_of_get hx
  refine fine_bind (fine_compare (m2 y (List.mem_of_getElem? hy)) (m1 x (List.mem_of_getElem? hx))) (fun r _ => ?_)
  have l1 : (run1.take (run1.length - 1)).length = run1.length - 1 := by rw [List.length_take]; omega
  have l2 : (run2.take (run2.length - 1)).length = run2.length - 1 := by rw [List.length_take]; omega
  split
  · refine fine_pure ⟨?_, ?_, ?_⟩
    · show (x :: out ++ (run1.take (run1.length - 1) ++ run2)).Perm (out ++ (run1 ++ run2))
      conv_rhs => rw [ex]
      generalize run1.take (run1.length - 1) = r1
      have : (out ++ (r1 ++ [x] ++ run2)) = (out ++ r1) ++ x :: run2 := by simp
      rw [this]
      refine List.Perm.trans ?_ List.perm_middle.symm
      simp
    · simp only [size, l1]; omega
    · intro h; simp only [decide_eq_false_iff_not, l1] at h
      exact ⟨by dsimp only; omega, h2⟩
  · refine fine_pure ⟨?_, ?_, ?_⟩
    · show (y :: out ++ (run1 ++ run2.take (run2.length - 1))).Perm (out ++ (run1 ++ run2))
      conv_rhs => rw [ey]
      generalize run2.take (run2.length - 1) = r2
      have : (out ++ (run1 ++ (r2 ++ [y]))) = (out ++ run1 ++ r2) ++ y :: [] := by simp
      rw [this]
      refine List.Perm.trans ?_ List.perm_middle.symm
      simp
    · simp only [size, l2]; omega
    · intro h; simp only [decide_eq_false_iff_not, l2] at h
      exact ⟨h1, by dsimp only; omega⟩

theorem hi_move1 {out a r1 r2 : List Path} : (a ++ out ++ (r1 ++ r2)).Perm (out ++ ((r1 ++ a) ++ r2)) :=
  (List.Perm.append_right _ List.perm_append_comm).trans (perm_move1.trans (List.Perm.append_left _ (List.Perm.append_right _ List.perm_append_comm)))
theorem hi_move2 {out a r1 r2 : List Path} : (a ++ out ++ (r1 ++ r2)).Perm (out ++ (r1 ++ (r2 ++ a))) :=
  (List.Perm.append_right _ List.perm_append_comm).trans (perm_move2.trans (List.Perm.append_left _ (List.Perm.append_left _ List.perm_append_comm)))

theorem gallopHi_fine {s : Merging} (hi : InvHi s) (hm : ∀ x ∈ all s, x ∈ l) : Fine l (gallopHi s) (After InvHi s) := by
  obtain ⟨h1, h2⟩ := hi
  obtain ⟨out, run1, run2, mg⟩ := s
  dsimp only at h1 h2
  have m1 := mem_all1 hm
  have m2 := mem_all2 hm
  dsimp only at m1 m2
  unfold gallopHi
  dsimp only
  refine fine_bind (fine_read (by omega)) (fun y hy => ?_)
  have ey := take_last_of_get hy
  obtain ⟨r2, hr2⟩ : ∃ r2, run2.take (run2.length - 1) = r2 := ⟨_, rfl⟩
  simp only [hr2] at ey ⊢
  refine fine_bind (gallopRight_fine (m2 y (by rw [ey]; simp)) m1 (by omega)) (fun k1 hk1 => ?_)
  obtain ⟨a1, b1, e1, et1, ed1, ek1⟩ := drop_take_parts hk1
  simp only [et1, ed1]
  subst e1
  have hl2 : run2.length = r2.length + 1 := by rw [ey]; simp
  simp only [List.length_append] at *
  split
  · exact fine_pure ⟨hi_move1, by simp only [size, List.length_append]; omega, fun h => by cases h⟩
  · rename_i hn1
    have hp1 : (y :: (b1 ++ out) ++ (a1 ++ r2)).Perm (out ++ (a1 ++ b1 ++ run2)) := by
      rw [ey]
      exact (hi_move2 (a := [y])).trans hi_move1
    split
    · exact fine_pure ⟨hp1, by simp only [size, List.length_append]; omega, fun h => by cases h⟩
    · rename_i hn2
      have ha1 : 1 ≤ a1.length := by omega
      refine fine_bind (fine_read (by omega)) (fun x hx => ?_)
      have ex := take_last_of_get hx
      obtain ⟨a1', ha1'⟩ : ∃ a1', a1.take (a1.length - 1) = a1' := ⟨_, rfl⟩
      simp only [ha1'] at ex ⊢
      have hl1 : a1.length = a1'.length + 1 := by rw [ex]; simp
      refine fine_bind (gallopLeft_fine (m1 x (by rw [ex]; simp)) (fun z hz => m2 z (by rw [ey]; simp [hz])) (by omega)) (fun k2 hk2 => ?_)
      obtain ⟨a2, b2, e2, et2, ed2, ek2⟩ := drop_take_parts hk2
      simp only [et2, ed2]
      subst e2
      simp only [List.length_append] at *
      have hp2 : (b2 ++ (y :: (b1 ++ out)) ++ (a1 ++ a2)).Perm (out ++ (a1 ++ b1 ++ run2)) := hi_move2.trans hp1
      split
      · exact fine_pure ⟨hp2, by simp only [size, List.length_append]; omega, fun h => by cases h⟩
      · rename_i hn3
        have hp3 : (x :: (b2 ++ (y :: (b1 ++ out))) ++ (a1' ++ a2)).Perm (out ++ (a1 ++ b1 ++ run2)) := by
          refine List.Perm.trans ?_ hp2
          rw [ex]
          exact hi_move1 (a := [x])
        split
        · exact fine_pure ⟨hp3, by simp only [size, List.length_append]; omega, fun h => by cases h⟩
        · exact fine_pure ⟨hp3, by simp only [size, List.length_append]; omega, fun _ => ⟨by dsimp only; omega, by dsimp only; omega⟩⟩

theorem finishHi_fine {s : Merging} : Fine l (finishHi s) (fun r => r.1.Perm (all s)) := by
  unfold finishHi
  dsimp only
  have h : (s.run1 ++ s.run2 ++ s.out).Perm (all s) := List.perm_append_comm
  split
  · refine fine_pure (List.Perm.trans ?_ h)
    exact List.Perm.append_right _ List.perm_append_comm
  · split
    · exact fine_fail
    · exact fine_pure h

theorem mergeHi_fine {mg : Int} {run1 run2 : List Path} (h1 : 1 ≤ run1.length) (h2 : 1 ≤ run2.length) (m1 : ∀ x ∈ run1, x ∈ l) (m2 : ∀ x ∈ run2, x ∈ l) :
    Fine l (mergeHi mg run1 run2) (fun r => r.1.Perm (run1 ++ run2)) := by
  unfold mergeHi
  refine fine_bind (fine_read (by omega)) (fun x hx => ?_)
  have ex := take_last_of_get hx
  obtain ⟨r1, hr1⟩ : ∃ r1, run1.take (run1.length - 1) = r1 := ⟨_, rfl⟩
  simp only [hr1] at ex ⊢
  have hl1 : run1.length = r1.length + 1 := by rw [ex]; simp
  have hp : ([x] ++ (r1 ++ run2)).Perm (run1 ++ run2) := by
    rw [ex]; simpa using hi_move1 (a := [x]) (out := []) (r1 := r1) (r2 := run2)
  split
  · refine fine_pure (List.Perm.trans ?_ hp)
    cases r1 with
    | nil => exact List.perm_append_comm
    | cons a t => simp at *
  · rename_i hn1
    split
    · refine fine_pure (List.Perm.trans ?_ hp)
      exact List.perm_append_comm.trans (List.Perm.append_left _ List.perm_append_comm)
    · rename_i hn2
      have hmem : ∀ z ∈ all { out := [x], run1 := r1, run2 := run2, minGallop := mg }, z ∈ l := by
        intro z hz
        have := hp.mem_iff.1 hz
        rcases List.mem_append.1 this with h | h
        · exact m1 _ h
        · exact m2 _ h
      refine fine_bind (mergeLoop_fine (Inv := InvHi) (fun s hs n => hs) (fun s c1 c2 => stepHi_fine) (fun s => gallopHi_fine) _ _ _ _ _ ?_ ?_ hmem) (fun s hs => ?_)
      · simp only [size]; omega
      · exact ⟨by dsimp only; omega, by dsimp only; omega⟩
      · exact fine_mono finishHi_fine (fun r hr => hr.trans (hs.trans hp))

theorem mergeRuns_fine {mg : Int} {run1 run2 : List Path} (h1 : 1 ≤ run1.length) (h2 : 1 ≤ run2.length) (m1 : ∀ x ∈ run1, x ∈ l) (m2 : ∀ x ∈ run2, x ∈ l) :
    Fine l (mergeRuns mg run1 run2) (fun r => r.1.Perm (run1 ++ run2)) := by
  unfold mergeRuns
  refine fine_bind (fine_read (by omega)) (fun first hfirst => ?_)
  refine fine_bind (gallopRight_fine (m2 _ (List.mem_of_getElem? hfirst)) m1 (by omega)) (fun k hk => ?_)
  split
  · exact fine_pure (.refl _)
  · have hd : ∀ x ∈ run1.drop k, x ∈ l := fun x hx => m1 x (List.mem_of_mem_drop hx)
    refine fine_bind (fine_read (by rw [List.length_drop]; omega)) (fun last hlast => ?_)
    refine fine_bind (gallopLeft_fine (hd _ (List.mem_of_getElem? hlast)) m2 (by omega)) (fun k2 hk2 => ?_)
    split
    · exact fine_pure (.refl _)
    · have ht : ∀ x ∈ run2.take k2, x ∈ l := fun x hx => m2 x (List.mem_of_mem_take hx)
      have l1 : 1 ≤ (run1.drop k).length := by rw [List.length_drop]; omega
      have l2 : 1 ≤ (run2.take k2).length := by rw [List.length_take]; omega
      have fin : ∀ r : List Path × Int, r.1.Perm (run1.drop k ++ run2.take k2) →
          Fine l (pure (run1.take k ++ r.1 ++ run2.drop k2, r.2) : SortRun (List Path × Int)) (fun r => r.1.Perm (run1 ++ run2)) := by
        intro r hr
        refine fine_pure ?_
        show (run1.take k ++ r.1 ++ run2.drop k2).Perm (run1 ++ run2)
        have e : run1 ++ run2 = run1.take k ++ (run1.drop k ++ run2.take k2) ++ run2.drop k2 := by
          conv_lhs => rw [← List.take_append_drop k run1, ← List.take_append_drop k2 run2]
          simp only [List.append_assoc]
        rw [e]
        exact List.Perm.append_right _ (List.Perm.append_left _ hr)
      dsimp only
      split
      · exact fine_bind (mergeLo_fine l1 l2 hd ht) fin
      · exact fine_bind (mergeHi_fine l1 l2 hd ht) fin

/-! ### The stack of pending runs -/

/-- The lengths of the pending runs (last one first) grow at least like the Fibonacci numbers. -/
def Chain : List Nat → Prop
  | [] => True
  | [_] => True
  | [x, y] => x < y
  | x :: y :: z :: older => x < y ∧ x + y < z ∧ Chain (y :: z :: older)

theorem Chain.tail {x : Nat} {t : List Nat} (h : Chain (x :: t)) : Chain t := by
  match t, h with
  | [], _ => trivial
  | [_], _ => trivial
  | _ :: _ :: _, h => exact h.2.2

/-- The lengths of the pending runs. -/
def lens (ts : Pending) : List Nat := ts.runs.map List.length

/-- What merging pending runs preserves: the elements, and lower bounds for the lengths. -/
structure Kept' (ts ts' : Pending) : Prop where
  perm : ts'.runs.flatten.Perm ts.runs.flatten
  bound : ∀ b, (∀ r ∈ ts.runs, b ≤ r.length) → ∀ r ∈ ts'.runs, b ≤ r.length

theorem Kept'.refl (ts : Pending) : Kept' ts ts := ⟨.refl _, fun _ h => h⟩
theorem Kept'.trans {a b c : Pending} (h1 : Kept' a b) (h2 : Kept' b c) : Kept' a c := ⟨h2.perm.trans h1.perm, fun n h => h2.bound n (h1.bound n h)⟩

theorem kept_top {x y m : List Path} {older : List (List Path)} {g g' : Int} (hm : m.Perm (y ++ x)) : Kept' ⟨x :: y :: older, g⟩ ⟨m :: older, g'⟩ where
  perm := by
    show (m ++ older.flatten).Perm (x ++ (y ++ older.flatten))
    rw [← List.append_assoc]
    exact List.Perm.append_right _ (hm.trans List.perm_append_comm)
  bound b h r hr := by
    rcases List.mem_cons.1 hr with rfl | hr
    · rw [hm.length_eq, List.length_append]
      have := h x (by simp)
      omega
    · exact h r (by simp [hr])

theorem kept_second {x y z m : List Path} {older : List (List Path)} {g g' : Int} (hm : m.Perm (z ++ y)) : Kept' ⟨x :: y :: z :: older, g⟩ ⟨x :: m :: older, g'⟩ where
  perm := by
    show (x ++ (m ++ older.flatten)).Perm (x ++ (y ++ (z ++ older.flatten)))
    rw [← List.append_assoc y]
    exact List.Perm.append_left _ (List.Perm.append_right _ (hm.trans List.perm_append_comm))
  bound b h r hr := by
    rcases List.mem_cons.1 hr with rfl | hr
    · exact h r (by simp)
    rcases List.mem_cons.1 hr with rfl | hr
    · rw [hm.length_eq, List.length_append]
      have := h z (by simp)
      omega
    · exact h r (by simp [hr])

theorem mergeCollapse_fine (fuel : Nat) (ts : Pending) (hf : ts.runs.length ≤ fuel) (hne : ts.runs ≠ []) (h1 : ∀ r ∈ ts.runs, 1 ≤ r.length) (hm : ∀ x ∈ ts.runs.flatten, x ∈ l)
    (hc : Chain ((lens ts).drop 2)) : Fine l (mergeCollapse fuel ts) (fun ts' => Kept' ts ts' ∧ Chain (lens ts')) := by
  induction fuel generalizing ts with
  | zero =>
    exfalso
    exact hne (List.eq_nil_of_length_eq_zero (by omega))
  | succ fuel ih =>
    have next : ∀ ts' : Pending, Kept' ts ts' → ts'.runs.length + 1 = ts.runs.length → ts'.runs ≠ [] → Chain ((lens ts').drop 2) →
        Fine l (mergeCollapse fuel ts') (fun ts'' => Kept' ts ts'' ∧ Chain (lens ts'')) := fun ts' h2 h3 h4 h5 =>
      fine_mono (ih ts' (by omega) h4 (h2.bound 1 h1) (fun x hx => hm x (h2.perm.mem_iff.1 hx)) h5) (fun ts'' h => ⟨h2.trans h.1, h.2⟩)
    obtain ⟨runs, g⟩ := ts
    have hmem : ∀ r ∈ runs, ∀ x ∈ r, x ∈ l := fun r hr x hx => hm x (List.mem_flatten.2 ⟨r, hr, hx⟩)
    rw [mergeCollapse.eq_def]
    match runs, hne with
    | [x], _ => exact fine_pure ⟨.refl _, trivial⟩
    | [x, y], _ =>
      dsimp only
      split
      · rename_i h; exact fine_pure ⟨.refl _, h⟩
      · refine fine_bind (mergeRuns_fine (h1 y (by simp)) (h1 x (by simp)) (hmem y (by simp)) (hmem x (by simp))) (fun r hr => ?_)
        obtain ⟨m, g'⟩ := r
        exact next _ (kept_top hr) (by simp) (by simp) trivial
    | x :: y :: z :: older, _ =>
      have hc : Chain (z.length :: older.map List.length) := hc
      have top : Fine l (do
          let (m, minGallop) ← mergeRuns g y x
          mergeCollapse fuel { runs := m :: z :: older, minGallop }) (fun ts' => Kept' ⟨x :: y :: z :: older, g⟩ ts' ∧ Chain (lens ts')) := by
        refine fine_bind (mergeRuns_fine (h1 y (by simp)) (h1 x (by simp)) (hmem y (by simp)) (hmem x (by simp))) (fun r hr => ?_)
        obtain ⟨m, g'⟩ := r
        exact next _ (kept_top hr) (by simp) (by simp) hc.tail
      dsimp only
      split
      · split
        · refine fine_bind (mergeRuns_fine (h1 z (by simp)) (h1 y (by simp)) (hmem z (by simp)) (hmem y (by simp))) (fun r hr => ?_)
          obtain ⟨m, g'⟩ := r
          exact next _ (kept_second hr) (by simp) (by simp) hc.tail
        · exact top
      · rename_i hno
        split
        · rename_i hxy
          refine fine_pure ⟨.refl _, ?_⟩
          show Chain (x.length :: y.length :: z.length :: older.map List.length)
          cases older with
          | nil => exact ⟨hxy, by simp [deeperTest] at hno; omega, by show y.length < z.length; simp [deeperTest] at hno; omega⟩
          | cons w older =>
            simp only [deeperTest, decide_eq_true_eq, not_or] at hno
            exact ⟨hxy, by omega, by show y.length < z.length; omega, by omega, hc⟩
        · exact top

theorem mergeForceCollapse_fine (fuel : Nat) (ts : Pending) (hf : ts.runs.length ≤ fuel) (hne : ts.runs ≠ []) (h1 : ∀ r ∈ ts.runs, 1 ≤ r.length) (hm : ∀ x ∈ ts.runs.flatten, x ∈ l) :
    Fine l (mergeForceCollapse fuel ts) (fun ts' => Kept' ts ts' ∧ ts'.runs.length = 1) := by
  induction fuel generalizing ts with
  | zero =>
    exfalso
    exact hne (List.eq_nil_of_length_eq_zero (by omega))
  | succ fuel ih =>
    have next : ∀ ts' : Pending, Kept' ts ts' → ts'.runs.length + 1 = ts.runs.length → ts'.runs ≠ [] →
        Fine l (mergeForceCollapse fuel ts') (fun ts'' => Kept' ts ts'' ∧ ts''.runs.length = 1) := fun ts' h2 h3 h4 =>
      fine_mono (ih ts' (by omega) h4 (h2.bound 1 h1) (fun x hx => hm x (h2.perm.mem_iff.1 hx))) (fun ts'' h => ⟨h2.trans h.1, h.2⟩)
    obtain ⟨runs, g⟩ := ts
    have hmem : ∀ r ∈ runs, ∀ x ∈ r, x ∈ l := fun r hr x hx => hm x (List.mem_flatten.2 ⟨r, hr, hx⟩)
    rw [mergeForceCollapse.eq_def]
    match runs, hne with
    | [x], _ => exact fine_pure ⟨.refl _, rfl⟩
    | [x, y], _ =>
      refine fine_bind (mergeRuns_fine (h1 y (by simp)) (h1 x (by simp)) (hmem y (by simp)) (hmem x (by simp))) (fun r hr => ?_)
      obtain ⟨m, g'⟩ := r
      exact next _ (kept_top hr) (by simp) (by simp)
    | x :: y :: z :: older, _ =>
      dsimp only
      split
      · refine fine_bind (mergeRuns_fine (h1 z (by simp)) (h1 y (by simp)) (hmem z (by simp)) (hmem y (by simp))) (fun r hr => ?_)
        obtain ⟨m, g'⟩ := r
        exact next _ (kept_second hr) (by simp) (by simp)
      · refine fine_bind (mergeRuns_fine (h1 y (by simp)) (h1 x (by simp)) (hmem y (by simp)) (hmem x (by simp))) (fun r hr => ?_)
        obtain ⟨m, g'⟩ := r
        exact next _ (kept_top hr) (by simp) (by simp)

/-- The least lengths of pending runs that are at least 16 long. -/
def least : Nat → Nat
  | 0 => 16
  | 1 => 17
  | n + 2 => least n + least (n + 1) + 1

/-- The least sum of the lengths of `n` pending runs. -/
def leastSum : Nat → Nat
  | 0 => 0
  | n + 1 => leastSum n + least n

theorem chain_least {L : List Nat} (n : Nat) {a b : Nat} (hc : Chain (a :: b :: L)) (ha : least n ≤ a) (hb : least (n + 1) ≤ b) (k : Nat) (hk : k ≤ L.length) :
    leastSum (n + 2 + k) ≤ leastSum n + (a + b + (L.take k).sum) := by
  induction k generalizing L n a b with
  | zero => simp [leastSum]; omega
  | succ k ih =>
    cases L with
    | nil => simp at hk
    | cons z L =>
      have h1 := hc.2.1
      have h2 := ih (n + 1) hc.tail hb (by show least n + least (n + 1) + 1 ≤ z; omega) (by simpa using hk)
      rw [show n + 2 + (k + 1) = n + 1 + 2 + k by omega]
      simp only [List.take_succ_cons, List.sum_cons]
      have : leastSum (n + 1) = leastSum n + least n := rfl
      omega

theorem take_sum_le (L : List Nat) (k : Nat) : (L.take k).sum ≤ L.sum := by
  conv_rhs => rw [← List.take_append_drop k L, List.sum_append]
  omega

/-- The stack is large enough. -/
theorem chain_short {L : List Nat} (hc : Chain L) (h16 : ∀ x ∈ L, 16 ≤ x) {n : Nat} (hs : L.sum < n) : L.length < stackLen n := by
  have hlow : ∀ k, k ≤ L.length → 16 * k ≤ L.sum := by
    intro k hk
    have : ∀ (L : List Nat), (∀ x ∈ L, 16 ≤ x) → 16 * L.length ≤ L.sum := by
      intro L h
      induction L with
      | nil => simp
      | cons a t ih =>
        have := ih (fun x hx => h x (by simp [hx]))
        have := h a (by simp)
        simp only [List.length_cons, List.sum_cons]; omega
    have := this L h16
    omega
  have key : ∀ k, 2 ≤ k → k ≤ L.length → leastSum k ≤ L.sum := by
    intro k h2 hk
    match L, hc, h16, hk with
    | a :: b :: t, hc, h16, hk =>
      have hab : a < b := by
        cases t with
        | nil => exact hc
        | cons z t => exact hc.1
      have ha := h16 a (by simp)
      have := chain_least 0 hc (by simpa [least] using ha) (by show 17 ≤ b; omega) (k - 2) (by simp at hk; omega)
      rw [show 0 + 2 + (k - 2) = k by omega] at this
      have h3 := take_sum_le t (k - 2)
      simp only [leastSum, List.sum_cons] at this ⊢
      omega
    | [a], _, _, hk => simp at hk; omega
    | [], _, _, hk => simp at hk; omega
  unfold stackLen
  by_contra hn
  split at hn
  · have := key 5 (by omega) (by omega)
    have e : leastSum 5 = 206 := by decide
    omega
  · split at hn
    · have := key 10 (by omega) (by omega)
      have e : leastSum 10 = 2509 := by decide
      omega
    · split at hn
      · have := key 24 (by omega) (by omega)
        have e : 119151 ≤ leastSum 24 := by decide
        omega
      · split at hn
        · have := key 49 (by omega) (by omega)
          have e : 2147483647 ≤ leastSum 49 := by decide
          omega
        · have := hlow L.length (Nat.le_refl _)
          omega

theorem minRunLoop_ge (n r : Nat) (h : 16 ≤ n) : 16 ≤ minRunLoop n r := by
  rw [minRunLoop]
  split
  · exact minRunLoop_ge (n / 2) _ (by omega)
  · omega
termination_by n

theorem asks_mono {α : Type} {l l' : List Path} {r : SortRun α} (h : AsksAbout l r) (hl : ∀ x ∈ l, x ∈ l') : AsksAbout l' r := by
  induction h with
  | done => exact .done
  | fail => exact .fail
  | ask h1 h2 _ ih => exact .ask (hl _ h1) (hl _ h2) ih

theorem descLoop_longer {last : Path} {run rest : List Path} {r : List Path × List Path} (h : MayReturn (descLoop last run rest) r) : run.length ≤ r.1.length := by
  induction rest generalizing last run with
  | nil => rw [descLoop, mayReturn_pure] at h; subst h; exact Nat.le_refl _
  | cons x rest ih =>
    rw [descLoop] at h
    obtain ⟨n, _, h⟩ := mayReturn_bind h
    split at h
    · have := ih h; simp only [List.length_cons] at this; omega
    · rw [mayReturn_pure] at h; subst h; exact Nat.le_refl _

theorem ascLoop_longer {last : Path} {run rest : List Path} {r : List Path × List Path} (h : MayReturn (ascLoop last run rest) r) : run.length ≤ r.1.length := by
  induction rest generalizing last run with
  | nil => rw [ascLoop, mayReturn_pure] at h; subst h; simp
  | cons x rest ih =>
    rw [ascLoop] at h
    obtain ⟨n, _, h⟩ := mayReturn_bind h
    split at h
    · have := ih h; simp only [List.length_cons] at this; omega
    · rw [mayReturn_pure] at h; subst h; simp

theorem countRun_nonempty {rest : List Path} (hne : rest ≠ []) {r : List Path × List Path} (h : MayReturn (countRun rest) r) : 1 ≤ r.1.length := by
  match rest, hne with
  | [a], _ => rw [countRun, mayReturn_pure] at h; subst h; simp
  | a :: b :: t, _ =>
    rw [countRun] at h
    obtain ⟨n, _, h⟩ := mayReturn_bind h
    split at h
    · have := descLoop_longer h; simp only [List.length_cons] at this; omega
    · have := ascLoop_longer h; simp only [List.length_cons] at this; omega

theorem countRun_fine {rest : List Path} (hne : rest ≠ []) (hm : ∀ x ∈ rest, x ∈ l) : Fine l (countRun rest) (fun r => (r.1 ++ r.2).Perm rest ∧ 1 ≤ r.1.length) :=
  ⟨asks_mono (countRun_asks rest) hm, fun _ hr => ⟨countRun_perm hr, countRun_nonempty hne hr⟩⟩

theorem binarySort_fine {run more : List Path} (h1 : ∀ x ∈ run, x ∈ l) (h2 : ∀ x ∈ more, x ∈ l) : Fine l (binarySort run more) (fun r => r.Perm (run ++ more)) :=
  ⟨binarySort_asks h1 h2, fun _ hr => binarySort_perm hr⟩

theorem pushRun_fine {size : Nat} {run : List Path} {ts : Pending} (h : ts.runs.length < size) : Fine l (pushRun size run ts) (fun ts' => ts' = { ts with runs := run :: ts.runs }) := by
  unfold pushRun
  rw [if_pos h]
  exact fine_pure rfl

theorem lens_sum (ts : Pending) : (lens ts).sum = ts.runs.flatten.length := by
  rw [lens, List.length_flatten]

theorem sortLoop_fine {minRun n : Nat} (hmin : 16 ≤ minRun) (fuel : Nat) (rest : List Path) (ts : Pending) (hf : rest.length ≤ fuel) (hne : rest ≠ [])
    (hn : ts.runs.flatten.length + rest.length = n) (hc : Chain (lens ts)) (h16 : ∀ r ∈ ts.runs, 16 ≤ r.length) (hm : ∀ x ∈ ts.runs.flatten ++ rest, x ∈ l) :
    Fine l (sortLoop minRun (stackLen n) fuel rest ts) (fun ts' => ts'.runs.flatten.Perm (ts.runs.flatten ++ rest) ∧ ts'.runs ≠ [] ∧ ∀ r ∈ ts'.runs, 1 ≤ r.length) := by
  induction fuel generalizing rest ts with
  | zero =>
    exfalso
    exact hne (List.eq_nil_of_length_eq_zero (by omega))
  | succ fuel ih =>
    have hpos : 1 ≤ rest.length := by
      cases rest with
      | nil => exact absurd rfl hne
      | cons a t => simp
    rw [sortLoop]
    refine fine_bind (countRun_fine hne (fun x hx => hm x (by simp [hx]))) (fun r hr => ?_)
    obtain ⟨run, after⟩ := r
    obtain ⟨hp, hr1⟩ := hr
    dsimp only at hp hr1 ⊢
    have hlen := hp.length_eq
    rw [List.length_append] at hlen
    -- what happens after the run has been found and perhaps extended
    have go : ∀ run after : List Path, (run ++ after).Perm rest → 1 ≤ run.length → (after.length ≠ 0 → 16 ≤ run.length) →
        Fine l (do
          let ts ← pushRun (stackLen n) run ts
          let ts ← mergeCollapse ts.runs.length ts
          if after.length ≠ 0 then sortLoop minRun (stackLen n) fuel after ts else return ts)
          (fun ts' => ts'.runs.flatten.Perm (ts.runs.flatten ++ rest) ∧ ts'.runs ≠ [] ∧ ∀ r ∈ ts'.runs, 1 ≤ r.length) := by
      intro run after hp h1 h2
      have hlen := hp.length_eq
      rw [List.length_append] at hlen
      refine fine_bind (pushRun_fine ?_) (fun ts1 hts1 => ?_)
      · have := chain_short hc (fun x hx => by
          obtain ⟨r, hr, rfl⟩ := List.mem_map.1 hx
          exact h16 r hr) (n := n) (by rw [lens_sum]; omega)
        simpa [lens] using this
      · subst hts1
        have hall : ∀ x ∈ (run :: ts.runs).flatten, x ∈ l := by
          intro x hx
          simp only [List.flatten_cons, List.mem_append] at hx
          rcases hx with hx | hx
          · exact hm x (by rw [List.mem_append]; exact .inr (hp.mem_iff.1 (by simp [hx])))
          · exact hm x (by rw [List.mem_append]; exact .inl hx)
        refine fine_bind (mergeCollapse_fine _ _ (Nat.le_refl _) (by simp) (fun r hr => ?_) hall ?_) (fun ts2 hts2 => ?_)
        · rcases List.mem_cons.1 hr with rfl | hr
          · exact h1
          · have := h16 r hr; omega
        · show Chain ((lens ts).drop 1)
          cases h : lens ts with
          | nil => trivial
          | cons a t => rw [h] at hc; exact hc.tail
        · obtain ⟨hk, hch⟩ := hts2
          have hperm : ts2.runs.flatten.Perm (run ++ ts.runs.flatten) := hk.perm
          have hfl := hperm.length_eq
          rw [List.length_append] at hfl
          split
          · rename_i ha
            have h16' : ∀ r ∈ ts2.runs, 16 ≤ r.length := hk.bound 16 (fun r hr => by
              rcases List.mem_cons.1 hr with rfl | hr
              · exact h2 ha
              · exact h16 r hr)
            have htot : (ts2.runs.flatten ++ after).Perm (ts.runs.flatten ++ rest) := by
              refine (List.Perm.append_right _ hperm).trans ?_
              refine (List.Perm.append_right _ List.perm_append_comm).trans ?_
              rw [List.append_assoc]
              exact List.Perm.append_left _ hp
            refine fine_mono (ih after ts2 (by omega) (fun h => ha (by rw [h]; rfl)) (by omega) hch h16' (fun x hx => hm x (htot.mem_iff.1 hx))) (fun ts3 h3 => ⟨h3.1.trans htot, h3.2⟩)
          · rename_i ha
            have ha : after = [] := List.eq_nil_of_length_eq_zero (by omega)
            subst ha
            rw [List.append_nil] at hp
            refine fine_pure ⟨hperm.trans (List.perm_append_comm.trans (List.Perm.append_left _ hp)), ?_, ?_⟩
            · intro e
              rw [e] at hfl
              simp only [List.flatten_nil, List.length_nil] at hfl
              omega
            · refine hk.bound 1 (fun r hr => ?_)
              rcases List.mem_cons.1 hr with rfl | hr
              · exact h1
              · have := h16 r hr; omega
    split
    · rename_i hshort
      refine fine_bind (binarySort_fine (fun x hx => ?_) (fun x hx => ?_)) (fun run' hrun' => ?_)
      · exact hm x (by rw [List.mem_append]; exact .inr (hp.mem_iff.1 (by simp [hx])))
      · exact hm x (by rw [List.mem_append]; exact .inr (hp.mem_iff.1 (by simp [List.mem_of_mem_take hx])))
      · have hl' := hrun'.length_eq
        rw [List.length_append, List.length_take] at hl'
        refine go run' (after.drop ((if rest.length ≤ minRun then rest.length else minRun) - run.length)) ?_ (by omega) ?_
        · refine (List.Perm.append_right _ hrun').trans ?_
          rw [List.append_assoc, List.take_append_drop]
          exact hp
        · rw [List.length_drop]
          intro h
          split at h <;> split at hl' <;> omega
    · exact go run after hp hr1 (fun _ => by omega)

theorem big_fine {l : List Path} (h : 32 ≤ l.length) : Fine l (big l) (fun l' => l'.Perm l) := by
  unfold big
  refine fine_bind (sortLoop_fine (minRunLoop_ge l.length 0 (by omega)) _ _ _ (Nat.le_refl _) (fun e => by rw [e] at h; simp at h) (by simp) trivial (by simp) (by simp)) (fun ts hts => ?_)
  obtain ⟨h1, h2, h3⟩ := hts
  have h1 : ts.runs.flatten.Perm l := by simpa using h1
  refine fine_bind (mergeForceCollapse_fine _ _ (Nat.le_refl _) h2 h3 (fun x hx => h1.mem_iff.1 hx)) (fun ts' hts' => ?_)
  obtain ⟨hk, hl⟩ := hts'
  obtain ⟨runs, g⟩ := ts'
  match runs, hl with
  | [l'], _ =>
    refine fine_pure ?_
    have := hk.perm.trans h1
    simpa using this

end Tim
end Spec
end JFTP
