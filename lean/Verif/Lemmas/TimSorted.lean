import Verif.Lemmas.TimSort
import Verif.Lemmas.Cmp

/-
`TimSort` sorts, if the comparator obeys its contract.
-/

namespace JFTP
namespace Spec
namespace Tim
open TimSort

/-! ### With a comparator that obeys its contract -/

/-- With the comparator `c` the run does not complain, and what it returns satisfies `P` (if it does not access arrays outside of their bounds, see `Fine`). -/
def Meets (c : Cmp) {α : Type} (P : α → Prop) : SortRun α → Prop
  | .done x => P x
  | .fail => False
  | .crash => True
  | .ask a b next => Meets c P (next (c a b))

variable {c : Cmp}

theorem meets_pure {α : Type} {P : α → Prop} {a : α} (h : P a) : Meets c P (pure a) := h
theorem meets_crash {α : Type} {P : α → Prop} : Meets c P (.crash : SortRun α) := trivial

theorem meets_bind' {α β : Type} {P : α → Prop} {Q : β → Prop} {r : SortRun α} {f : α → SortRun β} (h : Meets c P r) (hf : ∀ x, MayReturn r x → P x → Meets c Q (f x)) : Meets c Q (r >>= f) := by
  rw [SortRun.bind_def]
  induction r with
  | done a => exact hf a .done h
  | fail => exact h
  | crash => trivial
  | ask a b next ih => exact ih _ h (fun x hx => hf x (.ask hx))

theorem meets_bind {α β : Type} {P : α → Prop} {Q : β → Prop} {r : SortRun α} {f : α → SortRun β} (h : Meets c P r) (hf : ∀ x, P x → Meets c Q (f x)) : Meets c Q (r >>= f) :=
  meets_bind' h (fun x _ hx => hf x hx)

theorem meets_mono {α : Type} {P Q : α → Prop} {r : SortRun α} (h : Meets c P r) (hq : ∀ x, P x → Q x) : Meets c Q r := by
  induction r with
  | done a => exact hq a h
  | fail => exact h
  | crash => trivial
  | ask a b next ih => exact ih _ h

theorem meets_compare {a b : Path} : Meets c (fun r => r = c a b) (SortRun.compare a b) := rfl

theorem meets_read {l : List Path} {i : Nat} : Meets c (fun x => l[i]? = some x) (SortRun.read l i) := by
  unfold SortRun.read
  cases h : l[i]? with
  | none => trivial
  | some x => exact rfl

theorem meets_of_returns {α : Type} {P : α → Prop} {r : SortRun α} {x : α} (h : Returns c r x) (hp : P x) : Meets c P r := by
  induction h with
  | done => exact hp
  | ask _ ih => exact ih hp

theorem returns_of_meets {α : Type} {P : α → Prop} {l : List Path} {r : SortRun α} (ha : AsksAbout l r) (h : Meets c P r) : ∃ x, Returns c r x ∧ P x := by
  induction ha with
  | done => exact ⟨_, .done, h⟩
  | fail => exact absurd h id
  | ask _ _ _ ih =>
    obtain ⟨x, h1, h2⟩ := ih _ h
    exact ⟨x, .ask h1, h2⟩

/-! ### Sorted lists, and lists that agree up to the order of unequal elements -/

/-- Sorted. -/
def Srt (c : Cmp) (l : List Path) : Prop := l.Pairwise (fun a b => c a b ≤ 0)

/-- Equal elements occur in the same order. -/
def Same (c : Cmp) (l l' : List Path) : Prop := ∀ x, l.filter (fun y => c x y = 0) = l'.filter (fun y => c x y = 0)

theorem Same.refl (l : List Path) : Same c l l := fun _ => rfl
theorem Same.symm {l l' : List Path} (h : Same c l l') : Same c l' l := fun x => (h x).symm
theorem Same.trans {l l' l'' : List Path} (h : Same c l l') (h' : Same c l' l'') : Same c l l'' := fun x => (h x).trans (h' x)
theorem Same.append {a a' b b' : List Path} (h : Same c a a') (h' : Same c b b') : Same c (a ++ b) (a' ++ b') := fun x => by
  rw [List.filter_append, List.filter_append, h x, h' x]

theorem gt_iff (hc : LawfulCmp c) {a b : Path} : 0 < c a b ↔ c b a < 0 := by
  have := hc.antisymm a b
  have := hc.antisymm b a
  omega

theorem ge_iff (hc : LawfulCmp c) {a b : Path} : 0 ≤ c a b ↔ c b a ≤ 0 := by
  have := hc.antisymm a b
  have := hc.antisymm b a
  omega

theorem same_swap (hc : LawfulCmp c) {a b : List Path} (h : ∀ x ∈ a, ∀ y ∈ b, c y x < 0) : Same c (a ++ b) (b ++ a) := by
  intro z
  rw [List.filter_append, List.filter_append]
  by_cases ha : a.filter (fun y => c z y = 0) = []
  · rw [ha, List.nil_append, List.append_nil]
  · have hb : b.filter (fun y => c z y = 0) = [] := by
      rw [List.filter_eq_nil_iff]
      intro y hy hzy
      simp only [decide_eq_true_eq] at hzy
      refine ha (List.filter_eq_nil_iff.2 (fun x hx hzx => ?_))
      simp only [decide_eq_true_eq] at hzx
      have := h x hx y hy
      have h1 : c y z ≤ 0 := (ge_iff hc).1 (by omega)
      have h3 : c x z ≤ 0 := (ge_iff hc).1 (by omega)
      have := hc.trans x z y h3 (by omega)
      have := (gt_iff hc).2 (h x hx y hy)
      omega
    rw [hb, List.nil_append, List.append_nil]

/-! ### Galloping -/

/-- Does the key belong after the element with index `j`? -/
def aboveAt (c : Cmp) (above : Int → Bool) (key : Path) (run : List Path) (j : Nat) : Bool :=
  match run[j]? with
  | some y => above (c key y)
  | none => false

variable {above : Int → Bool} {key : Path} {run : List Path}

theorem search_meets (hmono : ∀ i j, i ≤ j → aboveAt c above key run j = true → aboveAt c above key run i = true) (fuel lo hi : Nat) (h1 : lo ≤ hi) (h2 : ∀ j, j < lo → aboveAt c above key run j = true)
    (h3 : ∀ j, hi ≤ j → aboveAt c above key run j = false) :
    Meets c (fun i => (∀ j, j < i → aboveAt c above key run j = true) ∧ ∀ j, i ≤ j → aboveAt c above key run j = false) (search key run above fuel lo hi) := by
  induction fuel generalizing lo hi with
  | zero => trivial
  | succ fuel ih =>
    unfold search
    split
    · refine meets_bind meets_read (fun x hx => meets_bind meets_compare (fun r hr => ?_))
      subst hr
      have hx' : aboveAt c above key run (lo + (hi - lo) / 2) = above (c key x) := by unfold aboveAt; rw [hx]
      split
      · rename_i ha
        refine ih _ _ (by omega) (fun j hj => hmono j _ (Nat.le_of_lt_succ hj) (by rw [hx', ha])) h3
      · rename_i ha
        refine ih _ _ (by omega) h2 (fun j hj => ?_)
        by_contra hn
        rw [Bool.not_eq_false] at hn
        have := hmono _ _ hj hn
        rw [hx'] at this
        exact ha this
    · have : lo = hi := by omega
      subst this
      exact meets_pure ⟨h2, h3⟩

theorem double_meets {index : Nat → Nat} {go : Int → Bool} {maxOfs : Nat} {P : Nat → Prop} (hp : ∀ ofs x, ofs < maxOfs → run[index ofs]? = some x → go (c key x) = true → P ofs)
    (fuel lastOfs ofs : Nat) (h0 : P lastOfs) (h1 : lastOfs < ofs) (h2 : lastOfs < maxOfs) :
    Meets c (fun r => P r.1 ∧ r.1 < r.2 ∧ r.2 ≤ maxOfs ∧ (r.2 = maxOfs ∨ ∃ x, run[index r.2]? = some x ∧ go (c key x) = false)) (double key run index go maxOfs fuel lastOfs ofs) := by
  induction fuel generalizing lastOfs ofs with
  | zero => trivial
  | succ fuel ih =>
    unfold double
    split
    · rename_i hlt
      refine meets_bind meets_read (fun x hx => meets_bind meets_compare (fun r hr => ?_))
      subst hr
      split
      · rename_i hg
        exact ih ofs (ofs * 2 + 1) (hp ofs x hlt hx hg) (by omega) hlt
      · rename_i hg
        exact meets_pure ⟨h0, h1, by omega, .inr ⟨x, hx, by simpa using hg⟩⟩
    · exact meets_pure ⟨h0, h2, Nat.le_refl _, .inl rfl⟩

theorem gallop_meets' (hmono : ∀ i j, i ≤ j → aboveAt c above key run j = true → aboveAt c above key run i = true) (hint : Nat) :
    Meets c (fun i => (∀ j, j < i → aboveAt c above key run j = true) ∧ ∀ j, i ≤ j → aboveAt c above key run j = false) (gallop above key run hint) := by
  have hnone : ∀ j, run.length ≤ j → aboveAt c above key run j = false := fun j hj => by unfold aboveAt; rw [List.getElem?_eq_none hj]
  have hanti : ∀ i j, i ≤ j → aboveAt c above key run i = false → aboveAt c above key run j = false := fun i j hij h => by
    by_contra hn
    rw [Bool.not_eq_false] at hn
    rw [hmono i j hij hn] at h; cases h
  unfold gallop
  refine meets_bind meets_read (fun x hx => meets_bind meets_compare (fun r hr => ?_))
  subst hr
  have hlt : hint < run.length := by
    by_contra hn
    rw [List.getElem?_eq_none (by omega)] at hx; cases hx
  have hx' : aboveAt c above key run hint = above (c key x) := by unfold aboveAt; rw [hx]
  split
  · rename_i ha
    refine meets_bind (double_meets (P := fun ofs => aboveAt c above key run (hint + ofs) = true) (fun ofs y _ hy hg => by unfold aboveAt; rw [hy]; exact hg) _ 0 1 (by rw [Nat.add_zero, hx', ha]) (by omega) (by omega)) (fun p hp => ?_)
    obtain ⟨a, b⟩ := p
    obtain ⟨g1, g2, g3, g4⟩ := hp
    dsimp only at g1 g2 g3 g4 ⊢
    refine search_meets hmono _ _ _ (by omega) (fun j hj => hmono j _ (by omega) g1) (fun j hj => ?_)
    rcases g4 with g4 | ⟨y, hy, g4⟩
    · exact hnone j (by omega)
    · exact hanti (hint + b) j (by omega) (by unfold aboveAt; rw [hy]; exact g4)
  · rename_i ha
    refine meets_bind (double_meets (P := fun ofs => aboveAt c above key run (hint - ofs) = false) (fun ofs y _ hy hg => by unfold aboveAt; rw [hy]; simpa using hg) _ 0 1 (by rw [Nat.sub_zero, hx']; simpa using ha) (by omega) (by omega)) (fun p hp => ?_)
    obtain ⟨a, b⟩ := p
    obtain ⟨g1, g2, g3, g4⟩ := hp
    dsimp only at g1 g2 g3 g4 ⊢
    refine search_meets hmono _ _ _ (by omega) (fun j hj => ?_) (fun j hj => hanti _ j hj g1)
    rcases g4 with g4 | ⟨y, hy, g4⟩
    · omega
    · exact hmono j (hint - b) (by omega) (by unfold aboveAt; rw [hy]; simpa using g4)

/-- Galloping finds the position. -/
theorem gallop_meets (hc : LawfulCmp c) (hs : Srt c run) (hmono : ∀ a b, c a b ≤ 0 → above (c key b) = true → above (c key a) = true) (hint : Nat) :
    Meets c (fun i => (∀ y ∈ run.take i, above (c key y) = true) ∧ ∀ y ∈ run.drop i, above (c key y) = false) (gallop above key run hint) := by
  refine meets_mono (gallop_meets' ?_ hint) (fun i hi => ⟨fun y hy => ?_, fun y hy => ?_⟩)
  · intro i j hij h
    unfold aboveAt at h ⊢
    split at h
    · rename_i y hy
      obtain ⟨hj, rfl⟩ := List.getElem?_eq_some_iff.1 hy
      rw [List.getElem?_eq_getElem (by omega : i < run.length)]
      refine hmono _ _ ?_ h
      rcases Nat.lt_or_eq_of_le hij with hlt | rfl
      · exact List.pairwise_iff_getElem.1 hs i j (by omega) hj hlt
      · have := hc.antisymm run[i] run[i]; omega
    · cases h
  · obtain ⟨j, hj, rfl⟩ := List.mem_take_iff_getElem.1 hy
    have := hi.1 j (by omega)
    unfold aboveAt at this
    rw [List.getElem?_eq_getElem (by omega : j < run.length)] at this
    exact this
  · obtain ⟨j, hj, rfl⟩ := List.mem_drop_iff_getElem.1 hy
    have := hi.2 (i + j) (by omega)
    unfold aboveAt at this
    rw [List.getElem?_eq_getElem (by omega : i + j < run.length)] at this
    exact this

/-- `gallopLeft`: the elements before the position are smaller than the key, the others are not. -/
theorem gallopLeft_meets (hc : LawfulCmp c) (hs : Srt c run) (hint : Nat) :
    Meets c (fun i => (∀ y ∈ run.take i, c y key < 0) ∧ ∀ y ∈ run.drop i, c key y ≤ 0) (gallopLeft key run hint) := by
  refine meets_mono (gallop_meets hc hs (fun a b hab h => ?_) hint) (fun i hi => ⟨fun y hy => ?_, fun y hy => ?_⟩)
  · simp only [decide_eq_true_eq] at h ⊢
    exact (gt_iff hc).2 (hc.lt_of_le_of_lt hab ((gt_iff hc).1 h))
  · have := hi.1 y hy
    simp only [decide_eq_true_eq] at this
    exact (gt_iff hc).1 this
  · have := hi.2 y hy
    simp only [decide_eq_false_iff_not] at this
    omega

/-- `gallopRight`: the elements before the position are not greater than the key, the others are greater. -/
theorem gallopRight_meets (hc : LawfulCmp c) (hs : Srt c run) (hint : Nat) :
    Meets c (fun i => (∀ y ∈ run.take i, c y key ≤ 0) ∧ ∀ y ∈ run.drop i, c key y < 0) (gallopRight key run hint) := by
  refine meets_mono (gallop_meets hc hs (fun a b hab h => ?_) hint) (fun i hi => ⟨fun y hy => ?_, fun y hy => ?_⟩)
  · simp only [decide_eq_true_eq] at h ⊢
    exact (ge_iff hc).2 (hc.trans _ _ _ hab ((ge_iff hc).1 h))
  · have := hi.1 y hy
    simp only [decide_eq_true_eq] at this
    exact (ge_iff hc).1 this
  · have := hi.2 y hy
    simp only [decide_eq_false_iff_not] at this
    omega

/-! ### Merging -/

/-- The invariant of `mergeLo`: everything moved is in place, equal elements are in their order, and the last element of the first run is greater than all of the second. -/
structure CoreLo (c : Cmp) (orig out run1 run2 : List Path) : Prop where
  out_sorted : Srt c out
  out_below : ∀ a ∈ out, ∀ b ∈ run1 ++ run2, c a b ≤ 0
  sorted1 : Srt c run1
  sorted2 : Srt c run2
  same : Same c (out ++ (run1 ++ run2)) orig
  last : ∃ init m, run1 = init ++ [m] ∧ ∀ y ∈ run2, c y m < 0

theorem CoreLo.move2 (hc : LawfulCmp c) {orig out run1 b run2 : List Path} (h : CoreLo c orig out run1 (b ++ run2)) (hb : ∀ y ∈ b, ∀ x ∈ run1, c y x < 0) : CoreLo c orig (out ++ b) run1 run2 where
  out_sorted := List.pairwise_append.2 ⟨h.out_sorted, (List.pairwise_append.1 h.sorted2).1, fun x hx y hy => h.out_below x hx y (by simp [hy])⟩
  out_below x hx y hy := by
    rcases List.mem_append.1 hx with hx | hx
    · refine h.out_below x hx y ?_
      rcases List.mem_append.1 hy with hy | hy <;> simp [hy]
    · rcases List.mem_append.1 hy with hy | hy
      · have := hb x hx y hy; omega
      · exact (List.pairwise_append.1 h.sorted2).2.2 x hx y hy
  sorted1 := h.sorted1
  sorted2 := (List.pairwise_append.1 h.sorted2).2.1
  same := by
    refine Same.trans ?_ h.same
    rw [List.append_assoc]
    refine Same.append (.refl _) ?_
    rw [← List.append_assoc, ← List.append_assoc]
    exact Same.append (same_swap hc (fun x hx y hy => hb y hy x hx)).symm (.refl _)
  last := by
    obtain ⟨i, m, h1, h2⟩ := h.last
    exact ⟨i, m, h1, fun y hy => h2 y (by simp [hy])⟩

theorem CoreLo.move1 {orig out a run1 run2 : List Path} (h : CoreLo c orig out (a ++ run1) run2) (hne : run1 ≠ []) (ha : ∀ x ∈ a, ∀ y ∈ run2, c x y ≤ 0) : CoreLo c orig (out ++ a) run1 run2 where
  out_sorted := List.pairwise_append.2 ⟨h.out_sorted, (List.pairwise_append.1 h.sorted1).1, fun x hx y hy => h.out_below x hx y (by simp [hy])⟩
  out_below x hx y hy := by
    rcases List.mem_append.1 hx with hx | hx
    · refine h.out_below x hx y ?_
      rcases List.mem_append.1 hy with hy | hy <;> simp [hy]
    · rcases List.mem_append.1 hy with hy | hy
      · exact (List.pairwise_append.1 h.sorted1).2.2 x hx y hy
      · exact ha x hx y hy
  sorted1 := (List.pairwise_append.1 h.sorted1).2.1
  sorted2 := h.sorted2
  same := by
    refine Same.trans ?_ h.same
    simp only [List.append_assoc]
    exact .refl _
  last := by
    obtain ⟨i, m, h1, h2⟩ := h.last
    rcases List.eq_nil_or_concat run1 with rfl | ⟨r, z, rfl⟩
    · exact absurd rfl hne
    · rw [List.concat_eq_append, ← List.append_assoc] at h1
      have := List.append_inj_right' h1 rfl
      exact ⟨r, z, List.concat_eq_append, by rw [show z = m by simpa using this]; exact h2⟩

/-- What is true after a round of a merge. -/
def Round (Inv : Merging → Prop) (Stop : Merging → Prop) (r : Merging × Nat × Nat × Bool) : Prop := (r.2.2.2 = false → Inv r.1) ∧ (r.2.2.2 = true → Stop r.1)

theorem mergeLoop_meets {Inv Stop : Merging → Prop} {step : Merging → Nat → Nat → SortRun (Merging × Nat × Nat × Bool)} {gallop : Merging → SortRun (Merging × Nat × Nat × Bool)}
    (hl : ∀ s, Inv s → ∀ n, Inv { s with minGallop := n }) (hs : ∀ s c1 c2, Inv s → Meets c (Round Inv Stop) (step s c1 c2)) (hg : ∀ s, Inv s → Meets c (Round Inv Stop) (gallop s))
    (fuel : Nat) (b : Bool) (s : Merging) (c1 c2 : Nat) (hi : Inv s) : Meets c Stop (mergeLoop step gallop fuel b s c1 c2) := by
  induction fuel generalizing b s c1 c2 with
  | zero => trivial
  | succ fuel ih =>
    cases b with
    | false =>
      rw [mergeLoop]
      refine meets_bind (hs s c1 c2 hi) (fun r hr => ?_)
      obtain ⟨s', d1, d2, stop⟩ := r
      cases stop with
      | true => exact meets_pure (hr.2 rfl)
      | false => exact ih _ s' d1 d2 (hr.1 rfl)
    | true =>
      rw [mergeLoop]
      refine meets_bind (hg s hi) (fun r hr => ?_)
      obtain ⟨s', d1, d2, stop⟩ := r
      cases stop with
      | true => exact meets_pure (hr.2 rfl)
      | false =>
        simp only [Bool.false_eq_true, if_false]
        split
        · exact ih _ s' 0 0 (hr.1 rfl)
        · exact ih _ _ 0 0 (hl _ (hr.1 rfl) _)

def MergeLo (c : Cmp) (orig : List Path) (s : Merging) : Prop := CoreLo c orig s.out s.run1 s.run2 ∧ 2 ≤ s.run1.length ∧ 1 ≤ s.run2.length
def StopLo (c : Cmp) (orig : List Path) (s : Merging) : Prop := CoreLo c orig s.out s.run1 s.run2 ∧ (s.run2 = [] ∨ s.run1.length = 1)

theorem le_of_first (hs : Srt c run) {x : Path} (hx : run[0]? = some x) (hc : LawfulCmp c) : ∀ y ∈ run, c x y ≤ 0 := by
  have := drop_one_of_get hx
  rw [this] at hs
  intro y hy
  rw [this] at hy
  rcases List.mem_cons.1 hy with rfl | hy
  · have := hc.antisymm y y; omega
  · exact (List.pairwise_cons.1 hs).1 y hy

theorem le_of_last (hs : Srt c run) {x : Path} (hx : run[run.length - 1]? = some x) (hc : LawfulCmp c) : ∀ y ∈ run, c y x ≤ 0 := by
  have := take_last_of_get hx
  intro y hy
  rw [this] at hs hy
  rcases List.mem_append.1 hy with hy | hy
  · exact (List.pairwise_append.1 hs).2.2 y hy x (by simp)
  · rw [List.mem_singleton.1 hy]
    have := hc.antisymm x x; omega

variable {orig : List Path}

theorem stepLo_meets (hc : LawfulCmp c) {s : Merging} {c1 c2 : Nat} (hi : MergeLo c orig s) : Meets c (Round (MergeLo c orig) (StopLo c orig)) (stepLo s c1 c2) := by
  obtain ⟨h, h1, h2⟩ := hi
  obtain ⟨out, run1, run2, mg⟩ := s
  dsimp only at h h1 h2
  unfold stepLo
  dsimp only
  refine meets_bind meets_read (fun y hy => meets_bind meets_read (fun x hx => meets_bind meets_compare (fun r hr => ?_)))
  subst hr
  have hx' := le_of_first h.sorted1 hx hc
  have hy' := le_of_first h.sorted2 hy hc
  have ey := drop_one_of_get hy
  have ex := drop_one_of_get hx
  obtain ⟨r2, hr2⟩ : ∃ r2, run2.drop 1 = r2 := ⟨_, rfl⟩
  obtain ⟨r1, hr1⟩ : ∃ r1, run1.drop 1 = r1 := ⟨_, rfl⟩
  simp only [hr1, hr2] at ey ex ⊢
  split
  · rename_i hlt
    subst ey
    have := CoreLo.move2 hc (b := [y]) h (fun z hz w hw => by rw [List.mem_singleton.1 hz]; exact hc.lt_of_lt_of_le hlt (hx' w hw))
    refine meets_pure ⟨fun hf => ⟨this, h1, ?_⟩, fun ht => ⟨this, .inl ?_⟩⟩
    · simp only [decide_eq_false_iff_not] at hf; dsimp only; omega
    · simp only [decide_eq_true_eq] at ht; exact List.eq_nil_of_length_eq_zero ht
  · rename_i hge
    subst ex
    simp only [List.length_cons] at h1
    have hne : r1 ≠ [] := fun e => by rw [e] at h1; simp at h1
    have := CoreLo.move1 (a := [x]) h hne (fun z hz w hw => by
      rw [List.mem_singleton.1 hz]
      exact hc.trans _ _ _ ((ge_iff hc).1 (by omega)) (hy' w hw))
    refine meets_pure ⟨fun hf => ⟨this, ?_, h2⟩, fun ht => ⟨this, .inr ?_⟩⟩
    · simp only [decide_eq_false_iff_not] at hf; dsimp only; omega
    · simpa using ht

theorem gallopLo_meets (hc : LawfulCmp c) {s : Merging} (hi : MergeLo c orig s) : Meets c (Round (MergeLo c orig) (StopLo c orig)) (gallopLo s) := by
  obtain ⟨h, h1, h2⟩ := hi
  obtain ⟨out, run1, run2, mg⟩ := s
  dsimp only at h h1 h2
  unfold gallopLo
  dsimp only
  refine meets_bind meets_read (fun y hy => ?_)
  have hy' := le_of_first h.sorted2 hy hc
  have ey := drop_one_of_get hy
  obtain ⟨r2, hr2⟩ : ∃ r2, run2.drop 1 = r2 := ⟨_, rfl⟩
  simp only [hr2] at ey ⊢
  subst ey
  refine meets_bind (gallopRight_meets hc h.sorted1 0) (fun k1 hk1 => ?_)
  -- the last element of the first run stays
  have hb1 : run1.drop k1 ≠ [] := by
    obtain ⟨i, m, e, hm⟩ := h.last
    intro hnil
    have hmem : m ∈ run1.take k1 := by
      have := List.take_append_drop k1 run1
      rw [hnil, List.append_nil] at this
      rw [this, e]; simp
    have := hk1.1 m hmem
    have := (gt_iff hc).2 (hm y (by simp))
    omega
  have e1 := (List.take_append_drop k1 run1).symm
  obtain ⟨a1, ha1⟩ : ∃ a1, run1.take k1 = a1 := ⟨_, rfl⟩
  obtain ⟨b1, hb1'⟩ : ∃ b1, run1.drop k1 = b1 := ⟨_, rfl⟩
  simp only [ha1, hb1'] at e1 hb1 hk1 ⊢
  subst e1
  have s1 := CoreLo.move1 h hb1 (fun x hx z hz => hc.trans _ _ _ (hk1.1 x hx) (hy' z hz))
  have hb1len : 1 ≤ b1.length := by
    cases b1 with
    | nil => exact absurd rfl hb1
    | cons _ _ => simp
  split
  · exact meets_pure ⟨fun hf => (by cases hf), fun _ => ⟨s1, .inr (by dsimp only; omega)⟩⟩
  · rename_i hn1
    have s2 := CoreLo.move2 hc (b := [y]) (run2 := r2) s1 (fun z hz w hw => by rw [List.mem_singleton.1 hz]; exact hk1.2 w hw)
    split
    · rename_i hz; exact meets_pure ⟨fun hf => (by cases hf), fun _ => ⟨s2, .inl (List.eq_nil_of_length_eq_zero hz)⟩⟩
    · rename_i hn2
      have hb2 : 2 ≤ b1.length := by
        by_cases hk : k1 = 0
        · rw [List.length_append] at h1
          have : a1.length = 0 := by rw [← ha1, hk]; simp
          omega
        · omega
      refine meets_bind meets_read (fun x hx => ?_)
      have hx' := le_of_first s2.sorted1 hx hc
      have ex := drop_one_of_get hx
      obtain ⟨b1', hb1''⟩ : ∃ b1', b1.drop 1 = b1' := ⟨_, rfl⟩
      simp only [hb1''] at ex ⊢
      refine meets_bind (gallopLeft_meets hc s2.sorted2 0) (fun k2 hk2 => ?_)
      have e2 := (List.take_append_drop k2 r2).symm
      obtain ⟨a2, ha2⟩ : ∃ a2, r2.take k2 = a2 := ⟨_, rfl⟩
      obtain ⟨b2, hb2'⟩ : ∃ b2, r2.drop k2 = b2 := ⟨_, rfl⟩
      simp only [ha2, hb2'] at e2 hk2 ⊢
      subst e2
      have s3 := CoreLo.move2 hc s2 (fun z hz w hw => hc.lt_of_lt_of_le (hk2.1 z hz) (hx' w hw))
      split
      · rename_i hz; exact meets_pure ⟨fun hf => (by cases hf), fun _ => ⟨s3, .inl (List.eq_nil_of_length_eq_zero hz.2)⟩⟩
      · rename_i hn3
        have hl2 : 1 ≤ b2.length := by
          by_cases hk : k2 = 0
          · rw [List.length_append] at hn2
            have : a2.length = 0 := by rw [← ha2, hk]; simp
            omega
          · omega
        subst ex
        simp only [List.length_cons] at hb2
        have s4 := CoreLo.move1 (a := [x]) s3 (fun e => by rw [e] at hb2; simp at hb2) (fun z hz w hw => by rw [List.mem_singleton.1 hz]; exact hk2.2 w hw)
        split
        · rename_i hz; exact meets_pure ⟨fun hf => (by cases hf), fun _ => ⟨s4, .inr hz⟩⟩
        · rename_i hz; exact meets_pure ⟨fun _ => ⟨s4, by dsimp only; omega, hl2⟩, fun hf => (by cases hf)⟩

theorem finishLo_meets (hc : LawfulCmp c) {s : Merging} (h : StopLo c orig s) : Meets c (fun r => Srt c r.1 ∧ Same c r.1 orig) (finishLo s) := by
  obtain ⟨h, hstop⟩ := h
  obtain ⟨i, m, e, hm⟩ := h.last
  have hl : 1 ≤ s.run1.length := by rw [e]; simp
  unfold finishLo
  dsimp only
  split
  · rename_i h1
    have hi : i = [] := List.eq_nil_of_length_eq_zero (by rw [e] at h1; simpa using h1)
    have := CoreLo.move2 hc (b := s.run2) (run2 := []) (by rw [List.append_nil]; exact h) (fun y hy x hx => by
      rw [e, hi] at hx
      have hx : x = m := by simpa using hx
      rw [hx]; exact hm y hy)
    refine meets_pure ⟨?_, ?_⟩
    · exact List.pairwise_append.2 ⟨this.out_sorted, this.sorted1, fun x hx y hy => this.out_below x hx y (by simp [hy])⟩
    · have := this.same
      rwa [List.append_nil] at this
  · rename_i h1
    split
    · omega
    · have h2 : s.run2 = [] := by
        rcases hstop with h2 | h2
        · exact h2
        · exact absurd h2 h1
      refine meets_pure ⟨?_, ?_⟩
      · rw [h2, List.append_nil]
        exact List.pairwise_append.2 ⟨h.out_sorted, h.sorted1, fun x hx y hy => h.out_below x hx y (by simp [hy])⟩
      · rw [List.append_assoc]; exact h.same

theorem mergeLo_meets (hc : LawfulCmp c) {mg : Int} {run1 run2 : List Path} (h1 : 1 ≤ run1.length) (s1 : Srt c run1) (s2 : Srt c run2) (hfirst : ∀ y, run2[0]? = some y → ∀ x ∈ run1, c y x < 0)
    (hlast : ∀ x, run1[run1.length - 1]? = some x → ∀ y ∈ run2, c y x < 0) : Meets c (fun r => Srt c r.1 ∧ Same c r.1 (run1 ++ run2)) (mergeLo mg run1 run2) := by
  unfold mergeLo
  refine meets_bind meets_read (fun y hy => ?_)
  have hf := hfirst y hy
  have ey := drop_one_of_get hy
  obtain ⟨r2, hr2⟩ : ∃ r2, run2.drop 1 = r2 := ⟨_, rfl⟩
  simp only [hr2] at ey ⊢
  subst ey
  have hlt : run1.length - 1 < run1.length := by omega
  have hcore : CoreLo c (run1 ++ y :: r2) [] run1 ([y] ++ r2) := by
    refine ⟨.nil, by simp, s1, s2, .refl _, ?_⟩
    have hg := List.getElem?_eq_getElem hlt
    exact ⟨_, _, take_last_of_get hg, hlast _ hg⟩
  have h0 := CoreLo.move2 hc hcore (fun z hz w hw => by rw [List.mem_singleton.1 hz]; exact hf w hw)
  rw [List.nil_append] at h0
  have fin : ∀ s : Merging, StopLo c (run1 ++ y :: r2) s → Meets c (fun r => Srt c r.1 ∧ Same c r.1 (run1 ++ y :: r2)) (finishLo s) := fun s hs => finishLo_meets hc hs
  split
  · rename_i hz
    have hz : r2 = [] := List.eq_nil_of_length_eq_zero hz
    subst hz
    refine meets_pure ⟨List.pairwise_append.2 ⟨h0.out_sorted, h0.sorted1, fun x hx y hy => h0.out_below x hx y (by simp [hy])⟩, ?_⟩
    have := h0.same
    rwa [List.append_nil] at this
  · rename_i hn2
    split
    · rename_i hz
      have := fin ⟨[y], run1, r2, 1⟩ ⟨h0, .inr hz⟩
      unfold finishLo at this
      simp only [hz] at this
      exact this
    · rename_i hn1
      refine meets_bind (mergeLoop_meets (Inv := MergeLo c (run1 ++ y :: r2)) (Stop := StopLo c (run1 ++ y :: r2)) (fun s hs n => hs) (fun s c1 c2 => stepLo_meets hc) (fun s => gallopLo_meets hc) _ _ _ _ _
        ⟨h0, by dsimp only; omega, by dsimp only; omega⟩) fin

/-- The invariant of `mergeHi`: the first element of the second run is smaller than all of the first. -/
structure CoreHi (c : Cmp) (orig out run1 run2 : List Path) : Prop where
  out_sorted : Srt c out
  out_above : ∀ a ∈ out, ∀ b ∈ run1 ++ run2, c b a ≤ 0
  sorted1 : Srt c run1
  sorted2 : Srt c run2
  same : Same c ((run1 ++ run2) ++ out) orig
  first : ∃ f t, run2 = f :: t ∧ ∀ x ∈ run1, c f x < 0

theorem CoreHi.move1 (hc : LawfulCmp c) {orig out run1 a run2 : List Path} (h : CoreHi c orig out (run1 ++ a) run2) (ha : ∀ x ∈ a, ∀ y ∈ run2, c y x < 0) : CoreHi c orig (a ++ out) run1 run2 where
  out_sorted := List.pairwise_append.2 ⟨(List.pairwise_append.1 h.sorted1).2.1, h.out_sorted, fun x hx y hy => h.out_above y hy x (by simp [hx])⟩
  out_above x hx y hy := by
    rcases List.mem_append.1 hx with hx | hx
    · rcases List.mem_append.1 hy with hy | hy
      · exact (List.pairwise_append.1 h.sorted1).2.2 y hy x hx
      · have := ha x hx y hy; omega
    · refine h.out_above x hx y ?_
      rcases List.mem_append.1 hy with hy | hy <;> simp [hy]
  sorted1 := (List.pairwise_append.1 h.sorted1).1
  sorted2 := h.sorted2
  same := by
    refine Same.trans ?_ h.same
    rw [← List.append_assoc]
    refine Same.append ?_ (.refl _)
    rw [List.append_assoc, List.append_assoc]
    exact Same.append (.refl _) (same_swap hc ha).symm
  first := by
    obtain ⟨f, t, h1, h2⟩ := h.first
    exact ⟨f, t, h1, fun x hx => h2 x (by simp [hx])⟩

theorem CoreHi.move2 {orig out run1 run2 b : List Path} (h : CoreHi c orig out run1 (run2 ++ b)) (hne : run2 ≠ []) (hb : ∀ y ∈ b, ∀ x ∈ run1, c x y ≤ 0) : CoreHi c orig (b ++ out) run1 run2 where
  out_sorted := List.pairwise_append.2 ⟨(List.pairwise_append.1 h.sorted2).2.1, h.out_sorted, fun x hx y hy => h.out_above y hy x (by simp [hx])⟩
  out_above x hx y hy := by
    rcases List.mem_append.1 hx with hx | hx
    · rcases List.mem_append.1 hy with hy | hy
      · exact hb x hx y hy
      · exact (List.pairwise_append.1 h.sorted2).2.2 y hy x hx
    · refine h.out_above x hx y ?_
      rcases List.mem_append.1 hy with hy | hy <;> simp [hy]
  sorted1 := h.sorted1
  sorted2 := (List.pairwise_append.1 h.sorted2).1
  same := by
    refine Same.trans ?_ h.same
    simp only [List.append_assoc]
    exact .refl _
  first := by
    obtain ⟨f, t, h1, h2⟩ := h.first
    cases run2 with
    | nil => exact absurd rfl hne
    | cons f' t' =>
      injection h1 with h1 h3
      exact ⟨f', t', rfl, by rw [h1]; exact h2⟩

def MergeHi (c : Cmp) (orig : List Path) (s : Merging) : Prop := CoreHi c orig s.out s.run1 s.run2 ∧ 1 ≤ s.run1.length ∧ 2 ≤ s.run2.length
def StopHi (c : Cmp) (orig : List Path) (s : Merging) : Prop := CoreHi c orig s.out s.run1 s.run2 ∧ (s.run1 = [] ∨ s.run2.length = 1)

theorem stepHi_meets (hc : LawfulCmp c) {s : Merging} {c1 c2 : Nat} (hi : MergeHi c orig s) : Meets c (Round (MergeHi c orig) (StopHi c orig)) (stepHi s c1 c2) := by
  obtain ⟨h, h1, h2⟩ := hi
  obtain ⟨out, run1, run2, mg⟩ := s
  dsimp only at h h1 h2
  unfold stepHi
  dsimp only
  refine meets_bind meets_read (fun y hy => meets_bind meets_read (fun x hx => meets_bind meets_compare (fun r hr => ?_)))
  subst hr
  have hx' := le_of_last h.sorted1 hx hc
  have hy' := le_of_last h.sorted2 hy hc
  have ey := take_last_of_get hy
  have ex := take_last_of_get hx
  obtain ⟨r2, hr2⟩ : ∃ r2, run2.take (run2.length - 1) = r2 := ⟨_, rfl⟩
  obtain ⟨r1, hr1⟩ : ∃ r1, run1.take (run1.length - 1) = r1 := ⟨_, rfl⟩
  simp only [hr1, hr2] at ey ex ⊢
  split
  · rename_i hlt
    have := CoreHi.move1 hc (a := [x]) (run1 := r1) (by rw [← ex]; exact h) (fun z hz w hw => by rw [List.mem_singleton.1 hz]; exact hc.lt_of_le_of_lt (hy' w hw) hlt)
    refine meets_pure ⟨fun hf => ⟨this, ?_, h2⟩, fun ht => ⟨this, .inl ?_⟩⟩
    · simp only [decide_eq_false_iff_not] at hf; dsimp only; omega
    · simp only [decide_eq_true_eq] at ht; exact List.eq_nil_of_length_eq_zero ht
  · rename_i hge
    have hl : run2.length = r2.length + 1 := by rw [ey]; simp
    have hne : r2 ≠ [] := fun e => by rw [e] at hl; simp at hl; omega
    have := CoreHi.move2 (b := [y]) (run2 := r2) (by rw [← ey]; exact h) hne (fun z hz w hw => by
      rw [List.mem_singleton.1 hz]
      exact hc.trans _ _ _ (hx' w hw) ((ge_iff hc).1 (by omega)))
    refine meets_pure ⟨fun hf => ⟨this, h1, ?_⟩, fun ht => ⟨this, .inr ?_⟩⟩
    · simp only [decide_eq_false_iff_not] at hf; dsimp only; omega
    · simpa using ht

theorem gallopHi_meets (hc : LawfulCmp c) {s : Merging} (hi : MergeHi c orig s) : Meets c (Round (MergeHi c orig) (StopHi c orig)) (gallopHi s) := by
  obtain ⟨h, h1, h2⟩ := hi
  obtain ⟨out, run1, run2, mg⟩ := s
  dsimp only at h h1 h2
  unfold gallopHi
  dsimp only
  refine meets_bind meets_read (fun y hy => ?_)
  have hy' := le_of_last h.sorted2 hy hc
  have ey := take_last_of_get hy
  obtain ⟨r2, hr2⟩ : ∃ r2, run2.take (run2.length - 1) = r2 := ⟨_, rfl⟩
  simp only [hr2] at ey ⊢
  have hl2 : run2.length = r2.length + 1 := by rw [ey]; simp
  refine meets_bind (gallopRight_meets hc h.sorted1 _) (fun k1 hk1 => ?_)
  have e1 := (List.take_append_drop k1 run1).symm
  obtain ⟨a1, ha1⟩ : ∃ a1, run1.take k1 = a1 := ⟨_, rfl⟩
  obtain ⟨b1, hb1⟩ : ∃ b1, run1.drop k1 = b1 := ⟨_, rfl⟩
  simp only [ha1, hb1] at e1 hk1 ⊢
  have hlen1 : run1.length = a1.length + b1.length := by rw [e1, List.length_append]
  have hblen : b1.length = run1.length - k1 := by rw [← hb1, List.length_drop]
  have s1 := CoreHi.move1 hc (run1 := a1) (a := b1) (by rw [← e1]; exact h) (fun x hx z hz => hc.lt_of_le_of_lt (hy' z hz) (hk1.2 x hx))
  split
  · rename_i hz; exact meets_pure ⟨fun hf => (by cases hf), fun _ => ⟨s1, .inl (List.eq_nil_of_length_eq_zero hz.2)⟩⟩
  · rename_i hn1
    have hne2 : r2 ≠ [] := fun e => by rw [e] at hl2; simp at hl2; omega
    have s2 := CoreHi.move2 (b := [y]) (run2 := r2) (by rw [← ey]; exact s1) hne2 (fun z hz w hw => by rw [List.mem_singleton.1 hz]; exact hk1.1 w hw)
    split
    · rename_i hz; exact meets_pure ⟨fun hf => (by cases hf), fun _ => ⟨s2, .inr hz⟩⟩
    · rename_i hn2
      refine meets_bind meets_read (fun x hx => ?_)
      have hx' := le_of_last s2.sorted1 hx hc
      have ex := take_last_of_get hx
      obtain ⟨a1', ha1'⟩ : ∃ a1', a1.take (a1.length - 1) = a1' := ⟨_, rfl⟩
      simp only [ha1'] at ex ⊢
      refine meets_bind (gallopLeft_meets hc s2.sorted2 _) (fun k2 hk2 => ?_)
      -- the first element of the second run stays
      have hb2 : r2.take k2 ≠ [] := by
        obtain ⟨f, t, e, hf⟩ := s2.first
        intro hnil
        have hmem : f ∈ r2.drop k2 := by
          have := List.take_append_drop k2 r2
          rw [hnil, List.nil_append] at this
          rw [this, e]; simp
        have := hk2.2 f hmem
        have := (gt_iff hc).2 (hf x (by rw [ex]; simp))
        omega
      have e2 := (List.take_append_drop k2 r2).symm
      obtain ⟨a2, ha2⟩ : ∃ a2, r2.take k2 = a2 := ⟨_, rfl⟩
      obtain ⟨b2, hb2'⟩ : ∃ b2, r2.drop k2 = b2 := ⟨_, rfl⟩
      simp only [ha2, hb2'] at e2 hk2 hb2 ⊢
      have hl2' : r2.length = a2.length + b2.length := by rw [e2, List.length_append]
      have hblen2 : b2.length = r2.length - k2 := by rw [← hb2', List.length_drop]
      have ha2len : 1 ≤ a2.length := by
        cases a2 with
        | nil => exact absurd rfl hb2
        | cons _ _ => simp
      have s3 := CoreHi.move2 (run2 := a2) (b := b2) (by rw [← e2]; exact s2) hb2 (fun z hz w hw => hc.trans _ _ _ (hx' w hw) (hk2.2 z hz))
      split
      · rename_i hz; exact meets_pure ⟨fun hf => (by cases hf), fun _ => ⟨s3, .inr (by dsimp only; omega)⟩⟩
      · rename_i hn3
        have s4 := CoreHi.move1 hc (run1 := a1') (a := [x]) (by rw [← ex]; exact s3) (fun z hz w hw => by rw [List.mem_singleton.1 hz]; exact hk2.1 w hw)
        split
        · rename_i hz; exact meets_pure ⟨fun hf => (by cases hf), fun _ => ⟨s4, .inl (List.eq_nil_of_length_eq_zero hz)⟩⟩
        · rename_i hz; exact meets_pure ⟨fun _ => ⟨s4, by dsimp only; omega, by dsimp only; omega⟩, fun hf => (by cases hf)⟩

theorem finishHi_meets (hc : LawfulCmp c) {s : Merging} (h : StopHi c orig s) : Meets c (fun r => Srt c r.1 ∧ Same c r.1 orig) (finishHi s) := by
  obtain ⟨h, hstop⟩ := h
  obtain ⟨f, t, e, hf⟩ := h.first
  have hl : 1 ≤ s.run2.length := by rw [e]; simp
  unfold finishHi
  dsimp only
  split
  · rename_i h2
    have ht : t = [] := List.eq_nil_of_length_eq_zero (by rw [e] at h2; simpa using h2)
    have := CoreHi.move1 hc (run1 := []) (a := s.run1) (by rw [List.nil_append]; exact h) (fun x hx y hy => by
      rw [e, ht] at hy
      have hy : y = f := by simpa using hy
      rw [hy]; exact hf x hx)
    refine meets_pure ⟨?_, ?_⟩
    · dsimp only
      rw [List.append_assoc]
      exact List.pairwise_append.2 ⟨this.sorted2, this.out_sorted, fun x hx y hy => this.out_above y hy x (by simp [hx])⟩
    · have := this.same
      rwa [List.nil_append, ← List.append_assoc] at this
  · rename_i h2
    split
    · omega
    · have h1 : s.run1 = [] := by
        rcases hstop with h1 | h1
        · exact h1
        · exact absurd h1 h2
      refine meets_pure ⟨?_, h.same⟩
      rw [h1, List.nil_append]
      exact List.pairwise_append.2 ⟨h.sorted2, h.out_sorted, fun x hx y hy => h.out_above y hy x (by simp [hx])⟩

theorem mergeHi_meets (hc : LawfulCmp c) {mg : Int} {run1 run2 : List Path} (h2 : 1 ≤ run2.length) (s1 : Srt c run1) (s2 : Srt c run2) (hfirst : ∀ y, run2[0]? = some y → ∀ x ∈ run1, c y x < 0)
    (hlast : ∀ x, run1[run1.length - 1]? = some x → ∀ y ∈ run2, c y x < 0) : Meets c (fun r => Srt c r.1 ∧ Same c r.1 (run1 ++ run2)) (mergeHi mg run1 run2) := by
  unfold mergeHi
  refine meets_bind meets_read (fun x hx => ?_)
  have hlx := hlast x hx
  have ex := take_last_of_get hx
  obtain ⟨r1, hr1⟩ : ∃ r1, run1.take (run1.length - 1) = r1 := ⟨_, rfl⟩
  simp only [hr1] at ex ⊢
  have hcore : CoreHi c (run1 ++ run2) [] (r1 ++ [x]) run2 := by
    rw [← ex]
    refine ⟨.nil, by simp, s1, s2, by rw [List.append_nil]; exact .refl _, ?_⟩
    have hg := List.getElem?_eq_getElem (l := run2) (i := 0) (by omega)
    exact ⟨_, _, drop_one_of_get hg, hfirst _ hg⟩
  have h0 := CoreHi.move1 hc hcore (fun z hz w hw => by rw [List.mem_singleton.1 hz]; exact hlx w hw)
  rw [List.append_nil] at h0
  have fin : ∀ s : Merging, StopHi c (run1 ++ run2) s → Meets c (fun r => Srt c r.1 ∧ Same c r.1 (run1 ++ run2)) (finishHi s) := fun s hs => finishHi_meets hc hs
  split
  · rename_i hz
    have hz : r1 = [] := List.eq_nil_of_length_eq_zero hz
    rw [hz] at h0
    refine meets_pure ⟨List.pairwise_append.2 ⟨h0.sorted2, h0.out_sorted, fun x hx y hy => h0.out_above y hy x (by simp [hx])⟩, ?_⟩
    have := h0.same
    rwa [List.nil_append] at this
  · rename_i hn1
    split
    · rename_i hz
      have := fin ⟨[x], r1, run2, 1⟩ ⟨h0, .inr hz⟩
      unfold finishHi at this
      simp only [hz] at this
      exact this
    · rename_i hn2
      refine meets_bind (mergeLoop_meets (Inv := MergeHi c (run1 ++ run2)) (Stop := StopHi c (run1 ++ run2)) (fun s hs n => hs) (fun s c1 c2 => stepHi_meets hc) (fun s => gallopHi_meets hc) _ _ _ _ _
        ⟨h0, by dsimp only; omega, by dsimp only; omega⟩) fin

theorem sorted_append (hc : LawfulCmp c) {a b : List Path} (ha : Srt c a) (hb : Srt c b) (h : ∀ x ∈ a, ∀ y, b[0]? = some y → c x y ≤ 0) : Srt c (a ++ b) := by
  refine List.pairwise_append.2 ⟨ha, hb, fun x hx y hy => ?_⟩
  cases b with
  | nil => cases hy
  | cons z t => exact hc.trans _ _ _ (h x hx z rfl) (le_of_first hb rfl hc y hy)

theorem mergeRuns_meets (hc : LawfulCmp c) {mg : Int} {run1 run2 : List Path} (s1 : Srt c run1) (s2 : Srt c run2) :
    Meets c (fun r => Srt c r.1 ∧ Same c r.1 (run1 ++ run2)) (mergeRuns mg run1 run2) := by
  unfold mergeRuns
  refine meets_bind meets_read (fun f hf => meets_bind (gallopRight_meets hc s1 0) (fun k hk => ?_))
  have hfirst := le_of_first s2 hf hc
  split
  · rename_i hz
    refine meets_pure ⟨sorted_append hc s1 s2 (fun x hx y hy => ?_), .refl _⟩
    rw [hf] at hy; cases hy
    exact hk.1 x (by rw [List.take_of_length_le (by omega)]; exact hx)
  · rename_i hz
    refine meets_bind meets_read (fun m hm => ?_)
    have hml : (run1.drop k)[(run1.drop k).length - 1]? = some m := by rw [List.length_drop]; exact hm
    have hd : Srt c (run1.drop k) := s1.sublist (List.drop_sublist _ _)
    have ht : Srt c (run1.take k) := s1.sublist (List.take_sublist _ _)
    have hlast := le_of_last hd hml hc
    refine meets_bind (gallopLeft_meets hc s2 _) (fun k2 hk2 => ?_)
    have ht2 : Srt c (run2.take k2) := s2.sublist (List.take_sublist _ _)
    have hd2 : Srt c (run2.drop k2) := s2.sublist (List.drop_sublist _ _)
    have hle1 : ∀ x ∈ run1, c x m ≤ 0 := le_of_last s1 (by
      rw [← hm, List.getElem?_drop]; congr 1; omega) hc
    split
    · rename_i hz2
      refine meets_pure ⟨?_, .refl _⟩
      refine sorted_append hc s1 s2 (fun x hx y hy => hc.trans _ _ _ (hle1 x hx) (hk2.2 y ?_))
      rw [hz2, List.drop_zero]
      exact List.mem_of_getElem? hy
    · rename_i hz2
      have hf' : ∀ y, (run2.take k2)[0]? = some y → ∀ x ∈ run1.drop k, c y x < 0 := by
        intro y hy x hx
        rw [List.getElem?_take_of_lt (by omega)] at hy
        rw [hf] at hy; cases hy
        exact hk.2 x hx
      have hl' : ∀ x, (run1.drop k)[(run1.drop k).length - 1]? = some x → ∀ y ∈ run2.take k2, c y x < 0 := by
        intro x hx y hy
        rw [hml] at hx; cases hx
        exact hk2.1 y hy
      have hlen1 : 1 ≤ (run1.drop k).length := by rw [List.length_drop]; omega
      have hlen2 : 1 ≤ (run2.take k2).length := by
        have : 0 < run2.length := by
          by_contra hn
          rw [List.getElem?_eq_none (by omega)] at hf; cases hf
        rw [List.length_take]; omega
      have fin : ∀ r : List Path × Int, Srt c r.1 ∧ Same c r.1 (run1.drop k ++ run2.take k2) →
          Meets c (fun r => Srt c r.1 ∧ Same c r.1 (run1 ++ run2)) (pure (run1.take k ++ r.1 ++ run2.drop k2, r.2) : SortRun (List Path × Int)) := by
        intro r hr
        have hmem : ∀ x ∈ r.1, x ∈ run1.drop k ++ run2.take k2 := by
          intro x hx
          have := hr.2 x
          have hxx : c x x = 0 := by have := hc.antisymm x x; omega
          have hx2 : x ∈ r.1.filter (fun y => c x y = 0) := by simp [hx, hxx]
          rw [this] at hx2
          exact (List.mem_filter.1 hx2).1
        refine meets_pure ⟨?_, ?_⟩
        · refine List.pairwise_append.2 ⟨List.pairwise_append.2 ⟨ht, hr.1, fun x hx y hy => ?_⟩, hd2, fun x hx y hy => ?_⟩
          · have hxf := hk.1 x hx
            rcases List.mem_append.1 (hmem y hy) with h | h
            · have := hk.2 y h; exact hc.trans _ _ _ hxf (by omega)
            · exact hc.trans _ _ _ hxf (hfirst y (List.mem_of_mem_take h))
          · have hmy := hk2.2 y hy
            rcases List.mem_append.1 hx with h | h
            · exact hc.trans _ _ _ (hle1 x (List.mem_of_mem_take h)) hmy
            · rcases List.mem_append.1 (hmem x h) with h | h
              · exact hc.trans _ _ _ (hlast x h) hmy
              · have := hk2.1 x h; exact hc.trans _ _ _ (by omega) hmy
        · have e : run1 ++ run2 = run1.take k ++ (run1.drop k ++ run2.take k2) ++ run2.drop k2 := by
            conv_lhs => rw [← List.take_append_drop k run1, ← List.take_append_drop k2 run2]
            simp only [List.append_assoc]
          rw [e]
          exact Same.append (Same.append (.refl _) hr.2) (.refl _)
      dsimp only
      split
      · exact meets_bind (mergeLo_meets hc hlen1 hd ht2 hf' hl') fin
      · exact meets_bind (mergeHi_meets hc hlen2 hd ht2 hf' hl') fin

/-! ### The stack -/

/-- The pending runs, in the order of the array. -/
def cat (ts : Pending) : List Path := ts.runs.reverse.flatten

/-- The pending runs are sorted, and together have the equal elements in the order of `orig`. -/
def Runs (c : Cmp) (orig : List Path) (ts : Pending) : Prop := (∀ r ∈ ts.runs, Srt c r) ∧ Same c (cat ts) orig

theorem cat_cons (x : List Path) (older : List (List Path)) (g : Int) : cat ⟨x :: older, g⟩ = cat ⟨older, g⟩ ++ x := by
  simp [cat]

theorem runs_top {x y m : List Path} {older : List (List Path)} {g g' : Int} (h : Runs c orig ⟨x :: y :: older, g⟩) (hm : Srt c m ∧ Same c m (y ++ x)) : Runs c orig ⟨m :: older, g'⟩ := by
  refine ⟨fun r hr => ?_, Same.trans ?_ h.2⟩
  · rcases List.mem_cons.1 hr with rfl | hr
    · exact hm.1
    · exact h.1 r (by simp [hr])
  · rw [cat_cons, cat_cons, cat_cons, List.append_assoc]
    exact Same.append (.refl _) hm.2

theorem runs_second {x y z m : List Path} {older : List (List Path)} {g g' : Int} (h : Runs c orig ⟨x :: y :: z :: older, g⟩) (hm : Srt c m ∧ Same c m (z ++ y)) : Runs c orig ⟨x :: m :: older, g'⟩ := by
  refine ⟨fun r hr => ?_, Same.trans ?_ h.2⟩
  · rcases List.mem_cons.1 hr with rfl | hr
    · exact h.1 r (by simp)
    rcases List.mem_cons.1 hr with rfl | hr
    · exact hm.1
    · exact h.1 r (by simp [hr])
  · rw [cat_cons, cat_cons, cat_cons, cat_cons, cat_cons]
    refine Same.append ?_ (.refl _)
    rw [List.append_assoc]
    exact Same.append (.refl _) hm.2

theorem mergeCollapse_meets (hc : LawfulCmp c) (fuel : Nat) (ts : Pending) (h : Runs c orig ts) : Meets c (Runs c orig) (mergeCollapse fuel ts) := by
  induction fuel generalizing ts with
  | zero => trivial
  | succ fuel ih =>
    obtain ⟨runs, g⟩ := ts
    rw [mergeCollapse.eq_def]
    match runs, h with
    | [], h => exact meets_pure h
    | [x], h => exact meets_pure h
    | [x, y], h =>
      dsimp only
      split
      · exact meets_pure h
      · exact meets_bind (mergeRuns_meets hc (h.1 y (by simp)) (h.1 x (by simp))) (fun r hr => ih _ (runs_top h hr))
    | x :: y :: z :: older, h =>
      have top := meets_bind (mergeRuns_meets (mg := g) hc (h.1 y (by simp)) (h.1 x (by simp))) (fun r hr => ih _ (runs_top (g' := r.2) h hr))
      dsimp only
      split
      · split
        · exact meets_bind (mergeRuns_meets hc (h.1 z (by simp)) (h.1 y (by simp))) (fun r hr => ih _ (runs_second h hr))
        · exact top
      · split
        · exact meets_pure h
        · exact top

theorem mergeForceCollapse_meets (hc : LawfulCmp c) (fuel : Nat) (ts : Pending) (h : Runs c orig ts) : Meets c (Runs c orig) (mergeForceCollapse fuel ts) := by
  induction fuel generalizing ts with
  | zero => trivial
  | succ fuel ih =>
    obtain ⟨runs, g⟩ := ts
    rw [mergeForceCollapse.eq_def]
    match runs, h with
    | [], h => exact meets_pure h
    | [x], h => exact meets_pure h
    | [x, y], h => exact meets_bind (mergeRuns_meets hc (h.1 y (by simp)) (h.1 x (by simp))) (fun r hr => ih _ (runs_top h hr))
    | x :: y :: z :: older, h =>
      dsimp only
      split
      · exact meets_bind (mergeRuns_meets hc (h.1 z (by simp)) (h.1 y (by simp))) (fun r hr => ih _ (runs_second h hr))
      · exact meets_bind (mergeRuns_meets hc (h.1 y (by simp)) (h.1 x (by simp))) (fun r hr => ih _ (runs_top h hr))

theorem pushRun_meets {size : Nat} {run : List Path} {ts : Pending} : Meets c (fun ts' => ts' = { ts with runs := run :: ts.runs }) (pushRun size run ts) := by
  unfold pushRun
  split
  · exact meets_pure rfl
  · trivial

theorem sortLoop_meets (hc : LawfulCmp c) (minRun size fuel : Nat) (rest : List Path) (ts : Pending) (h1 : ∀ r ∈ ts.runs, Srt c r) (h2 : Same c (cat ts ++ rest) orig) :
    Meets c (Runs c orig) (sortLoop minRun size fuel rest ts) := by
  induction fuel generalizing rest ts with
  | zero => trivial
  | succ fuel ih =>
    rw [sortLoop]
    have hcount : Meets c (fun r : List Path × List Path => Srt c r.1 ∧ Same c (r.1 ++ r.2) rest) (countRun rest) := by
      obtain ⟨run, after, hr, hs, hsame⟩ := countRun_returns hc rest
      exact meets_of_returns hr ⟨hs, hsame⟩
    refine meets_bind hcount (fun r hr => ?_)
    obtain ⟨run, after⟩ := r
    obtain ⟨hs, hsame⟩ := hr
    dsimp only at hs hsame ⊢
    have go : ∀ run after : List Path, Srt c run → Same c (run ++ after) rest → Meets c (Runs c orig) (do
          let ts ← pushRun size run ts
          let ts ← mergeCollapse ts.runs.length ts
          if after.length ≠ 0 then sortLoop minRun size fuel after ts else return ts) := by
      intro run after hs hsame
      refine meets_bind pushRun_meets (fun ts1 hts1 => ?_)
      subst hts1
      have hcat : cat { ts with runs := run :: ts.runs } = cat ts ++ run := cat_cons _ _ ts.minGallop
      refine meets_bind (mergeCollapse_meets (orig := cat ts ++ run) hc _ _ ⟨fun r hr => ?_, by rw [hcat]; exact .refl _⟩) (fun ts2 hts2 => ?_)
      · rcases List.mem_cons.1 hr with rfl | hr
        · exact hs
        · exact h1 r hr
      · have hall : Same c (cat ts2 ++ after) orig := by
          refine (Same.append hts2.2 (.refl _)).trans (Same.trans ?_ h2)
          rw [List.append_assoc]
          exact Same.append (.refl _) hsame
        split
        · exact ih after ts2 hts2.1 hall
        · rename_i ha
          have ha : after = [] := List.eq_nil_of_length_eq_zero (by omega)
          rw [ha, List.append_nil] at hall
          exact meets_pure ⟨hts2.1, hall⟩
    split
    · obtain ⟨run', hr', hs', hsame'⟩ := binarySort_returns hc (rest := after.take ((if rest.length ≤ minRun then rest.length else minRun) - run.length)) hs
      refine meets_bind (meets_of_returns (P := fun r => Srt c r ∧ Same c r (run ++ after.take ((if rest.length ≤ minRun then rest.length else minRun) - run.length))) hr' ⟨hs', hsame'⟩) (fun r hr => ?_)
      refine go r _ hr.1 (Same.trans (Same.append hr.2 (.refl _)) ?_)
      rw [List.append_assoc, List.take_append_drop]
      exact hsame
    · exact go run after hs hsame

theorem big_meets (hc : LawfulCmp c) (l : List Path) : Meets c (fun l' => Srt c l' ∧ Same c l' l) (big l) := by
  unfold big
  refine meets_bind (sortLoop_meets (orig := l) hc _ _ _ _ _ (by simp) (.refl _)) (fun ts hts => meets_bind (mergeForceCollapse_meets hc _ _ hts) (fun ts' hts' => ?_))
  obtain ⟨runs, g⟩ := ts'
  match runs, hts' with
  | [], _ => trivial
  | [l'], h => exact meets_pure ⟨h.1 l' (by simp), by simpa [cat] using h.2⟩
  | _ :: _ :: _, _ => trivial

end Tim

/-- The sort of the JDK for 32 elements and more meets its contract. -/
theorem big_sorts {l : List Path} (h : 32 ≤ l.length) : Sorts (TimSort.big l) l where
  permutes := (Tim.big_fine h).post
  asks := (Tim.big_fine h).asks
  sorts c hc := by
    obtain ⟨l', h1, h2, h3⟩ := Tim.returns_of_meets (Tim.big_fine h).asks (Tim.big_meets hc l)
    exact ⟨l', h1, (Tim.big_fine h).post _ (returns_mayReturn h1), h2, h3⟩

/-- The sort of the JDK meets its contract. -/
theorem sort_sorts (l : List Path) : Sorts (TimSort.sort l) l := by
  unfold TimSort.sort
  split
  · exact pure_sorts (by assumption)
  · split
    · exact small_sorts l
    · exact big_sorts (by omega)

end Spec
end JFTP
