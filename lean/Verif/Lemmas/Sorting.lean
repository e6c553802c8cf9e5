import Verif.Spec.Sorting
import Verif.Lemmas.Scan

/-
The small sort of the JDK meets its contract; stable sorting is unique.
-/

namespace JFTP
namespace Spec

/-! ### Runs -/

theorem SortRun.bind_def {α β : Type} (r : SortRun α) (f : α → SortRun β) : (r >>= f) = r.bind f := rfl

theorem mayReturn_pure {α : Type} {a x : α} : MayReturn (pure a : SortRun α) x ↔ x = a :=
  ⟨fun h => by cases h; rfl, fun h => by subst h; exact .done⟩

theorem mayReturn_bind {α β : Type} {r : SortRun α} {f : α → SortRun β} {y : β} (h : MayReturn (r >>= f) y) : ∃ x, MayReturn r x ∧ MayReturn (f x) y := by
  rw [SortRun.bind_def] at h
  induction r with
  | done a => exact ⟨a, .done, h⟩
  | fail => cases h
  | crash => cases h
  | ask a b next ih =>
    cases h with
    | ask h =>
      obtain ⟨x, h1, h2⟩ := ih _ h
      exact ⟨x, .ask h1, h2⟩

theorem asks_bind {α β : Type} {l : List Path} {r : SortRun α} {f : α → SortRun β} (h : AsksAbout l r) (hf : ∀ x, MayReturn r x → AsksAbout l (f x)) : AsksAbout l (r >>= f) := by
  rw [SortRun.bind_def]
  induction h with
  | done => exact hf _ .done
  | fail => exact .fail
  | ask h1 h2 _ ih => exact .ask h1 h2 (fun n => ih n (fun x hx => hf x (.ask hx)))

theorem returns_bind {α β : Type} {c : Cmp} {r : SortRun α} {f : α → SortRun β} {x : α} {y : β} (h : Returns c r x) (hf : Returns c (f x) y) : Returns c (r >>= f) y := by
  rw [SortRun.bind_def]
  induction h with
  | done => exact hf
  | ask _ ih => exact .ask (ih hf)

theorem returns_compare {c : Cmp} {a b : Path} : Returns c (SortRun.compare a b) (c a b) := .ask .done

theorem returns_read {c : Cmp} {l : List Path} {i : Nat} (h : i < l.length) : Returns c (SortRun.read l i) l[i] := by
  unfold SortRun.read
  rw [List.getElem?_eq_getElem h]
  exact .done

theorem asks_compare {l : List Path} {a b : Path} (ha : a ∈ l) (hb : b ∈ l) : AsksAbout l (SortRun.compare a b) := .ask ha hb (fun _ => .done)

theorem returns_mayReturn {α : Type} {c : Cmp} {r : SortRun α} {x : α} (h : Returns c r x) : MayReturn r x := by
  induction h with
  | done => exact .done
  | ask _ ih => exact .ask ih

/-- A run with a pure comparator. -/
theorem exec_of_returns {m : Type → Type} [Monad m] [LawfulMonad m] [MonadExceptOf Exn m] {α : Type} {c : Cmp} {r : SortRun α} {x : α} (h : Returns c r x) :
    r.exec (m := m) (fun a b => pure (c a b)) = pure x := by
  induction h with
  | done => rfl
  | ask _ ih => rw [SortRun.exec, pure_bind, ih]

/-! ### Stable sorting is unique -/

theorem stablySorted_unique {c : Cmp} (hc : LawfulCmp c) {l l₁ l₂ : List Path} (h₁ : StablySorted c l l₁) (h₂ : StablySorted c l l₂) : l₁ = l₂ := by
  have hrefl : ∀ a, c a a = 0 := fun a => by
    have := hc.antisymm a a
    omega
  have key : ∀ (l₁ l₂ : List Path), l₁.Pairwise (fun a b => c a b ≤ 0) → l₂.Pairwise (fun a b => c a b ≤ 0) →
      (∀ x, l₁.filter (fun y => c x y = 0) = l₂.filter (fun y => c x y = 0)) → l₁ = l₂ := by
    intro l₁
    induction l₁ with
    | nil =>
      intro l₂ _ _ hf
      cases l₂ with
      | nil => rfl
      | cons b t => have := hf b; simp [hrefl] at this
    | cons a t ih =>
      intro l₂ s₁ s₂ hf
      cases l₂ with
      | nil => have := hf a; simp [hrefl] at this
      | cons b t₂ =>
        obtain ⟨p₁, q₁⟩ := List.pairwise_cons.1 s₁
        obtain ⟨p₂, q₂⟩ := List.pairwise_cons.1 s₂
        have hab : c a b ≤ 0 := by
          have : b ∈ (a :: t).filter (fun y => c b y = 0) := by rw [hf b]; simp [hrefl]
          rcases List.mem_cons.1 (List.mem_filter.1 this).1 with h | h
          · rw [h]; simp [hrefl]
          · exact p₁ b h
        have hba : c b a ≤ 0 := by
          have : a ∈ (b :: t₂).filter (fun y => c a y = 0) := by rw [← hf a]; simp [hrefl]
          rcases List.mem_cons.1 (List.mem_filter.1 this).1 with h | h
          · rw [h]; simp [hrefl]
          · exact p₂ a h
        have h0 : c a b = 0 := by
          have := hc.antisymm a b
          have := hc.antisymm b a
          omega
        have hh := hf a
        rw [List.filter_cons_of_pos (by simp [hrefl]), List.filter_cons_of_pos (by simp [h0])] at hh
        have he : a = b := by injection hh
        subst he
        congr 1
        refine ih t₂ q₁ q₂ (fun x => ?_)
        have := hf x
        by_cases hx : c x a = 0
        · rw [List.filter_cons_of_pos (by simpa using hx), List.filter_cons_of_pos (by simpa using hx)] at this
          injection this
        · rw [List.filter_cons_of_neg (by simpa using hx), List.filter_cons_of_neg (by simpa using hx)] at this
          exact this
  exact key l₁ l₂ h₁.ascending h₂.ascending (fun x => by rw [h₁.stable, h₂.stable])

theorem streamSorted_stably {c : Cmp} (hc : LawfulCmp c) (l : List Path) : StablySorted c l (streamSorted c l) := by
  refine ⟨streamSorted_perm c l, streamSorted_sorted hc l, fun x => ?_⟩
  have hsub : (l.filter (fun y => c x y = 0)).Sublist (streamSorted c l) := by
    refine List.sublist_mergeSort (le := fun a b => decide (c a b ≤ 0)) ?_ ?_ ?_ List.filter_sublist
    · intro a b d; simpa using hc.trans a b d
    · intro a b; simpa using hc.total a b
    · refine List.pairwise_filter.2 (List.pairwise_of_forall_mem_list ?_)
      intro a _ b _ ha hb
      simp only [decide_eq_true_eq] at ha hb ⊢
      have h1 := hc.antisymm x a
      have h2 := hc.antisymm a x
      exact hc.trans a x b (by omega) (by omega)
  have h2 := hsub.filter (fun y => decide (c x y = 0))
  rw [List.filter_filter] at h2
  simp only [Bool.and_self] at h2
  exact (h2.eq_of_length (by rw [(List.Perm.filter _ (streamSorted_perm c l)).length_eq])).symm

/-! ### The small sort -/

theorem descLoop_perm {last : Path} {run rest : List Path} {r : List Path × List Path} (h : MayReturn (TimSort.descLoop last run rest) r) : (r.1 ++ r.2).Perm (run ++ rest) := by
  induction rest generalizing last run with
  | nil => rw [TimSort.descLoop, mayReturn_pure] at h; subst h; exact .refl _
  | cons x rest ih =>
    rw [TimSort.descLoop] at h
    obtain ⟨n, _, h⟩ := mayReturn_bind h
    split at h
    · refine (ih h).trans ?_
      exact List.perm_middle.symm
    · rw [mayReturn_pure] at h; subst h; exact .refl _

theorem ascLoop_perm {last : Path} {run rest : List Path} {r : List Path × List Path} (h : MayReturn (TimSort.ascLoop last run rest) r) : r.1 ++ r.2 = run.reverse ++ rest := by
  induction rest generalizing last run with
  | nil => rw [TimSort.ascLoop, mayReturn_pure] at h; subst h; rfl
  | cons x rest ih =>
    rw [TimSort.ascLoop] at h
    obtain ⟨n, _, h⟩ := mayReturn_bind h
    split at h
    · rw [ih h]; simp
    · rw [mayReturn_pure] at h; subst h; rfl

theorem countRun_perm {l : List Path} {r : List Path × List Path} (h : MayReturn (TimSort.countRun l) r) : (r.1 ++ r.2).Perm l := by
  match l with
  | [] => rw [TimSort.countRun, mayReturn_pure] at h; subst h; exact .refl _
  | [a] => rw [TimSort.countRun, mayReturn_pure] at h; subst h; exact .refl _
  | a :: b :: rest =>
    rw [TimSort.countRun] at h
    obtain ⟨n, _, h⟩ := mayReturn_bind h
    split at h
    · exact (descLoop_perm h).trans (.swap a b rest)
    · rw [ascLoop_perm h]; exact .refl _

theorem mayReturn_read {l : List Path} {i : Nat} {x : Path} (h : MayReturn (SortRun.read l i) x) : l[i]? = some x := by
  unfold SortRun.read at h
  split at h
  · rename_i y hy; cases h; exact hy
  · cases h

theorem position_le (pivot : Path) (sorted : List Path) (left right : Nat) (hl : left ≤ right) {i : Nat} (h : MayReturn (TimSort.position pivot sorted left right) i) : left ≤ i ∧ i ≤ right := by
  rw [TimSort.position] at h
  split at h
  · rename_i hlt
    dsimp only at h
    obtain ⟨x, _, h⟩ := mayReturn_bind h
    obtain ⟨n, _, h⟩ := mayReturn_bind h
    split at h
    · have := position_le pivot sorted left ((left + right) / 2) (by omega) h
      omega
    · have := position_le pivot sorted ((left + right) / 2 + 1) right (by omega) h
      omega
  · rw [mayReturn_pure] at h; omega
termination_by right - left
decreasing_by all_goals omega

theorem binarySort_perm {sorted rest l : List Path} (h : MayReturn (TimSort.binarySort sorted rest) l) : l.Perm (sorted ++ rest) := by
  induction rest generalizing sorted with
  | nil => rw [TimSort.binarySort, mayReturn_pure] at h; subst h; simp
  | cons x rest ih =>
    rw [TimSort.binarySort] at h
    obtain ⟨i, hi, h⟩ := mayReturn_bind h
    have := position_le _ _ _ _ (Nat.zero_le _) hi
    refine (ih h).trans ((List.Perm.append_right rest (List.perm_insertIdx x sorted this.2)).trans ?_)
    exact List.perm_middle.symm

theorem small_perm {l l' : List Path} (h : MayReturn (TimSort.small l) l') : l'.Perm l := by
  unfold TimSort.small at h
  obtain ⟨⟨run, rest⟩, h1, h2⟩ := mayReturn_bind h
  exact (binarySort_perm h2).trans (countRun_perm h1)

theorem descLoop_asks {l : List Path} {last : Path} {run rest : List Path} (h1 : last ∈ l) (h2 : ∀ x ∈ rest, x ∈ l) : AsksAbout l (TimSort.descLoop last run rest) := by
  induction rest generalizing last run with
  | nil => exact .done
  | cons x rest ih =>
    rw [TimSort.descLoop]
    refine asks_bind (asks_compare (h2 x (by simp)) h1) (fun n _ => ?_)
    split
    · exact ih (h2 x (by simp)) (fun y hy => h2 y (by simp [hy]))
    · exact .done

theorem ascLoop_asks {l : List Path} {last : Path} {run rest : List Path} (h1 : last ∈ l) (h2 : ∀ x ∈ rest, x ∈ l) : AsksAbout l (TimSort.ascLoop last run rest) := by
  induction rest generalizing last run with
  | nil => exact .done
  | cons x rest ih =>
    rw [TimSort.ascLoop]
    refine asks_bind (asks_compare (h2 x (by simp)) h1) (fun n _ => ?_)
    split
    · exact ih (h2 x (by simp)) (fun y hy => h2 y (by simp [hy]))
    · exact .done

theorem countRun_asks (l : List Path) : AsksAbout l (TimSort.countRun l) := by
  match l with
  | [] => exact .done
  | [a] => exact .done
  | a :: b :: rest =>
    rw [TimSort.countRun]
    refine asks_bind (asks_compare (by simp) (by simp)) (fun n _ => ?_)
    split
    · exact descLoop_asks (by simp) (fun x hx => by simp [hx])
    · exact ascLoop_asks (by simp) (fun x hx => by simp [hx])

theorem asks_read {l l' : List Path} {i : Nat} (h : i < l'.length) : AsksAbout l (SortRun.read l' i) := by
  unfold SortRun.read
  rw [List.getElem?_eq_getElem h]
  exact .done

theorem position_asks {l : List Path} (pivot : Path) (sorted : List Path) (left right : Nat) (hr : right ≤ sorted.length) (hp : pivot ∈ l) (hs : ∀ x ∈ sorted, x ∈ l) :
    AsksAbout l (TimSort.position pivot sorted left right) := by
  rw [TimSort.position]
  split
  · rename_i hlt
    dsimp only
    refine asks_bind (asks_read (by omega)) (fun x hx => ?_)
    refine asks_bind (asks_compare hp (hs x (List.mem_of_getElem? (mayReturn_read hx)))) (fun n _ => ?_)
    split
    · exact position_asks pivot sorted left _ (by omega) hp hs
    · exact position_asks pivot sorted _ right hr hp hs
  · exact .done
termination_by right - left
decreasing_by all_goals omega

theorem binarySort_asks {l : List Path} {sorted rest : List Path} (hs : ∀ x ∈ sorted, x ∈ l) (hr : ∀ x ∈ rest, x ∈ l) : AsksAbout l (TimSort.binarySort sorted rest) := by
  induction rest generalizing sorted with
  | nil => exact .done
  | cons x rest ih =>
    rw [TimSort.binarySort]
    refine asks_bind (position_asks x sorted 0 _ (Nat.le_refl _) (hr x (by simp)) hs) (fun i hi => ih ?_ (fun y hy => hr y (by simp [hy])))
    intro y hy
    have := position_le _ _ _ _ (Nat.zero_le _) hi
    rcases List.mem_cons.1 ((List.perm_insertIdx x sorted this.2).mem_iff.1 hy) with rfl | h
    · exact hr y (by simp)
    · exact hs y h

theorem small_asks (l : List Path) : AsksAbout l (TimSort.small l) := by
  unfold TimSort.small
  refine asks_bind (countRun_asks l) (fun r hr => ?_)
  have := countRun_perm hr
  exact binarySort_asks (fun x hx => this.mem_iff.1 (by simp [hx])) (fun x hx => this.mem_iff.1 (by simp [hx]))

section
variable {c : Cmp} (hc : LawfulCmp c)

include hc in
theorem descLoop_returns {last : Path} {older rest : List Path} (hs : (last :: older).Pairwise (fun a b => c a b < 0)) :
    ∃ run' rest', Returns c (TimSort.descLoop last (last :: older) rest) (run', rest') ∧ run'.Pairwise (fun a b => c a b < 0) ∧
      run'.reverse ++ rest' = (last :: older).reverse ++ rest := by
  induction rest generalizing last older with
  | nil => exact ⟨_, _, .done, hs, rfl⟩
  | cons x rest ih =>
    rw [TimSort.descLoop]
    by_cases h : c x last < 0
    · have hs' : (x :: last :: older).Pairwise (fun a b => c a b < 0) := by
        refine List.pairwise_cons.2 ⟨fun y hy => ?_, hs⟩
        rcases List.mem_cons.1 hy with rfl | hy
        · exact h
        · have h1 : c last y < 0 := (List.pairwise_cons.1 hs).1 y hy
          have h2 := hc.trans y last x
          have h3 := hc.antisymm x y
          have h4 := hc.antisymm y x
          have h5 := hc.antisymm last y
          have h6 := hc.antisymm y last
          have h7 := hc.antisymm x last
          have h8 := hc.antisymm last x
          have h9 := hc.trans last y x
          have h10 := hc.trans x last y
          by_contra hn
          have h11 := hc.trans last y x (by omega) (by omega)
          omega
      obtain ⟨run', rest', h1, h2, h3⟩ := ih hs'
      exact ⟨run', rest', returns_bind returns_compare (by rw [if_pos h]; exact h1), h2, by rw [h3]; simp⟩
    · exact ⟨_, _, returns_bind returns_compare (by rw [if_neg h]; exact .done), hs, rfl⟩

include hc in
theorem ascLoop_returns {last : Path} {older rest : List Path} (hs : (last :: older).Pairwise (fun a b => c b a ≤ 0)) :
    ∃ run' rest', Returns c (TimSort.ascLoop last (last :: older) rest) (run', rest') ∧ run'.Pairwise (fun a b => c a b ≤ 0) ∧
      run' ++ rest' = (last :: older).reverse ++ rest := by
  induction rest generalizing last older with
  | nil => exact ⟨_, _, .done, List.pairwise_reverse.2 hs, rfl⟩
  | cons x rest ih =>
    rw [TimSort.ascLoop]
    by_cases h : c x last ≥ 0
    · have h0 : c last x ≤ 0 := by
        have := hc.antisymm x last
        have := hc.antisymm last x
        omega
      have hs' : (x :: last :: older).Pairwise (fun a b => c b a ≤ 0) := by
        refine List.pairwise_cons.2 ⟨fun y hy => ?_, hs⟩
        rcases List.mem_cons.1 hy with rfl | hy
        · exact h0
        · exact hc.trans y last x ((List.pairwise_cons.1 hs).1 y hy) h0
      obtain ⟨run', rest', h1, h2, h3⟩ := ih hs'
      exact ⟨run', rest', returns_bind returns_compare (by rw [if_pos h]; exact h1), h2, by rw [h3]; simp⟩
    · exact ⟨_, _, returns_bind returns_compare (by rw [if_neg h]; exact .done), List.pairwise_reverse.2 hs, rfl⟩

/-- In a strictly ascending list at most one element compares equal to `x`. -/
theorem strict_filter {run : List Path} (hc : LawfulCmp c) (hs : run.Pairwise (fun a b => c a b < 0)) (x : Path) : (run.filter (fun y => c x y = 0)).length ≤ 1 := by
  have h : (run.filter (fun y => c x y = 0)).Pairwise (fun a b => c a b < 0) := hs.filter _
  match hl : run.filter (fun y => c x y = 0) with
  | [] => simp
  | [a] => simp
  | a :: b :: t =>
    exfalso
    rw [hl] at h
    have hab := (List.pairwise_cons.1 h).1 b (by simp)
    have ha : a ∈ run.filter (fun y => c x y = 0) := by rw [hl]; simp
    have hb : b ∈ run.filter (fun y => c x y = 0) := by rw [hl]; simp
    simp only [List.mem_filter, decide_eq_true_eq] at ha hb
    have h1 := hc.antisymm x b
    have h2 := hc.antisymm b x
    have h3 := hc.antisymm a b
    have := hc.trans b x a (by omega) (by omega)
    omega

theorem reverse_filter {run : List Path} (hc : LawfulCmp c) (hs : run.Pairwise (fun a b => c a b < 0)) (x : Path) :
    run.reverse.filter (fun y => c x y = 0) = run.filter (fun y => c x y = 0) := by
  have h := strict_filter hc hs x
  rw [List.filter_reverse]
  match hl : run.filter (fun y => c x y = 0) with
  | [] => rfl
  | [a] => rfl
  | a :: b :: t => rw [hl] at h; simp at h

include hc in
theorem countRun_returns (l : List Path) : ∃ run rest, Returns c (TimSort.countRun l) (run, rest) ∧ run.Pairwise (fun a b => c a b ≤ 0) ∧
    ∀ x, (run ++ rest).filter (fun y => c x y = 0) = l.filter (fun y => c x y = 0) := by
  match l with
  | [] => exact ⟨_, _, .done, .nil, fun _ => rfl⟩
  | [a] => exact ⟨_, _, .done, by simp, fun _ => rfl⟩
  | a :: b :: rest =>
    rw [TimSort.countRun]
    by_cases h : c b a < 0
    · obtain ⟨run', rest', h1, h2, h3⟩ := descLoop_returns hc (last := b) (older := [a]) (rest := rest) (by simpa using h)
      refine ⟨run', rest', returns_bind returns_compare (by rw [if_pos h]; exact h1), h2.imp (fun h => by omega), fun x => ?_⟩
      rw [List.filter_append, ← reverse_filter hc h2, ← List.filter_append, h3]
      rfl
    · have h0 : c a b ≤ 0 := by
        have := hc.antisymm b a
        have := hc.antisymm a b
        omega
      obtain ⟨run', rest', h1, h2, h3⟩ := ascLoop_returns hc (last := b) (older := [a]) (rest := rest) (by simpa using h0)
      exact ⟨run', rest', returns_bind returns_compare (by rw [if_neg h]; exact h1), h2, fun x => by rw [h3]; rfl⟩

/-- The position found: everything before it is not greater than the pivot, everything from it on is greater. -/
theorem position_returns (pivot : Path) (sorted : List Path) (hc : LawfulCmp c) (hs : sorted.Pairwise (fun a b => c a b ≤ 0)) (left right : Nat) (hl : left ≤ right) (hr : right ≤ sorted.length)
    (h1 : ∀ y ∈ sorted.take left, c y pivot ≤ 0) (h2 : ∀ y ∈ sorted.drop right, c pivot y < 0) :
    ∃ i, Returns c (TimSort.position pivot sorted left right) i ∧ i ≤ sorted.length ∧ (∀ y ∈ sorted.take i, c y pivot ≤ 0) ∧ ∀ y ∈ sorted.drop i, c pivot y < 0 := by
  rw [TimSort.position]
  split
  · rename_i hlt
    dsimp only
    have hm : (left + right) / 2 < sorted.length := by omega
    have hrd : Returns c (SortRun.read sorted ((left + right) / 2)) sorted[(left + right) / 2] := returns_read hm
    have hle : ∀ (i j : Nat) (hi : i < sorted.length) (hj : j < sorted.length), i ≤ j → c sorted[i] sorted[j] ≤ 0 := by
      intro i j hi hj hij
      rcases Nat.lt_or_eq_of_le hij with h | rfl
      · exact List.pairwise_iff_getElem.1 hs i j hi hj h
      · have := hc.antisymm sorted[i] sorted[i]; omega
    by_cases h : c pivot sorted[(left + right) / 2] < 0
    · obtain ⟨i, hi, h3⟩ := position_returns pivot sorted hc hs left ((left + right) / 2) (by omega) (by omega) h1 (by
        intro y hy
        obtain ⟨j, hj, rfl⟩ := List.mem_drop_iff_getElem.1 hy
        have h4 := hle ((left + right) / 2) ((left + right) / 2 + j) hm (by omega) (by omega)
        generalize sorted[(left + right) / 2 + j] = y at *
        generalize sorted[(left + right) / 2] = z at *
        have h5 := hc.antisymm pivot z
        have h6 := hc.antisymm pivot y
        have h7 := hc.antisymm y pivot
        by_contra hn
        have h8 := hc.trans z y pivot h4 (by omega)
        omega)
      exact ⟨i, returns_bind hrd (returns_bind returns_compare (by rw [if_pos h]; exact hi)), h3⟩
    · obtain ⟨i, hi, h3⟩ := position_returns pivot sorted hc hs ((left + right) / 2 + 1) right (by omega) hr (by
        intro y hy
        obtain ⟨j, hj, rfl⟩ := List.mem_take_iff_getElem.1 hy
        have h4 := hle j ((left + right) / 2) (by omega) hm (by omega)
        generalize sorted[j] = y at *
        generalize sorted[(left + right) / 2] = z at *
        have h5 := hc.antisymm pivot z
        have h6 := hc.antisymm z pivot
        exact hc.trans y z pivot h4 (by omega)) h2
      exact ⟨i, returns_bind hrd (returns_bind returns_compare (by rw [if_neg h]; exact hi)), h3⟩
  · have : left = right := by omega
    subst this
    exact ⟨left, .done, hr, h1, h2⟩
termination_by right - left
decreasing_by all_goals omega

theorem insertIdx_split {l : List Path} {i : Nat} {p : Path} (h : i ≤ l.length) : l.insertIdx i p = l.take i ++ p :: l.drop i := by
  induction i generalizing l with
  | zero => simp
  | succ i ih =>
    cases l with
    | nil => simp at h
    | cons a l => simp [List.insertIdx_succ_cons, ih (by simpa using h)]

include hc in
theorem binarySort_returns {sorted rest : List Path} (hs : sorted.Pairwise (fun a b => c a b ≤ 0)) :
    ∃ l, Returns c (TimSort.binarySort sorted rest) l ∧ l.Pairwise (fun a b => c a b ≤ 0) ∧ ∀ x, l.filter (fun y => c x y = 0) = (sorted ++ rest).filter (fun y => c x y = 0) := by
  induction rest generalizing sorted with
  | nil => exact ⟨_, .done, hs, fun x => by simp⟩
  | cons p rest ih =>
    rw [TimSort.binarySort]
    obtain ⟨i, hi, hlen, h1, h2⟩ := position_returns p sorted hc hs 0 sorted.length (Nat.zero_le _) (Nat.le_refl _) (by simp) (by simp)
    have hins : sorted.insertIdx i p = sorted.take i ++ p :: sorted.drop i := insertIdx_split hlen
    have hs' : (sorted.insertIdx i p).Pairwise (fun a b => c a b ≤ 0) := by
      rw [hins, List.pairwise_append]
      refine ⟨hs.sublist (List.take_sublist _ _), List.pairwise_cons.2 ⟨fun y hy => by have := h2 y hy; omega, hs.sublist (List.drop_sublist _ _)⟩, fun a ha b hb => ?_⟩
      rcases List.mem_cons.1 hb with rfl | hb
      · exact h1 a ha
      · have := h2 b hb; exact hc.trans a p b (h1 a ha) (by omega)
    obtain ⟨l, hl, h3, h4⟩ := ih hs'
    refine ⟨l, returns_bind hi hl, h3, fun x => ?_⟩
    rw [h4, List.filter_append, hins, List.filter_append]
    have hmid : (p :: sorted.drop i).filter (fun y => c x y = 0) = (sorted.drop i).filter (fun y => c x y = 0) ++ [p].filter (fun y => c x y = 0) := by
      by_cases hp : c x p = 0
      · have : (sorted.drop i).filter (fun y => c x y = 0) = [] := by
          rw [List.filter_eq_nil_iff]
          intro y hy hxy
          have h5 := h2 y hy
          simp only [decide_eq_true_eq] at hxy
          have h6 := hc.antisymm x y
          have h7 := hc.antisymm y x
          have h8 := hc.antisymm p y
          have := hc.trans y x p (by omega) (by omega)
          omega
        rw [List.filter_cons_of_pos (by simpa using hp), this]
        simp [hp]
      · rw [List.filter_cons_of_neg (by simpa using hp)]
        simp [hp]
    have e1 : (sorted ++ p :: rest).filter (fun y => c x y = 0) = (sorted.take i).filter (fun y => c x y = 0) ++ ((sorted.drop i).filter (fun y => c x y = 0) ++ ([p].filter (fun y => c x y = 0) ++ rest.filter (fun y => c x y = 0))) := by
      conv_lhs => rw [← List.take_append_drop i sorted, show p :: rest = [p] ++ rest from rfl]
      simp only [List.filter_append, List.append_assoc]
    rw [e1, hmid]
    simp only [List.append_assoc]

end

/-- The sort of the JDK for fewer than 32 elements meets its contract. -/
theorem small_sorts (l : List Path) : Sorts (TimSort.small l) l where
  permutes _ := small_perm
  asks := small_asks l
  sorts c hc := by
    obtain ⟨run, rest, h1, h2, h3⟩ := countRun_returns hc l
    obtain ⟨l', h4, h5, h6⟩ := binarySort_returns hc (rest := rest) h2
    have hr : Returns c (TimSort.small l) l' := returns_bind h1 h4
    exact ⟨l', hr, small_perm (returns_mayReturn hr), h5, fun x => by rw [h6, h3]⟩

theorem pure_sorts {l : List Path} (h : l.length < 2) : Sorts (pure l) l where
  permutes l' h' := by rw [mayReturn_pure] at h'; rw [h']
  asks := .done
  sorts c hc := by
    refine ⟨l, .done, .refl _, ?_, fun _ => rfl⟩
    match l with
    | [] => exact .nil
    | [a] => simp
    | a :: b :: t => simp only [List.length_cons] at h; omega

/-- With a lawful comparator every sort that meets the contract gives the same result. -/
theorem exec_lawful {m : Type → Type} [Monad m] [LawfulMonad m] [MonadExceptOf Exn m] {run : SortRun (List Path)} {l : List Path} (h : Sorts run l) {c : Cmp} (hc : LawfulCmp c) :
    run.exec (m := m) (fun a b => pure (c a b)) = pure (streamSorted c l) := by
  obtain ⟨l', h1, h2⟩ := h.sorts c hc
  rw [exec_of_returns h1, stablySorted_unique hc h2 (streamSorted_stably hc l)]

end Spec
end JFTP
