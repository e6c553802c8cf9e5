import Verif.Spec.Rules
import Verif.Lemmas.Cmp
import Mathlib.Data.List.Induction

/-
`split("\\.")` and the parts of a file name.
-/

namespace JFTP
open Spec

theorem splitRaw_append {sep : JChar} {a : JStr} (h : sep ∉ a) (s : JStr) : splitRaw sep (a ++ sep :: s) = a :: splitRaw sep s := by
  induction a with
  | nil => simp [splitRaw]
  | cons c a ih =>
    have hc : c ≠ sep := fun hc => h (by simp [hc])
    have ha : sep ∉ a := fun ha => h (by simp [ha])
    rw [List.cons_append, splitRaw, if_neg hc, ih ha]

theorem splitRaw_self {sep : JChar} {a : JStr} (h : sep ∉ a) : splitRaw sep a = [a] := by
  induction a with
  | nil => rfl
  | cons c a ih =>
    have hc : c ≠ sep := fun hc => h (by simp [hc])
    have ha : sep ∉ a := fun ha => h (by simp [ha])
    rw [splitRaw, if_neg hc, ih ha]

theorem splitRaw_dots (k : Nat) : splitRaw DOT (List.replicate k DOT) = [] :: List.replicate k [] := by
  induction k with
  | zero => rfl
  | succ k ih => rw [List.replicate_succ, splitRaw, if_pos rfl, ih, List.replicate_succ]

theorem splitRaw_join (ps : List JStr) (hne : ps ≠ []) (h : ∀ p ∈ ps, DOT ∉ p) (k : Nat) :
    splitRaw DOT (joinDots ps ++ List.replicate k DOT) = ps ++ List.replicate k [] := by
  induction ps with
  | nil => exact absurd rfl hne
  | cons a as ih =>
    have ha := h a (by simp)
    cases as with
    | nil =>
      rw [joinDots]
      cases k with
      | zero => simp [splitRaw_self ha]
      | succ k => rw [List.replicate_succ, splitRaw_append ha, splitRaw_dots]; rfl
    | cons b bs =>
      have e : joinDots (a :: b :: bs) ++ List.replicate k DOT = a ++ DOT :: (joinDots (b :: bs) ++ List.replicate k DOT) := by
        simp [joinDots, DOT]
      rw [e, splitRaw_append ha, ih (by simp) (fun p hp => h p (by simp [hp]))]
      rfl

theorem dropTrailingEmpty_append (ps : List JStr) (k : Nat) (h : ps.getLast? ≠ some []) :
    dropTrailingEmpty (ps ++ List.replicate k []) = ps := by
  unfold dropTrailingEmpty
  rw [List.reverse_append, List.reverse_replicate]
  have e : (List.replicate k ([] : JStr) ++ ps.reverse).dropWhile List.isEmpty = ps.reverse := by
    induction k with
    | zero =>
      rw [List.replicate_zero, List.nil_append]
      cases hr : ps.reverse with
      | nil => rfl
      | cons x xs =>
        have : ps.getLast? = some x := by rw [← List.head?_reverse, hr]; rfl
        rw [List.dropWhile_cons_of_neg]
        intro hx
        rw [this] at h
        cases x with
        | nil => exact h rfl
        | cons _ _ => cases hx
    | succ k ih => rw [List.replicate_succ, List.cons_append, List.dropWhile_cons_of_pos rfl, ih]
  rw [e, List.reverse_reverse]

theorem mem_joinDots {ps : List JStr} (h : 2 ≤ ps.length) : DOT ∈ joinDots ps := by
  match ps, h with
  | a :: b :: bs, _ => simp [joinDots, DOT]

/-- The parts of a name with extensions. -/
theorem splitDots_hasExts {n base : JStr} {exts : List JStr} (h : HasExts n base exts) : splitDots n = base :: exts := by
  obtain ⟨k, rfl⟩ := h.name
  have hlen : 2 ≤ (base :: exts).length := by
    cases exts with
    | nil => exact absurd rfl h.nonempty
    | cons _ _ => simp
  unfold splitDots
  rw [if_pos (by rw [List.mem_append]; exact .inl (mem_joinDots hlen)), splitRaw_join _ (by simp) h.parts, dropTrailingEmpty_append]
  have := h.last
  cases exts with
  | nil => exact absurd rfl h.nonempty
  | cons x xs => rw [List.getLast?_cons_cons]; exact this

/-- A name without extension has one part. -/
theorem splitDots_hasNoExt {n : JStr} (h : HasNoExt n) : ∃ base, splitDots n = [base] := by
  obtain ⟨base, k, hb, rfl, h0⟩ := h
  unfold splitDots
  split
  · rename_i hd
    refine ⟨base, ?_⟩
    have := splitRaw_join [base] (by simp) (by simpa using hb) k
    rw [joinDots] at this
    rw [this, dropTrailingEmpty_append]
    intro hl
    have : base = [] := by simpa using hl
    rw [h0 this] at hd
    simp [hb] at hd
  · exact ⟨_, rfl⟩

/-- A name of dots only has no parts. -/
theorem splitDots_dots (k : Nat) : splitDots (List.replicate (k + 1) DOT) = [] := by
  unfold splitDots
  rw [if_pos (by simp), splitRaw_dots]
  have := dropTrailingEmpty_append [] (k + 2) (by simp)
  simpa [List.replicate_succ] using this

theorem splitRaw_ne_nil (sep : JChar) (s : JStr) : splitRaw sep s ≠ [] := by
  cases s with
  | nil => simp [splitRaw]
  | cons c s =>
    rw [splitRaw]
    split
    · simp
    · split <;> simp

theorem splitRaw_parts (s : JStr) : ∀ p ∈ splitRaw DOT s, DOT ∉ p := by
  induction s with
  | nil => simp [splitRaw]
  | cons c s ih =>
    rw [splitRaw]
    split
    · intro p hp
      rcases List.mem_cons.1 hp with rfl | hp
      · simp
      · exact ih p hp
    · rename_i hc
      split
      · intro p hp; simp at hp; subst hp; simpa using fun h => hc h.symm
      · rename_i q qs hq
        rw [hq] at ih
        intro p hp
        rcases List.mem_cons.1 hp with rfl | hp
        · have := ih q (by simp)
          simp only [List.mem_cons, not_or]
          exact ⟨fun h => hc h.symm, this⟩
        · exact ih p (by simp [hp])

theorem joinDots_cons_cons (c : JChar) (p : JStr) (ps : List JStr) : joinDots ((c :: p) :: ps) = c :: joinDots (p :: ps) := by
  cases ps <;> simp [joinDots]

theorem joinDots_splitRaw (s : JStr) : joinDots (splitRaw DOT s) = s := by
  induction s with
  | nil => rfl
  | cons c s ih =>
    rw [splitRaw]
    split
    · rename_i hc
      have : joinDots ([] :: splitRaw DOT s) = DOT :: joinDots (splitRaw DOT s) := by
        cases h : splitRaw DOT s with
        | nil => exact absurd h (splitRaw_ne_nil _ _)
        | cons a as => simp [joinDots, DOT]
      rw [this, ih, hc]
    · split
      · rename_i h; exact absurd h (splitRaw_ne_nil _ _)
      · rename_i q qs hq
        rw [hq] at ih
        rw [joinDots_cons_cons, ih]

theorem dropTrailingEmpty_spec (ps : List JStr) : ∃ qs k, ps = qs ++ List.replicate k [] ∧ qs.getLast? ≠ some [] := by
  induction ps using List.reverseRecOn with
  | nil => exact ⟨[], 0, rfl, by simp⟩
  | append_singleton ps p ih =>
    by_cases hp : p = []
    · obtain ⟨qs, k, h1, h2⟩ := ih
      refine ⟨qs, k + 1, ?_, h2⟩
      rw [h1, hp, List.append_assoc, List.replicate_succ']
    · exact ⟨ps ++ [p], 0, by simp, by simpa using hp⟩

theorem joinDots_cons2 (a b : JStr) (l : List JStr) : joinDots (a :: b :: l) = a ++ j!"." ++ joinDots (b :: l) := by
  simp [joinDots]

theorem joinDots_append_dots (qs : List JStr) (hq : qs ≠ []) (k : Nat) : joinDots (qs ++ List.replicate k []) = joinDots qs ++ List.replicate k DOT := by
  induction qs with
  | nil => exact absurd rfl hq
  | cons a as ih =>
    cases as with
    | nil =>
      clear ih hq
      induction k generalizing a with
      | zero => simp
      | succ k ih =>
        have := ih []
        rw [List.replicate_succ, List.replicate_succ]
        simp only [List.cons_append, List.nil_append] at this ⊢
        rw [joinDots_cons2, this]
        simp [joinDots, DOT]
    | cons b bs =>
      have := ih (by simp)
      rw [List.cons_append, List.cons_append] at *
      rw [joinDots, this]
      · simp [joinDots]
      · simp

/-- Every name has extensions, or has none, or consists of dots. -/
theorem name_cases (n : JStr) : HasNoExt n ∨ (∃ base exts, HasExts n base exts) ∨ ∃ k, n = List.replicate (k + 1) DOT := by
  obtain ⟨qs, k, h1, h2⟩ := dropTrailingEmpty_spec (splitRaw DOT n)
  have hn := joinDots_splitRaw n
  have hp := splitRaw_parts n
  rw [h1] at hn hp
  cases qs with
  | nil =>
    cases k with
    | zero => exact absurd h1 (by simpa using splitRaw_ne_nil DOT n)
    | succ k =>
      have : n = List.replicate k DOT := by
        rw [← hn, List.nil_append, List.replicate_succ]
        have := joinDots_append_dots [[]] (by simp) k
        simpa [joinDots] using this
      cases k with
      | zero => left; exact ⟨[], 0, by simp, by simpa using this, fun _ => rfl⟩
      | succ k => right; right; exact ⟨k, this⟩
  | cons base exts =>
    rw [joinDots_append_dots _ (by simp)] at hn
    cases exts with
    | nil =>
      left
      refine ⟨base, k, hp base (by simp), by simpa [joinDots] using hn.symm, fun hb => ?_⟩
      simp [hb] at h2
    | cons e es =>
      right; left
      exact ⟨base, e :: es, ⟨by simp, fun x hx => hp x (by simp only [List.mem_append]; exact .inl hx), by simpa [List.getLast?_cons_cons] using h2, k, hn.symm⟩⟩

theorem lexCmp_neg_iff {c : JStr → JStr → Int} (as bs : List JStr) : lexCmp c as bs < 0 ↔ PartsLt c as bs := by
  induction as generalizing bs with
  | nil => cases bs with
    | nil => simp [lexCmp]; intro h; cases h
    | cons b bs => simp [lexCmp]; exact .shorter
  | cons a as ih =>
    cases bs with
    | nil => simp [lexCmp]; intro h; cases h
    | cons b bs =>
      rw [lexCmp]
      constructor
      · intro h
        by_cases hz : c a b = 0
        · simp [hz] at h; exact .next hz ((ih bs).1 h)
        · rw [if_pos hz] at h; exact .differ h
      · intro h
        cases h with
        | differ h => rw [if_pos (by omega)]; exact h
        | next h1 h2 => simp [h1]; exact (ih bs).2 h2

theorem lexCmp_zero_iff {c : JStr → JStr → Int} (as bs : List JStr) : lexCmp c as bs = 0 ↔ List.Forall₂ (fun a b => c a b = 0) as bs := by
  induction as generalizing bs with
  | nil => cases bs <;> simp [lexCmp]
  | cons a as ih =>
    cases bs with
    | nil => simp [lexCmp]
    | cons b bs =>
      rw [lexCmp, List.forall₂_cons, ← ih]
      by_cases hz : c a b = 0
      · simp [hz]
      · simp [hz]

end JFTP
