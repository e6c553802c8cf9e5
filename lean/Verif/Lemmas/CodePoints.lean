import Verif.Lemmas.Glob
import Verif.Lemmas.Layout

/-!
Code points of strings, names of path strings.
-/

namespace JFTP
namespace Spec
namespace GlobL
open Globs Glob

/-- The units of a code point. -/
def units (n : Nat) : JStr :=
  if n < 0x10000 then [UInt16.ofNat n] else [UInt16.ofNat (0xD800 + (n - 0x10000) / 0x400), UInt16.ofNat (0xDC00 + (n - 0x10000) % 0x400)]

theorem units_unit (c : JChar) : units c.toNat = [c] := by
  unfold units
  rw [if_pos c.toNat_lt, UInt16.ofNat_toNat]

theorem units_pair {c d : JChar} (h : (isHigh c && isLow d) = true) : units (0x10000 + (c.toNat - 0xD800) * 0x400 + (d.toNat - 0xDC00)) = [c, d] := by
  simp only [isHigh, isLow, Bool.and_eq_true, decide_eq_true_eq] at h
  unfold units
  rw [if_neg (by omega)]
  have e1 : 0xD800 + (0x10000 + (c.toNat - 0xD800) * 0x400 + (d.toNat - 0xDC00) - 0x10000) / 0x400 = c.toNat := by omega
  have e2 : 0xDC00 + (0x10000 + (c.toNat - 0xD800) * 0x400 + (d.toNat - 0xDC00) - 0x10000) % 0x400 = d.toNat := by omega
  rw [e1, e2, UInt16.ofNat_toNat, UInt16.ofNat_toNat]

theorem units_codePoints (s : JStr) : (codePoints s).flatMap units = s := by
  fun_induction codePoints s with
  | case1 => rfl
  | case2 c => rw [List.flatMap_cons, units_unit]; rfl
  | case3 c d s h ih => rw [List.flatMap_cons, units_pair h, ih]; rfl
  | case4 c d s h ih => rw [List.flatMap_cons, units_unit, ih]; rfl

theorem codePoints_inj {s t : JStr} (h : codePoints s = codePoints t) : s = t := by
  rw [← units_codePoints s, h, units_codePoints]

/-- No surrogate pair across the border. -/
def Joins (a b : JStr) : Prop := ∀ c ∈ a.getLast?, ∀ d ∈ b.head?, ¬ (isHigh c = true ∧ isLow d = true)

theorem codePoints_append {a b : JStr} (h : Joins a b) : codePoints (a ++ b) = codePoints a ++ codePoints b := by
  fun_induction codePoints a with
  | case1 => rfl
  | case2 c =>
    cases b with
    | nil => rfl
    | cons d b =>
      have := h c (by simp) d (by simp)
      rw [List.singleton_append, codePoints, if_neg (by simpa using this)]
      rfl
  | case3 c d s hp ih =>
    have : Joins s b := by
      intro x hx y hy
      refine h x ?_ y hy
      cases s with
      | nil => cases hx
      | cons e s => rw [List.getLast?_cons_cons, List.getLast?_cons_cons]; exact hx
    rw [List.cons_append, List.cons_append, codePoints, if_pos hp, ih this]
    rfl
  | case4 c d s hp ih =>
    have : Joins (d :: s) b := by
      intro x hx y hy
      refine h x ?_ y hy
      rw [List.getLast?_cons_cons]; exact hx
    rw [List.cons_append, List.cons_append, codePoints, if_neg hp]
    rw [List.cons_append] at ih
    rw [ih this]
    rfl

theorem joins_of_whole {a b : JStr} (h : (∀ c ∈ a.getLast?, Whole c) ∨ ∀ d ∈ b.head?, Whole d) : Joins a b := by
  intro c hc d hd
  rcases h with h | h
  · rw [(h c hc).1]; simp
  · rw [(h d hd).2]; simp

theorem mem_of_codePoints {c : JChar} {s : JStr} (h : c.toNat ∈ codePoints s) : c ∈ s := by
  rw [← units_codePoints s, List.mem_flatMap]
  exact ⟨_, h, by rw [units_unit]; simp⟩

theorem mem_codePoints {c : JChar} {s : JStr} (hw : Whole c) : c.toNat ∈ codePoints s ↔ c ∈ s := by
  refine ⟨mem_of_codePoints, fun h => ?_⟩
  fun_induction codePoints s with
  | case1 => cases h
  | case2 x => rw [List.mem_singleton.1 h]; simp
  | case3 x y s hp ih =>
    simp only [Bool.and_eq_true] at hp
    rcases List.mem_cons.1 h with rfl | h
    · rw [hw.1] at hp; simp at hp
    · rcases List.mem_cons.1 h with rfl | h
      · rw [hw.2] at hp; simp at hp
      · exact List.mem_cons_of_mem _ (ih h)
  | case4 x y s hp ih =>
    rcases List.mem_cons.1 h with rfl | h
    · simp
    · exact List.mem_cons_of_mem _ (ih h)

/-- If the code points of a string fall into two parts, so does the string. -/
theorem codePoints_split {s : JStr} {a b : List Nat} (h : codePoints s = a ++ b) : s = a.flatMap units ++ b.flatMap units := by
  rw [← units_codePoints s, h, List.flatMap_append]

theorem codePoints_units_left {s : JStr} {a b : List Nat} (h : codePoints s = a ++ b) : codePoints (a.flatMap units) = a := by
  induction a generalizing s with
  | nil => rfl
  | cons x a ih =>
    cases s with
    | nil => cases h
    | cons c s =>
      cases s with
      | nil =>
        rw [codePoints] at h
        injection h with h1 h2
        obtain ⟨rfl, rfl⟩ := List.append_eq_nil_iff.1 h2.symm
        rw [← h1, List.flatMap_cons, units_unit]
        rfl
      | cons d s =>
        by_cases hp : (isHigh c && isLow d) = true
        · rw [codePoints, if_pos hp, List.cons_append] at h
          obtain ⟨h1, h2⟩ := List.cons_eq_cons.1 h
          rw [← h1, List.flatMap_cons, units_pair hp, List.cons_append, List.cons_append, List.nil_append, codePoints, if_pos hp, ih (s := s) h2]
        · rw [codePoints, if_neg hp] at h
          injection h with h1 h2
          have ih := ih (s := d :: s) h2
          rw [← h1, List.flatMap_cons, units_unit, List.singleton_append]
          have e := codePoints_split h2
          cases hu : a.flatMap units with
          | nil =>
            have : a = [] := by rw [← ih, hu]; rfl
            rw [this]; rfl
          | cons d' t =>
            rw [hu] at e ih
            have : d = d' := by injection e
            subst this
            rw [codePoints, if_neg hp, ih]

theorem codePoints_units_right {s : JStr} {a b : List Nat} (h : codePoints s = a ++ b) : codePoints (b.flatMap units) = b := by
  induction a generalizing s with
  | nil => rw [List.nil_append] at h; rw [← h, units_codePoints]
  | cons x a ih =>
    cases s with
    | nil => cases h
    | cons c s =>
      cases s with
      | nil =>
        rw [codePoints, List.cons_append] at h
        exact ih (s := []) (List.cons_eq_cons.1 h).2
      | cons d s =>
        by_cases hp : (isHigh c && isLow d) = true
        · rw [codePoints, if_pos hp, List.cons_append] at h
          exact ih (s := s) (List.cons_eq_cons.1 h).2
        · rw [codePoints, if_neg hp, List.cons_append] at h
          exact ih (s := d :: s) (List.cons_eq_cons.1 h).2

/-! ### Path strings -/

theorem joinSlash_cons {n : JStr} {ns : List JStr} (h : ns ≠ []) : joinSlash (n :: ns) = n ++ SLASH :: joinSlash ns := by
  cases ns with
  | nil => exact absurd rfl h
  | cons m ns => rfl

theorem split_joinSlash {ns : List JStr} (hne : ns ≠ []) (h : ∀ n ∈ ns, SLASH ∉ n) : splitRaw SLASH (joinSlash ns) = ns := by
  induction ns with
  | nil => exact absurd rfl hne
  | cons n ns ih =>
    cases ns with
    | nil => exact splitRaw_self (h n (by simp))
    | cons m ns =>
      rw [joinSlash_cons (by simp), splitRaw_append (h n (by simp)), ih (by simp) (fun x hx => h x (by simp [hx]))]

theorem joinSlash_inj {a b : List JStr} (ha : a ≠ []) (hb : b ≠ []) (h1 : ∀ n ∈ a, SLASH ∉ n) (h2 : ∀ n ∈ b, SLASH ∉ n) (h : joinSlash a = joinSlash b) : a = b := by
  rw [← split_joinSlash ha h1, h, split_joinSlash hb h2]

theorem joinSlash_append {a b : List JStr} (ha : a ≠ []) (hb : b ≠ []) : joinSlash (a ++ b) = joinSlash a ++ SLASH :: joinSlash b := by
  induction a with
  | nil => exact absurd rfl ha
  | cons n a ih =>
    cases a with
    | nil => exact joinSlash_cons hb
    | cons m a =>
      rw [List.cons_append, joinSlash_cons (by simp), ih (by simp), joinSlash_cons (n := n) (by simp)]
      simp

theorem splitRaw_slash_append (s t : JStr) : splitRaw SLASH (s ++ SLASH :: t) = splitRaw SLASH s ++ splitRaw SLASH t := by
  induction s with
  | nil => simp [splitRaw]
  | cons c s ih =>
    rw [List.cons_append, splitRaw, splitRaw]
    by_cases hc : c = SLASH
    · rw [if_pos hc, if_pos hc, ih]; rfl
    · rw [if_neg hc, if_neg hc, ih]
      cases hs : splitRaw SLASH s with
      | nil => exact absurd hs (splitRaw_ne_nil _ _)
      | cons x xs => rfl

/-- The names of a path string that is cut at a slash. -/
theorem joinSlash_cut {ns : List JStr} {s t : JStr} (hne : ns ≠ []) (h : ∀ n ∈ ns, SLASH ∉ n) (e : joinSlash ns = s ++ SLASH :: t) :
    ns = splitRaw SLASH s ++ splitRaw SLASH t := by
  rw [← split_joinSlash hne h, e, splitRaw_slash_append]

theorem joinSlash_split (s : JStr) : joinSlash (splitRaw SLASH s) = s := by
  induction s with
  | nil => rfl
  | cons c s ih =>
    rw [splitRaw]
    have hne := splitRaw_ne_nil SLASH s
    by_cases hc : c = SLASH
    · rw [if_pos hc, joinSlash_cons hne, ih, hc]; rfl
    · rw [if_neg hc]
      cases hs : splitRaw SLASH s with
      | nil => exact absurd hs hne
      | cons x xs =>
        rw [hs] at ih
        cases xs with
        | nil => show c :: x = _; rw [← ih]; rfl
        | cons y ys =>
          show joinSlash ((c :: x) :: y :: ys) = _
          rw [joinSlash_cons (by simp), ← ih, joinSlash_cons (n := x) (by simp)]
          rfl

theorem mem_joinSlash {ns : List JStr} {c : JChar} (hc : c ≠ SLASH) : c ∈ joinSlash ns ↔ ∃ n ∈ ns, c ∈ n := by
  induction ns with
  | nil => simp [joinSlash]
  | cons n ns ih =>
    cases ns with
    | nil => simp [joinSlash]
    | cons m ns => rw [joinSlash_cons (by simp), List.mem_append, List.mem_cons, ih]; simp [hc]

end GlobL
end Spec
end JFTP
