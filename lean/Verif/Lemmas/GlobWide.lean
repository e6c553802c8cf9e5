import Verif.Lemmas.GlobParse
import Verif.Lemmas.CodePoints

/-!
Ranges in bracket expressions that start with a character beyond the basic plane.
-/

namespace JFTP
namespace Spec
namespace GlobL
open Globs Glob

/-- `Globs` throws nothing else. -/
def OnlySyntax (r : Except Exn (List Tok)) : Prop := ∀ x, r = .error x → x = .illegalArgument

theorem onlySyntax_bind {r : Except Exn (List Tok)} (f : List Tok → List Tok) (h : OnlySyntax r) : OnlySyntax (do return f (← r)) := by
  intro x hx
  cases r with
  | ok ts => cases hx
  | error y => exact h x (by rw [← hx]; rfl)

theorem onlySyntax_error : OnlySyntax syntaxError := by
  intro x hx
  cases hx
  rfl

theorem onlySyntax (n : Nat) : ∀ g : JStr, g.length ≤ n → (∀ G, OnlySyntax (outside G g)) ∧ ∀ G acc has last, OnlySyntax (inside G acc has last g) := by
  induction n with
  | zero =>
    intro g hg
    obtain rfl := List.eq_nil_of_length_eq_zero (Nat.le_zero.1 hg)
    refine ⟨fun G => ?_, fun G acc has last => ?_⟩
    · rw [outside.eq_def]
      dsimp only
      split
      · exact onlySyntax_error
      · intro x hx; cases hx
    · rw [inside.eq_def]; exact onlySyntax_error
  | succ n ih =>
    intro g hg
    cases g with
    | nil => exact ih [] (by simp)
    | cons c g =>
      have hg' : g.length ≤ n := by simpa using hg
      obtain ⟨o, i⟩ := ih g hg'
      refine ⟨fun G => ?_, fun G acc has last => ?_⟩
      · rw [outside.eq_def]
        dsimp only
        split
        · cases g with
          | nil => exact onlySyntax_error
          | cons d g => exact onlySyntax_bind _ ((ih g (by simp at hg'; omega)).1 G)
        · split
          · cases g with
            | nil => exact onlySyntax_error
            | cons d g =>
              have s1 := (ih g (by simp at hg'; omega)).2
              dsimp only
              split
              · exact s1 _ _ _ _
              · split
                · cases g with
                  | nil => exact onlySyntax_error
                  | cons e g =>
                    dsimp only
                    split
                    · exact (ih g (by simp at hg'; omega)).2 _ _ _ _
                    · exact s1 _ _ _ _
                · split
                  · exact s1 _ _ _ _
                  · exact i _ _ _ _
          · split
            · split
              · exact onlySyntax_error
              · exact onlySyntax_bind _ (o _)
            · split
              · split <;> exact onlySyntax_bind _ (o _)
              · split
                · split <;> exact onlySyntax_bind _ (o _)
                · split
                  · cases g with
                    | nil => exact onlySyntax_bind _ (o _)
                    | cons d g =>
                      dsimp only
                      split
                      · exact onlySyntax_bind _ ((ih g (by simp at hg'; omega)).1 _)
                      · exact onlySyntax_bind _ (o _)
                  · split <;> exact onlySyntax_bind _ (o _)
      · rw [inside.eq_def]
        dsimp only
        split
        · exact onlySyntax_bind _ (o _)
        · split
          · exact onlySyntax_error
          · split
            · split
              · cases g with
                | nil => exact onlySyntax_error
                | cons e g =>
                  obtain ⟨o', i'⟩ := ih g (by simp at hg'; omega)
                  dsimp only
                  split
                  · exact onlySyntax_error
                  · split
                    · exact onlySyntax_bind _ (o' _)
                    · split
                      · exact onlySyntax_error
                      · exact i' _ _ _ _
              · exact onlySyntax_error
            · exact i _ _ _ _

theorem outside_error {G : Bool} {g : JStr} {x : Exn} (h : outside G g = .error x) : x = .illegalArgument := (onlySyntax _ g (Nat.le_refl _)).1 G x h

/-- The loop inside of a class fails, or it ends the class some time. -/
theorem inside_more {G : Bool} (n : Nat) : ∀ (g acc : JStr) (has : Bool) (last : JChar), g.length ≤ n →
    Rejected (inside G acc has last g) ∨ ∃ more ts, inside G acc has last g = .ok (.cls (acc ++ more) :: ts) := by
  have close : ∀ (acc more g : JStr), (do return Tok.cls (acc ++ more) :: (← outside G g) : Except Exn (List Tok)) = .error .illegalArgument ∨
      ∃ more' ts, (do return Tok.cls (acc ++ more) :: (← outside G g) : Except Exn (List Tok)) = .ok (.cls (acc ++ more') :: ts) := by
    intro acc more g
    cases h : outside G g with
    | ok ts => exact .inr ⟨more, ts, rfl⟩
    | error x =>
      left
      have := outside_error h
      subst this
      rfl
  induction n with
  | zero =>
    intro g acc has last hg
    obtain rfl := List.eq_nil_of_length_eq_zero (Nat.le_zero.1 hg)
    left; rw [inside.eq_def]; rfl
  | succ n ih =>
    intro g acc has last hg
    cases g with
    | nil => left; rw [inside.eq_def]; rfl
    | cons c g =>
      have hg' : g.length ≤ n := by simpa using hg
      rw [inside.eq_def]
      dsimp only
      split
      · have := close acc [] g
        rw [List.append_nil] at this
        exact this
      · split
        · exact .inl rfl
        · split
          · split
            · cases g with
              | nil => exact .inl rfl
              | cons e g =>
                dsimp only
                split
                · exact .inl rfl
                · split
                  · exact close acc [HYPHEN] g
                  · split
                    · exact .inl rfl
                    · rcases ih g (acc ++ [HYPHEN, e]) false last (by simp at hg'; omega) with h | ⟨more, ts, h⟩
                      · exact .inl h
                      · exact .inr ⟨[HYPHEN, e] ++ more, ts, by rw [h, List.append_assoc]⟩
            · exact .inl rfl
          · rcases ih g _ true c hg' with h | ⟨more, ts, h⟩
            · exact .inl h
            · rw [h]
              exact .inr ⟨_, ts, congrArg (fun z => Except.ok (Tok.cls z :: ts)) (List.append_assoc _ _ _)⟩

/-! ### Ranges that start with a character beyond the basic plane -/

theorem wide_head {a : Nat} {g : JStr} (ha : Scalar a) (hw : Wide a) : (utf16 a ++ g).head? = some AMP ↔ ([a] : List Nat).head? = some 38 := by
  rw [utf16_wide hw]
  exact ⟨fun e => absurd (Option.some.inj e) (hi_ne (scalar_lt ha) (by decide)), fun e => by
    have : a = 38 := Option.some.inj e
    unfold Wide at hw; omega⟩

theorem inside_wide {G : Bool} {items : List Item} {a b : Nat} {t : JStr} (h : ∀ i ∈ items, i.Ok) (hl : ∀ c, .trailing c ∉ items) (ha : Scalar a) (hw : Wide a) (hb : Scalar b) (hb' : b ≠ 93)
    (acc : JStr) (has : Bool) (last : JChar) :
    Rejected (inside G acc has last (items.flatMap Item.write ++ (utf16 a ++ 45 :: (utf16 b ++ t)))) ∨
    (b < 0x10000 ∧ 91 < b ∧ b ≠ 92 ∧ b < a ∧ ∃ more ts, inside G acc has last (items.flatMap Item.write ++ (utf16 a ++ 45 :: (utf16 b ++ t))) =
      .ok (.cls (acc ++ ((content items [a] ++ [a, 45, b]).flatMap utf16 ++ more)) :: ts)) := by
  obtain ⟨has', last', e⟩ := inside_some (G := G) h hl (wide_head (g := 45 :: (utf16 b ++ t)) ha hw) acc has last
  have hin : inBracket a := by unfold Wide at hw; exact ⟨by omega, by omega, by omega, ha⟩
  have esc : escaped a [45] = [a] := if_neg (by unfold Wide at hw; omega)
  have hbl := scalar_lt hb
  rw [e, inside_char (next := [45]) hin hyphen_head, esc]
  have h1 : firstUnit b ≠ RBRACK := fun x => hb' ((firstUnit_eq (c := RBRACK) hbl (by decide)).1 x)
  by_cases h0 : b = 0
  · exact .inl (inside_no_range h1 (.inl ((firstUnit_eq (c := 0) hbl (by decide)).2 h0)))
  by_cases hlt : firstUnit b < lastUnit a
  · exact .inl (inside_no_range h1 (.inr hlt))
  have hle := UInt16.le_iff_toNat_le.1 (UInt16.not_lt.1 hlt)
  have hna : ¬ a < 0x10000 := Nat.not_lt.2 hw
  rw [lastUnit, if_neg hna, toNat_lo] at hle
  have hnb : b < 0x10000 ∧ 0xDC00 ≤ b := by
    unfold firstUnit at hle
    split at hle
    · rename_i h3
      rw [toNat_narrow h3] at hle
      omega
    · rw [toNat_hi hbl] at hle
      omega
  obtain ⟨has2, last2, _, hend⟩ := inside_end (G := G) h0 hb' hb (UInt16.not_lt.1 hlt)
  rw [hend]
  rcases inside_more (G := G) t.length t (acc ++ (content items [a]).flatMap utf16 ++ [a].flatMap utf16 ++ [45, b].flatMap utf16) has2 last2 (Nat.le_refl _) with hr | ⟨more, ts, hr⟩
  · exact .inl hr
  · refine .inr ⟨hnb.1, by omega, by omega, by omega, more, ts, ?_⟩
    rw [hr]
    have : content items [a] ++ [a, 45, b] = content items [a] ++ [a] ++ [45, b] := by simp
    rw [this, List.flatMap_append, List.flatMap_append]
    simp only [List.append_assoc]

theorem members_wide {items : List Item} {a b : Nat} {r : List Nat} (h : ∀ i ∈ items, i.Ok) (hl : ∀ c, .trailing c ∉ items) (hw : Wide a) (hb : 91 < b) (hb' : b ≠ 92) (hab : b < a) :
    members (content items [a] ++ a :: 45 :: b :: r) = .bad ∧ ∀ d, memberFrom d (content items [a] ++ a :: 45 :: b :: r) = .bad := by
  unfold Wide at hw
  have amp : ∀ is : List Item, (content is [a] ++ a :: 45 :: b :: r).head? = some 38 → (is.flatMap Item.chars ++ [a]).head? = some 38 := by
    intro is hh
    cases is with
    | nil =>
      have : a = 38 := Option.some.inj hh
      omega
    | cons i is =>
      rw [List.head?_append_of_ne_nil _ (content_ne_nil (by simp))] at hh
      exact content_amp hh
  induction items with
  | nil =>
    have e : memberFrom a (45 :: b :: r) = .bad := by rw [memberFrom_hyphen hb' (by omega), if_pos hab]
    have hs : special a (45 :: b :: r) = false := by
      simp only [special, Bool.or_eq_false_iff, Bool.and_eq_false_iff, decide_eq_false_iff_not]
      exact ⟨⟨by omega, by omega⟩, .inl (by omega)⟩
    refine ⟨?_, fun d => ?_⟩
    · rw [content, List.nil_append, members.eq_def]
      dsimp only
      rw [if_neg (by omega), hs, if_neg (by decide), e]
    · rw [content, List.nil_append, memberFrom.eq_def]
      dsimp only
      rw [if_neg (by omega), if_neg (by omega), hs, if_neg (by decide), e]
      rfl
  | cons i is ih =>
    have hi := h i (by simp)
    obtain ⟨i1, i2⟩ := ih (fun j hj => h j (by simp [hj])) (fun c hc => hl c (by simp [hc]))
    cases i with
    | char c =>
      rw [content, List.append_assoc]
      refine ⟨?_, fun d => ?_⟩
      · rw [members_escaped hi.1 (amp is)]; exact i2 c
      · rw [memberFrom_escaped hi.2.2.1 hi.1 (amp is), i2 c]; rfl
    | range x y =>
      obtain ⟨⟨hr, _, h3, _⟩, hab', _, _, h4, h5, _⟩ := hi
      have hm : memberFrom x (45 :: y :: (content is [a] ++ a :: 45 :: b :: r)) = .bad := by
        rw [memberFrom_hyphen h4 h5, if_neg (Nat.not_lt.2 hab'), i1]; rfl
      have e : content (.range x y :: is) [a] ++ a :: 45 :: b :: r = escaped x [45] ++ 45 :: y :: (content is [a] ++ a :: 45 :: b :: r) := by
        rw [content]; simp
      rw [e]
      refine ⟨?_, fun d => ?_⟩
      · rw [members_escaped hr ?_]
        · exact hm
        · exact fun e => absurd (Option.some.inj e) (by decide)
      · rw [memberFrom_escaped h3 hr ?_, hm]
        · rfl
        · exact fun e => absurd (Option.some.inj e) (by decide)
    | trailing c => exact absurd (by simp) (hl c)

theorem codePoints_narrow_end {pts : List Nat} {b : Nat} {more : JStr} (h : ∀ c ∈ pts ++ [b], Scalar c) (hb : b < 0x10000) :
    codePoints ((pts ++ [b]).flatMap utf16 ++ more) = pts ++ b :: codePoints more := by
  rw [codePoints_append, codePoints_utf16 h, List.append_assoc]
  · rfl
  · refine joins_of_whole (.inl (fun c hc => ?_))
    rw [List.flatMap_append, List.flatMap_cons, List.flatMap_nil, List.append_nil, utf16_narrow hb, List.getLast?_append, List.getLast?_singleton, Option.some_or] at hc
    cases hc
    have hs := h b (by simp)
    unfold Scalar at hs
    unfold Whole isHigh isLow
    rw [toNat_narrow hb]
    simp only [Bool.and_eq_false_iff, decide_eq_false_iff_not]
    omega

/-- What comes before the parts of a bracket expression. -/
def opening (neg hyphen : Bool) : JStr := (if neg then j!"!" else []) ++ if hyphen then j!"-" else []

theorem outside_wide {G : Bool} {neg hyphen : Bool} {items : List Item} {a b : Nat} {t : JStr} (h : ∀ i ∈ items, i.Ok) (hl : ∀ c, .trailing c ∉ items)
    (hf : neg = false → hyphen = false → items = [] ∨ FirstOk items) (ha : Scalar a) (hw : Wide a) (hb : Scalar b) (hb' : b ≠ 93) :
    Rejected (outside G (91 :: (opening neg hyphen ++ (items.flatMap Item.write ++ (utf16 a ++ 45 :: (utf16 b ++ t)))))) ∨
    ∃ c ts, outside G (91 :: (opening neg hyphen ++ (items.flatMap Item.write ++ (utf16 a ++ 45 :: (utf16 b ++ t))))) = .ok (.cls c :: ts) ∧ clazz c = .bad := by
  have key := fun acc has last => inside_wide (G := G) (t := t) h hl ha hw hb hb' acc has last
  have ptsOk : ∀ (pre : List Nat) (is : List Item), (∀ c ∈ pre, Scalar c) → (∀ i ∈ is, i.Ok) → ∀ c ∈ pre ++ (content is [a] ++ [a, 45]) ++ [b], Scalar c := by
    intro pre is hp his c hc
    simp only [List.mem_append, List.mem_cons, List.not_mem_nil, or_false] at hc
    rcases hc with (hc | hc | rfl | rfl) | rfl
    · exact hp c hc
    · exact scalar_content his c hc
    · exact ha
    · exact scalar_45
    · exact hb
  have points : ∀ (pre : List Nat) (is : List Item) (more : JStr), (∀ c ∈ pre, Scalar c) → (∀ i ∈ is, i.Ok) → b < 0x10000 →
      codePoints (pre.flatMap utf16 ++ ((content is [a] ++ [a, 45, b]).flatMap utf16 ++ more)) = pre ++ (content is [a] ++ a :: 45 :: b :: codePoints more) := by
    intro pre is more hp his hbn
    have := codePoints_narrow_end (more := more) (ptsOk pre is hp his) hbn
    have e1 : pre.flatMap utf16 ++ ((content is [a] ++ [a, 45, b]).flatMap utf16 ++ more) = (pre ++ (content is [a] ++ [a, 45]) ++ [b]).flatMap utf16 ++ more := by
      simp only [List.flatMap_append, List.flatMap_cons, List.flatMap_nil, List.append_nil, List.append_assoc]
    rw [e1, this]
    simp
  cases neg with
  | true =>
    cases hyphen with
    | true =>
      show Rejected (outside G (91 :: 33 :: 45 :: _)) ∨ ∃ c ts, outside G (91 :: 33 :: 45 :: _) = _ ∧ _
      rw [outside_lbrack, if_neg (by decide), if_pos rfl]
      dsimp only
      rw [if_pos (by decide)]
      rcases key [CARET, HYPHEN] false 0 with hr | ⟨hbn, hb1, hb2, hba, more, ts, hr⟩
      · exact .inl hr
      · refine .inr ⟨_, ts, hr, ?_⟩
        have := points [94, 45] items more (by intro c hc; simp at hc; rcases hc with rfl | rfl; exact scalar_94; exact scalar_45) h hbn
        rw [show ([94, 45] : List Nat).flatMap utf16 = [CARET, HYPHEN] by decide] at this
        unfold clazz
        rw [this]
        dsimp only [List.cons_append]
        rw [if_pos rfl, if_neg (by simp)]
        have hm : members (45 :: ([] ++ (content items [a] ++ a :: 45 :: b :: codePoints more))) = .bad := by
          rw [members.eq_def]
          exact (members_wide h hl hw hb1 hb2 hba).2 45
        rw [hm]
    | false =>
      show Rejected (outside G (91 :: 33 :: (items.flatMap Item.write ++ (utf16 a ++ 45 :: (utf16 b ++ t))))) ∨
        ∃ c ts, outside G (91 :: 33 :: (items.flatMap Item.write ++ (utf16 a ++ 45 :: (utf16 b ++ t)))) = _ ∧ _
      have hx : ∃ x l, items.flatMap Item.write ++ (utf16 a ++ 45 :: (utf16 b ++ t)) = x :: l ∧ x ≠ HYPHEN := by
        cases items with
        | nil => exact ⟨hi a, lo a :: 45 :: (utf16 b ++ t), by rw [utf16_wide hw]; rfl, hi_ne (scalar_lt ha) (by decide)⟩
        | cons i is =>
          obtain ⟨n, l, hx, hh, hs, _⟩ := first_not_hyphen (is := is) (h i (by simp))
          exact ⟨firstUnit n, _, by rw [hx]; rfl, fun e => hh ((firstUnit_eq (c := HYPHEN) (scalar_lt hs) (by decide)).1 e)⟩
      obtain ⟨x, l, hx, hne⟩ := hx
      have key := key [CARET] false 0
      rw [hx] at key ⊢
      rw [outside_lbrack, if_neg (by decide), if_pos rfl]
      dsimp only
      rw [if_neg hne]
      rcases key with hr | ⟨hbn, hb1, hb2, hba, more, ts, hr⟩
      · exact .inl hr
      · refine .inr ⟨_, ts, hr, ?_⟩
        have := points [94] items more (by intro c hc; simp at hc; rw [hc]; exact scalar_94) h hbn
        rw [show ([94] : List Nat).flatMap utf16 = [CARET] by decide] at this
        unfold clazz
        rw [this]
        dsimp only [List.cons_append, List.nil_append]
        rw [if_pos rfl, if_neg (by simp), (members_wide h hl hw hb1 hb2 hba).1]
  | false =>
    cases hyphen with
    | true =>
      show Rejected (outside G (91 :: 45 :: _)) ∨ ∃ c ts, outside G (91 :: 45 :: _) = _ ∧ _
      rw [outside_lbrack, if_neg (by decide), if_neg (by decide), if_pos (by decide)]
      rcases key [HYPHEN] false 0 with hr | ⟨hbn, hb1, hb2, hba, more, ts, hr⟩
      · exact .inl hr
      · refine .inr ⟨_, ts, hr, ?_⟩
        have := points [45] items more (by intro c hc; simp at hc; rw [hc]; exact scalar_45) h hbn
        rw [show ([45] : List Nat).flatMap utf16 = [HYPHEN] by decide] at this
        unfold clazz
        rw [this]
        dsimp only [List.cons_append, List.nil_append]
        rw [if_neg (by decide), members.eq_def]
        exact (members_wide h hl hw hb1 hb2 hba).2 45
    | false =>
      show Rejected (outside G (91 :: (items.flatMap Item.write ++ (utf16 a ++ 45 :: (utf16 b ++ t))))) ∨
        ∃ c ts, outside G (91 :: (items.flatMap Item.write ++ (utf16 a ++ 45 :: (utf16 b ++ t)))) = _ ∧ _
      have hf := hf rfl rfl
      by_cases hc : ∃ is, items = .char 94 :: is
      · obtain ⟨is, rfl⟩ := hc
        have his : ∀ i ∈ is, i.Ok := fun i hi => h i (by simp [hi])
        have hlis : ∀ c, .trailing c ∉ is := fun c hc => hl c (by simp [hc])
        rw [List.flatMap_cons, show Item.write (.char 94) = [CARET] by decide, List.append_assoc, List.singleton_append, outside_lbrack, if_pos rfl]
        rcases inside_wide (G := G) (t := t) his hlis ha hw hb hb' [BACKSLASH, CARET] false 0 with hr | ⟨hbn, hb1, hb2, hba, more, ts, hr⟩
        · exact .inl hr
        · refine .inr ⟨_, ts, hr, ?_⟩
          have := points [92, 94] is more (by intro c hc; simp at hc; rcases hc with rfl | rfl; exact scalar_92; exact scalar_94) his hbn
          rw [show ([92, 94] : List Nat).flatMap utf16 = [BACKSLASH, CARET] by decide] at this
          unfold clazz
          rw [this]
          dsimp only [List.cons_append, List.nil_append]
          rw [if_neg (by decide), members.eq_def]
          exact (members_wide his hlis hw hb1 hb2 hba).2 94
      · have hx : ∃ n l, items.flatMap Item.write ++ (utf16 a ++ 45 :: (utf16 b ++ t)) = firstUnit n :: l ∧ n ≠ 45 ∧ n ≠ 33 ∧ n ≠ 94 ∧ n < 0x110000 := by
          cases items with
          | nil =>
            obtain ⟨l, hl⟩ := utf16_first (n := a)
            have := scalar_lt ha
            unfold Wide at hw
            exact ⟨a, l ++ 45 :: (utf16 b ++ t), by rw [hl]; rfl, by omega, by omega, by omega, by omega⟩
          | cons i is =>
            obtain ⟨n, l, hx, hh, hs, r, hr⟩ := first_not_hyphen (is := is) (h i (by simp))
            have hf := hf.resolve_left (by simp)
            have n94 : n ≠ 94 ∧ n ≠ 33 := by
              cases i with
              | char c =>
                obtain rfl : c = n := (List.cons.inj hr).1
                exact ⟨fun e => hc ⟨is, by rw [e]⟩, hf⟩
              | range a b =>
                obtain rfl : a = n := (List.cons.inj hr).1
                exact ⟨hf.2, hf.1⟩
              | trailing c =>
                obtain rfl : c = n := (List.cons.inj hr).1
                exact ⟨hf.2, hf.1⟩
            exact ⟨n, _, by rw [hx]; rfl, hh, n94.2, n94.1, scalar_lt hs⟩
        obtain ⟨n, l, hx, n45, n33, n94, hnl⟩ := hx
        have key := key [] false 0
        rw [hx] at key ⊢
        rw [outside_lbrack, if_neg (fun e => n94 ((firstUnit_eq (c := CARET) hnl (by decide)).1 e)), if_neg (fun e => n33 ((firstUnit_eq (c := 33) hnl (by decide)).1 e)),
          if_neg (fun e => n45 ((firstUnit_eq (c := HYPHEN) hnl (by decide)).1 e))]
        rcases key with hr | ⟨hbn, hb1, hb2, hba, more, ts, hr⟩
        · exact .inl hr
        · refine .inr ⟨_, ts, hr, ?_⟩
          have := points [] items more (by simp) h hbn
          rw [List.flatMap_nil, List.nil_append, List.nil_append] at this
          unfold clazz
          rw [List.nil_append, this]
          have hm := (members_wide (r := codePoints more) h hl hw hb1 hb2 hba).1
          have hh : (content items [a] ++ a :: 45 :: b :: codePoints more).head? ≠ some 94 := by
            cases items with
            | nil =>
              intro e
              have : a = 94 := Option.some.inj e
              unfold Wide at hw; omega
            | cons i is =>
              rw [List.head?_append_of_ne_nil _ (content_ne_nil (by simp))]
              exact content_head (hf.resolve_left (by simp)) (fun is' e => hc ⟨is', e⟩)
          cases hcc : content items [a] ++ a :: 45 :: b :: codePoints more with
          | nil => simp at hcc
          | cons x xs =>
            rw [hcc] at hm hh
            dsimp only
            rw [if_neg (fun e => hh (by rw [e]; rfl)), hm]

/-- A class that cannot be read, after a correct beginning. -/
theorem rejected_bad {odd : PathMatchers.GlobCompiler} {ps : List Piece} (h : GlobOk ps) {g c : JStr} {ts : List Tok} (hg : g.head? ≠ some 42)
    (ho : outside false g = .ok (.cls c :: ts)) (hc : clazz c = .bad) : getPathMatcher odd (writeGlob ps ++ g) = .error .illegalArgument := by
  unfold getPathMatcher
  rw [outside_before h hg, ho]
  have hf : (ps.flatMap pieceToks ++ Tok.cls c :: ts).find? (fun t => t.isOdd || t.isBad) = some (Tok.cls c) := by
    rw [List.find?_append, List.find?_eq_none.2 (fun t ht => by rw [(glob_readable h t ht).1, (glob_readable h t ht).2]; decide), Option.none_or, List.find?_cons_of_pos]
    simp [Tok.isBad, hc]
  show (match (ps.flatMap pieceToks ++ Tok.cls c :: ts).find? (fun t => t.isOdd || t.isBad) with
    | some t => if t.isOdd then odd (writeGlob ps ++ g) else syntaxError
    | none => return fun path => matchAtoms (parse [] (ps.flatMap pieceToks ++ Tok.cls c :: ts)) (codePoints (pathString path))) = _
  rw [hf]
  simp [Tok.isOdd, hc, syntaxError]

end GlobL
end Spec
end JFTP
