import Verif.Props.Process
import Verif.Spec.Schema

/-!
C70: the published schema of options files and the files the CLI accepts.
-/

namespace JFTP
open Spec Cli

namespace Schema70
open Cli.Schema

/-! ### The matcher schema -/

/-- The documents the matcher schema accepts. -/
inductive IsMatcher : Json → Prop where
  | plain {fs t} : t = j!"everything" ∨ t = j!"nothing" → field fs j!"type" = some (.str t) → (∀ f ∈ fs, f.1 = j!"type") → IsMatcher (.obj fs)
  | nested {fs t es} : t = j!"allOf" ∨ t = j!"anyOf" ∨ t = j!"noneOf" → field fs j!"type" = some (.str t) → field fs j!"matchers" = some (.arr es) →
      (∀ f ∈ fs, f.1 = j!"type" ∨ f.1 = j!"matchers") → (∀ e ∈ es, IsMatcher e) → IsMatcher (.obj fs)
  | glob {fs t g} : t = j!"name" ∨ t = j!"path" → field fs j!"type" = some (.str t) → field fs j!"glob" = some (.str g) →
      (∀ f ∈ fs, f.1 = j!"type" ∨ f.1 = j!"glob") → IsMatcher (.obj fs)

theorem oneOf_exclusive {ss : List Schema} {j : Json} (h : ss.Pairwise (fun s s' => ¬ (s j = true ∧ s' j = true))) : oneOf ss j = ss.any (fun s => s j) := by
  unfold oneOf
  induction ss with
  | nil => rfl
  | cons s ss ih =>
    obtain ⟨h1, h2⟩ := List.pairwise_cons.1 h
    have ih := ih h2
    cases hs : s j with
    | false => simp only [List.filter_cons, hs, Bool.false_eq_true, if_false, List.any_cons, Bool.false_or]; exact ih
    | true =>
      have h3 : ss.filter (fun s => s j) = [] := by
        rw [List.filter_eq_nil_iff]
        intro s' hs' h4
        exact h1 s' hs' ⟨hs, h4⟩
      simp [hs, h3]

theorem const_iff {s : JStr} {j : Json} : const s j = true ↔ j = .str s := by
  unfold const
  split
  · simp
  · rename_i h; simp; intro h'; exact h _ h'

theorem typeArray_iff {j : Json} : typeArray j = true ↔ ∃ es, j = .arr es := by
  cases j <;> simp [typeArray]

theorem typeString_iff {j : Json} : typeString j = true ↔ ∃ s, j = .str s := by
  cases j <;> simp [typeString]

theorem typeInteger_iff {j : Json} : typeInteger j = true ↔ ∃ n, j = .int n := by
  cases j <;> simp [typeInteger]

theorem typeBoolean_iff {j : Json} : typeBoolean j = true ↔ ∃ b, j = .bool b := by
  cases j <;> simp [typeBoolean]

theorem object_iff {ks : List Schema} {j : Json} : object ks j = true ↔ ∀ k ∈ ks, k j = true := by
  simp [object]

theorem properties_iff {ps : List (JStr × Schema)} {fs : List (JStr × Json)} : properties ps (.obj fs) = true ↔ ∀ p ∈ ps, ∀ v, field fs p.1 = some v → p.2 v = true := by
  simp only [properties, List.all_eq_true]
  refine forall_congr' fun p => forall_congr' fun _ => ?_
  cases field fs p.1 <;> simp

theorem required_iff {ks : List JStr} {fs : List (JStr × Json)} : required ks (.obj fs) = true ↔ ∀ k ∈ ks, ∃ v, field fs k = some v := by
  simp [required, Option.isSome_iff_exists]

theorem noOthers_iff {ks : List JStr} {fs : List (JStr × Json)} : noOthers ks (.obj fs) = true ↔ ∀ f ∈ fs, f.1 ∈ ks := by
  simp [noOthers]

/-- A record schema with a fixed type property. -/
theorem tagged_iff {t : JStr} {ps : List (JStr × Schema)} {rs : List JStr} {ks : List JStr} {fs : List (JStr × Json)} :
    object [properties ((j!"type", const t) :: ps), required (j!"type" :: rs), noOthers ks] (.obj fs) = true ↔
      field fs j!"type" = some (.str t) ∧ (∀ p ∈ ps, ∀ v, field fs p.1 = some v → p.2 v = true) ∧ (∀ k ∈ rs, ∃ v, field fs k = some v) ∧ ∀ f ∈ fs, f.1 ∈ ks := by
  simp only [object_iff, List.mem_cons, List.not_mem_nil, or_false, forall_eq_or_imp, forall_eq, properties_iff, required_iff, noOthers_iff, const_iff]
  constructor
  · rintro ⟨⟨h1, h2⟩, ⟨⟨v, hv⟩, h3⟩, h4⟩
    exact ⟨by rw [hv, h1 v hv], h2, h3, h4⟩
  · rintro ⟨h1, h2, h3, h4⟩
    refine ⟨⟨fun v hv => ?_, h2⟩, ⟨⟨_, h1⟩, h3⟩, h4⟩
    rw [h1] at hv
    cases hv
    rfl

theorem tagged_exclusive {t t' : JStr} (h : t ≠ t') {ps ps' : List (JStr × Schema)} {rs rs' : List JStr} {ks ks' : List JStr} {fs : List (JStr × Json)} :
    ¬ (object [properties ((j!"type", const t) :: ps), required (j!"type" :: rs), noOthers ks] (.obj fs) = true ∧
      object [properties ((j!"type", const t') :: ps'), required (j!"type" :: rs'), noOthers ks'] (.obj fs) = true) := by
  rw [tagged_iff, tagged_iff]
  rintro ⟨⟨h1, _⟩, ⟨h2, _⟩⟩
  rw [h1] at h2
  cases h2
  exact h rfl

theorem height_item {e : Json} {es : List Json} (h : e ∈ es) : height e ≤ heightItems es := by
  induction es with
  | nil => cases h
  | cons a es ih =>
    unfold heightItems
    rcases List.mem_cons.1 h with rfl | h
    · omega
    · have := ih h; omega

theorem height_field {fs : List (JStr × Json)} {k : JStr} {v : Json} (h : field fs k = some v) : height v ≤ heightFields fs := by
  induction fs with
  | nil => cases h
  | cons a fs ih =>
    obtain ⟨n, w⟩ := a
    unfold field at h
    unfold heightFields
    split at h
    · cases h; omega
    · have := ih h; omega

theorem matcher_iff (n : Nat) : ∀ j, height j ≤ n → (matcher n j = true ↔ IsMatcher j) := by
  induction n with
  | zero => intro j h; cases j <;> simp [height] at h
  | succ n ih =>
    intro j hj
    cases j with
    | obj fs =>
      have hn : ∀ k es, field fs k = some (.arr es) → (items (matcher n) (.arr es) = true ↔ ∀ e ∈ es, IsMatcher e) := by
        intro k es hes
        simp only [items, List.all_eq_true]
        refine forall_congr' fun e => forall_congr' fun he => ih e ?_
        have h1 := height_field hes
        have h2 := height_item he
        simp only [height] at h1 hj
        omega
      have hm : ∀ t, (object [properties [(j!"type", const t), (j!"matchers", object [typeArray, items (matcher n)])], required [j!"type", j!"matchers"], noOthers [j!"type", j!"matchers"]] (.obj fs) = true ↔
          field fs j!"type" = some (.str t) ∧ ∃ es, field fs j!"matchers" = some (.arr es) ∧ (∀ e ∈ es, IsMatcher e) ∧ ∀ f ∈ fs, f.1 = j!"type" ∨ f.1 = j!"matchers") := by
        intro t
        rw [tagged_iff]
        simp only [List.mem_cons, List.not_mem_nil, or_false, forall_eq, object_iff, forall_eq_or_imp, typeArray_iff]
        constructor
        · rintro ⟨h1, h2, ⟨v, hv⟩, h4⟩
          obtain ⟨⟨es, rfl⟩, h5⟩ := h2 v hv
          exact ⟨h1, es, hv, (hn _ es hv).1 h5, h4⟩
        · rintro ⟨h1, es, hv, h5, h4⟩
          refine ⟨h1, fun v hv' => ?_, ⟨_, hv⟩, h4⟩
          rw [hv] at hv'
          cases hv'
          exact ⟨⟨es, rfl⟩, (hn _ es hv).2 h5⟩
      have hg : ∀ t, (object [properties [(j!"type", const t), (j!"glob", typeString)], required [j!"type", j!"glob"], noOthers [j!"type", j!"glob"]] (.obj fs) = true ↔
          field fs j!"type" = some (.str t) ∧ ∃ g, field fs j!"glob" = some (.str g) ∧ ∀ f ∈ fs, f.1 = j!"type" ∨ f.1 = j!"glob") := by
        intro t
        rw [tagged_iff]
        simp only [List.mem_cons, List.not_mem_nil, or_false, forall_eq, typeString_iff]
        constructor
        · rintro ⟨h1, h2, ⟨v, hv⟩, h4⟩
          obtain ⟨g, rfl⟩ := h2 v hv
          exact ⟨h1, g, hv, h4⟩
        · rintro ⟨h1, g, hv, h4⟩
          refine ⟨h1, fun v hv' => ?_, ⟨_, hv⟩, h4⟩
          rw [hv] at hv'
          cases hv'
          exact ⟨g, rfl⟩
      have hp : ∀ t, (object [properties [(j!"type", const t)], required [j!"type"], noOthers [j!"type"]] (.obj fs) = true ↔
          field fs j!"type" = some (.str t) ∧ ∀ f ∈ fs, f.1 = j!"type") := by
        intro t
        rw [tagged_iff]
        simp
      unfold matcher
      rw [object_iff]
      simp only [List.mem_cons, List.not_mem_nil, or_false, forall_eq_or_imp, forall_eq, typeObject, true_and]
      rw [oneOf_exclusive]
      · simp only [List.any_cons, List.any_nil, Bool.or_false, Bool.or_eq_true, hp, hm, hg]
        constructor
        · rintro (⟨h1, h2⟩ | ⟨h1, h2⟩ | ⟨h1, es, h2, h3, h4⟩ | ⟨h1, es, h2, h3, h4⟩ | ⟨h1, es, h2, h3, h4⟩ | ⟨h1, g, h2, h3⟩ | ⟨h1, g, h2, h3⟩)
          · exact .plain (.inl rfl) h1 h2
          · exact .plain (.inr rfl) h1 h2
          · exact .nested (.inl rfl) h1 h2 h4 h3
          · exact .nested (.inr (.inl rfl)) h1 h2 h4 h3
          · exact .nested (.inr (.inr rfl)) h1 h2 h4 h3
          · exact .glob (.inl rfl) h1 h2 h3
          · exact .glob (.inr rfl) h1 h2 h3
        · intro h
          cases h with
          | plain ht h1 h2 =>
            rcases ht with rfl | rfl
            · exact .inl ⟨h1, h2⟩
            · exact .inr (.inl ⟨h1, h2⟩)
          | nested ht h1 h2 h3 h4 =>
            rcases ht with rfl | rfl | rfl
            · exact .inr (.inr (.inl ⟨h1, _, h2, h4, h3⟩))
            · exact .inr (.inr (.inr (.inl ⟨h1, _, h2, h4, h3⟩)))
            · exact .inr (.inr (.inr (.inr (.inl ⟨h1, _, h2, h4, h3⟩))))
          | glob ht h1 h2 h3 =>
            rcases ht with rfl | rfl
            · exact .inr (.inr (.inr (.inr (.inr (.inl ⟨h1, _, h2, h3⟩)))))
            · exact .inr (.inr (.inr (.inr (.inr (.inr ⟨h1, _, h2, h3⟩)))))
      · simp only [List.pairwise_cons, List.mem_cons, List.not_mem_nil, or_false, forall_eq_or_imp, forall_eq, List.Pairwise.nil, and_true, IsEmpty.forall_iff, implies_true]
        refine ⟨⟨?_, ?_, ?_, ?_, ?_, ?_⟩, ⟨?_, ?_, ?_, ?_, ?_⟩, ⟨?_, ?_, ?_, ?_⟩, ⟨?_, ?_, ?_⟩, ⟨?_, ?_⟩, ?_⟩ <;> exact tagged_exclusive (by decide)
    | _ =>
      constructor
      · intro h; simp [matcher, object, typeObject] at h
      · intro h; cases h

theorem refMatcher_iff {j : Json} : refMatcher j = true ↔ IsMatcher j := matcher_iff _ j (Nat.le_refl _)

/-- The bound on references does not matter. -/
theorem matcher_enough {n : Nat} {j : Json} (h : height j ≤ n) : matcher n j = refMatcher j := by
  rw [Bool.eq_iff_iff, refMatcher_iff, matcher_iff n j h]

/-! ### Binding -/

theorem field_mem {fs : List (JStr × Json)} {k : JStr} {v : Json} (h : field fs k = some v) : (k, v) ∈ fs := by
  induction fs with
  | nil => cases h
  | cons a fs ih =>
    obtain ⟨n, w⟩ := a
    unfold field at h
    split at h
    · rename_i hk; cases h; simp [hk]
    · exact List.mem_cons_of_mem _ (ih h)

theorem matcherItems_eq (es : List Json) : Bind.matcherItems es = es.mapM (Bind.nullable Bind.matcher) := by
  induction es with
  | nil => rfl
  | cons e es ih => rw [Bind.matcherItems, ih]; cases e <;> simp [Bind.isNull, Bind.nullable]

theorem matchersComponent_eq (fs : List (JStr × Json)) : Bind.matchersComponent fs = Bind.component (Bind.list Bind.matcher) fs j!"matchers" := by
  unfold Bind.component
  induction fs with
  | nil => rfl
  | cons a fs ih =>
    obtain ⟨k, v⟩ := a
    rw [Bind.matchersComponent, field]
    split
    · cases v <;> simp [Bind.matchersValue, Bind.nullable, Bind.list, matcherItems_eq]
    · exact ih

/-- For documents that the schema accepts: a number that is too big makes the binding fail, otherwise it succeeds, and the result satisfies `V` exactly if the document has no forbidden empty value. -/
def Agrees {α : Type} (s : Json → Prop) (b : Bind α) (V : α → Prop) : Prop :=
  ∀ j, s j → j ≠ .null ∧ (HasBigInt j → b j = none) ∧ (¬ HasBigInt j → ∃ x, b j = some x ∧ (V x ↔ ¬ HasEmpty j))

theorem agrees_list {α : Type} {s : Json → Prop} {b : Bind α} {V : α → Prop} (h : Agrees s b V) :
    Agrees (fun j => ∃ es, j = .arr es ∧ ∀ e ∈ es, s e) (Bind.list b) (fun l => ∀ x ∈ l, ∃ y, x = some y ∧ V y) := by
  rintro _ ⟨es, rfl, hs⟩
  refine ⟨by simp, ?_⟩
  have hB : ∀ es, HasBigInt (.arr es) ↔ ∃ e ∈ es, HasBigInt e :=
    fun es => ⟨fun h => by cases h with | inList h h' => exact ⟨_, h, h'⟩, fun ⟨e, h, h'⟩ => .inList h h'⟩
  have hE : ∀ es, HasEmpty (.arr es) ↔ ∃ e ∈ es, HasEmpty e :=
    fun es => ⟨fun h => by cases h with | inList h h' => exact ⟨_, h, h'⟩, fun ⟨e, h, h'⟩ => .inList h h'⟩
  rw [hB, hE]
  unfold Bind.list
  simp only
  induction es with
  | nil => exact ⟨fun ⟨e, he, _⟩ => (by cases he), fun _ => ⟨[], rfl, by simp⟩⟩
  | cons e es ih =>
    obtain ⟨hn, h1, h2⟩ := h e (hs e (by simp))
    obtain ⟨i1, i2⟩ := ih (fun e he => hs e (by simp [he]))
    have hb : Bind.nullable b e = (b e).map some := by cases e <;> simp_all [Bind.nullable]
    rw [List.mapM_cons, hb]
    constructor
    · rintro ⟨e', he', hb'⟩
      rcases List.mem_cons.1 he' with rfl | he'
      · rw [h1 hb']; rfl
      · rw [i1 ⟨e', he', hb'⟩]
        cases (b e).map some <;> rfl
    · intro hno
      obtain ⟨x, hx, hv⟩ := h2 (fun h => hno ⟨e, by simp, h⟩)
      obtain ⟨xs, hxs, hvs⟩ := i2 (fun ⟨e', he', h⟩ => hno ⟨e', by simp [he'], h⟩)
      rw [hx, hxs]
      refine ⟨some x :: xs, rfl, ?_⟩
      simp only [List.mem_cons, forall_eq_or_imp, exists_eq_or_imp, not_or, Option.some.injEq, exists_eq_left', hv, hvs]

theorem big_obj {fs : List (JStr × Json)} : HasBigInt (.obj fs) ↔ ∃ k v, field fs k = some v ∧ HasBigInt v :=
  ⟨fun h => by cases h with | inProperty h h' => exact ⟨_, _, h, h'⟩, fun ⟨_, _, h, h'⟩ => .inProperty h h'⟩

theorem big_str {s : JStr} : ¬ HasBigInt (.str s) := fun h => nomatch h
theorem big_bool {s : Bool} : ¬ HasBigInt (.bool s) := fun h => nomatch h
theorem empty_str {s : JStr} : ¬ HasEmpty (.str s) := fun h => nomatch h
theorem empty_bool {s : Bool} : ¬ HasEmpty (.bool s) := fun h => nomatch h
theorem empty_int {n : Int} : ¬ HasEmpty (.int n) := fun h => nomatch h

theorem empty_obj {fs : List (JStr × Json)} : HasEmpty (.obj fs) ↔ field fs j!"matchers" = some (.arr []) ∨ field fs j!"limits" = some (.arr []) ∨ field fs j!"glob" = some (.str []) ∨
    ∃ k v, field fs k = some v ∧ HasEmpty v := by
  constructor
  · intro h
    cases h with
    | matchers h => exact .inl h
    | limits h => exact .inr (.inl h)
    | glob h => exact .inr (.inr (.inl h))
    | inProperty h h' => exact .inr (.inr (.inr ⟨_, _, h, h'⟩))
  · rintro (h | h | h | ⟨k, v, h, h'⟩)
    · exact .matchers h
    · exact .limits h
    · exact .glob h
    · exact .inProperty h h'

/-- A property whose name is not used does not exist. -/
theorem field_none {fs : List (JStr × Json)} {ks : List JStr} (h : ∀ f ∈ fs, f.1 ∈ ks) {k : JStr} (hk : k ∉ ks) : field fs k = none := by
  cases hf : field fs k with
  | none => rfl
  | some v => exact absurd (h _ (field_mem hf)) hk

theorem field_known {fs : List (JStr × Json)} {ks : List JStr} (h : ∀ f ∈ fs, f.1 ∈ ks) {k : JStr} {v : Json} (hf : field fs k = some v) : k ∈ ks := h _ (field_mem hf)

theorem mapM_some_length {α β : Type} {f : α → Option β} : ∀ {l : List α} {xs : List β}, l.mapM f = some xs → l.length = xs.length
  | [], xs, h => by simp at h; subst h; rfl
  | a :: l, xs, h => by
    rw [List.mapM_cons] at h
    cases hf : f a with
    | none => rw [hf] at h; cases h
    | some b =>
      cases hl : l.mapM f with
      | none => rw [hf, hl] at h; cases h
      | some ys =>
        rw [hf, hl] at h
        cases h
        simp [mapM_some_length hl]

theorem agrees_matcher : Agrees IsMatcher Bind.matcher (fun d => d.valid = true) := by
  intro j hj
  induction hj with
  | @plain fs t ht h1 h2 =>
    have h2' : ∀ f ∈ fs, f.1 ∈ [j!"type"] := fun f hf => by simp [h2 f hf]
    have hB : ¬ HasBigInt (.obj fs) := by
      rw [big_obj]
      rintro ⟨k, v, hk, hv⟩
      have := field_known h2' hk
      simp at this
      subst this
      rw [h1] at hk
      cases hk
      exact big_str hv
    have hE : ¬ HasEmpty (.obj fs) := by
      rw [empty_obj, field_none h2' (k := j!"matchers") (by decide), field_none h2' (k := j!"limits") (by decide), field_none h2' (k := j!"glob") (by decide)]
      rintro (h | h | h | ⟨k, v, hk, hv⟩)
      · cases h
      · cases h
      · cases h
      · have := field_known h2' hk
        simp at this
        subst this
        rw [h1] at hk
        cases hk
        exact empty_str hv
    refine ⟨by simp, fun h => absurd h hB, fun _ => ?_⟩
    rcases ht with rfl | rfl
    · exact ⟨.alwaysTrue, by rw [Bind.matcher, h1]; rfl, by simp [MatcherDoc.valid, hE]⟩
    · exact ⟨.alwaysFalse, by rw [Bind.matcher, h1]; rfl, by simp [MatcherDoc.valid, hE]⟩
  | @nested fs t es ht h1 h2 h3 h4 ih =>
    have h3' : ∀ f ∈ fs, f.1 ∈ [j!"type", j!"matchers"] := fun f hf => by simpa using h3 f hf
    obtain ⟨_, l1, l2⟩ := agrees_list (s := fun e => e ∈ es) (fun e he => ih e he) (.arr es) ⟨es, rfl, fun e he => he⟩
    have hB : HasBigInt (.obj fs) ↔ HasBigInt (.arr es) := by
      rw [big_obj]
      constructor
      · rintro ⟨k, v, hk, hv⟩
        have := field_known h3' hk
        simp at this
        rcases this with rfl | rfl
        · rw [h1] at hk; cases hk; exact absurd hv big_str
        · rw [h2] at hk; cases hk; exact hv
      · intro h; exact ⟨_, _, h2, h⟩
    have hE : HasEmpty (.obj fs) ↔ es = [] ∨ HasEmpty (.arr es) := by
      rw [empty_obj, h2, field_none h3' (k := j!"limits") (by decide), field_none h3' (k := j!"glob") (by decide)]
      constructor
      · rintro (h | h | h | ⟨k, v, hk, hv⟩)
        · cases h; exact .inl rfl
        · cases h
        · cases h
        · have := field_known h3' hk
          simp at this
          rcases this with rfl | rfl
          · rw [h1] at hk; cases hk; exact absurd hv empty_str
          · rw [h2] at hk; cases hk; exact .inr hv
      · rintro (rfl | h)
        · exact .inl rfl
        · exact .inr (.inr (.inr ⟨_, _, h2, h⟩))
    have hc : Bind.matchersComponent fs = (Bind.list Bind.matcher (.arr es)).map some := by
      rw [matchersComponent_eq]; unfold Bind.component; rw [h2]; rfl
    have hvi : ∀ xs, MatcherDoc.validItems xs = true ↔ ∀ x ∈ xs, ∃ y : MatcherDoc, x = some y ∧ y.valid = true := by
      intro xs
      induction xs with
      | nil => simp [MatcherDoc.validItems]
      | cons x xs ihx => cases x <;> simp [MatcherDoc.validItems, ihx]
    refine ⟨by simp, fun h => ?_, fun h => ?_⟩
    · rw [hB] at h
      rw [Bind.matcher, h1]
      rcases ht with rfl | rfl | rfl <;> simp [hc, l1 h]
    · rw [hB] at h
      obtain ⟨xs, hxs, hv⟩ := l2 h
      have hlen : xs = [] ↔ es = [] := by
        unfold Bind.list at hxs
        simp only at hxs
        have := mapM_some_length hxs
        rw [← List.length_eq_zero_iff, ← List.length_eq_zero_iff, this]
      have hval : MatcherDoc.validList (some xs) = true ↔ ¬ HasEmpty (.obj fs) := by
        simp only [MatcherDoc.validList, Bool.and_eq_true, hvi, hv, hE, not_or, ← hlen]
        simp
      rcases ht with rfl | rfl | rfl
      · exact ⟨.allOf (some xs), by rw [Bind.matcher, h1]; simp [hc, hxs], by simp only [MatcherDoc.valid]; exact hval⟩
      · exact ⟨.anyOf (some xs), by rw [Bind.matcher, h1]; simp [hc, hxs], by simp only [MatcherDoc.valid]; exact hval⟩
      · exact ⟨.noneOf (some xs), by rw [Bind.matcher, h1]; simp [hc, hxs], by simp only [MatcherDoc.valid]; exact hval⟩
  | @glob fs t g ht h1 h2 h3 =>
    have h3' : ∀ f ∈ fs, f.1 ∈ [j!"type", j!"glob"] := fun f hf => by simpa using h3 f hf
    have hB : ¬ HasBigInt (.obj fs) := by
      rw [big_obj]
      rintro ⟨k, v, hk, hv⟩
      have := field_known h3' hk
      simp at this
      rcases this with rfl | rfl
      · rw [h1] at hk; cases hk; exact big_str hv
      · rw [h2] at hk; cases hk; exact big_str hv
    have hE : HasEmpty (.obj fs) ↔ g = [] := by
      rw [empty_obj, h2, field_none h3' (k := j!"limits") (by decide), field_none h3' (k := j!"matchers") (by decide)]
      constructor
      · rintro (h | h | h | ⟨k, v, hk, hv⟩)
        · cases h
        · cases h
        · cases h; rfl
        · have := field_known h3' hk
          simp at this
          rcases this with rfl | rfl
          · rw [h1] at hk; cases hk; exact absurd hv empty_str
          · rw [h2] at hk; cases hk; exact absurd hv empty_str
      · rintro rfl
        exact .inr (.inr (.inl rfl))
    have hc : Bind.component Bind.str fs j!"glob" = some (some g) := by unfold Bind.component; rw [h2]; rfl
    refine ⟨by simp, fun h => absurd h hB, fun _ => ?_⟩
    rcases ht with rfl | rfl
    · exact ⟨.nameGlob (some g), by rw [Bind.matcher, h1]; simp [hc], by simp [MatcherDoc.valid, MatcherDoc.validGlob, hE]⟩
    · exact ⟨.pathGlob (some g), by rw [Bind.matcher, h1]; simp [hc], by simp [MatcherDoc.valid, MatcherDoc.validGlob, hE]⟩

/-- A number that is too big in property `k`. -/
def Big (fs : List (JStr × Json)) (k : JStr) : Prop := ∃ v, field fs k = some v ∧ HasBigInt v

/-- A forbidden empty value inside property `k`. -/
def Emp (fs : List (JStr × Json)) (k : JStr) : Prop := ∃ v, field fs k = some v ∧ HasEmpty v

theorem big_known {fs : List (JStr × Json)} {ks : List JStr} (h : ∀ f ∈ fs, f.1 ∈ ks) : HasBigInt (.obj fs) ↔ ∃ k ∈ ks, Big fs k := by
  rw [big_obj]
  exact ⟨fun ⟨k, v, h1, h2⟩ => ⟨k, field_known h h1, v, h1, h2⟩, fun ⟨k, _, v, h1, h2⟩ => ⟨k, v, h1, h2⟩⟩

theorem empty_known {fs : List (JStr × Json)} {ks : List JStr} (h : ∀ f ∈ fs, f.1 ∈ ks) (h1 : j!"matchers" ∉ ks) (h2 : j!"limits" ∉ ks) (h3 : j!"glob" ∉ ks) :
    HasEmpty (.obj fs) ↔ ∃ k ∈ ks, Emp fs k := by
  rw [empty_obj, field_none h h1, field_none h h2, field_none h h3]
  simp only [reduceCtorEq, false_or]
  exact ⟨fun ⟨k, v, h1, h2⟩ => ⟨k, field_known h h1, v, h1, h2⟩, fun ⟨k, _, v, h1, h2⟩ => ⟨k, v, h1, h2⟩⟩

/-- A property that may be missing. -/
theorem agrees_component {α : Type} {s : Json → Prop} {b : Bind α} {V : α → Prop} (h : Agrees s b V) {fs : List (JStr × Json)} {k : JStr} (hs : ∀ v, field fs k = some v → s v) :
    (Big fs k → Bind.component b fs k = none) ∧
    (¬ Big fs k → ∃ x, Bind.component b fs k = some x ∧ ((∀ y, x = some y → V y) ↔ ¬ Emp fs k) ∧ (x = none ↔ field fs k = none)) := by
  unfold Bind.component Big Emp
  cases hf : field fs k with
  | none =>
    refine ⟨?_, fun _ => ⟨none, rfl, ?_, by simp⟩⟩
    · rintro ⟨v, hv, _⟩; cases hv
    · simp
  | some v =>
    obtain ⟨hn, h1, h2⟩ := h v (hs v hf)
    have hb : Bind.nullable b v = (b v).map some := by cases v <;> simp_all [Bind.nullable]
    simp only [hb, Option.some.injEq, exists_eq_left']
    refine ⟨fun h => by rw [h1 h]; rfl, fun h => ?_⟩
    obtain ⟨x, hx, hv⟩ := h2 h
    exact ⟨some x, by rw [hx]; rfl, by simpa using hv, by simp⟩

theorem agrees_int : Agrees (fun j => ∃ n, j = .int n) Bind.int (fun _ => True) := by
  rintro _ ⟨n, rfl⟩
  have hB : HasBigInt (.int n) ↔ n < -2147483648 ∨ 2147483647 < n := ⟨fun h => by cases h with | here h => exact h, .here⟩
  rw [hB]
  unfold Bind.int
  refine ⟨by simp, fun h => by simp only; rw [if_neg (by omega)], fun h => ⟨n, by simp only; rw [if_pos (by omega)], by simp [empty_int]⟩⟩

theorem agrees_bool : Agrees (fun j => ∃ n, j = .bool n) Bind.bool (fun _ => True) := by
  rintro _ ⟨n, rfl⟩
  exact ⟨by simp, fun h => absurd h big_bool, fun h => ⟨n, rfl, by simp [empty_bool]⟩⟩

theorem agrees_str : Agrees (fun j => ∃ n, j = .str n) Bind.str (fun _ => True) := by
  rintro _ ⟨n, rfl⟩
  exact ⟨by simp, fun h => absurd h big_str, fun h => ⟨n, rfl, by simp [empty_str]⟩⟩

/-- An entry of a dynamic limit. -/
def IsItem (j : Json) : Prop := ∃ fs, j = .obj fs ∧ (∃ n, field fs j!"limit" = some (.int n) ∧ -1 ≤ n) ∧ (∃ m, field fs j!"matcher" = some m ∧ IsMatcher m) ∧ ∀ f ∈ fs, f.1 ∈ [j!"limit", j!"matcher"]

theorem agrees_item : Agrees IsItem Bind.limitItem (fun i => validItem (some i) = true) := by
  rintro _ ⟨fs, rfl, ⟨n, hn, -⟩, ⟨m, hm, hM⟩, hk⟩
  obtain ⟨a1, a2⟩ := agrees_component agrees_int (fs := fs) (k := j!"limit") (fun v hv => ⟨n, by rw [hn] at hv; cases hv; rfl⟩)
  obtain ⟨b1, b2⟩ := agrees_component agrees_matcher (fs := fs) (k := j!"matcher") (fun v hv => by rw [hm] at hv; cases hv; exact hM)
  rw [big_known hk, empty_known hk (by decide) (by decide) (by decide)]
  simp only [List.mem_cons, List.not_mem_nil, or_false, exists_eq_or_imp, exists_eq_left]
  unfold Bind.limitItem
  simp only
  refine ⟨by simp, ?_, ?_⟩
  · rintro (h | h)
    · rw [a1 h]; rfl
    · rw [b1 h]; cases Bind.component Bind.int fs j!"limit" <;> rfl
  · intro h
    obtain ⟨x, hx, vx, sx⟩ := a2 (fun h' => h (.inl h'))
    obtain ⟨y, hy, vy, sy⟩ := b2 (fun h' => h (.inr h'))
    rw [hx, hy]
    refine ⟨⟨x, y⟩, rfl, ?_⟩
    rw [hn] at sx
    rw [hm] at sy
    cases x with
    | none => simp at sx
    | some x =>
      cases y with
      | none => simp at sy
      | some y => simp only [implies_true, true_iff] at vx; simp at vy; simp [validItem, validMatcher, vx, vy]

/-- A child limit. -/
inductive IsChildLimit : Json → Prop where
  | static {fs n} : field fs j!"type" = some (.str j!"static") → field fs j!"limit" = some (.int n) → (∀ f ∈ fs, f.1 ∈ [j!"type", j!"limit"]) → IsChildLimit (.obj fs)
  | dynamic {fs es} : field fs j!"type" = some (.str j!"dynamic") → field fs j!"limits" = some (.arr es) → (∀ e ∈ es, IsItem e) →
      (∀ f ∈ fs, f.1 ∈ [j!"type", j!"limits"]) → IsChildLimit (.obj fs)

theorem agrees_childLimit : Agrees IsChildLimit Bind.childLimit (fun c => c.valid = true) := by
  intro j hj
  cases hj with
  | @static fs n h1 h2 hk =>
    obtain ⟨a1, a2⟩ := agrees_component agrees_int (fs := fs) (k := j!"limit") (fun v hv => ⟨n, by rw [h2] at hv; cases hv; rfl⟩)
    have ht : ¬ Big fs j!"type" := by rintro ⟨v, hv, hb⟩; rw [h1] at hv; cases hv; exact big_str hb
    have ht' : ¬ Emp fs j!"type" := by rintro ⟨v, hv, hb⟩; rw [h1] at hv; cases hv; exact empty_str hb
    rw [big_known hk, empty_known hk (by decide) (by decide) (by decide)]
    simp only [List.mem_cons, List.not_mem_nil, or_false, exists_eq_or_imp, exists_eq_left, ht, ht', false_or]
    unfold Bind.childLimit
    simp only [h1]
    refine ⟨by simp, fun h => by rw [a1 h]; rfl, fun h => ?_⟩
    obtain ⟨x, hx, vx, sx⟩ := a2 h
    rw [hx]
    refine ⟨.static x, rfl, ?_⟩
    rw [h2] at sx
    cases x with
    | none => simp at sx
    | some x => simp only [implies_true, true_iff] at vx; simp [ChildLimitDoc.valid, vx]
  | @dynamic fs es h1 h2 h3 hk =>
    obtain ⟨a1, a2⟩ := agrees_component (agrees_list agrees_item) (fs := fs) (k := j!"limits") (fun v hv => ⟨es, by rw [h2] at hv; cases hv; rfl, h3⟩)
    have ht : ¬ Big fs j!"type" := by rintro ⟨v, hv, hb⟩; rw [h1] at hv; cases hv; exact big_str hb
    have hE : HasEmpty (.obj fs) ↔ es = [] ∨ Emp fs j!"limits" := by
      rw [empty_obj, field_none hk (k := j!"matchers") (by decide), field_none hk (k := j!"glob") (by decide), h2]
      constructor
      · rintro (h | h | h | ⟨k, v, hk', hv⟩)
        · cases h
        · cases h; exact .inl rfl
        · cases h
        · have := field_known hk hk'
          simp at this
          rcases this with rfl | rfl
          · rw [h1] at hk'; cases hk'; exact absurd hv empty_str
          · exact .inr ⟨v, hk', hv⟩
      · rintro (rfl | ⟨v, hv, h⟩)
        · exact .inr (.inl rfl)
        · exact .inr (.inr (.inr ⟨_, _, hv, h⟩))
    rw [big_known hk, hE]
    simp only [List.mem_cons, List.not_mem_nil, or_false, exists_eq_or_imp, exists_eq_left, ht, false_or]
    unfold Bind.childLimit
    simp only [h1]
    rw [if_neg (by decide), if_pos trivial]
    refine ⟨by simp, fun h => by rw [a1 h]; rfl, fun h => ?_⟩
    obtain ⟨x, hx, vx, sx⟩ := a2 h
    rw [hx]
    refine ⟨.dynamic x, rfl, ?_⟩
    cases x with
    | none => rw [h2] at sx; simp at sx
    | some xs =>
      have hlen : xs = [] ↔ es = [] := by
        unfold Bind.component at hx
        rw [h2] at hx
        simp only [Bind.nullable, Bind.list, Option.map_eq_some_iff] at hx
        obtain ⟨ys, hys, he⟩ := hx
        cases he
        have := mapM_some_length hys
        rw [← List.length_eq_zero_iff, ← List.length_eq_zero_iff, this]
      have hall : xs.all validItem = true ↔ ∀ x ∈ xs, ∃ y, x = some y ∧ validItem (some y) = true := by
        rw [List.all_eq_true]
        refine forall_congr' fun x => forall_congr' fun _ => ?_
        cases x <;> simp [validItem]
      simp only [Option.some.injEq, forall_eq'] at vx
      rw [not_or, ← vx, ← hlen, ← hall]
      simp [ChildLimitDoc.valid]

/-- A filter. -/
def IsFilter (j : Json) : Prop := ∃ fs, j = .obj fs ∧ (∀ v, field fs j!"dir" = some v → IsMatcher v) ∧ (∀ v, field fs j!"file" = some v → IsMatcher v) ∧ ∀ f ∈ fs, f.1 ∈ [j!"dir", j!"file"]

theorem agrees_filter : Agrees IsFilter Bind.filter (fun f => (validOptMatcher f.dir && validOptMatcher f.file) = true) := by
  rintro _ ⟨fs, rfl, hd, hf, hk⟩
  obtain ⟨a1, a2⟩ := agrees_component agrees_matcher (fs := fs) (k := j!"dir") hd
  obtain ⟨b1, b2⟩ := agrees_component agrees_matcher (fs := fs) (k := j!"file") hf
  rw [big_known hk, empty_known hk (by decide) (by decide) (by decide)]
  simp only [List.mem_cons, List.not_mem_nil, or_false, exists_eq_or_imp, exists_eq_left]
  unfold Bind.filter
  simp only
  refine ⟨by simp, ?_, ?_⟩
  · rintro (h | h)
    · rw [a1 h]; rfl
    · rw [b1 h]; cases Bind.component Bind.matcher fs j!"dir" <;> rfl
  · intro h
    obtain ⟨x, hx, vx, sx⟩ := a2 (fun h' => h (.inl h'))
    obtain ⟨y, hy, vy, sy⟩ := b2 (fun h' => h (.inr h'))
    rw [hx, hy]
    refine ⟨⟨x, y⟩, rfl, ?_⟩
    rw [not_or, ← vx, ← vy]
    cases x <;> cases y <;> simp [validOptMatcher]

/-- A line extension. -/
def IsExtension (j : Json) : Prop := ∃ fs, j = .obj fs ∧ (∃ n, field fs j!"extension" = some (.str n)) ∧ (∃ m, field fs j!"matcher" = some m ∧ IsMatcher m) ∧ ∀ f ∈ fs, f.1 ∈ [j!"extension", j!"matcher"]

theorem agrees_extension : Agrees IsExtension Bind.lineExtension (fun i => validExtension (some i) = true) := by
  rintro _ ⟨fs, rfl, ⟨n, hn⟩, ⟨m, hm, hM⟩, hk⟩
  obtain ⟨a1, a2⟩ := agrees_component agrees_str (fs := fs) (k := j!"extension") (fun v hv => ⟨n, by rw [hn] at hv; cases hv; rfl⟩)
  obtain ⟨b1, b2⟩ := agrees_component agrees_matcher (fs := fs) (k := j!"matcher") (fun v hv => by rw [hm] at hv; cases hv; exact hM)
  rw [big_known hk, empty_known hk (by decide) (by decide) (by decide)]
  simp only [List.mem_cons, List.not_mem_nil, or_false, exists_eq_or_imp, exists_eq_left]
  unfold Bind.lineExtension
  simp only
  refine ⟨by simp, ?_, ?_⟩
  · rintro (h | h)
    · rw [a1 h]; rfl
    · rw [b1 h]; cases Bind.component Bind.str fs j!"extension" <;> rfl
  · intro h
    obtain ⟨x, hx, vx, sx⟩ := a2 (fun h' => h (.inl h'))
    obtain ⟨y, hy, vy, sy⟩ := b2 (fun h' => h (.inr h'))
    rw [hx, hy]
    refine ⟨⟨x, y⟩, rfl, ?_⟩
    rw [hn] at sx
    rw [hm] at sy
    cases x with
    | none => simp at sx
    | some x =>
      cases y with
      | none => simp at sy
      | some y => simp only [implies_true, true_iff] at vx; simp at vy; simp [validExtension, validMatcher, vx, vy]

/-- An options document. -/
def IsOptions (j : Json) : Prop := ∃ fs, j = .obj fs ∧ (∀ v, field fs j!"emojis" = some v → ∃ b, v = .bool b) ∧ (∀ v, field fs j!"compactDirectories" = some v → ∃ b, v = .bool b) ∧
  (∀ v, field fs j!"maxDepth" = some v → ∃ n, v = .int n) ∧ (∀ v, field fs j!"childLimit" = some v → IsChildLimit v) ∧ (∀ v, field fs j!"filter" = some v → IsFilter v) ∧
  (∀ v, field fs j!"lineExtensions" = some v → ∃ es, v = .arr es ∧ ∀ e ∈ es, IsExtension e) ∧
  ∀ f ∈ fs, f.1 ∈ [j!"emojis", j!"compactDirectories", j!"maxDepth", j!"childLimit", j!"filter", j!"lineExtensions"]

theorem agrees_options : Agrees IsOptions Bind.externalOptions (fun x => x.valid = true) := by
  rintro _ ⟨fs, rfl, k1, k2, k3, k4, k5, k6, hk⟩
  obtain ⟨a1, a2⟩ := agrees_component agrees_bool (fs := fs) (k := j!"emojis") k1
  obtain ⟨b1, b2⟩ := agrees_component agrees_bool (fs := fs) (k := j!"compactDirectories") k2
  obtain ⟨c1, c2⟩ := agrees_component agrees_int (fs := fs) (k := j!"maxDepth") k3
  obtain ⟨d1, d2⟩ := agrees_component agrees_childLimit (fs := fs) (k := j!"childLimit") k4
  obtain ⟨e1, e2⟩ := agrees_component agrees_filter (fs := fs) (k := j!"filter") k5
  obtain ⟨f1, f2⟩ := agrees_component (agrees_list agrees_extension) (fs := fs) (k := j!"lineExtensions") k6
  rw [big_known hk, empty_known hk (by decide) (by decide) (by decide)]
  simp only [List.mem_cons, List.not_mem_nil, or_false, exists_eq_or_imp, exists_eq_left]
  unfold Bind.externalOptions
  simp only
  refine ⟨by simp, ?_, ?_⟩
  · intro h
    generalize Bind.component Bind.bool fs j!"emojis" = A at *
    generalize Bind.component Bind.bool fs j!"compactDirectories" = B at *
    generalize Bind.component Bind.int fs j!"maxDepth" = C at *
    generalize Bind.component Bind.childLimit fs j!"childLimit" = D at *
    generalize Bind.component Bind.filter fs j!"filter" = E at *
    generalize Bind.component (Bind.list Bind.lineExtension) fs j!"lineExtensions" = F at *
    rcases h with h | h | h | h | h | h
    · rw [a1 h]; rfl
    · rw [b1 h]; cases A <;> rfl
    · rw [c1 h]; cases A <;> cases B <;> rfl
    · rw [d1 h]; cases A <;> cases B <;> cases C <;> rfl
    · rw [e1 h]; cases A <;> cases B <;> cases C <;> cases D <;> rfl
    · rw [f1 h]; cases A <;> cases B <;> cases C <;> cases D <;> cases E <;> rfl
  · intro h
    simp only [not_or] at h
    obtain ⟨g1, g2, g3, g4, g5, g6⟩ := h
    obtain ⟨x1, hx1, v1, -⟩ := a2 g1
    obtain ⟨x2, hx2, v2, -⟩ := b2 g2
    obtain ⟨x3, hx3, v3, -⟩ := c2 g3
    obtain ⟨x4, hx4, v4, -⟩ := d2 g4
    obtain ⟨x5, hx5, v5, -⟩ := e2 g5
    obtain ⟨x6, hx6, v6, -⟩ := f2 g6
    rw [hx1, hx2, hx3, hx4, hx5, hx6]
    refine ⟨⟨x1, x2, x3, x4, x5, x6⟩, rfl, ?_⟩
    simp only [not_or, ← v1, ← v2, ← v3, ← v4, ← v5, ← v6, implies_true, true_and]
    unfold ExternalOptions.valid
    simp only [Bool.and_eq_true, and_assoc]
    refine and_congr ?_ (and_congr ?_ ?_)
    · cases x4 <;> simp
    · cases x5 <;> simp
    · cases x6 with
      | none => simp
      | some l =>
        simp only [Option.some.injEq, forall_eq', List.all_eq_true]
        refine forall_congr' fun x => forall_congr' fun _ => ?_
        cases x <;> simp [validExtension]

/-! ### What the schema accepts -/

/-- A record schema. -/
theorem record_iff {ps : List (JStr × Schema)} {rs : List JStr} {ks : List JStr} {j : Json} :
    object [typeObject, properties ps, required rs, noOthers ks] j = true ↔
      ∃ fs, j = .obj fs ∧ (∀ p ∈ ps, ∀ v, field fs p.1 = some v → p.2 v = true) ∧ (∀ k ∈ rs, ∃ v, field fs k = some v) ∧ ∀ f ∈ fs, f.1 ∈ ks := by
  rw [object_iff]
  simp only [List.mem_cons, List.not_mem_nil, or_false, forall_eq_or_imp, forall_eq]
  cases j with
  | obj fs => simp [properties_iff, required_iff, noOthers_iff, typeObject]
  | _ => simp [typeObject]

/-- A record schema without required properties. -/
theorem record_iff' {ps : List (JStr × Schema)} {ks : List JStr} {j : Json} :
    object [typeObject, properties ps, noOthers ks] j = true ↔
      ∃ fs, j = .obj fs ∧ (∀ p ∈ ps, ∀ v, field fs p.1 = some v → p.2 v = true) ∧ ∀ f ∈ fs, f.1 ∈ ks := by
  rw [object_iff]
  simp only [List.mem_cons, List.not_mem_nil, or_false, forall_eq_or_imp, forall_eq]
  cases j with
  | obj fs => simp [properties_iff, noOthers_iff, typeObject]
  | _ => simp [typeObject]

theorem list_iff {s : Schema} {p : Json → Prop} (h : ∀ j, s j = true ↔ p j) {j : Json} : object [typeArray, items s] j = true ↔ ∃ es, j = .arr es ∧ ∀ e ∈ es, p e := by
  rw [object_iff]
  simp only [List.mem_cons, List.not_mem_nil, or_false, forall_eq_or_imp, forall_eq]
  cases j <;> simp [typeArray, items, h]

theorem item_iff (j : Json) : object [typeObject, properties [(j!"limit", object [typeInteger, minimum (-1)]), (j!"matcher", refMatcher)],
    required [j!"limit", j!"matcher"], noOthers [j!"limit", j!"matcher"]] j = true ↔ IsItem j := by
  rw [record_iff]
  unfold IsItem
  refine exists_congr fun fs => and_congr_right fun _ => ?_
  simp only [List.mem_cons, List.not_mem_nil, or_false, forall_eq_or_imp, forall_eq, object_iff, typeInteger_iff, refMatcher_iff]
  constructor
  · rintro ⟨⟨h1, h2⟩, ⟨⟨v, hv⟩, w, hw⟩, h5⟩
    obtain ⟨⟨n, rfl⟩, hm⟩ := h1 v hv
    exact ⟨⟨n, hv, by simpa [minimum] using hm⟩, ⟨w, hw, h2 w hw⟩, h5⟩
  · rintro ⟨⟨n, hn, h1⟩, ⟨m, hm, h2⟩, h5⟩
    refine ⟨⟨fun v hv => ?_, fun v hv => ?_⟩, ⟨⟨_, hn⟩, _, hm⟩, h5⟩
    · rw [hn] at hv; cases hv; exact ⟨⟨n, rfl⟩, by simpa [minimum] using h1⟩
    · rw [hm] at hv; cases hv; exact h2

theorem extension_iff (j : Json) : object [typeObject, properties [(j!"extension", typeString), (j!"matcher", refMatcher)],
    required [j!"extension", j!"matcher"], noOthers [j!"extension", j!"matcher"]] j = true ↔ IsExtension j := by
  rw [record_iff]
  unfold IsExtension
  refine exists_congr fun fs => and_congr_right fun _ => ?_
  simp only [List.mem_cons, List.not_mem_nil, or_false, forall_eq_or_imp, forall_eq, typeString_iff, refMatcher_iff]
  constructor
  · rintro ⟨⟨h1, h2⟩, ⟨⟨v, hv⟩, w, hw⟩, h5⟩
    obtain ⟨n, rfl⟩ := h1 v hv
    exact ⟨⟨n, hv⟩, ⟨w, hw, h2 w hw⟩, h5⟩
  · rintro ⟨⟨n, hn⟩, ⟨m, hm, h2⟩, h5⟩
    refine ⟨⟨fun v hv => ?_, fun v hv => ?_⟩, ⟨⟨_, hn⟩, _, hm⟩, h5⟩
    · rw [hn] at hv; cases hv; exact ⟨n, rfl⟩
    · rw [hm] at hv; cases hv; exact h2

theorem filter_iff {j : Json} : Schema.filter j = true ↔ IsFilter j := by
  unfold Schema.filter IsFilter
  rw [record_iff']
  refine exists_congr fun fs => and_congr_right fun _ => ?_
  simp only [List.mem_cons, List.not_mem_nil, or_false, forall_eq_or_imp, forall_eq, refMatcher_iff, and_assoc]

theorem childLimit_iff {j : Json} : Schema.childLimit j = true ↔ IsChildLimit j := by
  cases j with
  | obj fs =>
    unfold Schema.childLimit
    rw [oneOf_exclusive (by
      simp only [List.pairwise_cons, List.mem_cons, List.not_mem_nil, or_false, forall_eq, List.Pairwise.nil, and_true, IsEmpty.forall_iff, implies_true]
      exact tagged_exclusive (by decide))]
    simp only [List.any_cons, List.any_nil, Bool.or_false, Bool.or_eq_true, tagged_iff]
    constructor
    · rintro (⟨h1, h2, h3, h4⟩ | ⟨h1, h2, h3, h4⟩)
      · obtain ⟨v, hv⟩ := h3 j!"limit" (by simp)
        obtain ⟨n, rfl⟩ := typeInteger_iff.1 (h2 (j!"limit", typeInteger) (by simp) v hv)
        exact .static h1 hv h4
      · obtain ⟨v, hv⟩ := h3 j!"limits" (by simp)
        obtain ⟨es, rfl, hes⟩ := (list_iff item_iff).1 (h2 _ (List.mem_singleton.2 rfl) v hv)
        exact .dynamic h1 hv hes h4
    · intro h
      cases h with
      | static h1 h2 h3 =>
        refine .inl ⟨h1, ?_, ?_, h3⟩
        · intro p hp v hv
          rw [List.mem_singleton] at hp
          subst hp
          rw [h2] at hv
          cases hv
          rfl
        · intro k hk
          rw [List.mem_singleton] at hk
          subst hk
          exact ⟨_, h2⟩
      | dynamic h1 h2 h3 h4 =>
        refine .inr ⟨h1, ?_, ?_, h4⟩
        · intro p hp v hv
          rw [List.mem_singleton] at hp
          subst hp
          rw [h2] at hv
          cases hv
          exact (list_iff item_iff).2 ⟨_, rfl, h3⟩
        · intro k hk
          rw [List.mem_singleton] at hk
          subst hk
          exact ⟨_, h2⟩
  | _ =>
    constructor
    · intro h; revert h; simp [Schema.childLimit, oneOf, object, properties, required, noOthers]
    · intro h; cases h

theorem conforms_iff {j : Json} : Schema.conforms j = true ↔ IsOptions j := by
  unfold Schema.conforms IsOptions Schema.lineExtensions
  rw [record_iff']
  refine exists_congr fun fs => and_congr_right fun _ => ?_
  simp only [List.mem_cons, List.not_mem_nil, or_false, forall_eq_or_imp, forall_eq, typeBoolean_iff, typeInteger_iff, filter_iff, childLimit_iff, list_iff extension_iff, and_assoc]

/-! ### Writing and reading -/

mutual
theorem read_matcher : ∀ d : MatcherDoc, Bind.matcher (writeMatcher d) = some d
  | .alwaysTrue => rfl
  | .alwaysFalse => rfl
  | .allOf ms => by
    rw [writeMatcher, Bind.matcher]
    simp only [field, if_neg (show ¬ j!"type" = j!"matchers" by decide), Bind.matchersComponent, read_matchers ms]
    simp
  | .anyOf ms => by
    rw [writeMatcher, Bind.matcher]
    simp only [field, if_neg (show ¬ j!"type" = j!"matchers" by decide), Bind.matchersComponent, read_matchers ms]
    simp
  | .noneOf ms => by
    rw [writeMatcher, Bind.matcher]
    simp only [field, if_neg (show ¬ j!"type" = j!"matchers" by decide), Bind.matchersComponent, read_matchers ms]
    simp
  | .nameGlob g => by cases g <;> simp [writeMatcher, Bind.matcher, field, Bind.component, Bind.nullable, Bind.str]
  | .pathGlob g => by cases g <;> simp [writeMatcher, Bind.matcher, field, Bind.component, Bind.nullable, Bind.str]
theorem read_matchers : ∀ ms, Bind.matchersValue (writeMatchers ms) = some ms
  | none => rfl
  | some ms => by rw [writeMatchers, Bind.matchersValue, read_items ms]; rfl
theorem read_items : ∀ ms, Bind.matcherItems (writeMatcherItems ms) = some ms
  | [] => rfl
  | none :: ms => by rw [writeMatcherItems, Bind.matcherItems, read_items ms]; rfl
  | some d :: ms => by
    have h : Bind.isNull (writeMatcherOpt (some d)) = false := by rw [writeMatcherOpt]; cases d <;> rfl
    rw [writeMatcherItems, Bind.matcherItems, read_items ms, h, writeMatcherOpt, read_matcher d]
    rfl
end

/-- `w` writes what `b` reads. -/
def Reads {α : Type} (b : Bind α) (w : α → Json) (P : α → Prop) : Prop := ∀ a, P a → w a ≠ .null ∧ b (w a) = some a

theorem Reads.nullable {α : Type} {b : Bind α} {w : α → Json} {P : α → Prop} (h : Reads b w P) {x : Option α} (hx : ∀ a, x = some a → P a) : Bind.nullable b (writeOpt w x) = some x := by
  cases x with
  | none => rfl
  | some a =>
    obtain ⟨h1, h2⟩ := h a (hx a rfl)
    have hb : Bind.nullable b (w a) = (b (w a)).map some := by generalize w a = j at *; cases j <;> simp_all [Bind.nullable]
    rw [writeOpt, hb, h2]
    rfl

/-- A property that is always written. -/
theorem Reads.always {α : Type} {b : Bind α} {w : α → Json} {P : α → Prop} (h : Reads b w P) {fs : List (JStr × Json)} {k : JStr} {x : Option α} (hx : ∀ a, x = some a → P a)
    (hf : field fs k = some (writeOpt w x)) : Bind.component b fs k = some x := by
  unfold Bind.component
  rw [hf]
  exact h.nullable hx

/-- A property that is written if it is not null. -/
theorem Reads.ifSet {α : Type} {b : Bind α} {w : α → Json} {P : α → Prop} (h : Reads b w P) {fs : List (JStr × Json)} {k : JStr} {x : Option α} (hx : ∀ a, x = some a → P a)
    (hf : field fs k = x.map w) : Bind.component b fs k = some x := by
  unfold Bind.component
  rw [hf]
  cases x with
  | none => rfl
  | some a => exact h.nullable hx

theorem Reads.list {α : Type} {b : Bind α} {w : α → Json} {P : α → Prop} (h : Reads b w P) : Reads (Bind.list b) (fun l => .arr (l.map (writeOpt w))) (fun l => ∀ a, some a ∈ l → P a) := by
  intro l hl
  refine ⟨by simp, ?_⟩
  unfold Bind.list
  simp only
  induction l with
  | nil => rfl
  | cons x l ih =>
    rw [List.map_cons, List.mapM_cons, h.nullable (fun a ha => hl a (by simp [ha])), ih (fun a ha => hl a (by simp [ha]))]
    rfl

theorem field_append (fs gs : List (JStr × Json)) (k : JStr) : field (fs ++ gs) k = (field fs k).or (field gs k) := by
  induction fs with
  | nil => rfl
  | cons a fs ih =>
    obtain ⟨n, v⟩ := a
    rw [List.cons_append, field, field]
    split
    · rfl
    · exact ih

theorem field_writeProperty {α : Type} (k k' : JStr) (w : α → Json) (x : Option α) : field (writeProperty k w x) k' = if k = k' then x.map w else none := by
  cases x <;> simp [writeProperty, field]

/-- The number fits into 32 bits. -/
def Fits (n : Int) : Prop := -2147483648 ≤ n ∧ n ≤ 2147483647

theorem reads_int : Reads Bind.int .int Fits := fun n h => ⟨by simp, by unfold Bind.int; simp only; exact if_pos h⟩
theorem reads_bool : Reads Bind.bool .bool (fun _ => True) := fun n h => ⟨by simp, rfl⟩
theorem reads_str : Reads Bind.str .str (fun _ => True) := fun n h => ⟨by simp, rfl⟩
theorem reads_matcher : Reads Bind.matcher writeMatcher (fun _ => True) := fun d _ => ⟨by cases d <;> simp [writeMatcher], read_matcher d⟩

theorem writeMatcherOpt_eq (x : Option MatcherDoc) : writeMatcherOpt x = writeOpt writeMatcher x := by
  cases x <;> simp [writeMatcherOpt, writeOpt]

theorem reads_item : Reads Bind.limitItem (fun i : DynamicLimitItem => .obj [(j!"limit", writeOpt .int i.limit), (j!"matcher", writeMatcherOpt i.matcher)]) (fun i => ∀ n, i.limit = some n → Fits n) := by
  intro i hi
  refine ⟨by simp, ?_⟩
  unfold Bind.limitItem
  simp only
  rw [reads_int.always hi (by simp [field]), reads_matcher.always (x := i.matcher) (fun _ _ => trivial) (by simp [field, writeMatcherOpt_eq])]
  rfl

theorem reads_extension : Reads Bind.lineExtension (fun e : LineExtensionDoc => .obj [(j!"extension", writeOpt .str e.extension), (j!"matcher", writeMatcherOpt e.matcher)]) (fun _ => True) := by
  intro i _
  refine ⟨by simp, ?_⟩
  unfold Bind.lineExtension
  simp only
  rw [reads_str.always (x := i.extension) (fun _ _ => trivial) (by simp [field]), reads_matcher.always (x := i.matcher) (fun _ _ => trivial) (by simp [field, writeMatcherOpt_eq])]
  rfl

theorem reads_filter : Reads Bind.filter writeFilter (fun _ => True) := by
  intro f _
  refine ⟨by simp [writeFilter], ?_⟩
  unfold Bind.filter writeFilter
  simp only
  rw [reads_matcher.ifSet (x := f.dir) (fun _ _ => trivial) (by simp [field_append, field_writeProperty]),
    reads_matcher.ifSet (x := f.file) (fun _ _ => trivial) (by simp [field_append, field_writeProperty])]
  rfl

theorem reads_childLimit : Reads Bind.childLimit writeChildLimit (fun c => match c with
    | .static l => ∀ n, l = some n → Fits n
    | .dynamic ls => ∀ l, ls = some l → ∀ i, some i ∈ l → ∀ n, i.limit = some n → Fits n) := by
  intro c hc
  cases c with
  | static l =>
    refine ⟨by simp [writeChildLimit], ?_⟩
    unfold Bind.childLimit writeChildLimit
    simp only [field, if_true]
    rw [reads_int.always hc (by simp [field])]
    rfl
  | dynamic ls =>
    refine ⟨by simp [writeChildLimit], ?_⟩
    unfold Bind.childLimit writeChildLimit
    simp only [field, if_true]
    rw [if_neg (by decide), reads_item.list.always (x := ls) hc (by simp [field])]
    rfl

theorem reads_options : Reads Bind.externalOptions write (fun x => ∀ n ∈ numbersOf x, Fits n) := by
  intro x hx
  refine ⟨by simp [write], ?_⟩
  unfold Bind.externalOptions write
  simp only
  rw [reads_bool.ifSet (x := x.emojis) (fun _ _ => trivial) (by simp [field_append, field_writeProperty]),
    reads_bool.ifSet (x := x.compactDirectories) (fun _ _ => trivial) (by simp [field_append, field_writeProperty]),
    reads_int.ifSet (x := x.maxDepth) (fun n hn => hx n (by simp [numbersOf, hn])) (by simp [field_append, field_writeProperty]),
    reads_childLimit.ifSet (x := x.childLimit) (fun c hc => ?_) (by simp [field_append, field_writeProperty]),
    reads_filter.ifSet (x := x.filter) (fun _ _ => trivial) (by simp [field_append, field_writeProperty]),
    reads_extension.list.ifSet (x := x.lineExtensions) (fun _ _ _ _ => trivial) (by simp [field_append, field_writeProperty]; rfl)]
  · rfl
  · cases c with
    | static l => intro n hn; exact hx n (by simp [numbersOf, hc, hn])
    | dynamic ls =>
      intro l hl i hi n hn
      exact hx n (by
        simp only [numbersOf, hc, hl, List.mem_append, List.mem_filterMap, Option.getD_some]
        exact .inr ⟨some i, hi, hn⟩)

/-! ### Written documents and the schema -/

mutual
theorem is_matcher : ∀ d : MatcherDoc, d.valid = true → IsMatcher (writeMatcher d)
  | .alwaysTrue, _ => by rw [writeMatcher]; exact .plain (.inl rfl) rfl (by simp)
  | .alwaysFalse, _ => by rw [writeMatcher]; exact .plain (.inr rfl) rfl (by simp)
  | .allOf none, h => by simp [MatcherDoc.valid, MatcherDoc.validList] at h
  | .anyOf none, h => by simp [MatcherDoc.valid, MatcherDoc.validList] at h
  | .noneOf none, h => by simp [MatcherDoc.valid, MatcherDoc.validList] at h
  | .allOf (some ms), h => by
    simp only [MatcherDoc.valid, MatcherDoc.validList, Bool.and_eq_true] at h
    rw [writeMatcher, writeMatchers]
    exact .nested (.inl rfl) rfl rfl (by simp) (is_items ms h.2)
  | .anyOf (some ms), h => by
    simp only [MatcherDoc.valid, MatcherDoc.validList, Bool.and_eq_true] at h
    rw [writeMatcher, writeMatchers]
    exact .nested (.inr (.inl rfl)) rfl rfl (by simp) (is_items ms h.2)
  | .noneOf (some ms), h => by
    simp only [MatcherDoc.valid, MatcherDoc.validList, Bool.and_eq_true] at h
    rw [writeMatcher, writeMatchers]
    exact .nested (.inr (.inr rfl)) rfl rfl (by simp) (is_items ms h.2)
  | .nameGlob none, h => by simp [MatcherDoc.valid, MatcherDoc.validGlob] at h
  | .pathGlob none, h => by simp [MatcherDoc.valid, MatcherDoc.validGlob] at h
  | .nameGlob (some g), _ => by rw [writeMatcher]; exact .glob (.inl rfl) rfl rfl (by simp)
  | .pathGlob (some g), _ => by rw [writeMatcher]; exact .glob (.inr rfl) rfl rfl (by simp)
theorem is_items : ∀ ms, MatcherDoc.validItems ms = true → ∀ e ∈ writeMatcherItems ms, IsMatcher e
  | [], _, e, he => by simp [writeMatcherItems] at he
  | none :: _, h, _, _ => by simp [MatcherDoc.validItems] at h
  | some d :: ms, h, e, he => by
    simp only [MatcherDoc.validItems, Bool.and_eq_true] at h
    rw [writeMatcherItems, writeMatcherOpt, List.mem_cons] at he
    rcases he with rfl | he
    · exact is_matcher d h.1
    · exact is_items ms h.2 e he
end

/-- The document of an entry of a dynamic limit. -/
def writeItem (i : DynamicLimitItem) : Json := .obj [(j!"limit", writeOpt .int i.limit), (j!"matcher", writeMatcherOpt i.matcher)]

theorem is_item {i : DynamicLimitItem} (h : validItem (some i) = true) : IsItem (writeItem i) ↔ ∀ l, i.limit = some l → -1 ≤ l := by
  obtain ⟨l, m⟩ := i
  cases l with
  | none => simp [validItem] at h
  | some l =>
    cases m with
    | none => simp [validItem, validMatcher] at h
    | some m =>
      have hm : m.valid = true := by simpa [validItem, validMatcher] using h
      simp only [Option.some.injEq, forall_eq']
      unfold writeItem IsItem
      constructor
      · rintro ⟨fs, h1, ⟨n, h2, h3⟩, _⟩
        cases h1
        simp [field, writeOpt] at h2
        omega
      · intro hl
        refine ⟨_, rfl, ⟨l, rfl, hl⟩, ⟨_, rfl, ?_⟩, by simp⟩
        simp only [writeMatcherOpt]
        exact is_matcher m hm

theorem is_childLimit {c : ChildLimitDoc} (h : c.valid = true) : IsChildLimit (writeChildLimit c) ↔
    ∀ ls, c = .dynamic ls → ∀ l ∈ (ls.getD []).filterMap (fun i => i.bind DynamicLimitItem.limit), -1 ≤ l := by
  cases c with
  | static l =>
    cases l with
    | none => simp [ChildLimitDoc.valid] at h
    | some l => simp only [reduceCtorEq, false_implies, implies_true, iff_true]; exact .static rfl rfl (by simp)
  | dynamic ls =>
    cases ls with
    | none => simp [ChildLimitDoc.valid] at h
    | some ls =>
      simp only [ChildLimitDoc.valid, Bool.and_eq_true, List.all_eq_true] at h
      have hi : ∀ x ∈ ls, ∃ i, x = some i ∧ validItem (some i) = true := by
        intro x hx
        have := h.2 x hx
        cases x with
        | none => simp [validItem] at this
        | some i => exact ⟨i, rfl, this⟩
      have hw : writeChildLimit (.dynamic (some ls)) = .obj [(j!"type", .str j!"dynamic"), (j!"limits", .arr (ls.map (writeOpt writeItem)))] := rfl
      rw [hw]
      simp only [ChildLimitDoc.dynamic.injEq, forall_eq', Option.getD_some, List.mem_filterMap]
      constructor
      · intro hc l hl
        obtain ⟨x, hx, hl⟩ := hl
        obtain ⟨i, rfl, hv⟩ := hi x hx
        generalize hg : [(j!"type", Json.str j!"dynamic"), (j!"limits", Json.arr (ls.map (writeOpt writeItem)))] = gs at hc
        cases hc with
        | static h1 h2 h3 => subst hg; simp [field] at h1
        | dynamic h1 h2 h3 h4 =>
          subst hg
          simp [field] at h2
          subst h2
          exact (is_item hv).1 (h3 _ (List.mem_map.2 ⟨some i, hx, rfl⟩)) l hl
      · intro hl
        refine .dynamic rfl rfl (fun e he => ?_) (by simp)
        obtain ⟨x, hx, rfl⟩ := List.mem_map.1 he
        obtain ⟨i, rfl, hv⟩ := hi x hx
        exact (is_item hv).2 (fun l h => hl l ⟨some i, hx, h⟩)

theorem mem_writeProperty {α : Type} {k : JStr} {w : α → Json} {x : Option α} {f : JStr × Json} (h : f ∈ writeProperty k w x) : f.1 = k := by
  cases x with
  | none => cases h
  | some a => rw [List.mem_singleton.1 h]

theorem is_filter {f : FilterDoc} (h : (validOptMatcher f.dir && validOptMatcher f.file) = true) : IsFilter (writeFilter f) := by
  obtain ⟨d, g⟩ := f
  simp only [Bool.and_eq_true] at h
  refine ⟨_, rfl, ?_, ?_, ?_⟩
  · intro v hv
    simp [field_append, field_writeProperty] at hv
    obtain ⟨a, rfl, rfl⟩ := hv
    exact is_matcher a h.1
  · intro v hv
    simp [field_append, field_writeProperty] at hv
    obtain ⟨a, rfl, rfl⟩ := hv
    exact is_matcher a h.2
  · intro x hx
    rcases List.mem_append.1 hx with hx | hx <;> simp [mem_writeProperty hx]

theorem is_extensions {es : List (Option LineExtensionDoc)} (h : es.all validExtension = true) : ∃ js, writeLineExtensions es = .arr js ∧ ∀ e ∈ js, IsExtension e := by
  refine ⟨_, rfl, ?_⟩
  intro j hj
  obtain ⟨x, hx, rfl⟩ := List.mem_map.1 hj
  have := List.all_eq_true.1 h x hx
  cases x with
  | none => simp [validExtension] at this
  | some e =>
    obtain ⟨t, m⟩ := e
    cases t with
    | none => simp [validExtension] at this
    | some t =>
      cases m with
      | none => simp [validExtension, validMatcher] at this
      | some m =>
        refine ⟨_, rfl, ⟨t, rfl⟩, ⟨_, rfl, ?_⟩, by simp⟩
        simp only [writeMatcherOpt]
        exact is_matcher m (by simpa [validExtension, validMatcher] using this)

theorem is_options {x : ExternalOptions} (h : x.valid = true) : IsOptions (write x) ↔ ∀ l ∈ limitsOf x, -1 ≤ l := by
  unfold ExternalOptions.valid at h
  simp only [Bool.and_eq_true] at h
  obtain ⟨⟨hc, hf⟩, he⟩ := h
  have hcl : (∀ v, x.childLimit.map writeChildLimit = some v → IsChildLimit v) ↔ ∀ l ∈ limitsOf x, -1 ≤ l := by
    unfold limitsOf
    cases hx : x.childLimit with
    | none => simp
    | some c =>
      rw [hx] at hc
      simp only [Option.map_some, Option.some.injEq, forall_eq']
      rw [is_childLimit hc]
      cases c <;> simp
  unfold IsOptions write
  simp only [Json.obj.injEq, exists_eq_left']
  simp only [field_append, field_writeProperty]
  simp only [if_neg (show ¬ j!"emojis" = j!"compactDirectories" by decide)]
  constructor
  · rintro ⟨-, -, -, h, -⟩
    refine hcl.1 (fun v hv => h v ?_)
    simpa using hv
  · intro h
    refine ⟨?_, ?_, ?_, ?_, ?_, ?_, ?_⟩
    · intro v hv
      cases hx : x.emojis with
      | none => simp [hx] at hv
      | some b => simp [hx] at hv; exact ⟨b, hv.symm⟩
    · intro v hv
      cases hx : x.compactDirectories with
      | none => simp [hx] at hv
      | some b => simp [hx] at hv; exact ⟨b, hv.symm⟩
    · intro v hv
      cases hx : x.maxDepth with
      | none => simp [hx] at hv
      | some b => simp [hx] at hv; exact ⟨b, hv.symm⟩
    · intro v hv; exact hcl.2 h v (by simpa using hv)
    · intro v hv
      simp at hv
      obtain ⟨a, ha, rfl⟩ := hv
      rw [ha] at hf
      exact is_filter (by simpa using hf)
    · intro v hv
      simp at hv
      obtain ⟨a, ha, rfl⟩ := hv
      rw [ha] at he
      exact is_extensions he
    · intro f hf
      simp only [List.mem_append] at hf
      rcases hf with ((((hf | hf) | hf) | hf) | hf) | hf <;> rw [mem_writeProperty hf] <;> decide

end Schema70

open Schema70

/-- **C70**: a document that conforms to the published schema is accepted by the CLI exactly if it has no empty `matchers`, `limits` or `glob` and no number beyond 32 bits. -/
theorem C70_conforming_usable_iff {j : Json} (h : Schema.conforms j = true) : Usable j ↔ ¬ HasEmpty j ∧ ¬ HasBigInt j := by
  obtain ⟨-, h1, h2⟩ := agrees_options j (conforms_iff.1 h)
  constructor
  · rintro ⟨x, hx, hv⟩
    have hb : ¬ HasBigInt j := fun hb => by rw [h1 hb] at hx; cases hx
    obtain ⟨y, hy, hyv⟩ := h2 hb
    rw [hx] at hy
    cases hy
    exact ⟨hyv.1 hv, hb⟩
  · rintro ⟨he, hb⟩
    obtain ⟨y, hy, hyv⟩ := h2 hb
    exact ⟨y, hy, hyv.2 he⟩

/-- **C70** is false: a document that conforms to the schema and is rejected, `{filter: {dir: {type: anyOf, matchers: []}}}`. -/
theorem C70_claim_false : ∃ j, Schema.conforms j = true ∧ ¬ Usable j := by
  refine ⟨.obj [(j!"filter", .obj [(j!"dir", .obj [(j!"type", .str j!"anyOf"), (j!"matchers", .arr [])])])], by decide, fun h => ?_⟩
  have hc : Schema.conforms (.obj [(j!"filter", .obj [(j!"dir", .obj [(j!"type", .str j!"anyOf"), (j!"matchers", .arr [])])])]) = true := by decide
  exact ((C70_conforming_usable_iff hc).1 h).1 (.inProperty (k := j!"filter") rfl (.inProperty (k := j!"dir") rfl (.matchers rfl)))

/-- **C70**, converse, is false too: a document that the CLI accepts although it does not conform, with the limit -2 in a dynamic child limit. -/
theorem C70_reverse_false : ∃ j, Usable j ∧ Schema.conforms j = false :=
  ⟨.obj [(j!"childLimit", .obj [(j!"type", .str j!"dynamic"), (j!"limits", .arr [.obj [(j!"limit", .int (-2)), (j!"matcher", .obj [(j!"type", .str j!"everything")])]])])],
    ⟨{ childLimit := some (.dynamic (some [some ⟨some (-2), some .alwaysTrue⟩])) }, rfl, rfl⟩, by decide⟩

/-- **C70**: every option record can be written as a document that is read back as the same record, as long as its numbers have 32 bits. -/
theorem C70_write_read {x : ExternalOptions} (h : ∀ n ∈ numbersOf x, -2147483648 ≤ n ∧ n ≤ 2147483647) : Bind.externalOptions (write x) = some x := (reads_options x h).2

/-- **C70**: the schema covers every valid option record: its document conforms exactly if no limit that depends on a matcher is below -1. -/
theorem C70_write_conforms {x : ExternalOptions} (h : x.valid = true) : Schema.conforms (write x) = true ↔ ∀ l ∈ limitsOf x, -1 ≤ l := by
  rw [conforms_iff, is_options h]

/-- **C70**: what a run does with a conforming options file. -/
theorem C70_run {env : Env} (hp : PlainDirs env) {args : Args} (hd : args.debug = false) {p : Path} (ho : args.optionsFile = some p) (ht : env.fileExists (targetOf env args) = true)
    (h1 : env.fileExists (target env.cwd p) = true) (h2 : env.isFile (target env.cwd p) = true) (h3 : env.canRead (target env.cwd p) = true) {j : Json}
    (hy : env.yaml (target env.cwd p) = (Bind.externalOptions j).map some) (hj : Schema.conforms j = true) :
    (HasEmpty j ∨ HasBigInt j → (run env args).1 = 1 ∧ (run env args).2.out = []) ∧
    (¬ HasEmpty j → ¬ HasBigInt j → ∃ x, Bind.externalOptions j = some x ∧ Chosen env (targetOf env args) args.optionsFile (.ok (some x))) := by
  constructor
  · intro h
    have hu : ¬ Usable j := by
      rw [C70_conforming_usable_iff hj]
      rintro ⟨a, b⟩
      exact h.elim a b
    have : ∃ e, AtPlace env (target env.cwd p) (.bad e) := by
      cases hb : Bind.externalOptions j with
      | none => exact ⟨_, .malformed h1 h2 h3 (by rw [hy, hb]; rfl)⟩
      | some x =>
        refine ⟨_, .invalid h1 h2 h3 (by rw [hy, hb]; rfl) ?_⟩
        cases hv : x.valid with
        | false => rfl
        | true => exact absurd ⟨x, hb, hv⟩ hu
    obtain ⟨e, he⟩ := this
    obtain ⟨a, b, -⟩ := C54_failed hp hd (.badOptions ht (by rw [ho]; exact .givenBad he))
    exact ⟨a, b⟩
  · intro he hb
    obtain ⟨x, hx, hv⟩ := (C70_conforming_usable_iff hj).2 ⟨he, hb⟩
    exact ⟨x, hx, by rw [ho]; exact .givenGood (.good h1 h2 h3 (by rw [hy, hx]; rfl) hv)⟩

/-! ### Examples -/

/-- A document with every property. -/
def Demo.document : ExternalOptions where
  emojis := some true
  compactDirectories := some false
  maxDepth := some 3
  childLimit := some (.dynamic (some [some ⟨some 5, some (.anyOf (some [some (.nameGlob (some j!"a*")), some .alwaysFalse]))⟩]))
  filter := some ⟨some .alwaysTrue, some (.noneOf (some [some (.pathGlob (some j!"x/**"))]))⟩
  lineExtensions := some [some ⟨some j!" note", some .alwaysTrue⟩]

/-- Example for C70_conforming_usable_iff, C70_write_conforms and C70_write_read. -/
example : Schema.conforms (write Demo.document) = true ∧ Usable (write Demo.document) := by
  have h : Bind.externalOptions (write Demo.document) = some Demo.document := C70_write_read (by decide)
  exact ⟨(C70_write_conforms rfl).2 (by decide), Demo.document, h, rfl⟩

/-- The document `{filter: {dir: {type: name, glob: ""}}}`. -/
def Demo.emptyGlob : Json := .obj [(j!"filter", .obj [(j!"dir", .obj [(j!"type", .str j!"name"), (j!"glob", .str [])])])]

/-- A machine with that document in every existing file. -/
def Demo.machine70 (p : Path) : Env := { Demo.machine p with fileExists := fun _ => true, yaml := fun _ => (Bind.externalOptions Demo.emptyGlob).map some }

/-- Example for C70_run: the file conforms, and the run fails. -/
example : Schema.conforms Demo.emptyGlob = true ∧ (run (Demo.machine70 ⟨true, [j!"r"]⟩) { target := some ⟨true, [j!"r"]⟩, optionsFile := some ⟨true, [j!"o"]⟩ }).1 = 1 := by
  refine ⟨by decide, ?_⟩
  refine ((C70_run (env := Demo.machine70 ⟨true, [j!"r"]⟩) (p := ⟨true, [j!"o"]⟩) (j := Demo.emptyGlob) ⟨(Demo.machine_plain ⟨true, [j!"r"]⟩).cwd, (Demo.machine_plain ⟨true, [j!"r"]⟩).home⟩ rfl rfl rfl rfl rfl rfl rfl (by decide)).1 (.inl ?_)).1
  exact .inProperty (k := j!"filter") rfl (.inProperty (k := j!"dir") rfl (.glob rfl))

/-- Example for C70_run: a number with more than 32 bits. -/
example : Schema.conforms (.obj [(j!"maxDepth", .int 3000000000)]) = true ∧ ¬ Usable (.obj [(j!"maxDepth", .int 3000000000)]) := by
  refine ⟨by decide, fun h => ?_⟩
  exact ((C70_conforming_usable_iff (by decide)).1 h).2 (.inProperty (k := j!"maxDepth") rfl (.here (by omega)))

end JFTP
