import Verif.Props.Limits
import Verif.Lemmas.Dots

/-!
C28–C35: rule builders and comparators.
-/

namespace JFTP
open Spec

section
variable {m : Type → Type} [Monad m] [LawfulMonad m] [MonadExceptOf Exn m]

/-! ### C28 -/

/-- One call on a line extension builder. -/
inductive ExtCall (m : Type → Type) where
  | add (e : ExtFn m)
  | addMatching (mt : Matcher m) (x : JStr)
  | addLineBreak (mt : Matcher m)

/-- The builder after such a call. -/
def ExtCall.run (b : LineExtensionBuilder m) : ExtCall m → LineExtensionBuilder m
  | .add e => b.add e
  | .addMatching mt x => b.addMatching mt x
  | .addLineBreak mt => b.addLineBreak mt

/-- **C28**: if the rules before `r` give null and `r` gives `x`, the result is `x`, and the rules after it are not even called (they may throw or have effects). -/
theorem C28_first_nonnull (pre post : List (ExtFn m)) (r : ExtFn m) (live : LineExtensionBuilder m) (p : Path) (x : JStr) (hpre : ∀ g ∈ pre, g p = pure none)
    (hr : r p = pure (some x)) : (LineExtensionBuilder.build ⟨pre ++ r :: post⟩).apply live p = pure (some x) := by
  show LineExtensionBuilder.extLoop p none (pre ++ r :: post) = _
  suffices ∀ x0, LineExtensionBuilder.extLoop p x0 (pre ++ r :: post) = pure (some x) from this none
  induction pre with
  | nil => intro x0; rw [List.nil_append, LineExtensionBuilder.extLoop, hr, pure_bind, if_pos (by simp)]
  | cons g pre ih =>
    intro x0
    rw [List.cons_append, LineExtensionBuilder.extLoop, hpre g (by simp), pure_bind, if_neg (by simp)]
    exact ih (fun g hg => hpre g (by simp [hg])) none

/-- **C28**: if all rules give null, the result is null. -/
theorem C28_all_null (rules : List (ExtFn m)) (live : LineExtensionBuilder m) (p : Path) (h : ∀ g ∈ rules, g p = pure none) :
    (LineExtensionBuilder.build ⟨rules⟩).apply live p = pure none := by
  show LineExtensionBuilder.extLoop p none rules = _
  induction rules with
  | nil => rfl
  | cons g rules ih =>
    rw [LineExtensionBuilder.extLoop, h g (by simp), pure_bind, if_neg (by simp)]
    exact ih (fun g hg => h g (by simp [hg]))

/-- **C28** for rules given by matchers and texts that are functions of the path: the text of the first matching rule, null if none matches. -/
theorem C28_matching_rules (rules : List (Rule JStr)) (live : LineExtensionBuilder m) (p : Path) :
    ((rules.foldl (fun b r => b.addMatching (fun q => pure (r.1 q)) r.2) (LineExtensions.builder : LineExtensionBuilder m)).build.apply live p) =
      pure (firstMatch none (rules.map (fun r => (r.1, some r.2))) p) := by
  have hb : ∀ (rules : List (Rule JStr)) (b : LineExtensionBuilder m), rules.foldl (fun b r => b.addMatching (fun q => pure (r.1 q)) r.2) b =
      ⟨b.extensions ++ rules.map (fun r q => pure (if r.1 q then some r.2 else none))⟩ := by
    intro rules
    induction rules with
    | nil => intro b; simp
    | cons r rules ih => intro b; rw [List.foldl_cons, ih]; simp [LineExtensionBuilder.addMatching, LineExtensionBuilder.add]
  rw [hb]
  show LineExtensionBuilder.extLoop p none ([] ++ rules.map _) = _
  rw [List.nil_append]
  induction rules with
  | nil => rfl
  | cons r rules ih =>
    rw [List.map_cons, LineExtensionBuilder.extLoop, pure_bind]
    cases hr : r.1 p with
    | true => simp [firstMatch, hr]
    | false => simp only [hr, Bool.false_eq_true, if_false, ne_eq, not_true, ih, firstMatch]; simp [hr]

omit [LawfulMonad m] in
/-- **C28**: no later call on the builder changes what an already built function does. -/
theorem C28_independent_of_later_calls (b : LineExtensionBuilder m) (later : List (ExtCall m)) (p : Path) :
    b.build.apply (later.foldl ExtCall.run b) p = b.build.apply b p := rfl

omit [LawfulMonad m] in
/-- **C28**: each call of `add` appends one rule at the end. -/
theorem C28_calls_append (b : LineExtensionBuilder m) (calls : List (ExtCall m)) : (calls.foldl ExtCall.run b).build.immutExtensions = b.extensions ++
    calls.map (fun c => match c with
      | .add e => e
      | .addMatching mt x => fun q => do return if ← mt q then some x else none
      | .addLineBreak mt => fun q => do return if ← mt q then some [] else none) := by
  show (calls.foldl ExtCall.run b).extensions = _
  induction calls generalizing b with
  | nil => simp
  | cons c calls ih => rw [List.foldl_cons, ih]; cases c <;> simp [ExtCall.run, LineExtensionBuilder.add, LineExtensionBuilder.addMatching, LineExtensionBuilder.addLineBreak]

end

/-- Example: three rules, the second one matches, the third one would throw. -/
example : (LineExtensionBuilder.build ⟨[fun _ => pure none, fun _ => pure (some []), fun _ => throw (Exn.user 1)]⟩ : LineExtensionBuilder.Built (Except Exn)).apply ⟨[]⟩ Demo.a
    = pure (some []) := C28_first_nonnull [fun _ => pure none] _ _ _ _ _ (by simp) rfl

/-! ### C29, C30 -/

section
variable {m : Type → Type} [Monad m] [LawfulMonad m] [MonadExceptOf Exn m]

/-- One call on a child limit builder. -/
inductive LimitCall (m : Type → Type) where
  | setDefault (n : Int)
  | add (f : Path → m Int)
  | addMatching (mt : Matcher m) (n : Int)

/-- The builder after such a call. -/
def LimitCall.run (b : ChildLimitBuilder m) : LimitCall m → ChildLimitBuilder m
  | .setDefault n => b.setDefault n
  | .add f => b.add f
  | .addMatching mt n => b.addMatching mt n

/-- A builder with matcher rules. -/
def limitBuilder (dflt : Int) (rules : List (Rule Int)) : ChildLimitBuilder m :=
  rules.foldl (fun b r => b.addMatching (fun q => pure (r.1 q)) r.2) (ChildLimits.builder dflt)

theorem limitBuilder_eq (dflt : Int) (rules : List (Rule Int)) :
    (limitBuilder dflt rules : ChildLimitBuilder m) = ⟨rules.map (fun r q => pure (if r.1 q then r.2 else -1)), dflt⟩ := by
  have hb : ∀ (rules : List (Rule Int)) (b : ChildLimitBuilder m), rules.foldl (fun b r => b.addMatching (fun q => pure (r.1 q)) r.2) b =
      ⟨b.limits ++ rules.map (fun r q => pure (if r.1 q then r.2 else -1)), b.defaultLimit⟩ := by
    intro rules
    induction rules with
    | nil => intro b; simp
    | cons r rules ih => intro b; rw [List.foldl_cons, ih]; simp [ChildLimitBuilder.addMatching, ChildLimitBuilder.add, UNLIMITED]
  unfold limitBuilder
  rw [hb]; simp [ChildLimits.builder]

/-- **C29**, what the code computes for arbitrary rules (functions of the path): the value of the first rule with a value ≥ 0; if there is none, the value of the *last* rule; the default only
if there are no rules at all. -/
theorem C29_exact (rules : List (Path → Int)) (dflt : Int) (p : Path) :
    ((ChildLimitBuilder.build ⟨rules.map (fun f q => pure (f q)), dflt⟩ : ChildLimitBuilder.Built m).applyAsInt ⟨rules.map (fun f q => pure (f q)), dflt⟩ p) =
      pure (match rules.find? (fun f => 0 ≤ f p) with
        | some f => f p
        | none => match rules.getLast? with
          | some f => f p
          | none => dflt) := by
  show ChildLimitBuilder.limitLoop p dflt (rules.map (fun f q => pure (f q))) = _
  induction rules generalizing dflt with
  | nil => rfl
  | cons f rules ih =>
    rw [List.map_cons, ChildLimitBuilder.limitLoop, pure_bind]
    by_cases hf : 0 ≤ f p
    · rw [if_pos hf]; simp [hf]
    · rw [if_neg hf, ih]
      simp only [hf, decide_false, Bool.false_eq_true, not_false_eq_true, List.find?_cons_of_neg]
      cases rules with
      | nil => simp
      | cons g gs =>
        rw [List.getLast?_cons_cons, List.getLast?_eq_getLast_of_ne_nil (List.cons_ne_nil g gs)]

/-- **C29**, the part of the documentation that holds: if the first matching rule has a limit ≥ 0, it is the result; with no rules at all, the default is. -/
theorem C29_first_match_partial (dflt : Int) (rules : List (Rule Int)) (p : Path)
    (h : rules = [] ∨ ∃ r, rules.find? (fun r => r.1 p) = some r ∧ 0 ≤ r.2) :
    ((limitBuilder dflt rules : ChildLimitBuilder m).build.applyAsInt (limitBuilder dflt rules) p) = pure (firstMatch dflt rules p) := by
  rw [limitBuilder_eq]
  have := C29_exact (m := m) (rules.map (fun r q => if r.1 q then r.2 else -1)) dflt p
  rw [List.map_map] at this
  refine Eq.trans this ?_
  rcases h with rfl | ⟨r, hr, h0⟩
  · rfl
  · have : (rules.map (fun r q => if r.1 q then r.2 else -1)).find? (fun f => 0 ≤ f p) = some (fun q => if r.1 q then r.2 else -1) := by
      rw [List.find?_map]
      have : rules.find? ((fun f : Path → Int => decide (0 ≤ f p)) ∘ (fun (r : Rule Int) q => if r.1 q then r.2 else -1)) = some r := by
        clear this
        induction rules with
        | nil => cases hr
        | cons s rules ih =>
          rw [List.find?_cons] at hr ⊢
          cases hs : s.1 p with
          | true => rw [hs] at hr; cases hr; simp [hs, h0]
          | false => rw [hs] at hr; simp only [Function.comp, hs, Bool.false_eq_true, if_false]; exact ih hr
      rw [this]; rfl
    have hm : r.1 p = true := by simpa using List.find?_some hr
    rw [this]
    simp only [firstMatch, hr, hm, if_true]

/-- **C29** is false of the code, general form 1: as soon as there is a rule, the default is never used: where no rule matches, the result is `-1` (unlimited). -/
theorem C29_default_ignored (dflt : Int) (rules : List (Rule Int)) (hne : rules ≠ []) (p : Path) (h : ∀ r ∈ rules, r.1 p = false) :
    ((limitBuilder dflt rules : ChildLimitBuilder m).build.applyAsInt (limitBuilder dflt rules) p) = pure (-1) := by
  rw [limitBuilder_eq]
  have := C29_exact (m := m) (rules.map (fun r q => if r.1 q then r.2 else -1)) dflt p
  rw [List.map_map] at this
  refine Eq.trans this ?_
  have h1 : (rules.map (fun r q => if r.1 q then r.2 else -1)).find? (fun f => decide (0 ≤ f p)) = none := by
    rw [List.find?_eq_none]
    intro f hf
    obtain ⟨r, hr, rfl⟩ := List.mem_map.1 hf
    simp [h r hr]
  rw [h1]
  rw [List.getLast?_map]
  cases hl : rules.getLast? with
  | none => exact absurd (List.getLast?_eq_none_iff.1 hl) hne
  | some r => simp [h r (List.mem_of_getLast? hl)]

/-- **C29** is false of the code, general form 2: a matching rule with a negative limit ("unlimited") does not stop the search: a later matching rule wins. -/
theorem C29_unlimited_rule_ignored (dflt n : Int) (hn : n < 0) (r : Rule Int) (rules : List (Rule Int)) (p : Path) (hm : r.1 p = true) (hr : r.2 = n)
    (k : Rule Int) (hk : rules.find? (fun r => r.1 p) = some k) (h0 : 0 ≤ k.2) :
    ((limitBuilder dflt (r :: rules) : ChildLimitBuilder m).build.applyAsInt (limitBuilder dflt (r :: rules)) p) = pure k.2 := by
  have h2 := C29_first_match_partial (m := m) dflt rules p (.inr ⟨k, hk, h0⟩)
  rw [limitBuilder_eq] at h2 ⊢
  show ChildLimitBuilder.limitLoop p dflt ((r :: rules).map (fun r q => (pure (if r.1 q then r.2 else -1) : m Int))) = _
  have h2 : ChildLimitBuilder.limitLoop p dflt (rules.map (fun r q => (pure (if r.1 q then r.2 else -1) : m Int))) = pure (firstMatch dflt rules p) := h2
  rw [List.map_cons, ChildLimitBuilder.limitLoop, pure_bind]
  have : ¬ ((if r.1 p = true then r.2 else -1) ≥ 0) := by rw [if_pos hm, hr]; omega
  rw [if_neg this]
  have hd : ∀ d d' : Int, rules ≠ [] → ChildLimitBuilder.limitLoop p d (rules.map (fun r q => (pure (if r.1 q then r.2 else -1) : m Int))) =
      ChildLimitBuilder.limitLoop p d' (rules.map (fun r q => (pure (if r.1 q then r.2 else -1) : m Int))) := by
    intro d d' hne
    cases rules with
    | nil => exact absurd rfl hne
    | cons s rules => rfl
  rw [hd _ dflt (by rintro rfl; cases hk), h2]
  simp [firstMatch, hk]

/-- **C29**, documented claim refuted. -/
theorem C29_documented_claim_false : ¬ ∀ (dflt : Int) (rules : List (Rule Int)) (p : Path),
    ((limitBuilder dflt rules : ChildLimitBuilder (Except Exn)).build.applyAsInt (limitBuilder dflt rules) p) = pure (firstMatch dflt rules p) := by
  intro h
  have h1 := h 3 [(fun _ => false, 5)] Demo.a
  rw [C29_default_ignored (m := Except Exn) 3 [(fun _ => false, 5)] (by simp) Demo.a (by simp)] at h1
  cases h1

/-- Examples: the hypotheses of the theorems above. -/
example : ((limitBuilder 7 [(fun _ => false, 5), (fun _ => true, 2)] : ChildLimitBuilder (Except Exn)).build.applyAsInt (limitBuilder 7 []) Demo.a) = pure 2 := rfl
example : ((limitBuilder 7 [(fun _ => true, -1), (fun _ => true, 2)] : ChildLimitBuilder (Except Exn)).build.applyAsInt (limitBuilder 7 []) Demo.a) = pure 2 := rfl

omit [LawfulMonad m] [MonadExceptOf Exn m] in
/-- **C30**, true part: a built function that has at least one rule is not changed by any later builder calls, and one without rules is not changed by adding rules. -/
theorem C30_independent_partial (b : ChildLimitBuilder m) (later : List (LimitCall m)) (p : Path)
    (h : b.limits ≠ [] ∨ ∀ c ∈ later, ∀ n, c ≠ .setDefault n) :
    b.build.applyAsInt (later.foldl LimitCall.run b) p = b.build.applyAsInt b p := by
  rcases h with h | h
  · show ChildLimitBuilder.limitLoop p _ b.limits = ChildLimitBuilder.limitLoop p _ b.limits
    cases hb : b.limits with
    | nil => exact absurd hb h
    | cons r rs => rfl
  · have : ∀ (later : List (LimitCall m)) (b : ChildLimitBuilder m), (∀ c ∈ later, ∀ n, c ≠ .setDefault n) → (later.foldl LimitCall.run b).defaultLimit = b.defaultLimit := by
      intro later
      induction later with
      | nil => intro b _; rfl
      | cons c later ih =>
        intro b h
        rw [List.foldl_cons, ih _ (fun c hc => h c (by simp [hc]))]
        cases c with
        | setDefault n => exact absurd rfl (h _ (by simp) n)
        | add f => rfl
        | addMatching mt n => rfl
    show ChildLimitBuilder.limitLoop p _ b.limits = ChildLimitBuilder.limitLoop p _ b.limits
    rw [this later b h]

omit [LawfulMonad m] [MonadExceptOf Exn m] in
/-- **C30** is false of the code: a function built without rules follows every later `setDefault`, for all values. -/
theorem C30_follows_setDefault (b : ChildLimitBuilder m) (h : b.limits = []) (n : Int) (p : Path) :
    b.build.applyAsInt (b.setDefault n) p = pure n := by
  show ChildLimitBuilder.limitLoop p n b.limits = _
  rw [h]; rfl

/-- **C30**, claim refuted. -/
theorem C30_claim_false : ¬ ∀ (b : ChildLimitBuilder (Except Exn)) (later : List (LimitCall (Except Exn))) (p : Path),
    b.build.applyAsInt (later.foldl LimitCall.run b) p = b.build.applyAsInt b p := by
  intro h
  have h1 := h ⟨[], 3⟩ [.setDefault 4] Demo.a
  cases h1

end

/-! ### C31 -/

/-- One call on a sort builder. -/
inductive SortCall where
  | add (f : Path → Int)
  | addMatching (mt : Path → Bool) (n : Int)
  | addFirst (mt : Path → Bool)
  | addLast (mt : Path → Bool)

/-- The builder after such a call. -/
def SortCall.run (b : PathSortBuilder) : SortCall → PathSortBuilder
  | .add f => b.add f
  | .addMatching mt n => b.addMatching mt n
  | .addFirst mt => b.addFirst mt
  | .addLast mt => b.addLast mt

/-- The documented rule of a call. -/
def SortCall.rule : SortCall → Path → Int
  | .add f => f
  | .addMatching mt n => fun q => if mt q then n else 0
  | .addFirst mt => fun q => if mt q then -2147483648 else 0
  | .addLast mt => fun q => if mt q then 2147483647 else 0

theorem precedenceLoop_eq (p : Path) (rules : List (Path → Int)) : PathSortBuilder.precedenceLoop p 0 rules = precedence rules p := by
  induction rules with
  | nil => rfl
  | cons r rules ih =>
    unfold precedence at ih ⊢
    rw [PathSortBuilder.precedenceLoop, List.find?_cons]
    by_cases hr : r p = 0
    · simp [hr, DEFAULT_PRECEDENCE]; simpa using ih
    · simp [hr, DEFAULT_PRECEDENCE]

theorem lastName_eq (p : Path) : lastName p = PathSorts.nameKey p := by
  simp [PathSorts.nameKey, lastName, Path.getFileName, List.getLastD_eq_getLast?]

/-- **C31**: the comparator built after any sequence of builder calls compares the values of the first rule (in call order) with a nonzero value, ties by name; calls made later have no effect. -/
theorem C31_built_comparator (calls : List SortCall) (live : PathSortBuilder) (p q : Path) :
    let c := (calls.foldl SortCall.run PathSorts.builder).build.compare live
    let f := precedence (calls.map SortCall.rule)
    (f p < f q → c p q < 0) ∧ (f q < f p → 0 < c p q) ∧ (f p = f q → c p q = compareTo (lastName p) (lastName q)) := by
  simp only [lastName_eq]
  have hb : ∀ (calls : List SortCall) (b : PathSortBuilder), (calls.foldl SortCall.run b).orders = b.orders ++ calls.map SortCall.rule := by
    intro calls
    induction calls with
    | nil => intro b; simp
    | cons c calls ih => intro b; rw [List.foldl_cons, ih]; cases c <;> simp [SortCall.run, SortCall.rule, PathSortBuilder.add, PathSortBuilder.addMatching,
        PathSortBuilder.addFirst, PathSortBuilder.addLast, HIGHEST_PRECEDENCE, LOWEST_PRECEDENCE, DEFAULT_PRECEDENCE]
  have hf : ∀ x, (calls.foldl SortCall.run PathSorts.builder).build.finalFunction x = precedence (calls.map SortCall.rule) x := by
    intro x
    show PathSortBuilder.precedenceLoop x 0 (calls.foldl SortCall.run ⟨[]⟩).orders = _
    rw [hb, precedenceLoop_eq]; simp
  unfold PathSortBuilder.Built.compare thenComparing intCompare
  simp only [hf]
  refine ⟨fun h => ?_, fun h => ?_, fun h => ?_⟩
  · simp [h]
  · have h1 : ¬ precedence (calls.map SortCall.rule) p < precedence (calls.map SortCall.rule) q := by omega
    have h2 : ¬ precedence (calls.map SortCall.rule) p = precedence (calls.map SortCall.rule) q := by omega
    simp [h1, h2]
  · simp [h]; rfl

/-- **C31**: paths matched by an `addFirst` rule to which no earlier rule applies come before all paths that are not (over the full `int` range of precedences). -/
theorem C31_first (pre post : List SortCall) (mt : Path → Bool) (live : PathSortBuilder) (p q : Path)
    (hp : ∀ c ∈ pre, c.rule p = 0) (hm : mt p = true) (hq : -2147483648 < precedence ((pre ++ .addFirst mt :: post).map SortCall.rule) q) :
    ((pre ++ .addFirst mt :: post).foldl SortCall.run PathSorts.builder).build.compare live p q < 0 := by
  refine (C31_built_comparator _ live p q).1 ?_
  have : precedence ((pre ++ .addFirst mt :: post).map SortCall.rule) p = -2147483648 := by
    unfold precedence
    rw [List.map_append, List.find?_append, List.find?_eq_none.2 (by
      intro f hf; obtain ⟨c, hc, rfl⟩ := List.mem_map.1 hf; simp [hp c hc])]
    simp [SortCall.rule, hm]
  omega

/-- **C31**: paths matched by an `addLast` rule to which no earlier rule applies come after all paths that are not. -/
theorem C31_last (pre post : List SortCall) (mt : Path → Bool) (live : PathSortBuilder) (p q : Path)
    (hp : ∀ c ∈ pre, c.rule p = 0) (hm : mt p = true) (hq : precedence ((pre ++ .addLast mt :: post).map SortCall.rule) q < 2147483647) :
    0 < ((pre ++ .addLast mt :: post).foldl SortCall.run PathSorts.builder).build.compare live p q := by
  refine (C31_built_comparator _ live p q).2.1 ?_
  have : precedence ((pre ++ .addLast mt :: post).map SortCall.rule) p = 2147483647 := by
    unfold precedence
    rw [List.map_append, List.find?_append, List.find?_eq_none.2 (by
      intro f hf; obtain ⟨c, hc, rfl⟩ := List.mem_map.1 hf; simp [hp c hc])]
    simp [SortCall.rule, hm]
  omega

/-- Example: `z` first, although `a` is alphabetically smaller; extreme precedences do not overflow. -/
example : ([SortCall.addLast (· = Demo.a), .addFirst (· = Demo.z)].foldl SortCall.run PathSorts.builder).build.compare ⟨[]⟩ Demo.z Demo.a < 0 :=
  C31_first [.addLast (· = Demo.a)] [] (· = Demo.z) ⟨[]⟩ Demo.z Demo.a (by decide) (by decide) (by decide)

/-! ### C32 -/

/-- **C32**: all built-in comparators obey the contract of `Comparator`, whatever the file system answers. -/
theorem C32_lawful (isDir : Path → Bool) (size : Path → Int) (fold : JChar → JChar) (f : PathSortBuilder.Built) (live : PathSortBuilder) :
    LawfulCmp PathSorts.ALPHABETICAL ∧ LawfulCmp (PathSorts.BY_FILE_SIZE isDir size) ∧ LawfulCmp (PathSorts.DIRECTORY_FIRST isDir) ∧
    LawfulCmp (PathSorts.DIRECTORY_LAST isDir) ∧ LawfulCmp (PathSorts.BY_EXTENSION fold isDir) ∧ LawfulCmp (f.compare live) :=
  ⟨lawful_ALPHABETICAL, lawful_BY_FILE_SIZE isDir size, lawful_DIRECTORY_FIRST isDir, lawful_DIRECTORY_LAST isDir, lawful_BY_EXTENSION fold isDir, lawful_builder f live⟩

/-- **C32**: `thenComparing`, `reversed` and `sort(...)` keep the contract. -/
theorem C32_combinations {c d : Cmp} (hc : LawfulCmp c) (hd : LawfulCmp d) (o : Options (Except Exn)) :
    LawfulCmp (thenComparing c d) ∧ LawfulCmp (reversed c) ∧ LawfulCmp (o.sort c).pathComparator :=
  ⟨lawful_thenComparing hc hd, lawful_reversed hc, sort_lawful hc⟩

/-- **C32**, spelled out: what a lawful comparator gives (JDK contract): sign antisymmetry, transitivity, consistency of ties. -/
theorem C32_contract {c : Cmp} (h : LawfulCmp c) (a b d : Path) :
    ((c a b < 0 ↔ 0 < c b a) ∧ (c a b = 0 ↔ c b a = 0)) ∧ (0 < c a b → 0 < c b d → 0 < c a d) ∧
    (c a b = 0 → (c a d < 0 ↔ c b d < 0) ∧ (c a d = 0 ↔ c b d = 0) ∧ (0 < c a d ↔ 0 < c b d)) := by
  have swap : ∀ x y, (0 < c x y ↔ c y x < 0) := fun x y => (h.antisymm y x).symm
  refine ⟨⟨h.antisymm a b, fun hz => h.zero_symm hz, fun hz => h.zero_symm hz⟩, fun h1 h2 => ?_, fun hz => ?_⟩
  · have h1 := (swap a b).1 h1
    have h2 := (swap b d).1 h2
    exact (swap a d).2 (h.lt_of_lt_of_le h2 (by omega))
  · have hz' := h.zero_symm hz
    have e1 : c a d < 0 ↔ c b d < 0 := ⟨fun hh => h.lt_of_le_of_lt (by omega) hh, fun hh => h.lt_of_le_of_lt (by omega) hh⟩
    have e2 : c a d = 0 ↔ c b d = 0 := ⟨fun hh => h.zero_trans hz' hh, fun hh => h.zero_trans hz hh⟩
    exact ⟨e1, e2, by omega⟩

/-! ### C33–C35 -/

section
variable {fs : PureFs} {cwd : Path} {o : Options (Except Exn)}

theorem split_dirs {R : Path → Path → Prop} (isDir : Path → Bool) (l : List Path)
    (h : l.Pairwise (fun a b => (isDir a = true ∧ isDir b = false) ∨ (isDir a = isDir b ∧ R a b))) :
    ∃ ds fl, l = ds ++ fl ∧ (∀ d ∈ ds, isDir d = true) ∧ (∀ f ∈ fl, isDir f = false) ∧ ds.Pairwise R ∧ fl.Pairwise R := by
  induction l with
  | nil => exact ⟨[], [], rfl, by simp, by simp, .nil, .nil⟩
  | cons a l ih =>
    rw [List.pairwise_cons] at h
    obtain ⟨ds, fl, rfl, h1, h2, h3, h4⟩ := ih h.2
    cases ha : isDir a with
    | true =>
      refine ⟨a :: ds, fl, rfl, ?_, h2, ?_, h4⟩
      · intro d hd; rcases List.mem_cons.1 hd with rfl | hd
        · exact ha
        · exact h1 d hd
      · rw [List.pairwise_cons]
        refine ⟨fun b hb => ?_, h3⟩
        rcases h.1 b (by simp [hb]) with ⟨_, hf⟩ | ⟨_, hr⟩
        · rw [h1 b hb] at hf; cases hf
        · exact hr
    | false =>
      cases ds with
      | nil =>
        refine ⟨[], a :: fl, rfl, by simp, ?_, .nil, ?_⟩
        · intro d hd; rcases List.mem_cons.1 hd with rfl | hd
          · exact ha
          · exact h2 d hd
        · rw [List.pairwise_cons]
          refine ⟨fun b hb => ?_, h4⟩
          rcases h.1 b (by simp [hb]) with ⟨hf, _⟩ | ⟨_, hr⟩
          · rw [ha] at hf; cases hf
          · exact hr
      | cons d ds =>
        rcases h.1 d (by simp) with ⟨hf, _⟩ | ⟨he, _⟩
        · rw [ha] at hf; cases hf
        · rw [ha, h1 d (by simp)] at he; cases he

/-- **C33**: with `sort(DIRECTORY_FIRST)` each displayed directory shows its subdirectories in ascending order of names, then its other entries in ascending order of names. -/
theorem C33_directories_first (hfs : ProperFs fs) (hw : cwd.abs = true) (hsort : o.pathComparator = thenComparing (PathSorts.DIRECTORY_FIRST fs.isDir) PathSorts.ALPHABETICAL)
    {p : Path} {t : TreeEntry} (h : scanned fs cwd o p = .ok t) {d : Path} {es : List TreeEntry} (hb : Below (.dir d es) t) :
    ∃ ds fl, es.filterMap entryPath = ds ++ fl ∧ (∀ q ∈ ds, fs.isDir q = true) ∧ (∀ q ∈ fl, fs.isDir q = false) ∧
      ds.Pairwise (fun a b => compareTo (lastName a) (lastName b) < 0) ∧ fl.Pairwise (fun a b => compareTo (lastName a) (lastName b) < 0) := by
  refine split_dirs fs.isDir _ ((C08_children_strictly_sorted hfs hw (lawful_DIRECTORY_FIRST fs.isDir) hsort h hb).imp (fun {a b} hab => ?_))
  unfold PathSorts.DIRECTORY_FIRST at hab
  cases ha : fs.isDir a <;> cases hb' : fs.isDir b <;> simp [ha, hb'] at hab ⊢ <;> exact hab

/-- **C33**: with `sort(DIRECTORY_LAST)` it is the other way round. -/
theorem C33_directories_last (hfs : ProperFs fs) (hw : cwd.abs = true) (hsort : o.pathComparator = thenComparing (PathSorts.DIRECTORY_LAST fs.isDir) PathSorts.ALPHABETICAL)
    {p : Path} {t : TreeEntry} (h : scanned fs cwd o p = .ok t) {d : Path} {es : List TreeEntry} (hb : Below (.dir d es) t) :
    ∃ fl ds, es.filterMap entryPath = fl ++ ds ∧ (∀ q ∈ fl, fs.isDir q = false) ∧ (∀ q ∈ ds, fs.isDir q = true) ∧
      fl.Pairwise (fun a b => compareTo (lastName a) (lastName b) < 0) ∧ ds.Pairwise (fun a b => compareTo (lastName a) (lastName b) < 0) := by
  have := split_dirs (R := fun a b => compareTo (lastName a) (lastName b) < 0) (fun q => !fs.isDir q) (es.filterMap entryPath)
    ((C08_children_strictly_sorted hfs hw (lawful_DIRECTORY_LAST fs.isDir) hsort h hb).imp (fun {a b} hab => by
      unfold PathSorts.DIRECTORY_LAST reversed PathSorts.DIRECTORY_FIRST at hab
      cases ha : fs.isDir a <;> cases hb' : fs.isDir b <;> simp [ha, hb'] at hab ⊢ <;> exact hab))
  simpa using this

/-- **C34**: with `sort(BY_FILE_SIZE)` children appear by ascending size, directories counting as 0, equal sizes in order of names. -/
theorem C34_by_size (hfs : ProperFs fs) (hw : cwd.abs = true) (size : Path → Int) (hsort : o.pathComparator = thenComparing (PathSorts.BY_FILE_SIZE fs.isDir size) PathSorts.ALPHABETICAL)
    {p : Path} {t : TreeEntry} (h : scanned fs cwd o p = .ok t) {d : Path} {es : List TreeEntry} (hb : Below (.dir d es) t) :
    (es.filterMap entryPath).Pairwise (fun a b =>
      let sa := if fs.isDir a then 0 else size a
      let sb := if fs.isDir b then 0 else size b
      sa < sb ∨ (sa = sb ∧ compareTo (lastName a) (lastName b) < 0)) := by
  refine (C08_children_strictly_sorted hfs hw (lawful_BY_FILE_SIZE fs.isDir size) hsort h hb).imp (fun {a b} hab => ?_)
  unfold PathSorts.BY_FILE_SIZE intCompare at hab
  dsimp only
  generalize (if fs.isDir a = true then 0 else size a) = sa at hab ⊢
  generalize (if fs.isDir b = true then 0 else size b) = sb at hab ⊢
  by_cases h1 : sa < sb
  · exact .inl h1
  · by_cases h2 : sa = sb
    · right; exact ⟨h2, by simpa [h1, h2] using hab⟩
    · simp [h1, h2] at hab

/-- **C34**, consequence: directories come before all non-empty files. -/
theorem C34_directories_before_nonempty_files (hfs : ProperFs fs) (hw : cwd.abs = true) (size : Path → Int)
    (hsort : o.pathComparator = thenComparing (PathSorts.BY_FILE_SIZE fs.isDir size) PathSorts.ALPHABETICAL)
    {p : Path} {t : TreeEntry} (h : scanned fs cwd o p = .ok t) {d : Path} {es : List TreeEntry} (hb : Below (.dir d es) t)
    {i j : Nat} {a b : Path} (ha : (es.filterMap entryPath)[i]? = some a) (hb' : (es.filterMap entryPath)[j]? = some b)
    (hda : fs.isDir a = true) (hdb : fs.isDir b = false) (hsz : 0 < size b) : i < j := by
  have hp := C34_by_size hfs hw size hsort h hb
  by_contra hij
  rcases Nat.lt_or_eq_of_le (Nat.le_of_not_lt hij) with hlt | heq
  · rw [List.getElem?_eq_some_iff] at ha hb'
    obtain ⟨h1, rfl⟩ := ha
    obtain ⟨h2, rfl⟩ := hb'
    have := List.pairwise_iff_getElem.1 hp j i h2 h1 hlt
    simp [hda, hdb] at this
    omega
  · rw [← heq, hb'] at ha; cases ha; rw [hda] at hdb; cases hdb

end

/-- **C34**, documented claim ("directories … appear before regular files") refuted: an empty file `a` is ordered before a directory `b`, whatever the tie-breaker order does with names alone. -/
theorem C34_documented_claim_false (isDir : Path → Bool) (size : Path → Int) (a b : Path) (ha : isDir a = false) (hs : size a = 0) (hb : isDir b = true)
    (hn : compareTo (lastName a) (lastName b) < 0) :
    thenComparing (PathSorts.BY_FILE_SIZE isDir size) PathSorts.ALPHABETICAL a b < 0 := by
  simp only [lastName_eq] at hn
  unfold thenComparing PathSorts.BY_FILE_SIZE intCompare
  simp [ha, hs, hb]
  exact hn

namespace Demo

/-- `/r/{a (empty file), b/}` -/
def emptyFileDisk : Node := .dir true [(j!"r", .dir true [(j!"b", .dir true []), (j!"a", .regular 0)])]
def emptySize (_ : Path) : Int := 0

def eb : Path := ⟨true, [j!"r", j!"b"]⟩
def bySize : Options (Except Exn) := dflt.sort (PathSorts.BY_FILE_SIZE emptyFileDisk.toFs.isDir emptySize)

/-- The printed order on a concrete disk: the empty file comes first. -/
theorem scanned_emptyFile : scanned emptyFileDisk.toFs Path.root bySize r = .ok (.dir r [.file a ⟨false, false⟩, .dir eb []]) := by
  have hprop : ProperFs emptyFileDisk.toFs := Node.WF.proper (by simp [emptyFileDisk, Node.WF, Node.WFAll])
  refine scanned_complete rfl (sort_lawful (lawful_BY_FILE_SIZE _ _)) (sort_distinguishes (lawful_BY_FILE_SIZE _ _) hprop) ?_
  refine Scanned.dir (A := answers emptyFileDisk.toFs bySize) (c := bySize.pathComparator) (maxDepth := 20) (k := 0) (p := r) (n := -1)
    (cs := [eb, a]) (ks := [eb, a]) (srt := [a, eb]) (es := [.file a ⟨false, false⟩, .dir eb []])
    rfl (by decide) rfl rfl (.keep rfl (.keep rfl .nil)) (by decide) (by decide) (.cons (.file rfl rfl) (.cons ?_ .nil))
  exact Scanned.dir (A := answers emptyFileDisk.toFs bySize) (c := bySize.pathComparator) (maxDepth := 20) (k := 1) (p := eb) (n := -1)
    (cs := []) (ks := []) (srt := []) (es := []) rfl (by decide) rfl rfl .nil (by decide) (by decide) .nil

theorem emptyFileDisk_proper : ProperFs emptyFileDisk.toFs := Node.WF.proper (by simp [emptyFileDisk, Node.WF, Node.WFAll])

example := C34_by_size (fs := emptyFileDisk.toFs) (cwd := Path.root) (o := bySize) emptyFileDisk_proper rfl emptySize rfl scanned_emptyFile .here

def dirsFirst : Options (Except Exn) := dflt.sort (PathSorts.DIRECTORY_FIRST emptyFileDisk.toFs.isDir)

theorem scanned_dirsFirst : scanned emptyFileDisk.toFs Path.root dirsFirst r = .ok (.dir r [.dir eb [], .file a ⟨false, false⟩]) := by
  refine scanned_complete rfl (sort_lawful (lawful_DIRECTORY_FIRST _)) (sort_distinguishes (lawful_DIRECTORY_FIRST _) emptyFileDisk_proper) ?_
  refine Scanned.dir (A := answers emptyFileDisk.toFs dirsFirst) (c := dirsFirst.pathComparator) (maxDepth := 20) (k := 0) (p := r) (n := -1)
    (cs := [eb, a]) (ks := [eb, a]) (srt := [eb, a]) (es := [.dir eb [], .file a ⟨false, false⟩])
    rfl (by decide) rfl rfl (.keep rfl (.keep rfl .nil)) (by decide) (by decide) (.cons ?_ (.cons (.file rfl rfl) .nil))
  exact Scanned.dir (A := answers emptyFileDisk.toFs dirsFirst) (c := dirsFirst.pathComparator) (maxDepth := 20) (k := 1) (p := eb) (n := -1)
    (cs := []) (ks := []) (srt := []) (es := []) rfl (by decide) rfl rfl .nil (by decide) (by decide) .nil

example := C33_directories_first (fs := emptyFileDisk.toFs) (cwd := Path.root) (o := dirsFirst) emptyFileDisk_proper rfl rfl scanned_dirsFirst .here

end Demo

/-! ### C35 -/

section
variable (fold : JChar → JChar) (isDir : Path → Bool) (p q : Path)

/-- **C35**: directories come before all other entries, and are equal to each other. -/
theorem C35_directories_first (hp : isDir p = true) :
    (isDir q = false → PathSorts.BY_EXTENSION fold isDir p q < 0) ∧ (isDir q = true → PathSorts.BY_EXTENSION fold isDir p q = 0) := by
  unfold PathSorts.BY_EXTENSION
  simp only [hp, if_true]
  exact ⟨fun h => by simp [h], fun h => by simp [h]⟩

/-- **C35**: files without extension come before files with extensions, and are compared by their whole names ignoring case. -/
theorem C35_no_extension (hp : isDir p = false) (hq : isDir q = false) (hn : HasNoExt (lastName p)) :
    (∀ base exts, HasExts (lastName q) base exts → PathSorts.BY_EXTENSION fold isDir p q < 0) ∧
    (HasNoExt (lastName q) → PathSorts.BY_EXTENSION fold isDir p q = compareToIgnoreCase fold (lastName p) (lastName q)) := by
  simp only [lastName_eq] at hn ⊢
  obtain ⟨b, hb⟩ := splitDots_hasNoExt hn
  constructor
  · intro base exts h
    have := splitDots_hasExts h
    unfold PathSorts.BY_EXTENSION
    have h1 : (base :: exts).length ≠ 1 := by
      have := h.nonempty
      cases exts with
      | nil => exact absurd rfl this
      | cons _ _ => simp
    simp only [hp, hq, hb, this, Bool.false_eq_true, if_false, List.length_singleton, true_and, h1, if_true]
    simp
  · intro h
    obtain ⟨b', hb'⟩ := splitDots_hasNoExt h
    unfold PathSorts.BY_EXTENSION
    simp only [hp, hq, hb, hb', Bool.false_eq_true, if_false, List.length_singleton, and_self, if_true]

/-- **C35**: two files with extensions are compared hierarchically by their extension parts from the last to the first, ignoring case; a file whose parts end first comes first;
they are equal iff all parts are. -/
theorem C35_extensions (hp : isDir p = false) (hq : isDir q = false) {bp bq : JStr} {ep eq : List JStr} (h1 : HasExts (lastName p) bp ep) (h2 : HasExts (lastName q) bq eq) :
    (PathSorts.BY_EXTENSION fold isDir p q < 0 ↔ PartsLt (compareToIgnoreCase fold) ep.reverse eq.reverse) ∧
    (PathSorts.BY_EXTENSION fold isDir p q = 0 ↔ List.Forall₂ (fun a b => a.map fold = b.map fold) ep eq) := by
  simp only [lastName_eq] at h1 h2
  have s1 := splitDots_hasExts h1
  have s2 := splitDots_hasExts h2
  have l1 : (bp :: ep).length ≠ 1 := by
    have := h1.nonempty
    cases ep with
    | nil => exact absurd rfl this
    | cons _ _ => simp
  have l2 : (bq :: eq).length ≠ 1 := by
    have := h2.nonempty
    cases eq with
    | nil => exact absurd rfl this
    | cons _ _ => simp
  have e : PathSorts.BY_EXTENSION fold isDir p q = lexCmp (compareToIgnoreCase fold) ep.reverse eq.reverse := by
    rw [BY_EXTENSION_eq]
    simp only [extClass, hp, hq, s1, s2, l1, l2, Bool.false_eq_true, if_false, extParts, List.tail_cons, ne_eq, not_true]
    simp
  rw [e]
  refine ⟨lexCmp_neg_iff _ _, (lexCmp_zero_iff _ _).trans ?_⟩
  rw [List.forall₂_reverse_iff]
  refine ⟨fun h => h.imp (fun a b hab => ?_), fun h => h.imp (fun a b hab => ?_)⟩
  · rw [compareToIgnoreCase_eq, compareTo_eq_zero] at hab; exact hab
  · rw [compareToIgnoreCase_eq, compareTo_eq_zero]; exact hab

/-- **C35**: every file name is of one of these forms, or consists of dots only; the latter come after all files without extension and before all files with extensions,
and are equal to each other. -/
theorem C35_dots_only (hp : isDir p = false) (hq : isDir q = false) (k : Nat) (hn : lastName p = List.replicate (k + 1) DOT) :
    (HasNoExt (lastName q) → 0 < PathSorts.BY_EXTENSION fold isDir p q) ∧
    (∀ base exts, HasExts (lastName q) base exts → PathSorts.BY_EXTENSION fold isDir p q < 0) ∧
    (∀ j, lastName q = List.replicate (j + 1) DOT → PathSorts.BY_EXTENSION fold isDir p q = 0) := by
  simp only [lastName_eq] at hn ⊢
  have s1 := splitDots_dots k
  rw [← hn] at s1
  refine ⟨?_, ?_, fun j hj => ?_⟩
  rotate_left 2
  · have s2 := splitDots_dots j
    rw [← hj] at s2
    rw [BY_EXTENSION_eq]
    simp [extClass, hp, hq, s1, s2, extParts, lexCmp]
  · intro h
    obtain ⟨b', hb'⟩ := splitDots_hasNoExt h
    unfold PathSorts.BY_EXTENSION
    simp [hp, hq, s1, hb']
  · intro base exts h
    have s2 := splitDots_hasExts h
    rw [BY_EXTENSION_eq]
    have l2 : (base :: exts).length ≠ 1 := by
      have := h.nonempty
      cases exts with
      | nil => exact absurd rfl this
      | cons _ _ => simp
    have hr : ∃ x xs, exts.reverse = x :: xs := by
      cases hx : exts.reverse with
      | nil => exact absurd (by simpa using hx) h.nonempty
      | cons x xs => exact ⟨x, xs, rfl⟩
    obtain ⟨x, xs, hx⟩ := hr
    simp only [extClass, hp, hq, s1, s2, l2, Bool.false_eq_true, if_false, extParts, List.tail_cons, hx]
    simp [lexCmp]

end

/-- The cases of C35 are exhaustive. -/
theorem C35_all_names (n : JStr) : HasNoExt n ∨ (∃ base exts, HasExts n base exts) ∨ ∃ k, n = List.replicate (k + 1) DOT := name_cases n

/-- Example: `ccc.gz` before `aaa.tar.gz` before `zzz.txt`. -/
example : HasExts j!"aaa.tar.GZ" j!"aaa" [j!"tar", j!"GZ"] := ⟨by simp, by decide, by decide, 0, rfl⟩
example : PartsLt (compareToIgnoreCase asciiLowerChar) [j!"gz"] [j!"GZ", j!"tar"] ∧ PartsLt (compareToIgnoreCase asciiLowerChar) [j!"GZ", j!"tar"] [j!"txt"] :=
  ⟨.next (by decide) .shorter, .differ (by decide)⟩

end JFTP
