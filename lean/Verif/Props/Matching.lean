import Verif.Spec.Reach
import Verif.Lemmas.Visit
import Verif.Lemmas.Disk
import Verif.Lemmas.Norm

/-!
C41–C47: matchers and spellings of paths.
-/

namespace JFTP
open Spec PathMatchers

/-! ### C41 -/

section
variable {m : Type → Type} [Monad m] [LawfulMonad m]

/-- Lemma: `not`, `allOf`, `anyOf`, `noneOf`, `ifMatchesThenElse` compute negation, conjunction, disjunction, joint denial and conditional. -/
theorem combined_truth_tables (p : Path) (fs : List (Path → Bool)) (f g h : Path → Bool) :
    not (m := m) (fun q => pure (f q)) p = pure (!f p) ∧
    all (m := m) p (fs.map (fun f q => pure (f q))) = pure (decide (∀ f ∈ fs, f p = true)) ∧
    any (m := m) p (fs.map (fun f q => pure (f q))) = pure (decide (∃ f ∈ fs, f p = true)) ∧
    none (m := m) p (fs.map (fun f q => pure (f q))) = pure (decide (∀ f ∈ fs, f p = false)) ∧
    ifMatchesThenElse (m := m) (fun q => pure (f q)) (fun q => pure (g q)) (fun q => pure (h q)) p = pure (if f p then g p else h p) := by
  refine ⟨by simp [PathMatchers.not], ?_, ?_, ?_, ?_⟩
  · induction fs with
    | nil => simp [all]
    | cons f fs ih =>
      rw [List.map_cons, all, pure_bind, ih]
      cases hf : f p <;> simp [hf]
  · induction fs with
    | nil => simp [any]
    | cons f fs ih =>
      rw [List.map_cons, any, pure_bind, ih]
      cases hf : f p <;> simp [hf]
  · induction fs with
    | nil => simp [PathMatchers.none]
    | cons f fs ih =>
      rw [List.map_cons, PathMatchers.none, pure_bind, ih]
      cases hf : f p <;> simp [hf]
  · unfold ifMatchesThenElse
    rw [pure_bind]
    cases f p <;> simp

/-- Lemma: the first decisive matcher decides, later ones (which may throw or have effects) are not evaluated. -/
theorem combined_short_circuit (p : Path) (pre post : List (Matcher m)) (r : Matcher m) :
    ((∀ g ∈ pre, g p = pure true) → r p = pure false → all p (pre ++ r :: post) = pure false) ∧
    ((∀ g ∈ pre, g p = pure false) → r p = pure true → any p (pre ++ r :: post) = pure true) ∧
    ((∀ g ∈ pre, g p = pure false) → r p = pure true → none p (pre ++ r :: post) = pure false) := by
  refine ⟨fun h1 h2 => ?_, fun h1 h2 => ?_, fun h1 h2 => ?_⟩
  · induction pre with
    | nil => rw [List.nil_append, all, h2, pure_bind]; rfl
    | cons g pre ih => rw [List.cons_append, all, h1 g (by simp), pure_bind]; simpa using ih (fun g hg => h1 g (by simp [hg]))
  · induction pre with
    | nil => rw [List.nil_append, any, h2, pure_bind]; rfl
    | cons g pre ih => rw [List.cons_append, any, h1 g (by simp), pure_bind]; simpa using ih (fun g hg => h1 g (by simp [hg]))
  · induction pre with
    | nil => rw [List.nil_append, PathMatchers.none, h2, pure_bind]; rfl
    | cons g pre ih => rw [List.cons_append, PathMatchers.none, h1 g (by simp), pure_bind]; simpa using ih (fun g hg => h1 g (by simp [hg]))

/-- **C41**: the branch of `ifMatchesThenElse` that is not taken is not evaluated, and matchers are called with the path itself. -/
theorem C41_branch (p : Path) (i t e : Matcher m) : (i p = pure true → ifMatchesThenElse i t e p = t p) ∧ (i p = pure false → ifMatchesThenElse i t e p = e p) := by
  unfold ifMatchesThenElse
  refine ⟨fun h => ?_, fun h => ?_⟩ <;> rw [h, pure_bind] <;> rfl

/-- Lemma: `noneOf` is `not(anyOf)`, with arbitrary effects; `not` is involutive. -/
theorem combined_none_not_any (p : Path) (ms : List (Matcher m)) : none p ms = not (fun q => any q ms) p ∧ ∀ r : Matcher m, not (not r) = r := by
  constructor
  · unfold PathMatchers.not
    induction ms with
    | nil => simp [PathMatchers.none, any]
    | cons r ms ih =>
      simp only [PathMatchers.none, PathMatchers.any, bind_assoc]
      congr 1
      funext b
      cases b with
      | true => simp
      | false => simpa using ih
  · intro r
    funext q
    unfold PathMatchers.not
    simp

omit [LawfulMonad m] in
/-- Lemma: an empty collection is rejected when the matcher is created; others are accepted. -/
theorem combined_empty_rejected : allOf (m := m) [] = .error .illegalArgument ∧ anyOf (m := m) [] = .error .illegalArgument ∧ noneOf (m := m) [] = .error .illegalArgument ∧
    ∀ (r : Matcher m) (ms : List (Matcher m)), allOf (r :: ms) = .ok (fun p => all p (r :: ms)) ∧ anyOf (r :: ms) = .ok (fun p => any p (r :: ms)) ∧
      noneOf (r :: ms) = .ok (fun p => none p (r :: ms)) :=
  ⟨rfl, rfl, rfl, fun _ _ => ⟨rfl, rfl, rfl⟩⟩

end

/-- Lemma: if the first matcher that does not agree throws, the combination throws the same exception. -/
theorem combined_exceptions (p : Path) (pre post : List (Matcher (Except Exn))) (r : Matcher (Except Exn)) (x : Exn) (hr : r p = .error x) :
    ((∀ g ∈ pre, g p = .ok true) → all p (pre ++ r :: post) = .error x) ∧ ((∀ g ∈ pre, g p = .ok false) → any p (pre ++ r :: post) = .error x) ∧
    ((∀ g ∈ pre, g p = .ok false) → none p (pre ++ r :: post) = .error x) ∧ not r p = .error x := by
  refine ⟨fun h1 => ?_, fun h1 => ?_, fun h1 => ?_, ?_⟩
  · induction pre with
    | nil => rw [List.nil_append, all, hr]; rfl
    | cons g pre ih => rw [List.cons_append, all, h1 g (by simp)]; exact ih (fun g hg => h1 g (by simp [hg]))
  · induction pre with
    | nil => rw [List.nil_append, any, hr]; rfl
    | cons g pre ih => rw [List.cons_append, any, h1 g (by simp)]; exact ih (fun g hg => h1 g (by simp [hg]))
  · induction pre with
    | nil => rw [List.nil_append, PathMatchers.none, hr]; rfl
    | cons g pre ih => rw [List.cons_append, PathMatchers.none, h1 g (by simp)]; exact ih (fun g hg => h1 g (by simp [hg]))
  · unfold PathMatchers.not; rw [hr]; rfl


section
variable {m : Type → Type} [Monad m] [LawfulMonad m]

omit [LawfulMonad m] in
/-- **C41**: an empty collection is rejected with `IllegalArgumentException` when the matcher is created; others are accepted. -/
theorem C41_empty_rejected (ms : List (Matcher m)) :
    (ms = [] → allOf ms = .error .illegalArgument ∧ anyOf ms = .error .illegalArgument ∧ noneOf ms = .error .illegalArgument) ∧
    (ms ≠ [] → (∃ a, allOf ms = .ok a) ∧ (∃ a, anyOf ms = .ok a) ∧ (∃ a, noneOf ms = .ok a)) := by
  refine ⟨fun h => by subst h; exact ⟨rfl, rfl, rfl⟩, fun h => ?_⟩
  cases ms with
  | nil => exact absurd rfl h
  | cons r ms => exact ⟨⟨_, rfl⟩, ⟨_, rfl⟩, ⟨_, rfl⟩⟩

omit [LawfulMonad m] in
theorem combined_ok {ms : List (Matcher m)} {a b c : Matcher m} :
    (allOf ms = .ok a → a = fun p => all p ms) ∧ (anyOf ms = .ok b → b = fun p => any p ms) ∧ (noneOf ms = .ok c → c = fun p => none p ms) := by
  cases ms with
  | nil => exact ⟨nofun, nofun, nofun⟩
  | cons r ms => exact ⟨fun h => by cases h; rfl, fun h => by cases h; rfl, fun h => by cases h; rfl⟩

/-- **C41**: `not`, `allOf`, `anyOf`, `noneOf`, `ifMatchesThenElse` compute negation, conjunction, disjunction, joint denial and conditional. -/
theorem C41_truth_tables (p : Path) (fs : List (Path → Bool)) (f g h : Path → Bool) (a b c : Matcher m)
    (ha : allOf (fs.map (fun f q => pure (f q))) = .ok a) (hb : anyOf (fs.map (fun f q => pure (f q))) = .ok b) (hc : noneOf (fs.map (fun f q => pure (f q))) = .ok c) :
    not (m := m) (fun q => pure (f q)) p = pure (!f p) ∧
    a p = pure (decide (∀ f ∈ fs, f p = true)) ∧ b p = pure (decide (∃ f ∈ fs, f p = true)) ∧ c p = pure (decide (∀ f ∈ fs, f p = false)) ∧
    ifMatchesThenElse (m := m) (fun q => pure (f q)) (fun q => pure (g q)) (fun q => pure (h q)) p = pure (if f p then g p else h p) := by
  rw [combined_ok (m := m) (a := a) (b := b) (c := c) |>.1 ha, combined_ok (m := m) (a := a) (b := b) (c := c) |>.2.1 hb, combined_ok (m := m) (a := a) (b := b) (c := c) |>.2.2 hc]
  exact combined_truth_tables p fs f g h

/-- **C41**: the first decisive matcher decides, later ones (which may throw or have effects) are not evaluated. -/
theorem C41_short_circuit (p : Path) (pre post : List (Matcher m)) (r a b c : Matcher m)
    (ha : allOf (pre ++ r :: post) = .ok a) (hb : anyOf (pre ++ r :: post) = .ok b) (hc : noneOf (pre ++ r :: post) = .ok c) :
    ((∀ g ∈ pre, g p = pure true) → r p = pure false → a p = pure false) ∧
    ((∀ g ∈ pre, g p = pure false) → r p = pure true → b p = pure true) ∧
    ((∀ g ∈ pre, g p = pure false) → r p = pure true → c p = pure false) := by
  rw [combined_ok (m := m) (a := a) (b := b) (c := c) |>.1 ha, combined_ok (m := m) (a := a) (b := b) (c := c) |>.2.1 hb, combined_ok (m := m) (a := a) (b := b) (c := c) |>.2.2 hc]
  exact combined_short_circuit p pre post r

/-- **C41**: `noneOf` is `not(anyOf)`, with arbitrary effects; `not` is involutive. -/
theorem C41_none_not_any (ms : List (Matcher m)) (b c : Matcher m) (hb : anyOf ms = .ok b) (hc : noneOf ms = .ok c) : c = not b ∧ ∀ r : Matcher m, not (not r) = r := by
  rw [combined_ok (m := m) (a := b) (b := b) (c := c) |>.2.1 hb, combined_ok (m := m) (a := b) (b := b) (c := c) |>.2.2 hc]
  exact ⟨funext fun p => (combined_none_not_any p ms).1, (combined_none_not_any ⟨true, []⟩ ms).2⟩

end

/-- **C41**: if the first matcher that does not agree throws, the combination throws the same exception. -/
theorem C41_exceptions (p : Path) (pre post : List (Matcher (Except Exn))) (r a b c : Matcher (Except Exn)) (x : Exn) (hr : r p = .error x)
    (ha : allOf (pre ++ r :: post) = .ok a) (hb : anyOf (pre ++ r :: post) = .ok b) (hc : noneOf (pre ++ r :: post) = .ok c) :
    ((∀ g ∈ pre, g p = .ok true) → a p = .error x) ∧ ((∀ g ∈ pre, g p = .ok false) → b p = .error x) ∧
    ((∀ g ∈ pre, g p = .ok false) → c p = .error x) ∧ not r p = .error x := by
  rw [combined_ok (a := a) (b := b) (c := c) |>.1 ha, combined_ok (a := a) (b := b) (c := c) |>.2.1 hb, combined_ok (a := a) (b := b) (c := c) |>.2.2 hc]
  exact combined_exceptions p pre post r x hr

/-- Example: the third matcher throws and is not called. -/
example := (C41_short_circuit (m := Except Exn) Demo.a [fun _ => pure true] [fun _ => throw (Exn.user 3)] (fun _ => pure false) _ _ _ rfl rfl rfl).1 (by simp) rfl
example := C41_truth_tables (m := Except Exn) Demo.a [fun q => decide (q = Demo.a), fun _ => false] (fun _ => true) (fun _ => true) (fun _ => false) _ _ _ rfl rfl rfl
example := C41_exceptions Demo.a [fun _ => pure true] [] (fun _ => throw (Exn.user 3)) _ _ _ (.user 3) rfl rfl rfl rfl

/-! ### C42 -/

section
variable {m : Type → Type} [Monad m]

/-- **C42**: name matchers look at the last name element only. -/
theorem C42_names (p : Path) (dir : List JStr) (n : JStr) (hp : p.names = dir ++ [n]) (cs : Casing) (s : JStr) (pat : JStr → Bool) :
    hasName (m := m) s p = pure (decide (n = s)) ∧
    hasNameIgnoreCase (m := m) cs s p = pure (decide (n.map cs.fold = s.map cs.fold)) ∧
    hasNameMatching (m := m) pat p = pure (pat n) ∧
    (∃ b, hasNameStartingWith (m := m) s p = pure b ∧ (b = true ↔ ∃ t, n = s ++ t)) ∧
    (∃ b, hasNameEndingWith (m := m) s p = pure b ∧ (b = true ↔ ∃ t, n = t ++ s)) ∧
    (∃ b, hasExtension (m := m) s p = pure b ∧ (b = true ↔ ∃ t, n = t ++ j!"." ++ s)) := by
  have hl : p.getFileName = some n := by simp [Path.getFileName, hp]
  refine ⟨?_, ?_, ?_, ⟨startsWith n s, ?_, ?_⟩, ⟨endsWith n s, ?_, ?_⟩, ⟨endsWith n (DOT :: s), ?_, ?_⟩⟩
  · unfold hasName; rw [hl]; congr 1; by_cases h : n = s <;> simp [h]
  · unfold hasNameIgnoreCase equalsIgnoreCase; rw [hl]; congr 1; by_cases h : n.map cs.fold = s.map cs.fold <;> simp [h]
  · unfold hasNameMatching; rw [hl]
  · unfold hasNameStartingWith; rw [hl]
  · unfold startsWith; rw [List.isPrefixOf_iff_prefix]; exact ⟨fun ⟨t, h⟩ => ⟨t, h.symm⟩, fun ⟨t, h⟩ => ⟨t, h.symm⟩⟩
  · unfold hasNameEndingWith; rw [hl]
  · unfold endsWith; rw [List.isSuffixOf_iff_suffix]; exact ⟨fun ⟨t, h⟩ => ⟨t, h.symm⟩, fun ⟨t, h⟩ => ⟨t, h.symm⟩⟩
  · unfold hasExtension hasNameEndingWith; rw [hl]
  · unfold endsWith; rw [List.isSuffixOf_iff_suffix]
    exact ⟨fun ⟨t, h⟩ => ⟨t, by simpa [DOT] using h.symm⟩, fun ⟨t, h⟩ => ⟨t, by simpa [DOT] using h.symm⟩⟩

/-- **C42**: a root path matches no name matcher (except the glob `*`, see below). -/
theorem C42_root (p : Path) (hp : p.names = []) (cs : Casing) (s : JStr) (pat : JStr → Bool) :
    hasName (m := m) s p = pure false ∧ hasNameIgnoreCase (m := m) cs s p = pure false ∧ hasNameMatching (m := m) pat p = pure false ∧
    hasNameStartingWith (m := m) s p = pure false ∧ hasNameEndingWith (m := m) s p = pure false ∧ hasExtension (m := m) s p = pure false := by
  have hl : p.getFileName = Option.none := by simp [Path.getFileName, hp]
  simp [hasName, hasNameIgnoreCase, hasNameMatching, hasNameStartingWith, hasNameEndingWith, hasExtension, hl]

/-- **C42**: the name glob is applied to the last name element alone; an invalid glob fails when the matcher is created; `*` matches everything, also a root. -/
theorem C42_glob (glob : GlobCompiler) (g : JStr) (p : Path) :
    (g = j!"*" → ∃ mt, hasNameMatchingGlob (m := m) glob g = .ok mt ∧ mt p = pure true) ∧
    (∀ x, g ≠ j!"*" → glob g = .error x → hasNameMatchingGlob (m := m) glob g = .error x) ∧
    (∀ t, g ≠ j!"*" → glob g = .ok t → ∃ mt, hasNameMatchingGlob (m := m) glob g = .ok mt ∧
      mt p = pure (match p.names.getLast? with | some n => t ⟨false, [n]⟩ | .none => false)) := by
  refine ⟨fun h => ⟨_, if_pos h, rfl⟩, fun x h hg => ?_, fun t h hg => ?_⟩
  · unfold hasNameMatchingGlob; rw [if_neg h, hg]; rfl
  · unfold hasNameMatchingGlob; rw [if_neg h, hg]; exact ⟨_, rfl, rfl⟩

end

example := (C42_names (m := Except Exn) ⟨true, [j!"r", j!"a.tar.gz"]⟩ [j!"r"] j!"a.tar.gz" rfl asciiCasing j!"gz" (fun _ => true)).2.2.2.2.2

/-! ### C43 -/

section
variable {m : Type → Type} [Monad m] [LawfulMonad m]

omit [LawfulMonad m] in
/-- **C43**: the direct parent is the path without its last name; only it is tested. -/
theorem C43_parent (p : Path) (dir : List JStr) (n : JStr) (hp : p.names = dir ++ [n]) (h : p.abs = true ∨ dir ≠ []) (mt : Matcher m) :
    hasDirectParentMatching mt p = mt ⟨p.abs, dir⟩ := by
  unfold hasDirectParentMatching
  have : p.getParent = some ⟨p.abs, dir⟩ := by
    cases p with | mk ab ns =>
    subst hp
    unfold Path.getParent
    cases dir with
    | nil => cases ab with
      | true => rfl
      | false => simp at h
    | cons d ds => cases ab <;> simp [List.dropLast_cons_of_ne_nil]
  rw [this]

omit [LawfulMonad m] in
/-- **C43**: without parent (roots, and relative paths with a single name) the matchers answer false. -/
theorem C43_no_parent (p : Path) (h : p.names = [] ∨ (p.abs = false ∧ p.names.length = 1)) (mt : Matcher m) :
    hasDirectParentMatching mt p = pure false ∧ hasAnyAncestorMatching mt p = pure false := by
  have : p.getParent = Option.none := by
    cases p with | mk ab ns =>
    unfold Path.getParent
    rcases h with h | ⟨h1, h2⟩
    · simp only at h; subst h; rfl
    · simp only at h1 h2; subst h1
      match ns, h2 with
      | [x], _ => rfl
  unfold hasDirectParentMatching hasAnyAncestorMatching
  rw [this]
  exact ⟨rfl, by rw [ancestorLoop]⟩

theorem getParent_ancestor {p q : Path} (h : p.getParent = some q) : Ancestor p q := by
  cases p with | mk ab ns =>
  unfold Path.getParent at h
  have key : ∀ (l : List JStr), l ≠ [] → ∃ n ns, l = l.dropLast ++ n :: ns := fun l hl => ⟨l.getLast hl, [], (List.dropLast_append_getLast hl).symm⟩
  split at h
  · cases h
  · rename_i h2 h1
    simp only at h2; subst h2; cases h
    exact ⟨rfl, key _ h1, by simp⟩
  · cases h
  · rename_i h3 h1 h2
    simp only at h3; subst h3; cases h
    refine ⟨rfl, key _ h1, fun _ hd => ?_⟩
    simp only at hd
    match ns, h1, h2, hd with
    | [x], _, h2, _ => exact absurd rfl (h2 x)
    | x :: y :: zs, _, _, hd => simp at hd

theorem ancestor_step {p q : Path} (h : Ancestor p q) : ∃ r, p.getParent = some r ∧ (q = r ∨ Ancestor r q) := by
  cases p with | mk ab ns =>
  cases q with | mk ab' ms =>
  obtain ⟨h1, ⟨n, ns', h2⟩, h3⟩ := h
  simp only at h1 h2 h3
  subst h1 h2
  have e : Path.getParent ⟨ab', ms ++ n :: ns'⟩ = some ⟨ab', (ms ++ n :: ns').dropLast⟩ := by
    unfold Path.getParent
    cases ab' with
    | true => cases ms <;> simp
    | false =>
      have := h3 rfl
      match ms, this with
      | x :: xs, _ => cases xs <;> simp
  refine ⟨_, e, ?_⟩
  by_cases hz : ns' = []
  · subst hz; left; simp
  · right
    refine ⟨rfl, ⟨n, ns'.dropLast, ?_⟩, h3⟩
    show (ms ++ n :: ns').dropLast = _
    rw [List.dropLast_append_of_ne_nil (by simp), List.dropLast_cons_of_ne_nil hz]

/-- **C43**: with a matcher that is a function of the path, the answer is whether some proper ancestor matches. -/
theorem C43_any_ancestor (f : Path → Bool) (p : Path) : ∃ b, hasAnyAncestorMatching (m := m) (fun q => pure (f q)) p = pure b ∧ (b = true ↔ ∃ q, Ancestor p q ∧ f q = true) := by
  unfold hasAnyAncestorMatching
  induction hn : p.names.length using Nat.strongRecOn generalizing p with
  | _ k ih =>
    cases hp : p.getParent with
    | none =>
      refine ⟨false, by rw [ancestorLoop], ?_⟩
      simp only [Bool.false_eq_true, false_iff]
      rintro ⟨q, hq, _⟩
      obtain ⟨r, hr, _⟩ := ancestor_step hq
      rw [hp] at hr; cases hr
    | some r =>
      rw [ancestorLoop, pure_bind]
      cases hf : f r with
      | true => exact ⟨true, rfl, ⟨fun _ => ⟨r, getParent_ancestor hp, hf⟩, fun _ => rfl⟩⟩
      | false =>
        obtain ⟨b, hb, hiff⟩ := ih r.names.length (by have := Path.getParent_length hp; omega) r rfl
        refine ⟨b, by simpa using hb, hiff.trans ?_⟩
        constructor
        · rintro ⟨q, hq, hfq⟩
          refine ⟨q, ?_, hfq⟩
          obtain ⟨a1, ⟨n, ns, a2⟩, a3⟩ := hq
          obtain ⟨b1, ⟨n', ns', b2⟩, b3⟩ := getParent_ancestor hp
          refine ⟨a1.trans b1, ⟨n, ns ++ n' :: ns', by rw [b2, a2]; simp⟩, fun h => a3 (b1.trans h)⟩
        · rintro ⟨q, hq, hfq⟩
          obtain ⟨r', hr', h⟩ := ancestor_step hq
          rw [hp] at hr'; cases hr'
          rcases h with rfl | h
          · rw [hf] at hfq; cases hfq
          · exact ⟨q, h, hfq⟩

/-- **C43**: ancestors are tested from the nearest one up; the search stops at the first match. -/
theorem C43_nearest_first (mt : Matcher m) (p r : Path) (hp : p.getParent = some r) :
    (mt r = pure true → hasAnyAncestorMatching mt p = pure true) ∧ (mt r = pure false → hasAnyAncestorMatching mt p = hasAnyAncestorMatching mt r) := by
  unfold hasAnyAncestorMatching
  rw [hp, ancestorLoop]
  refine ⟨fun h => ?_, fun h => ?_⟩ <;> rw [h, pure_bind] <;> rfl

omit [LawfulMonad m] in
/-- **C43**: the path itself is no ancestor, whatever it matches. -/
theorem C43_not_itself (p : Path) : ¬ Ancestor p p := by
  rintro ⟨_, ⟨n, ns, h⟩, _⟩
  have := congrArg List.length h
  simp at this

end

example : Ancestor Demo.x Demo.r ∧ Ancestor Demo.x Path.root := ⟨⟨rfl, ⟨j!"a", [j!"x"], rfl⟩, by decide⟩, ⟨rfl, ⟨j!"r", [j!"a", j!"x"], rfl⟩, by decide⟩⟩

end JFTP
