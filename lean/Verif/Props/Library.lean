import Verif.Spec.Library
import Verif.Props.Program
import Verif.Props.Paths
import Verif.Props.Kinds

/-!
C102: conditions made with the factories of `PathMatchers` mean what they say.
-/

namespace JFTP
open Spec Spec.OnePage

namespace OnePage

variable {w : Place}

/-- Every answer of the matcher is right. -/
def Truthful (w : Place) (c : Cond) (mt : Matcher (Except Exn)) : Prop := ∀ p b, mt p = .ok b → (b = true ↔ c.holds w p)

/-- The matcher always answers. -/
def Answers (mt : Matcher (Except Exn)) : Prop := ∀ p, ∃ b, mt p = .ok b

/-! ### Lists -/

theorem all_right {p : Path} {cs : List Cond} {ms : List (Matcher (Except Exn))} (h : List.Forall₂ (Truthful w) cs ms) {b : Bool} (hb : PathMatchers.all p ms = .ok b) :
    b = true ↔ Cond.every w cs p := by
  induction h generalizing b with
  | nil => cases hb; simp [Cond.every]
  | @cons c mt cs ms h1 h2 ih =>
    rw [PathMatchers.all] at hb
    obtain ⟨b1, hb1, hb⟩ := except_bind_ok hb
    have := h1 p b1 hb1
    rw [Cond.every]
    cases b1 with
    | false => cases hb; simp at this; simp [this]
    | true => rw [← ih hb]; simp [this.1 rfl]

theorem any_right {p : Path} {cs : List Cond} {ms : List (Matcher (Except Exn))} (h : List.Forall₂ (Truthful w) cs ms) {b : Bool} (hb : PathMatchers.any p ms = .ok b) :
    b = true ↔ Cond.some w cs p := by
  induction h generalizing b with
  | nil => cases hb; simp [Cond.some]
  | @cons c mt cs ms h1 h2 ih =>
    rw [PathMatchers.any] at hb
    obtain ⟨b1, hb1, hb⟩ := except_bind_ok hb
    have := h1 p b1 hb1
    rw [Cond.some]
    cases b1 with
    | true => cases hb; simp [this.1 rfl]
    | false => rw [← ih hb]; simp at this; simp [this]

theorem none_right {p : Path} {cs : List Cond} {ms : List (Matcher (Except Exn))} (h : List.Forall₂ (Truthful w) cs ms) {b : Bool} (hb : PathMatchers.none p ms = .ok b) :
    b = true ↔ ¬ Cond.some w cs p := by
  induction h generalizing b with
  | nil => cases hb; simp [Cond.some]
  | @cons c mt cs ms h1 h2 ih =>
    rw [PathMatchers.none] at hb
    obtain ⟨b1, hb1, hb⟩ := except_bind_ok hb
    have := h1 p b1 hb1
    rw [Cond.some]
    cases b1 with
    | true => cases hb; simp [this.1 rfl]
    | false => rw [ih hb]; simp at this; simp [this]

theorem all_answers {p : Path} {ms : List (Matcher (Except Exn))} (h : ∀ mt ∈ ms, Answers mt) :
    (∃ b, PathMatchers.all p ms = .ok b) ∧ (∃ b, PathMatchers.any p ms = .ok b) ∧ ∃ b, PathMatchers.none p ms = .ok b := by
  induction ms with
  | nil => exact ⟨⟨_, rfl⟩, ⟨_, rfl⟩, ⟨_, rfl⟩⟩
  | cons mt ms ih =>
    obtain ⟨b, hb⟩ := h mt (by simp) p
    obtain ⟨i1, i2, i3⟩ := ih fun m hm => h m (by simp [hm])
    rw [PathMatchers.all, PathMatchers.any, PathMatchers.none, hb]
    cases b with
    | true => exact ⟨i1, ⟨_, rfl⟩, ⟨_, rfl⟩⟩
    | false => exact ⟨⟨_, rfl⟩, i2, i3⟩

/-! ### Names -/

theorem named_iff {P : JStr → Prop} {p : Path} {f : JStr → Bool} (h : ∀ n, f n = true ↔ P n) :
    (match p.getFileName with | some n => f n | none => false) = true ↔ Spec.OnePage.Named P p := by
  unfold Spec.OnePage.Named
  rcases List.eq_nil_or_concat p.names with hp | ⟨dir, n, hp⟩
  · have : p.getFileName = none := by simp [Path.getFileName, hp]
    rw [this, hp]; simp
  · have : p.getFileName = some n := by simp [Path.getFileName, hp]
    rw [this, hp]
    simp only [h, List.concat_eq_append]
    constructor
    · intro h; exact ⟨dir, n, rfl, h⟩
    · rintro ⟨d, n', he, h⟩
      have := List.append_inj' he rfl
      simp only [List.cons.injEq, and_true] at this
      rw [this.2]; exact h

/-! ### Ancestors -/

theorem parent_iff {p q : Path} : p.getParent = some q ↔ Ancestor p q ∧ p.names.length = q.names.length + 1 := by
  constructor
  · intro h
    refine ⟨getParent_ancestor h, ?_⟩
    have h1 := Path.getParent_length h
    unfold Path.getParent at h
    split at h <;> simp at h <;> (subst h; simp at h1 ⊢; omega)
  · rintro ⟨h, hl⟩
    obtain ⟨r, hr, rfl | h'⟩ := ancestor_step h
    · exact hr
    · have h1 := Path.getParent_length hr
      obtain ⟨_, ⟨n, ns, h2⟩, _⟩ := h'
      have := congrArg List.length h2
      simp at this
      omega

theorem ancestors_right {c : Cond} {mt : Matcher (Except Exn)} (h : Truthful w c mt) {p : Path} {b : Bool} (hb : PathMatchers.hasAnyAncestorMatching mt p = .ok b) :
    b = true ↔ ∃ q, Ancestor p q ∧ c.holds w q := by
  unfold PathMatchers.hasAnyAncestorMatching at hb
  induction hn : p.names.length using Nat.strongRecOn generalizing p with
  | _ k ih =>
    cases hp : p.getParent with
    | none =>
      rw [hp, PathMatchers.ancestorLoop] at hb
      cases hb
      simp only [Bool.false_eq_true, false_iff]
      rintro ⟨q, hq, _⟩
      obtain ⟨r, hr, _⟩ := ancestor_step hq
      rw [hp] at hr; cases hr
    | some r =>
      rw [hp, PathMatchers.ancestorLoop] at hb
      obtain ⟨b1, hb1, hb⟩ := except_bind_ok hb
      have hr := h r b1 hb1
      cases b1 with
      | true => cases hb; exact ⟨fun _ => ⟨r, getParent_ancestor hp, hr.1 rfl⟩, fun _ => rfl⟩
      | false =>
        rw [ih r.names.length (by have := Path.getParent_length hp; omega) (p := r) hb rfl]
        constructor
        · rintro ⟨q, hq, hfq⟩
          refine ⟨q, ?_, hfq⟩
          obtain ⟨a1, ⟨n, ns, a2⟩, a3⟩ := hq
          obtain ⟨b1, ⟨n', ns', b2⟩, b3⟩ := getParent_ancestor hp
          refine ⟨a1.trans b1, ⟨n, ns ++ n' :: ns', by rw [b2, a2]; simp⟩, fun h => a3 (b1.trans h)⟩
        · rintro ⟨q, hq, hfq⟩
          obtain ⟨r', hr', h'⟩ := ancestor_step hq
          rw [hp] at hr'; cases hr'
          rcases h' with rfl | h'
          · cases hr.2 hfq
          · exact ⟨q, h', hfq⟩

theorem ancestors_answer {mt : Matcher (Except Exn)} (h : Answers mt) : Answers (PathMatchers.hasAnyAncestorMatching mt) := by
  intro p
  unfold PathMatchers.hasAnyAncestorMatching
  induction hn : p.names.length using Nat.strongRecOn generalizing p with
  | _ k ih =>
    cases hp : p.getParent with
    | none => exact ⟨false, by rw [PathMatchers.ancestorLoop]; rfl⟩
    | some r =>
      obtain ⟨b, hb⟩ := h r
      rw [PathMatchers.ancestorLoop, hb]
      cases b with
      | true => exact ⟨_, rfl⟩
      | false => exact ih r.names.length (by have := Path.getParent_length hp; omega) r rfl

/-! ### Descendants -/

theorem walk_right {c : Cond} {mt : Matcher (Except Exn)} (h : Truthful w c mt) (incl : Path → Bool) {n : Nat} (hn : 1 ≤ n) {p : Path} {b : Bool}
    (hb : PathMatchers.testDescendants w.fs.lift p n mt incl = .ok b) : b = true ↔ ∃ k q, k ≤ n ∧ Reach w.fs k p q ∧ incl q = true ∧ c.holds w q := by
  obtain ⟨h1, h2, -⟩ := testDescendants_spec (fs := w.fs) incl mt n hn p
  have key : ∀ q b, tst incl mt q = .ok b → (b = true ↔ incl q = true ∧ c.holds w q) := by
    intro q b hq
    unfold tst at hq
    cases hi : incl q with
    | true => rw [hi] at hq; simpa using h q b hq
    | false => rw [hi] at hq; cases hq; simp
  cases b with
  | true =>
    obtain ⟨k, q, hk, hr, ht⟩ := h1 hb
    have := (key q true ht).1 rfl
    simp only [true_iff]
    exact ⟨k, q, hk, hr, this⟩
  | false =>
    simp only [Bool.false_eq_true, false_iff]
    rintro ⟨k, q, hk, hr, hq⟩
    have := (key q false (h2 hb k q hk hr)).2 hq
    cases this

theorem walk_answers (hr : Readable w.fs) {mt : Matcher (Except Exn)} (h : Answers mt) (incl : Path → Bool) {n : Nat} (hn : 1 ≤ n) (p : Path) :
    ∃ b, PathMatchers.testDescendants w.fs.lift p n mt incl = .ok b := by
  obtain ⟨-, -, h3⟩ := testDescendants_spec (fs := w.fs) incl mt n hn p
  cases ht : PathMatchers.testDescendants w.fs.lift p n mt incl with
  | ok b => exact ⟨b, rfl⟩
  | error x =>
    exfalso
    rcases h3 x ht with ⟨k, q, _, _, h4⟩ | ⟨_, hd, hno⟩ | ⟨k, q, hk, hr', _, hs | ⟨_, hd, hno⟩⟩
    · unfold tst at h4
      obtain ⟨b, hb⟩ := h q
      split at h4
      · rw [hb] at h4; cases h4
      · cases h4
    · obtain ⟨cs, h, _⟩ := hr _ hd; exact hno cs h
    · have : ∀ k d q, Reach w.fs k d q → w.fs.lstat q ≠ none := by
        intro k d q h
        induction h with
        | child h1 h2 h3 =>
          obtain ⟨cs, h4, h5⟩ := hr _ h1
          rw [h2] at h4; cases h4
          exact h5 _ h3
        | down _ _ _ _ ih => exact ih
      exact this k p q hr' hs
    · obtain ⟨cs, h, _⟩ := hr _ hd; exact hno cs h

/-! ### Conditions -/

theorem way_iff (hw : w.cwd.abs = true) (ref p : Path) (P : Path → Prop) :
    (∃ q, w.IsWay ref p q ∧ P q) ↔ P ((ref.normalize.toAbsolutePath w.cwd).relativize (p.normalize.toAbsolutePath w.cwd)) := by
  have h : w.IsWay ref p ((ref.normalize.toAbsolutePath w.cwd).relativize (p.normalize.toAbsolutePath w.cwd)) := by
    refine ⟨_, way_dropCommon _ _, ?_⟩
    unfold Path.relativize relPath placed
    rw [Path.normalize_abs (Path.toAbsolutePath_abs hw), Path.normalize_abs (Path.toAbsolutePath_abs hw), Path.toAbsolutePath_abs hw, Path.toAbsolutePath_abs hw]
  constructor
  · rintro ⟨q, ⟨v, h1, rfl⟩, h2⟩
    obtain ⟨v', h3, h4⟩ := h
    rw [h4, h3.unique h1]; exact h2
  · exact fun h' => ⟨_, h, h'⟩

theorem glob_right {g : JStr} {f : Path → Bool} (hs : g ≠ j!"*") (hg : w.compiler g = .ok f) (p : Path) : f p = true ↔ w.accepts g p := by
  unfold Place.compiler at hg
  unfold Place.accepts
  cases h : w.glob g with
  | none => rw [h] at hg; cases hg
  | some f' => rw [h] at hg; cases hg; simp [hs]

mutual
theorem make_right (hw : w.cwd.abs = true) : ∀ (c : Cond) (mt : Matcher (Except Exn)), c.make w = .ok mt → Truthful w c mt
  | .test f, mt, h => by
    cases h; intro p b hb; cases hb; rfl
  | .not c, mt, h => by
    obtain ⟨m1, h1, h⟩ := except_bind_ok h
    cases h
    intro p b hb
    obtain ⟨b1, hb1, hb⟩ := except_bind_ok hb
    cases hb
    have := make_right hw c m1 h1 p b1 hb1
    rw [Cond.holds, ← this]; simp
  | .allOf cs, mt, h => by
    obtain ⟨ms, h1, h⟩ := except_bind_ok h
    intro p b hb
    rw [(combined_ok (m := Except Exn) (a := mt) (b := mt) (c := mt)).1 h] at hb
    exact all_right (makeAll_right hw cs ms h1) hb
  | .anyOf cs, mt, h => by
    obtain ⟨ms, h1, h⟩ := except_bind_ok h
    intro p b hb
    rw [(combined_ok (m := Except Exn) (a := mt) (b := mt) (c := mt)).2.1 h] at hb
    exact any_right (makeAll_right hw cs ms h1) hb
  | .noneOf cs, mt, h => by
    obtain ⟨ms, h1, h⟩ := except_bind_ok h
    intro p b hb
    rw [(combined_ok (m := Except Exn) (a := mt) (b := mt) (c := mt)).2.2 h] at hb
    exact none_right (makeAll_right hw cs ms h1) hb
  | .ifThenElse i t e, mt, h => by
    obtain ⟨m1, h1, h⟩ := except_bind_ok h
    obtain ⟨m2, h2, h⟩ := except_bind_ok h
    obtain ⟨m3, h3, h⟩ := except_bind_ok h
    cases h
    intro p b hb
    obtain ⟨b1, hb1, hb⟩ := except_bind_ok hb
    have r1 := make_right hw i m1 h1 p b1 hb1
    rw [Cond.holds]
    cases b1 with
    | true => simp [r1.1 rfl, make_right hw t m2 h2 p b hb]
    | false =>
      have r1 : ¬ i.holds w p := by simpa using r1
      simp [r1, make_right hw e m3 h3 p b hb]
  | .absolute c, mt, h => by
    obtain ⟨m1, h1, h⟩ := except_bind_ok h
    cases h
    intro p b hb
    exact make_right hw c m1 h1 _ b hb
  | .relative ref c, mt, h => by
    obtain ⟨m1, h1, h⟩ := except_bind_ok h
    cases h
    intro p b hb
    rw [Cond.holds, way_iff hw]
    exact make_right hw c m1 h1 _ b hb
  | .absoluteGlob g, mt, h => by
    rw [Cond.make, PathMatchers.hasAbsolutePathMatchingGlob] at h
    intro p b hb
    rw [Cond.holds]
    split at h
    · rename_i hs; cases h; cases hb; simp [Place.accepts, hs]
    · rename_i hs
      obtain ⟨f, hf, h⟩ := except_bind_ok h
      cases h; cases hb
      exact glob_right hs hf _
  | .relativeGlob ref g, mt, h => by
    rw [Cond.make, PathMatchers.hasRelativePathMatchingGlob] at h
    intro p b hb
    rw [Cond.holds, way_iff hw]
    split at h
    · rename_i hs; cases h; cases hb; simp [Place.accepts, hs]
    · rename_i hs
      obtain ⟨f, hf, h⟩ := except_bind_ok h
      cases h; cases hb
      exact glob_right hs hf _
  | .nameGlob g, mt, h => by
    rw [Cond.make, PathMatchers.hasNameMatchingGlob] at h
    intro p b hb
    rw [Cond.holds]
    split at h
    · rename_i hs; cases h; cases hb; simp [hs]
    · rename_i hs
      obtain ⟨f, hf, h⟩ := except_bind_ok h
      cases h; cases hb
      exact (named_iff (f := fun n => f ⟨false, [n]⟩) fun n => glob_right hs hf _).trans (by simp [hs])
  | .name n, mt, h => by
    cases h; intro p b hb; cases hb
    exact named_iff (f := fun x => x == n) fun x => by simp
  | .nameIgnoreCase n, mt, h => by
    cases h; intro p b hb; cases hb
    exact named_iff (f := fun x => equalsIgnoreCase w.casing.fold x n) fun x => by simp [equalsIgnoreCase]
  | .namePattern r, mt, h => by
    cases h; intro p b hb; cases hb
    exact named_iff (f := r) fun x => Iff.rfl
  | .nameStart n, mt, h => by
    cases h; intro p b hb; cases hb
    exact named_iff (f := fun x => startsWith x n) fun x => by
      unfold startsWith; rw [List.isPrefixOf_iff_prefix]; exact ⟨fun ⟨t, h⟩ => ⟨t, h.symm⟩, fun ⟨t, h⟩ => ⟨t, h.symm⟩⟩
  | .nameEnd n, mt, h => by
    cases h; intro p b hb; cases hb
    exact named_iff (f := fun x => endsWith x n) fun x => by
      unfold endsWith; rw [List.isSuffixOf_iff_suffix]; exact ⟨fun ⟨t, h⟩ => ⟨t, h.symm⟩, fun ⟨t, h⟩ => ⟨t, h.symm⟩⟩
  | .extension n, mt, h => by
    cases h; intro p b hb; cases hb
    exact named_iff (f := fun x => endsWith x (DOT :: n)) fun x => by
      unfold endsWith; rw [List.isSuffixOf_iff_suffix]
      exact ⟨fun ⟨t, h⟩ => ⟨t, by simpa [DOT] using h.symm⟩, fun ⟨t, h⟩ => ⟨t, by simpa [DOT] using h.symm⟩⟩
  | .isDirectory, mt, h => by cases h; intro p b hb; cases hb; rfl
  | .isFile, mt, h => by cases h; intro p b hb; cases hb; rw [Cond.holds]; simp
  | .isRegularFile, mt, h => by cases h; intro p b hb; cases hb; rfl
  | .isSymbolicLink, mt, h => by cases h; intro p b hb; cases hb; rfl
  | .parent c, mt, h => by
    obtain ⟨m1, h1, h⟩ := except_bind_ok h
    cases h
    intro p b hb
    unfold PathMatchers.hasDirectParentMatching at hb
    rw [Cond.holds]
    simp only [← and_assoc, ← parent_iff]
    cases hp : p.getParent with
    | none => rw [hp] at hb; cases hb; simp
    | some q => rw [hp] at hb; simpa using make_right hw c m1 h1 q b hb
  | .ancestor c, mt, h => by
    obtain ⟨m1, h1, h⟩ := except_bind_ok h
    cases h
    intro p b hb
    exact ancestors_right (make_right hw c m1 h1) hb
  | .child c, mt, h => by
    obtain ⟨m1, h1, h⟩ := except_bind_ok h
    cases h
    intro p b hb
    rw [walk_right (make_right hw c m1 h1) _ (by omega) hb, Cond.holds]
    constructor
    · rintro ⟨k, q, hk, hr, _, h⟩
      obtain rfl : k = 1 := by have := hr.pos; omega
      exact ⟨q, hr, h⟩
    · rintro ⟨q, hr, h⟩; exact ⟨1, q, by omega, hr, rfl, h⟩
  | .descendant c, mt, h => by
    obtain ⟨m1, h1, h⟩ := except_bind_ok h
    cases h
    intro p b hb
    rw [walk_right (make_right hw c m1 h1) _ (by decide) hb, Cond.holds]
    simp [PathMatchers.intMax]
  | .sibling c, mt, h => by
    obtain ⟨m1, h1, h⟩ := except_bind_ok h
    cases h
    intro p b hb
    unfold PathMatchers.hasSiblingMatching at hb
    rw [Cond.holds]
    simp only [← and_assoc, ← parent_iff]
    cases hp : p.getParent with
    | none => rw [hp] at hb; cases hb; simp
    | some d =>
      rw [hp] at hb
      rw [walk_right (make_right hw c m1 h1) _ (by omega) hb]
      constructor
      · rintro ⟨k, q, hk, hr, hq, h⟩
        obtain rfl : k = 1 := by have := hr.pos; omega
        exact ⟨d, q, ⟨⟨rfl, hr⟩, by simpa using hq⟩, h⟩
      · rintro ⟨_, q, ⟨⟨he, hr⟩, hq⟩, h⟩
        cases he
        exact ⟨1, q, by omega, hr, by simpa using hq, h⟩
theorem makeAll_right (hw : w.cwd.abs = true) : ∀ (cs : List Cond) (ms : List (Matcher (Except Exn))), Cond.makeAll w cs = .ok ms → List.Forall₂ (Truthful w) cs ms
  | [], ms, h => by cases h; exact .nil
  | c :: cs, ms, h => by
    obtain ⟨m1, h1, h⟩ := except_bind_ok h
    obtain ⟨ms', h2, h⟩ := except_bind_ok h
    cases h
    exact .cons (make_right hw c m1 h1) (makeAll_right hw cs ms' h2)
end

theorem glob_made (g : JStr) : (g = j!"*" ∨ (w.glob g).isSome) ↔ g = j!"*" ∨ ∃ f, w.compiler g = .ok f := by
  unfold Place.compiler
  cases w.glob g <;> simp

theorem globs_made (g : JStr) (ref : Path) :
    ((∃ mt, PathMatchers.hasAbsolutePathMatchingGlob (m := Except Exn) w.compiler w.cwd g = .ok mt) ↔ g = j!"*" ∨ (w.glob g).isSome) ∧
    ((∃ mt, PathMatchers.hasRelativePathMatchingGlob (m := Except Exn) w.compiler w.cwd ref g = .ok mt) ↔ g = j!"*" ∨ (w.glob g).isSome) ∧
    ((∃ mt, PathMatchers.hasNameMatchingGlob (m := Except Exn) w.compiler g = .ok mt) ↔ g = j!"*" ∨ (w.glob g).isSome) := by
  unfold PathMatchers.hasAbsolutePathMatchingGlob PathMatchers.hasRelativePathMatchingGlob PathMatchers.hasNameMatchingGlob
  rw [glob_made]
  by_cases hs : g = j!"*"
  · simp [hs]
  · simp only [hs, if_false, false_or]
    cases w.compiler g with
    | error e => exact ⟨⟨fun ⟨_, h⟩ => (by cases h), fun ⟨_, h⟩ => by cases h⟩, ⟨fun ⟨_, h⟩ => (by cases h), fun ⟨_, h⟩ => by cases h⟩, ⟨fun ⟨_, h⟩ => (by cases h), fun ⟨_, h⟩ => by cases h⟩⟩
    | ok f => exact ⟨⟨fun _ => ⟨f, rfl⟩, fun _ => ⟨_, rfl⟩⟩, ⟨fun _ => ⟨f, rfl⟩, fun _ => ⟨_, rfl⟩⟩, ⟨fun _ => ⟨f, rfl⟩, fun _ => ⟨_, rfl⟩⟩⟩

theorem made_one {x : Except Exn (Matcher (Except Exn))} {f : Matcher (Except Exn) → Matcher (Except Exn)} : (∃ mt, (do return f (← x)) = Except.ok mt) ↔ ∃ mt, x = .ok mt := by
  cases x with
  | error e => exact ⟨fun ⟨_, h⟩ => (by cases h), fun ⟨_, h⟩ => by cases h⟩
  | ok a => exact ⟨fun _ => ⟨a, rfl⟩, fun _ => ⟨_, rfl⟩⟩

theorem made_list {x : Except Exn (List (Matcher (Except Exn)))} {cs : List Cond} {P : Prop} (h : (∃ ms, x = .ok ms) ↔ P) (hl : ∀ ms, x = .ok ms → ms.length = cs.length) :
    ((∃ mt, (do PathMatchers.allOf (← x)) = Except.ok mt) ↔ cs ≠ [] ∧ P) ∧ ((∃ mt, (do PathMatchers.anyOf (← x)) = Except.ok mt) ↔ cs ≠ [] ∧ P) ∧
    ((∃ mt, (do PathMatchers.noneOf (← x)) = Except.ok mt) ↔ cs ≠ [] ∧ P) := by
  rw [← h]
  cases x with
  | error e =>
    have : ¬ ∃ ms, (Except.error e : Except Exn (List (Matcher (Except Exn)))) = .ok ms := fun ⟨_, h⟩ => by cases h
    simp only [this, and_false]
    exact ⟨⟨fun ⟨_, h⟩ => (by cases h), False.elim⟩, ⟨fun ⟨_, h⟩ => (by cases h), False.elim⟩, ⟨fun ⟨_, h⟩ => (by cases h), False.elim⟩⟩
  | ok ms =>
    have hn : cs ≠ [] ↔ ms ≠ [] := by rw [← List.length_pos_iff, ← List.length_pos_iff, hl ms rfl]
    obtain ⟨h1, h2⟩ := C41_empty_rejected ms
    rw [hn]
    by_cases he : ms = []
    · obtain ⟨e1, e2, e3⟩ := h1 he
      refine ⟨⟨fun ⟨_, h⟩ => ?_, fun h => absurd he h.1⟩, ⟨fun ⟨_, h⟩ => ?_, fun h => absurd he h.1⟩, ⟨fun ⟨_, h⟩ => ?_, fun h => absurd he h.1⟩⟩
      · have h : PathMatchers.allOf ms = .ok _ := h
        rw [e1] at h; cases h
      · have h : PathMatchers.anyOf ms = .ok _ := h
        rw [e2] at h; cases h
      · have h : PathMatchers.noneOf ms = .ok _ := h
        rw [e3] at h; cases h
    · obtain ⟨e1, e2, e3⟩ := h2 he
      exact ⟨⟨fun _ => ⟨he, _, rfl⟩, fun _ => e1⟩, ⟨fun _ => ⟨he, _, rfl⟩, fun _ => e2⟩, ⟨fun _ => ⟨he, _, rfl⟩, fun _ => e3⟩⟩

theorem makeAll_length : ∀ (cs : List Cond) (ms : List (Matcher (Except Exn))), Cond.makeAll w cs = .ok ms → ms.length = cs.length
  | [], ms, h => by cases h; rfl
  | c :: cs, ms, h => by
    obtain ⟨m1, h1, h⟩ := except_bind_ok h
    obtain ⟨ms', h2, h⟩ := except_bind_ok h
    cases h
    simp [makeAll_length cs ms' h2]

mutual
theorem make_iff : ∀ c : Cond, (∃ mt, c.make w = .ok mt) ↔ c.Good w
  | .test f => by simp [Cond.make, Cond.Good]
  | .not c => by rw [Cond.make, Cond.Good, made_one]; exact make_iff c
  | .allOf cs => by rw [Cond.make, Cond.Good]; exact (made_list (makeAll_iff cs) (makeAll_length cs)).1
  | .anyOf cs => by rw [Cond.make, Cond.Good]; exact (made_list (makeAll_iff cs) (makeAll_length cs)).2.1
  | .noneOf cs => by rw [Cond.make, Cond.Good]; exact (made_list (makeAll_iff cs) (makeAll_length cs)).2.2
  | .ifThenElse i t e => by
    rw [Cond.make, Cond.Good, ← make_iff i, ← make_iff t, ← make_iff e]
    cases i.make w with
    | error e => exact ⟨fun ⟨_, h⟩ => (by cases h), fun ⟨⟨_, h⟩, _⟩ => by cases h⟩
    | ok a =>
      cases t.make w with
      | error e => exact ⟨fun ⟨_, h⟩ => (by cases h), fun ⟨_, ⟨_, h⟩, _⟩ => by cases h⟩
      | ok b =>
        cases e.make w with
        | error e => exact ⟨fun ⟨_, h⟩ => (by cases h), fun ⟨_, _, ⟨_, h⟩⟩ => by cases h⟩
        | ok c => exact ⟨fun _ => ⟨⟨_, rfl⟩, ⟨_, rfl⟩, ⟨_, rfl⟩⟩, fun _ => ⟨_, rfl⟩⟩
  | .absolute c => by rw [Cond.make, Cond.Good, made_one]; exact make_iff c
  | .relative ref c => by rw [Cond.make, Cond.Good, made_one]; exact make_iff c
  | .absoluteGlob g => by rw [Cond.make, Cond.Good]; exact (globs_made g w.cwd).1
  | .relativeGlob ref g => by rw [Cond.make, Cond.Good]; exact (globs_made g ref).2.1
  | .nameGlob g => by rw [Cond.make, Cond.Good]; exact (globs_made g w.cwd).2.2
  | .name n => by simp [Cond.make, Cond.Good]
  | .nameIgnoreCase n => by simp [Cond.make, Cond.Good]
  | .namePattern r => by simp [Cond.make, Cond.Good]
  | .nameStart n => by simp [Cond.make, Cond.Good]
  | .nameEnd n => by simp [Cond.make, Cond.Good]
  | .extension n => by simp [Cond.make, Cond.Good]
  | .isDirectory => by simp [Cond.make, Cond.Good]
  | .isFile => by simp [Cond.make, Cond.Good]
  | .isRegularFile => by simp [Cond.make, Cond.Good]
  | .isSymbolicLink => by simp [Cond.make, Cond.Good]
  | .parent c => by rw [Cond.make, Cond.Good, made_one]; exact make_iff c
  | .ancestor c => by rw [Cond.make, Cond.Good, made_one]; exact make_iff c
  | .child c => by rw [Cond.make, Cond.Good, made_one]; exact make_iff c
  | .descendant c => by rw [Cond.make, Cond.Good, made_one]; exact make_iff c
  | .sibling c => by rw [Cond.make, Cond.Good, made_one]; exact make_iff c
theorem makeAll_iff : ∀ cs : List Cond, (∃ ms, Cond.makeAll w cs = .ok ms) ↔ Cond.AllGood w cs
  | [] => by simp [Cond.makeAll, Cond.AllGood]
  | c :: cs => by
    rw [Cond.makeAll, Cond.AllGood, ← make_iff c, ← makeAll_iff cs]
    cases c.make w with
    | error e => exact ⟨fun ⟨_, h⟩ => (by cases h), fun ⟨⟨_, h⟩, _⟩ => by cases h⟩
    | ok a =>
      cases Cond.makeAll w cs with
      | error e => exact ⟨fun ⟨_, h⟩ => (by cases h), fun ⟨_, ⟨_, h⟩⟩ => by cases h⟩
      | ok b => exact ⟨fun _ => ⟨⟨_, rfl⟩, ⟨_, rfl⟩⟩, fun _ => ⟨_, rfl⟩⟩
end

mutual
theorem make_answers (hr : Readable w.fs) : ∀ (c : Cond) (mt : Matcher (Except Exn)), c.make w = .ok mt → Answers mt
  | .test f, mt, h => by cases h; exact fun p => ⟨_, rfl⟩
  | .not c, mt, h => by
    obtain ⟨m1, h1, h⟩ := except_bind_ok h
    cases h
    intro p
    obtain ⟨b, hb⟩ := make_answers hr c m1 h1 p
    unfold PathMatchers.not
    rw [hb]; exact ⟨_, rfl⟩
  | .allOf cs, mt, h => by
    obtain ⟨ms, h1, h⟩ := except_bind_ok h
    intro p
    rw [(combined_ok (m := Except Exn) (a := mt) (b := mt) (c := mt)).1 h]
    exact (all_answers (makeAll_answers hr cs ms h1)).1
  | .anyOf cs, mt, h => by
    obtain ⟨ms, h1, h⟩ := except_bind_ok h
    intro p
    rw [(combined_ok (m := Except Exn) (a := mt) (b := mt) (c := mt)).2.1 h]
    exact (all_answers (makeAll_answers hr cs ms h1)).2.1
  | .noneOf cs, mt, h => by
    obtain ⟨ms, h1, h⟩ := except_bind_ok h
    intro p
    rw [(combined_ok (m := Except Exn) (a := mt) (b := mt) (c := mt)).2.2 h]
    exact (all_answers (makeAll_answers hr cs ms h1)).2.2
  | .ifThenElse i t e, mt, h => by
    obtain ⟨m1, h1, h⟩ := except_bind_ok h
    obtain ⟨m2, h2, h⟩ := except_bind_ok h
    obtain ⟨m3, h3, h⟩ := except_bind_ok h
    cases h
    intro p
    obtain ⟨b, hb⟩ := make_answers hr i m1 h1 p
    unfold PathMatchers.ifMatchesThenElse
    rw [hb]
    cases b with
    | true => exact make_answers hr t m2 h2 p
    | false => exact make_answers hr e m3 h3 p
  | .absolute c, mt, h => by
    obtain ⟨m1, h1, h⟩ := except_bind_ok h
    cases h
    exact fun p => make_answers hr c m1 h1 _
  | .relative ref c, mt, h => by
    obtain ⟨m1, h1, h⟩ := except_bind_ok h
    cases h
    exact fun p => make_answers hr c m1 h1 _
  | .absoluteGlob g, mt, h => by
    rw [Cond.make, PathMatchers.hasAbsolutePathMatchingGlob] at h
    split at h
    · cases h; exact fun p => ⟨_, rfl⟩
    · obtain ⟨f, hf, h⟩ := except_bind_ok h
      cases h; exact fun p => ⟨_, rfl⟩
  | .relativeGlob ref g, mt, h => by
    rw [Cond.make, PathMatchers.hasRelativePathMatchingGlob] at h
    split at h
    · cases h; exact fun p => ⟨_, rfl⟩
    · obtain ⟨f, hf, h⟩ := except_bind_ok h
      cases h; exact fun p => ⟨_, rfl⟩
  | .nameGlob g, mt, h => by
    rw [Cond.make, PathMatchers.hasNameMatchingGlob] at h
    split at h
    · cases h; exact fun p => ⟨_, rfl⟩
    · obtain ⟨f, hf, h⟩ := except_bind_ok h
      cases h; exact fun p => ⟨_, rfl⟩
  | .name n, mt, h => by cases h; exact fun p => ⟨_, rfl⟩
  | .nameIgnoreCase n, mt, h => by cases h; exact fun p => ⟨_, rfl⟩
  | .namePattern r, mt, h => by cases h; exact fun p => ⟨_, rfl⟩
  | .nameStart n, mt, h => by cases h; exact fun p => ⟨_, rfl⟩
  | .nameEnd n, mt, h => by cases h; exact fun p => ⟨_, rfl⟩
  | .extension n, mt, h => by cases h; exact fun p => ⟨_, rfl⟩
  | .isDirectory, mt, h => by cases h; exact fun p => ⟨_, rfl⟩
  | .isFile, mt, h => by cases h; exact fun p => ⟨_, rfl⟩
  | .isRegularFile, mt, h => by cases h; exact fun p => ⟨_, rfl⟩
  | .isSymbolicLink, mt, h => by cases h; exact fun p => ⟨_, rfl⟩
  | .parent c, mt, h => by
    obtain ⟨m1, h1, h⟩ := except_bind_ok h
    cases h
    intro p
    unfold PathMatchers.hasDirectParentMatching
    split
    · exact make_answers hr c m1 h1 _
    · exact ⟨_, rfl⟩
  | .ancestor c, mt, h => by
    obtain ⟨m1, h1, h⟩ := except_bind_ok h
    cases h
    exact ancestors_answer (make_answers hr c m1 h1)
  | .child c, mt, h => by
    obtain ⟨m1, h1, h⟩ := except_bind_ok h
    cases h
    exact fun p => walk_answers hr (make_answers hr c m1 h1) _ (by omega) p
  | .descendant c, mt, h => by
    obtain ⟨m1, h1, h⟩ := except_bind_ok h
    cases h
    exact fun p => walk_answers hr (make_answers hr c m1 h1) _ (by decide) p
  | .sibling c, mt, h => by
    obtain ⟨m1, h1, h⟩ := except_bind_ok h
    cases h
    intro p
    unfold PathMatchers.hasSiblingMatching
    split
    · exact walk_answers hr (make_answers hr c m1 h1) _ (by omega) _
    · exact ⟨_, rfl⟩
theorem makeAll_answers (hr : Readable w.fs) : ∀ (cs : List Cond) (ms : List (Matcher (Except Exn))), Cond.makeAll w cs = .ok ms → ∀ mt ∈ ms, Answers mt
  | [], ms, h => by cases h; simp
  | c :: cs, ms, h => by
    obtain ⟨m1, h1, h⟩ := except_bind_ok h
    obtain ⟨ms', h2, h⟩ := except_bind_ok h
    cases h
    intro mt hm
    rcases List.mem_cons.1 hm with rfl | hm
    · exact make_answers hr c _ h1
    · exact makeAll_answers hr cs ms' h2 mt hm
end

end OnePage

/-- **C102**: a condition can be made if and only if it contains no empty collection of conditions and no glob that cannot be compiled. -/
theorem C102_makes (w : Place) (c : Cond) : (∃ mt, c.make w = .ok mt) ↔ c.Good w := OnePage.make_iff c

/-- **C102**: whatever condition is written with the factories, in whatever nesting, every answer of its matcher is what the condition says. -/
theorem C102_right {w : Place} (hw : w.cwd.abs = true) {c : Cond} {mt : Matcher (Except Exn)} (h : c.make w = .ok mt) {p : Path} {b : Bool} (hb : mt p = .ok b) :
    b = true ↔ c.holds w p := OnePage.make_right hw c mt h p b hb

/-- **C102**: where everything can be read, it always answers. -/
theorem C102_answers {w : Place} (hr : Readable w.fs) {c : Cond} {mt : Matcher (Except Exn)} (h : c.make w = .ok mt) (p : Path) : ∃ b, mt p = .ok b :=
  OnePage.make_answers hr c mt h p

/-! ### Disks where everything can be read -/

namespace OnePage

mutual
/-- Every directory can be listed, and no entry has an empty name. -/
def Open : Node → Prop
  | .dir r cs => r = true ∧ OpenAll cs
  | _ => True
def OpenAll : List (JStr × Node) → Prop
  | [] => True
  | c :: cs => c.1 ≠ [] ∧ Open c.2 ∧ OpenAll cs
end

theorem OpenAll.mem {cs : List (JStr × Node)} (h : OpenAll cs) {c : JStr × Node} (hc : c ∈ cs) : c.1 ≠ [] ∧ Open c.2 := by
  induction cs with
  | nil => cases hc
  | cons d cs ih =>
    rw [OpenAll] at h
    rcases List.mem_cons.1 hc with rfl | hc
    · exact ⟨h.1, h.2.1⟩
    · exact ih h.2.2 hc

theorem OpenAll.lookup {n : JStr} {cs : List (JStr × Node)} (h : OpenAll cs) {t : Node} (ht : Node.lookupChild n cs = some t) : n ≠ [] ∧ Open t := by
  induction cs with
  | nil => cases ht
  | cons c cs ih =>
    obtain ⟨k, v⟩ := c
    rw [OpenAll] at h
    rw [Node.lookupChild] at ht
    split at ht
    · rename_i he; cases ht; exact ⟨he ▸ h.1, h.2.1⟩
    · exact ih h.2.2 ht

theorem Open.get {t : Node} (h : Open t) {ns : List JStr} {u : Node} (hu : t.get ns = some u) : Open u ∧ [] ∉ ns := by
  induction ns generalizing t with
  | nil => rw [Node.get] at hu; cases hu; exact ⟨h, by simp⟩
  | cons n ns ih =>
    rw [Node.get.eq_def] at hu
    cases t with
    | dir r cs =>
      dsimp only at hu
      rw [Open] at h
      split at hu
      · rename_i c hc
        have := h.2.lookup hc
        have h2 := ih this.2 hu
        exact ⟨h2.1, by simpa using ⟨this.1, h2.2⟩⟩
      · cases hu
    | regular _ => cases hu
    | special => cases hu
    | symlink _ => cases hu

theorem lookup_some {n : JStr} {c : Node} {cs : List (JStr × Node)} (h : (n, c) ∈ cs) : Node.lookupChild n cs ≠ none := by
  induction cs with
  | nil => cases h
  | cons d cs ih =>
    obtain ⟨k, v⟩ := d
    rw [Node.lookupChild]
    split
    · simp
    · rename_i hk
      rcases List.mem_cons.1 h with he | h
      · cases he; exact absurd rfl hk
      · exact ih h

/-- Everything can be read on a disk whose directories can all be listed. -/
theorem Open.readable {t : Node} (h : Open t) : OnePage.Readable t.toFs := by
  intro d hd
  have hd : (match t.at d with | some (.dir _ _) => true | _ => false) = true := hd
  split at hd
  · rename_i r cs hat
    obtain ⟨ho, hne⟩ := h.get hat
    rw [Open] at ho
    obtain ⟨rfl, ho⟩ := ho
    refine ⟨cs.map (fun c => d.child c.1), ?_, ?_⟩
    · show (match t.at d with
        | some (.dir true cs) => Listing.opened (cs.map (fun c : JStr × Node => d.child c.1)) false
        | _ => .openFailed) = _
      rw [hat]
    · intro q hq
      obtain ⟨⟨n, c⟩, hc, rfl⟩ := List.mem_map.1 hq
      have hde : d ≠ Path.empty := by rintro rfl; exact hne (by simp [Path.empty])
      have hnone : (t.at (d.child n)).isNone = false := by
        have : t.at (d.child n) = t.get (d.names ++ [n]) := by simp only [Node.at, Path.child, if_neg hde]
        rw [this, get_append, show t.get d.names = some (.dir true cs) from hat]
        show (Node.get (.dir true cs) [n]).isNone = false
        simp only [Node.get]
        have := lookup_some hc
        cases hl : Node.lookupChild n cs with
        | none => exact absurd hl this
        | some u => rfl
      unfold PureFs.lstat
      split
      · simp
      · rw [show t.toFs.statFails (d.child n) = (t.at (d.child n)).isNone from rfl, hnone]; simp
  · cases hd

end OnePage

/-! ### Examples -/

/-- The demo disk, seen from its root. -/
def Demo.place : Place := ⟨Demo.dfs, Path.root, asciiCasing, fun g => if g = j!"[" then none else some fun p => p.names.getLast? == some g⟩

/-- A file called `x` in a directory called `A` (upper or lower case) that has a sibling with the extension `txt`, or no regular file. -/
def Demo.cond : Cond := .anyOf [.allOf [.name j!"x", .parent (.allOf [.nameIgnoreCase j!"A", .sibling (.extension j!"txt")])], .not .isRegularFile]

/-- It holds of `/r/a/x`; the matcher exists, answers, and says so. -/
example : ∃ mt, Demo.cond.make Demo.place = .ok mt ∧ mt Demo.x = .ok true := by
  obtain ⟨mt, h⟩ := (C102_makes Demo.place Demo.cond).2 (by simp [Demo.cond, Cond.Good, Cond.AllGood])
  obtain ⟨b, hb⟩ := C102_answers (w := Demo.place) (OnePage.Open.readable (t := Demo.disk) (by simp [Demo.disk, OnePage.Open, OnePage.OpenAll])) h Demo.x
  have hr := (C102_right rfl h hb).2 (by
    simp only [Demo.cond, Cond.holds, Cond.some, Cond.every]
    refine .inl ⟨⟨[j!"r", j!"a"], j!"x", rfl, rfl⟩, ⟨Demo.a, ⟨rfl, ⟨j!"x", [], rfl⟩, by decide⟩, by decide, ⟨⟨[j!"r"], j!"a", rfl, by decide⟩, ⟨Demo.r, Demo.b, ⟨rfl, ⟨j!"a", [], rfl⟩, by decide⟩, by decide,
      .child (cs := [Demo.b, Demo.a, Demo.z]) (bad := false) (by decide) (by decide) (by simp), by decide, ⟨[j!"r"], j!"b.txt", rfl, ⟨j!"b", rfl⟩⟩⟩, trivial⟩⟩, trivial⟩)
  subst hr
  exact ⟨mt, h, hb⟩

/-- It does not hold of `/r/a/y`: no answer is `true`. -/
example {mt : Matcher (Except Exn)} (h : Demo.cond.make Demo.place = .ok mt) : mt Demo.y ≠ .ok true := by
  intro hb
  have := (C102_right rfl h hb).1 rfl
  simp only [Demo.cond, Cond.holds, Cond.some, Cond.every, Spec.OnePage.Named] at this
  rcases this with ⟨⟨dir, n, hn, rfl⟩, _⟩ | h | h
  · have := congrArg List.getLast? hn
    simp [Demo.y] at this
  · exact h (by decide)
  · exact h

/-- An empty collection and a glob that cannot be compiled are refused. -/
example : (¬ ∃ mt, (Cond.not (.anyOf [])).make Demo.place = .ok mt) ∧ ¬ ∃ mt, (Cond.child (.nameGlob j!"[")).make Demo.place = .ok mt := by
  rw [C102_makes, C102_makes]
  refine ⟨fun h => ?_, fun h => ?_⟩
  · simp [Cond.Good] at h
  · simp only [Cond.Good] at h
    rcases h with h | h
    · exact absurd h (by decide)
    · revert h; decide

end JFTP
