import Verif.Props.Matching

/-!
C44–C47: child, descendant and sibling matchers; absolute and relative paths; spellings of the target.
-/

namespace JFTP
open Spec PathMatchers

/-! ### C44 -/

section
variable {fs : PureFs}

theorem walkEntries_true {d : Path} {bad : Bool} {visit : Path → Except Exn Bool} {cs : List Path} (h : walkEntries d bad visit cs = .ok true) : ∃ c ∈ cs, visit c = .ok true := by
  induction cs with
  | nil => cases bad <;> simp [walkEntries] at h <;> cases h
  | cons c cs ih =>
    rw [walkEntries] at h
    obtain ⟨b, hb, h⟩ := except_bind_ok h
    cases b with
    | true => exact ⟨c, by simp, hb⟩
    | false => obtain ⟨c', hc', h'⟩ := ih (by simpa using h); exact ⟨c', by simp [hc'], h'⟩

theorem walkEntries_false {d : Path} {bad : Bool} {visit : Path → Except Exn Bool} {cs : List Path} (h : walkEntries d bad visit cs = .ok false) :
    bad = false ∧ ∀ c ∈ cs, visit c = .ok false := by
  induction cs with
  | nil => cases bad with
    | true => cases h
    | false => exact ⟨rfl, by simp⟩
  | cons c cs ih =>
    rw [walkEntries] at h
    obtain ⟨b, hb, h⟩ := except_bind_ok h
    cases b with
    | true => cases h
    | false =>
      obtain ⟨h1, h2⟩ := ih (by simpa using h)
      refine ⟨h1, fun x hx => ?_⟩
      rcases List.mem_cons.1 hx with rfl | hx
      · exact hb
      · exact h2 x hx

theorem walkEntries_error {d : Path} {bad : Bool} {visit : Path → Except Exn Bool} {cs : List Path} {x : Exn} (h : walkEntries d bad visit cs = .error x) :
    (bad = true ∧ x = .cannotWalk d) ∨ ∃ c ∈ cs, visit c = .error x := by
  induction cs with
  | nil => cases bad with
    | true => cases h; exact .inl ⟨rfl, rfl⟩
    | false => cases h
  | cons c cs ih =>
    rw [walkEntries] at h
    cases hv : visit c with
    | error y => rw [hv] at h; cases h; exact .inr ⟨c, by simp, hv⟩
    | ok b =>
      rw [hv] at h
      cases b with
      | true => cases h
      | false =>
        rcases ih h with h | ⟨c', hc', h'⟩
        · exact .inl h
        · exact .inr ⟨c', by simp [hc'], h'⟩

/-- The test with the inclusion filter. -/
def tst (incl : Path → Bool) (test : Matcher (Except Exn)) : Matcher (Except Exn) := fun q => if incl q then test q else pure false

/-- What reading the attributes can tell. -/
theorem PureFs.lstat_cases (fs : PureFs) (p : Path) :
    (fs.lstat p = Option.none ∧ fs.isDir p = false) ∨ (fs.lstat p = some false ∧ fs.isDir p = false) ∨ (fs.lstat p = some true ∧ fs.isDir p = true) := by
  unfold PureFs.lstat
  cases fs.isDir p <;> cases fs.statFails p <;> simp

theorem walkTest_zero (incl : Path → Bool) (test : Matcher (Except Exn)) (p : Path) : walkTest fs.lift incl test 0 p =
    match fs.lstat p with
    | Option.none => .error (.cannotWalk p)
    | some _ => tst incl test p := by
  rw [walkTest]
  show (Except.ok (fs.lstat p) >>= _) = _
  cases fs.lstat p <;> rfl

theorem walkTest_succ (incl : Path → Bool) (test : Matcher (Except Exn)) (n : Nat) (p : Path) : walkTest fs.lift incl test (n + 1) p =
    match fs.lstat p with
    | Option.none => .error (.cannotWalk p)
    | some true => (match fs.listDir p with
      | .openFailed => .error (.cannotWalk p)
      | .opened cs bad => do if ← tst incl test p then return true
                             walkEntries p bad (walkTest fs.lift incl test n) cs)
    | some false => tst incl test p := by
  rw [walkTest]
  show (Except.ok (fs.lstat p) >>= _) = _
  rcases fs.lstat p with _ | _ | _
  · rfl
  · rfl
  · rw [show (PureFs.lift (m := Except Exn) fs).listDir p = Except.ok (fs.listDir p) from rfl]
    cases fs.listDir p <;> rfl

theorem Spec.Reach.pos {n : Nat} {d q : Path} (h : Reach fs n d q) : 1 ≤ n := by cases h <;> omega

theorem Spec.Reach.dir {n : Nat} {d q : Path} (h : Reach fs n d q) : fs.isDir d = true := by cases h <;> assumption

theorem walkTest_true {incl : Path → Bool} {test : Matcher (Except Exn)} {n : Nat} {p : Path} (h : walkTest fs.lift incl test n p = .ok true) :
    tst incl test p = .ok true ∨ ∃ k q, k ≤ n ∧ Reach fs k p q ∧ tst incl test q = .ok true := by
  induction n generalizing p with
  | zero =>
    rw [walkTest_zero] at h
    cases hs : fs.lstat p with
    | none => rw [hs] at h; cases h
    | some b => rw [hs] at h; exact .inl h
  | succ n ih =>
    rw [walkTest_succ] at h
    rcases fs.lstat_cases p with ⟨hs, _⟩ | ⟨hs, _⟩ | ⟨hs, hd⟩ <;> rw [hs] at h
    · cases h
    · exact .inl h
    · cases hl : fs.listDir p with
      | openFailed => simp only [hl] at h; cases h
      | opened cs bad =>
        simp only [hl] at h
        obtain ⟨b, hb, h⟩ := except_bind_ok h
        cases b with
        | true => exact .inl hb
        | false =>
          obtain ⟨c, hc, h⟩ := walkEntries_true (by simpa using h)
          rcases ih h with h | ⟨k, q, hk, hr, h⟩
          · exact .inr ⟨1, c, by omega, .child hd hl hc, h⟩
          · exact .inr ⟨k + 1, q, by omega, .down hd hl hc hr, h⟩

theorem walkTest_false {incl : Path → Bool} {test : Matcher (Except Exn)} {n : Nat} {p : Path} (h : walkTest fs.lift incl test n p = .ok false) :
    tst incl test p = .ok false ∧ ∀ k q, k ≤ n → Reach fs k p q → tst incl test q = .ok false := by
  induction n generalizing p with
  | zero =>
    rw [walkTest_zero] at h
    cases hs : fs.lstat p with
    | none => rw [hs] at h; cases h
    | some b => rw [hs] at h; exact ⟨h, fun k q hk hr => by have := hr.pos; omega⟩
  | succ n ih =>
    rw [walkTest_succ] at h
    rcases fs.lstat_cases p with ⟨hs, _⟩ | ⟨hs, hd⟩ | ⟨hs, hd⟩ <;> rw [hs] at h
    · cases h
    · exact ⟨h, fun k q _ hr => by have := hr.dir; rw [hd] at this; cases this⟩
    · cases hl : fs.listDir p with
      | openFailed => simp only [hl] at h; cases h
      | opened cs bad =>
        simp only [hl] at h
        obtain ⟨b, hb, h⟩ := except_bind_ok h
        cases b with
        | true => cases h
        | false =>
          obtain ⟨_, h⟩ := walkEntries_false (by simpa using h)
          refine ⟨hb, fun k q hk hr => ?_⟩
          cases hr with
          | child _ hl' hc => rw [hl] at hl'; cases hl'; exact (ih (h q hc)).1
          | down _ hl' hc hr => rw [hl] at hl'; cases hl'; exact (ih (h _ hc)).2 _ q (by omega) hr

theorem walkTest_error {incl : Path → Bool} {test : Matcher (Except Exn)} {n : Nat} {p : Path} {x : Exn} (h : walkTest fs.lift incl test n p = .error x) :
    tst incl test p = .error x ∨ (∃ k q, k ≤ n ∧ Reach fs k p q ∧ tst incl test q = .error x) ∨
    (x = .cannotWalk p ∧ Stuck fs n p) ∨ ∃ k q, k ≤ n ∧ Reach fs k p q ∧ x = .cannotWalk q ∧ Stuck fs (n - k) q := by
  induction n generalizing p with
  | zero =>
    rw [walkTest_zero] at h
    cases hs : fs.lstat p with
    | none => rw [hs] at h; cases h; exact .inr (.inr (.inl ⟨rfl, .inl hs⟩))
    | some b => rw [hs] at h; exact .inl h
  | succ n ih =>
    rw [walkTest_succ] at h
    rcases fs.lstat_cases p with ⟨hs, _⟩ | ⟨hs, hd⟩ | ⟨hs, hd⟩ <;> rw [hs] at h
    · cases h; exact .inr (.inr (.inl ⟨rfl, .inl hs⟩))
    · exact .inl h
    · cases hl : fs.listDir p with
      | openFailed => simp only [hl] at h; cases h; exact .inr (.inr (.inl ⟨rfl, .inr ⟨by omega, hd, by simp [hl]⟩⟩))
      | opened cs bad =>
        simp only [hl] at h
        cases ht : tst incl test p with
        | error y => simp only [ht] at h; cases h; exact .inl rfl
        | ok b =>
          simp only [ht] at h
          cases b with
          | true => cases h
          | false =>
            rcases walkEntries_error (show walkEntries p bad (walkTest fs.lift incl test n) cs = .error x from h) with ⟨rfl, hx⟩ | ⟨c, hc, h⟩
            · exact .inr (.inr (.inl ⟨hx, .inr ⟨by omega, hd, by simp [hl]⟩⟩))
            · rcases ih h with h | ⟨k, q, hk, hr, h⟩ | ⟨h1, h2⟩ | ⟨k, q, hk, hr, h1, h2⟩
              · exact .inr (.inl ⟨1, c, by omega, .child hd hl hc, h⟩)
              · exact .inr (.inl ⟨k + 1, q, by omega, .down hd hl hc hr, h⟩)
              · exact .inr (.inr (.inr ⟨1, c, by omega, .child hd hl hc, h1, by simpa using h2⟩))
              · exact .inr (.inr (.inr ⟨k + 1, q, by omega, .down hd hl hc hr, h1, by rwa [Nat.add_sub_add_right]⟩))

/-- All three outcomes of `testDescendants`. -/
theorem testDescendants_spec (incl : Path → Bool) (test : Matcher (Except Exn)) (n : Nat) (hn : 1 ≤ n) (p : Path) :
    (testDescendants fs.lift p n test incl = Except.ok true → ∃ k q, k ≤ n ∧ Reach fs k p q ∧ tst incl test q = .ok true) ∧
    (testDescendants fs.lift p n test incl = .ok false → ∀ k q, k ≤ n → Reach fs k p q → tst incl test q = .ok false) ∧
    (∀ x, testDescendants fs.lift p n test incl = .error x → (∃ k q, k ≤ n ∧ Reach fs k p q ∧ tst incl test q = .error x) ∨
      (x = .cannotWalk p ∧ fs.isDir p = true ∧ ∀ cs, fs.listDir p ≠ .opened cs false) ∨
      ∃ k q, k ≤ n ∧ Reach fs k p q ∧ x = .cannotWalk q ∧ Stuck fs (n - k) q) := by
  have e : testDescendants fs.lift p n test incl = if fs.isDir p then (match fs.listDir p with
      | .openFailed => .error (.cannotWalk p)
      | .opened cs bad => walkEntries p bad (walkTest fs.lift incl test (n - 1)) cs) else .ok false := by
    unfold testDescendants
    show (if (!fs.isDir p) = true then _ else _) = _
    rcases fs.lstat_cases p with ⟨hs, hd⟩ | ⟨hs, hd⟩ | ⟨hs, hd⟩ <;> rw [hd]
    · rfl
    · rfl
    · simp only [Bool.not_true, Bool.false_eq_true, if_false, if_true]
      show (Except.ok (fs.lstat p) >>= _) = _
      rw [hs]
      rw [show (PureFs.lift (m := Except Exn) fs).listDir p = Except.ok (fs.listDir p) from rfl]
      cases fs.listDir p <;> rfl
  rw [e]
  cases hd : fs.isDir p with
  | false =>
    simp only [Bool.false_eq_true, if_false]
    refine ⟨nofun, fun _ k q _ hr => ?_, nofun⟩
    have := hr.dir; rw [hd] at this; cases this
  | true =>
    simp only [if_true]
    cases hl : fs.listDir p with
    | openFailed =>
      refine ⟨nofun, nofun, fun x h => ?_⟩
      cases h; exact .inr (.inl ⟨rfl, trivial, by simp⟩)
    | opened cs bad =>
      refine ⟨fun h => ?_, fun h k q hk hr => ?_, fun x h => ?_⟩
      · obtain ⟨c, hc, h⟩ := walkEntries_true h
        rcases walkTest_true h with h | ⟨k, q, hk, hr, h⟩
        · exact ⟨1, c, hn, .child hd hl hc, h⟩
        · exact ⟨k + 1, q, by omega, .down hd hl hc hr, h⟩
      · obtain ⟨_, h⟩ := walkEntries_false h
        cases hr with
        | child _ hl' hc => rw [hl] at hl'; cases hl'; exact (walkTest_false (h q hc)).1
        | down _ hl' hc hr => rw [hl] at hl'; cases hl'; exact (walkTest_false (h _ hc)).2 _ q (by omega) hr
      · rcases walkEntries_error h with ⟨rfl, hx⟩ | ⟨c, hc, h⟩
        · exact .inr (.inl ⟨hx, trivial, by simp⟩)
        · rcases walkTest_error h with h | ⟨k, q, hk, hr, h⟩ | ⟨h1, h2⟩ | ⟨k, q, hk, hr, h1, h2⟩
          · exact .inl ⟨1, c, hn, .child hd hl hc, h⟩
          · exact .inl ⟨k + 1, q, by omega, .down hd hl hc hr, h⟩
          · exact .inr (.inr ⟨1, c, by omega, .child hd hl hc, h1, h2⟩)
          · exact .inr (.inr ⟨k + 1, q, by omega, .down hd hl hc hr, h1, by rwa [show n - (k + 1) = n - 1 - k by omega]⟩)

/-- With a matcher that does not throw and directories that can be listed, `testDescendants` answers whether a path in reach matches. -/
theorem testDescendants_pure (incl : Path → Bool) (f : Path → Bool) (n : Nat) (hn : 1 ≤ n) (p : Path) (hl : Listable fs n p) :
    ∃ b, testDescendants (m := Except Exn) fs.lift p n (fun q => pure (f q)) incl = .ok b ∧ (b = true ↔ ∃ k q, k ≤ n ∧ Reach fs k p q ∧ incl q = true ∧ f q = true) := by
  have ht : ∀ q, tst incl (fun q => pure (f q)) q = .ok (incl q && f q) := by
    intro q; unfold tst; cases incl q <;> rfl
  obtain ⟨h1, h2, h3⟩ := testDescendants_spec (fs := fs) incl (fun q => pure (f q)) n hn p
  cases hr : testDescendants (m := Except Exn) fs.lift p n (fun q => pure (f q)) incl with
  | error x =>
    rcases h3 x hr with ⟨k, q, _, _, h⟩ | ⟨_, hd, hno⟩ | ⟨k, q, hk, hr', _, hs | ⟨hk', hd, hno⟩⟩
    · rw [ht] at h; cases h
    · obtain ⟨cs, h⟩ := hl.1 hd; exact absurd h (hno cs)
    · exact absurd hs (hl.2.2 k q hk hr')
    · obtain ⟨cs, h⟩ := hl.2.1 k q (by omega) hr' hd; exact absurd h (hno cs)
  | ok b =>
    refine ⟨b, rfl, ?_⟩
    cases b with
    | true =>
      obtain ⟨k, q, hk, hq, h⟩ := h1 hr
      rw [ht] at h
      have h : (incl q && f q) = true := by injection h
      rw [Bool.and_eq_true] at h
      simp only [true_iff]
      exact ⟨k, q, hk, hq, h⟩
    | false =>
      simp only [Bool.false_eq_true, false_iff]
      rintro ⟨k, q, hk, hq, hi, hf⟩
      have := h2 hr k q hk hq
      rw [ht, hi, hf] at this
      cases this

theorem reach_one {d q : Path} : Reach fs 1 d q ↔ fs.isDir d = true ∧ ∃ cs bad, fs.listDir d = .opened cs bad ∧ q ∈ cs := by
  constructor
  · intro h
    cases h with
    | child h1 h2 h3 => exact ⟨h1, _, _, h2, h3⟩
    | down _ _ _ hr => have := hr.pos; omega
  · rintro ⟨h1, cs, bad, h2, h3⟩; exact .child h1 h2 h3

/-- What has to work for the search among the entries of one directory: listing it, and reading the attributes of the entries. -/
theorem listable_one {p : Path} (hl : fs.isDir p = true → ∃ cs, fs.listDir p = .opened cs false ∧ ∀ q ∈ cs, fs.lstat q ≠ Option.none) : Listable fs 1 p := by
  refine ⟨fun h => (hl h).imp fun _ h => h.1, fun k q hk hr => by have := hr.pos; omega, fun k q hk hr => ?_⟩
  obtain rfl : k = 1 := by have := hr.pos; omega
  obtain ⟨h1, cs, bad, h2, h3⟩ := reach_one.1 hr
  obtain ⟨cs', h4, h5⟩ := hl h1
  rw [h2] at h4; cases h4
  exact h5 q h3

/-- **C44** (children): the answer is whether the path is a directory one of whose listed entries matches. -/
theorem C44_child (f : Path → Bool) (p : Path) (hl : fs.isDir p = true → ∃ cs, fs.listDir p = .opened cs false ∧ ∀ q ∈ cs, fs.lstat q ≠ Option.none) :
    ∃ b, hasAnyDirectChildMatching (m := Except Exn) fs.lift (fun q => pure (f q)) p = .ok b ∧
      (b = true ↔ fs.isDir p = true ∧ ∃ cs q, fs.listDir p = .opened cs false ∧ q ∈ cs ∧ f q = true) := by
  obtain ⟨b, hb, h⟩ := testDescendants_pure (fs := fs) (fun _ => true) f 1 (by omega) p (listable_one hl)
  refine ⟨b, hb, h.trans ?_⟩
  constructor
  · rintro ⟨k, q, hk, hr, _, hf⟩
    obtain rfl : k = 1 := by have := hr.pos; omega
    obtain ⟨h1, cs, bad, h2, h3⟩ := reach_one.1 hr
    obtain ⟨cs', h4, _⟩ := hl h1
    rw [h2] at h4; cases h4
    exact ⟨h1, _, q, h2, h3, hf⟩
  · rintro ⟨h1, cs, q, h2, h3, hf⟩
    exact ⟨1, q, le_refl _, .child h1 h2 h3, rfl, hf⟩

/-- **C44** (descendants): the answer is whether some entry found by going down through listed directories, links not being followed, matches (up to the 2³¹-1 levels of `Files.walk`). -/
theorem C44_descendant (f : Path → Bool) (p : Path) (hl : Listable fs 2147483647 p) :
    ∃ b, hasAnyDescendantMatching (m := Except Exn) fs.lift (fun q => pure (f q)) p = .ok b ∧ (b = true ↔ ∃ k q, k ≤ 2147483647 ∧ Reach fs k p q ∧ f q = true) := by
  obtain ⟨b, hb, h⟩ := testDescendants_pure (fs := fs) (fun _ => true) f intMax (by decide) p hl
  exact ⟨b, hb, by simpa [intMax] using h⟩

/-- **C44** (siblings): the answer is whether some other entry of the parent directory matches. -/
theorem C44_sibling (f : Path → Bool) (p d : Path) (hp : p.getParent = some d) (hl : fs.isDir d = true → ∃ cs, fs.listDir d = .opened cs false ∧ ∀ q ∈ cs, fs.lstat q ≠ Option.none) :
    ∃ b, hasSiblingMatching (m := Except Exn) fs.lift (fun q => pure (f q)) p = .ok b ∧
      (b = true ↔ fs.isDir d = true ∧ ∃ cs q, fs.listDir d = .opened cs false ∧ q ∈ cs ∧ q ≠ p ∧ f q = true) := by
  obtain ⟨b, hb, h⟩ := testDescendants_pure (fs := fs) (fun s => decide (s ≠ p)) f 1 (by omega) d (listable_one hl)
  refine ⟨b, ?_, h.trans ?_⟩
  · unfold hasSiblingMatching; rw [hp]; exact hb
  constructor
  · rintro ⟨k, q, hk, hr, hne, hf⟩
    obtain rfl : k = 1 := by have := hr.pos; omega
    obtain ⟨h1, cs, bad, h2, h3⟩ := reach_one.1 hr
    obtain ⟨cs', h4, _⟩ := hl h1
    rw [h2] at h4; cases h4
    exact ⟨h1, _, q, h2, h3, by simpa using hne, hf⟩
  · rintro ⟨h1, cs, q, h2, h3, hne, hf⟩
    exact ⟨1, q, le_refl _, .child h1 h2 h3, by simpa using hne, hf⟩

/-- **C44**: without parent there are no siblings. -/
theorem C44_no_parent (mt : Matcher (Except Exn)) (p : Path) (hp : p.getParent = Option.none) : hasSiblingMatching fs.lift mt p = .ok false := by
  unfold hasSiblingMatching; rw [hp]; rfl

/-- **C44**: anything that is not a directory (in particular a link to one) has no children and descendants; nothing is listed and the matcher is not called. -/
theorem C44_not_directory (mt : Matcher (Except Exn)) (p : Path) (hd : fs.isDir p = false) :
    hasAnyDirectChildMatching fs.lift mt p = .ok false ∧ hasAnyDescendantMatching fs.lift mt p = .ok false := by
  have : ∀ n, testDescendants fs.lift p n mt (fun _ => true) = .ok false := by
    intro n
    unfold testDescendants
    show (if (!fs.isDir p) = true then _ else _) = _
    rw [hd]; rfl
  exact ⟨this 1, this intMax⟩

/-- **C44**: the path itself is never among its descendants (relative or absolute; the empty path, whose entries are no longer than itself, apart). -/
theorem C44_not_itself (hfs : ProperFs fs) {n : Nat} {d q : Path} (hd : d ≠ Path.empty) (hv : d.Valid) (hr : Reach fs n d q) : q ≠ d := by
  have step : ∀ (d : Path) (x : JStr), d ≠ Path.empty → (d.abs = true ∨ d.names ≠ []) →
      (d.child x ≠ Path.empty ∧ ((d.child x).abs = true ∨ (d.child x).names ≠ [])) ∧ d.names.length < (d.child x).names.length := by
    intro d x h1 h2
    rw [Path.child, if_neg h1]
    refine ⟨⟨fun he => ?_, .inr (by simp)⟩, by simp⟩
    rcases h2 with h2 | h2
    · have := congrArg Path.abs he; simp only [h2, Path.empty] at this; cases this
    · have := congrArg (fun p => p.names.length) he
      simp only [Path.empty, List.length_append, List.length_cons, List.length_nil] at this
      exact h2 (List.length_eq_zero_iff.1 (by omega))
  have key : ∀ {n d q}, Reach fs n d q → d ≠ Path.empty → (d.abs = true ∨ d.names ≠ []) → d.names.length < q.names.length := by
    intro n d q hr
    induction hr with
    | child h1 h2 h3 =>
      intro hd hn
      obtain ⟨x, rfl⟩ := (hfs _ _ _ h2).2 _ h3
      exact (step _ x hd hn).2
    | down h1 h2 h3 _ ih =>
      intro hd hn
      obtain ⟨x, rfl⟩ := (hfs _ _ _ h2).2 _ h3
      obtain ⟨⟨h4, h5⟩, h6⟩ := step _ x hd hn
      have := ih h4 h5
      omega
  rintro rfl
  have hn : q.abs = true ∨ q.names ≠ [] := by
    rcases hv with rfl | ⟨_, hv⟩
    · exact absurd rfl hd
    · cases h : q.abs with
      | true => exact .inl rfl
      | false => exact .inr (hv h)
  have := key hr hd hn
  omega

/-- **C44**: failures. An exception is either thrown by the matcher for an entry in reach, or is an `UncheckedIOException` for a directory in reach that cannot be listed or an entry whose
attributes cannot be read (not even without following links). -/
theorem C44_failures (mt : Matcher (Except Exn)) (p : Path) (x : Exn) (h : hasAnyDescendantMatching fs.lift mt p = .error x) :
    (∃ k q, Reach fs k p q ∧ mt q = .error x) ∨ (x.isUncheckedIO = true ∧ ∃ q, (q = p ∨ ∃ k, Reach fs k p q) ∧ x = .cannotWalk q ∧ (fs.lstat q = Option.none ∨ ∀ cs, fs.listDir q ≠ .opened cs false)) := by
  rcases (testDescendants_spec (fs := fs) (fun _ => true) mt intMax (by decide) p).2.2 x h with ⟨k, q, _, hr, h⟩ | ⟨h1, _, h3⟩ | ⟨k, q, _, hr, h1, h3⟩
  · exact .inl ⟨k, q, hr, by simpa [tst] using h⟩
  · exact .inr ⟨by rw [h1]; rfl, p, .inl rfl, h1, .inr h3⟩
  · exact .inr ⟨by rw [h1]; rfl, q, .inr ⟨k, hr⟩, h1, h3.imp id (·.2.2)⟩

/-- **C44**, children, with an arbitrary (throwing) matcher: `true` is only answered if a listed entry matches, `false` only if all are tested and none does; an exception is thrown by the matcher for a
listed entry, or is an `UncheckedIOException` because the directory cannot be listed or the attributes of an entry cannot be read. -/
theorem C44_child_throwing (mt : Matcher (Except Exn)) (p : Path) :
    (hasAnyDirectChildMatching fs.lift mt p = .ok true → ∃ cs bad, fs.isDir p = true ∧ fs.listDir p = .opened cs bad ∧ ∃ q ∈ cs, mt q = .ok true) ∧
    (hasAnyDirectChildMatching fs.lift mt p = .ok false → fs.isDir p = true → ∀ cs bad, fs.listDir p = .opened cs bad → ∀ q ∈ cs, mt q = .ok false) ∧
    ∀ x, hasAnyDirectChildMatching fs.lift mt p = .error x → fs.isDir p = true ∧
      ((∃ cs bad, fs.listDir p = .opened cs bad ∧ ∃ q ∈ cs, mt q = .error x ∨ (x = .cannotWalk q ∧ fs.lstat q = Option.none)) ∨ (x = .cannotWalk p ∧ ∀ cs, fs.listDir p ≠ .opened cs false)) := by
  obtain ⟨h1, h2, h3⟩ := testDescendants_spec (fs := fs) (fun _ => true) mt 1 (by decide) p
  refine ⟨fun h => ?_, fun h hd cs bad hl q hq => ?_, fun x h => ?_⟩
  · obtain ⟨k, q, hk, hr, h⟩ := h1 h
    obtain rfl : k = 1 := by have := hr.pos; omega
    obtain ⟨g1, cs, bad, g2, g3⟩ := reach_one.1 hr
    exact ⟨cs, bad, g1, g2, q, g3, by simpa [tst] using h⟩
  · simpa [tst] using h2 h 1 q (le_refl _) (.child hd hl hq)
  · rcases h3 x h with ⟨k, q, hk, hr, h⟩ | ⟨g1, g2, g3⟩ | ⟨k, q, hk, hr, g1, g2⟩
    · obtain rfl : k = 1 := by have := hr.pos; omega
      obtain ⟨g1, cs, bad, g2, g3⟩ := reach_one.1 hr
      exact ⟨g1, .inl ⟨cs, bad, g2, q, g3, .inl (by simpa [tst] using h)⟩⟩
    · exact ⟨g2, .inr ⟨g1, g3⟩⟩
    · obtain rfl : k = 1 := by have := hr.pos; omega
      obtain ⟨k1, cs, bad, k2, k3⟩ := reach_one.1 hr
      refine ⟨k1, .inl ⟨cs, bad, k2, q, k3, .inr ⟨g1, ?_⟩⟩⟩
      rcases g2 with g2 | g2
      · exact g2
      · exact absurd g2.1 (by omega)

/-- **C44**, siblings: the same for the other entries of the parent directory; the matcher is never called with the path itself. -/
theorem C44_sibling_throwing (mt : Matcher (Except Exn)) (p d : Path) (hp : p.getParent = some d) :
    (hasSiblingMatching fs.lift mt p = .ok true → ∃ cs bad, fs.isDir d = true ∧ fs.listDir d = .opened cs bad ∧ ∃ q ∈ cs, q ≠ p ∧ mt q = .ok true) ∧
    (hasSiblingMatching fs.lift mt p = .ok false → fs.isDir d = true → ∀ cs bad, fs.listDir d = .opened cs bad → ∀ q ∈ cs, q ≠ p → mt q = .ok false) ∧
    ∀ x, hasSiblingMatching fs.lift mt p = .error x → fs.isDir d = true ∧
      ((∃ cs bad, fs.listDir d = .opened cs bad ∧ ∃ q ∈ cs, (q ≠ p ∧ mt q = .error x) ∨ (x = .cannotWalk q ∧ fs.lstat q = Option.none)) ∨ (x = .cannotWalk d ∧ ∀ cs, fs.listDir d ≠ .opened cs false)) := by
  have he : hasSiblingMatching fs.lift mt p = testDescendants fs.lift d 1 mt (fun s => decide (s ≠ p)) := by unfold hasSiblingMatching; rw [hp]
  rw [he]
  obtain ⟨h1, h2, h3⟩ := testDescendants_spec (fs := fs) (fun s => decide (s ≠ p)) mt 1 (by decide) d
  have hne : ∀ {q : Path} {b : Bool}, tst (fun s => decide (s ≠ p)) mt q = .ok b → (q = p → b = false) ∧ (q ≠ p → mt q = .ok b) := by
    intro q b h
    unfold tst at h
    by_cases hq : q = p
    · simp only [hq, ne_eq, not_true_eq_false, decide_false, Bool.false_eq_true, if_false] at h
      cases h; exact ⟨fun _ => rfl, fun h => absurd hq h⟩
    · simp only [ne_eq, hq, not_false_eq_true, decide_true, if_true] at h
      exact ⟨fun h => absurd h hq, fun _ => h⟩
  refine ⟨fun h => ?_, fun h hd cs bad hl q hq hqp => ?_, fun x h => ?_⟩
  · obtain ⟨k, q, hk, hr, h⟩ := h1 h
    obtain rfl : k = 1 := by have := hr.pos; omega
    obtain ⟨g1, cs, bad, g2, g3⟩ := reach_one.1 hr
    have hqp : q ≠ p := fun e => by cases (hne h).1 e
    exact ⟨cs, bad, g1, g2, q, g3, hqp, (hne h).2 hqp⟩
  · exact (hne (h2 h 1 q (le_refl _) (.child hd hl hq))).2 hqp
  · rcases h3 x h with ⟨k, q, hk, hr, h⟩ | ⟨g1, g2, g3⟩ | ⟨k, q, hk, hr, g1, g2⟩
    · obtain rfl : k = 1 := by have := hr.pos; omega
      obtain ⟨g1, cs, bad, g2, g3⟩ := reach_one.1 hr
      refine ⟨g1, .inl ⟨cs, bad, g2, q, g3, .inl ?_⟩⟩
      unfold tst at h
      by_cases hq : q = p
      · simp only [hq, ne_eq, not_true_eq_false, decide_false, Bool.false_eq_true, if_false] at h
        cases h
      · simp only [ne_eq, hq, not_false_eq_true, decide_true, if_true] at h
        exact ⟨hq, h⟩
    · exact ⟨g2, .inr ⟨g1, g3⟩⟩
    · obtain rfl : k = 1 := by have := hr.pos; omega
      obtain ⟨k1, cs, bad, k2, k3⟩ := reach_one.1 hr
      refine ⟨k1, .inl ⟨cs, bad, k2, q, k3, .inr ⟨g1, ?_⟩⟩⟩
      rcases g2 with g2 | g2
      · exact g2
      · exact absurd g2.1 (by omega)

/-- **C44**: with an arbitrary (throwing) matcher, `true` is only answered if a descendant matches, `false` only if all are tested and none does. -/
theorem C44_throwing_matcher (mt : Matcher (Except Exn)) (p : Path) :
    (hasAnyDescendantMatching fs.lift mt p = .ok true → ∃ k q, Reach fs k p q ∧ mt q = .ok true) ∧
    (hasAnyDescendantMatching fs.lift mt p = .ok false → ∀ k q, k ≤ 2147483647 → Reach fs k p q → mt q = .ok false) := by
  obtain ⟨h1, h2, _⟩ := testDescendants_spec (fs := fs) (fun _ => true) mt intMax (by decide) p
  refine ⟨fun h => ?_, fun h k q hk hr => ?_⟩
  · obtain ⟨k, q, _, hr, h⟩ := h1 h
    exact ⟨k, q, hr, by simpa [tst] using h⟩
  · simpa [tst] using h2 h k q hk hr

end

/-- Example: `x` is found two levels below `/r`. -/
example : Reach Demo.dfs 2 Demo.r Demo.x := by
  refine .down (cs := [Demo.b, Demo.a, Demo.z]) (bad := false) (c := Demo.a) rfl rfl (by simp) (.child (cs := [Demo.y, Demo.x]) (bad := false) rfl rfl (by simp))

/-- Examples: `/r` has a child `a` but no child `x`; `x` and `y` are siblings; `b.txt` has no sibling `b.txt`. -/
example : hasAnyDirectChildMatching (m := Except Exn) Demo.dfs.lift (hasName j!"a") Demo.r = .ok true ∧
    hasAnyDirectChildMatching (m := Except Exn) Demo.dfs.lift (hasName j!"x") Demo.r = .ok false ∧
    hasSiblingMatching (m := Except Exn) Demo.dfs.lift (hasName j!"y") Demo.x = .ok true ∧
    hasSiblingMatching (m := Except Exn) Demo.dfs.lift (hasName j!"b.txt") Demo.b = .ok false := by decide

/-- Example: a directory that can be listed but not searched (permission `r` without `x`): the attributes of its entries cannot be read. The first entry stops the search, even if a matcher
that looks at names only would have answered `true`. -/
example : let fs : PureFs := { Demo.dfs with statFails := fun p => decide (p = Demo.b) }
    hasAnyDirectChildMatching (m := Except Exn) fs.lift (hasName j!"b.txt") Demo.r = .error (.cannotWalk Demo.b) ∧
    hasAnyDirectChildMatching (m := Except Exn) Demo.dfs.lift (hasName j!"b.txt") Demo.r = .ok true := by decide

/-- Example: a matcher that throws for `b.txt`; asked for the siblings of `b.txt` it is not called with it. -/
example : let mt : Matcher (Except Exn) := fun q => if q = Demo.b then .error (.user 1) else .ok false
    hasAnyDirectChildMatching Demo.dfs.lift mt Demo.r = .error (.user 1) ∧ hasSiblingMatching Demo.dfs.lift mt Demo.z = .error (.user 1) ∧ hasSiblingMatching Demo.dfs.lift mt Demo.b = .ok false := by
  decide

/-! ### C45 -/

section
variable {m : Type → Type}

/-- The path that `hasAbsolutePathMatching` hands to its matcher. -/
theorem tested_absolute (cwd : Path) (mt : Matcher m) (p : Path) : hasAbsolutePathMatching cwd mt p = mt (p.normalize.toAbsolutePath cwd) := rfl

end

/-- **C45**, exactly when the documentation holds: `matcher.matches(path.toAbsolutePath().normalize())` is what happens iff the path does not climb above its start with `..` after normalization. -/
theorem C45_exact {cwd p : Path} (hw : cwd.abs = true) (hc : ∀ n ∈ cwd.names, n ≠ j!"." ∧ n ≠ j!"..") (hv : p.Valid) :
    p.normalize.toAbsolutePath cwd = (p.toAbsolutePath cwd).normalize ↔ ¬ (p.abs = false ∧ p.normalize.names.head? = some j!"..") := by
  by_cases h : p.abs = true
  · rw [Path.toAbsolutePath_self h, Path.toAbsolutePath_self (by rw [Path.normalize_abs h])]
    simp [h]
  · have h : p.abs = false := by simpa using h
    obtain ⟨h1, h2⟩ := Path.relNames_normalize hv h
    have hn := Path.normalize_first hw hv
    rw [← hn, Path.toAbsolutePath_rel hw h1]
    have hrn : p.normalize.names.head? = some j!".." ↔ p.normalize.relNames.head? = some j!".." := by
      unfold Path.relNames
      by_cases he : p.normalize = Path.empty
      · rw [if_pos he, he]; simp [Path.empty]
      · rw [if_neg he]
    rw [hrn]
    obtain ⟨k, ms, hs, hm⟩ := Path.normNames_false_shape p.relNames
    rw [← h2] at hs
    rw [hs]
    simp only [h, true_and]
    constructor
    · intro heq hhd
      have hk : 0 < k := by
        by_contra hk
        obtain rfl : k = 0 := by omega
        simp only [List.replicate_zero, List.nil_append] at hhd
        have := hm _ (List.mem_of_mem_head? hhd)
        exact this.2 rfl
      have hmem : j!".." ∈ (⟨true, cwd.names ++ (List.replicate k Path.dotDotName ++ ms)⟩ : Path).names := by
        simp only [List.mem_append, List.mem_replicate]
        exact .inr (.inl ⟨by omega, rfl⟩)
      rw [heq, Path.normalize_abs rfl] at hmem
      exact (Path.normNames_abs_names _ _ hmem).2 rfl
    · intro hno
      have hk : k = 0 := by
        by_contra hk
        apply hno
        obtain ⟨k', rfl⟩ := Nat.exists_eq_succ_of_ne_zero hk
        rw [List.replicate_succ]; rfl
      subst hk
      refine (Path.normalize_of_names rfl ?_).symm
      intro n hn
      simp only [List.replicate_zero, List.nil_append, List.mem_append] at hn
      rcases hn with hn | hn
      · exact hc n hn
      · exact hm n hn

/-- **C45**, the documented claim holds for all paths that do not climb. -/
theorem C45_documented_partial {m : Type → Type} [Monad m] {cwd p : Path} (hw : cwd.abs = true) (hc : ∀ n ∈ cwd.names, n ≠ j!"." ∧ n ≠ j!"..") (hv : p.Valid)
    (h : ¬ (p.abs = false ∧ p.normalize.names.head? = some j!"..")) (mt : Matcher m) :
    hasAbsolutePathMatching cwd mt p = mt (p.toAbsolutePath cwd).normalize := by
  rw [tested_absolute, (C45_exact hw hc hv).2 h]

/-- **C45** is false of the code: for every relative path that climbs there is a matcher for which the answers differ. -/
theorem C45_climbing_differs {cwd p : Path} (hw : cwd.abs = true) (hc : ∀ n ∈ cwd.names, n ≠ j!"." ∧ n ≠ j!"..") (hv : p.Valid) (h : p.abs = false) (hh : p.normalize.names.head? = some j!"..") :
    ∃ mt : Matcher (Except Exn), hasAbsolutePathMatching cwd mt p = .ok false ∧ mt (p.toAbsolutePath cwd).normalize = .ok true := by
  refine ⟨fun q => .ok (decide (q = (p.toAbsolutePath cwd).normalize)), ?_, by simp⟩
  rw [tested_absolute]
  have : ¬ p.normalize.toAbsolutePath cwd = (p.toAbsolutePath cwd).normalize := fun he => (C45_exact hw hc hv).1 he ⟨h, hh⟩
  simp [this]

/-- Witness: with working directory `/r/a`, the path `../b.txt` is tested as `/r/a/../b.txt`, not as `/r/b.txt`. -/
theorem C45_witness : hasAbsolutePathMatching (m := Except Exn) Demo.a (fun q => .ok (decide (q = Demo.b))) ⟨false, [j!"..", j!"b.txt"]⟩ = .ok false ∧
    ((⟨false, [j!"..", j!"b.txt"]⟩ : Path).toAbsolutePath Demo.a).normalize = Demo.b := by decide

/-! ### C46 -/

theorem way_dropCommon (a b : List JStr) : Way a b ((Path.dropCommon a b).1.map (fun _ => Path.dotDotName) ++ (Path.dropCommon a b).2) := by
  induction a generalizing b with
  | nil => exact ⟨⟨[], [], b, rfl, rfl, rfl, by simp⟩⟩
  | cons x xs ih =>
    cases b with
    | nil => exact ⟨⟨[], x :: xs, [], rfl, rfl, by simp [Path.dropCommon, List.map_const', Path.dotDotName, DOT, List.replicate_succ], by simp⟩⟩
    | cons y ys =>
      rw [Path.dropCommon]
      by_cases h : x = y
      · subst h
        simp only [if_true]
        obtain ⟨⟨c, u, d, h1, h2, h3, h4⟩⟩ := ih ys
        exact ⟨⟨x :: c, u, d, by simp [h1], by simp [h2], h3, h4⟩⟩
      · simp only [h, if_false]
        refine ⟨⟨[], x :: xs, y :: ys, rfl, rfl, by rw [List.map_const']; rfl, ?_⟩⟩
        intro x' xs' y' ys' e1 e2
        cases e1; cases e2; exact h

/-- The way is unique. -/
theorem Spec.Way.unique {a b w w' : List JStr} (h : Way a b w) (h' : Way a b w') : w = w' := by
  obtain ⟨c, u, d, h1, h2, rfl, h4⟩ := h.way
  obtain ⟨c', u', d', h1', h2', rfl, h4'⟩ := h'.way
  subst h1 h2
  induction c generalizing c' with
  | nil =>
    cases c' with
    | nil => simp only [List.nil_append] at h1' h2'; subst h1' h2'; rfl
    | cons x xs =>
      simp only [List.nil_append, List.cons_append] at h1' h2'
      exact absurd rfl (h4 x _ x _ h1' h2')
  | cons x xs ih =>
    cases c' with
    | nil =>
      simp only [List.nil_append, List.cons_append] at h1' h2'
      exact absurd rfl (h4' x _ x _ h1'.symm h2'.symm)
    | cons y ys =>
      simp only [List.cons_append, List.cons.injEq] at h1' h2'
      exact ih ys h1'.2 h2'.2 ⟨⟨xs, u, d, rfl, rfl, rfl, h4⟩⟩ ⟨⟨ys, u', d', h1'.2, h2'.2, rfl, h4'⟩⟩

section
variable {m : Type → Type}

/-- **C46**: the matcher is applied to the relative path that leads from the reference to the path (both absolute and normalized): up to the last common directory, then down. -/
theorem C46_way {cwd ref p : Path} (hw : cwd.abs = true) (hr : ref.Valid) (hp : p.Valid) (mt : Matcher m) :
    ∃ w, Way (target cwd ref).names (target cwd p).names w ∧ hasRelativePathMatching cwd ref mt p = mt (relPath w) := by
  refine ⟨_, way_dropCommon _ _, ?_⟩
  unfold hasRelativePathMatching Path.relativize relPath target
  dsimp only
  have key : ∀ q : Path, q.Valid → Path.normNames (q.normalize.toAbsolutePath cwd).abs (q.normalize.toAbsolutePath cwd).names = (q.toAbsolutePath cwd).normalize.names := by
    intro q hq
    rw [← Path.normalize_first hw hq, Path.normalize_abs (Path.toAbsolutePath_abs hw), Path.toAbsolutePath_abs hw]
  rw [key ref hr, key p hp]

/-- **C46**: for a path below the reference, it is exactly the remaining names, whatever spelling of reference and path was used. -/
theorem C46_below {cwd ref p : Path} (hw : cwd.abs = true) (hr : ref.Valid) (hp : p.Valid) (mt : Matcher m) (rest : List JStr)
    (h : (target cwd p).names = (target cwd ref).names ++ rest) : hasRelativePathMatching cwd ref mt p = mt (relPath rest) := by
  obtain ⟨w, h1, h2⟩ := C46_way hw hr hp mt
  rw [h2]
  congr 2
  refine h1.unique ⟨⟨(target cwd ref).names, [], rest, by simp, h, rfl, by simp⟩⟩

/-- **C46**: following the relative path from the reference leads to the path. -/
theorem C46_leads_there {cwd ref p : Path} (hw : cwd.abs = true) {w : List JStr} (h : Way (target cwd ref).names (target cwd p).names w) :
    Path.normNames true ((target cwd ref).names ++ w) = (target cwd p).names := by
  have hclean : ∀ q : Path, ∀ n ∈ (target cwd q).names, Path.IsName n := by
    intro q
    unfold target
    rw [Path.normalize_abs (Path.toAbsolutePath_abs hw)]
    exact Path.normNames_abs_names _
  obtain ⟨c, u, d, h1, h2, rfl, _⟩ := h.way
  have hu := hclean ref
  have hd := hclean p
  rw [h1] at hu ⊢
  rw [h2] at hd ⊢
  unfold Path.normNames
  have pop : ∀ (u acc : List JStr), (∀ n ∈ u, Path.IsName n) → (List.replicate u.length (j!".." : JStr)).foldl (Path.normStep true) (u ++ acc) = acc := by
    intro u
    induction u with
    | nil => intro acc _; rfl
    | cons x xs ih =>
      intro acc hx
      rw [List.length_cons, List.replicate_succ, List.foldl_cons]
      have : Path.normStep true (x :: xs ++ acc) j!".." = xs ++ acc := by
        unfold Path.normStep
        rw [if_neg (by decide), if_pos (by decide), List.cons_append]
        dsimp only
        rw [if_neg (hx x (by simp)).2]
      rw [this]
      exact ih acc (fun n hn => hx n (by simp [hn]))
  rw [List.foldl_append, List.foldl_append, List.foldl_append, Path.foldl_names true c [] (fun n hn => hu n (by simp [hn])),
    Path.foldl_names true u _ (fun n hn => hu n (by simp [hn]))]
  have := pop u.reverse (c.reverse ++ []) (fun n hn => hu n (by simp at hn; simp [hn]))
  rw [List.length_reverse] at this
  rw [this, Path.foldl_names true d _ (fun n hn => hd n (by simp [hn]))]
  simp

end

/-- Example: reference `/r/./q/..`, path `a/x` relative to the working directory `/r`. -/
example : hasRelativePathMatching (m := Except Exn) Demo.r ⟨true, [j!"r", j!".", j!"q", j!".."]⟩ (fun q => .ok (decide (q = ⟨false, [j!"a", j!"x"]⟩))) ⟨false, [j!"a", j!"x"]⟩ = .ok true := by
  rw [C46_below rfl (.inr ⟨by decide, by decide⟩) (.inr ⟨by decide, by decide⟩) _ [j!"a", j!"x"] (by decide)]
  decide

/-! ### C47 -/

section
variable {m : Type → Type} [Monad m] [MonadExceptOf Exn m]

/-- **C47**: the printed text depends on the path only through its absolute normalized form. -/
theorem C47_depends_on_target (fs : Fs m) (cwd : Path) (pr : Printer m) (o : Options m) (p q : Path) (h : target cwd p = target cwd q) :
    pr.prettyPrint fs cwd o p = pr.prettyPrint fs cwd o q := by
  unfold target at h
  unfold Printer.prettyPrint
  rw [h]

/-- **C47**: printing the absolute normalized form itself gives the same. -/
theorem C47_absolute_form (fs : Fs m) (cwd : Path) (hw : cwd.abs = true) (pr : Printer m) (o : Options m) (p : Path) :
    pr.prettyPrint fs cwd o (target cwd p) = pr.prettyPrint fs cwd o p := by
  refine C47_depends_on_target fs cwd pr o _ _ ?_
  unfold target
  have : (p.toAbsolutePath cwd).normalize.abs = true := by rw [Path.normalize_abs (Path.toAbsolutePath_abs hw)]
  rw [Path.toAbsolutePath_self this, Path.normalize_idem_abs (Path.toAbsolutePath_abs hw)]

/-- Names that normalization removes: `.` elements and `name/..` pairs. -/
inductive Removable : List JStr → Prop where
  | dot : Removable [j!"."]
  | pair {n : JStr} : n ≠ j!"." → n ≠ j!".." → Removable [n, j!".."]

theorem foldl_removable {r : List JStr} (h : Removable r) (acc : List JStr) : r.foldl (Path.normStep true) acc = acc := by
  cases h with
  | dot => show Path.normStep true acc j!"." = acc; unfold Path.normStep; rw [if_pos (by decide)]
  | pair h1 h2 =>
    rename_i n
    show Path.normStep true (Path.normStep true acc n) j!".." = acc
    have h1 : n ≠ Path.dotName := h1
    have h2 : n ≠ Path.dotDotName := h2
    have : Path.normStep true acc n = n :: acc := by unfold Path.normStep; rw [if_neg h1, if_neg h2]
    rw [this]
    unfold Path.normStep
    rw [if_neg (by decide), if_pos (by decide)]
    dsimp only
    rw [if_neg h2]

/-- **C47**: inserting `.` elements or `name/..` pairs anywhere into the path changes nothing. -/
theorem C47_insert (fs : Fs m) (cwd : Path) (hw : cwd.abs = true) (pr : Printer m) (o : Options m) (ab : Bool) (a b r : List JStr) (hr : Removable r)
    (hv : (⟨ab, a ++ b⟩ : Path) ≠ Path.empty) : pr.prettyPrint fs cwd o ⟨ab, a ++ r ++ b⟩ = pr.prettyPrint fs cwd o ⟨ab, a ++ b⟩ := by
  refine C47_depends_on_target fs cwd pr o _ _ ?_
  have key : ∀ c : List JStr, Path.normNames true (c ++ (a ++ r ++ b)) = Path.normNames true (c ++ (a ++ b)) := by
    intro c
    unfold Path.normNames
    simp only [List.foldl_append]
    rw [foldl_removable hr]
  unfold target
  cases ab with
  | true =>
    rw [Path.toAbsolutePath_self rfl, Path.toAbsolutePath_self rfl, Path.normalize_abs rfl, Path.normalize_abs rfl]
    have := key []
    simp only [List.nil_append] at this
    simp only [this]
  | false =>
    have hv' : (⟨false, a ++ r ++ b⟩ : Path) ≠ Path.empty := by
      intro he
      have : a ++ r ++ b = [[]] := by simpa [Path.empty] using he
      cases hr with
      | dot =>
        have h1 : (j!"." : JStr) ∈ a ++ [j!"."] ++ b := by simp
        rw [this] at h1; simp at h1
      | pair h1 h2 =>
        rename_i n
        have h1 : (j!".." : JStr) ∈ a ++ [n, j!".."] ++ b := by simp
        rw [this] at h1; simp at h1
    rw [Path.toAbsolutePath_rel hw rfl, Path.toAbsolutePath_rel hw rfl]
    unfold Path.relNames
    rw [if_neg hv, if_neg hv', Path.normalize_abs rfl, Path.normalize_abs rfl]
    simp only [key]

theorem splitSlash_append (a b : JStr) : (Path.ofString (a ++ SLASH :: b)).names = (splitRaw SLASH a).filter (fun n => !n.isEmpty) ++ (splitRaw SLASH b).filter (fun n => !n.isEmpty) := by
  have h : splitRaw SLASH (a ++ SLASH :: b) = splitRaw SLASH a ++ splitRaw SLASH b := by
    induction a with
    | nil => simp [splitRaw]
    | cons c a ih =>
      rw [List.cons_append, splitRaw, splitRaw, ih]
      split
      · simp
      · cases hs : splitRaw SLASH a with
        | nil =>
          exfalso
          cases a with
          | nil => cases hs
          | cons d a => rw [splitRaw] at hs; split at hs; · cases hs
                        · split at hs <;> cases hs
        | cons x xs => simp
  unfold Path.ofString
  rw [h, List.filter_append]
  cases a with
  | nil => simp
  | cons c a => simp only [List.cons_append]; split <;> rfl

theorem ofString_names (s : JStr) (h : s ≠ []) : Path.ofString s = ⟨decide (s.head? = some SLASH), (splitRaw SLASH s).filter (fun n => !n.isEmpty)⟩ := by
  cases s with
  | nil => exact absurd rfl h
  | cons c s => unfold Path.ofString; by_cases hc : c = SLASH <;> simp [hc]

theorem ofString_abs (s : JStr) : (Path.ofString s).abs = decide (s.head? = some SLASH) := by
  cases s with
  | nil => rfl
  | cons c s => rw [ofString_names _ (by simp)]

/-- **C47**: a trailing slash changes nothing. -/
theorem C47_trailing_slash (s : JStr) (h : s ≠ []) : Path.ofString (s ++ j!"/") = Path.ofString s := by
  rw [ofString_names (s ++ j!"/") (by simp), ofString_names s h]
  have := splitSlash_append s []
  rw [ofString_names _ (by simp)] at this
  simp only [SLASH] at this ⊢
  rw [this]
  cases s with
  | nil => exact absurd rfl h
  | cons c s => simp [splitRaw]

/-- **C47**: doubled slashes change nothing. -/
theorem C47_double_slash (a b : JStr) : Path.ofString (a ++ j!"//" ++ b) = Path.ofString (a ++ j!"/" ++ b) := by
  have h1 : a ++ j!"//" ++ b = a ++ SLASH :: (SLASH :: b) := by simp [SLASH]
  have h2 : a ++ j!"/" ++ b = a ++ SLASH :: b := by simp [SLASH]
  rw [h1, h2]
  have e1 := splitSlash_append a (SLASH :: b)
  have e2 := splitSlash_append a b
  rw [ofString_names _ (by simp)] at e1 e2 ⊢
  rw [ofString_names (a ++ SLASH :: b) (by simp)]
  simp only at e1 e2
  rw [e1, e2, splitRaw, if_pos rfl]
  cases a <;> simp

/-- **C47**: `prettyPrint(String)` is `prettyPrint(Path.of(...))`, for every string. -/
theorem C47_string (fs : Fs m) (cwd : Path) (hw : cwd.abs = true) (pr : Printer m) (o : Options m) (s : JStr) :
    pr.prettyPrintString fs cwd o s = pr.prettyPrint fs cwd o (Path.ofString s) := by
  unfold Printer.prettyPrintString
  dsimp only
  split
  · rfl
  · rename_i ha
    cases s with
    | nil =>
      refine C47_depends_on_target fs cwd pr o _ _ ?_
      unfold target Path.ofDotAnd
      rw [if_pos rfl, Path.toAbsolutePath_rel hw rfl, Path.toAbsolutePath_rel hw rfl, Path.normalize_abs rfl, Path.normalize_abs rfl]
      have e1 : (Path.ofString [DOT]).relNames = [j!"."] := by decide
      have e2 : (Path.ofString []).relNames = [] := by decide
      rw [e1, e2]
      unfold Path.normNames
      rw [List.foldl_append]
      simp only [List.append_nil]
      rw [foldl_removable .dot]
    | cons c s =>
      rw [ofString_abs] at ha
      have hc : c ≠ SLASH := by simpa using ha
      have e : Path.ofDotAnd (c :: s) = ⟨false, [] ++ [j!"."] ++ (Path.ofString (c :: s)).names⟩ := by
        unfold Path.ofDotAnd
        rw [if_neg (by simp)]
        have h1 : [DOT, SLASH] ++ c :: s = [DOT] ++ SLASH :: (c :: s) := rfl
        have h2 := splitSlash_append [DOT] (c :: s)
        rw [h1, ofString_names _ (by simp)] at *
        simp only at h2
        rw [h2, ofString_names (c :: s) (by simp)]
        simp [splitRaw, DOT, SLASH]
      have e2 : Path.ofString (c :: s) = ⟨false, [] ++ (Path.ofString (c :: s)).names⟩ := by
        rw [ofString_names _ (by simp)]
        simp [hc]
      rw [e]
      conv_rhs => rw [e2]
      refine C47_insert fs cwd hw pr o false [] _ _ .dot ?_
      intro he
      have : (Path.ofString (c :: s)).names = [[]] := by simpa [Path.empty] using he
      rw [ofString_names _ (by simp)] at this
      dsimp only at this
      have hm : ([] : JStr) ∈ (splitRaw SLASH (c :: s)).filter (fun n => !n.isEmpty) := by rw [this]; simp
      simpa using (List.mem_filter.1 hm).2

end

/-- Examples: the strings `a//b/`, `./a/b`, `a/c/../b` name the same target. -/
example : target Demo.r (Path.ofString j!"a//b/") = target Demo.r (Path.ofString j!"./a/b") ∧ target Demo.r (Path.ofString j!"a/c/../b") = target Demo.r (Path.ofString j!"a/b") := by decide

end JFTP
