import Verif.Lemmas.ScanComplete

/-
Comparator laws.
-/

namespace JFTP.Spec

variable {α β : Type}

theorem LawfulCmp.total' {c : α → α → Int} (h : LawfulCmp c) (a b : α) : c a b ≤ 0 ∨ c b a ≤ 0 := by
  by_cases hab : c a b ≤ 0
  · exact .inl hab
  · right; have : c b a < 0 := (h.antisymm b a).2 (by omega); omega

theorem LawfulCmp.zero_symm {c : α → α → Int} (h : LawfulCmp c) {a b : α} (hz : c a b = 0) : c b a = 0 := by
  have h1 := h.antisymm a b
  have h2 := h.antisymm b a
  omega

theorem LawfulCmp.zero_of_le {c : α → α → Int} (h : LawfulCmp c) {a b : α} (h1 : c a b ≤ 0) (h2 : c b a ≤ 0) : c a b = 0 := by
  have := h.antisymm a b
  omega

theorem LawfulCmp.zero_trans {c : α → α → Int} (h : LawfulCmp c) {a b d : α} (h1 : c a b = 0) (h2 : c b d = 0) : c a d = 0 :=
  h.zero_of_le (h.trans a b d (by omega) (by omega)) (h.trans d b a (by rw [h.zero_symm h2]) (by rw [h.zero_symm h1]))

theorem LawfulCmp.lt_of_lt_of_le {c : α → α → Int} (h : LawfulCmp c) {a b d : α} (h1 : c a b < 0) (h2 : c b d ≤ 0) : c a d < 0 := by
  by_contra hn
  have : c d a ≤ 0 := by have := h.antisymm d a; have := h.antisymm a d; omega
  have h3 := h.trans b d a h2 this
  have := h.antisymm a b
  omega

theorem LawfulCmp.lt_of_le_of_lt {c : α → α → Int} (h : LawfulCmp c) {a b d : α} (h1 : c a b ≤ 0) (h2 : c b d < 0) : c a d < 0 := by
  by_contra hn
  have : c d a ≤ 0 := by have := h.antisymm d a; have := h.antisymm a d; omega
  have h3 := h.trans d a b this h1
  have := h.antisymm b d
  omega

theorem LawfulCmp.comap {c : β → β → Int} (h : LawfulCmp c) (f : α → β) : LawfulCmp (fun a b => c (f a) (f b)) :=
  ⟨fun a b => h.antisymm (f a) (f b), fun a b d => h.trans (f a) (f b) (f d)⟩

theorem LawfulCmp.swap {c : α → α → Int} (h : LawfulCmp c) : LawfulCmp (fun a b => c b a) :=
  ⟨fun a b => h.antisymm b a, fun a b d h1 h2 => h.trans d b a h2 h1⟩

/-- Compare by `c`, ties by `d`. -/
def thenCmp (c d : α → α → Int) : α → α → Int := fun a b => if c a b ≠ 0 then c a b else d a b

theorem LawfulCmp.thenCmp {c d : α → α → Int} (hc : LawfulCmp c) (hd : LawfulCmp d) : LawfulCmp (thenCmp c d) := by
  constructor
  · intro a b
    unfold JFTP.Spec.thenCmp
    have h1 := hc.antisymm a b
    have h2 := hc.antisymm b a
    have h3 := hd.antisymm a b
    split <;> split <;> omega
  · intro a b x hab hbx
    unfold JFTP.Spec.thenCmp at *
    by_cases h1 : c a b = 0
    · by_cases h2 : c b x = 0
      · rw [if_neg (by simpa using h1)] at hab
        rw [if_neg (by simpa using h2)] at hbx
        rw [if_neg (by simpa using hc.zero_trans h1 h2)]
        exact hd.trans a b x hab hbx
      · rw [if_pos h2] at hbx
        have := hc.lt_of_le_of_lt (a := a) (b := b) (d := x) (by omega) (by omega)
        rw [if_pos (by omega)]; omega
    · rw [if_pos h1] at hab
      have hbx' : c b x ≤ 0 := by
        by_cases h2 : c b x = 0
        · omega
        · rw [if_pos h2] at hbx; exact hbx
      have := hc.lt_of_lt_of_le (a := a) (b := b) (d := x) (by omega) hbx'
      rw [if_pos (by omega)]; omega

theorem thenComparing_eq (c d : Cmp) : thenComparing c d = thenCmp c d := rfl

theorem lawful_thenComparing {c d : Cmp} (hc : LawfulCmp c) (hd : LawfulCmp d) : LawfulCmp (thenComparing c d) := hc.thenCmp hd

theorem lawful_reversed {c : Cmp} (hc : LawfulCmp c) : LawfulCmp (reversed c) := hc.swap

theorem lawful_intCompare : LawfulCmp intCompare := by
  constructor
  · intro a b; unfold intCompare; split <;> split <;> (try split) <;> (try split) <;> omega
  · intro a b d; unfold intCompare; split <;> split <;> split <;> (try split) <;> (try split) <;> (try split) <;> omega

/-! ### Strings -/

theorem toNat_ne {x y : JChar} (h : x ≠ y) : x.toNat ≠ y.toNat := fun h' => h (UInt16.toNat_inj.1 h')

theorem compareTo_neg (a b : JStr) : compareTo b a = - compareTo a b := by
  induction a generalizing b with
  | nil => cases b <;> simp [compareTo]
  | cons x xs ih =>
    cases b with
    | nil => simp [compareTo]
    | cons y ys =>
      unfold compareTo
      by_cases h : x = y
      · subst h; simp [ih]
      · rw [if_neg h, if_neg (Ne.symm h)]; omega

theorem compareTo_eq_zero {a b : JStr} : compareTo a b = 0 ↔ a = b := by
  induction a generalizing b with
  | nil => cases b <;> simp [compareTo]; omega
  | cons x xs ih =>
    cases b with
    | nil => simp [compareTo]; omega
    | cons y ys =>
      unfold compareTo
      by_cases h : x = y
      · subst h; simp [ih]
      · have := toNat_ne h
        rw [if_neg h]; simp [h]; omega

theorem compareTo_trans (a b d : JStr) (h1 : compareTo a b ≤ 0) (h2 : compareTo b d ≤ 0) : compareTo a d ≤ 0 := by
  induction a generalizing b d with
  | nil => cases d <;> simp [compareTo]; omega
  | cons x xs ih =>
    cases b with
    | nil => simp [compareTo] at h1; omega
    | cons y ys =>
      cases d with
      | nil => simp [compareTo] at h2; omega
      | cons z zs =>
        unfold compareTo at h1 h2 ⊢
        by_cases hxy : x = y
        · subst hxy
          rw [if_pos rfl] at h1
          by_cases hxz : x = z
          · subst hxz; rw [if_pos rfl] at h2 ⊢; exact ih ys zs h1 h2
          · rw [if_neg hxz] at h2 ⊢; exact h2
        · rw [if_neg hxy] at h1
          have := toNat_ne hxy
          by_cases hyz : y = z
          · subst hyz; rw [if_neg hxy]; exact h1
          · rw [if_neg hyz] at h2
            have := toNat_ne hyz
            by_cases hxz : x = z
            · subst hxz; omega
            · rw [if_neg hxz]; omega

theorem lawful_compareTo : LawfulCmp compareTo :=
  ⟨fun a b => by rw [compareTo_neg a b]; omega, compareTo_trans⟩

theorem compareToIgnoreCase_eq (fold : JChar → JChar) (a b : JStr) :
    compareToIgnoreCase fold a b = compareTo (a.map fold) (b.map fold) := by
  induction a generalizing b with
  | nil => cases b <;> simp [compareTo, compareToIgnoreCase]
  | cons x xs ih =>
    cases b with
    | nil => simp [compareTo, compareToIgnoreCase]
    | cons y ys => simp [compareTo, compareToIgnoreCase, ih]

theorem lawful_compareToIgnoreCase (fold : JChar → JChar) : LawfulCmp (compareToIgnoreCase fold) := by
  have := lawful_compareTo.comap (fun a : JStr => a.map fold)
  have e : compareToIgnoreCase fold = fun a b => compareTo (a.map fold) (b.map fold) := by
    funext a b; exact compareToIgnoreCase_eq fold a b
  rw [e]; exact this

theorem lawful_ALPHABETICAL : LawfulCmp PathSorts.ALPHABETICAL := lawful_compareTo.comap PathSorts.nameKey

theorem lawful_BY_FILE_SIZE (isDir : Path → Bool) (size : Path → Int) : LawfulCmp (PathSorts.BY_FILE_SIZE isDir size) :=
  lawful_intCompare.comap (fun a => if isDir a then 0 else size a)

theorem DIRECTORY_FIRST_eq (isDir : Path → Bool) :
    PathSorts.DIRECTORY_FIRST isDir = fun a b => intCompare (if isDir a then 0 else 1) (if isDir b then 0 else 1) := by
  funext a b
  unfold PathSorts.DIRECTORY_FIRST intCompare
  cases isDir a <;> cases isDir b <;> rfl

theorem lawful_DIRECTORY_FIRST (isDir : Path → Bool) : LawfulCmp (PathSorts.DIRECTORY_FIRST isDir) := by
  rw [DIRECTORY_FIRST_eq]
  exact lawful_intCompare.comap (fun a => if isDir a then (0 : Int) else 1)

theorem lawful_DIRECTORY_LAST (isDir : Path → Bool) : LawfulCmp (PathSorts.DIRECTORY_LAST isDir) :=
  lawful_reversed (lawful_DIRECTORY_FIRST isDir)

theorem lawful_builder (f : PathSortBuilder.Built) (live : PathSortBuilder) : LawfulCmp (f.compare live) :=
  lawful_thenComparing (lawful_intCompare.comap f.finalFunction) lawful_ALPHABETICAL

/-! ### Lexicographic order of lists -/

/-- Lexicographic comparison, a proper prefix first. -/
def lexCmp (c : α → α → Int) : List α → List α → Int
  | a :: as, b :: bs => if c a b ≠ 0 then c a b else lexCmp c as bs
  | [], [] => 0
  | [], _ :: _ => -1
  | _ :: _, [] => 1

theorem lawful_lexCmp {c : α → α → Int} (h : LawfulCmp c) : LawfulCmp (lexCmp c) := by
  constructor
  · intro a
    induction a with
    | nil => intro b; cases b <;> simp [lexCmp]
    | cons x xs ih =>
      intro b
      cases b with
      | nil => simp [lexCmp]
      | cons y ys =>
        have h1 := h.antisymm x y
        have h2 := h.antisymm y x
        have := ih ys
        simp only [lexCmp]
        split <;> split <;> omega
  · intro a
    induction a with
    | nil => intro b d; cases d <;> simp [lexCmp]
    | cons x xs ih =>
      intro b d h1 h2
      cases b with
      | nil => simp [lexCmp] at h1
      | cons y ys =>
        cases d with
        | nil => simp [lexCmp] at h2
        | cons z zs =>
          simp only [lexCmp] at *
          by_cases hxy : c x y = 0
          · rw [if_neg (by simpa using hxy)] at h1
            by_cases hyz : c y z = 0
            · rw [if_neg (by simpa using hyz)] at h2
              rw [if_neg (by simpa using h.zero_trans hxy hyz)]
              exact ih ys zs h1 h2
            · rw [if_pos hyz] at h2
              have := h.lt_of_le_of_lt (a := x) (b := y) (d := z) (by omega) (by omega)
              rw [if_pos (by omega)]; omega
          · rw [if_pos hxy] at h1
            have hyz : c y z ≤ 0 := by
              by_cases hyz : c y z = 0
              · omega
              · rw [if_pos hyz] at h2; exact h2
            have := h.lt_of_lt_of_le (a := x) (b := y) (d := z) (by omega) hyz
            rw [if_pos (by omega)]; omega

/-! ### BY_EXTENSION -/

/-- The extension parts of a name, last one first. -/
def extParts (p : Path) : List JStr := (splitDots (PathSorts.nameKey p)).tail.reverse

/-- 0 for directories, 1 for files whose name has a single part, 2 for the others. -/
def extClass (isDir : Path → Bool) (p : Path) : Int :=
  if isDir p then 0 else if (splitDots (PathSorts.nameKey p)).length = 1 then 1 else 2

theorem extLoop_lex (fold : JChar → JChar) (as bs : List JStr) :
    (match PathSorts.extLoop fold as bs with
      | .inl cmp => cmp
      | .inr (r1, r2) => if r1 > r2 then (1 : Int) else if r2 > r1 then -1 else 0) = lexCmp (compareToIgnoreCase fold) as bs := by
  induction as generalizing bs with
  | nil => cases bs <;> simp [PathSorts.extLoop, lexCmp]
  | cons a as ih =>
    cases bs with
    | nil => simp [PathSorts.extLoop, lexCmp]
    | cons b bs =>
      simp only [PathSorts.extLoop, lexCmp]
      by_cases h : compareToIgnoreCase fold a b = 0
      · rw [if_neg (by simpa using h), if_neg (by simpa using h)]; exact ih bs
      · rw [if_pos h, if_pos h]

theorem extLoop_left (fold : JChar → JChar) (as bs : List JStr) (r1 r2 : Nat) (h : PathSorts.extLoop fold as bs = .inr (r1, r2)) :
    ∃ k, r1 + k = as.length ∧ r2 + k = bs.length := by
  induction as generalizing bs with
  | nil => simp [PathSorts.extLoop] at h; exact ⟨0, by simp [← h.1], by simp [← h.2]⟩
  | cons a as ih =>
    cases bs with
    | nil => simp [PathSorts.extLoop] at h; exact ⟨0, by simp [← h.1], by simp [← h.2]⟩
    | cons b bs =>
      simp only [PathSorts.extLoop] at h
      split at h
      · cases h
      · obtain ⟨k, h1, h2⟩ := ih bs h
        exact ⟨k + 1, by simp; omega, by simp; omega⟩

theorem BY_EXTENSION_eq (fold : JChar → JChar) (isDir : Path → Bool) (p q : Path) :
    PathSorts.BY_EXTENSION fold isDir p q =
      if extClass isDir p ≠ extClass isDir q then intCompare (extClass isDir p) (extClass isDir q)
      else if extClass isDir p = 0 then 0
      else if extClass isDir p = 1 then compareToIgnoreCase fold (PathSorts.nameKey p) (PathSorts.nameKey q)
      else lexCmp (compareToIgnoreCase fold) (extParts p) (extParts q) := by
  unfold PathSorts.BY_EXTENSION extClass
  cases hp : isDir p <;> cases hq : isDir q <;> dsimp only
  · simp only [Bool.false_eq_true, if_false]
    by_cases h1 : (splitDots (PathSorts.nameKey p)).length = 1 <;> by_cases h2 : (splitDots (PathSorts.nameKey q)).length = 1
    · simp [h1, h2]
    · simp [h1, h2, intCompare]
    · simp [h1, h2, intCompare]
    · simp only [h1, h2, false_and, if_false]
      rw [← extLoop_lex]
      unfold extParts
      simp only [ne_eq, not_true, if_false]
      rw [if_neg (by decide : ¬ (2 : Int) = 0), if_neg (by decide : ¬ (2 : Int) = 1)]
      cases hl : PathSorts.extLoop fold (splitDots (PathSorts.nameKey p)).tail.reverse (splitDots (PathSorts.nameKey q)).tail.reverse with
      | inl c => rfl
      | inr r =>
        obtain ⟨r1, r2⟩ := r
        obtain ⟨k, e1, e2⟩ := extLoop_left fold _ _ r1 r2 hl
        simp only [List.length_reverse, List.length_tail] at e1 e2
        dsimp only
        generalize (splitDots (PathSorts.nameKey p)).length = n1 at *
        generalize (splitDots (PathSorts.nameKey q)).length = n2 at *
        by_cases a1 : n1 = 0 <;> by_cases a2 : n2 = 0 <;> simp only [a1, a2, if_true, if_false] <;> split <;> split <;>
          (try split) <;> (try split) <;> omega
  · by_cases h1 : (splitDots (PathSorts.nameKey p)).length = 1 <;> simp [h1, intCompare]
  · by_cases h2 : (splitDots (PathSorts.nameKey q)).length = 1 <;> simp [h2, intCompare]
  · simp

theorem lawful_BY_EXTENSION (fold : JChar → JChar) (isDir : Path → Bool) : LawfulCmp (PathSorts.BY_EXTENSION fold isDir) := by
  have hname := (lawful_compareToIgnoreCase fold).comap PathSorts.nameKey
  have hext := (lawful_lexCmp (lawful_compareToIgnoreCase fold)).comap extParts
  constructor
  · intro a b
    rw [BY_EXTENSION_eq, BY_EXTENSION_eq]
    have h1 := hname.antisymm a b
    have h2 := hext.antisymm a b
    have h3 := lawful_intCompare.antisymm (extClass isDir a) (extClass isDir b)
    by_cases e : extClass isDir a = extClass isDir b
    · rw [e]; simp only [ne_eq, not_true, if_false]
      split
      · simp
      · split <;> assumption
    · rw [if_pos e, if_pos (Ne.symm e)]; exact h3
  · intro a b d hab hbd
    rw [BY_EXTENSION_eq] at *
    have h1 := hname.trans a b d
    have h2 := hext.trans a b d
    have key : ∀ x y : Int, x ≠ y → intCompare x y ≤ 0 → x < y := by
      intro x y hne h
      by_contra hlt
      rw [intCompare, if_neg hlt, if_neg hne] at h
      omega
    have key' : ∀ x y : Int, x < y → intCompare x y ≤ 0 := by
      intro x y h; unfold intCompare; rw [if_pos h]; decide
    by_cases e1 : extClass isDir a = extClass isDir b
    · by_cases e2 : extClass isDir b = extClass isDir d
      · rw [if_neg (by simpa using e1), e1, e2] at hab
        rw [if_neg (by simpa using e2), e2] at hbd
        rw [if_neg (by simpa using e1.trans e2), e1, e2]
        split
        · decide
        · rename_i h0
          rw [if_neg h0] at hab hbd
          split
          · rename_i h0; rw [if_pos h0] at hab hbd; exact h1 hab hbd
          · rename_i h0; rw [if_neg h0] at hab hbd; exact h2 hab hbd
      · rw [if_pos e2] at hbd
        rw [e1, if_pos e2]; exact hbd
    · rw [if_pos e1] at hab
      have l1 := key _ _ e1 hab
      by_cases e2 : extClass isDir b = extClass isDir d
      · rw [← e2, if_pos e1]; exact hab
      · rw [if_pos e2] at hbd
        have l2 := key _ _ e2 hbd
        rw [if_pos (by omega)]; exact key' _ _ (by omega)

/-! ### Sibling paths are distinguished by their names -/

theorem nameKey_child (p : Path) (n : JStr) : PathSorts.nameKey (p.child n) = n := by
  unfold PathSorts.nameKey Path.child Path.getFileName
  split <;> simp

theorem distinguishes_alpha {c : Cmp} (hc : LawfulCmp c) {p : Path} {cs : List Path} (h : ∀ x ∈ cs, ∃ n, x = p.child n) :
    Distinguishes (thenComparing c PathSorts.ALPHABETICAL) cs := by
  intro a ha b hb h1 h2
  obtain ⟨n, rfl⟩ := h a ha
  obtain ⟨k, rfl⟩ := h b hb
  have hl := lawful_thenComparing hc lawful_ALPHABETICAL
  have hz := hl.zero_of_le h1 h2
  unfold thenComparing at hz
  dsimp only at hz
  split at hz
  · contradiction
  · have : n = k := by
      have := compareTo_eq_zero.1 hz
      simpa [nameKey_child] using this
    rw [this]

end JFTP.Spec
