import Verif.Model.JPath
import Mathlib.Data.List.Basic
import Mathlib.Data.List.Induction

/-
Facts about path normalisation.
-/

namespace JFTP.Path

/-- Neither `.` nor `..`. -/
def IsName (n : JStr) : Prop := n ≠ dotName ∧ n ≠ dotDotName

theorem foldl_names (abs : Bool) (ns acc : List JStr) (h : ∀ n ∈ ns, IsName n) : ns.foldl (normStep abs) acc = ns.reverse ++ acc := by
  induction ns generalizing acc with
  | nil => rfl
  | cons n ns ih =>
    have hn := h n (by simp)
    rw [List.foldl_cons, ih _ (fun x hx => h x (by simp [hx]))]
    simp [normStep, hn.1, hn.2]

theorem normNames_of_names {abs : Bool} {ns : List JStr} (h : ∀ n ∈ ns, IsName n) : normNames abs ns = ns := by
  simp [normNames, foldl_names abs ns [] h]

theorem normStep_abs_names (acc : List JStr) (n : JStr) (h : ∀ x ∈ acc, IsName x) : ∀ x ∈ normStep true acc n, IsName x := by
  intro x hx
  unfold normStep at hx
  split at hx
  · exact h x hx
  · split at hx
    · cases acc with
      | nil => simp at hx
      | cons a rest =>
        have ha := (h a (by simp)).2
        simp only [ha, if_false] at hx
        exact h x (by simp [hx])
    · rename_i h1 h2
      rcases List.mem_cons.1 hx with rfl | hx
      · exact ⟨h1, h2⟩
      · exact h x hx

theorem foldl_abs_names (ns acc : List JStr) (h : ∀ x ∈ acc, IsName x) : ∀ x ∈ ns.foldl (normStep true) acc, IsName x := by
  induction ns generalizing acc with
  | nil => exact h
  | cons n ns ih => exact ih _ (normStep_abs_names acc n h)

/-- The normal form of an absolute path has no `.` and no `..`. -/
theorem normNames_abs_names (ns : List JStr) : ∀ n ∈ normNames true ns, IsName n := by
  intro n hn
  unfold normNames at hn
  exact foldl_abs_names ns [] (by simp) n (by simpa using hn)

theorem normalize_abs {p : Path} (h : p.abs = true) : p.normalize = ⟨true, normNames true p.names⟩ := by
  unfold normalize; simp [h]

theorem normalize_of_names {p : Path} (h : p.abs = true) (hn : ∀ n ∈ p.names, IsName n) : p.normalize = p := by
  rw [normalize_abs h, normNames_of_names hn, ← h]

theorem normalize_idem_abs {p : Path} (h : p.abs = true) : p.normalize.normalize = p.normalize := by
  rw [normalize_abs h]
  exact normalize_of_names rfl (normNames_abs_names _)

theorem toAbsolutePath_abs {p cwd : Path} (h : cwd.abs = true) : (p.toAbsolutePath cwd).abs = true := by
  unfold toAbsolutePath
  split
  · assumption
  · unfold resolve
    split
    · assumption
    · split
      · assumption
      · split
        · rename_i h'; rw [h'] at h; cases h
        · exact h

/-- The path the scanner starts at is the absolute normalized form of the printed path. -/
theorem target_clean {p cwd : Path} (h : cwd.abs = true) :
    ((p.toAbsolutePath cwd).normalize).normalize.toAbsolutePath cwd = (p.toAbsolutePath cwd).normalize := by
  rw [normalize_idem_abs (toAbsolutePath_abs h)]
  have := normalize_abs (toAbsolutePath_abs (p := p) h)
  rw [this]; rfl

end JFTP.Path

namespace JFTP.Path

/-- The paths that `java.nio.file.Path` objects represent: the empty path, or non-empty names (at least one for a relative path). -/
def Valid (p : Path) : Prop := p = empty ∨ ((∀ n ∈ p.names, n ≠ []) ∧ (p.abs = false → p.names ≠ []))

theorem normStep_false_ne_dot (acc : List JStr) (n : JStr) (h : ∀ x ∈ acc, x ≠ dotName) : ∀ x ∈ normStep false acc n, x ≠ dotName := by
  intro x hx
  unfold normStep at hx
  split at hx
  · exact h x hx
  · rename_i h1
    split at hx
    · rename_i h2
      cases acc with
      | nil => simp at hx; rw [hx]; exact h1
      | cons a rest =>
        dsimp only at hx
        split at hx
        · rcases List.mem_cons.1 hx with rfl | hx
          · exact h1
          · exact h x hx
        · exact h x (by simp [hx])
    · rcases List.mem_cons.1 hx with rfl | hx
      · exact h1
      · exact h x hx

theorem foldl_false_ne_dot (ns acc : List JStr) (h : ∀ x ∈ acc, x ≠ dotName) : ∀ x ∈ ns.foldl (normStep false) acc, x ≠ dotName := by
  induction ns generalizing acc with
  | nil => exact h
  | cons n ns ih => exact ih _ (normStep_false_ne_dot acc n h)

theorem normNames_false_ne_dot (ns : List JStr) : ∀ x ∈ normNames false ns, x ≠ dotName := by
  intro x hx
  unfold normNames at hx
  exact foldl_false_ne_dot ns [] (by simp) x (by simpa using hx)

/-- Normalizing the names of a relative path first does not change the normal form below any directory. -/
theorem foldl_norm (acc ns : List JStr) : (normNames false ns).foldl (normStep true) acc = ns.foldl (normStep true) acc := by
  induction ns using List.reverseRecOn with
  | nil => rfl
  | append_singleton ns n ih =>
    have hR := normNames_false_ne_dot ns
    unfold normNames at ih hR ⊢
    rw [List.foldl_append, List.foldl_append, ← ih]
    generalize ns.foldl (normStep false) [] = R at *
    show (normStep false R n).reverse.foldl (normStep true) acc = normStep true (R.reverse.foldl (normStep true) acc) n
    by_cases h1 : n = dotName
    · simp [normStep, h1]
    · by_cases h2 : n = dotDotName
      · cases R with
        | nil =>
          have e : normStep false [] n = [n] := by unfold normStep; rw [if_neg h1, if_pos h2]; rfl
          rw [e]; rfl
        | cons a rest =>
          by_cases h3 : a = dotDotName
          · have e : normStep false (a :: rest) n = n :: a :: rest := by unfold normStep; rw [if_neg h1, if_pos h2]; dsimp only; rw [if_pos h3]
            rw [e, List.reverse_cons, List.foldl_append]; rfl
          · have h4 : a ≠ dotName := hR a (by simp)
            have e : normStep false (a :: rest) n = rest := by
              unfold normStep; rw [if_neg h1, if_pos h2]; dsimp only; rw [if_neg h3]
            rw [e, List.reverse_cons, List.foldl_append]
            show _ = normStep true (normStep true (rest.reverse.foldl (normStep true) acc) a) n
            have e2 : normStep true (rest.reverse.foldl (normStep true) acc) a = a :: rest.reverse.foldl (normStep true) acc := by
              unfold normStep; rw [if_neg h4, if_neg h3]
            rw [e2]
            unfold normStep; rw [if_neg h1, if_pos h2]; dsimp only; rw [if_neg h3]
      · have e : normStep false R n = n :: R := by unfold normStep; rw [if_neg h1, if_neg h2]
        rw [e, List.reverse_cons, List.foldl_append]; rfl

/-- Normal forms of concatenations. -/
theorem normNames_append (ns ms : List JStr) : normNames true (ns ++ ms) = (ms.foldl (normStep true) (normNames true ns).reverse).reverse := by
  unfold normNames
  rw [List.foldl_append, List.reverse_reverse]

theorem normNames_append_norm (ns ms : List JStr) : normNames true (ns ++ normNames false ms) = normNames true (ns ++ ms) := by
  rw [normNames_append, normNames_append, foldl_norm]

/-- Absolute names of a path that is relative to the working directory. -/
def relNames (p : Path) : List JStr := if p = empty then [] else p.names

theorem toAbsolutePath_rel {p cwd : Path} (hw : cwd.abs = true) (h : p.abs = false) : p.toAbsolutePath cwd = ⟨true, cwd.names ++ p.relNames⟩ := by
  have hc : cwd ≠ empty := by rintro rfl; cases hw
  unfold toAbsolutePath resolve relNames
  by_cases he : p = empty
  · subst he; simp [empty]; cases cwd; simp_all
  · simp [h, he, hc, hw]

theorem toAbsolutePath_self {p cwd : Path} (h : p.abs = true) : p.toAbsolutePath cwd = p := by simp [toAbsolutePath, h]

theorem normNames_subset (abs : Bool) (ns : List JStr) : ∀ x ∈ normNames abs ns, x ∈ ns := by
  have key : ∀ (ns acc : List JStr), ∀ x ∈ ns.foldl (normStep abs) acc, x ∈ acc ∨ x ∈ ns := by
    intro ns
    induction ns with
    | nil => intro acc x hx; exact .inl hx
    | cons n ns ih =>
      intro acc x hx
      rcases ih _ x hx with h | h
      · unfold normStep at h
        split at h
        · exact .inl h
        · split at h
          · cases acc with
            | nil => cases abs <;> simp at h; simp [h]
            | cons a rest =>
              dsimp only at h
              split at h
              · rcases List.mem_cons.1 h with rfl | h
                · simp
                · exact .inl h
              · simp [h]
          · rcases List.mem_cons.1 h with rfl | h
            · simp
            · exact .inl h
      · simp [h]
  intro x hx
  rcases key ns [] x (by simpa [normNames] using hx) with h | h
  · cases h
  · exact h

theorem normNames_empty : normNames false [[]] = [[]] := by decide

/-- The names below the working directory of a normalized relative path. -/
theorem relNames_normalize {p : Path} (hv : p.Valid) (h : p.abs = false) : p.normalize.abs = false ∧ p.normalize.relNames = normNames false p.relNames := by
  unfold normalize
  simp only [h, Bool.false_eq_true, if_false]
  rcases hv with rfl | ⟨hn, hne⟩
  · simp [empty, normNames_empty, relNames]; rfl
  · have hpe : p ≠ empty := by rintro rfl; exact hn [] (by simp [empty]) rfl
    by_cases hz : normNames false p.names = []
    · rw [if_pos hz]
      refine ⟨rfl, ?_⟩
      unfold relNames
      rw [if_pos rfl, if_neg hpe, hz]
    · have : (⟨false, normNames false p.names⟩ : Path) ≠ empty := by
        intro he
        have : normNames false p.names = [[]] := by simpa [empty] using he
        have := normNames_subset false p.names [] (by rw [this]; simp)
        exact hn [] this rfl
      simp only [hz, if_false, relNames, hpe, this, true_and]

/-- Normalizing before making absolute does not change the absolute normal form. -/
theorem normalize_first {p cwd : Path} (hw : cwd.abs = true) (hv : p.Valid) :
    ((p.normalize).toAbsolutePath cwd).normalize = (p.toAbsolutePath cwd).normalize := by
  by_cases h : p.abs = true
  · rw [toAbsolutePath_self h, toAbsolutePath_self (by rw [normalize_abs h]), normalize_idem_abs h]
  · have h : p.abs = false := by simpa using h
    obtain ⟨h1, h2⟩ := relNames_normalize hv h
    rw [toAbsolutePath_rel hw h, toAbsolutePath_rel hw h1, h2, normalize_abs rfl, normalize_abs rfl, normNames_append_norm]

/-- In the names of a normalized relative path, all `..` are at the beginning. -/
theorem normNames_false_shape (ns : List JStr) : ∃ k ms, normNames false ns = List.replicate k dotDotName ++ ms ∧ ∀ n ∈ ms, IsName n := by
  induction ns using List.reverseRecOn with
  | nil => exact ⟨0, [], rfl, by simp⟩
  | append_singleton ns n ih =>
    obtain ⟨k, ms, h1, h2⟩ := ih
    unfold normNames at h1 ⊢
    rw [List.foldl_append]
    generalize hR : ns.foldl (normStep false) [] = R at *
    have hR' : R = ms.reverse ++ List.replicate k dotDotName := by
      have := congrArg List.reverse h1
      simpa using this
    show ∃ k ms, (normStep false R n).reverse = _ ∧ _
    by_cases hd : n = dotName
    · exact ⟨k, ms, by simp [normStep, hd, h1], h2⟩
    · by_cases hdd : n = dotDotName
      · induction ms using List.reverseRecOn with
        | nil =>
          refine ⟨k + 1, [], ?_, by simp⟩
          simp only [List.reverse_nil, List.nil_append] at hR'
          subst hR'
          cases k with
          | zero => simp [normStep, hdd]; decide
          | succ k =>
            have : normStep false (List.replicate (k + 1) dotDotName) n = n :: List.replicate (k + 1) dotDotName := by
              rw [List.replicate_succ]; unfold normStep; rw [if_neg hd, if_pos hdd]; simp
            rw [this, hdd, ← List.replicate_succ]; simp
        | append_singleton ms x _ =>
          refine ⟨k, ms, ?_, fun y hy => h2 y (by simp [hy])⟩
          have hx := h2 x (by simp)
          have : normStep false R n = ms.reverse ++ List.replicate k dotDotName := by
            rw [hR', List.reverse_append, List.reverse_singleton, List.singleton_append, List.cons_append]
            unfold normStep; rw [if_neg hd, if_pos hdd]; simp [hx.2]
          rw [this]; simp
      · refine ⟨k, ms ++ [n], ?_, ?_⟩
        · have : normStep false R n = n :: R := by unfold normStep; rw [if_neg hd, if_neg hdd]
          rw [this, hR']; simp
        · intro y hy
          rcases List.mem_append.1 hy with hy | hy
          · exact h2 y hy
          · simp at hy; rw [hy]; exact ⟨hd, hdd⟩

end JFTP.Path
