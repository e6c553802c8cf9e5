import Verif.Model.Version

/-
C92: what `--version` tells.
-/

namespace JFTP
namespace Version

/-- The value recorded under a name; names that differ in the case of ASCII letters only are the same name. -/
inductive Recorded : Resource → JStr → JStr → Prop where
  | intro {m name n v} : (n, v) ∈ m → n.map asciiLowerChar = name.map asciiLowerChar → Recorded (.manifest m) name v

/-- No name is recorded twice (`Attributes` is a map). -/
def OneValue : Resource → Prop
  | .manifest m => m.Pairwise fun a b => a.1.map asciiLowerChar ≠ b.1.map asciiLowerChar
  | _ => True

/-- What is shown for a name: the recorded value, or `unknown` if there is none. -/
def Shown (r : Resource) (name shown : JStr) : Prop := Recorded r name shown ∨ (shown = j!"unknown" ∧ ∀ v, ¬ Recorded r name v)

theorem equalsIgnoreCase_iff (a b : JStr) : equalsIgnoreCase asciiLowerChar a b = true ↔ a.map asciiLowerChar = b.map asciiLowerChar := by
  unfold equalsIgnoreCase
  simp

theorem getValue_some {m : Attributes} {name v : JStr} (h : getValue m name = some v) : Recorded (.manifest m) name v := by
  unfold getValue at h
  cases hf : m.find? (fun a => equalsIgnoreCase asciiLowerChar a.1 name) with
  | none => rw [hf] at h; cases h
  | some a =>
    rw [hf] at h
    cases h
    exact .intro (List.mem_of_find?_eq_some hf) ((equalsIgnoreCase_iff _ _).1 (by simpa using List.find?_some hf))

theorem getValue_none {m : Attributes} {name : JStr} (h : getValue m name = none) (v : JStr) : ¬ Recorded (.manifest m) name v := by
  rintro ⟨hm, he⟩
  unfold getValue at h
  rw [Option.map_eq_none_iff, List.find?_eq_none] at h
  exact h _ hm ((equalsIgnoreCase_iff _ _).2 he)

theorem shown_getValue (m : Attributes) (name : JStr) : Shown (.manifest m) name (valueOrUnknown (getValue m name)) := by
  cases h : getValue m name with
  | none => exact .inr ⟨rfl, getValue_none h⟩
  | some v => exact .inl (getValue_some h)

theorem recorded_unique {r : Resource} (h1 : OneValue r) {name v v' : JStr} (h : Recorded r name v) (h' : Recorded r name v') : v = v' := by
  obtain ⟨ha, ea⟩ := h
  obtain ⟨hb, eb⟩ := h'
  rename_i m n n'
  have h1 : m.Pairwise fun a b => a.1.map asciiLowerChar ≠ b.1.map asciiLowerChar := h1
  have he := ea.trans eb.symm
  clear ea eb
  induction m with
  | nil => cases ha
  | cons a m ih =>
    rw [List.pairwise_cons] at h1
    rcases List.mem_cons.1 ha with rfl | ha2 <;> rcases List.mem_cons.1 hb with hb | hb2
    · cases hb; rfl
    · exact absurd he (h1.1 _ hb2)
    · subst hb; exact absurd he.symm (h1.1 (n, v) ha2)
    · exact ih h1.2 ha2 hb2 h1.2

theorem shown_unique {r : Resource} (h1 : OneValue r) {name s s' : JStr} (h : Shown r name s) (h' : Shown r name s') : s = s' := by
  rcases h with h | ⟨rfl, h⟩ <;> rcases h' with h' | ⟨rfl, h'⟩
  · exact recorded_unique h1 h h'
  · exact absurd h (h' _)
  · exact absurd h' (h _)
  · rfl

end Version
open Version

/-- **C92**: `--version` has five lines, with the six recorded values at their places and `unknown` for those that are not recorded (all of them, if there is no manifest). It fails exactly if the
manifest cannot be read. -/
theorem C92_version (r : Resource) (h1 : OneValue r) (ls : List JStr) :
    getVersion r = some ls ↔ r ≠ .unreadable ∧ ∃ version desc url commit time built, Shown r j!"Implementation-Version" version ∧ Shown r j!"Project-Desc" desc ∧ Shown r j!"Scm-Url" url ∧
      Shown r j!"Commit-Id" commit ∧ Shown r j!"Commit-Time" time ∧ Shown r j!"Build-Time" built ∧
      ls = [j!"JFileTreePrettyPrinter " ++ version, desc, j!"Repository: " ++ url, j!"Commit: " ++ commit ++ j!" (" ++ time ++ j!")", j!"Built on: " ++ built] := by
  have key : r ≠ .unreadable → ∃ version desc url commit time built, Shown r j!"Implementation-Version" version ∧ Shown r j!"Project-Desc" desc ∧ Shown r j!"Scm-Url" url ∧
      Shown r j!"Commit-Id" commit ∧ Shown r j!"Commit-Time" time ∧ Shown r j!"Build-Time" built ∧
      getVersion r = some [j!"JFileTreePrettyPrinter " ++ version, desc, j!"Repository: " ++ url, j!"Commit: " ++ commit ++ j!" (" ++ time ++ j!")", j!"Built on: " ++ built] := by
    intro hr
    cases r with
    | unreadable => exact absurd rfl hr
    | missing =>
      have hn : ∀ name, Shown .missing name j!"unknown" := fun name => .inr ⟨rfl, fun v h => by cases h⟩
      exact ⟨_, _, _, _, _, _, hn _, hn _, hn _, hn _, hn _, hn _, rfl⟩
    | manifest m => exact ⟨_, _, _, _, _, _, shown_getValue m _, shown_getValue m _, shown_getValue m _, shown_getValue m _, shown_getValue m _, shown_getValue m _, rfl⟩
  constructor
  · intro h
    have hr : r ≠ .unreadable := by rintro rfl; cases h
    obtain ⟨a, b, c, d, e, f, h1, h2, h3, h4, h5, h6, he⟩ := key hr
    rw [he] at h
    cases h
    exact ⟨hr, a, b, c, d, e, f, h1, h2, h3, h4, h5, h6, rfl⟩
  · rintro ⟨hr, a, b, c, d, e, f, ha, hb, hc, hd, he, hf, rfl⟩
    obtain ⟨a', b', c', d', e', f', ha', hb', hc', hd', he', hf', h⟩ := key hr
    rw [h, shown_unique h1 ha ha', shown_unique h1 hb hb', shown_unique h1 hc hc', shown_unique h1 hd hd', shown_unique h1 he he', shown_unique h1 hf hf']

namespace Version

/-! ### A concrete case: one value under a name in other letters, nothing else -/

def sample : Resource := .manifest [(j!"Manifest-Version", j!"1.0"), (j!"IMPLEMENTATION-VERSION", j!"0.8.0"), (j!"Commit-Id", j!"abc")]

example : OneValue sample := by unfold OneValue sample; decide

example : getVersion sample = some [j!"JFileTreePrettyPrinter 0.8.0", j!"unknown", j!"Repository: unknown", j!"Commit: abc (unknown)", j!"Built on: unknown"] := by decide

end Version
end JFTP
