import Verif.Spec.Relocate
import Verif.Props.Move
import Verif.Props.Choices
import Verif.Props.EndToEnd
import Verif.Props.Paths

/-
Conditions and calls for a directory at two places.
-/

namespace JFTP
open Spec Spec.OnePage

namespace OnePage

variable {w w' : Place} {b b' : List JStr}

theorem found_real (h : SameDir w w' b b') {rest : List JStr} (hf : Found w.fs b rest) : ∀ n ∈ rest, n ≠ j!"." ∧ n ≠ j!".." := by
  induction hf with
  | here => simp
  | @step rest n cs bad h1 h2 h3 ih =>
    intro x hx
    rcases List.mem_append.1 hx with hx | hx
    · exact ih x hx
    · rw [List.mem_singleton.1 hx]
      obtain ⟨k, hk, h4⟩ := h.listed _ _ _ h2 _ h3
      rw [names_child rfl] at hk
      have : n = k := by simpa [under] using hk
      rw [this]; exact h4

/-! ### The files below -/

theorem found_child {fs : PureFs} {rest : List JStr} {q : Path} {cs : List Path} {bad : Bool} {fs' : PureFs} (hs : SameBelow fs fs' b b') (hf : Found fs b rest)
    (h1 : fs.listDir (under b rest) = .opened cs bad) (h2 : q ∈ cs) :
    ∃ n cs', q = under b (rest ++ [n]) ∧ Found fs b (rest ++ [n]) ∧ fs'.listDir (under b' rest) = .opened cs' bad ∧ under b' (rest ++ [n]) ∈ cs' := by
  rcases hs.list rest with ⟨h, _⟩ | ⟨ns, ns', bad', hl, hl', hp⟩
  · rw [h] at h1; cases h1
  · rw [hl] at h1; cases h1
    obtain ⟨n, hn, rfl⟩ := List.mem_map.1 h2
    exact ⟨n, _, rfl, .step hf hl h2, hl', List.mem_map.2 ⟨n, hp.mem_iff.2 hn, rfl⟩⟩

theorem reach_moved {fs fs' : PureFs} (hs : SameBelow fs fs' b b') {k : Nat} {p q : Path} (h : Reach fs k p q) : ∀ {rest : List JStr}, p = under b rest → Found fs b rest →
    ∃ r, q = under b r ∧ r.length = rest.length + k ∧ rest <+: r ∧ Found fs b r ∧ Reach fs' k (under b' rest) (under b' r) ∧ 1 ≤ k := by
  induction h with
  | @child d q cs bad h1 h2 h3 =>
    rintro rest rfl hf
    obtain ⟨n, cs', rfl, h4, h5, h6⟩ := found_child hs hf h2 h3
    exact ⟨_, rfl, by simp, List.prefix_append _ _, h4, .child (by rw [hs.isDir]; exact h1) h5 h6, le_refl 1⟩
  | @down k d c q cs bad h1 h2 h3 h4 ih =>
    rintro rest rfl hf
    obtain ⟨n, cs', rfl, h5, h6, h7⟩ := found_child hs hf h2 h3
    obtain ⟨r, rfl, hl, hp, hf', hr, -⟩ := ih rfl h5
    exact ⟨r, rfl, by rw [hl]; simp; omega, (List.prefix_append _ _).trans hp, hf', .down (by rw [hs.isDir]; exact h1) h6 h7 hr, by omega⟩

theorem found_init {fs : PureFs} {init : List JStr} {n : JStr} (h : Found fs b (init ++ [n])) : Found fs b init := by
  generalize e : init ++ [n] = l at h
  cases h with
  | here => simp at e
  | step h1 _ _ =>
    obtain ⟨rfl, -⟩ := List.append_inj' e rfl
    exact h1

theorem last_moved (hn : b'.getLast? = b.getLast?) (rest : List JStr) : (under b' rest).names.getLast? = (under b rest).names.getLast? := by
  cases rest with
  | nil => simpa [under] using hn
  | cons r rest => simp only [under, List.getLast?_append_of_ne_nil _ (List.cons_ne_nil r rest)]

theorem parent_under {b init : List JStr} {n : JStr} {q : Path} :
    (Ancestor (under b (init ++ [n])) q ∧ (under b (init ++ [n])).names.length = q.names.length + 1) ↔ q = under b init := by
  constructor
  · rintro ⟨⟨h1, ⟨x, xs, h2⟩, -⟩, h3⟩
    rw [h2] at h3
    simp at h3
    subst h3
    have : (b ++ init) ++ [n] = q.names ++ [x] := by simpa [under] using h2
    obtain ⟨e, -⟩ := List.append_inj' this rfl
    obtain ⟨qa, qn⟩ := q
    simp only at h1 e
    subst e
    simp [under] at h1 ⊢
    exact h1
  · rintro rfl
    exact ⟨⟨rfl, ⟨n, [], by simp [under]⟩, fun h => by cases h⟩, by simp [under]; omega⟩

/-! ### Conditions -/

mutual
theorem textual_same (hc : w'.casing = w.casing) (hg : w'.glob = w.glob) (c : Cond) (h : c.Textual) (p : Path) : c.holds w' p ↔ c.holds w p := by
  match c, h with
  | .test f, _ => exact .rfl
  | .not c, h => exact not_congr (textual_same hc hg c h p)
  | .allOf cs, h => exact (textuals_same hc hg cs h p).1
  | .anyOf cs, h => exact (textuals_same hc hg cs h p).2
  | .noneOf cs, h => exact not_congr (textuals_same hc hg cs h p).2
  | .ifThenElse i t e, h =>
    have h1 := textual_same hc hg i h.1 p
    have h2 := textual_same hc hg t h.2.1 p
    have h3 := textual_same hc hg e h.2.2 p
    simp only [Cond.holds, h1, h2, h3]
  | .nameGlob g, _ => simp only [Cond.holds, Place.accepts, hg]
  | .name n, _ => simp only [Cond.holds]
  | .nameIgnoreCase n, _ => simp only [Cond.holds, hc]
  | .namePattern r, _ => simp only [Cond.holds]
  | .nameStart n, _ => simp only [Cond.holds]
  | .nameEnd n, _ => simp only [Cond.holds]
  | .extension n, _ => simp only [Cond.holds]
  | .parent c, h =>
    simp only [Cond.holds]
    exact exists_congr fun q => and_congr_right fun _ => and_congr_right fun _ => textual_same hc hg c h q
  | .ancestor c, h =>
    simp only [Cond.holds]
    exact exists_congr fun q => and_congr_right fun _ => textual_same hc hg c h q
theorem textuals_same (hc : w'.casing = w.casing) (hg : w'.glob = w.glob) (cs : List Cond) (h : Cond.AllTextual cs) (p : Path) :
    (Cond.every w' cs p ↔ Cond.every w cs p) ∧ (Cond.some w' cs p ↔ Cond.some w cs p) := by
  match cs, h with
  | [], _ => exact ⟨.rfl, .rfl⟩
  | c :: cs, h =>
    have h1 := textual_same hc hg c h.1 p
    have h2 := textuals_same hc hg cs h.2 p
    exact ⟨and_congr h1 h2.1, or_congr h1 h2.2⟩
end

theorem way_under (ref : Path) {w : Place} {rest : List JStr} (href : (placed w.cwd ref).normalize = under b []) (hb : ∀ n ∈ b, n ≠ j!"." ∧ n ≠ j!"..")
    (hr : ∀ n ∈ rest, n ≠ j!"." ∧ n ≠ j!"..") (q : Path) : w.IsWay ref (under b rest) q ↔ q = relPath rest := by
  have hn : (under b rest).normalize = under b rest := by
    refine Path.normalize_of_names rfl ?_
    intro n hn
    rcases List.mem_append.1 hn with h | h
    · exact hb n h
    · exact hr n h
  have hp : (placed w.cwd (under b rest)).normalize = under b rest := by
    unfold placed
    rw [hn]
    unfold Path.toAbsolutePath
    rw [if_pos (show (under b rest).abs = true from rfl), hn]
  unfold Place.IsWay
  rw [href, hp]
  have hway : Way (under b []).names (under b rest).names rest :=
    ⟨⟨b, [], rest, by simp [under], by simp [under], by simp, by simp⟩⟩
  constructor
  · rintro ⟨v, hv, rfl⟩; rw [hv.unique hway]
  · rintro rfl; exact ⟨rest, hway, rfl⟩

mutual
theorem cond_same (h : SameDir w w' b b') {inner : Bool} {c c' : Cond} (hc : CondSame w w' b b' inner c c') {rest : List JStr} (hf : Found w.fs b rest) (hi : inner = true → rest ≠ []) :
    c'.holds w' (under b' rest) ↔ c.holds w (under b rest) := by
  have hb : ∀ n ∈ b, n ≠ j!"." ∧ n ≠ j!".." := fun n hn => h.real n (by simp [hn])
  have hb' : ∀ n ∈ b', n ≠ j!"." ∧ n ≠ j!".." := fun n hn => h.real n (by simp [hn])
  have hr := found_real h hf
  have hlast := last_moved h.name rest
  match hc with
  | .test ha => simp only [Cond.holds]; rw [ha rest hf hi]
  | .not hc => exact not_congr (cond_same h hc hf hi)
  | .allOf hcs => exact (conds_same h hcs hf hi).1
  | .anyOf hcs => exact (conds_same h hcs hf hi).2
  | .noneOf hcs => exact not_congr (conds_same h hcs hf hi).2
  | .ifThenElse h1 h2 h3 =>
    have h1 := cond_same h h1 hf hi
    have h2 := cond_same h h2 hf hi
    have h3 := cond_same h h3 hf hi
    simp only [Cond.holds, h1, h2, h3]
  | .relative (c := c) h1 h2 ht =>
    simp only [Cond.holds, way_under _ h1 hb hr, way_under _ h2 hb' hr, exists_eq_left]
    exact textual_same h.casing h.glob c ht _
  | .relativeGlob h1 h2 =>
    simp only [Cond.holds, way_under _ h1 hb hr, way_under _ h2 hb' hr, exists_eq_left, Place.accepts, h.glob]
  | .nameGlob => simp only [Cond.holds, named_last, hlast, Place.accepts, h.glob]
  | .name => simp only [Cond.holds, named_last, hlast]
  | .nameIgnoreCase => simp only [Cond.holds, named_last, hlast, h.casing]
  | .namePattern => simp only [Cond.holds, named_last, hlast]
  | .nameStart => simp only [Cond.holds, named_last, hlast]
  | .nameEnd => simp only [Cond.holds, named_last, hlast]
  | .extension => simp only [Cond.holds, named_last, hlast]
  | .isDirectory => simp only [Cond.holds, h.below.isDir]
  | .isFile => simp only [Cond.holds, h.below.isDir]
  | .isRegularFile => simp only [Cond.holds, h.regular]
  | .isSymbolicLink => simp only [Cond.holds, h.link]
  | .parent hc =>
    obtain ⟨init, n, rfl⟩ : ∃ init n, rest = init ++ [n] := ⟨_, _, (List.dropLast_append_getLast (hi rfl)).symm⟩
    have := cond_same h hc (found_init hf) (by simp)
    simp only [Cond.holds, ← and_assoc, parent_under, exists_eq_left, this]
  | .child hc =>
    simp only [Cond.holds]
    constructor
    · rintro ⟨q, hq, hh⟩
      obtain ⟨r, rfl, hl, -, hf', hq', -⟩ := reach_moved h.below.symm hq rfl (h.below.found hf)
      have hf' := h.below.symm.found hf'
      exact ⟨_, hq', (cond_same h hc hf' fun _ => by rintro rfl; simp at hl).1 hh⟩
    · rintro ⟨q, hq, hh⟩
      obtain ⟨r, rfl, hl, -, hf', hq', -⟩ := reach_moved h.below hq rfl hf
      exact ⟨_, hq', (cond_same h hc hf' fun _ => by rintro rfl; simp at hl).2 hh⟩
  | .descendant hc =>
    simp only [Cond.holds]
    constructor
    · rintro ⟨k, q, hk, hq, hh⟩
      obtain ⟨r, rfl, hl, -, hf', hq', h1⟩ := reach_moved h.below.symm hq rfl (h.below.found hf)
      have hf' := h.below.symm.found hf'
      exact ⟨k, _, hk, hq', (cond_same h hc hf' fun _ => by rintro rfl; simp at hl; omega).1 hh⟩
    · rintro ⟨k, q, hk, hq, hh⟩
      obtain ⟨r, rfl, hl, -, hf', hq', h1⟩ := reach_moved h.below hq rfl hf
      exact ⟨k, _, hk, hq', (cond_same h hc hf' fun _ => by rintro rfl; simp at hl; omega).2 hh⟩
  | .sibling hc =>
    obtain ⟨init, n, rfl⟩ : ∃ init n, rest = init ++ [n] := ⟨_, _, (List.dropLast_append_getLast (hi rfl)).symm⟩
    have hfi := found_init hf
    simp only [Cond.holds]
    constructor
    · rintro ⟨d, q, h1, h2, hq, hne, hh⟩
      obtain rfl := parent_under.1 ⟨h1, h2⟩
      obtain ⟨r, rfl, hl, -, hf', hq', -⟩ := reach_moved h.below.symm hq rfl (h.below.found hfi)
      have hf' := h.below.symm.found hf'
      obtain ⟨h3, h4⟩ := (parent_under (b := b) (init := init) (n := n)).2 rfl
      exact ⟨_, _, h3, h4, hq', (fun e => hne (by simp [under] at e; rw [e])), (cond_same h hc hf' fun _ => by rintro rfl; simp at hl).1 hh⟩
    · rintro ⟨d, q, h1, h2, hq, hne, hh⟩
      obtain rfl := parent_under.1 ⟨h1, h2⟩
      obtain ⟨r, rfl, hl, -, hf', hq', -⟩ := reach_moved h.below hq rfl hfi
      obtain ⟨h3, h4⟩ := (parent_under (b := b') (init := init) (n := n)).2 rfl
      exact ⟨_, _, h3, h4, hq', (fun e => hne (by simp [under] at e; rw [e])), (cond_same h hc hf' fun _ => by rintro rfl; simp at hl).2 hh⟩
theorem conds_same (h : SameDir w w' b b') {inner : Bool} {cs cs' : List Cond} (hc : CondsSame w w' b b' inner cs cs') {rest : List JStr} (hf : Found w.fs b rest) (hi : inner = true → rest ≠ []) :
    (Cond.every w' cs' (under b' rest) ↔ Cond.every w cs (under b rest)) ∧ (Cond.some w' cs' (under b' rest) ↔ Cond.some w cs (under b rest)) := by
  match hc with
  | .nil => exact ⟨.rfl, .rfl⟩
  | .cons h1 h2 =>
    have h1 := cond_same h h1 hf hi
    have h2 := conds_same h h2 hf hi
    exact ⟨and_congr h1 h2.1, or_congr h1 h2.2⟩
end

end OnePage
end JFTP
