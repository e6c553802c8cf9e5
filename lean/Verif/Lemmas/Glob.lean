import Verif.Spec.Glob
import Mathlib.Tactic.ByContra

/-!
The JDK's globs mean what the documentation says.
-/

namespace JFTP
namespace Spec
namespace GlobL
open Globs Glob

/-! ### Sequences -/

section
variable {α β : Type} {M N : α → List Nat → Prop}

theorem seq_nil_iff {s : List Nat} : SeqMeans M [] s ↔ s = [] := ⟨fun h => by cases h; rfl, fun h => h ▸ .nil⟩

theorem seq_cons_iff {p : α} {ps : List α} {s : List Nat} : SeqMeans M (p :: ps) s ↔ ∃ a b, s = a ++ b ∧ M p a ∧ SeqMeans M ps b :=
  ⟨fun h => by cases h with | cons h1 h2 => exact ⟨_, _, rfl, h1, h2⟩, fun ⟨_, _, e, h1, h2⟩ => e ▸ .cons h1 h2⟩

theorem seq_one_iff {p : α} {s : List Nat} : SeqMeans M [p] s ↔ M p s := by
  rw [seq_cons_iff]
  constructor
  · rintro ⟨a, b, rfl, h1, h2⟩
    cases h2
    rwa [List.append_nil]
  · exact fun h => ⟨s, [], by simp, h, .nil⟩

theorem seq_append_iff {ps qs : List α} {s : List Nat} : SeqMeans M (ps ++ qs) s ↔ ∃ a b, s = a ++ b ∧ SeqMeans M ps a ∧ SeqMeans M qs b := by
  induction ps generalizing s with
  | nil =>
    constructor
    · exact fun h => ⟨[], s, rfl, .nil, h⟩
    · rintro ⟨a, b, rfl, h1, h2⟩; cases h1; exact h2
  | cons p ps ih =>
    rw [List.cons_append, seq_cons_iff]
    constructor
    · rintro ⟨a, b, rfl, h1, h2⟩
      obtain ⟨c, d, rfl, h3, h4⟩ := ih.1 h2
      exact ⟨a ++ c, d, by simp, .cons h1 h3, h4⟩
    · rintro ⟨a, b, rfl, h1, h2⟩
      cases h1 with
      | @cons _ _ a' b' h3 h4 => exact ⟨a', b' ++ b, by simp, h3, ih.2 ⟨b', b, rfl, h4, h2⟩⟩

theorem seq_congr {ps : List α} (h : ∀ p ∈ ps, ∀ s, M p s ↔ N p s) {s : List Nat} : SeqMeans M ps s ↔ SeqMeans N ps s := by
  induction ps generalizing s with
  | nil => rw [seq_nil_iff, seq_nil_iff]
  | cons p ps ih =>
    rw [seq_cons_iff, seq_cons_iff]
    have h1 := h p (by simp)
    have h2 := fun b => ih (fun q hq => h q (by simp [hq])) (s := b)
    simp only [h1, h2]

theorem seq_flatMap {N : β → List Nat → Prop} {f : α → List β} {ps : List α} (h : ∀ p ∈ ps, ∀ s, M p s ↔ SeqMeans N (f p) s) {s : List Nat} :
    SeqMeans M ps s ↔ SeqMeans N (ps.flatMap f) s := by
  induction ps generalizing s with
  | nil => rw [seq_nil_iff, List.flatMap_nil, seq_nil_iff]
  | cons p ps ih =>
    rw [seq_cons_iff, List.flatMap_cons, seq_append_iff]
    have h1 := h p (by simp)
    have h2 := fun b => ih (fun q hq => h q (by simp [hq])) (s := b)
    simp only [h1, h2]

theorem seq_map {N : β → List Nat → Prop} {f : α → β} {ps : List α} {s : List Nat} : SeqMeans N (ps.map f) s ↔ SeqMeans (fun a => N (f a)) ps s := by
  induction ps generalizing s with
  | nil => rw [List.map_nil, seq_nil_iff, seq_nil_iff]
  | cons p ps ih =>
    rw [List.map_cons, seq_cons_iff, seq_cons_iff]
    simp only [ih]

end

/-! ### Matching -/

def SimpleMeans : Simple → List Nat → Prop
  | .lit c, s => s = [c]
  | .one set, s => ∃ c, s = [c] ∧ set c = true
  | .many set, s => ∀ c ∈ s, set c = true

def AtomMeans : Atom → List Nat → Prop
  | .simple a, s => SimpleMeans a s
  | .group alts, s => ∃ a ∈ alts, SeqMeans SimpleMeans a s

theorem matchMany_iff {set : Nat → Bool} {k : List Nat → Bool} {s : List Nat} : matchMany set k s = true ↔ ∃ a b, s = a ++ b ∧ (∀ c ∈ a, set c = true) ∧ k b = true := by
  induction s with
  | nil =>
    rw [matchMany]
    constructor
    · exact fun h => ⟨[], [], rfl, by simp, h⟩
    · rintro ⟨a, b, e, _, h⟩
      obtain ⟨rfl, rfl⟩ := List.append_eq_nil_iff.1 e.symm
      exact h
  | cons c s ih =>
    rw [matchMany, Bool.or_eq_true, Bool.and_eq_true, ih]
    constructor
    · rintro (⟨hc, a, b, rfl, h1, h2⟩ | h)
      · exact ⟨c :: a, b, rfl, by simpa [hc] using h1, h2⟩
      · exact ⟨[], c :: s, rfl, by simp, h⟩
    · rintro ⟨a, b, e, h1, h2⟩
      cases a with
      | nil => right; rw [List.nil_append] at e; rwa [e]
      | cons d a =>
        rw [List.cons_append] at e
        injection e with e1 e2
        left
        exact ⟨e1 ▸ h1 d (by simp), a, b, e2, fun x hx => h1 x (by simp [hx]), h2⟩

theorem matchSimple_iff {as : List Simple} {k : List Nat → Bool} {s : List Nat} : matchSimple as k s = true ↔ ∃ a b, s = a ++ b ∧ SeqMeans SimpleMeans as a ∧ k b = true := by
  induction as generalizing s with
  | nil =>
    rw [matchSimple]
    constructor
    · exact fun h => ⟨[], s, rfl, .nil, h⟩
    · rintro ⟨a, b, rfl, h1, h2⟩; cases h1; exact h2
  | cons x as ih =>
    have step : (∃ a b, s = a ++ b ∧ SeqMeans SimpleMeans (x :: as) a ∧ k b = true) ↔ ∃ a b, s = a ++ b ∧ SimpleMeans x a ∧ matchSimple as k b = true := by
      constructor
      · rintro ⟨a, b, rfl, h1, h2⟩
        cases h1 with
        | @cons _ _ a' b' h3 h4 => exact ⟨a', b' ++ b, by simp, h3, ih.2 ⟨b', b, rfl, h4, h2⟩⟩
      · rintro ⟨a, b, rfl, h1, h2⟩
        obtain ⟨c, d, rfl, h3, h4⟩ := ih.1 h2
        exact ⟨a ++ c, d, by simp, .cons h1 h3, h4⟩
    rw [step]
    cases x with
    | lit c =>
      cases s with
      | nil => simp [matchSimple, SimpleMeans]
      | cons d s =>
        simp only [matchSimple, SimpleMeans, Bool.and_eq_true, decide_eq_true_eq]
        constructor
        · rintro ⟨rfl, h⟩; exact ⟨[d], s, rfl, rfl, h⟩
        · rintro ⟨a, b, e, rfl, h⟩
          injection e with e1 e2
          exact ⟨e1, by rw [show s = b from e2]; exact h⟩
    | one set =>
      cases s with
      | nil => simp [matchSimple, SimpleMeans]
      | cons d s =>
        simp only [matchSimple, SimpleMeans, Bool.and_eq_true]
        constructor
        · rintro ⟨h, h'⟩; exact ⟨[d], s, rfl, ⟨d, rfl, h⟩, h'⟩
        · rintro ⟨a, b, e, ⟨c, rfl, h⟩, h'⟩
          injection e with e1 e2
          exact ⟨e1 ▸ h, by rw [show s = b from e2]; exact h'⟩
    | many set => exact matchMany_iff

theorem matchAtoms_iff {as : List Atom} {s : List Nat} : matchAtoms as s = true ↔ SeqMeans AtomMeans as s := by
  induction as generalizing s with
  | nil => rw [matchAtoms, seq_nil_iff, List.isEmpty_iff]
  | cons x as ih =>
    rw [seq_cons_iff]
    cases x with
    | simple a =>
      rw [matchAtoms, matchSimple_iff]
      simp only [seq_one_iff, ih]
      rfl
    | group alts =>
      rw [matchAtoms, List.any_eq_true]
      simp only [matchSimple_iff, ih]
      constructor
      · rintro ⟨alt, ha, a, b, e, h1, h2⟩; exact ⟨a, b, e, ⟨alt, ha, h1⟩, h2⟩
      · rintro ⟨a, b, e, ⟨alt, ha, h1⟩, h2⟩; exact ⟨alt, ha, a, b, e, h1, h2⟩

theorem seq_literals {cs s : List Nat} : SeqMeans SimpleMeans (cs.map .lit) s ↔ s = cs := by
  induction cs generalizing s with
  | nil => exact seq_nil_iff
  | cons c cs ih =>
    rw [List.map_cons, seq_cons_iff]
    simp only [ih]
    constructor
    · rintro ⟨a, b, rfl, rfl, rfl⟩; rfl
    · rintro rfl; exact ⟨[c], cs, rfl, rfl, rfl⟩

/-! ### Characters and their units -/

theorem characters_unique {s : JStr} {cs : List Nat} (h : Characters s cs) : codePoints s = cs := by
  obtain ⟨h1, rfl, h3⟩ := h
  induction cs with
  | nil => rfl
  | cons a cs ih =>
    have ih := ih (fun n hn => h1 n (List.mem_cons_of_mem _ hn)) (fun x y hxy => h3 x y (List.infix_cons hxy))
    have ha := h1 a (by simp)
    rw [List.flatMap_cons]
    unfold utf16
    by_cases hs : a < 0x10000
    · rw [if_pos hs]
      have ea : (UInt16.ofNat a).toNat = a := by simp [UInt16.toNat_ofNat']; omega
      generalize hr : cs.flatMap utf16 = r at ih
      have hr' : List.flatMap (fun n => if n < 0x10000 then [UInt16.ofNat n] else [UInt16.ofNat (0xD800 + (n - 0x10000) / 0x400), UInt16.ofNat (0xDC00 + (n - 0x10000) % 0x400)]) cs = r := hr
      cases r with
      | nil => rw [hr', ← ih]; show [_] = _; rw [ea]; rfl
      | cons d r =>
        rw [hr', List.singleton_append, codePoints, if_neg, ea, ih]
        simp only [isHigh, isLow, Bool.and_eq_true, decide_eq_true_eq, ea]
        rintro ⟨hh, hl⟩
        cases cs with
        | nil => cases hr
        | cons b cs =>
          have hb := h1 b (by simp)
          refine h3 a b ⟨[], cs, rfl⟩ ⟨by omega, ?_⟩
          rw [List.flatMap_cons] at hr
          unfold utf16 at hr
          by_cases hs' : b < 0x10000
          · rw [if_pos hs', List.singleton_append] at hr
            have e := (List.cons.inj hr).1
            have : d.toNat = b := by rw [← e]; simp [UInt16.toNat_ofNat']; omega
            omega
          · rw [if_neg hs', List.cons_append] at hr
            have e := (List.cons.inj hr).1
            have : d.toNat = 0xD800 + (b - 0x10000) / 0x400 := by rw [← e]; simp [UInt16.toNat_ofNat']; omega
            omega
    · rw [if_neg hs]
      have e1 : (UInt16.ofNat (0xD800 + (a - 0x10000) / 0x400)).toNat = 0xD800 + (a - 0x10000) / 0x400 := by simp [UInt16.toNat_ofNat']; omega
      have e2 : (UInt16.ofNat (0xDC00 + (a - 0x10000) % 0x400)).toNat = 0xDC00 + (a - 0x10000) % 0x400 := by simp [UInt16.toNat_ofNat']; omega
      rw [List.cons_append, List.cons_append, codePoints, if_pos, e1, e2]
      · refine congr (congrArg _ ?_) ih
        omega
      · simp only [isHigh, isLow, Bool.and_eq_true, decide_eq_true_eq, e1, e2]
        omega

theorem codePoints_utf16 {cs : List Nat} (h : ∀ c ∈ cs, Scalar c) : codePoints (cs.flatMap utf16) = cs :=
  characters_unique ⟨fun n hn => by have := h n hn; unfold Scalar at this; omega, rfl, fun a b hab => by
    have := h a (hab.subset (by simp)); unfold Scalar at this; omega⟩

/-- The units of a character beyond the basic plane. -/
def hi (n : Nat) : JChar := UInt16.ofNat (0xD800 + (n - 0x10000) / 0x400)
def lo (n : Nat) : JChar := UInt16.ofNat (0xDC00 + (n - 0x10000) % 0x400)

theorem utf16_narrow {n : Nat} (h : n < 0x10000) : utf16 n = [UInt16.ofNat n] := if_pos h
theorem utf16_wide {n : Nat} (h : Wide n) : utf16 n = [hi n, lo n] := if_neg (Nat.not_lt.2 h)

theorem toNat_narrow {n : Nat} (h : n < 0x10000) : (UInt16.ofNat n).toNat = n := UInt16.toNat_ofNat_of_lt' h
theorem toNat_hi {n : Nat} (h : n < 0x110000) : (hi n).toNat = 0xD800 + (n - 0x10000) / 0x400 := UInt16.toNat_ofNat_of_lt' (by show _ < 65536; omega)
theorem toNat_lo (n : Nat) : (lo n).toNat = 0xDC00 + (n - 0x10000) % 0x400 := UInt16.toNat_ofNat_of_lt' (by show _ < 65536; omega)

theorem ofNat_eq {n : Nat} (h : n < 0x10000) {c : JChar} : UInt16.ofNat n = c ↔ n = c.toNat :=
  ⟨fun e => by rw [← e, toNat_narrow h], fun e => by rw [e, UInt16.ofNat_toNat]⟩

theorem hi_ne {n : Nat} (h : n < 0x110000) {c : JChar} (hc : c.toNat < 0xD800) : hi n ≠ c := fun e => by rw [← e, toNat_hi h] at hc; omega
theorem lo_ne {n : Nat} {c : JChar} (hc : c.toNat < 0xD800) : lo n ≠ c := fun e => by rw [← e, toNat_lo] at hc; omega

theorem scalar_lt {n : Nat} (h : Scalar n) : n < 0x110000 := by unfold Scalar at h; omega

/-- The first and the last unit of a character. -/
def firstUnit (n : Nat) : JChar := if n < 0x10000 then UInt16.ofNat n else hi n
def lastUnit (n : Nat) : JChar := if n < 0x10000 then UInt16.ofNat n else lo n

theorem utf16_first {n : Nat} : ∃ l, utf16 n = firstUnit n :: l := by
  by_cases h : n < 0x10000
  · exact ⟨[], by rw [utf16_narrow h, firstUnit, if_pos h]⟩
  · exact ⟨[lo n], by rw [utf16_wide (Nat.not_lt.1 h), firstUnit, if_neg h]⟩

theorem firstUnit_eq {n : Nat} (h : n < 0x110000) {c : JChar} (hc : c.toNat < 0xD800) : firstUnit n = c ↔ n = c.toNat := by
  unfold firstUnit
  split
  · rename_i h'
    exact ofNat_eq h'
  · rename_i h'
    exact ⟨fun e => absurd e (hi_ne h hc), fun e => by omega⟩

theorem head_utf16 {cs after : List Nat} {g : JStr} (h : ∀ c ∈ cs, Scalar c) (hg : g.head? = some AMP ↔ after.head? = some 38) :
    (cs.flatMap utf16 ++ g).head? = some AMP ↔ (cs ++ after).head? = some 38 := by
  cases cs with
  | nil => exact hg
  | cons n cs =>
    obtain ⟨l, hl⟩ := utf16_first (n := n)
    rw [List.flatMap_cons, hl, List.cons_append, List.cons_append, List.cons_append, List.head?_cons, List.head?_cons, Option.some_inj, Option.some_inj]
    exact firstUnit_eq (scalar_lt (h n (by simp))) (by decide)

/-! ### Bracket expressions -/

/-- What `Globs` writes into the class of the regular expression for one character, before `next`. -/
def escaped (c : Nat) (next : List Nat) : List Nat := if c = 92 ∨ c = 91 ∨ (c = 38 ∧ next.head? = some 38) then [92, c] else [c]

/-- The characters of the content of the class. -/
def content : List Item → List Nat → List Nat
  | [], _ => []
  | .char c :: is, after => escaped c (is.flatMap Item.chars ++ after) ++ content is after
  | .range a b :: is, after => escaped a [45] ++ [45, b] ++ content is after
  | .trailing c :: is, after => escaped c [45] ++ [45] ++ content is after

theorem write_items (items : List Item) : items.flatMap Item.write = (items.flatMap Item.chars).flatMap utf16 := by
  rw [List.flatMap_assoc]; rfl

theorem scalar_45 : Scalar 45 := .inl (by decide)
theorem scalar_92 : Scalar 92 := .inl (by decide)
theorem scalar_94 : Scalar 94 := .inl (by decide)

theorem scalar_chars {items : List Item} (h : ∀ i ∈ items, i.Ok) : ∀ c ∈ items.flatMap Item.chars, Scalar c := by
  intro c hc
  obtain ⟨i, hi, hc⟩ := List.mem_flatMap.1 hc
  have := h i hi
  cases i with
  | char a => rw [List.mem_singleton.1 hc]; exact this.2.2.2
  | range a b =>
    obtain ⟨⟨_, _, _, ha⟩, _, _, _, _, _, hb, _⟩ := this
    simp only [Item.chars, List.mem_cons, List.not_mem_nil, or_false] at hc
    rcases hc with rfl | rfl | rfl
    · exact ha
    · exact scalar_45
    · exact hb
  | trailing a =>
    simp only [Item.chars, List.mem_cons, List.not_mem_nil, or_false] at hc
    rcases hc with rfl | rfl
    · exact this.2.2.2
    · exact scalar_45

theorem inside_unit {G : Bool} {acc : JStr} {has : Bool} {last c : JChar} {g : JStr} (h1 : c ≠ RBRACK) (h2 : c ≠ SLASH) (h3 : c ≠ HYPHEN) :
    inside G acc has last (c :: g) = inside G (acc ++ if c = BACKSLASH ∨ c = LBRACK ∨ (c = AMP ∧ g.head? = some AMP) then [BACKSLASH, c] else [c]) true c g := by
  rw [inside.eq_def]
  dsimp only
  rw [if_neg h1, if_neg h2, if_neg h3]
  simp only [decide_eq_true_eq]

theorem inside_char {G : Bool} {acc : JStr} {has : Bool} {last : JChar} {n : Nat} {next : List Nat} {g : JStr} (h : inBracket n) (hn : g.head? = some AMP ↔ next.head? = some 38) :
    inside G acc has last (utf16 n ++ g) = inside G (acc ++ (escaped n next).flatMap utf16) true (lastUnit n) g := by
  obtain ⟨h1, h2, h3, hs⟩ := h
  by_cases hw : n < 0x10000
  · rw [utf16_narrow hw, List.singleton_append,
      inside_unit (fun e => h1 ((ofNat_eq hw).1 e)) (fun e => h2 ((ofNat_eq hw).1 e)) (fun e => h3 ((ofNat_eq hw).1 e)), lastUnit, if_pos hw]
    have e1 : UInt16.ofNat n = BACKSLASH ↔ n = 92 := ofNat_eq hw
    have e2 : UInt16.ofNat n = LBRACK ↔ n = 91 := ofNat_eq hw
    have e3 : UInt16.ofNat n = AMP ↔ n = 38 := ofNat_eq hw
    simp only [e1, e2, e3, hn, escaped]
    split
    · simp only [List.flatMap_cons, List.flatMap_nil, utf16_narrow hw, List.append_nil]
      rfl
    · simp only [List.flatMap_cons, List.flatMap_nil, utf16_narrow hw, List.append_nil]
  · have hl := scalar_lt hs
    rw [utf16_wide (Nat.not_lt.1 hw), List.cons_append, List.singleton_append,
      inside_unit (hi_ne hl (by decide)) (hi_ne hl (by decide)) (hi_ne hl (by decide)),
      inside_unit (lo_ne (by decide)) (lo_ne (by decide)) (lo_ne (by decide)), lastUnit, if_neg hw]
    rw [if_neg (by
      rintro (e | e | ⟨e, _⟩)
      · exact hi_ne hl (by decide) e
      · exact hi_ne hl (by decide) e
      · exact hi_ne hl (by decide) e), if_neg (by
      rintro (e | e | ⟨e, _⟩)
      · exact lo_ne (by decide) e
      · exact lo_ne (by decide) e
      · exact lo_ne (by decide) e)]
    have : escaped n next = [n] := if_neg (by omega)
    rw [this, List.flatMap_cons, utf16_wide (Nat.not_lt.1 hw)]
    simp

/-- A hyphen after `last`, and the end of the range. -/
theorem inside_end {G : Bool} {last : JChar} {b : Nat} (h0 : b ≠ 0) (h1 : b ≠ 93) (hs : Scalar b) (hl : last ≤ firstUnit b) :
    ∃ has' last', (Wide b ∨ has' = false) ∧ ∀ acc g, inside G acc true last (45 :: (utf16 b ++ g)) = inside G (acc ++ [45, b].flatMap utf16) has' last' g := by
  have step : ∀ acc c g, c ≠ 0 → c ≠ RBRACK → last ≤ c → inside G acc true last (45 :: c :: g) = inside G (acc ++ [HYPHEN, c]) false last g := by
    intro acc c g h0 h1 hl
    rw [inside.eq_def]
    dsimp only
    rw [if_neg (by decide), if_neg (by decide), if_pos (by decide), if_pos rfl, if_neg h0, if_neg h1, if_neg (UInt16.not_lt.2 hl)]
  have e45 : utf16 45 = [HYPHEN] := by decide
  unfold firstUnit at hl
  by_cases hw : b < 0x10000
  · rw [if_pos hw] at hl
    refine ⟨false, last, .inr rfl, fun acc g => ?_⟩
    rw [utf16_narrow hw, List.singleton_append, step acc _ g (fun e => h0 ((ofNat_eq hw).1 e)) (fun e => h1 ((ofNat_eq hw).1 e)) hl,
      List.flatMap_cons, List.flatMap_cons, e45, utf16_narrow hw]
    rfl
  · rw [if_neg hw] at hl
    have hb := scalar_lt hs
    refine ⟨true, lo b, .inl (Nat.not_lt.1 hw), fun acc g => ?_⟩
    rw [utf16_wide (Nat.not_lt.1 hw), List.cons_append, step acc _ _ (hi_ne hb (by decide)) (hi_ne hb (by decide)) hl, List.singleton_append,
      inside_unit (lo_ne (by decide)) (lo_ne (by decide)) (lo_ne (by decide)), if_neg (by
      rintro (e | e | ⟨e, _⟩)
      · exact lo_ne (by decide) e
      · exact lo_ne (by decide) e
      · exact lo_ne (by decide) e), List.flatMap_cons, List.flatMap_cons, e45, utf16_wide (Nat.not_lt.1 hw)]
    simp

theorem range_units {a b : Nat} (h : (Item.range a b).Ok) : lastUnit a ≤ firstUnit b := by
  obtain ⟨⟨_, _, _, ha⟩, hab, _, _, _, _, hb, hw, hw'⟩ := h
  unfold Wide at hw hw'
  have h1 : a < 0x10000 := by omega
  rw [UInt16.le_iff_toNat_le, lastUnit, if_pos h1, toNat_narrow h1, firstUnit]
  split
  · rename_i h2
    rw [toNat_narrow h2]; exact hab
  · rename_i h2
    rw [toNat_hi (scalar_lt hb)]
    have := hw' (by omega)
    omega

theorem hyphen_head {g : JStr} : ((45 : JChar) :: g).head? = some AMP ↔ ([45] : List Nat).head? = some 38 :=
  ⟨fun e => absurd (Option.some.inj e) (by decide), fun e => absurd (Option.some.inj e) (by decide)⟩

theorem inside_items {G : Bool} {acc : JStr} {has : Bool} {last : JChar} {items : List Item} (h : ∀ i ∈ items, i.Ok) (hl : OnlyLast items) (g : JStr) :
    inside G acc has last (items.flatMap Item.write ++ RBRACK :: g) = (do return Tok.cls (acc ++ (content items [93]).flatMap utf16) :: (← outside G g)) := by
  induction items generalizing acc has last with
  | nil =>
    rw [List.flatMap_nil, List.nil_append, inside.eq_def, content, List.flatMap_nil, List.append_nil]
    rfl
  | cons i is ih =>
    have hi := h i (by simp)
    have his : ∀ j ∈ is, j.Ok := fun j hj => h j (by simp [hj])
    have ih := fun acc has last => ih (acc := acc) (has := has) (last := last) his hl.2
    rw [List.flatMap_cons, Item.write, List.append_assoc]
    cases i with
    | char c =>
      rw [Item.chars, List.flatMap_cons, List.flatMap_nil, List.append_nil, inside_char (next := is.flatMap Item.chars ++ [93]) hi ?_, ih, content, List.flatMap_append,
        List.append_assoc]
      rw [write_items]
      exact head_utf16 (scalar_chars his) ⟨fun e => absurd (Option.some.inj e) (by decide), fun e => absurd (Option.some.inj e) (by decide)⟩
    | range a b =>
      have hr := range_units hi
      obtain ⟨ha, hab, h4, h5, _, _, hb, _⟩ := hi
      obtain ⟨has', last', _, he⟩ := inside_end (G := G) h4 h5 hb hr
      have e : [a, 45, b].flatMap utf16 ++ (is.flatMap Item.write ++ RBRACK :: g) = utf16 a ++ 45 :: (utf16 b ++ (is.flatMap Item.write ++ RBRACK :: g)) := by
        simp only [List.flatMap_cons, List.flatMap_nil, List.append_nil, List.append_assoc]
        rw [show utf16 45 = [45] by decide]
        rfl
      rw [Item.chars, e, inside_char (next := [45]) ha hyphen_head, he, ih, content, List.flatMap_append, List.flatMap_append]
      simp only [List.append_assoc]
    | trailing c =>
      obtain rfl := hl.1 ⟨c, rfl⟩
      have e : [c, 45].flatMap utf16 ++ (([] : List Item).flatMap Item.write ++ RBRACK :: g) = utf16 c ++ 45 :: RBRACK :: g := by
        simp only [List.flatMap_cons, List.flatMap_nil, List.append_nil, List.append_assoc]
        rw [show utf16 45 = [45] by decide]
        rfl
      rw [Item.chars, e, inside_char (next := [45]) hi hyphen_head, inside.eq_def]
      dsimp only
      rw [if_neg (by decide), if_neg (by decide), if_pos (by decide), if_pos rfl]
      rw [if_neg (by decide), if_pos rfl, content, content, List.append_nil, List.flatMap_append, List.append_assoc]
      rfl

/-- The parts before something else than the end. -/
theorem inside_some {G : Bool} {items : List Item} {after : List Nat} {g : JStr} (h : ∀ i ∈ items, i.Ok) (hl : ∀ c, .trailing c ∉ items)
    (hg : g.head? = some AMP ↔ after.head? = some 38) (acc : JStr) (has : Bool) (last : JChar) :
    ∃ has' last', inside G acc has last (items.flatMap Item.write ++ g) = inside G (acc ++ (content items after).flatMap utf16) has' last' g := by
  induction items generalizing acc has last with
  | nil => exact ⟨has, last, by simp [content]⟩
  | cons i is ih =>
    have hi := h i (by simp)
    have his : ∀ j ∈ is, j.Ok := fun j hj => h j (by simp [hj])
    have ih := fun acc has last => ih his (fun c hc => hl c (by simp [hc])) acc has last
    rw [List.flatMap_cons, Item.write, List.append_assoc]
    cases i with
    | char c =>
      obtain ⟨has', last', e⟩ := ih (acc ++ (escaped c (is.flatMap Item.chars ++ after)).flatMap utf16) true (lastUnit c)
      refine ⟨has', last', ?_⟩
      rw [Item.chars, List.flatMap_cons, List.flatMap_nil, List.append_nil, inside_char (next := is.flatMap Item.chars ++ after) hi ?_, e, content, List.flatMap_append,
        List.append_assoc]
      rw [write_items]
      exact head_utf16 (scalar_chars his) hg
    | range a b =>
      have hr := range_units hi
      obtain ⟨ha, hab, h4, h5, _, _, hb, _⟩ := hi
      obtain ⟨has1, last1, _, he⟩ := inside_end (G := G) h4 h5 hb hr
      have e : [a, 45, b].flatMap utf16 ++ (is.flatMap Item.write ++ g) = utf16 a ++ 45 :: (utf16 b ++ (is.flatMap Item.write ++ g)) := by
        simp only [List.flatMap_cons, List.flatMap_nil, List.append_nil, List.append_assoc]
        rw [show utf16 45 = [45] by decide]
        rfl
      obtain ⟨has', last', e'⟩ := ih (acc ++ (escaped a [45]).flatMap utf16 ++ [45, b].flatMap utf16) has1 last1
      refine ⟨has', last', ?_⟩
      rw [Item.chars, e, inside_char (next := [45]) ha hyphen_head, he, e', content, List.flatMap_append, List.flatMap_append]
      simp only [List.append_assoc]
    | trailing c => exact absurd (by simp) (hl c)

theorem scalar_escaped {c : Nat} {next : List Nat} (h : Scalar c) : ∀ x ∈ escaped c next, Scalar x := by
  intro x hx
  unfold escaped at hx
  split at hx
  · rcases List.mem_cons.1 hx with rfl | hx
    · exact scalar_92
    · rw [List.mem_singleton.1 hx]; exact h
  · rw [List.mem_singleton.1 hx]; exact h

theorem scalar_content {items : List Item} {after : List Nat} (h : ∀ i ∈ items, i.Ok) : ∀ x ∈ content items after, Scalar x := by
  induction items with
  | nil => intro x hx; cases hx
  | cons i is ih =>
    have hi := h i (by simp)
    have ih := ih (fun j hj => h j (by simp [hj]))
    intro x hx
    cases i with
    | char c =>
      rw [content] at hx
      rcases List.mem_append.1 hx with hx | hx
      · exact scalar_escaped hi.2.2.2 x hx
      · exact ih x hx
    | range a b =>
      rw [content] at hx
      rcases List.mem_append.1 hx with hx | hx
      · rcases List.mem_append.1 hx with hx | hx
        · exact scalar_escaped hi.1.2.2.2 x hx
        · rcases List.mem_cons.1 hx with rfl | hx
          · exact scalar_45
          · rw [List.mem_singleton.1 hx]; exact hi.2.2.2.2.2.2.1
      · exact ih x hx
    | trailing c =>
      rw [content] at hx
      rcases List.mem_append.1 hx with hx | hx
      · rcases List.mem_append.1 hx with hx | hx
        · exact scalar_escaped hi.2.2.2 x hx
        · rw [List.mem_singleton.1 hx]; exact scalar_45
      · exact ih x hx

/-- The result is a set with these members. -/
def IsSet (r : ClassResult) (P : Nat → Prop) : Prop := ∃ set, r = .ok set ∧ ∀ x, set x = true ↔ P x

theorem IsSet.orElse {r : ClassResult} {P Q : Nat → Prop} {set : Nat → Bool} (h : IsSet r P) (hs : ∀ x, set x = true ↔ Q x) : IsSet (r.orElse set) (fun x => Q x ∨ P x) := by
  obtain ⟨s, rfl, h⟩ := h
  exact ⟨_, rfl, fun x => by rw [Bool.or_eq_true, hs, h]⟩

/-- Nothing that `Globs` has not escaped starts something else than a member. -/
theorem not_special {c : Nat} {next s : List Nat} (hc : c ≠ 93) (hs : s.head? = some 38 → next.head? = some 38)
    (h : ¬ (c = 92 ∨ c = 91 ∨ (c = 38 ∧ next.head? = some 38))) : special c s = false := by
  have h1 : c ≠ 91 := fun e => h (.inr (.inl e))
  have h3 : ¬ (c = 38 ∧ s.head? = some 38) := fun ⟨e, e'⟩ => h (.inr (.inr ⟨e, hs e'⟩))
  simp only [special, Bool.or_eq_false_iff, Bool.and_eq_false_iff, decide_eq_false_iff_not]
  exact ⟨⟨h1, hc⟩, not_and_or.1 h3⟩

theorem not_alphanumeric {c : Nat} {next : List Nat} (h : c = 92 ∨ c = 91 ∨ (c = 38 ∧ next.head? = some 38)) : alphanumeric c = false := by
  rcases h with rfl | rfl | ⟨rfl, _⟩ <;> rfl

theorem members_escaped {c : Nat} {next s : List Nat} (hc : c ≠ 93) (hs : s.head? = some 38 → next.head? = some 38) :
    members (escaped c next ++ s) = memberFrom c s := by
  unfold escaped
  split
  · rename_i h
    show members (92 :: c :: s) = _
    rw [members.eq_def]
    dsimp only
    rw [if_pos rfl, not_alphanumeric h, if_neg (by decide)]
  · rename_i h
    show members (c :: s) = _
    rw [members.eq_def]
    dsimp only
    rw [if_neg (fun e => h (.inl e)), not_special hc hs h, if_neg (by decide)]

theorem memberFrom_escaped {c : Nat} {next : List Nat} {d : Nat} {s : List Nat} (hc : c ≠ 45) (hr : c ≠ 93) (hs : s.head? = some 38 → next.head? = some 38) :
    memberFrom d (escaped c next ++ s) = (memberFrom c s).orElse (fun x => x = d) := by
  unfold escaped
  split
  · rename_i h
    show memberFrom d (92 :: c :: s) = _
    rw [memberFrom.eq_def]
    dsimp only
    rw [if_neg (by decide), if_pos rfl, not_alphanumeric h, if_neg (by decide)]
  · rename_i h
    show memberFrom d (c :: s) = _
    rw [memberFrom.eq_def]
    dsimp only
    rw [if_neg hc, if_neg (fun e => h (.inl e)), not_special hr hs h, if_neg (by decide)]

/-- The content starts with an ampersand only if the items do. -/
theorem content_amp {items : List Item} {after : List Nat} (h : (content items after).head? = some 38) : (items.flatMap Item.chars ++ after).head? = some 38 := by
  have key : ∀ (c : Nat) (next r x : List Nat), ((escaped c next ++ r).head? = some 38) → (c :: x).head? = some 38 := by
    intro c next r x hh
    unfold escaped at hh
    split at hh
    · exact absurd (Option.some.inj hh) (by decide)
    · exact hh
  cases items with
  | nil => cases h
  | cons i is =>
    cases i with
    | char c => exact key c _ _ _ h
    | range a b => rw [content, List.append_assoc] at h; exact key a _ _ _ h
    | trailing c => rw [content, List.append_assoc] at h; exact key c _ _ _ h

/-- The characters of the items. -/
def HasAny (items : List Item) (x : Nat) : Prop := ∃ i ∈ items, i.Has x

theorem hasAny_cons {i : Item} {is : List Item} {x : Nat} : HasAny (i :: is) x ↔ i.Has x ∨ HasAny is x := by
  simp [HasAny]

theorem memberFrom_hyphen {a b : Nat} {s : List Nat} (h1 : b ≠ 92) (h2 : b ≠ 91) :
    memberFrom a (45 :: b :: s) = if b < a then .bad else (members s).orElse (fun x => a ≤ x && x ≤ b) := by
  rw [memberFrom.eq_def]
  dsimp only
  rw [if_pos rfl, if_neg h1, if_neg h2]

theorem memberFrom_range {a b : Nat} {P : Nat → Prop} {s : List Nat} (hab : a ≤ b) (h1 : b ≠ 92) (h2 : b ≠ 91) (hs : IsSet (members s) P) :
    IsSet (memberFrom a (45 :: b :: s)) (fun x => (Item.range a b).Has x ∨ P x) := by
  rw [memberFrom_hyphen h1 h2, if_neg (Nat.not_lt.2 hab)]
  exact hs.orElse (fun x => by simp [Item.Has])

theorem memberFrom_trailing (c : Nat) : IsSet (memberFrom c [45]) ((Item.trailing c).Has) := by
  refine ⟨_, rfl, fun x => ?_⟩
  simp [Item.Has]

theorem members_content {items : List Item} {after : List Nat} (h : ∀ i ∈ items, i.Ok) (hl : OnlyLast items) :
    IsSet (members (content items after)) (HasAny items) ∧
    ∀ d, IsSet (memberFrom d (content items after)) (fun x => x = d ∨ HasAny items x) := by
  induction items with
  | nil =>
    refine ⟨⟨_, rfl, fun x => by simp [HasAny]⟩, fun d => ⟨_, rfl, fun x => by simp [HasAny]⟩⟩
  | cons i is ih =>
    have hi := h i (by simp)
    have ih := ih (fun j hj => h j (by simp [hj])) hl.2
    cases i with
    | char c =>
      have hm := ih.2 c
      rw [content]
      constructor
      · rw [members_escaped hi.1 content_amp]
        obtain ⟨set, h1, h2⟩ := hm
        exact ⟨set, h1, fun x => by rw [h2, hasAny_cons]; rfl⟩
      · intro d
        rw [memberFrom_escaped hi.2.2.1 hi.1 content_amp]
        obtain ⟨set, h1, h2⟩ := hm.orElse (set := fun x => x = d) (Q := fun x => x = d) (fun x => by simp)
        exact ⟨set, h1, fun x => by rw [h2]; simp only [hasAny_cons]; rfl⟩
    | range a b =>
      obtain ⟨⟨hr, _, h3, _⟩, hab, _, _, h4, h5, _⟩ := hi
      have hm := memberFrom_range hab h4 h5 ih.1
      rw [content, List.append_assoc]
      constructor
      · rw [members_escaped hr ?_]
        rotate_left
        · exact fun e => absurd (Option.some.inj e) (by decide)
        obtain ⟨set, h1, h2⟩ := hm
        exact ⟨set, h1, fun x => by rw [h2, hasAny_cons]⟩
      · intro d
        rw [memberFrom_escaped h3 hr ?_]
        rotate_left
        · exact fun e => absurd (Option.some.inj e) (by decide)
        obtain ⟨set, h1, h2⟩ := hm.orElse (set := fun x => x = d) (Q := fun x => x = d) (fun x => by simp)
        exact ⟨set, h1, fun x => by rw [h2]; simp only [hasAny_cons]⟩
    | trailing c =>
      obtain rfl := hl.1 ⟨c, rfl⟩
      have hm := memberFrom_trailing c
      rw [content, List.append_assoc]
      constructor
      · rw [members_escaped hi.1 ?_]
        rotate_left
        · exact fun e => absurd (Option.some.inj e) (by decide)
        obtain ⟨set, h1, h2⟩ := hm
        exact ⟨set, h1, fun x => by rw [h2, hasAny_cons]; simp [HasAny]⟩
      · intro d
        rw [memberFrom_escaped hi.2.2.1 hi.1 ?_]
        rotate_left
        · exact fun e => absurd (Option.some.inj e) (by decide)
        obtain ⟨set, h1, h2⟩ := hm.orElse (set := fun x => x = d) (Q := fun x => x = d) (fun x => by simp)
        exact ⟨set, h1, fun x => by rw [h2]; simp [HasAny]⟩

/-! ### Tokens of parts -/

/-- The content if neither `!` nor `-` comes first. -/
def firstClass : List Item → List Nat
  | .char c :: is => if c = 94 then 92 :: 94 :: content is [93] else content (.char c :: is) [93]
  | is => content is [93]

/-- The characters of the content of the class of a bracket expression. -/
def classOf (neg hyphen : Bool) (items : List Item) : List Nat :=
  if neg then 94 :: (if hyphen then [45] else []) ++ content items [93]
  else if hyphen then 45 :: content items [93]
  else firstClass items

def toks : Part → List Tok
  | .text cs => cs.map (fun x => .lit x.1)
  | .star => [.star]
  | .starStar => [.dotStar]
  | .question => [.one]
  | .bracket neg hyphen items => [.cls ((classOf neg hyphen items).flatMap utf16)]

theorem outside_lbrack {G : Bool} {c : JChar} {g : JStr} : outside G (91 :: c :: g) =
    if c = CARET then inside G [BACKSLASH, CARET] false 0 g
    else if c = 33 then
      match g with
      | [] => syntaxError
      | d :: g' => if d = HYPHEN then inside G [CARET, HYPHEN] false 0 g' else inside G [CARET] false 0 (d :: g')
    else if c = HYPHEN then inside G [HYPHEN] false 0 g
    else inside G [] false 0 (c :: g) := by
  rw [outside.eq_def]; rfl

theorem first_not_hyphen {i : Item} {is : List Item} (h : i.Ok) : ∃ n l, (i :: is).flatMap Item.write = firstUnit n :: l ∧ n ≠ 45 ∧ Scalar n ∧ ∃ r, i.chars = n :: r := by
  have key : ∀ n r, i.chars = n :: r → n ≠ 45 → Scalar n → ∃ n l, (i :: is).flatMap Item.write = firstUnit n :: l ∧ n ≠ 45 ∧ Scalar n ∧ ∃ r, i.chars = n :: r := by
    intro n r e h1 h2
    obtain ⟨l, hl⟩ := utf16_first (n := n)
    exact ⟨n, l ++ (r.flatMap utf16 ++ is.flatMap Item.write), by rw [List.flatMap_cons, Item.write, e, List.flatMap_cons, hl]; simp, h1, h2, r, e⟩
  cases i with
  | char c => exact key c [] rfl h.2.2.1 h.2.2.2
  | range a b => exact key a [45, b] rfl h.1.2.2.1 h.1.2.2.2
  | trailing c => exact key c [45] rfl h.2.2.1 h.2.2.2

theorem outside_bracket {G neg hyphen : Bool} {items : List Item} (h : (Part.bracket neg hyphen items).Ok G) (g : JStr) :
    outside G ((Part.bracket neg hyphen items).write ++ g) = (do return toks (.bracket neg hyphen items) ++ (← outside G g)) := by
  obtain ⟨hi, hne, hf, hl⟩ := h
  have key := fun acc => inside_items (G := G) (acc := acc) (has := false) (last := 0) hi hl g
  have e : (items.flatMap Item.write ++ j!"]") ++ g = items.flatMap Item.write ++ RBRACK :: g := by simp [RBRACK]
  have e94 : utf16 94 = [CARET] := by decide
  have e92 : utf16 92 = [BACKSLASH] := by decide
  have e45 : utf16 45 = [HYPHEN] := by decide
  rw [toks, classOf]
  unfold Part.write
  cases neg with
  | true =>
    cases hyphen with
    | true =>
      show outside G (91 :: 33 :: 45 :: ((items.flatMap Item.write ++ j!"]") ++ g)) = _
      rw [e, outside_lbrack, if_neg (by decide), if_pos rfl]
      dsimp only
      rw [if_pos (by decide), key]
      simp only [if_true, List.cons_append, List.nil_append, List.flatMap_cons, e94, e45]
    | false =>
      show outside G (91 :: 33 :: ((items.flatMap Item.write ++ j!"]") ++ g)) = _
      rw [e, outside_lbrack, if_neg (by decide), if_pos rfl]
      cases items with
      | nil => simp at hne
      | cons i is =>
        obtain ⟨n, l, hx, hh, hs, _⟩ := first_not_hyphen (is := is) (hi i (by simp))
        have key := key [CARET]
        rw [hx, List.cons_append] at key ⊢
        dsimp only
        rw [if_neg (fun e => hh ((firstUnit_eq (c := HYPHEN) (scalar_lt hs) (by decide)).1 e)), key]
        simp only [if_true, Bool.false_eq_true, if_false, List.cons_append, List.nil_append, List.flatMap_cons, e94]
  | false =>
    cases hyphen with
    | true =>
      show outside G (91 :: 45 :: ((items.flatMap Item.write ++ j!"]") ++ g)) = _
      rw [e, outside_lbrack, if_neg (by decide), if_neg (by decide), if_pos (by decide), key, if_neg (by decide), if_pos rfl]
      simp only [List.cons_append, List.nil_append, List.flatMap_cons, e45]
    | false =>
      have hf := hf rfl rfl
      show outside G (91 :: ((items.flatMap Item.write ++ j!"]") ++ g)) = _
      rw [e, if_neg (by decide), if_neg (by decide)]
      cases items with
      | nil => exact hf.elim
      | cons i is =>
        by_cases hc : i = .char 94
        · subst hc
          have his := inside_items (G := G) (acc := [BACKSLASH, CARET]) (has := false) (last := 0) (fun j hj => hi j (List.mem_cons_of_mem _ hj)) hl.2 g
          rw [List.flatMap_cons, show Item.write (.char 94) = [CARET] by decide, List.append_assoc, List.singleton_append, outside_lbrack, if_pos rfl, his]
          simp only [firstClass, List.cons_append, List.nil_append, List.flatMap_cons, e94, e92, if_pos]
        · obtain ⟨n, l, hx, hh, hs, r, hr⟩ := first_not_hyphen (is := is) (hi i (by simp))
          have hlt := scalar_lt hs
          have n94 : n ≠ 94 ∧ n ≠ 33 := by
            cases i with
            | char c =>
              obtain rfl : c = n := (List.cons.inj hr).1
              exact ⟨fun e => hc (by rw [e]), hf⟩
            | range a b =>
              obtain rfl : a = n := (List.cons.inj hr).1
              exact ⟨hf.2, hf.1⟩
            | trailing c =>
              obtain rfl : c = n := (List.cons.inj hr).1
              exact ⟨hf.2, hf.1⟩
          have key := key []
          have e0 : firstClass (i :: is) = content (i :: is) [93] := by
            unfold firstClass
            split
            · rename_i c' is' heq
              obtain ⟨rfl, rfl⟩ := List.cons.inj heq
              rw [if_neg (fun e => hc (by rw [e]))]
            · rfl
          rw [hx, List.cons_append] at key ⊢
          rw [outside_lbrack, if_neg (fun e => n94.1 ((firstUnit_eq (c := CARET) hlt (by decide)).1 e)), if_neg (fun e => n94.2 ((firstUnit_eq (c := 33) hlt (by decide)).1 e)),
            if_neg (fun e => hh ((firstUnit_eq (c := HYPHEN) hlt (by decide)).1 e)), key, e0]
          rfl

theorem outside_backslash {G : Bool} {c : JChar} {g : JStr} : outside G (92 :: c :: g) = (do return .lit c :: (← outside G g)) := by
  rw [outside.eq_def]; rfl

theorem outside_plain {G : Bool} {c : JChar} {g : JStr} (h : plain G c) : outside G (c :: g) = (do return .lit c :: (← outside G g)) := by
  obtain ⟨h1, h2⟩ := h
  have n1 : c ≠ BACKSLASH := fun e => h1 (by rw [e]; decide)
  have n2 : c ≠ LBRACK := fun e => h1 (by rw [e]; decide)
  have n3 : c ≠ 123 := fun e => h1 (by rw [e]; decide)
  have n4 : c ≠ 42 := fun e => h1 (by rw [e]; decide)
  have n5 : c ≠ 63 := fun e => h1 (by rw [e]; decide)
  rw [outside.eq_def]
  dsimp only
  rw [if_neg n1, if_neg n2, if_neg n3]
  cases G with
  | true =>
    have n6 : c ≠ 125 := fun e => h2 rfl (by rw [e]; decide)
    have n7 : c ≠ 44 := fun e => h2 rfl (by rw [e]; decide)
    rw [if_neg n6, if_neg n7, if_neg n4, if_neg n5]
  | false =>
    simp only [if_neg n4, if_neg n5, Bool.false_eq_true, if_false, ite_self]

theorem outside_text {G : Bool} {cs : List (JChar × Bool)} (h : ∀ x ∈ cs, x.2 = false → plain G x.1) (g : JStr) :
    outside G ((Part.text cs).write ++ g) = (do return toks (.text cs) ++ (← outside G g)) := by
  unfold Part.write toks
  dsimp only
  induction cs with
  | nil => simp
  | cons x cs ih =>
    have ih := ih (fun y hy => h y (by simp [hy]))
    obtain ⟨c, b⟩ := x
    rw [List.flatMap_cons, List.append_assoc, List.map_cons]
    cases b with
    | true =>
      show outside G (92 :: c :: (cs.flatMap _ ++ g)) = _
      rw [outside_backslash, ih]
      simp
    | false =>
      show outside G (c :: (cs.flatMap _ ++ g)) = _
      rw [outside_plain (h (c, false) (by simp) rfl), ih]
      simp

theorem outside_part {G : Bool} {p : Part} (h : p.Ok G) {g : JStr} (hg : p = .star → g.head? ≠ some 42) :
    outside G (p.write ++ g) = (do return toks p ++ (← outside G g)) := by
  cases p with
  | text cs => exact outside_text h.2 g
  | bracket neg hyphen items => exact outside_bracket h g
  | question =>
    show outside G (63 :: g) = _
    rw [outside.eq_def]; rfl
  | starStar =>
    show outside G (42 :: 42 :: g) = _
    rw [outside.eq_def]; rfl
  | star =>
    show outside G (42 :: g) = _
    cases g with
    | nil => rw [outside.eq_def]; rfl
    | cons d g =>
      have : d ≠ 42 := fun e => hg rfl (by rw [e]; rfl)
      have e : outside G (42 :: d :: g) = if d = 42 then (do return .dotStar :: (← outside G g)) else (do return .star :: (← outside G (d :: g))) := by
        rw [outside.eq_def]; rfl
      rw [e, if_neg this]
      rfl

theorem write_head {G : Bool} {p : Part} (h : p.Ok G) (h1 : p ≠ .star) (h2 : p ≠ .starStar) (g : JStr) : (p.write ++ g).head? ≠ some 42 := by
  cases p with
  | star => exact absurd rfl h1
  | starStar => exact absurd rfl h2
  | question =>
    intro e
    have : (63 : JChar) = 42 := Option.some.inj e
    exact absurd this (by decide)
  | bracket neg hyphen items =>
    intro e
    have : (91 : JChar) = 42 := Option.some.inj e
    exact absurd this (by decide)
  | text cs =>
    cases cs with
    | nil => exact absurd rfl h.1
    | cons x cs =>
      obtain ⟨c, b⟩ := x
      cases b with
      | true =>
        intro e
        have : (92 : JChar) = 42 := Option.some.inj e
        exact absurd this (by decide)
      | false =>
        intro e
        have : c = 42 := Option.some.inj e
        exact (h.2 (c, false) (by simp) rfl).1 (by rw [this]; decide)

theorem outside_parts {G : Bool} {ps : List Part} (h : PartsOk G ps) {g : JStr} (hg : g.head? ≠ some 42) :
    outside G (ps.flatMap Part.write ++ g) = (do return ps.flatMap toks ++ (← outside G g)) := by
  induction ps with
  | nil => simp
  | cons p ps ih =>
    rw [List.flatMap_cons, List.append_assoc]
    cases ps with
    | nil =>
      rw [outside_part h (by simpa using fun _ => hg)]
      simp
    | cons q ps =>
      obtain ⟨h1, h2, h3⟩ := h
      have hq : q.Ok G := by cases ps with | nil => exact h3 | cons => exact h3.1
      rw [outside_part h1, ih h3]
      · simp
      · rintro rfl
        rw [List.flatMap_cons, List.append_assoc]
        exact write_head hq (by rintro rfl; exact h2) (by rintro rfl; exact h2) _

/-- The tokens of alternatives. -/
def altToks : List (List Part) → List Tok
  | [] => []
  | [a] => a.flatMap toks
  | a :: as => a.flatMap toks ++ .groupAlt :: altToks as

def pieceToks : Piece → List Tok
  | .part p => toks p
  | .group alts => .groupOpen :: altToks alts ++ [.groupClose]

theorem outside_alts_before {alts : List (List Part)} (h : ∀ a ∈ alts, PartsOk true a) {g : JStr} (hg : g.head? ≠ some 42) :
    outside true (writeAlts alts ++ g) = (do return altToks alts ++ (← outside true g)) := by
  induction alts with
  | nil => simp [writeAlts, altToks]
  | cons a as ih =>
    have ih := ih (fun b hb => h b (by simp [hb]))
    cases as with
    | nil => rw [writeAlts, outside_parts (h a (by simp)) hg, altToks]
    | cons b bs =>
      have comma : ∀ g, outside true (44 :: g) = (do return .groupAlt :: (← outside true g)) := fun g => by
        rw [outside.eq_def]; rfl
      have e : writeAlts (a :: b :: bs) ++ g = a.flatMap Part.write ++ 44 :: (writeAlts (b :: bs) ++ g) := by
        rw [writeAlts]
        · simp
        · simp
      have e' : altToks (a :: b :: bs) = a.flatMap toks ++ .groupAlt :: altToks (b :: bs) := by
        rw [altToks]
        simp
      rw [e, outside_parts (h a (by simp)) (by simp), comma, ih, e']
      simp

theorem outside_alts {alts : List (List Part)} (h : ∀ a ∈ alts, PartsOk true a) (g : JStr) :
    outside true (writeAlts alts ++ 125 :: g) = (do return altToks alts ++ .groupClose :: (← outside false g)) := by
  have close : outside true (125 :: g) = (do return .groupClose :: (← outside false g)) := by
    rw [outside.eq_def]; rfl
  rw [outside_alts_before h (by simp), close]
  simp

theorem outside_open (g : JStr) : outside false (123 :: g) = (do return .groupOpen :: (← outside true g)) := by
  rw [outside.eq_def]; rfl

theorem outside_before {ps : List Piece} (h : GlobOk ps) {g : JStr} (hg : g.head? ≠ some 42) :
    outside false (writeGlob ps ++ g) = (do return ps.flatMap pieceToks ++ (← outside false g)) := by
  unfold writeGlob
  induction ps with
  | nil => simp
  | cons p ps ih =>
    have hp : p.Ok := by cases ps with | nil => exact h | cons => exact h.1
    have hps : GlobOk ps := by cases ps with | nil => trivial | cons => exact h.2.2
    have ih := ih hps
    rw [List.flatMap_cons, List.append_assoc]
    cases p with
    | part p =>
      rw [Piece.write, outside_part hp, ih]
      · simp [pieceToks]
      · rintro rfl
        cases ps with
        | nil => exact hg
        | cons q ps =>
          have hq : q.Ok := by cases ps with | nil => exact hps | cons => exact hps.1
          cases q with
          | part q =>
            rw [List.flatMap_cons, List.append_assoc]
            exact write_head hq (by rintro rfl; exact h.2.1) (by rintro rfl; exact h.2.1) _
          | group alts =>
            intro e
            have : (123 : JChar) = 42 := Option.some.inj e
            exact absurd this (by decide)
    | group alts =>
      have e : (Piece.group alts).write ++ (ps.flatMap Piece.write ++ g) = 123 :: (writeAlts alts ++ 125 :: (ps.flatMap Piece.write ++ g)) := by
        simp [Piece.write]
      rw [e, outside_open, outside_alts hp.2, ih]
      simp [pieceToks]

theorem outside_glob {ps : List Piece} (h : GlobOk ps) : outside false (writeGlob ps) = pure (ps.flatMap pieceToks) := by
  have := outside_before h (g := []) (by simp)
  rw [List.append_nil] at this
  rw [this, outside.eq_def]
  simp

/-! ### The regular expression -/

/-- The parts of the regular expression. -/
def simples : Part → List Simple
  | .text cs => literals (cs.map Prod.fst)
  | p => (toks p).flatMap Tok.simple

def IsLit : Tok → Prop
  | .lit _ => True
  | _ => False

/-- No character comes next. -/
def NoLit (ts : List Tok) : Prop := ∀ t ∈ ts.head?, ¬ IsLit t

theorem parse_lits {cs : JStr} {pend : JStr} {ts : List Tok} : parse pend (cs.map Tok.lit ++ ts) = parse (pend ++ cs) ts := by
  induction cs generalizing pend with
  | nil => simp
  | cons c cs ih =>
    rw [List.map_cons, List.cons_append, parse, ih]
    simp

theorem parse_flush {pend : JStr} {ts : List Tok} (h : NoLit ts) : parse pend ts = (literals pend).map .simple ++ parse [] ts := by
  cases ts with
  | nil => simp [parse, literals, codePoints]
  | cons t ts =>
    cases t with
    | lit c => exact absurd trivial (h (.lit c) (by simp))
    | _ => simp [parse, literals, codePoints]

theorem parseGroup_lits {alts cur} {cs : JStr} {pend : JStr} {ts : List Tok} :
    parseGroup alts cur pend (cs.map Tok.lit ++ ts) = parseGroup alts cur (pend ++ cs) ts := by
  induction cs generalizing pend with
  | nil => simp
  | cons c cs ih =>
    rw [List.map_cons, List.cons_append, parseGroup, ih]
    simp

theorem parseGroup_flush {alts cur} {pend : JStr} {ts : List Tok} (h : NoLit ts) : parseGroup alts cur pend ts = parseGroup alts (cur ++ literals pend) [] ts := by
  cases ts with
  | nil => simp [parseGroup]
  | cons t ts =>
    cases t with
    | lit c => exact absurd trivial (h (.lit c) (by simp))
    | _ => simp [parseGroup, literals, codePoints]

def IsText : Part → Prop
  | .text _ => True
  | _ => False

theorem parse_part {p : Part} {ts : List Tok} (h : IsText p → NoLit ts) : parse [] (toks p ++ ts) = (simples p).map .simple ++ parse [] ts := by
  cases p with
  | text cs =>
    have : toks (.text cs) = (cs.map Prod.fst).map Tok.lit := by simp [toks]
    rw [this, parse_lits, List.nil_append, parse_flush (h trivial)]
    rfl
  | _ => simp [toks, simples, parse, literals, codePoints, Tok.simple]

theorem parseGroup_part {alts cur} {p : Part} {ts : List Tok} (h : IsText p → NoLit ts) : parseGroup alts cur [] (toks p ++ ts) = parseGroup alts (cur ++ simples p) [] ts := by
  cases p with
  | text cs =>
    have : toks (.text cs) = (cs.map Prod.fst).map Tok.lit := by simp [toks]
    rw [this, parseGroup_lits, List.nil_append, parseGroup_flush (h trivial)]
    rfl
  | _ => simp [toks, simples, parseGroup, literals, codePoints, Tok.simple]

theorem noLit_toks {p : Part} (h : ¬ IsText p) (ts : List Tok) : NoLit (toks p ++ ts) := by
  cases p with
  | text cs => exact absurd trivial h
  | _ => intro t ht; cases ht; exact id

theorem parseGroup_parts {G : Bool} {alts cur} {ps : List Part} (h : PartsOk G ps) {ts : List Tok} (hts : NoLit ts) :
    parseGroup alts cur [] (ps.flatMap toks ++ ts) = parseGroup alts (cur ++ ps.flatMap simples) [] ts := by
  induction ps generalizing cur with
  | nil => simp
  | cons p ps ih =>
    rw [List.flatMap_cons, List.append_assoc]
    cases ps with
    | nil =>
      rw [parseGroup_part (by simpa using fun _ => hts)]
      simp
    | cons q ps =>
      obtain ⟨h1, h2, h3⟩ := h
      rw [parseGroup_part, ih h3]
      · simp
      · intro hp
        rw [List.flatMap_cons, List.append_assoc]
        refine noLit_toks ?_ _
        intro hq
        cases p <;> cases q <;> first | exact hp | exact hq | exact h2

theorem parseGroup_alts {G : Bool} {A} {alts : List (List Part)} (hne : alts ≠ []) (h : ∀ a ∈ alts, PartsOk G a) {ts : List Tok} :
    parseGroup A [] [] (altToks alts ++ .groupClose :: ts) = .group (A ++ alts.map (fun a => a.flatMap simples)) :: parse [] ts := by
  induction alts generalizing A with
  | nil => exact absurd rfl hne
  | cons a as ih =>
    cases as with
    | nil =>
      rw [altToks, parseGroup_parts (h a (by simp)) (by intro t ht; cases ht; exact id), parseGroup]
      simp [literals, codePoints]
    | cons b bs =>
      have ih := fun A => ih (A := A) (by simp) (fun b hb => h b (by simp [hb]))
      have e : altToks (a :: b :: bs) ++ .groupClose :: ts = a.flatMap toks ++ .groupAlt :: (altToks (b :: bs) ++ .groupClose :: ts) := by
        rw [altToks]
        · simp
        · simp
      rw [e, parseGroup_parts (h a (by simp)) (by intro t ht; cases ht; exact id), parseGroup, ih]
      simp [literals, codePoints]

def atoms : Piece → List Atom
  | .part p => (simples p).map .simple
  | .group alts => [.group (alts.map (fun a => a.flatMap simples))]

theorem parse_glob {ps : List Piece} (h : GlobOk ps) : parse [] (ps.flatMap pieceToks) = ps.flatMap atoms := by
  induction ps with
  | nil => simp [parse, literals, codePoints]
  | cons p ps ih =>
    have hp : p.Ok := by cases ps with | nil => exact h | cons => exact h.1
    have hps : GlobOk ps := by cases ps with | nil => trivial | cons => exact h.2.2
    have ih := ih hps
    rw [List.flatMap_cons, List.flatMap_cons]
    cases p with
    | part p =>
      rw [pieceToks, parse_part, ih, atoms]
      intro ht
      cases ps with
      | nil => intro t h; cases h
      | cons q ps =>
        rw [List.flatMap_cons]
        cases q with
        | part q =>
          refine noLit_toks ?_ _
          intro hq
          have h2 := h.2.1
          cases p <;> cases q <;> first | exact ht | exact hq | exact h2
        | group alts => intro t h; cases h; exact id
    | group alts =>
      have e : pieceToks (.group alts) ++ ps.flatMap pieceToks = .groupOpen :: (altToks alts ++ .groupClose :: ps.flatMap pieceToks) := by simp [pieceToks]
      rw [e, parse, parseGroup_alts hp.1 hp.2, ih]
      simp [literals, codePoints, atoms]

/-! ### Meaning -/

theorem clazz_neg {cs : List Nat} (h : ∀ c ∈ cs, Scalar c) (hne : cs ≠ []) {set : Nat → Bool} (hs : members cs = .ok set) :
    clazz ((94 :: cs).flatMap utf16) = .ok (fun x => !set x) := by
  unfold clazz
  rw [codePoints_utf16 (fun c hc => by
    rcases List.mem_cons.1 hc with rfl | hc
    · exact scalar_94
    · exact h c hc)]
  dsimp only
  rw [if_pos rfl, if_neg hne, hs]

theorem content_ne_nil {items : List Item} {after : List Nat} (h : items ≠ []) : content items after ≠ [] := by
  cases items with
  | nil => exact absurd rfl h
  | cons i is =>
    cases i with
    | char c => rw [content]; unfold escaped; split <;> simp
    | range a b => rw [content]; simp
    | trailing c => rw [content]; simp

/-- The members after an optional hyphen. -/
theorem members_hyphen {hyphen : Bool} {items : List Item} (h : ∀ i ∈ items, i.Ok) (hl : OnlyLast items) :
    IsSet (members ((if hyphen then [45] else []) ++ content items [93])) (fun x => (hyphen = true ∧ x = 45) ∨ ∃ i ∈ items, i.Has x) := by
  cases hyphen with
  | true =>
    obtain ⟨set, h1, h2⟩ := (members_content (after := [93]) h hl).2 45
    refine ⟨set, ?_, fun x => by rw [h2]; simp [HasAny]⟩
    rw [← h1]
    show members (45 :: content items [93]) = _
    rw [members.eq_def]
    rfl
  | false =>
    obtain ⟨set, h1, h2⟩ := (members_content (after := [93]) h hl).1
    exact ⟨set, h1, fun x => by rw [h2]; simp [HasAny]⟩

theorem escaped_head {c : Nat} {next r : List Nat} (h : c ≠ 94) : (escaped c next ++ r).head? ≠ some 94 := by
  unfold escaped
  split
  · intro e
    exact absurd (Option.some.inj e) (by decide)
  · intro e; exact h (Option.some.inj e)

theorem content_head {items : List Item} {after : List Nat} (h : FirstOk items) (hc : ∀ is, items ≠ .char 94 :: is) : (content items after).head? ≠ some 94 := by
  cases items with
  | nil => exact h.elim
  | cons i is =>
    cases i with
    | char c =>
      rw [content]
      exact escaped_head (fun e => hc is (by rw [e]))
    | range a b =>
      rw [content, List.append_assoc]
      exact escaped_head h.2
    | trailing c =>
      rw [content, List.append_assoc]
      exact escaped_head h.2

theorem clazz_members {cs : List Nat} (h : ∀ c ∈ cs, Scalar c) (hne : cs ≠ []) (hh : cs.head? ≠ some 94) : clazz (cs.flatMap utf16) = members cs := by
  unfold clazz
  rw [codePoints_utf16 h]
  cases cs with
  | nil => exact absurd rfl hne
  | cons c s => exact if_neg (fun e => hh (by rw [e]; rfl))

theorem clazz_bracket {G neg hyphen : Bool} {items : List Item} (h : (Part.bracket neg hyphen items).Ok G) :
    IsSet (clazz ((classOf neg hyphen items).flatMap utf16)) (fun x => neg = false ↔ (hyphen = true ∧ x = 45) ∨ ∃ i ∈ items, i.Has x) := by
  obtain ⟨hi, hne, hf, hl⟩ := h
  have wc := scalar_content (after := [93]) hi
  have wh : ∀ x ∈ (if hyphen then [45] else []) ++ content items [93], Scalar x := by
    intro x hx
    rcases List.mem_append.1 hx with hx | hx
    · cases hyphen with
      | true => rw [List.mem_singleton.1 hx]; exact scalar_45
      | false => cases hx
    · exact wc x hx
  have nn : (if hyphen then [45] else []) ++ content items [93] ≠ [] := by
    rcases hne with rfl | hne
    · simp
    · intro e
      exact content_ne_nil hne (List.append_eq_nil_iff.1 e).2
  obtain ⟨set, h1, h2⟩ := members_hyphen (hyphen := hyphen) hi hl
  unfold classOf
  cases neg with
  | true =>
    rw [if_pos rfl]
    refine ⟨fun x => !set x, clazz_neg wh nn h1, fun x => ?_⟩
    · rw [Bool.not_eq_true', ← Bool.not_eq_true, h2]
      simp
  | false =>
    rw [if_neg (by decide)]
    cases hyphen with
    | true =>
      rw [if_pos rfl]
      have := clazz_members wh (by simp) (fun e => absurd (Option.some.inj e) (by decide))
      exact ⟨set, this.trans h1, fun x => by rw [h2]; simp⟩
    | false =>
      rw [if_neg (by decide)]
      have hf := hf rfl rfl
      by_cases hc : ∃ is, items = .char 94 :: is
      · obtain ⟨is, rfl⟩ := hc
        unfold firstClass
        dsimp only
        rw [if_pos rfl]
        have his := fun j hj => hi j (List.mem_cons_of_mem _ hj)
        rw [clazz_members (cs := 92 :: 94 :: content is [93]) (by
          intro c hc
          rcases List.mem_cons.1 hc with rfl | hc
          · exact scalar_92
          · rcases List.mem_cons.1 hc with rfl | hc
            · exact scalar_94
            · exact scalar_content his c hc) (by simp) (fun e => absurd (Option.some.inj e) (by decide))]
        obtain ⟨set, h1, h2⟩ := (members_content (after := [93]) his hl.2).2 94
        refine ⟨set, ?_, fun x => ?_⟩
        · rw [← h1]
          show members (92 :: 94 :: _) = _
          rw [members.eq_def]
          rfl
        · rw [h2]
          simp only [Bool.false_eq_true, false_and, false_or, true_iff]
          exact (hasAny_cons (i := .char 94)).symm
      · have e : firstClass items = content items [93] := by
          unfold firstClass
          clear hi hne hf hl wc wh nn h1 h2
          split
          · rename_i c is
            rw [if_neg]
            intro e
            exact hc ⟨is, by rw [e]⟩
          · rfl
        rw [e, clazz_members wc (by intro e; exact nn (by rw [e]; rfl)) (content_head hf (fun is e => hc ⟨is, e⟩))]
        exact ⟨set, h1, fun x => by rw [h2]; simp⟩

theorem simples_iff {G : Bool} {p : Part} (h : p.Ok G) {s : List Nat} : p.Means s ↔ SeqMeans SimpleMeans (simples p) s := by
  cases p with
  | text cs => exact seq_literals.symm
  | star =>
    show _ ↔ SeqMeans SimpleMeans [.many notSlash] s
    rw [seq_one_iff]
    simp only [Part.Means, SimpleMeans, notSlash, decide_eq_true_eq]
    exact ⟨fun h c hc e => h (e ▸ hc), fun h hc => h _ hc rfl⟩
  | starStar =>
    show _ ↔ SeqMeans SimpleMeans [.many dot] s
    rw [seq_one_iff]
    simp [Part.Means, SimpleMeans, dot, lineEnds, and_assoc]
  | question =>
    show _ ↔ SeqMeans SimpleMeans [.one notSlash] s
    rw [seq_one_iff]
    simp only [Part.Means, SimpleMeans, notSlash, decide_eq_true_eq]
  | bracket neg hyphen items =>
    show _ ↔ SeqMeans SimpleMeans [.one (classSet ((classOf neg hyphen items).flatMap utf16))] s
    obtain ⟨set, h1, h2⟩ := clazz_bracket h
    rw [seq_one_iff]
    simp only [Part.Means, SimpleMeans, classSet, h1, notSlash, Bool.and_eq_true, decide_eq_true_eq, h2]

theorem parts_ok {G : Bool} {ps : List Part} (h : PartsOk G ps) : ∀ p ∈ ps, p.Ok G := by
  induction ps with
  | nil => intro p hp; cases hp
  | cons q ps ih =>
    intro p hp
    cases ps with
    | nil => rw [List.mem_singleton.1 hp]; exact h
    | cons r ps =>
      rcases List.mem_cons.1 hp with rfl | hp
      · exact h.1
      · exact ih h.2.2 p hp

theorem glob_ok {ps : List Piece} (h : GlobOk ps) : ∀ p ∈ ps, p.Ok := by
  induction ps with
  | nil => intro p hp; cases hp
  | cons q ps ih =>
    intro p hp
    cases ps with
    | nil => rw [List.mem_singleton.1 hp]; exact h
    | cons r ps =>
      rcases List.mem_cons.1 hp with rfl | hp
      · exact h.1
      · exact ih h.2.2 p hp

theorem atoms_iff {p : Piece} (h : p.Ok) {s : List Nat} : p.Means s ↔ SeqMeans AtomMeans (atoms p) s := by
  cases p with
  | part p => exact (simples_iff h).trans (seq_map (N := AtomMeans) (f := Atom.simple)).symm
  | group alts =>
    rw [atoms, seq_one_iff]
    simp only [Piece.Means, AtomMeans, List.mem_map]
    constructor
    · rintro ⟨a, ha, hs⟩
      exact ⟨_, ⟨a, ha, rfl⟩, (seq_flatMap (fun p hp s => simples_iff (parts_ok (h.2 a ha) p hp))).1 hs⟩
    · rintro ⟨_, ⟨a, ha, rfl⟩, hs⟩
      exact ⟨a, ha, (seq_flatMap (fun p hp s => simples_iff (parts_ok (h.2 a ha) p hp))).2 hs⟩

/-- A class that can be read. -/
def Readable (t : Tok) : Prop := t.isOdd = false ∧ t.isBad = false

theorem toks_readable {G : Bool} {p : Part} (h : p.Ok G) : ∀ t ∈ toks p, Readable t := by
  cases p with
  | bracket neg hyphen items =>
    intro t ht
    rw [toks, List.mem_singleton] at ht
    obtain ⟨set, h1, _⟩ := clazz_bracket h
    subst ht
    simp [Readable, Tok.isOdd, Tok.isBad, h1]
  | text cs =>
    intro t ht
    obtain ⟨x, _, rfl⟩ := List.mem_map.1 ht
    exact ⟨rfl, rfl⟩
  | _ =>
    intro t ht
    rw [toks, List.mem_singleton] at ht
    subst ht
    exact ⟨rfl, rfl⟩

theorem altToks_readable {G : Bool} {alts : List (List Part)} (h : ∀ a ∈ alts, PartsOk G a) : ∀ t ∈ altToks alts, Readable t := by
  have one : ∀ a ∈ alts, ∀ t ∈ a.flatMap toks, Readable t := by
    intro a ha t ht
    obtain ⟨p, hp, ht⟩ := List.mem_flatMap.1 ht
    exact toks_readable (parts_ok (h a ha) p hp) t ht
  clear h
  induction alts with
  | nil => intro t ht; cases ht
  | cons a as ih =>
    cases as with
    | nil => exact one a (by simp)
    | cons b bs =>
      intro t ht
      rw [altToks] at ht
      · rcases List.mem_append.1 ht with ht | ht
        · exact one a (by simp) t ht
        · rcases List.mem_cons.1 ht with rfl | ht
          · exact ⟨rfl, rfl⟩
          · exact ih (fun c hc => one c (by simp [hc])) t ht
      · simp

theorem glob_readable {ps : List Piece} (h : GlobOk ps) : ∀ t ∈ ps.flatMap pieceToks, Readable t := by
  intro t ht
  obtain ⟨p, hp, ht⟩ := List.mem_flatMap.1 ht
  have hp := glob_ok h p hp
  cases p with
  | part p => exact toks_readable hp t ht
  | group alts =>
    rw [pieceToks] at ht
    rcases List.mem_append.1 ht with ht | ht
    · rcases List.mem_cons.1 ht with rfl | ht
      · exact ⟨rfl, rfl⟩
      · exact altToks_readable hp.2 t ht
    · rw [List.mem_singleton.1 ht]; exact ⟨rfl, rfl⟩

/-- The matcher of a documented pattern matches what the documentation says. -/
theorem getPathMatcher_means {odd : PathMatchers.GlobCompiler} {ps : List Piece} (h : GlobOk ps) :
    ∃ pred, getPathMatcher odd (writeGlob ps) = .ok pred ∧ ∀ path, pred path = true ↔ GlobMeans ps (pathString path) := by
  refine ⟨fun path => matchAtoms (parse [] (ps.flatMap pieceToks)) (codePoints (pathString path)), ?_, fun path => ?_⟩
  · unfold getPathMatcher
    rw [outside_glob h]
    have h1 : (ps.flatMap pieceToks).find? (fun t => t.isOdd || t.isBad) = none := by
      rw [List.find?_eq_none]
      intro t ht
      rw [(glob_readable h t ht).1, (glob_readable h t ht).2]
      decide
    simp only [pure_bind, h1]
    rfl
  · dsimp only
    rw [matchAtoms_iff, parse_glob h]
    exact (seq_flatMap (fun p hp s => atoms_iff (glob_ok h p hp))).symm

end GlobL
end Spec
end JFTP
