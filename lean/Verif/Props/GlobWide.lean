import Verif.Props.Glob
import Verif.Lemmas.GlobWide

/-!
C114: characters beyond the basic plane (emojis) in bracket expressions.
-/

namespace JFTP
open Spec PathMatchers Globs Spec.Glob Spec.GlobL

section
variable {m : Type → Type} [Monad m] (odd : GlobCompiler)

theorem firstOk_chars {cs : List Nat} (hne : cs ≠ []) (h33 : cs.head? ≠ some 33) : FirstOk (cs.map Glob.Item.char) := by
  cases cs with
  | nil => exact absurd rfl hne
  | cons c cs => exact fun e => h33 (by rw [e]; rfl)

theorem onlyLast_chars (cs : List Nat) : OnlyLast (cs.map Glob.Item.char) := by
  induction cs with
  | nil => trivial
  | cons c cs ih => exact ⟨fun ⟨_, h⟩ => (by cases h), ih⟩

theorem write_chars (cs : List Nat) : (cs.map Glob.Item.char).flatMap Item.write = cs.flatMap utf16 := by
  rw [List.flatMap_map]
  congr 1
  funext c
  simp [Item.write, Item.chars]

/-- **C114**: a bracket expression may list any characters; it accepts the names that consist of one of them. -/
theorem C114_members {cs : List Nat} (hne : cs ≠ []) (h : ∀ c ∈ cs, inBracket c) (h33 : cs.head? ≠ some 33) :
    ∃ (mt : Matcher m) (f : Path → Bool), hasNameMatchingGlob (getPathMatcher odd) (j!"[" ++ cs.flatMap utf16 ++ j!"]") = .ok mt ∧ (∀ p, mt p = pure (f p)) ∧
      ∀ p, f p = true ↔ ∃ n c, p.names.getLast? = some n ∧ Characters n [c] ∧ c ∈ cs := by
  have hok : GlobOk [.part (.bracket false false (cs.map Glob.Item.char))] := by
    refine ⟨fun i hi => ?_, .inr (by simpa using hne), fun _ _ => firstOk_chars hne h33, onlyLast_chars cs⟩
    obtain ⟨c, hc, rfl⟩ := List.mem_map.1 hi
    exact h c hc
  have hw : writeGlob [.part (.bracket false false (cs.map Glob.Item.char))] = j!"[" ++ cs.flatMap utf16 ++ j!"]" := by
    simp [writeGlob, Piece.write, Part.write, write_chars]
  obtain ⟨mt, f, h1, h2, h3⟩ := C78_name (m := m) odd hok (by rw [hw]; intro e; exact absurd (List.cons.inj e).1 (by decide))
  rw [hw] at h1
  refine ⟨mt, f, h1, h2, fun p => ?_⟩
  rw [h3]
  constructor
  · rintro ⟨n, hn, hm⟩
    obtain ⟨c, e, hc47, hc⟩ := seq_one_iff.1 hm
    obtain ⟨i, hi, hx⟩ := (hc.1 rfl).resolve_left (by simp)
    obtain ⟨d, hd, rfl⟩ := List.mem_map.1 hi
    exact ⟨n, c, hn, (C78_characters n [c] 0).1.2 e, by rw [show c = d from hx]; exact hd⟩
  · rintro ⟨n, c, hn, hch, hc⟩
    refine ⟨n, hn, seq_one_iff.2 ⟨c, (C78_characters n [c] 0).1.1 hch, (h c hc).2.1, ⟨fun _ => .inr ⟨.char c, List.mem_map.2 ⟨c, hc, rfl⟩, rfl⟩, fun _ => rfl⟩⟩⟩

/-- **C114**: a range that starts with a character beyond the basic plane is rejected when the matcher is created, wherever it stands: after any correct beginning, in brackets with or without negation
and hyphen, after other characters and ranges, whatever follows. -/
theorem C114_wide_start {ps : List Piece} (h : GlobOk ps) {neg hyphen : Bool} {items : List Glob.Item} (hi : ∀ i ∈ items, i.Ok) (hl : ∀ c, .trailing c ∉ items)
    (hf : neg = false → hyphen = false → items = [] ∨ FirstOk items) {a b : Nat} (ha : Scalar a) (hw : Wide a) (hb : Scalar b) (hb' : b ≠ 93) (t : JStr) :
    getPathMatcher odd (writeGlob ps ++ j!"[" ++ (if neg then j!"!" else []) ++ (if hyphen then j!"-" else []) ++ items.flatMap Item.write ++ utf16 a ++ j!"-" ++ utf16 b ++ t) =
      .error .illegalArgument := by
  have e : writeGlob ps ++ j!"[" ++ (if neg then j!"!" else []) ++ (if hyphen then j!"-" else []) ++ items.flatMap Item.write ++ utf16 a ++ j!"-" ++ utf16 b ++ t =
      writeGlob ps ++ 91 :: (opening neg hyphen ++ (items.flatMap Item.write ++ (utf16 a ++ 45 :: (utf16 b ++ t)))) := by
    simp [opening]
  rw [e]
  rcases outside_wide (G := false) (t := t) hi hl hf ha hw hb hb' with hr | ⟨c, ts, ho, hc⟩
  · exact rejected_before odd h (fun e => absurd (Option.some.inj e) (by decide)) hr
  · exact rejected_bad h (fun e => absurd (Option.some.inj e) (by decide)) ho hc

/-- **C114**: a range of characters is accepted exactly if it starts in the basic plane, and below the surrogates if it ends beyond the basic plane. Accepted, it contains the characters from the first to
the last; otherwise it is rejected when the matcher is created. -/
theorem C114_range {a b : Nat} (ha : inBracket a) (ha' : a ≠ 33 ∧ a ≠ 94) (hb : Scalar b) (hb' : b ≠ 0 ∧ b ≠ 91 ∧ b ≠ 92 ∧ b ≠ 93) (hab : a ≤ b) :
    ((a ≤ 0xFFFF ∧ (0xFFFF < b → a < 0xD800)) → ∃ (mt : Matcher m) (f : Path → Bool),
      hasNameMatchingGlob (getPathMatcher odd) (j!"[" ++ utf16 a ++ j!"-" ++ utf16 b ++ j!"]") = .ok mt ∧ (∀ p, mt p = pure (f p)) ∧
      ∀ p, f p = true ↔ ∃ n c, p.names.getLast? = some n ∧ Characters n [c] ∧ c ≠ 47 ∧ a ≤ c ∧ c ≤ b) ∧
    (¬ (a ≤ 0xFFFF ∧ (0xFFFF < b → a < 0xD800)) →
      (hasNameMatchingGlob (getPathMatcher odd) (j!"[" ++ utf16 a ++ j!"-" ++ utf16 b ++ j!"]") : Except Exn (Matcher m)) = .error .illegalArgument) := by
  have ne : j!"[" ++ utf16 a ++ j!"-" ++ utf16 b ++ j!"]" ≠ j!"*" := by intro e; exact absurd (List.cons.inj e).1 (by decide)
  constructor
  · rintro ⟨h1, h2⟩
    have hok : GlobOk [.part (.bracket false false [.range a b])] := by
      refine ⟨fun i hi => ?_, .inr (by simp), fun _ _ => ha', ⟨fun ⟨_, h⟩ => (by cases h), trivial⟩⟩
      rw [List.mem_singleton.1 hi]
      exact ⟨ha, hab, hb'.1, hb'.2.2.2, hb'.2.2.1, hb'.2.1, hb, by unfold Wide; omega, fun h => h2 (by unfold Wide at h; omega)⟩
    have hw : writeGlob [.part (.bracket false false [.range a b])] = j!"[" ++ utf16 a ++ j!"-" ++ utf16 b ++ j!"]" := by
      simp [writeGlob, Piece.write, Part.write, Item.write, Item.chars, show utf16 45 = [45] by decide]
    obtain ⟨mt, f, h1, h2, h3⟩ := C78_name (m := m) odd hok (by rw [hw]; exact ne)
    rw [hw] at h1
    refine ⟨mt, f, h1, h2, fun p => ?_⟩
    rw [h3]
    constructor
    · rintro ⟨n, hn, hm⟩
      obtain ⟨c, e, hc47, hc⟩ := seq_one_iff.1 hm
      obtain ⟨i, hi, hx⟩ := (hc.1 rfl).resolve_left (by simp)
      rw [List.mem_singleton.1 hi] at hx
      exact ⟨n, c, hn, (C78_characters n [c] 0).1.2 e, hc47, hx.1, hx.2⟩
    · rintro ⟨n, c, hn, hch, h47, h4, h5⟩
      exact ⟨n, hn, seq_one_iff.2 ⟨c, (C78_characters n [c] 0).1.1 hch, h47, ⟨fun _ => .inr ⟨.range a b, by simp, h4, h5⟩, fun _ => rfl⟩⟩⟩
  · intro hn
    have hr : getPathMatcher odd (j!"[" ++ utf16 a ++ j!"-" ++ utf16 b ++ j!"]") = .error .illegalArgument := by
      by_cases hw : Wide a
      · have := C114_wide_start odd (ps := []) trivial (neg := false) (hyphen := false) (items := []) (by simp) (by simp) (fun _ _ => .inl rfl) ha.2.2.2 hw hb hb'.2.2.2 j!"]"
        simpa [writeGlob] using this
      · have hsa := ha.2.2.2
        unfold Wide at hw
        unfold Scalar at hsa
        have ha1 : a < 0x10000 := by omega
        have hwb : Wide b := by unfold Wide; omega
        have hlt : hi b < UInt16.ofNat a := by
          rw [UInt16.lt_iff_toNat_lt, toNat_hi (scalar_lt hb), toNat_narrow ha1]
          have := scalar_lt hb
          omega
        have na : UInt16.ofNat a ∉ j!"]-" := by
          simp only [List.mem_cons, List.not_mem_nil, or_false, not_or]
          exact ⟨fun e => ha.1 ((ofNat_eq ha1).1 e), fun e => ha.2.2.1 ((ofNat_eq ha1).1 e)⟩
        have nb : hi b ∉ j!"]" := by
          simp only [List.mem_cons, List.not_mem_nil, or_false]
          exact hi_ne (scalar_lt hb) (by decide)
        have := C81_reversed_range odd (ps := []) trivial (s := []) (t := lo b :: j!"]") (a := UInt16.ofNat a) (b := hi b) (by simp) na nb hlt (fun _ => by
          simp only [List.mem_cons, List.not_mem_nil, or_false]
          exact fun e => ha'.1 ((ofNat_eq ha1).1 e))
        rw [utf16_narrow ha1, utf16_wide hwb]
        simpa [writeGlob] using this
    unfold hasNameMatchingGlob
    rw [if_neg ne, hr]
    rfl

end

/-! ### Examples -/

/-- `[😀😃]` -/
example := C114_members (m := Except Exn) (fun _ => .error .illegalArgument) (cs := [0x1F600, 0x1F603]) (by decide) (by simp [inBracket, Scalar]) (by decide)
example : globSays j!"[😀😃]" j!"😃" = some true ∧ globSays j!"[😀😃]" j!"😄" = some false ∧ globSays j!"[!😀😃]x" j!"😄x" = some true := by decide
/-- `[a-😃]` is accepted, `[😀-😃]` is not. -/
example := (C114_range (m := Except Exn) (fun _ => .error .illegalArgument) (a := 97) (b := 0x1F603) (by simp [inBracket, Scalar]) (by decide) (.inr (by decide)) (by decide) (by decide)).1 (by decide)
example := (C114_range (m := Except Exn) (fun _ => .error .illegalArgument) (a := 0x1F600) (b := 0x1F603) (by simp [inBracket, Scalar]) (by decide) (.inr (by decide)) (by decide) (by decide)).2 (by decide)
example := (C114_range (m := Except Exn) (fun _ => .error .illegalArgument) (a := 0xFF21) (b := 0x1F603) (by simp [inBracket, Scalar]) (by decide) (.inr (by decide)) (by decide) (by decide)).2 (by decide)
example : globSays j!"[a-😃]" j!"😀" = some true ∧ globSays j!"[a-😃]" j!"😄" = some false ∧ globSays j!"[😀-😃]" j!"😀" = none ∧ globSays j!"[Ａ-😃]" j!"😀" = none := by decide
/-- `*.[!-xa-z😀-😃]` and `[😀-Ａ]` (which `Globs` accepts and `Pattern` does not) -/
example := C114_wide_start (fun _ => .error .illegalArgument) (ps := [.part .star, .part (.text [(46, false)])]) (by simp [GlobOk, Piece.Ok, Part.Ok, PieceFollows, Follows, Glob.plain])
  (neg := true) (hyphen := true) (items := [.char 120, .range 97 122]) (by simp [Item.Ok, inBracket, Scalar, Wide]) (by simp) (by simp) (a := 0x1F600) (b := 0x1F603)
  (.inr (by decide)) (by unfold Wide; decide) (.inr (by decide)) (by decide) j!"]"
example : globSays j!"[😀-Ａ]" j!"😀" = none ∧ (outside false j!"[😀-Ａ]").isOk = true := by decide

end JFTP
