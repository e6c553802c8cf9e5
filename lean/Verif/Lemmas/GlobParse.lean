import Verif.Lemmas.Glob

/-!
Every glob is a documented pattern or is rejected, apart from some odd bracket expressions.
-/

namespace JFTP
namespace Spec
namespace GlobL
open Globs Glob

/-- One more character before a pattern. -/
def consPiece (x : JChar × Bool) : List Piece → List Piece
  | .part (.text cs) :: ps => .part (.text (x :: cs)) :: ps
  | ps => .part (.text [x]) :: ps

def consPart (x : JChar × Bool) : List Part → List Part
  | .text cs :: ps => .text (x :: cs) :: ps
  | ps => .text [x] :: ps

/-- How a character is written. -/
def writeChar (x : JChar × Bool) : JStr := if x.2 then [92, x.1] else [x.1]

theorem write_consPiece (x : JChar × Bool) (ps : List Piece) : writeGlob (consPiece x ps) = writeChar x ++ writeGlob ps := by
  unfold consPiece writeGlob
  split
  · simp [Piece.write, Part.write, writeChar]
  · simp [Piece.write, Part.write, writeChar]

theorem write_consPart (x : JChar × Bool) (ps : List Part) : (consPart x ps).flatMap Part.write = writeChar x ++ ps.flatMap Part.write := by
  unfold consPart
  split
  · simp [Part.write, writeChar]
  · simp [Part.write, writeChar]

theorem globOk_cons {p : Piece} {ps : List Piece} (hp : p.Ok) (hf : ∀ q ∈ ps.head?, PieceFollows p q) (h : GlobOk ps) : GlobOk (p :: ps) := by
  cases ps with
  | nil => exact hp
  | cons q ps => exact ⟨hp, hf q (by simp), h⟩

theorem partsOk_cons {G : Bool} {p : Part} {ps : List Part} (hp : p.Ok G) (hf : ∀ q ∈ ps.head?, Follows p q) (h : PartsOk G ps) : PartsOk G (p :: ps) := by
  cases ps with
  | nil => exact hp
  | cons q ps => exact ⟨hp, hf q (by simp), h⟩

theorem ok_consPiece {x : JChar × Bool} {ps : List Piece} (hx : x.2 = false → plain false x.1) (h : GlobOk ps) : GlobOk (consPiece x ps) := by
  unfold consPiece
  split
  · rename_i cs ps
    have hc : (Piece.part (.text cs)).Ok := glob_ok h _ (by simp)
    have : (Piece.part (.text (x :: cs))).Ok := ⟨by simp, fun y hy => by
      rcases List.mem_cons.1 hy with rfl | hy
      · exact hx
      · exact hc.2 y hy⟩
    cases ps with
    | nil => exact this
    | cons q ps =>
      refine ⟨this, ?_, h.2.2⟩
      have := h.2.1
      cases q with
      | part q => cases q <;> first | trivial | exact this
      | group => trivial
  · rename_i hn
    refine globOk_cons ⟨by simp, fun y hy => by rw [List.mem_singleton.1 hy]; exact hx⟩ (fun q hq => ?_) h
    cases ps with
    | nil => cases hq
    | cons r ps =>
      cases hq
      cases q with
      | part q => cases q <;> first | trivial | exact (hn _ _ rfl).elim
      | group => trivial

theorem ok_consPart {x : JChar × Bool} {ps : List Part} (hx : x.2 = false → plain true x.1) (h : PartsOk true ps) : PartsOk true (consPart x ps) := by
  unfold consPart
  split
  · rename_i cs ps
    have hc : (Part.text cs).Ok true := parts_ok h _ (by simp)
    have : (Part.text (x :: cs)).Ok true := ⟨by simp, fun y hy => by
      rcases List.mem_cons.1 hy with rfl | hy
      · exact hx
      · exact hc.2 y hy⟩
    cases ps with
    | nil => exact this
    | cons q ps =>
      refine ⟨this, ?_, h.2.2⟩
      have := h.2.1
      cases q <;> first | trivial | exact this
  · rename_i hn
    refine partsOk_cons ⟨by simp, fun y hy => by rw [List.mem_singleton.1 hy]; exact hx⟩ (fun q hq => ?_) h
    cases ps with
    | nil => cases hq
    | cons r ps =>
      cases hq
      cases q <;> first | trivial | exact (hn _ _ rfl).elim

/-- A pattern that is not written with a star at the start does not start with one. -/
theorem follows_star {ps : List Piece} (h : (writeGlob ps).head? ≠ some 42) : ∀ q ∈ ps.head?, PieceFollows (.part .star) q := by
  intro q hq
  cases ps with
  | nil => cases hq
  | cons r ps =>
    cases hq
    cases q with
    | part q => cases q <;> trivial
    | group => trivial

theorem follows_star_part {ps : List Part} {g : JStr} (h : (ps.flatMap Part.write ++ g).head? ≠ some 42) : ∀ q ∈ ps.head?, Follows .star q := by
  intro q hq
  cases ps with
  | nil => cases hq
  | cons r ps =>
    cases hq
    cases q <;> trivial

/-- The rest of a pattern after `{`: alternatives, `}`, and a pattern. -/
def Rest (g : JStr) : Prop := ∃ a as ps, (∀ x ∈ a :: as, PartsOk true x) ∧ GlobOk ps ∧ writeAlts (a :: as) ++ 125 :: writeGlob ps = g

def Documented (g : JStr) : Prop := ∃ ps, GlobOk ps ∧ writeGlob ps = g

def Rejected (r : Except Exn (List Tok)) : Prop := r = .error .illegalArgument

theorem rejected_bind {r : Except Exn (List Tok)} {f : List Tok → List Tok} (h : Rejected r) : Rejected (do return f (← r)) := by
  rw [Rejected] at h ⊢
  rw [h]; rfl

theorem writeAlts_cons (a : List Part) (as : List (List Part)) (hne : as ≠ []) : writeAlts (a :: as) = a.flatMap Part.write ++ 44 :: writeAlts as := by
  cases as with
  | nil => exact absurd rfl hne
  | cons b as => simp [writeAlts]

theorem writeAlts_front {a b : List Part} {s : JStr} (h : b.flatMap Part.write = s ++ a.flatMap Part.write) (as : List (List Part)) : writeAlts (b :: as) = s ++ writeAlts (a :: as) := by
  cases as with
  | nil => simpa [writeAlts] using h
  | cons c as => rw [writeAlts_cons b _ (by simp), writeAlts_cons a _ (by simp), h, List.append_assoc]

/-- One more part at the front of the first alternative. -/
theorem rest_front {g s : JStr} (f : List Part → List Part) (hw : ∀ a, (f a).flatMap Part.write = s ++ a.flatMap Part.write)
    (hok : ∀ a g', PartsOk true a → g = a.flatMap Part.write ++ g' → PartsOk true (f a)) (h : Rest g) : Rest (s ++ g) := by
  obtain ⟨a, as, ps, h1, h2, rfl⟩ := h
  refine ⟨f a, as, ps, fun x hx => ?_, h2, ?_⟩
  · rcases List.mem_cons.1 hx with rfl | hx
    · cases as with
      | nil => exact hok a (125 :: writeGlob ps) (h1 a (by simp)) rfl
      | cons b as => exact hok a _ (h1 a (by simp)) (by rw [writeAlts_cons _ _ (by simp), List.append_assoc])
    · exact h1 x (by simp [hx])
  · rw [writeAlts_front (hw a), List.append_assoc]

/-- A bracket that is not closed. -/
theorem inside_unclosed {G has : Bool} {acc : JStr} {last : JChar} {g : JStr} (n : Nat) (hn : g.length ≤ n) (h : 93 ∉ g) : Rejected (inside G acc has last g) := by
  induction n generalizing g acc has last with
  | zero =>
    obtain rfl := List.eq_nil_of_length_eq_zero (Nat.le_zero.1 hn)
    rw [inside.eq_def]; rfl
  | succ n ih =>
    cases g with
    | nil => rw [inside.eq_def]; rfl
    | cons c g =>
      have hg : g.length ≤ n := by simpa using hn
      have hc : c ≠ RBRACK := fun e => h (by rw [e]; simp [RBRACK])
      have h' : (93 : JChar) ∉ g := fun x => h (by simp [x])
      rw [inside.eq_def]
      dsimp only
      rw [if_neg hc]
      split
      · rfl
      · split
        · split
          · cases g with
            | nil => rfl
            | cons e g =>
              have he : e ≠ RBRACK := fun x => h' (by rw [x]; simp [RBRACK])
              dsimp only
              rw [if_neg he]
              split
              · rfl
              · split
                · rfl
                · exact ih (by simp at hg; omega) (fun x => h' (by simp [x]))
          · rfl
        · exact ih hg h'

theorem outside_unclosed {G : Bool} {g : JStr} (h : 93 ∉ g) : Rejected (outside G (91 :: g)) := by
  cases g with
  | nil => rw [outside.eq_def]; rfl
  | cons c g =>
    have h' : (93 : JChar) ∉ g := fun x => h (by simp [x])
    rw [outside_lbrack]
    split
    · exact inside_unclosed _ (Nat.le_refl _) h'
    · split
      · cases g with
        | nil => rfl
        | cons d g =>
          dsimp only
          split
          · exact inside_unclosed _ (Nat.le_refl _) (fun x => h' (by simp [x]))
          · exact inside_unclosed _ (Nat.le_refl _) h'
      · split
        · exact inside_unclosed _ (Nat.le_refl _) h'
        · exact inside_unclosed _ (Nat.le_refl _) h

/-- A character written with one unit. -/
theorem utf16_cons {n : Nat} {c : JChar} (e : utf16 n = [c]) (cs : List Nat) : (n :: cs).flatMap utf16 = c :: cs.flatMap utf16 := by
  rw [List.flatMap_cons, e]; rfl

/-- A range that cannot be. -/
theorem inside_no_range {G : Bool} {acc : JStr} {last : JChar} {e : Nat} {g : JStr} (h1 : firstUnit e ≠ RBRACK) (h : firstUnit e = 0 ∨ firstUnit e < last) :
    Rejected (inside G acc true last (45 :: (utf16 e ++ g))) := by
  obtain ⟨l, hl⟩ := utf16_first (n := e)
  rw [hl, List.cons_append, inside.eq_def]
  dsimp only
  rw [if_neg (by decide), if_neg (by decide), if_pos (by decide), if_pos rfl]
  by_cases h0 : firstUnit e = 0
  · rw [if_pos h0]; rfl
  · rw [if_neg h0, if_neg h1, if_pos (h.resolve_left h0)]; rfl

/-- The text between brackets consists of parts of a bracket expression, or it is rejected. -/
theorem inside_split {G : Bool} {post : JStr} (n : Nat) : ∀ cs : List Nat, cs.length ≤ n → 93 ∉ cs → (∀ c ∈ cs, Scalar c) → ¬ [45, 91] <:+: cs → ¬ [45, 92] <:+: cs →
    (∀ c, Wide c → ¬ [c, 45] <:+: cs) →
    (∀ acc has last, (has = true → cs.head? ≠ some 45) → Rejected (inside G acc has last (cs.flatMap utf16 ++ 93 :: post)) ∨
      ∃ items : List Item, cs = items.flatMap Item.chars ∧ (∀ i ∈ items, i.Ok) ∧ OnlyLast items) ∧
    (∀ acc c, inBracket c → (Wide c → cs.head? ≠ some 45) → Rejected (inside G acc true (lastUnit c) (cs.flatMap utf16 ++ 93 :: post)) ∨
      ∃ items : List Item, c :: cs = items.flatMap Item.chars ∧ (∀ i ∈ items, i.Ok) ∧ OnlyLast items) := by
  have e45 : utf16 45 = [45] := by decide
  have e47 : utf16 47 = [47] := by decide
  have one : ∀ c, inBracket c → ∃ items : List Item, [c] = items.flatMap Item.chars ∧ (∀ i ∈ items, i.Ok) ∧ OnlyLast items :=
    fun c hc => ⟨[.char c], rfl, by simpa [Item.Ok] using hc, by simp [OnlyLast]⟩
  induction n with
  | zero =>
    intro s hs _ _ _ _ _
    obtain rfl := List.eq_nil_of_length_eq_zero (Nat.le_zero.1 hs)
    exact ⟨fun _ _ _ _ => .inr ⟨[], rfl, by simp, trivial⟩, fun _ c hc _ => .inr (one c hc)⟩
  | succ n ih =>
    intro s hs h93 hw hb hk hwd
    cases s with
    | nil => exact ⟨fun _ _ _ _ => .inr ⟨[], rfl, by simp, trivial⟩, fun _ c hc _ => .inr (one c hc)⟩
    | cons d s =>
      have hd : d ≠ 93 := fun e => h93 (by rw [e]; simp)
      have sub : ∀ {t : List Nat}, ¬ t <:+: d :: s → ¬ t <:+: s := fun h x => h (x.trans (List.suffix_cons d s).isInfix)
      obtain ⟨i1, i2⟩ := ih s (by simpa using hs) (fun x => h93 (by simp [x])) (fun c hc => hw c (by simp [hc])) (sub hb) (sub hk) (fun c hc => sub (hwd c hc))
      have slash : ∀ acc has last, d = 47 → Rejected (inside G acc has last ((d :: s).flatMap utf16 ++ 93 :: post)) := by
        rintro acc has last rfl
        rw [utf16_cons e47, List.cons_append, inside.eq_def]
        rfl
      have fwd : ∀ acc has last, d ≠ 47 → d ≠ 45 →
          Rejected (inside G acc has last ((d :: s).flatMap utf16 ++ 93 :: post)) ∨ ∃ items : List Item, d :: s = items.flatMap Item.chars ∧ (∀ i ∈ items, i.Ok) ∧ OnlyLast items := by
        intro acc has last h1 h2
        have hin : inBracket d := ⟨hd, h1, h2, hw d (by simp)⟩
        rw [List.flatMap_cons, List.append_assoc, inside_char (next := s ++ [93]) hin
          (head_utf16 (g := 93 :: post) (after := [93]) (fun c hc => hw c (by simp [hc])) ⟨fun e => absurd (Option.some.inj e) (by decide), fun e => absurd (Option.some.inj e) (by decide)⟩)]
        refine i2 _ d hin (fun hwide e => ?_)
        cases s with
        | nil => cases e
        | cons x s =>
          obtain rfl : x = 45 := Option.some.inj e
          exact hwd d hwide ⟨[], s, rfl⟩
      constructor
      · intro acc has last hhas
        by_cases h1 : d = 47
        · exact .inl (slash acc has last h1)
        · by_cases h2 : d = 45
          · left
            subst h2
            have : has = false := by
              cases has with
              | false => rfl
              | true => exact absurd rfl (hhas rfl)
            rw [utf16_cons e45, List.cons_append, inside.eq_def, this]
            rfl
          · exact fwd acc has last h1 h2
      · intro acc c hc hcw
        by_cases h1 : d = 47
        · exact .inl (slash acc true _ h1)
        · by_cases h2 : d = 45
          · subst h2
            have hnw : ¬ Wide c := fun h => hcw h rfl
            cases s with
            | nil => exact .inr ⟨[.trailing c], rfl, by simpa [Item.Ok] using hc, by simp [OnlyLast]⟩
            | cons e s =>
              have he : e ≠ 93 := fun x => h93 (by rw [x]; simp)
              have hes : Scalar e := hw e (by simp)
              have hel := scalar_lt hes
              have hfe : firstUnit e ≠ RBRACK := fun x => he ((firstUnit_eq (c := RBRACK) hel (by decide)).1 x)
              have hx : (45 :: e :: s).flatMap utf16 ++ 93 :: post = 45 :: (utf16 e ++ (s.flatMap utf16 ++ 93 :: post)) := by
                rw [utf16_cons e45, List.flatMap_cons]; simp
              rw [hx]
              by_cases h0 : e = 0
              · exact .inl (inside_no_range hfe (.inl ((firstUnit_eq (c := 0) hel (by decide)).2 h0)))
              by_cases hlt : firstUnit e < lastUnit c
              · exact .inl (inside_no_range hfe (.inr hlt))
              have sub2 : ∀ {t : List Nat}, ¬ t <:+: 45 :: e :: s → ¬ t <:+: s := fun h x => h (x.trans ((List.suffix_cons e s).trans (List.suffix_cons _ _)).isInfix)
              obtain ⟨j1, _⟩ := ih s (by simp at hs; omega) (fun x => h93 (by simp [x])) (fun c hc => hw c (by simp [hc])) (sub2 hb) (sub2 hk) (fun c hc => sub2 (hwd c hc))
              obtain ⟨has', last', hd', hend⟩ := inside_end (G := G) h0 he hes (UInt16.not_lt.1 hlt)
              rw [hend]
              rcases j1 (acc ++ [45, e].flatMap utf16) has' last' (fun ht hh => by
                rcases hd' with hwide | hf
                · cases s with
                  | nil => cases hh
                  | cons x s =>
                    obtain rfl : x = 45 := Option.some.inj hh
                    exact hwd e hwide ⟨[45], s, rfl⟩
                · rw [hf] at ht; cases ht) with j | ⟨items, k1, k2, k3⟩
              · exact .inl j
              · refine .inr ⟨.range c e :: items, ?_, ?_, ?_, k3⟩
                · rw [k1]; rfl
                · intro i hi
                  rcases List.mem_cons.1 hi with rfl | hi
                  · have hle := UInt16.le_iff_toNat_le.1 (UInt16.not_lt.1 hlt)
                    have hcs := hc.2.2.2
                    unfold Wide at hnw
                    have hc' : c < 0x10000 := by omega
                    rw [lastUnit, if_pos hc', toNat_narrow hc'] at hle
                    have hor : (c ≤ e) ∧ (Wide e → c < 0xD800) := by
                      unfold firstUnit at hle
                      split at hle
                      · rename_i h3
                        rw [toNat_narrow h3] at hle
                        exact ⟨hle, fun h4 => by unfold Wide at h4; omega⟩
                      · rename_i h3
                        rw [toNat_hi hel] at hle
                        unfold Scalar at hcs
                        exact ⟨by omega, fun _ => by omega⟩
                    exact ⟨hc, hor.1, h0, he, fun x => hk ⟨[], s, by rw [x]; rfl⟩, fun x => hb ⟨[], s, by rw [x]; rfl⟩, hes, hnw, hor.2⟩
                  · exact k2 i hi
                · rintro ⟨c', hc'⟩; cases hc'
          · rcases fwd acc true (lastUnit c) h1 h2 with j | ⟨items, k1, k2, k3⟩
            · exact .inl j
            · refine .inr ⟨.char c :: items, by rw [k1]; rfl, ?_, ?_, k3⟩
              · intro i hi
                rcases List.mem_cons.1 hi with rfl | hi
                · exact hc
                · exact k2 i hi
              · rintro ⟨c', hc'⟩; cases hc'

/-- A bracket expression, or it is rejected. -/
theorem outside_split {G : Bool} {s post : JStr} (h93 : 93 ∉ s) (ht : Tame s) : Rejected (outside G (91 :: (s ++ 93 :: post))) ∨
    ∃ neg hyphen items, (∀ G, (Part.bracket neg hyphen items).Ok G) ∧ 91 :: (s ++ 93 :: post) = (Part.bracket neg hyphen items).write ++ post := by
  obtain ⟨cs, rfl, hsc, hne, hne', hb, hk, hwd⟩ := ht
  have h93 : 93 ∉ cs := fun h => h93 (List.mem_flatMap.2 ⟨93, h, by decide⟩)
  have e45 : utf16 45 = [45] := by decide
  have e33 : utf16 33 = [33] := by decide
  have e94 : utf16 94 = [94] := by decide
  cases cs with
  | nil => exact absurd rfl hne
  | cons c s =>
    have sub : ∀ {t : List Nat}, ¬ t <:+: c :: s → ¬ t <:+: s := fun h x => h (x.trans (List.suffix_cons c s).isInfix)
    have q : ∀ acc last, Rejected (inside G acc false last ((c :: s).flatMap utf16 ++ 93 :: post)) ∨ _ :=
      fun acc last => (inside_split (G := G) (post := post) _ _ (Nat.le_refl _) h93 hsc hb hk hwd).1 acc false last (by simp)
    have q' : ∀ acc last, Rejected (inside G acc false last (s.flatMap utf16 ++ 93 :: post)) ∨ _ :=
      fun acc last => (inside_split (G := G) (post := post) _ s (Nat.le_refl _) (fun x => h93 (by simp [x])) (fun c hc => hsc c (by simp [hc])) (sub hb) (sub hk)
        (fun c hc => sub (hwd c hc))).1 acc false last (by simp)
    by_cases h1 : c = 94
    · subst h1
      rw [utf16_cons e94, List.cons_append, outside_lbrack, if_pos (by decide)]
      rcases q' [BACKSLASH, CARET] 0 with j | ⟨items, k1, k2, k3⟩
      · exact .inl j
      · refine .inr ⟨false, false, .char 94 :: items, fun _ => ⟨?_, .inr (by simp), fun _ _ => ?_, ?_, k3⟩, ?_⟩
        · intro i hi
          rcases List.mem_cons.1 hi with rfl | hi
          · exact ⟨by decide, by decide, by decide, scalar_94⟩
          · exact k2 i hi
        · show 94 ≠ 33; decide
        · rintro ⟨c', hc'⟩; cases hc'
        · rw [k1, ← write_items]; simp [Part.write, Item.write, Item.chars, e94]
    · by_cases h2 : c = 33
      · subst h2
        rw [utf16_cons e33, List.cons_append, outside_lbrack, if_neg (by decide), if_pos rfl]
        cases s with
        | nil => exact absurd rfl hne'
        | cons d s =>
          by_cases h3 : d = 45
          · subst h3
            rw [utf16_cons e45, List.cons_append]
            dsimp only
            rw [if_pos (by decide)]
            have sub2 : ∀ {t : List Nat}, ¬ t <:+: 33 :: 45 :: s → ¬ t <:+: s := fun h x => h (x.trans ((List.suffix_cons 45 s).trans (List.suffix_cons _ _)).isInfix)
            rcases (inside_split (G := G) (post := post) _ s (Nat.le_refl _) (fun x => h93 (by simp [x])) (fun c hc => hsc c (by simp [hc])) (sub2 hb) (sub2 hk)
              (fun c hc => sub2 (hwd c hc))).1 [CARET, HYPHEN] false 0 (by simp) with j | ⟨items, k1, k2, k3⟩
            · exact .inl j
            · refine .inr ⟨true, true, items, fun _ => ⟨k2, .inl rfl, by simp, k3⟩, ?_⟩
              rw [k1, ← write_items]; simp [Part.write]
          · obtain ⟨l, hl⟩ := utf16_first (n := d)
            have hd := scalar_lt (hsc d (by simp))
            have hq := q' [CARET] 0
            have ex : (d :: s).flatMap utf16 ++ 93 :: post = firstUnit d :: (l ++ (s.flatMap utf16 ++ 93 :: post)) := by
              rw [List.flatMap_cons, hl]; simp
            rw [ex] at hq ⊢
            dsimp only
            rw [if_neg (fun e => h3 ((firstUnit_eq (c := HYPHEN) hd (by decide)).1 e))]
            rcases hq with j | ⟨items, k1, k2, k3⟩
            · exact .inl j
            · refine .inr ⟨true, false, items, fun _ => ⟨k2, .inr ?_, by simp, k3⟩, ?_⟩
              · rintro rfl; cases k1
              · rw [← ex, k1, ← write_items]; simp [Part.write]
      · by_cases h3 : c = 45
        · subst h3
          rw [utf16_cons e45, List.cons_append, outside_lbrack, if_neg (by decide), if_neg (by decide), if_pos (by decide)]
          rcases q' [HYPHEN] 0 with j | ⟨items, k1, k2, k3⟩
          · exact .inl j
          · refine .inr ⟨false, true, items, fun _ => ⟨k2, .inl rfl, by simp, k3⟩, ?_⟩
            rw [k1, ← write_items]; simp [Part.write]
        · obtain ⟨l, hl⟩ := utf16_first (n := c)
          have hd := scalar_lt (hsc c (by simp))
          have hq := q [] 0
          have ex : (c :: s).flatMap utf16 ++ 93 :: post = firstUnit c :: (l ++ (s.flatMap utf16 ++ 93 :: post)) := by
            rw [List.flatMap_cons, hl]; simp
          rw [ex] at hq ⊢
          rw [outside_lbrack, if_neg (fun e => h1 ((firstUnit_eq (c := CARET) hd (by decide)).1 e)), if_neg (fun e => h2 ((firstUnit_eq (c := 33) hd (by decide)).1 e)),
            if_neg (fun e => h3 ((firstUnit_eq (c := HYPHEN) hd (by decide)).1 e))]
          rcases hq with j | ⟨items, k1, k2, k3⟩
          · exact .inl j
          · refine .inr ⟨false, false, items, fun _ => ⟨k2, .inr ?_, fun _ _ => ?_, k3⟩, ?_⟩
            · rintro rfl; cases k1
            · cases items with
              | nil => cases k1
              | cons i is =>
                cases i with
                | char a => obtain rfl : c = a := (List.cons.inj k1).1; exact h2
                | range a b => obtain rfl : c = a := (List.cons.inj k1).1; exact ⟨h2, h1⟩
                | trailing a => obtain rfl : c = a := (List.cons.inj k1).1; exact ⟨h2, h1⟩
            · rw [← ex, k1, ← write_items]; simp [Part.write]

theorem tame_suffix {a g : JStr} (h : TameBrackets (a ++ g)) : TameBrackets g := by
  intro pre s post e hs
  exact h (a ++ pre) s post (by rw [e, List.append_assoc]) hs

theorem tame_tail {c : JChar} {g : JStr} (h : TameBrackets (c :: g)) : TameBrackets g := tame_suffix (a := [c]) h

theorem outside_dichotomy (n : Nat) : ∀ g : JStr, g.length ≤ n → TameBrackets g →
    (Rejected (outside false g) ∨ Documented g) ∧ (Rejected (outside true g) ∨ Rest g) := by
  induction n with
  | zero =>
    intro g hg _
    obtain rfl := List.eq_nil_of_length_eq_zero (Nat.le_zero.1 hg)
    exact ⟨.inr ⟨[], trivial, rfl⟩, .inl (by rw [outside.eq_def]; rfl)⟩
  | succ n ih =>
    intro g hg hb
    cases g with
    | nil => exact ⟨.inr ⟨[], trivial, rfl⟩, .inl (by rw [outside.eq_def]; rfl)⟩
    | cons c g =>
      have hg' : g.length ≤ n := by simpa using hg
      have hb' := tame_tail hb
      obtain ⟨i1, i2⟩ := ih g hg' hb'
      by_cases hc91 : c = 91
      · subst hc91
        by_cases h93 : (93 : JChar) ∈ g
        · obtain ⟨s, post, rfl, hs⟩ := List.eq_append_cons_of_mem h93
          obtain ⟨i1, i2⟩ := ih post (by simp at hg'; omega) (tame_suffix (a := s ++ [93]) (by simpa using hb'))
          have ht : Tame s := hb [] s post rfl hs
          have all : ∀ G, Rejected (outside G (91 :: (s ++ 93 :: post))) ∨ _ := fun G => outside_split (G := G) hs ht
          constructor
          · rcases all false with r | ⟨neg, hyphen, items, hok, e⟩
            · exact .inl r
            · rcases i1 with i | ⟨ps, h1, rfl⟩
              · exact .inl (by rw [e, outside_bracket (hok _)]; exact rejected_bind i)
              · refine .inr ⟨.part (.bracket neg hyphen items) :: ps, globOk_cons (hok false) (fun q _ => ?_) h1, e.symm⟩
                cases q with
                | part q => cases q <;> trivial
                | group => trivial
          · rcases all true with r | ⟨neg, hyphen, items, hok, e⟩
            · exact .inl r
            · rcases i2 with i | i
              · exact .inl (by rw [e, outside_bracket (hok _)]; exact rejected_bind i)
              · rw [e]
                exact .inr (rest_front (fun a => .bracket neg hyphen items :: a) (fun a => rfl) (fun a _ ha _ => partsOk_cons (hok _) (fun q _ => by cases q <;> trivial) ha) i)
        · exact ⟨.inl (outside_unclosed h93), .inl (outside_unclosed h93)⟩
      by_cases h92 : c = 92
      · subst h92
        cases g with
        | nil =>
          have : ∀ G, Rejected (outside G [92]) := fun G => by rw [outside.eq_def]; rfl
          exact ⟨.inl (this _), .inl (this _)⟩
        | cons d g =>
          obtain ⟨i1, i2⟩ := ih g (by simp at hg'; omega) (tame_tail hb')
          constructor
          · rcases i1 with i | ⟨ps, h1, rfl⟩
            · exact .inl (by rw [outside_backslash]; exact rejected_bind i)
            · exact .inr ⟨consPiece (d, true) ps, ok_consPiece (by simp) h1, write_consPiece _ _⟩
          · rcases i2 with i | i
            · exact .inl (by rw [outside_backslash]; exact rejected_bind i)
            · exact .inr (rest_front (s := [92, d]) (consPart (d, true)) (write_consPart _) (fun a _ ha _ => ok_consPart (by simp) ha) i)
      by_cases h123 : c = 123
      · subst h123
        constructor
        · rcases i2 with i | ⟨a, as, ps, h1, h2, rfl⟩
          · refine .inl ?_
            have : outside false (123 :: g) = (do return .groupOpen :: (← outside true g)) := by rw [outside.eq_def]; rfl
            rw [this]; exact rejected_bind i
          · refine .inr ⟨.group (a :: as) :: ps, globOk_cons ⟨by simp, h1⟩ (fun q _ => by cases q <;> trivial) h2, ?_⟩
            simp [writeGlob, Piece.write]
        · exact .inl (by rw [outside.eq_def]; rfl)
      by_cases h42 : c = 42
      · subst h42
        have one : ∀ G, g.head? ≠ some 42 → outside G (42 :: g) = (do return .star :: (← outside G g)) := fun G hh => by
          cases g with
          | nil => rw [outside.eq_def]; rfl
          | cons d g =>
            have : d ≠ 42 := fun e => hh (by rw [e]; rfl)
            have e : outside G (42 :: d :: g) = if d = 42 then (do return .dotStar :: (← outside G g)) else (do return .star :: (← outside G (d :: g))) := by
              rw [outside.eq_def]; rfl
            rw [e, if_neg this]
        by_cases hh : g.head? = some 42
        · cases g with
          | nil => cases hh
          | cons d g =>
            obtain rfl : d = 42 := Option.some.inj hh
            obtain ⟨i1, i2⟩ := ih g (by simp at hg'; omega) (tame_tail hb')
            have two : ∀ G, outside G (42 :: 42 :: g) = (do return .dotStar :: (← outside G g)) := fun G => by rw [outside.eq_def]; rfl
            constructor
            · rcases i1 with i | ⟨ps, h1, rfl⟩
              · exact .inl (by rw [two]; exact rejected_bind i)
              · refine .inr ⟨.part .starStar :: ps, globOk_cons trivial (fun q _ => ?_) h1, rfl⟩
                cases q with
                | part q => cases q <;> trivial
                | group => trivial
            · rcases i2 with i | i
              · exact .inl (by rw [two]; exact rejected_bind i)
              · exact .inr (rest_front (s := [42, 42]) (fun a => .starStar :: a) (fun a => rfl) (fun a _ ha _ => partsOk_cons trivial (fun q _ => by cases q <;> trivial) ha) i)
        · constructor
          · rcases i1 with i | ⟨ps, h1, rfl⟩
            · exact .inl (by rw [one _ hh]; exact rejected_bind i)
            · exact .inr ⟨.part .star :: ps, globOk_cons trivial (follows_star hh) h1, rfl⟩
          · rcases i2 with i | i
            · exact .inl (by rw [one _ hh]; exact rejected_bind i)
            · exact .inr (rest_front (s := [42]) (fun a => .star :: a) (fun a => rfl) (fun a g' ha e => partsOk_cons trivial (follows_star_part (g := g') (by rw [← e]; exact hh)) ha) i)
      by_cases h63 : c = 63
      · subst h63
        have one : ∀ G, outside G (63 :: g) = (do return .one :: (← outside G g)) := fun G => by rw [outside.eq_def]; rfl
        constructor
        · rcases i1 with i | ⟨ps, h1, rfl⟩
          · exact .inl (by rw [one]; exact rejected_bind i)
          · refine .inr ⟨.part .question :: ps, globOk_cons trivial (fun q _ => ?_) h1, rfl⟩
            cases q with
            | part q => cases q <;> trivial
            | group => trivial
        · rcases i2 with i | i
          · exact .inl (by rw [one]; exact rejected_bind i)
          · exact .inr (rest_front (s := [63]) (fun a => .question :: a) (fun a => rfl) (fun a _ ha _ => partsOk_cons trivial (fun q _ => by cases q <;> trivial) ha) i)
      have hp : plain false c := ⟨by simp [h92, h42, h63, hc91, h123], by simp⟩
      refine ⟨?_, ?_⟩
      · rcases i1 with i | ⟨ps, h1, rfl⟩
        · exact .inl (by rw [outside_plain hp]; exact rejected_bind i)
        · exact .inr ⟨consPiece (c, false) ps, ok_consPiece (fun _ => hp) h1, write_consPiece _ _⟩
      by_cases h44 : c = 44
      · subst h44
        rcases i2 with i | ⟨a, as, ps, h1, h2, rfl⟩
        · refine .inl ?_
          have : outside true (44 :: g) = (do return .groupAlt :: (← outside true g)) := by rw [outside.eq_def]; rfl
          rw [this]; exact rejected_bind i
        · refine .inr ⟨[], a :: as, ps, fun x hx => ?_, h2, ?_⟩
          · rcases List.mem_cons.1 hx with rfl | hx
            · trivial
            · exact h1 x hx
          · rw [writeAlts_cons _ _ (by simp)]; rfl
      by_cases h125 : c = 125
      · subst h125
        rcases i1 with i | ⟨ps, h1, rfl⟩
        · refine .inl ?_
          have : outside true (125 :: g) = (do return .groupClose :: (← outside false g)) := by rw [outside.eq_def]; rfl
          rw [this]; exact rejected_bind i
        · exact .inr ⟨[], [], ps, fun x hx => by rw [List.mem_singleton.1 hx]; trivial, h1, rfl⟩
      have hp' : plain true c := ⟨hp.1, fun _ => by simp [h44, h125]⟩
      rcases i2 with i | i
      · exact .inl (by rw [outside_plain hp']; exact rejected_bind i)
      · exact .inr (rest_front (s := [c]) (consPart (c, false)) (write_consPart _) (fun a _ ha _ => ok_consPart (fun _ => hp') ha) i)

theorem documented_or_rejected {g : JStr} (h : TameBrackets g) : Rejected (outside false g) ∨ Documented g := (outside_dichotomy g.length g (Nat.le_refl _) h).1

/-- A slash in a bracket expression. -/
theorem inside_slash {G has : Bool} {acc : JStr} {last : JChar} {s g : JStr} (n : Nat) (hn : s.length ≤ n) (h : ∀ c ∈ s, c ≠ 93 ∧ c ≠ 45) : Rejected (inside G acc has last (s ++ 47 :: g)) := by
  induction n generalizing s acc has last with
  | zero =>
    obtain rfl := List.eq_nil_of_length_eq_zero (Nat.le_zero.1 hn)
    rw [List.nil_append, inside.eq_def]; rfl
  | succ n ih =>
    cases s with
    | nil => rw [List.nil_append, inside.eq_def]; rfl
    | cons c s =>
      have hc : c ≠ RBRACK := (h c (by simp)).1
      have hc' : c ≠ HYPHEN := (h c (by simp)).2
      rw [List.cons_append, inside.eq_def]
      dsimp only
      rw [if_neg hc, if_neg hc']
      split
      · rfl
      · exact ih (by simpa using hn) (fun x hx => h x (by simp [hx]))

/-- A range whose end is before its start. -/
theorem inside_reversed {G has : Bool} {acc : JStr} {last : JChar} {s g : JStr} {a b : JChar} (ha : a ≠ 93 ∧ a ≠ 45) (hb : b ≠ 93) (hab : b < a) (n : Nat) (hn : s.length ≤ n)
    (h : ∀ c ∈ s, c ≠ 93 ∧ c ≠ 45) : Rejected (inside G acc has last (s ++ a :: 45 :: b :: g)) := by
  induction n generalizing s acc has last with
  | zero =>
    obtain rfl := List.eq_nil_of_length_eq_zero (Nat.le_zero.1 hn)
    rw [List.nil_append, inside.eq_def]
    dsimp only
    rw [if_neg (show a ≠ RBRACK from ha.1), if_neg (show a ≠ HYPHEN from ha.2)]
    split
    · rfl
    · rw [inside.eq_def]
      dsimp only
      rw [if_neg (by decide), if_neg (by decide), if_pos (by decide), if_pos rfl]
      split
      · rfl
      · rw [if_neg (show b ≠ RBRACK from hb)]
        rfl
  | succ n ih =>
    cases s with
    | nil => exact ih (s := []) (Nat.zero_le _) (by simp)
    | cons c s =>
      have hc : c ≠ RBRACK := (h c (by simp)).1
      have hc' : c ≠ HYPHEN := (h c (by simp)).2
      rw [List.cons_append, inside.eq_def]
      dsimp only
      rw [if_neg hc, if_neg hc']
      split
      · rfl
      · exact ih (by simpa using hn) (fun x hx => h x (by simp [hx]))

end GlobL
end Spec
end JFTP
