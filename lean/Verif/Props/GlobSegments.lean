import Verif.Spec.GlobSegments
import Verif.Props.Glob

/-!
C96: path globs, segment by segment.
-/

namespace JFTP
open Spec PathMatchers Globs Spec.Glob Spec.GlobL

/-! ### Joining texts -/

/-- Adjacent texts become one. -/
def merge : List Piece → List Piece
  | [] => []
  | .part (.text a) :: ps =>
    match merge ps with
    | .part (.text b) :: qs => .part (.text (a ++ b)) :: qs
    | qs => .part (.text a) :: qs
  | p :: ps => p :: merge ps

theorem merge_text (a : List (JChar × Bool)) (ps : List Piece) :
    (∃ b qs, merge ps = .part (.text b) :: qs ∧ merge (.part (.text a) :: ps) = .part (.text (a ++ b)) :: qs) ∨
    ((∀ b qs, merge ps ≠ .part (.text b) :: qs) ∧ merge (.part (.text a) :: ps) = .part (.text a) :: merge ps) := by
  rw [merge]
  split
  · rename_i b qs h; exact .inl ⟨b, qs, h, rfl⟩
  · rename_i h; exact .inr ⟨h, rfl⟩

theorem merge_other {p : Piece} (h : ∀ a, p ≠ .part (.text a)) (ps : List Piece) : merge (p :: ps) = p :: merge ps := by
  rw [merge]; exact h

theorem merge_write (ps : List Piece) : writeGlob (merge ps) = writeGlob ps := by
  induction ps with
  | nil => rfl
  | cons p ps ih =>
    by_cases hp : ∃ a, p = .part (.text a)
    · obtain ⟨a, rfl⟩ := hp
      rcases merge_text a ps with ⟨b, qs, h1, h2⟩ | ⟨_, h2⟩
      · rw [h1] at ih
        rw [h2]
        simp only [writeGlob, List.flatMap_cons] at ih ⊢
        rw [← ih]
        simp [Piece.write, Part.write]
      · rw [h2]; simp only [writeGlob, List.flatMap_cons] at ih ⊢; rw [ih]
    · rw [merge_other (fun a e => hp ⟨a, e⟩)]; simp only [writeGlob, List.flatMap_cons] at ih ⊢; rw [ih]

/-- What may stand next to each other when texts may be cut. -/
def LooseFollows : Piece → Piece → Prop
  | .part .star, .part .star => False
  | .part .star, .part .starStar => False
  | _, _ => True

/-- A pattern in which texts may be cut. -/
def LooseOk : List Piece → Prop
  | [] => True
  | [p] => p.Ok
  | p :: q :: ps => p.Ok ∧ LooseFollows p q ∧ LooseOk (q :: ps)

theorem loose_cons {p : Piece} {ps : List Piece} : LooseOk (p :: ps) ↔ p.Ok ∧ (∀ q ∈ ps.head?, LooseFollows p q) ∧ LooseOk ps := by
  cases ps <;> simp [LooseOk]

theorem globOk_cons {p : Piece} {ps : List Piece} : GlobOk (p :: ps) ↔ p.Ok ∧ (∀ q ∈ ps.head?, PieceFollows p q) ∧ GlobOk ps := by
  cases ps <;> simp [GlobOk]

theorem loose_of_ok {ps : List Piece} (h : GlobOk ps) : LooseOk ps := by
  induction ps with
  | nil => trivial
  | cons p ps ih =>
    obtain ⟨h1, h2, h3⟩ := globOk_cons.1 h
    refine loose_cons.2 ⟨h1, fun q hq => ?_, ih h3⟩
    have := h2 q hq
    revert this
    rcases p with ⟨p⟩ | _ <;> rcases q with ⟨q⟩ | _ <;> (try cases p) <;> (try cases q) <;> simp [PieceFollows, Follows, LooseFollows]

theorem loose_append {ps qs : List Piece} (h1 : LooseOk ps) (h2 : LooseOk qs) (h : ∀ p ∈ ps.getLast?, ∀ q ∈ qs.head?, LooseFollows p q) : LooseOk (ps ++ qs) := by
  induction ps with
  | nil => exact h2
  | cons p ps ih =>
    obtain ⟨a1, a2, a3⟩ := loose_cons.1 h1
    rw [List.cons_append, loose_cons]
    cases ps with
    | nil => exact ⟨a1, fun q hq => h p (by simp) q (by simpa using hq), h2⟩
    | cons p' ps => exact ⟨a1, fun q hq => a2 q (by simpa using hq), ih a3 (fun x hx => h x (by simpa using hx))⟩

/-- The kind of the first piece is kept, a text only grows. -/
theorem merge_head {ps : List Piece} {q : Piece} (h : (merge ps).head? = some q) :
    (∃ a b, ps.head? = some (.part (.text a)) ∧ q = .part (.text (a ++ b))) ∨ ((∀ a, q ≠ .part (.text a)) ∧ ps.head? = some q) := by
  cases ps with
  | nil => simp [merge] at h
  | cons p ps =>
    by_cases hp : ∃ a, p = .part (.text a)
    · obtain ⟨a, rfl⟩ := hp
      rcases merge_text a ps with ⟨b, qs, h1, h2⟩ | ⟨_, h2⟩
      · rw [h2] at h; simp at h; exact .inl ⟨a, b, rfl, h.symm⟩
      · rw [h2] at h; simp at h; exact .inl ⟨a, [], rfl, by simp [h]⟩
    · rw [merge_other (fun a e => hp ⟨a, e⟩)] at h
      simp at h
      exact .inr ⟨fun a e => hp ⟨a, h.trans e⟩, by simp [h]⟩

theorem merge_ok {ps : List Piece} (h : LooseOk ps) : GlobOk (merge ps) := by
  induction ps with
  | nil => trivial
  | cons p ps ih =>
    obtain ⟨h1, h2, h3⟩ := loose_cons.1 h
    have ih := ih h3
    by_cases hp : ∃ a, p = .part (.text a)
    · obtain ⟨a, rfl⟩ := hp
      rcases merge_text a ps with ⟨b, qs, e1, e2⟩ | ⟨e1, e2⟩
      · rw [e1, globOk_cons] at ih
        rw [e2, globOk_cons]
        refine ⟨?_, fun q hq => ?_, ih.2.2⟩
        · have h1 : a ≠ [] ∧ ∀ x ∈ a, x.2 = false → Glob.plain false x.1 := h1
          have h4 : b ≠ [] ∧ ∀ x ∈ b, x.2 = false → Glob.plain false x.1 := ih.1
          refine (show (a ++ b) ≠ [] ∧ ∀ x ∈ a ++ b, x.2 = false → Glob.plain false x.1 from ⟨by simp [h1.1], fun x hx => ?_⟩)
          rcases List.mem_append.1 hx with hx | hx
          · exact h1.2 x hx
          · exact h4.2 x hx
        · have := ih.2.1 q hq
          rcases q with ⟨q⟩ | _
          · cases q <;> trivial
          · trivial
      · rw [e2, globOk_cons]
        refine ⟨h1, fun q hq => ?_, ih⟩
        rcases q with ⟨q⟩ | _
        · cases q with
          | text b =>
            cases hm : merge ps with
            | nil => rw [hm] at hq; cases hq
            | cons r rs => rw [hm] at hq; simp at hq; subst hq; exact absurd hm (e1 b rs)
          | _ => trivial
        · trivial
    · rw [merge_other (fun a e => hp ⟨a, e⟩), globOk_cons]
      refine ⟨h1, fun q hq => ?_, ih⟩
      have hq : (merge ps).head? = some q := hq
      rcases merge_head hq with ⟨a, b, e1, e2⟩ | ⟨_, e2⟩
      · subst e2
        rcases p with ⟨p⟩ | _
        · cases p with
          | text a => exact absurd ⟨a, rfl⟩ hp
          | _ => trivial
        · trivial
      · have := h2 q e2
        revert this
        rcases p with ⟨p⟩ | _ <;> rcases q with ⟨q⟩ | _ <;> try (intro _; trivial)
        cases p <;> cases q <;> first | (intro; trivial) | exact absurd ⟨_, rfl⟩ hp

/-- The texts that meet do not meet in the middle of a character. -/
def TextsJoin : List Piece → Prop
  | [] => True
  | [_] => True
  | p :: q :: ps => (∀ a b, p = .part (.text a) → q = .part (.text b) → Joins (a.map Prod.fst) (b.map Prod.fst)) ∧ TextsJoin (q :: ps)

theorem merge_means {ps : List Piece} (hj : TextsJoin ps) (h : LooseOk ps) (s : List Nat) : SeqMeans Piece.Means (merge ps) s ↔ SeqMeans Piece.Means ps s := by
  induction ps generalizing s with
  | nil => exact Iff.rfl
  | cons p ps ih =>
    obtain ⟨h1, h2, h3⟩ := loose_cons.1 h
    have hj2 : TextsJoin ps := by cases ps with
      | nil => trivial
      | cons q ps => exact hj.2
    have ih := ih hj2 h3
    by_cases hp : ∃ a, p = .part (.text a)
    · obtain ⟨a, rfl⟩ := hp
      rcases merge_text a ps with ⟨b, qs, e1, e2⟩ | ⟨e1, e2⟩
      · rw [e2, seq_cons_iff, seq_cons_iff]
        simp only [← ih, e1, seq_cons_iff]
        have hJ : Joins (a.map Prod.fst) (b.map Prod.fst) := by
          have : (merge ps).head? = some (.part (.text b)) := by rw [e1]; rfl
          rcases merge_head this with ⟨c, d, f1, f2⟩ | ⟨f1, _⟩
          · cases ps with
            | nil => simp at f1
            | cons q ps =>
              simp at f1; subst f1
              simp at f2; subst f2
              have := hj.1 a c rfl rfl
              have hc : c ≠ [] := (loose_cons.1 h3).1.1
              cases c with
              | nil => exact absurd rfl hc
              | cons x c => intro u hu v hv; exact this u hu v (by simpa using hv)
          · exact absurd rfl (f1 b)
        have hcp : codePoints ((a ++ b).map Prod.fst) = codePoints (a.map Prod.fst) ++ codePoints (b.map Prod.fst) := by
          rw [List.map_append, codePoints_append hJ]
        constructor
        · rintro ⟨x, y, rfl, hx, hy⟩
          have hx : x = codePoints ((a ++ b).map Prod.fst) := hx
          exact ⟨_, codePoints (b.map Prod.fst) ++ y, by rw [hx, hcp, List.append_assoc], rfl, _, y, rfl, rfl, hy⟩
        · rintro ⟨x, y, rfl, hx, x', y', rfl, hx', hy'⟩
          have hx : x = codePoints (a.map Prod.fst) := hx
          have hx' : x' = codePoints (b.map Prod.fst) := hx'
          exact ⟨x ++ x', y', by simp, by rw [hx, hx', ← hcp]; rfl, hy'⟩
      · rw [e2, seq_cons_iff, seq_cons_iff]; simp only [ih]
    · rw [merge_other (fun a e => hp ⟨a, e⟩), seq_cons_iff, seq_cons_iff]; simp only [ih]

/-! ### Segments -/

def slashPiece : Piece := .part (.text [(SLASH, false)])

/-- The pieces of the segments with slashes between them. -/
def segPieces : List Segment → List Piece
  | [] => []
  | [s] => s.pieces
  | s :: ss => s.pieces ++ slashPiece :: segPieces ss

theorem segPieces_cons {s : Segment} {ss : List Segment} (h : ss ≠ []) : segPieces (s :: ss) = s.pieces ++ slashPiece :: segPieces ss := by
  cases ss with
  | nil => exact absurd rfl h
  | cons _ _ => rfl

theorem segPieces_write (segs : List Segment) : writeGlob (segPieces segs) = writeSegments segs := by
  induction segs with
  | nil => rfl
  | cons s ss ih =>
    by_cases h : ss = []
    · subst h; rfl
    · rw [segPieces_cons h, writeSegments, List.map_cons, joinSlash_cons (by simpa using h)]
      rw [writeSegments] at ih
      rw [← ih]
      simp [writeGlob, slashPiece, Piece.write, Part.write]

theorem slash_ok : slashPiece.Ok := ⟨by simp, by simp [Glob.plain, SLASH]⟩

theorem segPieces_loose {segs : List Segment} (h : ∀ s ∈ segs, s.Ok) : LooseOk (segPieces segs) := by
  induction segs with
  | nil => trivial
  | cons s ss ih =>
    have hs : LooseOk s.pieces := by
      have := h s (by simp)
      cases s with
      | dirs => trivial
      | name ps => exact loose_of_ok this.1
    have ih := ih (fun x hx => h x (by simp [hx]))
    by_cases he : ss = []
    · subst he; exact hs
    · rw [segPieces_cons he]
      refine loose_append hs (loose_cons.2 ⟨slash_ok, fun q _ => trivial, ih⟩) (fun p _ q hq => ?_)
      simp at hq; subst hq
      rcases p with ⟨p⟩ | _
      · cases p <;> trivial
      · trivial

theorem textsJoin_append {ps qs : List Piece} (h1 : TextsJoin ps) (h2 : TextsJoin qs)
    (h : ∀ a b, ps.getLast? = some (.part (.text a)) → qs.head? = some (.part (.text b)) → Joins (a.map Prod.fst) (b.map Prod.fst)) : TextsJoin (ps ++ qs) := by
  induction ps with
  | nil => exact h2
  | cons p ps ih =>
    cases ps with
    | nil =>
      cases qs with
      | nil => trivial
      | cons q qs => exact ⟨fun a b e1 e2 => h a b (by simp [e1]) (by simp [e2]), h2⟩
    | cons p' ps => exact ⟨h1.1, ih h1.2 (fun a b e1 e2 => h a b (by simpa using e1) e2)⟩

theorem textsJoin_of_ok {ps : List Piece} (h : GlobOk ps) : TextsJoin ps := by
  induction ps with
  | nil => trivial
  | cons p ps ih =>
    obtain ⟨h1, h2, h3⟩ := globOk_cons.1 h
    cases ps with
    | nil => trivial
    | cons q ps =>
      refine ⟨fun a b e1 e2 => ?_, ih h3⟩
      subst e1 e2
      exact absurd (h2 _ rfl) (by simp [PieceFollows, Follows])

theorem joins_slash_left (b : JStr) : Joins [SLASH] b := joins_end (by intro c hc; simp at hc; subst hc; decide)
theorem joins_slash_right (a b : JStr) : Joins a (SLASH :: b) := joins_start (by intro c hc; simp at hc; subst hc; decide)

theorem segPieces_join {segs : List Segment} (h : ∀ s ∈ segs, s.Ok) : TextsJoin (segPieces segs) := by
  induction segs with
  | nil => trivial
  | cons s ss ih =>
    have hs : TextsJoin s.pieces := by
      have := h s (by simp)
      cases s with
      | dirs => trivial
      | name ps => exact textsJoin_of_ok this.1
    have ih := ih (fun x hx => h x (by simp [hx]))
    by_cases he : ss = []
    · subst he; exact hs
    · rw [segPieces_cons he]
      refine textsJoin_append hs ?_ (fun a b _ e => ?_)
      · cases hq : segPieces ss with
        | nil => trivial
        | cons q qs =>
          rw [hq] at ih
          refine ⟨fun a b e1 _ => ?_, ih⟩
          simp [slashPiece] at e1; subst e1
          exact joins_slash_left _
      · simp [slashPiece] at e; subst e
        exact joins_slash_right _ _

/-! ### Meaning -/

theorem part_inName {p : Part} (h : p.InName) {x : List Nat} (hm : p.Means x) : 47 ∉ x := by
  cases p with
  | text cs =>
    have hm : x = codePoints (cs.map Prod.fst) := hm
    rw [hm, slash_codePoints]
    intro e
    obtain ⟨y, hy, e⟩ := List.mem_map.1 e
    exact h y hy e
  | star => exact hm
  | starStar => exact absurd h (by simp [Part.InName])
  | question => obtain ⟨c, rfl, hc⟩ := hm; simpa using hc.symm
  | bracket _ _ _ => obtain ⟨c, rfl, hc, _⟩ := hm; simpa using hc.symm

theorem seq_avoids {α : Type} {M : α → List Nat → Prop} {ps : List α} (h : ∀ p ∈ ps, ∀ x, M p x → 47 ∉ x) {x : List Nat} (hm : SeqMeans M ps x) : 47 ∉ x := by
  induction hm with
  | nil => simp
  | cons h1 _ ih =>
    rw [List.mem_append]
    rintro (e | e)
    · exact h _ (by simp) _ h1 e
    · exact ih (fun p hp => h p (by simp [hp])) e

theorem name_avoids {ps : List Piece} (h : ∀ p ∈ ps, p.InName) {x : List Nat} (hm : SeqMeans Piece.Means ps x) : 47 ∉ x := by
  refine seq_avoids (fun p hp y hy => ?_) hm
  have := h p hp
  rcases p with ⟨p⟩ | ⟨alts⟩
  · exact part_inName this hy
  · obtain ⟨a, ha, hy⟩ := hy
    exact seq_avoids (fun q hq z hz => part_inName (this a ha q hq) hz) hy

theorem cut_names {ns : List JStr} (hne : ns ≠ []) (h : ∀ n ∈ ns, SLASH ∉ n) (x y : List Nat) :
    codePoints (joinSlash ns) = x ++ 47 :: y ↔ ∃ a b, a ≠ [] ∧ b ≠ [] ∧ ns = a ++ b ∧ codePoints (joinSlash a) = x ∧ codePoints (joinSlash b) = y := by
  have hs : ∀ Y : JStr, codePoints (SLASH :: Y) = 47 :: codePoints Y := fun Y => by
    exact codePoints_append (joins_slash_left Y)
  constructor
  · intro e
    have es := codePoints_split e
    have hu : (47 :: y).flatMap units = SLASH :: y.flatMap units := rfl
    rw [hu] at es
    refine ⟨_, _, splitRaw_ne_nil _ _, splitRaw_ne_nil _ _, joinSlash_cut hne h es, ?_, ?_⟩
    · rw [joinSlash_split, codePoints_units_left e]
    · have := codePoints_units_right e
      rw [hu, hs] at this
      rw [joinSlash_split]
      exact (List.cons.inj this).2
  · rintro ⟨a, b, ha, hb, rfl, rfl, rfl⟩
    rw [joinSlash_append ha hb, codePoints_append (joins_slash_right _ _), hs]

theorem slash_means {x : List Nat} : slashPiece.Means x ↔ x = [47] := Iff.rfl

theorem starStar_names (l : List JStr) : SeqMeans Piece.Means Segment.dirs.pieces (codePoints (joinSlash l)) ↔ ∀ n ∈ l, ∀ c ∈ n, c.toNat ∉ lineEnds :=
  (means_starStar (s := joinSlash l)).trans oneLine_join.symm

/-- One segment against some names. -/
theorem segment_means {s : Segment} (hs : s.Ok) {l : List JStr} (hne : l ≠ []) : SeqMeans Piece.Means s.pieces (codePoints (joinSlash l)) ↔ Accepts [s] l := by
  cases s with
  | dirs =>
    rw [starStar_names]
    constructor
    · intro h; simpa using Accepts.dirs hne h .nil
    · intro h
      generalize hss : [Segment.dirs] = ss at h
      cases h with
      | nil => cases hss
      | name _ _ => cases hss
      | dirs _ h2 h3 => cases hss; cases h3; simpa using h2
  | name ps =>
    constructor
    · intro h
      have h0 := name_avoids hs.2 h
      cases l with
      | nil => exact absurd rfl hne
      | cons n l =>
        cases l with
        | nil => exact .name h .nil
        | cons m l =>
          rw [slash_codePoints] at h0
          exact absurd (by simp [joinSlash]) h0
    · intro h
      cases h with
      | name h1 h2 => cases h2; exact h1

theorem accepts_cons {s : Segment} {ss : List Segment} {ns : List JStr} : Accepts (s :: ss) ns ↔ ∃ a b, a ≠ [] ∧ ns = a ++ b ∧ Accepts [s] a ∧ Accepts ss b := by
  constructor
  · intro h
    cases h with
    | @name ps _ n ns h1 h2 => exact ⟨[n], ns, by simp, rfl, .name h1 .nil, h2⟩
    | @dirs l _ ns h1 h2 h3 => exact ⟨l, ns, h1, rfl, by simpa using Accepts.dirs h1 h2 .nil, h3⟩
  · rintro ⟨a, b, _, rfl, h1, h2⟩
    generalize hss : [s] = xs at h1
    cases h1 with
    | nil => cases hss
    | name h3 h4 => cases hss; cases h4; exact .name h3 h2
    | dirs h3 h4 h5 => cases hss; cases h5; simpa using Accepts.dirs h3 h4 h2

theorem accepts_nonempty {segs : List Segment} {ns : List JStr} (h : Accepts segs ns) (hs : segs ≠ []) : ns ≠ [] := by
  cases h with
  | nil => exact absurd rfl hs
  | name _ _ => simp
  | dirs h1 _ _ => simp [h1]

theorem segPieces_means {segs : List Segment} (hs : segs ≠ []) (h : ∀ s ∈ segs, s.Ok) {ns : List JStr} (hne : ns ≠ []) (hn : ∀ n ∈ ns, SLASH ∉ n) :
    SeqMeans Piece.Means (segPieces segs) (codePoints (joinSlash ns)) ↔ Accepts segs ns := by
  induction segs generalizing ns with
  | nil => exact absurd rfl hs
  | cons s ss ih =>
    by_cases he : ss = []
    · subst he; exact segment_means (h s (by simp)) hne
    · rw [segPieces_cons he, seq_append_iff, accepts_cons]
      constructor
      · rintro ⟨x, y, e, hx, hy⟩
        obtain ⟨u, v, rfl, hu, hv⟩ := seq_cons_iff.1 hy
        rw [slash_means] at hu; subst hu
        obtain ⟨a, b, ha, hb, rfl, rfl, rfl⟩ := (cut_names hne hn x v).1 e
        exact ⟨a, b, ha, rfl, (segment_means (h s (by simp)) ha).1 hx,
          (ih he (fun z hz => h z (by simp [hz])) hb (fun n hm => hn n (by simp [hm]))).1 hv⟩
      · rintro ⟨a, b, ha, rfl, h1, h2⟩
        have hb := accepts_nonempty h2 he
        refine ⟨_, 47 :: _, (cut_names hne hn _ _).2 ⟨a, b, ha, hb, rfl, rfl, rfl⟩, (segment_means (h s (by simp)) ha).2 h1, ?_⟩
        exact seq_cons_iff.2 ⟨[47], _, rfl, slash_means.2 rfl, (ih he (fun z hz => h z (by simp [hz])) hb (fun n hm => hn n (by simp [hm]))).2 h2⟩

/-- A pattern written segment by segment. -/
theorem segments_pattern {segs : List Segment} (hs : segs ≠ []) (h : ∀ s ∈ segs, s.Ok) :
    ∃ ps, GlobOk ps ∧ writeGlob ps = writeSegments segs ∧ ∀ ns : List JStr, ns ≠ [] → (∀ n ∈ ns, SLASH ∉ n) → (GlobMeans ps (joinSlash ns) ↔ Accepts segs ns) :=
  ⟨merge (segPieces segs), merge_ok (segPieces_loose h), by rw [merge_write, segPieces_write],
    fun _ hne hn => (merge_means (segPieces_join h) (segPieces_loose h) _).trans (segPieces_means hs h hne hn)⟩

theorem joinSlash_relativeParts (ns : List JStr) : joinSlash (relativeParts ns) = joinSlash ns := by
  unfold relativeParts; split
  · rename_i h; subst h; rfl
  · rfl

theorem joinSlash_absoluteParts (ns : List JStr) : joinSlash (absoluteParts ns) = SLASH :: joinSlash ns := by
  unfold absoluteParts
  rw [joinSlash_cons (by unfold relativeParts; split <;> simp_all), joinSlash_relativeParts]; rfl

theorem relativeParts_ne (ns : List JStr) : relativeParts ns ≠ [] := by unfold relativeParts; split <;> simp_all

theorem relativeParts_slash {ns : List JStr} (h : ∀ n ∈ ns, SLASH ∉ n) : ∀ n ∈ relativeParts ns, SLASH ∉ n := by
  unfold relativeParts; split
  · simp
  · exact h

section
variable {m : Type → Type} [Monad m] (odd : GlobCompiler) {segs : List Segment} (hs : segs ≠ []) (h : ∀ s ∈ segs, s.Ok) (hstar : writeSegments segs ≠ j!"*")
include hs h hstar

/-- **C96**: a relative path glob accepts a path below the reference iff its segments accept the names on the way: every pattern stands for exactly one name, every `**` for one or more. -/
theorem C96_relative {cwd ref : Path} (hw : cwd.abs = true) (hr : ref.Valid) :
    ∃ (mt : Matcher m) (b : Path → Bool), hasRelativePathMatchingGlob (getPathMatcher odd) cwd ref (writeSegments segs) = .ok mt ∧ (∀ p, mt p = pure (b p)) ∧
      ∀ (p : Path) (way : List JStr), p.Valid → (target cwd p).names = (target cwd ref).names ++ way → (∀ n ∈ way, SLASH ∉ n) → (b p = true ↔ Accepts segs (relativeParts way)) := by
  obtain ⟨ps, h1, h2, h3⟩ := segments_pattern hs h
  obtain ⟨mt, b, e1, e2, _, e3⟩ := C78_relative (m := m) odd h1 (by rw [h2]; exact hstar) hw hr
  refine ⟨mt, b, by rw [← h2]; exact e1, e2, fun p way hv hway hsl => ?_⟩
  rw [e3 p way hv hway, ← joinSlash_relativeParts, h3 _ (relativeParts_ne _) (relativeParts_slash hsl)]

/-- **C96**: an absolute path glob accepts a path iff its segments accept the names of the absolute normalized path, with an empty one before the first slash. -/
theorem C96_absolute {cwd : Path} (hw : cwd.abs = true) (hc : ∀ n ∈ cwd.names, n ≠ j!"." ∧ n ≠ j!"..") :
    ∃ (mt : Matcher m) (b : Path → Bool), hasAbsolutePathMatchingGlob (getPathMatcher odd) cwd (writeSegments segs) = .ok mt ∧ (∀ p, mt p = pure (b p)) ∧
      ∀ p : Path, p.Valid → ¬ (p.abs = false ∧ p.normalize.names.head? = some j!"..") → (∀ n ∈ (target cwd p).names, SLASH ∉ n) →
        (b p = true ↔ Accepts segs (absoluteParts (target cwd p).names)) := by
  obtain ⟨ps, h1, h2, h3⟩ := segments_pattern hs h
  obtain ⟨mt, b, e1, e2, e3⟩ := C78_absolute (m := m) odd h1 (by rw [h2]; exact hstar) hw hc
  refine ⟨mt, b, by rw [← h2]; exact e1, e2, fun p hv hn hsl => ?_⟩
  rw [e3 p hv hn, ← joinSlash_absoluteParts, h3 _ (by simp [absoluteParts])]
  intro n hm
  rcases List.mem_cons.1 hm with rfl | hm
  · simp
  · exact relativeParts_slash hsl n hm

end

/-- **C96**: `**` never stands for nothing: names are needed for all segments, and without `**` there is exactly one for each. -/
theorem C96_lengths {segs : List Segment} {ns : List JStr} (h : Accepts segs ns) : segs.length ≤ ns.length ∧ ((∀ s ∈ segs, s ≠ .dirs) → segs.length = ns.length) := by
  induction h with
  | nil => simp
  | name _ _ ih => simp only [List.length_cons]; exact ⟨by omega, fun h => by rw [ih.2 (fun s hs => h s (by simp [hs]))]⟩
  | @dirs l _ _ h1 _ _ ih =>
    have := List.length_pos_iff.2 h1
    simp only [List.length_cons, List.length_append]
    exact ⟨by omega, fun h => absurd rfl (h _ (by simp))⟩

/-- The segment for exactly this name. -/
def exactly (n : JStr) : Segment := .name [.part (.text (bare n))]

theorem exactly_ok {n : JStr} (h : Verbatim n) (hs : SLASH ∉ n) : (exactly n).Ok :=
  ⟨bare_ok h, fun p hp => by
    simp at hp; subst hp
    intro x hx
    have : x.1 ∈ (bare n).map Prod.fst := List.mem_map_of_mem hx
    rw [bare_fst] at this
    exact fun e => hs (e ▸ this)⟩

theorem exactly_write (ns : List JStr) : (ns.map exactly).map (fun s => writeGlob s.pieces) = ns := by
  rw [List.map_map]
  conv_rhs => rw [← List.map_id ns]
  refine List.map_congr_left fun n _ => ?_
  simp [exactly, Segment.pieces, writeGlob, Piece.write, bare_write]

theorem accepts_exactly {ds : List JStr} {segs : List Segment} {ns : List JStr} : Accepts (ds.map exactly ++ segs) ns ↔ ∃ r, ns = ds ++ r ∧ Accepts segs r := by
  induction ds generalizing ns with
  | nil => simp
  | cons d ds ih =>
    rw [List.map_cons, List.cons_append]
    constructor
    · intro h
      cases h with
      | name h1 h2 =>
        obtain ⟨r, rfl, hr⟩ := ih.1 h2
        rw [means_text, bare_fst] at h1
        exact ⟨r, by rw [h1]; rfl, hr⟩
    · rintro ⟨r, rfl, hr⟩
      exact .name (by rw [means_text, bare_fst]) (ih.2 ⟨r, rfl, hr⟩)

/-- A pattern of names, `**` and names. -/
theorem accepts_between {ds es ns : List JStr} : Accepts (ds.map exactly ++ .dirs :: es.map exactly) ns ↔ ∃ mid, mid ≠ [] ∧ OneLine mid ∧ ns = ds ++ mid ++ es := by
  rw [accepts_exactly]
  constructor
  · rintro ⟨r, rfl, h⟩
    cases h with
    | dirs h1 h2 h3 =>
      have : es.map exactly = es.map exactly ++ [] := by simp
      rw [this] at h3
      obtain ⟨r, rfl, hr⟩ := accepts_exactly.1 h3
      cases hr
      exact ⟨_, h1, h2, by simp⟩
  · rintro ⟨mid, h1, h2, rfl⟩
    refine ⟨mid ++ es, by simp, .dirs h1 h2 ?_⟩
    have : es.map exactly = es.map exactly ++ [] := by simp
    rw [this]
    exact accepts_exactly.2 ⟨[], by simp, .nil⟩

/-- **C96**, everyday form: `a/b/**/c/d` accepts the paths that start with `a/b` and end with `c/d` with at least one name between them; `a/b/c/d` is not accepted. -/
theorem C96_between {m : Type → Type} [Monad m] (odd : GlobCompiler) {ds es : List JStr} (hd : ∀ n ∈ ds, Verbatim n ∧ SLASH ∉ n) (he : ∀ n ∈ es, Verbatim n ∧ SLASH ∉ n)
    {cwd ref : Path} (hw : cwd.abs = true) (hr : ref.Valid) :
    ∃ (mt : Matcher m) (b : Path → Bool), hasRelativePathMatchingGlob (getPathMatcher odd) cwd ref (joinSlash (ds ++ [j!"**"] ++ es)) = .ok mt ∧ (∀ p, mt p = pure (b p)) ∧
      ∀ (p : Path) (way : List JStr), p.Valid → (target cwd p).names = (target cwd ref).names ++ way → (∀ n ∈ way, SLASH ∉ n) → way ≠ [] →
        (b p = true ↔ ∃ mid, mid ≠ [] ∧ OneLine mid ∧ way = ds ++ mid ++ es) := by
  have hwr : writeSegments (ds.map exactly ++ .dirs :: es.map exactly) = joinSlash (ds ++ [j!"**"] ++ es) := by
    unfold writeSegments
    rw [List.map_append, List.map_cons, exactly_write, exactly_write, List.append_assoc]; rfl
  have hne : joinSlash (ds ++ [j!"**"] ++ es) ≠ j!"*" := by
    intro e
    have h42 : ∀ c ∈ joinSlash (ds ++ [j!"**"] ++ es), c = 42 := by rw [e]; simp
    have hcount : 2 ≤ (joinSlash (ds ++ [j!"**"] ++ es)).length := by
      have : ∀ (l : List JStr) (n : JStr), n ∈ l → n.length ≤ (joinSlash l).length := by
        intro l
        induction l with
        | nil => intro n hn; cases hn
        | cons x l ih =>
          intro n hn
          by_cases hl : l = []
          · subst hl; simp at hn; subst hn; simp [joinSlash]
          · rw [joinSlash_cons hl]
            rcases List.mem_cons.1 hn with rfl | hn
            · simp
            · have := ih n hn; simp; omega
      have := this (ds ++ [j!"**"] ++ es) j!"**" (by simp)
      simpa using this
    rw [e] at hcount
    simp at hcount
  obtain ⟨mt, b, e1, e2, e3⟩ := C96_relative (m := m) odd (segs := ds.map exactly ++ .dirs :: es.map exactly) (by simp)
    (fun s hs => by
      rcases List.mem_append.1 hs with hs | hs
      · obtain ⟨n, hn, rfl⟩ := List.mem_map.1 hs; exact exactly_ok (hd n hn).1 (hd n hn).2
      · rcases List.mem_cons.1 hs with rfl | hs
        · trivial
        · obtain ⟨n, hn, rfl⟩ := List.mem_map.1 hs; exact exactly_ok (he n hn).1 (he n hn).2)
    (by rw [hwr]; exact hne) hw hr
  refine ⟨mt, b, by rw [← hwr]; exact e1, e2, fun p way hv hway hsl hn => ?_⟩
  rw [e3 p way hv hway hsl, relativeParts, if_neg hn, accepts_between]

/-- The segments of `**/*.ext`. -/
def extSegs (ext : JStr) : List Segment := [.dirs, .name [.part .star, .part (.text (bare (j!"." ++ ext)))]]

theorem extSegs_write (ext : JStr) : writeSegments (extSegs ext) = j!"**/*." ++ ext := by
  have hb := bare_flat (j!"." ++ ext)
  simp only [extSegs, writeSegments, List.map_cons, List.map_nil, joinSlash, Segment.pieces, writeGlob, List.flatMap_cons, List.flatMap_nil, Piece.write, Part.write, hb]
  simp [SLASH]

theorem extSegs_star (ext : JStr) : writeSegments (extSegs ext) ≠ j!"*" := by
  rw [extSegs_write]; intro e; have := congrArg List.length e; simp at this

theorem extSegs_ok {ext : JStr} (h : ∀ c ∈ ext, Glob.plain false c ∧ c ≠ SLASH) : ∀ s ∈ extSegs ext, s.Ok := by
  have hv : Verbatim (j!"." ++ ext) := ⟨by simp, fun c hc => by
    rcases List.mem_append.1 hc with hc | hc
    · simp at hc; subst hc; exact ⟨by decide, by simp⟩
    · exact (h c hc).1⟩
  have hsl : SLASH ∉ j!"." ++ ext := by
    intro e
    rcases List.mem_append.1 e with e | e
    · exact absurd e (by decide)
    · exact (h _ e).2 rfl
  intro s hs
  simp [extSegs] at hs
  rcases hs with rfl | rfl
  · trivial
  · refine ⟨⟨trivial, trivial, bare_ok hv⟩, fun p hp => ?_⟩
    simp only [List.mem_cons, List.not_mem_nil, or_false] at hp
    rcases hp with rfl | rfl
    · trivial
    · exact (exactly_ok hv hsl).2 _ (by simp)

theorem extSegs_accepts {ext : JStr} {way : List JStr} (hs : ∀ n ∈ way, SLASH ∉ n) :
    Accepts (extSegs ext) (relativeParts way) ↔ ∃ dirs base, dirs ≠ [] ∧ OneLine dirs ∧ way = dirs ++ [base ++ j!"." ++ ext] := by
  have hlast : ∀ n : JStr, SLASH ∉ n → (GlobMeans [.part .star, .part (.text (bare (j!"." ++ ext)))] n ↔ ∃ base, n = base ++ j!"." ++ ext) := fun n hn => by
    rw [means_suffix (by rw [bare_fst]; intro c hc; simp at hc; subst hc; decide) hn, bare_fst]
    exact ⟨fun ⟨t, ht⟩ => ⟨t, by rw [← ht, List.append_assoc]⟩, fun ⟨t, ht⟩ => ⟨t, by rw [ht, List.append_assoc]⟩⟩
  unfold extSegs
  constructor
  · intro ha
    generalize hw' : relativeParts way = w at ha
    cases ha with
    | @dirs l _ _ h1 h2 h3 =>
      cases h3 with
      | @name _ _ n ns h4 h5 =>
        cases h5
        have hne : way ≠ [] := by
          rintro rfl
          have h0 := congrArg List.length hw'
          have h1 := List.length_pos_iff.2 h1
          rw [relativeParts, if_pos rfl, List.length_append, List.length_singleton, List.length_singleton] at h0
          omega
        rw [relativeParts, if_neg hne] at hw'
        obtain ⟨base, hb⟩ := (hlast n (hs n (by rw [hw']; simp))).1 h4
        exact ⟨l, base, h1, h2, by rw [hw', hb]⟩
  · rintro ⟨dirs, base, h1, h2, rfl⟩
    rw [relativeParts, if_neg (by simp)]
    exact .dirs h1 h2 (.name ((hlast _ (hs _ (by simp))).2 ⟨base, rfl⟩) .nil)

/-- **C96**, everyday form: as a relative path `**/*.ext` accepts the files base.ext in subdirectories, but not those in the reference directory itself. -/
theorem C96_extension {m : Type → Type} [Monad m] (odd : GlobCompiler) {ext : JStr} (h : ∀ c ∈ ext, Glob.plain false c ∧ c ≠ SLASH) {cwd ref : Path} (hw : cwd.abs = true) (hr : ref.Valid) :
    ∃ (mt : Matcher m) (b : Path → Bool), hasRelativePathMatchingGlob (getPathMatcher odd) cwd ref (j!"**/*." ++ ext) = .ok mt ∧ (∀ p, mt p = pure (b p)) ∧
      ∀ (p : Path) (way : List JStr), p.Valid → (target cwd p).names = (target cwd ref).names ++ way → (∀ n ∈ way, SLASH ∉ n) →
        (b p = true ↔ ∃ dirs base, dirs ≠ [] ∧ OneLine dirs ∧ way = dirs ++ [base ++ j!"." ++ ext]) := by
  obtain ⟨mt, b, e1, e2, e3⟩ := C96_relative (m := m) odd (by simp [extSegs]) (extSegs_ok h) (extSegs_star ext) hw hr
  exact ⟨mt, b, by rw [← extSegs_write]; exact e1, e2, fun p way hpv hway hs => (e3 p way hpv hway hs).trans (extSegs_accepts hs)⟩

/-- Example: `src/**/*.java` has three segments, so it never accepts `src/A.java`; it accepts `src/main/A.java`. -/
example : let segs := [exactly j!"src", .dirs, .name [.part .star, .part (.text (bare j!".java"))]]
    writeSegments segs = j!"src/**/*.java" ∧ (∀ s ∈ segs, s.Ok) ∧ ¬ Accepts segs [j!"src", j!"A.java"] ∧ Accepts segs [j!"src", j!"main", j!"A.java"] := by
  refine ⟨by decide, ?_, fun h => absurd (C96_lengths h).1 (by decide), ?_⟩
  · have hj : Verbatim j!".java" := ⟨by decide, by simp [Glob.plain]⟩
    simp only [List.mem_cons, List.not_mem_nil, or_false, forall_eq_or_imp, forall_eq]
    refine ⟨exactly_ok ⟨by decide, by simp [Glob.plain]⟩ (by decide), trivial, ⟨trivial, trivial, bare_ok hj⟩, fun p hp => ?_⟩
    simp only [List.mem_cons, List.not_mem_nil, or_false] at hp
    rcases hp with rfl | rfl
    · trivial
    · exact (exactly_ok hj (by decide)).2 _ (by simp)
  · refine .name (by rw [means_text, bare_fst]) (.dirs (l := [j!"main"]) (by simp) (by decide) (.name ?_ .nil))
    rw [means_suffix (by rw [bare_fst]; intro c hc; simp at hc; subst hc; decide) (by decide), bare_fst]
    exact ⟨j!"A", rfl⟩

/-- The hypotheses of the relative and absolute forms are met. -/
example := C96_between (m := Except Exn) (fun _ => .error .illegalArgument) (ds := [j!"src"]) (es := [j!"x.java"]) (by simp [Verbatim, Glob.plain, SLASH]) (by simp [Verbatim, Glob.plain, SLASH])
  (cwd := Path.root) (ref := Demo.r) rfl (.inr (by decide))
example := C96_extension (m := Except Exn) (fun _ => .error .illegalArgument) (ext := j!"java") (by simp [Glob.plain, SLASH]) (cwd := Path.root) (ref := Demo.r) rfl (.inr (by decide))
example := C96_absolute (m := Except Exn) (fun _ => .error .illegalArgument) (segs := [.dirs, exactly j!"docs", .dirs]) (by simp)
  (by simp only [List.mem_cons, List.not_mem_nil, or_false, forall_eq_or_imp, forall_eq]; exact ⟨trivial, exactly_ok ⟨by decide, by simp [Glob.plain]⟩ (by decide), trivial⟩)
  (by decide) (cwd := Path.root) rfl (by simp [Path.root])

end JFTP
