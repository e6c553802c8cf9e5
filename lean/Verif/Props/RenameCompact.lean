import Verif.Props.Rename

/-!
C119 with compact directories.
-/

namespace JFTP
open Spec Spec.OnePage Spec.Rename JFTP.OnePage

namespace Rename

section
variable {S S' : Settings}

/-! ### Lists of lines -/

theorem part_left {q q' : Path} {l l' : List JStr} (h : OnePart S S' q q' l l') (x : List JStr) : OnePart S S' q q' (x ++ l) (x ++ l') := by
  obtain ⟨a, b, sym, u, v, e, e', y, y', rfl, rfl, he⟩ := h
  exact ⟨x ++ a, b, sym, u, v, e, e', y, y', by simp, by simp, he⟩

theorem part_right {q q' : Path} {l l' : List JStr} (h : OnePart S S' q q' l l') (x : List JStr) : OnePart S S' q q' (l ++ x) (l' ++ x) := by
  obtain ⟨a, b, sym, u, v, e, e', y, y', rfl, rfl, he⟩ := h
  exact ⟨a, b ++ x, sym, u, v, e, e', y, y', by simp, by simp, he⟩

theorem part_indent {q q' : Path} {l l' : List JStr} (h : OnePart S S' q q' l l') (f g : JStr) : OnePart S S' q q' (OnePage.indent f g l) (OnePage.indent f g l') := by
  obtain ⟨a, b, sym, u, v, e, e', y, y', rfl, rfl, he⟩ := h
  cases a with
  | nil => exact ⟨[], b.map (g ++ j!" " ++ ·), f ++ j!" " ++ sym, u, v, e, e', y, y', by simp [OnePage.indent], by simp [OnePage.indent], he⟩
  | cons x a => exact ⟨(f ++ j!" " ++ x) :: a.map (g ++ j!" " ++ ·), b.map (g ++ j!" " ++ ·), g ++ j!" " ++ sym, u, v, e, e', y, y', by simp [OnePage.indent], by simp [OnePage.indent], he⟩

theorem hang_onePart {q q' : Path} (T : Settings) {b b' : List JStr} (h : OnePart S S' q q' b b') : ∀ (A B : List (List JStr)), OnePart S S' q q' (hang T (A ++ b :: B)) (hang T (A ++ b' :: B))
  | [], [] => part_indent h _ _
  | [], c :: B => part_right (part_indent h _ _) _
  | a :: A, B => by
    rw [List.cons_append, List.cons_append, hang_cons T a (by simp), hang_cons T a (by simp)]
    exact part_left (hang_onePart T h A B) _

end

/-! ### Trees -/

section
variable {fs fs' : PureFs} {S S' : Settings}

/-- Two entries with the same name, of the same kind, with the same lines; the lines of a directory begin with the names before it, behind an emoji. -/
structure RelC (fs fs' : PureFs) (a a' : Kid) : Prop where
  name : name a.path = name a'.path
  isDir : fs.isDir a.path = a.isDir
  isDir' : fs'.isDir a'.path = a.isDir
  kind : a'.isDir = a.isDir
  ok : a.ok = a'.ok
  lines : a.lines = a'.lines
  shape : a.isDir = true → ∃ tail v e x, ∀ P, a.lines P = (icon e ++ (P ++ v) ++ x) :: tail

theorem RelC.rel {a a' : Kid} (h : RelC fs fs' a a') : Rel fs fs' a a' := ⟨h.name, h.isDir, h.isDir', h.kind, h.ok, by rw [h.lines]⟩

theorem relC_rel {l l' : List Kid} (h : List.Forall₂ (RelC fs fs') l l') : List.Forall₂ (Rel fs fs') l l' := h.imp fun _ _ i => i.rel

/-- The names before an entry on its line: files begin a line. -/
def lead : FileTree → JStr → JStr
  | .file _, _ => []
  | _, P => P

/-- Emoji and extension of the line: the same, or those of the paths. -/
def Ends (S S' : Settings) (q q' : Path) (e e' : Option JStr) (x x' : JStr) : Prop := e = e' ∧ x = x' ∨ e = S.emoji q ∧ x = (S.ext q).getD [] ∧ e' = S'.emoji q' ∧ x' = (S'.ext q').getD []

theorem block_lines {k : Nat} {p : Path} {es : List (JStr × FileTree)} (hk : ¬ S.maxDepth ≤ k) (P : JStr) : OnePage.block S k p (.dir es) P = dirLines S k p P (arrange S (es.map (kid S (k + 1) p))) := by
  rw [OnePage.block, if_neg hk, kidsOf_eq]; rfl

theorem contentC (ha : Alike fs fs' S S') (t : FileTree) (k : Nat) (p p' : Path) (h : Holds fs p t) (h' : Holds fs' p' t) (hl : S.limit p = S'.limit p') (hx : S.ext p = none ↔ S'.ext p' = none) :
    complete S k p t = complete S' k p' t ∧ ∃ tail v e e' x x', (∀ P, OnePage.block S k p t P = (icon e ++ (lead t P ++ name p ++ v) ++ x) :: tail) ∧
      (∀ P, OnePage.block S' k p' t P = (icon e' ++ (lead t P ++ name p' ++ v) ++ x') :: tail) ∧ Ends S S' p p' e e' x x' := by
  match t, h, h' with
  | .file a, _, _ =>
    exact ⟨by rw [complete, complete], [], (a.map mark).getD [], _, _, _, _, fun P => by rw [OnePage.block]; simp [lead], fun P => by rw [OnePage.block]; simp [lead], .inr ⟨rfl, rfl, rfl, rfl⟩⟩
  | .closed, _, _ =>
    exact ⟨by rw [complete, complete, ha.maxDepth], [S.lastBranch ++ j!" ..."], j!"/", _, _, _, _, fun P => by rw [OnePage.block]; rfl, fun P => by rw [OnePage.block, ha.lastBranch]; rfl, .inr ⟨rfl, rfl, rfl, rfl⟩⟩
  | .dir es, .dir h1 h2 h3, .dir h1' h2' h3' =>
    by_cases hk : S.maxDepth ≤ k
    · have hk' : S'.maxDepth ≤ k := ha.maxDepth ▸ hk
      exact ⟨by rw [complete, complete, decide_eq_true hk, decide_eq_true hk', Bool.true_or, Bool.true_or], [S.lastBranch ++ j!" ..."], j!"/", _, _, _, _, fun P => by rw [OnePage.block, if_pos hk]; rfl,
        fun P => by rw [OnePage.block, if_pos hk', ha.lastBranch]; rfl, .inr ⟨rfl, rfl, rfl, rfl⟩⟩
    · have hk' : ¬ S'.maxDepth ≤ k := ha.maxDepth ▸ hk
      have hR : ∀ e ∈ es, RelC fs fs' (kid S (k + 1) p e) (kid S' (k + 1) p' e) := by
        intro e he
        have : sizeOf e.2 < sizeOf es := by
          have := List.sizeOf_lt_of_mem he
          cases e; simp at this ⊢; omega
        have hn : name (p.child e.1) = name (p'.child e.1) := by rw [name_child, name_child]
        have hd : fs.isDir (p.child e.1) = fs'.isDir (p'.child e.1) := by rw [holds_kind (h3 e he), holds_kind (h3' e he)]
        obtain ⟨i1, tail, v, e₁, e₂, x₁, x₂, i2, i3, i4⟩ := contentC ha e.2 (k + 1) (p.child e.1) (p'.child e.1) (h3 e he) (h3' e he) (ha.limit _ _ hn hd) (by rw [ha.ext _ _ hn hd])
        have hee : e₁ = e₂ ∧ x₁ = x₂ := by
          rcases i4 with h | ⟨rfl, rfl, rfl, rfl⟩
          · exact h
          · exact ⟨ha.emoji _ _ hn hd, by rw [ha.ext _ _ hn hd]⟩
        obtain ⟨rfl, rfl⟩ := hee
        refine ⟨hn, holds_kind (h3 e he), holds_kind (h3' e he), rfl, i1, ?_, fun hd => ⟨tail, name (p.child e.1) ++ v, e₁, x₁, fun P => ?_⟩⟩
        · funext P
          show OnePage.block _ _ _ _ _ = OnePage.block _ _ _ _ _
          rw [i2, i3, hn]
        · show OnePage.block _ _ _ _ _ = _
          rw [i2]
          have : lead e.2 P = P := by
            have hd : OnePage.FileTree.isDir e.2 = true := hd
            generalize e.2 = t at hd
            cases t
            · cases hd
            · rfl
            · rfl
          rw [this, List.append_assoc P]
      have hF : List.Forall₂ (RelC fs fs') (es.map (kid S (k + 1) p)) (es.map (kid S' (k + 1) p')) := by
        rw [List.forall₂_map_left_iff, List.forall₂_map_right_iff]
        exact List.forall₂_same.2 hR
      have hA := arrange_both (S := S) (S' := S') (fun a a' b b' g1 g2 => Rel.before ha (RelC.rel g1) (RelC.rel g2)) (fun a a' g => Rel.accepted ha (RelC.rel g)) hF
      have hL := leave_both hA (S.limit p)
      refine ⟨?_, ?_⟩
      · rw [complete_dir hk, complete_dir hk', ← hl]
        exact all_both (relC_rel hL)
      · simp only [block_lines hk, block_lines hk']
        by_cases hm : ∃ c, Merges S k p (arrange S (es.map (kid S (k + 1) p))) c
        · obtain ⟨c, hm⟩ := hm
          obtain ⟨m1, m2, m3, m4, m5, m6⟩ := hm
          rw [m1] at hL
          cases hL' : leave (S.limit p) (arrange S' (es.map (kid S' (k + 1) p'))) with
          | nil => rw [hL'] at hL; cases hL
          | cons c' cs =>
            rw [hL'] at hL
            cases hL with
            | cons hcc hnil =>
              cases hnil
              have hm' : Merges S' k p' (arrange S' (es.map (kid S' (k + 1) p'))) c' :=
                ⟨by rw [← hl]; exact hL', by rw [← hl, ← dots_eq hA.length_eq]; exact m2, by rw [hcc.kind]; exact m3, ha.compact ▸ m4, m5, hx.1 m6⟩
              obtain ⟨tail, v, e, x, hs⟩ := hcc.shape m3
              refine ⟨tail, j!"/" ++ v, e, e, x, x, fun P => ?_, fun P => ?_, .inl ⟨rfl, rfl⟩⟩
              · rw [dirLines_merge ⟨m1, m2, m3, m4, m5, m6⟩, hs]; simp [lead]
              · rw [dirLines_merge hm', ← hcc.lines, hs]; simp [lead]
        · have hm' : ¬ ∃ c, Merges S' k p' (arrange S' (es.map (kid S' (k + 1) p'))) c := by
            rintro ⟨c', m1, m2, m3, m4, m5, m6⟩
            rw [← hl] at m1 m2
            rw [m1] at hL
            cases hL' : leave (S.limit p) (arrange S (es.map (kid S (k + 1) p))) with
            | nil => rw [hL'] at hL; cases hL
            | cons c cs =>
              rw [hL'] at hL
              cases hL with
              | cons hcc hnil =>
                cases hnil
                exact hm ⟨c, hL', by rw [dots_eq hA.length_eq]; exact m2, by rw [← hcc.kind]; exact m3, by rw [ha.compact]; exact m4, m5, hx.2 m6⟩
          refine ⟨_, j!"/", _, _, _, _, fun P => by rw [dirLines_plain (fun c h => hm ⟨c, h⟩)]; rfl, fun P => ?_, .inr ⟨rfl, rfl, rfl, rfl⟩⟩
          rw [dirLines_plain (fun c h => hm' ⟨c, h⟩), ← hl, lines_both (relC_rel hL), dots_eq hA.length_eq, hang_congr ha.branch ha.lastBranch ha.bar ha.blank]; rfl
termination_by sizeOf t
decreasing_by simp; omega

/-- The same path, or paths of the same name and kind: the same lines. -/
theorem contentC_same (ha : Alike fs fs' S S') (t : FileTree) (k : Nat) (p : Path) (h : Holds fs p t) (h' : Holds fs' p t) : RelC fs fs' ⟨p, OnePage.FileTree.isDir t, complete S k p t, OnePage.block S k p t⟩
    ⟨p, OnePage.FileTree.isDir t, complete S' k p t, OnePage.block S' k p t⟩ := by
  have hd : fs.isDir p = fs'.isDir p := by rw [holds_kind h, holds_kind h']
  obtain ⟨i1, tail, v, e₁, e₂, x₁, x₂, i2, i3, i4⟩ := contentC ha t k p p h h' (ha.limit _ _ rfl hd) (by rw [ha.ext p p rfl hd])
  have hee : e₁ = e₂ ∧ x₁ = x₂ := by
    rcases i4 with h | ⟨rfl, rfl, rfl, rfl⟩
    · exact h
    · exact ⟨ha.emoji p p rfl hd, by rw [ha.ext p p rfl hd]⟩
  obtain ⟨rfl, rfl⟩ := hee
  refine ⟨rfl, holds_kind h, holds_kind h', rfl, i1, ?_, fun hd => ⟨tail, name p ++ v, e₁, x₁, fun P => ?_⟩⟩
  · funext P
    show OnePage.block _ _ _ _ _ = OnePage.block _ _ _ _ _
    rw [i2, i3]
  · show OnePage.block _ _ _ _ _ = _
    rw [i2]
    have : lead t P = P := by
      have hd : OnePage.FileTree.isDir t = true := hd
      cases t
      · cases hd
      · rfl
      · rfl
    rw [this, List.append_assoc P]

/-- An entry of a directory changes one line, or nothing that is displayed. -/
theorem stepC (ha : Alike fs fs' S S') {q q' : Path} {k : Nat} {p : Path} (hd : fs.isDir p = fs'.isDir p) {l₁ l₂ : List (JStr × FileTree)} {e e' : JStr × FileTree} (hk : ¬ S.maxDepth ≤ k)
    (h : ∀ x ∈ l₁ ++ l₂, Holds fs (p.child x.1) x.2) (h' : ∀ x ∈ l₁ ++ l₂, Holds fs' (p.child x.1) x.2)
    (hb : ∀ x ∈ l₁ ++ l₂, before S (p.child x.1) (p.child e.1) = before S' (p.child x.1) (p.child e'.1) ∧ before S (p.child e.1) (p.child x.1) = before S' (p.child e'.1) (p.child x.1))
    (hs : shown S (p.child e.1) e.2 = true) (hs' : shown S' (p.child e'.1) e'.2 = true) (hok : complete S (k + 1) (p.child e.1) e.2 = complete S' (k + 1) (p.child e'.1) e'.2)
    (hkind : OnePage.FileTree.isDir e.2 = OnePage.FileTree.isDir e'.2) :
    complete S k p (.dir (l₁ ++ e :: l₂)) = complete S' k p (.dir (l₁ ++ e' :: l₂)) ∧
    ((∀ P, OnePage.block S (k + 1) (p.child e.1) e.2 P = OnePage.block S' (k + 1) (p.child e'.1) e'.2 P) → ∀ P, OnePage.block S k p (.dir (l₁ ++ e :: l₂)) P = OnePage.block S' k p (.dir (l₁ ++ e' :: l₂)) P) ∧
    ((∀ P, OnePart S S' q q' (OnePage.block S (k + 1) (p.child e.1) e.2 P) (OnePage.block S' (k + 1) (p.child e'.1) e'.2 P)) →
      (∀ P, OnePart S S' q q' (OnePage.block S k p (.dir (l₁ ++ e :: l₂)) P) (OnePage.block S' k p (.dir (l₁ ++ e' :: l₂)) P)) ∨
      (∀ P, OnePage.block S k p (.dir (l₁ ++ e :: l₂)) P = OnePage.block S' k p (.dir (l₁ ++ e' :: l₂)) P) ∧ ∃ r, 0 ≤ S.limit r) := by
  have hk' : ¬ S'.maxDepth ≤ k := ha.maxDepth ▸ hk
  have hl : S.limit p = S'.limit p := ha.limit p p rfl hd
  have hem : S.emoji p = S'.emoji p := ha.emoji p p rfl hd
  have hex : S.ext p = S'.ext p := ha.ext p p rfl hd
  let R : Kid → Kid → Prop := fun a a' => RelC fs fs' a a' ∧ before S a.path (p.child e.1) = before S' a'.path (p.child e'.1) ∧ before S (p.child e.1) a.path = before S' (p.child e'.1) a'.path
  have hR : ∀ x ∈ l₁ ++ l₂, R (kid S (k + 1) p x) (kid S' (k + 1) p x) := fun x hx => ⟨contentC_same ha x.2 (k + 1) (p.child x.1) (h x hx) (h' x hx), hb x hx⟩
  have hF : ∀ l : List (JStr × FileTree), (∀ x ∈ l, x ∈ l₁ ++ l₂) → List.Forall₂ R (l.map (kid S (k + 1) p)) (l.map (kid S' (k + 1) p)) := by
    intro l hl
    rw [List.forall₂_map_left_iff, List.forall₂_map_right_iff]
    exact List.forall₂_same.2 fun x hx => hR x (hl x hx)
  have hacc : ∀ (S : Settings) (e : JStr × FileTree), accepted S (kid S (k + 1) p e) = shown S (p.child e.1) e.2 := by
    rintro S ⟨n, t⟩
    cases t <;> rfl
  have hA : One R (kid S (k + 1) p e) (kid S' (k + 1) p e') (arrange S ((l₁ ++ e :: l₂).map (kid S (k + 1) p))) (arrange S' ((l₁ ++ e' :: l₂).map (kid S' (k + 1) p))) := by
    rw [List.map_append, List.map_cons, List.map_append, List.map_cons]
    exact arrange_one (fun a a' b b' g1 g2 => Rel.before ha g1.1.rel g2.1.rel) (fun a a' g => Rel.accepted ha g.1.rel) (fun a a' g => g.2.1) (fun a a' g => g.2.2) (by rw [hacc]; exact hs) (by rw [hacc]; exact hs')
      (hF l₂ fun x hx => List.mem_append_right _ hx) (hF l₁ fun x hx => List.mem_append_left _ hx)
  have hlen := hA.length
  have hfor : ∀ {l l' : List Kid}, List.Forall₂ R l l' → List.Forall₂ (RelC fs fs') l l' := fun g => g.imp fun _ _ i => i.1
  have hforR : ∀ {l l' : List Kid}, List.Forall₂ R l l' → List.Forall₂ (Rel fs fs') l l' := fun g => relC_rel (hfor g)
  simp only [block_lines hk, block_lines hk']
  rw [complete_dir hk, complete_dir hk', ← hl]
  have hcut := leave_one hA (S.limit p)
  generalize arrange S ((l₁ ++ e :: l₂).map (kid S (k + 1) p)) = K at hlen hcut ⊢
  generalize arrange S' ((l₁ ++ e' :: l₂).map (kid S' (k + 1) p)) = K' at hlen hcut ⊢
  have hdots : dots (S.limit p) K = dots (S.limit p) K' := dots_eq hlen
  -- the directory is merged with its only entry in both cases, or in none
  have hmerge : (∃ c c', Merges S k p K c ∧ Merges S' k p K' c' ∧ leave (S.limit p) K = [c] ∧ leave (S.limit p) K' = [c']) ∨ (∀ c, ¬ Merges S k p K c) ∧ ∀ c, ¬ Merges S' k p K' c := by
    have hsame : ∀ c c', leave (S.limit p) K = [c] → leave (S.limit p) K' = [c'] → c.isDir = c'.isDir := by
      intro c c' h1 h2
      rcases hcut with ⟨A, A', B, B', g1, g2, e1, e2⟩ | ⟨-, hL⟩
      · rw [h1] at e1
        rw [h2] at e2
        cases g1 with
        | nil => cases e1; cases e2; exact hkind
        | cons _ _ => simp at e1
      · rw [h1, h2] at hL
        cases hL with
        | cons hcc _ => exact hcc.1.kind.symm
    have hll : (leave (S.limit p) K).length = (leave (S.limit p) K').length := by
      rcases hcut with hO | ⟨-, hL⟩
      · exact hO.length
      · exact hL.length_eq
    by_cases hm : ∃ c, Merges S k p K c
    · obtain ⟨c, m1, m2, m3, m4, m5, m6⟩ := hm
      rw [m1] at hll
      obtain ⟨c', hc'⟩ := List.length_eq_one_iff.1 hll.symm
      exact .inl ⟨c, c', ⟨m1, m2, m3, m4, m5, m6⟩, ⟨by rw [← hl]; exact hc', by rw [← hl, ← hdots]; exact m2, by rw [← hsame c c' m1 hc']; exact m3, ha.compact ▸ m4, m5, hex ▸ m6⟩, m1, hc'⟩
    · refine .inr ⟨fun c h => hm ⟨c, h⟩, ?_⟩
      rintro c' ⟨m1, m2, m3, m4, m5, m6⟩
      rw [← hl] at m1 m2
      rw [m1] at hll
      obtain ⟨c, hc⟩ := List.length_eq_one_iff.1 hll
      exact hm ⟨c, hc, by rw [hdots]; exact m2, by rw [hsame c c' hc m1]; exact m3, by rw [ha.compact]; exact m4, m5, by rw [hex]; exact m6⟩
  refine ⟨?_, ?_⟩
  · rcases hcut with ⟨A, A', B, B', g1, g2, e1, e2⟩ | ⟨-, hL⟩
    · rw [e1, e2, List.all_append, List.all_append, List.all_cons, List.all_cons, all_both (hforR g1), all_both (hforR g2)]
      show (_ && (complete _ _ _ _ && _)) = (_ && (complete _ _ _ _ && _))
      rw [hok]
    · exact all_both (hforR hL)
  · rcases hmerge with ⟨c, c', m, m', hc, hc'⟩ | ⟨m, m'⟩
    · simp only [dirLines_merge m, dirLines_merge m']
      rcases hcut with ⟨A, A', B, B', g1, g2, e1, e2⟩ | ⟨hn, hL⟩
      · rw [hc] at e1
        rw [hc'] at e2
        cases g1 with
        | cons _ _ => simp at e1
        | nil =>
          cases e1; cases e2
          exact ⟨fun hx P => hx _, fun hx => .inl fun P => hx _⟩
      · rw [hc, hc'] at hL
        cases hL with
        | cons hcc _ => exact ⟨fun _ P => by rw [hcc.1.lines], fun _ => .inr ⟨fun P => by rw [hcc.1.lines], p, hn⟩⟩
    · simp only [dirLines_plain m, dirLines_plain m', ← hl, ← hem, ← hex, ← hdots, ← hang_congr ha.branch ha.lastBranch ha.bar ha.blank]
      rcases hcut with ⟨A, A', B, B', g1, g2, e1, e2⟩ | ⟨hn, hL⟩
      · have m1 : (A ++ kid S (k + 1) p e :: B).map (fun c => c.lines []) = A'.map (fun c => c.lines []) ++ OnePage.block S (k + 1) (p.child e.1) e.2 [] :: B'.map (fun c => c.lines []) := by
          rw [List.map_append, List.map_cons, lines_both (hforR g1), lines_both (hforR g2)]; rfl
        have m2 : (A' ++ kid S' (k + 1) p e' :: B').map (fun c => c.lines []) = A'.map (fun c => c.lines []) ++ OnePage.block S' (k + 1) (p.child e'.1) e'.2 [] :: B'.map (fun c => c.lines []) := by
          rw [List.map_append, List.map_cons]; rfl
        rw [e1, e2, m1, m2]
        refine ⟨fun hx P => by rw [hx], fun hx => .inl fun P => ?_⟩
        have hh := hang_onePart S (hx []) (A'.map (fun c => c.lines [])) (B'.map (fun c => c.lines []) ++ dots (S.limit p) K)
        rw [← List.cons_append, ← List.cons_append, ← List.append_assoc, ← List.append_assoc] at hh
        exact part_left hh [_]
      · rw [lines_both (hforR hL)]
        exact ⟨fun _ _ => rfl, fun _ => .inr ⟨fun _ => rfl, p, hn⟩⟩

theorem changeC (ha : Alike fs fs' S S') {q q' : Path} {c : FileTree} (hx : S.ext q = none ↔ S'.ext q' = none) {p : Path} {j : Nat} {t t' : FileTree} (hr : Renamed S S' q q' c p j t t') :
    ∀ (k : Nat), Holds fs p t → Holds fs' p t' →
    complete S k p t = complete S' k p t' ∧ (S.maxDepth < k + j → ∀ P, OnePage.block S k p t P = OnePage.block S' k p t' P) ∧
    (k + j ≤ S.maxDepth → (∀ P, OnePart S S' q q' (OnePage.block S k p t P) (OnePage.block S' k p t' P)) ∨
      (∀ P, OnePage.block S k p t P = OnePage.block S' k p t' P) ∧ ∃ r, 0 ≤ S.limit r) := by
  have deep : ∀ {k : Nat} {p : Path} {es es' : List (JStr × FileTree)}, fs.isDir p = fs'.isDir p → S.maxDepth ≤ k →
      complete S k p (.dir es) = complete S' k p (.dir es') ∧ ∀ P, OnePage.block S k p (.dir es) P = OnePage.block S' k p (.dir es') P := by
    intro k p es es' hd hk
    have hk' : S'.maxDepth ≤ k := ha.maxDepth ▸ hk
    refine ⟨by rw [complete, complete, decide_eq_true hk, decide_eq_true hk', Bool.true_or, Bool.true_or], fun P => ?_⟩
    rw [OnePage.block, if_pos hk, OnePage.block, if_pos hk', ha.lastBranch, ha.emoji p p rfl hd, ha.ext p p rfl hd]
  induction hr with
  | @here p l₁ l₂ n n' hq hq' hs hs' hl hb =>
    rintro k (_ | ⟨h1, h2, h3⟩) (_ | ⟨h1', h2', h3'⟩)
    have hd : fs.isDir p = fs'.isDir p := by rw [h1, h1']
    by_cases hk : S.maxDepth ≤ k
    · obtain ⟨i1, i2⟩ := deep (es := l₁ ++ (n, c) :: l₂) (es' := l₁ ++ (n', c) :: l₂) hd hk
      exact ⟨i1, fun _ => i2, fun h => by omega⟩
    · subst hq hq'
      obtain ⟨i1, tail, v, e, e', x, x', i2, i3, i4⟩ := contentC ha c (k + 1) (p.child n) (p.child n') (h3 (n, c) (by simp)) (h3' (n', c) (by simp)) hl hx
      obtain ⟨g1, g2, g3⟩ := stepC (q := p.child n) (q' := p.child n') ha hd (l₁ := l₁) (l₂ := l₂) (e := (n, c)) (e' := (n', c)) hk
        (fun x hx => h3 x (by rcases List.mem_append.1 hx with h | h <;> simp [h])) (fun x hx => h3' x (by rcases List.mem_append.1 hx with h | h <;> simp [h])) hb hs hs' i1 rfl
      refine ⟨g1, fun h => absurd h (by omega), fun _ => g3 fun P => ?_⟩
      show OnePart S S' _ _ (OnePage.block S (k + 1) (p.child n) c P) (OnePage.block S' (k + 1) (p.child n') c P)
      rw [i2, i3]
      exact ⟨[], tail, [], lead c P, v, e, e', x, x', rfl, rfl, i4⟩
  | @inside p l₁ l₂ n j t t' hs hr ih =>
    rintro k (_ | ⟨h1, h2, h3⟩) (_ | ⟨h1', h2', h3'⟩)
    have hd : fs.isDir p = fs'.isDir p := by rw [h1, h1']
    by_cases hk : S.maxDepth ≤ k
    · obtain ⟨i1, i2⟩ := deep (es := l₁ ++ (n, t) :: l₂) (es' := l₁ ++ (n, t') :: l₂) hd hk
      exact ⟨i1, fun _ => i2, fun h => by omega⟩
    · have ht := h3 (n, t) (by simp)
      have ht' := h3' (n, t') (by simp)
      have hkind := renamed_kind hr
      have hdn : fs.isDir (p.child n) = fs'.isDir (p.child n) := by rw [holds_kind ht, holds_kind ht', hkind.1, hkind.2]
      have hm : ∀ x ∈ l₁ ++ l₂, Holds fs (p.child x.1) x.2 := fun x hx => h3 x (by rcases List.mem_append.1 hx with h | h <;> simp [h])
      have hm' : ∀ x ∈ l₁ ++ l₂, Holds fs' (p.child x.1) x.2 := fun x hx => h3' x (by rcases List.mem_append.1 hx with h | h <;> simp [h])
      obtain ⟨i1, i2, i3⟩ := ih (k + 1) ht ht'
      obtain ⟨g1, g2, g3⟩ := stepC (q := q) (q' := q') ha hd (l₁ := l₁) (l₂ := l₂) (e := (n, t)) (e' := (n, t')) hk hm hm'
        (fun x hx => by
          have hx' : fs.isDir (p.child x.1) = fs'.isDir (p.child x.1) := by rw [holds_kind (hm x hx), holds_kind (hm' x hx)]
          exact ⟨before_alike ha rfl hx' rfl hdn, before_alike ha rfl hdn rfl hx'⟩)
        hs (by
          have e1 : shown S (p.child n) t = S.showDir (p.child n) := by cases hr <;> rfl
          have e2 : shown S' (p.child n) t' = S'.showDir (p.child n) := by cases hr <;> rfl
          show shown S' (p.child n) t' = true
          rw [e2, ← ha.dirs _ _ rfl hdn, ← e1]; exact hs) i1 (by rw [hkind.1, hkind.2])
      refine ⟨g1, fun h => g2 (i2 (by push_cast at h ⊢; omega)), fun h => ?_⟩
      rcases i3 (by push_cast at h ⊢; omega) with h | ⟨h, r⟩
      · exact g3 h
      · exact .inr ⟨g2 h, r⟩

end
end Rename

open Rename

/-- **C119** with or without compact directories: one line changes, and in this line one name; behind a directory that has an extension under one of its names, it has one under the other. -/
theorem C119_compact {fs fs' : PureFs} (hfs : ProperFs fs) (hfs' : ProperFs fs') {cwd : Path} (hw : cwd.abs = true) {o o' : Options (Except Exn)} {S S' : Settings} (ho : Obeys o S) (ho' : Obeys o' S')
    (hc : LawfulCmp S.order) (hc' : LawfulCmp S'.order) (ha : Alike fs fs' S S') {p q q' : Path} (hx : S.ext q = none ↔ S'.ext q' = none) {c t t' : FileTree} {j : Nat} (ht : Holds fs (target cwd p) t)
    (ht' : Holds fs' (target cwd p) t') (hr : Renamed S S' q q' c (target cwd p) j t t') :
    ((∃ s, prettyPrint fs.lift cwd o p = .ok s) ↔ ∃ s', prettyPrint fs'.lift cwd o' p = .ok s') ∧
    ∀ s s', prettyPrint fs.lift cwd o p = .ok s → prettyPrint fs'.lift cwd o' p = .ok s' →
      (S.maxDepth < j → s = s') ∧
      (j ≤ S.maxDepth → (∃ ls ls', s = List.intercalate j!"\n" ls ∧ s' = List.intercalate j!"\n" ls' ∧ OnePart S S' q q' ls ls') ∨ s = s' ∧ ∃ r, 0 ≤ S.limit r) := by
  obtain ⟨h1, h2, h3⟩ := changeC ha hx hr 0 ht ht'
  simp only [C100_one_page hfs hw ho hc ht, C100_one_page hfs' hw ho' hc' ht', OnePage.text, h1]
  by_cases hp : (target cwd p).names ≠ [] ∧ complete S' 0 (target cwd p) t' = true
  · rw [if_pos hp, if_pos hp]
    refine ⟨by simp, ?_⟩
    rintro s s' ⟨⟩ ⟨⟩
    refine ⟨fun h => by rw [h2 (by push_cast; omega)], fun h => ?_⟩
    rcases h3 (by push_cast; omega) with h | ⟨h, r⟩
    · exact .inl ⟨_, _, rfl, rfl, h []⟩
    · exact .inr ⟨by rw [h], r⟩
  · rw [if_neg hp, if_neg hp]
    exact ⟨by simp, by simp⟩

namespace Rename

/-- Compact directories, otherwise no choice. -/
def tight : Settings := { standard with compact := true }

def tightOptions : Options (Except Exn) := { Demo.dflt with compactDirectories := true }

theorem tight_obeys : Obeys tightOptions tight :=
  ⟨fun _ _ => rfl, fun _ _ => rfl, rfl, fun _ _ => rfl, rfl, rfl, fun _ _ => rfl, fun _ _ => rfl, OnePage.obeys_standard.branch, OnePage.obeys_standard.lastBranch, OnePage.obeys_standard.bar, OnePage.obeys_standard.blank⟩

theorem tight_alike (fs fs' : PureFs) : Alike fs fs' tight tight :=
  ⟨fun _ _ _ _ => rfl, fun _ _ _ _ => rfl, fun _ _ _ _ => rfl, fun _ _ _ _ => rfl, fun _ _ _ _ => rfl, fun _ _ _ _ _ _ _ _ => rfl, rfl, rfl, rfl, rfl, rfl, rfl⟩

/-- A chain of directories, with one of them of the given name. -/
def chain (n : JStr) : Node := .dir true [(j!"r", .dir true [(j!"src", .dir true [(n, .dir true [(j!"java", .dir true [(j!"A", .regular 1), (j!"B", .regular 1)])])]), (j!"pom.xml", .regular 5)])]

theorem chain_wf (n : JStr) : (chain n).WF := by
  simp [chain, Node.WF, Node.WFAll]

/-- The tree in it. -/
def chainTree (n : JStr) : FileTree :=
  .dir [(j!"src", .dir [(n, .dir [(j!"java", .dir [(j!"A", .file (some ⟨false, false⟩)), (j!"B", .file (some ⟨false, false⟩))])])]), (j!"pom.xml", .file (some ⟨false, false⟩))]

theorem renamed_chain : Renamed tight tight (inSrc j!"main") (inSrc j!"test") (.dir [(j!"java", .dir [(j!"A", .file (some ⟨false, false⟩)), (j!"B", .file (some ⟨false, false⟩))])]) ⟨true, [j!"r"]⟩ 2 (chainTree j!"main")
    (chainTree j!"test") :=
  .inside (l₁ := []) rfl (.here (l₁ := []) (l₂ := []) rfl rfl rfl rfl rfl (by intro e he; cases he))

/-- `src/main/java/` becomes `src/test/java/`. -/
example := (C119_compact (fs := (chain j!"main").toFs) (fs' := (chain j!"test").toFs) (q := inSrc j!"main") (q' := inSrc j!"test") (chain_wf _).proper (chain_wf _).proper (cwd := Path.root) (p := ⟨true, [j!"r"]⟩) rfl tight_obeys tight_obeys lawful_const lawful_const
  (tight_alike _ _) ⟨fun _ => rfl, fun _ => rfl⟩ (holds_at (chain_wf _) rfl : Holds (chain j!"main").toFs ⟨true, [j!"r"]⟩ (chainTree j!"main")) (holds_at (chain_wf _) rfl) renamed_chain).2
  j!"r/\n├─ pom.xml\n└─ src/main/java/\n   ├─ A\n   └─ B" j!"r/\n├─ pom.xml\n└─ src/test/java/\n   ├─ A\n   └─ B"
  ((C100_disk (chain_wf _) rfl tight_obeys lawful_const _ _).2 (by decide)) ((C100_disk (chain_wf _) rfl tight_obeys lawful_const _ _).2 (by decide))

end Rename
end JFTP
