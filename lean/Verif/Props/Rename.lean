import Verif.Spec.Rename
import Verif.Props.OnePage

/-!
C119: another name changes one line.
-/

namespace JFTP
open Spec Spec.OnePage Spec.Rename JFTP.OnePage

namespace Rename

section
variable {S S' : Settings}

theorem name_child (p : Path) (n : JStr) : name (p.child n) = n := by
  unfold name Path.child
  split <;> simp

/-! ### Lists of lines -/

theorem one_left {old new : JStr} {l l' : List JStr} (h : OneChanged old new l l') (x : List JStr) : OneChanged old new (x ++ l) (x ++ l') := by
  obtain ⟨a, b, pre, rfl, rfl⟩ := h
  exact ⟨x ++ a, b, pre, by simp, by simp⟩

theorem one_right {old new : JStr} {l l' : List JStr} (h : OneChanged old new l l') (x : List JStr) : OneChanged old new (l ++ x) (l' ++ x) := by
  obtain ⟨a, b, pre, rfl, rfl⟩ := h
  exact ⟨a, b ++ x, pre, by simp, by simp⟩

theorem one_indent {old new : JStr} {l l' : List JStr} (h : OneChanged old new l l') (f g : JStr) : OneChanged old new (OnePage.indent f g l) (OnePage.indent f g l') := by
  obtain ⟨a, b, pre, rfl, rfl⟩ := h
  cases a with
  | nil => exact ⟨[], b.map (g ++ j!" " ++ ·), f ++ j!" " ++ pre, by simp [OnePage.indent], by simp [OnePage.indent]⟩
  | cons x a => exact ⟨(f ++ j!" " ++ x) :: a.map (g ++ j!" " ++ ·), b.map (g ++ j!" " ++ ·), g ++ j!" " ++ pre, by simp [OnePage.indent], by simp [OnePage.indent]⟩

theorem hang_cons (S : Settings) (b : List JStr) {bs : List (List JStr)} (h : bs ≠ []) : hang S (b :: bs) = OnePage.indent S.branch S.bar b ++ hang S bs := by
  cases bs with
  | nil => exact absurd rfl h
  | cons c cs => rfl

theorem hang_oneChanged {old new : JStr} (S : Settings) {b b' : List JStr} (h : OneChanged old new b b') : ∀ (A B : List (List JStr)), OneChanged old new (hang S (A ++ b :: B)) (hang S (A ++ b' :: B))
  | [], [] => one_indent h _ _
  | [], c :: B => one_right (one_indent h _ _) _
  | a :: A, B => by
    rw [List.cons_append, List.cons_append, hang_cons S a (by simp), hang_cons S a (by simp)]
    exact one_left (hang_oneChanged S h A B) _

theorem hang_congr (h1 : S.branch = S'.branch) (h2 : S.lastBranch = S'.lastBranch) (h3 : S.bar = S'.bar) (h4 : S.blank = S'.blank) : ∀ bs, hang S bs = hang S' bs
  | [] => rfl
  | [b] => by rw [hang, hang, h2, h4]
  | b :: c :: bs => by rw [hang_cons S b (by simp), hang_cons S' b (by simp), h1, h3, hang_congr h1 h2 h3 h4 (c :: bs)]

/-! ### Sorting two lists alike -/

def accepted (S : Settings) (x : Kid) : Bool := if x.isDir then S.showDir x.path else S.showFile x.path

theorem arrange_cons (S : Settings) (x : Kid) (xs : List Kid) : arrange S (x :: xs) = if accepted S x then OnePage.insert S x (arrange S xs) else arrange S xs := rfl

/-- The lists correspond, but `x` in the one is `x'` in the other. -/
def One (R : Kid → Kid → Prop) (x x' : Kid) (l l' : List Kid) : Prop := ∃ A A' B B', List.Forall₂ R A A' ∧ List.Forall₂ R B B' ∧ l = A ++ x :: B ∧ l' = A' ++ x' :: B'

variable {R : Kid → Kid → Prop}

theorem One.cons {x x' y y' : Kid} {l l' : List Kid} (h : One R x x' l l') (hy : R y y') : One R x x' (y :: l) (y' :: l') := by
  obtain ⟨A, A', B, B', h1, h2, rfl, rfl⟩ := h
  exact ⟨y :: A, y' :: A', B, B', .cons hy h1, h2, rfl, rfl⟩

theorem insert_both {x x' : Kid} (hb : ∀ a a', R a a' → before S a.path x.path = before S' a'.path x'.path) (hx : R x x') : ∀ {l l'}, List.Forall₂ R l l' → List.Forall₂ R (OnePage.insert S x l) (OnePage.insert S' x' l')
  | _, _, .nil => .cons hx .nil
  | _, _, .cons (a := a) (b := a') h t => by
    unfold OnePage.insert
    rw [hb a a' h]
    split
    · exact .cons h (insert_both hb hx t)
    · exact .cons hx (.cons h t)

theorem insert_new {x x' : Kid} (hb : ∀ a a', R a a' → before S a.path x.path = before S' a'.path x'.path) : ∀ {l l'}, List.Forall₂ R l l' → One R x x' (OnePage.insert S x l) (OnePage.insert S' x' l')
  | _, _, .nil => ⟨[], [], [], [], .nil, .nil, rfl, rfl⟩
  | _, _, .cons (a := a) (b := a') h t => by
    unfold OnePage.insert
    rw [hb a a' h]
    split
    · exact (insert_new hb t).cons h
    · exact ⟨[], [], _, _, .nil, .cons h t, rfl, rfl⟩

theorem insert_one {x x' y y' : Kid} (hb : ∀ a a', R a a' → before S a.path y.path = before S' a'.path y'.path) (hx : before S x.path y.path = before S' x'.path y'.path) (hy : R y y') :
    ∀ {A A' B B' : List Kid}, List.Forall₂ R A A' → List.Forall₂ R B B' → One R x x' (OnePage.insert S y (A ++ x :: B)) (OnePage.insert S' y' (A' ++ x' :: B'))
  | _, _, B, B', .nil, h2 => by
    show One R x x' (OnePage.insert S y (x :: B)) (OnePage.insert S' y' (x' :: B'))
    unfold OnePage.insert
    rw [hx]
    split
    · exact ⟨[], [], _, _, .nil, insert_both hb hy h2, rfl, rfl⟩
    · exact ⟨[y], [y'], B, B', .cons hy .nil, h2, rfl, rfl⟩
  | _, _, B, B', .cons (a := a) (b := a') (l₁ := A) (l₂ := A') h t, h2 => by
    show One R x x' (OnePage.insert S y (a :: (A ++ x :: B))) (OnePage.insert S' y' (a' :: (A' ++ x' :: B')))
    unfold OnePage.insert
    rw [hb a a' h]
    split
    · exact (insert_one hb hx hy t h2).cons h
    · exact ⟨y :: a :: A, y' :: a' :: A', B, B', .cons hy (.cons h t), h2, rfl, rfl⟩

theorem arrange_both (hb : ∀ a a' b b', R a a' → R b b' → before S a.path b.path = before S' a'.path b'.path) (ha : ∀ a a', R a a' → accepted S a = accepted S' a') :
    ∀ {l l'}, List.Forall₂ R l l' → List.Forall₂ R (arrange S l) (arrange S' l')
  | _, _, .nil => .nil
  | _, _, .cons (a := a) (b := a') h t => by
    rw [arrange_cons, arrange_cons, ha a a' h]
    split
    · exact insert_both (fun b b' hR => hb b b' a a' hR h) h (arrange_both hb ha t)
    · exact arrange_both hb ha t

theorem arrange_one {x x' : Kid} (hb : ∀ a a' b b', R a a' → R b b' → before S a.path b.path = before S' a'.path b'.path) (ha : ∀ a a', R a a' → accepted S a = accepted S' a')
    (h1 : ∀ a a', R a a' → before S a.path x.path = before S' a'.path x'.path) (h2 : ∀ a a', R a a' → before S x.path a.path = before S' x'.path a'.path) (hx : accepted S x = true)
    (hx' : accepted S' x' = true) {B B' : List Kid} (hB : List.Forall₂ R B B') : ∀ {A A'}, List.Forall₂ R A A' → One R x x' (arrange S (A ++ x :: B)) (arrange S' (A' ++ x' :: B'))
  | _, _, .nil => by
    show One R x x' (arrange S (x :: B)) (arrange S' (x' :: B'))
    rw [arrange_cons, arrange_cons, if_pos hx, if_pos hx']
    exact insert_new h1 (arrange_both hb ha hB)
  | _, _, .cons (a := a) (b := a') (l₁ := A) (l₂ := A') h t => by
    show One R x x' (arrange S (a :: (A ++ x :: B))) (arrange S' (a' :: (A' ++ x' :: B')))
    have ih := arrange_one hb ha h1 h2 hx hx' hB t
    rw [arrange_cons, arrange_cons, ha a a' h]
    split
    · obtain ⟨C, C', D, D', hC, hD, e, e'⟩ := ih
      rw [e, e']
      exact insert_one (fun b b' hR => hb b b' a a' hR h) (h2 a a' h) h hC hD
    · exact ih

theorem One.length {x x' : Kid} {l l' : List Kid} (h : One R x x' l l') : l.length = l'.length := by
  obtain ⟨A, A', B, B', h1, h2, rfl, rfl⟩ := h
  simp [h1.length_eq, h2.length_eq]

theorem take_both : ∀ (n : Nat) {l l'}, List.Forall₂ R l l' → List.Forall₂ R (l.take n) (l'.take n)
  | 0, _, _, _ => by simp
  | _ + 1, _, _, .nil => .nil
  | n + 1, _, _, .cons h t => .cons h (take_both n t)

theorem take_one {x x' : Kid} : ∀ (n : Nat) {A A' B B' : List Kid}, List.Forall₂ R A A' → List.Forall₂ R B B' →
    One R x x' ((A ++ x :: B).take n) ((A' ++ x' :: B').take n) ∨ List.Forall₂ R ((A ++ x :: B).take n) ((A' ++ x' :: B').take n)
  | 0, _, _, _, _, _, _ => .inr (by simp)
  | n + 1, _, _, _, _, .nil, h2 => .inl ⟨[], [], _, _, .nil, take_both n h2, rfl, rfl⟩
  | n + 1, _, _, _, _, .cons h t, h2 => (take_one n t h2).elim (fun i => .inl (i.cons h)) (fun i => .inr (.cons h i))

theorem leave_both {l l' : List Kid} (h : List.Forall₂ R l l') (n : Int) : List.Forall₂ R (leave n l) (leave n l') := by
  unfold leave
  split
  · exact h
  · exact take_both _ h

theorem leave_one {x x' : Kid} {l l' : List Kid} (h : One R x x' l l') (n : Int) : One R x x' (leave n l) (leave n l') ∨ 0 ≤ n ∧ List.Forall₂ R (leave n l) (leave n l') := by
  unfold leave
  split
  · exact .inl h
  · rename_i hn
    obtain ⟨A, A', B, B', h1, h2, rfl, rfl⟩ := h
    exact (take_one _ h1 h2).imp id (fun i => ⟨by omega, i⟩)

end

/-! ### Trees -/

section
variable {fs fs' : PureFs} {S S' : Settings}

/-- Two entries with the same name, of the same kind, with the same lines. -/
structure Rel (fs fs' : PureFs) (a a' : Kid) : Prop where
  name : name a.path = name a'.path
  isDir : fs.isDir a.path = a.isDir
  isDir' : fs'.isDir a'.path = a.isDir
  kind : a'.isDir = a.isDir
  ok : a.ok = a'.ok
  lines : a.lines [] = a'.lines []

theorem holds_kind {fs : PureFs} {p : Path} {t : FileTree} (h : Holds fs p t) : fs.isDir p = OnePage.FileTree.isDir t := by
  cases h <;> assumption

theorem before_alike (ha : Alike fs fs' S S') {a a' b b' : Path} (h1 : name a = name a') (h2 : fs.isDir a = fs'.isDir a') (h3 : name b = name b') (h4 : fs.isDir b = fs'.isDir b') :
    before S a b = before S' a' b' := by
  unfold before
  rw [ha.order a a' b b' h1 h2 h3 h4, h1, h3]

theorem Rel.before (ha : Alike fs fs' S S') {a a' b b' : Kid} (h : Rel fs fs' a a') (g : Rel fs fs' b b') : before S a.path b.path = before S' a'.path b'.path :=
  before_alike ha h.name (by rw [h.isDir, h.isDir']) g.name (by rw [g.isDir, g.isDir'])

theorem Rel.accepted (ha : Alike fs fs' S S') {a a' : Kid} (h : Rel fs fs' a a') : accepted S a = accepted S' a' := by
  unfold Rename.accepted
  rw [h.kind, ha.dirs _ _ h.name (by rw [h.isDir, h.isDir']), ha.files _ _ h.name (by rw [h.isDir, h.isDir'])]

theorem lines_both {l l' : List Kid} (h : List.Forall₂ (Rel fs fs') l l') : l.map (fun c => c.lines []) = l'.map (fun c => c.lines []) := by
  induction h with
  | nil => rfl
  | cons h _ ih => rw [List.map_cons, List.map_cons, h.lines, ih]

theorem all_both {l l' : List Kid} (h : List.Forall₂ (Rel fs fs') l l') : l.all (·.ok) = l'.all (·.ok) := by
  induction h with
  | nil => rfl
  | cons h _ ih => rw [List.all_cons, List.all_cons, h.ok, ih]

theorem no_merge (hc : S.compact = false) {k : Nat} {p : Path} {kids : List Kid} (c : Kid) : ¬ Merges S k p kids c := by
  intro h
  unfold Merges at h
  simp [hc] at h

def kid (S : Settings) (k : Nat) (p : Path) (e : JStr × FileTree) : Kid := ⟨p.child e.1, OnePage.FileTree.isDir e.2, complete S k (p.child e.1) e.2, OnePage.block S k (p.child e.1) e.2⟩

/-- The title of a directory. -/
theorem block_dir (hc : S.compact = false) {k : Nat} {p : Path} {es : List (JStr × FileTree)} (hk : ¬ S.maxDepth ≤ k) :
    OnePage.block S k p (.dir es) [] = label S p (.dir es) :: hang S ((leave (S.limit p) (arrange S (es.map (kid S (k + 1) p)))).map (fun c => c.lines []) ++ dots (S.limit p) (arrange S (es.map (kid S (k + 1) p)))) := by
  rw [OnePage.block, if_neg hk, dirLines_plain (no_merge hc), kidsOf_eq]
  rfl

theorem complete_dir {k : Nat} {p : Path} {es : List (JStr × FileTree)} (hk : ¬ S.maxDepth ≤ k) : complete S k p (.dir es) = (leave (S.limit p) (arrange S (es.map (kid S (k + 1) p)))).all (·.ok) := by
  rw [complete, decide_eq_false hk, Bool.false_or, kidsOf_eq]
  rfl

theorem dots_eq {n : Int} {l l' : List Kid} (h : l.length = l'.length) : dots n l = dots n l' := by
  unfold dots leave
  split <;> simp [h]

theorem label_alike (ha : Alike fs fs' S S') {p p' : Path} {t : FileTree} (hn : name p = name p') (h : fs.isDir p = fs'.isDir p') : label S p t = label S' p' t := by
  cases t <;> simp only [label, hn, ha.emoji p p' hn h, ha.ext p p' hn h]

/-- What stands below an entry does not depend on its name. -/
theorem content (ha : Alike fs fs' S S') (hcomp : S.compact = false) (t : FileTree) (k : Nat) (p p' : Path) (h : Holds fs p t) (h' : Holds fs' p' t) (hl : S.limit p = S'.limit p') :
    complete S k p t = complete S' k p' t ∧ ∃ tail, OnePage.block S k p t [] = label S p t :: tail ∧ OnePage.block S' k p' t [] = label S' p' t :: tail := by
  match t, h, h' with
  | .file a, _, _ => exact ⟨by rw [complete, complete], [], by rw [OnePage.block]; rfl, by rw [OnePage.block]; rfl⟩
  | .closed, _, _ => exact ⟨by rw [complete, complete, ha.maxDepth], [S.lastBranch ++ j!" ..."], by rw [OnePage.block]; rfl, by rw [OnePage.block, ha.lastBranch]; rfl⟩
  | .dir es, .dir h1 h2 h3, .dir h1' h2' h3' =>
    by_cases hk : S.maxDepth ≤ k
    · have hk' : S'.maxDepth ≤ k := ha.maxDepth ▸ hk
      exact ⟨by rw [complete, complete, decide_eq_true hk, decide_eq_true hk', Bool.true_or, Bool.true_or], [S.lastBranch ++ j!" ..."], by rw [OnePage.block, if_pos hk]; rfl,
        by rw [OnePage.block, if_pos hk', ha.lastBranch]; rfl⟩
    · have hk' : ¬ S'.maxDepth ≤ k := ha.maxDepth ▸ hk
      have hR : ∀ e ∈ es, Rel fs fs' (kid S (k + 1) p e) (kid S' (k + 1) p' e) := by
        intro e he
        have : sizeOf e.2 < sizeOf es := by
          have := List.sizeOf_lt_of_mem he
          cases e; simp at this ⊢; omega
        have hn : name (p.child e.1) = name (p'.child e.1) := by rw [name_child, name_child]
        have hd : fs.isDir (p.child e.1) = fs'.isDir (p'.child e.1) := by rw [holds_kind (h3 e he), holds_kind (h3' e he)]
        obtain ⟨i1, tail, i2, i3⟩ := content ha hcomp e.2 (k + 1) (p.child e.1) (p'.child e.1) (h3 e he) (h3' e he) (ha.limit _ _ hn hd)
        exact ⟨hn, holds_kind (h3 e he), holds_kind (h3' e he), rfl, i1, by show OnePage.block _ _ _ _ _ = OnePage.block _ _ _ _ _; rw [i2, i3, label_alike ha hn hd]⟩
      have hF : List.Forall₂ (Rel fs fs') (es.map (kid S (k + 1) p)) (es.map (kid S' (k + 1) p')) := by
        rw [List.forall₂_map_left_iff, List.forall₂_map_right_iff]
        exact List.forall₂_same.2 hR
      have hA := arrange_both (S := S) (S' := S') (fun a a' b b' g1 g2 => Rel.before ha g1 g2) (fun a a' g => Rel.accepted ha g) hF
      have hL := leave_both hA (S.limit p)
      refine ⟨?_, _, block_dir hcomp hk, ?_⟩
      · rw [complete_dir hk, complete_dir hk', ← hl]
        exact all_both hL
      · rw [block_dir (ha.compact ▸ hcomp) hk', ← hl, lines_both hL, dots_eq hA.length_eq, hang_congr ha.branch ha.lastBranch ha.bar ha.blank]
termination_by sizeOf t
decreasing_by simp; omega

/-- An entry of a directory changes one line, or nothing that is displayed. -/
theorem step (ha : Alike fs fs' S S') (hcomp : S.compact = false) {k : Nat} {p : Path} (hd : fs.isDir p = fs'.isDir p) {l₁ l₂ : List (JStr × FileTree)} {e e' : JStr × FileTree} {old new : JStr} (hk : ¬ S.maxDepth ≤ k)
    (h : ∀ x ∈ l₁ ++ l₂, Holds fs (p.child x.1) x.2) (h' : ∀ x ∈ l₁ ++ l₂, Holds fs' (p.child x.1) x.2)
    (hb : ∀ x ∈ l₁ ++ l₂, before S (p.child x.1) (p.child e.1) = before S' (p.child x.1) (p.child e'.1) ∧ before S (p.child e.1) (p.child x.1) = before S' (p.child e'.1) (p.child x.1))
    (hs : shown S (p.child e.1) e.2 = true) (hs' : shown S' (p.child e'.1) e'.2 = true) (hok : complete S (k + 1) (p.child e.1) e.2 = complete S' (k + 1) (p.child e'.1) e'.2) :
    complete S k p (.dir (l₁ ++ e :: l₂)) = complete S' k p (.dir (l₁ ++ e' :: l₂)) ∧
    (OnePage.block S (k + 1) (p.child e.1) e.2 [] = OnePage.block S' (k + 1) (p.child e'.1) e'.2 [] → OnePage.block S k p (.dir (l₁ ++ e :: l₂)) [] = OnePage.block S' k p (.dir (l₁ ++ e' :: l₂)) []) ∧
    (OneChanged old new (OnePage.block S (k + 1) (p.child e.1) e.2 []) (OnePage.block S' (k + 1) (p.child e'.1) e'.2 []) →
      OneChanged old new (OnePage.block S k p (.dir (l₁ ++ e :: l₂)) []) (OnePage.block S' k p (.dir (l₁ ++ e' :: l₂)) []) ∨
      OnePage.block S k p (.dir (l₁ ++ e :: l₂)) [] = OnePage.block S' k p (.dir (l₁ ++ e' :: l₂)) [] ∧ ∃ r, 0 ≤ S.limit r) := by
  have hk' : ¬ S'.maxDepth ≤ k := ha.maxDepth ▸ hk
  have hl : S.limit p = S'.limit p := ha.limit p p rfl hd
  let R : Kid → Kid → Prop := fun a a' => Rel fs fs' a a' ∧ before S a.path (p.child e.1) = before S' a'.path (p.child e'.1) ∧ before S (p.child e.1) a.path = before S' (p.child e'.1) a'.path
  have hR : ∀ x ∈ l₁ ++ l₂, R (kid S (k + 1) p x) (kid S' (k + 1) p x) := by
    intro x hx
    have hd : fs.isDir (p.child x.1) = fs'.isDir (p.child x.1) := by rw [holds_kind (h x hx), holds_kind (h' x hx)]
    obtain ⟨i1, tail, i2, i3⟩ := content ha hcomp x.2 (k + 1) (p.child x.1) (p.child x.1) (h x hx) (h' x hx) (ha.limit _ _ rfl hd)
    exact ⟨⟨rfl, holds_kind (h x hx), holds_kind (h' x hx), rfl, i1, by show OnePage.block _ _ _ _ _ = OnePage.block _ _ _ _ _; rw [i2, i3, label_alike ha rfl hd]⟩, hb x hx⟩
  have hF : ∀ l : List (JStr × FileTree), (∀ x ∈ l, x ∈ l₁ ++ l₂) → List.Forall₂ R (l.map (kid S (k + 1) p)) (l.map (kid S' (k + 1) p)) := by
    intro l hl
    rw [List.forall₂_map_left_iff, List.forall₂_map_right_iff]
    exact List.forall₂_same.2 fun x hx => hR x (hl x hx)
  have hacc : ∀ (S : Settings) (e : JStr × FileTree), accepted S (kid S (k + 1) p e) = shown S (p.child e.1) e.2 := by
    rintro S ⟨n, t⟩
    cases t <;> rfl
  have hA : One R (kid S (k + 1) p e) (kid S' (k + 1) p e') (arrange S ((l₁ ++ e :: l₂).map (kid S (k + 1) p))) (arrange S' ((l₁ ++ e' :: l₂).map (kid S' (k + 1) p))) := by
    rw [List.map_append, List.map_cons, List.map_append, List.map_cons]
    exact arrange_one (fun a a' b b' g1 g2 => Rel.before ha g1.1 g2.1) (fun a a' g => Rel.accepted ha g.1) (fun a a' g => g.2.1) (fun a a' g => g.2.2) (by rw [hacc]; exact hs) (by rw [hacc]; exact hs')
      (hF l₂ fun x hx => List.mem_append_right _ hx) (hF l₁ fun x hx => List.mem_append_left _ hx)
  have hlab : label S p (.dir (l₁ ++ e :: l₂)) = label S' p (.dir (l₁ ++ e' :: l₂)) := label_alike (t := .dir []) ha rfl hd
  have hdots := dots_eq (n := S.limit p) hA.length
  have hfor : ∀ {l l' : List Kid}, List.Forall₂ R l l' → List.Forall₂ (Rel fs fs') l l' := fun g => g.imp fun _ _ i => i.1
  rw [complete_dir hk, complete_dir hk', block_dir hcomp hk, block_dir (ha.compact ▸ hcomp) hk', ← hl, hlab, hdots, ← hang_congr ha.branch ha.lastBranch ha.bar ha.blank]
  rcases leave_one hA (S.limit p) with ⟨A, A', B, B', g1, g2, e1, e2⟩ | ⟨hn, hL⟩
  · have m1 : (A ++ kid S (k + 1) p e :: B).map (fun c => c.lines []) = A'.map (fun c => c.lines []) ++ OnePage.block S (k + 1) (p.child e.1) e.2 [] :: B'.map (fun c => c.lines []) := by
      rw [List.map_append, List.map_cons, lines_both (hfor g1), lines_both (hfor g2)]; rfl
    have m2 : (A' ++ kid S' (k + 1) p e' :: B').map (fun c => c.lines []) = A'.map (fun c => c.lines []) ++ OnePage.block S' (k + 1) (p.child e'.1) e'.2 [] :: B'.map (fun c => c.lines []) := by
      rw [List.map_append, List.map_cons]; rfl
    rw [e1, e2, m1, m2]
    refine ⟨?_, fun hx => by rw [hx], fun hx => .inl ?_⟩
    · rw [List.all_append, List.all_append, List.all_cons, List.all_cons, all_both (hfor g1), all_both (hfor g2)]
      show (_ && (complete _ _ _ _ && _)) = (_ && (complete _ _ _ _ && _))
      rw [hok]
    · simp only [List.append_assoc, List.cons_append]
      exact one_left (hang_oneChanged S hx _ _) [label S' p (.dir (l₁ ++ e' :: l₂))]
  · have e1 := lines_both (hfor hL)
    rw [e1]
    exact ⟨all_both (hfor hL), fun _ => rfl, fun _ => .inr ⟨rfl, p, hn⟩⟩

theorem renamed_kind {q q' p : Path} {c t t' : FileTree} {j : Nat} (h : Renamed S S' q q' c p j t t') : OnePage.FileTree.isDir t = true ∧ OnePage.FileTree.isDir t' = true := by
  cases h <;> exact ⟨rfl, rfl⟩

theorem change (ha : Alike fs fs' S S') (hcomp : S.compact = false) {q q' : Path} {c : FileTree} {p : Path} {j : Nat} {t t' : FileTree} (hr : Renamed S S' q q' c p j t t') : ∀ (k : Nat), Holds fs p t → Holds fs' p t' →
    complete S k p t = complete S' k p t' ∧ (S.maxDepth < k + j → OnePage.block S k p t [] = OnePage.block S' k p t' []) ∧
    (k + j ≤ S.maxDepth → OneChanged (label S q c) (label S' q' c) (OnePage.block S k p t []) (OnePage.block S' k p t' []) ∨
      OnePage.block S k p t [] = OnePage.block S' k p t' [] ∧ ∃ r, 0 ≤ S.limit r) := by
  have deep : ∀ {k : Nat} {p : Path} {es es' : List (JStr × FileTree)}, fs.isDir p = fs'.isDir p → S.maxDepth ≤ k →
      complete S k p (.dir es) = complete S' k p (.dir es') ∧ OnePage.block S k p (.dir es) [] = OnePage.block S' k p (.dir es') [] := by
    intro k p es es' hd hk
    have hk' : S'.maxDepth ≤ k := ha.maxDepth ▸ hk
    refine ⟨by rw [complete, complete, decide_eq_true hk, decide_eq_true hk', Bool.true_or, Bool.true_or], ?_⟩
    rw [OnePage.block, if_pos hk, OnePage.block, if_pos hk', ha.lastBranch, ha.emoji p p rfl hd, ha.ext p p rfl hd]
  induction hr with
  | @here p l₁ l₂ n n' hq hq' hs hs' hl hb =>
    rintro k (_ | ⟨h1, h2, h3⟩) (_ | ⟨h1', h2', h3'⟩)
    have hd : fs.isDir p = fs'.isDir p := by rw [h1, h1']
    by_cases hk : S.maxDepth ≤ k
    · obtain ⟨i1, i2⟩ := deep (es := l₁ ++ (n, c) :: l₂) (es' := l₁ ++ (n', c) :: l₂) hd hk
      exact ⟨i1, fun _ => i2, fun h => by omega⟩
    · subst hq hq'
      obtain ⟨i1, tail, i2, i3⟩ := content ha hcomp c (k + 1) (p.child n) (p.child n') (h3 (n, c) (by simp)) (h3' (n', c) (by simp)) hl
      obtain ⟨g1, g2, g3⟩ := step (old := label S (p.child n) c) (new := label S' (p.child n') c) ha hcomp hd (l₁ := l₁) (l₂ := l₂) (e := (n, c)) (e' := (n', c)) hk
        (fun x hx => h3 x (by rcases List.mem_append.1 hx with h | h <;> simp [h])) (fun x hx => h3' x (by rcases List.mem_append.1 hx with h | h <;> simp [h])) hb hs hs' i1
      refine ⟨g1, fun h => absurd h (by omega), fun _ => g3 ?_⟩
      show OneChanged _ _ (OnePage.block S (k + 1) (p.child n) c []) (OnePage.block S' (k + 1) (p.child n') c [])
      rw [i2, i3]
      exact ⟨[], tail, [], rfl, rfl⟩
  | @inside p l₁ l₂ n j t t' hs hr ih =>
    rintro k (_ | ⟨h1, h2, h3⟩) (_ | ⟨h1', h2', h3'⟩)
    have hd : fs.isDir p = fs'.isDir p := by rw [h1, h1']
    by_cases hk : S.maxDepth ≤ k
    · obtain ⟨i1, i2⟩ := deep (es := l₁ ++ (n, t) :: l₂) (es' := l₁ ++ (n, t') :: l₂) hd hk
      exact ⟨i1, fun _ => i2, fun h => by omega⟩
    · have ht := h3 (n, t) (by simp)
      have ht' := h3' (n, t') (by simp)
      have hkind := renamed_kind hr
      have hdn : fs.isDir (p.child n) = fs'.isDir (p.child n) := by rw [holds_kind ht, holds_kind ht', hkind.1, hkind.2]
      have hm : ∀ x ∈ l₁ ++ l₂, Holds fs (p.child x.1) x.2 := fun x hx => h3 x (by rcases List.mem_append.1 hx with h | h <;> simp [h])
      have hm' : ∀ x ∈ l₁ ++ l₂, Holds fs' (p.child x.1) x.2 := fun x hx => h3' x (by rcases List.mem_append.1 hx with h | h <;> simp [h])
      obtain ⟨i1, i2, i3⟩ := ih (k + 1) ht ht'
      obtain ⟨g1, g2, g3⟩ := step (old := label S q c) (new := label S' q' c) ha hcomp hd (l₁ := l₁) (l₂ := l₂) (e := (n, t)) (e' := (n, t')) hk hm hm'
        (fun x hx => by
          have hx' : fs.isDir (p.child x.1) = fs'.isDir (p.child x.1) := by rw [holds_kind (hm x hx), holds_kind (hm' x hx)]
          exact ⟨before_alike ha rfl hx' rfl hdn, before_alike ha rfl hdn rfl hx'⟩)
        hs (by
          have e1 : shown S (p.child n) t = S.showDir (p.child n) := by cases hr <;> rfl
          have e2 : shown S' (p.child n) t' = S'.showDir (p.child n) := by cases hr <;> rfl
          show shown S' (p.child n) t' = true
          rw [e2, ← ha.dirs _ _ rfl hdn, ← e1]; exact hs) i1
      refine ⟨g1, fun h => g2 (i2 (by push_cast at h ⊢; omega)), fun h => ?_⟩
      rcases i3 (by push_cast at h ⊢; omega) with h | ⟨h, r⟩
      · exact g3 h
      · exact .inr ⟨g2 h, r⟩

end
end Rename

open Rename

/-- **C119**: if a file or directory gets another name and stays at its place between its neighbours, then printing succeeds exactly if it did before, and one line of the text changes: behind the same symbols stands the new
label instead of the old one. Where a limit cuts it off, or below the maximal depth, the text stays the same. -/
theorem C119_rename {fs fs' : PureFs} (hfs : ProperFs fs) (hfs' : ProperFs fs') {cwd : Path} (hw : cwd.abs = true) {o o' : Options (Except Exn)} {S S' : Settings} (ho : Obeys o S) (ho' : Obeys o' S')
    (hc : LawfulCmp S.order) (hc' : LawfulCmp S'.order) (ha : Alike fs fs' S S') (hcomp : S.compact = false) {p q q' : Path} {c t t' : FileTree} {j : Nat} (ht : Holds fs (target cwd p) t) (ht' : Holds fs' (target cwd p) t')
    (hr : Renamed S S' q q' c (target cwd p) j t t') :
    ((∃ s, prettyPrint fs.lift cwd o p = .ok s) ↔ ∃ s', prettyPrint fs'.lift cwd o' p = .ok s') ∧
    ∀ s s', prettyPrint fs.lift cwd o p = .ok s → prettyPrint fs'.lift cwd o' p = .ok s' →
      (S.maxDepth < j → s = s') ∧
      (j ≤ S.maxDepth →
        (∃ ls ls', s = List.intercalate j!"\n" ls ∧ s' = List.intercalate j!"\n" ls' ∧ OneChanged (label S q c) (label S' q' c) ls ls') ∨ s = s' ∧ ∃ r, 0 ≤ S.limit r) := by
  obtain ⟨h1, h2, h3⟩ := change ha hcomp hr 0 ht ht'
  simp only [C100_one_page hfs hw ho hc ht, C100_one_page hfs' hw ho' hc' ht', OnePage.text, h1]
  by_cases hp : (target cwd p).names ≠ [] ∧ complete S' 0 (target cwd p) t' = true
  · rw [if_pos hp, if_pos hp]
    refine ⟨by simp, ?_⟩
    rintro s s' ⟨⟩ ⟨⟩
    refine ⟨fun h => by rw [h2 (by push_cast; omega)], fun h => ?_⟩
    rcases h3 (by push_cast; omega) with h | ⟨h, r⟩
    · exact .inl ⟨_, _, rfl, rfl, h⟩
    · exact .inr ⟨by rw [h], r⟩
  · rw [if_neg hp, if_neg hp]
    exact ⟨by simp, by simp⟩

theorem Rename.alike_standard (fs fs' : PureFs) : Alike fs fs' standard standard :=
  ⟨fun _ _ _ _ => rfl, fun _ _ _ _ => rfl, fun _ _ _ _ => rfl, fun _ _ _ _ => rfl, fun _ _ _ _ => rfl, fun _ _ _ _ _ _ _ _ => rfl, rfl, rfl, rfl, rfl, rfl, rfl⟩

/-- **C119** on disks, without options: the other text is printed too, and one line changes. -/
theorem C119_default {disk disk' : Node} (hd : disk.WF) (hd' : disk'.WF) {cwd : Path} (hw : cwd.abs = true) {p q q' : Path} {c : FileTree} {j : Nat}
    (hr : Renamed standard standard q q' c (target cwd p) j (treeAt disk (target cwd p)) (treeAt disk' (target cwd p))) (hj : j ≤ 20) {s : JStr}
    (h : prettyPrint (m := Except Exn) disk.toFs.lift cwd Options.createDefault p = .ok s) :
    ∃ ls ls', s = List.intercalate j!"\n" ls ∧ prettyPrint (m := Except Exn) disk'.toFs.lift cwd Options.createDefault p = .ok (List.intercalate j!"\n" ls') ∧
      OneChanged (label standard q c) (label standard q' c) ls ls' := by
  obtain ⟨h1, h2⟩ := C119_rename hd.proper hd'.proper hw OnePage.obeys_standard OnePage.obeys_standard lawful_const lawful_const (Rename.alike_standard disk.toFs disk'.toFs) rfl
    (holds_at hd (target_abs hw)) (holds_at hd' (target_abs hw)) hr
  obtain ⟨s', hs'⟩ := h1.1 ⟨s, h⟩
  rcases (h2 s s' h hs').2 (by show (j : Int) ≤ 20; omega) with ⟨ls, ls', e1, e2, h3⟩ | ⟨-, r, hr⟩
  · exact ⟨ls, ls', e1, e2 ▸ hs', h3⟩
  · have : (0 : Int) ≤ -1 := hr
    omega

namespace Rename

/-- A disk with a directory of the given name and a file of the given name. -/
def twoNames (d f : JStr) : Node := .dir true [(j!"r", .dir true [(j!"src", .dir true [(d, .dir true [(j!"x", .regular 1)]), (f, .regular 1)]), (j!"README", .regular 5)])]

theorem twoNames_wf {d f : JStr} (h : d ≠ f) : (twoNames d f).WF := by
  simp [twoNames, Node.WF, Node.WFAll, h]

/-- The path of an entry of `src`. -/
def inSrc (n : JStr) : Path := ((⟨true, [j!"r"]⟩ : Path).child j!"src").child n

/-- The tree on it. -/
def twoTree (d f : JStr) : FileTree :=
  .dir [(j!"src", .dir [(d, .dir [(j!"x", .file (some ⟨false, false⟩))]), (f, .file (some ⟨false, false⟩))]), (j!"README", .file (some ⟨false, false⟩))]

/-- `util` becomes `zoo`. -/
theorem renamed_dir : Renamed standard standard (inSrc j!"util") (inSrc j!"zoo") (.dir [(j!"x", .file (some ⟨false, false⟩))]) ⟨true, [j!"r"]⟩ 2 (twoTree j!"util" j!"Main.java") (twoTree j!"zoo" j!"Main.java") := by
  refine .inside (l₁ := []) rfl (.here (l₁ := []) rfl rfl rfl rfl rfl ?_)
  intro e he
  cases List.mem_singleton.1 he
  exact ⟨by decide, by decide⟩

/-- `util` becomes `zoo`. -/
example : ∃ ls ls', j!"r/\n├─ README\n└─ src/\n   ├─ Main.java\n   └─ util/\n      └─ x" = List.intercalate j!"\n" ls ∧
    prettyPrint (m := Except Exn) (twoNames j!"zoo" j!"Main.java").toFs.lift Path.root Options.createDefault ⟨true, [j!"r"]⟩ = .ok (List.intercalate j!"\n" ls') ∧ OneChanged j!"util/" j!"zoo/" ls ls' :=
  C119_default (disk := twoNames j!"util" j!"Main.java") (disk' := twoNames j!"zoo" j!"Main.java") (cwd := Path.root) (p := ⟨true, [j!"r"]⟩) (q := inSrc j!"util") (q' := inSrc j!"zoo") (c := .dir [(j!"x", .file (some ⟨false, false⟩))]) (j := 2) (twoNames_wf (by decide)) (twoNames_wf (by decide)) rfl
    renamed_dir (by decide)
    ((C100_default (twoNames_wf (by decide)) rfl _ _).2 (by decide))

/-- Directories first, with ☕ before the names that end in `.java`. -/
def coffee (disk : Node) : Settings :=
  { standard with
    order := PathSorts.DIRECTORY_FIRST disk.toFs.isDir
    emoji := fun p => if (name p).drop ((name p).length - 5) = j!".java" then some j!"☕" else none }

/-- Options with these answers. -/
def coffeeOptions (disk : Node) : Options (Except Exn) :=
  { Demo.dflt.sort (coffee disk).order with emojiMapping := fun p => .ok ((coffee disk).emoji p) }

theorem coffee_obeys (disk : Node) : Obeys (coffeeOptions disk) (coffee disk) :=
  ⟨fun _ _ => rfl, fun _ _ => rfl, rfl, fun _ _ => rfl, rfl, rfl, fun _ _ => rfl, fun _ _ => rfl, OnePage.obeys_standard.branch, OnePage.obeys_standard.lastBranch, OnePage.obeys_standard.bar, OnePage.obeys_standard.blank⟩

theorem coffee_alike (disk disk' : Node) : Alike disk.toFs disk'.toFs (coffee disk) (coffee disk') where
  dirs _ _ _ _ := rfl
  files _ _ _ _ := rfl
  limit _ _ _ _ := rfl
  emoji p p' h _ := by show (if _ then _ else _) = (if _ then _ else _); rw [h]
  ext _ _ _ _ := rfl
  order p p' r r' _ h2 _ h4 := by show PathSorts.DIRECTORY_FIRST _ _ _ = PathSorts.DIRECTORY_FIRST _ _ _; unfold PathSorts.DIRECTORY_FIRST; simp only [h2, h4]
  maxDepth := rfl
  compact := rfl
  branch := rfl
  lastBranch := rfl
  bar := rfl
  blank := rfl

/-- `Main.java` becomes `Main.kt`. -/
theorem renamed_file : Renamed (coffee (twoNames j!"util" j!"Main.java")) (coffee (twoNames j!"util" j!"Main.kt")) (inSrc j!"Main.java") (inSrc j!"Main.kt") (.file (some ⟨false, false⟩)) ⟨true, [j!"r"]⟩ 2
    (twoTree j!"util" j!"Main.java") (twoTree j!"util" j!"Main.kt") := by
  refine .inside (l₁ := []) rfl (.here (l₁ := [(j!"util", .dir [(j!"x", .file (some ⟨false, false⟩))])]) (l₂ := []) rfl rfl rfl rfl rfl ?_)
  intro e he
  cases List.mem_singleton.1 he
  exact ⟨by decide, by decide⟩

/-- `Main.java` becomes `Main.kt`: the emoji goes with the name. -/
example := (C119_rename (fs := (twoNames j!"util" j!"Main.java").toFs) (fs' := (twoNames j!"util" j!"Main.kt").toFs) (q := inSrc j!"Main.java") (q' := inSrc j!"Main.kt") (c := .file (some ⟨false, false⟩)) (j := 2)
  (twoNames_wf (by decide)).proper (twoNames_wf (by decide)).proper (cwd := Path.root) (p := ⟨true, [j!"r"]⟩) rfl (coffee_obeys _) (coffee_obeys _) (lawful_DIRECTORY_FIRST _) (lawful_DIRECTORY_FIRST _) (coffee_alike _ _) rfl
  (holds_at (twoNames_wf (by decide)) rfl : Holds (twoNames j!"util" j!"Main.java").toFs ⟨true, [j!"r"]⟩ (twoTree j!"util" j!"Main.java")) (holds_at (twoNames_wf (by decide)) rfl)
  renamed_file).2
  j!"r/\n├─ src/\n│  ├─ util/\n│  │  └─ x\n│  └─ ☕ Main.java\n└─ README" j!"r/\n├─ src/\n│  ├─ util/\n│  │  └─ x\n│  └─ Main.kt\n└─ README"
  ((C100_disk (twoNames_wf (by decide)) rfl (coffee_obeys _) (lawful_DIRECTORY_FIRST _) _ _).2 (by decide)) ((C100_disk (twoNames_wf (by decide)) rfl (coffee_obeys _) (lawful_DIRECTORY_FIRST _) _ _).2 (by decide))

end Rename
end JFTP
