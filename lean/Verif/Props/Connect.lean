import Verif.Spec.Connect
import Verif.Props.Under

/-
C120: the lines of the picture connect, and every drawing without loose ends is the picture of a tree.
-/

namespace JFTP
open Spec

namespace Connect

/-- The symbol under a symbol, in the rows below a label. -/
def cont : Sym → Sym
  | .tee | .bar => .bar
  | _ => .blank

def push (x : Sym) (r : Row) : Row := (x :: r.1, r.2)

/-- The first row gets `b`, the others the symbol under it. -/
def under (b : Sym) : List Row → List Row
  | [] => []
  | r :: rs => push b r :: rs.map (push (cont b))

mutual
/-- The rows of a tree. -/
def rows : Disp → List Row
  | .node l ks => ([], l) :: kids ks
/-- The rows of the children. -/
def kids : List Disp → List Row
  | [] => []
  | k :: ks => under (if ks.isEmpty then .corner else .tee) (rows k) ++ kids ks
end

theorem text_push (f : TreeFormat) (x : Sym) (r : Row) : (push x r).text f = (x.text f ++ [SPACE]) ++ r.text f := by
  simp [Row.text, push]

theorem text_under (f : TreeFormat) (b : Sym) (rs : List Row) : (under b rs).map (Row.text f) = block (b.text f ++ [SPACE]) ((cont b).text f ++ [SPACE]) (rs.map (Row.text f)) := by
  cases rs with
  | nil => rfl
  | cons r rs =>
    simp only [under, List.map_cons, block, text_push, List.map_map]
    congr 1
    apply List.map_congr_left
    intro x _
    simp [text_push]

mutual
theorem text_rows (f : TreeFormat) : (D : Disp) → (rows D).map (Row.text f) = layout f D
  | .node l ks => by simp [rows, layout, text_kids f ks, Row.text]
theorem text_kids (f : TreeFormat) : (ks : List Disp) → (kids ks).map (Row.text f) = layoutKids f ks
  | [] => rfl
  | k :: ks => by
    rw [kids, layoutKids, List.map_append, text_under, text_rows f k, text_kids f ks]
    cases ks with
    | nil => simp [Sym.text, cont, layoutKids]
    | cons k' ks => simp [Sym.text, cont]
end

/-! ### Drawings row by row -/

/-- No line goes down. -/
def Closed (a : List Sym) : Prop := ∀ s ∈ a, s.down = false

/-- The symbols of a row and of the next one. -/
inductive Step : List Sym → List Sym → Prop
  | child {b : Sym} : b.right = true → Step [] [b]
  | sibling {x b : Sym} {a : List Sym} : x.down = true → Closed a → b.right = true → Step (x :: a) [b]
  | inside {x : Sym} {a b : List Sym} : Step a b → Step (x :: a) (cont x :: b)

/-- The rows that follow a row with the symbols `a`. -/
inductive Ends : List Sym → List Row → Prop
  | stop {a : List Sym} : Closed a → Ends a []
  | next {a b : List Sym} {l : JStr} {rest : List Row} : Step a b → Ends b rest → Ends a ((b, l) :: rest)

theorem cont_cont (x : Sym) : cont (cont x) = cont x := by cases x <;> rfl
theorem cont_down (x : Sym) : (cont x).down = x.down := by cases x <;> rfl
theorem cont_up (x : Sym) : (cont x).up = x.down := by cases x <;> rfl
theorem cont_right (x : Sym) : (cont x).right = false := by cases x <;> rfl

theorem Closed.cons {x : Sym} {a : List Sym} : Closed (x :: a) ↔ x.down = false ∧ Closed a := by simp [Closed]

theorem lift_last {x : Sym} (hx : x.down = false) : ∀ {a : List Sym} {inner : List Row}, Ends a inner → Ends (x :: a) (inner.map (push (cont x))) := by
  intro a inner h
  induction h generalizing x with
  | stop h => exact .stop (Closed.cons.2 ⟨hx, h⟩)
  | next h1 _ ih =>
    refine .next (.inside h1) ?_
    have := ih (x := cont x) (by rw [cont_down, hx])
    rwa [cont_cont] at this

theorem lift_more {x b : Sym} (hx : x.down = true) (hb : b.right = true) {l : JStr} {more : List Row} (hm : Ends [b] more) :
    ∀ {a : List Sym} {inner : List Row}, Ends a inner → Ends (x :: a) (inner.map (push (cont x)) ++ ([b], l) :: more) := by
  intro a inner h
  induction h generalizing x with
  | stop h => exact .next (.sibling hx h hb) hm
  | next h1 _ ih =>
    refine .next (.inside h1) ?_
    have := ih (x := cont x) (by rw [cont_down, hx])
    rwa [cont_cont] at this

mutual
theorem rows_ends : (D : Disp) → ∃ l rest, rows D = ([], l) :: rest ∧ Ends [] rest
  | .node l ks => by
    refine ⟨l, kids ks, rows.eq_1 l ks, ?_⟩
    rcases kids_ends ks with ⟨_, h⟩ | ⟨_, b, l', more, h1, h2, h3⟩
    · rw [h]; exact .stop (by simp [Closed])
    · rw [h1]; exact .next (.child h2) h3
theorem kids_ends : (ks : List Disp) → (ks.isEmpty = true ∧ kids ks = []) ∨ (ks.isEmpty = false ∧ ∃ b l more, kids ks = ([b], l) :: more ∧ b.right = true ∧ Ends [b] more)
  | [] => .inl ⟨rfl, rfl⟩
  | k :: ks => by
    obtain ⟨l, rest, h1, h2⟩ := rows_ends k
    refine .inr ⟨rfl, ?_⟩
    rcases kids_ends ks with ⟨h0, h3⟩ | ⟨h0, b, l', more, h3, h4, h5⟩
    · refine ⟨.corner, l, rest.map (push .blank), ?_, rfl, lift_last (x := .corner) rfl h2⟩
      rw [kids, h1, h3, h0]
      simp [under, push, cont]
    · refine ⟨.tee, l, rest.map (push .bar) ++ ([b], l') :: more, ?_, rfl, lift_more (x := .tee) rfl h4 h5 h2⟩
      rw [kids, h1, h3, h0]
      simp [under, push, cont]
end

theorem split {x : Sym} {a : List Sym} {rest : List Row} (h : Ends (x :: a) rest) :
    ∃ inner outer, rest = inner.map (push (cont x)) ++ outer ∧ Ends a inner ∧
      ((x.down = false ∧ outer = []) ∨ (x.down = true ∧ ∃ b l more, outer = ([b], l) :: more ∧ b.right = true ∧ Ends [b] more)) := by
  induction rest generalizing x a with
  | nil =>
    cases h with
    | stop h => exact ⟨[], [], rfl, .stop (Closed.cons.1 h).2, .inl ⟨(Closed.cons.1 h).1, rfl⟩⟩
  | cons r rest ih =>
    cases h with
    | @next _ b l _ h1 h2 =>
      cases h1 with
      | sibling h3 h4 h5 => exact ⟨[], _, rfl, .stop h4, .inr ⟨h3, _, _, _, rfl, h5, h2⟩⟩
      | @inside _ _ b h3 =>
        obtain ⟨inner, outer, h4, h5, h6⟩ := ih h2
        refine ⟨(b, l) :: inner, outer, ?_, .next h3 h5, ?_⟩
        · rw [h4, cont_cont]; rfl
        · rwa [cont_down] at h6

theorem top_cases {b : Sym} (h : b.right = true) : (b = .corner ∧ b.down = false) ∨ (b = .tee ∧ b.down = true) := by
  cases b <;> simp [Sym.right, Sym.down] at h ⊢

theorem parse (n : Nat) : (∀ rest, rest.length ≤ n → Ends [] rest → ∃ ks, kids ks = rest) ∧
    (∀ b l more, more.length + 1 ≤ n → b.right = true → Ends [b] more → ∃ k ks, kids (k :: ks) = ([b], l) :: more) := by
  induction n with
  | zero =>
    refine ⟨?_, ?_⟩
    · intro rest h _
      have : rest = [] := List.length_eq_zero_iff.1 (by omega)
      exact ⟨[], by rw [this]; rfl⟩
    · intro b l more h
      omega
  | succ n ih =>
    have h2 : ∀ b l more, more.length + 1 ≤ n + 1 → b.right = true → Ends [b] more → ∃ k ks, kids (k :: ks) = ([b], l) :: more := by
      intro b l more hn hb h
      obtain ⟨inner, outer, h1, h2, h3⟩ := split h
      have hl : more.length = inner.length + outer.length := by rw [h1]; simp
      obtain ⟨ks0, h0⟩ := ih.1 inner (by omega) h2
      rcases top_cases hb with ⟨rfl, hd⟩ | ⟨rfl, hd⟩
      · rcases h3 with ⟨_, h3⟩ | ⟨h3, _⟩
        · refine ⟨.node l ks0, [], ?_⟩
          rw [kids, rows, h0, h1, h3]
          simp [under, push, kids]
        · rw [hd] at h3; cases h3
      · rcases h3 with ⟨h3, _⟩ | ⟨_, b', l', more', h3, h4, h5⟩
        · rw [hd] at h3; cases h3
        · obtain ⟨k', ks', h6⟩ := ih.2 b' l' more' (by rw [hl, h3, List.length_cons] at hn; omega) h4 h5
          refine ⟨.node l ks0, k' :: ks', ?_⟩
          rw [kids, rows, h0, h6, h1, h3]
          simp [under, push]
    refine ⟨?_, h2⟩
    intro rest hn h
    cases h with
    | stop _ => exact ⟨[], rfl⟩
    | @next _ b l rest h1 h3 =>
      cases h1 with
      | child hb =>
        obtain ⟨k, ks, h4⟩ := h2 _ l rest (by simpa using hn) hb h3
        exact ⟨_, h4⟩

/-! ### Drawings column by column -/

/-- The last symbol, and no other one, leads to the right. -/
def Shape (b : List Sym) : Prop := ∃ a x, b = a ++ [x] ∧ x.right = true ∧ ∀ s ∈ a, s.right = false
def Down (a b : List Sym) : Prop := ∀ (k : Nat) (s : Sym), a[k]? = some s → s.down = true → ∃ s' : Sym, b[k]? = some s' ∧ s'.up = true
def Up (a b : List Sym) : Prop := ∀ (k : Nat) (s : Sym), b[k]? = some s → s.up = true → k = a.length ∨ ∃ s' : Sym, a[k]? = some s' ∧ s'.down = true

theorem right_up {b : Sym} (h : b.right = true) : b.up = true := by cases b <;> simp [Sym.right, Sym.up] at h ⊢

theorem step_columns {a b : List Sym} (h : Step a b) : Shape b ∧ Down a b ∧ Up a b := by
  induction h with
  | @child b hb =>
    refine ⟨⟨[], b, rfl, hb, by simp⟩, fun k s h => by simp at h, fun k s h _ => ?_⟩
    cases k with
    | zero => exact .inl rfl
    | succ k => simp at h
  | @sibling x b a hx ha hb =>
    refine ⟨⟨[], b, rfl, hb, by simp⟩, fun k s h hs => ?_, fun k s h _ => ?_⟩
    · cases k with
      | zero => exact ⟨b, rfl, right_up hb⟩
      | succ k =>
        rw [List.getElem?_cons_succ] at h
        rw [ha s (List.mem_of_getElem? h)] at hs
        cases hs
    · cases k with
      | zero => exact .inr ⟨x, rfl, hx⟩
      | succ k => simp at h
  | @inside x a b _ ih =>
    obtain ⟨⟨u, y, h1, h2, h3⟩, hd, hu⟩ := ih
    refine ⟨⟨cont x :: u, y, by rw [h1]; rfl, h2, ?_⟩, fun k s h hs => ?_, fun k s h hs => ?_⟩
    · intro s hs
      rcases List.mem_cons.1 hs with rfl | hs
      · exact cont_right x
      · exact h3 s hs
    · cases k with
      | zero =>
        cases h
        exact ⟨cont x, rfl, by rw [cont_up, hs]⟩
      | succ k => exact hd k s h hs
    · cases k with
      | zero =>
        cases h
        rw [cont_up] at hs
        exact .inr ⟨x, rfl, hs⟩
      | succ k =>
        rcases hu k s h hs with rfl | h
        · exact .inl rfl
        · exact .inr h

theorem step_of_columns {a b : List Sym} (hs : Shape b) (hd : Down a b) (hu : Up a b) : Step a b := by
  induction a generalizing b with
  | nil =>
    obtain ⟨u, y, rfl, h2, h3⟩ := hs
    cases u with
    | nil => exact .child h2
    | cons z u =>
      rcases hu (u.length + 1) y (by simp) (right_up h2) with h | ⟨s', h, _⟩
      · simp at h
      · simp at h
  | cons x a ih =>
    obtain ⟨u, y, rfl, h2, h3⟩ := hs
    cases u with
    | nil =>
      refine .sibling ?_ ?_ h2
      · rcases hu 0 y rfl (right_up h2) with h | ⟨s', h, h'⟩
        · simp at h
        · cases h; exact h'
      · intro s hs
        obtain ⟨k, hk⟩ := List.getElem?_of_mem hs
        cases hsd : s.down with
        | false => rfl
        | true =>
          obtain ⟨s', h, _⟩ := hd (k + 1) s hk hsd
          simp at h
    | cons z u =>
      have hz : z = cont x := by
        have h5 := h3 z (.head _)
        have h6 : z.up = true → x.down = true := fun h => by
          rcases hu 0 z rfl h with h | ⟨s', h, h'⟩
          · simp at h
          · cases h; exact h'
        have h7 : x.down = true → z.up = true := fun h => by
          obtain ⟨s', h8, h9⟩ := hd 0 x rfl h
          cases h8; exact h9
        revert h5 h6 h7
        cases x <;> cases z <;> simp [Sym.right, Sym.up, Sym.down, cont]
      subst hz
      refine .inside (ih ⟨u, y, rfl, h2, fun s hs => h3 s (.tail _ hs)⟩ (fun k s h hs => hd (k + 1) s h hs) (fun k s h hs => ?_))
      rcases hu (k + 1) s h hs with h | h
      · exact .inl (by simpa using h)
      · exact .inr h

theorem ends_of {a : List Sym} {l : JStr} {rest : List Row} (hs : ∀ r ∈ rest, Shape r.1)
    (hd : ∀ (i : Nat) (r : Row) (k : Nat) (s : Sym), ((a, l) :: rest)[i]? = some r → r.1[k]? = some s → s.down = true → ∃ (r' : Row) (s' : Sym), ((a, l) :: rest)[i + 1]? = some r' ∧ r'.1[k]? = some s' ∧ s'.up = true)
    (hu : ∀ (i : Nat) (r : Row) (k : Nat) (s : Sym), ((a, l) :: rest)[i + 1]? = some r → r.1[k]? = some s → s.up = true → ∃ r' : Row, ((a, l) :: rest)[i]? = some r' ∧ (k = r'.1.length ∨ ∃ s' : Sym, r'.1[k]? = some s' ∧ s'.down = true)) :
    Ends a rest := by
  induction rest generalizing a l with
  | nil =>
    refine .stop fun s hs => ?_
    obtain ⟨k, hk⟩ := List.getElem?_of_mem hs
    cases hsd : s.down with
    | false => rfl
    | true =>
      obtain ⟨r', s', h, _⟩ := hd 0 (a, l) k s rfl hk hsd
      simp at h
  | cons r rest ih =>
    refine .next (l := r.2) (step_of_columns (hs r (.head _)) ?_ ?_) (ih (l := r.2) (fun r' hr' => hs r' (.tail _ hr')) (fun i => hd (i + 1)) (fun i => hu (i + 1)))
    · intro k s hk hsd
      obtain ⟨r', s', h, h'⟩ := hd 0 (a, l) k s rfl hk hsd
      cases h
      exact ⟨s', h'⟩
    · intro k s hk hsu
      obtain ⟨r', h, h'⟩ := hu 0 r k s rfl hk hsu
      cases h
      exact h'

theorem of_ends {a : List Sym} {l : JStr} {rest : List Row} (h : Ends a rest) : (∀ r ∈ rest, Shape r.1) ∧
    (∀ (i : Nat) (r : Row) (k : Nat) (s : Sym), ((a, l) :: rest)[i]? = some r → r.1[k]? = some s → s.down = true → ∃ (r' : Row) (s' : Sym), ((a, l) :: rest)[i + 1]? = some r' ∧ r'.1[k]? = some s' ∧ s'.up = true) ∧
    (∀ (i : Nat) (r : Row) (k : Nat) (s : Sym), ((a, l) :: rest)[i + 1]? = some r → r.1[k]? = some s → s.up = true → ∃ r' : Row, ((a, l) :: rest)[i]? = some r' ∧ (k = r'.1.length ∨ ∃ s' : Sym, r'.1[k]? = some s' ∧ s'.down = true)) := by
  induction h generalizing l with
  | @stop a h =>
    refine ⟨by simp, ?_, ?_⟩
    · intro i r k s hi hk hs
      cases i with
      | zero =>
        cases hi
        rw [h s (List.mem_of_getElem? hk)] at hs
        cases hs
      | succ i => simp at hi
    · intro i r k s hi
      simp at hi
  | @next a b l' rest h1 _ ih =>
    obtain ⟨h2, h3, h4⟩ := step_columns h1
    obtain ⟨i1, i2, i3⟩ := ih (l := l')
    refine ⟨?_, ?_, ?_⟩
    · intro r hr
      rcases List.mem_cons.1 hr with rfl | hr
      · exact h2
      · exact i1 r hr
    · intro i r k s hi hk hs
      cases i with
      | zero =>
        cases hi
        obtain ⟨s', h5⟩ := h3 k s hk hs
        exact ⟨_, s', rfl, h5⟩
      | succ i => exact i2 i r k s hi hk hs
    · intro i r k s hi hk hs
      cases i with
      | zero =>
        cases hi
        exact ⟨_, rfl, h4 k s hk hs⟩
      | succ i => exact i3 i r k s hi hk hs

theorem drawing_iff {R : List Row} : Drawing R ↔ ∃ l rest, R = ([], l) :: rest ∧ Ends [] rest := by
  constructor
  · intro h
    obtain ⟨l, hl⟩ := h.first
    cases R with
    | nil => simp at hl
    | cons r rest =>
      cases hl
      refine ⟨l, rest, rfl, ends_of (l := l) ?_ h.below h.above⟩
      intro r hr
      obtain ⟨i, hi⟩ := List.getElem?_of_mem hr
      exact h.label i r hi
  · rintro ⟨l, rest, rfl, h⟩
    obtain ⟨h1, h2, h3⟩ := of_ends (l := l) h
    exact ⟨⟨l, rfl⟩, fun i r hi => h1 r (List.mem_of_getElem? hi), h2, h3⟩

theorem drawing_tree {R : List Row} : Drawing R ↔ ∃ D, rows D = R := by
  rw [drawing_iff]
  constructor
  · rintro ⟨l, rest, rfl, h⟩
    obtain ⟨ks, hk⟩ := (parse rest.length).1 rest (Nat.le_refl _) h
    exact ⟨.node l ks, by rw [rows, hk]⟩
  · rintro ⟨D, rfl⟩
    exact rows_ends D

end Connect

/-- **C120**: the text of every call, whatever happens to the file system meanwhile and whatever the callbacks do, is a drawing without loose ends. -/
theorem C120_no_loose_ends {σ : Type} {fs : Fs (WorldM σ)} {cwd p : Path} {o : Options (WorldM σ)} {c : CmpM (WorldM σ)} (hw : cwd.abs = true) {s s' : σ} {txt : JStr}
    (h : (ExceptT.run (LiveScanner.prettyPrint TimSort.sort c fs cwd o p)).run s = (.ok txt, s')) :
    ∃ R, Drawing R ∧ txt = joinLines (R.map (Row.text o.treeFormat)) := by
  obtain ⟨D, rfl, _⟩ := C72_lines hw h
  exact ⟨Connect.rows D, Connect.drawing_tree.2 ⟨D, rfl⟩, by rw [Connect.text_rows]; rfl⟩

/-- **C120**, conversely: the drawings without loose ends are exactly the pictures of trees. -/
theorem C120_exactly_trees (f : TreeFormat) (lines : List JStr) : (∃ R, Drawing R ∧ lines = R.map (Row.text f)) ↔ ∃ D, lines = layout f D := by
  constructor
  · rintro ⟨R, h, rfl⟩
    obtain ⟨D, rfl⟩ := Connect.drawing_tree.1 h
    exact ⟨D, Connect.text_rows f D⟩
  · rintro ⟨D, rfl⟩
    exact ⟨Connect.rows D, Connect.drawing_tree.2 ⟨D, rfl⟩, (Connect.text_rows f D).symm⟩


namespace Connect

/-- A drawing, and its text. -/
def small : List Row := [([], j!"r/"), ([.tee], j!"a/"), ([.bar, .corner], j!"x"), ([.corner], j!"b")]

example : Drawing small := drawing_tree.2 ⟨.node j!"r/" [.node j!"a/" [.node j!"x" []], .node j!"b" []], rfl⟩
example : joinLines (small.map (Row.text TreeFormats.UNICODE_BOX_DRAWING)) = j!"r/\n├─ a/\n│  └─ x\n└─ b" := by decide

/-- A line going down to nothing. -/
example : ¬ Drawing [([], j!"r/"), ([.tee], j!"a")] := by
  intro h
  obtain ⟨r', s', h1, _⟩ := h.below 1 _ 0 .tee rfl rfl rfl
  simp at h1

/-- A line coming from nothing. -/
example : ¬ Drawing [([], j!"r/"), ([.corner], j!"a"), ([.corner], j!"b")] := by
  intro h
  obtain ⟨r', h1, h2⟩ := h.above 1 _ 0 .corner rfl rfl rfl
  cases h1
  rcases h2 with h2 | ⟨s', h2, h3⟩
  · simp at h2
  · cases h2; cases h3

end Connect
end JFTP
