import Verif.Spec.Visit
import Verif.Lemmas.Cmp
import Verif.Lemmas.Norm
import Verif.Lemmas.NamedOk

/-
Consequences of the scanner's refinement theorem.
-/

namespace JFTP.Spec

/-! ### Options level -/

theorem pathFilter_eq (fs : PureFs) (o : Options (Except Exn)) (p : Path) :
    o.pathFilter fs.lift p = if fs.isDir p = true then o.dirMatcher p else o.fileMatcher p := by
  unfold Options.pathFilter PathMatchers.ifMatchesThenElse PathMatchers.isDirectory PureFs.lift
  rfl

theorem answers_eq (fs : PureFs) (o : Options (Except Exn)) : answersOf fs (o.toScan fs.lift) = answers fs o := by
  unfold answersOf answers Options.toScan
  congr 1

theorem scanned_eq (fs : PureFs) {cwd : Path} (hw : cwd.abs = true) (o : Options (Except Exn)) (p : Path) :
    scanned fs cwd o p = Scanner.handle fs.lift (o.toScan fs.lift) 0 (target cwd p) := by
  unfold scanned Scanner.scan
  dsimp only
  rw [show (target cwd p).normalize.toAbsolutePath cwd = target cwd p from Path.target_clean hw]

theorem scanned_sound {fs : PureFs} {cwd : Path} (hw : cwd.abs = true) {o : Options (Except Exn)} (hc : LawfulCmp o.pathComparator) {p : Path} {t : TreeEntry}
    (h : scanned fs cwd o p = .ok t) : Scanned (answers fs o) o.pathComparator o.maxDepth 0 (target cwd p) t := by
  rw [scanned_eq fs hw] at h
  have := post_handle (covers_answersOf fs (o.toScan fs.lift)) hc 0 (target cwd p) t h
  rw [answers_eq] at this
  exact this

theorem scanned_complete {fs : PureFs} {cwd : Path} (hw : cwd.abs = true) {o : Options (Except Exn)} (hc : LawfulCmp o.pathComparator)
    (hd : DistinguishesAll o.pathComparator fs) {p : Path} {t : TreeEntry}
    (h : Scanned (answers fs o) o.pathComparator o.maxDepth 0 (target cwd p) t) : scanned fs cwd o p = .ok t := by
  rw [scanned_eq fs hw]
  rw [← answers_eq] at h
  exact h.handle_ok hc hd

theorem sort_lawful {c : Cmp} (hc : LawfulCmp c) : LawfulCmp (thenComparing c PathSorts.ALPHABETICAL) := lawful_thenComparing hc lawful_ALPHABETICAL

theorem sort_distinguishes {c : Cmp} (hc : LawfulCmp c) {fs : PureFs} (hfs : ProperFs fs) :
    DistinguishesAll (thenComparing c PathSorts.ALPHABETICAL) fs :=
  fun _ _ _ h => distinguishes_alpha hc (hfs _ _ _ h).2

theorem alphabetical_eq : PathSorts.ALPHABETICAL = thenComparing (fun _ _ => 0) PathSorts.ALPHABETICAL := rfl

theorem lawful_const : LawfulCmp (fun _ _ : Path => (0 : Int)) := ⟨fun _ _ => by simp, fun _ _ _ _ _ => by simp⟩

/-- If scanning throws, so does printing; if it returns, printing renders the tree. -/
theorem prettyPrint_eq (fs : PureFs) (cwd : Path) (o : Options (Except Exn)) (p : Path) :
    prettyPrint fs.lift cwd o p = (scanned fs cwd o p >>= Renderer.renderRoot o.toRender (LineRenderer.create o.toRender)) := rfl

/-! ### Sub-entries -/

variable {A : Answers} {c : Cmp} {D : Int}

theorem Scanned.entryPath_eq {k : Nat} {p : Path} {e : TreeEntry} (h : Scanned A c D k p e) : entryPath e = some p := by
  cases h <;> rfl

theorem ScannedAll.paths {k : Nat} {ps : List Path} {es : List TreeEntry} (h : ScannedAll A c D k ps es) : es.map entryPath = ps.map some := by
  match ps, es, h with
  | _, _, .nil => rfl
  | _, _, .cons h1 h2 => simp [h1.entryPath_eq, h2.paths]

theorem ScannedAll.filterMap {k : Nat} {ps : List Path} {es : List TreeEntry} (h : ScannedAll A c D k ps es) : es.filterMap entryPath = ps := by
  match ps, es, h with
  | _, _, .nil => rfl
  | _, _, .cons h1 h2 => simp [h1.entryPath_eq, h2.filterMap]

theorem ScannedAll.isSome {k : Nat} {ps : List Path} {es : List TreeEntry} (h : ScannedAll A c D k ps es) : ∀ e ∈ es, (entryPath e).isSome := by
  match ps, es, h with
  | _, _, .nil => intro e he; cases he
  | _, _, .cons h1 h2 =>
    intro e he
    rcases List.mem_cons.1 he with rfl | he
    · simp [h1.entryPath_eq]
    · exact h2.isSome e he

theorem ScannedAll.mem {k : Nat} {ps : List Path} {es : List TreeEntry} (h : ScannedAll A c D k ps es) {e : TreeEntry} (he : e ∈ es) :
    ∃ q ∈ ps, Scanned A c D k q e := by
  match ps, es, h with
  | _, _, .nil => cases he
  | _, _, .cons h1 h2 =>
    rcases List.mem_cons.1 he with rfl | he
    · exact ⟨_, by simp, h1⟩
    · obtain ⟨q, hq, h⟩ := h2.mem he; exact ⟨q, by simp [hq], h⟩

theorem ScannedAll.mem_path {k : Nat} {ps : List Path} {es : List TreeEntry} (h : ScannedAll A c D k ps es) {q : Path} (hq : q ∈ ps) :
    ∃ e ∈ es, Scanned A c D k q e := by
  match ps, es, h with
  | _, _, .nil => cases hq
  | _, _, .cons h1 h2 =>
    rcases List.mem_cons.1 hq with rfl | hq
    · exact ⟨_, by simp, h1⟩
    · obtain ⟨e, he, h⟩ := h2.mem_path hq; exact ⟨e, by simp [he], h⟩

theorem moreMark_cases (n : Int) (l : List Path) (p : Path) : moreMark n l p = [] ∨ moreMark n l p = [.skipped p] := by
  unfold moreMark; split <;> simp

theorem moreMark_paths (n : Int) (l : List Path) (p : Path) : (moreMark n l p).filterMap entryPath = [] := by
  rcases moreMark_cases n l p with h | h <;> rw [h] <;> rfl

theorem limitTo_sublist (n : Int) (l : List Path) : (limitTo n l).Sublist l := by
  unfold limitTo; split
  · exact .refl _
  · exact List.take_sublist _ _

/-- The entries below a correct tree are correct trees for their own paths and depths. -/
theorem Scanned.sub {k n : Nat} {p q : Path} {e x : TreeEntry} (h : Scanned A c D k p e) (hb : BelowAt x n e) (hq : entryPath x = some q) :
    Scanned A c D (k + n) q x := by
  induction hb generalizing k p with
  | here => rw [h.entryPath_eq] at hq; cases hq; exact h
  | @inside d es y n hy hb ih =>
    cases h with
    | tooDeep h1 h2 =>
      simp at hy; subst hy
      cases hb; cases hq
    | @dir _ _ n' cs ks srt es' h1 hk h2 h3 h4 h5 h6 h7 =>
      rcases List.mem_append.1 hy with hy | hy
      · obtain ⟨r, hr, hs⟩ := h7.mem hy
        have := ih hs
        rw [show k + (n + 1) = k + 1 + n by omega]; exact this
      · rcases moreMark_cases n' srt d with hm | hm <;> rw [hm] at hy
        · cases hy
        · simp at hy; subst hy; cases hb; cases hq

theorem Below.at {x e : TreeEntry} (h : Below x e) : ∃ n, BelowAt x n e := by
  induction h with
  | here => exact ⟨0, .here⟩
  | inside hx _ ih => obtain ⟨n, h⟩ := ih; exact ⟨n + 1, .inside hx h⟩

theorem BelowAt.isBelow {x e : TreeEntry} {n : Nat} (h : BelowAt x n e) : Below x e := by
  induction h with
  | here => exact .here
  | inside hx _ ih => exact .inside hx ih

theorem Scanned.sub_below {k : Nat} {p q : Path} {e x : TreeEntry} (h : Scanned A c D k p e) (hb : Below x e) (hq : entryPath x = some q) :
    ∃ k', Scanned A c D k' q x := by
  obtain ⟨n, hb⟩ := hb.at; exact ⟨_, h.sub hb hq⟩

/-- Every displayed path is visited, at its depth. -/
theorem Scanned.visited {k n : Nat} {p q : Path} {e x : TreeEntry} (h : Scanned A c D k p e) (hb : BelowAt x n e) (hq : entryPath x = some q) :
    Visited A c D k p (k + n) q := by
  suffices ∀ k0 p0, Visited A c D k0 p0 k p → Visited A c D k0 p0 (k + n) q from this k p .top
  intro k0 p0 hv
  induction hb generalizing k p with
  | here => rw [h.entryPath_eq] at hq; cases hq; exact hv
  | @inside d es y n hy hb ih =>
    cases h with
    | tooDeep h1 h2 => simp at hy; subst hy; cases hb; cases hq
    | @dir _ _ n' cs ks srt es' h1 hk h2 h3 h4 h5 h6 h7 =>
      rcases List.mem_append.1 hy with hy | hy
      · obtain ⟨r, hr, hs⟩ := h7.mem hy
        have := ih hs (.child hv h1 hk h2 h3 h4 h5 h6 hr)
        rw [show k + (n + 1) = k + 1 + n by omega]; exact this
      · rcases moreMark_cases n' srt d with hm | hm <;> rw [hm] at hy
        · cases hy
        · simp at hy; subst hy; cases hb; cases hq

theorem Visited.trans {k0 k1 k2 : Nat} {p0 p1 p2 : Path} (h1 : Visited A c D k0 p0 k1 p1) (h2 : Visited A c D k1 p1 k2 p2) :
    Visited A c D k0 p0 k2 p2 := by
  induction h2 with
  | top => exact h1
  | child _ a1 a2 a3 a4 a5 a6 a7 a8 ih => exact .child ih a1 a2 a3 a4 a5 a6 a7 a8

theorem Visited.le {k0 k1 : Nat} {p0 p1 : Path} (h : Visited A c D k0 p0 k1 p1) : k0 ≤ k1 := by
  induction h with
  | top => exact Nat.le_refl _
  | child _ _ _ _ _ _ _ _ _ ih => omega

/-! ### entryPaths and BelowAt -/

mutual
theorem mem_events {q : Path} (e : TreeEntry) : some q ∈ events e ↔ ∃ x, Below x e ∧ entryPath x = some q := by
  match e with
  | .dir d es =>
    rw [events, List.mem_cons, mem_eventsAll es]
    constructor
    · rintro (h | ⟨y, hy, x, hx, hq⟩)
      · exact ⟨_, .here, by rw [entryPath, h]⟩
      · exact ⟨x, .inside hy hx, hq⟩
    · rintro ⟨x, hx, hq⟩
      cases hx with
      | here => left; exact hq.symm
      | inside hy hb => exact .inr ⟨_, hy, x, hb, hq⟩
  | .file p a =>
    simp only [events, List.mem_singleton]
    constructor
    · intro h; exact ⟨_, .here, by rw [entryPath, h]⟩
    · rintro ⟨x, hx, hq⟩; cases hx; exact hq.symm
  | .skipped p =>
    simp only [events, List.mem_singleton]
    constructor
    · intro h; cases h
    · rintro ⟨x, hx, hq⟩; cases hx; cases hq
  | .maxDepth n =>
    simp only [events, List.mem_singleton]
    constructor
    · intro h; cases h
    · rintro ⟨x, hx, hq⟩; cases hx; cases hq
theorem mem_eventsAll {q : Path} (es : List TreeEntry) : some q ∈ eventsAll es ↔ ∃ y ∈ es, ∃ x, Below x y ∧ entryPath x = some q := by
  match es with
  | [] => simp [eventsAll]
  | e :: es => rw [eventsAll, List.mem_append, mem_events e, mem_eventsAll es]; simp
end

theorem mem_entryPaths {q : Path} {e : TreeEntry} : q ∈ entryPaths e ↔ ∃ n x, BelowAt x n e ∧ entryPath x = some q := by
  unfold entryPaths
  simp only [List.mem_filterMap, id, exists_eq_right]
  rw [mem_events]
  constructor
  · rintro ⟨x, hx, hq⟩; obtain ⟨n, h⟩ := hx.at; exact ⟨n, x, h, hq⟩
  · rintro ⟨n, x, hx, hq⟩; exact ⟨x, hx.isBelow, hq⟩

/-! ### Inversion for one directory -/

/-- What a directory entry of a correct tree looks like. -/
theorem Scanned.dir_inv {k : Nat} {p d : Path} {es : List TreeEntry} (h : Scanned A c D k p (.dir d es)) :
    p = d ∧ A.isDir d true ∧ ((D ≤ k ∧ es = [.maxDepth k]) ∨
      ((k : Int) < D ∧ ∃ n cs ks srt es', A.limit d n ∧ A.list d cs ∧ Kept A cs ks ∧ srt.Perm ks ∧ srt.Pairwise (fun a b => c a b ≤ 0) ∧
        ScannedAll A c D (k + 1) (limitTo n srt) es' ∧ es = es' ++ moreMark n srt d)) := by
  cases h with
  | tooDeep h1 h2 => exact ⟨rfl, h1, .inl ⟨h2, rfl⟩⟩
  | dir h1 hk h2 h3 h4 h5 h6 h7 => exact ⟨rfl, h1, .inr ⟨hk, _, _, _, _, _, h2, h3, h4, h5, h6, h7, rfl⟩⟩

theorem BelowAt.cases {x : TreeEntry} {n : Nat} {e : TreeEntry} (h : BelowAt x n e) :
    (n = 0 ∧ x = e) ∨ ∃ m d es y, n = m + 1 ∧ e = .dir d es ∧ y ∈ es ∧ BelowAt x m y := by
  cases h with
  | here => exact .inl ⟨rfl, rfl⟩
  | inside h1 h2 => exact .inr ⟨_, _, _, _, rfl, rfl, h1, h2⟩

/-- The directory that holds an entry. -/
theorem BelowAt.parent {x : TreeEntry} {n : Nat} {e : TreeEntry} (h : BelowAt x (n + 1) e) : ∃ d es, BelowAt (.dir d es) n e ∧ x ∈ es := by
  induction n generalizing e with
  | zero =>
    cases h with
    | inside h1 h2 => cases h2; exact ⟨_, _, .here, h1⟩
  | succ n ih =>
    cases h with
    | inside h1 h2 => obtain ⟨d, es, h3, h4⟩ := ih h2; exact ⟨d, es, .inside h1 h3, h4⟩

theorem BelowAt.child {x : TreeEntry} {n : Nat} {e : TreeEntry} {d : Path} {es : List TreeEntry} (h : BelowAt (.dir d es) n e) (hx : x ∈ es) :
    BelowAt x (n + 1) e := by
  induction h with
  | here => exact .inside hx .here
  | inside h1 h2 ih => exact .inside h1 ih

end JFTP.Spec
