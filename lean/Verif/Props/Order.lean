import Verif.Spec.Order
import Verif.Props.Placed
import Verif.Props.Glob
import Verif.Props.Bounds

/-
C111: all texts list their paths in one and the same order.
-/

namespace JFTP
open Spec

/-! ### The displayed paths are in order -/

namespace Spec

mutual
theorem Scanned.precedes {fs : PureFs} {o : Options (Except Exn)} {c : Cmp} {D : Int} (hfs : ProperFs fs) (hc : LawfulCmp c) (hdis : DistinguishesAll c fs) {k : Nat} {p : Path} {e : TreeEntry}
    (h : Scanned (answers fs o) c D k p e) (hp : p.abs = true) : ((events e).filterMap id).Pairwise (Precedes c) := by
  cases h with
  | file h1 h2 => simp [events]
  | tooDeep h1 h2 => simp [events, eventsAll]
  | @dir _ _ n cs ks srt es h1 hk h2 h3 h4 h5 h6 h7 =>
    obtain ⟨hnd, hch⟩ := hfs p cs false h3
    have hsub := (limitTo_sublist n srt)
    have hnds : srt.Nodup := h5.nodup_iff.2 (hnd.sublist h4.subset)
    have hcs : ∀ x ∈ srt, x ∈ cs := fun x hx => h4.subset.subset (h5.mem_iff.1 hx)
    have hch' : ∀ x ∈ limitTo n srt, ∃ m, x = p.child m := fun x hx => hch x (hcs x (hsub.subset hx))
    have hstrict : (limitTo n srt).Pairwise (fun a b => c a b < 0) :=
      (strictly_sorted hc h6 hnds (fun a ha b hb => hdis p cs false h3 a (hcs a ha) b (hcs b hb))).sublist hsub
    have i1 := h7.precedes hfs hc hdis hp hstrict hch'
    have i2 := (h7.nodup hfs hp (hnds.sublist hsub) hch').2
    have hm : (eventsAll (es ++ moreMark n srt p)).filterMap id = (eventsAll es).filterMap id := by
      have key : ∀ l l', eventsAll (l ++ l') = eventsAll l ++ eventsAll l' := by
        intro l l'; induction l with
        | nil => simp [eventsAll]
        | cons a l ih => simp [eventsAll, ih]
      rw [key, List.filterMap_append]
      rcases moreMark_cases n srt p with hm | hm <;> rw [hm] <;> simp [eventsAll, events]
    rw [events, show (some p :: eventsAll (es ++ moreMark n srt p)).filterMap id = p :: (eventsAll es).filterMap id by rw [← hm]; rfl]
    refine List.pairwise_cons.2 ⟨fun q hq => ?_, i1⟩
    obtain ⟨_, x, hx, r, hr⟩ := i2 q hq
    obtain ⟨m, rfl⟩ := hch' x hx
    rw [names_child hp] at hr
    exact .inl ⟨m, r, by rw [← hr]; simp⟩
termination_by ((D - k).toNat, 0)
decreasing_by exact Prod.Lex.left _ _ (by omega)
theorem ScannedAll.precedes {fs : PureFs} {o : Options (Except Exn)} {c : Cmp} {D : Int} (hfs : ProperFs fs) (hc : LawfulCmp c) (hdis : DistinguishesAll c fs) {k : Nat} {ps : List Path}
    {es : List TreeEntry} (h : ScannedAll (answers fs o) c D k ps es) {d : Path} (hd : d.abs = true) (hs : ps.Pairwise (fun a b => c a b < 0)) (hch : ∀ x ∈ ps, ∃ m, x = d.child m) :
    ((eventsAll es).filterMap id).Pairwise (Precedes c) := by
  match ps, es, h with
  | _, _, .nil => simp [eventsAll]
  | p :: ps, _, .cons (e := e) (es := es) h1 h2 =>
    obtain ⟨m, hm⟩ := hch p (by simp)
    have hp : p.abs = true := by rw [hm, names_child hd]
    obtain ⟨hs1, hs2⟩ := List.pairwise_cons.1 hs
    have hirr : ∀ a, ¬ c a a < 0 := fun a x => by have := (hc.antisymm _ _).1 x; omega
    have hn : ps.Nodup := hs2.imp (fun {a b} (hab : c a b < 0) (e : a = b) => hirr a (by rw [← e] at hab; exact hab))
    have a2 := (h1.nodup hfs hp).2
    have b2 := (h2.nodup hfs hd hn (fun x hx => hch x (by simp [hx]))).2
    rw [eventsAll, List.filterMap_append]
    refine List.pairwise_append.2 ⟨h1.precedes hfs hc hdis hp, h2.precedes hfs hc hdis hd hs2 (fun x hx => hch x (by simp [hx])), fun q hq q' hq' => .inr ?_⟩
    obtain ⟨_, r, hr⟩ := a2 q hq
    obtain ⟨_, x, hx, r', hr'⟩ := b2 q' hq'
    obtain ⟨m', hm'⟩ := hch x (by simp [hx])
    have hlt := hs1 x hx
    rw [hm, hm', names_child hd, names_child hd] at hlt
    rw [hm, names_child hd] at hr
    rw [hm', names_child hd] at hr'
    exact ⟨d.names, m, m', r, r', by rw [← hr]; simp, by rw [← hr']; simp, hlt⟩
termination_by ((D - k).toNat, ps.length + 1)
end

/-! ### The order -/

theorem append_cons_inj {d d' : List JStr} {x x' : JStr} {r r' : List JStr} (hl : d.length = d'.length) (h : d ++ x :: r = d' ++ x' :: r') : d = d' ∧ x = x' ∧ r = r' := by
  obtain ⟨h1, h2⟩ := List.append_inj h hl
  exact ⟨h1, (List.cons.inj h2).1, (List.cons.inj h2).2⟩

/-- Two places cannot each stand before the other. -/
theorem Precedes.asymm {c : Cmp} (hc : LawfulCmp c) {a b : Path} (h : Precedes c a b) : ¬ Precedes c b a := by
  have hirr : ∀ a, ¬ c a a < 0 := fun a x => by have := (hc.antisymm _ _).1 x; omega
  have below : ∀ {a b : Path}, (∃ x rest, b.names = a.names ++ x :: rest) → ¬ Precedes c b a := by
    rintro a b ⟨x, rest, e⟩ (⟨x', rest', e'⟩ | ⟨d, y, y', r, r', e1, e2, hlt⟩)
    · rw [e] at e'
      have := congrArg List.length e'
      simp only [List.length_append, List.length_cons] at this
      omega
    · rw [e, e2, List.append_assoc, List.cons_append] at e1
      have e1 := (append_cons_inj rfl e1).2.1
      rw [e1] at hlt
      exact hirr _ hlt
  rcases h with h | ⟨d, x, y, r, r', e1, e2, hlt⟩
  · exact below h
  · intro h'
    rcases h' with h' | ⟨d', x', y', s, s', e1', e2', hlt'⟩
    · exact below h' (.inr ⟨d, x, y, r, r', e1, e2, hlt⟩)
    · rw [e2] at e1'
      rw [e1] at e2'
      have key : ∀ {d d' : List JStr} {x y x' y' : JStr} {r r' s s' : List JStr}, d.length < d'.length → d ++ y :: r' = d' ++ x' :: s → d ++ x :: r = d' ++ y' :: s' → x = y := by
        intro d d' x y x' y' r r' s s' hl h1 h2
        have g1 := congrArg (fun l => l[d.length]?) h1
        have g2 := congrArg (fun l => l[d.length]?) h2
        simp only [List.getElem?_append_right (Nat.le_refl _), Nat.sub_self, List.getElem?_cons_zero] at g1 g2
        rw [List.getElem?_append_left hl] at g1 g2
        exact Option.some.inj (g2.trans g1.symm)
      rcases Nat.lt_trichotomy d.length d'.length with hl | hl | hl
      · rw [key hl e1' e2'] at hlt; exact hirr _ hlt
      · obtain ⟨f1, f2, _⟩ := append_cons_inj hl e1'
        obtain ⟨_, f3, _⟩ := append_cons_inj hl e2'
        subst f1 f2 f3
        have := (hc.antisymm _ _).1 hlt
        omega
      · rw [key hl e2'.symm e1'.symm] at hlt'; exact hirr _ hlt'

theorem Precedes.irrefl {c : Cmp} (hc : LawfulCmp c) (a : Path) : ¬ Precedes c a a := fun h => h.asymm hc h

/-- Two lists in order with the same elements are the same list. -/
theorem ordered_unique {c : Cmp} (hc : LawfulCmp c) {l l' : List Path} (h : l.Pairwise (Precedes c)) (h' : l'.Pairwise (Precedes c)) (hm : ∀ q, q ∈ l ↔ q ∈ l') : l = l' := by
  have hn : ∀ {l : List Path}, l.Pairwise (Precedes c) → l.Nodup := fun h => h.imp (fun {a b} (hab : Precedes c a b) (e : a = b) => Precedes.irrefl hc a (by rw [← e] at hab; exact hab))
  refine List.Perm.eq_of_pairwise ?_ h h' ((List.perm_ext_iff_of_nodup (hn h) (hn h')).2 hm)
  intro a b _ _ hab hba
  exact absurd hba (hab.asymm hc)

end Spec

/-! ### C111 -/

section
variable {fs fs' : PureFs} {cwd cwd' : Path} {o o' : Options (Except Exn)} {p p' : Path} {s s' : JStr}

/-- The paths that stand on the lines, from top to bottom (on a line of a compact chain from left to right). -/
def pathsOn (items : List (Nat × Item)) : List Path := (items.flatMap (fun x => x.2.shows)).filterMap id

/-- **C111**: the paths stand on the lines in an order of all paths that only the comparator determines, whatever the file system, the filters, the child limits and the depth are: the list of the
displayed paths is the only list of these paths in this order. -/
theorem C111_order (hfs : ProperFs fs) (hw : cwd.abs = true) (hc : LawfulCmp o.pathComparator) (hd : DistinguishesAll o.pathComparator fs) (h : prettyPrint fs.lift cwd o p = .ok s) :
    ∃ (items : List (Nat × Item)) (lines : List JStr), s = joinLines lines ∧ List.Forall₂ (IsLineOf o.treeFormat (lookOf o)) items lines ∧
      (pathsOn items).Pairwise (Precedes o.pathComparator) ∧
      ∀ l : List Path, l.Pairwise (Precedes o.pathComparator) → (∀ q, q ∈ l ↔ ∃ k, Placed fs o (target cwd p) k q) → l = pathsOn items := by
  obtain ⟨t, T, ht, hp⟩ := printed h
  obtain ⟨lines, h1, h2, h3⟩ := hp.lines
  have ha : (target cwd p).abs = true := by unfold target; rw [Path.normalize_abs (Path.toAbsolutePath_abs hw)]
  have hs := (scanned_sound hw hc ht).precedes hfs hc hd ha
  have e : pathsOn (T.items 0) = entryPaths t := by unfold pathsOn; rw [h3]; rfl
  refine ⟨T.items 0, lines, h1, h2, by rw [e]; exact hs, fun l hl hm => ordered_unique hc hl (by rw [e]; exact hs) fun q => ?_⟩
  rw [hm, e, C95_display_set hfs hw hc hd ht q]

/-- **C111**, changes: whatever changed between two printings (files and directories, the printed directory, filters, limits, depth, looks), as long as the comparator is the same one, the paths
displayed both times stand in the same order in both texts. -/
theorem C111_common (hfs : ProperFs fs) (hfs' : ProperFs fs') (hw : cwd.abs = true) (hw' : cwd'.abs = true) (hc : LawfulCmp o.pathComparator) (hsame : o'.pathComparator = o.pathComparator)
    (hd : DistinguishesAll o.pathComparator fs) (hd' : DistinguishesAll o.pathComparator fs') (h : prettyPrint fs.lift cwd o p = .ok s) (h' : prettyPrint fs'.lift cwd' o' p' = .ok s') :
    ∃ (items items' : List (Nat × Item)) (lines lines' : List JStr), s = joinLines lines ∧ List.Forall₂ (IsLineOf o.treeFormat (lookOf o)) items lines ∧
      s' = joinLines lines' ∧ List.Forall₂ (IsLineOf o'.treeFormat (lookOf o')) items' lines' ∧
      (pathsOn items).filter (fun q => decide (q ∈ pathsOn items')) = (pathsOn items').filter (fun q => decide (q ∈ pathsOn items)) := by
  obtain ⟨items, lines, h1, h2, h3, _⟩ := C111_order hfs hw hc hd h
  obtain ⟨items', lines', h1', h2', h3', _⟩ := C111_order hfs' hw' (by rw [hsame]; exact hc) (by rw [hsame]; exact hd') h'
  rw [hsame] at h3'
  refine ⟨items, items', lines, lines', h1, h2, h1', h2', ordered_unique hc (h3.filter _) (h3'.filter _) fun q => ?_⟩
  simp only [List.mem_filter, decide_eq_true_eq]
  exact and_comm

/-! ### The default order -/

theorem lex_append {R : JStr → JStr → Prop} {d l l' : List JStr} (h : List.Lex R l l') : List.Lex R (d ++ l) (d ++ l') := by
  induction d with
  | nil => exact h
  | cons a d ih => exact .cons ih

theorem precedes_lex {c : Cmp} (hc : ∀ d x y, c ⟨true, d ++ [x]⟩ ⟨true, d ++ [y]⟩ < 0 ↔ NameLess x y) (a b : Path) : Precedes c a b ↔ PathLess a b := by
  constructor
  · rintro (⟨x, rest, e⟩ | ⟨d, x, y, r, r', e1, e2, hlt⟩) <;> unfold PathLess
    · rw [e]
      simpa using lex_append (d := a.names) (l := []) (l' := x :: rest) (R := NameLess) .nil
    · rw [e1, e2]
      exact lex_append (.rel ((hc d x y).1 hlt))
  · have key : ∀ {l l' : List JStr}, List.Lex NameLess l l' → (∃ x rest, l' = l ++ x :: rest) ∨ ∃ d x y r r', l = d ++ x :: r ∧ l' = d ++ y :: r' ∧ NameLess x y := by
      intro l l' h
      induction h with
      | nil => exact .inl ⟨_, _, rfl⟩
      | rel h => exact .inr ⟨[], _, _, _, _, rfl, rfl, h⟩
      | @cons a l l' _ ih =>
        rcases ih with ⟨x, rest, e⟩ | ⟨d, x, y, r, r', e1, e2, h⟩
        · exact .inl ⟨x, rest, by rw [e]; rfl⟩
        · exact .inr ⟨a :: d, x, y, r, r', by rw [e1]; rfl, by rw [e2]; rfl, h⟩
    intro h
    rcases key h with h | ⟨d, x, y, r, r', e1, e2, h⟩
    · exact .inl h
    · exact .inr ⟨d, x, y, r, r', e1, e2, (hc d x y).2 h⟩

/-- **C111**, the default order: if no sort order is set, the paths stand in the order of the dictionary whose letters are the names (which are compared unit by unit). -/
theorem C111_default (hfs : ProperFs fs) (hw : cwd.abs = true) (ho : o.pathComparator = (Options.createDefault (m := Except Exn)).pathComparator) (h : prettyPrint fs.lift cwd o p = .ok s) :
    ∃ (items : List (Nat × Item)) (lines : List JStr), s = joinLines lines ∧ List.Forall₂ (IsLineOf o.treeFormat (lookOf o)) items lines ∧ (pathsOn items).Pairwise PathLess := by
  have ho' : o.pathComparator = thenComparing (fun _ _ => 0) PathSorts.ALPHABETICAL := ho
  have hlex : ∀ a b, Precedes o.pathComparator a b ↔ PathLess a b := by
    refine precedes_lex fun d x y => ?_
    rw [ho']
    show compareTo _ _ < 0 ↔ _
    unfold NameLess
    rw [← (C08_string_order x y).1]
    simp [PathSorts.nameKey, Path.getFileName]
  obtain ⟨items, lines, h1, h2, h3, _⟩ := C111_order hfs hw (by rw [ho']; exact sort_lawful lawful_const) (by rw [ho']; exact sort_distinguishes lawful_const hfs) h
  exact ⟨items, lines, h1, h2, h3.imp fun {a b} hab => (hlex a b).1 hab⟩

end
/-- With child limits: `r, a, x, b.txt` stand in the order of the dictionary. -/
example := C111_default Demo.proper (cwd := Path.root) rfl (o := Demo.limited) rfl Demo.printed_limited
example := C111_order Demo.proper (cwd := Path.root) rfl (o := Demo.limited) lawful_ALPHABETICAL Demo.distinguishes Demo.printed_limited
/-- Between the text with child limits and the one with a directory filter, `r` and `b.txt` do not change places. -/
example := C111_common Demo.proper Demo.proper (cwd := Path.root) (cwd' := Path.root) rfl rfl (o := Demo.limited) (o' := Demo.srcOnly) lawful_ALPHABETICAL rfl Demo.distinguishes Demo.distinguishes
  Demo.printed_limited Demo.printed_srcOnly
/-- It is not the order of the path strings: `/r/a/x` comes before `/r/a.txt`, though `.` comes before `/`. -/
example : PathLess ⟨true, [j!"r", j!"a", j!"x"]⟩ ⟨true, [j!"r", j!"a.txt"]⟩ ∧ compareTo j!"/r/a.txt" j!"/r/a/x" < 0 :=
  ⟨.cons (.rel (.cons .nil)), by decide⟩

end JFTP
