import Verif.Lemmas.Scan

/-
For stable file systems the specification determines the result, and the scanner returns it.
-/

namespace JFTP.Spec

theorem covers_answersOf (fs : PureFs) (o : ScanOpts (Except Exn)) : Covers (answersOf fs o) fs.lift o where
  isDir p b h := by cases h; rfl
  list p r h cs hr := by cases h; exact hr
  attrs p r h a hr := by cases h; exact hr
  limit p n h := h
  keep p b h := h

theorem kept_ok {fs : PureFs} {o : ScanOpts (Except Exn)} {cs ks : List Path} (h : Kept (answersOf fs o) cs ks) :
    Scanner.filterEntries o.pathFilter cs = .ok ks := by
  induction h with
  | nil => rfl
  | @keep c cs ks hk _ ih =>
    have : o.pathFilter c = .ok true := hk
    unfold Scanner.filterEntries
    rw [this, ih]; rfl
  | @drop c cs ks hk _ ih =>
    have : o.pathFilter c = .ok false := hk
    unfold Scanner.filterEntries
    rw [this, ih]; rfl

theorem Kept.subset {A : Answers} {cs ks : List Path} (h : Kept A cs ks) : ks.Sublist cs := by
  induction h with
  | nil => exact .slnil
  | keep _ _ ih => exact ih.cons₂ _
  | drop _ _ ih => exact ih.cons _

theorem streamSorted_unique {c : Cmp} (hc : LawfulCmp c) {ks srt : List Path} (hd : Distinguishes c ks) (hp : srt.Perm ks)
    (hs : srt.Pairwise (fun a b => c a b ≤ 0)) : streamSorted c ks = srt := by
  refine List.Perm.eq_of_pairwise (le := fun a b => c a b ≤ 0) ?_ (streamSorted_sorted hc ks) hs ((streamSorted_perm c ks).trans hp.symm)
  intro a b ha hb h1 h2
  exact hd a ((streamSorted_perm c ks).mem_iff.1 ha) b (hp.mem_iff.1 hb) h1 h2

theorem Distinguishes.sublist {c : Cmp} {ks cs : List Path} (h : Distinguishes c cs) (hs : ks.Sublist cs) : Distinguishes c ks :=
  fun a ha b hb => h a (hs.subset ha) b (hs.subset hb)

theorem childLoop_ok (visit : Path → Except Exn TreeEntry) (n : Int) (ps : List Path) : ∀ (i : Nat) (es : List TreeEntry),
    (0 ≤ n → (i : Int) ≤ n) →
    List.Forall₂ (fun p e => visit p = .ok e) (if n < 0 then ps else ps.take (n - i).toNat) es →
    Scanner.childLoop visit n i ps = .ok (es, if n < 0 then [] else ps.drop (n - i).toNat) := by
  induction ps with
  | nil => intro i es _ h; simp at h; subst h; simp [Scanner.childLoop]; rfl
  | cons p ps ih =>
    intro i es hi h
    unfold Scanner.childLoop
    dsimp only
    by_cases hstop : n ≥ 0 ∧ (i : Int) + 1 > n
    · rw [if_pos hstop]
      have : (n - i).toNat = 0 := by omega
      rw [if_neg (by omega), this] at h
      simp at h; subst h
      rw [if_neg (by omega), this]; rfl
    · rw [if_neg hstop]
      have hcons : (if n < 0 then p :: ps else (p :: ps).take (n - i).toNat) = p :: (if n < 0 then ps else ps.take (n - (i + 1 : Nat)).toNat) := by
        split
        · rfl
        · have : (n - i).toNat = (n - (i + 1 : Nat)).toNat + 1 := by omega
          rw [this, List.take_succ_cons]
      have hdrop : (if n < 0 then [] else (p :: ps).drop (n - i).toNat) = (if n < 0 then [] else ps.drop (n - (i + 1 : Nat)).toNat) := by
        split
        · rfl
        · have : (n - i).toNat = (n - (i + 1 : Nat)).toNat + 1 := by omega
          rw [this, List.drop_succ_cons]
      rw [hcons] at h
      cases h with
      | cons he hes =>
        rw [he, hdrop]
        have := ih (i + 1) _ (fun _ => by omega) hes
        simp only [bind, Except.bind]
        have e : ((i : Int) + 1) = ((i + 1 : Nat) : Int) := by omega
        rw [e, this]; rfl

theorem childLoop_zero_ok (visit : Path → Except Exn TreeEntry) (n : Int) (ps : List Path) (es : List TreeEntry)
    (h : List.Forall₂ (fun p e => visit p = .ok e) (limitTo n ps) es) :
    Scanner.childLoop visit n 0 ps = .ok (es, if n < 0 then [] else ps.drop n.toNat) := by
  have := childLoop_ok visit n ps 0 es (fun h => by omega) (by simpa [limitTo] using h)
  simpa using this

/-- The comparator distinguishes the entries of every directory. -/
def DistinguishesAll (c : Cmp) (fs : PureFs) : Prop := ∀ p cs bad, fs.listDir p = .opened cs bad → Distinguishes c cs

theorem marker_eq (n : Int) (srt : List Path) (p : Path) (es : List TreeEntry) :
    (if (if n < 0 then [] else srt.drop n.toNat).isEmpty then es else es ++ [TreeEntry.skipped p]) = es ++ moreMark n srt p := by
  unfold moreMark
  by_cases hn : n < 0
  · have h : ¬ (0 ≤ n ∧ n < srt.length) := by omega
    simp only [if_pos hn, if_neg h]; simp
  · by_cases hl : n < srt.length
    · have h : 0 ≤ n ∧ n < srt.length := by omega
      simp only [if_neg hn, if_pos h]
      cases hdr : srt.drop n.toNat with
      | nil => have := List.drop_eq_nil_iff.1 hdr; omega
      | cons a b => rfl
    · have h : ¬ (0 ≤ n ∧ n < srt.length) := by omega
      have h' : srt.drop n.toNat = [] := List.drop_eq_nil_of_le (by omega)
      simp only [if_neg hn, if_neg h, h']; simp

mutual
theorem Scanned.handle_ok {fs : PureFs} {o : ScanOpts (Except Exn)} {k : Nat} {p : Path} {e : TreeEntry} (hc : LawfulCmp o.pathComparator)
    (hd : DistinguishesAll o.pathComparator fs) (h : Scanned (answersOf fs o) o.pathComparator o.maxDepth k p e) :
    Scanner.handle fs.lift o k p = .ok e := by
  cases h with
  | file h1 h2 =>
    have h1 : fs.isDir p = false := h1
    have h2 : fs.readAttrs p = some _ := h2
    rw [Scanner.handle]
    simp only [PathMatchers.isDirectory, PureFs.lift, pure_bind, h1, Bool.false_eq_true, if_false, Scanner.handleFile, h2]
    rfl
  | tooDeep h1 h2 =>
    have h1 : fs.isDir p = true := h1
    rw [Scanner.handle]
    simp only [PathMatchers.isDirectory, PureFs.lift, pure_bind, h1, if_true]
    rw [dif_pos h2]; rfl
  | @dir _ _ n cs ks srt es h1 hk h2 h3 h4 h5 h6 h7 =>
    have h1 : fs.isDir p = true := h1
    have h2 : o.childLimit p = .ok n := h2
    have h3 : fs.listDir p = .opened cs false := h3
    have ih := ScannedAll.handle_ok hc hd h7
    rw [Scanner.handle]
    simp only [PathMatchers.isDirectory, PureFs.lift, pure_bind, h1, if_true]
    rw [dif_neg (by omega)]
    have hs := streamSorted_unique hc ((hd p cs false h3).sublist h4.subset) h5 h6
    have hl := childLoop_zero_ok (fun c => Scanner.handle (PureFs.lift fs) o (k + 1) c) n srt es ih
    simp only [Scanner.handleDirectory, pure_bind, h3, Scanner.handleDirectoryChildren]
    rw [h2, kept_ok h4]
    simp only [bind, Except.bind, Bool.false_eq_true, if_false]
    rw [hs]
    simp only [PureFs.lift] at hl
    rw [hl]
    simp only [pure, Except.pure]
    rw [marker_eq]
termination_by ((o.maxDepth - k).toNat, 0)
decreasing_by exact Prod.Lex.left _ _ (by omega)
theorem ScannedAll.handle_ok {fs : PureFs} {o : ScanOpts (Except Exn)} {k : Nat} {ps : List Path} {es : List TreeEntry}
    (hc : LawfulCmp o.pathComparator) (hd : DistinguishesAll o.pathComparator fs)
    (h : ScannedAll (answersOf fs o) o.pathComparator o.maxDepth k ps es) :
    List.Forall₂ (fun p e => Scanner.handle fs.lift o k p = .ok e) ps es := by
  match ps, es, h with
  | _, _, .nil => exact .nil
  | _, _, .cons h1 h2 => exact .cons (h1.handle_ok hc hd) (h2.handle_ok hc hd)
termination_by ((o.maxDepth - k).toNat, ps.length + 1)
end

/-- **Main refinement theorem of the scanner** for a stable file system: the scanner returns `e` exactly if `e` is a correct entry tree. -/
theorem handle_iff {fs : PureFs} {o : ScanOpts (Except Exn)} (hc : LawfulCmp o.pathComparator)
    (hd : DistinguishesAll o.pathComparator fs) (k : Nat) (p : Path) (e : TreeEntry) :
    Scanner.handle fs.lift o k p = .ok e ↔ Scanned (answersOf fs o) o.pathComparator o.maxDepth k p e :=
  ⟨fun h => post_handle (covers_answersOf fs o) hc k p e h, fun h => h.handle_ok hc hd⟩

end JFTP.Spec
