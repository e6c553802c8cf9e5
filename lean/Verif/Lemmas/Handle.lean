import Verif.Lemmas.Visit

/-
The scanner on a stable file system: noninterference, failures, truncation, growth of limits, listing order.
-/

namespace JFTP.Spec

/-! ### One unfolding of the scanner -/

/-- Visit paths one after the other. -/
def visitAll (visit : Path → Except Exn TreeEntry) : List Path → Except Exn (List TreeEntry)
  | [] => .ok []
  | p :: ps => visit p >>= fun e => visitAll visit ps >>= fun es => .ok (e :: es)

theorem childLoop_eq (visit : Path → Except Exn TreeEntry) (n : Int) (ps : List Path) : ∀ i : Nat, (0 ≤ n → (i : Int) ≤ n) →
    Scanner.childLoop visit n i ps = (visitAll visit (if n < 0 then ps else ps.take (n - i).toNat) >>= fun es =>
      .ok (es, if n < 0 then [] else ps.drop (n - i).toNat)) := by
  induction ps with
  | nil => intro i _; simp [Scanner.childLoop, visitAll]; rfl
  | cons p ps ih =>
    intro i hi
    unfold Scanner.childLoop
    dsimp only
    by_cases hstop : n ≥ 0 ∧ (i : Int) + 1 > n
    · rw [if_pos hstop]
      have : (n - i).toNat = 0 := by omega
      have hn : ¬ n < 0 := by omega
      simp [if_neg hn, this, visitAll]; rfl
    · rw [if_neg hstop]
      have hcons : (if n < 0 then p :: ps else (p :: ps).take (n - i).toNat) = p :: (if n < 0 then ps else ps.take (n - (i + 1 : Nat)).toNat) := by
        split
        · rfl
        · have : (n - i).toNat = (n - (i + 1 : Nat)).toNat + 1 := by omega
          rw [this, List.take_succ_cons]
      have hdrop : (if n < 0 then [] else (p :: ps).drop (n - i).toNat) = (if n < 0 then [] else ps.drop (n - (i + 1 : Nat)).toNat) := by
        split
        · rfl
        · have : (n - i).toNat = (n - (i + 1 : Nat)).toNat + 1 := by omega
          rw [this, List.drop_succ_cons]
      rw [hcons, hdrop, visitAll]
      have e : ((i : Int) + 1) = ((i + 1 : Nat) : Int) := by omega
      rw [e, ih (i + 1) (fun _ => by omega)]
      simp only [bind_assoc]
      refine bind_congr (fun x => ?_)
      refine bind_congr (fun y => ?_)
      rfl

/-- The scanner on one path. -/
theorem handle_unfold (fs : PureFs) (o : ScanOpts (Except Exn)) (k : Nat) (p : Path) :
    Scanner.handle fs.lift o k p =
      if fs.isDir p = true then
        if o.maxDepth ≤ k then .ok (.dir p [.maxDepth k])
        else match fs.listDir p with
          | .openFailed => .error (.cannotList p)
          | .opened cs bad => o.childLimit p >>= fun n => Scanner.filterEntries o.pathFilter cs >>= fun ks =>
            if bad = true then .error (.dirIteration p)
            else visitAll (Scanner.handle fs.lift o (k + 1)) (limitTo n (streamSorted o.pathComparator ks)) >>= fun es =>
              .ok (.dir p (es ++ moreMark n (streamSorted o.pathComparator ks) p))
      else match fs.readAttrs p with
        | some a => .ok (.file p a)
        | none => .error (.cannotReadAttrs p) := by
  rw [Scanner.handle]
  simp only [PathMatchers.isDirectory, PureFs.lift, pure_bind]
  split
  · split
    · rfl
    · unfold Scanner.handleDirectory
      simp only [pure_bind]
      cases fs.listDir p with
      | openFailed => rfl
      | opened cs bad =>
        simp only [Scanner.handleDirectoryChildren, bind_assoc]
        refine bind_congr (fun n => ?_)
        refine bind_congr (fun ks => ?_)
        cases bad with
        | true => rfl
        | false =>
          simp only [Bool.false_eq_true, if_false]
          have := childLoop_eq (fun c => Scanner.handle fs.lift o (k + 1) c) n (streamSorted o.pathComparator ks) 0 (fun h => by omega)
          simp only [PureFs.lift, Int.natCast_zero, Int.sub_zero] at this
          erw [this]
          simp only [bind_assoc]
          refine bind_congr (fun es => ?_)
          have hm := marker_eq n (streamSorted o.pathComparator ks) p es
          simp only [bind, Except.bind, pure, Except.pure]
          rw [hm]
  · unfold Scanner.handleFile
    simp only [pure_bind]
    cases fs.readAttrs p <;> rfl

theorem visitAll_congr {v v' : Path → Except Exn TreeEntry} {ps : List Path} (h : ∀ p ∈ ps, v p = v' p) : visitAll v ps = visitAll v' ps := by
  induction ps with
  | nil => rfl
  | cons p ps ih => rw [visitAll, visitAll, h p (by simp), ih (fun q hq => h q (by simp [hq]))]

theorem filterEntries_congr {f f' : Matcher (Except Exn)} {cs : List Path} (h : ∀ p ∈ cs, f p = f' p) :
    Scanner.filterEntries f cs = Scanner.filterEntries f' cs := by
  induction cs with
  | nil => rfl
  | cons p ps ih => rw [Scanner.filterEntries, Scanner.filterEntries, h p (by simp), ih (fun q hq => h q (by simp [hq]))]

theorem filterEntries_kept {fs : PureFs} {o : ScanOpts (Except Exn)} {cs ks : List Path} (h : Scanner.filterEntries o.pathFilter cs = .ok ks) :
    Kept (answersOf fs o) cs ks :=
  post_filterEntries (covers_answersOf fs o) cs ks h

/-! ### Noninterference -/

/-- Everything a run asks while looking at `q` at depth `k` has the same answer in both worlds. -/
structure SameAns (fs fs' : PureFs) (o o' : ScanOpts (Except Exn)) (k : Nat) (q : Path) : Prop where
  isDir : fs'.isDir q = fs.isDir q
  attrs : fs.isDir q = false → fs'.readAttrs q = fs.readAttrs q
  list : fs.isDir q = true → (k : Int) < o.maxDepth → fs'.listDir q = fs.listDir q
  limit : fs.isDir q = true → (k : Int) < o.maxDepth → o'.childLimit q = o.childLimit q
  keep : fs.isDir q = true → (k : Int) < o.maxDepth → ∀ cs bad, fs.listDir q = .opened cs bad → ∀ x ∈ cs, o'.pathFilter x = o.pathFilter x

theorem handle_congr {fs fs' : PureFs} {o o' : ScanOpts (Except Exn)} (hD : o'.maxDepth = o.maxDepth) (hC : o'.pathComparator = o.pathComparator)
    (hc : LawfulCmp o.pathComparator) (k : Nat) (p : Path)
    (h : ∀ k' q, Visited (answersOf fs o) o.pathComparator o.maxDepth k p k' q → SameAns fs fs' o o' k' q) :
    Scanner.handle fs'.lift o' k p = Scanner.handle fs.lift o k p := by
  rw [handle_unfold, handle_unfold]
  have hp := h k p .top
  rw [hp.isDir, hD, hC]
  split
  · rename_i hd
    split
    · rfl
    · rename_i hk
      have hk' : (k : Int) < o.maxDepth := by omega
      rw [hp.list hd hk']
      cases hl : fs.listDir p with
      | openFailed => rfl
      | opened cs bad =>
        dsimp only
        rw [hp.limit hd hk', filterEntries_congr (hp.keep hd hk' cs bad hl)]
        cases hlim : o.childLimit p with
        | error e => rfl
        | ok n =>
          cases hks : Scanner.filterEntries o.pathFilter cs with
          | error e => rfl
          | ok ks =>
            cases bad with
            | true => rfl
            | false =>
              simp only [bind, Except.bind, Bool.false_eq_true, if_false]
              have := visitAll_congr (ps := limitTo n (streamSorted o.pathComparator ks))
                (v := Scanner.handle fs'.lift o' (k + 1)) (v' := Scanner.handle fs.lift o (k + 1)) (fun q hq => by
                  refine handle_congr hD hC hc (k + 1) q (fun k' r hr => h k' r ?_)
                  exact (Visited.child .top hd hk' hlim hl (filterEntries_kept hks) (streamSorted_perm _ _) (streamSorted_sorted hc _) hq).trans hr)
              rw [this]
  · rename_i hd
    rw [hp.attrs (by simpa using hd)]
termination_by (o.maxDepth - k).toNat
decreasing_by omega

/-! ### Failures -/

theorem visitAll_error {v : Path → Except Exn TreeEntry} {ps : List Path} {e : Exn} (h : visitAll v ps = .error e) : ∃ p ∈ ps, v p = .error e := by
  induction ps with
  | nil => cases h
  | cons p ps ih =>
    rw [visitAll] at h
    cases hv : v p with
    | error e' => rw [hv] at h; cases h; exact ⟨p, by simp, hv⟩
    | ok x =>
      rw [hv] at h
      cases hr : visitAll v ps with
      | error e' =>
        have h : visitAll v ps = .error e := by
          simp only [bind, Except.bind, hr] at h
          rw [hr, h]
        obtain ⟨q, hq, h⟩ := ih h
        exact ⟨q, by simp [hq], h⟩
      | ok y => simp only [bind, Except.bind, hr] at h; cases h

theorem visitAll_ok {v : Path → Except Exn TreeEntry} {ps : List Path} {es : List TreeEntry} (h : visitAll v ps = .ok es) :
    List.Forall₂ (fun p e => v p = .ok e) ps es := by
  induction ps generalizing es with
  | nil => cases h; exact .nil
  | cons p ps ih =>
    rw [visitAll] at h
    cases hv : v p with
    | error e' => rw [hv] at h; cases h
    | ok x =>
      cases hr : visitAll v ps with
      | error e' => simp only [hv, bind, Except.bind, hr] at h; cases h
      | ok y => simp only [hv, bind, Except.bind, hr] at h; cases h; exact .cons hv (ih hr)

theorem visitAll_of_forall₂ {v : Path → Except Exn TreeEntry} {ps : List Path} {es : List TreeEntry}
    (h : List.Forall₂ (fun p e => v p = .ok e) ps es) : visitAll v ps = .ok es := by
  induction h with
  | nil => rfl
  | cons h1 _ ih => rw [visitAll, h1, ih]; rfl

theorem filterEntries_total {f : Matcher (Except Exn)} (hf : ∀ p, ∃ b, f p = .ok b) (cs : List Path) : ∃ ks, Scanner.filterEntries f cs = .ok ks := by
  induction cs with
  | nil => exact ⟨[], rfl⟩
  | cons p ps ih =>
    obtain ⟨b, hb⟩ := hf p
    obtain ⟨ks, hk⟩ := ih
    exact ⟨if b then p :: ks else ks, by rw [Scanner.filterEntries, hb, hk]; rfl⟩

/-- If the callbacks never throw, an exception of the scanner is the exception of some visited path that cannot be read. -/
theorem handle_error {fs : PureFs} {o : ScanOpts (Except Exn)} (hc : LawfulCmp o.pathComparator) (hl : ∀ p, ∃ n, o.childLimit p = .ok n)
    (hf : ∀ p, ∃ b, o.pathFilter p = .ok b) (k : Nat) (p : Path) (e : Exn) (h : Scanner.handle fs.lift o k p = .error e) :
    ∃ k' q, Visited (answersOf fs o) o.pathComparator o.maxDepth k p k' q ∧ Failing fs o.maxDepth k' q e := by
  rw [handle_unfold] at h
  split at h
  · rename_i hd
    split at h
    · cases h
    · rename_i hk
      have hk' : (k : Int) < o.maxDepth := by omega
      cases hls : fs.listDir p with
      | openFailed => rw [hls] at h; cases h; exact ⟨k, p, .top, .list hd hk' hls⟩
      | opened cs bad =>
        rw [hls] at h
        dsimp only at h
        obtain ⟨n, hn⟩ := hl p
        obtain ⟨ks, hks⟩ := filterEntries_total hf cs
        rw [hn, hks] at h
        simp only [bind, Except.bind] at h
        cases bad with
        | true => cases h; exact ⟨k, p, .top, .iter hd hk' hls⟩
        | false =>
          simp only [Bool.false_eq_true, if_false] at h
          cases hv : visitAll (Scanner.handle fs.lift o (k + 1)) (limitTo n (streamSorted o.pathComparator ks)) with
          | ok es => rw [hv] at h; cases h
          | error e' =>
            rw [hv] at h; cases h
            obtain ⟨q, hq, hqe⟩ := visitAll_error hv
            obtain ⟨k', r, hr, hfail⟩ := handle_error hc hl hf (k + 1) q e hqe
            exact ⟨k', r, (Visited.child .top hd hk' hn hls (filterEntries_kept hks) (streamSorted_perm _ _) (streamSorted_sorted hc _) hq).trans hr, hfail⟩
  · rename_i hd
    cases ha : fs.readAttrs p with
    | some a => rw [ha] at h; cases h
    | none => rw [ha] at h; cases h; exact ⟨k, p, .top, .attrs (by simpa using hd) ha⟩
termination_by (o.maxDepth - k).toNat
decreasing_by omega

theorem kept_unique {A : Answers} (hA : ∀ p b b', A.keep p b → A.keep p b' → b = b') {cs ks ks' : List Path} (h : Kept A cs ks) (h' : Kept A cs ks') :
    ks = ks' := by
  induction h generalizing ks' with
  | nil => cases h'; rfl
  | keep h1 _ ih =>
    cases h' with
    | keep _ h2 => rw [ih h2]
    | drop h3 _ => cases hA _ _ _ h1 h3
  | drop h1 _ ih =>
    cases h' with
    | keep h3 _ => cases hA _ _ _ h1 h3
    | drop _ h2 => exact ih h2

theorem answersOf_keep_unique (fs : PureFs) (o : ScanOpts (Except Exn)) (p : Path) (b b' : Bool) (h : (answersOf fs o).keep p b)
    (h' : (answersOf fs o).keep p b') : b = b' := by
  have h : o.pathFilter p = .ok b := h
  have h' : o.pathFilter p = .ok b' := h'
  rw [h] at h'; cases h'; rfl

/-- If the scanner returns, it returned for every visited path. -/
theorem visited_ok {fs : PureFs} {o : ScanOpts (Except Exn)} (hc : LawfulCmp o.pathComparator) (hd : DistinguishesAll o.pathComparator fs)
    {k k' : Nat} {p q : Path} (hv : Visited (answersOf fs o) o.pathComparator o.maxDepth k p k' q)
    (h : ∃ e, Scanner.handle fs.lift o k p = .ok e) : ∃ e, Scanner.handle fs.lift o k' q = .ok e := by
  induction hv with
  | top => exact h
  | @child k d n cs ks srt q hv h1 hk h2 h3 h4 h5 h6 h7 ih =>
    obtain ⟨e, he⟩ := ih
    have he' := he
    rw [handle_unfold] at he
    have h1 : fs.isDir d = true := h1
    have h2 : o.childLimit d = .ok n := h2
    have h3 : fs.listDir d = .opened cs false := h3
    have hk' : ¬ o.maxDepth ≤ (k : Int) := by omega
    rw [if_pos h1, if_neg hk', h3] at he
    dsimp only at he
    rw [h2] at he
    cases hks : Scanner.filterEntries o.pathFilter cs with
    | error e' => rw [hks] at he; cases he
    | ok ks' =>
      have : ks' = ks := kept_unique (answersOf_keep_unique fs o) (filterEntries_kept (fs := fs) hks) h4
      subst this
      rw [hks] at he
      simp only [bind, Except.bind, Bool.false_eq_true, if_false] at he
      rw [streamSorted_unique hc ((hd d cs false h3).sublist h4.subset) h5 h6] at he
      cases hva : visitAll (Scanner.handle fs.lift o (k + 1)) (limitTo n srt) with
      | error e' => rw [hva] at he; cases he
      | ok es =>
        have := visitAll_ok hva
        clear he
        generalize limitTo n srt = l at *
        induction this with
        | nil => cases h7
        | cons ha hb ihb =>
          rcases List.mem_cons.1 h7 with rfl | h7
          · exact ⟨_, ha⟩
          · exact ihb h7 (visitAll_of_forall₂ hb)

theorem failing_error {fs : PureFs} {o : ScanOpts (Except Exn)} {k : Nat} {q : Path} {x : Exn} (h : Failing fs o.maxDepth k q x)
    (hok : ∃ e, Scanner.handle fs.lift o k q = .ok e) : False := by
  obtain ⟨e, he⟩ := hok
  rw [handle_unfold] at he
  cases h with
  | attrs h1 h2 => rw [if_neg (by simp [h1]), h2] at he; cases he
  | list h1 h2 h3 =>
    have : ¬ o.maxDepth ≤ (k : Int) := by omega
    rw [if_pos h1, if_neg this, h3] at he; cases he
  | iter h1 h2 h3 =>
    have : ¬ o.maxDepth ≤ (k : Int) := by omega
    rw [if_pos h1, if_neg this, h3] at he
    dsimp only at he
    cases h4 : o.childLimit q with
    | error e' => rw [h4] at he; cases he
    | ok n =>
      cases h5 : Scanner.filterEntries o.pathFilter _ with
      | error e' => rw [h4, h5] at he; cases he
      | ok ks => rw [h4, h5] at he; cases he

/-! ### Truncation -/

theorem cutAll_append (d k : Nat) (es es' : List TreeEntry) : cutAll d k (es ++ es') = cutAll d k es ++ cutAll d k es' := by
  induction es with
  | nil => simp [cutAll]
  | cons e es ih => simp [cutAll, ih]

theorem cutAll_moreMark (d k : Nat) (n : Int) (l : List Path) (p : Path) : cutAll d k (moreMark n l p) = moreMark n l p := by
  rcases moreMark_cases n l p with h | h <;> rw [h] <;> simp [cutAll, cut]

theorem visitAll_cut {v v' : Path → Except Exn TreeEntry} {d k : Nat} {ps : List Path} (h : ∀ p e, v p = .ok e → v' p = .ok (cut d k e))
    {es : List TreeEntry} (he : visitAll v ps = .ok es) : visitAll v' ps = .ok (cutAll d k es) := by
  induction ps generalizing es with
  | nil => cases he; simp [visitAll, cutAll]
  | cons p ps ih =>
    rw [visitAll] at he ⊢
    cases hv : v p with
    | error e' => rw [hv] at he; cases he
    | ok x =>
      cases hr : visitAll v ps with
      | error e' => simp only [hv, bind, Except.bind, hr] at he; cases he
      | ok y =>
        simp only [hv, bind, Except.bind, hr] at he; cases he
        rw [h p x hv, ih hr]; simp [bind, Except.bind, cutAll]

theorem handle_cut {fs : PureFs} {o o' : ScanOpts (Except Exn)} {d : Nat} (hD : o'.maxDepth = d) (hle : (d : Int) ≤ o.maxDepth)
    (hC : o'.pathComparator = o.pathComparator) (hL : o'.childLimit = o.childLimit) (hF : o'.pathFilter = o.pathFilter)
    (k : Nat) (p : Path) (e : TreeEntry) (h : Scanner.handle fs.lift o k p = .ok e) : Scanner.handle fs.lift o' k p = .ok (cut d k e) := by
  rw [handle_unfold] at h ⊢
  rw [hD, hC, hL, hF]
  split at h
  · rename_i hd
    rw [if_pos hd]
    split at h
    · rename_i hk
      cases h
      have : (d : Int) ≤ k := by omega
      rw [if_pos this]
      have hdk : d ≤ k := by omega
      simp [cut, hdk]
    · rename_i hk
      have hk' : (k : Int) < o.maxDepth := by omega
      cases hls : fs.listDir p with
      | openFailed => rw [hls] at h; cases h
      | opened cs bad =>
        rw [hls] at h
        dsimp only at h ⊢
        cases hlim : o.childLimit p with
        | error e => rw [hlim] at h; cases h
        | ok n =>
          cases hks : Scanner.filterEntries o.pathFilter cs with
          | error e => rw [hlim, hks] at h; cases h
          | ok ks =>
            rw [hlim, hks] at h
            cases bad with
            | true => cases h
            | false =>
              simp only [bind, Except.bind, Bool.false_eq_true, if_false] at h ⊢
              cases hv : visitAll (Scanner.handle fs.lift o (k + 1)) (limitTo n (streamSorted o.pathComparator ks)) with
              | error e => rw [hv] at h; cases h
              | ok es =>
                rw [hv] at h; cases h
                by_cases hdk : d ≤ k
                · have : (d : Int) ≤ k := by omega
                  rw [if_pos this]; simp [cut, hdk]
                · have : ¬ (d : Int) ≤ k := by omega
                  rw [if_neg this]
                  rw [visitAll_cut (v' := Scanner.handle fs.lift o' (k + 1)) (d := d) (k := k + 1)
                    (fun q e he => handle_cut hD hle hC hL hF (k + 1) q e he) hv]
                  simp [cut, hdk, cutAll_append, cutAll_moreMark]
  · rename_i hd
    rw [if_neg hd]
    cases ha : fs.readAttrs p with
    | some a => rw [ha] at h; cases h; simp [cut]
    | none => rw [ha] at h; cases h
termination_by (o.maxDepth - k).toNat
decreasing_by omega

/-! ### Growing limits -/

theorem ExtendsAll.of_forall₂ {v v' : Path → Except Exn TreeEntry} {ps : List Path} (h : ∀ p e e', v p = .ok e → v' p = .ok e' → Extends e e')
    {es es' : List TreeEntry} (he : visitAll v ps = .ok es) (he' : visitAll v' ps = .ok es') : ExtendsAll es es' := by
  have h1 := visitAll_ok he
  have h2 := visitAll_ok he'
  clear he he'
  induction h1 generalizing es' with
  | nil => cases h2; exact .nil
  | cons ha hb ih => cases h2 with | cons ha' hb' => exact .cons (h _ _ _ ha ha') (ih hb')

theorem visitAll_append (v : Path → Except Exn TreeEntry) (ps qs : List Path) :
    visitAll v (ps ++ qs) = (visitAll v ps >>= fun a => visitAll v qs >>= fun b => .ok (a ++ b)) := by
  induction ps with
  | nil =>
    simp only [List.nil_append, visitAll, bind, Except.bind]
    cases visitAll v qs <;> rfl
  | cons p ps ih =>
    rw [List.cons_append, visitAll, visitAll, ih]
    simp only [bind, Except.bind]
    cases v p with
    | error e => rfl
    | ok x => cases visitAll v ps with
      | error e => rfl
      | ok y => cases visitAll v qs <;> rfl

theorem limitTo_le {n n' : Int} (h : limitLe n n') (l : List Path) : ∃ rest, limitTo n' l = limitTo n l ++ rest ∧
    (moreMark n l = moreMark (-1) l → rest = []) := by
  unfold limitTo moreMark
  rcases h with h | ⟨h0, h1⟩
  · rw [if_pos h]
    by_cases hn : n < 0
    · exact ⟨[], by simp [hn], by simp⟩
    · refine ⟨l.drop n.toNat, by rw [if_neg hn, List.take_append_drop], ?_⟩
      intro hm
      have := congrFun hm ⟨true, []⟩
      rw [if_neg (c := 0 ≤ (-1 : Int) ∧ _) (by omega)] at this
      split at this
      · cases this
      · exact List.drop_eq_nil_of_le (by omega)
  · have hn : ¬ n < 0 := by omega
    have hn' : ¬ n' < 0 := by omega
    rw [if_neg hn, if_neg hn']
    refine ⟨(l.take n'.toNat).drop n.toNat, ?_, ?_⟩
    · conv_lhs => rw [← List.take_append_drop n.toNat (l.take n'.toNat)]
      rw [List.take_take, Nat.min_eq_left (by omega)]
    · intro hm
      have := congrFun hm ⟨true, []⟩
      rw [if_neg (c := 0 ≤ (-1 : Int) ∧ _) (by omega)] at this
      split at this
      · cases this
      · apply List.drop_eq_nil_of_le; rw [List.length_take]; omega

theorem handle_extends {fs : PureFs} {o o' : ScanOpts (Except Exn)} (hD : o'.maxDepth = o.maxDepth)
    (hC : o'.pathComparator = o.pathComparator) (hF : o'.pathFilter = o.pathFilter)
    (hL : ∀ p n n', o.childLimit p = .ok n → o'.childLimit p = .ok n' → limitLe n n')
    (k : Nat) (p : Path) (e e' : TreeEntry) (h : Scanner.handle fs.lift o k p = .ok e) (h' : Scanner.handle fs.lift o' k p = .ok e') : Extends e e' := by
  rw [handle_unfold] at h h'
  rw [hD, hC, hF] at h'
  split at h
  · rename_i hd
    rw [if_pos hd] at h'
    split at h
    · rename_i hk
      rw [if_pos hk] at h'
      cases h; cases h'; exact .tooDeep
    · rename_i hk
      rw [if_neg hk] at h'
      cases hls : fs.listDir p with
      | openFailed => rw [hls] at h; cases h
      | opened cs bad =>
        rw [hls] at h h'
        dsimp only at h h'
        cases hlim : o.childLimit p with
        | error e => rw [hlim] at h; cases h
        | ok n =>
        cases hlim' : o'.childLimit p with
        | error e => rw [hlim'] at h'; cases h'
        | ok n' =>
          have hle := hL p n n' hlim hlim'
          cases hks : Scanner.filterEntries o.pathFilter cs with
          | error e => rw [hlim, hks] at h; cases h
          | ok ks =>
            rw [hlim, hks] at h
            rw [hlim', hks] at h'
            cases bad with
            | true => cases h
            | false =>
              simp only [bind, Except.bind, Bool.false_eq_true, if_false] at h h'
              generalize streamSorted o.pathComparator ks = srt at *
              obtain ⟨rest, hrest, hmark⟩ := limitTo_le hle srt
              cases hv : visitAll (Scanner.handle fs.lift o (k + 1)) (limitTo n srt) with
              | error e => rw [hv] at h; cases h
              | ok es =>
                rw [hv] at h; cases h
                rw [hrest, visitAll_append] at h'
                simp only [bind, Except.bind] at h'
                cases hv1 : visitAll (Scanner.handle fs.lift o' (k + 1)) (limitTo n srt) with
                | error e => rw [hv1] at h'; cases h'
                | ok es1 =>
                  cases hv2 : visitAll (Scanner.handle fs.lift o' (k + 1)) rest with
                  | error e => rw [hv1, hv2] at h'; cases h'
                  | ok es2 =>
                    rw [hv1, hv2] at h'
                    cases h'
                    have hall := ExtendsAll.of_forall₂ (fun q x x' hx hx' => handle_extends hD hC hF hL (k + 1) q x x' hx hx') hv hv1
                    by_cases hm : 0 ≤ n ∧ n < srt.length
                    · have : moreMark n srt p = [.skipped p] := by unfold moreMark; rw [if_pos hm]
                      rw [this]
                      exact .more hall (moreMark_cases n' srt p)
                    · have hnil : moreMark n srt = moreMark (-1) srt := by
                        funext q; unfold moreMark; rw [if_neg hm, if_neg (by omega)]
                      have hr := hmark hnil
                      subst hr
                      cases hv2
                      have e1 : moreMark n srt p = [] := by unfold moreMark; rw [if_neg hm]
                      have e2 : moreMark n' srt p = [] := by
                        unfold moreMark
                        rw [if_neg]
                        rcases hle with h | ⟨h0, h1⟩ <;> omega
                      rw [e1, e2]
                      simp only [List.append_nil]
                      exact .complete hall
  · rename_i hd
    rw [if_neg hd] at h'
    cases ha : fs.readAttrs p with
    | some a => rw [ha] at h h'; cases h; cases h'; exact .file
    | none => rw [ha] at h; cases h
termination_by (o.maxDepth - k).toNat
decreasing_by omega

/-! ### Listing order -/

theorem filterEntries_total_eq {f : Matcher (Except Exn)} {g : Path → Bool} (hf : ∀ p, f p = .ok (g p)) (cs : List Path) :
    Scanner.filterEntries f cs = .ok (cs.filter g) := by
  induction cs with
  | nil => rfl
  | cons p ps ih =>
    rw [Scanner.filterEntries, hf p, ih, List.filter_cons]
    cases g p <;> rfl

theorem Kept.perm {A : Answers} {cs cs' ks : List Path} (hp : cs'.Perm cs) (h : Kept A cs ks) : ∃ ks', Kept A cs' ks' ∧ ks'.Perm ks := by
  induction hp generalizing ks with
  | nil => exact ⟨ks, h, .refl _⟩
  | cons x hp ih =>
    cases h with
    | keep h1 h2 => obtain ⟨ks', h3, h4⟩ := ih h2; exact ⟨_, .keep h1 h3, h4.cons x⟩
    | drop h1 h2 => obtain ⟨ks', h3, h4⟩ := ih h2; exact ⟨_, .drop h1 h3, h4⟩
  | swap x y l =>
    cases h with
    | keep h1 h2 =>
      cases h2 with
      | keep h3 h4 => exact ⟨_, .keep h3 (.keep h1 h4), .swap _ _ _⟩
      | drop h3 h4 => exact ⟨_, .drop h3 (.keep h1 h4), .refl _⟩
    | drop h1 h2 =>
      cases h2 with
      | keep h3 h4 => exact ⟨_, .keep h3 (.drop h1 h4), .refl _⟩
      | drop h3 h4 => exact ⟨_, .drop h3 (.drop h1 h4), .refl _⟩
  | trans h1 h2 ih1 ih2 =>
    obtain ⟨k2, a, b⟩ := ih2 h
    obtain ⟨k1, a', b'⟩ := ih1 a
    exact ⟨k1, a', b'.trans b⟩

end JFTP.Spec

namespace JFTP.Spec

theorem kept_filter {fs : PureFs} {o : Options (Except Exn)} {cs ks : List Path} (h : Kept (answers fs o) cs ks) : ks = cs.filter (passes fs o) := by
  induction h with
  | nil => rfl
  | @keep c cs ks h1 _ ih =>
    have : passes fs o c = true := by
      have h1 : (if fs.isDir c = true then o.dirMatcher c else o.fileMatcher c) = .ok true := h1
      unfold passes; rw [h1]
    rw [List.filter_cons_of_pos this, ih]
  | @drop c cs ks h1 _ ih =>
    have : passes fs o c = false := by
      have h1 : (if fs.isDir c = true then o.dirMatcher c else o.fileMatcher c) = .ok false := h1
      unfold passes; rw [h1]
    rw [List.filter_cons_of_neg (by simp [this]), ih]

theorem passes_iff {fs : PureFs} {o : Options (Except Exn)} {q : Path} : passes fs o q = true ↔
    (fs.isDir q = true → o.dirMatcher q = .ok true) ∧ (fs.isDir q = false → o.fileMatcher q = .ok true) := by
  unfold passes
  cases hd : fs.isDir q
  · simp only [Bool.false_eq_true, if_false, false_imp_iff, true_and, true_imp_iff]
    cases hm : o.fileMatcher q with
    | ok b => simp
    | error e => simp
  · simp only [if_true, true_imp_iff, reduceCtorEq, false_imp_iff, and_true]
    cases hm : o.dirMatcher q with
    | ok b => simp
    | error e => simp

/-! ### Listing order -/

mutual
theorem Scanned.sameContent {fs fs' : PureFs} {o : Options (Except Exn)} {c : Cmp} {D : Int} (hs : SameContent fs fs') {k : Nat} {p : Path} {e : TreeEntry}
    (h : Scanned (answers fs o) c D k p e) : Scanned (answers fs' o) c D k p e := by
  cases h with
  | @file _ _ a h1 h2 => exact .file (show fs'.isDir p = false by rw [hs.isDir]; exact h1) (show fs'.readAttrs p = some a by rw [hs.attrs]; exact h2)
  | tooDeep h1 h2 => exact .tooDeep (show fs'.isDir p = true by rw [hs.isDir]; exact h1) h2
  | @dir _ _ n cs ks srt es h1 hk h2 h3 h4 h5 h6 h7 =>
    have h3 : fs.listDir p = .opened cs false := h3
    rcases hs.list p with ⟨h, _⟩ | ⟨cs0, cs', bad, hl, hl', hp⟩
    · rw [h] at h3; cases h3
    · rw [hl] at h3; cases h3
      obtain ⟨ks', hk1, hk2⟩ := Kept.perm hp h4
      have hkeep : Kept (answers fs' o) cs' ks' := by
        have : (answers fs' o).keep = (answers fs o).keep := by
          funext q b; unfold answers; dsimp only; rw [hs.isDir]
        clear hk2 hl' hp
        induction hk1 with
        | nil => exact .nil
        | keep a _ ih => exact .keep (by rw [this]; exact a) ih
        | drop a _ ih => exact .drop (by rw [this]; exact a) ih
      exact .dir (show fs'.isDir p = true by rw [hs.isDir]; exact h1) hk h2 hl' hkeep (h5.trans hk2.symm) h6 (h7.sameContent hs)
termination_by ((D - k).toNat, 0)
decreasing_by exact Prod.Lex.left _ _ (by omega)
theorem ScannedAll.sameContent {fs fs' : PureFs} {o : Options (Except Exn)} {c : Cmp} {D : Int} (hs : SameContent fs fs') {k : Nat} {ps : List Path}
    {es : List TreeEntry} (h : ScannedAll (answers fs o) c D k ps es) : ScannedAll (answers fs' o) c D k ps es := by
  match ps, es, h with
  | _, _, .nil => exact .nil
  | _, _, .cons h1 h2 => exact .cons (h1.sameContent hs) (h2.sameContent hs)
termination_by ((D - k).toNat, ps.length + 1)
end

theorem SameContent.symm {fs fs' : PureFs} (h : SameContent fs fs') : SameContent fs' fs where
  isDir p := (h.isDir p).symm
  attrs p := (h.attrs p).symm
  list p := by
    rcases h.list p with ⟨a, b⟩ | ⟨cs, cs', bad, a, b, c⟩
    · exact .inl ⟨b, a⟩
    · exact .inr ⟨cs', cs, bad, b, a, c.symm⟩

theorem SameContent.distinguishes {fs fs' : PureFs} (h : SameContent fs fs') {c : Cmp} (hd : DistinguishesAll c fs) : DistinguishesAll c fs' := by
  intro p cs' bad hl a ha b hb
  rcases h.list p with ⟨_, h2⟩ | ⟨cs, cs0, bad0, h1, h2, h3⟩
  · rw [h2] at hl; cases hl
  · rw [h2] at hl; cases hl
    exact hd p cs bad h1 a (h3.mem_iff.1 ha) b (h3.mem_iff.1 hb)

/-- With callbacks that do not throw, even the exceptions are the same. -/
theorem handle_sameContent {fs fs' : PureFs} (hs : SameContent fs fs') {o o' : ScanOpts (Except Exn)} (hc : LawfulCmp o.pathComparator)
    (hd : DistinguishesAll o.pathComparator fs) (hD : o'.maxDepth = o.maxDepth) (hC : o'.pathComparator = o.pathComparator) (hL : o'.childLimit = o.childLimit)
    {g : Path → Bool} (hf : ∀ p, o.pathFilter p = .ok (g p)) (hf' : ∀ p, o'.pathFilter p = .ok (g p)) (k : Nat) (p : Path) :
    Scanner.handle fs'.lift o' k p = Scanner.handle fs.lift o k p := by
  rw [handle_unfold, handle_unfold, hs.isDir, hs.attrs, hD, hC, hL]
  split
  · split
    · rfl
    · rename_i hk
      rcases hs.list p with ⟨h1, h2⟩ | ⟨cs, cs', bad, h1, h2, h3⟩
      · rw [h1, h2]
      · rw [h1, h2]
        dsimp only
        rw [filterEntries_total_eq hf, filterEntries_total_eq hf']
        have hp : (cs'.filter g).Perm (cs.filter g) := h3.filter g
        have : streamSorted o.pathComparator (cs'.filter g) = streamSorted o.pathComparator (cs.filter g) := by
          apply Eq.symm
          apply streamSorted_unique hc
          · intro a ha b hb
            exact hd p cs bad h1 a (List.mem_filter.1 ha).1 b (List.mem_filter.1 hb).1
          · exact (streamSorted_perm _ _).trans hp
          · exact streamSorted_sorted hc _
        simp only [bind, Except.bind]
        rw [this]
        have := fun n => visitAll_congr (ps := limitTo n (streamSorted o.pathComparator (cs.filter g)))
          (v := Scanner.handle fs'.lift o' (k + 1)) (v' := Scanner.handle fs.lift o (k + 1))
          (fun q _ => handle_sameContent hs hc hd hD hC hL hf hf' (k + 1) q)
        simp only [this]
  · rfl
termination_by (o.maxDepth - k).toNat
decreasing_by omega

/-! ### Every path occurs once -/

theorem names_child {d : Path} (hd : d.abs = true) (n : JStr) : d.child n = ⟨true, d.names ++ [n]⟩ := by
  unfold Path.child
  rw [if_neg (by intro h; rw [h] at hd; cases hd), hd]

mutual
theorem Scanned.nodup {fs : PureFs} {o : Options (Except Exn)} {c : Cmp} {D : Int} (hfs : ProperFs fs) {k : Nat} {p : Path} {e : TreeEntry}
    (h : Scanned (answers fs o) c D k p e) (hp : p.abs = true) :
    ((events e).filterMap id).Nodup ∧ ∀ q ∈ (events e).filterMap id, q.abs = true ∧ p.names <+: q.names := by
  cases h with
  | file h1 h2 => simp [events, hp]
  | tooDeep h1 h2 => simp [events, eventsAll, hp]
  | @dir _ _ n cs ks srt es h1 hk h2 h3 h4 h5 h6 h7 =>
    obtain ⟨hnd, hch⟩ := hfs p cs false h3
    have hsub := (limitTo_sublist n srt)
    have hnd' : (limitTo n srt).Nodup := (h5.nodup_iff.2 (hnd.sublist h4.subset)).sublist hsub
    have hch' : ∀ x ∈ limitTo n srt, ∃ m, x = p.child m := fun x hx => hch x (h4.subset.subset (h5.mem_iff.1 (hsub.subset hx)))
    obtain ⟨i1, i2⟩ := h7.nodup hfs hp hnd' hch'
    have hm : (eventsAll (es ++ moreMark n srt p)).filterMap id = (eventsAll es).filterMap id := by
      have key : ∀ l l', eventsAll (l ++ l') = eventsAll l ++ eventsAll l' := by
        intro l l'; induction l with
        | nil => simp [eventsAll]
        | cons a l ih => simp [eventsAll, ih]
      rw [key, List.filterMap_append]
      rcases moreMark_cases n srt p with hm | hm <;> rw [hm] <;> simp [eventsAll, events]
    rw [events, show (some p :: eventsAll (es ++ moreMark n srt p)).filterMap id = p :: (eventsAll es).filterMap id by rw [← hm]; rfl]
    constructor
    · refine List.nodup_cons.2 ⟨?_, i1⟩
      intro hmem
      obtain ⟨_, x, hx, hpre⟩ := i2 p hmem
      obtain ⟨m, rfl⟩ := hch' x hx
      rw [names_child hp] at hpre
      have := hpre.length_le
      simp only [List.length_append, List.length_singleton] at this
      omega
    · intro q hq
      rcases List.mem_cons.1 hq with rfl | hq
      · exact ⟨hp, List.prefix_refl _⟩
      · obtain ⟨ha, x, hx, hpre⟩ := i2 q hq
        obtain ⟨m, rfl⟩ := hch' x hx
        rw [names_child hp] at hpre
        exact ⟨ha, (List.prefix_append _ _).trans hpre⟩
termination_by ((D - k).toNat, 0)
decreasing_by exact Prod.Lex.left _ _ (by omega)
theorem ScannedAll.nodup {fs : PureFs} {o : Options (Except Exn)} {c : Cmp} {D : Int} (hfs : ProperFs fs) {k : Nat} {ps : List Path}
    {es : List TreeEntry} (h : ScannedAll (answers fs o) c D k ps es) {d : Path} (hd : d.abs = true) (hn : ps.Nodup) (hch : ∀ x ∈ ps, ∃ m, x = d.child m) :
    ((eventsAll es).filterMap id).Nodup ∧ ∀ q ∈ (eventsAll es).filterMap id, q.abs = true ∧ ∃ x ∈ ps, x.names <+: q.names := by
  match ps, es, h with
  | _, _, .nil => simp [eventsAll]
  | p :: ps, _, .cons (e := e) (es := es) h1 h2 =>
    obtain ⟨m, hm⟩ := hch p (by simp)
    have hp : p.abs = true := by rw [hm, names_child hd]
    obtain ⟨a1, a2⟩ := h1.nodup hfs hp
    obtain ⟨b1, b2⟩ := h2.nodup hfs hd (List.nodup_cons.1 hn).2 (fun x hx => hch x (by simp [hx]))
    rw [eventsAll, List.filterMap_append]
    constructor
    · refine List.nodup_append.2 ⟨a1, b1, ?_⟩
      intro q hq q' hq' hqq
      subst hqq
      obtain ⟨_, hpre⟩ := a2 q hq
      obtain ⟨_, x, hx, hpre'⟩ := b2 q hq'
      obtain ⟨m', hm'⟩ := hch x (by simp [hx])
      rw [hm, names_child hd] at hpre
      rw [hm', names_child hd] at hpre'
      have e1 := List.prefix_iff_eq_take.1 hpre
      have e2 := List.prefix_iff_eq_take.1 hpre'
      simp only [List.length_append, List.length_singleton] at e1 e2
      have : m = m' := by
        have := e1.trans e2.symm
        simpa using this
      subst this
      rw [hm'] at hx
      rw [hm] at hn
      exact (List.nodup_cons.1 hn).1 hx
    · intro q hq
      rcases List.mem_append.1 hq with hq | hq
      · exact ⟨(a2 q hq).1, p, by simp, (a2 q hq).2⟩
      · obtain ⟨h1, x, hx, h2⟩ := b2 q hq; exact ⟨h1, x, by simp [hx], h2⟩
termination_by ((D - k).toNat, ps.length + 1)
end

end JFTP.Spec

namespace JFTP.Spec

/-! ### Paths below -/

/-- Visited paths extend the path the run started with, by as many names as levels. -/
theorem Visited.names {fs : PureFs} {o : ScanOpts (Except Exn)} {c : Cmp} {D : Int} (hfs : ProperFs fs) {k0 k : Nat} {p0 q : Path} (hp : p0.abs = true)
    (h : Visited (answersOf fs o) c D k0 p0 k q) : q.abs = true ∧ p0.names <+: q.names ∧ q.names.length + k0 = p0.names.length + k := by
  induction h with
  | top => exact ⟨hp, List.prefix_refl _, rfl⟩
  | @child k d n cs ks srt q _ h1 hk h2 h3 h4 h5 h6 h7 ih =>
    obtain ⟨i1, i2, i3⟩ := ih
    obtain ⟨m, rfl⟩ := (hfs d cs false h3).2 q (h4.subset.subset (h5.mem_iff.1 ((limitTo_sublist n srt).subset h7)))
    rw [names_child i1]
    refine ⟨rfl, i2.trans (List.prefix_append _ _), ?_⟩
    simp only [List.length_append, List.length_singleton]
    omega

theorem GrowsAllAt.refl (d : Path) (es : List TreeEntry) : GrowsAllAt d es es := by
  induction es with
  | nil => exact .nil
  | cons e es ih => exact .cons .same ih

theorem GrowsAllAt.append {d : Path} {es es' fs fs' : List TreeEntry} (h : GrowsAllAt d es es') (h' : GrowsAllAt d fs fs') :
    GrowsAllAt d (es ++ fs) (es' ++ fs') := by
  match es, es', h with
  | _, _, .nil => exact h'
  | _, _, .cons h1 h2 => exact .cons h1 (h2.append h')

theorem GrowsAllAt.of_visitAll {d : Path} {v v' : Path → Except Exn TreeEntry} {ps : List Path}
    (h : ∀ p ∈ ps, ∀ e e', v p = .ok e → v' p = .ok e' → GrowsAt d e e')
    {es es' : List TreeEntry} (he : visitAll v ps = .ok es) (he' : visitAll v' ps = .ok es') : GrowsAllAt d es es' := by
  have h1 := visitAll_ok he
  have h2 := visitAll_ok he'
  clear he he'
  induction h1 generalizing es' with
  | nil => cases h2; exact .nil
  | cons ha hb ih =>
    cases h2 with
    | cons ha' hb' => exact .cons (h _ (by simp) _ _ ha ha') (ih (fun p hp => h p (by simp [hp])) hb')

theorem handle_growsAt {fs : PureFs} (hfs : ProperFs fs) {o o' : ScanOpts (Except Exn)} (hc : LawfulCmp o.pathComparator) (hD : o'.maxDepth = o.maxDepth)
    (hC : o'.pathComparator = o.pathComparator) (hF : o'.pathFilter = o.pathFilter) (d : Path)
    (hne : ∀ q, q ≠ d → o'.childLimit q = o.childLimit q)
    (hL : ∀ n n', o.childLimit d = .ok n → o'.childLimit d = .ok n' → limitLe n n')
    (k : Nat) (p : Path) (hp : p.abs = true) (e e' : TreeEntry) (h : Scanner.handle fs.lift o k p = .ok e)
    (h' : Scanner.handle fs.lift o' k p = .ok e') : GrowsAt d e e' := by
  rw [handle_unfold] at h h'
  rw [hD, hC, hF] at h'
  split at h
  · rename_i hd
    rw [if_pos hd] at h'
    split at h
    · rename_i hk
      rw [if_pos hk] at h'
      cases h; cases h'; exact .same
    · rename_i hk
      rw [if_neg hk] at h'
      cases hls : fs.listDir p with
      | openFailed => rw [hls] at h; cases h
      | opened cs bad =>
        rw [hls] at h h'
        dsimp only at h h'
        cases hlim : o.childLimit p with
        | error e => rw [hlim] at h; cases h
        | ok n =>
        cases hlim' : o'.childLimit p with
        | error e => rw [hlim'] at h'; cases h'
        | ok n' =>
          cases hks : Scanner.filterEntries o.pathFilter cs with
          | error e => rw [hlim, hks] at h; cases h
          | ok ks =>
            rw [hlim, hks] at h
            rw [hlim', hks] at h'
            cases bad with
            | true => cases h
            | false =>
              simp only [bind, Except.bind, Bool.false_eq_true, if_false] at h h'
              have hkids : ∀ q ∈ streamSorted o.pathComparator ks, ∃ m, q = p.child m := by
                intro q hq
                exact (hfs p cs false hls).2 q ((filterEntries_kept (fs := fs) hks).subset.subset ((streamSorted_perm _ _).mem_iff.1 hq))
              generalize streamSorted o.pathComparator ks = srt at *
              by_cases hpd : p = d
              · subst hpd
                have hle := hL n n' hlim hlim'
                obtain ⟨rest, hrest, hmark⟩ := limitTo_le hle srt
                have hsame : visitAll (Scanner.handle fs.lift o' (k + 1)) (limitTo n srt) = visitAll (Scanner.handle fs.lift o (k + 1)) (limitTo n srt) := by
                  apply visitAll_congr
                  intro q hq
                  apply handle_congr hD hC hc
                  intro k' r hr
                  obtain ⟨m, hm⟩ := hkids q ((limitTo_sublist n srt).subset hq)
                  have hqa : q.abs = true := by rw [hm, names_child hp]
                  have hnames := (hr.names hfs hqa).2.1
                  have hrd : r ≠ p := by
                    rintro rfl
                    rw [hm, names_child hp] at hnames
                    have := hnames.length_le
                    simp only [List.length_append, List.length_singleton] at this
                    omega
                  exact ⟨rfl, fun _ => rfl, fun _ _ => rfl, fun _ _ => hne r hrd, fun _ _ _ _ _ _ _ => by rw [hF]⟩
                cases hv : visitAll (Scanner.handle fs.lift o (k + 1)) (limitTo n srt) with
                | error e => rw [hv] at h; cases h
                | ok es =>
                  rw [hv] at h; cases h
                  rw [hrest, visitAll_append, hsame, hv] at h'
                  simp only [bind, Except.bind] at h'
                  cases hv2 : visitAll (Scanner.handle fs.lift o' (k + 1)) rest with
                  | error e => rw [hv2] at h'; cases h'
                  | ok es2 =>
                    rw [hv2] at h'
                    cases h'
                    by_cases hm : 0 ≤ n ∧ n < srt.length
                    · have : moreMark n srt p = [.skipped p] := by unfold moreMark; rw [if_pos hm]
                      rw [this]
                      exact .here (moreMark_cases n' srt p)
                    · have hnil : moreMark n srt = moreMark (-1) srt := by
                        funext q; unfold moreMark; rw [if_neg hm, if_neg (by omega)]
                      have hr := hmark hnil
                      subst hr
                      cases hv2
                      have e1 : moreMark n srt p = [] := by unfold moreMark; rw [if_neg hm]
                      have e2 : moreMark n' srt p = [] := by
                        unfold moreMark
                        rw [if_neg]
                        rcases hle with h | ⟨h0, h1⟩ <;> omega
                      rw [e1, e2]
                      simp only [List.append_nil]
                      exact .same
              · rw [hne p hpd, hlim] at hlim'
                cases hlim'
                cases hv : visitAll (Scanner.handle fs.lift o (k + 1)) (limitTo n srt) with
                | error e => rw [hv] at h; cases h
                | ok es =>
                cases hv' : visitAll (Scanner.handle fs.lift o' (k + 1)) (limitTo n srt) with
                | error e => rw [hv'] at h'; cases h'
                | ok es' =>
                  rw [hv] at h; rw [hv'] at h'
                  cases h; cases h'
                  refine .inside hpd (GrowsAllAt.append ?_ (GrowsAllAt.refl d _))
                  refine GrowsAllAt.of_visitAll (fun q hq x x' hx hx' => ?_) hv hv'
                  obtain ⟨m, hm⟩ := hkids q ((limitTo_sublist n srt).subset hq)
                  exact handle_growsAt hfs hc hD hC hF d hne hL (k + 1) q (by rw [hm, names_child hp]) x x' hx hx'
  · rename_i hd
    rw [if_neg hd] at h'
    rw [h] at h'; cases h'; exact .same
termination_by (o.maxDepth - k).toNat
decreasing_by omega

/-- Directories below the depth limit of a scanned tree that is not cut at its top contain at most a marker. -/
theorem Scanned.depth {A : Answers} {c : Cmp} {D : Int} {k n : Nat} {p : Path} {e x : TreeEntry} (h : Scanned A c D k p e) (hk : (k : Int) ≤ D) (hb : BelowAt x n e) :
    (((k + n : Nat) : Int) ≤ D ∧ ∀ j, x ≠ .maxDepth j) ∨ (((k + n : Nat) : Int) = D + 1 ∧ x = .maxDepth (k + n - 1)) := by
  induction hb generalizing k p with
  | here => left; refine ⟨by omega, fun j hj => ?_⟩; have := h.entryPath_eq; rw [hj] at this; cases this
  | @inside d es y n hy hb ih =>
    cases h with
    | tooDeep h1 h2 =>
      simp at hy; subst hy; cases hb
      right
      refine ⟨by omega, ?_⟩
      congr 1
    | @dir _ _ n' cs ks srt es' h1 hk' h2 h3 h4 h5 h6 h7 =>
      rcases List.mem_append.1 hy with hy | hy
      · obtain ⟨r, hr, hs⟩ := h7.mem hy
        have := ih hs (by omega)
        rw [show k + (n + 1) = k + 1 + n by omega]
        exact this
      · rcases moreMark_cases n' srt d with hm | hm <;> rw [hm] at hy
        · cases hy
        · simp at hy; subst hy; cases hb
          left
          exact ⟨by omega, fun j hj => by cases hj⟩

end JFTP.Spec
