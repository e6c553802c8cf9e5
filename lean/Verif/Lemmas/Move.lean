import Verif.Spec.Move
import Verif.Lemmas.Compose
import Verif.Lemmas.NamedOk
import Verif.Lemmas.Handle

/-
Entry trees with renamed paths.
-/

namespace JFTP.Spec

mutual
/-- The entry tree with all paths replaced. -/
def mapPaths (f : Path → Path) : TreeEntry → TreeEntry
  | .dir d es => .dir (f d) (mapPathsAll f es)
  | .file p a => .file (f p) a
  | .skipped d => .skipped (f d)
  | .maxDepth n => .maxDepth n
/-- The same for lists. -/
def mapPathsAll (f : Path → Path) : List TreeEntry → List TreeEntry
  | [] => []
  | e :: es => mapPaths f e :: mapPathsAll f es
end

theorem mapPathsAll_append (f : Path → Path) (l l' : List TreeEntry) : mapPathsAll f (l ++ l') = mapPathsAll f l ++ mapPathsAll f l' := by
  induction l with
  | nil => rfl
  | cons a l ih => simp [mapPathsAll, ih]

theorem moreMark_map (f : Path → Path) (n : Int) (l : List Path) (p : Path) : moreMark n (l.map f) (f p) = mapPathsAll f (moreMark n l p) := by
  unfold moreMark
  simp only [List.length_map]
  split <;> simp [mapPathsAll, mapPaths]

theorem limitTo_map (f : Path → Path) (n : Int) (l : List Path) : limitTo n (l.map f) = (limitTo n l).map f := by
  unfold limitTo
  split <;> simp

/-! ### Labels -/

section
variable {m : Type → Type} [Monad m] [MonadExceptOf Exn m]

/-- What the labels of `q` and of its image are made of is the same. -/
def LookM.Same (L L' : LookM m) (f : Path → Path) (q : Path) : Prop :=
  L'.emoji (f q) = L.emoji q ∧ L'.ext (f q) = L.ext q ∧ (f q).names.getLast? = q.names.getLast?

theorem namesM_map {f : Path → Path} {ps : List Path} (h : ∀ q ∈ ps, (f q).names.getLast? = q.names.getLast?) :
    (namesM (ps.map f) : m JStr) = namesM ps := by
  induction ps with
  | nil => rfl
  | cons q ps ih =>
    rw [List.map_cons, namesM, namesM, h q (by simp), ih (fun x hx => h x (by simp [hx]))]

theorem dispDirM_other_map {L L' : LookM m} {f : Path → Path} {top : Bool} {d : Path} {es : List TreeEntry} {ps : List Path} (hes : ∀ c ces, es ≠ [.dir c ces])
    (hes' : ∀ c ces, mapPathsAll f es ≠ [.dir c ces]) (h : L.Same L' f d) (hp : ∀ q ∈ ps, (f q).names.getLast? = q.names.getLast?)
    (ih : dispKidsM L' (mapPathsAll f es) = dispKidsM L es) :
    dispDirM L' top (f d) (mapPathsAll f es) (ps.map f) = dispDirM L top d es ps := by
  rw [dispDirM.eq_def, dispDirM.eq_def]
  split
  · rename_i heq; exact absurd heq (hes' _ _)
  · unfold dirsTextM
    rw [h.1, h.2.1, ih, namesM_map hp]

mutual
theorem dispM_map {L L' : LookM m} {f : Path → Path} (hc : L'.compact = L.compact) (top : Bool) (e : TreeEntry) (h : ∀ q ∈ entryPaths e, L.Same L' f q) :
    dispM L' top (mapPaths f e) = dispM L top e := by
  match e with
  | .file p a =>
    have hp := h p (by simp [entryPaths, events])
    rw [mapPaths, dispM, dispM, hp.2.1]; unfold fileTextM nameM; rw [hp.1, hp.2.2]
  | .skipped p => rw [mapPaths, dispM, dispM]
  | .maxDepth n => rw [mapPaths, dispM, dispM]
  | .dir d es =>
    rw [mapPaths, dispM, dispM]
    exact dispDirM_map hc top d es [d] h (by simpa using (h d (mem_entryPaths_dir.2 (.inl rfl))).2.2)
termination_by (sizeOf e, 1)
theorem dispDirM_map {L L' : LookM m} {f : Path → Path} (hc : L'.compact = L.compact) (top : Bool) (d : Path) (es : List TreeEntry) (ps : List Path)
    (h : ∀ q ∈ entryPaths (.dir d es), L.Same L' f q) (hp : ∀ q ∈ ps, (f q).names.getLast? = q.names.getLast?) :
    dispDirM L' top (f d) (mapPathsAll f es) (ps.map f) = dispDirM L top d es ps := by
  have hd := h d (mem_entryPaths_dir.2 (.inl rfl))
  have hk : ∀ e ∈ es, ∀ q ∈ entryPaths e, L.Same L' f q := fun e he q hq => h q (mem_entryPaths_dir.2 (.inr ⟨e, he, hq⟩))
  match es with
  | [.dir c ces] =>
    have hcc : ∀ q ∈ entryPaths (.dir c ces), L.Same L' f q := hk _ (by simp)
    have h1 := dispDirM_map hc top c ces (ps ++ [c]) hcc (by
      intro q hq
      rcases List.mem_append.1 hq with hq | hq
      · exact hp q hq
      · rw [List.mem_singleton.1 hq]; exact (hcc c (mem_entryPaths_dir.2 (.inl rfl))).2.2)
    have h2 := dispM_map hc false (.dir c ces) hcc
    rw [mapPaths] at h2
    rw [List.map_append, List.map_singleton] at h1
    rw [mapPathsAll, mapPathsAll, mapPaths, dispDirM, dispDirM, hc, hd.2.1, h1, h2]
    unfold dirsTextM
    rw [hd.1, namesM_map hp]
  | [] => exact dispDirM_other_map (by simp) (by simp [mapPathsAll]) hd hp (dispKidsM_map hc _ hk)
  | .file q a :: r => exact dispDirM_other_map (by simp) (by simp [mapPathsAll, mapPaths]) hd hp (dispKidsM_map hc (.file q a :: r) hk)
  | .skipped q :: r => exact dispDirM_other_map (by simp) (by simp [mapPathsAll, mapPaths]) hd hp (dispKidsM_map hc (.skipped q :: r) hk)
  | .maxDepth q :: r => exact dispDirM_other_map (by simp) (by simp [mapPathsAll, mapPaths]) hd hp (dispKidsM_map hc (.maxDepth q :: r) hk)
  | .dir q a :: b :: r => exact dispDirM_other_map (by simp) (by simp [mapPathsAll]) hd hp (dispKidsM_map hc (.dir q a :: b :: r) hk)
termination_by (sizeOf es, 3)
theorem dispKidsM_map {L L' : LookM m} {f : Path → Path} (hc : L'.compact = L.compact) (es : List TreeEntry) (h : ∀ e ∈ es, ∀ q ∈ entryPaths e, L.Same L' f q) :
    dispKidsM L' (mapPathsAll f es) = dispKidsM L es := by
  match es with
  | [] => rw [mapPathsAll, dispKidsM, dispKidsM]
  | e :: es =>
    rw [mapPathsAll, dispKidsM, dispKidsM, dispM_map hc false e (h e (by simp)), dispKidsM_map hc es (fun x hx => h x (by simp [hx]))]
termination_by (sizeOf es, 2)
end
end

/-! ### Scanning -/

/-- From below `/b` to below `/b'`. -/
def relocate (b b' : List JStr) (q : Path) : Path := under b' (q.names.drop b.length)

theorem relocate_under (b b' rest : List JStr) : relocate b b' (under b rest) = under b' rest := by
  simp [relocate, under]

theorem SameBelow.found {fs fs' : PureFs} {b b' rest : List JStr} (hs : SameBelow fs fs' b b') (h : Found fs b rest) : Found fs' b' rest := by
  induction h with
  | here => exact .here
  | @step rest n cs bad h1 h2 h3 ih =>
    rcases hs.list rest with ⟨h, _⟩ | ⟨ns, ns', bad', hl, hl', hp⟩
    · rw [h] at h2; cases h2
    · rw [hl] at h2; cases h2
      obtain ⟨n', hn, e⟩ := List.mem_map.1 h3
      have e : n' = n := by simpa [under] using e
      subst e
      exact .step ih hl' (List.mem_map.2 ⟨n', hp.mem_iff.2 hn, rfl⟩)

theorem keptMap {fs fs' : PureFs} {o o' : Options (Except Exn)} {b b' : List JStr} (hs : SameBelow fs fs' b b') (ho : SameAnswers fs o o' b b') {cs ks : List Path}
    (hcs : ∀ q ∈ cs, ∃ rest, rest ≠ [] ∧ Found fs b rest ∧ q = under b rest) (h : Kept (answers fs o) cs ks) :
    Kept (answers fs' o') (cs.map (relocate b b')) (ks.map (relocate b b')) := by
  have key : ∀ {q v}, (∃ rest, rest ≠ [] ∧ Found fs b rest ∧ q = under b rest) → (answers fs o).keep q v → (answers fs' o').keep (relocate b b' q) v := by
    rintro q v ⟨rest, hr, hf, rfl⟩ hk
    have hk : (if fs.isDir (under b rest) = true then o.dirMatcher (under b rest) else o.fileMatcher (under b rest)) = .ok v := hk
    rw [relocate_under]
    show (if fs'.isDir (under b' rest) = true then o'.dirMatcher (under b' rest) else o'.fileMatcher (under b' rest)) = .ok v
    rw [hs.isDir, ho.dirMatcher _ hr hf, ho.fileMatcher _ hr hf]
    exact hk
  induction h with
  | nil => exact .nil
  | keep h1 _ ih => exact .keep (key (hcs _ (by simp)) h1) (ih fun q hq => hcs q (by simp [hq]))
  | drop h1 _ ih => exact .drop (key (hcs _ (by simp)) h1) (ih fun q hq => hcs q (by simp [hq]))

mutual
theorem Scanned.move {fs fs' : PureFs} {o o' : Options (Except Exn)} {b b' : List JStr} (hs : SameBelow fs fs' b b') (ho : SameAnswers fs o o' b b') {k : Nat} {rest : List JStr} {e : TreeEntry}
    {D : Int} (h : Scanned (answers fs o) o.pathComparator D k (under b rest) e) (hf : Found fs b rest) :
    Scanned (answers fs' o') o'.pathComparator D k (under b' rest) (mapPaths (relocate b b') e) := by
  cases h with
  | @file _ _ a h1 h2 =>
    rw [mapPaths, relocate_under]
    exact .file (show fs'.isDir _ = false by rw [hs.isDir]; exact h1) (show fs'.readAttrs _ = some a by rw [hs.attrs]; exact h2)
  | tooDeep h1 h2 =>
    rw [mapPaths, relocate_under, mapPathsAll, mapPathsAll, mapPaths]
    exact .tooDeep (show fs'.isDir _ = true by rw [hs.isDir]; exact h1) h2
  | @dir _ _ n cs ks srt es h1 hk h2 h3 h4 h5 h6 h7 =>
    have h3 : fs.listDir (under b rest) = .opened cs false := h3
    have h2 : o.childLimit (under b rest) = .ok n := h2
    rcases hs.list rest with ⟨h, _⟩ | ⟨ns, ns', bad, hl, hl', hp⟩
    · rw [h] at h3; cases h3
    · rw [hl] at h3; cases h3
      have hcs : ∀ q ∈ ns.map (fun n => under b (rest ++ [n])), ∃ r, r ≠ [] ∧ Found fs b r ∧ q = under b r := by
        intro q hq
        obtain ⟨n, _, rfl⟩ := List.mem_map.1 hq
        exact ⟨_, by simp, .step hf hl hq, rfl⟩
      have hsrt : ∀ q ∈ srt, ∃ r, r ≠ [] ∧ Found fs b r ∧ q = under b r := fun q hq => hcs q (h4.subset.subset (h5.mem_iff.1 hq))
      have hkm := keptMap hs ho hcs h4
      have e1 : (ns.map (fun n => under b (rest ++ [n]))).map (relocate b b') = ns.map (fun n => under b' (rest ++ [n])) := by
        rw [List.map_map]
        exact List.map_congr_left fun n _ => relocate_under ..
      rw [e1] at hkm
      obtain ⟨ks', hk1, hk2⟩ := Kept.perm (hp.map fun n => under b' (rest ++ [n])) hkm
      rw [mapPaths, relocate_under, mapPathsAll_append, ← moreMark_map, relocate_under]
      refine .dir (n := n) (srt := srt.map (relocate b b')) (show fs'.isDir _ = true by rw [hs.isDir]; exact h1) hk
        (show o'.childLimit _ = .ok n by rw [ho.childLimit _ hf]; exact h2) hl' hk1 ((h5.map _).trans hk2.symm) ?_ ?_
      · rw [List.pairwise_map]
        refine h6.imp_of_mem ?_
        intro x y hx hy hxy
        obtain ⟨r1, hr1, hf1, rfl⟩ := hsrt x hx
        obtain ⟨r2, hr2, hf2, rfl⟩ := hsrt y hy
        rw [relocate_under, relocate_under, ho.comparator _ _ hr1 hr2 hf1 hf2]
        exact hxy
      · rw [limitTo_map]
        exact h7.move hs ho fun q hq => let ⟨r, _, h1, hr⟩ := hsrt q ((limitTo_sublist n srt).subset hq); ⟨r, h1, hr⟩
termination_by ((D - k).toNat, 0)
decreasing_by exact Prod.Lex.left _ _ (by omega)
theorem ScannedAll.move {fs fs' : PureFs} {o o' : Options (Except Exn)} {b b' : List JStr} (hs : SameBelow fs fs' b b') (ho : SameAnswers fs o o' b b') {k : Nat} {ps : List Path}
    {es : List TreeEntry} {D : Int} (h : ScannedAll (answers fs o) o.pathComparator D k ps es) (hps : ∀ q ∈ ps, ∃ rest, Found fs b rest ∧ q = under b rest) :
    ScannedAll (answers fs' o') o'.pathComparator D k (ps.map (relocate b b')) (mapPathsAll (relocate b b') es) := by
  match ps, es, h with
  | _, _, .nil => exact .nil
  | p :: ps, _, .cons h1 h2 =>
    obtain ⟨rest, hf, rfl⟩ := hps p (by simp)
    rw [List.map_cons, mapPathsAll, relocate_under]
    exact .cons (h1.move hs ho hf) (h2.move hs ho fun q hq => hps q (by simp [hq]))
termination_by ((D - k).toNat, ps.length + 1)
end

mutual
/-- The paths found below the directory. -/
theorem Scanned.under_paths {fs fs' : PureFs} {o : Options (Except Exn)} {b b' : List JStr} (hs : SameBelow fs fs' b b') {c : Cmp} {k : Nat} {rest : List JStr} {e : TreeEntry}
    {D : Int} (h : Scanned (answers fs o) c D k (under b rest) e) (hf : Found fs b rest) :
    (∀ q ∈ entryPaths e, ∃ r, rest <+: r ∧ Found fs b r ∧ q = under b r) ∧ ∀ d es, e = .dir d es → ∀ x ∈ es, ∀ q ∈ entryPaths x, ∃ r, r ≠ [] ∧ rest <+: r ∧ Found fs b r ∧ q = under b r := by
  have self : ∃ r, rest <+: r ∧ Found fs b r ∧ under b rest = under b r := ⟨rest, List.prefix_refl _, hf, rfl⟩
  cases h with
  | @file _ _ a h1 h2 => exact ⟨by simpa [entryPaths, events] using self, by intros; contradiction⟩
  | tooDeep h1 h2 =>
    refine ⟨by simpa [entryPaths, events, eventsAll] using self, ?_⟩
    intro d es he x hx q hq
    cases he
    rw [List.mem_singleton.1 hx] at hq
    simp [entryPaths, events] at hq
  | @dir _ _ n cs ks srt es h1 hk h2 h3 h4 h5 h6 h7 =>
    have h3 : fs.listDir (under b rest) = .opened cs false := h3
    have hps : ∀ q ∈ limitTo n srt, ∃ r, r ≠ [] ∧ rest <+: r ∧ Found fs b r ∧ q = under b r := by
      intro q hq
      have := h4.subset.subset (h5.mem_iff.1 ((limitTo_sublist n srt).subset hq))
      rcases hs.list rest with ⟨h, _⟩ | ⟨ns, ns', bad, hl, hl', hp⟩
      · rw [h] at h3; cases h3
      · rw [hl] at h3; cases h3
        obtain ⟨n, _, rfl⟩ := List.mem_map.1 this
        exact ⟨_, by simp, List.prefix_append _ _, .step hf hl this, rfl⟩
    have ih := h7.under_paths hs hps
    have key : ∀ x ∈ es ++ moreMark n srt (under b rest), ∀ q ∈ entryPaths x, ∃ r, r ≠ [] ∧ rest <+: r ∧ Found fs b r ∧ q = under b r := by
      intro x hx q hq
      rcases List.mem_append.1 hx with hx | hx
      · exact ih x hx q hq
      · rcases moreMark_cases n srt (under b rest) with hm | hm <;> rw [hm] at hx
        · cases hx
        · rw [List.mem_singleton.1 hx] at hq; simp [entryPaths, events] at hq
    refine ⟨?_, ?_⟩
    · intro q hq
      rcases mem_entryPaths_dir.1 hq with rfl | ⟨x, hx, hq⟩
      · exact self
      · obtain ⟨r, _, hr⟩ := key x hx q hq; exact ⟨r, hr⟩
    · intro d es' he; cases he; exact key
termination_by ((D - k).toNat, 0)
decreasing_by exact Prod.Lex.left _ _ (by omega)
theorem ScannedAll.under_paths {fs fs' : PureFs} {o : Options (Except Exn)} {b b' : List JStr} (hs : SameBelow fs fs' b b') {c : Cmp} {k : Nat} {rest : List JStr} {ps : List Path}
    {es : List TreeEntry} {D : Int} (h : ScannedAll (answers fs o) c D k ps es) (hps : ∀ q ∈ ps, ∃ r, r ≠ [] ∧ rest <+: r ∧ Found fs b r ∧ q = under b r) :
    ∀ x ∈ es, ∀ q ∈ entryPaths x, ∃ r, r ≠ [] ∧ rest <+: r ∧ Found fs b r ∧ q = under b r := by
  match ps, es, h with
  | _, _, .nil => intro x hx; cases hx
  | p :: ps, _, .cons h1 h2 =>
    intro x hx q hq
    obtain ⟨r, hr, hpre, hf, rfl⟩ := hps p (by simp)
    rcases List.mem_cons.1 hx with rfl | hx
    · obtain ⟨r', h', hq'⟩ := (h1.under_paths hs hf).1 q hq
      refine ⟨r', ?_, hpre.trans h', hq'⟩
      rintro rfl
      exact hr (List.prefix_nil.1 h')
    · exact h2.under_paths hs (fun q hq => hps q (by simp [hq])) x hx q hq
termination_by ((D - k).toNat, ps.length + 1)
end

end JFTP.Spec
