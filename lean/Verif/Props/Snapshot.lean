import Verif.Spec.Snapshot
import Verif.Props.Recreate

/-
C110: two directories have the same text if and only if they show the same.
-/

namespace JFTP
open Spec

namespace Snapshot

variable {fs fs' : PureFs} {o o' : Options (Except Exn)} {b b' : List JStr}

theorem child_under (b rest : List JStr) (n : JStr) : (under b rest).child n = under b (rest ++ [n]) := by
  rw [names_child rfl]; simp [under]

theorem under_inj {r r' : List JStr} (h : under b r = under b r') : r = r' := by
  simpa [under] using h

theorem last_under (b rest : List JStr) (n : JStr) : lastName (under b (rest ++ [n])) = n := by
  rw [← child_under, Recreate.lastName_child]

theorem names_of {rest : List JStr} {l : List Path} (h : ∀ q ∈ l, ∃ n, q = (under b rest).child n) : ∃ ns : List JStr, l = ns.map fun n => under b (rest ++ [n]) := by
  induction l with
  | nil => exact ⟨[], rfl⟩
  | cons q l ih =>
    obtain ⟨n, rfl⟩ := h q (.head _)
    obtain ⟨ns, rfl⟩ := ih (fun q hq => h q (.tail _ hq))
    exact ⟨n :: ns, by rw [List.map_cons, child_under]⟩

theorem noLimit {n : Int} (hn : n < 0) (l : List Path) (p : Path) : limitTo n l = l ∧ moreMark n l p = [] := by
  unfold limitTo moreMark
  exact ⟨if_pos hn, if_neg (by omega)⟩

/-- The entries of a directory have its path with one more name. -/
theorem sorted_names (hfs : ProperFs fs) {rest : List JStr} {cs ks srt : List Path} (h1 : fs.listDir (under b rest) = .opened cs false) (h2 : Kept (answers fs o) cs ks) (h3 : srt.Perm ks) :
    ∃ ns : List JStr, srt = ns.map fun n => under b (rest ++ [n]) :=
  names_of fun q hq => (hfs _ _ _ h1).2 q (h2.subset.subset (h3.mem_iff.1 hq))

/-- Displayed files have no mark. -/
def Unmarked (fs : PureFs) (e : TreeEntry) : Prop := ∀ q ∈ entryPaths e, fs.isDir q = false → fs.readAttrs q = some ⟨false, false⟩

theorem Unmarked.mem {d : Path} {es : List TreeEntry} (h : Unmarked fs (.dir d es)) {e : TreeEntry} (he : e ∈ es) : Unmarked fs e :=
  fun q hq => h q (mem_entryPaths_dir.2 (.inr ⟨e, he, hq⟩))

theorem Unmarked.file {p : Path} {a : Attrs} (h : Unmarked fs (.file p a)) (h1 : fs.isDir p = false) (h2 : fs.readAttrs p = some a) : a = ⟨false, false⟩ := by
  have := h p (by simp [entryPaths, events]) h1
  rw [h2] at this
  exact Option.some.inj this

theorem skeleton_last {c : Cmp} {D : Int} {k : Nat} {p : Path} {e : TreeEntry} (h : Scanned (answers fs o) c D k p e) (hu : Unmarked fs e) :
    skeleton e = .leaf (lastName p) ∨ ∃ ks, skeleton e = .dir (lastName p) ks := by
  cases h with
  | file h1 h2 =>
    cases hu.file h1 h2
    exact .inl (by rw [skeleton]; simp [fileMark])
  | tooDeep _ _ => exact .inr ⟨_, by rw [skeleton]⟩
  | dir _ _ _ _ _ _ _ _ => exact .inr ⟨_, by rw [skeleton]⟩

theorem same_last {c c' : Cmp} {D D' : Int} {k k' : Nat} {p p' : Path} {e e' : TreeEntry} (h : Scanned (answers fs o) c D k p e) (h' : Scanned (answers fs' o') c' D' k' p' e')
    (hu : Unmarked fs e) (hu' : Unmarked fs' e') (hs : skeleton e = skeleton e') : lastName p = lastName p' := by
  rcases skeleton_last h hu with h1 | ⟨ks, h1⟩ <;> rcases skeleton_last h' hu' with h2 | ⟨ks', h2⟩ <;> rw [h1, h2] at hs <;>
    first | exact NTree.leaf.inj hs | exact (NTree.dir.inj hs).1 | cases hs

mutual
/-- Entry trees with the same names and nesting differ in the place only. -/
theorem moved_of_skeleton (hfs : ProperFs fs) (hfs' : ProperFs fs') (hl : ∀ q n, o.childLimit q = .ok n → n < 0) (hl' : ∀ q n, o'.childLimit q = .ok n → n < 0) {c c' : Cmp} {D : Int} {k : Nat}
    {rest : List JStr} {e e' : TreeEntry} (h : Scanned (answers fs o) c D k (under b rest) e) (h' : Scanned (answers fs' o') c' D k (under b' rest) e')
    (hu : Unmarked fs e) (hu' : Unmarked fs' e') (hs : skeleton e = skeleton e') : e' = mapPaths (relocate b b') e := by
  cases h with
  | file h1 h2 =>
    cases hu.file h1 h2
    cases h' with
    | file h1' h2' => cases hu'.file h1' h2'; rw [mapPaths, relocate_under]
    | tooDeep _ _ => rw [skeleton, skeleton] at hs; cases hs
    | dir _ _ _ _ _ _ _ _ => rw [skeleton, skeleton] at hs; cases hs
  | tooDeep h1 h2 =>
    cases h' with
    | file h1' h2' => rw [skeleton, skeleton] at hs; cases hs
    | tooDeep _ _ => rw [mapPaths, relocate_under]; rfl
    | dir _ hk _ _ _ _ _ _ => exact absurd h2 (by omega)
  | @dir _ _ n cs ks srt es h1 hk h2 h3 h4 h5 h6 h7 =>
    cases h' with
    | file h1' h2' => rw [skeleton, skeleton] at hs; cases hs
    | tooDeep _ hk' => exact absurd hk (by omega)
    | @dir _ _ n' cs' ks' srt' es' h1' hk' h2' h3' h4' h5' h6' h7' =>
      obtain ⟨e1, e2⟩ := noLimit (hl _ n h2) srt (under b rest)
      obtain ⟨e1', e2'⟩ := noLimit (hl' _ n' h2') srt' (under b' rest)
      rw [e1] at h7
      rw [e1'] at h7'
      rw [e2, List.append_nil] at hu hs ⊢
      rw [e2', List.append_nil] at hu' hs ⊢
      obtain ⟨ns, rfl⟩ := sorted_names hfs h3 h4 h5
      obtain ⟨ns', rfl⟩ := sorted_names hfs' h3' h4' h5'
      rw [skeleton, skeleton] at hs
      rw [mapPaths, relocate_under, moved_all hfs hfs' hl hl' h7 h7' (fun e he => hu.mem he) (fun e he => hu'.mem he) (NTree.dir.inj hs).2]
termination_by ((D - k).toNat, 0)
decreasing_by exact Prod.Lex.left _ _ (by omega)
theorem moved_all (hfs : ProperFs fs) (hfs' : ProperFs fs') (hl : ∀ q n, o.childLimit q = .ok n → n < 0) (hl' : ∀ q n, o'.childLimit q = .ok n → n < 0) {c c' : Cmp} {D : Int} {k : Nat}
    {rest : List JStr} {ns ns' : List JStr} {es es' : List TreeEntry} (h : ScannedAll (answers fs o) c D k (ns.map fun n => under b (rest ++ [n])) es)
    (h' : ScannedAll (answers fs' o') c' D k (ns'.map fun n => under b' (rest ++ [n])) es') (hu : ∀ e ∈ es, Unmarked fs e) (hu' : ∀ e ∈ es', Unmarked fs' e)
    (hs : skeletonAll es = skeletonAll es') : es' = mapPathsAll (relocate b b') es := by
  match ns, es, h, ns', es', h' with
  | [], _, .nil, [], _, .nil => rfl
  | [], _, .nil, _ :: _, _, .cons _ _ => rw [skeletonAll, skeletonAll] at hs; cases hs
  | _ :: _, _, .cons _ _, [], _, .nil => rw [skeletonAll, skeletonAll] at hs; cases hs
  | n :: ns, _, .cons (e := e) (es := es) h1 h2, n' :: ns', _, .cons (e := e') (es := es') h1' h2' =>
    rw [skeletonAll, skeletonAll] at hs
    have hn := same_last h1 h1' (hu _ (.head _)) (hu' _ (.head _)) (List.cons.inj hs).1
    rw [last_under, last_under] at hn
    subst hn
    rw [mapPathsAll, moved_of_skeleton hfs hfs' hl hl' h1 h1' (hu _ (.head _)) (hu' _ (.head _)) (List.cons.inj hs).1,
      moved_all hfs hfs' hl hl' h2 h2' (fun e he => hu e (.tail _ he)) (fun e he => hu' e (.tail _ he)) (List.cons.inj hs).2]
termination_by ((D - k).toNat, ns.length + 1)
end

/-! ### The other direction -/

/-- What is displayed one level further down is listed and accepted. -/
theorem displayed_inv (hfs : ProperFs fs) {k : Nat} {q : Path} (h : DisplayedAt fs o (under b []) k q) :
    ∃ r : List JStr, q = under b r ∧ k = r.length ∧ ∀ rest n, r = rest ++ [n] →
      DisplayedAt fs o (under b []) rest.length (under b rest) ∧ fs.isDir (under b rest) = true ∧ ∃ cs, fs.listDir (under b rest) = .opened cs false ∧ under b (rest ++ [n]) ∈ cs ∧
        (fs.isDir (under b (rest ++ [n])) = true → o.dirMatcher (under b (rest ++ [n])) = .ok true) ∧ (fs.isDir (under b (rest ++ [n])) = false → o.fileMatcher (under b (rest ++ [n])) = .ok true) := by
  induction h with
  | top => exact ⟨[], rfl, rfl, fun rest n h => by simp at h⟩
  | @child k d cs q h1 h2 h3 h4 h5 h6 ih =>
    obtain ⟨r, rfl, hk, -⟩ := ih
    obtain ⟨n, rfl⟩ := (hfs _ _ _ h3).2 q h4
    rw [child_under] at h4 h5 h6 ⊢
    refine ⟨r ++ [n], rfl, by simp [hk], ?_⟩
    intro rest m hrm
    obtain ⟨rfl, hm⟩ := List.append_inj' hrm rfl
    cases hm
    exact ⟨hk ▸ h1, h2, cs, h3, h4, h5, h6⟩

theorem mem_kept {cs ks : List Path} (h : Kept (answers fs o) cs ks) {q : Path} :
    q ∈ ks ↔ q ∈ cs ∧ (fs.isDir q = true → o.dirMatcher q = .ok true) ∧ (fs.isDir q = false → o.fileMatcher q = .ok true) := by
  have hk : ∀ q b, (answers fs o).keep q b → (fs.isDir q = true → o.dirMatcher q = .ok b) ∧ (fs.isDir q = false → o.fileMatcher q = .ok b) := by
    intro q b h
    have h : o.pathFilter fs.lift q = .ok b := h
    rw [pathFilter_eq] at h
    exact ⟨fun hd => by rwa [if_pos hd] at h, fun hd => by rwa [if_neg (by simp [hd])] at h⟩
  induction h with
  | nil => simp
  | @keep c cs ks h1 _ ih =>
    rw [List.mem_cons, List.mem_cons]
    refine ⟨?_, ?_⟩
    · rintro (rfl | a1)
      · exact ⟨.inl rfl, hk _ _ h1⟩
      · exact ⟨.inr (ih.1 a1).1, (ih.1 a1).2⟩
    · rintro ⟨rfl | a1, a2⟩
      · exact .inl rfl
      · exact .inr (ih.2 ⟨a1, a2⟩)
  | @drop c cs ks h1 _ ih =>
    rw [List.mem_cons]
    refine ⟨fun h => ⟨.inr (ih.1 h).1, (ih.1 h).2⟩, ?_⟩
    rintro ⟨rfl | a1, a2, a3⟩
    · have := hk _ _ h1
      cases hd : fs.isDir q with
      | true => exact absurd ((this.1 hd).symm.trans (a2 hd)) (by simp)
      | false => exact absurd ((this.2 hd).symm.trans (a3 hd)) (by simp)
    · exact ih.2 ⟨a1, a2, a3⟩

/-- The names displayed in a directory. -/
theorem mem_names (hfs : ProperFs fs) {rest : List JStr} {cs ks srt : List Path} {ns : List JStr} (h0 : fs.isDir (under b rest) = true) (h1 : fs.listDir (under b rest) = .opened cs false)
    (h2 : Kept (answers fs o) cs ks) (h3 : srt.Perm ks) (h4 : srt = ns.map fun n => under b (rest ++ [n])) (hd : DisplayedAt fs o (under b []) rest.length (under b rest))
    (hk : (rest.length : Int) < o.maxDepth) (n : JStr) : n ∈ ns ↔ Shown fs o (under b []) (under b (rest ++ [n])) := by
  have hn : n ∈ ns ↔ under b (rest ++ [n]) ∈ ks := by
    rw [← h3.mem_iff, h4, List.mem_map]
    refine ⟨fun h => ⟨n, h, rfl⟩, ?_⟩
    rintro ⟨m, hm, he⟩
    have := under_inj he
    simp at this
    exact this ▸ hm
  rw [hn, mem_kept h2]
  constructor
  · rintro ⟨a1, a2, a3⟩
    exact ⟨rest.length + 1, .child hd h0 h1 a1 a2 a3, .inr (by push_cast; omega)⟩
  · rintro ⟨k, hk', -⟩
    obtain ⟨r, hr, -, h⟩ := displayed_inv hfs hk'
    obtain ⟨-, -, cs', h5, h6, h7, h8⟩ := h rest n (under_inj hr).symm
    rw [h1] at h5
    cases h5
    exact ⟨h6, h7, h8⟩

theorem alpha_under (rest : List JStr) (n m : JStr) : PathSorts.ALPHABETICAL (under b (rest ++ [n])) (under b (rest ++ [m])) = compareTo n m := by
  unfold PathSorts.ALPHABETICAL
  rw [Recreate.nameKey_eq, Recreate.nameKey_eq, last_under, last_under]

theorem names_eq {rest : List JStr} {ns ns' : List JStr} (h1 : (ns.map fun n => under b (rest ++ [n])).Pairwise (fun x y => PathSorts.ALPHABETICAL x y ≤ 0))
    (h2 : (ns'.map fun n => under b' (rest ++ [n])).Pairwise (fun x y => PathSorts.ALPHABETICAL x y ≤ 0)) (hn : ns.Nodup) (hn' : ns'.Nodup) (h : ∀ n, n ∈ ns ↔ n ∈ ns') : ns = ns' := by
  rw [List.pairwise_map] at h1 h2
  simp only [alpha_under] at h1 h2
  refine List.Perm.eq_of_pairwise (le := fun a b => compareTo a b ≤ 0) ?_ h1 h2 ((List.perm_ext_iff_of_nodup hn hn').2 h)
  intro x y _ _ hxy hyx
  rw [compareTo_neg x y] at hyx
  exact compareTo_eq_zero.1 (by omega)

theorem sorted_nodup (hfs : ProperFs fs) {rest : List JStr} {cs ks : List Path} {ns : List JStr} (h1 : fs.listDir (under b rest) = .opened cs false) (h2 : Kept (answers fs o) cs ks)
    (h3 : (ns.map fun n => under b (rest ++ [n])).Perm ks) : ns.Nodup :=
  (h3.nodup_iff.2 ((hfs _ _ _ h1).1.sublist h2.subset)).of_map

mutual
/-- Entry trees of directories that show the same differ in the place only. -/
theorem moved_of_shown (hfs : ProperFs fs) (hfs' : ProperFs fs') (hl : ∀ q n, o.childLimit q = .ok n → n < 0) (hl' : ∀ q n, o'.childLimit q = .ok n → n < 0) (hD : o'.maxDepth = o.maxDepth)
    (hS : SameShown fs o b fs' o' b') {k : Nat} {rest : List JStr} {e e' : TreeEntry} (h : Scanned (answers fs o) PathSorts.ALPHABETICAL o.maxDepth k (under b rest) e)
    (h' : Scanned (answers fs' o') PathSorts.ALPHABETICAL o.maxDepth k (under b' rest) e') (hu : Unmarked fs e) (hu' : Unmarked fs' e') (hk : k = rest.length)
    (hd : DisplayedAt fs o (under b []) k (under b rest)) (hd' : DisplayedAt fs' o' (under b' []) k (under b' rest)) (hkD : k = 0 ∨ (k : Int) ≤ o.maxDepth) :
    e' = mapPaths (relocate b b') e := by
  have hkind : fs'.isDir (under b' rest) = fs.isDir (under b rest) := (hS rest).2 ⟨k, hd, hkD⟩
  cases h with
  | file h1 h2 =>
    cases hu.file h1 h2
    have h1 : fs.isDir (under b rest) = false := h1
    rw [h1] at hkind
    cases h' with
    | file h1' h2' => cases hu'.file h1' h2'; rw [mapPaths, relocate_under]
    | tooDeep h1' _ => exact absurd (hkind.symm.trans h1') (by simp)
    | dir h1' _ _ _ _ _ _ _ => exact absurd (hkind.symm.trans h1') (by simp)
  | tooDeep h1 h2 =>
    have h1 : fs.isDir (under b rest) = true := h1
    rw [h1] at hkind
    cases h' with
    | file h1' h2' => exact absurd (hkind.symm.trans h1') (by simp)
    | tooDeep _ _ => rw [mapPaths, relocate_under]; rfl
    | dir _ hk _ _ _ _ _ _ => exact absurd h2 (by omega)
  | @dir _ _ n cs ks srt es h1 hlt h2 h3 h4 h5 h6 h7 =>
    have h1 : fs.isDir (under b rest) = true := h1
    rw [h1] at hkind
    cases h' with
    | file h1' h2' => exact absurd (hkind.symm.trans h1') (by simp)
    | tooDeep _ hk' => exact absurd hlt (by omega)
    | @dir _ _ n' cs' ks' srt' es' h1' hlt' h2' h3' h4' h5' h6' h7' =>
      obtain ⟨e1, e2⟩ := noLimit (hl _ n h2) srt (under b rest)
      obtain ⟨e1', e2'⟩ := noLimit (hl' _ n' h2') srt' (under b' rest)
      rw [e1] at h7
      rw [e1'] at h7'
      rw [e2, List.append_nil] at hu ⊢
      rw [e2', List.append_nil] at hu' ⊢
      obtain ⟨ns, rfl⟩ := sorted_names hfs h3 h4 h5
      obtain ⟨ns', rfl⟩ := sorted_names hfs' h3' h4' h5'
      have hm := mem_names hfs h1 h3 h4 h5 rfl (hk ▸ hd) (by omega)
      have hm' := mem_names hfs' hkind h3' h4' h5' rfl (hk ▸ hd') (by omega)
      have hns : ns = ns' := names_eq h6 h6' (sorted_nodup hfs h3 h4 h5) (sorted_nodup hfs' h3' h4' h5') (fun n => by rw [hm, hm', (hS _).1])
      subst hns
      rw [mapPaths, relocate_under, moved_all_of_shown hfs hfs' hl hl' hD hS h7 h7' (fun e he => hu.mem he) (fun e he => hu'.mem he) (by omega) (by omega)
        (fun n hn => (hm n).1 hn)]
termination_by ((o.maxDepth - k).toNat, 0)
decreasing_by exact Prod.Lex.left _ _ (by omega)
theorem moved_all_of_shown (hfs : ProperFs fs) (hfs' : ProperFs fs') (hl : ∀ q n, o.childLimit q = .ok n → n < 0) (hl' : ∀ q n, o'.childLimit q = .ok n → n < 0) (hD : o'.maxDepth = o.maxDepth)
    (hS : SameShown fs o b fs' o' b') {k : Nat} {rest : List JStr} {ns : List JStr} {es es' : List TreeEntry}
    (h : ScannedAll (answers fs o) PathSorts.ALPHABETICAL o.maxDepth k (ns.map fun n => under b (rest ++ [n])) es)
    (h' : ScannedAll (answers fs' o') PathSorts.ALPHABETICAL o.maxDepth k (ns.map fun n => under b' (rest ++ [n])) es') (hu : ∀ e ∈ es, Unmarked fs e) (hu' : ∀ e ∈ es', Unmarked fs' e)
    (hk : k = rest.length + 1) (hkD : (k : Int) ≤ o.maxDepth) (hsh : ∀ n ∈ ns, Shown fs o (under b []) (under b (rest ++ [n]))) : es' = mapPathsAll (relocate b b') es := by
  match ns, es, h, es', h' with
  | [], _, .nil, _, .nil => rfl
  | n :: ns, _, .cons (e := e) (es := es) h1 h2, _, .cons (e := e') (es := es') h1' h2' =>
    have hs := hsh n (.head _)
    have hs' := (hS _).1.1 hs
    have at1 : DisplayedAt fs o (under b []) k (under b (rest ++ [n])) := by
      obtain ⟨j, hj, -⟩ := hs
      obtain ⟨r, hr, hjr, -⟩ := displayed_inv hfs hj
      have := under_inj hr
      subst this
      rw [hjr] at hj
      simpa [hk] using hj
    have at2 : DisplayedAt fs' o' (under b' []) k (under b' (rest ++ [n])) := by
      obtain ⟨j, hj, -⟩ := hs'
      obtain ⟨r, hr, hjr, -⟩ := displayed_inv hfs' hj
      have := under_inj hr
      subst this
      rw [hjr] at hj
      simpa [hk] using hj
    rw [mapPathsAll, moved_of_shown hfs hfs' hl hl' hD hS h1 h1' (hu _ (.head _)) (hu' _ (.head _)) (by simp [hk]) at1 at2 (.inr hkD),
      moved_all_of_shown hfs hfs' hl hl' hD hS h2 h2' (fun e he => hu e (.tail _ he)) (fun e he => hu' e (.tail _ he)) hk hkD (fun n hn => hsh n (.tail _ hn))]
termination_by ((o.maxDepth - k).toNat, ns.length + 1)
end

/-! ### Paths and kinds of the entries -/

mutual
/-- The displayed paths, and whether they are displayed as directories. -/
def kinds : TreeEntry → List (Path × Bool)
  | .dir d es => (d, true) :: kindsAll es
  | .file p _ => [(p, false)]
  | .skipped _ => []
  | .maxDepth _ => []
/-- The same for lists. -/
def kindsAll : List TreeEntry → List (Path × Bool)
  | [] => []
  | e :: es => kinds e ++ kindsAll es
end

mutual
theorem kinds_paths (e : TreeEntry) : (kinds e).map Prod.fst = entryPaths e := by
  match e with
  | .dir d es =>
    have := kindsAll_paths es
    rw [kinds, List.map_cons, this]
    simp [entryPaths, events]
  | .file p a => simp [kinds, entryPaths, events]
  | .skipped p => simp [kinds, entryPaths, events]
  | .maxDepth p => simp [kinds, entryPaths, events]
theorem kindsAll_paths (es : List TreeEntry) : (kindsAll es).map Prod.fst = (eventsAll es).filterMap id := by
  match es with
  | [] => simp [kindsAll, eventsAll]
  | e :: es =>
    have h1 := kinds_paths e
    have h2 := kindsAll_paths es
    unfold entryPaths at h1
    rw [kindsAll, List.map_append, h1, h2, eventsAll, List.filterMap_append]
end

mutual
theorem kinds_map (f : Path → Path) (e : TreeEntry) : kinds (mapPaths f e) = (kinds e).map fun x => (f x.1, x.2) := by
  match e with
  | .dir d es => rw [mapPaths, kinds, kinds, kindsAll_map f es]; rfl
  | .file p a => simp [kinds, mapPaths]
  | .skipped p => simp [kinds, mapPaths]
  | .maxDepth p => simp [kinds, mapPaths]
theorem kindsAll_map (f : Path → Path) (es : List TreeEntry) : kindsAll (mapPathsAll f es) = (kindsAll es).map fun x => (f x.1, x.2) := by
  match es with
  | [] => simp [kindsAll, mapPathsAll]
  | e :: es => rw [mapPathsAll, kindsAll, kindsAll, kinds_map f e, kindsAll_map f es, List.map_append]
end

theorem kindsAll_append (l l' : List TreeEntry) : kindsAll (l ++ l') = kindsAll l ++ kindsAll l' := by
  induction l with
  | nil => rfl
  | cons e l ih => rw [List.cons_append, kindsAll, kindsAll, ih, List.append_assoc]

mutual
theorem kinds_scanned {c : Cmp} {D : Int} {k : Nat} {p : Path} {e : TreeEntry} (h : Scanned (answers fs o) c D k p e) : ∀ x ∈ kinds e, fs.isDir x.1 = x.2 := by
  cases h with
  | file h1 h2 =>
    intro x hx
    rw [kinds, List.mem_singleton] at hx
    subst hx
    exact h1
  | tooDeep h1 _ =>
    intro x hx
    simp only [kinds, kindsAll, List.append_nil, List.mem_singleton] at hx
    subst hx
    exact h1
  | @dir _ _ n cs ks srt es h1 hk h2 h3 h4 h5 h6 h7 =>
    intro x hx
    rw [kinds, kindsAll_append] at hx
    rcases List.mem_cons.1 hx with rfl | hx
    · exact h1
    · rcases List.mem_append.1 hx with hx | hx
      · exact kindsAll_scanned h7 x hx
      · rcases moreMark_cases n srt p with hm | hm <;> rw [hm] at hx <;> simp [kindsAll, kinds] at hx
termination_by ((D - k).toNat, 0)
decreasing_by exact Prod.Lex.left _ _ (by omega)
theorem kindsAll_scanned {c : Cmp} {D : Int} {k : Nat} {ps : List Path} {es : List TreeEntry} (h : ScannedAll (answers fs o) c D k ps es) : ∀ x ∈ kindsAll es, fs.isDir x.1 = x.2 := by
  match ps, es, h with
  | _, _, .nil => intro x hx; cases hx
  | _, _, .cons h1 h2 =>
    intro x hx
    rw [kindsAll] at hx
    rcases List.mem_append.1 hx with hx | hx
    · exact kinds_scanned h1 x hx
    · exact kindsAll_scanned h2 x hx
termination_by ((D - k).toNat, ps.length + 1)
end

/-- Entry trees that differ in the place only show the same. -/
theorem shown_of_moved {k k' : Nat} {c c' : Cmp} {D D' : Int} {p p' : Path} {t : TreeEntry} (hs : Scanned (answers fs o) c D k p t) (hs' : Scanned (answers fs' o') c' D' k' p' (mapPaths (relocate b b') t))
    (hu : ∀ q ∈ entryPaths t, ∃ r, q = under b r) (rest : List JStr) :
    (under b rest ∈ entryPaths t ↔ under b' rest ∈ entryPaths (mapPaths (relocate b b') t)) ∧ (under b rest ∈ entryPaths t → fs'.isDir (under b' rest) = fs.isDir (under b rest)) := by
  have h1 : ∀ d, (under b rest, d) ∈ kinds t → (under b' rest, d) ∈ kinds (mapPaths (relocate b b') t) := by
    intro d h
    rw [kinds_map, List.mem_map]
    exact ⟨_, h, by rw [relocate_under]⟩
  have h2 : under b rest ∈ entryPaths t → ∃ d, (under b rest, d) ∈ kinds t := by
    rw [← kinds_paths, List.mem_map]
    rintro ⟨⟨q, d⟩, hq, rfl⟩
    exact ⟨d, hq⟩
  refine ⟨⟨fun h => ?_, fun h => ?_⟩, fun h => ?_⟩
  · obtain ⟨d, hd⟩ := h2 h
    rw [← kinds_paths]
    exact List.mem_map.2 ⟨_, h1 d hd, rfl⟩
  · rw [← kinds_paths, kinds_map] at h
    obtain ⟨x, hx, hxe⟩ := List.mem_map.1 h
    obtain ⟨y, hy, rfl⟩ := List.mem_map.1 hx
    have hm : y.1 ∈ entryPaths t := by rw [← kinds_paths]; exact List.mem_map.2 ⟨y, hy, rfl⟩
    obtain ⟨r, hr⟩ := hu _ hm
    have hxe : relocate b b' y.1 = under b' rest := hxe
    rw [hr, relocate_under] at hxe
    rw [← under_inj hxe, ← hr]
    exact hm
  · obtain ⟨d, hd⟩ := h2 h
    rw [kinds_scanned hs _ hd, kinds_scanned hs' _ (h1 d hd)]

end Snapshot

variable {fs fs' : PureFs} {cwd cwd' p p' : Path} {o o' : Options (Except Exn)} {s s' : JStr}

/-- **C110**: two printed directories have the same text if and only if they have the same name and show the same relative paths, each of them a directory in both or in none. -/
theorem C110_snapshot (hw : cwd.abs = true) (hw' : cwd'.abs = true) (hfs : ProperFs fs) (hfs' : ProperFs fs') (ho : NamesInOrder o) (ho' : NamesInOrder o') (hst : SameStyle o o')
    (h : prettyPrint fs.lift cwd o p = .ok s) (h' : prettyPrint fs'.lift cwd' o' p' = .ok s')
    (hplain : ∀ q, Shown fs o (target cwd p) q → NL ∉ lastName q ∧ SLASH ∉ lastName q ∧ (fs.isDir q = false → fs.readAttrs q = some ⟨false, false⟩))
    (hplain' : ∀ q, Shown fs' o' (target cwd' p') q → NL ∉ lastName q ∧ SLASH ∉ lastName q ∧ (fs'.isDir q = false → fs'.readAttrs q = some ⟨false, false⟩))
    {w : Nat} (hf : TreeFormatOK o.treeFormat w) (hr : Readable o.treeFormat) (hnl : FormatNoNL o.treeFormat) :
    s = s' ↔ lastName (target cwd p) = lastName (target cwd' p') ∧ SameShown fs o (target cwd p).names fs' o' (target cwd' p').names := by
  obtain ⟨t, E, ht, hE, hs⟩ := prettyPrint_disp.1 h
  obtain ⟨t', E', ht', hE', hs'⟩ := prettyPrint_disp.1 h'
  have hc : LawfulCmp o.pathComparator := by rw [ho.order]; exact lawful_ALPHABETICAL
  have hc' : LawfulCmp o'.pathComparator := by rw [ho'.order]; exact lawful_ALPHABETICAL
  have hscan := scanned_sound hw hc ht
  have hscan' := scanned_sound hw' hc' ht'
  rw [ho.order] at hscan
  rw [ho'.order, hst.depth] at hscan'
  have hset := C06_display_set_to_depth hw hc ho.limit ht
  have hset' := C06_display_set_to_depth hw' hc' ho'.limit ht'
  have hab : target cwd p = under (target cwd p).names [] := by
    have := target_abs (p := p) hw
    generalize target cwd p = q at this
    obtain ⟨a, ns⟩ := q
    cases this
    simp [under]
  have hab' : target cwd' p' = under (target cwd' p').names [] := by
    have := target_abs (p := p') hw'
    generalize target cwd' p' = q at this
    obtain ⟨a, ns⟩ := q
    cases this
    simp [under]
  have hu : Snapshot.Unmarked fs t := fun q hq => (hplain q ((hset q).1 hq)).2.2
  have hu' : Snapshot.Unmarked fs' t' := fun q hq => (hplain' q ((hset' q).1 hq)).2.2
  generalize hb : (target cwd p).names = b at hab
  generalize hb' : (target cwd' p').names = b' at hab'
  rw [hab] at hscan hset hplain
  rw [hab'] at hscan' hset' hplain'
  have hunder : ∀ q ∈ entryPaths t, ∃ r, q = under b r := by
    intro q hq
    obtain ⟨k, hk, -⟩ := (hset q).1 hq
    obtain ⟨r, hr, -⟩ := Snapshot.displayed_inv hfs hk
    exact ⟨r, hr⟩
  have hnamed := dispM_ok_named _ _ _ hE
  have hnamed' := dispM_ok_named _ _ _ hE'
  constructor
  · intro he
    subst he
    have clean : ∀ (fs : PureFs) (t : TreeEntry), (∀ q ∈ entryPaths t, NL ∉ lastName q ∧ SLASH ∉ lastName q) → CleanNames t := by
      intro fs t h
      refine ⟨fun d es hb => ?_, fun q a hb => ?_⟩
      · obtain ⟨n, hn⟩ := hb.at
        exact (h d (mem_entryPaths.2 ⟨n, _, hn, rfl⟩)).symm
      · obtain ⟨n, hn⟩ := hb.at
        exact (h q (mem_entryPaths.2 ⟨n, _, hn, rfl⟩)).symm
    obtain ⟨t1, h1, h2⟩ := C23_text h w hf hr hnl ho.emoji (fun g hg => by rw [ho.ext] at hg; cases hg) (fun t1 h1 => clean fs t1 fun q hq => by
      rw [ht] at h1; cases h1
      exact ⟨(hplain q ((hset q).1 hq)).1, (hplain q ((hset q).1 hq)).2.1⟩)
    obtain ⟨t2, h3, h4⟩ := C23_text h' w (hst.format ▸ hf) (hst.format ▸ hr) (hst.format ▸ hnl) ho'.emoji (fun g hg => by rw [ho'.ext] at hg; cases hg) (fun t1 h1 => clean fs' t1 fun q hq => by
      rw [ht'] at h1; cases h1
      exact ⟨(hplain' q ((hset' q).1 hq)).1, (hplain' q ((hset' q).1 hq)).2.1⟩)
    rw [ht] at h1; cases h1
    rw [ht'] at h3; cases h3
    rw [hst.format, h2] at h4
    have hsk := Option.some.inj h4
    have hmv := Snapshot.moved_of_skeleton hfs hfs' ho.limit ho'.limit hscan hscan' hu hu' hsk
    refine ⟨by rw [hab, hab']; exact Snapshot.same_last hscan hscan' hu hu' hsk, fun rest => ?_⟩
    subst hmv
    have := Snapshot.shown_of_moved hscan hscan' hunder rest
    rw [hset, hset'] at this
    exact this
  · rintro ⟨hlast, hsh⟩
    have hmv := Snapshot.moved_of_shown hfs hfs' ho.limit ho'.limit hst.depth hsh hscan hscan' hu hu' rfl .top .top (.inl rfl)
    subst hmv
    have hne : b ≠ [] := by
      rw [← hb, hab]
      cases hscan with
      | file _ _ => exact hnamed
      | tooDeep _ _ => exact hnamed.1
      | dir _ _ _ _ _ _ _ _ => exact hnamed.1
    have hne' : b' ≠ [] := by
      have : (relocate b b' (under b [])).names ≠ [] := by
        cases hscan with
        | file _ _ => exact hnamed'
        | tooDeep _ _ => exact hnamed'.1
        | dir _ _ _ _ _ _ _ _ => exact hnamed'.1
      rw [relocate_under] at this
      simpa [under] using this
    have hsame : dispM (labelling o') true (mapPaths (relocate b b') t) = dispM (labelling o) true t := by
      refine dispM_map hst.compact true t ?_
      intro q hq
      obtain ⟨r, rfl⟩ := hunder q hq
      refine ⟨?_, ?_, ?_⟩
      · exact (ho'.emoji _).trans (ho.emoji _).symm
      · unfold labelling
        simp only [ho.ext, ho'.ext]
      · rw [relocate_under]
        cases r using List.reverseRecOn with
        | nil =>
          rw [hab, hab'] at hlast
          have e1 := OnePage.name_some (p := under b []) (by simpa [under] using hne)
          have e2 := OnePage.name_some (p := under b' []) (by simpa [under] using hne')
          rw [show OnePage.name (under b []) = lastName (under b []) from rfl] at e1
          rw [show OnePage.name (under b' []) = lastName (under b' []) from rfl] at e2
          rw [e1, e2, hlast]
        | append_singleton r n _ => simp [under]
    rw [hsame, hE] at hE'
    cases hE'
    rw [hs, hs', hst.format]

namespace Snapshot

theorem ordinary_lookup {n : JStr} {cs : List (JStr × Node)} (h : OrdinaryAll cs) {c : Node} (hc : Node.lookupChild n cs = some c) : (NL ∉ n ∧ SLASH ∉ n) ∧ Ordinary c := by
  induction cs with
  | nil => cases hc
  | cons x cs ih =>
    obtain ⟨k, v⟩ := x
    rw [OrdinaryAll] at h
    rw [Node.lookupChild] at hc
    split at hc
    · rename_i hk
      cases hc
      exact ⟨hk ▸ h.1, h.2.1⟩
    · exact ih h.2.2 hc

theorem ordinary_get {t u : Node} (h : Ordinary t) {ns : List JStr} (hu : t.get ns = some u) : Ordinary u ∧ ∀ n ∈ ns, NL ∉ n ∧ SLASH ∉ n := by
  induction ns generalizing t with
  | nil => rw [Node.get] at hu; cases hu; exact ⟨h, by simp⟩
  | cons n ns ih =>
    rw [Node.get.eq_def] at hu
    cases t with
    | dir r cs =>
      dsimp only at hu
      rw [Ordinary] at h
      split at hu
      · rename_i c hc
        obtain ⟨h1, h2⟩ := ordinary_lookup h.2 hc
        obtain ⟨h3, h4⟩ := ih h2 hu
        exact ⟨h3, fun m hm => by
          rcases List.mem_cons.1 hm with rfl | hm
          · exact h1
          · exact h4 m hm⟩
      · cases hu
    | regular _ => cases hu
    | special => cases hu
    | symlink _ => cases hu

theorem lookup_ne {n : JStr} {c : Node} {cs : List (JStr × Node)} (h : (n, c) ∈ cs) : Node.lookupChild n cs ≠ none := by
  induction cs with
  | nil => cases h
  | cons d cs ih =>
    obtain ⟨k, v⟩ := d
    rw [Node.lookupChild]
    split
    · simp
    · rename_i hk
      rcases List.mem_cons.1 h with h | h
      · cases h; exact absurd rfl hk
      · exact ih h

theorem mem_of_lookup {n : JStr} {c : Node} {cs : List (JStr × Node)} (h : Node.lookupChild n cs = some c) : (n, c) ∈ cs := by
  induction cs with
  | nil => cases h
  | cons d cs ih =>
    obtain ⟨k, v⟩ := d
    rw [Node.lookupChild] at h
    split at h
    · rename_i hk
      cases h
      exact hk ▸ .head _
    · exact .tail _ (ih h)

theorem get_append (t : Node) (ns ms : List JStr) : t.get (ns ++ ms) = (t.get ns).bind fun u => u.get ms := by
  induction ns generalizing t with
  | nil => rw [List.nil_append, Node.get]; rfl
  | cons n ns ih =>
    rw [List.cons_append, Node.get.eq_def, Node.get.eq_def t (n :: ns)]
    cases t with
    | dir r cs =>
      dsimp only
      cases Node.lookupChild n cs with
      | none => rfl
      | some c => exact ih c
    | regular _ => rfl
    | special => rfl
    | symlink _ => rfl

/-- The default options. -/
abbrev dflt : Options (Except Exn) := Options.createDefault

/-- On an ordinary disk everything within 20 levels is shown. -/
theorem shown_disk {disk : Node} (hd : disk.WF) (hO : Ordinary disk) {b : List JStr} (hb : (disk.get b).isSome) (rest : List JStr) :
    Shown disk.toFs dflt (under b []) (under b rest) ↔ rest.length ≤ 20 ∧ (disk.get (b ++ rest)).isSome := by
  constructor
  · rintro ⟨k, hk, hk'⟩
    obtain ⟨r, hr, hkr, h⟩ := displayed_inv hd.proper hk
    obtain rfl := under_inj hr
    refine ⟨?_, ?_⟩
    · rcases hk' with h0 | h0
      · omega
      · have h0 : (k : Int) ≤ 20 := h0
        omega
    · cases rest using List.reverseRecOn with
      | nil => simpa using hb
      | append_singleton r n _ =>
        obtain ⟨-, -, cs, h1, h2, -⟩ := h r n rfl
        have h1 : (match disk.at (under b r) with
          | some (.dir true cs) => Listing.opened (cs.map (fun c : JStr × Node => (under b r).child c.1)) false
          | _ => .openFailed) = .opened cs false := h1
        split at h1
        · rename_i l hat
          cases h1
          obtain ⟨x, hx, he⟩ := List.mem_map.1 h2
          rw [child_under] at he
          have : x.1 = n := by simpa using under_inj he
          have hat : disk.get (b ++ r) = some (.dir true l) := hat
          rw [← List.append_assoc, get_append, hat]
          show (Node.get (.dir true l) [n]).isSome
          have hl : Node.lookupChild n l ≠ none := lookup_ne (c := x.2) (by rw [← this]; exact hx)
          rw [Node.get.eq_def]
          dsimp only
          cases hc : Node.lookupChild n l with
          | none => exact absurd hc hl
          | some c => simp [Node.get]
        · cases h1
  · rintro ⟨h1, h2⟩
    have key : ∀ r : List JStr, (disk.get (b ++ r)).isSome → DisplayedAt disk.toFs dflt (under b []) r.length (under b r) := by
      intro r
      induction r using List.reverseRecOn with
      | nil => intro _; exact .top
      | append_singleton r n ih =>
        intro h
        rw [← List.append_assoc, get_append] at h
        cases hg : disk.get (b ++ r) with
        | none => rw [hg] at h; cases h
        | some u =>
          rw [hg] at h
          have ih := ih (by rw [hg]; rfl)
          cases u with
          | dir rd cs =>
            have ho := (ordinary_get hO hg).1
            rw [Ordinary] at ho
            obtain ⟨rfl, -⟩ := ho
            have hat : disk.at (under b r) = some (.dir true cs) := hg
            rw [List.length_append]
            refine .child ih (Recreate.disk_isDir hat) (Recreate.disk_list hat) ?_ (fun _ => rfl) (fun _ => rfl)
            rw [List.mem_map]
            have h : (Node.get (.dir true cs) [n]).isSome := h
            rw [Node.get.eq_def] at h
            dsimp only at h
            cases hc : Node.lookupChild n cs with
            | none => rw [hc] at h; cases h
            | some c =>
              exact ⟨(n, c), mem_of_lookup hc, child_under b r n⟩
          | regular _ => cases h
          | special => cases h
          | symlink _ => cases h
    refine ⟨rest.length, key rest h2, .inr ?_⟩
    show ((rest.length : Nat) : Int) ≤ 20
    omega

theorem isDir_disk (disk : Node) (b rest : List JStr) : disk.toFs.isDir (under b rest) = decide (kindAt disk (b ++ rest) = some true) := by
  show (match disk.get (b ++ rest) with | some (.dir _ _) => true | _ => false) = _
  unfold kindAt
  cases disk.get (b ++ rest) with
  | none => simp
  | some u => cases u <;> simp

theorem kindAt_isSome (disk : Node) (place : List JStr) : (kindAt disk place).isSome = (disk.get place).isSome := by
  unfold kindAt
  cases disk.get place <;> rfl

theorem attrs_disk {disk : Node} (hO : Ordinary disk) {b rest : List JStr} (h : (disk.get (b ++ rest)).isSome) : disk.toFs.readAttrs (under b rest) = some ⟨false, false⟩ := by
  show (match disk.follow 41 (under b rest) with
    | some (.regular _) => some (⟨false, false⟩ : Attrs)
    | some (.dir _ _) => some ⟨false, false⟩
    | some .special => some ⟨false, true⟩
    | some (.symlink _) => some ⟨true, false⟩
    | none => none) = _
  rw [Node.follow]
  cases hg : disk.get (b ++ rest) with
  | none => rw [hg] at h; cases h
  | some u =>
    have hat : disk.at (under b rest) = some u := hg
    have ho := (ordinary_get hO hg).1
    rw [hat]
    cases u with
    | regular _ => rfl
    | dir _ _ => rfl
    | special => rw [Ordinary] at ho; exact ho.elim; all_goals simp
    | symlink _ => rw [Ordinary] at ho; exact ho.elim; all_goals simp

theorem under_of_abs {q : Path} (h : q.abs = true) : q = under q.names [] := by
  obtain ⟨a, ns⟩ := q
  cases h
  simp [under]

/-- The printed path exists. -/
theorem exists_of_printed {disk : Node} {cwd p : Path} (hw : cwd.abs = true) {s : JStr} (h : prettyPrint disk.toFs.lift cwd dflt p = .ok s) : (disk.get (target cwd p).names).isSome := by
  obtain ⟨t, E, ht, -, -⟩ := prettyPrint_disp.1 h
  have hscan := scanned_sound hw lawful_ALPHABETICAL ht
  have hdir : ∀ q, disk.toFs.isDir q = true → (disk.get q.names).isSome := by
    intro q hq
    have hq : (match disk.get q.names with | some (.dir _ _) => true | _ => false) = true := hq
    split at hq
    · rename_i hg; rw [hg]; rfl
    · cases hq
  cases hscan with
  | file _ h2 =>
    have h2 : (match disk.follow 41 (target cwd p) with
      | some (.regular _) => some (⟨false, false⟩ : Attrs)
      | some (.dir _ _) => some ⟨false, false⟩
      | some .special => some ⟨false, true⟩
      | some (.symlink _) => some ⟨true, false⟩
      | none => none) = some _ := h2
    rw [Node.follow] at h2
    cases hg : disk.get (target cwd p).names with
    | some _ => rfl
    | none =>
      have hat : disk.at (target cwd p) = none := hg
      rw [hat] at h2
      cases h2
  | tooDeep h1 _ => exact hdir _ h1
  | dir h1 _ _ _ _ _ _ _ => exact hdir _ h1

theorem plain_disk {disk : Node} (hd : disk.WF) (hO : Ordinary disk) {cwd p : Path} (hw : cwd.abs = true) (he : (disk.get (target cwd p).names).isSome) :
    ∀ q, Shown disk.toFs dflt (target cwd p) q → NL ∉ lastName q ∧ SLASH ∉ lastName q ∧ (disk.toFs.isDir q = false → disk.toFs.readAttrs q = some ⟨false, false⟩) := by
  intro q hq
  rw [under_of_abs (target_abs (p := p) hw)] at hq
  obtain ⟨k, hk, -⟩ := id hq
  obtain ⟨r, rfl, -⟩ := displayed_inv hd.proper hk
  have hsome := ((shown_disk hd hO he r).1 hq).2
  obtain ⟨u, hu⟩ := Option.isSome_iff_exists.1 hsome
  have hn := (ordinary_get hO hu).2
  have hlast : NL ∉ lastName (under (target cwd p).names r) ∧ SLASH ∉ lastName (under (target cwd p).names r) := by
    by_cases h0 : (target cwd p).names ++ r = []
    · unfold lastName under
      rw [h0]
      simp
    · exact hn _ (List.mem_of_getLast? (OnePage.name_some (p := under (target cwd p).names r) h0))
  exact ⟨hlast.1, hlast.2, fun _ => attrs_disk hO hsome⟩

end Snapshot

/-- **C110** on disks with regular files and readable directories only, for the default options: two printed directories have the same text if and only if they have the same name, and
the same files and directories within 20 levels. -/
theorem C110_disk {disk disk' : Node} (hd : disk.WF) (hd' : disk'.WF) (hO : Ordinary disk) (hO' : Ordinary disk') (hw : cwd.abs = true) (hw' : cwd'.abs = true)
    (h : prettyPrint disk.toFs.lift cwd (Options.createDefault (m := Except Exn)) p = .ok s) (h' : prettyPrint disk'.toFs.lift cwd' (Options.createDefault (m := Except Exn)) p' = .ok s') :
    s = s' ↔ lastName (target cwd p) = lastName (target cwd' p') ∧ ∀ rest, rest.length ≤ 20 → kindAt disk ((target cwd p).names ++ rest) = kindAt disk' ((target cwd' p').names ++ rest) := by
  have he := Snapshot.exists_of_printed hw h
  have he' := Snapshot.exists_of_printed hw' h'
  have hN : NamesInOrder (Options.createDefault (m := Except Exn)) := ⟨rfl, fun _ n h => by cases h; decide, fun _ => rfl, rfl⟩
  rw [C110_snapshot hw hw' hd.proper hd'.proper hN hN ⟨rfl, rfl, rfl⟩ h h' (Snapshot.plain_disk hd hO hw he) (Snapshot.plain_disk hd' hO' hw' he') Recreate.unicode.1 Recreate.unicode.2.1 Recreate.unicode.2.2]
  refine and_congr_right fun _ => ?_
  unfold SameShown
  refine forall_congr' fun rest => ?_
  rw [Snapshot.shown_disk hd hO he, Snapshot.shown_disk hd' hO' he', Snapshot.isDir_disk, Snapshot.isDir_disk, ← Snapshot.kindAt_isSome, ← Snapshot.kindAt_isSome]
  generalize kindAt disk ((target cwd p).names ++ rest) = x
  generalize kindAt disk' ((target cwd' p').names ++ rest) = y
  by_cases hl : rest.length ≤ 20
  · rcases x with _ | _ | _ <;> rcases y with _ | _ | _ <;> simp [hl]
  · simp [hl]

namespace Snapshot

/-- The directory `/r` of `Recreate.plain` in another place, with another order and other sizes. -/
def elsewhere : Node := .dir true [(j!"tmp", .dir true [(j!"r", .dir true [(j!"a", .dir true [(j!"x", .regular 7), (j!"y", .regular 0)]), (j!"b.txt", .regular 9)])])]

/-- The same, but `b.txt` is a directory. -/
def other : Node := .dir true [(j!"r", .dir true [(j!"a", .dir true [(j!"x", .regular 7), (j!"y", .regular 0)]), (j!"b.txt", .dir true [])])]

theorem elsewhere_wf : elsewhere.WF := by simp [elsewhere, Node.WF, Node.WFAll]
theorem other_wf : other.WF := by simp [other, Node.WF, Node.WFAll]
theorem plain_ordinary : Ordinary Recreate.plain := by simp [Recreate.plain, Ordinary, OrdinaryAll, NL, SLASH]
theorem elsewhere_ordinary : Ordinary elsewhere := by simp [elsewhere, Ordinary, OrdinaryAll, NL, SLASH]
theorem other_ordinary : Ordinary other := by simp [other, Ordinary, OrdinaryAll, NL, SLASH]

/-- Both print, with the same text: so they have the same files and directories. -/
example : ∀ rest : List JStr, rest.length ≤ 20 → kindAt Recreate.plain ([j!"r"] ++ rest) = kindAt elsewhere ([j!"tmp", j!"r"] ++ rest) :=
  have h : prettyPrint Recreate.plain.toFs.lift Path.root (Options.createDefault (m := Except Exn)) Demo.r = .ok j!"r/\n├─ a/\n│  ├─ x\n│  └─ y\n└─ b.txt" :=
    (C100_default Recreate.plain_wf rfl _ _).2 (by decide)
  have h' : prettyPrint elsewhere.toFs.lift Path.root (Options.createDefault (m := Except Exn)) ⟨true, [j!"tmp", j!"r"]⟩ = .ok j!"r/\n├─ a/\n│  ├─ x\n│  └─ y\n└─ b.txt" :=
    (C100_default elsewhere_wf rfl _ _).2 (by decide)
  ((C110_disk Recreate.plain_wf elsewhere_wf plain_ordinary elsewhere_ordinary rfl rfl h h').1 rfl).2

/-- A directory in the place of a file is seen. -/
example {s s' : JStr} (h : prettyPrint Recreate.plain.toFs.lift Path.root (Options.createDefault (m := Except Exn)) Demo.r = .ok s)
    (h' : prettyPrint other.toFs.lift Path.root (Options.createDefault (m := Except Exn)) Demo.r = .ok s') : s ≠ s' := fun e =>
  absurd (((C110_disk Recreate.plain_wf other_wf plain_ordinary other_ordinary rfl rfl h h').1 e).2 [j!"b.txt"] (by decide)) (by decide)

/-- A fifo `a`. -/
def pipe : Node := .dir true [(j!"r", .dir true [(j!"a", .special)])]
/-- A file `a?`. -/
def noPipe : Node := .dir true [(j!"r", .dir true [(j!"a?", .regular 0)])]

end Snapshot

/-- **C110** needs that displayed files are not special: a fifo `a` and a file `a?` have the same text. -/
theorem C110_marks_needed : ∃ (disk disk' : Node) (p : Path) (s : JStr), disk.WF ∧ disk'.WF ∧ prettyPrint disk.toFs.lift Path.root (Options.createDefault (m := Except Exn)) p = .ok s ∧
    prettyPrint disk'.toFs.lift Path.root (Options.createDefault (m := Except Exn)) p = .ok s ∧ kindAt disk (p.names ++ [j!"a"]) = some false ∧ kindAt disk' (p.names ++ [j!"a"]) = none := by
  have h1 : Snapshot.pipe.WF := by simp [Snapshot.pipe, Node.WF, Node.WFAll]
  have h2 : Snapshot.noPipe.WF := by simp [Snapshot.noPipe, Node.WF, Node.WFAll]
  exact ⟨Snapshot.pipe, Snapshot.noPipe, Demo.r, j!"r/\n└─ a?", h1, h2, (C100_default h1 rfl _ _).2 (by decide), (C100_default h2 rfl _ _).2 (by decide), by decide, by decide⟩

end JFTP
