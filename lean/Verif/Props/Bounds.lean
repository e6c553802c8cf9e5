import Verif.Props.Kinds
import Verif.Spec.Prune

/-!
C63, C64: size of the output; stricter filters.
-/

namespace JFTP
open Spec

/-! ### C63 -/

theorem eventsAll_append (es es' : List TreeEntry) : eventsAll (es ++ es') = eventsAll es ++ eventsAll es' := by
  induction es with
  | nil => simp [eventsAll]
  | cons e es ih => simp [eventsAll, ih]

/-- `2 + N * (2 + N * (… 2))` -/
def Spec.sizeBound (N : Nat) : Nat → Nat
  | 0 => 2
  | j + 1 => 2 + N * sizeBound N j

theorem sizeBound_eq (N j : Nat) : sizeBound N j = 2 * ((List.range (j + 1)).map (N ^ ·)).sum := by
  induction j with
  | zero => simp [sizeBound]
  | succ j ih =>
    rw [sizeBound, ih, List.range_succ_eq_map (n := j + 1), List.map_cons, List.sum_cons, List.map_map]
    have : ∀ l : List Nat, (l.map ((N ^ ·) ∘ Nat.succ)).sum = N * (l.map (N ^ ·)).sum := by
      intro l
      induction l with
      | nil => simp
      | cons a l ih => simp only [List.map_cons, List.sum_cons, ih, Function.comp, Nat.pow_succ, Nat.mul_add]; rw [Nat.mul_comm]
    rw [this]
    simp only [Nat.pow_zero]
    rw [Nat.mul_add, ← Nat.mul_assoc, ← Nat.mul_assoc, Nat.mul_comm N 2]

theorem sizeBound_pos (N j : Nat) : 2 ≤ sizeBound N j := by
  cases j <;> simp [sizeBound]

section
variable {A : Answers} {c : Cmp} {M : Int} {N : Nat}

mutual
theorem Spec.Scanned.size (hA : ∀ p n, A.limit p n → 0 ≤ n ∧ n ≤ N) {k : Nat} {p : Path} {e : TreeEntry} (h : Scanned A c M k p e) :
    (events e).length ≤ sizeBound N (M - k).toNat := by
  match h with
  | .file _ _ => have := sizeBound_pos N (M - k).toNat; simp only [events, List.length_singleton]; omega
  | .tooDeep _ _ => have := sizeBound_pos N (M - k).toNat; simp only [events, eventsAll, List.length_cons, List.length_append, List.length_nil]; omega
  | .dir (n := n) (srt := srt) _ hk hl _ _ _ _ hes =>
    have ih := Spec.ScannedAll.size hA hes
    obtain ⟨h0, hn⟩ := hA _ _ hl
    have hj : (M - k).toNat = (M - (k + 1 : Nat)).toNat + 1 := by omega
    rw [hj, sizeBound, events, eventsAll_append]
    have h1 : (limitTo n srt).length ≤ N := by
      unfold limitTo
      rw [if_neg (by omega)]
      have := List.length_take_le n.toNat srt
      omega
    have h2 : (eventsAll (moreMark n srt p)).length ≤ 1 := by
      unfold moreMark
      split <;> simp [eventsAll, events]
    have h3 := Nat.mul_le_mul_right (sizeBound N (M - (k + 1 : Nat)).toNat) h1
    simp only [List.length_cons, List.length_append]
    omega
theorem Spec.ScannedAll.size (hA : ∀ p n, A.limit p n → 0 ≤ n ∧ n ≤ N) {k : Nat} {ps : List Path} {es : List TreeEntry} (h : ScannedAll A c M k ps es) :
    (eventsAll es).length ≤ ps.length * sizeBound N (M - k).toNat := by
  match h with
  | .nil => simp [eventsAll]
  | .cons h hs =>
    have h1 := Spec.Scanned.size hA h
    have h2 := Spec.ScannedAll.size hA hs
    simp only [eventsAll, List.length_append, List.length_cons, Nat.succ_mul]
    omega
end
end

section
variable {fs : PureFs} {cwd : Path} {o : Options (Except Exn)} {p : Path} {s : JStr}

theorem shows_nonempty {L : Look} {t : TreeEntry} {T : ITree} (h : ShowsTop L t T) {x : Nat × Item} (hx : x ∈ T.items 0) : 1 ≤ x.2.shows.length := by
  cases hi : x.2 with
  | file q a => simp [Item.shows]
  | more => simp [Item.shows]
  | dirs ds last =>
    have := last_mem h hx hi
    cases ds with
    | nil => cases this
    | cons d ds => simp [Item.shows]

/-- **C63**: the child limit and the max depth bound the size of the output, whatever the size of the tree: if no directory has a negative or a larger limit than `n`, the returned text
has at most `2 · (1 + n + n² + … + n^d)` lines, `d` being the max depth. -/
theorem C63_bound (hw : cwd.abs = true) (hc : LawfulCmp o.pathComparator) (h : prettyPrint fs.lift cwd o p = .ok s) (hf : FormatNoNL o.treeFormat)
    (hcl : ∀ t, scanned fs cwd o p = .ok t → CleanText o t) (n : Nat) (hn : ∀ q k, o.childLimit q = .ok k → 0 ≤ k ∧ k ≤ n) :
    (linesOf s).length ≤ 2 * ((List.range (o.maxDepth.toNat + 1)).map (n ^ ·)).sum := by
  obtain ⟨t, T, ht, hT, hlen, _⟩ := C02_text_lines h hf hcl
  have h1 := (scanned_sound hw hc ht).size (N := n) (fun q k hq => hn q k hq)
  rw [← sizeBound_eq, hlen, ← itemsLength]
  have h2 := hT.events 0
  have h3 : (T.items 0).length ≤ ((T.items 0).flatMap (fun x => x.2.shows)).length := by
    have : ∀ l : List (Nat × Item), (∀ x ∈ l, 1 ≤ x.2.shows.length) → l.length ≤ (l.flatMap (fun x => x.2.shows)).length := by
      intro l
      induction l with
      | nil => simp
      | cons a l ih =>
        intro h
        simp only [List.flatMap_cons, List.length_append, List.length_cons]
        have := ih (fun x hx => h x (List.mem_cons_of_mem _ hx))
        have := h a List.mem_cons_self
        omega
    exact this _ (fun x hx => shows_nonempty hT hx)
  rw [h2] at h3
  have : (o.maxDepth - (0 : Nat)).toNat = o.maxDepth.toNat := by simp
  rw [this] at h1
  omega

end

/-- The text of the demo disk with limits 1 and 2: five lines. -/
theorem Demo.printed_limited : prettyPrint Demo.dfs.lift Path.root Demo.limited Demo.r =
    .ok (joinLines [j!"r/", j!"├─ a/", j!"│  ├─ x", j!"│  └─ ...", j!"├─ b.txt", j!"└─ ..."]) := by
  rw [C01_text_returned Demo.scanned_limited (by simp [Named, NamedAll, r, a, x, y, b, z]) (fun _ _ => ⟨⟨none, rfl⟩, fun g hg => by cases hg⟩)
    (.dir (.cons (.dir (.stop (fun c ces h => by simp [Mergeable] at h)) (.cons .file (.cons .skipped .nil))) (.cons .file (.cons .skipped .nil))))]
  rfl

/-- Example: at most `2 · (1 + 2 + … + 2^20)` lines. -/
example := C63_bound (o := Demo.limited) rfl lawful_ALPHABETICAL Demo.printed_limited builtin_formats_noNL.1
  (fun t ht => by
    rw [Demo.scanned_limited] at ht
    cases ht
    refine ⟨?_, fun _ _ _ h => (by cases h), fun _ _ _ h => (by cases h)⟩
    simp [entryPaths, events, eventsAll, lastName, Demo.r, Demo.a, Demo.b, Demo.x]) 2
  (fun q k h => by
    have h := Except.ok.inj h
    split at h <;> subst h <;> decide)

/-! ### C64 -/

namespace Spec

mutual
theorem prune_sublist (keep : Path → Bool) (e : TreeEntry) : (events (prune keep e)).Sublist (events e) := by
  match e with
  | .dir d es => rw [prune, events, events]; exact (pruneAll_sublist keep es).cons_cons _
  | .file p a => exact .refl _
  | .skipped p => exact .refl _
  | .maxDepth n => exact .refl _
theorem pruneAll_sublist (keep : Path → Bool) (es : List TreeEntry) : (eventsAll (pruneAll keep es)).Sublist (eventsAll es) := by
  match es with
  | [] => exact .refl _
  | e :: es =>
    rw [pruneAll]
    split
    · rw [eventsAll, eventsAll]; exact (prune_sublist keep e).append (pruneAll_sublist keep es)
    · rw [eventsAll]; exact (pruneAll_sublist keep es).trans (List.sublist_append_right _ _)
end

theorem kept_total {fs : PureFs} {o : Options (Except Exn)} (h : ∀ q, ∃ b, (if fs.isDir q = true then o.dirMatcher q else o.fileMatcher q) = .ok b) (cs : List Path) :
    Kept (answers fs o) cs (cs.filter (passes fs o)) := by
  induction cs with
  | nil => exact .nil
  | cons c cs ih =>
    obtain ⟨b, hb⟩ := h c
    have hp : passes fs o c = b := by unfold passes; rw [hb]
    cases b with
    | true => rw [List.filter_cons_of_pos hp]; exact .keep hb ih
    | false => rw [List.filter_cons_of_neg (by rw [hp]; simp)]; exact .drop hb ih

section
variable {fs : PureFs} {o o' : Options (Except Exn)}

theorem Stricter.total (h : Stricter o o') (q : Path) : ∃ b, (if fs.isDir q = true then o'.dirMatcher q else o'.fileMatcher q) = .ok b := by
  split
  · rcases h.dirs q with h | h
    · exact ⟨_, h⟩
    · exact ⟨_, h.1⟩
  · rcases h.files q with h | h
    · exact ⟨_, h⟩
    · exact ⟨_, h.1⟩

theorem Stricter.passes (h : Stricter o o') (q : Path) (hq : passes fs o' q = true) : passes fs o q = true := by
  revert hq
  unfold Spec.passes
  cases fs.isDir q
  case true =>
    simp only [if_true]
    rcases h.dirs q with h | h
    · rw [h]; intro h; cases h
    · rw [h.1, h.2]; exact id
  case false =>
    simp only [Bool.false_eq_true, if_false]
    rcases h.files q with h | h
    · rw [h]; intro h; cases h
    · rw [h.1, h.2]; exact id

mutual
theorem Scanned.prune (hs : Stricter o o') (hl : o'.childLimit = o.childLimit) (hu : ∀ q n, o.childLimit q = .ok n → n < 0) {c : Cmp} {M : Int} {k : Nat} {p : Path} {e : TreeEntry}
    (h : Scanned (answers fs o) c M k p e) : Scanned (answers fs o') c M k p (prune (passes fs o') e) := by
  match h with
  | .file hd ha => exact .file hd ha
  | .tooDeep hd hk => exact .tooDeep hd hk
  | .dir (n := n) (cs := cs) (ks := ks) (srt := srt) (es := es) hd hk hn hcs hks hp hsrt hes =>
    have hneg : n < 0 := hu _ _ hn
    have hm : moreMark n srt p = [] := by unfold moreMark; rw [if_neg (by omega)]
    have hm' : moreMark n (srt.filter (Spec.passes fs o')) p = [] := by unfold moreMark; rw [if_neg (by omega)]
    have hlt : limitTo n srt = srt := by unfold limitTo; rw [if_pos hneg]
    have hlt' : limitTo n (srt.filter (Spec.passes fs o')) = srt.filter (Spec.passes fs o') := by unfold limitTo; rw [if_pos hneg]
    have ih := ScannedAll.prune hs hl hu hes
    rw [hlt] at ih
    rw [hm, List.append_nil, Spec.prune]
    have hdir := Scanned.dir (A := answers fs o') (c := c) (maxDepth := M) (k := k) (p := p) (n := n) (cs := cs) (ks := cs.filter (Spec.passes fs o'))
      (srt := srt.filter (Spec.passes fs o')) (es := pruneAll (Spec.passes fs o') es) hd hk (by show o'.childLimit p = _; rw [hl]; exact hn) hcs
      (kept_total hs.total cs) ?_ (hsrt.filter _) (by rw [hlt']; exact ih)
    · rw [hm', List.append_nil] at hdir; exact hdir
    · have := hp.filter (Spec.passes fs o')
      rw [kept_filter hks, List.filter_filter] at this
      rw [show cs.filter (fun a => Spec.passes fs o' a && Spec.passes fs o a) = cs.filter (Spec.passes fs o') from
        List.filter_congr (fun q _ => by
          cases hq : Spec.passes fs o' q with
          | false => rfl
          | true => rw [hs.passes q hq]; rfl)] at this
      exact this
theorem ScannedAll.prune (hs : Stricter o o') (hl : o'.childLimit = o.childLimit) (hu : ∀ q n, o.childLimit q = .ok n → n < 0) {c : Cmp} {M : Int} {k : Nat} {ps : List Path}
    {es : List TreeEntry} (h : ScannedAll (answers fs o) c M k ps es) :
    ScannedAll (answers fs o') c M k (ps.filter (Spec.passes fs o')) (pruneAll (Spec.passes fs o') es) := by
  match h with
  | .nil => exact .nil
  | .cons (p := q) (e := e) h hs' =>
    have ih := ScannedAll.prune hs hl hu hs'
    have h1 := Scanned.prune hs hl hu h
    have hk : keeps (Spec.passes fs o') e = Spec.passes fs o' q := by
      unfold keeps
      rw [h.entryPath_eq]
    rw [pruneAll, hk]
    cases hq : Spec.passes fs o' q with
    | true => rw [List.filter_cons_of_pos hq, if_pos rfl]; exact .cons h1 ih
    | false => rw [List.filter_cons_of_neg (by rw [hq]; simp), if_neg (by simp)]; exact ih
end
end
end Spec

section
variable {fs : PureFs} {cwd : Path} {o : Options (Except Exn)} {p : Path} {s s' : JStr}

/-- **C64**: without child limits, replacing the filters by stricter ones removes from the displayed tree exactly the entries the new filters reject, with everything below them; nothing else
changes, and the scan still succeeds. -/
theorem C64_prune (hw : cwd.abs = true) (hc : LawfulCmp o.pathComparator) (hd : DistinguishesAll o.pathComparator fs) (hu : ∀ q n, o.childLimit q = .ok n → n < 0)
    (dm fm : Matcher (Except Exn)) (hs : Stricter o ((o.filterDirectories dm).filterFiles fm)) {t : TreeEntry} (h : scanned fs cwd o p = .ok t) :
    scanned fs cwd ((o.filterDirectories dm).filterFiles fm) p = .ok (prune (passes fs ((o.filterDirectories dm).filterFiles fm)) t) :=
  scanned_complete (o := (o.filterDirectories dm).filterFiles fm) hw hc hd ((scanned_sound hw hc h).prune hs rfl hu)

/-- **C64** on the returned texts: the entries shown by the second are a subsequence of those shown by the first. -/
theorem C64_text (hw : cwd.abs = true) (hc : LawfulCmp o.pathComparator) (hd : DistinguishesAll o.pathComparator fs) (hu : ∀ q n, o.childLimit q = .ok n → n < 0)
    (dm fm : Matcher (Except Exn)) (hs : Stricter o ((o.filterDirectories dm).filterFiles fm)) (h : prettyPrint fs.lift cwd o p = .ok s)
    (h' : prettyPrint fs.lift cwd ((o.filterDirectories dm).filterFiles fm) p = .ok s') :
    ∃ t T t' T', scanned fs cwd o p = .ok t ∧ Prints o t T s ∧ scanned fs cwd ((o.filterDirectories dm).filterFiles fm) p = .ok t' ∧
      Prints ((o.filterDirectories dm).filterFiles fm) t' T' s' ∧ t' = prune (passes fs ((o.filterDirectories dm).filterFiles fm)) t ∧ (entryPaths t').Sublist (entryPaths t) := by
  obtain ⟨t, T, ht, hp⟩ := printed h
  obtain ⟨t', T', ht', hp'⟩ := printed h'
  have := C64_prune hw hc hd hu dm fm hs ht
  rw [this] at ht'
  cases ht'
  exact ⟨t, T, _, T', ht, hp, this, hp', rfl, (prune_sublist _ t).filterMap _⟩

end

/-- Demo: no directories. -/
def Demo.noDirs : Options (Except Exn) := (Demo.dflt.filterDirectories (fun _ => pure false)).filterFiles (fun _ => pure true)

theorem Demo.noDirs_stricter : Stricter Demo.dflt Demo.noDirs := ⟨fun _ => .inl rfl, fun _ => .inr ⟨rfl, rfl⟩⟩

/-- Example: `/r/{a/{x, y}, b.txt, z}` without directories is `/r/{b.txt, z}`. -/
example : scanned Demo.dfs Path.root Demo.noDirs Demo.r = .ok (.dir Demo.r [.file Demo.b ⟨false, false⟩, .file Demo.z ⟨false, true⟩]) :=
  C64_prune (o := Demo.dflt) rfl lawful_ALPHABETICAL Demo.distinguishes (fun q n h => by cases h; decide) _ _ Demo.noDirs_stricter Demo.scanned_found

/-- **C64** needs the absence of child limits: with a limit of 1 a stricter filter makes an entry appear that was not shown before. -/
theorem C64_limit_needed : ∃ (o : Options (Except Exn)) (dm : Matcher (Except Exn)) (t t' : TreeEntry) (q : Path),
    (∀ q, o.dirMatcher q = .ok true) ∧ o.childLimit = (fun _ => .ok 1) ∧ scanned Demo.dfs Path.root o Demo.r = .ok t ∧
    scanned Demo.dfs Path.root (o.filterDirectories dm) Demo.r = .ok t' ∧ q ∈ entryPaths t' ∧ q ∉ entryPaths t := by
  refine ⟨Demo.dflt.withChildLimit 1, fun _ => .ok false, .dir Demo.r [.dir Demo.a [.file Demo.x ⟨false, false⟩, .skipped Demo.a], .skipped Demo.r],
    .dir Demo.r [.file Demo.b ⟨false, false⟩, .skipped Demo.r], Demo.b, fun _ => rfl, rfl, ?_, ?_, by decide, by decide⟩
  · refine scanned_complete rfl lawful_ALPHABETICAL Demo.distinguishes ?_
    refine Scanned.dir (A := answers Demo.dfs (Demo.dflt.withChildLimit 1)) (c := PathSorts.ALPHABETICAL) (maxDepth := 20) (k := 0) (p := Demo.r) (n := 1)
      (cs := [Demo.b, Demo.a, Demo.z]) (ks := [Demo.b, Demo.a, Demo.z]) (srt := [Demo.a, Demo.b, Demo.z])
      (es := [.dir Demo.a [.file Demo.x ⟨false, false⟩, .skipped Demo.a]])
      rfl (by decide) rfl rfl (.keep rfl (.keep rfl (.keep rfl .nil))) (by decide) (by decide) ?_
    refine .cons ?_ .nil
    exact Scanned.dir (A := answers Demo.dfs (Demo.dflt.withChildLimit 1)) (c := PathSorts.ALPHABETICAL) (maxDepth := 20) (k := 1) (p := Demo.a) (n := 1)
      (cs := [Demo.y, Demo.x]) (ks := [Demo.y, Demo.x]) (srt := [Demo.x, Demo.y]) (es := [.file Demo.x ⟨false, false⟩])
      rfl (by decide) rfl rfl (.keep rfl (.keep rfl .nil)) (by decide) (by decide) (.cons (.file rfl rfl) .nil)
  · refine scanned_complete (o := (Demo.dflt.withChildLimit 1).filterDirectories (fun _ => .ok false)) rfl lawful_ALPHABETICAL Demo.distinguishes ?_
    exact Scanned.dir (A := answers Demo.dfs ((Demo.dflt.withChildLimit 1).filterDirectories (fun _ => .ok false))) (c := PathSorts.ALPHABETICAL) (maxDepth := 20) (k := 0) (p := Demo.r) (n := 1)
      (cs := [Demo.b, Demo.a, Demo.z]) (ks := [Demo.b, Demo.z]) (srt := [Demo.b, Demo.z])
      (es := [.file Demo.b ⟨false, false⟩])
      rfl (by decide) rfl rfl (.keep rfl (.drop rfl (.keep rfl .nil))) (by decide) (by decide) (.cons (.file rfl rfl) .nil)

end JFTP
