import Verif.Lemmas.TimSorted
import Verif.Props.World

/-!
C71: sorting with comparators that read the file system, have side effects, break their contract or throw.
-/

namespace JFTP
open Spec

namespace Sorting71

section
variable {m : Type → Type} [Monad m] [LawfulMonad m] [MonadExceptOf Exn m]

theorem children_lawful {sort : List Path → SortRun (List Path)} (hs : ∀ l, Sorts (sort l) l) (o : ScanOpts m) (hc : LawfulCmp o.pathComparator) (visit : Path → m TreeEntry) (dir : Path)
    (cs : List Path) (bad : Bool) :
    LiveScanner.handleDirectoryChildren sort (fun a b => pure (o.pathComparator a b)) o visit dir cs bad = Scanner.handleDirectoryChildren o visit dir cs bad := by
  unfold LiveScanner.handleDirectoryChildren Scanner.handleDirectoryChildren
  simp only [exec_lawful (hs _) hc, pure_bind]

theorem handle_lawful {sort : List Path → SortRun (List Path)} (hs : ∀ l, Sorts (sort l) l) (fs : Fs m) (o : ScanOpts m) (hc : LawfulCmp o.pathComparator) (k : Nat) (p : Path) :
    LiveScanner.handle sort (fun a b => pure (o.pathComparator a b)) fs o k p = Scanner.handle fs o k p := by
  rw [LiveScanner.handle, Scanner.handle]
  refine bind_congr fun b => ?_
  split
  · split
    · rfl
    · have ih : (fun q => LiveScanner.handle sort (fun a b => pure (o.pathComparator a b)) fs o (k + 1) q) = fun q => Scanner.handle fs o (k + 1) q :=
        funext fun q => handle_lawful hs fs o hc (k + 1) q
      unfold LiveScanner.handleDirectory Scanner.handleDirectory
      refine bind_congr fun r => ?_
      cases r with
      | openFailed => rfl
      | opened cs bad => simp only [ih, children_lawful hs o hc]
  · rfl
termination_by (o.maxDepth - k).toNat
decreasing_by omega

end

/-- The comparator in the options is not used. -/
theorem handle_own {m : Type → Type} [Monad m] [LawfulMonad m] [MonadExceptOf Exn m] (sort : List Path → SortRun (List Path)) (c : CmpM m) (fs : Fs m) (o : ScanOpts m) (d : Cmp) (k : Nat) (p : Path) :
    LiveScanner.handle sort c fs { o with pathComparator := d } k p = LiveScanner.handle sort c fs o k p := by
  rw [LiveScanner.handle, LiveScanner.handle]
  refine bind_congr fun b => ?_
  split
  · dsimp only
    split
    · rfl
    · have ih : (fun q => LiveScanner.handle sort c fs { o with pathComparator := d } (k + 1) q) = fun q => LiveScanner.handle sort c fs o (k + 1) q :=
        funext fun q => handle_own sort c fs o d (k + 1) q
      rw [ih]
      rfl
  · rfl
termination_by (o.maxDepth - k).toNat
decreasing_by omega

/-! ### Postconditions -/

section
variable {m : Type → Type} [Monad m] [MonadExceptOf Exn m] [PostMonad m]
open PostMonad

/-- The comparator that never distinguishes. -/
def anyOrder : Cmp := fun _ _ => 0

theorem post_exec {α : Type} (c : CmpM m) (hc : ∀ a b, Post (c a b) (fun _ => True)) {P : α → Prop} (r : SortRun α) (h : ∀ x, MayReturn r x → P x) : Post (r.exec c) P := by
  induction r with
  | done a => exact PostMonad.pure (h a .done)
  | fail => exact PostMonad.throw
  | crash => exact PostMonad.throw
  | ask a b next ih => exact PostMonad.bind (hc a b) (fun n _ => ih n (fun x hx => h x (.ask hx)))

variable {A : Answers} {fs : Fs m} {o : ScanOpts m}

theorem post_children {sort : List Path → SortRun (List Path)} (hs : ∀ l, Sorts (sort l) l) (hA : Covers A fs o) (c : CmpM m) (hc : ∀ a b, Post (c a b) (fun _ => True))
    (maxDepth : Int) (k : Nat) (visit : Path → m TreeEntry)
    (hv : ∀ p, Post (visit p) (Scanned A anyOrder maxDepth k p)) (p : Path) (cs : List Path) (bad : Bool) :
    Post (LiveScanner.handleDirectoryChildren sort c o visit p cs bad) (fun es => bad = false ∧ ∃ n ks srt es', A.limit p n ∧ Kept A cs ks ∧ srt.Perm ks ∧
      ScannedAll A anyOrder maxDepth k (limitTo n srt) es' ∧ es = es' ++ moreMark n srt p) := by
  unfold LiveScanner.handleDirectoryChildren
  refine PostMonad.bind (hA.limit p) (fun n hn => PostMonad.bind (post_filterEntries hA cs) (fun ks hk => ?_))
  have rest : Post (do
      let sorted ← (sort ks).exec c
      let (es, left) ← Scanner.childLoop visit n 0 sorted
      return if left.isEmpty then es else es ++ [TreeEntry.skipped p]) (fun es => ∃ n ks srt es', A.limit p n ∧ Kept A cs ks ∧ srt.Perm ks ∧
      ScannedAll A anyOrder maxDepth k (limitTo n srt) es' ∧ es = es' ++ moreMark n srt p) := by
    refine PostMonad.bind (post_exec c hc (sort ks) (fun srt h => (hs ks).permutes srt h)) (fun srt hsrt => ?_)
    refine PostMonad.bind (post_childLoop anyOrder maxDepth k visit hv n _ 0) (fun r hr => PostMonad.pure ?_)
    obtain ⟨es, left⟩ := r
    obtain ⟨shown, h1, h2, h3, h4⟩ := hr
    refine ⟨n, ks, srt, es, hn, hk, hsrt, ?_, ?_⟩
    · have : limitTo n srt = shown := by
        unfold limitTo
        split
        · rename_i hneg; rw [h1, h3 hneg]; simp
        · rename_i hpos; rw [h4 (by omega)]; simp
      rw [this]; exact h2
    · dsimp only at h1 h3 h4 ⊢
      unfold moreMark
      have hlen := congrArg List.length h1
      rw [List.length_append] at hlen
      cases left with
      | nil =>
        have : ¬ (0 ≤ n ∧ n < srt.length) := by
          rintro ⟨h0, h5⟩
          have := congrArg List.length (h4 h0)
          simp at this hlen
          omega
        rw [if_neg this]; simp
      | cons x xs =>
        have : 0 ≤ n ∧ n < srt.length := by
          have h0 : 0 ≤ n := by
            by_contra hneg
            have := h3 (by omega)
            cases this
          refine ⟨h0, ?_⟩
          have := congrArg List.length (h4 h0)
          simp at this hlen
          omega
        rw [if_pos this]; simp
  cases bad with
  | true => exact PostMonad.bind (P := fun _ => False) PostMonad.throw (fun _ h => h.elim)
  | false =>
    simp only [Bool.false_eq_true, if_false]
    exact PostMonad.mono rest (fun es h => ⟨trivial, h⟩)

theorem post_handle {sort : List Path → SortRun (List Path)} (hs : ∀ l, Sorts (sort l) l) (hA : Covers A fs o) (c : CmpM m) (hc : ∀ a b, Post (c a b) (fun _ => True)) (k : Nat) (p : Path) :
    Post (LiveScanner.handle sort c fs o k p) (Scanned A anyOrder o.maxDepth k p) := by
  rw [LiveScanner.handle]
  refine PostMonad.bind (hA.isDir p) (fun b hb => ?_)
  cases b with
  | true =>
    simp only [if_true]
    split
    · rename_i h; exact PostMonad.pure (.tooDeep hb h)
    · rename_i h
      have ih := fun q => post_handle hs hA c hc (k + 1) q
      unfold LiveScanner.handleDirectory
      refine PostMonad.bind (hA.list p) (fun r hr => ?_)
      cases r with
      | openFailed => exact PostMonad.throw
      | opened cs bad =>
        refine PostMonad.bind (post_children hs hA c hc o.maxDepth (k + 1) _ ih p cs bad) (fun es hes => PostMonad.pure ?_)
        obtain ⟨rfl, n, ks, srt, es', h1, h2, h3, h5, rfl⟩ := hes
        exact .dir hb (by omega) h1 (hr cs rfl) h2 h3 (List.pairwise_of_forall (fun _ _ => by simp [anyOrder])) h5
  | false =>
    simp only [Bool.false_eq_true, if_false]
    unfold Scanner.handleFile
    refine PostMonad.bind (hA.attrs p) (fun r hr => ?_)
    cases r with
    | none => exact PostMonad.throw
    | some a => exact PostMonad.pure (.file hb (hr a rfl))
termination_by (o.maxDepth - k).toNat
decreasing_by omega

end

/-! ### The small sort never fails -/

theorem not_mayFail_bind {α β : Type} {r : SortRun α} {f : α → SortRun β} (h : ¬ MayFail r) (hf : ∀ x, MayReturn r x → ¬ MayFail (f x)) : ¬ MayFail (r >>= f) := by
  induction r with
  | done a => exact hf a .done
  | fail => exact (h .fail).elim
  | crash => intro hx; cases hx
  | ask a b next ih =>
    intro hx
    cases hx with
    | ask hx => exact ih _ (fun hy => h (.ask hy)) (fun x hx' => hf x (.ask hx')) hx

theorem not_mayFail_pure {α : Type} (a : α) : ¬ MayFail (pure a : SortRun α) := fun h => by cases h
theorem not_mayFail_read (l : List Path) (i : Nat) : ¬ MayFail (SortRun.read l i) := fun h => by
  unfold SortRun.read at h
  split at h <;> cases h
theorem not_mayFail_compare (a b : Path) : ¬ MayFail (SortRun.compare a b) := fun h => by cases h with | ask h => cases h

theorem descLoop_safe (last : Path) (run rest : List Path) : ¬ MayFail (TimSort.descLoop last run rest) := by
  induction rest generalizing last run with
  | nil => exact not_mayFail_pure _
  | cons x rest ih =>
    unfold TimSort.descLoop
    refine not_mayFail_bind (not_mayFail_compare _ _) (fun r _ => ?_)
    split
    · exact ih _ _
    · exact not_mayFail_pure _

theorem ascLoop_safe (last : Path) (run rest : List Path) : ¬ MayFail (TimSort.ascLoop last run rest) := by
  induction rest generalizing last run with
  | nil => exact not_mayFail_pure _
  | cons x rest ih =>
    unfold TimSort.ascLoop
    refine not_mayFail_bind (not_mayFail_compare _ _) (fun r _ => ?_)
    split
    · exact ih _ _
    · exact not_mayFail_pure _

theorem countRun_safe (l : List Path) : ¬ MayFail (TimSort.countRun l) := by
  match l with
  | [] => exact not_mayFail_pure _
  | [_] => exact not_mayFail_pure _
  | a :: b :: rest =>
    refine not_mayFail_bind (not_mayFail_compare _ _) (fun r _ => ?_)
    split
    · exact descLoop_safe _ _ _
    · exact ascLoop_safe _ _ _

theorem position_safe (pivot : Path) (sorted : List Path) (left right : Nat) : ¬ MayFail (TimSort.position pivot sorted left right) := by
  rw [TimSort.position]
  split
  · rename_i h
    refine not_mayFail_bind (not_mayFail_read _ _) (fun x _ => not_mayFail_bind (not_mayFail_compare _ _) (fun r _ => ?_))
    split
    · exact position_safe pivot sorted left _
    · exact position_safe pivot sorted _ right
  · exact not_mayFail_pure _
termination_by right - left

theorem binarySort_safe (sorted rest : List Path) : ¬ MayFail (TimSort.binarySort sorted rest) := by
  induction rest generalizing sorted with
  | nil => exact not_mayFail_pure _
  | cons p rest ih => exact not_mayFail_bind (position_safe _ _ _ _) (fun i _ => ih _)

theorem small_safe (l : List Path) : ¬ MayFail (TimSort.small l) :=
  not_mayFail_bind (countRun_safe l) (fun _ _ => binarySort_safe _ _)

theorem sort_fail {l : List Path} (h : MayFail (TimSort.sort l)) : 32 ≤ l.length := by
  unfold TimSort.sort at h
  split at h
  · exact (not_mayFail_pure _ h).elim
  · split at h
    · exact (small_safe l h).elim
    · omega

/-! ### Exceptions -/

section
variable {σ : Type}

theorem raises_bind {α β : Type} {x : WorldM σ α} {f : α → WorldM σ β} {e : Exn} (P : α → Prop) (hP : PostMonad.Post x P) (h : Raises (x >>= f) e) :
    Raises x e ∨ ∃ a, P a ∧ Raises (f a) e := by
  obtain ⟨s, s', h⟩ := h
  rw [ExceptT.run_bind, StateT.run_bind] at h
  have hP := hP s
  have hR : ∀ e s1, (ExceptT.run x).run s = (.error e, s1) → Raises x e := fun e s1 h => ⟨s, s1, h⟩
  revert h hP hR
  rcases (ExceptT.run x).run s with ⟨r, s1⟩
  intro h hP hR
  cases r with
  | error e' => cases h; exact .inl (hR _ _ rfl)
  | ok a => exact .inr ⟨a, hP a s1 rfl, s1, s', h⟩

theorem raises_pure {α : Type} {a : α} {e : Exn} (h : Raises (pure a : WorldM σ α) e) : False := by
  obtain ⟨s, s', h⟩ := h; cases h

theorem raises_throw {α : Type} {x e : Exn} (h : Raises (throw x : WorldM σ α) e) : e = x := by
  obtain ⟨s, s', h⟩ := h; cases h; rfl

theorem post_true {α : Type} (x : WorldM σ α) : PostMonad.Post x (fun _ => True) := fun _ _ _ _ => trivial

theorem raises_exec {α : Type} {c : CmpM (WorldM σ)} {l : List Path} {r : SortRun α} (ha : AsksAbout l r) {e : Exn} (h : Raises (r.exec c) e) :
    (∃ a ∈ l, ∃ b ∈ l, Raises (c a b) e) ∨ (e = .illegalArgument ∧ MayFail r) := by
  induction r with
  | done a => exact (raises_pure h).elim
  | fail => exact .inr ⟨raises_throw h, .fail⟩
  | crash => cases ha
  | ask a b next ih =>
    cases ha with
    | ask h1 h2 h3 =>
      rcases raises_bind _ (post_true _) h with h | ⟨n, _, h⟩
      · exact .inl ⟨a, h1, b, h2, h⟩
      · rcases ih n (h3 n) h with h | ⟨h, h'⟩
        · exact .inl h
        · exact .inr ⟨h, .ask h'⟩

variable {fs : Fs (WorldM σ)} {o : ScanOpts (WorldM σ)} {c : CmpM (WorldM σ)}

theorem raises_filterEntries {cs : List Path} {e : Exn} (h : Raises (Scanner.filterEntries o.pathFilter cs) e) : ∃ q ∈ cs, Raises (o.pathFilter q) e := by
  induction cs with
  | nil => exact (raises_pure h).elim
  | cons p ps ih =>
    unfold Scanner.filterEntries at h
    rcases raises_bind _ (post_true _) h with h | ⟨b, _, h⟩
    · exact ⟨p, by simp, h⟩
    · rcases raises_bind _ (post_true _) h with h | ⟨b, _, h⟩
      · obtain ⟨q, hq, h⟩ := ih h
        exact ⟨q, by simp [hq], h⟩
      · exact (raises_pure h).elim

theorem raises_childLoop {visit : Path → WorldM σ TreeEntry} {n : Int} {i : Nat} {ps : List Path} {e : Exn} (h : Raises (Scanner.childLoop visit n i ps) e) : ∃ q ∈ ps, Raises (visit q) e := by
  induction ps generalizing i with
  | nil => exact (raises_pure h).elim
  | cons p ps ih =>
    unfold Scanner.childLoop at h
    dsimp only at h
    split at h
    · exact (raises_pure h).elim
    · rcases raises_bind _ (post_true _) h with h | ⟨b, _, h⟩
      · exact ⟨p, by simp, h⟩
      · rcases raises_bind _ (post_true _) h with h | ⟨b, _, h⟩
        · obtain ⟨q, hq, h⟩ := ih h
          exact ⟨q, by simp [hq], h⟩
        · exact (raises_pure h).elim

theorem raises_handle (k : Nat) (p : Path) (e : Exn)
    (h : Raises (LiveScanner.handle TimSort.sort c fs o k p) e) : ScanFault fs o c e := by
  rw [LiveScanner.handle] at h
  have hA := covers_sometime fs o
  rcases raises_bind _ (hA.isDir p) h with h | ⟨b, hb, h⟩
  · exact .isDir h
  cases b with
  | true =>
    simp only [if_true] at h
    split at h
    · exact (raises_pure h).elim
    · rename_i hk
      have ih := fun q => raises_handle (k + 1) q e
      unfold LiveScanner.handleDirectory at h
      rcases raises_bind _ (fun s r s' hr => ⟨s, s', hr⟩ : PostMonad.Post (fs.listDir p) (fun r => ∃ s s', (ExceptT.run (fs.listDir p)).run s = (.ok r, s'))) h with h | ⟨r, ⟨s, s', hr⟩, h⟩
      · exact .list h
      cases r with
      | openFailed => exact raises_throw h ▸ .cannotList hr
      | opened cs bad =>
        rcases raises_bind _ (post_true _) h with h | ⟨es, _, h⟩
        · unfold LiveScanner.handleDirectoryChildren at h
          rcases raises_bind _ (post_true _) h with h | ⟨n, _, h⟩
          · exact .limit h
          rcases raises_bind _ (post_filterEntries hA cs) h with h | ⟨ks, hks, h⟩
          · obtain ⟨q, _, h⟩ := raises_filterEntries h
            exact .filter h
          cases bad with
          | true =>
            rcases raises_bind (fun _ => False) PostMonad.throw h with h | ⟨_, h, _⟩
            · exact raises_throw h ▸ .iteration hr
            · exact h.elim
          | false =>
            simp only [Bool.false_eq_true, if_false] at h
            rcases raises_bind _ (post_true _) h with h | ⟨srt, _, h⟩
            · rcases raises_exec (sort_sorts ks).asks h with ⟨a, ha, b, hb, h⟩ | ⟨rfl, hf⟩
              · exact .compare ⟨s, s', hr⟩ (hks.subset.subset ha) (hks.subset.subset hb) h
              · exact .contract ⟨s, s', hr⟩ hks (sort_fail hf)
            · rcases raises_bind _ (post_true _) h with h | ⟨r, _, h⟩
              · obtain ⟨q, _, h⟩ := raises_childLoop h
                exact ih q h
              · exact (raises_pure h).elim
        · exact (raises_pure h).elim
  | false =>
    simp only [Bool.false_eq_true, if_false] at h
    unfold Scanner.handleFile at h
    rcases raises_bind _ (fun s r s' hr => ⟨s, s', hr⟩ : PostMonad.Post (fs.readAttrs p) (fun r => ∃ s s', (ExceptT.run (fs.readAttrs p)).run s = (.ok r, s'))) h with h | ⟨r, ⟨s, s', hr⟩, h⟩
    · exact .attrs h
    cases r with
    | none => exact raises_throw h ▸ .cannotReadAttrs hr
    | some a => exact (raises_pure h).elim
termination_by (o.maxDepth - k).toNat
decreasing_by omega

end

/-! ### Only siblings are compared -/

theorem exec_congr {α : Type} {c c' : CmpM (Except Exn)} {l : List Path} {r : SortRun α} (ha : AsksAbout l r) (h : ∀ a ∈ l, ∀ b ∈ l, c a b = c' a b) : r.exec c = r.exec c' := by
  induction r with
  | done a => rfl
  | fail => rfl
  | crash => rfl
  | ask a b next ih =>
    cases ha with
    | ask h1 h2 h3 =>
      show (c a b >>= fun n => (next n).exec c) = (c' a b >>= fun n => (next n).exec c')
      rw [h a h1 b h2]
      exact congrArg _ (funext fun n => ih n (h3 n))

theorem children_siblings {sort : List Path → SortRun (List Path)} (hs : ∀ l, Sorts (sort l) l) {fs : PureFs} {o : ScanOpts (Except Exn)} {c c' : CmpM (Except Exn)} (visit : Path → Except Exn TreeEntry) (dir : Path)
    (cs : List Path) (bad : Bool) (h : bad = false → ∀ a ∈ cs, ∀ b ∈ cs, o.pathFilter a = .ok true → o.pathFilter b = .ok true → c a b = c' a b) :
    LiveScanner.handleDirectoryChildren sort c o visit dir cs bad = LiveScanner.handleDirectoryChildren sort c' o visit dir cs bad := by
  unfold LiveScanner.handleDirectoryChildren
  cases hn : o.childLimit dir with
  | error e => rfl
  | ok n =>
    cases hk : Scanner.filterEntries o.pathFilter cs with
    | error e => rfl
    | ok ks =>
      cases bad with
      | true => rfl
      | false =>
        have hkept := filterEntries_kept (fs := fs) hk
        have hm : ∀ a ∈ ks, a ∈ cs ∧ o.pathFilter a = .ok true := by
          intro a ha
          refine ⟨hkept.subset.subset ha, ?_⟩
          clear hk h
          induction hkept with
          | nil => cases ha
          | keep hk' _ ih =>
            rcases List.mem_cons.1 ha with rfl | ha
            · exact hk'
            · exact ih ha
          | drop _ _ ih => exact ih ha
        have := exec_congr (c := c) (c' := c') (hs ks).asks (fun a ha b hb => h rfl a (hm a ha).1 b (hm b hb).1 (hm a ha).2 (hm b hb).2)
        show ((sort ks).exec c >>= _) = ((sort ks).exec c' >>= _)
        rw [this]

theorem handle_siblings {sort : List Path → SortRun (List Path)} (hs : ∀ l, Sorts (sort l) l) {fs : PureFs} {o : ScanOpts (Except Exn)} {c c' : CmpM (Except Exn)}
    (h : ∀ d cs, fs.listDir d = .opened cs false → ∀ a ∈ cs, ∀ b ∈ cs, o.pathFilter a = .ok true → o.pathFilter b = .ok true → c a b = c' a b) (k : Nat) (p : Path) :
    LiveScanner.handle sort c fs.lift o k p = LiveScanner.handle sort c' fs.lift o k p := by
  rw [LiveScanner.handle, LiveScanner.handle]
  refine bind_congr fun b => ?_
  split
  · split
    · rfl
    · have ih : (fun q => LiveScanner.handle sort c fs.lift o (k + 1) q) = fun q => LiveScanner.handle sort c' fs.lift o (k + 1) q :=
        funext fun q => handle_siblings hs h (k + 1) q
      unfold LiveScanner.handleDirectory
      rw [ih]
      show (match fs.listDir p with | .openFailed => _ | .opened _ _ => _) = (match fs.listDir p with | .openFailed => _ | .opened _ _ => _)
      cases hl : fs.listDir p with
      | openFailed => rfl
      | opened cs bad =>
        dsimp only
        rw [children_siblings (fs := fs) (c := c) (c' := c') hs _ p cs bad (fun hb => h p cs (by rw [hl, hb]))]
  · rfl
termination_by (o.maxDepth - k).toNat
decreasing_by omega

end Sorting71

open Sorting71

/-! ### C71 -/

/-- **C71**: the JDK's sort of fewer than 32 elements obeys its contract and never complains, whatever the comparator does. -/
theorem C71_small_sort (l : List Path) : Sorts (TimSort.small l) l ∧ ¬ MayFail (TimSort.small l) := ⟨small_sorts l, small_safe l⟩

/-- **C71**: the JDK's sort of any number of elements obeys its contract: whatever the comparator answers, it only permutes, asks only about elements of the list and
stays within its arrays (also those for pending runs); it sorts stably if the comparator is lawful; and it complains only about 32 elements and more. -/
theorem C71_jdk_sort (l : List Path) : Sorts (TimSort.sort l) l ∧ (MayFail (TimSort.sort l) → 32 ≤ l.length) := ⟨sort_sorts l, sort_fail⟩

/-- **C71**: with a comparator that obeys its contract and reads nothing that changes, sorting is the sorting of all other properties: `prettyPrint` with the JDK's
sort is `prettyPrint` with the sorted list. -/
theorem C71_lawful {m : Type → Type} [Monad m] [LawfulMonad m] [MonadExceptOf Exn m]
    (fs : Fs m) (cwd : Path) (o : Options m) (hc : LawfulCmp o.pathComparator) (p : Path) :
    LiveScanner.prettyPrint TimSort.sort (fun a b => pure (o.pathComparator a b)) fs cwd o p = prettyPrint fs cwd o p := by
  show (LiveScanner.handle _ _ fs (o.toScan fs) 0 _ >>= _) = (Scanner.handle fs (o.toScan fs) 0 _ >>= _)
  rw [← handle_lawful sort_sorts fs (o.toScan fs) hc]
  rfl

section
variable {σ : Type} {fs : Fs (WorldM σ)} {o : ScanOpts (WorldM σ)} {c : CmpM (WorldM σ)}

/-- **C71**: whatever the comparator does, if scanning returns, then every directory of the tree above the depth limit shows entries of one listing of it that passed
the filter, each as often as it was listed at most, as many as the limit allows, all of them if the limit allows it, and the marker exactly if some are left out. -/
theorem C71_any_comparator (top : Path) (s s' : σ) (t : TreeEntry)
    (h : (ExceptT.run (LiveScanner.handle TimSort.sort c fs o 0 top)).run s = (.ok t, s')) {d : Path} {es : List TreeEntry} {k : Nat} (hb : BelowAt (.dir d es) k t) :
    (o.maxDepth ≤ k ∧ es = [.maxDepth k]) ∨ ((k : Int) < o.maxDepth ∧ ∃ n cs ks shown,
      (answersSometime fs o).limit d n ∧ (answersSometime fs o).list d cs ∧ Kept (answersSometime fs o) cs ks ∧ (shown.filterMap entryPath).Subperm ks ∧
      (∀ e ∈ shown, ∃ q ∈ ks, entryPath e = some q) ∧
      ((es = shown ∧ (n < 0 ∨ (ks.length : Int) ≤ n) ∧ shown.length = ks.length) ∨ (es = shown ++ [.skipped d] ∧ (shown.length : Int) = n ∧ shown.length < ks.length))) := by
  have hs := (post_handle sort_sorts (covers_sometime fs o) c (fun a b => post_true (c a b)) 0 top s t s' h).sub hb rfl
  rw [Nat.zero_add] at hs
  obtain ⟨_, _, h | ⟨hk, n, cs, ks, srt, es', h1, h2, h3, h4, _, h6, h7⟩⟩ := hs.dir_inv
  · exact .inl h
  · refine .inr ⟨hk, n, cs, ks, es', h1, h2, h3, ?_, ?_, ?_⟩
    · rw [h6.filterMap]
      exact (limitTo_sublist n srt).subperm.trans h4.subperm
    · intro e he
      obtain ⟨q, hq, he'⟩ := h6.mem he
      exact ⟨q, h4.mem_iff.1 ((limitTo_sublist n srt).subset hq), he'.entryPath_eq⟩
    · have hlen : es'.length = (limitTo n srt).length := by
        have := congrArg List.length h6.paths
        simpa using this
      rw [← h4.length_eq]
      rw [h7]
      unfold moreMark
      by_cases hm : 0 ≤ n ∧ n < srt.length
      · right
        rw [if_pos hm]
        refine ⟨rfl, ?_, ?_⟩ <;> rw [hlen, limitTo, if_neg (by omega), List.length_take] <;> omega
      · left
        rw [if_neg hm]
        refine ⟨by simp, by omega, ?_⟩
        rw [hlen, limitTo]
        split
        · rfl
        · rw [List.length_take]; omega

/-- **C71**: what scanning may throw: what accesses, callbacks and the comparator (asked for two entries of one listing) throw, the failures of the file system, and
`IllegalArgumentException` from the sort, but only if some directory has at least 32 entries to sort. -/
theorem C71_exceptions (top : Path) (s s' : σ) (e : Exn)
    (h : (ExceptT.run (LiveScanner.handle TimSort.sort c fs o 0 top)).run s = (.error e, s')) : ScanFault fs o c e :=
  raises_handle 0 top e ⟨s, s', h⟩

end

/-- **C71**: the comparator only matters for pairs of displayed-or-left-out (that is, filtered) entries of the same directory. -/
theorem C71_siblings_only (fs : PureFs) (cwd : Path) (o : Options (Except Exn)) (c c' : CmpM (Except Exn))
    (h : ∀ d cs, fs.listDir d = .opened cs false → ∀ a ∈ cs, ∀ b ∈ cs, o.pathFilter fs.lift a = .ok true → o.pathFilter fs.lift b = .ok true → c a b = c' a b) (p : Path) :
    LiveScanner.prettyPrint TimSort.sort c fs.lift cwd o p = LiveScanner.prettyPrint TimSort.sort c' fs.lift cwd o p := by
  show (LiveScanner.handle _ c fs.lift (o.toScan fs.lift) 0 _ >>= _) = (LiveScanner.handle _ c' fs.lift (o.toScan fs.lift) 0 _ >>= _)
  rw [handle_siblings sort_sorts (c := c) (c' := c') (o := o.toScan fs.lift) h]

/-! ### The comparators of the library on a disk that does not change -/

section
variable {m : Type → Type} [Monad m] [LawfulMonad m] [MonadExceptOf Exn m]

omit [MonadExceptOf Exn m] in
/-- **C71**: on a disk that does not change the comparators of the library, which ask the file system at every comparison, answer as comparators that know the answers. -/
theorem C71_fixed_disk (fs : PureFs) (size : Path → Int) (fold : JChar → JChar) (a b : Path) :
    LiveSorts.ALPHABETICAL (m := m) a b = pure (PathSorts.ALPHABETICAL a b) ∧
    LiveSorts.DIRECTORY_FIRST (m := m) fs.lift a b = pure (PathSorts.DIRECTORY_FIRST fs.isDir a b) ∧
    LiveSorts.DIRECTORY_LAST (m := m) fs.lift a b = pure (PathSorts.DIRECTORY_LAST fs.isDir a b) ∧
    LiveSorts.BY_FILE_SIZE (m := m) fs.lift (fun p => pure (size p)) a b = pure (PathSorts.BY_FILE_SIZE fs.isDir size a b) ∧
    LiveSorts.BY_EXTENSION (m := m) fold fs.lift a b = pure (PathSorts.BY_EXTENSION fold fs.isDir a b) := by
  have hd : ∀ p, PathMatchers.isDirectory (m := m) fs.lift p = pure (fs.isDir p) := fun p => rfl
  refine ⟨rfl, ?_, ?_, ?_, ?_⟩
  · simp only [LiveSorts.DIRECTORY_FIRST, PathSorts.DIRECTORY_FIRST, hd, pure_bind]
    split <;> rfl
  · simp only [LiveSorts.DIRECTORY_LAST, LiveSorts.reversed, LiveSorts.DIRECTORY_FIRST, PathSorts.DIRECTORY_LAST, reversed, PathSorts.DIRECTORY_FIRST, hd, pure_bind]
    split <;> rfl
  · simp only [LiveSorts.BY_FILE_SIZE, LiveSorts.comparing, PathSorts.BY_FILE_SIZE, hd, pure_bind]
    cases fs.isDir a <;> cases fs.isDir b <;> simp
  · simp only [LiveSorts.BY_EXTENSION, PathSorts.BY_EXTENSION, hd, pure_bind]
    cases fs.isDir a <;> cases fs.isDir b <;> simp

omit [MonadExceptOf Exn m] in
/-- **C71**: the same for the comparators of `PathSortBuilder`. -/
theorem C71_built_fixed (orders : List (Path → Int)) (live : PathSortBuilder) (a b : Path) :
    LiveSorts.built (m := m) (orders.map (fun f p => pure (f p))) a b = pure ((PathSortBuilder.build ⟨orders⟩).compare live a b) := by
  have hl : ∀ (p : Path) (r : Int) (l : List (Path → Int)), LiveSorts.precedenceLoop (m := m) p r (l.map (fun f p => pure (f p))) = pure (PathSortBuilder.precedenceLoop p r l) := by
    intro p r l
    induction l generalizing r with
    | nil => rfl
    | cons f l ih =>
      simp only [List.map_cons, LiveSorts.precedenceLoop, PathSortBuilder.precedenceLoop, pure_bind]
      split
      · rfl
      · exact ih _
  simp only [LiveSorts.built, LiveSorts.thenComparing, LiveSorts.comparing, hl, pure_bind, LiveSorts.ALPHABETICAL, PathSortBuilder.Built.compare, thenComparing,
    PathSortBuilder.Built.finalFunction, PathSortBuilder.build]
  split
  · rename_i h; exact congrArg pure (if_pos h).symm
  · rename_i h; exact congrArg pure (if_neg h).symm

/-- **C71**: on a disk that does not change, `sort(c)` with a comparator `c` of which every answer is that of a lawful `c'` prints as with `c'`. -/
theorem C71_sort_fixed (fs : Fs m) (cwd : Path) (o : Options m) {c : CmpM m} {c' : Cmp}
    (hcc : ∀ a b, c a b = pure (c' a b)) (hc : LawfulCmp c') (p : Path) :
    LiveScanner.prettyPrint TimSort.sort (LiveSorts.thenComparing c LiveSorts.ALPHABETICAL) fs cwd o p = prettyPrint fs cwd (o.sort c') p := by
  rw [← C71_lawful fs cwd (o.sort c') (sort_lawful hc)]
  have : LiveSorts.thenComparing c LiveSorts.ALPHABETICAL = fun a b => (pure ((o.sort c').pathComparator a b) : m Int) := by
    funext a b
    simp only [LiveSorts.thenComparing, hcc, pure_bind, LiveSorts.ALPHABETICAL]
    show _ = pure (thenComparing c' PathSorts.ALPHABETICAL a b)
    unfold thenComparing
    dsimp only
    split <;> rfl
  rw [this]
  show (LiveScanner.handle _ _ fs (o.toScan fs) 0 _ >>= _) = (LiveScanner.handle _ _ fs { o.toScan fs with pathComparator := (o.sort c').pathComparator } 0 _ >>= _)
  exact congrArg (· >>= _) (handle_own _ _ fs (o.toScan fs) (o.sort c').pathComparator 0 _).symm

end

/-! ### Examples -/

namespace Demo

/-- A comparator that counts its calls and breaks its contract: everything is less than everything. -/
def badOrder : CmpM (WorldM Nat) := fun _ _ => ExceptT.mk fun n => (.ok (-1), n + 1)

/-- The options of the scan: one level, everything. -/
def oneLevel (σ : Type) : ScanOpts (WorldM σ) := ⟨1, fun _ => pure (-1), PathSorts.ALPHABETICAL, fun _ => pure true⟩

/-- 32 entries `a`, `b`, … of `/r`. -/
def many : List Path := (List.range 32).map (fun i => ⟨true, [j!"r", [97 + UInt16.ofNat i]]⟩)

/-- The number of an entry. -/
def number (p : Path) : Nat := (p.names.getLast?.bind List.head?).elim 0 (fun ch => ch.toNat - 97)

/-- A comparator that breaks its contract: the first 16 entries are greater than the others, but from the others only the entry 16 is smaller than them, the rest is equal. -/
def oneSided : Cmp := fun p q =>
  if number p < 16 ∧ 16 ≤ number q then 1
  else if number p = 16 ∧ number q < 16 then -1
  else 0

/-- A directory with 32 entries. -/
def wide : PureFs := { dfs with listDir := fun p => if p = r then .opened many false else .openFailed }

end Demo

/-- **C71**: the complaint does happen: there is a directory with 32 entries on a disk that never fails and does not change and a comparator, a function of the two paths, such that
`prettyPrint` throws an `IllegalArgumentException`. -/
theorem C71_complaint_happens : ∃ (fs : PureFs) (o : Options (Except Exn)) (c : Cmp) (p : Path), (∃ cs, fs.listDir p = .opened cs false ∧ cs.length = 32) ∧
    LiveScanner.prettyPrint TimSort.sort (fun a b => pure (c a b)) fs.lift Path.root o p = .error .illegalArgument := by
  refine ⟨Demo.wide, Options.createDefault, Demo.oneSided, Demo.r, ⟨_, rfl, rfl⟩, ?_⟩
  have h : (TimSort.sort Demo.many).exec (m := Except Exn) (fun a b => pure (Demo.oneSided a b)) = .error .illegalArgument := by
    have h : TimSort.minRunLength 32 = 16 := by simp [TimSort.minRunLength, TimSort.minRunLoop]
    unfold TimSort.sort TimSort.big
    rw [show Demo.many.length = 32 from rfl, h]
    rfl
  have hh : ∀ visit : Path → Except Exn TreeEntry, LiveScanner.handleDirectory (m := Except Exn) TimSort.sort (fun a b => pure (Demo.oneSided a b)) Demo.wide.lift (Options.createDefault.toScan Demo.wide.lift) visit Demo.r = (.error .illegalArgument : Except Exn _) := by
    intro visit
    show (((TimSort.sort Demo.many).exec (m := Except Exn) (fun a b => pure (Demo.oneSided a b)) >>= _) >>= _) = _
    rw [h]; rfl
  show (LiveScanner.handle (m := Except Exn) TimSort.sort (fun a b => pure (Demo.oneSided a b)) Demo.wide.lift (Options.createDefault.toScan Demo.wide.lift) 0 Demo.r >>= _) = _
  rw [LiveScanner.handle.eq_def]
  simp only [hh]
  rfl

/-- Two runs of 16 elements are merged. -/
example : (TimSort.sort (Demo.many.drop 16 ++ Demo.many.take 16)).exec (m := Except Exn) (fun a b => pure (PathSorts.ALPHABETICAL a b)) = .ok Demo.many := by
  have h : TimSort.minRunLength 32 = 16 := by simp [TimSort.minRunLength, TimSort.minRunLoop]
  unfold TimSort.sort TimSort.big
  rw [show (Demo.many.drop 16 ++ Demo.many.take 16).length = 32 from rfl, h]
  rfl

/-- With the comparator that breaks its contract the call still returns a tree (after two comparisons). -/
theorem Demo.badOrder_run : (ExceptT.run (LiveScanner.handle TimSort.sort Demo.badOrder Demo.dfs.lift (Demo.oneLevel Nat) 0 Demo.r)).run 0 =
    (.ok (.dir Demo.r [.file Demo.z ⟨false, true⟩, .dir Demo.a [.maxDepth 1], .file Demo.b ⟨false, false⟩]), 2) := by
  rw [LiveScanner.handle]
  have h1 : ∀ q, LiveScanner.handle TimSort.sort Demo.badOrder (Demo.dfs.lift (m := WorldM Nat)) (Demo.oneLevel Nat) (0 + 1) q =
      (if Demo.dfs.isDir q then pure (.dir q [.maxDepth 1]) else Scanner.handleFile Demo.dfs.lift q) := by
    intro q
    rw [LiveScanner.handle]
    show (pure (Demo.dfs.isDir q) >>= _) = _
    rw [pure_bind]
    rfl
  simp only [h1]
  rfl

/-- A comparator that throws makes the call throw the same. -/
theorem Demo.throwing_run : (ExceptT.run (LiveScanner.handle TimSort.sort (fun _ _ => throw (.user 7)) Demo.dfs.lift (Demo.oneLevel Nat) 0 Demo.r)).run 0 = (.error (.user 7), 0) := by
  rw [LiveScanner.handle]
  rfl

end JFTP
