import Verif.Props.Bounds
import Verif.Props.Exceptions

/-!
C63: the bound on the number of lines cannot be improved.
-/

namespace JFTP
open Spec

/-- Demo: a disk on which everything is a directory with `n + 1` subdirectories `a`, `aa`, `aaa`, …, without end. -/
def Demo.endless (n : Nat) : PureFs where
  isDir _ := true
  listDir p := .opened ((List.range (n + 1)).map (fun i => p.child (List.replicate (i + 1) 97))) false
  readAttrs _ := some ⟨false, false⟩
  isRegular _ := false
  isLink _ := false

/-- Demo: the default options with the child limit `n` and the max depth `d`. -/
def Demo.cut (n d : Nat) : Options (Except Exn) := ((Options.createDefault : Options (Except Exn)).withChildLimit n).withMaxDepth d

theorem kept_all {A : Answers} (hA : ∀ p b, A.keep p b → b = true) {cs ks : List Path} (h : Kept A cs ks) : ks = cs := by
  induction h with
  | nil => rfl
  | keep _ _ ih => rw [ih]
  | drop h _ _ => cases hA _ _ h

section
variable {c : Cmp} {n d : Nat}

mutual
theorem Spec.Scanned.size_endless {k : Nat} {p : Path} {e : TreeEntry} (h : Scanned (answers (Demo.endless n) (Demo.cut n d)) c d k p e) :
    (events e).length = sizeBound n ((d : Int) - k).toNat := by
  match h with
  | .file hd _ => cases hd
  | .tooDeep _ hk =>
    have : ((d : Int) - k).toNat = 0 := by omega
    rw [this]; rfl
  | .dir (n := l) (srt := srt) (cs := cs) (ks := ks) _ hk hl hc hks hp _ hes =>
    have ih := Spec.ScannedAll.size_endless hes
    have hj : ((d : Int) - k).toNat = ((d : Int) - (k + 1 : Nat)).toNat + 1 := by omega
    have hl : l = (n : Int) := by cases hl; rfl
    have hks := kept_all (A := answers (Demo.endless n) (Demo.cut n d)) (fun p b hb => by cases hb; rfl) hks
    have hlen : srt.length = n + 1 := by
      rw [hp.length_eq, hks]
      cases hc
      simp
    rw [hj, sizeBound, events, eventsAll_append]
    have h1 : (limitTo l srt).length = n := by
      unfold limitTo
      rw [if_neg (by omega), List.length_take, hlen, hl]
      omega
    have h2 : (eventsAll (moreMark l srt p)).length = 1 := by
      unfold moreMark
      rw [if_pos (by rw [hlen]; omega)]
      rfl
    rw [h1] at ih
    simp only [List.length_cons, List.length_append]
    omega
theorem Spec.ScannedAll.size_endless {k : Nat} {ps : List Path} {es : List TreeEntry} (h : ScannedAll (answers (Demo.endless n) (Demo.cut n d)) c d k ps es) :
    (eventsAll es).length = ps.length * sizeBound n ((d : Int) - k).toNat := by
  match h with
  | .nil => simp [eventsAll]
  | .cons h hs =>
    have h1 := Spec.Scanned.size_endless h
    have h2 := Spec.ScannedAll.size_endless hs
    simp only [eventsAll, List.length_append, List.length_cons, Nat.succ_mul]
    omega
end

end

/-- **C63**: no smaller bound is possible. For all `n` and `d` there is a disk, on which every directory can be read, and a path such that the text with child limit `n` and max depth `d` has exactly
`2 · (1 + n + n² + … + n^d)` lines. -/
theorem C63_tight (n d : Nat) : ∃ (fs : PureFs) (o : Options (Except Exn)) (p : Path) (s : JStr), ProperFs fs ∧ o = (Options.createDefault.withChildLimit n).withMaxDepth d ∧
    prettyPrint fs.lift Path.root o p = .ok s ∧ (linesOf s).length = 2 * ((List.range (d + 1)).map (n ^ ·)).sum := by
  have hok : ∃ s, prettyPrint (Demo.endless n).lift Path.root (Demo.cut n d) Demo.r = .ok s := by
    cases h : prettyPrint (Demo.endless n).lift Path.root (Demo.cut n d) Demo.r with
    | ok s => exact ⟨s, rfl⟩
    | error e =>
      refine absurd h (C76_no_exception (m := Except Exn) rfl (by decide) (fun d cs bad h q hq => ?_)
        ⟨fun _ _ h => (by cases h), fun _ _ _ h => (by cases h), fun _ h => (by cases h), fun _ h => (by rcases h with ⟨q, h | h | h | h | h | h⟩ <;> cases h)⟩
        (fun _ _ h => by cases h) (fun _ _ h => by cases h) (fun _ _ h => by cases h) (fun _ _ h => by cases h) (fun _ h => by cases h) e)
      cases h
      obtain ⟨i, _, rfl⟩ := List.mem_map.1 hq
      unfold Path.child
      split <;> simp
  obtain ⟨s, hs⟩ := hok
  refine ⟨Demo.endless n, Demo.cut n d, Demo.r, s, ?_, rfl, hs, ?_⟩
  · intro p cs bad h
    cases h
    refine ⟨List.Nodup.map (fun i j h => ?_) List.nodup_range, fun c hc => ?_⟩
    · have := congrArg PathSorts.nameKey h
      simp only [nameKey_child] at this
      have := congrArg List.length this
      simpa using this
    · obtain ⟨i, _, rfl⟩ := List.mem_map.1 hc
      exact ⟨_, rfl⟩
  have hcl : ∀ t, scanned (Demo.endless n) Path.root (Demo.cut n d) Demo.r = .ok t → CleanText (Demo.cut n d) t := by
    intro t ht
    refine ⟨fun q hq => ?_, fun _ _ _ h => (by cases h), fun _ _ _ h => (by cases h)⟩
    obtain ⟨k, x, hb, hx⟩ := mem_entryPaths.1 hq
    have hv := (scanned_sound rfl lawful_ALPHABETICAL ht).visited hb hx
    generalize 0 + k = k' at hv
    cases hv with
    | top => decide
    | child _ _ _ _ hl hk hp _ hm =>
      have hm := hp.mem_iff.1 ((limitTo_sublist _ _).subset hm)
      rw [kept_all (A := answers (Demo.endless n) (Demo.cut n d)) (fun p b hb => by cases hb; rfl) hk] at hm
      cases hl
      obtain ⟨i, _, rfl⟩ := List.mem_map.1 hm
      have : ∀ (p : Path) (x : JStr), lastName (p.child x) = x := by
        intro p x
        unfold lastName Path.child
        split <;> simp
      rw [this]
      intro h
      have := List.eq_of_mem_replicate h
      revert this
      decide
  obtain ⟨t, ht, hlen⟩ := C02_text_lines_compact_off hs builtin_formats_noNL.1 rfl hcl
  have := (scanned_sound rfl lawful_ALPHABETICAL ht).size_endless
  rw [hlen, this, sizeBound_eq]
  simp

/-- Example: with a child limit of 3 and a max depth of 20 there are texts with 10 460 353 202 lines, however small the limits look. -/
example : ∃ (fs : PureFs) (o : Options (Except Exn)) (p : Path) (s : JStr), ProperFs fs ∧ o = (Options.createDefault.withChildLimit 3).withMaxDepth 20 ∧
    prettyPrint fs.lift Path.root o p = .ok s ∧ (linesOf s).length = 10460353202 := by
  have h := C63_tight 3 20
  rwa [show 2 * ((List.range (20 + 1)).map (3 ^ ·)).sum = 10460353202 from by decide +kernel] at h

end JFTP
