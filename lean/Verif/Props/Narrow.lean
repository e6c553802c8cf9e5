import Verif.Spec.Narrow
import Verif.Props.Printed

/-!
C12: the tree with smaller child limits is the narrowed tree.
-/

namespace JFTP
open Spec

namespace Spec

theorem narrowAll_eq (lim : Path → Int) (es : List TreeEntry) : narrowAll lim es = es.map (narrow lim) := by
  induction es with
  | nil => rfl
  | cons e es ih => simp [narrowAll, ih]

theorem handle_entryPath {fs : PureFs} {o : ScanOpts (Except Exn)} {k : Nat} {p : Path} {e : TreeEntry} (h : Scanner.handle fs.lift o k p = .ok e) : entryPath e = some p := by
  rw [handle_unfold] at h
  split at h
  · split at h
    · cases h; rfl
    · cases hls : fs.listDir p with
      | openFailed => rw [hls] at h; cases h
      | opened cs bad =>
        rw [hls] at h
        obtain ⟨n, _, h⟩ := except_bind_ok h
        obtain ⟨ks, _, h⟩ := except_bind_ok h
        split at h
        · cases h
        · obtain ⟨es, _, h⟩ := except_bind_ok h
          cases h; rfl
  · cases ha : fs.readAttrs p with
    | some a => rw [ha] at h; cases h; rfl
    | none => rw [ha] at h; cases h

theorem filterMap_entryPath {v : Path → Except Exn TreeEntry} (hv : ∀ p e, v p = .ok e → entryPath e = some p) {ps : List Path} {es : List TreeEntry}
    (h : visitAll v ps = .ok es) : es.filterMap entryPath = ps := by
  replace h := visitAll_ok h
  induction h with
  | nil => rfl
  | cons h1 _ ih => rw [List.filterMap_cons, hv _ _ h1, ih]

theorem handle_narrow {fs : PureFs} {o o' : ScanOpts (Except Exn)} {lim : Path → Int} (hD : o'.maxDepth = o.maxDepth) (hC : o'.pathComparator = o.pathComparator)
    (hF : o'.pathFilter = o.pathFilter) (hL : ∀ q n, o.childLimit q = .ok n → o'.childLimit q = .ok (lim q) ∧ limitLe (lim q) n)
    (k : Nat) (p : Path) (e : TreeEntry) (h : Scanner.handle fs.lift o k p = .ok e) : Scanner.handle fs.lift o' k p = .ok (narrow lim e) := by
  rw [handle_unfold] at h ⊢
  rw [hD, hC, hF]
  split at h
  · rename_i hd
    rw [if_pos hd]
    split at h
    · rename_i hk
      cases h
      rw [if_pos hk, narrow, if_neg]
      · rfl
      · show ¬ (0 ≤ lim p ∧ lim p < 0); omega
    · rename_i hk
      rw [if_neg hk]
      cases hls : fs.listDir p with
      | openFailed => rw [hls] at h; cases h
      | opened cs bad =>
        rw [hls] at h
        dsimp only at h ⊢
        obtain ⟨n, hn, h⟩ := except_bind_ok h
        obtain ⟨ks, hks, h⟩ := except_bind_ok h
        obtain ⟨hn', hle⟩ := hL p n hn
        rw [hn', hks]
        show (if bad = true then _ else _) = _
        split at h
        · cases h
        · rename_i hb
          rw [if_neg hb]
          obtain ⟨es, hes, h⟩ := except_bind_ok h
          cases h
          generalize streamSorted o.pathComparator ks = srt at hes ⊢
          have hpaths := filterMap_entryPath (fun q e => handle_entryPath (k := k + 1) (p := q)) hes
          have hcount : ((es ++ moreMark n srt p).filterMap entryPath).length = (limitTo n srt).length := by
            rw [List.filterMap_append, moreMark_paths, List.append_nil, hpaths]
          have hall : List.Forall₂ (fun q e => Scanner.handle fs.lift o' (k + 1) q = .ok e) (limitTo n srt) (narrowAll lim es) := by
            rw [narrowAll_eq, List.forall₂_map_right_iff]
            exact (visitAll_ok hes).imp (fun q e he => handle_narrow hD hC hF hL (k + 1) q e he)
          have hlen : (narrowAll lim es).length = (limitTo n srt).length := hall.length_eq.symm
          have hsplit : narrowAll lim (es ++ moreMark n srt p) = narrowAll lim es ++ moreMark n srt p := by
            rw [narrowAll_eq, narrowAll_eq, List.map_append]
            rcases moreMark_cases n srt p with h | h <;> rw [h] <;> rfl
          rw [narrow, hcount, hsplit]
          by_cases hcut : 0 ≤ lim p ∧ lim p < (limitTo n srt).length
          · rw [if_pos hcut]
            have h1 : limitTo (lim p) srt = (limitTo n srt).take (lim p).toNat := by
              unfold limitTo
              rw [if_neg (by omega)]
              split
              · rfl
              · rw [List.take_take]
                congr 1
                rcases hle with h | h <;> omega
            have h2 : moreMark (lim p) srt p = [.skipped p] := by
              unfold moreMark
              have := (limitTo_sublist n srt).length_le
              rw [if_pos (by omega)]
            have h3 : visitAll (Scanner.handle fs.lift o' (k + 1)) (limitTo (lim p) srt) = .ok ((narrowAll lim es).take (lim p).toNat) := by
              rw [h1]
              exact visitAll_of_forall₂ (List.forall₂_take _ hall)
            rw [h3, h2]
            show Except.ok _ = _
            rw [List.take_append_of_le_length (by omega)]
          · rw [if_neg hcut]
            have h12 : limitTo (lim p) srt = limitTo n srt ∧ moreMark (lim p) srt p = moreMark n srt p := by
              unfold limitTo at hcut
              unfold limitTo moreMark
              rcases hle with h | h
              · rw [if_pos h] at hcut ⊢
                refine ⟨?_, ?_⟩
                · split
                  · rfl
                  · exact List.take_of_length_le (by omega)
                · rw [if_neg (by omega), if_neg (by omega)]
              · rw [if_neg (by omega), List.length_take] at hcut
                by_cases heq : lim p = n
                · rw [heq]; exact ⟨rfl, rfl⟩
                · rw [if_neg (by omega), if_neg (by omega), if_neg (by omega), if_neg (by omega)]
                  exact ⟨by rw [List.take_of_length_le (by omega), List.take_of_length_le (by omega)], rfl⟩
            rw [h12.1, h12.2, visitAll_of_forall₂ hall]
            rfl
  · rename_i hd
    rw [if_neg hd]
    cases ha : fs.readAttrs p with
    | some a => rw [ha] at h; cases h; simp [narrow]
    | none => rw [ha] at h; cases h
termination_by (o.maxDepth - k).toNat
decreasing_by omega

mutual
theorem narrow_paths (lim : Path → Int) (t : TreeEntry) : ∀ q ∈ entryPaths (narrow lim t), q ∈ entryPaths t := by
  match t with
  | .dir e es =>
    intro q hq
    have ih := narrowAll_paths lim es
    rw [narrow] at hq
    split at hq <;> rw [mem_entryPaths_dir] at hq ⊢
    · rcases hq with h | ⟨x, hx, hq⟩
      · exact .inl h
      · rcases List.mem_append.1 hx with hx | hx
        · exact .inr (ih x (List.mem_of_mem_take hx) q hq)
        · simp at hx; subst hx; simp [entryPaths, events] at hq
    · rcases hq with h | ⟨x, hx, hq⟩
      · exact .inl h
      · exact .inr (ih x hx q hq)
  | .file _ _ => intro q hq; rw [narrow] at hq; exact hq
  | .skipped _ => intro q hq; rw [narrow] at hq; exact hq
  | .maxDepth _ => intro q hq; rw [narrow] at hq; exact hq
theorem narrowAll_paths (lim : Path → Int) (es : List TreeEntry) : ∀ x ∈ narrowAll lim es, ∀ q ∈ entryPaths x, ∃ y ∈ es, q ∈ entryPaths y := by
  match es with
  | [] => intro x hx; rw [narrowAll] at hx; cases hx
  | e :: es =>
    intro x hx q hq
    rw [narrowAll] at hx
    rcases List.mem_cons.1 hx with rfl | hx
    · exact ⟨e, by simp, narrow_paths lim e q hq⟩
    · obtain ⟨y, hy, h⟩ := narrowAll_paths lim es x hx q hq
      exact ⟨y, by simp [hy], h⟩
end

theorem namedAll_iff {es : List TreeEntry} : NamedAll es ↔ ∀ e ∈ es, Named e := by
  induction es with
  | nil => simp [NamedAll]
  | cons e es ih => simp [NamedAll, ih]

mutual
theorem narrow_named (lim : Path → Int) (t : TreeEntry) (h : Named t) : Named (narrow lim t) := by
  match t with
  | .dir e es =>
    have ih := narrowAll_named lim es h.2
    rw [narrow]
    split
    · refine ⟨h.1, ?_⟩
      rw [namedAll_iff] at ih ⊢
      intro x hx
      rcases List.mem_append.1 hx with hx | hx
      · exact ih x (List.mem_of_mem_take hx)
      · simp at hx; subst hx; trivial
    · exact ⟨h.1, ih⟩
  | .file _ _ => rw [narrow]; exact h
  | .skipped _ => rw [narrow]; exact h
  | .maxDepth _ => rw [narrow]; exact h
theorem narrowAll_named (lim : Path → Int) (es : List TreeEntry) (h : NamedAll es) : NamedAll (narrowAll lim es) := by
  match es with
  | [] => rw [narrowAll]; exact h
  | e :: es => rw [narrowAll]; exact ⟨narrow_named lim e h.1, narrowAll_named lim es h.2⟩
end

end Spec

variable {fs : PureFs} {cwd p : Path} {o : Options (Except Exn)} {s : JStr}

/-- **C12**, exactly: if a call with some limits succeeds and scans the tree `t`, a call with smaller limits succeeds and scans the tree `t` narrowed to these limits. In particular (limits
that are all negative) the tree with limits is a function of the tree without limits. -/
theorem C12_smaller_limits_narrow (hw : cwd.abs = true) (lim : Path → Int) (hle : ∀ q n, o.childLimit q = .ok n → limitLe (lim q) n) {t : TreeEntry}
    (h : scanned fs cwd o p = .ok t) : scanned fs cwd (o.withChildLimitFn (fun q => .ok (lim q))) p = .ok (narrow lim t) := by
  rw [scanned_eq fs hw] at h ⊢
  exact handle_narrow (o := o.toScan fs.lift) (o' := (o.withChildLimitFn (fun q => .ok (lim q))).toScan fs.lift) rfl rfl rfl (fun q n hn => ⟨rfl, hle q n hn⟩) 0 _ t h

/-- **C12** end to end: if printing with some limits returns a text, which shows the tree `t`, and emoji mapping and extension function do not throw on its paths, printing with
smaller limits returns a text that shows `t` narrowed to them. -/
theorem C12_text (hw : cwd.abs = true) (lim : Path → Int) (hle : ∀ q n, o.childLimit q = .ok n → limitLe (lim q) n) (h : prettyPrint fs.lift cwd o p = .ok s)
    (hq : ∀ t, scanned fs cwd o p = .ok t → Quiet o t) :
    ∃ t T T' s', scanned fs cwd o p = .ok t ∧ Prints o t T s ∧ prettyPrint fs.lift cwd (o.withChildLimitFn (fun q => .ok (lim q))) p = .ok s' ∧
      Prints (o.withChildLimitFn (fun q => .ok (lim q))) (narrow lim t) T' s' := by
  obtain ⟨t, T, ht, hp⟩ := printed h
  have ht' := C12_smaller_limits_narrow hw lim hle ht
  obtain ⟨T', hT'⟩ := ShowsTop.exists (lookOf (o.withChildLimitFn (fun q => .ok (lim q)))) (narrow lim t)
  have hn := narrow_named lim t hp.named
  have hr := C01_text_returned ht' hn (fun q h => hq t ht q (narrow_paths lim t q h)) hT'
  exact ⟨t, T, T', _, ht, hp, hr, hn, hT', rfl⟩

/-- Example: the demo tree narrowed to one child in `/r/a` and two elsewhere is the tree scanned with these limits. -/
example : scanned Demo.dfs Path.root Demo.limited Demo.r = .ok (narrow (fun q => if q = Demo.a then 1 else 2) Demo.found) :=
  C12_smaller_limits_narrow rfl _ (fun q n hn => by cases hn; exact .inl (by decide)) Demo.scanned_found

example : narrow (fun q => if q = Demo.a then 1 else 2) Demo.found =
    .dir Demo.r [.dir Demo.a [.file Demo.x ⟨false, false⟩, .skipped Demo.a], .file Demo.b ⟨false, false⟩, .skipped Demo.r] := rfl

/-- The hypotheses of the text form hold on the demo disk. -/
example := C12_text (fs := Demo.dfs) (cwd := Path.root) (o := Demo.dflt) (p := Demo.r) rfl (fun _ => 1) (fun q n hn => by cases hn; exact .inl (by decide)) Demo.printed_found
  (fun t _ q _ => ⟨⟨none, rfl⟩, fun g hg => by cases hg⟩)

end JFTP
