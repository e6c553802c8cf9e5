import Verif.Props.GlobSegments

/-!
C99: relative path matchers on paths outside the reference directory.
-/

namespace JFTP
open Spec PathMatchers Globs Spec.Glob Spec.GlobL

section
variable {m : Type → Type} [Monad m] (odd : GlobCompiler)

theorem way_slash {a b w : List JStr} (h : Way a b w) (hb : ∀ n ∈ b, SLASH ∉ n) : ∀ n ∈ w, SLASH ∉ n := by
  obtain ⟨c, u, d, h1, h2, rfl, _⟩ := h.way
  intro n hn
  rcases List.mem_append.1 hn with hn | hn
  · obtain ⟨_, rfl⟩ := List.mem_replicate.1 hn; decide
  · exact hb n (by rw [h2]; exact List.mem_append_right _ hn)

/-- **C99**: on one root `hasRelativePathMatching` never throws of its own: every path, outside the reference directory too, is answered by the given matcher on the way from the reference. -/
theorem C99_never_throws {cwd ref p : Path} (hw : cwd.abs = true) (hr : ref.Valid) (hp : p.Valid) (mt : Matcher m) {w : List JStr}
    (h : Way (target cwd ref).names (target cwd p).names w) : hasRelativePathMatching cwd ref mt p = mt (relPath w) := by
  obtain ⟨w', h1, h2⟩ := C46_way hw hr hp mt
  rw [h2, h1.unique h]

/-- **C99**: a relative path glob answers for every path: its segments must accept the names on the way, in which a path outside the reference directory has leading `..`. -/
theorem C99_glob {segs : List Segment} (hs : segs ≠ []) (h : ∀ s ∈ segs, s.Ok) (hstar : writeSegments segs ≠ j!"*") {cwd ref : Path} (hw : cwd.abs = true) (hr : ref.Valid) :
    ∃ (mt : Matcher m) (b : Path → Bool), hasRelativePathMatchingGlob (getPathMatcher odd) cwd ref (writeSegments segs) = .ok mt ∧ (∀ p, mt p = pure (b p)) ∧
      ∀ (p : Path) (w : List JStr), p.Valid → Way (target cwd ref).names (target cwd p).names w → (∀ n ∈ (target cwd p).names, SLASH ∉ n) →
        (b p = true ↔ Accepts segs (relativeParts w)) := by
  obtain ⟨ps, h1, h2, h3⟩ := segments_pattern hs h
  obtain ⟨mt, b, e1, e2, e3, _⟩ := C78_relative (m := m) odd h1 (by rw [h2]; exact hstar) hw hr
  refine ⟨mt, b, by rw [← h2]; exact e1, e2, fun p w hv hway hsl => ?_⟩
  obtain ⟨w', h4, h5⟩ := e3 p hv
  obtain rfl := h4.unique hway
  rw [h5, ← joinSlash_relativeParts, h3 _ (relativeParts_ne _) (relativeParts_slash (way_slash hway hsl))]

/-- **C99**: outside the reference directory (neither below it nor above it) `**/*.ext` accepts exactly the paths whose name ends with `.ext`, whatever their directory. -/
theorem C99_extension {ext : JStr} (h : ∀ c ∈ ext, Glob.plain false c ∧ c ≠ SLASH) {cwd ref : Path} (hw : cwd.abs = true) (hr : ref.Valid) :
    ∃ (mt : Matcher m) (b : Path → Bool), hasRelativePathMatchingGlob (getPathMatcher odd) cwd ref (j!"**/*." ++ ext) = .ok mt ∧ (∀ p, mt p = pure (b p)) ∧
      ∀ p : Path, p.Valid → (∀ n ∈ (target cwd p).names, SLASH ∉ n) → OneLine (target cwd p).names →
        ¬ (target cwd ref).names <+: (target cwd p).names → ¬ (target cwd p).names <+: (target cwd ref).names →
          (b p = true ↔ ∃ base, (target cwd p).names.getLast? = some (base ++ j!"." ++ ext)) := by
  obtain ⟨mt, b, e1, e2, e3⟩ := C99_glob (m := m) odd (by simp [extSegs]) (extSegs_ok h) (extSegs_star ext) hw hr
  refine ⟨mt, b, by rw [← extSegs_write]; exact e1, e2, fun p hv hsl hol h1 h2 => ?_⟩
  obtain ⟨w, hway, -⟩ := C46_way (m := Id) hw hr hv (fun _ => pure true)
  rw [e3 p w hv hway hsl, extSegs_accepts (way_slash hway hsl)]
  obtain ⟨c, u, d, k1, k2, rfl, _⟩ := hway.way
  have hu : u ≠ [] := by rintro rfl; exact h1 ⟨d, by rw [k1, k2]; simp⟩
  have hd : d ≠ [] := by rintro rfl; exact h2 ⟨u, by rw [k1, k2]; simp⟩
  obtain ⟨d', x, rfl⟩ : ∃ d' x, d = d' ++ [x] := ⟨d.dropLast, d.getLast hd, (List.dropLast_append_getLast hd).symm⟩
  constructor
  · rintro ⟨dirs, base, -, -, e⟩
    rw [← List.append_assoc] at e
    exact ⟨base, by rw [k2, ← List.append_assoc, List.getLast?_concat, (List.append_inj' e rfl).2 |> List.singleton_inj.1]⟩
  · rintro ⟨base, e⟩
    rw [k2, ← List.append_assoc, List.getLast?_concat] at e
    injection e with e
    refine ⟨List.replicate u.length j!".." ++ d', base, ?_, ?_, by rw [← e, List.append_assoc]⟩
    · cases u with
      | nil => exact absurd rfl hu
      | cons _ _ => simp [List.replicate_succ]
    · intro n hn
      rcases List.mem_append.1 hn with hn | hn
      · obtain ⟨_, rfl⟩ := List.mem_replicate.1 hn; decide
      · exact hol n (by rw [k2]; simp [hn])

/-- **C99**: the example of the documentation (PathMatchers.java:327-334, with the slash that is meant by its backslash, see C115) does not throw on `/tmp/file.java`: it accepts it, as it accepts `/home/user/project/src/Main.java`. -/
theorem C99_documented_example {cwd : Path} (hw : cwd.abs = true) :
    ∃ mt : Matcher m, hasRelativePathMatchingGlob (getPathMatcher odd) cwd (Path.ofString j!"/home/user/project") j!"**/*.java" = .ok mt ∧
      mt (Path.ofString j!"/tmp/file.java") = pure true ∧ mt (Path.ofString j!"/home/user/project/src/Main.java") = pure true ∧
      mt (Path.ofString j!"/home/user/project/Main.java") = pure false := by
  have hj : ∀ c ∈ j!"java", Glob.plain false c ∧ c ≠ SLASH := by simp [Glob.plain, SLASH]
  have ha : ∀ p : Path, p.abs = true → target cwd p = p.normalize := fun p hp => by rw [target, Path.toAbsolutePath, if_pos hp]
  have e0 : (target cwd (Path.ofString j!"/home/user/project")).names = [j!"home", j!"user", j!"project"] := by rw [ha _ (by decide)]; decide
  have e1 : (target cwd (Path.ofString j!"/tmp/file.java")).names = [j!"tmp", j!"file.java"] := by rw [ha _ (by decide)]; decide
  have e2 : (target cwd (Path.ofString j!"/home/user/project/src/Main.java")).names = [j!"home", j!"user", j!"project"] ++ [j!"src", j!"Main.java"] := by rw [ha _ (by decide)]; decide
  have e3 : (target cwd (Path.ofString j!"/home/user/project/Main.java")).names = [j!"home", j!"user", j!"project"] ++ [j!"Main.java"] := by rw [ha _ (by decide)]; decide
  obtain ⟨mt, b, h1, h2, h3⟩ := C99_glob (m := m) odd (by simp [extSegs]) (extSegs_ok hj) (extSegs_star _) hw (ref := Path.ofString j!"/home/user/project") (.inr (by decide))
  rw [extSegs_write] at h1
  refine ⟨mt, h1, ?_, ?_, ?_⟩ <;> rw [h2] <;> congr 1
  · rw [h3 _ [j!"..", j!"..", j!"..", j!"tmp", j!"file.java"] (.inr (by decide)) ?_ (by rw [e1]; decide), extSegs_accepts (by decide)]
    · exact ⟨[j!"..", j!"..", j!"..", j!"tmp"], j!"file", by simp, by unfold OneLine; decide, by decide⟩
    · rw [e0, e1]; exact ⟨⟨[], _, _, rfl, rfl, rfl, by rintro _ _ _ _ h h'; cases h; cases h'; decide⟩⟩
  · rw [h3 _ [j!"src", j!"Main.java"] (.inr (by decide)) ?_ (by rw [e2]; decide), extSegs_accepts (by decide)]
    · exact ⟨[j!"src"], j!"Main", by simp, by unfold OneLine; decide, by decide⟩
    · rw [e0, e2]; exact ⟨⟨_, [], _, by simp, rfl, rfl, by simp⟩⟩
  · rw [Bool.eq_false_iff, ne_eq, h3 _ [j!"Main.java"] (.inr (by decide)) ?_ (by rw [e3]; decide), extSegs_accepts (by decide)]
    · rintro ⟨dirs, base, h, -, e⟩
      have k := congrArg List.length e
      have k' := List.length_pos_iff.2 h
      rw [List.length_append, List.length_singleton, List.length_singleton] at k
      omega
    · rw [e0, e3]; exact ⟨⟨_, [], _, by simp, rfl, rfl, by simp⟩⟩

end

/-- A file and a reference in different directories. -/
example := C99_never_throws (m := Except Exn) (cwd := Path.root) (ref := ⟨true, [j!"a", j!"b"]⟩) (p := ⟨true, [j!"a", j!"c"]⟩) rfl (.inr (by decide)) (.inr (by decide)) (fun _ => .error .illegalArgument)
  (w := [j!"..", j!"c"]) ⟨⟨[j!"a"], [j!"b"], [j!"c"], by decide, by decide, by decide, by rintro _ _ _ _ h h'; cases h; cases h'; decide⟩⟩

/-- `/a/x.java` and `/a/x.txt`, seen from `/b`: one is accepted, the other not. -/
example (odd : GlobCompiler) : ∃ mt : Matcher (Except Exn), hasRelativePathMatchingGlob (getPathMatcher odd) Path.root ⟨true, [j!"b"]⟩ j!"**/*.java" = .ok mt ∧
    mt ⟨true, [j!"a", j!"x.java"]⟩ = .ok true ∧ mt ⟨true, [j!"a", j!"x.txt"]⟩ = .ok false := by
  obtain ⟨mt, b, h1, h2, h3⟩ := C99_extension (m := Except Exn) odd (ext := j!"java") (by simp [Glob.plain, SLASH]) (cwd := Path.root) (ref := ⟨true, [j!"b"]⟩) rfl (.inr (by decide))
  refine ⟨mt, h1, ?_, ?_⟩ <;> rw [h2] <;> refine congrArg _ ?_
  · exact (h3 _ (.inr (by decide)) (by decide) (by unfold OneLine; decide) (by decide) (by decide)).2 ⟨j!"x", by decide⟩
  · rw [Bool.eq_false_iff, ne_eq, h3 _ (.inr (by decide)) (by decide) (by unfold OneLine; decide) (by decide) (by decide)]
    rintro ⟨base, e⟩
    have e' : some j!"x.txt" = some (base ++ j!"." ++ j!"java") := by rw [← e]; decide
    injection e' with e'
    have := congrArg List.getLast? e'
    simp at this

end JFTP
