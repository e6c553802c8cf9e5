import Verif.Props.Printed
import Verif.Props.Paths

/-!
C59, C60: kind matchers and glob matchers.
-/

namespace JFTP
open Spec PathMatchers

/-! ### C59 -/

/-- **C59**: whatever the file system (stateful, failing), `isFile` asks it one question and answers the opposite of `isDirectory`. -/
theorem C59_isFile {m : Type → Type} [Monad m] [LawfulMonad m] [MonadExceptOf Exn m] (fs : Fs m) (p : Path) :
    isFile fs p = (fun b => !b) <$> isDirectory fs p := by
  unfold isFile PathMatchers.not
  rw [map_eq_pure_bind]

section
variable (disk : Node) (p : Path)

/-- **C59**: on every disk, each kind matcher recognises exactly its kind of entry, links not being followed; `isFile` accepts everything else than directories, missing paths included. -/
theorem C59_kinds :
    (isDirectory (m := Except Exn) disk.toFs.lift p = .ok true ↔ ∃ r cs, disk.at p = some (.dir r cs)) ∧
    (isRegularFile (m := Except Exn) disk.toFs.lift p = .ok true ↔ ∃ n, disk.at p = some (.regular n)) ∧
    (isSymbolicLink (m := Except Exn) disk.toFs.lift p = .ok true ↔ ∃ q, disk.at p = some (.symlink q)) ∧
    (isFile (m := Except Exn) disk.toFs.lift p = .ok true ↔ ∀ r cs, disk.at p ≠ some (.dir r cs)) := by
  unfold isFile PathMatchers.not isDirectory isRegularFile isSymbolicLink PureFs.lift Node.toFs
  dsimp only
  cases hn : disk.at p with
  | none => simp [pure, bind, Except.pure, Except.bind]
  | some n => cases n <;> simp [pure, bind, Except.pure, Except.bind]

/-- **C59**: no path is of two kinds; regular files and links are files. -/
theorem C59_exclusive {b c d f : Bool} (hd : isDirectory (m := Except Exn) disk.toFs.lift p = .ok b) (hr : isRegularFile (m := Except Exn) disk.toFs.lift p = .ok c)
    (hl : isSymbolicLink (m := Except Exn) disk.toFs.lift p = .ok d) (hf : isFile (m := Except Exn) disk.toFs.lift p = .ok f) :
    (b && c) = false ∧ (b && d) = false ∧ (c && d) = false ∧ (c = true → f = true) ∧ (d = true → f = true) := by
  obtain ⟨h1, h2, h3, h4⟩ := C59_kinds disk p
  rw [hd] at h1; rw [hr] at h2; rw [hl] at h3; rw [hf] at h4
  simp only [Except.ok.injEq] at h1 h2 h3 h4
  cases hn : disk.at p with
  | none => simp [hn] at h1 h2 h3 h4; simp [h1, h2, h3]
  | some n => cases n <;> simp [hn] at h1 h2 h3 h4 <;> simp [h1, h2, h3, h4]

end

/-- Everything displayed except the printed path itself passed the filter for its kind. -/
theorem displayed_passes {fs : PureFs} {cwd : Path} {o : Options (Except Exn)} (hw : cwd.abs = true) (hc : LawfulCmp o.pathComparator) {p : Path} {t : TreeEntry}
    (h : scanned fs cwd o p = .ok t) {q : Path} (hq : q ∈ entryPaths t) :
    q = target cwd p ∨ (if fs.isDir q = true then o.dirMatcher q else o.fileMatcher q) = .ok true := by
  obtain ⟨n, x, hb, hx⟩ := mem_entryPaths.1 hq
  have hv := (scanned_sound hw hc h).visited hb hx
  generalize 0 + n = k at hv
  cases hv with
  | top => exact .inl rfl
  | child _ _ _ _ _ hk hp _ hm =>
    have hm := hp.mem_iff.1 ((limitTo_sublist _ _).subset hm)
    rw [kept_filter hk] at hm
    have := (List.mem_filter.1 hm).2
    unfold passes at this
    right
    revert this
    generalize (if fs.isDir q = true then o.dirMatcher q else o.fileMatcher q) = r
    cases r with
    | error e => intro h; cases h
    | ok b => intro h; rw [show b = true from h]

section
variable {disk : Node} {cwd : Path} {o : Options (Except Exn)} {p : Path} {s : JStr}

/-- **C59** in filters: with `filterFiles(isRegularFile())` the returned text shows, besides the printed path, only directories and regular files: neither links nor special files. -/
theorem C59_filter_regular_files (hw : cwd.abs = true) (hc : LawfulCmp o.pathComparator)
    (h : prettyPrint disk.toFs.lift cwd (o.filterFiles (isRegularFile disk.toFs.lift)) p = .ok s) :
    ∃ t T, scanned disk.toFs cwd (o.filterFiles (isRegularFile disk.toFs.lift)) p = .ok t ∧ Prints (o.filterFiles (isRegularFile disk.toFs.lift)) t T s ∧
      ∀ q ∈ entryPaths t, q = target cwd p ∨ (∃ r cs, disk.at q = some (.dir r cs)) ∨ ∃ n, disk.at q = some (.regular n) := by
  obtain ⟨t, T, ht, hp⟩ := printed h
  refine ⟨t, T, ht, hp, fun q hq => ?_⟩
  rcases displayed_passes (o := o.filterFiles (isRegularFile disk.toFs.lift)) hw hc ht hq with h | h
  · exact .inl h
  · right
    split at h
    · rename_i hd; exact .inl ((C59_kinds disk q).1.1 (by unfold isDirectory PureFs.lift; dsimp only; rw [hd]; rfl))
    · exact .inr ((C59_kinds disk q).2.1.1 h)

/-- **C59** in filters: a directory filter never sees a link: with `filterDirectories(isSymbolicLink())` no directory is displayed except the printed path. -/
theorem C59_filter_directories_by_link (hw : cwd.abs = true) (hc : LawfulCmp o.pathComparator)
    (h : prettyPrint disk.toFs.lift cwd (o.filterDirectories (isSymbolicLink disk.toFs.lift)) p = .ok s) :
    ∃ t T, scanned disk.toFs cwd (o.filterDirectories (isSymbolicLink disk.toFs.lift)) p = .ok t ∧ Prints (o.filterDirectories (isSymbolicLink disk.toFs.lift)) t T s ∧
      ∀ q ∈ entryPaths t, q = target cwd p ∨ ∀ r cs, disk.at q ≠ some (.dir r cs) := by
  obtain ⟨t, T, ht, hp⟩ := printed h
  refine ⟨t, T, ht, hp, fun q hq => ?_⟩
  rcases displayed_passes (o := o.filterDirectories (isSymbolicLink disk.toFs.lift)) hw hc ht hq with h | h
  · exact .inl h
  · right
    intro r cs hn
    split at h
    · obtain ⟨x, hx⟩ := (C59_kinds disk q).2.2.1.1 h
      rw [hn] at hx; cases hx
    · rename_i hd
      exact hd (by unfold Node.toFs; simp [hn])

end

/-- The demo options with `filterFiles(isRegularFile())`. -/
def Demo.regularOnly : Options (Except Exn) := Demo.dflt.filterFiles (isRegularFile Demo.linkDisk.toFs.lift)

theorem Demo.scanned_regular : scanned Demo.linkDisk.toFs Path.root Demo.regularOnly Demo.r = .ok (.dir Demo.r [.file Demo.rb ⟨false, false⟩]) := by
  refine scanned_complete rfl lawful_ALPHABETICAL (sort_distinguishes lawful_const Demo.linkDisk_wf.proper) ?_
  exact Scanned.dir (A := answers Demo.linkDisk.toFs Demo.regularOnly) (c := PathSorts.ALPHABETICAL) (maxDepth := 20) (k := 0) (p := Demo.r) (n := -1)
    (cs := [Demo.rb, Demo.rl]) (ks := [Demo.rb]) (srt := [Demo.rb]) (es := [.file Demo.rb ⟨false, false⟩])
    rfl (by decide) rfl rfl (.keep rfl (.drop rfl .nil)) (by decide) (by decide) (.cons (.file rfl rfl) .nil)

/-- Example: `/r/{b, l -> /r/b}`; only `b` passes `isRegularFile`, only `l` is a link. -/
theorem Demo.printed_regular : prettyPrint Demo.linkDisk.toFs.lift Path.root Demo.regularOnly Demo.r =
    .ok (j!"r/" ++ NL :: j!"└─ b") := by
  rw [prettyPrint_eq, Demo.scanned_regular]
  have h := C01_render_is_picture (m := Except Exn) Demo.regularOnly.toRender (plain false) (fun _ => rfl) rfl (fun _ => rfl)
    (.dir Demo.r [.file Demo.rb ⟨false, false⟩]) (by simp [Named, NamedAll, Demo.r, Demo.rb]) _ (.dir (.cons .file .nil))
  show Renderer.renderRoot _ _ _ = _
  rw [h]
  rfl

example := C59_filter_regular_files (o := Demo.dflt) rfl lawful_ALPHABETICAL Demo.printed_regular
example : isSymbolicLink (m := Except Exn) Demo.linkDisk.toFs.lift Demo.rl = .ok true ∧ isFile (m := Except Exn) Demo.linkDisk.toFs.lift Demo.rl = .ok true ∧
    isRegularFile (m := Except Exn) Demo.linkDisk.toFs.lift Demo.rl = .ok false ∧ isDirectory (m := Except Exn) Demo.linkDisk.toFs.lift Demo.rl = .ok false := by decide

/-! ### C60 -/

section
variable {m : Type → Type} [Monad m] (glob : GlobCompiler) (cwd ref : Path) (g : JStr)

/-- **C60**: the glob `*` gives, in all three glob matchers, a matcher that accepts every path, also in other directories and also a root. -/
theorem C60_star (p : Path) :
    (∃ mt : Matcher m, hasNameMatchingGlob glob j!"*" = .ok mt ∧ mt p = pure true) ∧
    (∃ mt : Matcher m, hasAbsolutePathMatchingGlob glob cwd j!"*" = .ok mt ∧ mt p = pure true) ∧
    (∃ mt : Matcher m, hasRelativePathMatchingGlob glob cwd ref j!"*" = .ok mt ∧ mt p = pure true) :=
  ⟨⟨_, rfl, rfl⟩, ⟨_, rfl, rfl⟩, ⟨_, rfl, rfl⟩⟩

/-- **C60**: a glob the platform rejects is rejected when the matcher is created, with the platform's exception, never while printing. -/
theorem C60_rejected (hs : g ≠ j!"*") (x : Exn) (hg : glob g = .error x) :
    hasNameMatchingGlob (m := m) glob g = .error x ∧ hasAbsolutePathMatchingGlob (m := m) glob cwd g = .error x ∧
    hasRelativePathMatchingGlob (m := m) glob cwd ref g = .error x := by
  unfold hasNameMatchingGlob hasAbsolutePathMatchingGlob hasRelativePathMatchingGlob
  simp only [if_neg hs, hg]
  exact ⟨rfl, rfl, rfl⟩

/-- **C60**: any other glob is compiled once and then applied to the absolute normalized path (paths that climb above the working directory apart, see C45). -/
theorem C60_absolute (hs : g ≠ j!"*") {G : Path → Bool} (hg : glob g = .ok G) (hw : cwd.abs = true) (hc : ∀ n ∈ cwd.names, n ≠ j!"." ∧ n ≠ j!"..") :
    ∃ mt : Matcher m, hasAbsolutePathMatchingGlob glob cwd g = .ok mt ∧
      ∀ p : Path, p.Valid → ¬ (p.abs = false ∧ p.normalize.names.head? = some j!"..") → mt p = pure (G (target cwd p)) := by
  unfold hasAbsolutePathMatchingGlob
  rw [if_neg hs, hg]
  exact ⟨_, rfl, fun p hv h => C45_documented_partial hw hc hv h _⟩

/-- **C60**: the relative form is applied to the way from the reference to the path: for a path below the reference, to the remaining names, whatever spelling was used. -/
theorem C60_relative (hs : g ≠ j!"*") {G : Path → Bool} (hg : glob g = .ok G) (hw : cwd.abs = true) (hr : ref.Valid) :
    ∃ mt : Matcher m, hasRelativePathMatchingGlob glob cwd ref g = .ok mt ∧
      (∀ p : Path, p.Valid → ∃ w, Way (target cwd ref).names (target cwd p).names w ∧ mt p = pure (G (relPath w))) ∧
      ∀ (p : Path) (rest : List JStr), p.Valid → (target cwd p).names = (target cwd ref).names ++ rest → mt p = pure (G (relPath rest)) := by
  unfold hasRelativePathMatchingGlob
  rw [if_neg hs, hg]
  exact ⟨_, rfl, fun p hp => C46_way hw hr hp _, fun p rest hp h => C46_below hw hr hp _ rest h⟩

end

/-- Example: with a compiler that reads a glob as a name to be found in the path, the glob `b` accepts `b/c` seen from `/r`. -/
example : ∃ mt : Matcher (Except Exn), hasRelativePathMatchingGlob (fun g => .ok (fun p => decide (g ∈ p.names))) Demo.r Demo.r j!"b" = .ok mt ∧
    mt ⟨false, [j!"b", j!"c"]⟩ = .ok true ∧ mt ⟨false, [j!"..", j!"r", j!"c"]⟩ = .ok false := ⟨_, rfl, by decide, by decide⟩

end JFTP
