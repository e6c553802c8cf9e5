import Verif.Lemmas.Move
import Verif.Lemmas.Disk
import Verif.Props.Layout
import Verif.Props.Printed

/-
C83: the text depends only on what is below the printed directory: moving or copying it does not change the text, renaming it changes only its own label.
-/

namespace JFTP
open Spec

theorem extensionOf_toRender (o : Options (Except Exn)) (p : Path) : extensionOf o.toRender p = extAnswer o p := by
  unfold extensionOf extAnswer Options.toRender
  cases o.lineExtension <;> rfl

theorem joinLines_head (l : JStr) (ls : List JStr) : ∃ below, (below = [] ∨ ∃ t, below = NL :: t) ∧ ∀ l', joinLines (l' :: ls) = l' ++ below := by
  cases ls with
  | nil => exact ⟨[], .inl rfl, fun l' => by simp [joinLines]⟩
  | cons a ls => exact ⟨NL :: joinLines (a :: ls), .inr ⟨_, rfl⟩, fun l' => rfl⟩

theorem dispM_dir_mk {L : LookM (Except Exn)} {d : Path} {es : List TreeEntry} {n : JStr} {x : Option JStr} {ks : List Disp} (hn : dirsTextM L.emoji d [d] = .ok n)
    (hx : L.ext d = .ok x) (hk : dispKidsM L es = .ok ks) : dispM L true (.dir d es) = .ok (.node (n ++ x.getD []) ks) := by
  rw [dispM, dispDirM.eq_def]
  split
  · simp only [Bool.not_true, Bool.and_false, Bool.false_eq_true, if_false]
    rw [dispKidsM, dispKidsM] at hk
    obtain ⟨k, hk1, hk⟩ := except_bind_ok hk
    cases hk
    rw [hn, hx, hk1]; rfl
  · rw [hn, hx, hk]; rfl

variable {fs fs' : PureFs} {cwd cwd' p p' : Path} {o o' : Options (Except Exn)} {b b' : List JStr} {s : JStr}

/-- **C83**, renaming: let the same entries be below `/b` and `/b'`, and let the callbacks answer the same for everything found there. If the tree of `/b` is printed, it is the label of
`/b` (emoji, name, mark, extension) and the lines below it; the tree of `/b'` is then its label (if emoji mapping and extension function answer for `/b'`, and it is not
the root) and the very same lines below. -/
theorem C83_rename (hw : cwd.abs = true) (hw' : cwd'.abs = true) (hs : SameBelow fs fs' b b') (ho : SameAnswers fs o o' b b') (hc : LawfulCmp o.pathComparator)
    (hc' : LawfulCmp o'.pathComparator) (hd' : DistinguishesAll o'.pathComparator fs') (hp : target cwd p = under b []) (hp' : target cwd' p' = under b' [])
    (h : prettyPrint fs.lift cwd o p = .ok s) :
    ∃ n e x mark below, b.getLast? = some n ∧ o.emojiMapping (under b []) = .ok e ∧ extAnswer o (under b []) = .ok x ∧
      (mark = j!"/" ↔ fs.isDir (under b []) = true) ∧ (below = [] ∨ ∃ t, below = NL :: t) ∧ s = topLabel e n mark x ++ below ∧
      ∀ n' e' x', b'.getLast? = some n' → o'.emojiMapping (under b' []) = .ok e' → extAnswer o' (under b' []) = .ok x' →
        prettyPrint fs'.lift cwd' o' p' = .ok (topLabel e' n' mark x' ++ below) := by
  rw [prettyPrint_eq] at h
  obtain ⟨t, ht, h⟩ := except_bind_ok h
  have hsc := scanned_sound hw hc ht
  rw [hp] at hsc
  have hsc' := hsc.move hs ho .here
  rw [← ho.maxDepth, ← hp'] at hsc'
  have ht' := scanned_complete hw' hc' hd' hsc'
  rw [C01_render_is_picture_effectful] at h
  obtain ⟨D, hD, h⟩ : ∃ D, dispM (m := Except Exn) ⟨o.toRender.emojiMapping, o.toRender.compactDirectories, extensionOf o.toRender⟩ true t = .ok D ∧ s = picture o.toRender.treeFormat D := by
    revert h
    generalize dispM (m := Except Exn) ⟨o.toRender.emojiMapping, o.toRender.compactDirectories, extensionOf o.toRender⟩ true t = r
    cases r with
    | error e => intro h; cases h
    | ok D => intro h; cases h; exact ⟨D, rfl, rfl⟩
  have hpp : ∀ D', dispM (m := Except Exn) ⟨o'.toRender.emojiMapping, o'.toRender.compactDirectories, extensionOf o'.toRender⟩ true (mapPaths (relocate b b') t) = .ok D' →
      prettyPrint fs'.lift cwd' o' p' = .ok (picture o'.toRender.treeFormat D') := by
    intro D' hD'
    rw [prettyPrint_eq, ht']
    show Renderer.renderRoot o'.toRender (LineRenderer.create o'.toRender) _ = _
    rw [C01_render_is_picture_effectful, hD']
    rfl
  have hfmt : o'.toRender.treeFormat = o.toRender.treeFormat := ho.format
  rw [hfmt] at hpp
  have hlast : ∀ {n : JStr}, (under b []).names.getLast? = some n → b.getLast? = some n := by intro n h; simpa [under] using h
  have hlast' : ∀ {n : JStr}, b'.getLast? = some n → (under b' []).names.getLast? = some n := by intro n h; simpa [under] using h
  obtain ⟨-, hkids⟩ := hsc.under_paths hs .here
  have dirCase : ∀ es, t = .dir (under b []) es → fs.isDir (under b []) = true →
      ∃ n e x mark below, b.getLast? = some n ∧ o.emojiMapping (under b []) = .ok e ∧ extAnswer o (under b []) = .ok x ∧
      (mark = j!"/" ↔ fs.isDir (under b []) = true) ∧ (below = [] ∨ ∃ t, below = NL :: t) ∧ s = topLabel e n mark x ++ below ∧
      ∀ n' e' x', b'.getLast? = some n' → o'.emojiMapping (under b' []) = .ok e' → extAnswer o' (under b' []) = .ok x' →
        prettyPrint fs'.lift cwd' o' p' = .ok (topLabel e' n' mark x' ++ below) := by
    intro es hes hisd
    subst hes
    obtain ⟨nm, x, ks, hnm, hx, hks, rfl⟩ := dispM_dir_ok hD
    unfold dirsTextM at hnm
    obtain ⟨e, he, hnm⟩ := except_bind_ok hnm
    obtain ⟨ns, hns, hnm⟩ := except_bind_ok hnm
    cases hnm
    rw [namesM, namesM] at hns
    obtain ⟨n, hn, rfl⟩ : ∃ n, (under b []).names.getLast? = some n ∧ ns = n ++ j!"/" := by
      split at hns
      · rename_i n heq; cases hns; exact ⟨n, heq, by simp⟩
      · cases hns
    have hx : extAnswer o (under b []) = .ok x := by rw [← extensionOf_toRender]; exact hx
    obtain ⟨below, hb, hjl⟩ := joinLines_head [] (layoutKids o.toRender.treeFormat ks)
    refine ⟨n, e, x, j!"/", below, hlast hn, he, hx, by simp [hisd], hb, ?_, ?_⟩
    · rw [h, picture, layout, hjl]; simp [topLabel]
    · intro n' e' x' hn' he' hx'
      have hk' : dispKidsM (m := Except Exn) ⟨o'.toRender.emojiMapping, o'.toRender.compactDirectories, extensionOf o'.toRender⟩ (mapPathsAll (relocate b b') es) = .ok ks := by
        rw [← hks]
        refine dispKidsM_map ho.compact es ?_
        intro x hx q hq
        obtain ⟨r, hr, _, hf, rfl⟩ := hkids _ _ rfl x hx q hq
        rw [LookM.Same, relocate_under]
        dsimp only
        rw [extensionOf_toRender, extensionOf_toRender]
        refine ⟨ho.emoji r hr hf, ho.ext r hr hf, ?_⟩
        simp only [under, List.getLast?_append_of_ne_nil _ hr]
      rw [hpp (.node (emojiText e' ++ (n' ++ j!"/" ++ []) ++ x'.getD []) ks) ?_]
      · rw [picture, layout, hjl]; simp [topLabel]
      · rw [mapPaths, relocate_under]
        refine dispM_dir_mk ?_ ?_ hk'
        · unfold dirsTextM
          rw [namesM, namesM, show (under b' []).names.getLast? = some n' from hlast' hn']
          dsimp only
          rw [show o'.toRender.emojiMapping (under b' []) = .ok e' from he']
          rfl
        · dsimp only
          rw [extensionOf_toRender, hx']
  cases hsc with
  | @file _ _ a h1 h2 =>
    rw [dispM] at hD
    obtain ⟨nm, hnm, hD⟩ := except_bind_ok hD
    obtain ⟨x, hx, hD⟩ := except_bind_ok hD
    cases hD
    unfold fileTextM nameM at hnm
    obtain ⟨e, he, hnm⟩ := except_bind_ok hnm
    obtain ⟨n, hn, hnm⟩ := except_bind_ok hnm
    cases hnm
    have hn : (under b []).names.getLast? = some n := by
      split at hn
      · rename_i heq; rw [heq]; cases hn; rfl
      · cases hn
    have hx : extAnswer o (under b []) = .ok x := by rw [← extensionOf_toRender]; exact hx
    refine ⟨n, e, x, fileMark a, [], hlast hn, he, hx, ?_, .inl rfl, ?_, ?_⟩
    · have h1 : fs.isDir (under b []) = false := h1
      rw [h1]
      simp only [Bool.false_eq_true, iff_false]
      unfold fileMark
      split
      · decide
      · split <;> decide
    · rw [h]; simp [picture, layout, layoutKids, joinLines, topLabel]
    · intro n' e' x' hn' he' hx'
      rw [hpp (.node (emojiText e' ++ n' ++ fileMark a ++ x'.getD []) []) ?_]
      · simp [picture, layout, layoutKids, joinLines, topLabel]
      · rw [mapPaths, relocate_under, dispM]
        unfold fileTextM nameM
        dsimp only
        rw [show (under b' []).names.getLast? = some n' from hlast' hn', extensionOf_toRender, hx', show o'.toRender.emojiMapping (under b' []) = .ok e' from he']
        rfl
  | tooDeep h1 h2 => exact dirCase _ rfl h1
  | @dir _ _ n cs ks srt es h1 hk h2 h3 h4 h5 h6 h7 => exact dirCase _ rfl h1

theorem Spec.SameBelow.symm (h : SameBelow fs fs' b b') : SameBelow fs' fs b' b where
  isDir r := (h.isDir r).symm
  attrs r := (h.attrs r).symm
  list r := by
    rcases h.list r with ⟨x, y⟩ | ⟨ns, ns', bad, x, y, z⟩
    · exact .inl ⟨y, x⟩
    · exact .inr ⟨ns', ns, bad, y, x, z.symm⟩

theorem Spec.SameAnswers.symm (hs : SameBelow fs fs' b b') (h : SameAnswers fs o o' b b') : SameAnswers fs' o' o b' b where
  childLimit r hf := (h.childLimit r (hs.symm.found hf)).symm
  dirMatcher r hr hf := (h.dirMatcher r hr (hs.symm.found hf)).symm
  fileMatcher r hr hf := (h.fileMatcher r hr (hs.symm.found hf)).symm
  comparator r r' hr hr' hf hf' := (h.comparator r r' hr hr' (hs.symm.found hf) (hs.symm.found hf')).symm
  emoji r hr hf := (h.emoji r hr (hs.symm.found hf)).symm
  ext r hr hf := (h.ext r hr (hs.symm.found hf)).symm
  maxDepth := h.maxDepth.symm
  compact := h.compact.symm
  format := h.format.symm

theorem move_ok (hw : cwd.abs = true) (hw' : cwd'.abs = true) (hs : SameBelow fs fs' b b') (ho : SameAnswers fs o o' b b') (hc : LawfulCmp o.pathComparator)
    (hc' : LawfulCmp o'.pathComparator) (hd' : DistinguishesAll o'.pathComparator fs') (hp : target cwd p = under b []) (hp' : target cwd' p' = under b' [])
    (hn : b'.getLast? = b.getLast?) (he : o'.emojiMapping (under b' []) = o.emojiMapping (under b [])) (hx : extAnswer o' (under b' []) = extAnswer o (under b []))
    (h : prettyPrint fs.lift cwd o p = .ok s) : prettyPrint fs'.lift cwd' o' p' = .ok s := by
  obtain ⟨n, e, x, mark, below, h1, h2, h3, _, _, rfl, h5⟩ := C83_rename hw hw' hs ho hc hc' hd' hp hp' h
  exact h5 n e x (hn.trans h1) (he.trans h2) (hx.trans h3)

/-- **C83**, moving: let the same entries be below `/b` and `/b'`, two directories (or files) of the same name, possibly on different machines, and let the callbacks answer
at both places the same. Then both are printed with exactly the same text, or for neither of them a text is returned. -/
theorem C83_move (hw : cwd.abs = true) (hw' : cwd'.abs = true) (hs : SameBelow fs fs' b b') (ho : SameAnswers fs o o' b b') (hc : LawfulCmp o.pathComparator)
    (hc' : LawfulCmp o'.pathComparator) (hd : DistinguishesAll o.pathComparator fs) (hd' : DistinguishesAll o'.pathComparator fs') (hp : target cwd p = under b [])
    (hp' : target cwd' p' = under b' []) (hn : b'.getLast? = b.getLast?) (he : o'.emojiMapping (under b' []) = o.emojiMapping (under b []))
    (hx : extAnswer o' (under b' []) = extAnswer o (under b [])) (s : JStr) : prettyPrint fs'.lift cwd' o' p' = .ok s ↔ prettyPrint fs.lift cwd o p = .ok s :=
  ⟨move_ok hw' hw hs.symm (ho.symm hs) hc' hc hd hp' hp hn.symm he.symm hx.symm, move_ok hw hw' hs ho hc hc' hd' hp hp' hn he hx⟩

/-- The default options answer everywhere the same. -/
theorem sameAnswers_default : SameAnswers fs Options.createDefault Options.createDefault b b' where
  childLimit _ _ := rfl
  dirMatcher _ _ _ := rfl
  fileMatcher _ _ _ := rfl
  comparator r1 r2 h1 h2 _ _ := by
    show PathSorts.ALPHABETICAL _ _ = PathSorts.ALPHABETICAL _ _
    simp only [PathSorts.ALPHABETICAL, PathSorts.nameKey, Path.getFileName, under, List.getLast?_append_of_ne_nil _ h1, List.getLast?_append_of_ne_nil _ h2]
  emoji _ _ _ := rfl
  ext _ _ _ := rfl
  maxDepth := rfl
  compact := rfl
  format := rfl

/-- **C83** with the default options: nothing is required of them. -/
theorem C83_default (hw : cwd.abs = true) (hw' : cwd'.abs = true) (hs : SameBelow fs fs' b b') (hfs : ProperFs fs) (hfs' : ProperFs fs') (hp : target cwd p = under b [])
    (hp' : target cwd' p' = under b' []) (hn : b'.getLast? = b.getLast?) (s : JStr) :
    prettyPrint fs'.lift cwd' (Options.createDefault (m := Except Exn)) p' = .ok s ↔ prettyPrint fs.lift cwd (Options.createDefault (m := Except Exn)) p = .ok s :=
  C83_move hw hw' hs sameAnswers_default lawful_ALPHABETICAL lawful_ALPHABETICAL (sort_distinguishes lawful_const hfs) (sort_distinguishes lawful_const hfs') hp hp' hn rfl rfl s

theorem getPathEmoji_same {f : EmojiMapping} {live : EmojiMappingBuilder (Except Exn)} (h1 : live.dirMatchersEmojis = []) (h2 : live.fileMatchersEmojis = []) {q q' : Path}
    (hd : fs'.isDir q' = fs.isDir q) (hq : q'.getFileName = q.getFileName) : f.getPathEmoji fs'.lift live q' = f.getPathEmoji fs.lift live q := by
  unfold EmojiMapping.getPathEmoji PathMatchers.isDirectory PureFs.lift
  simp only [h1, h2, pathMatcherEmoji, sequentialEmoji, pathNameEmoji, pathExtensionEmoji, hq, hd]

/-- **C83** for all options without user-written functions (the emoji mapping may map names and extensions, but has no matchers). -/
theorem C83_builtin (hw : cwd.abs = true) (hw' : cwd'.abs = true) (hs : SameBelow fs fs' b b') (hfs : ProperFs fs) (hfs' : ProperFs fs') (hp : target cwd p = under b [])
    (hp' : target cwd' p' = under b' []) (hn : b'.getLast? = b.getLast?) (fmt : TreeFormat) (limit depth : Int) (compact : Bool)
    (em : Option (EmojiMapping × EmojiMappingBuilder (Except Exn)))
    (hem : ∀ f live, em = some (f, live) → live.dirMatchersEmojis = [] ∧ live.fileMatchersEmojis = []) (s : JStr) :
    prettyPrint fs'.lift cwd' (simpleOptions fs' fmt limit depth compact em) p' = .ok s ↔ prettyPrint fs.lift cwd (simpleOptions fs fmt limit depth compact em) p = .ok s := by
  have hlast : ∀ rest : List JStr, (under b' rest).getFileName = (under b rest).getFileName := by
    intro rest
    cases rest with
    | nil => simpa [Path.getFileName, under] using hn
    | cons r rest => simp only [Path.getFileName, under, List.getLast?_append_of_ne_nil _ (List.cons_ne_nil r rest)]
  cases em with
  | none =>
    exact C83_move (o := simpleOptions fs fmt limit depth compact none) (o' := simpleOptions fs' fmt limit depth compact none) hw hw' hs ⟨fun _ _ => rfl, fun _ _ _ => rfl, fun _ _ _ => rfl, sameAnswers_default.comparator, fun _ _ _ => rfl, fun _ _ _ => rfl, rfl, rfl, rfl⟩
      lawful_ALPHABETICAL lawful_ALPHABETICAL (sort_distinguishes lawful_const hfs) (sort_distinguishes lawful_const hfs') hp hp' hn rfl rfl s
  | some em =>
    obtain ⟨f, live⟩ := em
    obtain ⟨h1, h2⟩ := hem f live rfl
    exact C83_move (o := simpleOptions fs fmt limit depth compact (some (f, live))) (o' := simpleOptions fs' fmt limit depth compact (some (f, live))) hw hw' hs ⟨fun _ _ => rfl, fun _ _ _ => rfl, fun _ _ _ => rfl, sameAnswers_default.comparator,
        fun rest _ _ => getPathEmoji_same h1 h2 (hs.isDir rest) (hlast rest), fun _ _ _ => rfl, rfl, rfl, rfl⟩
      lawful_ALPHABETICAL lawful_ALPHABETICAL (sort_distinguishes lawful_const hfs) (sort_distinguishes lawful_const hfs') hp hp' hn
      (getPathEmoji_same h1 h2 (hs.isDir []) (hlast [])) rfl s

/-! ### Real disks -/

theorem Spec.get_append (t : Node) (b rest : List JStr) : t.get (b ++ rest) = (t.get b).bind fun n => n.get rest := by
  induction b generalizing t with
  | nil => simp [Node.get]
  | cons n b ih =>
    rw [List.cons_append]
    cases t with
    | dir rd cs =>
      simp only [Node.get]
      cases Node.lookupChild n cs with
      | none => rfl
      | some c => exact ih c
    | regular s => simp [Node.get]
    | special => simp [Node.get]
    | symlink q => simp [Node.get]

theorem Spec.follow_of_at {t : Node} {p : Path} (h : ∀ q, t.at p ≠ some (.symlink q)) (k : Nat) : t.follow (k + 1) p = t.at p := by
  rw [Node.follow]
  split
  · rename_i q hq; exact absurd hq (h q)
  · rfl

/-- The same node (without symbolic links in it) at two places of two disks. -/
theorem Spec.SameBelow.of_node {t t' : Node} (h : t'.get b' = t.get b) (hl : ∀ rest q, t.get (b ++ rest) ≠ some (.symlink q)) : SameBelow t.toFs t'.toFs b b' := by
  have hat : ∀ rest, t'.at (under b' rest) = t.at (under b rest) := by
    intro rest
    show t'.get (b' ++ rest) = t.get (b ++ rest)
    rw [get_append, get_append, h]
  have hl : ∀ rest q, t.at (under b rest) ≠ some (.symlink q) := hl
  have hch : ∀ b rest n, (under b rest).child n = under b (rest ++ [n]) := by
    intro b rest n
    rw [names_child rfl]; simp [under]
  constructor
  · intro rest
    simp only [Node.toFs, hat]
  · intro rest
    simp only [Node.toFs]
    rw [follow_of_at (fun q => by rw [hat]; exact hl rest q), follow_of_at (hl rest), hat]
  · intro rest
    simp only [Node.toFs, hat]
    split
    · rename_i cs hcs
      refine .inr ⟨cs.map Prod.fst, cs.map Prod.fst, false, ?_, ?_, .refl _⟩ <;>
        simp only [List.map_map, Function.comp_def, hch]
    · exact .inl ⟨rfl, rfl⟩

/-- **C83** for disks: the same directory, without symbolic links in it, at two places of (possibly different) disks under the same name has the same text. -/
theorem C83_disk {t t' : Node} (hw : cwd.abs = true) (hw' : cwd'.abs = true) (ht : t.WF) (ht' : t'.WF) (h : t'.get b' = t.get b)
    (hl : ∀ rest q, t.get (b ++ rest) ≠ some (.symlink q)) (hp : target cwd p = under b []) (hp' : target cwd' p' = under b' []) (hn : b'.getLast? = b.getLast?) (s : JStr) :
    prettyPrint t'.toFs.lift cwd' (Options.createDefault (m := Except Exn)) p' = .ok s ↔ prettyPrint t.toFs.lift cwd (Options.createDefault (m := Except Exn)) p = .ok s :=
  C83_default hw hw' (.of_node h hl) ht.proper ht'.proper hp hp' hn s

/-! ### A concrete case: `/r` of the example disk copied to `/backup/old/r` of another one -/

namespace Demo

def copyDisk : Node := .dir true [(j!"backup", .dir true [(j!"other", .regular 7), (j!"old", .dir true [(j!"r", .dir true
  [(j!"b.txt", .regular 3), (j!"a", .dir true [(j!"y", .regular 0), (j!"x", .regular 1)]), (j!"z", .special)])])])]

theorem copyDisk_wf : copyDisk.WF := by
  simp [copyDisk, Node.WF, Node.WFAll]

theorem copied_get : copyDisk.get [j!"backup", j!"old", j!"r"] = disk.get [j!"r"] := by rfl

theorem lookup_noLink {n : JStr} {cs : List (JStr × Node)} {c : Node} (h : Node.lookupChild n cs = some c) : ∃ k, (k, c) ∈ cs := by
  induction cs with
  | nil => cases h
  | cons x cs ih =>
    obtain ⟨k, v⟩ := x
    rw [Node.lookupChild] at h
    split at h
    · cases h; exact ⟨k, by simp⟩
    · obtain ⟨k', hk⟩ := ih h; exact ⟨k', by simp [hk]⟩

theorem noLinks (rest : List JStr) (q : Path) : disk.get ([j!"r"] ++ rest) ≠ some (.symlink q) := by
  have leaf : ∀ (nd : Node), (∀ rd cs, nd ≠ .dir rd cs) → (∀ q, nd ≠ .symlink q) → ∀ (rest : List JStr) (q : Path), nd.get rest ≠ some (.symlink q) := by
    intro nd hd hl rest q
    cases rest with
    | nil => rw [Node.get]; intro h; cases h; exact hl q rfl
    | cons n rest =>
      cases nd with
      | dir rd cs => exact absurd rfl (hd rd cs)
      | symlink q => exact absurd rfl (hl q)
      | regular => simp [Node.get]
      | special => simp [Node.get]
  have step : ∀ (cs : List (JStr × Node)), (∀ k c, (k, c) ∈ cs → ∀ (rest : List JStr) (q : Path), c.get rest ≠ some (.symlink q)) → ∀ (rest : List JStr) (q : Path),
      (Node.dir true cs).get rest ≠ some (.symlink q) := by
    intro cs h rest q
    cases rest with
    | nil => simp [Node.get]
    | cons n rest =>
      rw [Node.get]
      split
      · rename_i c hc
        obtain ⟨k, hk⟩ := lookup_noLink hc
        exact h k c hk rest q
      · simp
  have hdir : ∀ (rest : List JStr) (q : Path), (Node.dir true [(j!"b.txt", .regular 3), (j!"a", .dir true [(j!"y", .regular 0), (j!"x", .regular 1)]), (j!"z", .special)]).get rest ≠ some (.symlink q) := by
    refine step _ ?_
    intro k c hc
    simp only [List.mem_cons, Prod.mk.injEq, List.not_mem_nil, or_false] at hc
    rcases hc with ⟨-, rfl⟩ | ⟨-, rfl⟩ | ⟨-, rfl⟩
    · exact leaf _ (by simp) (by simp)
    · refine step _ ?_
      intro k c hc
      simp only [List.mem_cons, Prod.mk.injEq, List.not_mem_nil, or_false] at hc
      rcases hc with ⟨-, rfl⟩ | ⟨-, rfl⟩ <;> exact leaf _ (by simp) (by simp)
    · exact leaf _ (by simp) (by simp)
  exact hdir rest q

theorem copied : SameBelow dfs copyDisk.toFs [j!"r"] [j!"backup", j!"old", j!"r"] := .of_node copied_get noLinks

/-- Printed at the place of the copy, with a relative path, or at the old place: the same text. -/
example (s : JStr) : prettyPrint copyDisk.toFs.lift ⟨true, [j!"backup"]⟩ (Options.createDefault (m := Except Exn)) ⟨false, [j!"old", j!"r"]⟩ = .ok s ↔
    prettyPrint dfs.lift Path.root (Options.createDefault (m := Except Exn)) r = .ok s :=
  C83_disk rfl rfl disk_wf copyDisk_wf copied_get noLinks rfl rfl rfl s

example (s : JStr) := C83_default (cwd := Path.root) (cwd' := Path.root) (p := r) (p' := ⟨true, [j!"backup", j!"old", j!"r"]⟩) rfl rfl copied proper copyDisk_wf.proper rfl rfl rfl s

example (s : JStr) := C83_builtin (cwd := Path.root) (cwd' := Path.root) (p := r) (p' := ⟨true, [j!"backup", j!"old", j!"r"]⟩) rfl rfl copied proper copyDisk_wf.proper rfl rfl rfl
  TreeFormats.CLASSIC_ASCII 2 3 true (some (⟨asciiCasing, j!"d", [], j!"f", [(j!"b.txt", j!"B")], []⟩, {})) (by rintro f live h; cases h; exact ⟨rfl, rfl⟩) s

example (s : JStr) := C83_move (cwd := Path.root) (cwd' := Path.root) (p := r) (p' := ⟨true, [j!"backup", j!"old", j!"r"]⟩) rfl rfl copied (sameAnswers_default (b := [j!"r"]))
  lawful_ALPHABETICAL lawful_ALPHABETICAL distinguishes (sort_distinguishes lawful_const copyDisk_wf.proper) rfl rfl rfl rfl rfl s

/-- The same directory with another name. -/
def renamedDisk : Node := .dir true [(j!"new name", .dir true
  [(j!"b.txt", .regular 3), (j!"a", .dir true [(j!"y", .regular 0), (j!"x", .regular 1)]), (j!"z", .special)])]

theorem renamedDisk_wf : renamedDisk.WF := by
  simp [renamedDisk, Node.WF, Node.WFAll]

theorem renamed : SameBelow dfs renamedDisk.toFs [j!"r"] [j!"new name"] := .of_node (by rfl) noLinks

/-- Renaming changes the first line only. -/
example : prettyPrint renamedDisk.toFs.lift Path.root dflt ⟨true, [j!"new name"]⟩ =
    .ok (joinLines [j!"new name/", j!"├─ a/", j!"│  ├─ x", j!"│  └─ y", j!"├─ b.txt", j!"└─ z?"]) := by
  obtain ⟨n, e, x, mark, below, h1, h2, h3, h4, _, h5, h6⟩ := C83_rename (cwd' := Path.root) (p' := ⟨true, [j!"new name"]⟩) rfl rfl renamed sameAnswers_default lawful_ALPHABETICAL
    lawful_ALPHABETICAL (sort_distinguishes lawful_const renamedDisk_wf.proper) (show target Path.root r = under [j!"r"] [] by rfl) rfl printed_found
  cases h1
  cases h2
  cases h3
  rw [h4.2 rfl] at h5 h6
  rw [show dflt = Options.createDefault from rfl, h6 (j!"new name") none none rfl rfl rfl]
  have hb : below = joinLines [[], j!"├─ a/", j!"│  ├─ x", j!"│  └─ y", j!"├─ b.txt", j!"└─ z?"] := by
    have : j!"r/" ++ below = j!"r/" ++ joinLines [[], j!"├─ a/", j!"│  ├─ x", j!"│  └─ y", j!"├─ b.txt", j!"└─ z?"] := h5.symm
    exact List.append_cancel_left this
  rw [hb]
  rfl

end Demo
end JFTP
