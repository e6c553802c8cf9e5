import Verif.Spec.DefaultEmojis
import Verif.Props.Emoji
import Verif.Props.Recipes
import Verif.Props.Chars

/-
C68, exactly: the emoji of every file under the default tables.
-/

namespace JFTP
open Spec

theorem split_base (base : JStr) : ∃ b es, DOT ∉ b ∧ (∀ e ∈ es, DOT ∉ e) ∧ base = joinDots (b :: es) := by
  induction base with
  | nil => exact ⟨[], [], by simp, by simp, rfl⟩
  | cons c s ih =>
    obtain ⟨b, es, h1, h2, rfl⟩ := ih
    by_cases hc : c = DOT
    · exact ⟨[], b :: es, by simp, by simpa using ⟨h1, h2⟩, by subst hc; rw [joinDots_cons2]; rfl⟩
    · exact ⟨c :: b, es, by simpa using ⟨fun e => hc e.symm, h1⟩, h2, (joinDots_cons_cons ..).symm⟩

theorem joinDots_snoc (l : List JStr) (hl : l ≠ []) (k : JStr) : joinDots (l ++ [k]) = joinDots l ++ DOT :: k := by
  induction l with
  | nil => exact absurd rfl hl
  | cons a as ih =>
    cases as with
    | nil => simp [joinDots, DOT]
    | cons b bs =>
      rw [List.cons_append, List.cons_append, joinDots_cons2, joinDots_cons2, ← List.cons_append, ih (by simp)]
      simp

theorem hasExts_last {name key : JStr} (h : LastExt name key) : ∃ b es, HasExts name b (es ++ [key]) := by
  obtain ⟨h1, h2, base, k, rfl⟩ := h
  obtain ⟨b, es, h3, h4, rfl⟩ := split_base base
  refine ⟨b, es, by simp, ?_, by simpa using h2, k, ?_⟩
  · simp only [List.mem_cons, List.mem_append, List.not_mem_nil, or_false]
    rintro e (rfl | he | rfl)
    · exact h3
    · exact h4 _ he
    · exact h1
  · rw [← List.cons_append, joinDots_snoc _ (by simp)]

theorem mem_candidates_append (es : List JStr) (key : JStr) : ∃ front, candidates (es ++ [key]) = front ++ [key] ∧ ∀ c ∈ front, DOT ∈ c := by
  induction es with
  | nil => exact ⟨[], rfl, by simp⟩
  | cons e es ih =>
    obtain ⟨front, h1, h2⟩ := ih
    refine ⟨joinDots (e :: (es ++ [key])) :: front, by rw [List.cons_append, candidates, h1]; rfl, ?_⟩
    intro c hc
    rcases List.mem_cons.1 hc with rfl | hc
    · rw [← List.cons_append, joinDots_snoc _ (by simp)]; simp
    · exact h2 c hc

section
variable {m : Type → Type} [Monad m] [LawfulMonad m] [MonadExceptOf Exn m]

theorem lastSet_absent {cs : Casing} {t : StrMap} (hk : ∀ k ∈ t.map Prod.fst, cs.lower k = k) {k : JStr} (hn : k ∉ t.map Prod.fst) : lastSet cs.lower t k = none := by
  unfold lastSet
  rw [Option.map_eq_none_iff, List.find?_eq_none]
  intro s hs
  have hs' : s.1 ∈ t.map Prod.fst := List.mem_map_of_mem (by simpa using hs)
  rw [hk s.1 hs', decide_eq_true_eq]
  intro he
  exact hn (he ▸ hs')

/-- **C68**, all names: a file whose name (in lower case) is not in the name table and has the last extension `key` gets the emoji of `key`, whatever stands before it; if the table does not have `key`, it
gets the default emoji. -/
theorem C68_last_extension (cs : Casing) (hcs : KeepsLowerAscii cs.lower) (fs : Fs m) (o o' : Options m) (h : Options.withDefaultEmojis cs fs o = .ok o')
    {p : Path} (hp : fs.isDir p = pure false) {n key : JStr} (hn : p.getFileName = some n) (hx : LastExt (cs.lower n) key) (hnot : cs.lower n ∉ DEFAULT_FILENAME_EMOJIS.map Prod.fst) :
    (∀ e, (key, e) ∈ DEFAULT_FILEEXTENSIONS_EMOJIS → o'.emojiMapping p = pure (some e)) ∧
    (key ∉ DEFAULT_FILEEXTENSIONS_EMOJIS.map Prod.fst → o'.emojiMapping p = pure (some j!"📄")) := by
  obtain ⟨b, es, hb⟩ := hasExts_last hx
  have hdot : ∀ k ∈ DEFAULT_FILEEXTENSIONS_EMOJIS.map Prod.fst, DOT ∉ k := by decide
  have hlow : ∀ k ∈ DEFAULT_FILEEXTENSIONS_EMOJIS.map Prod.fst, cs.lower k = k := fun k hk => default_keys_lower hcs k (List.mem_append_right _ hk)
  have hlow' : ∀ k ∈ DEFAULT_FILENAME_EMOJIS.map Prod.fst, cs.lower k = k := fun k hk => default_keys_lower hcs k (List.mem_append_left _ hk)
  have he := (C36_default cs fs o o' h).2.1 p (es ++ [key]) hp (fun n' hn' => by rw [hn] at hn'; cases hn'; exact .inl ⟨b, hb⟩) (fun h => by rw [hn] at h; cases h)
  have h1 : defaultCalls.filterMap EmojiCall.asFileRule = [] := by rfl
  have h2 : defaultCalls.filterMap EmojiCall.asFileName = DEFAULT_FILENAME_EMOJIS := by rfl
  have h3 : defaultCalls.filterMap EmojiCall.asFileExt = DEFAULT_FILEEXTENSIONS_EMOJIS := by rfl
  have h4 : defaultCalls.filterMap EmojiCall.asDefaultFile = [] := by rfl
  obtain ⟨front, hf, hd⟩ := mem_candidates_append es key
  have hfront : front.findSome? (lastSet cs.lower DEFAULT_FILEEXTENSIONS_EMOJIS) = none := by
    rw [List.findSome?_eq_none_iff]
    exact fun c hc => lastSet_absent hlow fun hm => hdot c hm (hd c hc)
  have hval : fileEmoji cs.lower defaultCalls p (es ++ [key]) = (lastSet cs.lower DEFAULT_FILEEXTENSIONS_EMOJIS key).getD j!"📄" := by
    unfold fileEmoji
    rw [h1, h2, h3, h4, hn, Option.bind_some, lastSet_absent hlow' hnot, hf, List.findSome?_append, hfront]
    cases hk : lastSet cs.lower DEFAULT_FILEEXTENSIONS_EMOJIS key <;> simp [customEmoji, hk]
  rw [he, hval]
  exact ⟨fun e hm => by rw [lastSet_default hlow (by decide) hm]; rfl, fun hm => by rw [lastSet_absent hlow hm]; rfl⟩

/-- **C68**: a file without extension whose name is not in the name table gets the default emoji. -/
theorem C68_no_extension (cs : Casing) (hcs : KeepsLowerAscii cs.lower) (fs : Fs m) (o o' : Options m) (h : Options.withDefaultEmojis cs fs o = .ok o')
    {p : Path} (hp : fs.isDir p = pure false) {n : JStr} (hn : p.getFileName = some n) (hx : ∀ key, ¬ LastExt (cs.lower n) key) (hnot : cs.lower n ∉ DEFAULT_FILENAME_EMOJIS.map Prod.fst) :
    o'.emojiMapping p = pure (some j!"📄") := by
  have hlow' : ∀ k ∈ DEFAULT_FILENAME_EMOJIS.map Prod.fst, cs.lower k = k := fun k hk => default_keys_lower hcs k (List.mem_append_left _ hk)
  have hparts : ExtParts cs.lower n [] := by
    rcases name_cases (cs.lower n) with h | ⟨base, exts, h⟩ | h
    · exact .inr ⟨rfl, .inl h⟩
    · exfalso
      rcases List.eq_nil_or_concat exts with rfl | ⟨front, key, rfl⟩
      · exact h.nonempty rfl
      · obtain ⟨k, hk⟩ := h.name
        rw [List.concat_eq_append, ← List.cons_append, joinDots_snoc _ (by simp)] at hk
        exact hx key ⟨h.parts key (by simp), by simpa using h.last, _, k, hk⟩
    · exact .inr ⟨rfl, .inr h⟩
  rw [(C36_default cs fs o o' h).2.1 p [] hp (fun n' hn' => by rw [hn] at hn'; cases hn'; exact hparts) (fun _ => rfl)]
  have h1 : defaultCalls.filterMap EmojiCall.asFileRule = [] := by rfl
  have h2 : defaultCalls.filterMap EmojiCall.asFileName = DEFAULT_FILENAME_EMOJIS := by rfl
  have h4 : defaultCalls.filterMap EmojiCall.asDefaultFile = [] := by rfl
  unfold fileEmoji
  rw [h1, h2, h4, hn, Option.bind_some, lastSet_absent hlow' hnot]
  simp [customEmoji, candidates]

/-- **C94**, refuted: the README shows two emojis that no file gets: 📃 for `docx` and 📖 for `readme`. What the files get instead is 📝 (whatever their other name parts, in any case) and 📘. -/
theorem C94_differences (cs : Casing) (hcs : KeepsLowerAscii cs.lower) (fs : Fs m) (o o' : Options m) (h : Options.withDefaultEmojis cs fs o = .ok o')
    {p : Path} (hp : fs.isDir p = pure false) {n : JStr} (hn : p.getFileName = some n) :
    (LastExt (cs.lower n) j!"docx" → cs.lower n ∉ DEFAULT_FILENAME_EMOJIS.map Prod.fst → (j!"docx", j!"📃") ∈ readmeExtensions ∧ o'.emojiMapping p = pure (some j!"📝")) ∧
    (cs.lower n = j!"readme" → (j!"readme", j!"📖") ∈ readmeNames ∧ o'.emojiMapping p = pure (some j!"📘")) :=
  ⟨fun hl hnot => ⟨by decide, (C68_last_extension cs hcs fs o o' h hp hn hl hnot).1 _ (by decide)⟩,
    fun hl => ⟨by decide, C68_default_names cs hcs fs o o' h j!"readme" _ (by decide) p hp n hn hl⟩⟩

/-- **C94**: the other emojis the README shows are those of all files with these extensions (unless their whole name has its own emoji) and names. -/
theorem C94_shown (cs : Casing) (hcs : KeepsLowerAscii cs.lower) (fs : Fs m) (o o' : Options m) (h : Options.withDefaultEmojis cs fs o = .ok o')
    {p : Path} (hp : fs.isDir p = pure false) {n : JStr} (hn : p.getFileName = some n) :
    (∀ x ∈ readmeExtensions, x.1 ≠ j!"docx" → LastExt (cs.lower n) x.1 → cs.lower n ∉ DEFAULT_FILENAME_EMOJIS.map Prod.fst → o'.emojiMapping p = pure (some x.2)) ∧
    (∀ x ∈ readmeNames, x.1 ≠ j!"readme" → cs.lower n = x.1 → o'.emojiMapping p = pure (some x.2)) := by
  have h1 : ∀ x ∈ readmeExtensions, x.1 ≠ j!"docx" → x ∈ DEFAULT_FILEEXTENSIONS_EMOJIS := by decide
  have h2 : ∀ x ∈ readmeNames, x.1 ≠ j!"readme" → x ∈ DEFAULT_FILENAME_EMOJIS := by decide
  exact ⟨fun x hx hd hl hnot => (C68_last_extension cs hcs fs o o' h hp hn hl hnot).1 _ (h1 x hx hd), fun x hx hr hl => C68_default_names cs hcs fs o o' h _ _ (h2 x hx hr) p hp n hn hl⟩

/-- **C94**: directories get the emoji the README shows. -/
theorem C94_directory (cs : Casing) (fs : Fs m) (o o' : Options m) (h : Options.withDefaultEmojis cs fs o = .ok o') {p : Path} (hp : fs.isDir p = pure true) :
    o'.emojiMapping p = pure (some j!"📂") := (C36_default cs fs o o' h).1 p hp

end

/-- **C94**, refuted: the README shows the line `... (max depth reached)`. In whatever MaxDepth.java prints, an opening parenthesis is part of the name of a displayed path. -/
theorem C94_depth_marker {fs : PureFs} {cwd : Path} (hw : cwd.abs = true) {s : JStr} (h : Recipes.maxDepth (m := Except Exn) fs.lift cwd = .ok s) (hc : 40 ∈ s) :
    ∃ t, scanned fs cwd (Options.createDefault.withMaxDepth 3) (Path.ofString j!"src/main/resources/max_depth") = .ok t ∧ ∃ q ∈ entryPaths t, 40 ∈ lastName q := by
  unfold Recipes.maxDepth at h
  simp only at h
  rw [C47_string _ _ hw] at h
  obtain ⟨t, ht, hs⟩ := C67_alphabet h
  refine ⟨t, ht, ?_⟩
  rcases hs 40 hc with h | h | h | ⟨q, hq, h | ⟨e, h, -⟩ | ⟨x, h, -⟩⟩
  · exact absurd h (by decide)
  · exact absurd h (by decide)
  · exact absurd h (by unfold OccursInFormat; decide)
  · exact ⟨q, hq, h⟩
  · cases h
  · cases h

/-- **C94** for the program: what Emojis.java prints has 📂 before directories and the emojis above before files. -/
theorem C94_emojis_program (cs : Casing) (hcs : KeepsLowerAscii cs.lower) {fs : PureFs} {cwd : Path} (hw : cwd.abs = true) {s : JStr}
    (h : Recipes.emojis (m := Except Exn) cs fs.lift cwd = .ok s) :
    ∃ (em : Path → Option JStr) (items : List (Nat × Item)) (lines : List JStr), s = joinLines lines ∧
      List.Forall₂ (IsLineOf TreeFormats.UNICODE_BOX_DRAWING ⟨em, false, fun _ => none⟩) items lines ∧
      (∀ q, fs.isDir q = true → em q = some j!"📂") ∧
      ∀ q n, fs.isDir q = false → q.getFileName = some n →
        (cs.lower n ∉ DEFAULT_FILENAME_EMOJIS.map Prod.fst → (LastExt (cs.lower n) j!"docx" → em q = some j!"📝") ∧ ∀ x ∈ readmeExtensions, x.1 ≠ j!"docx" → LastExt (cs.lower n) x.1 → em q = some x.2) ∧
        (cs.lower n = j!"readme" → em q = some j!"📘") ∧ (∀ x ∈ readmeNames, x.1 ≠ j!"readme" → cs.lower n = x.1 → em q = some x.2) := by
  unfold Recipes.emojis at h
  obtain ⟨o', ho⟩ := C36_default_ok (m := Except Exn) cs hcs fs.lift Options.createDefault
  rw [ho] at h
  simp only at h
  rw [C47_string _ _ hw] at h
  have hpure : ∀ q, ∃ e, o'.emojiMapping q = .ok (some e) := by
    intro q
    cases hd : fs.isDir q with
    | true => exact ⟨_, C94_directory cs fs.lift _ o' ho (p := q) (by show Except.ok _ = _; rw [hd]; rfl)⟩
    | false =>
      cases hn : q.getFileName with
      | none => exact ⟨_, (C36_default cs fs.lift _ o' ho).2.1 q [] (by show Except.ok _ = _; rw [hd]; rfl) (fun n' hn' => by rw [hn] at hn'; cases hn') (fun _ => rfl)⟩
      | some n =>
        obtain ⟨exts, hx⟩ := extParts_exists cs.lower n
        exact ⟨_, (C36_default cs fs.lift _ o' ho).2.1 q exts (by show Except.ok _ = _; rw [hd]; rfl) (fun n' hn' => by rw [hn] at hn'; cases hn'; exact hx) (fun h => by rw [hn] at h; cases h)⟩
  choose em hem using hpure
  have hop := (C36_default cs fs.lift _ o' ho).2.2
  have hcd : o'.compactDirectories = false := by rw [hop]; rfl
  have hxt : ∀ p, extensionOf o'.toRender p = pure none := by rw [hop]; exact fun _ => rfl
  have hfm : o'.treeFormat = TreeFormats.UNICODE_BOX_DRAWING := by rw [hop]; rfl
  obtain ⟨t, T, lines, -, -, h1, h2, -⟩ := prettyPrint_ok (L := ⟨fun q => some (em q), false, fun _ => none⟩) hem hcd hxt h
  rw [hfm] at h2
  refine ⟨fun q => some (em q), T.items 0, lines, h1, h2, fun q hd => ?_, fun q n hd hn => ?_⟩
  · have := C94_directory cs fs.lift _ o' ho (p := q) (by show Except.ok _ = _; rw [hd]; rfl)
    rw [hem q] at this
    exact Except.ok.inj this
  · have hd' : fs.lift.isDir q = (pure false : Except Exn Bool) := by show Except.ok _ = _; rw [hd]; rfl
    have k1 := C94_differences cs hcs fs.lift _ o' ho hd' hn
    have k2 := C94_shown cs hcs fs.lift _ o' ho hd' hn
    rw [hem q] at k1 k2
    exact ⟨fun hnot => ⟨fun hl => Except.ok.inj (k1.1 hl hnot).2, fun x hx hd hl => Except.ok.inj (k2.1 x hx hd hl hnot)⟩, fun hl => Except.ok.inj (k1.2 hl).2, fun x hx hr hl => Except.ok.inj (k2.2 x hx hr hl)⟩

namespace Demo

/-- Directories like those of the example programs. -/
def shownDisk : Node := .dir true [(j!"src", .dir true [(j!"main", .dir true [(j!"resources", .dir true [
  (j!"emojis", .dir true [(j!"Old.Docx", .regular 1)]), (j!"max_depth", .dir true [(j!"a(1)", .regular 1)])])])])]

def shownFs : PureFs := shownDisk.toFs

theorem shown_distinguishes : DistinguishesAll PathSorts.ALPHABETICAL shownFs :=
  sort_distinguishes lawful_const (Node.WF.proper (t := shownDisk) (by simp [shownDisk, Node.WF, Node.WFAll]))

theorem maxDepth_run : Recipes.maxDepth (m := Except Exn) shownFs.lift Path.root = .ok (joinLines [j!"max_depth/", j!"└─ a(1)"]) := by
  unfold Recipes.maxDepth
  simp only
  rw [C47_string _ _ rfl]
  show prettyPrint _ _ _ _ = _
  have h : scanned shownFs Path.root (Options.createDefault.withMaxDepth 3) (Path.ofString j!"src/main/resources/max_depth") =
      .ok (.dir (res [j!"max_depth"]) [.file (res [j!"max_depth", j!"a(1)"]) ⟨false, false⟩]) := by
    refine scanned_complete rfl lawful_ALPHABETICAL shown_distinguishes ?_
    exact Scanned.dir (A := answers shownFs (Options.createDefault.withMaxDepth 3)) (c := PathSorts.ALPHABETICAL) (maxDepth := 3) (k := 0) (p := res [j!"max_depth"]) (n := -1)
      (cs := [res [j!"max_depth", j!"a(1)"]]) (ks := [res [j!"max_depth", j!"a(1)"]]) (srt := [res [j!"max_depth", j!"a(1)"]])
      (es := [.file (res [j!"max_depth", j!"a(1)"]) ⟨false, false⟩])
      rfl (by decide) rfl rfl (.keep rfl .nil) (by decide) (by decide) (.cons (.file rfl rfl) .nil)
  rw [prettyPrint_eq, h]
  show Renderer.renderRoot _ _ _ = _
  rw [C01_render_is_picture_effectful]
  simp only [dispM, dispDirM, dispKidsM]
  rfl

/-- The options Emojis.java makes. -/
def withEmoji : Options (Except Exn) := match Options.withDefaultEmojis asciiCasing shownFs.lift Options.createDefault with
  | .ok o => o
  | .error _ => Options.createDefault

theorem withEmoji_eq : Options.withDefaultEmojis asciiCasing shownFs.lift Options.createDefault = .ok withEmoji := by
  obtain ⟨o', h⟩ := C36_default_ok (m := Except Exn) asciiCasing keepsLowerAscii_ascii shownFs.lift Options.createDefault
  unfold withEmoji
  rw [h]

theorem emojis_run : Recipes.emojis (m := Except Exn) asciiCasing shownFs.lift Path.root = .ok (joinLines [j!"📂 emojis/", j!"└─ 📝 Old.Docx"]) := by
  unfold Recipes.emojis
  rw [withEmoji_eq]
  simp only
  rw [C47_string _ _ rfl]
  show prettyPrint _ _ _ _ = _
  have hop := (C36_default asciiCasing shownFs.lift _ withEmoji withEmoji_eq).2.2
  have h : scanned shownFs Path.root withEmoji (Path.ofString j!"src/main/resources/emojis") =
      .ok (.dir (res [j!"emojis"]) [.file (res [j!"emojis", j!"Old.Docx"]) ⟨false, false⟩]) := by
    rw [hop]
    refine scanned_complete rfl lawful_ALPHABETICAL shown_distinguishes ?_
    exact Scanned.dir (A := answers shownFs (Options.createDefault.withEmojis withEmoji.emojiMapping)) (c := PathSorts.ALPHABETICAL) (maxDepth := 20) (k := 0) (p := res [j!"emojis"]) (n := -1)
      (cs := [res [j!"emojis", j!"Old.Docx"]]) (ks := [res [j!"emojis", j!"Old.Docx"]]) (srt := [res [j!"emojis", j!"Old.Docx"]])
      (es := [.file (res [j!"emojis", j!"Old.Docx"]) ⟨false, false⟩])
      rfl (by decide) rfl rfl (.keep rfl .nil) (by decide) (by decide) (.cons (.file rfl rfl) .nil)
  have e1 : withEmoji.emojiMapping (res [j!"emojis"]) = .ok (some j!"📂") := C94_directory _ _ _ _ withEmoji_eq rfl
  have e2 : withEmoji.emojiMapping (res [j!"emojis", j!"Old.Docx"]) = .ok (some j!"📝") :=
    ((C94_differences _ keepsLowerAscii_ascii _ _ _ withEmoji_eq (p := res [j!"emojis", j!"Old.Docx"]) rfl rfl).1 ⟨by decide, by decide, j!"old", 0, by decide⟩ (by decide)).2
  rw [prettyPrint_eq, h]
  show Renderer.renderRoot _ _ _ = _
  rw [C01_render_is_picture_effectful, hop]
  simp only [dispM, dispDirM, dispKidsM, fileTextM, dirsTextM]
  generalize withEmoji.emojiMapping = f at e1 e2
  simp only [Options.withEmojis, Options.toRender, e1, e2]
  rfl

end Demo

example := C94_depth_marker rfl Demo.maxDepth_run (by decide)
example := C94_emojis_program asciiCasing keepsLowerAscii_ascii rfl Demo.emojis_run

/-- Examples: `my.holiday.ZIP`, `notes.v2.` (no known extension), `plain`, `README`, `old.Docx` and a directory. -/
example : ∃ o', Options.withDefaultEmojis asciiCasing Demo.dfs.lift (Options.createDefault : Options (Except Exn)) = .ok o' ∧
    o'.emojiMapping ⟨true, [j!"my.holiday.ZIP"]⟩ = pure (some j!"📦") ∧ o'.emojiMapping ⟨true, [j!"notes.v2."]⟩ = pure (some j!"📄") ∧ o'.emojiMapping ⟨true, [j!"plain"]⟩ = pure (some j!"📄") ∧
    o'.emojiMapping ⟨true, [j!"README"]⟩ = pure (some j!"📘") ∧ o'.emojiMapping ⟨true, [j!"old.Docx"]⟩ = pure (some j!"📝") ∧ o'.emojiMapping Demo.r = pure (some j!"📂") := by
  obtain ⟨o', h⟩ := C36_default_ok asciiCasing keepsLowerAscii_ascii Demo.dfs.lift (Options.createDefault : Options (Except Exn))
  refine ⟨o', h, (C94_shown _ keepsLowerAscii_ascii _ _ _ h rfl rfl).1 (j!"zip", j!"📦") (by decide) (by decide) ⟨by decide, by decide, j!"my.holiday", 0, by decide⟩ (by decide),
    (C68_last_extension _ keepsLowerAscii_ascii _ _ _ h rfl rfl (key := j!"v2") ⟨by decide, by decide, j!"notes", 1, by decide⟩ (by decide)).2 (by decide),
    C68_no_extension _ keepsLowerAscii_ascii _ _ _ h rfl rfl ?_ (by decide), ((C94_differences _ keepsLowerAscii_ascii _ _ _ h rfl rfl).2 (by decide)).2,
    ((C94_differences _ keepsLowerAscii_ascii _ _ _ h rfl rfl).1 ⟨by decide, by decide, j!"old", 0, by decide⟩ (by decide)).2, C94_directory _ _ _ _ h rfl⟩
  rintro key ⟨-, -, base, k, hk⟩
  have h1 : asciiCasing.lower j!"plain" = base ++ DOT :: key ++ List.replicate k DOT := hk
  have : DOT ∈ asciiCasing.lower j!"plain" := by rw [h1]; simp
  exact absurd this (by decide)

end JFTP
