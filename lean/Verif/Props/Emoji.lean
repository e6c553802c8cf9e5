import Verif.Spec.Emoji
import Verif.Lemmas.Dots
import Verif.Lemmas.Disk

/-!
C36–C39: emoji mappings.
-/

namespace JFTP
open Spec

/-! ### C38 -/

theorem extensionsLoop_eq (es acc : List JStr) : extensionsLoop es.reverse (candidates acc) = candidates (es ++ acc) := by
  induction es using List.reverseRecOn generalizing acc with
  | nil => rfl
  | append_singleton es e ih =>
    rw [List.reverse_append, List.reverse_singleton, List.singleton_append, List.append_assoc, List.singleton_append]
    cases acc with
    | nil => rw [candidates, extensionsLoop]; exact ih [e]
    | cons a as =>
      rw [candidates, extensionsLoop]
      have : candidates (e :: a :: as) = (e ++ DOT :: joinDots (a :: as)) :: joinDots (a :: as) :: candidates as := by
        rw [candidates, candidates, joinDots_cons2]; simp [DOT]
      rw [← this]
      exact ih (e :: a :: as)

/-- **C38**: a file name `base.e1.….ek` (after lower-casing; trailing dots are ignored) has the candidates `e1.….ek`, …, `ek` in this order. -/
theorem C38_candidates (cs : Casing) (name base : JStr) (exts : List JStr) (h : HasExts (cs.lower name) base exts) :
    getExtensions cs name = candidates exts := by
  unfold getExtensions
  rw [splitDots_hasExts h]
  have : (base :: exts).length ≠ 1 := by
    have := h.nonempty
    cases exts with
    | nil => exact absurd rfl this
    | cons _ _ => simp
  simp only [this, if_false, List.tail_cons]
  have := extensionsLoop_eq exts []
  rw [List.append_nil] at this
  exact this

/-- **C38**: the i-th candidate consists of the extension parts from position i on; there are as many as parts. -/
theorem C38_ith (exts : List JStr) : (candidates exts).length = exts.length ∧
    ∀ i, i < exts.length → (candidates exts)[i]? = some (joinDots (exts.drop i)) := by
  induction exts with
  | nil => exact ⟨rfl, by simp⟩
  | cons e es ih =>
    refine ⟨by simp [candidates, ih.1], fun i hi => ?_⟩
    cases i with
    | zero => rfl
    | succ i => simpa [candidates] using ih.2 i (by simpa using hi)

/-- **C38**: a name without extension, or consisting of dots only, has no candidates; together with `C35_all_names` this covers all names. -/
theorem C38_no_candidates (cs : Casing) (name : JStr) (h : HasNoExt (cs.lower name) ∨ ∃ k, cs.lower name = List.replicate (k + 1) DOT) :
    getExtensions cs name = [] := by
  unfold getExtensions
  rcases h with h | ⟨k, h⟩
  · obtain ⟨b, hb⟩ := splitDots_hasNoExt h
    simp [hb]
  · rw [h, splitDots_dots]; rfl

example : candidates [j!"b", j!"c", j!"d"] = [j!"b.c.d", j!"c.d", j!"d"] := rfl
example : HasExts (asciiCasing.lower j!"A.b.C.d") j!"a" [j!"b", j!"c", j!"d"] := ⟨by simp, by decide, by decide, 0, by decide⟩

/-! ### Tables -/

/-- Invariant of tables: different keys. -/
def StrMap.Keys (t : StrMap) : Prop := (t.map Prod.fst).Nodup

theorem StrMap.keys_put {t : StrMap} (h : t.Keys) (k v : JStr) : (t.put k v).Keys := by
  unfold StrMap.put StrMap.Keys at *
  rw [List.map_append, List.nodup_append]
  refine ⟨h.sublist ((List.filter_sublist).map _), by simp, ?_⟩
  intro a ha b hb
  obtain ⟨e, he, rfl⟩ := List.mem_map.1 ha
  simp only [List.map_cons, List.map_nil, List.mem_singleton] at hb
  subst hb
  simpa using (List.mem_filter.1 he).2

theorem StrMap.mem_put {t : StrMap} {k v : JStr} {e : JStr × JStr} : e ∈ t.put k v ↔ (e ∈ t ∧ e.1 ≠ k) ∨ e = (k, v) := by
  unfold StrMap.put
  simp

/-- The table after a sequence of `put`s. -/
def putAll (t : StrMap) (sets : List (JStr × JStr)) : StrMap := sets.foldl (fun t s => t.put s.1 s.2) t

theorem putAll_append (t : StrMap) (a b : List (JStr × JStr)) : putAll t (a ++ b) = putAll (putAll t a) b := by simp [putAll]

theorem putAll_keys (sets : List (JStr × JStr)) : (putAll [] sets).Keys := by
  induction sets using List.reverseRecOn with
  | nil => exact List.nodup_nil
  | append_singleton sets s ih => rw [putAll_append]; exact StrMap.keys_put ih _ _

/-- A key has the value of its last `put`. -/
theorem mem_putAll (sets : List (JStr × JStr)) (e : JStr × JStr) :
    e ∈ putAll [] sets ↔ sets.reverse.find? (fun s => decide (s.1 = e.1)) = some e := by
  induction sets using List.reverseRecOn with
  | nil => simp [putAll]
  | append_singleton sets s ih =>
    rw [putAll_append]
    show e ∈ (putAll [] sets).put s.1 s.2 ↔ _
    rw [StrMap.mem_put, ih, List.reverse_append, List.reverse_singleton, List.singleton_append, List.find?_cons]
    by_cases hs : s.1 = e.1
    · simp only [hs, decide_true, if_true]
      constructor
      · rintro (⟨_, h⟩ | h)
        · exact absurd rfl h
        · rw [h, ← hs]
      · intro h; right; cases h; rfl
    · simp only [hs, decide_false]
      constructor
      · rintro (⟨h, _⟩ | h)
        · exact h
        · exact absurd (by rw [h]) hs
      · intro h; exact .inl ⟨h, fun h => hs h.symm⟩

theorem keys_putAll (sets : List (JStr × JStr)) (k : JStr) : k ∈ (putAll [] sets).map Prod.fst ↔ k ∈ sets.map Prod.fst := by
  constructor
  · intro h
    obtain ⟨e, he, rfl⟩ := List.mem_map.1 h
    have := List.mem_of_find?_eq_some ((mem_putAll sets e).1 he)
    exact List.mem_map.2 ⟨e, by simpa using this, rfl⟩
  · intro h
    obtain ⟨e, he, rfl⟩ := List.mem_map.1 h
    cases hf : sets.reverse.find? (fun s => decide (s.1 = e.1)) with
    | none => have := List.find?_eq_none.1 hf e (by simpa using he); simp at this
    | some s =>
      have hs : s.1 = e.1 := by simpa using List.find?_some hf
      exact List.mem_map.2 ⟨s, (mem_putAll sets s).2 (by rw [hs]; exact hf), hs⟩

/-- Tables of pairwise different keys are the result of putting their entries in order. -/
theorem putAll_of_keys (t : StrMap) (h : t.Keys) : putAll [] t = t := by
  induction t using List.reverseRecOn with
  | nil => rfl
  | append_singleton t e ih =>
    unfold StrMap.Keys at h ih
    rw [List.map_append, List.nodup_append] at h
    rw [putAll_append, ih h.1]
    show StrMap.put t e.1 e.2 = _
    unfold StrMap.put
    rw [List.filter_eq_self.2]
    intro x hx
    simpa using h.2.2 x.1 (List.mem_map_of_mem hx) e.1 (by simp)

theorem lookup_of_nodup {t : StrMap} (h : t.Keys) {k v : JStr} (hm : (k, v) ∈ t) : t.get k = some v := by
  unfold StrMap.get
  induction t with
  | nil => cases hm
  | cons e t ih =>
    obtain ⟨k', v'⟩ := e
    unfold StrMap.Keys at h ih
    rw [List.map_cons, List.nodup_cons] at h
    rw [List.lookup_cons]
    rcases List.mem_cons.1 hm with h1 | h1
    · cases h1; simp
    · have : k ≠ k' := by rintro rfl; exact h.1 (List.mem_map.2 ⟨_, h1, rfl⟩)
      have hb : (k == k') = false := by simpa using this
      rw [hb]; exact ih h.2 h1

theorem get_none {t : StrMap} {k : JStr} (h : ∀ e ∈ t, e.1 ≠ k) : t.get k = none := by
  unfold StrMap.get
  induction t with
  | nil => rfl
  | cons e t ih =>
    rw [List.lookup_cons]
    have hb : (k == e.1) = false := by simpa using fun hk => h e (by simp) hk.symm
    rw [hb]; exact ih (fun e he => h e (by simp [he]))

/-- The lower-cased table exists iff no two different keys differ in case only. -/
theorem toLowerCaseKeys_ok_iff (cs : Casing) (sets : List (JStr × JStr)) :
    (∃ t, toLowerCaseKeys cs (putAll [] sets) = .ok t) ↔ ¬ CaseClash cs.lower sets := by
  unfold toLowerCaseKeys
  simp only [List.map_map]
  constructor
  · rintro ⟨t, ht⟩ ⟨s, hs, s', hs', hne, hl⟩
    split at ht
    · rename_i hnd
      have h1 := (keys_putAll sets s.1).2 (List.mem_map_of_mem hs)
      have h2 := (keys_putAll sets s'.1).2 (List.mem_map_of_mem hs')
      have hnd : (((putAll [] sets).map Prod.fst).map cs.lower).Nodup := by rw [List.map_map]; exact hnd
      exact hne (List.inj_on_of_nodup_map hnd h1 h2 hl)
    · cases ht
  · intro h
    rw [if_pos]
    · exact ⟨_, rfl⟩
    · have : (((putAll [] sets).map Prod.fst).map cs.lower).Nodup := by
        refine List.Nodup.map_on ?_ (putAll_keys sets)
        intro x hx y hy hxy
        by_contra hne
        obtain ⟨s, hs, rfl⟩ := List.mem_map.1 ((keys_putAll sets x).1 hx)
        obtain ⟨s', hs', rfl⟩ := List.mem_map.1 ((keys_putAll sets y).1 hy)
        exact h ⟨s, hs, s', hs', hne, hxy⟩
      rw [List.map_map] at this
      exact this

theorem find?_congr {α : Type} {l : List α} {f g : α → Bool} (h : ∀ x ∈ l, f x = g x) : l.find? f = l.find? g := by
  induction l with
  | nil => rfl
  | cons x l ih => rw [List.find?_cons, List.find?_cons, h x (by simp), ih (fun y hy => h y (by simp [hy]))]

/-- Lookup in the lower-cased table gives the value set last, ignoring case. -/
theorem toLowerCaseKeys_get {cs : Casing} {sets : List (JStr × JStr)} {t : StrMap} (ht : toLowerCaseKeys cs (putAll [] sets) = .ok t) (k : JStr) :
    t.get k = lastSet cs.lower sets k := by
  have hclash := (toLowerCaseKeys_ok_iff cs sets).1 ⟨t, ht⟩
  unfold toLowerCaseKeys at ht
  simp only [List.map_map] at ht
  split at ht
  · rename_i hnd
    cases ht
    unfold lastSet
    cases hf : sets.reverse.find? (fun s => decide (cs.lower s.1 = k)) with
    | none =>
      refine get_none (fun e he => ?_)
      obtain ⟨e', he', rfl⟩ := List.mem_map.1 he
      obtain ⟨s, hs, hse⟩ := List.mem_map.1 ((keys_putAll sets e'.1).1 (List.mem_map_of_mem he'))
      have := List.find?_eq_none.1 hf s (by simpa using hs)
      rw [← hse]
      simpa using this
    | some s =>
      have hs : cs.lower s.1 = k := by simpa using List.find?_some hf
      have hmem : s ∈ putAll [] sets := by
        rw [mem_putAll, ← hf]
        have hsm : s ∈ sets := by simpa using List.mem_of_find?_eq_some hf
        have : ∀ x ∈ sets.reverse, decide (x.1 = s.1) = decide (cs.lower x.1 = k) := by
          intro x hx
          by_cases hxs : x.1 = s.1
          · simp [hxs, hs]
          · have : cs.lower x.1 ≠ k := fun hl => hclash ⟨x, by simpa using hx, s, hsm, hxs, by rw [hl, hs]⟩
            simp [hxs, this]
        exact find?_congr this
      rw [← hs]
      refine lookup_of_nodup ?_ (List.mem_map.2 ⟨s, hmem, rfl⟩)
      unfold StrMap.Keys
      rw [List.map_map]; exact hnd
  · cases ht

section
variable {m : Type → Type} [Monad m] [LawfulMonad m] [MonadExceptOf Exn m]

/-- The builder after a call. -/
def EmojiCall.run (b : EmojiMappingBuilder m) : EmojiCall → EmojiMappingBuilder m
  | .setDefaultDirectoryEmoji e => b.setDefaultDirectoryEmoji e
  | .setDirectoryNameEmoji n e => b.setDirectoryNameEmoji n e
  | .addDirectoryEmoji mt e => b.addDirectoryEmoji (fun q => pure (mt q)) e
  | .setDefaultFileEmoji e => b.setDefaultFileEmoji e
  | .setFileNameEmoji n e => b.setFileNameEmoji n e
  | .setFileExtensionEmoji x e => b.setFileExtensionEmoji x e
  | .addFileEmoji mt e => b.addFileEmoji (fun q => pure (mt q)) e

/-- The builder after calls on a blank builder. -/
def emojiBuilder (calls : List EmojiCall) : EmojiMappingBuilder m := calls.foldl EmojiCall.run EmojiMappingBuilder.newBlankInstance

omit [LawfulMonad m] [MonadExceptOf Exn m] in
/-- The default builder is a blank one on which the default tables were set. -/
theorem newDefaultInstance_eq : (EmojiMappingBuilder.newDefaultInstance : EmojiMappingBuilder m) = emojiBuilder defaultCalls := by
  have h1 : ∀ (t : StrMap) (b : EmojiMappingBuilder m), (t.map (fun e => EmojiCall.setFileNameEmoji e.1 e.2)).foldl EmojiCall.run b =
      { b with fileNamesEmojis := putAll b.fileNamesEmojis t } := by
    intro t
    induction t with
    | nil => intro b; rfl
    | cons e t ih => intro b; rw [List.map_cons, List.foldl_cons, ih]; rfl
  have h2 : ∀ (t : StrMap) (b : EmojiMappingBuilder m), (t.map (fun e => EmojiCall.setFileExtensionEmoji e.1 e.2)).foldl EmojiCall.run b =
      { b with fileExtensionsEmojis := putAll b.fileExtensionsEmojis t } := by
    intro t
    induction t with
    | nil => intro b; rfl
    | cons e t ih => intro b; rw [List.map_cons, List.foldl_cons, ih]; rfl
  unfold emojiBuilder defaultCalls EmojiMappingBuilder.newDefaultInstance
  rw [List.foldl_append, h1, h2]
  show _ = ({ fileNamesEmojis := putAll [] DEFAULT_FILENAME_EMOJIS, fileExtensionsEmojis := putAll [] DEFAULT_FILEEXTENSIONS_EMOJIS } : EmojiMappingBuilder m)
  rw [putAll_of_keys _ (by unfold StrMap.Keys; decide), putAll_of_keys _ (by unfold StrMap.Keys; decide)]

/-- The rules of a builder as matches. -/
def toMatch (r : Rule JStr) : EmojiMatch m := ⟨fun q => pure (r.1 q), r.2⟩

omit [LawfulMonad m] [MonadExceptOf Exn m] in
theorem emojiBuilder_eq (calls : List EmojiCall) : (emojiBuilder calls : EmojiMappingBuilder m) =
    { defaultDirEmoji := (calls.filterMap EmojiCall.asDefaultDir).getLast?.getD j!"📂"
      dirMatchersEmojis := (calls.filterMap EmojiCall.asDirRule).map toMatch
      dirNamesEmojis := putAll [] (calls.filterMap EmojiCall.asDirName)
      defaultFileEmoji := (calls.filterMap EmojiCall.asDefaultFile).getLast?.getD j!"📄"
      fileMatchersEmojis := (calls.filterMap EmojiCall.asFileRule).map toMatch
      fileNamesEmojis := putAll [] (calls.filterMap EmojiCall.asFileName)
      fileExtensionsEmojis := putAll [] (calls.filterMap EmojiCall.asFileExt) } := by
  induction calls using List.reverseRecOn with
  | nil => rfl
  | append_singleton calls c ih =>
    unfold emojiBuilder at ih ⊢
    rw [List.foldl_append, ih]
    cases c <;> simp [List.filterMap_append, List.filterMap_cons, EmojiCall.run, EmojiMappingBuilder.setDefaultDirectoryEmoji, EmojiMappingBuilder.setDirectoryNameEmoji,
      EmojiMappingBuilder.addDirectoryEmoji, EmojiMappingBuilder.setDefaultFileEmoji, EmojiMappingBuilder.setFileNameEmoji, EmojiMappingBuilder.setFileExtensionEmoji,
      EmojiMappingBuilder.addFileEmoji, EmojiCall.asDefaultDir, EmojiCall.asDirName, EmojiCall.asDirRule, EmojiCall.asDefaultFile, EmojiCall.asFileName, EmojiCall.asFileExt,
      EmojiCall.asFileRule, putAll, toMatch]

omit [MonadExceptOf Exn m] in
theorem pathMatcherEmoji_eq (rules : List (Rule JStr)) (p : Path) : (pathMatcherEmoji (rules.map toMatch) p : m _) = pure (customEmoji rules p) := by
  unfold customEmoji
  induction rules with
  | nil => rfl
  | cons r rules ih =>
    rw [List.map_cons, pathMatcherEmoji, List.find?_cons]
    simp only [toMatch, pure_bind]
    cases hr : r.1 p with
    | true => rfl
    | false => simpa [toMatch] using ih

/-- What `build()` gives. -/
theorem build_eq {cs : Casing} {calls : List EmojiCall} {f : EmojiMapping} (h : EmojiMappingBuilder.build cs (emojiBuilder calls : EmojiMappingBuilder m) = .ok f) :
    f.casing = cs ∧ f.defaultDirEmoji = (calls.filterMap EmojiCall.asDefaultDir).getLast?.getD j!"📂" ∧
    f.defaultFileEmoji = (calls.filterMap EmojiCall.asDefaultFile).getLast?.getD j!"📄" ∧
    toLowerCaseKeys cs (putAll [] (calls.filterMap EmojiCall.asDirName)) = .ok f.dirNames ∧
    toLowerCaseKeys cs (putAll [] (calls.filterMap EmojiCall.asFileName)) = .ok f.fileNames ∧
    toLowerCaseKeys cs (putAll [] (calls.filterMap EmojiCall.asFileExt)) = .ok f.fileExtensions := by
  rw [emojiBuilder_eq] at h
  unfold EmojiMappingBuilder.build at h
  dsimp only at h
  cases h1 : toLowerCaseKeys cs (putAll [] (calls.filterMap EmojiCall.asDirName)) with
  | error x => rw [h1] at h; cases h
  | ok t1 =>
    cases h2 : toLowerCaseKeys cs (putAll [] (calls.filterMap EmojiCall.asFileName)) with
    | error x => rw [h1, h2] at h; cases h
    | ok t2 =>
      cases h3 : toLowerCaseKeys cs (putAll [] (calls.filterMap EmojiCall.asFileExt)) with
      | error x => rw [h1, h2, h3] at h; cases h
      | ok t3 => rw [h1, h2, h3] at h; cases h; exact ⟨rfl, rfl, rfl, rfl, rfl, rfl⟩

/-! ### C36 -/

/-- Candidate keys are looked up ignoring case; the candidates themselves are lower-cased. -/
theorem firstMapped_eq (t : StrMap) (l : List JStr) : firstMapped t l = l.findSome? (fun k => t.get k) := by
  induction l with
  | nil => rfl
  | cons k l ih => rw [firstMapped, List.findSome?_cons]; cases t.get k <;> simp [ih]

/-- **C36** (directories): the emoji of a directory is the one of the first matching custom rule, else the one set last for its name, else the default set last, else 📂. -/
theorem C36_directory (cs : Casing) (calls : List EmojiCall) (f : EmojiMapping) (h : EmojiMappingBuilder.build cs (emojiBuilder calls : EmojiMappingBuilder m) = .ok f)
    (fs : Fs m) (p : Path) (hd : fs.isDir p = pure true) :
    f.getPathEmoji fs (emojiBuilder calls) p = pure (some (dirEmoji cs.lower calls p)) := by
  replace hd : PathMatchers.isDirectory fs p = pure _ := hd
  obtain ⟨h1, h2, _, h4, _, _⟩ := build_eq h
  unfold EmojiMapping.getPathEmoji
  rw [hd, pure_bind]
  simp only [if_true]
  have e1 : (emojiBuilder calls : EmojiMappingBuilder m).dirMatchersEmojis = (calls.filterMap EmojiCall.asDirRule).map toMatch := by rw [emojiBuilder_eq]
  rw [sequentialEmoji, sequentialEmoji, sequentialEmoji, e1, pathMatcherEmoji_eq, pure_bind, h1, h2]
  unfold dirEmoji
  cases customEmoji (calls.filterMap EmojiCall.asDirRule) p with
  | some e => simp
  | none =>
    have e2 : pathNameEmoji cs f.dirNames p = p.getFileName.bind (fun n => lastSet cs.lower (calls.filterMap EmojiCall.asDirName) (cs.lower n)) := by
      unfold pathNameEmoji
      cases p.getFileName with
      | none => rfl
      | some n => exact toLowerCaseKeys_get h4 (cs.lower n)
    simp only [pure_bind, e2]
    cases (p.getFileName.bind (fun n => lastSet cs.lower (calls.filterMap EmojiCall.asDirName) (cs.lower n))) with
    | some e => simp
    | none => cases (calls.filterMap EmojiCall.asDefaultDir).getLast? <;> simp

/-- **C36** (files): the emoji of a file is the one of the first matching custom rule, else the one set last for its name, else the one set last for the most specific of its extensions that has
one, else the default set last, else 📄. `exts` are the extension parts of the name. -/
theorem C36_file (cs : Casing) (calls : List EmojiCall) (f : EmojiMapping)
    (h : EmojiMappingBuilder.build cs (emojiBuilder calls : EmojiMappingBuilder m) = .ok f)
    (fs : Fs m) (p : Path) (hd : fs.isDir p = pure false) (exts : List JStr)
    (hx : ∀ n, p.getFileName = some n → ExtParts cs.lower n exts) (hroot : p.getFileName = none → exts = []) :
    f.getPathEmoji fs (emojiBuilder calls) p = pure (some (fileEmoji cs.lower calls p exts)) := by
  replace hd : PathMatchers.isDirectory fs p = pure _ := hd
  obtain ⟨h1, _, h3, _, h5, h6⟩ := build_eq h
  unfold EmojiMapping.getPathEmoji
  rw [hd, pure_bind]
  simp only [Bool.false_eq_true, if_false]
  have e1 : (emojiBuilder calls : EmojiMappingBuilder m).fileMatchersEmojis = (calls.filterMap EmojiCall.asFileRule).map toMatch := by rw [emojiBuilder_eq]
  rw [sequentialEmoji, sequentialEmoji, sequentialEmoji, sequentialEmoji, e1, pathMatcherEmoji_eq, pure_bind, h1, h3]
  unfold fileEmoji
  cases customEmoji (calls.filterMap EmojiCall.asFileRule) p with
  | some e => simp
  | none =>
    have e2 : pathNameEmoji cs f.fileNames p = p.getFileName.bind (fun n => lastSet cs.lower (calls.filterMap EmojiCall.asFileName) (cs.lower n)) := by
      unfold pathNameEmoji
      cases p.getFileName with
      | none => rfl
      | some n => exact toLowerCaseKeys_get h5 (cs.lower n)
    simp only [pure_bind, e2]
    cases (p.getFileName.bind (fun n => lastSet cs.lower (calls.filterMap EmojiCall.asFileName) (cs.lower n))) with
    | some e => simp
    | none =>
      have e3 : pathExtensionEmoji cs f.fileExtensions p = (candidates exts).findSome? (lastSet cs.lower (calls.filterMap EmojiCall.asFileExt)) := by
        unfold pathExtensionEmoji
        cases hn : p.getFileName with
        | none => rw [hroot hn]; rfl
        | some n =>
          dsimp only
          have hc : getExtensions cs n = candidates exts := by
            rcases hx n hn with ⟨base, hb⟩ | ⟨he, hno⟩
            · exact C38_candidates cs n base exts hb
            · rw [he, C38_no_candidates cs n hno]; rfl
          rw [hc, firstMapped_eq]
          congr 1
          funext e
          exact toLowerCaseKeys_get h6 e
      simp only [e3]
      cases ((candidates exts).findSome? (lastSet cs.lower (calls.filterMap EmojiCall.asFileExt))) with
      | some e => simp
      | none => cases (calls.filterMap EmojiCall.asDefaultFile).getLast? <;> simp

/-- **C36**: custom rules may have effects or throw: they are called in order until one matches; the later ones, the name and the extension are not looked at. -/
theorem C36_custom_rules_short_circuit (f : EmojiMapping) (live : EmojiMappingBuilder m) (fs : Fs m) (p : Path) (pre post : List (EmojiMatch m)) (r : EmojiMatch m) (dir : Bool)
    (hd : fs.isDir p = pure dir) (hl : (if dir then live.dirMatchersEmojis else live.fileMatchersEmojis) = pre ++ r :: post)
    (hpre : ∀ g ∈ pre, g.matcher p = pure false) (hr : r.matcher p = pure true) : f.getPathEmoji fs live p = pure (some r.emoji) := by
  replace hd : PathMatchers.isDirectory fs p = pure _ := hd
  have key : (pathMatcherEmoji (pre ++ r :: post) p : m _) = pure (some r.emoji) := by
    clear hl
    induction pre with
    | nil => rw [List.nil_append, pathMatcherEmoji, hr, pure_bind]; rfl
    | cons g pre ih =>
      rw [List.cons_append, pathMatcherEmoji, hpre g (by simp), pure_bind]
      simpa using ih (fun g hg => hpre g (by simp [hg]))
  unfold EmojiMapping.getPathEmoji
  rw [hd, pure_bind]
  cases dir <;> simp only [if_true, Bool.false_eq_true, if_false] at hl ⊢ <;>
    rw [sequentialEmoji, hl, key, pure_bind] <;> simp

/-- **C36**: an emoji mapping made by the builder never gives null (if it returns at all): every line gets an emoji. -/
theorem C36_never_null (f : EmojiMapping) (live : EmojiMappingBuilder (Except Exn)) (fs : Fs (Except Exn)) (p : Path) : f.getPathEmoji fs live p ≠ .ok none := by
  intro h
  unfold EmojiMapping.getPathEmoji at h
  obtain ⟨b, _, h⟩ := except_bind_ok h
  cases b <;> simp only [if_true, Bool.false_eq_true, if_false] at h <;> obtain ⟨e, _, h⟩ := except_bind_ok h <;> cases h

/-! ### C37 -/

/-- **C37**: `build()` succeeds iff no two different keys of the same kind that differ in case only were set; else it throws `IllegalStateException`. -/
theorem C37_build_ok_iff (cs : Casing) (calls : List EmojiCall) :
    (∃ f, EmojiMappingBuilder.build cs (emojiBuilder calls : EmojiMappingBuilder m) = .ok f) ↔
      ¬ (CaseClash cs.lower (calls.filterMap EmojiCall.asDirName) ∨ CaseClash cs.lower (calls.filterMap EmojiCall.asFileName) ∨
         CaseClash cs.lower (calls.filterMap EmojiCall.asFileExt)) := by
  rw [not_or, not_or, ← toLowerCaseKeys_ok_iff, ← toLowerCaseKeys_ok_iff, ← toLowerCaseKeys_ok_iff]
  constructor
  · rintro ⟨f, h⟩
    obtain ⟨_, _, _, h4, h5, h6⟩ := build_eq h
    exact ⟨⟨_, h4⟩, ⟨_, h5⟩, ⟨_, h6⟩⟩
  · rintro ⟨⟨t1, h1⟩, ⟨t2, h2⟩, ⟨t3, h3⟩⟩
    rw [emojiBuilder_eq]
    unfold EmojiMappingBuilder.build
    dsimp only
    rw [h1, h2, h3]
    exact ⟨_, rfl⟩

/-- **C37**: the only failure of `build()` is `IllegalStateException`. -/
theorem C37_only_illegal_state (cs : Casing) (b : EmojiMappingBuilder m) (x : Exn) (h : b.build cs = .error x) : x = .illegalState := by
  have key : ∀ t y, toLowerCaseKeys cs t = .error y → y = .illegalState := by
    intro t y hy
    unfold toLowerCaseKeys at hy
    dsimp only at hy
    split at hy <;> cases hy
    rfl
  unfold EmojiMappingBuilder.build at h
  cases h1 : toLowerCaseKeys cs b.dirNamesEmojis with
  | error y => rw [h1] at h; cases h; exact key _ _ h1
  | ok t1 =>
    rw [h1] at h
    cases h2 : toLowerCaseKeys cs b.fileNamesEmojis with
    | error y => rw [h2] at h; cases h; exact key _ _ h2
    | ok t2 =>
      rw [h2] at h
      cases h3 : toLowerCaseKeys cs b.fileExtensionsEmojis with
      | error y => rw [h3] at h; cases h; exact key _ _ h3
      | ok t3 => rw [h3] at h; cases h

/-- **C37**: names that are equal in lower case have the same name emoji; a name set under any case variant is honoured (it is the one found). -/
theorem C37_names_ignore_case (cs : Casing) (t t' : StrMap) (h : toLowerCaseKeys cs t = .ok t') (p q : Path) (np nq : JStr) (hp : p.getFileName = some np) (hq : q.getFileName = some nq)
    (he : cs.lower np = cs.lower nq) : pathNameEmoji cs t' p = pathNameEmoji cs t' q ∧ pathExtensionEmoji cs t' p = pathExtensionEmoji cs t' q := by
  unfold pathNameEmoji pathExtensionEmoji getExtensions
  simp only [hp, hq, he, and_self]

/-- **C37**: setting an emoji for any case variant `n` of the name is honoured, if the mapping can be built and no custom rule matches. -/
theorem C37_case_variant_honoured (cs : Casing) (pre post : List EmojiCall) (n e : JStr) (f : EmojiMapping)
    (h : EmojiMappingBuilder.build cs (emojiBuilder (pre ++ .setFileNameEmoji n e :: post) : EmojiMappingBuilder m) = .ok f)
    (hpost : ∀ n' e', EmojiCall.setFileNameEmoji n' e' ∈ post → cs.lower n' ≠ cs.lower n)
    (fs : Fs m) (p : Path) (hd : fs.isDir p = pure false) (name : JStr) (hn : p.getFileName = some name) (hl : cs.lower name = cs.lower n)
    (hcustom : ∀ mt e', EmojiCall.addFileEmoji mt e' ∈ pre ++ post → mt p = false) :
    f.getPathEmoji fs (emojiBuilder (pre ++ .setFileNameEmoji n e :: post)) p = pure (some e) := by
  replace hd : PathMatchers.isDirectory fs p = pure _ := hd
  have hx : ∃ exts, ExtParts cs.lower name exts := by
    rcases name_cases (cs.lower name) with h | ⟨base, exts, h⟩ | h
    · exact ⟨[], .inr ⟨rfl, .inl h⟩⟩
    · exact ⟨exts, .inl ⟨base, h⟩⟩
    · exact ⟨[], .inr ⟨rfl, .inr h⟩⟩
  obtain ⟨exts, hx⟩ := hx
  rw [C36_file cs _ f h fs p hd exts (fun n' hn' => by rw [hn] at hn'; cases hn'; exact hx) (fun h => by rw [hn] at h; cases h)]
  have c1 : customEmoji ((pre ++ EmojiCall.setFileNameEmoji n e :: post).filterMap EmojiCall.asFileRule) p = none := by
    unfold customEmoji
    rw [List.find?_eq_none.2]
    · rfl
    · intro r hr
      obtain ⟨c, hc, hcr⟩ := List.mem_filterMap.1 hr
      cases c <;> simp [EmojiCall.asFileRule] at hcr
      subst hcr
      have := hcustom _ _ (by simpa using hc)
      simp [this]
  have c2 : lastSet cs.lower ((pre ++ EmojiCall.setFileNameEmoji n e :: post).filterMap EmojiCall.asFileName) (cs.lower name) = some e := by
    unfold lastSet
    rw [List.filterMap_append, List.filterMap_cons, List.reverse_append]
    simp only [EmojiCall.asFileName, List.reverse_cons, List.append_assoc, List.find?_append]
    rw [List.find?_eq_none.2]
    · simp [hl]
    · intro s hs
      obtain ⟨c, hc, hcr⟩ := List.mem_filterMap.1 (List.mem_reverse.1 hs)
      cases c <;> cases hcr
      have := hpost _ _ hc
      rw [hl]
      simpa using this
  unfold fileEmoji
  rw [c1, hn]
  simp only [Option.none_or, Option.bind_some, c2, Option.some_or, Option.getD_some]

/-- **C37** is false of the code in general: setting a name in a second spelling makes `build()` throw, whatever else is set. -/
theorem C37_second_spelling_throws (cs : Casing) (calls : List EmojiCall) (n n' e e' : JStr) (hne : n ≠ n') (hl : cs.lower n = cs.lower n')
    (h1 : EmojiCall.setFileNameEmoji n e ∈ calls) (h2 : EmojiCall.setFileNameEmoji n' e' ∈ calls) :
    EmojiMappingBuilder.build cs (emojiBuilder calls : EmojiMappingBuilder m) = .error .illegalState := by
  cases hb : EmojiMappingBuilder.build cs (emojiBuilder calls : EmojiMappingBuilder m) with
  | error x => rw [C37_only_illegal_state cs _ x hb]
  | ok f =>
    have := (C37_build_ok_iff cs calls).1 ⟨f, hb⟩
    exact absurd (.inr (.inl ⟨(n, e), List.mem_filterMap.2 ⟨_, h1, rfl⟩, (n', e'), List.mem_filterMap.2 ⟨_, h2, rfl⟩, hne, hl⟩)) this

/-- **C37**, refuted on the default mapping: `builderFromDefault().setFileNameEmoji("README.md", …).build()` throws. -/
theorem C37_readme_throws (e : JStr) : EmojiMappingBuilder.build asciiCasing
    ((EmojiMappingBuilder.newDefaultInstance : EmojiMappingBuilder m).setFileNameEmoji j!"README.md" e) = .error .illegalState := by
  have : (EmojiMappingBuilder.newDefaultInstance : EmojiMappingBuilder m).setFileNameEmoji j!"README.md" e =
      emojiBuilder (defaultCalls ++ [.setFileNameEmoji j!"README.md" e]) := by
    rw [newDefaultInstance_eq]; unfold emojiBuilder; rw [List.foldl_append]; rfl
  rw [this]
  refine C37_second_spelling_throws asciiCasing _ j!"readme.md" j!"README.md" j!"📘" e (by decide) (by decide) ?_ (by simp)
  refine List.mem_append_left _ (List.mem_append_left _ (List.mem_map.2 ⟨(j!"readme.md", j!"📘"), ?_, rfl⟩))
  simp [DEFAULT_FILENAME_EMOJIS]

omit [Monad m] [LawfulMonad m] [MonadExceptOf Exn m] in
theorem default_keys_lower {cs : Casing} (hcs : KeepsLowerAscii cs.lower) : ∀ k ∈ DEFAULT_FILENAME_EMOJIS.map Prod.fst ++ DEFAULT_FILEEXTENSIONS_EMOJIS.map Prod.fst, cs.lower k = k := by
  have h : ∀ k ∈ DEFAULT_FILENAME_EMOJIS.map Prod.fst ++ DEFAULT_FILEEXTENSIONS_EMOJIS.map Prod.fst, ∀ c ∈ k, c ∈ j!"abcdefghijklmnopqrstuvwxyz0123456789.-_" := by decide
  exact fun k hk => hcs k (h k hk)

/-- **C37**: the default mapping can be built in every locale that leaves lower-case ASCII texts unchanged. -/
theorem C37_default_builds (cs : Casing) (hcs : KeepsLowerAscii cs.lower) :
    ∃ f, EmojiMappingBuilder.build cs (EmojiMappingBuilder.newDefaultInstance : EmojiMappingBuilder m) = .ok f := by
  have h := default_keys_lower hcs
  rw [newDefaultInstance_eq, C37_build_ok_iff]
  have e1 : defaultCalls.filterMap EmojiCall.asDirName = [] := by
    rw [List.filterMap_eq_nil_iff]
    intro c hc
    rcases List.mem_append.1 hc with hc | hc <;> obtain ⟨e, _, rfl⟩ := List.mem_map.1 hc <;> rfl
  have e2 : ∀ s ∈ defaultCalls.filterMap EmojiCall.asFileName, cs.lower s.1 = s.1 := by
    intro s hs
    obtain ⟨c, hc, hcs⟩ := List.mem_filterMap.1 hs
    rcases List.mem_append.1 hc with hc | hc <;> obtain ⟨e, he, rfl⟩ := List.mem_map.1 hc <;> simp [EmojiCall.asFileName] at hcs
    subst hcs
    exact h _ (List.mem_append_left _ (List.mem_map_of_mem he))
  have e3 : ∀ s ∈ defaultCalls.filterMap EmojiCall.asFileExt, cs.lower s.1 = s.1 := by
    intro s hs
    obtain ⟨c, hc, hcs⟩ := List.mem_filterMap.1 hs
    rcases List.mem_append.1 hc with hc | hc <;> obtain ⟨e, he, rfl⟩ := List.mem_map.1 hc <;> simp [EmojiCall.asFileExt] at hcs
    subst hcs
    exact h _ (List.mem_append_right _ (List.mem_map_of_mem he))
  rintro (⟨s, hs, _⟩ | ⟨s, hs, s', hs', hne, hl⟩ | ⟨s, hs, s', hs', hne, hl⟩)
  · rw [e1] at hs; cases hs
  · rw [e2 s hs, e2 s' hs'] at hl; exact hne hl
  · rw [e3 s hs, e3 s' hs'] at hl; exact hne hl

/-! ### C39 -/

omit [LawfulMonad m] [MonadExceptOf Exn m] in
theorem run_matchers (c : EmojiCall) (b : EmojiMappingBuilder m) (hc : ∀ mt e, c ≠ .addDirectoryEmoji mt e ∧ c ≠ .addFileEmoji mt e) :
    (EmojiCall.run b c).dirMatchersEmojis = b.dirMatchersEmojis ∧ (EmojiCall.run b c).fileMatchersEmojis = b.fileMatchersEmojis := by
  cases c with
  | addDirectoryEmoji mt e => exact absurd rfl (hc mt e).1
  | addFileEmoji mt e => exact absurd rfl (hc mt e).2
  | _ => exact ⟨rfl, rfl⟩

/-- **C39**, true part: later calls other than `addFileEmoji` and `addDirectoryEmoji` do not change a mapping that is already built. -/
theorem C39_immutable_partial (b : EmojiMappingBuilder m) (f : EmojiMapping) (fs : Fs m) (later : List EmojiCall) (p : Path)
    (h : ∀ c ∈ later, ∀ mt e, c ≠ .addDirectoryEmoji mt e ∧ c ≠ .addFileEmoji mt e) :
    f.getPathEmoji fs (later.foldl EmojiCall.run b) p = f.getPathEmoji fs b p := by
  have : (later.foldl EmojiCall.run b).dirMatchersEmojis = b.dirMatchersEmojis ∧ (later.foldl EmojiCall.run b).fileMatchersEmojis = b.fileMatchersEmojis := by
    induction later generalizing b with
    | nil => exact ⟨rfl, rfl⟩
    | cons c later ih =>
      rw [List.foldl_cons]
      have h1 := ih (EmojiCall.run b c) (fun c hc => h c (by simp [hc]))
      have h2 := run_matchers c b (h c (by simp))
      exact ⟨h1.1.trans h2.1, h1.2.trans h2.2⟩
  unfold EmojiMapping.getPathEmoji
  rw [this.1, this.2]

/-- **C39** is false of the code: a rule added after `build()` is used by the mapping built before, for every path that had no matching custom rule. -/
theorem C39_late_rule_applies (b : EmojiMappingBuilder m) (f : EmojiMapping) (fs : Fs m) (mt : Path → Bool) (e : JStr) (p : Path) (dir : Bool)
    (hd : fs.isDir p = pure dir) (hm : mt p = true)
    (hno : ∀ r ∈ (if dir then b.dirMatchersEmojis else b.fileMatchersEmojis), r.matcher p = pure false) :
    f.getPathEmoji fs (EmojiCall.run b (if dir then .addDirectoryEmoji mt e else .addFileEmoji mt e)) p = pure (some e) := by
  replace hd : PathMatchers.isDirectory fs p = pure _ := hd
  refine C36_custom_rules_short_circuit f _ fs p (if dir then b.dirMatchersEmojis else b.fileMatchersEmojis) [] ⟨fun q => pure (mt q), e⟩ dir hd ?_ hno (by simp [hm])
  cases dir <;> rfl

end

namespace Demo

/-- The mapping built from the blank builder. -/
def blankEmoji : EmojiMapping := ⟨asciiCasing, j!"📂", [], j!"📄", [], []⟩

theorem blank_builds : EmojiMappingBuilder.build asciiCasing (EmojiMappingBuilder.newBlankInstance : EmojiMappingBuilder (Except Exn)) = .ok blankEmoji := rfl

end Demo

/-- **C39**, claim refuted: the file `/r/b` gets another emoji after a later `addFileEmoji`. -/
theorem C39_claim_false : ¬ ∀ (b : EmojiMappingBuilder (Except Exn)) (f : EmojiMapping), EmojiMappingBuilder.build asciiCasing b = .ok f →
    ∀ (later : List EmojiCall) (p : Path), f.getPathEmoji Demo.dfs.lift (later.foldl EmojiCall.run b) p = f.getPathEmoji Demo.dfs.lift b p := by
  intro h
  have h1 := h EmojiMappingBuilder.newBlankInstance Demo.blankEmoji Demo.blank_builds [.addFileEmoji (fun _ => true) j!"x"] Demo.b
  revert h1
  decide

/-- Example for C36 and C37: `README.MD` with a name rule in another case, and a custom rule for another file. -/
example : ∃ f, EmojiMappingBuilder.build asciiCasing (emojiBuilder [.setFileNameEmoji j!"Readme.md" j!"R", .addFileEmoji (· = Demo.b) j!"B"] : EmojiMappingBuilder (Except Exn)) = .ok f ∧
    f.getPathEmoji Demo.dfs.lift (emojiBuilder [.setFileNameEmoji j!"Readme.md" j!"R", .addFileEmoji (· = Demo.b) j!"B"]) ⟨true, [j!"README.MD"]⟩ = (pure (some j!"R") : Except Exn _) :=
  ⟨_, rfl, C37_case_variant_honoured (m := Except Exn) asciiCasing [] [.addFileEmoji (· = Demo.b) j!"B"] j!"Readme.md" j!"R" _ rfl (by simp) _ _ rfl j!"README.MD" rfl (by decide) (by simp; decide)⟩

/-! ### `withDefaultEmojis()` -/

section
variable {m : Type → Type} [Monad m] [LawfulMonad m] [MonadExceptOf Exn m]

/-- **C36** for `withDefaultEmojis()`: every directory gets 📂; a file gets the emoji the default table has for its name, else the one it has for the most specific of its extensions
that is in the table, else 📄 (all ignoring case). Nothing else is changed. -/
theorem C36_default (cs : Casing) (fs : Fs m) (o o' : Options m) (h : Options.withDefaultEmojis cs fs o = .ok o') :
    (∀ p, fs.isDir p = pure true → o'.emojiMapping p = pure (some j!"📂")) ∧
    (∀ p exts, fs.isDir p = pure false → (∀ n, p.getFileName = some n → ExtParts cs.lower n exts) → (p.getFileName = none → exts = []) →
      o'.emojiMapping p = pure (some (fileEmoji cs.lower defaultCalls p exts))) ∧
    o' = o.withEmojis o'.emojiMapping := by
  unfold Options.withDefaultEmojis at h
  obtain ⟨f, hf, h⟩ := except_bind_ok h
  cases h
  rw [newDefaultInstance_eq] at hf
  refine ⟨fun p hp => ?_, fun p exts hp hx hr => ?_, rfl⟩
  · show f.getPathEmoji fs EmojiMappingBuilder.newDefaultInstance p = _
    rw [newDefaultInstance_eq, C36_directory cs defaultCalls f hf fs p hp]
    have h1 : defaultCalls.filterMap EmojiCall.asDirRule = [] := by rfl
    have h2 : defaultCalls.filterMap EmojiCall.asDirName = [] := by rfl
    have h3 : defaultCalls.filterMap EmojiCall.asDefaultDir = [] := by rfl
    unfold dirEmoji
    rw [h1, h2, h3]
    cases p.getFileName <;> rfl
  · show f.getPathEmoji fs EmojiMappingBuilder.newDefaultInstance p = _
    rw [newDefaultInstance_eq, C36_file cs defaultCalls f hf fs p hp exts hx hr]

/-- **C36**: `withDefaultEmojis()` does not throw in any locale that leaves lower-case ASCII texts unchanged. -/
theorem C36_default_ok (cs : Casing) (hcs : KeepsLowerAscii cs.lower) (fs : Fs m) (o : Options m) :
    ∃ o', Options.withDefaultEmojis cs fs o = .ok o' := by
  obtain ⟨f, hf⟩ := C37_default_builds (m := m) cs hcs
  unfold Options.withDefaultEmojis
  simp only [hf]
  exact ⟨_, rfl⟩

end

theorem lastSet_mem {lower : JStr → JStr} {sets : List (JStr × JStr)} {k e : JStr} (h : lastSet lower sets k = some e) : e ∈ sets.map Prod.snd := by
  unfold lastSet at h
  obtain ⟨x, hx, rfl⟩ := Option.map_eq_some_iff.1 h
  exact List.mem_map.2 ⟨x, by simpa using List.mem_of_find?_eq_some hx, rfl⟩

/-- **C36**: every emoji the default mapping assigns to a file is one of the table or 📄; none of them contains a line feed (needed by C02). -/
theorem C36_default_emojis_clean (lower : JStr → JStr) (p : Path) (exts : List JStr) : NL ∉ fileEmoji lower defaultCalls p exts := by
  have hall : ∀ e ∈ (DEFAULT_FILENAME_EMOJIS.map Prod.snd ++ DEFAULT_FILEEXTENSIONS_EMOJIS.map Prod.snd ++ [j!"📄"]), NL ∉ e := by decide
  have h1 : defaultCalls.filterMap EmojiCall.asFileRule = [] := by rfl
  have h2 : defaultCalls.filterMap EmojiCall.asFileName = DEFAULT_FILENAME_EMOJIS := by rfl
  have h3 : defaultCalls.filterMap EmojiCall.asFileExt = DEFAULT_FILEEXTENSIONS_EMOJIS := by rfl
  have h4 : defaultCalls.filterMap EmojiCall.asDefaultFile = [] := by rfl
  apply hall
  unfold fileEmoji
  rw [h1, h2, h3, h4]
  simp only [customEmoji, List.find?_nil, Option.map_none, Option.none_or, List.getLast?_nil, Option.or_none]
  rcases hn : (p.getFileName.bind fun n => lastSet lower DEFAULT_FILENAME_EMOJIS (lower n)) with _ | e
  · rcases hx : (candidates exts).findSome? (lastSet lower DEFAULT_FILEEXTENSIONS_EMOJIS) with _ | e
    · simp
    · obtain ⟨k, _, hk⟩ := List.exists_of_findSome?_eq_some hx
      simp [lastSet_mem hk]
  · obtain ⟨n, _, hk⟩ := Option.bind_eq_some_iff.1 hn
    simp [lastSet_mem hk]

theorem keepsLowerAscii_ascii : KeepsLowerAscii asciiCasing.lower := by
  intro k hk
  have h : ∀ c ∈ j!"abcdefghijklmnopqrstuvwxyz0123456789.-_", asciiLowerChar c = c := by decide
  exact (List.map_congr_left (fun c hc => h c (hk c hc))).trans (List.map_id k)

/-- Example: `withDefaultEmojis()` on the demo disk in an ASCII locale. -/
example : ∃ o', Options.withDefaultEmojis asciiCasing Demo.dfs.lift (Options.createDefault : Options (Except Exn)) = .ok o' ∧ o'.emojiMapping Demo.a = pure (some j!"📂") := by
  obtain ⟨o', h⟩ := C36_default_ok asciiCasing keepsLowerAscii_ascii Demo.dfs.lift (Options.createDefault : Options (Except Exn))
  exact ⟨o', h, (C36_default asciiCasing _ _ _ h).1 _ rfl⟩

/-! ### C68 -/

theorem extParts_exists (lower : JStr → JStr) (n : JStr) : ∃ exts, ExtParts lower n exts := by
  rcases name_cases (lower n) with h | ⟨base, exts, h⟩ | h
  · exact ⟨[], Or.inr ⟨rfl, Or.inl h⟩⟩
  · exact ⟨exts, Or.inl ⟨base, h⟩⟩
  · exact ⟨[], Or.inr ⟨rfl, Or.inr h⟩⟩

theorem lastSet_default {cs : Casing} {t : StrMap} (hk : ∀ k ∈ t.map Prod.fst, cs.lower k = k) (hn : (t.map Prod.fst).Nodup) {k e : JStr} (hm : (k, e) ∈ t) :
    lastSet cs.lower t k = some e := by
  unfold lastSet
  have hkey : ∀ s ∈ t, cs.lower s.1 = s.1 := fun s hs => hk _ (List.mem_map_of_mem hs)
  have : t.reverse.find? (fun s => decide (cs.lower s.1 = k)) = some (k, e) := by
    rw [List.find?_eq_some_iff_append]
    obtain ⟨a, b, rfl⟩ := List.append_of_mem hm
    refine ⟨by simpa using hkey (k, e) hm, b.reverse, a.reverse, by simp, ?_⟩
    intro s hs
    have hs' : s ∈ b := by simpa using hs
    rw [hkey s (by simp [hs'])]
    simp only [decide_eq_true_eq, Bool.not_eq_eq_eq_not, Bool.not_true, decide_eq_false_iff_not]
    rintro rfl
    simp only [List.map_append, List.map_cons, List.nodup_append, List.nodup_cons] at hn
    exact hn.2.1.1 (List.mem_map_of_mem hs')
  rw [this]; rfl

section
variable {m : Type → Type} [Monad m] [LawfulMonad m] [MonadExceptOf Exn m]

/-- **C68**: `withDefaultEmojis()` does not throw (the tables have no key twice, and all keys are in lower case). -/
theorem C68_no_exception (cs : Casing) (hcs : KeepsLowerAscii cs.lower) (fs : Fs m) (o : Options m) : ∃ o', Options.withDefaultEmojis cs fs o = .ok o' :=
  C36_default_ok cs hcs fs o

/-- **C68**: every entry of the default name table is effective: a file whose name is the key in any upper/lower case spelling gets its emoji. -/
theorem C68_default_names (cs : Casing) (hcs : KeepsLowerAscii cs.lower) (fs : Fs m) (o o' : Options m) (h : Options.withDefaultEmojis cs fs o = .ok o')
    (k e : JStr) (hk : (k, e) ∈ DEFAULT_FILENAME_EMOJIS) (p : Path) (hp : fs.isDir p = pure false) (n : JStr) (hn : p.getFileName = some n) (hl : cs.lower n = k) :
    o'.emojiMapping p = pure (some e) := by
  obtain ⟨exts, hx⟩ := extParts_exists cs.lower n
  rw [(C36_default cs fs o o' h).2.1 p exts hp (fun n' hn' => by rw [hn] at hn'; cases hn'; exact hx) (fun h => by rw [hn] at h; cases h)]
  have h1 : defaultCalls.filterMap EmojiCall.asFileRule = [] := by rfl
  have h2 : defaultCalls.filterMap EmojiCall.asFileName = DEFAULT_FILENAME_EMOJIS := by rfl
  have h3 := lastSet_default (cs := cs) (t := DEFAULT_FILENAME_EMOJIS) (fun k hk => default_keys_lower hcs k (List.mem_append_left _ hk)) (by decide) hk
  unfold fileEmoji
  rw [h1, h2, hn, Option.bind_some, hl, h3]
  rfl

/-- **C68**: every entry of the default extension table is effective: a file with the name `base.key` (in any upper/lower case spelling, no dot in the base) that is not in the name table gets its
emoji. -/
theorem C68_default_extensions (cs : Casing) (hcs : KeepsLowerAscii cs.lower) (fs : Fs m) (o o' : Options m) (h : Options.withDefaultEmojis cs fs o = .ok o')
    (k e : JStr) (hk : (k, e) ∈ DEFAULT_FILEEXTENSIONS_EMOJIS) (p : Path) (hp : fs.isDir p = pure false) (n base : JStr) (hn : p.getFileName = some n)
    (hl : cs.lower n = base ++ j!"." ++ k) (hb : DOT ∉ base) (hnot : cs.lower n ∉ DEFAULT_FILENAME_EMOJIS.map Prod.fst) :
    o'.emojiMapping p = pure (some e) := by
  have hdot : ∀ k ∈ DEFAULT_FILEEXTENSIONS_EMOJIS.map Prod.fst, DOT ∉ k ∧ k ≠ [] := by decide
  have hkd := hdot k (List.mem_map_of_mem hk)
  have hx : ExtParts cs.lower n [k] := Or.inl ⟨base, by simp, by simp [hb, hkd.1], by simpa using hkd.2, 0, by simp [joinDots, hl]⟩
  rw [(C36_default cs fs o o' h).2.1 p [k] hp (fun n' hn' => by rw [hn] at hn'; cases hn'; exact hx) (fun h => by rw [hn] at h; cases h)]
  have h1 : defaultCalls.filterMap EmojiCall.asFileRule = [] := by rfl
  have h2 : defaultCalls.filterMap EmojiCall.asFileName = DEFAULT_FILENAME_EMOJIS := by rfl
  have h2' : defaultCalls.filterMap EmojiCall.asFileExt = DEFAULT_FILEEXTENSIONS_EMOJIS := by rfl
  have h3 := lastSet_default (cs := cs) (t := DEFAULT_FILEEXTENSIONS_EMOJIS) (fun k hk => default_keys_lower hcs k (List.mem_append_right _ hk)) (by decide) hk
  have h4 : lastSet cs.lower DEFAULT_FILENAME_EMOJIS (cs.lower n) = none := by
    unfold lastSet
    rw [Option.map_eq_none_iff, List.find?_eq_none]
    intro s hs
    have hs' : s.1 ∈ DEFAULT_FILENAME_EMOJIS.map Prod.fst := List.mem_map_of_mem (by simpa using hs)
    rw [default_keys_lower hcs s.1 (List.mem_append_left _ hs'), decide_eq_true_eq]
    intro he
    exact hnot (he ▸ hs')
  unfold fileEmoji
  rw [h1, h2, h2', hn, Option.bind_some, h4]
  simp [customEmoji, candidates, joinDots, h3]

end

/-- Examples: `README.md` and `Main.JAVA` in an ASCII locale. -/
example : ∃ o', Options.withDefaultEmojis asciiCasing Demo.dfs.lift (Options.createDefault : Options (Except Exn)) = .ok o' ∧
    o'.emojiMapping ⟨true, [j!"README.md"]⟩ = pure (some j!"📘") ∧ o'.emojiMapping ⟨true, [j!"Main.JAVA"]⟩ = pure (some j!"☕") := by
  obtain ⟨o', h⟩ := C36_default_ok asciiCasing keepsLowerAscii_ascii Demo.dfs.lift (Options.createDefault : Options (Except Exn))
  exact ⟨o', h, C68_default_names _ keepsLowerAscii_ascii _ _ _ h j!"readme.md" _ (by decide) _ rfl _ rfl (by decide),
    C68_default_extensions _ keepsLowerAscii_ascii _ _ _ h j!"java" _ (by decide) _ rfl _ j!"main" rfl (by decide) (by decide) (by decide)⟩

end JFTP
