import Verif.Model.Javadoc
import Verif.Props.OnePage
import Verif.Props.ProjectStructure
import Verif.Props.RecipePrograms
import Verif.Spec.Javadoc

/-
C117: the examples in the documentation of the builders do what they promise in every directory.
-/

namespace JFTP
open Spec PathMatchers

/-! ### Limits -/

section
variable {fs : PureFs} {cwd : Path} (hw : cwd.abs = true) {o : Options (Except Exn)} (hc : LawfulCmp o.pathComparator) {p : Path} {s : JStr}

theorem limitRules_limit (n n' : JStr) (k k' : Nat) {b : ChildLimitBuilder (Except Exn)} (hb : b.limits = [] ∧ b.defaultLimit = UNLIMITED) (q : Path) :
    (Javadoc.limitRules n k n' k' b).build.applyAsInt (Javadoc.limitRules n k n' k' b) q =
      .ok (if q.names.getLast? = some n then (k : Int) else if q.names.getLast? = some n' then (k' : Int) else -1) := by
  obtain ⟨l, d⟩ := b
  obtain ⟨rfl, rfl⟩ := hb
  show ChildLimitBuilder.limitLoop (m := Except Exn) q UNLIMITED [fun path => do return if ← hasName n path then (k : Int) else UNLIMITED, fun path => do return if ← hasName n' path then (k' : Int) else UNLIMITED] = _
  simp only [ChildLimitBuilder.limitLoop, Project.hasName_eq]
  have key : ∀ b1 b2 : Bool, ChildLimitBuilder.limitLoop (m := Except Exn) q UNLIMITED [fun _ => .ok (if b1 then (k : Int) else UNLIMITED), fun _ => .ok (if b2 then (k' : Int) else UNLIMITED)] =
      .ok (if b1 then (k : Int) else if b2 then (k' : Int) else -1) := by
    intro b1 b2
    cases b1 <;> cases b2 <;> simp [ChildLimitBuilder.limitLoop, pure, Except.pure, bind, Except.bind, UNLIMITED]
  have := key (decide (q.names.getLast? = some n)) (decide (q.names.getLast? = some n'))
  simp only [decide_eq_true_eq] at this
  rw [← this]
  simp [ChildLimitBuilder.limitLoop, pure, Except.pure, bind, Except.bind]

theorem take_min_length {α : Type} (n : Nat) (l : List α) : l.take (min n l.length) = l.take n := by
  rcases Nat.le_total n l.length with h | h
  · rw [Nat.min_eq_left h]
  · rw [Nat.min_eq_right h, List.take_length, List.take_of_length_le h]

include hw hc
theorem limited_text {lim : Path → Except Exn Int} {x x' : JStr × Nat} (hlim : ∀ q : Path, lim q = .ok (if q.names.getLast? = some x.1 then (x.2 : Int) else if q.names.getLast? = some x'.1 then (x'.2 : Int) else -1))
    (h : prettyPrint fs.lift cwd (o.withChildLimitFn lim) p = .ok s) :
    ∃ t T, Prints (o.withChildLimitFn lim) t T s ∧ ∀ d es k, BelowAt (.dir d es) k t → (k : Int) < o.maxDepth →
      ∃ (cs sorted : List Path) (shown : List TreeEntry), fs.listDir d = .opened cs false ∧ sorted.Perm (cs.filter (passes fs o)) ∧ sorted.Pairwise (fun a b => o.pathComparator a b ≤ 0) ∧
        shown.map entryPath = (sorted.take (Spec.Javadoc.room x x' d.names.getLast? sorted.length)).map some ∧
        es = shown ++ (if Spec.Javadoc.room x x' d.names.getLast? sorted.length < sorted.length then [.skipped d] else []) := by
  obtain ⟨t, T, ht, hp, hall⟩ := C10_text (o := o.withChildLimitFn lim) hw hc h
  refine ⟨t, T, hp, fun d es k hb hk => ?_⟩
  rcases hall d es k hb with ⟨hk', -⟩ | ⟨-, n, cs, srt, shown, h1, h2, h3, h4, h5, h6⟩
  · exact absurd hk' (by show ¬ o.maxDepth ≤ k; omega)
  have hn : n = if d.names.getLast? = some x.1 then (x.2 : Int) else if d.names.getLast? = some x'.1 then (x'.2 : Int) else -1 := Except.ok.inj (h1.symm.trans (hlim d))
  refine ⟨cs, srt, shown, h2, h3, h4, ?_, ?_⟩
  · rw [h5, hn]
    unfold Spec.Javadoc.room
    congr 1
    split
    · rw [if_neg (by omega), Int.toNat_natCast, take_min_length]
    · split
      · rw [if_neg (by omega), Int.toNat_natCast, take_min_length]
      · simp
  · rw [h6, hn]
    unfold Spec.Javadoc.room
    congr 1
    split
    · simp
    · split
      · simp
      · simp

/-- **C117**, ChildLimitBuilder: at most ten entries of the directories named `bigDir`, none of those named `emptyDir`, all of the others; `...` where some are left out. -/
theorem C117_limits (h : prettyPrint fs.lift cwd (Javadoc.bigAndEmpty o) p = .ok s) :
    ∃ t T, Prints (Javadoc.bigAndEmpty o) t T s ∧ ∀ d es k, BelowAt (.dir d es) k t → (k : Int) < o.maxDepth →
      ∃ (cs sorted : List Path) (shown : List TreeEntry), fs.listDir d = .opened cs false ∧ sorted.Perm (cs.filter (passes fs o)) ∧ sorted.Pairwise (fun a b => o.pathComparator a b ≤ 0) ∧
        shown.map entryPath = (sorted.take (Spec.Javadoc.room (j!"bigDir", 10) (j!"emptyDir", 0) d.names.getLast? sorted.length)).map some ∧
        es = shown ++ (if Spec.Javadoc.room (j!"bigDir", 10) (j!"emptyDir", 0) d.names.getLast? sorted.length < sorted.length then [.skipped d] else []) :=
  limited_text hw hc (fun q => limitRules_limit j!"bigDir" j!"emptyDir" 10 0 ⟨rfl, rfl⟩ q) h

/-- **C117**, ChildLimits: no entry of the directories named `bin`, at most twenty of those named `src`, all of the others. -/
theorem C117_limits_too (h : prettyPrint fs.lift cwd (Javadoc.binAndSrc o) p = .ok s) :
    ∃ t T, Prints (Javadoc.binAndSrc o) t T s ∧ ∀ d es k, BelowAt (.dir d es) k t → (k : Int) < o.maxDepth →
      ∃ (cs sorted : List Path) (shown : List TreeEntry), fs.listDir d = .opened cs false ∧ sorted.Perm (cs.filter (passes fs o)) ∧ sorted.Pairwise (fun a b => o.pathComparator a b ≤ 0) ∧
        shown.map entryPath = (sorted.take (Spec.Javadoc.room (j!"bin", 0) (j!"src", 20) d.names.getLast? sorted.length)).map some ∧
        es = shown ++ (if Spec.Javadoc.room (j!"bin", 0) (j!"src", 20) d.names.getLast? sorted.length < sorted.length then [.skipped d] else []) :=
  limited_text hw hc (fun q => limitRules_limit j!"bin" j!"src" 0 20 ⟨rfl, rfl⟩ q) h

end

/-! ### Order -/

theorem contains_iff {part : JStr} (s : JStr) : Javadoc.contains part s = true ↔ part <:+: s := by
  induction s with
  | nil => simp [Javadoc.contains]
  | cons c s ih => simp only [Javadoc.contains, Bool.or_eq_true, ih, List.isPrefixOf_iff_prefix, List.infix_cons_iff]

theorem prefix_slash {part a b : JStr} (h : SLASH ∉ part) : part <+: a ++ SLASH :: b ↔ part <+: a := by
  induction a generalizing part with
  | nil =>
    cases part with
    | nil => simp
    | cons c part => simp only [List.nil_append, List.cons_prefix_cons, List.prefix_nil]; simp at h; simp [Ne.symm h.1]
  | cons x a ih =>
    cases part with
    | nil => simp
    | cons c part => simp only [List.cons_append, List.cons_prefix_cons]; rw [ih (by simp at h; exact h.2)]

theorem infix_slash {part a b : JStr} (h : SLASH ∉ part) : part <:+: a ++ SLASH :: b ↔ part <:+: a ∨ part <:+: b := by
  induction a with
  | nil =>
    rw [List.nil_append, List.infix_cons_iff, show SLASH :: b = [] ++ SLASH :: b from rfl, prefix_slash h]
    simp
  | cons x a ih =>
    rw [List.cons_append, List.infix_cons_iff, List.infix_cons_iff, ih, ← List.cons_append, prefix_slash h, or_assoc]

theorem infix_joinSlash {part : JStr} (h : SLASH ∉ part) (h0 : part ≠ []) (ns : List JStr) : part <:+: joinSlash ns ↔ ∃ x ∈ ns, part <:+: x := by
  induction ns with
  | nil => simp [joinSlash, h0]
  | cons n ns ih =>
    cases ns with
    | nil => simp [joinSlash]
    | cons n' ns =>
      have : joinSlash (n :: n' :: ns) = n ++ SLASH :: joinSlash (n' :: ns) := by simp [joinSlash]
      rw [this, infix_slash h, ih]
      simp

theorem infix_pathString {part : JStr} (h : SLASH ∉ part) (h0 : part ≠ []) (q : Path) : part <:+: pathString q ↔ ∃ x ∈ q.names, part <:+: x := by
  unfold pathString
  split
  · rw [show SLASH :: joinSlash q.names = [] ++ SLASH :: joinSlash q.names from rfl, infix_slash h, infix_joinSlash h h0]
    simp [h0]
  · exact infix_joinSlash h h0 _

/-- The number the rules give a path. -/
theorem customSort_rank (q : Path) : Javadoc.customSort.build.finalFunction q =
    if q.names.getLast? = some j!"README.md" then -2147483648 else if q.names.getLast? = some j!"target" then 2147483647 else if ∃ x ∈ q.names, j!"core" <:+: x then -10 else 0 := by
  have key : ∀ b1 b2 b3 : Bool, PathSortBuilder.precedenceLoop q 0 [fun _ => if b1 then HIGHEST_PRECEDENCE else DEFAULT_PRECEDENCE, fun _ => if b2 then LOWEST_PRECEDENCE else DEFAULT_PRECEDENCE,
      fun _ => if b3 then -10 else 0] = if b1 then -2147483648 else if b2 then 2147483647 else if b3 then -10 else 0 := by
    intro b1 b2 b3
    cases b1 <;> cases b2 <;> cases b3 <;> rfl
  refine Eq.trans ?_ ((key (Project.named j!"README.md" q) (Project.named j!"target" q) (Javadoc.contains j!"core" (pathString q))).trans ?_)
  · rfl
  · simp only [Project.named_eq, decide_eq_true_eq, contains_iff, infix_pathString (show SLASH ∉ j!"core" by decide) (by decide)]

theorem child_names {d : Path} (hd : d.abs = true) (n : JStr) : (d.child n).names = d.names ++ [n] := by
  have hne : d ≠ Path.empty := by rintro rfl; cases hd
  unfold Path.child; rw [if_neg hne]

/-- The number the rules give an entry of a directory depends on its group only, and grows with it. -/
theorem customSort_child {d : Path} (hd : d.abs = true) (n : JStr) : Javadoc.customSort.build.finalFunction (d.child n) =
    match Spec.Javadoc.place d n with | 0 => -2147483648 | 1 => -10 | 2 => 0 | _ => 2147483647 := by
  rw [customSort_rank, child_names hd]
  have h : (∃ x ∈ d.names ++ [n], j!"core" <:+: x) ↔ (j!"core" <:+: n ∨ ∃ x ∈ d.names, j!"core" <:+: x) := by
    simp only [List.mem_append, List.mem_singleton, or_and_right, exists_or, exists_eq_left]
    exact or_comm
  simp only [h, List.getLast?_append, List.getLast?_singleton, Option.some_or, Option.some.injEq]
  unfold Spec.Javadoc.place
  split
  · rfl
  split
  · rfl
  split <;> rfl

theorem place_le (d : Path) (n : JStr) : Spec.Javadoc.place d n ≤ 3 := by
  unfold Spec.Javadoc.place
  split
  · omega
  split
  · omega
  split <;> omega

theorem customSort_before {d : Path} (hd : d.abs = true) (n n' : JStr) (h : Javadoc.customSort.build.compare Javadoc.customSort (d.child n) (d.child n') < 0 ∨
      (Javadoc.customSort.build.compare Javadoc.customSort (d.child n) (d.child n') = 0 ∧ compareTo n n' < 0)) :
    Spec.Javadoc.place d n < Spec.Javadoc.place d n' ∨ (Spec.Javadoc.place d n = Spec.Javadoc.place d n' ∧ compareTo n n' < 0) := by
  have e : Javadoc.customSort.build.compare Javadoc.customSort (d.child n) (d.child n') =
      thenComparing (fun p q => intCompare (Javadoc.customSort.build.finalFunction p) (Javadoc.customSort.build.finalFunction q)) (fun a b => compareTo (lastName a) (lastName b)) (d.child n) (d.child n') := by
    simp only [lastName_eq]; rfl
  rw [e] at h
  unfold thenComparing at h
  simp only [customSort_child hd, show lastName (d.child n) = n by simp [lastName, child_names hd], show lastName (d.child n') = n' by simp [lastName, child_names hd]] at h
  have h1 := place_le d n
  have h2 := place_le d n'
  generalize Spec.Javadoc.place d n = a at h h1 ⊢
  generalize Spec.Javadoc.place d n' = b at h h2 ⊢
  obtain rfl | rfl | rfl | rfl : a = 0 ∨ a = 1 ∨ a = 2 ∨ a = 3 := by omega
  all_goals obtain rfl | rfl | rfl | rfl : b = 0 ∨ b = 1 ∨ b = 2 ∨ b = 3 := by omega
  all_goals simp [intCompare] at h ⊢
  all_goals omega

section
variable {fs : PureFs} (hfs : ProperFs fs) {cwd : Path} (hw : cwd.abs = true) {o : Options (Except Exn)} {p : Path} {s : JStr}
include hfs hw

theorem dirs_abs {t : TreeEntry} (hc : LawfulCmp o.pathComparator) (h : scanned fs cwd o p = .ok t) {d : Path} {es : List TreeEntry} (hb : Below (.dir d es) t) : d.abs = true := by
  obtain ⟨n, hn⟩ := Below.at hb
  have hd := (visited_displayed ((scanned_sound hw hc h).visited hn rfl)).1
  generalize 0 + n = k at hd
  clear hb hn
  induction hd with
  | top => exact target_abs hw
  | @child k d cs q _ _ h2 h3 _ _ ih =>
    obtain ⟨n, rfl⟩ := (hfs _ _ _ h2).2 _ h3
    have hne : d ≠ Path.empty := by rintro rfl; cases ih
    unfold Path.child; rw [if_neg hne]; exact ih

/-- **C117**, PathSortBuilder: in every directory `README.md` comes first and `target` last; before the others come those with `core` in the name (all, if the path of the directory has it);
names decide within these groups. -/
theorem C117_sorted (h : prettyPrint fs.lift cwd (Javadoc.sorted o) p = .ok s) :
    ∃ t T, Prints (Javadoc.sorted o) t T s ∧ ∀ d es, Below (.dir d es) t →
      (es.filterMap entryPath).Pairwise fun a b => ∃ n n', a = d.child n ∧ b = d.child n' ∧
        (Spec.Javadoc.place d n < Spec.Javadoc.place d n' ∨ (Spec.Javadoc.place d n = Spec.Javadoc.place d n' ∧ compareTo n n' < 0)) := by
  have hl : LawfulCmp (Javadoc.customSort.build.compare Javadoc.customSort) := lawful_builder _ _
  obtain ⟨t, T, ht, hp⟩ := printed h
  refine ⟨t, T, hp, fun d es hb => ?_⟩
  have hd := dirs_abs hfs hw (sort_lawful hl) ht hb
  have hch : ∀ x ∈ es.filterMap entryPath, ∃ n, x = d.child n := by
    obtain ⟨k, hs⟩ := (scanned_sound hw (sort_lawful hl) ht).sub_below hb rfl
    obtain ⟨_, _, h | ⟨_, n, cs, ks, srt, es', h1, h2, h3, h4, h5, h6, h7⟩⟩ := hs.dir_inv
    · rw [h.2]; simp [entryPath]
    · intro x hx
      rw [h7, List.filterMap_append, moreMark_paths, List.append_nil, h6.filterMap] at hx
      exact (hfs d cs false h2).2 x (h3.subset.subset (h4.mem_iff.1 ((limitTo_sublist n srt).subset hx)))
  refine List.Pairwise.imp_of_mem (fun {a b} ha hb hab => ?_) (C08_children_strictly_sorted hfs hw hl rfl ht hb)
  obtain ⟨n, rfl⟩ := hch a ha
  obtain ⟨n', rfl⟩ := hch b hb
  refine ⟨n, n', rfl, rfl, customSort_before hd n n' ?_⟩
  simpa [lastName, child_names hd] using hab

end

/-! ### Emojis -/

section
variable {m : Type → Type} [Monad m] [LawfulMonad m] [MonadExceptOf Exn m]

/-- The calls of the example. -/
def javadocCalls : List EmojiCall :=
  [.setDefaultDirectoryEmoji j!"📂", .setDefaultFileEmoji j!"📄", .setFileExtensionEmoji j!"java" j!"☕", .setFileNameEmoji j!"Dockerfile" j!"🐳",
    .addFileEmoji (fun p => match p.getFileName with | some n => endsWith n j!".zip" | .none => false) j!"📦"]

omit [LawfulMonad m] [MonadExceptOf Exn m] in
theorem emojiRules_eq : (Javadoc.emojiRules : EmojiMappingBuilder m) = emojiBuilder javadocCalls := rfl

omit [LawfulMonad m] [MonadExceptOf Exn m] in
theorem java_extension {cs : Casing} (hlow : cs.lower j!"java" = j!"java") {n : JStr} {exts : List JStr} (hx : ExtParts cs.lower n exts) :
    (LastExt (cs.lower n) j!"java" → (candidates exts).findSome? (lastSet cs.lower [(j!"java", j!"☕")]) = some j!"☕") ∧
    (¬ LastExt (cs.lower n) j!"java" → (candidates exts).findSome? (lastSet cs.lower [(j!"java", j!"☕")]) = none) := by
  have hset : ∀ k, lastSet cs.lower [(j!"java", j!"☕")] k = if k = j!"java" then some j!"☕" else none := by
    intro k
    unfold lastSet
    by_cases h : k = j!"java"
    · simp [hlow, h]
    · have : ¬ j!"java" = k := fun e => h e.symm
      simp only [List.reverse_singleton, List.find?_singleton, hlow, this, decide_false, Bool.false_eq_true, if_false, h, Option.map_none]
  have hget : getExtensions cs n = candidates exts := by
    rcases hx with ⟨base, h⟩ | ⟨rfl, h⟩
    · exact C38_candidates cs n base exts h
    · exact C38_no_candidates cs n h
  constructor
  · intro hl
    obtain ⟨b, es, h⟩ := hasExts_last hl
    rw [← hget, C38_candidates cs n b _ h]
    obtain ⟨front, h1, h2⟩ := mem_candidates_append es j!"java"
    rw [h1, List.findSome?_append]
    have : front.findSome? (lastSet cs.lower [(j!"java", j!"☕")]) = none := by
      rw [List.findSome?_eq_none_iff]
      intro c hc
      rw [hset, if_neg]
      rintro rfl
      exact absurd (h2 _ hc) (by decide)
    rw [this]
    simp [hset]
  · intro hl
    rw [List.findSome?_eq_none_iff]
    intro c hc
    rw [hset, if_neg]
    rintro rfl
    apply hl
    rcases hx with ⟨base, h⟩ | ⟨rfl, h⟩
    · rcases List.eq_nil_or_concat exts with rfl | ⟨front, key, rfl⟩
      · cases hc
      · rw [List.concat_eq_append] at hc h
        obtain ⟨fr, h1, h2⟩ := mem_candidates_append front key
        rw [h1] at hc
        rcases List.mem_append.1 hc with hc | hc
        · exact absurd (h2 _ hc) (by decide)
        · obtain ⟨k, hk⟩ := h.name
          rw [← List.cons_append, joinDots_snoc _ (by simp)] at hk
          rw [List.mem_singleton.1 hc]
          exact ⟨h.parts key (by simp), by simpa using h.last, _, k, hk⟩
    · cases hc

/-- **C117**, EmojiMappingBuilder: directories get 📂, files whose name ends with `.zip` 📦, files named `Dockerfile` (ignoring case) 🐳, files with the last extension `java` (ignoring case) ☕, the other
files 📄. -/
theorem C117_emojis (cs : Casing) (hcs : KeepsLowerAscii cs.lower) (fs : Fs m) (o : Options m) :
    ∃ f, Javadoc.emojis cs fs o = .ok (o.withEmojis f) ∧ (∀ p, fs.isDir p = pure true → f p = pure (some j!"📂")) ∧
      ∀ p n, fs.isDir p = pure false → p.names.getLast? = some n → ∃ e, Spec.Javadoc.FileEmoji cs.lower n e ∧ f p = pure (some e) := by
  have hlow : cs.lower j!"java" = j!"java" := hcs _ (by decide)
  obtain ⟨f, hf⟩ := (C37_build_ok_iff (m := m) cs javadocCalls).2 (by
    rintro (⟨s, hs, -⟩ | ⟨s, hs, s', hs', hne, -⟩ | ⟨s, hs, s', hs', hne, -⟩)
    · cases hs
    · rw [show javadocCalls.filterMap EmojiCall.asFileName = [(j!"Dockerfile", j!"🐳")] from rfl, List.mem_singleton] at hs hs'
      exact hne (by rw [hs, hs'])
    · rw [show javadocCalls.filterMap EmojiCall.asFileExt = [(j!"java", j!"☕")] from rfl, List.mem_singleton] at hs hs'
      exact hne (by rw [hs, hs']))
  refine ⟨f.getPathEmoji fs Javadoc.emojiRules, ?_, fun p hp => ?_, fun p n hp hn => ?_⟩
  · unfold Javadoc.emojis
    rw [emojiRules_eq, hf]
    rfl
  · rw [emojiRules_eq, C36_directory cs javadocCalls f hf fs p hp]
    unfold dirEmoji
    cases p.getFileName <;> rfl
  · obtain ⟨exts, hx⟩ := extParts_exists cs.lower n
    have hn' : p.getFileName = some n := by unfold Path.getFileName; rw [hn]
    refine ⟨_, ?_, by rw [emojiRules_eq, C36_file cs javadocCalls f hf fs p hp exts (fun k hk => by rw [hn'] at hk; cases hk; exact hx) (fun h => by rw [hn'] at h; cases h)]⟩
    have hj := java_extension hlow hx
    unfold Spec.Javadoc.FileEmoji fileEmoji
    rw [show javadocCalls.filterMap EmojiCall.asFileName = [(j!"Dockerfile", j!"🐳")] from rfl, show javadocCalls.filterMap EmojiCall.asFileExt = [(j!"java", j!"☕")] from rfl,
      show javadocCalls.filterMap EmojiCall.asDefaultFile = [j!"📄"] from rfl,
      show javadocCalls.filterMap EmojiCall.asFileRule = [((fun p => match p.getFileName with | some n => endsWith n j!".zip" | .none => false), j!"📦")] from rfl]
    have hset : lastSet cs.lower [(j!"Dockerfile", j!"🐳")] (cs.lower n) = if cs.lower n = cs.lower j!"Dockerfile" then some j!"🐳" else none := by
      unfold lastSet
      by_cases h : cs.lower n = cs.lower j!"Dockerfile"
      · simp [h]
      · have : ¬ cs.lower j!"Dockerfile" = cs.lower n := fun e => h e.symm
        simp only [List.reverse_singleton, List.find?_singleton, this, decide_false, Bool.false_eq_true, if_false, h, Option.map_none]
    rw [hn', Option.bind_some, hset]
    have hz : customEmoji [((fun p => match p.getFileName with | some n => endsWith n j!".zip" | .none => false), j!"📦")] p = if j!".zip" <:+ n then some j!"📦" else none := by
      unfold customEmoji
      simp only [List.find?_singleton, hn', endsWith]
      by_cases h : j!".zip" <:+ n
      · rw [if_pos (List.isSuffixOf_iff_suffix.2 h), if_pos h]; rfl
      · rw [if_neg (fun e => h (List.isSuffixOf_iff_suffix.1 e)), if_neg h]; rfl
    rw [hz]
    by_cases h1 : j!".zip" <:+ n
    · left; simp [h1]
    right
    by_cases h2 : cs.lower n = cs.lower j!"Dockerfile"
    · left; simp only [h1, h2, if_true, if_false]; exact ⟨not_false, trivial, rfl⟩
    right
    by_cases h3 : LastExt (cs.lower n) j!"java"
    · left; rw [hj.1 h3]; simp only [h1, h2, if_false]; exact ⟨not_false, h2, h3, rfl⟩
    · right; rw [hj.2 h3]; simp only [h1, h2, if_false]; exact ⟨not_false, h2, h3, rfl⟩

end

/-! ### Line extensions -/

section
open Glob Globs GlobL
variable (odd : GlobCompiler) {fs : PureFs} (hl : ListsNames fs) {cwd : Path} (hw : cwd.abs = true)
include hw

/-- **C117**, LineExtensionBuilder and LineExtensions: the rules can be built for every reference path, and what they answer for a path reached from it by the names `way`. -/
theorem C117_documented {o : Options (Except Exn)} {root : Path} (hr : root.Valid) (text : JStr) :
    ∃ f : Path → Option JStr, Javadoc.documented (getPathMatcher odd) cwd root text o = .ok (o.withLineExtension (some fun q => pure (f q))) ∧
      ∀ q way, q.Valid → (target cwd q).names = (target cwd root).names ++ way → (∀ n ∈ way, SLASH ∉ n) → f q = Spec.Javadoc.extension text way q.names.getLast? := by
  obtain ⟨mt, b, h1, h2, h3⟩ := literal_place odd hw hr (ds := [j!"src", j!"main", j!"java"]) (by simp) (by
    simp [Verbatim, Glob.plain, SLASH])
  let all : List (Rule JStr) := [((fun q => decide (q.names.getLast? = some j!"README.md")), text), (b, [])]
  let bld : LineExtensionBuilder (Except Exn) := all.foldl (fun b r => b.addMatching (fun q => pure (r.1 q)) r.2) LineExtensions.builder
  have hall : bld.build.apply bld = fun q => pure (firstMatch none (all.map fun r => (r.1, some r.2)) q) := funext fun q => C28_matching_rules (m := Except Exn) all bld q
  refine ⟨fun q => firstMatch none (all.map fun r => (r.1, some r.2)) q, ?_, fun q way hv hway hs => ?_⟩
  · have e1 : (hasName j!"README.md" : Matcher (Except Exn)) = fun q => pure (decide (q.names.getLast? = some j!"README.md")) := funext fun q => Project.hasName_eq _ q
    have e2 : mt = fun q => pure (b q) := funext h2
    rw [← hall]
    unfold Javadoc.documented
    rw [show joinSlash [j!"src", j!"main", j!"java"] = j!"src/main/java" from rfl] at h1
    rw [h1, e1, e2]
    rfl
  · have := h3 q way hv hway hs
    unfold Spec.Javadoc.extension
    by_cases hn : q.names.getLast? = some j!"README.md"
    · simp [all, firstMatch, hn]
    · by_cases hy : way = [j!"src", j!"main", j!"java"]
      · have hb : b q = true := this.2 hy
        simp [all, firstMatch, hn, hb, hy]
      · have hb : b q = false := by cases e : b q; rfl; exact absurd (this.1 e) hy
        simp [all, firstMatch, hn, hb, hy]

include hl in
/-- **C117**, LineExtensionBuilder: when the reference path is printed, lines of entries named `README.md` end with the text, and no other directory follows `src/main/java` on its line. -/
theorem C117_documented_text (hcv : ∀ n ∈ cwd.names, n ≠ []) {o o' : Options (Except Exn)} (hc : LawfulCmp o.pathComparator) {root : Path} (hr : root.Valid) {text : JStr}
    (ho : Javadoc.documented (getPathMatcher odd) cwd root text o = .ok o') {s : JStr} (h : prettyPrint fs.lift cwd o' root = .ok s) :
    ∃ (t : TreeEntry) (items : List (Nat × Spec.Item)) (lines : List JStr), scanned fs cwd o' root = .ok t ∧ s = joinLines lines ∧ List.Forall₂ (IsLineOf o.treeFormat (lookOf o')) items lines ∧
      items.flatMap (fun x => x.2.shows) = events t ∧
      (∀ q ∈ entryPaths t, ∃ way, q.names = (target cwd root).names ++ way ∧ (lookOf o').ext q = Spec.Javadoc.extension text way q.names.getLast?) ∧
      (∀ x ∈ items, ∀ ds last, x.2 = .dirs ds last → ∀ d ∈ ds, d.names = (target cwd root).names ++ [j!"src", j!"main", j!"java"] → d ∉ ds.dropLast) := by
  obtain ⟨f, h1, h2⟩ := C117_documented odd hw (o := o) hr text
  rw [h1] at ho
  cases ho
  obtain ⟨t, items, lines, ht, e1, e2, e3, e4, -⟩ := C26_text h
  have hext : ∀ q ∈ entryPaths t, ∃ way, q.names = (target cwd root).names ++ way ∧ f q = Spec.Javadoc.extension text way q.names.getLast? := by
    intro q hq
    obtain ⟨n, y, hy, hyq⟩ := mem_entryPaths.1 hq
    have hsc := scanned_sound (o := o.withLineExtension (some fun q => pure (f q))) hw hc ht
    obtain ⟨way, e, w1, w2, w3⟩ := displayed_under hl hw hcv hr (visited_displayed (hsc.visited hy hyq)).1
    exact ⟨way, by rw [e], h2 q way w2 (by rw [w3, e]) w1⟩
  refine ⟨t, items, lines, ht, e1, e2, e3, hext, fun x hx ds last hd d hm hn hdrop => ?_⟩
  have hq : d ∈ entryPaths t := by
    unfold entryPaths
    rw [← e3]
    simp only [List.mem_filterMap, List.mem_flatMap, id]
    exact ⟨some d, ⟨x, hx, by rw [hd]; simpa [Item.shows] using hm⟩, rfl⟩
  obtain ⟨way, hway, hf⟩ := hext d hq
  rw [hn, List.append_cancel_left_eq] at hway
  rw [← hway, hn] at hf
  have := e4 x hx ds last hd d hdrop
  rw [show (lookOf (o.withLineExtension (some fun q => pure (f q)))).ext d = f d from rfl, hf] at this
  simp [Spec.Javadoc.extension] at this

end

/-! ### The printer -/

section
variable {fs : PureFs} {cwd : Path} (hw : cwd.abs = true)
include hw

/-- **C117**, FileTreePrettyPrinterBuilder: everything within three levels is displayed and nothing below; a directory at the third level has one line `...` below it. A line below the first one ends with a
directory whose content is not just one directory. -/
theorem C117_printer {s : JStr} (h : Javadoc.printer (m := Except Exn) fs.lift cwd = .ok s) :
    (∃ (items : List (Nat × Spec.Item)) (lines : List JStr), s = joinLines lines ∧ List.Forall₂ (IsLineOf TreeFormats.UNICODE_BOX_DRAWING (plain true)) items lines ∧
      ∀ q, (∃ x ∈ items, some q ∈ x.2.shows) ↔ ∃ k ≤ 3, Led fs (fun _ => True) (fun _ => True) (target cwd (Path.ofString j!"src/main/java")) k q) ∧
    ∃ t T, Prints ((Options.createDefault.withMaxDepth 3).withCompactDirectories true) t T s ∧ (∀ d es, BelowAt (.dir d es) 3 t → es = [.maxDepth 3]) ∧
      ∀ x ∈ (T.items 0).tail, ∀ ds last, x.2 = .dirs ds last → ∃ d0 es0 es', Below (.dir d0 es0) t ∧ Chain (plain true) d0 es0 ds last es' ∧ ∀ c ces, es' ≠ [.dir c ces] := by
  unfold Javadoc.printer at h
  simp only at h
  rw [C47_string _ _ hw] at h
  refine ⟨all_displayed (o := (Options.createDefault.withMaxDepth 3).withCompactDirectories true) hw lawful_ALPHABETICAL (L := plain true) (fun _ => rfl) rfl (fun _ => rfl)
    (fun _ _ h => by cases h; decide) (fun _ => rfl) (fun _ => rfl) (D := 3) rfl h, ?_⟩
  obtain ⟨t, T, -, hp, -, hcut⟩ := C13_text (o := (Options.createDefault.withMaxDepth 3).withCompactDirectories true) hw lawful_ALPHABETICAL (by decide) h
  refine ⟨t, T, hp, fun d es hb => hcut d es 3 hb rfl, ?_⟩
  intro x hx ds last hd
  cases t with
  | dir d es =>
    obtain ⟨d0, es0, es', ⟨e, he, hb⟩, hch⟩ := (C22_lines_are_maximal_chains _ d es T hp.shows).2 x hx ds last hd
    refine ⟨d0, es0, es', .inside he hb, hch, fun c ces e => ?_⟩
    obtain ⟨_, _, _, _, _, hmax⟩ := (C22_chain_iff ..).1 hch
    exact hmax ⟨rfl, ⟨c, ces, e⟩, rfl⟩
  | file p a => cases hp.shows with | other _ h => cases h; simp [ITree.items, itemsAll] at hx
  | skipped p => cases hp.shows with | other _ h => cases h; simp [ITree.items, itemsAll] at hx
  | maxDepth p => cases hp.shows with | other _ h => cases h; simp [ITree.items, itemsAll] at hx

end

/-! ### Examples -/

namespace Demo
open Spec.OnePage

def files (ns : List JStr) : List (JStr × Node) := ns.map fun n => (n, .regular 1)

def docDisk : Node := .dir true [
  (j!"r", .dir true [(j!"target", .dir true []), (j!"zeta", .regular 1), (j!"app-core", .dir true (files [j!"b", j!"a"])), (j!"README.md", .regular 1), (j!"alpha", .regular 1)]),
  (j!"score", .dir true (files [j!"the-core", j!"a", j!"README.md"])),
  (j!"l", .dir true [(j!"bigDir", .dir true (files [j!"a", j!"b", j!"c", j!"d", j!"e", j!"f", j!"g", j!"h", j!"i", j!"j", j!"k"])), (j!"emptyDir", .dir true (files [j!"a"])),
    (j!"bin", .dir true (files [j!"a"])), (j!"src", .dir true [])]),
  (j!"w", .dir true [(j!"src", .dir true [(j!"main", .dir true [(j!"java", .dir true [(j!"io", .dir true [(j!"b", .dir true [(j!"c", .dir true [(j!"d", .regular 1)])]), (j!"README.md", .regular 1)])])])])])]

/-- The directory with the sources. -/
def docDir : Path := ⟨true, [j!"w"]⟩

theorem docDisk_wf : docDisk.WF := by simp [docDisk, files, Node.WF, Node.WFAll]

def docFs : PureFs := docDisk.toFs

theorem limits_run : prettyPrint (m := Except Exn) docFs.lift Path.root (Javadoc.bigAndEmpty Options.createDefault) ⟨true, [j!"l"]⟩ =
    .ok j!"l/\n├─ bigDir/\n│  ├─ a\n│  ├─ b\n│  ├─ c\n│  ├─ d\n│  ├─ e\n│  ├─ f\n│  ├─ g\n│  ├─ h\n│  ├─ i\n│  ├─ j\n│  └─ ...\n├─ bin/\n│  └─ a\n├─ emptyDir/\n│  └─ ...\n└─ src/" :=
  (C100_disk docDisk_wf (cwd := Path.root) rfl (S := { standard with limit := fun q => if q.names.getLast? = some j!"bigDir" then 10 else if q.names.getLast? = some j!"emptyDir" then 0 else -1 })
    ⟨fun _ _ => rfl, fun _ _ => rfl, rfl, fun q _ => limitRules_limit j!"bigDir" j!"emptyDir" 10 0 ⟨rfl, rfl⟩ q, rfl, rfl, fun _ _ => rfl, fun _ _ => rfl, by decide, by decide, by decide, by decide⟩
    lawful_const _ _).2 (by decide +kernel)

theorem limits_run_too : prettyPrint (m := Except Exn) docFs.lift Path.root (Javadoc.binAndSrc Options.createDefault) ⟨true, [j!"l"]⟩ =
    .ok j!"l/\n├─ bigDir/\n│  ├─ a\n│  ├─ b\n│  ├─ c\n│  ├─ d\n│  ├─ e\n│  ├─ f\n│  ├─ g\n│  ├─ h\n│  ├─ i\n│  ├─ j\n│  └─ k\n├─ bin/\n│  └─ ...\n├─ emptyDir/\n│  └─ a\n└─ src/" :=
  (C100_disk docDisk_wf (cwd := Path.root) rfl (S := { standard with limit := fun q => if q.names.getLast? = some j!"bin" then 0 else if q.names.getLast? = some j!"src" then 20 else -1 })
    ⟨fun _ _ => rfl, fun _ _ => rfl, rfl, fun q _ => limitRules_limit j!"bin" j!"src" 0 20 ⟨rfl, rfl⟩ q, rfl, rfl, fun _ _ => rfl, fun _ _ => rfl, by decide, by decide, by decide, by decide⟩
    lawful_const _ _).2 (by decide +kernel)

theorem sorted_run : prettyPrint (m := Except Exn) docFs.lift Path.root (Javadoc.sorted Options.createDefault) r = .ok j!"r/\n├─ README.md\n├─ app-core/\n│  ├─ a\n│  └─ b\n├─ alpha\n├─ zeta\n└─ target/" :=
  (C100_disk docDisk_wf (cwd := Path.root) rfl (S := { standard with order := Javadoc.customSort.build.compare Javadoc.customSort })
    ⟨fun _ _ => rfl, fun _ _ => rfl, rfl, fun _ _ => rfl, rfl, rfl, fun _ _ => rfl, fun _ _ => rfl, by decide, by decide, by decide, by decide⟩ (lawful_builder _ Javadoc.customSort) _ _).2 (by decide +kernel)

/-- In a directory with `core` in its path the last rule makes no difference. -/
theorem sorted_run_core : prettyPrint (m := Except Exn) docFs.lift Path.root (Javadoc.sorted Options.createDefault) ⟨true, [j!"score"]⟩ = .ok j!"score/\n├─ README.md\n├─ a\n└─ the-core" :=
  (C100_disk docDisk_wf (cwd := Path.root) rfl (S := { standard with order := Javadoc.customSort.build.compare Javadoc.customSort })
    ⟨fun _ _ => rfl, fun _ _ => rfl, rfl, fun _ _ => rfl, rfl, rfl, fun _ _ => rfl, fun _ _ => rfl, by decide, by decide, by decide, by decide⟩ (lawful_builder _ Javadoc.customSort) _ _).2 (by decide +kernel)

theorem printer_run : Javadoc.printer (m := Except Exn) docFs.lift docDir = .ok j!"java/\n└─ io/\n   ├─ README.md\n   └─ b/c/\n      └─ ..." := by
  unfold Javadoc.printer
  simp only
  rw [C47_string _ _ rfl]
  exact (C100_disk docDisk_wf (cwd := docDir) rfl (S := { standard with maxDepth := 3, compact := true })
    ⟨fun _ _ => rfl, fun _ _ => rfl, rfl, fun _ _ => rfl, rfl, rfl, fun _ _ => rfl, fun _ _ => rfl, by decide, by decide, by decide, by decide⟩ lawful_const _ _).2 (by decide +kernel)

theorem docFs_names : ListsNames docFs := Node.NamesOk.lists (t := docDisk) (by simp [docDisk, files, Node.NamesOk, Node.NamesOkAll, SLASH])

/-- The options with the line extensions of LineExtensions. -/
def docOptions : Options (Except Exn) :=
  match Javadoc.documented (Globs.getPathMatcher fun _ => .error .illegalArgument) docDir (Path.ofString j!".") j!"\t// Project documentation" (dflt.withCompactDirectories true) with
  | .ok o => o
  | .error _ => dflt

theorem docOptions_eq : Javadoc.documented (Globs.getPathMatcher fun _ => .error .illegalArgument) docDir (Path.ofString j!".") j!"\t// Project documentation" (dflt.withCompactDirectories true) = .ok docOptions := rfl

theorem documented_run : prettyPrint docFs.lift docDir docOptions (Path.ofString j!".") =
    .ok j!"w/\n└─ src/main/java/\n   └─ io/\n      ├─ README.md\t// Project documentation\n      └─ b/c/\n         └─ d" := by
  refine (C100_disk docDisk_wf (cwd := docDir) rfl (S := { standard with compact := true, ext := (lookOf docOptions).ext })
    ⟨fun _ _ => rfl, fun _ _ => rfl, rfl, fun _ _ => rfl, rfl, rfl, fun _ _ => rfl, fun q _ => ?_, by decide, by decide, by decide, by decide⟩ lawful_const _ _).2 (by decide +kernel)
  obtain ⟨f, h1, -⟩ := C117_documented (fun _ => .error .illegalArgument) (cwd := docDir) rfl (o := dflt.withCompactDirectories true) (root := Path.ofString j!".") (.inr (by decide)) j!"\t// Project documentation"
  rw [docOptions_eq] at h1
  rw [Except.ok.inj h1]
  rfl

end Demo

example := C117_limits rfl lawful_ALPHABETICAL Demo.limits_run
example := C117_limits_too rfl lawful_ALPHABETICAL Demo.limits_run_too
example := C117_sorted Demo.docDisk_wf.proper rfl Demo.sorted_run
example := C117_sorted Demo.docDisk_wf.proper rfl Demo.sorted_run_core
example := C117_printer rfl Demo.printer_run
example := C117_emojis asciiCasing keepsLowerAscii_ascii Demo.docFs.lift Demo.dflt
example : Spec.Javadoc.FileEmoji asciiCasing.lower j!"A.Java" j!"☕" := .inr (.inr (.inl ⟨by decide, by decide, ⟨by decide, by decide, j!"a", 0, rfl⟩, rfl⟩))
example : Spec.Javadoc.FileEmoji asciiCasing.lower j!"DOCKERFILE" j!"🐳" := .inr (.inl ⟨by decide, by decide, rfl⟩)
example : Spec.Javadoc.FileEmoji asciiCasing.lower j!"a.java.zip" j!"📦" := .inl ⟨by decide, rfl⟩
example := C117_documented (fun _ => .error .illegalArgument) (cwd := Demo.docDir) rfl (o := Demo.dflt) (root := Path.ofString j!".") (.inr (by decide)) j!"\t// Project documentation"
example := C117_documented_text (fun _ => .error .illegalArgument) Demo.docFs_names (cwd := Demo.docDir) rfl (by decide) lawful_ALPHABETICAL (root := Path.ofString j!".") (.inr (by decide)) Demo.docOptions_eq Demo.documented_run

end JFTP
