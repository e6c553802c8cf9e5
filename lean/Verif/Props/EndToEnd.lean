import Verif.Spec.EndToEnd
import Verif.Props.Printf
import Verif.Props.OptionsFile
import Verif.Props.Mirror
import Verif.Lemmas.RealNames
import Verif.Model.Glob

/-
C86: the program prints the text that the options request asks for.
-/

namespace JFTP
open Spec Cli

/-! ### Correct entry trees for answers that agree on part of the disk -/

/-- On the paths in `I`, every answer of `A` is one of `B` (child limits up to the choice of the negative number). -/
structure AgreeIn (I : Path → Prop) (A B : Answers) : Prop where
  isDir : ∀ p b, I p → A.isDir p b → B.isDir p b
  list : ∀ p cs, I p → A.list p cs → B.list p cs
  attrs : ∀ p a, I p → A.attrs p a → B.attrs p a
  limit : ∀ p n, I p → A.limit p n → ∃ n', B.limit p n' ∧ (n' = n ∨ (n < 0 ∧ n' < 0))
  keep : ∀ p b, I p → A.keep p b → B.keep p b
  inside : ∀ p cs, I p → A.list p cs → ∀ c ∈ cs, I c

theorem AgreeIn.kept {I : Path → Prop} {A B : Answers} (h : AgreeIn I A B) {cs ks : List Path} (hI : ∀ c ∈ cs, I c) (hk : Kept A cs ks) : Kept B cs ks := by
  induction hk with
  | nil => exact .nil
  | keep hc _ ih => exact .keep (h.keep _ _ (hI _ (by simp)) hc) (ih fun c hc => hI c (by simp [hc]))
  | drop hc _ ih => exact .drop (h.keep _ _ (hI _ (by simp)) hc) (ih fun c hc => hI c (by simp [hc]))

mutual
theorem AgreeIn.scanned {I : Path → Prop} {A B : Answers} (h : AgreeIn I A B) {c : Cmp} {D : Int} {k : Nat} {p : Path} {e : TreeEntry} (hI : I p)
    (hs : Scanned A c D k p e) : Scanned B c D k p e := by
  cases hs with
  | file h1 h2 => exact .file (h.isDir _ _ hI h1) (h.attrs _ _ hI h2)
  | tooDeep h1 h2 => exact .tooDeep (h.isDir _ _ hI h1) h2
  | @dir _ _ n cs ks srt es h1 h2 h3 h4 h5 h6 h7 h8 =>
    obtain ⟨n', hn, he⟩ := h.limit _ _ hI h3
    have hcs := h.inside _ _ hI h4
    have hl : limitTo n' srt = limitTo n srt ∧ moreMark n' srt p = moreMark n srt p := by
      rcases he with rfl | ⟨ha, hb⟩
      · exact ⟨rfl, rfl⟩
      · unfold limitTo moreMark
        rw [if_pos ha, if_pos hb, if_neg (by omega), if_neg (by omega)]
        exact ⟨rfl, rfl⟩
    rw [← hl.2]
    refine .dir (h.isDir _ _ hI h1) h2 hn (h.list _ _ hI h4) (h.kept hcs h5) h6 h7 (hl.1 ▸ h.scannedAll (fun q hq => ?_) h8)
    exact hcs q (h5.subset.subset (h6.subset ((limitTo_sublist n srt).subset hq)))
termination_by ((D - k).toNat, 0)
decreasing_by exact Prod.Lex.left _ _ (by omega)
theorem AgreeIn.scannedAll {I : Path → Prop} {A B : Answers} (h : AgreeIn I A B) {c : Cmp} {D : Int} {k : Nat} {ps : List Path} {es : List TreeEntry}
    (hI : ∀ p ∈ ps, I p) (hs : ScannedAll A c D k ps es) : ScannedAll B c D k ps es := by
  cases hs with
  | nil => exact .nil
  | cons h1 h2 => exact .cons (h.scanned (hI _ (by simp)) h1) (h.scannedAll (fun p hp => hI p (by simp [hp])) h2)
termination_by ((D - k).toNat, ps.length + 1)
end

mutual
/-- All paths of a correct entry tree are in a set that contains the top and is closed under listing. -/
theorem scanned_in {A : Answers} {I : Path → Prop} (hin : ∀ p cs, I p → A.list p cs → ∀ c ∈ cs, I c) {c : Cmp} {D : Int} {k : Nat} {p : Path} {e : TreeEntry}
    (hI : I p) (hs : Scanned A c D k p e) : ∀ q ∈ entryPaths e, I q := by
  cases hs with
  | file h1 h2 => intro q hq; simp [entryPaths, events] at hq; rw [hq]; exact hI
  | tooDeep h1 h2 => intro q hq; simp [entryPaths, events, eventsAll] at hq; rw [hq]; exact hI
  | @dir _ _ n cs ks srt es h1 h2 h3 h4 h5 h6 h7 h8 =>
    intro q hq
    have hq' : some q ∈ events (.dir p (es ++ moreMark n srt p)) := by
      unfold entryPaths at hq
      obtain ⟨y, hy, hyq⟩ := List.mem_filterMap.1 hq
      simp at hyq; rw [← hyq]; exact hy
    rw [events, List.mem_cons] at hq'
    rcases hq' with hq' | hq'
    · cases hq'; exact hI
    · obtain ⟨y, hy, x, hb, hx⟩ := (mem_eventsAll _).1 hq'
      rcases List.mem_append.1 hy with hy | hy
      · have hks : ∀ q ∈ limitTo n srt, I q := fun q hq =>
          hin _ _ hI h4 q (h5.subset.subset (h6.subset ((limitTo_sublist n srt).subset hq)))
        refine scannedAll_in hin hks h8 y hy q ?_
        obtain ⟨k', hb'⟩ := hb.at
        exact mem_entryPaths.2 ⟨k', x, hb', hx⟩
      · rcases moreMark_cases n srt p with hm | hm <;> rw [hm] at hy
        · cases hy
        · simp at hy; subst hy; cases hb; cases hx
termination_by ((D - k).toNat, 0)
decreasing_by exact Prod.Lex.left _ _ (by omega)
/-- The same for lists. -/
theorem scannedAll_in {A : Answers} {I : Path → Prop} (hin : ∀ p cs, I p → A.list p cs → ∀ c ∈ cs, I c) {c : Cmp} {D : Int} {k : Nat} {ps : List Path}
    {es : List TreeEntry} (hI : ∀ p ∈ ps, I p) (hs : ScannedAll A c D k ps es) : ∀ e ∈ es, ∀ q ∈ entryPaths e, I q := by
  cases hs with
  | nil => intro e he; cases he
  | cons h1 h2 =>
    intro e he
    rcases List.mem_cons.1 he with rfl | he
    · exact scanned_in hin (hI _ (by simp)) h1
    · exact scannedAll_in hin (fun p hp => hI p (by simp [hp])) h2 e he
termination_by ((D - k).toNat, ps.length + 1)
end

/-! ### Library options that behave as a document says -/

/-- What C50 says about the options made from a document. -/
structure Obeys (lower : JStr → JStr) (fs : PureFs) (G : JStr → Path → Bool) (tgt : Path) (x : ExternalOptions) (o : Options (Except Exn)) : Prop where
  look : DocLook lower fs G tgt x (lookOf o)
  quiet : ∀ p rest, InTarget tgt p rest → o.emojiMapping p = .ok ((lookOf o).emoji p) ∧ (labelling o).ext p = .ok ((lookOf o).ext p)
  depth : o.maxDepth = x.maxDepth.getD 20
  format : o.treeFormat = TreeFormats.UNICODE_BOX_DRAWING
  sorts : o.pathComparator = PathSorts.ALPHABETICAL
  limit : ∀ p rest, InTarget tgt p rest → ∃ n, o.childLimit p = .ok n ∧ docLimit G tgt x p n
  filter : ∀ p rest, InTarget tgt p rest → (if fs.isDir p = true then o.dirMatcher p else o.fileMatcher p) = .ok (docKeeps fs G tgt x p)

section
variable {lower : JStr → JStr} {fs : PureFs} {G : JStr → Path → Bool} {tgt : Path} {x : ExternalOptions} {o : Options (Except Exn)}

theorem inTarget_child (hr : RealNames fs) {p : Path} {cs : List Path} {bad : Bool} (hp : ∃ rest, InTarget tgt p rest) (hl : fs.listDir p = .opened cs bad) :
    ∀ c ∈ cs, ∃ rest, InTarget tgt c rest := by
  intro c hc
  obtain ⟨n, rfl, h1, h2⟩ := hr _ _ _ hl c hc
  obtain ⟨rest, h⟩ := hp
  have hch : p.child n = ⟨p.abs, p.names ++ [n]⟩ := by
    unfold Path.child
    rw [if_neg]
    intro he
    have := h.abs.2
    rw [he] at this; cases this
  rw [hch]
  refine ⟨rest ++ [n], ⟨h.abs.1, h.abs.2⟩, ?_, ?_⟩
  · show p.names ++ [n] = _
    rw [h.names, List.append_assoc]
  · intro q hq
    have hq : q ∈ p.names ++ [n] := hq
    rcases List.mem_append.1 hq with hq | hq
    · exact h.clean q hq
    · rw [List.mem_singleton.1 hq]; exact ⟨h1, h2⟩

theorem docLimit_same {p : Path} {n n' : Int} (h : docLimit G tgt x p n) (h' : docLimit G tgt x p n') : n' = n ∨ (n < 0 ∧ n' < 0) := by
  unfold docLimit at h h'
  split at h
  · simp only [*] at h'; exact .inr ⟨h, h'⟩
  · simp only [*] at h'; exact .inl (h'.trans h.symm)
  · simp only [*] at h'
    unfold LimitIs at h h'
    split at h
    · rename_i e; rw [e] at h'; exact .inl (h'.trans h.symm)
    · rename_i e; rw [e] at h'; exact .inr ⟨h, h'⟩

theorem exts_of (lower : JStr → JStr) (q : Path) :
    ∃ exts, (∀ n, q.getFileName = some n → ExtParts lower n exts) ∧ (q.getFileName = none → exts = []) := by
  rcases hq : q.getFileName with _ | n
  · exact ⟨[], (fun n h => by cases h), fun _ => rfl⟩
  · obtain ⟨exts, h⟩ := extParts_exists lower n
    exact ⟨exts, (fun n' h' => by cases h'; exact h), fun h => by cases h⟩

/-- The text returned by the library for such options is the one the request asks for. -/
theorem obeys_prints (ho : Obeys lower fs G tgt x o) (hfs : ProperFs fs) (hr : RealNames fs) {cwd : Path} (hw : cwd.abs = true) (ht : target cwd tgt = tgt)
    (htop : InTarget tgt tgt []) (s : JStr) : prettyPrint fs.lift cwd o tgt = .ok s ↔ DocPrints lower fs G tgt x s := by
  have hlaw : LawfulCmp o.pathComparator := by rw [ho.sorts]; exact lawful_ALPHABETICAL
  have hdist : DistinguishesAll o.pathComparator fs := by rw [ho.sorts, alphabetical_eq]; exact sort_distinguishes lawful_const hfs
  have hto : AgreeIn (fun p => ∃ rest, InTarget tgt p rest) (answers fs o) (docAnswers fs G tgt x) := by
    refine ⟨fun _ _ _ h => h, fun _ _ _ h => h, fun _ _ _ h => h, ?_, ?_, fun p cs hp h => inTarget_child hr hp h⟩
    · rintro p n ⟨rest, hp⟩ h
      obtain ⟨n', h1, h2⟩ := ho.limit p rest hp
      rw [show o.childLimit p = .ok n from h] at h1; cases h1
      exact ⟨n, h2, .inl rfl⟩
    · rintro p b ⟨rest, hp⟩ h
      have h1 := ho.filter p rest hp
      rw [show (if fs.isDir p = true then o.dirMatcher p else o.fileMatcher p) = .ok b from h] at h1
      cases h1; rfl
  have hof : AgreeIn (fun p => ∃ rest, InTarget tgt p rest) (docAnswers fs G tgt x) (answers fs o) := by
    refine ⟨fun _ _ _ h => h, fun _ _ _ h => h, fun _ _ _ h => h, ?_, ?_, fun p cs hp h => inTarget_child hr hp h⟩
    · rintro p n ⟨rest, hp⟩ h
      obtain ⟨n', h1, h2⟩ := ho.limit p rest hp
      exact ⟨n', h1, docLimit_same h h2⟩
    · rintro p b ⟨rest, hp⟩ h
      have h1 := ho.filter p rest hp
      rw [show docKeeps fs G tgt x p = b from h] at h1
      exact h1
  constructor
  · intro h
    obtain ⟨t, T, hsc, hp⟩ := printed h
    have hs := scanned_sound hw hlaw hsc
    rw [ht, ho.sorts, ho.depth] at hs
    refine ⟨lookOf o, t, T, ho.look, hto.scanned ⟨[], htop⟩ hs, hp.named, hp.shows, ?_⟩
    rw [hp.text, ho.format]
  · rintro ⟨L, t, T, hL, hs, hn, hT, rfl⟩
    have hs' := hof.scanned ⟨[], htop⟩ hs
    have hsc : scanned fs cwd o tgt = .ok t := scanned_complete hw hlaw hdist (by rw [ht, ho.sorts, ho.depth]; exact hs')
    have hin := scanned_in (I := fun p => ∃ rest, InTarget tgt p rest) (fun p cs hp h => inTarget_child hr hp h) ⟨[], htop⟩ hs
    have hag : LookM.AgreeOn (labelling o) (Look.lift L) (entryPaths t) := by
      refine ⟨ho.look.compact.trans hL.compact.symm, fun q hq => ?_⟩
      obtain ⟨rest, hq⟩ := hin q hq
      obtain ⟨h1, h2⟩ := ho.quiet q rest hq
      constructor
      · show o.emojiMapping q = .ok (L.emoji q)
        rw [h1]
        congr 1
        by_cases he : x.emojis = some true
        · cases hd : fs.isDir q with
          | true => rw [ho.look.dirEmoji he q hd, hL.dirEmoji he q hd]
          | false =>
            obtain ⟨exts, hx1, hx2⟩ := exts_of lower q
            rw [ho.look.fileEmoji he q hd exts hx1 hx2, hL.fileEmoji he q hd exts hx1 hx2]
        · rw [ho.look.noEmoji he q, hL.noEmoji he q]
      · show (labelling o).ext q = .ok (L.ext q)
        rw [h2, ho.look.ext q rest hq, hL.ext q rest hq]
    rw [prettyPrint_eq, hsc]
    show Renderer.renderRoot o.toRender (LineRenderer.create o.toRender) t = _
    rw [C01_render_is_picture_effectful, ← labelling_eq, dispM_congr _ _ true t hag, dispM_top L t hn T hT, ← ho.format]
    rfl

end

/-! ### From the document to the options -/

section
variable {env : Env} {G : JStr → Path → Bool} {tgt : Path}

/-- The options of a valid document obey it. -/
theorem mapped_obeys {x : ExternalOptions} (hv : x.valid = true) (hg : ∀ g ∈ allGlobs x, g ≠ j!"*" → env.glob g = .ok (G g))
    (he : x.emojis = some true → KeepsLowerAscii env.casing.lower) :
    ∃ o, mapToOptions env.casing env.glob env.fs.lift env.cwd tgt x = .ok o ∧ Obeys env.casing.lower env.fs G tgt x o := by
  obtain ⟨o, h1, h2, h3, h4, h5, h6, h7, h8, h9⟩ := C50_meaning (m := Except Exn) (cwd := env.cwd) (target := tgt) env.casing env.fs.lift x hv hg he
  have hem : ∀ p, ∃ e, o.emojiMapping p = .ok e := by
    intro p
    by_cases hx : x.emojis = some true
    · obtain ⟨o', ho', e⟩ := h2 hx
      have hd := C36_default _ _ _ _ ho'
      rw [e]
      cases hp : env.fs.isDir p with
      | true => exact ⟨_, hd.1 p (congrArg Except.ok hp)⟩
      | false =>
        obtain ⟨exts, hx1, hx2⟩ := exts_of env.casing.lower p
        exact ⟨_, hd.2.1 p exts (congrArg Except.ok hp) hx1 hx2⟩
    · rw [h3 hx]; exact ⟨none, rfl⟩
  have hext : ∀ p rest, InTarget tgt p rest → (labelling o).ext p = .ok (firstMatch none (extensionRules G tgt (x.lineExtensions.getD [])) p) := by
    intro p rest hp
    show (match o.lineExtension with | none => Except.ok none | some g => g p) = _
    cases hl : o.lineExtension with
    | some g => exact (h9 p rest hp).2.2.2 g hl
    | none =>
      rw [hl] at h8
      have : x.lineExtensions = none := by
        cases hx : x.lineExtensions with
        | none => rfl
        | some _ => rw [hx] at h8; cases h8
      rw [this]; rfl
  have hlk : ∀ p r, (labelling o).ext p = .ok r → (lookOf o).ext p = r := by
    intro p r h
    have h : (match o.lineExtension with | none => Except.ok none | some g => g p) = .ok r := h
    show (match o.lineExtension with | none => none | some g => answerOf (g p)) = r
    cases hl : o.lineExtension with
    | none => rw [hl] at h; cases h; rfl
    | some g => rw [hl] at h; simp only at h ⊢; rw [h]; rfl
  refine ⟨o, h1, ⟨⟨h4, ?_, ?_, ?_, ?_⟩, ?_, h5, h6, h7, ?_, ?_⟩⟩
  · intro p rest hp; exact hlk _ _ (hext p rest hp)
  · intro hx p; show answerOf (o.emojiMapping p) = none; rw [h3 hx]; rfl
  · intro hx p hp
    obtain ⟨o', ho', e⟩ := h2 hx
    show answerOf (o.emojiMapping p) = _
    rw [e, (C36_default _ _ _ _ ho').1 p (congrArg Except.ok hp)]; rfl
  · intro hx p hp exts hx1 hx2
    obtain ⟨o', ho', e⟩ := h2 hx
    show answerOf (o.emojiMapping p) = _
    rw [e, (C36_default _ _ _ _ ho').2.1 p exts (congrArg Except.ok hp) hx1 hx2]; rfl
  · intro p rest hp
    constructor
    · obtain ⟨e, hE⟩ := hem p
      show _ = Except.ok (answerOf (o.emojiMapping p))
      rw [hE]; rfl
    · rw [hext p rest hp, hlk _ _ (hext p rest hp)]
  · intro p rest hp
    have := (h9 p rest hp).1
    unfold docLimit
    rcases hx : x.childLimit with _ | ⟨l⟩ | ⟨ls⟩ <;> rw [hx] at this
    · exact ⟨-1, this, show (-1 : Int) < 0 by decide⟩
    · exact ⟨_, this, rfl⟩
    · obtain ⟨n, hn, hl⟩ := this; exact ⟨n, hn, hl⟩
  · intro p rest hp
    obtain ⟨_, hd, hf, _⟩ := h9 p rest hp
    unfold docKeeps
    cases hp : env.fs.isDir p with
    | true => simp only [if_true]; exact hd
    | false => simp only [Bool.false_eq_true, if_false]; exact hf

/-- The default options obey the empty document. -/
theorem default_obeys (lower : JStr → JStr) (fs : PureFs) (G : JStr → Path → Bool) (tgt : Path) : Obeys lower fs G tgt {} Options.createDefault where
  look := ⟨rfl, fun _ _ _ => rfl, fun _ _ => rfl, (fun h => by cases h), (fun h => by cases h)⟩
  quiet _ _ _ := ⟨rfl, rfl⟩
  depth := rfl
  format := rfl
  sorts := rfl
  limit _ _ _ := ⟨-1, rfl, by show (-1 : Int) < 0; decide⟩
  filter p _ _ := by unfold docKeeps; split <;> rfl


theorem target_self {cwd p : Path} (ha : p.abs = true) (hc : ∀ n ∈ p.names, n ≠ j!"." ∧ n ≠ j!"..") : target cwd p = p := by
  unfold target Path.toAbsolutePath
  rw [if_pos ha]
  exact Path.normalize_of_names ha hc

theorem chosen_valid {given : Option Path} {x : ExternalOptions} (h : Chosen env tgt given (.ok (some x))) : x.valid = true := by
  cases h with
  | givenGood h => cases h; assumption
  | fallback h => cases h with | used _ _ h => cases h; assumption

/-- The options used in a run obey the chosen document (the empty one if there is none). -/
theorem chosen_obeys {given : Option Path} {x : Option ExternalOptions} (hch : Chosen env tgt given (.ok x))
    (hg : ∀ g ∈ allGlobs (x.getD {}), g ≠ j!"*" → env.glob g = .ok (G g)) (he : (x.getD {}).emojis = some true → KeepsLowerAscii env.casing.lower) :
    ∃ o, optionsFor env tgt x = .ok o ∧ Obeys env.casing.lower env.fs G tgt (x.getD {}) o := by
  cases x with
  | none => exact ⟨_, rfl, default_obeys _ _ _ _⟩
  | some x => exact mapped_obeys (chosen_valid hch) hg he

/-- **C86**: if the target exists, its options document (the empty one if no options file is found) can be read and is valid, and its globs are well formed, then the library
returns the text `s` to the program exactly if `s` is the text the request asks for. -/
theorem C86_ends (hp : PlainDirs env) (hfs : ProperFs env.fs) (hr : RealNames env.fs) {args : Args} {x : Option ExternalOptions}
    (hex : env.fileExists (targetOf env args) = true) (hch : Chosen env (targetOf env args) args.optionsFile (.ok x))
    (hg : ∀ g ∈ allGlobs (x.getD {}), g ≠ j!"*" → env.glob g = .ok (G g)) (he : (x.getD {}).emojis = some true → KeepsLowerAscii env.casing.lower) (s : JStr) :
    Ends env args (.tree s) ↔ DocPrints env.casing.lower env.fs G (targetOf env args) (x.getD {}) s := by
  obtain ⟨ha, hc⟩ := targetOf_clean hp args
  obtain ⟨o, ho, hob⟩ := chosen_obeys (G := G) hch hg he
  have ht : target env.cwd (targetOf env args) = targetOf env args := target_self ha hc
  have hin : InTarget (targetOf env args) (targetOf env args) [] := ⟨⟨ha, ha⟩, by simp, hc⟩
  rw [← obeys_prints hob hfs hr hp.cwd.1 ht hin s]
  constructor
  · intro h
    cases h with
    | @printed x' o' _ _ h2 h3 h4 =>
      obtain ⟨r, _, _, hu⟩ := C52_lookup hp ha hc args.optionsFile {} rfl
      have := (hu _ hch).trans (hu _ h2).symm
      cases this
      rw [ho] at h3; cases h3
      exact h4
  · exact fun h => .printed hex hch ho h

/-- **C86**: that text is printed, with a line break at its end, and the exit code is 0 (texts with percent signs: C53). -/
theorem C86_output (hp : PlainDirs env) (hfs : ProperFs env.fs) (hr : RealNames env.fs) {args : Args} (hd : args.debug = false) {x : Option ExternalOptions}
    (hex : env.fileExists (targetOf env args) = true) (hch : Chosen env (targetOf env args) args.optionsFile (.ok x))
    (hg : ∀ g ∈ allGlobs (x.getD {}), g ≠ j!"*" → env.glob g = .ok (G g)) (he : (x.getD {}).emojis = some true → KeepsLowerAscii env.casing.lower) {s : JStr}
    (hs : DocPrints env.casing.lower env.fs G (targetOf env args) (x.getD {}) s) (hn : PERCENT ∉ s) :
    run env args = (0, { out := s ++ j!"\n" }) :=
  C53_prints hp hd ((C86_ends hp hfs hr hex hch hg he s).2 hs) hn

/-- **C86**: if there is no such text (something that has to be read cannot be read, or the target is the root directory), nothing is printed to the standard output and
the exit code is 1. -/
theorem C86_otherwise (hp : PlainDirs env) (hfs : ProperFs env.fs) (hr : RealNames env.fs) {args : Args} (hd : args.debug = false) {x : Option ExternalOptions}
    (hex : env.fileExists (targetOf env args) = true) (hch : Chosen env (targetOf env args) args.optionsFile (.ok x))
    (hg : ∀ g ∈ allGlobs (x.getD {}), g ≠ j!"*" → env.glob g = .ok (G g)) (he : (x.getD {}).emojis = some true → KeepsLowerAscii env.casing.lower)
    (hs : ∀ s, ¬ DocPrints env.casing.lower env.fs G (targetOf env args) (x.getD {}) s) :
    (run env args).1 = 1 ∧ (run env args).2.out = [] := by
  obtain ⟨r, hr'⟩ := ends_total env args
  cases r with
  | tree s => exact absurd ((C86_ends hp hfs hr hex hch hg he s).1 hr') (hs s)
  | notFound t => cases hr' with | notFound h => rw [hex] at h; cases h
  | failed e => exact ⟨(C54_failed hp hd hr').1, (C54_failed hp hd hr').2.1⟩

/-- **C86**: a request asks for at most one text. -/
theorem C86_unique (hp : PlainDirs env) (hfs : ProperFs env.fs) (hr : RealNames env.fs) {args : Args} {x : Option ExternalOptions}
    (hch : Chosen env (targetOf env args) args.optionsFile (.ok x))
    (hg : ∀ g ∈ allGlobs (x.getD {}), g ≠ j!"*" → env.glob g = .ok (G g)) (he : (x.getD {}).emojis = some true → KeepsLowerAscii env.casing.lower) {s s' : JStr}
    (hs : DocPrints env.casing.lower env.fs G (targetOf env args) (x.getD {}) s) (hs' : DocPrints env.casing.lower env.fs G (targetOf env args) (x.getD {}) s') : s = s' := by
  obtain ⟨ha, hc⟩ := targetOf_clean hp args
  obtain ⟨o, ho, hob⟩ := chosen_obeys (G := G) hch hg he
  have ht : target env.cwd (targetOf env args) = targetOf env args := target_self ha hc
  have hin : InTarget (targetOf env args) (targetOf env args) [] := ⟨⟨ha, ha⟩, by simp, hc⟩
  have h1 := (obeys_prints hob hfs hr hp.cwd.1 ht hin s).2 hs
  rw [(obeys_prints hob hfs hr hp.cwd.1 ht hin s').2 hs'] at h1
  cases h1; rfl

end

/-! ### Example -/

namespace Demo

/-- `maxDepth: 1`, `filter: {files: {type: nameGlob, glob: "b*"}}`, `lineExtensions: [{extension: " <-", matcher: {type: nameGlob, glob: "b.txt"}}]` -/
def request : ExternalOptions :=
  { maxDepth := some 1, filter := some ⟨none, some (.nameGlob (some j!"b*"))⟩, lineExtensions := some [some ⟨some j!" <-", some (.nameGlob (some j!"b.txt"))⟩] }

/-- The demo disk with this document in `/r/.prettyprint`. -/
def documented : Env := { machine r with
  fs := dfs
  fileExists := fun p => decide (p = r ∨ p = optionsFileIn r)
  yaml := fun _ => some (some request)
  glob := Globs.getPathMatcher (fun _ => .error Exn.nullPointer) }

/-- The sets of paths described by the globs. -/
def globSet (g : JStr) (p : Path) : Bool :=
  match documented.glob g with
  | .ok f => f p
  | .error _ => false

theorem request_globs : ∀ g ∈ allGlobs request, g ≠ j!"*" → documented.glob g = .ok (globSet g) := by
  intro g hg _
  have h : (documented.glob g).isOk = true := by
    have : ∀ g ∈ allGlobs request, (documented.glob g).isOk = true := by decide
    exact this g hg
  unfold globSet
  rcases e : documented.glob g with _ | f
  · rw [e] at h; cases h
  · rfl

theorem request_prints : DocPrints asciiCasing.lower dfs globSet r request (joinLines [j!"r/", j!"├─ a/", j!"│  └─ ...", j!"└─ b.txt <-"]) := by
  refine ⟨⟨fun _ => none, false, fun p => firstMatch none (extensionRules globSet r (request.lineExtensions.getD [])) p⟩,
    .dir r [.dir a [.maxDepth 1], .file b ⟨false, false⟩], .node (.dirs [r] r) [.node (.dirs [a] a) [.node .more []], .node (.file b ⟨false, false⟩) []], ?_, ?_, ?_, ?_, ?_⟩
  · exact ⟨rfl, fun _ _ _ => rfl, fun _ _ => rfl, (fun h => by cases h), (fun h => by cases h)⟩
  · refine Scanned.dir (A := docAnswers dfs globSet r request) (c := PathSorts.ALPHABETICAL) (maxDepth := 1) (k := 0) (p := r) (n := -1) (cs := [b, a, z]) (ks := [b, a]) (srt := [a, b])
      (es := [.dir a [.maxDepth 1], .file b ⟨false, false⟩]) rfl (by decide) (show (-1 : Int) < 0 by decide) rfl
      (.keep (show docKeeps dfs globSet r request b = true by decide) (.keep (show docKeeps dfs globSet r request a = true by decide)
        (.drop (show docKeeps dfs globSet r request z = false by decide) .nil))) (by decide) (by decide) ?_
    exact .cons (.tooDeep rfl (by decide)) (.cons (.file rfl rfl) .nil)
  · simp [Named, NamedAll, r, a, b]
  · exact .dir (.cons (.dir (.stop (fun c ces h => by simp [Mergeable] at h)) (.cons .maxDepth .nil)) (.cons .file .nil))
  · decide

/-- Example for C86: `prettyprint /r` prints what the document in `/r/.prettyprint` asks for. -/
example : run documented (cmd r) = (0, { out := joinLines [j!"r/", j!"├─ a/", j!"│  └─ ...", j!"└─ b.txt <-"] ++ j!"\n" }) :=
  C86_output (env := documented) (args := cmd r) (x := some request) (G := globSet) ⟨(machine_plain r).1, (machine_plain r).2⟩ proper real rfl (by decide)
    (.fallback (.used (l₁ := []) rfl (by simp) (.good (by decide) rfl rfl rfl (by decide)))) request_globs (fun h => by cases h) request_prints (by decide)

end Demo
end JFTP
