import Verif.Props.Chars
import Verif.Props.Locale
import Verif.Spec.WellFormed

/-!
C113: the text consists of whole strings, so it is well-formed Unicode if its parts are.
-/

namespace JFTP
open Spec Locale

/-! ### Surrogates -/

/-- Reading a string unit by unit; the state is "a high surrogate waits for its partner". -/
def surrogates : Bool → JStr → Option Bool
  | b, [] => some b
  | true, c :: s => if 0xDC00 ≤ c.toNat ∧ c.toNat < 0xE000 then surrogates false s else none
  | false, c :: s =>
    if 0xDC00 ≤ c.toNat ∧ c.toNat < 0xE000 then none
    else surrogates (decide (0xD800 ≤ c.toNat ∧ c.toNat < 0xDC00)) s

theorem surrogates_append (b : Bool) (x y : JStr) : surrogates b (x ++ y) = (surrogates b x).bind (fun b => surrogates b y) := by
  induction x generalizing b with
  | nil => cases b <;> cases y <;> rfl
  | cons c x ih =>
    cases b <;> simp only [List.cons_append, surrogates] <;> split
    · rfl
    · exact ih _
    · exact ih _
    · rfl

theorem surrogates_plain {c : JChar} {s : JStr} (h : c.toNat < 0xD800 ∨ 0xE000 ≤ c.toNat) : surrogates false (c :: s) = surrogates false s := by
  generalize hs : surrogates false s = r
  simp only [surrogates]
  rw [if_neg (by omega), decide_eq_false (by omega), hs]

theorem surrogates_pair {c d : JChar} {s : JStr} (h1 : 0xD800 ≤ c.toNat) (h2 : c.toNat < 0xDC00) (h3 : 0xDC00 ≤ d.toNat) (h4 : d.toNat < 0xE000) :
    surrogates false (c :: d :: s) = surrogates false s := by
  generalize hs : surrogates false s = r
  rw [surrogates, if_neg (by omega), decide_eq_true ⟨h1, h2⟩, surrogates, if_pos ⟨h3, h4⟩, hs]

theorem surrogates_utf16 {u : Nat} (h : IsScalar u) : surrogates false (utf16 u) = some false := by
  unfold IsScalar at h
  unfold utf16
  split
  · rename_i hu
    have e : (UInt16.ofNat u).toNat = u := UInt16.toNat_ofNat_of_lt' (by show _ < 65536; omega)
    exact surrogates_plain (s := []) (by omega)
  · rename_i hu
    have e1 : (UInt16.ofNat (0xD800 + (u - 0x10000) / 0x400)).toNat = 0xD800 + (u - 0x10000) / 0x400 := UInt16.toNat_ofNat_of_lt' (by show _ < 65536; omega)
    have e2 : (UInt16.ofNat (0xDC00 + (u - 0x10000) % 0x400)).toNat = 0xDC00 + (u - 0x10000) % 0x400 := UInt16.toNat_ofNat_of_lt' (by show _ < 65536; omega)
    exact surrogates_pair (s := []) (by omega) (by omega) (by omega) (by omega)

theorem wellFormed_cons {u : Nat} {s : JStr} (hu : IsScalar u) (hs : WellFormed s) : WellFormed (utf16 u ++ s) := by
  obtain ⟨us, h, rfl⟩ := hs
  exact ⟨u :: us, by simpa using ⟨hu, h⟩, rfl⟩

theorem wellFormed_iff {s : JStr} : WellFormed s ↔ surrogates false s = some false := by
  constructor
  · rintro ⟨us, h, rfl⟩
    induction us with
    | nil => rfl
    | cons u us ih =>
      rw [List.flatMap_cons, surrogates_append, surrogates_utf16 (h u (by simp))]
      exact ih (fun v hv => h v (by simp [hv]))
  · intro h
    induction hn : s.length using Nat.strongRecOn generalizing s with
    | _ n ih =>
      match s with
      | [] => exact ⟨[], by simp, rfl⟩
      | c :: s =>
        simp only [surrogates] at h
        split at h
        · cases h
        · rename_i hc
          by_cases hh : 0xD800 ≤ c.toNat ∧ c.toNat < 0xDC00
          · rw [decide_eq_true hh] at h
            cases s with
            | nil => cases h
            | cons d s =>
              simp only [surrogates] at h
              split at h
              · rename_i hd
                have := ih s.length (by simp at hn; omega) h rfl
                have hw := wellFormed_cons (u := 0x10000 + (c.toNat - 0xD800) * 0x400 + (d.toNat - 0xDC00)) (.inr (by omega)) this
                unfold utf16 at hw
                rw [if_neg (by omega)] at hw
                have e1 : 0xD800 + (0x10000 + (c.toNat - 0xD800) * 0x400 + (d.toNat - 0xDC00) - 0x10000) / 0x400 = c.toNat := by omega
                have e2 : 0xDC00 + (0x10000 + (c.toNat - 0xD800) * 0x400 + (d.toNat - 0xDC00) - 0x10000) % 0x400 = d.toNat := by omega
                rw [e1, e2, UInt16.ofNat_toNat, UInt16.ofNat_toNat] at hw
                exact hw
              · cases h
          · rw [decide_eq_false hh] at h
            have := ih s.length (by simp at hn; omega) h rfl
            have hlt : c.toNat < 0x10000 := UInt16.toNat_lt c
            have hw := wellFormed_cons (u := c.toNat) (by unfold IsScalar; omega) this
            unfold utf16 at hw
            rw [if_pos hlt, UInt16.ofNat_toNat] at hw
            exact hw

theorem wellFormed_append {a b : JStr} (ha : WellFormed a) (hb : WellFormed b) : WellFormed (a ++ b) := by
  rw [wellFormed_iff] at *
  rw [surrogates_append, ha]
  exact hb

/-- Behind a well-formed string. -/
theorem wellFormed_right {a b : JStr} (ha : WellFormed a) (h : WellFormed (a ++ b)) : WellFormed b := by
  rw [wellFormed_iff] at *
  rw [surrogates_append, ha] at h
  exact h

/-- In front of a well-formed string. -/
theorem wellFormed_left {a b : JStr} (hb : WellFormed b) (h : WellFormed (a ++ b)) : WellFormed a := by
  rw [wellFormed_iff] at *
  rw [surrogates_append] at h
  cases hx : surrogates false a with
  | none => rw [hx] at h; cases h
  | some x =>
    rw [hx] at h
    cases x with
    | false => rfl
    | true =>
      change surrogates true b = some false at h
      cases b with
      | nil => cases h
      | cons c s =>
        simp only [surrogates] at h hb
        split at h
        · rename_i hc
          rw [if_pos hc] at hb; cases hb
        · cases h

theorem wellFormed_nil : WellFormed [] := ⟨[], by simp, rfl⟩

theorem wellFormed_ascii {s : JStr} (h : ∀ c ∈ s, IsAscii c) : WellFormed s := by
  refine ⟨s.map UInt16.toNat, fun u hu => ?_, ?_⟩
  · obtain ⟨c, hc, rfl⟩ := List.mem_map.1 hu
    have := h c hc
    unfold IsAscii at this
    exact .inl (by omega)
  · induction s with
    | nil => rfl
    | cons c s ih =>
      rw [List.map_cons, List.flatMap_cons, ← ih (fun d hd => h d (by simp [hd]))]
      have := h c (by simp)
      unfold IsAscii at this
      unfold utf16
      rw [if_pos (by omega), UInt16.ofNat_toNat]
      rfl

/-! ### The parts of a text -/

section
variable {P : JStr → Prop}

theorem closed_flatten (h0 : P []) (happ : ∀ a b, P a → P b → P (a ++ b)) {ss : List JStr} (h : ∀ s ∈ ss, P s) : P ss.flatten := by
  induction ss with
  | nil => exact h0
  | cons s ss ih => exact happ _ _ (h s (by simp)) (ih (fun x hx => h x (by simp [hx])))

theorem closed_joinLines (h0 : P []) (happ : ∀ a b, P a → P b → P (a ++ b)) (hnl : P [NL]) {ls : List JStr} (h : ∀ s ∈ ls, P s) : P (joinLines ls) := by
  induction ls with
  | nil => exact h0
  | cons l ls ih =>
    cases ls with
    | nil => exact h l (by simp)
    | cons l' ls' =>
      simp only [joinLines]
      rw [show l ++ NL :: joinLines (l' :: ls') = l ++ ([NL] ++ joinLines (l' :: ls')) from rfl]
      exact happ _ _ (h l (by simp)) (happ _ _ hnl (ih (fun x hx => h x (List.mem_cons_of_mem _ hx))))

theorem joinLines_wellFormed {ls : List JStr} (h : WellFormed (joinLines ls)) : ∀ l ∈ ls, WellFormed l := by
  have hnl : WellFormed [NL] := wellFormed_ascii (by unfold IsAscii; decide)
  induction ls with
  | nil => intro l hl; cases hl
  | cons l ls ih =>
    cases ls with
    | nil => intro x hx; rw [List.mem_singleton.1 hx]; exact h
    | cons l' ls' =>
      simp only [joinLines] at h
      -- nothing that starts with a line feed completes a surrogate pair
      have key : ∀ {a b : JStr}, WellFormed (a ++ NL :: b) → WellFormed a ∧ WellFormed b := by
        intro a b hab
        rw [wellFormed_iff, surrogates_append] at hab
        cases hx : surrogates false a with
        | none => rw [hx] at hab; cases hab
        | some x =>
          rw [hx] at hab
          cases x with
          | true => cases hab
          | false => exact ⟨wellFormed_iff.2 hx, wellFormed_iff.2 hab⟩
      obtain ⟨h1, h2⟩ := key h
      intro x hx
      rcases List.mem_cons.1 hx with rfl | hx
      · exact h1
      · exact ih h2 x hx

theorem closed_prefix (h0 : P []) (happ : ∀ a b, P a → P b → P (a ++ b)) (hsp : P [SPACE]) {o : Options (Except Exn)} {ps : List Path} (hp : Parts P o ps)
    {n : Nat} {pre : JStr} (h : LinePrefix o.treeFormat n pre) : P pre := by
  unfold LinePrefix at h
  cases n with
  | zero => simp only [DrawnAt] at h; subst h; exact h0
  | succ n =>
    obtain ⟨segs, b, _, h2, h3, rfl⟩ := h
    rw [List.append_nil]
    refine happ _ _ (closed_flatten h0 happ ?_) (happ _ _ ?_ hsp)
    · intro x hx
      obtain ⟨s, hs, rfl⟩ := List.mem_map.1 hx
      refine happ _ _ ?_ hsp
      rcases h2 s hs with rfl | rfl
      · exact hp.cont
      · exact hp.empty
    · rcases h3 with rfl | rfl
      · exact hp.nonLast
      · exact hp.last

variable {fs : PureFs} {cwd : Path} {o : Options (Except Exn)} {p : Path} {s : JStr}

/-- The label of a displayed line. -/
theorem Spec.Prints.closed_label (h0 : P []) (happ : ∀ a b, P a → P b → P (a ++ b)) (hsp : P [SPACE]) (hsl : P [SLASH]) (hst : P j!"*") (hq : P j!"?")
    (hdots : P j!"...") {t : TreeEntry} {T : ITree} (h : Prints o t T s) (hp : Parts P o (entryPaths t)) (hn : ∀ q ∈ entryPaths t, P (lastName q))
    {x : Nat × Item} (hx : x ∈ T.items 0) : P (x.2.label (lookOf o)) := by
  have hmem := fun q hq => mem_shows_entryPaths (q := q) h.shows hx hq
  have hlast := fun ds last he => last_mem (ds := ds) (last := last) h.shows hx he
  have hem : ∀ q ∈ entryPaths t, P (emojiText ((lookOf o).emoji q)) := by
    intro q hq
    cases he : (lookOf o).emoji q with
    | none => exact h0
    | some e => exact happ _ _ (hp.emoji q hq e he) hsp
  have hex : ∀ q ∈ entryPaths t, P (((lookOf o).ext q).getD []) := by
    intro q hq
    cases he : (lookOf o).ext q with
    | none => exact h0
    | some e => exact hp.ext q hq e he
  obtain ⟨n, i⟩ := x
  cases i with
  | file q a =>
    have hq' := hmem q (by simp [Item.shows])
    refine happ _ _ (happ _ _ (happ _ _ (hem q hq') (hn q hq')) ?_) (hex q hq')
    unfold fileMark
    split
    · exact hst
    · split
      · exact hq
      · exact h0
  | dirs ds last =>
    have hq' := hmem last (by
      simp only [Item.shows, List.mem_map, Option.some.injEq, exists_eq_right]
      exact List.mem_of_getLast? (hlast ds last rfl))
    refine happ _ _ (happ _ _ (hem last hq') (closed_flatten h0 happ ?_)) (hex last hq')
    intro y hy
    obtain ⟨d, hd, rfl⟩ := List.mem_map.1 hy
    exact happ _ _ (hn d (hmem d (by simp [Item.shows, hd]))) hsl
  | more => exact hdots

/-- **C113**, the text consists of whole strings: a property that concatenation keeps holds for the text if it holds for the fixed strings (line feed, space, slash, the two marks, `...`), the
four symbols, and the names, emojis and extensions of displayed entries. -/
theorem C113_closed (h : prettyPrint fs.lift cwd o p = .ok s) (h0 : P []) (happ : ∀ a b, P a → P b → P (a ++ b)) (hnl : P [NL]) (hsp : P [SPACE]) (hsl : P [SLASH])
    (hst : P j!"*") (hq : P j!"?") (hdots : P j!"...") :
    ∃ t, scanned fs cwd o p = .ok t ∧ (Parts P o (entryPaths t) → (∀ q ∈ entryPaths t, P (lastName q)) → P s) := by
  obtain ⟨t, T, ht, hp⟩ := printed h
  refine ⟨t, ht, fun parts hn => ?_⟩
  obtain ⟨pres, hpre, hl⟩ := layout_split o.treeFormat T
  have hs := hp.text
  unfold picture at hs
  rw [hs]
  refine closed_joinLines h0 happ hnl (fun l hl' => ?_)
  rw [hl] at hl'
  obtain ⟨x, hx, pre, h1, rfl⟩ := mem_zip hpre hl'
  exact happ _ _ (closed_prefix h0 happ hsp parts h1) (hp.closed_label h0 happ hsp hsl hst hq hdots parts hn hx)

/-- **C113**: if the symbols, emojis and extensions are well-formed, the returned text is well-formed exactly if all displayed names are. -/
theorem C113_wellformed (h : prettyPrint fs.lift cwd o p = .ok s) :
    ∃ t, scanned fs cwd o p = .ok t ∧ (Parts WellFormed o (entryPaths t) → (WellFormed s ↔ ∀ q ∈ entryPaths t, WellFormed (lastName q))) := by
  have asc : ∀ {x : JStr}, (∀ c ∈ x, IsAscii c) → WellFormed x := wellFormed_ascii
  obtain ⟨t, ht, hc⟩ := C113_closed (P := WellFormed) h wellFormed_nil (fun _ _ => wellFormed_append) (asc (by unfold IsAscii; decide)) (asc (by unfold IsAscii; decide))
    (asc (by unfold IsAscii; decide)) (asc (by unfold IsAscii; decide)) (asc (by unfold IsAscii; decide)) (asc (by unfold IsAscii; decide))
  refine ⟨t, ht, fun parts => ⟨fun hw => ?_, hc parts⟩⟩
  obtain ⟨t', T, ht', hp⟩ := printed h
  rw [ht] at ht'
  cases ht'
  obtain ⟨pres, hpre, hl⟩ := layout_split o.treeFormat T
  have hs := hp.text
  unfold picture at hs
  rw [hs, hl] at hw
  have hlines := joinLines_wellFormed hw
  have hsp : WellFormed [SPACE] := asc (by unfold IsAscii; decide)
  have hsl : WellFormed [SLASH] := asc (by unfold IsAscii; decide)
  have hem : ∀ q ∈ entryPaths t, WellFormed (emojiText ((lookOf o).emoji q)) := by
    intro q hq
    cases he : (lookOf o).emoji q with
    | none => exact wellFormed_nil
    | some e => exact wellFormed_append (parts.emoji q hq e he) hsp
  have hex : ∀ q ∈ entryPaths t, WellFormed (((lookOf o).ext q).getD []) := by
    intro q hq
    cases he : (lookOf o).ext q with
    | none => exact wellFormed_nil
    | some e => exact parts.ext q hq e he
  have label : ∀ x ∈ T.items 0, WellFormed (x.2.label (lookOf o)) := by
    intro x hx
    obtain ⟨pre, h1, hm⟩ : ∃ pre, LinePrefix o.treeFormat x.1 pre ∧ pre ++ x.2.label (lookOf o) ∈ List.zipWith (· ++ ·) pres ((T.items 0).map (fun x => x.2.label (lookOf o))) := by
      clear hw hlines hl hs
      generalize T.items 0 = items at *
      induction hpre with
      | nil => cases hx
      | cons h1 _ ih =>
        rcases List.mem_cons.1 hx with rfl | hx
        · exact ⟨_, h1, by simp⟩
        · obtain ⟨pre, h2, hm⟩ := ih hx
          exact ⟨pre, h2, by simp only [List.map_cons, List.zipWith_cons_cons, List.mem_cons]; exact .inr hm⟩
    exact wellFormed_right (closed_prefix wellFormed_nil (fun _ _ => wellFormed_append) hsp parts h1) (hlines _ hm)
  intro q hq
  obtain ⟨x, hx, hxq⟩ : ∃ x ∈ T.items 0, some q ∈ x.2.shows := by
    unfold entryPaths at hq
    rw [List.mem_filterMap] at hq
    obtain ⟨y, hy, e⟩ := hq
    rw [← hp.shows.events 0] at hy
    obtain ⟨x, hx, hy⟩ := List.mem_flatMap.1 hy
    exact ⟨x, hx, by rw [show y = some q from e] at hy; exact hy⟩
  have hwl := label x hx
  have hmem := fun q hq => mem_shows_entryPaths (q := q) hp.shows hx hq
  have hlast := fun ds last he => last_mem (ds := ds) (last := last) hp.shows hx he
  obtain ⟨n, i⟩ := x
  cases i with
  | file r a =>
    simp only [Item.shows, List.mem_singleton, Option.some.injEq] at hxq
    subst hxq
    simp only [Item.label] at hwl
    have hmark : WellFormed (fileMark a) := asc (by
      intro c hc
      have : ∀ c ∈ j!" /*?.", IsAscii c := by unfold IsAscii; decide
      exact this c (mem_fileMark hc))
    exact wellFormed_right (hem q hq) (wellFormed_left hmark (wellFormed_left (hex q hq) hwl))
  | dirs ds last =>
    have hq' := hmem last (by
      simp only [Item.shows, List.mem_map, Option.some.injEq, exists_eq_right]
      exact List.mem_of_getLast? (hlast ds last rfl))
    simp only [Item.shows, List.mem_map, Option.some.injEq, exists_eq_right] at hxq
    simp only [Item.label] at hwl
    have hm := wellFormed_right (hem last hq') (wellFormed_left (hex last hq') hwl)
    clear hwl hlast label hmem hx
    induction ds with
    | nil => cases hxq
    | cons d ds ih =>
      rw [List.map_cons, List.flatten_cons, List.append_assoc] at hm
      have key : ∀ {a b : JStr}, WellFormed (a ++ ([SLASH] ++ b)) → WellFormed a ∧ WellFormed b := by
        intro a b hab
        rw [wellFormed_iff, surrogates_append] at hab
        cases hx : surrogates false a with
        | none => rw [hx] at hab; cases hab
        | some x =>
          rw [hx] at hab
          cases x with
          | true => cases hab
          | false => exact ⟨wellFormed_iff.2 hx, wellFormed_iff.2 hab⟩
      obtain ⟨h1, h2⟩ := key hm
      rcases List.mem_cons.1 hxq with rfl | hxq
      · exact h1
      · exact ih hxq h2
  | more => simp [Item.shows] at hxq

/-- All emojis of the tables are well-formed. -/
theorem icon_wellFormed {low e : JStr} (h : Icon low e) : WellFormed e := by
  have h1 : ∀ x ∈ DEFAULT_FILENAME_EMOJIS, surrogates false x.2 = some false := by decide +kernel
  have h2 : ∀ x ∈ DEFAULT_FILEEXTENSIONS_EMOJIS, surrogates false x.2 = some false := by decide +kernel
  rw [wellFormed_iff]
  cases h with
  | name h => exact h1 _ h
  | ext _ _ h => exact h2 _ h
  | other => decide

/-- **C113**, built-in parts: with a built-in tree format, with the default emojis or without emojis, and with well-formed extensions, the returned text is well-formed exactly if all displayed
names are. -/
theorem C113_builtin (hf : o.treeFormat ∈ [TreeFormats.CLASSIC_ASCII, TreeFormats.UNICODE_BOX_DRAWING])
    (he : o.emojiMapping = EmojiMapping.none ∨ ∃ cs o₀, KeepsLowerAscii cs.lower ∧ Options.withDefaultEmojis cs fs.lift o₀ = .ok o)
    (hx : ∀ q x, (lookOf o).ext q = some x → WellFormed x) (h : prettyPrint fs.lift cwd o p = .ok s) :
    ∃ t, scanned fs cwd o p = .ok t ∧ (WellFormed s ↔ ∀ q ∈ entryPaths t, WellFormed (lastName q)) := by
  obtain ⟨t, T, ht, hp⟩ := printed h
  obtain ⟨t', ht', hw⟩ := C113_wellformed h
  rw [ht] at ht'
  cases ht'
  refine ⟨t, ht, hw ?_⟩
  have sym : ∀ f ∈ [TreeFormats.CLASSIC_ASCII, TreeFormats.UNICODE_BOX_DRAWING], surrogates false f.nonLastChildSymbol = some false ∧ surrogates false f.lastChildSymbol = some false ∧
      surrogates false f.continuationSymbol = some false ∧ surrogates false f.emptySymbol = some false := by decide
  obtain ⟨s1, s2, s3, s4⟩ := sym _ hf
  refine ⟨fun q hq e hqe => ?_, fun q _ x => hx q x, wellFormed_iff.2 s1, wellFormed_iff.2 s2, wellFormed_iff.2 s3, wellFormed_iff.2 s4⟩
  rcases he with he | ⟨cs, o₀, hcs, ho⟩
  · simp only [lookOf, he] at hqe
    cases hqe
  · simp only [lookOf] at hqe
    cases hd : fs.isDir q with
    | true =>
      rw [show o.emojiMapping q = .ok (some j!"📂") from C94_directory cs fs.lift o₀ o ho (show Except.ok (fs.isDir q) = _ by rw [hd]; rfl)] at hqe
      cases hqe
      exact wellFormed_iff.2 (by decide)
    | false =>
      obtain ⟨n, hn⟩ := named_of_mem hp.named hq
      obtain ⟨x, hi⟩ := icon_exists (cs.lower n)
      rw [show o.emojiMapping q = .ok (some x) from icon_emoji cs hcs fs.lift o₀ o ho (show Except.ok (fs.isDir q) = _ by rw [hd]; rfl) hn hi] at hqe
      cases hqe
      exact icon_wellFormed hi

end

namespace Demo

-- a text with surrogate pairs
example : WellFormed (joinLines [j!"📂 emojis/", j!"└─ 📝 Old.Docx"]) := wellFormed_iff.2 (by decide)

-- half an emoji
example : ¬ WellFormed (j!"a" ++ (j!"📂").take 1) := by rw [wellFormed_iff]; decide

example : ∃ s t, Recipes.emojis (m := Except Exn) asciiCasing shownFs.lift Path.root = .ok s ∧ scanned shownFs Path.root withEmoji (Path.ofString j!"src/main/resources/emojis") = .ok t ∧
    (WellFormed s ↔ ∀ q ∈ entryPaths t, WellFormed (lastName q)) := by
  have h := emojis_run
  unfold Recipes.emojis at h
  rw [withEmoji_eq] at h
  simp only at h
  rw [C47_string _ _ rfl] at h
  have hop := (C36_default asciiCasing shownFs.lift _ withEmoji withEmoji_eq).2.2
  obtain ⟨t, ht, hw⟩ := C113_builtin (o := withEmoji) (by rw [hop]; decide) (.inr ⟨_, _, keepsLowerAscii_ascii, withEmoji_eq⟩) (by rw [hop]; intro q x hx; cases hx) h
  exact ⟨_, t, emojis_run, ht, hw⟩

end Demo

end JFTP
