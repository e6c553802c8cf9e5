import Verif.Props.DefaultEmojis
import Verif.Props.Reorder
import Verif.Props.Clone
import Verif.Props.OnePage
import Verif.Props.EndToEnd
import Verif.Props.Under
import Mathlib.Data.List.Infix
import Verif.Spec.Locale

/-
C107: the default emojis and the locale.
-/

namespace JFTP
open Spec

/-! ### The lines of one picture with different labels -/

namespace Locale

mutual
/-- The picture without its labels. -/
def frame : ITree → Disp
  | .node _ ks => .node [] (frameAll ks)
def frameAll : List ITree → List Disp
  | [] => []
  | k :: ks => frame k :: frameAll ks
end

theorem block_zip (a b : JStr) (P Q : List JStr) : block a b (List.zipWith (· ++ ·) P Q) = List.zipWith (· ++ ·) (block a b P) Q := by
  cases P with
  | nil => simp [block]
  | cons p P =>
    cases Q with
    | nil => simp [block]
    | cons q Q =>
      simp only [List.zipWith_cons_cons, block, List.append_assoc, List.cons.injEq, true_and]
      rw [List.map_zipWith, List.zipWith_map_left]
      simp

theorem block_length (a b : JStr) (P : List JStr) : (block a b P).length = P.length := by cases P <;> simp [block]

mutual
theorem layout_zip (f : TreeFormat) (L : Look) (T : ITree) (n : Nat) :
    layout f (T.toDisp L) = List.zipWith (· ++ ·) (layout f (frame T)) ((T.items n).map fun x => x.2.label L) ∧ (layout f (frame T)).length = (T.items n).length := by
  match T with
  | .node i ks =>
    obtain ⟨h1, h2⟩ := layoutKids_zip f L ks (n + 1)
    simp only [ITree.toDisp, frame, layout, ITree.items, List.map_cons, List.zipWith_cons_cons, List.nil_append, List.length_cons]
    exact ⟨by rw [h1], by rw [h2]⟩
theorem layoutKids_zip (f : TreeFormat) (L : Look) (ks : List ITree) (n : Nat) :
    layoutKids f (toDispAll L ks) = List.zipWith (· ++ ·) (layoutKids f (frameAll ks)) ((itemsAll n ks).map fun x => x.2.label L) ∧ (layoutKids f (frameAll ks)).length = (itemsAll n ks).length := by
  match ks with
  | [] => simp [toDispAll, frameAll, layoutKids, itemsAll]
  | k :: ks =>
    obtain ⟨h1, h2⟩ := layout_zip f L k n
    obtain ⟨h3, h4⟩ := layoutKids_zip f L ks n
    have he : (toDispAll L ks).isEmpty = (frameAll ks).isEmpty := by cases ks <;> simp [toDispAll, frameAll]
    simp only [toDispAll, frameAll, layoutKids, itemsAll, he, List.map_append]
    split
    · rename_i hk
      have : ks = [] := by cases ks with
        | nil => rfl
        | cons a l => simp [frameAll] at hk
      subst this
      simp only [itemsAll, List.map_nil, List.append_nil]
      exact ⟨by rw [h1, block_zip], by rw [block_length, h2]⟩
    · refine ⟨?_, by rw [List.length_append, List.length_append, block_length, h2, h4]⟩
      rw [h1, h3, block_zip, List.zipWith_append (by rw [block_length, h2, List.length_map])]
end

/-- Two labels that are equal, or differ in a first word. -/
def Apart (l l' : JStr) : Prop := l = l' ∨ ∃ e e' rest, SPACE ∉ e ∧ SPACE ∉ e' ∧ l = e ++ SPACE :: rest ∧ l' = e' ++ SPACE :: rest

theorem first_word {e e' x y : JStr} (h : SPACE ∉ e) (h' : SPACE ∉ e') (heq : e ++ SPACE :: x = e' ++ SPACE :: y) : e = e' := by
  induction e generalizing e' with
  | nil =>
    cases e' with
    | nil => rfl
    | cons c e' =>
      simp only [List.nil_append, List.cons_append, List.cons.injEq] at heq
      exact absurd (by simp [heq.1]) h'
  | cons a e ih =>
    cases e' with
    | nil =>
      simp only [List.nil_append, List.cons_append, List.cons.injEq] at heq
      exact absurd (by simp [heq.1]) h
    | cons c e' =>
      simp only [List.cons_append, List.cons.injEq] at heq
      rw [heq.1, ih (fun hm => h (by simp [hm])) (fun hm => h' (by simp [hm])) heq.2]

theorem apart_eq {p l l' x y : JStr} (ha : Apart l l') (h : p ++ l ++ x = p ++ l' ++ y) : l = l' := by
  rcases ha with ha | ⟨e, e', rest, h1, h2, rfl, rfl⟩
  · exact ha
  · have h : p ++ (e ++ SPACE :: (rest ++ x)) = p ++ (e' ++ SPACE :: (rest ++ y)) := by simpa using h
    rw [first_word h1 h2 (List.append_cancel_left h)]

theorem join_apart {α : Type} {a c : α → JStr} : ∀ (P : List JStr) (xs : List α), P.length = xs.length → (∀ x ∈ xs, Apart (a x) (c x)) →
    joinLines (List.zipWith (· ++ ·) P (xs.map a)) = joinLines (List.zipWith (· ++ ·) P (xs.map c)) → ∀ x ∈ xs, a x = c x
  | [], [], _, _, _ => by simp
  | [p], [x], _, ha, h => by
    intro y hy
    rw [List.mem_singleton.1 hy]
    exact apart_eq (p := p) (x := []) (y := []) (ha x (by simp)) (by simpa [joinLines] using h)
  | p :: p' :: P, x :: x' :: xs, hlen, ha, h => by
    simp only [List.map_cons, List.zipWith_cons_cons, joinLines] at h
    have hx : a x = c x := apart_eq (ha x (by simp)) h
    rw [hx] at h
    have h := (List.cons.inj (List.append_cancel_left h)).2
    have ih := join_apart (p' :: P) (x' :: xs) (by simpa using hlen) (fun y hy => ha y (by simp [hy])) (by simpa only [List.map_cons, List.zipWith_cons_cons] using h)
    intro y hy
    rcases List.mem_cons.1 hy with rfl | hy
    · exact hx
    · exact ih y hy

/-- What an item stands for is in the tree. -/
def InTree (t : TreeEntry) : Item → Prop
  | .file q a => Below (.file q a) t
  | .dirs ds last => last ∈ ds ∧ ∀ d ∈ ds, ∃ es, Below (.dir d es) t
  | .more => True

theorem InTree.mono {e t : TreeEntry} (h : ∀ x, Below x e → Below x t) {i : Item} (hi : InTree e i) : InTree t i := by
  cases i with
  | file q a => exact h _ hi
  | dirs ds last => exact ⟨hi.1, fun d hd => (hi.2 d hd).imp fun es h' => h _ h'⟩
  | more => trivial

theorem chain_in {L : Look} {d last : Path} {es es' : List TreeEntry} {ds : List Path} (h : Chain L d es ds last es') :
    last ∈ ds ∧ (∀ x ∈ ds, ∃ xs, Below (.dir x xs) (.dir d es)) ∧ ∀ x y, x ∈ es' → Below y x → Below y (.dir d es) := by
  induction h with
  | @stop d es h => exact ⟨by simp, fun x hx => by rw [List.mem_singleton.1 hx]; exact ⟨es, .here⟩, fun x y hx hy => .inside hx hy⟩
  | @step d es c ces ds last es' hm _ ih =>
    obtain ⟨-, rfl, -⟩ := hm
    have up : ∀ x, Below x (.dir c ces) → Below x (.dir d [.dir c ces]) := fun x hx => .inside (by simp) hx
    refine ⟨by simp [ih.1], fun x hx => ?_, fun x y hx hy => up _ (ih.2.2 x y hx hy)⟩
    rcases List.mem_cons.1 hx with rfl | hx
    · exact ⟨_, .here⟩
    · exact (ih.2.1 x hx).imp fun xs h => up _ h

mutual
theorem shows_in {L : Look} {e : TreeEntry} {T : ITree} (h : Shows L e T) (n : Nat) : ∀ x ∈ T.items n, InTree e x.2 := by
  match e, T, h with
  | _, _, .file => simp only [ITree.items, itemsAll, List.mem_singleton, forall_eq]; exact .here
  | _, _, .skipped => simp only [ITree.items, itemsAll, List.mem_singleton, forall_eq]; trivial
  | _, _, .maxDepth => simp only [ITree.items, itemsAll, List.mem_singleton, forall_eq]; trivial
  | .dir d es, .node _ ks, .dir hc hk =>
    obtain ⟨h1, h2, h3⟩ := chain_in hc
    intro x hx
    rw [ITree.items] at hx
    rcases List.mem_cons.1 hx with rfl | hx
    · exact ⟨h1, h2⟩
    · obtain ⟨e, he, hi⟩ := showsAll_in hk (n + 1) x hx
      exact hi.mono fun y hy => h3 e y he hy
theorem showsAll_in {L : Look} {es : List TreeEntry} {ks : List ITree} (h : ShowsAll L es ks) (n : Nat) : ∀ x ∈ itemsAll n ks, ∃ e ∈ es, InTree e x.2 := by
  match es, ks, h with
  | _, _, .nil => simp [itemsAll]
  | e :: es, k :: ks, .cons h1 h2 =>
    intro x hx
    rw [itemsAll] at hx
    rcases List.mem_append.1 hx with hx | hx
    · exact ⟨e, by simp, shows_in h1 n x hx⟩
    · obtain ⟨e', he, hi⟩ := showsAll_in h2 n x hx
      exact ⟨e', by simp [he], hi⟩
end

theorem showsTop_in {L : Look} {t : TreeEntry} {T : ITree} (h : ShowsTop L t T) : ∀ x ∈ T.items 0, InTree t x.2 := by
  cases h with
  | @dir d es ks hk =>
    intro x hx
    rw [ITree.items] at hx
    rcases List.mem_cons.1 hx with rfl | hx
    · exact ⟨by simp, fun x hx => by rw [List.mem_singleton.1 hx]; exact ⟨es, .here⟩⟩
    · obtain ⟨e, he, hi⟩ := showsAll_in hk 1 x hx
      exact hi.mono fun y hy => .inside he hy
  | other _ h => exact shows_in h 0

section
variable {L L' : Look} (hc : L'.compact = L.compact) (hx : L'.ext = L.ext)
include hc hx

theorem mergeable_emoji {d c : Path} {es ces : List TreeEntry} : Mergeable L' d es c ces ↔ Mergeable L d es c ces := by
  unfold Mergeable; rw [hc, hx]

theorem chain_emoji {d last : Path} {es es' : List TreeEntry} {ds : List Path} (h : Chain L d es ds last es') : Chain L' d es ds last es' := by
  induction h with
  | stop h => exact .stop fun c ces hm => h c ces ((mergeable_emoji hc hx).1 hm)
  | step hm _ ih => exact .step ((mergeable_emoji hc hx).2 hm) ih

mutual
theorem shows_emoji {e : TreeEntry} {T : ITree} (h : Shows L e T) : Shows L' e T := by
  match e, T, h with
  | _, _, .file => exact .file
  | _, _, .skipped => exact .skipped
  | _, _, .maxDepth => exact .maxDepth
  | .dir d es, .node _ ks, .dir h1 h2 => exact .dir (chain_emoji hc hx h1) (showsAll_emoji h2)
theorem showsAll_emoji {es : List TreeEntry} {ks : List ITree} (h : ShowsAll L es ks) : ShowsAll L' es ks := by
  match es, ks, h with
  | _, _, .nil => exact .nil
  | e :: es, k :: ks, .cons h1 h2 => exact .cons (shows_emoji h1) (showsAll_emoji h2)
end

/-- The display does not depend on the emojis. -/
theorem showsTop_emoji {t : TreeEntry} {T : ITree} (h : ShowsTop L t T) : ShowsTop L' t T := by
  cases h with
  | dir h => exact .dir (showsAll_emoji hc hx h)
  | other h1 h2 => exact .other h1 (shows_emoji hc hx h2)
end

/-- Texts of one tree with other emojis. -/
theorem same_iff {f : TreeFormat} {L L' : Look} (hext : L'.ext = L.ext) {t : TreeEntry} {T : ITree} (hT : ShowsTop L t T) {isDir : Path → Bool}
    (hfile : ∀ q a, Below (.file q a) t → isDir q = false) (hdir : ∀ d es, Below (.dir d es) t → isDir d = true ∧ L.emoji d = L'.emoji d)
    (he : ∀ q ∈ entryPaths t, isDir q = false → ∃ e e', L.emoji q = some e ∧ L'.emoji q = some e' ∧ SPACE ∉ e ∧ SPACE ∉ e') :
    picture f (T.toDisp L) = picture f (T.toDisp L') ↔ ∀ q ∈ entryPaths t, isDir q = false → L.emoji q = L'.emoji q := by
  unfold picture
  rw [(layout_zip f L T 0).1, (layout_zip f L' T 0).1]
  have hin := showsTop_in hT
  constructor
  · intro h q hq hd
    have key := join_apart _ _ (layout_zip f L T 0).2 (fun x hx => ?_) h
    · unfold entryPaths at hq
      obtain ⟨y, hy, hyq⟩ := List.mem_filterMap.1 hq
      simp at hyq; subst hyq
      rw [← hT.events 0] at hy
      obtain ⟨x, hx, hxq⟩ := List.mem_flatMap.1 hy
      have hk := key x hx
      have hi := hin x hx
      obtain ⟨k, i⟩ := x
      cases i with
      | file p a =>
        have : p = q := by simpa [Item.shows, eq_comm] using hxq
        subst this
        obtain ⟨e, e', h1, h2, h3, h4⟩ := he p hq hd
        rw [h1, h2]
        simp only [Item.label, h1, h2, hext, emojiText, List.append_cancel_right_eq] at hk
        rw [hk]
      | dirs ds last =>
        have hm : q ∈ ds := by simpa [Item.shows] using hxq
        obtain ⟨es, hb⟩ := hi.2 q hm
        rw [(hdir _ _ hb).1] at hd; cases hd
      | more => simp [Item.shows] at hxq
    · have hi := hin x hx
      obtain ⟨k, i⟩ := x
      cases i with
      | file p a =>
        obtain ⟨e, e', h1, h2, h3, h4⟩ := he p (mem_entryPaths.2 (by obtain ⟨n, hn⟩ := Below.at hi; exact ⟨n, _, hn, rfl⟩)) (hfile _ _ hi)
        refine .inr ⟨e, e', lastName p ++ fileMark a ++ (L.ext p).getD [], h3, h4, ?_, ?_⟩
        · simp [Item.label, h1, emojiText, SPACE]
        · simp [Item.label, h2, emojiText, SPACE, hext]
      | dirs ds last =>
        obtain ⟨es, hb⟩ := hi.2 last hi.1
        left
        simp only [Item.label, (hdir _ _ hb).2, hext]
      | more => exact .inl rfl
  · intro h
    congr 2
    refine List.map_congr_left fun x hx => ?_
    have hi := hin x hx
    obtain ⟨k, i⟩ := x
    cases i with
    | file p a => simp only [Item.label, h p (mem_entryPaths.2 (by obtain ⟨n, hn⟩ := Below.at hi; exact ⟨n, _, hn, rfl⟩)) (hfile _ _ hi), hext]
    | dirs ds last =>
      obtain ⟨es, hb⟩ := hi.2 last hi.1
      simp only [Item.label, (hdir _ _ hb).2, hext]
    | more => rfl

/-! ### Icons -/

theorem names_unique : (DEFAULT_FILENAME_EMOJIS.map Prod.fst).Nodup := by decide +kernel

section
variable {m : Type → Type} [Monad m] [LawfulMonad m] [MonadExceptOf Exn m]

/-- The emoji of a file is its icon. -/
theorem icon_emoji (cs : Casing) (hcs : KeepsLowerAscii cs.lower) (fs : Fs m) (o o' : Options m) (h : Options.withDefaultEmojis cs fs o = .ok o') {p : Path} (hp : fs.isDir p = pure false) {n e : JStr}
    (hn : p.getFileName = some n) (hi : Icon (cs.lower n) e) : o'.emojiMapping p = pure (some e) := by
  cases hi with
  | name hm => exact C68_default_names cs hcs fs o o' h _ _ hm p hp n hn rfl
  | ext h1 h2 h3 => exact (C68_last_extension cs hcs fs o o' h hp hn h2 h1).1 _ h3
  | other h1 h2 =>
    by_cases hk : ∃ key, LastExt (cs.lower n) key
    · obtain ⟨key, hk⟩ := hk
      exact (C68_last_extension cs hcs fs o o' h hp hn hk h1).2 (h2 key hk)
    · exact C68_no_extension cs hcs fs o o' h hp hn (fun key hx => hk ⟨key, hx⟩) h1
end

theorem icon_exists (low : JStr) : ∃ e, Icon low e := by
  by_cases h1 : low ∈ DEFAULT_FILENAME_EMOJIS.map Prod.fst
  · obtain ⟨x, hx, rfl⟩ := List.mem_map.1 h1
    exact ⟨x.2, .name hx⟩
  · by_cases h2 : ∃ key, LastExt low key ∧ key ∈ DEFAULT_FILEEXTENSIONS_EMOJIS.map Prod.fst
    · obtain ⟨key, hk, hm⟩ := h2
      obtain ⟨x, hx, rfl⟩ := List.mem_map.1 hm
      exact ⟨x.2, .ext h1 hk hx⟩
    · exact ⟨_, .other h1 fun key hk hm => h2 ⟨key, hk, hm⟩⟩

theorem icons_spaceless : (∀ x ∈ DEFAULT_FILENAME_EMOJIS, SPACE ∉ x.2) ∧ ∀ x ∈ DEFAULT_FILEEXTENSIONS_EMOJIS, SPACE ∉ x.2 := by decide +kernel

theorem icon_spaceless {low e : JStr} (h : Icon low e) : SPACE ∉ e := by
  cases h with
  | name h => exact icons_spaceless.1 _ h
  | ext _ _ h => exact icons_spaceless.2 _ h
  | other => decide

/-- A file has one icon. -/
theorem icon_unique {low e e' : JStr} (h : Icon low e) (h' : Icon low e') : e = e' := by
  have hid : KeepsLowerAscii (⟨id, id⟩ : Casing).lower := fun k _ => rfl
  let fs : PureFs := ⟨fun _ => false, fun _ => .openFailed, fun _ => none, fun _ => true, fun _ => false, fun _ => false⟩
  obtain ⟨o', ho⟩ := C36_default_ok (m := Except Exn) ⟨id, id⟩ hid fs.lift Options.createDefault
  have h1 := icon_emoji ⟨id, id⟩ hid fs.lift Options.createDefault o' ho (p := ⟨true, [low]⟩) rfl rfl h
  have h2 := icon_emoji ⟨id, id⟩ hid fs.lift Options.createDefault o' ho (p := ⟨true, [low]⟩) rfl rfl h'
  rw [h1] at h2
  cases h2; rfl

theorem icons_iff {low low' e e' : JStr} (h : Icon low e) (h' : Icon low' e') : e = e' ↔ ∀ x, Icon low x ↔ Icon low' x := by
  constructor
  · rintro rfl x
    exact ⟨fun hx => icon_unique h hx ▸ h', fun hx => icon_unique h' hx ▸ h⟩
  · exact fun hx => icon_unique ((hx e).1 h) h'

/-! ### A Turkish locale -/

theorem usual_dot (c : JChar) : usualChar c = DOT ↔ c = DOT := by
  unfold usualChar DOT
  split
  · rename_i h
    simp only [UInt16.le_iff_toNat_le, ← UInt16.toNat_inj, UInt16.toNat_add] at h ⊢
    simp at h ⊢
    omega
  · rfl

theorem turkish_dot (c : JChar) : turkishChar c = DOT ↔ c = DOT := by
  unfold turkishChar
  split
  · rename_i h; subst h; decide
  · exact usual_dot c

theorem turkish_usual {c : JChar} (h : c ≠ 73) : turkishChar c = usualChar c := by unfold turkishChar usualChar; rw [if_neg h]

theorem turkish_map {s : JStr} (h : 73 ∉ s) : s.map turkishChar = s.map usualChar := List.map_congr_left fun c hc => turkish_usual fun e => h (e ▸ hc)

theorem lastExt_unique {n x y : JStr} (hx : LastExt n x) (hy : LastExt n y) : x = y := by
  have key : ∀ x, LastExt n x → x = ((n.reverse.dropWhile (· = DOT)).takeWhile (· ≠ DOT)).reverse := by
    rintro x ⟨h1, h2, base, k, rfl⟩
    have hr : (base ++ DOT :: x ++ List.replicate k DOT).reverse = List.replicate k DOT ++ (x.reverse ++ DOT :: base.reverse) := by simp
    rw [hr, List.dropWhile_append_of_pos (by simp)]
    have h3 : (x.reverse ++ DOT :: base.reverse).dropWhile (· = DOT) = x.reverse ++ DOT :: base.reverse := by
      cases hxr : x.reverse with
      | nil => exact absurd (List.reverse_eq_nil_iff.1 hxr) h2
      | cons a as =>
        have ha : a ≠ DOT := by
          rintro rfl
          exact h1 (List.mem_reverse.1 (by rw [hxr]; exact List.mem_cons_self))
        simp [ha]
    rw [h3, List.takeWhile_append_of_pos (by intro a ha; simpa using fun e : a = DOT => h1 (e ▸ List.mem_reverse.1 ha))]
    simp
  rw [key x hx, key y hy]

theorem lastExt_map {f : JChar → JChar} (hf : ∀ c, f c = DOT ↔ c = DOT) {n key : JStr} : LastExt (n.map f) key ↔ ∃ x, LastExt n x ∧ key = x.map f := by
  constructor
  · rintro ⟨h1, h2, base, k, h⟩
    obtain ⟨l1, l2, rfl, h3, h4⟩ := List.map_eq_append_iff.1 h
    obtain ⟨l3, l4, rfl, h5, h6⟩ := List.map_eq_append_iff.1 h3
    obtain ⟨c, x, rfl, h7, rfl⟩ := List.map_eq_cons_iff.1 h6
    rw [(hf c).1 h7]
    refine ⟨x, ⟨fun hm => h1 (List.mem_map.2 ⟨_, hm, (hf _).2 rfl⟩), by rintro rfl; exact h2 rfl, l3, l2.length, ?_⟩, rfl⟩
    rw [List.append_cancel_left_eq, List.eq_replicate_iff]
    refine ⟨rfl, fun c hc => (hf c).1 ?_⟩
    have := List.mem_map_of_mem (f := f) hc
    rw [h4] at this
    exact List.eq_of_mem_replicate this
  · rintro ⟨x, ⟨h1, h2, base, k, rfl⟩, rfl⟩
    refine ⟨fun hm => ?_, by simpa using h2, base.map f, k, by simp [(hf DOT).2 rfl]⟩
    obtain ⟨c, hc, hd⟩ := List.mem_map.1 hm
    exact h1 ((hf c).1 hd ▸ hc)

theorem keys_ascii : ∀ k ∈ DEFAULT_FILENAME_EMOJIS.map Prod.fst ++ DEFAULT_FILEEXTENSIONS_EMOJIS.map Prod.fst, (0x131 : JChar) ∉ k := by decide +kernel

theorem turkish_unknown {s : JStr} (h : s.map turkishChar ∈ DEFAULT_FILENAME_EMOJIS.map Prod.fst ++ DEFAULT_FILEEXTENSIONS_EMOJIS.map Prod.fst) : 73 ∉ s :=
  fun hm => keys_ascii _ h (List.mem_map.2 ⟨_, hm, rfl⟩)

theorem no_default : (∀ x ∈ DEFAULT_FILENAME_EMOJIS, x.2 ≠ j!"📄") ∧ ∀ x ∈ DEFAULT_FILEEXTENSIONS_EMOJIS, x.2 ≠ j!"📄" := by decide +kernel

theorem no_clash : ∀ x ∈ DEFAULT_FILENAME_EMOJIS, ∀ y ∈ DEFAULT_FILEEXTENSIONS_EMOJIS, x.2 = y.2 → ∀ l ∈ x.1.tails, (DOT :: y.1).isPrefixOf l = false := by decide +kernel

theorem lastExt_tail {n x : JStr} (h : LastExt n x) : ∃ l ∈ n.tails, (DOT :: x).isPrefixOf l = true := by
  obtain ⟨-, -, base, k, rfl⟩ := h
  refine ⟨DOT :: x ++ List.replicate k DOT, (List.mem_tails _ _).2 ⟨base, by simp⟩, by rw [List.isPrefixOf_iff_prefix]; exact List.prefix_append _ _⟩

theorem lastExt_sub {n x : JStr} (h : LastExt n x) {c : JChar} (hc : c ∈ x) : c ∈ n := by
  obtain ⟨-, -, base, k, rfl⟩ := h
  simp [hc]

/-- The names whose icon is another one in a Turkish locale. -/
theorem icon_turkish (n : JStr) : (∀ e, Icon (n.map usualChar) e ↔ Icon (n.map turkishChar) e) ↔ ¬ Dotted n := by
  constructor
  · intro h hd
    cases hd with
    | name h1 h2 =>
      obtain ⟨⟨k, e⟩, hx, hk⟩ := List.mem_map.1 h2
      simp only at hk; subst hk
      cases (h e).1 (.name hx) with
      | name h3 => exact turkish_unknown (List.mem_append_left _ (List.mem_map_of_mem (f := Prod.fst) h3)) h1
      | ext _ h3 h4 =>
        obtain ⟨x, h5, rfl⟩ := (lastExt_map turkish_dot).1 h3
        have h6 := turkish_unknown (List.mem_append_right _ (List.mem_map_of_mem (f := Prod.fst) h4))
        rw [turkish_map h6] at h4
        obtain ⟨l, h7, h8⟩ := lastExt_tail ((lastExt_map usual_dot).2 ⟨x, h5, rfl⟩)
        have := no_clash _ hx _ h4 rfl l h7
        rw [h8] at this; cases this
      | other => exact no_default.1 _ hx rfl
    | @ext x h1 h2 h3 h4 =>
      obtain ⟨⟨k, e⟩, hx, hk⟩ := List.mem_map.1 h4
      simp only at hk; subst hk
      cases (h e).1 (.ext h1 ((lastExt_map usual_dot).2 ⟨x, h2, rfl⟩) hx) with
      | name h5 => exact turkish_unknown (List.mem_append_left _ (List.mem_map_of_mem (f := Prod.fst) h5)) (lastExt_sub h2 h3)
      | ext _ h5 h6 =>
        obtain ⟨y, h7, rfl⟩ := (lastExt_map turkish_dot).1 h5
        rw [← lastExt_unique h2 h7] at h6
        exact turkish_unknown (List.mem_append_right _ (List.mem_map_of_mem (f := Prod.fst) h6)) h3
      | other => exact no_default.2 _ hx rfl
  · intro hd
    by_cases hI : 73 ∈ n
    · have h1 : n.map usualChar ∉ DEFAULT_FILENAME_EMOJIS.map Prod.fst := fun h => hd (.name hI h)
      have h2 : n.map turkishChar ∉ DEFAULT_FILENAME_EMOJIS.map Prod.fst := fun h => turkish_unknown (List.mem_append_left _ h) hI
      have h3 : ∀ x : JStr, LastExt n x → x.map usualChar ∈ DEFAULT_FILEEXTENSIONS_EMOJIS.map Prod.fst → x.map turkishChar = x.map usualChar := fun x hx hk =>
        turkish_map fun hm => hd (.ext h1 hx hm hk)
      have h4 : ∀ x : JStr, x.map turkishChar ∈ DEFAULT_FILEEXTENSIONS_EMOJIS.map Prod.fst → x.map turkishChar = x.map usualChar := fun x hk => turkish_map (turkish_unknown (List.mem_append_right _ hk))
      intro e
      constructor
      · intro h
        cases h with
        | name h => exact absurd (List.mem_map_of_mem (f := Prod.fst) h) h1
        | ext _ h5 h6 =>
          obtain ⟨x, h7, rfl⟩ := (lastExt_map usual_dot).1 h5
          rw [← h3 x h7 (List.mem_map_of_mem (f := Prod.fst) h6)] at h6
          exact .ext h2 ((lastExt_map turkish_dot).2 ⟨x, h7, rfl⟩) h6
        | other _ h5 =>
          refine .other h2 fun key hk hm => ?_
          obtain ⟨x, h7, rfl⟩ := (lastExt_map turkish_dot).1 hk
          rw [h4 x hm] at hm
          exact h5 _ ((lastExt_map usual_dot).2 ⟨x, h7, rfl⟩) hm
      · intro h
        cases h with
        | name h => exact absurd (List.mem_map_of_mem (f := Prod.fst) h) h2
        | ext _ h5 h6 =>
          obtain ⟨x, h7, rfl⟩ := (lastExt_map turkish_dot).1 h5
          rw [h4 x (List.mem_map_of_mem (f := Prod.fst) h6)] at h6
          exact .ext h1 ((lastExt_map usual_dot).2 ⟨x, h7, rfl⟩) h6
        | other _ h5 =>
          refine .other h1 fun key hk hm => ?_
          obtain ⟨x, h7, rfl⟩ := (lastExt_map usual_dot).1 hk
          rw [← h3 x h7 hm] at hm
          exact h5 _ ((lastExt_map turkish_dot).2 ⟨x, h7, rfl⟩) hm
    · rw [turkish_map hI]; exact fun e => Iff.rfl

/-! ### Other emojis, same labels otherwise -/

theorem dirsText_ok {E E' : EmojiFn (Except Exn)} (hE : ∀ p, ∃ e, E' p = .ok e) {d : Path} {ds : List Path} {s : JStr} (h : dirsTextM E d ds = .ok s) : ∃ s', dirsTextM E' d ds = .ok s' := by
  unfold dirsTextM at h ⊢
  obtain ⟨e0, he0, h0⟩ := except_bind_ok h
  obtain ⟨ns, hn, hz⟩ := except_bind_ok h0
  obtain ⟨e, he⟩ := hE d
  rw [he, hn]
  exact ⟨_, rfl⟩

theorem fileText_ok {E E' : EmojiFn (Except Exn)} (hE : ∀ p, ∃ e, E' p = .ok e) {p : Path} {a : Attrs} {s : JStr} (h : fileTextM E p a = .ok s) : ∃ s', fileTextM E' p a = .ok s' := by
  unfold fileTextM at h ⊢
  obtain ⟨e0, he0, h0⟩ := except_bind_ok h
  obtain ⟨ns, hn, hz⟩ := except_bind_ok h0
  obtain ⟨e, he⟩ := hE p
  rw [he, hn]
  exact ⟨_, rfl⟩

section
variable {E E' : EmojiFn (Except Exn)} (hE : ∀ p, ∃ e, E' p = .ok e) {comp : Bool} {X : ExtFn (Except Exn)}
include hE

theorem dispDirM_ok_other {top : Bool} {d : Path} {es : List TreeEntry} {ps : List Path} {D : Disp} (hes : ∀ c ces, es ≠ [.dir c ces])
    (ih : ∀ ks, dispKidsM ⟨E, comp, X⟩ es = .ok ks → ∃ ks', dispKidsM ⟨E', comp, X⟩ es = .ok ks') (h : dispDirM ⟨E, comp, X⟩ top d es ps = .ok D) :
    ∃ D', dispDirM ⟨E', comp, X⟩ top d es ps = .ok D' := by
  rw [dispDirM.eq_def] at h ⊢
  split at h
  · exact absurd rfl (hes _ _)
  · obtain ⟨n, hn, h⟩ := except_bind_ok h
    obtain ⟨x, hx, h⟩ := except_bind_ok h
    obtain ⟨ks, hk, h⟩ := except_bind_ok h
    obtain ⟨n', hn'⟩ := dirsText_ok hE hn
    obtain ⟨ks', hk'⟩ := ih ks hk
    simp only at hx hn' ⊢
    rw [hn', hx, hk']
    exact ⟨_, rfl⟩

mutual
theorem dispM_ok (top : Bool) (e : TreeEntry) {D : Disp} (h : dispM ⟨E, comp, X⟩ top e = .ok D) : ∃ D', dispM ⟨E', comp, X⟩ top e = .ok D' := by
  match e with
  | .file p a =>
    rw [dispM] at h ⊢
    obtain ⟨n, hn, h⟩ := except_bind_ok h
    obtain ⟨x, hx, h⟩ := except_bind_ok h
    obtain ⟨n', hn'⟩ := fileText_ok hE hn
    simp only at hx hn' ⊢
    rw [hn', hx]
    exact ⟨_, rfl⟩
  | .skipped p => rw [dispM]; exact ⟨_, rfl⟩
  | .maxDepth n => rw [dispM]; exact ⟨_, rfl⟩
  | .dir d es =>
    rw [dispM] at h ⊢
    exact dispDirM_ok top d es [d] h
termination_by (sizeOf e, 1)
theorem dispDirM_ok (top : Bool) (d : Path) (es : List TreeEntry) (ps : List Path) {D : Disp} (h : dispDirM ⟨E, comp, X⟩ top d es ps = .ok D) : ∃ D', dispDirM ⟨E', comp, X⟩ top d es ps = .ok D' := by
  match es with
  | [.dir c ces] =>
    have h1 := fun D => dispDirM_ok top c ces (ps ++ [c]) (D := D)
    have h2 := fun D => dispM_ok false (.dir c ces) (D := D)
    rw [dispDirM] at h ⊢
    split
    · rename_i hc
      rw [if_pos hc] at h
      obtain ⟨x, hx, h⟩ := except_bind_ok h
      simp only at hx ⊢
      rw [hx]
      cases x with
      | none => exact h1 D h
      | some x =>
        obtain ⟨n, hn, h⟩ := except_bind_ok h
        obtain ⟨k, hk, h⟩ := except_bind_ok h
        obtain ⟨n', hn'⟩ := dirsText_ok hE hn
        obtain ⟨k', hk'⟩ := h2 k hk
        show ∃ D', (dirsTextM E' d ps >>= _) = Except.ok D'
        rw [hn', hk']
        exact ⟨_, rfl⟩
    · rename_i hc
      rw [if_neg hc] at h
      obtain ⟨n, hn, h⟩ := except_bind_ok h
      obtain ⟨x, hx, h⟩ := except_bind_ok h
      obtain ⟨k, hk, h⟩ := except_bind_ok h
      obtain ⟨n', hn'⟩ := dirsText_ok hE hn
      obtain ⟨k', hk'⟩ := h2 k hk
      simp only at hx hn' ⊢
      rw [hn', hx, hk']
      exact ⟨_, rfl⟩
  | [] => exact dispDirM_ok_other hE (by simp) (fun ks hk => dispKidsM_ok _ hk) h
  | .file q a :: r => exact dispDirM_ok_other hE (by simp) (fun ks hk => dispKidsM_ok (.file q a :: r) hk) h
  | .skipped q :: r => exact dispDirM_ok_other hE (by simp) (fun ks hk => dispKidsM_ok (.skipped q :: r) hk) h
  | .maxDepth q :: r => exact dispDirM_ok_other hE (by simp) (fun ks hk => dispKidsM_ok (.maxDepth q :: r) hk) h
  | .dir q a :: b :: r => exact dispDirM_ok_other hE (by simp) (fun ks hk => dispKidsM_ok (.dir q a :: b :: r) hk) h
termination_by (sizeOf es, 3)
theorem dispKidsM_ok (es : List TreeEntry) {ks : List Disp} (h : dispKidsM ⟨E, comp, X⟩ es = .ok ks) : ∃ ks', dispKidsM ⟨E', comp, X⟩ es = .ok ks' := by
  match es with
  | [] => rw [dispKidsM]; exact ⟨_, rfl⟩
  | e :: es =>
    rw [dispKidsM] at h ⊢
    obtain ⟨k, hk, h⟩ := except_bind_ok h
    obtain ⟨ks', hks, h⟩ := except_bind_ok h
    obtain ⟨k', hk'⟩ := dispM_ok false e hk
    obtain ⟨ks'', hks'⟩ := dispKidsM_ok es hks
    rw [hk', hks']
    exact ⟨_, rfl⟩
termination_by (sizeOf es, 2)
end
end

theorem named_below {t e : TreeEntry} (hb : Below e t) (h : Named t) : Named e := by
  induction hb with
  | here => exact h
  | inside hx _ ih =>
    have key : ∀ (es : List TreeEntry), NamedAll es → ∀ x ∈ es, Named x := by
      intro es
      induction es with
      | nil => simp
      | cons a es ih => intro h x hx; rcases List.mem_cons.1 hx with rfl | hx; exacts [h.1, ih h.2 x hx]
    exact ih (key _ h.2 _ hx)

theorem named_of_mem {t : TreeEntry} (h : Named t) {q : Path} (hq : q ∈ entryPaths t) : ∃ n, q.getFileName = some n := by
  obtain ⟨n, x, hx, he⟩ := mem_entryPaths.1 hq
  have hn := named_below hx.isBelow h
  have hne : q.names ≠ [] := by
    cases x with
    | dir d es => cases he; exact hn.1
    | file p a => cases he; exact hn
    | skipped p => cases he
    | maxDepth p => cases he
  exact ⟨q.names.getLast hne, List.getLast?_eq_some_getLast hne⟩

theorem emoji_total {fs : PureFs} {cs : Casing} {o o₁ : Options (Except Exn)} (h1 : Options.withDefaultEmojis cs fs.lift o = .ok o₁) (p : Path) : ∃ e, o₁.emojiMapping p = .ok e := by
  cases hd : fs.isDir p with
  | true => exact ⟨_, (C36_default cs fs.lift o o₁ h1).1 p (show Except.ok (fs.isDir p) = _ by rw [hd]; rfl)⟩
  | false =>
    obtain ⟨exts, hx1, hx2⟩ := exts_of cs.lower p
    exact ⟨_, (C36_default cs fs.lift o o₁ h1).2.1 p exts (show Except.ok (fs.isDir p) = _ by rw [hd]; rfl) hx1 hx2⟩

theorem returns_emoji {fs : PureFs} {cwd tgt : Path} {o : Options (Except Exn)} {E E' : EmojiFn (Except Exn)} (hE : ∀ p, ∃ e, E' p = .ok e) {s : JStr}
    (h : prettyPrint fs.lift cwd (o.withEmojis E) tgt = .ok s) : ∃ s', prettyPrint fs.lift cwd (o.withEmojis E') tgt = .ok s' := by
  obtain ⟨t, D, h1, h2, -⟩ := prettyPrint_disp.1 h
  obtain ⟨D', h3⟩ := dispM_ok (E' := E') hE true t h2
  exact ⟨_, prettyPrint_disp.2 ⟨t, D', h1, h3, rfl⟩⟩

theorem turkish_keeps {lower : JStr → JStr} (hl : LowersTurkish lower) : KeepsLowerAscii lower := by
  intro k hk
  have key : ∀ c ∈ j!"abcdefghijklmnopqrstuvwxyz0123456789.-_", c < 128 ∧ turkishChar c = c := by decide
  rw [hl k fun c hc => (key c (hk c hc)).1]
  exact (List.map_congr_left fun c hc => (key c (hk c hc)).2).trans (List.map_id' k)

end Locale

open Locale

/-- **C107.** Adding the default emojis does not make a call fail, in no locale. -/
theorem C107_returns {fs : PureFs} {cwd tgt : Path} {cs : Casing} {o o₁ : Options (Except Exn)} (h1 : Options.withDefaultEmojis cs fs.lift o = .ok o₁) {s : JStr}
    (h : prettyPrint fs.lift cwd o tgt = .ok s) : ∃ s', prettyPrint fs.lift cwd o₁ tgt = .ok s' := by
  rw [(C36_default cs fs.lift o o₁ h1).2.2]
  exact returns_emoji (E := o.emojiMapping) (emoji_total h1) h

section
variable {fs : PureFs} {cwd tgt : Path} (hw : cwd.abs = true) {cs cs' : Casing} {o o₁ o₂ : Options (Except Exn)} (hlaw : LawfulCmp o.pathComparator)
  (h1 : Options.withDefaultEmojis cs fs.lift o = .ok o₁) (h2 : Options.withDefaultEmojis cs' fs.lift o = .ok o₂)
include h1 h2

/-- **C107.** Under one locale the call returns a text if and only if it does under the other one. -/
theorem C107_both : (∃ s, prettyPrint fs.lift cwd o₁ tgt = .ok s) ↔ ∃ s, prettyPrint fs.lift cwd o₂ tgt = .ok s := by
  rw [(C36_default cs fs.lift o o₁ h1).2.2, (C36_default cs' fs.lift o o₂ h2).2.2]
  constructor <;> rintro ⟨s, h⟩
  · exact returns_emoji (emoji_total h2) h
  · exact returns_emoji (emoji_total h1) h

include hw hlaw

/-- **C107.** Both texts are the same if and only if both lower-casings give the same icon to every displayed file. -/
theorem C107_iff (hcs : KeepsLowerAscii cs.lower) (hcs' : KeepsLowerAscii cs'.lower) {s s' : JStr} (h : prettyPrint fs.lift cwd o₁ tgt = .ok s)
    (h' : prettyPrint fs.lift cwd o₂ tgt = .ok s') : ∃ t, scanned fs cwd o tgt = .ok t ∧
      (s = s' ↔ ∀ q ∈ entryPaths t, fs.isDir q = false → ∀ n, q.getFileName = some n → ∀ e, Icon (cs.lower n) e ↔ Icon (cs'.lower n) e) := by
  have e1 := (C36_default cs fs.lift o o₁ h1).2.2
  have e2 := (C36_default cs' fs.lift o o₂ h2).2.2
  obtain ⟨t, T, ht, hp⟩ := printed h
  obtain ⟨t', T', ht', hp'⟩ := printed h'
  have ht0 : scanned fs cwd o tgt = .ok t := by rw [e1] at ht; exact ht
  have : t' = t := by
    rw [e2] at ht'
    exact Except.ok.inj ((show scanned fs cwd o tgt = .ok t' from ht').symm.trans ht0)
  subst this
  have hc : (lookOf o₂).compact = (lookOf o₁).compact := by rw [e1, e2]; rfl
  have hx : (lookOf o₂).ext = (lookOf o₁).ext := by rw [e1, e2]; rfl
  have hf : o₂.treeFormat = o₁.treeFormat := by rw [e1, e2]; rfl
  have hT := showsTop_emoji hc hx hp.shows
  have hTT : T' = T := hp'.shows.unique hT
  subst hTT
  have hs := scanned_sound hw hlaw ht0
  have hicon : ∀ q ∈ entryPaths t', fs.isDir q = false → ∃ n e e', q.getFileName = some n ∧ Icon (cs.lower n) e ∧ Icon (cs'.lower n) e' ∧ (lookOf o₁).emoji q = some e ∧ (lookOf o₂).emoji q = some e' := by
    intro q hq hd
    obtain ⟨n, hn⟩ := named_of_mem hp.named hq
    obtain ⟨e, he⟩ := icon_exists (cs.lower n)
    obtain ⟨e', he'⟩ := icon_exists (cs'.lower n)
    have hd' : (fs.lift (m := Except Exn)).isDir q = pure false := show Except.ok (fs.isDir q) = _ by rw [hd]; rfl
    refine ⟨n, e, e', hn, he, he', ?_, ?_⟩
    · show answerOf (o₁.emojiMapping q) = _
      rw [icon_emoji cs hcs fs.lift o o₁ h1 hd' hn he]; rfl
    · show answerOf (o₂.emojiMapping q) = _
      rw [icon_emoji cs' hcs' fs.lift o o₂ h2 hd' hn he']; rfl
  refine ⟨t', ht0, ?_⟩
  rw [hp.text, hp'.text, hf]
  rw [same_iff (f := o₁.treeFormat) hx hp.shows (isDir := fs.isDir) (fun q a hb => (Under72.file_below hs hb).2.1) (fun d es hb => ?_) (fun q hq hd => ?_)]
  · constructor
    · intro hall q hq hd n hn
      obtain ⟨n', e, e', hn', he, he', h3, h4⟩ := hicon q hq hd
      rw [hn] at hn'; cases hn'
      refine (icons_iff he he').1 ?_
      have := hall q hq hd
      rw [h3, h4] at this
      exact Option.some.inj this
    · intro hall q hq hd
      obtain ⟨n', e, e', hn', he, he', h3, h4⟩ := hicon q hq hd
      rw [h3, h4, (icons_iff he he').2 (hall q hq hd n' hn')]
  · have hd : fs.isDir d = true := (Under72.dir_below hs hb).2
    have hd' : (fs.lift (m := Except Exn)).isDir d = pure true := show Except.ok (fs.isDir d) = _ by rw [hd]; rfl
    refine ⟨hd, ?_⟩
    show answerOf (o₁.emojiMapping d) = answerOf (o₂.emojiMapping d)
    rw [(C36_default cs fs.lift o o₁ h1).1 d hd', (C36_default cs' fs.lift o o₂ h2).1 d hd']
  · obtain ⟨n, e, e', -, he, he', h3, h4⟩ := hicon q hq hd
    exact ⟨e, e', h3, h4, icon_spaceless he, icon_spaceless he'⟩

/-- **C107.** Names in lower case look the same everywhere. -/
theorem C107_plain (hcs : KeepsLowerAscii cs.lower) (hcs' : KeepsLowerAscii cs'.lower) {s s' : JStr} (h : prettyPrint fs.lift cwd o₁ tgt = .ok s) (h' : prettyPrint fs.lift cwd o₂ tgt = .ok s')
    (hn : ∀ t, scanned fs cwd o tgt = .ok t → ∀ q ∈ entryPaths t, fs.isDir q = false → ∀ c ∈ lastName q, c ∈ j!"abcdefghijklmnopqrstuvwxyz0123456789.-_") : s = s' := by
  obtain ⟨t, ht, hiff⟩ := C107_iff hw hlaw h1 h2 hcs hcs' h h'
  refine hiff.2 fun q hq hd n hqn e => ?_
  have hl : lastName q = n := by unfold Path.getFileName at hqn; unfold lastName; rw [List.getLastD_eq_getLast?, hqn]; rfl
  have := hn t ht q hq hd
  rw [hl] at this
  rw [hcs n this, hcs' n this]

/-- **C107, as documented, is false.** Under a Turkish locale and under an English one the texts differ exactly if a displayed file has a dotted name. -/
theorem C107_turkish (hcs : Project.LowersAscii cs.lower) (hcs' : LowersTurkish cs'.lower) {s s' : JStr} (h : prettyPrint fs.lift cwd o₁ tgt = .ok s) (h' : prettyPrint fs.lift cwd o₂ tgt = .ok s') :
    ∃ t, scanned fs cwd o tgt = .ok t ∧ (∀ q ∈ entryPaths t, fs.isDir q = false → (∀ c ∈ lastName q, c < 128) → Dotted (lastName q) → s ≠ s') ∧
      ((∀ q ∈ entryPaths t, fs.isDir q = false → ∀ c ∈ lastName q, c < 128) → (s = s' ↔ ∀ q ∈ entryPaths t, fs.isDir q = false → ¬ Dotted (lastName q))) := by
  obtain ⟨t, ht, hiff⟩ := C107_iff hw hlaw h1 h2 (Project.LowersAscii.keeps hcs) (turkish_keeps hcs') h h'
  have hl : ∀ q n, Path.getFileName q = some n → lastName q = n := fun q n hqn => by unfold Path.getFileName at hqn; unfold lastName; rw [List.getLastD_eq_getLast?, hqn]; rfl
  have hu : ∀ n : JStr, (∀ c ∈ n, c < 128) → cs.lower n = n.map usualChar := fun n hn => hcs n hn
  obtain ⟨t', T', ht', hp'⟩ := printed h'
  have : t' = t := by
    rw [(C36_default cs' fs.lift o o₂ h2).2.2] at ht'
    exact Except.ok.inj ((show scanned fs cwd o tgt = .ok t' from ht').symm.trans ht)
  subst this
  refine ⟨t', ht, fun q hq hd ha hD hss => ?_, fun hall => ?_⟩
  · obtain ⟨n, hn⟩ := named_of_mem hp'.named hq
    rw [hl q n hn] at ha hD
    have := hiff.1 hss q hq hd n hn
    rw [hu n ha, hcs' n ha] at this
    exact (icon_turkish n).1 this hD
  · rw [hiff]
    constructor
    · intro hh q hq hd
      obtain ⟨n, hn⟩ := named_of_mem hp'.named hq
      have ha := hall q hq hd
      have := hh q hq hd n hn
      rw [hl q n hn] at ha ⊢
      rw [hu n ha, hcs' n ha] at this
      exact (icon_turkish n).1 this
    · intro hh q hq hd n hn
      have ha := hall q hq hd
      have := hh q hq hd
      rw [hl q n hn] at ha this
      rw [hu n ha, hcs' n ha]
      exact (icon_turkish n).2 this

end

namespace Demo

/-- A project with a licence in capital letters, a picture whose extension is in capital letters, and another file. -/
def namesDisk : Node := .dir true [(j!"p", .dir true [(j!"LICENSE.md", .regular 0), (j!"PHOTO.GIF", .regular 0), (j!"IDEAS.txt", .regular 0), (j!"license.md", .regular 0)])]

theorem namesDisk_wf : namesDisk.WF := by simp [namesDisk, Node.WF, Node.WFAll]

def turkishCasing : Casing := ⟨fun s => s.map turkishChar, turkishChar⟩

theorem turkish_lowers : LowersTurkish turkishCasing.lower := fun _ _ => rfl

example : Dotted j!"LICENSE.md" ∧ Dotted j!"PHOTO.GIF" ∧ ¬ Dotted j!"IDEAS.txt" ∧ ¬ Dotted j!"license.md" := by
  refine ⟨.name (by decide) (by decide), .ext (by decide) ⟨by decide, by decide, j!"PHOTO", 0, rfl⟩ (x := j!"GIF") (by decide) (by decide), ?_, ?_⟩
  · intro h
    cases h with
    | name _ h => exact absurd h (by decide)
    | ext _ h h' _ => rw [lastExt_unique h (y := j!"txt") ⟨by decide, by decide, j!"IDEAS", 0, rfl⟩] at h'; exact absurd h' (by decide)
  · intro h
    cases h with
    | name h _ => exact absurd h (by decide)
    | ext h _ _ _ => exact absurd h (by decide)

theorem namesDisk_printed : prettyPrint (m := Except Exn) namesDisk.toFs.lift Path.root Options.createDefault ⟨true, [j!"p"]⟩ = .ok j!"p/\n├─ IDEAS.txt\n├─ LICENSE.md\n├─ PHOTO.GIF\n└─ license.md" :=
  (C100_default namesDisk_wf rfl _ _).2 (by decide)

/-- The calls of `C107_turkish` return texts on this disk, and these differ. -/
example : ∃ (o₁ o₂ : Options (Except Exn)) (s s' : JStr), Options.withDefaultEmojis asciiCasing namesDisk.toFs.lift (Options.createDefault : Options (Except Exn)) = .ok o₁ ∧ Options.withDefaultEmojis turkishCasing namesDisk.toFs.lift Options.createDefault = .ok o₂ ∧
    prettyPrint namesDisk.toFs.lift Path.root o₁ ⟨true, [j!"p"]⟩ = .ok s ∧ prettyPrint namesDisk.toFs.lift Path.root o₂ ⟨true, [j!"p"]⟩ = .ok s' ∧ s ≠ s' := by
  obtain ⟨o₁, h1⟩ := C36_default_ok (m := Except Exn) asciiCasing (Project.LowersAscii.keeps lowersAscii_ascii) namesDisk.toFs.lift Options.createDefault
  obtain ⟨o₂, h2⟩ := C36_default_ok (m := Except Exn) turkishCasing (turkish_keeps turkish_lowers) namesDisk.toFs.lift Options.createDefault
  obtain ⟨s, hs⟩ := C107_returns h1 namesDisk_printed
  obtain ⟨s', hs'⟩ := C107_returns h2 namesDisk_printed
  obtain ⟨t, ht, hd, -⟩ := C107_turkish rfl lawful_ALPHABETICAL h1 h2 lowersAscii_ascii turkish_lowers hs hs'
  refine ⟨o₁, o₂, s, s', h1, h2, hs, hs', hd ⟨true, [j!"p", j!"PHOTO.GIF"]⟩ ?_ rfl (by decide) (.ext (by decide) ⟨by decide, by decide, j!"PHOTO", 0, rfl⟩ (x := j!"GIF") (by decide) (by decide))⟩
  have h : scanned namesDisk.toFs Path.root Options.createDefault ⟨true, [j!"p"]⟩ = .ok (.dir ⟨true, [j!"p"]⟩
      ([j!"IDEAS.txt", j!"LICENSE.md", j!"PHOTO.GIF", j!"license.md"].map fun n => .file ⟨true, [j!"p", n]⟩ ⟨false, false⟩)) := by
    refine scanned_complete rfl lawful_ALPHABETICAL (sort_distinguishes lawful_const namesDisk_wf.proper) ?_
    exact Scanned.dir (A := answers namesDisk.toFs Options.createDefault) (c := PathSorts.ALPHABETICAL) (maxDepth := 20) (k := 0) (p := ⟨true, [j!"p"]⟩) (n := -1)
      (cs := [j!"LICENSE.md", j!"PHOTO.GIF", j!"IDEAS.txt", j!"license.md"].map fun n => ⟨true, [j!"p", n]⟩)
      (ks := [j!"LICENSE.md", j!"PHOTO.GIF", j!"IDEAS.txt", j!"license.md"].map fun n => ⟨true, [j!"p", n]⟩)
      (srt := [j!"IDEAS.txt", j!"LICENSE.md", j!"PHOTO.GIF", j!"license.md"].map fun n => ⟨true, [j!"p", n]⟩)
      rfl (by decide) rfl rfl (.keep rfl (.keep rfl (.keep rfl (.keep rfl .nil)))) (by decide) (by decide) (.cons (.file rfl rfl) (.cons (.file rfl rfl) (.cons (.file rfl rfl) (.cons (.file rfl rfl) .nil))))
  rw [h] at ht
  cases ht
  decide

/-- The names of the demo disk are in lower case: every locale gives the same text. -/
example {cs cs' : Casing} (hcs : KeepsLowerAscii cs.lower) (hcs' : KeepsLowerAscii cs'.lower) {o₁ o₂ : Options (Except Exn)} (h1 : Options.withDefaultEmojis cs dfs.lift dflt = .ok o₁)
    (h2 : Options.withDefaultEmojis cs' dfs.lift dflt = .ok o₂) : ∃ s, prettyPrint dfs.lift Path.root o₁ r = .ok s ∧ prettyPrint dfs.lift Path.root o₂ r = .ok s := by
  obtain ⟨s, hs⟩ := C107_returns h1 printed_found
  obtain ⟨s', hs'⟩ := C107_returns h2 printed_found
  refine ⟨s, hs, ?_⟩
  rw [C107_plain rfl lawful_ALPHABETICAL h1 h2 hcs hcs' hs hs' fun t ht q hq hd => ?_]
  · exact hs'
  · have key : ∀ q ∈ entryPaths found, dfs.isDir q = false → ∀ c ∈ lastName q, c ∈ j!"abcdefghijklmnopqrstuvwxyz0123456789.-_" := by decide
    rw [show scanned dfs Path.root dflt r = .ok found from scanned_found] at ht
    cases ht
    exact key q hq hd

end Demo
end JFTP
