import Verif.Props.Choices
import Verif.Props.Objects
import Verif.Spec.Programs

/-!
C104: programs that make, share and change options, builders and printers print the text their history asks for.
-/

namespace JFTP
open Spec Spec.OnePage Spec.Programs

namespace Programs

variable {w : Place}

/-! ### Histories -/

/-- The object that a statement changes. -/
def target : Stmt → Option Nat
  | .set o _ => some o
  | .withOptions b _ => some b
  | .addSort b _ => some b
  | .setDefaultLimit b _ => some b
  | .addLimit b _ => some b
  | .addExtension b _ => some b
  | .emoji b _ => some b
  | _ => none

theorem setCalls_append (P Q : List Stmt) (o : Nat) : setCalls (P ++ Q) o = setCalls P o ++ setCalls Q o := List.filterMap_append
theorem addedSorts_append (P Q : List Stmt) (o : Nat) : addedSorts (P ++ Q) o = addedSorts P o ++ addedSorts Q o := List.filterMap_append
theorem addedLimits_append (P Q : List Stmt) (o : Nat) : addedLimits (P ++ Q) o = addedLimits P o ++ addedLimits Q o := List.filterMap_append
theorem addedExtensions_append (P Q : List Stmt) (o : Nat) : addedExtensions (P ++ Q) o = addedExtensions P o ++ addedExtensions Q o := List.filterMap_append
theorem emojiCalls_append (P Q : List Stmt) (o : Nat) : emojiCalls (P ++ Q) o = emojiCalls P o ++ emojiCalls Q o := List.filterMap_append
theorem defaultLimits_append (P Q : List Stmt) (o : Nat) : defaultLimits (P ++ Q) o = defaultLimits P o ++ defaultLimits Q o := List.filterMap_append
theorem givenOptions_append (P Q : List Stmt) (o : Nat) : givenOptions (P ++ Q) o = givenOptions P o ++ givenOptions Q o := List.filterMap_append

/-- Nothing is said about objects that no statement changes. -/
theorem silent {P : List Stmt} {b : Nat} (h : ∀ st ∈ P, target st ≠ some b) : setCalls P b = [] ∧ addedSorts P b = [] ∧ addedLimits P b = [] ∧ addedExtensions P b = [] ∧ emojiCalls P b = [] ∧
    defaultLimits P b = [] ∧ givenOptions P b = [] := by
  unfold setCalls addedSorts addedLimits addedExtensions emojiCalls defaultLimits givenOptions
  simp only [List.filterMap_eq_nil_iff]
  refine ⟨?_, ?_, ?_, ?_, ?_, ?_, ?_⟩ <;>
  · intro st hst
    have := h st hst
    cases st <;> simp_all [target]

theorem getElem?_left {P Q : List Stmt} {v : Nat} {st : Stmt} (h : P[v]? = some st) : (P ++ Q)[v]? = some st := by
  rw [List.getElem?_append_left (List.getElem?_eq_some_iff.1 h).1]; exact h

theorem lt_of_some {α : Type} {P : List α} {v : Nat} {st : α} (h : P[v]? = some st) : v < P.length := (List.getElem?_eq_some_iff.1 h).1

theorem take_left {P Q : List Stmt} {v : Nat} (h : v < P.length) : (P ++ Q).take v = P.take v := List.take_append_of_le_length (by omega)

theorem getElem?_take {P : List Stmt} {v b : Nat} {st : Stmt} (h : (P.take v)[b]? = some st) : P[b]? = some st := by
  rw [List.getElem?_take] at h
  split at h
  · exact h
  · cases h

theorem defaultLimit_left {P Q : List Stmt} {b : Nat} {n : Int} (h : P[b]? = some (.newLimits n)) (hq : defaultLimits Q b = []) : defaultLimit (P ++ Q) b = defaultLimit P b := by
  unfold defaultLimit
  rw [defaultLimits_append, hq, List.append_nil, getElem?_left h, h]

theorem fromDefault_left {P Q : List Stmt} {b : Nat} {d : Bool} (h : P[b]? = some (.newEmojis d)) : fromDefault (P ++ Q) b = fromDefault P b := by
  unfold fromDefault
  rw [getElem?_left h, h]

/-! ### What the store contains -/

theorem orNone_some {α : Type} {x : Except Exn α} {a : α} : orNone x = some a ↔ x = .ok a := by
  cases x <;> simp [orNone]

/-- The start of an emoji builder. -/
def start (d : Bool) : EmojiMappingBuilder (Except Exn) := if d then EmojiMappingBuilder.newDefaultInstance else EmojiMappingBuilder.newBlankInstance

/-- What was built by statement `v`, from the history. -/
def valueAt (w : Place) (P : List Stmt) (v : Nat) : Option Cell :=
  match P[v]? with
  | some (.buildSorts b) => match (P.take v)[b]? with
    | some .newSorts => (orNone ((addedSorts (P.take v) b).foldlM (SortRule.call w) [])).map fun l => .sorts (LiveSorts.built l)
    | _ => none
  | some (.buildLimits b) => match (P.take v)[b]? with
    | some (.newLimits _) => (orNone ((addedLimits (P.take v) b).foldlM (LimitRule.call w) ⟨[], defaultLimit (P.take v) b⟩)).map fun lb => .limits lb.build b
    | _ => none
  | some (.buildExtensions b) => match (P.take v)[b]? with
    | some .newExtensions => (orNone ((addedExtensions (P.take v) b).foldlM (ExtRule.call w) LineExtensions.builder)).map fun eb => .exts eb.build
    | _ => none
  | some (.buildEmojis b) => match (P.take v)[b]? with
    | some (.newEmojis d) => (orNone (do (← (emojiCalls (P.take v) b).foldlM (IconCall.call w) (start d)).build w.casing)).map fun f => .emojis f b
    | _ => none
  | _ => none

theorem valueAt_left {P Q : List Stmt} {v : Nat} {c : Cell} (h : valueAt w P v = some c) : valueAt w (P ++ Q) v = some c := by
  rw [← h]
  have hv : v < P.length := by
    by_contra hv
    unfold valueAt at h
    rw [List.getElem?_eq_none (by omega)] at h
    cases h
  unfold valueAt
  rw [take_left hv, List.getElem?_append_left hv]

/-- The fields after calls that use these objects. -/
def FieldsOk (w : Place) (P : List Stmt) (cs : List SetCall) (x : Fields) : Prop := cs.foldlM (Fields.call w (valueAt w P)) Fields.createDefault = some x

theorem option_bind_some {α β : Type} {x : Option α} {f : α → Option β} {b : β} (h : x >>= f = some b) : ∃ a, x = some a ∧ f a = some b := by
  cases x with
  | none => cases h
  | some a => exact ⟨a, rfl, h⟩

theorem call_left {P Q : List Stmt} {x x' : Fields} {c : SetCall} (h : x.call w (valueAt w P) c = some x') : x.call w (valueAt w (P ++ Q)) c = some x' := by
  cases c with
  | plain c => exact h
  | _ v =>
    unfold Fields.call at h ⊢
    dsimp only at h ⊢
    split at h
    · rename_i heq
      rw [valueAt_left heq]; exact h
    · cases h

theorem foldlM_left {P Q : List Stmt} : ∀ {cs : List SetCall} {x x' : Fields}, cs.foldlM (Fields.call w (valueAt w P)) x = some x' → cs.foldlM (Fields.call w (valueAt w (P ++ Q))) x = some x'
  | [], _, _, h => h
  | c :: cs, x, x', h => by
    rw [List.foldlM_cons] at h ⊢
    obtain ⟨x1, h1, h⟩ := option_bind_some h
    rw [call_left h1]
    exact foldlM_left h

theorem FieldsOk.left {P Q : List Stmt} {cs : List SetCall} {x : Fields} (h : FieldsOk w P cs x) : FieldsOk w (P ++ Q) cs x := foldlM_left h

theorem options_left {P Q : List Stmt} {o : Nat} (h : IsOptions P o) : IsOptions (P ++ Q) o := h.imp getElem?_left getElem?_left

/-- What statement `i` has left in the store. -/
inductive CellOk (w : Place) (P : List Stmt) (i : Nat) : Stmt → Cell → Prop where
  | options {x : Fields} (h : FieldsOk w P (setCalls P i) x) : CellOk w P i .newOptions (.options x)
  | printerBuilder {x : Fields} (h : FieldsOk w P (setCalls P i) x) (ho : IsOptions P (currentOptions P i)) : CellOk w P i .newPrinterBuilder (.printerBuilder x (currentOptions P i))
  | printer {b : Nat} {x : Fields} (h : FieldsOk w P (setCalls (P.take i) (currentOptions (P.take i) b)) x) (ho : IsOptions P (currentOptions (P.take i) b)) :
      CellOk w P i (.buildPrinter b) (.printer (currentOptions (P.take i) b) x)
  | sortBuilder {l : List (Path → Except Exn Int)} (h : (addedSorts P i).foldlM (SortRule.call w) [] = .ok l) : CellOk w P i .newSorts (.sortBuilder l)
  | limitBuilder {n : Int} {lb : ChildLimitBuilder (Except Exn)} (h : (addedLimits P i).foldlM (LimitRule.call w) ⟨[], defaultLimit P i⟩ = .ok lb) : CellOk w P i (.newLimits n) (.limitBuilder lb)
  | extBuilder {eb : LineExtensionBuilder (Except Exn)} (h : (addedExtensions P i).foldlM (ExtRule.call w) LineExtensions.builder = .ok eb) : CellOk w P i .newExtensions (.extBuilder eb)
  | emojiBuilder {d : Bool} {eb : EmojiMappingBuilder (Except Exn)} (h : (emojiCalls P i).foldlM (IconCall.call w) (start d) = .ok eb) : CellOk w P i (.newEmojis d) (.emojiBuilder eb)
  | sorts {b : Nat} {c : CmpM (Except Exn)} (h : valueAt w P i = some (.sorts c)) : CellOk w P i (.buildSorts b) (.sorts c)
  | limits {b : Nat} {f : ChildLimitBuilder.Built (Except Exn)} (h : valueAt w P i = some (.limits f b)) : CellOk w P i (.buildLimits b) (.limits f b)
  | exts {b : Nat} {f : LineExtensionBuilder.Built (Except Exn)} (h : valueAt w P i = some (.exts f)) : CellOk w P i (.buildExtensions b) (.exts f)
  | emojis {b : Nat} {f : EmojiMapping} (h : valueAt w P i = some (.emojis f b)) : CellOk w P i (.buildEmojis b) (.emojis f b)
  | call {st : Stmt} {b : Nat} (h : target st = some b) : CellOk w P i st .unit
  | printed {k : Nat} {p : Path} {r : Except Exn JStr} : CellOk w P i (.print k p) (.printed r)

structure Inv (w : Place) (P : List Stmt) (heap : Heap) : Prop where
  len : heap.length = P.length
  cells : ∀ i st c, P[i]? = some st → heap[i]? = some c → CellOk w P i st c
  targets : ∀ st ∈ P, ∀ b, target st = some b → b < P.length

theorem Inv.of {P : List Stmt} {heap : Heap} (h : Inv w P heap) {i : Nat} {c : Cell} (hc : heap[i]? = some c) : ∃ st, P[i]? = some st ∧ CellOk w P i st c := by
  have hi : i < P.length := by rw [← h.len]; exact lt_of_some hc
  exact ⟨P[i], List.getElem?_eq_getElem hi, h.cells _ _ _ (List.getElem?_eq_getElem hi) hc⟩

theorem Inv.at {P : List Stmt} {heap : Heap} (h : Inv w P heap) {i : Nat} {st : Stmt} (hc : P[i]? = some st) : ∃ c, heap[i]? = some c ∧ CellOk w P i st c := by
  have hi : i < heap.length := by rw [h.len]; exact lt_of_some hc
  exact ⟨heap[i], List.getElem?_eq_getElem hi, h.cells _ _ _ hc (List.getElem?_eq_getElem hi)⟩

/-- A statement leaves what it does not change. -/
theorem CellOk.keep {P : List Stmt} {i : Nat} {st st' : Stmt} {c : Cell} (h : CellOk w P i st c) (hi : P[i]? = some st) (ht : target st' ≠ some i) : CellOk w (P ++ [st']) i st c := by
  obtain ⟨h1, h2, h3, h4, h5, h6, h7⟩ := silent (P := [st']) (b := i) (by simpa using ht)
  have hlt := lt_of_some hi
  cases h with
  | options h => refine .options ?_; rw [setCalls_append, h1, List.append_nil]; exact h.left
  | printerBuilder h ho =>
    have : currentOptions P i = currentOptions (P ++ [st']) i := by unfold currentOptions; rw [givenOptions_append, h7, List.append_nil]
    rw [this] at ho ⊢
    refine .printerBuilder ?_ (options_left ho); rw [setCalls_append, h1, List.append_nil]; exact h.left
  | printer h ho =>
    have : CellOk w (P ++ [st']) i (.buildPrinter _) (.printer (currentOptions ((P ++ [st']).take i) _) _) := .printer (by rw [take_left hlt]; exact h.left) (by rw [take_left hlt]; exact options_left ho)
    rw [take_left hlt] at this
    exact this
  | sortBuilder h => refine .sortBuilder ?_; rw [addedSorts_append, h2, List.append_nil]; exact h
  | limitBuilder h => refine .limitBuilder ?_; rw [addedLimits_append, h3, List.append_nil, defaultLimit_left hi h6]; exact h
  | extBuilder h => refine .extBuilder ?_; rw [addedExtensions_append, h4, List.append_nil]; exact h
  | emojiBuilder h => refine .emojiBuilder ?_; rw [emojiCalls_append, h5, List.append_nil]; exact h
  | sorts h => exact .sorts (valueAt_left h)
  | limits h => exact .limits (valueAt_left h)
  | exts h => exact .exts (valueAt_left h)
  | emojis h => exact .emojis (valueAt_left h)
  | call h => exact .call h
  | printed => exact .printed

theorem Inv.push {P : List Stmt} {heap : Heap} (h : Inv w P heap) {st : Stmt} {c : Cell} (ht : target st = none) (hc : CellOk w (P ++ [st]) P.length st c) : Inv w (P ++ [st]) (heap ++ [c]) where
  len := by simp [h.len]
  cells i st' c' h1 h2 := by
    by_cases hi : i < P.length
    · rw [List.getElem?_append_left hi] at h1
      rw [List.getElem?_append_left (by rw [h.len]; exact hi)] at h2
      exact (h.cells i st' c' h1 h2).keep h1 (by simp [ht])
    · have hl := lt_of_some h1
      have : i = P.length := by simp at hl; omega
      subst this
      simp at h1
      rw [← h.len] at h2
      simp at h2
      subst h1 h2
      exact hc
  targets st' hst b hb := by
    rcases List.mem_append.1 hst with hst | hst
    · have := h.targets st' hst b hb; simp; omega
    · simp at hst; subst hst; rw [ht] at hb; cases hb

theorem Inv.change {P : List Stmt} {heap : Heap} (h : Inv w P heap) {st stb : Stmt} {b : Nat} {c : Cell} (ht : target st = some b) (hb : P[b]? = some stb) (hc : CellOk w (P ++ [st]) b stb c) :
    Inv w (P ++ [st]) (heap.set b c ++ [.unit]) where
  len := by simp [h.len]
  cells i st' c' h1 h2 := by
    by_cases hi : i < P.length
    · rw [List.getElem?_append_left hi] at h1
      rw [List.getElem?_append_left (by rw [List.length_set, h.len]; exact hi)] at h2
      by_cases hib : b = i
      · subst hib
        rw [List.getElem?_set_self (by rw [h.len]; exact hi)] at h2
        rw [h1] at hb
        cases h2; cases hb
        exact hc
      · rw [List.getElem?_set_ne hib] at h2
        exact (h.cells i st' c' h1 h2).keep h1 (by rw [ht]; simpa using hib)
    · have hl := lt_of_some h1
      have : i = P.length := by simp at hl; omega
      subst this
      simp at h1
      rw [← h.len, ← List.length_set (i := b) (a := c)] at h2
      simp at h2
      subst h1 h2
      exact .call ht
  targets st' hst b' hb' := by
    rcases List.mem_append.1 hst with hst | hst
    · have := h.targets st' hst b' hb'; simp; omega
    · simp at hst; subst hst; rw [ht] at hb'; cases hb'; have := lt_of_some hb; simp; omega

/-- New objects have no history. -/
theorem Inv.fresh {P : List Stmt} {heap : Heap} (h : Inv w P heap) {st : Stmt} (ht : target st = none) : setCalls (P ++ [st]) P.length = [] ∧ addedSorts (P ++ [st]) P.length = [] ∧
    addedLimits (P ++ [st]) P.length = [] ∧ addedExtensions (P ++ [st]) P.length = [] ∧ emojiCalls (P ++ [st]) P.length = [] ∧ defaultLimits (P ++ [st]) P.length = [] ∧ givenOptions (P ++ [st]) P.length = [] := by
  refine silent fun st' hst => ?_
  rcases List.mem_append.1 hst with hst | hst
  · intro hb
    have := h.targets st' hst _ hb
    omega
  · simp at hst; subst hst; rw [ht]; simp

theorem Inv.look {P : List Stmt} {heap : Heap} (h : Inv w P heap) (x : Fields) (c : SetCall) : x.call w (heap[·]?) c = x.call w (valueAt w P) c := by
  have key : ∀ v, heap[v]? = valueAt w P v ∨ (valueAt w P v = none ∧ ∀ c, heap[v]? = some c → match c with | .sorts _ => False | .limits _ _ => False | .exts _ => False | .emojis _ _ => False | _ => True) := by
    intro v
    cases hv : heap[v]? with
    | none =>
      have : P[v]? = none := by rw [List.getElem?_eq_none_iff] at hv ⊢; rw [← h.len]; exact hv
      exact .inl (by unfold valueAt; rw [this])
    | some c =>
      obtain ⟨st, hst, hc⟩ := h.of hv
      cases hc with
      | sorts h => exact .inl h.symm
      | limits h => exact .inl h.symm
      | exts h => exact .inl h.symm
      | emojis h => exact .inl h.symm
      | @call _ b ht =>
        refine .inr ⟨?_, fun c hc => by cases hc; trivial⟩
        unfold valueAt; rw [hst]
        cases st <;> first | rfl | cases ht
      | _ => exact .inr ⟨by unfold valueAt; rw [hst], fun c hc => by cases hc; trivial⟩
  cases c with
  | plain c => rfl
  | _ v =>
    unfold Fields.call
    dsimp only
    rcases key v with hk | ⟨hk, hn⟩
    · rw [hk]
    · rw [hk]
      split
      · rename_i heq
        exact absurd (hn _ heq) (by simp)
      · rfl

theorem Inv.options {P : List Stmt} {heap : Heap} (h : Inv w P heap) {o : Nat} {x : Fields} (hx : heap.options o = some x) : IsOptions P o ∧ FieldsOk w P (setCalls P o) x := by
  unfold Heap.options at hx
  split at hx
  · rename_i heq
    obtain ⟨st, hst, hc⟩ := h.of heq
    cases hx; cases hc with | options hf => exact ⟨.inl hst, hf⟩
  · rename_i heq
    obtain ⟨st, hst, hc⟩ := h.of heq
    cases hx; cases hc with | printerBuilder hf ho => exact ⟨.inr hst, hf⟩
  · cases hx

theorem Inv.options_of {P : List Stmt} {heap : Heap} (h : Inv w P heap) {o : Nat} (ho : IsOptions P o) : ∃ x, heap.options o = some x := by
  unfold Heap.options
  rcases ho with ho | ho <;> obtain ⟨c, hc, hk⟩ := h.at ho <;> cases hk <;> first | exact ⟨_, by rw [hc]⟩ | (rename_i ht; cases ht)

theorem limitCall_default {r : LimitRule} {b b' : ChildLimitBuilder (Except Exn)} (n : Int) (h : r.call w b = .ok b') : r.call w (b.setDefault n) = .ok (b'.setDefault n) := by
  cases r with
  | add f => cases h; rfl
  | addMatching c k =>
    obtain ⟨mt, hm, h⟩ := except_bind_ok h
    cases h
    show (c.make w >>= _) = _
    rw [hm]; rfl

/-- The rules do not depend on the default. -/
theorem limits_default (n : Int) : ∀ {rs : List LimitRule} {b b' : ChildLimitBuilder (Except Exn)}, rs.foldlM (LimitRule.call w) b = .ok b' →
    rs.foldlM (LimitRule.call w) (b.setDefault n) = .ok (b'.setDefault n)
  | [], _, _, h => by cases h; rfl
  | r :: rs, b, b', h => by
    rw [List.foldlM_cons] at h ⊢
    obtain ⟨b1, h1, h⟩ := except_bind_ok h
    rw [limitCall_default n h1]
    exact limits_default n h

/-- One statement keeps the invariant. -/
theorem Inv.step {P : List Stmt} {heap heap' : Heap} (h : Inv w P heap) {st : Stmt} (hs : Spec.Programs.step w heap st = some heap') : Inv w (P ++ [st]) heap' := by
  cases st with
  | newOptions =>
    cases hs
    refine h.push rfl (.options ?_)
    rw [(h.fresh rfl).1]; rfl
  | newPrinterBuilder =>
    cases hs
    have : CellOk w (P ++ [.newPrinterBuilder]) P.length .newPrinterBuilder (.printerBuilder Fields.createDefault (currentOptions (P ++ [.newPrinterBuilder]) P.length)) :=
      .printerBuilder (by rw [(h.fresh rfl).1]; rfl) (by unfold currentOptions; rw [(h.fresh rfl).2.2.2.2.2.2]; exact .inr List.getElem?_concat_length)
    refine h.push rfl ?_
    unfold currentOptions at this
    rw [(h.fresh rfl).2.2.2.2.2.2] at this
    rw [h.len]
    exact this
  | set o c =>
    obtain ⟨x, hx, hs⟩ := option_bind_some hs
    obtain ⟨x', hx', hs⟩ := option_bind_some hs
    cases hs
    rw [h.look] at hx'
    have hf : FieldsOk w (P ++ [.set o c]) (setCalls (P ++ [.set o c]) o) x' := by
      rw [setCalls_append]
      refine FieldsOk.left ?_
      unfold FieldsOk
      rw [List.foldlM_append, (h.options hx).2]
      simp only [setCalls, List.filterMap, if_true]
      show (Fields.call w (valueAt w P) x c >>= fun s => some s) = _
      rw [hx']; rfl
    unfold Heap.options at hx
    unfold Heap.putOptions
    split at hx
    · rename_i heq
      rw [heq]
      obtain ⟨st, hst, hc⟩ := h.of heq
      cases hc
      exact h.change rfl hst (.options hf)
    · rename_i heq
      rw [heq]
      obtain ⟨st, hst, hc⟩ := h.of heq
      cases hc with
      | printerBuilder _ ho =>
        have hcur : currentOptions P o = currentOptions (P ++ [.set o c]) o := by
          unfold currentOptions
          rw [givenOptions_append, show givenOptions [.set o c] o = [] from rfl, List.append_nil]
        refine h.change rfl hst ?_
        rw [hcur] at ho ⊢
        exact .printerBuilder hf (options_left ho)
    · cases hx
  | withOptions b o =>
    obtain ⟨x, hx, hs⟩ := option_bind_some hs
    split at hs
    · rename_i heq
      cases hs
      obtain ⟨st, hst, hc⟩ := h.of heq
      cases hc with
      | printerBuilder hf ho =>
        refine h.change rfl hst ?_
        have hcur : o = currentOptions (P ++ [.withOptions b o]) b := by
          unfold currentOptions
          rw [givenOptions_append]
          simp [givenOptions]
        rw [show Cell.printerBuilder _ o = Cell.printerBuilder _ (currentOptions (P ++ [.withOptions b o]) b) from congrArg _ hcur]
        exact .printerBuilder (by rw [setCalls_append]; simp only [setCalls, List.filterMap, List.append_nil]; exact hf.left) (by rw [← hcur]; exact options_left (h.options hx).1)
    · cases hs
  | buildPrinter b =>
    unfold Spec.Programs.step at hs
    dsimp only at hs
    split at hs
    · rename_i heq
      obtain ⟨x, hx, hs⟩ := option_bind_some hs
      cases hs
      obtain ⟨st, hst, hc⟩ := h.of heq
      cases hc with
      | printerBuilder hf ho =>
        refine h.push rfl ?_
        have ht : (P ++ [Stmt.buildPrinter b]).take P.length = P := List.take_left' rfl
        have := CellOk.printer (w := w) (P := P ++ [Stmt.buildPrinter b]) (i := P.length) (b := b) (x := x) (by rw [ht]; exact (h.options hx).2.left) (by rw [ht]; exact options_left ho)
        rw [ht] at this
        exact this
    · cases hs
  | newSorts =>
    cases hs
    refine h.push rfl (.sortBuilder ?_)
    rw [(h.fresh rfl).2.1]; rfl
  | addSort b r =>
    unfold Spec.Programs.step at hs
    dsimp only at hs
    split at hs
    · rename_i heq
      obtain ⟨l, hl, hs⟩ := option_bind_some hs
      rw [orNone_some] at hl
      cases hs
      obtain ⟨st, hst, hc⟩ := h.of heq
      cases hc with
      | sortBuilder hf =>
        refine h.change rfl hst (.sortBuilder ?_)
        rw [addedSorts_append, List.foldlM_append, hf]
        simp only [addedSorts, List.filterMap, if_true]
        show (SortRule.call w _ r >>= fun s => .ok s) = _
        rw [hl]; rfl
    · cases hs
  | buildSorts b =>
    unfold Spec.Programs.step at hs
    dsimp only at hs
    split at hs
    · rename_i heq
      cases hs
      obtain ⟨st, hst, hc⟩ := h.of heq
      cases hc with
      | sortBuilder hf =>
        refine h.push rfl (.sorts ?_)
        unfold valueAt
        rw [List.getElem?_concat_length]
        dsimp only
        rw [List.take_left' rfl, hst]
        dsimp only
        rw [hf]; rfl
    · cases hs
  | newLimits n =>
    cases hs
    refine h.push rfl (.limitBuilder ?_)
    unfold defaultLimit
    rw [(h.fresh rfl).2.2.1, (h.fresh rfl).2.2.2.2.2.1, List.getElem?_concat_length]; rfl
  | setDefaultLimit b n =>
    unfold Spec.Programs.step at hs
    dsimp only at hs
    split at hs
    · rename_i heq
      cases hs
      obtain ⟨st, hst, hc⟩ := h.of heq
      cases hc with
      | limitBuilder hf =>
        refine h.change rfl hst (.limitBuilder ?_)
        have : defaultLimit (P ++ [.setDefaultLimit b n]) b = n := by unfold defaultLimit; rw [defaultLimits_append]; simp [defaultLimits]
        rw [this, addedLimits_append, show addedLimits [.setDefaultLimit b n] b = [] from rfl, List.append_nil]
        exact limits_default n hf
    · cases hs
  | addLimit b r =>
    unfold Spec.Programs.step at hs
    dsimp only at hs
    split at hs
    · rename_i heq
      obtain ⟨l, hl, hs⟩ := option_bind_some hs
      rw [orNone_some] at hl
      cases hs
      obtain ⟨st, hst, hc⟩ := h.of heq
      cases hc with
      | limitBuilder hf =>
        refine h.change rfl hst (.limitBuilder ?_)
        rw [addedLimits_append, List.foldlM_append, defaultLimit_left hst rfl, hf]
        simp only [addedLimits, List.filterMap, if_true]
        show (LimitRule.call w _ r >>= fun s => .ok s) = _
        rw [hl]; rfl
    · cases hs
  | buildLimits b =>
    unfold Spec.Programs.step at hs
    dsimp only at hs
    split at hs
    · rename_i heq
      cases hs
      obtain ⟨st, hst, hc⟩ := h.of heq
      cases hc with
      | limitBuilder hf =>
        refine h.push rfl (.limits ?_)
        unfold valueAt
        rw [List.getElem?_concat_length]
        dsimp only
        rw [List.take_left' rfl, hst]
        dsimp only
        rw [hf]; rfl
    · cases hs
  | newExtensions =>
    cases hs
    refine h.push rfl (.extBuilder ?_)
    rw [(h.fresh rfl).2.2.2.1]; rfl
  | addExtension b r =>
    unfold Spec.Programs.step at hs
    dsimp only at hs
    split at hs
    · rename_i heq
      obtain ⟨l, hl, hs⟩ := option_bind_some hs
      rw [orNone_some] at hl
      cases hs
      obtain ⟨st, hst, hc⟩ := h.of heq
      cases hc with
      | extBuilder hf =>
        refine h.change rfl hst (.extBuilder ?_)
        rw [addedExtensions_append, List.foldlM_append, hf]
        simp only [addedExtensions, List.filterMap, if_true]
        show (ExtRule.call w _ r >>= fun s => .ok s) = _
        rw [hl]; rfl
    · cases hs
  | buildExtensions b =>
    unfold Spec.Programs.step at hs
    dsimp only at hs
    split at hs
    · rename_i heq
      cases hs
      obtain ⟨st, hst, hc⟩ := h.of heq
      cases hc with
      | extBuilder hf =>
        refine h.push rfl (.exts ?_)
        unfold valueAt
        rw [List.getElem?_concat_length]
        dsimp only
        rw [List.take_left' rfl, hst]
        dsimp only
        rw [hf]; rfl
    · cases hs
  | newEmojis d =>
    cases hs
    refine h.push rfl (.emojiBuilder ?_)
    rw [(h.fresh rfl).2.2.2.2.1]; rfl
  | emoji b c =>
    unfold Spec.Programs.step at hs
    dsimp only at hs
    split at hs
    · rename_i heq
      obtain ⟨l, hl, hs⟩ := option_bind_some hs
      rw [orNone_some] at hl
      cases hs
      obtain ⟨st, hst, hc⟩ := h.of heq
      cases hc with
      | emojiBuilder hf =>
        refine h.change rfl hst (.emojiBuilder ?_)
        rw [emojiCalls_append, List.foldlM_append, hf]
        simp only [emojiCalls, List.filterMap, if_true]
        show (IconCall.call w _ c >>= fun s => .ok s) = _
        rw [hl]; rfl
    · cases hs
  | buildEmojis b =>
    unfold Spec.Programs.step at hs
    dsimp only at hs
    split at hs
    · rename_i heq
      obtain ⟨f, hl, hs⟩ := option_bind_some hs
      rw [orNone_some] at hl
      cases hs
      obtain ⟨st, hst, hc⟩ := h.of heq
      cases hc with
      | emojiBuilder hf =>
        refine h.push rfl (.emojis ?_)
        unfold valueAt
        rw [List.getElem?_concat_length]
        dsimp only
        rw [List.take_left' rfl, hst]
        dsimp only
        rw [hf]
        show (orNone (EmojiMappingBuilder.build w.casing _)).map _ = _
        rw [hl]; rfl
    · cases hs
  | print k p =>
    unfold Spec.Programs.step at hs
    dsimp only at hs
    split at hs
    · obtain ⟨x, hx, hs⟩ := option_bind_some hs
      cases hs
      exact h.push rfl .printed
    · cases hs

theorem setCall_good (hw : w.cwd.abs = true) {P : List Stmt} {x x' : Fields} {c : SetCall} (h : x.call w (valueAt w P) c = some x') : c.Good w P := by
  cases c with
  | plain c =>
    unfold Fields.call at h
    dsimp only at h
    split at h
    · rename_i ob heq; exact (OnePage.call_iff hw x.ob c).1 ⟨ob, heq⟩
    · cases h
  | _ v =>
    unfold Fields.call at h
    dsimp only at h
    split at h
    · rename_i heq
      unfold valueAt at heq
      split at heq <;> try cases heq
      all_goals
        split at heq <;> simp at heq
        try exact ⟨_, ‹_›⟩
    · cases h

theorem Inv.setCall (hw : w.cwd.abs = true) {P : List Stmt} {heap : Heap} (h : Inv w P heap) {c : SetCall} (hc : c.Good w P) (x : Fields) : ∃ x', x.call w (heap[·]?) c = some x' := by
  cases c with
  | plain c =>
    obtain ⟨ob, ho⟩ := (OnePage.call_iff hw x.ob c).2 hc
    exact ⟨_, by unfold Fields.call; dsimp only; rw [ho]⟩
  | _ v =>
    obtain ⟨b, hb⟩ := hc
    obtain ⟨c, hc, hk⟩ := h.at hb
    cases hk with
    | call ht => cases ht
    | _ => exact ⟨_, by unfold Fields.call; dsimp only; rw [hc]⟩

/-- A statement succeeds if and only if it is good. -/
theorem Inv.good (hw : w.cwd.abs = true) {P : List Stmt} {heap : Heap} (h : Inv w P heap) (st : Stmt) : (∃ heap', Spec.Programs.step w heap st = some heap') ↔ st.Good w P := by
  cases st with
  | newOptions => exact ⟨fun _ => trivial, fun _ => ⟨_, rfl⟩⟩
  | newPrinterBuilder => exact ⟨fun _ => trivial, fun _ => ⟨_, rfl⟩⟩
  | newSorts => exact ⟨fun _ => trivial, fun _ => ⟨_, rfl⟩⟩
  | newLimits n => exact ⟨fun _ => trivial, fun _ => ⟨_, rfl⟩⟩
  | newExtensions => exact ⟨fun _ => trivial, fun _ => ⟨_, rfl⟩⟩
  | newEmojis d => exact ⟨fun _ => trivial, fun _ => ⟨_, rfl⟩⟩
  | set o c =>
    constructor
    · rintro ⟨heap', hs⟩
      obtain ⟨x, hx, hs⟩ := option_bind_some hs
      obtain ⟨x', hx', hs⟩ := option_bind_some hs
      rw [h.look] at hx'
      exact ⟨(h.options hx).1, setCall_good hw hx'⟩
    · rintro ⟨ho, hc⟩
      obtain ⟨x, hx⟩ := h.options_of ho
      obtain ⟨x', hx'⟩ := h.setCall hw hc x
      refine ⟨heap.putOptions o x' ++ [.unit], ?_⟩
      show (heap.options o >>= _) = _
      rw [hx]
      show (x.call w (heap[·]?) c >>= _) = _
      rw [hx']; rfl
  | withOptions b o =>
    constructor
    · rintro ⟨heap', hs⟩
      obtain ⟨x, hx, hs⟩ := option_bind_some hs
      split at hs
      · rename_i heq
        obtain ⟨st, hst, hc⟩ := h.of heq
        cases hc
        exact ⟨hst, (h.options hx).1⟩
      · cases hs
    · rintro ⟨hb, ho⟩
      obtain ⟨x, hx⟩ := h.options_of ho
      obtain ⟨c, hc, hk⟩ := h.at hb
      cases hk with
      | call ht => cases ht
      | @printerBuilder x0 hf ho' =>
        refine ⟨heap.set b (Cell.printerBuilder x0 o) ++ [Cell.unit], ?_⟩
        show (heap.options o >>= _) = _
        rw [hx]
        show (match heap[b]? with | some (.printerBuilder own _) => some (heap.set b (Cell.printerBuilder own o) ++ [Cell.unit]) | _ => none) = _
        rw [hc]
  | buildPrinter b =>
    unfold Spec.Programs.step Stmt.Good
    dsimp only
    constructor
    · rintro ⟨heap', hs⟩
      split at hs
      · rename_i heq
        obtain ⟨st, hst, hc⟩ := h.of heq
        cases hc
        exact hst
      · cases hs
    · intro hb
      obtain ⟨c, hc, hk⟩ := h.at hb
      cases hk with
      | call ht => cases ht
      | printerBuilder hf ho =>
        obtain ⟨x, hx⟩ := h.options_of ho
        refine ⟨heap ++ [.printer (currentOptions P b) x], ?_⟩
        rw [hc]
        show (heap.options _ >>= _) = _
        rw [hx]; rfl
  | addSort b r =>
    unfold Spec.Programs.step Stmt.Good
    dsimp only
    constructor
    · rintro ⟨heap', hs⟩
      split at hs
      · rename_i heq
        obtain ⟨l, hl, hs⟩ := option_bind_some hs
        rw [orNone_some] at hl
        obtain ⟨st, hst, hc⟩ := h.of heq
        cases hc
        exact ⟨hst, (OnePage.sortRule_iff _ r).1 ⟨l, hl⟩⟩
      · cases hs
    · rintro ⟨hb, hr⟩
      obtain ⟨c, hc, hk⟩ := h.at hb
      cases hk with
      | call ht => cases ht
      | @sortBuilder =>
        rename_i l hf
        obtain ⟨l', hl⟩ := (OnePage.sortRule_iff l r).2 hr
        refine ⟨heap.set b (.sortBuilder l') ++ [.unit], ?_⟩
        rw [hc]
        show (orNone (r.call w l) >>= _) = _
        rw [orNone_some.2 hl]; rfl
  | buildSorts b =>
    unfold Spec.Programs.step Stmt.Good
    dsimp only
    constructor
    · rintro ⟨heap', hs⟩
      split at hs
      · rename_i heq
        obtain ⟨st, hst, hc⟩ := h.of heq
        cases hc
        exact hst
      · cases hs
    · rintro hb
      obtain ⟨c, hc, hk⟩ := h.at hb
      cases hk with
      | call ht => cases ht
      | sortBuilder hf => exact ⟨_, by rw [hc]⟩
  | setDefaultLimit b n =>
    unfold Spec.Programs.step Stmt.Good
    dsimp only
    constructor
    · rintro ⟨heap', hs⟩
      split at hs
      · rename_i heq
        obtain ⟨st, hst, hc⟩ := h.of heq
        cases hc
        exact ⟨_, hst⟩
      · cases hs
    · rintro ⟨n, hb⟩
      obtain ⟨c, hc, hk⟩ := h.at hb
      cases hk with
      | call ht => cases ht
      | limitBuilder hf => exact ⟨_, by rw [hc]⟩
  | addLimit b r =>
    unfold Spec.Programs.step Stmt.Good
    dsimp only
    constructor
    · rintro ⟨heap', hs⟩
      split at hs
      · rename_i heq
        obtain ⟨l, hl, hs⟩ := option_bind_some hs
        rw [orNone_some] at hl
        obtain ⟨st, hst, hc⟩ := h.of heq
        cases hc
        exact ⟨⟨_, hst⟩, (OnePage.limitRule_iff _ r).1 ⟨l, hl⟩⟩
      · cases hs
    · rintro ⟨⟨n, hb⟩, hr⟩
      obtain ⟨c, hc, hk⟩ := h.at hb
      cases hk with
      | call ht => cases ht
      | @limitBuilder =>
        rename_i l hf
        obtain ⟨l', hl⟩ := (OnePage.limitRule_iff l r).2 hr
        refine ⟨heap.set b (.limitBuilder l') ++ [.unit], ?_⟩
        rw [hc]
        show (orNone (r.call w l) >>= _) = _
        rw [orNone_some.2 hl]; rfl
  | buildLimits b =>
    unfold Spec.Programs.step Stmt.Good
    dsimp only
    constructor
    · rintro ⟨heap', hs⟩
      split at hs
      · rename_i heq
        obtain ⟨st, hst, hc⟩ := h.of heq
        cases hc
        exact ⟨_, hst⟩
      · cases hs
    · rintro ⟨n, hb⟩
      obtain ⟨c, hc, hk⟩ := h.at hb
      cases hk with
      | call ht => cases ht
      | limitBuilder hf => exact ⟨_, by rw [hc]⟩
  | addExtension b r =>
    unfold Spec.Programs.step Stmt.Good
    dsimp only
    constructor
    · rintro ⟨heap', hs⟩
      split at hs
      · rename_i heq
        obtain ⟨l, hl, hs⟩ := option_bind_some hs
        rw [orNone_some] at hl
        obtain ⟨st, hst, hc⟩ := h.of heq
        cases hc
        exact ⟨hst, (OnePage.extRule_iff _ r).1 ⟨l, hl⟩⟩
      · cases hs
    · rintro ⟨hb, hr⟩
      obtain ⟨c, hc, hk⟩ := h.at hb
      cases hk with
      | call ht => cases ht
      | @extBuilder =>
        rename_i l hf
        obtain ⟨l', hl⟩ := (OnePage.extRule_iff l r).2 hr
        refine ⟨heap.set b (.extBuilder l') ++ [.unit], ?_⟩
        rw [hc]
        show (orNone (r.call w l) >>= _) = _
        rw [orNone_some.2 hl]; rfl
  | buildExtensions b =>
    unfold Spec.Programs.step Stmt.Good
    dsimp only
    constructor
    · rintro ⟨heap', hs⟩
      split at hs
      · rename_i heq
        obtain ⟨st, hst, hc⟩ := h.of heq
        cases hc
        exact hst
      · cases hs
    · rintro hb
      obtain ⟨c, hc, hk⟩ := h.at hb
      cases hk with
      | call ht => cases ht
      | extBuilder hf => exact ⟨_, by rw [hc]⟩
  | emoji b r =>
    unfold Spec.Programs.step Stmt.Good
    dsimp only
    constructor
    · rintro ⟨heap', hs⟩
      split at hs
      · rename_i heq
        obtain ⟨l, hl, hs⟩ := option_bind_some hs
        rw [orNone_some] at hl
        obtain ⟨st, hst, hc⟩ := h.of heq
        cases hc
        exact ⟨⟨_, hst⟩, (OnePage.iconCall_iff _ r).1 ⟨l, hl⟩⟩
      · cases hs
    · rintro ⟨⟨d, hb⟩, hr⟩
      obtain ⟨c, hc, hk⟩ := h.at hb
      cases hk with
      | call ht => cases ht
      | @emojiBuilder =>
        rename_i l hf
        obtain ⟨l', hl⟩ := (OnePage.iconCall_iff l r).2 hr
        refine ⟨heap.set b (.emojiBuilder l') ++ [.unit], ?_⟩
        rw [hc]
        show (orNone (r.call w l) >>= _) = _
        rw [orNone_some.2 hl]; rfl
  | buildEmojis b =>
    unfold Spec.Programs.step Stmt.Good
    dsimp only
    constructor
    · rintro ⟨heap', hs⟩
      split at hs
      · rename_i heq
        obtain ⟨f, hf, hs⟩ := option_bind_some hs
        rw [orNone_some] at hf
        obtain ⟨st, hst, hc⟩ := h.of heq
        cases hc with
        | emojiBuilder he => exact ⟨_, hst, (OnePage.noClash_iff _ _).1 ⟨f, by rw [← (OnePage.icons_same hw he).build]; exact hf⟩⟩
      · cases hs
    · rintro ⟨d, hb, hn⟩
      obtain ⟨c, hc, hk⟩ := h.at hb
      cases hk with
      | call ht => cases ht
      | emojiBuilder he =>
        obtain ⟨f, hf⟩ := (OnePage.noClash_iff _ _).2 hn
        rw [← (OnePage.icons_same hw he).build] at hf
        refine ⟨heap ++ [.emojis f b], ?_⟩
        rw [hc]
        show (orNone (EmojiMappingBuilder.build w.casing _) >>= _) = _
        rw [orNone_some.2 hf]; rfl
  | print k p =>
    unfold Spec.Programs.step Stmt.Good
    dsimp only
    constructor
    · rintro ⟨heap', hs⟩
      split at hs
      · rename_i heq
        obtain ⟨st, hst, hc⟩ := h.of heq
        cases hc
        exact ⟨_, hst⟩
      · cases hs
    · rintro ⟨b, hb⟩
      obtain ⟨c, hc, hk⟩ := h.at hb
      cases hk with
      | call ht => cases ht
      | printer hf ho =>
        obtain ⟨x, hx⟩ := h.options_of ho
        rw [hc]
        show ∃ heap', (heap.options _ >>= _) = some heap'
        rw [hx]
        exact ⟨_, rfl⟩

/-! ### Runs -/

theorem run_snoc (P : List Stmt) (st : Stmt) : run w (P ++ [st]) = run w P >>= fun heap => step w heap st := by
  unfold run
  rw [List.foldlM_append]
  cases P.foldlM (step w) [] with
  | none => rfl
  | some heap =>
    show (step w heap st >>= fun x => some x) = step w heap st
    cases step w heap st <;> rfl

theorem inv_nil : Inv w [] [] := ⟨rfl, fun i st c h => by simp at h, fun st h => by simp at h⟩

theorem run_inv {P : List Stmt} {heap : Heap} (h : run w P = some heap) : Inv w P heap := by
  induction P using List.reverseRecOn generalizing heap with
  | nil => cases h; exact inv_nil
  | append_singleton P st ih =>
    rw [run_snoc] at h
    obtain ⟨heap0, h0, h⟩ := option_bind_some h
    exact (ih h0).step h

theorem runs_iff (hw : w.cwd.abs = true) (P : List Stmt) : (∃ heap, run w P = some heap) ↔ ∀ (i : Nat) (st : Stmt), P[i]? = some st → st.Good w (P.take i) := by
  induction P using List.reverseRecOn with
  | nil => exact ⟨fun _ i st h => by simp at h, fun _ => ⟨[], rfl⟩⟩
  | append_singleton P st ih =>
    rw [run_snoc]
    constructor
    · rintro ⟨heap, h⟩
      obtain ⟨heap0, h0, h⟩ := option_bind_some h
      intro i st' hi
      by_cases hlt : i < P.length
      · rw [take_left hlt]
        rw [List.getElem?_append_left hlt] at hi
        exact ih.1 ⟨heap0, h0⟩ i st' hi
      · have hl := lt_of_some hi
        have : i = P.length := by simp at hl; omega
        subst this
        rw [List.getElem?_concat_length] at hi
        cases hi
        rw [List.take_left' rfl]
        exact ((run_inv h0).good hw st).1 ⟨heap, h⟩
    · intro h
      obtain ⟨heap0, h0⟩ := ih.2 fun i st' hi => by
        have := h i st' (getElem?_left hi)
        rwa [take_left (lt_of_some hi)] at this
      have hg := h P.length st List.getElem?_concat_length
      rw [List.take_left' rfl] at hg
      obtain ⟨heap, hh⟩ := ((run_inv h0).good hw st).2 hg
      exact ⟨heap, by rw [h0]; exact hh⟩

/-- Printed texts stay. -/
theorem step_printed {heap heap' : Heap} {st : Stmt} (h : step w heap st = some heap') {i : Nat} {r : Except Exn JStr} (hi : heap[i]? = some (.printed r)) : heap'[i]? = some (.printed r) := by
  have push : ∀ c, (heap ++ [c])[i]? = some (.printed r) := fun c => by rw [List.getElem?_append_left (lt_of_some hi)]; exact hi
  have change : ∀ {b : Nat} {c c' : Cell}, heap[b]? = some c' → (∀ r, c' ≠ .printed r) → (heap.set b c ++ [.unit])[i]? = some (.printed r) := by
    intro b c c' hb hc
    rw [List.getElem?_append_left (by rw [List.length_set]; exact lt_of_some hi), List.getElem?_set_ne]
    · exact hi
    · rintro rfl
      rw [hb] at hi
      exact hc r (Option.some.inj hi)
  cases st with
  | newOptions => cases h; exact push _
  | newPrinterBuilder => cases h; exact push _
  | newSorts => cases h; exact push _
  | newLimits n => cases h; exact push _
  | newExtensions => cases h; exact push _
  | newEmojis d => cases h; exact push _
  | set o c =>
    obtain ⟨x, hx, h⟩ := option_bind_some h
    obtain ⟨x', hx', h⟩ := option_bind_some h
    cases h
    unfold Heap.options at hx
    unfold Heap.putOptions
    split at hx
    · rename_i heq; rw [heq]; exact change heq (by simp)
    · rename_i heq; rw [heq]; exact change heq (by simp)
    · cases hx
  | withOptions b o =>
    obtain ⟨x, hx, h⟩ := option_bind_some h
    split at h
    · rename_i heq; cases h; exact change heq (by simp)
    · cases h
  | _ =>
    unfold step at h
    dsimp only at h
    split at h
    · rename_i heq
      first
      | (cases h; first | exact push _ | exact change heq (by simp))
      | (obtain ⟨x, hx, h⟩ := option_bind_some h
         cases h; first | exact push _ | exact change heq (by simp))
    · cases h

theorem foldlM_printed {i : Nat} {r : Except Exn JStr} : ∀ {Q : List Stmt} {heap heap' : Heap}, Q.foldlM (step w) heap = some heap' → heap[i]? = some (.printed r) → heap'[i]? = some (.printed r)
  | [], _, _, h, hi => by cases h; exact hi
  | st :: Q, heap, heap', h, hi => by
    rw [List.foldlM_cons] at h
    obtain ⟨h1, hs, h⟩ := option_bind_some h
    exact foldlM_printed h (step_printed hs hi)

/-! ### What the options mean -/

theorem limit_live {r : LimitRule} {b b' : ChildLimitBuilder (Except Exn)} (h : r.call w b = .ok b') : b'.defaultLimit = b.defaultLimit := by
  cases r with
  | add f => cases h; rfl
  | addMatching c k =>
    obtain ⟨mt, hm, h⟩ := except_bind_ok h
    cases h; rfl

theorem limits_live : ∀ {rs : List LimitRule} {b b' : ChildLimitBuilder (Except Exn)}, rs.foldlM (LimitRule.call w) b = .ok b' → b'.defaultLimit = b.defaultLimit
  | [], _, _, h => by cases h; rfl
  | r :: rs, b, b', h => by
    rw [List.foldlM_cons] at h
    obtain ⟨b1, h1, h⟩ := except_bind_ok h
    rw [limits_live h, limit_live h1]

/-- The same conditions. -/
def SameConditions (b b' : EmojiMappingBuilder (Except Exn)) : Prop := b.dirMatchersEmojis = b'.dirMatchersEmojis ∧ b.fileMatchersEmojis = b'.fileMatchersEmojis

/-- The same names, extensions and defaults. -/
def SameNames (b b' : EmojiMappingBuilder (Except Exn)) : Prop :=
  b.dirNamesEmojis = b'.dirNamesEmojis ∧ b.fileNamesEmojis = b'.fileNamesEmojis ∧ b.fileExtensionsEmojis = b'.fileExtensionsEmojis ∧ b.defaultDirEmoji = b'.defaultDirEmoji ∧
    b.defaultFileEmoji = b'.defaultFileEmoji

theorem later_icons : ∀ {cs : List IconCall} {b1 b2 b : EmojiMappingBuilder (Except Exn)}, cs.foldlM (IconCall.call w) b1 = .ok b2 → SameConditions b b1 →
    ∃ b', (cs.filter IconCall.addsCondition).foldlM (IconCall.call w) b = .ok b' ∧ SameConditions b' b2 ∧ SameNames b' b
  | [], b1, b2, b, h, hs => by cases h; exact ⟨b, rfl, hs, rfl, rfl, rfl, rfl, rfl⟩
  | c :: cs, b1, b2, b, h, hs => by
    rw [List.foldlM_cons] at h
    obtain ⟨b3, h3, h⟩ := except_bind_ok h
    have add : ∀ b4, c.addsCondition = true → c.call w b = .ok b4 → SameConditions b4 b3 → SameNames b4 b →
        ∃ b', ((c :: cs).filter IconCall.addsCondition).foldlM (IconCall.call w) b = .ok b' ∧ SameConditions b' b2 ∧ SameNames b' b := by
      intro b4 hc h4 hs4 hn4
      obtain ⟨b', h', hs', n1, n2, n3, n4, n5⟩ := later_icons h hs4
      obtain ⟨m1, m2, m3, m4, m5⟩ := hn4
      refine ⟨b', ?_, hs', n1.trans m1, n2.trans m2, n3.trans m3, n4.trans m4, n5.trans m5⟩
      rw [List.filter_cons_of_pos hc, List.foldlM_cons, h4]
      exact h'
    have skip : c.addsCondition = false → SameConditions b b3 →
        ∃ b', ((c :: cs).filter IconCall.addsCondition).foldlM (IconCall.call w) b = .ok b' ∧ SameConditions b' b2 ∧ SameNames b' b := by
      intro hc hs3
      rw [List.filter_cons_of_neg (by simp [hc])]
      exact later_icons h hs3
    cases c with
    | addDirectoryEmoji c e =>
      obtain ⟨mt, hm, h3⟩ := except_bind_ok h3
      cases h3
      refine add (b.addDirectoryEmoji mt e) rfl ?_ ⟨by simp [EmojiMappingBuilder.addDirectoryEmoji, hs.1], hs.2⟩ ⟨rfl, rfl, rfl, rfl, rfl⟩
      show (c.make w >>= _) = _
      rw [hm]; rfl
    | addFileEmoji c e =>
      obtain ⟨mt, hm, h3⟩ := except_bind_ok h3
      cases h3
      refine add (b.addFileEmoji mt e) rfl ?_ ⟨hs.1, by simp [EmojiMappingBuilder.addFileEmoji, hs.2]⟩ ⟨rfl, rfl, rfl, rfl, rfl⟩
      show (c.make w >>= _) = _
      rw [hm]; rfl
    | _ => cases h3; exact skip rfl hs

/-- A call of a setter does what its meaning does. -/
theorem call_now {P : List Stmt} {heap : Heap} (inv : Inv w P heap) {x x' : Fields} {c : SetCall} (h : x.call w (valueAt w P) c = some x') :
    (c.meaning P).call w (x.now w heap) = .ok (x'.now w heap) := by
  cases c with
  | plain c =>
    unfold Fields.call at h
    dsimp only at h
    split at h
    · rename_i ob heq
      cases h
      show c.call w (x.now w heap) = _
      cases c with
      | withTreeFormat n l c e =>
        obtain ⟨f, hf, heq⟩ := except_bind_ok heq
        cases heq
        show (TreeFormat.create n l c e >>= _) = _
        rw [hf]; rfl
      | filterDirectories c =>
        obtain ⟨f, hf, heq⟩ := except_bind_ok heq
        cases heq
        show (c.make w >>= _) = _
        rw [hf]; rfl
      | filterFiles c =>
        obtain ⟨f, hf, heq⟩ := except_bind_ok heq
        cases heq
        show (c.make w >>= _) = _
        rw [hf]; rfl
      | sortBy rules =>
        obtain ⟨f, hf, heq⟩ := except_bind_ok heq
        cases heq
        show (rules.foldlM (SortRule.call w) [] >>= _) = _
        rw [hf]; rfl
      | withChildLimits n rules =>
        obtain ⟨f, hf, heq⟩ := except_bind_ok heq
        cases heq
        show (rules.foldlM (LimitRule.call w) _ >>= _) = _
        rw [hf]; rfl
      | withLineExtension rules =>
        obtain ⟨f, hf, heq⟩ := except_bind_ok heq
        cases heq
        show (rules.foldlM (ExtRule.call w) _ >>= _) = _
        rw [hf]; rfl
      | withDefaultEmojis =>
        obtain ⟨o, ho, heq⟩ := except_bind_ok heq
        obtain ⟨f, hf, ho⟩ := except_bind_ok ho
        cases heq
        cases ho
        show (Options.withDefaultEmojis w.casing w.fs.lift _ >>= _) = _
        unfold Options.withDefaultEmojis
        show ((EmojiMappingBuilder.build w.casing _ >>= _) >>= _) = _
        rw [hf]; rfl
      | withEmojis d cs =>
        obtain ⟨b, hb, heq⟩ := except_bind_ok heq
        obtain ⟨f, hf, heq⟩ := except_bind_ok heq
        cases heq
        show (cs.foldlM (IconCall.call w) _ >>= _) = _
        rw [hb]
        show (EmojiMappingBuilder.build w.casing _ >>= _) = _
        rw [hf]; rfl
      | _ => cases heq; rfl
    · cases h
  | sort v =>
    unfold Fields.call at h
    dsimp only at h
    split at h
    · rename_i c heq
      cases h
      unfold valueAt at heq
      split at heq <;> try cases heq
      all_goals split at heq <;> simp at heq
      rename_i _ b hv _ hb
      obtain ⟨l, hl, rfl⟩ := heq
      rw [orNone_some] at hl
      unfold SetCall.meaning
      dsimp only
      rw [hv]
      show (List.foldlM (SortRule.call w) [] _ >>= _) = _
      rw [hl]; rfl
    · cases h
  | withLineExtension v =>
    unfold Fields.call at h
    dsimp only at h
    split at h
    · rename_i c heq
      cases h
      unfold valueAt at heq
      split at heq <;> try cases heq
      all_goals split at heq <;> simp at heq
      rename_i _ b hv _ hb
      obtain ⟨l, hl, rfl⟩ := heq
      rw [orNone_some] at hl
      unfold SetCall.meaning
      dsimp only
      rw [hv]
      show (List.foldlM (ExtRule.call w) _ _ >>= _) = _
      rw [hl]; rfl
    · cases h
  | withChildLimit v =>
    unfold Fields.call at h
    dsimp only at h
    split at h
    · rename_i c heq
      cases h
      unfold valueAt at heq
      split at heq <;> try cases heq
      all_goals split at heq <;> simp at heq
      rename_i _ b hv _ n hb
      obtain ⟨l, hl, rfl, rfl⟩ := heq
      rw [orNone_some] at hl
      unfold SetCall.meaning
      dsimp only
      rw [hv]
      obtain ⟨c, hc, hk⟩ := inv.at (getElem?_take hb)
      cases hk with
      | call ht => cases ht
      | @limitBuilder _ live hlive =>
        have hd := limits_live hlive
        show (List.foldlM (LimitRule.call w) (ChildLimits.builder.setDefault (defaultLimit P b)) _ >>= _) = _
        have := limits_default (defaultLimit P b) hl
        rw [show (ChildLimits.builder.setDefault (defaultLimit P b) : ChildLimitBuilder (Except Exn)) = ChildLimitBuilder.setDefault ⟨[], defaultLimit (P.take v) b⟩ (defaultLimit P b) from rfl, this]
        have heq : (l.setDefault (defaultLimit P b)).build.applyAsInt (l.setDefault (defaultLimit P b)) = l.build.applyAsInt live := by
          funext p
          unfold ChildLimitBuilder.Built.applyAsInt
          rw [hd]; rfl
        show Except.ok (Object.set (x.now w heap) (·.withChildLimitFn ((l.setDefault (defaultLimit P b)).build.applyAsInt (l.setDefault (defaultLimit P b))))) = _
        rw [heq]
        refine congrArg Except.ok ?_
        unfold Fields.now Fields.limitFn
        dsimp only
        rw [hc]
        rfl
    · cases h
  | withEmojis v =>
    unfold Fields.call at h
    dsimp only at h
    split at h
    · rename_i f b0 heq
      cases h
      unfold valueAt at heq
      split at heq <;> try cases heq
      all_goals split at heq <;> simp at heq
      rename_i _ b hv _ d hb
      obtain ⟨hf, rfl⟩ := heq
      rw [orNone_some] at hf
      obtain ⟨bv, hbv, hf⟩ := except_bind_ok hf
      unfold SetCall.meaning
      dsimp only
      rw [hv]
      have hbP := getElem?_take hb
      obtain ⟨c, hc, hk⟩ := inv.at hbP
      cases hk with
      | call ht => cases ht
      | @emojiBuilder _ live hlive =>
        have hd : fromDefault P b = d := by unfold fromDefault; rw [hbP]
        have hsplit : emojiCalls P b = emojiCalls (P.take v) b ++ emojiCalls (P.drop v) b := by rw [← emojiCalls_append, List.take_append_drop]
        rw [hsplit, List.foldlM_append, hbv] at hlive
        obtain ⟨b', hb', hs', hn'⟩ := later_icons (w := w) (cs := emojiCalls (P.drop v) b) (b1 := bv) (b2 := live) (b := bv) hlive ⟨rfl, rfl⟩
        show (List.foldlM (IconCall.call w) (start (fromDefault P b)) _ >>= _) = _
        rw [hd, List.foldlM_append, hbv]
        show (List.foldlM (IconCall.call w) bv _ >>= _) = _
        rw [hb']
        have hbuild : b'.build w.casing = .ok f := by
          rw [← hf]
          unfold EmojiMappingBuilder.build
          rw [hn'.1, hn'.2.1, hn'.2.2.1, hn'.2.2.2.1, hn'.2.2.2.2]
        show (b'.build w.casing >>= _) = _
        rw [hbuild]
        unfold Fields.now Fields.emojiFn
        dsimp only
        rw [hc]
        refine congrArg Except.ok ?_
        have : f.getPathEmoji w.fs.lift b' = f.getPathEmoji w.fs.lift live := by
          unfold EmojiMapping.getPathEmoji
          rw [hs'.1, hs'.2]
        unfold Object.set Options.withEmojis
        rw [this]
        rfl
    · cases h

theorem calls_now {P : List Stmt} {heap : Heap} (inv : Inv w P heap) : ∀ {cs : List SetCall} {x x' : Fields}, cs.foldlM (Fields.call w (valueAt w P)) x = some x' →
    (cs.map (SetCall.meaning P)).foldlM (Choice.call w) (x.now w heap) = .ok (x'.now w heap)
  | [], _, _, h => by cases h; rfl
  | c :: cs, x, x', h => by
    rw [List.foldlM_cons] at h
    obtain ⟨x1, h1, h⟩ := option_bind_some h
    rw [List.map_cons, List.foldlM_cons, call_now inv h1]
    exact calls_now inv h

/-! ### Printers -/

/-- The first object with the symbols and emojis of the second. -/
def withLook (ob ob0 : Object) : Object := { ob with options := { ob.options with treeFormat := ob0.options.treeFormat, emojiMapping := ob0.options.emojiMapping } }

theorem call_look {ob ob' : Object} {c : Choice} (h : c.call w ob = .ok ob') (ob0 : Object) :
    if c.mattersLater then c.call w (withLook ob ob0) = .ok (withLook ob' ob0) else withLook ob' ob0 = withLook ob ob0 := by
  cases c with
  | withTreeFormat n l c e =>
    obtain ⟨f, hf, h⟩ := except_bind_ok h
    cases h; rfl
  | filterDirectories c =>
    obtain ⟨f, hf, h⟩ := except_bind_ok h
    cases h
    show (c.make w >>= _) = _
    rw [hf]; rfl
  | filterFiles c =>
    obtain ⟨f, hf, h⟩ := except_bind_ok h
    cases h
    show (c.make w >>= _) = _
    rw [hf]; rfl
  | sortBy rules =>
    obtain ⟨f, hf, h⟩ := except_bind_ok h
    cases h
    show (rules.foldlM (SortRule.call w) [] >>= _) = _
    rw [hf]; rfl
  | withChildLimits n rules =>
    obtain ⟨f, hf, h⟩ := except_bind_ok h
    cases h
    show (rules.foldlM (LimitRule.call w) _ >>= _) = _
    rw [hf]; rfl
  | withLineExtension rules =>
    obtain ⟨f, hf, h⟩ := except_bind_ok h
    cases h
    show (rules.foldlM (ExtRule.call w) _ >>= _) = _
    rw [hf]; rfl
  | withDefaultEmojis =>
    obtain ⟨o, ho, h⟩ := except_bind_ok h
    obtain ⟨f, hf, ho⟩ := except_bind_ok ho
    cases h
    cases ho
    rfl
  | withEmojis d cs =>
    obtain ⟨b, hb, h⟩ := except_bind_ok h
    obtain ⟨f, hf, h⟩ := except_bind_ok h
    cases h; rfl
  | _ => cases h; rfl

theorem calls_look (ob0 : Object) : ∀ {cs : List Choice} {ob ob' : Object}, cs.foldlM (Choice.call w) ob = .ok ob' →
    (cs.filter Choice.mattersLater).foldlM (Choice.call w) (withLook ob ob0) = .ok (withLook ob' ob0)
  | [], _, _, h => by cases h; rfl
  | c :: cs, ob, ob', h => by
    rw [List.foldlM_cons] at h
    obtain ⟨ob1, h1, h⟩ := except_bind_ok h
    have := call_look h1 ob0
    by_cases hc : c.mattersLater = true
    · rw [if_pos hc] at this
      rw [List.filter_cons_of_pos hc, List.foldlM_cons, this]
      exact calls_look ob0 h
    · rw [if_neg hc] at this
      rw [List.filter_cons_of_neg hc, ← this]
      exact calls_look ob0 h

theorem print_look (ob ob0 : Object) (p : Path) :
    LiveScanner.printWith TimSort.sort ob.comparator w.fs.lift w.cwd (Printer.build ob0.options) ob.options p = (withLook ob ob0).print w p := by
  unfold Object.print LiveScanner.printWith LiveScanner.prettyPrint Renderer.renderRoot
  dsimp only
  refine congrArg₂ (fun x (y : TreeEntry → Except Exn JStr) => x >>= y) rfl (funext fun t => ?_)
  rw [renderTree_eq _ _ ob0.options.treeFormat rfl, renderTree_eq _ _ ob0.options.treeFormat rfl]
  rfl

theorem asked_lawful {P : List Stmt} (hc : ∀ o c, .set o (.plain (.sort c)) ∈ P → LawfulCmp c) {i k : Nat} : ∀ c, .sort c ∈ asked (P.take i) k → LawfulCmp c := by
  intro c h
  have key : ∀ {Q : List Stmt} {o : Nat}, (∀ st ∈ Q, st ∈ P) → Choice.sort c ∈ (setCalls Q o).map (SetCall.meaning (P.take i)) → LawfulCmp c := by
    intro Q o hQ hm
    obtain ⟨sc, hsc, hm⟩ := List.mem_map.1 hm
    unfold setCalls at hsc
    obtain ⟨st, hst, hs⟩ := List.mem_filterMap.1 hsc
    cases sc with
    | plain d =>
      cases hm
      cases st with
      | set o' c' =>
        dsimp only at hs
        split at hs
        · cases hs; exact hc _ _ (hQ _ hst)
        · cases hs
      | _ => cases hs
    | _ v =>
      unfold SetCall.meaning at hm
      dsimp only at hm
      split at hm <;> cases hm
  unfold asked at h
  split at h
  · rcases List.mem_append.1 h with h | h
    · exact key (fun st hst => List.mem_of_mem_take (List.mem_of_mem_take hst)) h
    · exact key (fun st hst => List.mem_of_mem_take (List.mem_of_mem_drop hst)) (List.mem_of_mem_filter h)
  · simp at h

theorem mem_split {P : List Stmt} {i : Nat} {st : Stmt} (h : P[i]? = some st) : P = P.take i ++ st :: P.drop (i + 1) := by
  obtain ⟨hi, rfl⟩ := List.getElem?_eq_some_iff.1 h
  rw [← List.drop_eq_getElem_cons hi, List.take_append_drop]

end Programs

/-- **C104**: a program runs to the end if and only if every statement uses objects that exist then and can succeed. -/
theorem C104_runs {w : Place} (hw : w.cwd.abs = true) (P : List Stmt) : (∃ heap, run w P = some heap) ↔ ∀ (i : Nat) (st : Stmt), P[i]? = some st → st.Good w (P.take i) :=
  Programs.runs_iff hw P

/-- **C104**: a printing statement does exactly what a new printer with new options would do after the calls that the history asks for. -/
theorem C104_same {w : Place} {P : List Stmt} {heap : Heap} (h : run w P = some heap) {i k : Nat} {p : Path} (hi : P[i]? = some (.print k p)) :
    ∃ ob, calls w (asked (P.take i) k) = .ok ob ∧ heap[i]? = some (.printed (ob.print w p)) := by
  rw [Programs.mem_split hi] at h
  unfold run at h
  rw [List.foldlM_append] at h
  obtain ⟨heap0, h0, h⟩ := Programs.option_bind_some h
  rw [List.foldlM_cons] at h
  obtain ⟨heap1, h1, h⟩ := Programs.option_bind_some h
  have inv := Programs.run_inv h0
  unfold step at h1
  dsimp only at h1
  split at h1
  · rename_i o x0 heq
    obtain ⟨x, hx, h1⟩ := Programs.option_bind_some h1
    cases h1
    obtain ⟨st, hst, hc⟩ := inv.of heq
    cases hc with
    | @printer b _ hf ho =>
      have hold := Programs.calls_now inv hf
      have hnow := Programs.calls_now inv (inv.options hx).2
      refine ⟨Programs.withLook (x.now w heap0) (x0.now w heap0), ?_, ?_⟩
      · unfold asked calls
        rw [hst]
        dsimp only
        rw [List.foldlM_append]
        have hsplit : setCalls (P.take i) (currentOptions ((P.take i).take k) b) =
            setCalls ((P.take i).take k) (currentOptions ((P.take i).take k) b) ++ setCalls ((P.take i).drop k) (currentOptions ((P.take i).take k) b) := by
          rw [← Programs.setCalls_append, List.take_append_drop]
        rw [hsplit, List.map_append, List.foldlM_append, hold] at hnow
        have hold' : List.foldlM (Choice.call w) Object.createDefault ((setCalls ((P.take i).take k) (currentOptions ((P.take i).take k) b)).map (SetCall.meaning (P.take i))) = .ok (x0.now w heap0) := hold
        rw [hold']
        exact Programs.calls_look (x0.now w heap0) hnow
      · refine Programs.foldlM_printed h ?_
        have hlen : heap0.length = i := by
          rw [inv.len, List.length_take]
          have := Programs.lt_of_some hi
          omega
        rw [← hlen, List.getElem?_concat_length, Programs.print_look]
  · cases h1

/-- **C104**: whatever the program does and whatever the disk contains: a text that is printed is the text of the one-page program for the settings that the history asks for. -/
theorem C104_sound {w : Place} (hfs : ProperFs w.fs) (hw : w.cwd.abs = true) {P : List Stmt} (hc : ∀ o c, .set o (.plain (.sort c)) ∈ P → LawfulCmp c) {heap : Heap} (h : run w P = some heap)
    {i k : Nat} {p : Path} (hi : P[i]? = some (.print k p)) {t : FileTree} (ht : Holds w.fs (target w.cwd p) t) {s : JStr} (hp : heap[i]? = some (.printed (.ok s))) :
    OnePage.text (chosenBy w (asked (P.take i) k)) (target w.cwd p) t = some s := by
  obtain ⟨ob, ho, hpr⟩ := C104_same h hi
  rw [hp] at hpr
  exact C103_sound hfs hw (Programs.asked_lawful hc) ho ht (Cell.printed.inj (Option.some.inj hpr)).symm

/-- **C104**: where everything can be read, this text is printed, and nothing is printed only if there is none. -/
theorem C104_prints {w : Place} (hfs : ProperFs w.fs) (hr : OnePage.Readable w.fs) (hw : w.cwd.abs = true) {P : List Stmt} (hc : ∀ o c, .set o (.plain (.sort c)) ∈ P → LawfulCmp c)
    {heap : Heap} (h : run w P = some heap) {i k : Nat} {p : Path} (hi : P[i]? = some (.print k p)) {t : FileTree} (ht : Holds w.fs (target w.cwd p) t) (s : JStr) :
    heap[i]? = some (.printed (.ok s)) ↔ OnePage.text (chosenBy w (asked (P.take i) k)) (target w.cwd p) t = some s := by
  obtain ⟨ob, ho, hpr⟩ := C104_same h hi
  rw [← C103_prints hfs hr hw (Programs.asked_lawful hc) ho ht s, hpr]
  exact ⟨fun h => Cell.printed.inj (Option.some.inj h), fun h => by rw [h]⟩

/-- **C104** on disks whose directories can all be listed: good programs run to the end, and what each printing statement prints, or that it prints nothing, is what the one-page program says. -/
theorem C104_disk {disk : Node} (hd : disk.WF) (ho : OnePage.Open disk) {w : Place} (he : w.fs = disk.toFs) (hw : w.cwd.abs = true) {P : List Stmt}
    (hc : ∀ o c, .set o (.plain (.sort c)) ∈ P → LawfulCmp c) (hg : ∀ (i : Nat) (st : Stmt), P[i]? = some st → st.Good w (P.take i)) :
    ∃ heap, run w P = some heap ∧ ∀ (i k : Nat) (p : Path), P[i]? = some (.print k p) → ∀ s, heap[i]? = some (.printed (.ok s)) ↔
      OnePage.text (chosenBy w (asked (P.take i) k)) (target w.cwd p) (treeAt disk (target w.cwd p)) = some s := by
  obtain ⟨heap, h⟩ := (C104_runs hw P).2 hg
  refine ⟨heap, h, fun i k p hi => C104_prints (by rw [he]; exact hd.proper) (by rw [he]; exact ho.readable) hw hc h hi ?_⟩
  rw [he]
  exact OnePage.holds_at hd (target_abs hw)

/-! ### Examples -/

namespace Programs

/-- The default limit is changed after the limit was built, set, and used for a printer; so is the filter. Both count. The symbols that are chosen after the printer was built do not. -/
def program1 : List Stmt := [.newPrinterBuilder, .newLimits 1, .buildLimits 1, .set 0 (.withChildLimit 2), .buildPrinter 0, .setDefaultLimit 1 2,
  .set 0 (.plain (.withTreeFormat j!"+- " j!"+- " j!"|  " j!"   ")), .set 0 (.plain (.filterFiles (.not (.name j!"x")))), .print 4 Demo.r]

theorem asked1 : asked (program1.take 8) 4 = [.withChildLimits 2 [], .filterFiles (.not (.name j!"x"))] := rfl

theorem good1 : ∀ (i : Nat) (st : Stmt), program1[i]? = some st → st.Good Demo.place (program1.take i) := by
  intro i st h
  match i with
  | 0 | 1 | 2 | 3 | 4 | 5 | 6 | 7 | 8 => cases h; simp [program1, Stmt.Good, SetCall.Good, IsOptions, Choice.Good, Cond.Good]
  | i + 9 => simp [program1] at h

def settings1 : Spec.OnePage.Settings := { standard with limit := fun _ => 2, showFile := fun p => !(p.names.getLast? == some j!"x") }

theorem settings1_eq : chosenBy w [.withChildLimits 2 [], .filterFiles (.not (.name j!"x"))] = settings1 := by
  unfold chosenBy
  simp only [List.foldl, Choice.choose, OnePage.truth_not, OnePage.truth_name]
  rfl

/-- A condition is added to the emoji builder after the mapping was built: it counts. A name that is set then does not. A rule added to a line extension builder after it was built does not count
either. -/
def program2 : List Stmt := [.newOptions, .newEmojis false, .emoji 1 (.setDefaultFileEmoji j!"f"), .emoji 1 (.setDefaultDirectoryEmoji j!"d"), .buildEmojis 1, .newExtensions,
  .buildExtensions 5, .set 0 (.withEmojis 4), .set 0 (.withLineExtension 6), .newPrinterBuilder, .withOptions 9 0, .buildPrinter 9, .emoji 1 (.addFileEmoji (.name j!"x") j!"!"),
  .emoji 1 (.setFileNameEmoji j!"y" j!"?"), .addExtension 5 (.addLineBreak (.name j!"x")), .print 11 Demo.r]

def icons2 : List IconCall := [.setDefaultFileEmoji j!"f", .setDefaultDirectoryEmoji j!"d", .addFileEmoji (.name j!"x") j!"!"]

theorem asked2 : asked (program2.take 15) 11 = [.withEmojis false icons2, .withLineExtension []] := rfl

theorem good2 : ∀ (i : Nat) (st : Stmt), program2[i]? = some st → st.Good Demo.place (program2.take i) := by
  intro i st h
  match i with
  | 4 =>
    cases h
    refine ⟨false, rfl, ?_⟩
    simp [NoClash, CaseClash, program2, iconCalls, emojiCalls, IconCall.said, EmojiCall.asDirName, EmojiCall.asFileName, EmojiCall.asFileExt]
  | 0 | 1 | 2 | 3 | 5 | 6 | 7 | 8 | 9 | 10 | 11 | 12 | 13 | 14 | 15 => cases h; simp [program2, Stmt.Good, SetCall.Good, IsOptions, IconCall.Good, ExtRule.Good, Cond.Good]
  | i + 16 => simp [program2] at h

def settings2 : Spec.OnePage.Settings :=
  { standard with
    emoji := fun p => some (iconOf Demo.place.casing.lower Demo.place.fs.isDir
      [.setDefaultFileEmoji j!"f", .setDefaultDirectoryEmoji j!"d", .addFileEmoji (fun p => p.names.getLast? == some j!"x") j!"!"] p) }

theorem settings2_eq : chosenBy Demo.place [.withEmojis false icons2, .withLineExtension []] = settings2 := by
  unfold chosenBy icons2
  simp only [List.foldl, Choice.choose, iconCalls, List.map, IconCall.said, OnePage.truth_name]
  rfl

end Programs

example : ∃ heap, run Demo.place Programs.program1 = some heap ∧ heap[8]? = some (.printed (.ok j!"r/\n├─ a/\n│  └─ y\n├─ b.txt\n└─ ...")) := by
  obtain ⟨heap, h, hp⟩ := C104_disk (disk := Demo.disk) Demo.disk_wf (by simp [Demo.disk, OnePage.Open, OnePage.OpenAll]) (w := Demo.place) rfl rfl (P := Programs.program1)
    (by simp [Programs.program1]) Programs.good1
  refine ⟨heap, h, (hp 8 4 Demo.r rfl _).2 ?_⟩
  rw [Programs.asked1, Programs.settings1_eq]
  decide +kernel

example : ∃ heap, run Demo.place Programs.program2 = some heap ∧ heap[15]? = some (.printed (.ok j!"d r/\n├─ d a/\n│  ├─ ! x\n│  └─ f y\n├─ f b.txt\n└─ f z?")) := by
  obtain ⟨heap, h, hp⟩ := C104_disk (disk := Demo.disk) Demo.disk_wf (by simp [Demo.disk, OnePage.Open, OnePage.OpenAll]) (w := Demo.place) rfl rfl (P := Programs.program2)
    (by simp [Programs.program2]) Programs.good2
  refine ⟨heap, h, (hp 15 11 Demo.r rfl _).2 ?_⟩
  rw [Programs.asked2, Programs.settings2_eq]
  decide +kernel

/-- An object that is used before it is made. -/
example : ¬ ∃ heap, run Demo.place [.newPrinterBuilder, .set 0 (.sort 3), .newSorts, .buildSorts 2] = some heap := by
  rw [C104_runs rfl]
  intro h
  obtain ⟨_, b, hb⟩ := h 1 _ rfl
  simp at hb

end JFTP
