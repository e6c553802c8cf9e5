import Verif.Spec.Dump
import Mathlib.Data.List.Basic

/-!
C56: the debug dump of a record.
-/

namespace JFTP
open Spec RecordUtils

theorem digits_eq (n : Nat) : digits n = decimal n := by
  induction n using Nat.strongRecOn with
  | _ n ih =>
    unfold decimal
    have hdig : ∀ d, d < 10 → UInt16.ofNat (Nat.digitChar d).toNat = UInt16.ofNat (48 + d) := by decide
    split
    · rename_i h
      unfold digits
      rw [Nat.toDigits_of_lt_base h]
      simp [hdig n h]
    · rename_i h
      have := ih (n / 10) (by omega)
      unfold digits at this ⊢
      rw [Nat.toDigits_of_base_le (by decide) (by omega), List.map_append, this]
      simp [hdig (n % 10) (Nat.mod_lt _ (by decide))]

mutual
/-- The lines of a dump, in order. -/
def dumpLines : RVal → List DumpLine
  | .record _ comps => ⟨[], false⟩ :: dumpLinesC 0 comps
  | .coll items => ⟨[], false⟩ :: (dumpLinesI 0 items ++ [⟨[], true⟩])
  | .str _ => [⟨[], false⟩]
  | .other _ => [⟨[], false⟩]
/-- For the components from number `i` on. -/
def dumpLinesC (i : Nat) : List (JStr × Option RVal) → List DumpLine
  | [] => []
  | (_, v) :: rest => dumpLinesO i v ++ dumpLinesC (i + 1) rest
/-- For the items from number `i` on. -/
def dumpLinesI (i : Nat) : List (Option RVal) → List DumpLine
  | [] => []
  | v :: rest => dumpLinesO i v ++ dumpLinesI (i + 1) rest
/-- For part `i`. -/
def dumpLinesO (i : Nat) : Option RVal → List DumpLine
  | none => []
  | some v => (dumpLines v).map (fun l => ⟨i :: l.pos, l.closing⟩)
end

theorem replicate_two (n : Nat) : List.replicate (2 * (n + 1)) (32 : JChar) = j!"  " ++ List.replicate (2 * n) 32 := by
  rw [Nat.mul_add]; simp [List.replicate_succ]

/-- The text of a line inside the parts `f`. -/
def partText (f : Nat → Option (JStr × RVal)) (l : DumpLine) : JStr :=
  match l.pos with
  | [] => []
  | k :: p => match f k with
    | some (n, w) => lineText (some n) w ⟨p, l.closing⟩
    | none => []

theorem lineText_cons (lab : Option JStr) (v : RVal) (k : Nat) (p : List Nat) (b : Bool) (n : JStr) (w : RVal) (h : part v k = some (n, w)) :
    lineText lab v ⟨k :: p, b⟩ = j!"  " ++ lineText (some n) w ⟨p, b⟩ := by
  unfold lineText
  simp only [List.length_cons]
  rw [replicate_two, partAt, h, List.append_assoc]

theorem hasLine_root (lab : Option JStr) (v : RVal) : HasLine lab v ⟨[], false⟩ := ⟨lab, v, rfl, nofun⟩

theorem hasLine_cons {lab : Option JStr} {v : RVal} {k : Nat} {p : List Nat} {b : Bool} :
    HasLine lab v ⟨k :: p, b⟩ ↔ ∃ a w, part v k = some (a, w) ∧ HasLine (some a) w ⟨p, b⟩ := by
  unfold HasLine
  simp only [partAt]
  constructor
  · rintro ⟨a, w, h, hc⟩
    split at h
    · rename_i l w' hp
      exact ⟨l, w', hp, a, w, h, hc⟩
    · cases h
  · rintro ⟨a, w, h, a', w', h', hc⟩
    rw [h]
    exact ⟨a', w', h', hc⟩

theorem mem_O {i : Nat} {l : DumpLine} {w : RVal} : l ∈ dumpLinesO i (some w) ↔ ∃ p, l.pos = i :: p ∧ ⟨p, l.closing⟩ ∈ dumpLines w := by
  rw [dumpLinesO, List.mem_map]
  constructor
  · rintro ⟨⟨p, b⟩, h, rfl⟩; exact ⟨p, rfl, h⟩
  · rintro ⟨p, h, h'⟩; exact ⟨_, h', by cases l; simp_all⟩

mutual
theorem mem_dumpLines (lab : Option JStr) (v : RVal) (l : DumpLine) : l ∈ dumpLines v ↔ HasLine lab v l := by
  match v with
  | .str s =>
    obtain ⟨pos, b⟩ := l
    rw [dumpLines, List.mem_singleton]
    constructor
    · rintro h; cases h; exact hasLine_root _ _
    · rintro ⟨a, w, h, hc⟩
      cases pos with
      | cons k p => cases h
      | nil =>
        cases h
        cases b with
        | false => rfl
        | true => obtain ⟨_, h⟩ := hc rfl; cases h
  | .other s =>
    obtain ⟨pos, b⟩ := l
    rw [dumpLines, List.mem_singleton]
    constructor
    · rintro h; cases h; exact hasLine_root _ _
    · rintro ⟨a, w, h, hc⟩
      cases pos with
      | cons k p => cases h
      | nil =>
        cases h
        cases b with
        | false => rfl
        | true => obtain ⟨_, h⟩ := hc rfl; cases h
  | .record n comps =>
    obtain ⟨pos, b⟩ := l
    rw [dumpLines, List.mem_cons, mem_dumpLinesC 0 comps (part (.record n comps)) (fun j => by rw [Nat.zero_add]; rfl)]
    cases pos with
    | nil =>
      constructor
      · rintro (h | ⟨_, _, _, _, h, _⟩)
        · cases h; exact hasLine_root _ _
        · cases h
      · rintro ⟨a, w, h, hc⟩
        cases h
        cases b with
        | false => exact .inl rfl
        | true => obtain ⟨_, h⟩ := hc rfl; cases h
    | cons k p =>
      rw [hasLine_cons]
      constructor
      · rintro (h | ⟨k', p', a, w, h, _, h1, h2⟩)
        · cases h
        · cases h; exact ⟨a, w, h1, h2⟩
      · rintro ⟨a, w, h1, h2⟩; exact .inr ⟨k, p, a, w, rfl, Nat.zero_le _, h1, h2⟩
  | .coll items =>
    obtain ⟨pos, b⟩ := l
    rw [dumpLines, List.mem_cons, List.mem_append, mem_dumpLinesI 0 items (part (.coll items)) (fun j => by rw [Nat.zero_add]; rfl), List.mem_singleton]
    cases pos with
    | nil =>
      constructor
      · intro _
        exact ⟨lab, _, rfl, fun _ => ⟨items, rfl⟩⟩
      · intro _
        cases b with
        | false => exact .inl rfl
        | true => exact .inr (.inr rfl)
    | cons k p =>
      rw [hasLine_cons]
      constructor
      · rintro (h | ⟨k', p', a, w, h, _, h1, h2⟩ | h)
        · cases h
        · cases h; exact ⟨a, w, h1, h2⟩
        · cases h
      · rintro ⟨a, w, h1, h2⟩; exact .inr (.inl ⟨k, p, a, w, rfl, Nat.zero_le _, h1, h2⟩)

theorem mem_dumpLinesC (i : Nat) (comps : List (JStr × Option RVal)) (f : Nat → Option (JStr × RVal))
    (hf : ∀ j, f (i + j) = match comps[j]? with | some (n, some v) => some (n, v) | _ => none) {l : DumpLine} :
    l ∈ dumpLinesC i comps ↔ ∃ k p a w, l.pos = k :: p ∧ i ≤ k ∧ f k = some (a, w) ∧ HasLine (some a) w ⟨p, l.closing⟩ := by
  match comps with
  | [] =>
    simp only [dumpLinesC, List.not_mem_nil, false_iff]
    rintro ⟨k, p, a, w, _, hk, h, _⟩
    have := hf (k - i)
    rw [Nat.add_sub_cancel' hk, h] at this
    simp at this
  | (n, v) :: rest =>
    have h0 := hf 0
    simp only [List.getElem?_cons_zero, Nat.add_zero] at h0
    rw [dumpLinesC, List.mem_append, mem_dumpLinesC (i + 1) rest f (fun j => by rw [show i + 1 + j = i + (j + 1) by omega, hf]; rfl)]
    match v with
    | none =>
      constructor
      · rintro (h | ⟨k, p, a, w, h, hk, h1, h2⟩)
        · cases h
        · exact ⟨k, p, a, w, h, by omega, h1, h2⟩
      · rintro ⟨k, p, a, w, h, hk, h1, h2⟩
        refine .inr ⟨k, p, a, w, h, ?_, h1, h2⟩
        rcases Nat.lt_or_eq_of_le hk with hk | rfl
        · exact hk
        · rw [h0] at h1; cases h1
    | some x =>
      rw [mem_O]
      constructor
      · rintro (⟨p, h, hm⟩ | ⟨k, p, a, w, h, hk, h1, h2⟩)
        · exact ⟨i, p, n, x, h, Nat.le_refl _, h0, (mem_dumpLines (some n) x _).1 hm⟩
        · exact ⟨k, p, a, w, h, by omega, h1, h2⟩
      · rintro ⟨k, p, a, w, h, hk, h1, h2⟩
        rcases Nat.lt_or_eq_of_le hk with hk | rfl
        · exact .inr ⟨k, p, a, w, h, hk, h1, h2⟩
        · rw [h0] at h1
          cases h1
          exact .inl ⟨p, h, (mem_dumpLines (some n) x _).2 h2⟩

theorem mem_dumpLinesI (i : Nat) (items : List (Option RVal)) (f : Nat → Option (JStr × RVal))
    (hf : ∀ j, f (i + j) = match items[j]? with | some (some v) => some (j!"[" ++ decimal (i + j) ++ j!"]", v) | _ => none) {l : DumpLine} :
    l ∈ dumpLinesI i items ↔ ∃ k p a w, l.pos = k :: p ∧ i ≤ k ∧ f k = some (a, w) ∧ HasLine (some a) w ⟨p, l.closing⟩ := by
  match items with
  | [] =>
    simp only [dumpLinesI, List.not_mem_nil, false_iff]
    rintro ⟨k, p, a, w, _, hk, h, _⟩
    have := hf (k - i)
    rw [Nat.add_sub_cancel' hk, h] at this
    simp at this
  | v :: rest =>
    have h0 := hf 0
    simp only [List.getElem?_cons_zero, Nat.add_zero] at h0
    rw [dumpLinesI, List.mem_append, mem_dumpLinesI (i + 1) rest f (fun j => by rw [show i + 1 + j = i + (j + 1) by omega, hf]; rfl)]
    match v with
    | none =>
      constructor
      · rintro (h | ⟨k, p, a, w, h, hk, h1, h2⟩)
        · cases h
        · exact ⟨k, p, a, w, h, by omega, h1, h2⟩
      · rintro ⟨k, p, a, w, h, hk, h1, h2⟩
        refine .inr ⟨k, p, a, w, h, ?_, h1, h2⟩
        rcases Nat.lt_or_eq_of_le hk with hk | rfl
        · exact hk
        · rw [h0] at h1; cases h1
    | some x =>
      rw [mem_O]
      constructor
      · rintro (⟨p, h, hm⟩ | ⟨k, p, a, w, h, hk, h1, h2⟩)
        · exact ⟨i, p, _, x, h, Nat.le_refl _, h0, (mem_dumpLines _ x _).1 hm⟩
        · exact ⟨k, p, a, w, h, by omega, h1, h2⟩
      · rintro ⟨k, p, a, w, h, hk, h1, h2⟩
        rcases Nat.lt_or_eq_of_le hk with hk | rfl
        · exact .inr ⟨k, p, a, w, h, hk, h1, h2⟩
        · rw [h0] at h1
          cases h1
          exact .inl ⟨p, h, (mem_dumpLines _ x _).2 h2⟩
end

mutual
theorem linesOf_eq (shift : JStr) (lab : Option JStr) (v : RVal) : linesOf shift lab v = (dumpLines v).map (fun l => shift ++ lineText lab v l) := by
  match v with
  | .str s => cases lab <;> simp [linesOf, dumpLines, lineText, partAt, heading, toSingleValue]
  | .other s => cases lab <;> simp [linesOf, dumpLines, lineText, partAt, heading, toSingleValue]
  | .record n comps =>
    rw [linesOf.eq_def]
    simp only []
    rw [dumpLines, List.map_cons, linesOfC_eq (shift ++ j!"  ") 0 comps (part (.record n comps)) (fun j => by rw [Nat.zero_add]; rfl)]
    congr 1
    · cases lab <;> simp [lineText, partAt, heading]
    · refine List.map_congr_left fun l hl => ?_
      obtain ⟨k, p, a, w, hl', _, hf, _⟩ := (mem_dumpLinesC 0 comps (part (.record n comps)) (fun j => by rw [Nat.zero_add]; rfl)).1 hl
      obtain ⟨pos, b⟩ := l
      cases hl'
      simp only [partText, hf]
      rw [lineText_cons lab _ k p b a w hf, List.append_assoc]
  | .coll items =>
    rw [linesOf.eq_def]
    simp only []
    rw [dumpLines, List.map_cons, List.map_append, linesOfI_eq (shift ++ j!"  ") 0 items (part (.coll items)) (fun j => by rw [Nat.zero_add]; rfl)]
    congr 1
    · cases lab <;> simp [lineText, partAt, heading]
    · congr 1
      refine List.map_congr_left fun l hl => ?_
      obtain ⟨k, p, a, w, hl', _, hf, _⟩ := (mem_dumpLinesI 0 items (part (.coll items)) (fun j => by rw [Nat.zero_add]; rfl)).1 hl
      obtain ⟨pos, b⟩ := l
      cases hl'
      simp only [partText, hf]
      rw [lineText_cons lab _ k p b a w hf, List.append_assoc]

theorem linesOfC_eq (shift : JStr) (i : Nat) (comps : List (JStr × Option RVal)) (f : Nat → Option (JStr × RVal))
    (hf : ∀ j, f (i + j) = match comps[j]? with | some (n, some v) => some (n, v) | _ => none) :
    linesOfComponents shift comps = (dumpLinesC i comps).map (fun l => shift ++ partText f l) := by
  match comps with
  | [] => rfl
  | (n, v) :: rest =>
    rw [linesOfComponents, dumpLinesC, List.map_append, linesOfC_eq shift (i + 1) rest f (fun j => by
      rw [show i + 1 + j = i + (j + 1) by omega, hf]; rfl)]
    congr 1
    have h0 := hf 0
    match v with
    | none => rfl
    | some w =>
      rw [linesOfOpt, dumpLinesO, linesOf_eq shift (some n) w, List.map_map]
      refine List.map_congr_left fun l _ => ?_
      simp only [List.getElem?_cons_zero, Nat.add_zero] at h0
      simp [partText, h0]

theorem linesOfI_eq (shift : JStr) (i : Nat) (items : List (Option RVal)) (f : Nat → Option (JStr × RVal))
    (hf : ∀ j, f (i + j) = match items[j]? with | some (some v) => some (j!"[" ++ decimal (i + j) ++ j!"]", v) | _ => none) :
    linesOfItems shift i items = (dumpLinesI i items).map (fun l => shift ++ partText f l) := by
  match items with
  | [] => rfl
  | v :: rest =>
    rw [linesOfItems, dumpLinesI, List.map_append, linesOfI_eq shift (i + 1) rest f (fun j => by
      rw [show i + 1 + j = i + (j + 1) by omega, hf]; rfl)]
    congr 1
    have h0 := hf 0
    match v with
    | none => rfl
    | some w =>
      rw [linesOfOpt, dumpLinesO, linesOf_eq shift (some (j!"[" ++ digits i ++ j!"]")) w, List.map_map]
      refine List.map_congr_left fun l _ => ?_
      simp only [List.getElem?_cons_zero, Nat.add_zero] at h0
      simp [partText, h0, digits_eq]

end

theorem before_cons {k : Nat} {a b : DumpLine} (h : Before a b) : Before ⟨k :: a.pos, a.closing⟩ ⟨k :: b.pos, b.closing⟩ := by
  cases h with
  | inside h => exact .inside (p := k :: _) h
  | closes h => exact .closes (p := k :: _) h
  | parts h => exact .parts (p := k :: _) h

mutual
theorem ordered (v : RVal) : (dumpLines v).Pairwise Before := by
  match v with
  | .str s => simp [dumpLines]
  | .other s => simp [dumpLines]
  | .record n comps =>
    rw [dumpLines, List.pairwise_cons]
    refine ⟨fun l hl => ?_, (orderedC 0 comps).1⟩
    obtain ⟨k, p, h, _⟩ := (orderedC 0 comps).2 l hl
    obtain ⟨pos, b⟩ := l
    cases h
    exact .inside (p := []) (.inl (by simp))
  | .coll items =>
    rw [dumpLines, List.pairwise_cons, List.pairwise_append]
    refine ⟨fun l hl => ?_, (orderedI 0 items).1, by simp, fun l hl l' hl' => ?_⟩
    · rcases List.mem_append.1 hl with hl | hl
      · obtain ⟨k, p, h, _⟩ := (orderedI 0 items).2 l hl
        obtain ⟨pos, b⟩ := l
        cases h
        exact .inside (p := []) (.inl (by simp))
      · rw [List.mem_singleton] at hl; subst hl
        exact .inside (p := []) (q := []) (.inr rfl)
    · rw [List.mem_singleton] at hl'; subst hl'
      obtain ⟨k, p, h, _⟩ := (orderedI 0 items).2 l hl
      obtain ⟨pos, b⟩ := l
      cases h
      exact .closes (p := []) (.inl (by simp))
theorem orderedC (i : Nat) (comps : List (JStr × Option RVal)) : (dumpLinesC i comps).Pairwise Before ∧ ∀ l ∈ dumpLinesC i comps, ∃ k p, l.pos = k :: p ∧ i ≤ k := by
  match comps with
  | [] => simp [dumpLinesC]
  | (n, v) :: rest =>
    obtain ⟨h1, h2⟩ := orderedC (i + 1) rest
    rw [dumpLinesC]
    match v with
    | none =>
      simp only [dumpLinesO, List.nil_append]
      exact ⟨h1, fun l hl => by obtain ⟨k, p, h, hk⟩ := h2 l hl; exact ⟨k, p, h, by omega⟩⟩
    | some x =>
      constructor
      · refine List.pairwise_append.2 ⟨?_, h1, fun l hl l' hl' => ?_⟩
        · rw [dumpLinesO, List.pairwise_map]
          exact (ordered x).imp before_cons
        · obtain ⟨p, h, _⟩ := mem_O.1 hl
          obtain ⟨k, p', h', hk⟩ := h2 l' hl'
          obtain ⟨pos, b⟩ := l
          obtain ⟨pos', b'⟩ := l'
          cases h; cases h'
          exact .parts (p := []) (by omega)
      · intro l hl
        rcases List.mem_append.1 hl with hl | hl
        · obtain ⟨p, h, _⟩ := mem_O.1 hl; exact ⟨i, p, h, Nat.le_refl _⟩
        · obtain ⟨k, p, h, hk⟩ := h2 l hl; exact ⟨k, p, h, by omega⟩
theorem orderedI (i : Nat) (items : List (Option RVal)) : (dumpLinesI i items).Pairwise Before ∧ ∀ l ∈ dumpLinesI i items, ∃ k p, l.pos = k :: p ∧ i ≤ k := by
  match items with
  | [] => simp [dumpLinesI]
  | v :: rest =>
    obtain ⟨h1, h2⟩ := orderedI (i + 1) rest
    rw [dumpLinesI]
    match v with
    | none =>
      simp only [dumpLinesO, List.nil_append]
      exact ⟨h1, fun l hl => by obtain ⟨k, p, h, hk⟩ := h2 l hl; exact ⟨k, p, h, by omega⟩⟩
    | some x =>
      constructor
      · refine List.pairwise_append.2 ⟨?_, h1, fun l hl l' hl' => ?_⟩
        · rw [dumpLinesO, List.pairwise_map]
          exact (ordered x).imp before_cons
        · obtain ⟨p, h, _⟩ := mem_O.1 hl
          obtain ⟨k, p', h', hk⟩ := h2 l' hl'
          obtain ⟨pos, b⟩ := l
          obtain ⟨pos', b'⟩ := l'
          cases h; cases h'
          exact .parts (p := []) (by omega)
      · intro l hl
        rcases List.mem_append.1 hl with hl | hl
        · obtain ⟨p, h, _⟩ := mem_O.1 hl; exact ⟨i, p, h, Nat.le_refl _⟩
        · obtain ⟨k, p, h, hk⟩ := h2 l hl; exact ⟨k, p, h, by omega⟩
end

theorem joinLines_eq (ls : List JStr) : joinLines ls = List.intercalate [NL] ls := by
  induction ls with
  | nil => rfl
  | cons l ls ih =>
    cases ls with
    | nil => simp [joinLines, List.intercalate]
    | cons l' ls =>
      rw [joinLines, ih]
      · simp [List.intercalate, List.intersperse]
      · simp

/-- No line comes before itself, so that a list in this order has no line twice. -/
theorem Spec.Before.irrefl {l : DumpLine} : ¬ Before l l := by
  suffices ∀ a b, Before a b → a ≠ b by exact fun h => this l l h rfl
  intro a b h hab
  cases h with
  | inside h =>
    rename_i p q b
    obtain ⟨h1, h2⟩ := DumpLine.mk.inj hab
    rcases h with h | h
    · exact h (by simpa using h1)
    · rw [h] at h2; cases h2
  | closes h =>
    rename_i p q b
    obtain ⟨h1, h2⟩ := DumpLine.mk.inj hab
    rcases h with h | h
    · exact h (by simpa using h1)
    · rw [h] at h2; cases h2
  | parts h =>
    obtain ⟨h1, _⟩ := DumpLine.mk.inj hab
    have := List.append_cancel_left h1
    cases this
    omega

/-- **C56**: the dump consists of exactly one line for each non-null value and one closing bracket for each collection, in the order of the components,
indented by nesting. -/
theorem C56_dump (v : RVal) : ∃ ls : List DumpLine, (∀ l, l ∈ ls ↔ HasLine none v l) ∧ ls.Nodup ∧ ls.Pairwise Before ∧
    toTextBlock (some v) = List.intercalate j!"\n" (ls.map (lineText none v)) := by
  refine ⟨dumpLines v, fun l => mem_dumpLines none v l, ?_, ordered v, ?_⟩
  · exact (ordered v).imp (fun h hab => by subst hab; exact h.irrefl)
  · rw [toTextBlock, joinLines_eq, linesOf_eq]
    simp only [List.nil_append]
    rfl

/-- **C56**: no record, no lines but the word `null`. -/
theorem C56_null : toTextBlock none = j!"null" := rfl

/-- Example: a record with a null component, a list and a nested record. -/
example : toTextBlock (some (.record j!"R" [(j!"a", none), (j!"b", some (.coll [some (.str j!"x"), none, some (.record j!"Q" [(j!"n", some (.other j!"7"))])]))])) =
    j!"R\n  b: [\n    [0]: \"x\"\n    [2] -> Q\n      n: 7\n  ]" := by
  rw [toTextBlock]; simp [linesOf, linesOfComponents, linesOfItems, linesOfOpt, digits_eq, decimal, toSingleValue, joinLines, NL]

end JFTP
