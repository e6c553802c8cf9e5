import Verif.Spec.Posix
import Verif.Props.OnePage
import Verif.Props.Move
import Verif.Props.ProjectStructure

/-
Facts about path resolution.
-/

namespace JFTP
open Spec

variable {t : Node}

theorem Node.Leads.unique {d ns r : List JStr} (h : t.Leads d ns r) : ∀ {r'}, t.Leads d ns r' → r' = r := by
  induction h with
  | done => intro r' h'; cases h'; rfl
  | dot h1 _ ih =>
    intro r' h'
    cases h' with
    | dot _ h2 => exact ih h2
    | step hn => exact absurd rfl hn
    | link hn => exact absurd rfl hn
  | up h1 _ ih =>
    intro r' h'
    cases h' with
    | up _ h2 => exact ih h2
    | step _ hn => exact absurd rfl hn
    | link _ hn => exact absurd rfl hn
  | step h1 h2 h3 h4 _ ih =>
    intro r' h'
    cases h' with
    | dot => exact absurd rfl h1
    | up => exact absurd rfl h2
    | step _ _ _ _ h => exact ih h
    | link _ _ h => rw [h3] at h; cases h; exact absurd rfl (h4 _)
  | link h1 h2 h3 _ ih =>
    intro r' h'
    cases h' with
    | dot => exact absurd rfl h1
    | up => exact absurd rfl h2
    | step _ _ h h4 => rw [h3] at h; cases h; exact absurd rfl (h4 _)
    | link _ _ h h5 => rw [h3] at h; cases h; exact ih h5

theorem Node.Leads.trans {d a m b r : List JStr} (h : t.Leads d a m) (h' : t.Leads m b r) : t.Leads d (a ++ b) r := by
  induction h with
  | done => exact h'
  | dot h1 _ ih => exact .dot h1 (ih h')
  | up h1 _ ih => exact .up h1 (ih h')
  | step h1 h2 h3 h4 _ ih => exact .step h1 h2 h3 h4 (ih h')
  | link h1 h2 h3 _ ih =>
    have ih := ih h'
    rw [List.append_assoc] at ih
    exact .link h1 h2 h3 ih

theorem Node.Leads.split {d ns r : List JStr} (h : t.Leads d ns r) : ∀ {a b}, ns = a ++ b → ∃ m, t.Leads d a m ∧ t.Leads m b r := by
  induction h with
  | done => intro a b he; obtain ⟨rfl, rfl⟩ := List.append_eq_nil_iff.1 he.symm; exact ⟨_, .done, .done⟩
  | @dot d ns r b' cs h1 h2 ih =>
    intro a b he
    cases a with
    | nil => rw [List.nil_append] at he; subst he; exact ⟨_, .done, .dot h1 h2⟩
    | cons x a => cases he; obtain ⟨m, h3, h4⟩ := ih rfl; exact ⟨m, .dot h1 h3, h4⟩
  | @up d ns r b' cs h1 h2 ih =>
    intro a b he
    cases a with
    | nil => rw [List.nil_append] at he; subst he; exact ⟨_, .done, .up h1 h2⟩
    | cons x a => cases he; obtain ⟨m, h3, h4⟩ := ih rfl; exact ⟨m, .up h1 h3, h4⟩
  | step h1 h2 h3 h4 h5 ih =>
    intro a b he
    cases a with
    | nil => rw [List.nil_append] at he; subst he; exact ⟨_, .done, .step h1 h2 h3 h4 h5⟩
    | cons x a => cases he; obtain ⟨m, h6, h7⟩ := ih rfl; exact ⟨m, .step h1 h2 h3 h4 h6, h7⟩
  | link h1 h2 h3 h5 ih =>
    intro a b he
    cases a with
    | nil => rw [List.nil_append] at he; subst he; exact ⟨_, .done, .link h1 h2 h3 h5⟩
    | cons x a =>
      cases he
      obtain ⟨m, h6, h7⟩ := ih (List.append_assoc _ _ _).symm
      exact ⟨m, .link h1 h2 h3 h6, h7⟩

theorem Node.leads_append {d a b r : List JStr} : t.Leads d (a ++ b) r ↔ ∃ m, t.Leads d a m ∧ t.Leads m b r :=
  ⟨fun h => h.split rfl, fun ⟨_, h, h'⟩ => h.trans h'⟩

/-- A place: all names are proper, and nothing above it (or it) is a link. -/
def Canon (t : Node) (d : List JStr) : Prop :=
  ∀ a n b, d = a ++ n :: b → n ≠ Path.dotName ∧ n ≠ Path.dotDotName ∧ ∃ x, t.get (a ++ [n]) = some x ∧ ∀ q, x ≠ .symlink q

theorem Canon.nil : Canon t [] := by
  intro a n b h; cases a <;> cases h

theorem Canon.dropLast {d : List JStr} (h : Canon t d) : Canon t d.dropLast := by
  intro a n b he
  rcases List.eq_nil_or_concat d with rfl | ⟨d', x, rfl⟩
  · cases a <;> cases he
  · rw [List.concat_eq_append, List.dropLast_concat] at he
    exact h a n (b ++ [x]) (by rw [List.concat_eq_append, he]; simp)

theorem Canon.snoc {d : List JStr} (h : Canon t d) {n : JStr} {x : Node} (h1 : n ≠ Path.dotName) (h2 : n ≠ Path.dotDotName) (h3 : t.get (d ++ [n]) = some x) (h4 : ∀ q, x ≠ .symlink q) :
    Canon t (d ++ [n]) := by
  intro a m b he
  rcases List.eq_nil_or_concat b with rfl | ⟨b', y, rfl⟩
  · obtain ⟨rfl, he'⟩ := List.append_inj' he rfl
    cases he'
    exact ⟨h1, h2, x, h3, h4⟩
  · rw [List.concat_eq_append, show a ++ m :: (b' ++ [y]) = (a ++ m :: b') ++ [y] by simp] at he
    exact h a m b' (List.append_inj' he rfl).1

theorem Canon.leads' {b : List JStr} : ∀ {a : List JStr}, Canon t (a ++ b) → t.Leads a b (a ++ b) := by
  induction b with
  | nil => intro a _; rw [List.append_nil]; exact .done
  | cons n b ih =>
    intro a h
    obtain ⟨h1, h2, x, h3, h4⟩ := h a n b rfl
    have := ih (a := a ++ [n]) (by simpa using h)
    exact .step h1 h2 h3 h4 (by simpa using this)

theorem Canon.leads {d : List JStr} (h : Canon t d) : t.Leads [] d d := by
  simpa using Canon.leads' (a := []) (b := d) (by simpa using h)

theorem Node.Leads.canon {d ns r : List JStr} (h : t.Leads d ns r) : Canon t d → Canon t r := by
  induction h with
  | done => exact id
  | dot _ _ ih => exact ih
  | up _ _ ih => exact fun hc => ih hc.dropLast
  | step h1 h2 h3 h4 _ ih => exact fun hc => ih (hc.snoc h1 h2 h3 h4)
  | @link d n ns r q h1 h2 h3 _ ih =>
    intro hc
    refine ih ?_
    split
    · exact .nil
    · exact hc

theorem Node.Leads.place {ns r : List JStr} (h : t.Leads [] ns r) : t.Leads [] r r := (h.canon .nil).leads

/-- Names taken from a place on are names behind the names of the place. -/
theorem Node.Leads.behind {ns d b r : List JStr} (h : t.Leads [] ns d) : t.Leads [] (ns ++ b) r ↔ t.Leads d b r :=
  ⟨fun h' => by obtain ⟨m, h1, h2⟩ := h'.split rfl; rw [h.unique h1] at h2; exact h2, h.trans⟩

theorem Node.Denotes.unique {ns r r' : List JStr} (h : t.Denotes ns r) (h' : t.Denotes ns r') : r' = r := by
  generalize hm : ns = ms at h'
  cases h with
  | root =>
    cases h' with
    | root => rfl
    | plain => simp at hm
    | dots => simp at hm
  | plain h1 h2 h3 h4 =>
    cases h' with
    | root => simp at hm
    | plain g1 g2 g3 g4 => obtain ⟨rfl, e⟩ := List.append_inj' hm rfl; cases e; rw [h3.unique g3]
    | dots g1 => obtain ⟨rfl, e⟩ := List.append_inj' hm rfl; cases e; rcases g1 with g | g <;> contradiction
  | dots h1 h2 =>
    cases h' with
    | root => simp at hm
    | plain g1 g2 g3 g4 => obtain ⟨rfl, e⟩ := List.append_inj' hm rfl; cases e; rcases h1 with g | g <;> contradiction
    | dots _ g2 => obtain ⟨rfl, e⟩ := List.append_inj' hm rfl; cases e; exact h2.unique g2

theorem Node.Denotes.leads {ns r : List JStr} (h : t.Denotes ns r) (hl : ∀ q, t.get r ≠ some (.symlink q)) : t.Leads [] ns r := by
  cases h with
  | root => exact .done
  | plain h1 h2 h3 h4 => exact h3.trans (.step h1 h2 h4 (fun q e => hl q (e ▸ h4)) .done)
  | dots _ h => exact h

theorem Node.entry_of {p : Path} {r : List JStr} (h : t.Denotes p.names r) : t.entry p = t.get r := by
  have he : ∃ r, t.Denotes p.names r := ⟨r, h⟩
  rw [Node.entry, dif_pos he, h.unique he.choose_spec]

theorem Node.entry_none {p : Path} (h : ∀ r, ¬ t.Denotes p.names r) : t.entry p = none := by
  rw [Node.entry, dif_neg (fun ⟨r, hr⟩ => h r hr)]

theorem Node.real_of {p : Path} {r : List JStr} (h : t.Leads [] p.names r) : t.real p = t.get r := by
  have he : ∃ r, t.Leads [] p.names r := ⟨r, h⟩
  rw [Node.real, dif_pos he, h.unique he.choose_spec]

theorem Node.real_none {p : Path} (h : ∀ r, ¬ t.Leads [] p.names r) : t.real p = none := by
  rw [Node.real, dif_neg (fun ⟨r, hr⟩ => h r hr)]

theorem Node.entry_congr {p q : Path} (h : ∀ r, t.Denotes p.names r ↔ t.Denotes q.names r) : t.entry p = t.entry q := by
  by_cases he : ∃ r, t.Denotes q.names r
  · obtain ⟨r, hr⟩ := he; rw [t.entry_of hr, t.entry_of ((h r).2 hr)]
  · rw [t.entry_none (fun r hr => he ⟨r, hr⟩), t.entry_none (fun r hr => he ⟨r, (h r).1 hr⟩)]

theorem Node.real_congr {p q : Path} (h : ∀ r, t.Leads [] p.names r ↔ t.Leads [] q.names r) : t.real p = t.real q := by
  by_cases he : ∃ r, t.Leads [] q.names r
  · obtain ⟨r, hr⟩ := he; rw [t.real_of hr, t.real_of ((h r).2 hr)]
  · rw [t.real_none (fun r hr => he ⟨r, hr⟩), t.real_none (fun r hr => he ⟨r, (h r).1 hr⟩)]

/-- Two ways to the same place go on in the same way. -/
theorem Node.Leads.same {ns ms d rest : List JStr} (h : t.Leads [] ns d) (h' : t.Leads [] ms d) (r : List JStr) : t.Leads [] (ns ++ rest) r ↔ t.Leads [] (ms ++ rest) r :=
  h.behind.trans h'.behind.symm

theorem Node.denotes_snoc {ns r : List JStr} {n : JStr} : t.Denotes (ns ++ [n]) r ↔
    ((n ≠ Path.dotName ∧ n ≠ Path.dotDotName) ∧ ∃ d x, t.Leads [] ns d ∧ t.get (d ++ [n]) = some x ∧ r = d ++ [n]) ∨ ((n = Path.dotName ∨ n = Path.dotDotName) ∧ t.Leads [] (ns ++ [n]) r) := by
  constructor
  · intro h
    generalize hm : ns ++ [n] = ms at h
    cases h with
    | root => simp at hm
    | plain h1 h2 h3 h4 => obtain ⟨rfl, e⟩ := List.append_inj' hm rfl; cases e; exact .inl ⟨⟨h1, h2⟩, _, _, h3, h4, rfl⟩
    | dots h1 h2 => obtain ⟨rfl, e⟩ := List.append_inj' hm rfl; cases e; exact .inr ⟨h1, h2⟩
  · rintro (⟨⟨h1, h2⟩, d, x, h3, h4, rfl⟩ | ⟨h1, h2⟩)
    · exact .plain h1 h2 h3 h4
    · exact .dots h1 h2

/-- Two paths of the same entry: what is behind them is also the same. -/
theorem Node.Denotes.same {ns ms e : List JStr} (h : t.Denotes ns e) (h' : t.Denotes ms e) (rest : List JStr) :
    (∀ r, t.Leads [] (ns ++ rest) r ↔ t.Leads [] (ms ++ rest) r) ∧ ∀ r, t.Denotes (ns ++ rest) r ↔ t.Denotes (ms ++ rest) r := by
  -- both reduce to the way behind the place of the entry
  have key : ∀ {ns}, t.Denotes ns e → ∀ rest r, t.Leads [] (ns ++ rest) r ↔ t.Leads [] (e ++ rest) r := by
    intro ns h rest r
    cases h with
    | root => exact Iff.rfl
    | plain h1 h2 h3 h4 =>
      rw [List.append_assoc, List.append_assoc]
      exact h3.same h3.place r
    | dots _ h => exact h.same h.place r
  have hl : ∀ rest r, t.Leads [] (ns ++ rest) r ↔ t.Leads [] (ms ++ rest) r := fun rest r => (key h rest r).trans (key h' rest r).symm
  refine ⟨hl rest, fun r => ?_⟩
  rcases List.eq_nil_or_concat rest with rfl | ⟨rest, n, rfl⟩
  · rw [List.append_nil, List.append_nil]
    exact ⟨fun g => by rw [h.unique g]; exact h', fun g => by rw [h'.unique g]; exact h⟩
  · rw [List.concat_eq_append, ← List.append_assoc, ← List.append_assoc, Node.denotes_snoc, Node.denotes_snoc]
    simp only [hl rest]
    rw [List.append_assoc, List.append_assoc, hl]

theorem Node.Denotes.place {ns e : List JStr} (h : t.Denotes ns e) : t.Denotes e e := by
  cases h with
  | root => exact .root
  | plain h1 h2 h3 h4 => exact .plain h1 h2 h3.place h4
  | dots _ h =>
    have hp := h.place
    rcases List.eq_nil_or_concat e with rfl | ⟨d, n, rfl⟩
    · exact .root
    · rw [List.concat_eq_append] at hp ⊢
      obtain ⟨h1, h2, x, h3, h4⟩ := (hp.canon .nil) d n [] rfl
      exact .plain h1 h2 (by simpa using (hp.canon .nil).dropLast.leads) h3

/-- Two paths of the same entry. -/
theorem Node.Denotes.sameBelow {b b' e : List JStr} (h : t.Denotes b e) (h' : t.Denotes b' e) : SameBelow t.posix t.posix b b' := by
  have hentry : ∀ rest, t.entry (under b' rest) = t.entry (under b rest) := fun rest => t.entry_congr fun r => ((h.same h' rest).2 r).symm
  have hreal : ∀ rest, t.real (under b' rest) = t.real (under b rest) := fun rest => t.real_congr fun r => ((h.same h' rest).1 r).symm
  have hch : ∀ b rest n, (under b rest).child n = under b (rest ++ [n]) := by
    intro b rest n
    rw [names_child rfl]; simp [under]
  refine ⟨fun rest => ?_, fun rest => ?_, fun rest => ?_⟩
  · simp only [Node.posix, hentry]
  · simp only [Node.posix, hreal]
  · simp only [Node.posix, hreal, hch]
    cases hr : t.real (under b rest) with
    | none => exact .inl ⟨rfl, rfl⟩
    | some x =>
      cases x with
      | dir rd cs =>
        cases rd with
        | false => exact .inl ⟨rfl, rfl⟩
        | true => exact .inr ⟨cs.map Prod.fst, cs.map Prod.fst, false, by simp [List.map_map, Function.comp_def], by simp [List.map_map, Function.comp_def], .refl _⟩
      | regular _ => exact .inl ⟨rfl, rfl⟩
      | special => exact .inl ⟨rfl, rfl⟩
      | symlink _ => exact .inl ⟨rfl, rfl⟩

theorem Node.WF.posix_proper (h : t.WF) : ProperFs t.posix := by
  intro p cs bad hl
  have hl : (match t.real p with
    | some (.dir true cs) => Listing.opened (cs.map (fun c : JStr × Node => p.child c.1)) false
    | _ => .openFailed) = .opened cs bad := hl
  split at hl
  · rename_i l hat
    cases hl
    have hw : ((Node.dir true l).WF) := by
      unfold Node.real at hat
      split at hat
      · exact h.get hat
      · cases hat
    rw [Node.WF] at hw
    constructor
    · rw [show (l.map (fun c : JStr × Node => p.child c.1)) = (l.map Prod.fst).map p.child by simp]
      exact hw.1.map (fun a b => Path.child_inj)
    · intro c hc
      obtain ⟨x, _, rfl⟩ := List.mem_map.1 hc
      exact ⟨x.1, rfl⟩
  · cases hl

theorem Node.Leads.real {ns r : List JStr} (h : t.Leads [] ns r) (hl : ∀ q, t.get [] ≠ some (.symlink q)) : ∃ x, t.get r = some x ∧ ∀ q, x ≠ .symlink q := by
  have hc := h.canon .nil
  rcases List.eq_nil_or_concat r with rfl | ⟨d, n, rfl⟩
  · exact ⟨t, rfl, fun q e => hl q (by rw [Node.get, e])⟩
  · rw [List.concat_eq_append] at hc ⊢
    exact (hc d n [] rfl).2.2

end JFTP
