import Verif.Spec.Process

/-
Running CLI actions: console, format strings.
-/

namespace JFTP
open Spec Cli

/-- Run an action from a console state. -/
def exec {α : Type} (a : CliM α) (c : Console) : Except CliExn α × Console := a.run.run c

section
variable {α β : Type}

theorem exec_pure (x : α) (c : Console) : exec (pure x) c = (.ok x, c) := rfl

theorem exec_throw (e : CliExn) (c : Console) : exec (throw e : CliM α) c = (.error e, c) := rfl

theorem exec_bind (a : CliM α) (f : α → CliM β) (c : Console) :
    exec (a >>= f) c = match exec a c with
      | (.ok x, c') => exec (f x) c'
      | (.error e, c') => (.error e, c') := by
  unfold exec
  rw [ExceptT.run_bind]
  show StateT.run (StateT.bind a.run _) c = _
  unfold StateT.run StateT.bind
  show (match a c with | (x, c') => _) = _
  rcases h : a c with ⟨x | x, c'⟩
  all_goals
    have h' : (a.run : StateM Console _) c = _ := h
    rw [h']; rfl

theorem exec_bind_ok {a : CliM α} {f : α → CliM β} {c c' : Console} {x : α} (h : exec a c = (.ok x, c')) : exec (a >>= f) c = exec (f x) c' := by
  rw [exec_bind, h]

theorem exec_bind_error {a : CliM α} {f : α → CliM β} {c c' : Console} {e : CliExn} (h : exec a c = (.error e, c')) : exec (a >>= f) c = (.error e, c') := by
  rw [exec_bind, h]

end

/-! ### Format strings -/

/-- No percent sign. -/
abbrev Plain (s : JStr) : Prop := PERCENT ∉ s

variable (F : SpecParser)

theorem parseFmt_plain {s : JStr} (h : Plain s) (t : JStr) : parseFmt F (s ++ t) = (parseFmt F t).map (fun ps => s.map .lit ++ ps) := by
  induction s with
  | nil => simp only [List.nil_append, List.map_nil]; cases parseFmt F t <;> rfl
  | cons a s ih =>
    have ha : a ≠ PERCENT := fun e => h (by simp [e])
    rw [List.cons_append, parseFmt.eq_def]
    simp only []
    rw [if_neg ha, ih (fun hm => h (by simp [hm]))]
    cases parseFmt F t <;> rfl

theorem parseFmt_s (t : JStr) : parseFmt F (j!"%s" ++ t) = (parseFmt F t).map (fun ps => .arg :: ps) := by
  show parseFmt F (PERCENT :: 115 :: t) = _
  rw [parseFmt, if_pos rfl, if_neg (by decide), if_neg (by decide), if_pos rfl]
  cases parseFmt F t <;> rfl

theorem parseFmt_n (t : JStr) : parseFmt F (j!"%n" ++ t) = (parseFmt F t).map (fun ps => .lit NL :: ps) := by
  show parseFmt F (PERCENT :: 110 :: t) = _
  rw [parseFmt, if_pos rfl, if_neg (by decide), if_pos rfl]
  cases parseFmt F t <;> rfl

theorem parseFmt_percent (t : JStr) : parseFmt F (j!"%%" ++ t) = (parseFmt F t).map (fun ps => .lit PERCENT :: ps) := by
  show parseFmt F (PERCENT :: PERCENT :: t) = _
  rw [parseFmt, if_pos rfl, if_pos rfl]
  cases parseFmt F t <;> rfl

theorem parseFmt_end {s : JStr} (h : Plain s) : parseFmt F (s ++ [NL]) = .ok ((s ++ [NL]).map .lit) := by
  rw [parseFmt_plain F h, show ([NL] : JStr) = [NL] ++ [] from rfl, parseFmt_plain F (by decide) [], parseFmt]
  simp [Except.map]

theorem runFmt_lits (s : JStr) (ps : List FmtPiece) (args : List JStr) : runFmt (s.map .lit ++ ps) args = (s ++ (runFmt ps args).1, (runFmt ps args).2) := by
  induction s with
  | nil => rfl
  | cons a s ih => simp only [List.map_cons, List.cons_append, runFmt, ih]

theorem runFmt_lits' (s : JStr) (args : List JStr) : runFmt (s.map .lit) args = (s, false) := by
  have := runFmt_lits s [] args
  rw [List.append_nil] at this
  rw [this]; simp [runFmt]

/-- The console after writing. -/
def written (toErr : Bool) (s : JStr) (c : Console) : Console := if toErr then { c with err := c.err ++ s } else { c with out := c.out ++ s }

theorem exec_writeTo (toErr : Bool) (s : JStr) (c : Console) : exec (writeTo toErr s) c = (.ok (), written toErr s c) := by
  cases toErr <;> rfl

theorem exec_printfln_ok {toErr : Bool} {msg : JStr} {args : List JStr} {ps : List FmtPiece} (h : parseFmt F (msg ++ [NL]) = .ok ps) (c : Console) :
    exec (printfln F toErr msg args) c = ((if (runFmt ps args).2 then .error .illegalFormat else .ok ()), written toErr (runFmt ps args).1 c) := by
  unfold printfln
  rw [h]
  simp only []
  rw [exec_bind_ok (exec_writeTo toErr _ c)]
  split
  · rfl
  · rfl

theorem exec_printfln_bad {toErr : Bool} {msg : JStr} {args : List JStr} {e : CliExn} (h : parseFmt F (msg ++ [NL]) = .error e) (c : Console) :
    exec (printfln F toErr msg args) c = (.error e, c) := by
  unfold printfln; rw [h]; rfl

theorem exec_printfln_plain (toErr : Bool) {msg : JStr} (h : Plain msg) (args : List JStr) (c : Console) :
    exec (printfln F toErr msg args) c = (.ok (), written toErr (msg ++ [NL]) c) := by
  rw [exec_printfln_ok F (parseFmt_end F h), runFmt_lits']; rfl

theorem exec_printfln_s (toErr : Bool) {a b : JStr} (ha : Plain a) (hb : Plain b) (t : JStr) (c : Console) :
    exec (printfln F toErr (a ++ j!"%s" ++ b) [t]) c = (.ok (), written toErr (a ++ t ++ b ++ [NL]) c) := by
  have h : parseFmt F (a ++ j!"%s" ++ b ++ [NL]) = .ok (a.map .lit ++ .arg :: (b ++ [NL]).map .lit) := by
    rw [List.append_assoc, List.append_assoc, parseFmt_plain F ha, parseFmt_s, parseFmt_end F hb]; rfl
  rw [exec_printfln_ok F h, runFmt_lits, runFmt, runFmt_lits']
  simp [List.append_assoc]

theorem exec_printfln_missing (toErr : Bool) {a b : JStr} (ha : Plain a) (hb : Plain b) (c : Console) :
    exec (printfln F toErr (a ++ j!"%s" ++ b) []) c = (.error .illegalFormat, written toErr a c) := by
  have h : parseFmt F (a ++ j!"%s" ++ b ++ [NL]) = .ok (a.map .lit ++ .arg :: (b ++ [NL]).map .lit) := by
    rw [List.append_assoc, List.append_assoc, parseFmt_plain F ha, parseFmt_s, parseFmt_end F hb]; rfl
  rw [exec_printfln_ok F h, runFmt_lits, runFmt]
  simp

theorem exec_printfln_percent (toErr : Bool) {a b : JStr} (ha : Plain a) (hb : Plain b) (args : List JStr) (c : Console) :
    exec (printfln F toErr (a ++ j!"%%" ++ b) args) c = (.ok (), written toErr (a ++ j!"%" ++ b ++ [NL]) c) := by
  have h : parseFmt F (a ++ j!"%%" ++ b ++ [NL]) = .ok ((a ++ j!"%" ++ b ++ [NL]).map .lit) := by
    rw [List.append_assoc, List.append_assoc, parseFmt_plain F ha, parseFmt_percent, parseFmt_end F hb]
    simp [Except.map]; rfl
  rw [exec_printfln_ok F h, runFmt_lits']; rfl

theorem exec_printfln_n (toErr : Bool) {a b : JStr} (ha : Plain a) (hb : Plain b) (args : List JStr) (c : Console) :
    exec (printfln F toErr (a ++ j!"%n" ++ b) args) c = (.ok (), written toErr (a ++ [NL] ++ b ++ [NL]) c) := by
  have h : parseFmt F (a ++ j!"%n" ++ b ++ [NL]) = .ok ((a ++ [NL] ++ b ++ [NL]).map .lit) := by
    rw [List.append_assoc, List.append_assoc, parseFmt_plain F ha, parseFmt_n, parseFmt_end F hb]
    simp [Except.map]
  rw [exec_printfln_ok F h, runFmt_lits']; rfl

/-! ### Actions that only write debug messages -/

/-- With debug mode `d`, the action ends with `r` and only writes debug messages; none if debug mode is off. -/
def Says {α : Type} (d : Bool) (a : CliM α) (r : Except CliExn α) : Prop :=
  ∀ c : Console, c.debug = d → ∃ msgs, (d = false → msgs = []) ∧ exec a c = (r, { c with out := c.out ++ debugLines msgs })

section
variable {α β : Type} {d : Bool}

theorem Says.pure (x : α) : Says d (Pure.pure x : CliM α) (.ok x) := fun c _ => ⟨[], fun _ => rfl, by simp [exec_pure, debugLines]⟩

theorem Says.throw (e : CliExn) : Says d (MonadExcept.throw e : CliM α) (.error e) := fun c _ => ⟨[], fun _ => rfl, by simp [exec_throw, debugLines]⟩

theorem Says.bind {a : CliM α} {f : α → CliM β} {x : α} {r : Except CliExn β} (ha : Says d a (.ok x)) (hf : Says d (f x) r) : Says d (a >>= f) r := by
  intro c hc
  obtain ⟨m₁, h₁, e₁⟩ := ha c hc
  obtain ⟨m₂, h₂, e₂⟩ := hf { c with out := c.out ++ debugLines m₁ } hc
  refine ⟨m₁ ++ m₂, fun hd => by rw [h₁ hd, h₂ hd]; rfl, ?_⟩
  rw [exec_bind_ok e₁, e₂]
  simp [debugLines, List.append_assoc]

theorem Says.bind_error {a : CliM α} {f : α → CliM β} {e : CliExn} (ha : Says d a (.error e)) : Says d (a >>= f) (.error e) := by
  intro c hc
  obtain ⟨m₁, h₁, e₁⟩ := ha c hc
  exact ⟨m₁, h₁, by rw [exec_bind_error e₁]⟩

theorem exec_printDebug (msg : JStr) (args : List JStr) (c : Console) : exec (printDebug F msg args) c =
    if c.debug then exec (printfln F false (j!"[DEBUG] " ++ msg) args) c else (.ok (), c) := by
  unfold printDebug
  rw [exec_bind_ok (show exec (get : CliM Console) c = (.ok c, c) from rfl)]
  split <;> rfl

theorem says_printDebug_plain {msg : JStr} (h : d = false ∨ Plain msg) : Says d (printDebug F msg) (.ok ()) := by
  intro c hc
  rw [exec_printDebug]
  cases d with
  | false => exact ⟨[], fun _ => rfl, by rw [if_neg (by rw [hc]; decide)]; simp [debugLines]⟩
  | true =>
    have h : Plain msg := by rcases h with h | h; · cases h
                             · exact h
    refine ⟨[msg], nofun, ?_⟩
    rw [if_pos hc, exec_printfln_plain F false (msg := j!"[DEBUG] " ++ msg)]
    · simp [written, debugLines]; rfl
    · intro hm; rcases List.mem_append.1 hm with hm | hm
      · revert hm; decide
      · exact h hm

theorem says_printDebug_s (a t : JStr) (h : Plain a) : Says d (printDebug F (a ++ j!"%s") [t]) (.ok ()) := by
  intro c hc
  rw [exec_printDebug]
  cases d with
  | false => exact ⟨[], fun _ => rfl, by rw [if_neg (by rw [hc]; decide)]; simp [debugLines]⟩
  | true =>
    refine ⟨[a ++ t], nofun, ?_⟩
    have := exec_printfln_s F false (a := j!"[DEBUG] " ++ a) (b := []) (t := t) (c := c) (by
      intro hm; rcases List.mem_append.1 hm with hm | hm
      · revert hm; decide
      · exact h hm) (by decide)
    rw [List.append_nil, List.append_nil, List.append_assoc] at this
    rw [if_pos hc, this]
    simp [written, debugLines]; rfl

end

end JFTP
