import Verif.Spec.Printf
import Verif.Props.Process
import Mathlib.Data.List.TakeWhile

/-!
C53, C54: the tree is used as a format string; exactly what is written.
-/

namespace JFTP
open Spec Cli

namespace Printf53

theorem parse_iff (F : SpecParser) (s : JStr) (ps : List FmtPiece) : parseFmt F s = .ok ps ↔ Pieces F s ps := by
  constructor
  · intro h
    induction hn : s.length using Nat.strong_induction_on generalizing s ps with
    | _ n ih =>
      cases s with
      | nil => rw [parseFmt] at h; cases h; exact .nil
      | cons c rest =>
        rw [parseFmt.eq_def] at h
        simp only [] at h
        split at h
        · rename_i hc
          subst hc
          cases rest with
          | nil => cases h
          | cons d rest' =>
            simp only [] at h
            simp only [List.length_cons] at hn
            split at h
            · rename_i hd; subst hd
              cases h' : parseFmt F rest' with
              | error e => rw [h'] at h; cases h
              | ok qs => rw [h'] at h; cases h; exact .percent (ih _ (by omega) _ _ h' rfl)
            · rename_i hd
              split at h
              · rename_i hd'; subst hd'
                cases h' : parseFmt F rest' with
                | error e => rw [h'] at h; cases h
                | ok qs => rw [h'] at h; cases h; exact .newline (ih _ (by omega) _ _ h' rfl)
              · rename_i hd'
                split at h
                · rename_i hd''; subst hd''
                  cases h' : parseFmt F rest' with
                  | error e => rw [h'] at h; cases h
                  | ok qs => rw [h'] at h; cases h; exact .string (ih _ (by omega) _ _ h' rfl)
                · rename_i hd''
                  split at h
                  · cases h
                  · rename_i p k hF
                    cases h' : parseFmt F ((d :: rest').drop k) with
                    | error e => rw [h'] at h; cases h
                    | ok qs =>
                      rw [h'] at h; cases h
                      refine .other ?_ hF (ih _ (by simp only [List.length_drop, List.length_cons]; omega) _ _ h' rfl)
                      simp only [List.mem_cons, List.not_mem_nil, or_false, not_or]
                      exact ⟨hd, hd', hd''⟩
        · rename_i hc
          cases h' : parseFmt F rest with
          | error e => rw [h'] at h; cases h
          | ok qs => rw [h'] at h; cases h; exact .char hc (ih _ (by rw [← hn]; simp) _ _ h' rfl)
  · intro h
    induction h with
    | nil => rw [parseFmt]
    | char hc _ ih => rw [parseFmt.eq_def]; simp only []; rw [if_neg hc, ih]; rfl
    | percent _ ih => rw [parseFmt_percent, ih]; rfl
    | newline _ ih => rw [parseFmt_n, ih]; rfl
    | string _ ih => rw [parseFmt_s, ih]; rfl
    | other hd hF _ ih =>
      simp only [List.mem_cons, List.not_mem_nil, or_false, not_or] at hd
      rename_i d s p k ps _
      show parseFmt F (PERCENT :: d :: s) = _
      rw [parseFmt, if_pos rfl, if_neg (show ¬ d = PERCENT from hd.1), if_neg hd.2.1, if_neg hd.2.2, hF]
      simp only [ih]
      rfl

theorem run_pieces (ps : List FmtPiece) : runFmt ps [] = (piecesText ps, decide (.arg ∈ ps)) := by
  induction ps with
  | nil => rfl
  | cons p ps ih =>
    cases p with
    | lit c => rw [runFmt, ih]; simp [piecesText, pieceText]
    | text t => rw [runFmt, ih]; simp [piecesText, pieceText]
    | arg => rw [runFmt]; simp [piecesText]

/-- A percent sign of the output takes two of the format string. -/
theorem percents {F : SpecParser} (hF : PadsPercent F) {s : JStr} {ps : List FmtPiece} (h : Pieces F s ps) (ha : .arg ∉ ps) :
    2 * (ps.flatMap pieceText).count PERCENT ≤ s.count PERCENT ∧ (PERCENT ∈ s → (ps.flatMap pieceText).count PERCENT < s.count PERCENT) := by
  induction h with
  | nil => simp
  | char hc _ ih =>
    rename_i c s ps _
    obtain ⟨h1, h2⟩ := ih (fun h => ha (List.mem_cons_of_mem _ h))
    have e : List.count PERCENT (c :: s) = List.count PERCENT s := List.count_cons_of_ne hc
    have e' : List.count PERCENT ((FmtPiece.lit c :: ps).flatMap pieceText) = List.count PERCENT (ps.flatMap pieceText) := by
      simp only [List.flatMap_cons, pieceText, List.singleton_append]
      exact List.count_cons_of_ne hc
    rw [e, e']
    refine ⟨h1, fun h => h2 ?_⟩
    rcases List.mem_cons.1 h with h | h
    · exact absurd h.symm hc
    · exact h
  | percent _ ih =>
    rename_i s ps _
    obtain ⟨h1, h2⟩ := ih (fun h => ha (List.mem_cons_of_mem _ h))
    have e : List.count PERCENT (j!"%%" ++ s) = List.count PERCENT s + 2 := by
      rw [List.count_append, Nat.add_comm]; rfl
    have e' : List.count PERCENT ((FmtPiece.lit PERCENT :: ps).flatMap pieceText) = List.count PERCENT (ps.flatMap pieceText) + 1 := by
      simp only [List.flatMap_cons, pieceText, List.singleton_append]
      exact List.count_cons_self
    rw [e, e']
    exact ⟨by omega, fun _ => by omega⟩
  | newline _ ih =>
    rename_i s ps _
    obtain ⟨h1, h2⟩ := ih (fun h => ha (List.mem_cons_of_mem _ h))
    have e : List.count PERCENT (j!"%n" ++ s) = List.count PERCENT s + 1 := by
      rw [List.count_append, Nat.add_comm]; rfl
    have e' : List.count PERCENT ((FmtPiece.lit NL :: ps).flatMap pieceText) = List.count PERCENT (ps.flatMap pieceText) := by
      simp only [List.flatMap_cons, pieceText, List.singleton_append]
      exact List.count_cons_of_ne (by decide)
    rw [e, e']
    exact ⟨by omega, fun _ => by omega⟩
  | string _ _ => exact absurd (List.mem_cons_self ..) ha
  | other hd hf _ ih =>
    rename_i d s p k ps _
    obtain ⟨h1, h2⟩ := ih (fun h => ha (List.mem_cons_of_mem _ h))
    rcases hF _ _ _ hf with rfl | ⟨w, n, hw, hp⟩
    · exact absurd (List.mem_cons_self ..) ha
    have e : List.count PERCENT (j!"%" ++ d :: s) = List.count PERCENT ((d :: s).take k) + List.count PERCENT ((d :: s).drop k) + 1 := by
      rw [← List.count_append, List.take_append_drop, List.count_append, Nat.add_comm]; rfl
    have e1 : 1 ≤ List.count PERCENT ((d :: s).take k) := by
      rw [hw]; exact List.count_pos_iff.2 (by simp)
    have e' : List.count PERCENT ((p :: ps).flatMap pieceText) = List.count PERCENT (ps.flatMap pieceText) + 1 := by
      have hr : List.count PERCENT (List.replicate n (32 : JChar)) = 0 := List.count_eq_zero.2 (by simp only [List.mem_replicate, not_and]; intro _; decide)
      rw [List.flatMap_cons, List.count_append, Nat.add_comm]
      congr 1
      rcases hp with rfl | rfl
      · simp only [pieceText]; rw [List.count_append, hr]; rfl
      · simp only [pieceText]; rw [List.count_cons_self, hr]
    rw [e, e']
    exact ⟨by omega, fun _ => by omega⟩

end Printf53

open Printf53

section
variable {env : Env}

/-- **C53**, **C54**, complete: what a run prints and its exit code, for every string the library returns. The string and a line break are a format string without arguments: a
malformed one is not printed at all, else everything before the first specifier that needs an argument is printed, and the exit code is 0 if there is none. -/
theorem C53_format (hp : PlainDirs env) {args : Args} (hd : args.debug = false) {s : JStr} (h : Ends env args (.tree s)) :
    (∀ ps, Pieces env.fmt (s ++ j!"\n") ps → .arg ∉ ps → run env args = (0, { out := piecesText ps })) ∧
    (∀ ps, Pieces env.fmt (s ++ j!"\n") ps → .arg ∈ ps → (run env args).1 = 1 ∧ (run env args).2.out = piecesText ps) ∧
    ((∀ ps, ¬ Pieces env.fmt (s ++ j!"\n") ps) → (run env args).1 = 1 ∧ (run env args).2.out = []) := by
  rw [run_quiet hp h hd]
  refine ⟨fun ps hps ha => ?_, fun ps hps ha => ?_, fun hn => ?_⟩
  · have := exec_printfln_ok env.fmt (toErr := false) (args := []) ((parse_iff env.fmt _ _).2 hps) {}
    rw [run_pieces, decide_eq_false ha] at this
    have h' : exec (lastStep env (.tree s)) {} = _ := exec_bind_ok this
    unfold guarded; rw [h', exec_pure]; rfl
  · have := exec_printfln_ok env.fmt (toErr := false) (args := []) ((parse_iff env.fmt _ _).2 hps) {}
    rw [run_pieces, decide_eq_true ha] at this
    have h' : exec (lastStep env (.tree s)) {} = _ := exec_bind_error this
    rw [guarded_error h']
    obtain ⟨t, ht, _⟩ := guarded_throw env .illegalFormat (written false (piecesText ps) {})
    rw [ht]
    exact ⟨rfl, rfl⟩
  · cases hx : parseFmt env.fmt (s ++ [NL]) with
    | ok ps => exact absurd ((parse_iff _ _ _).1 hx) (hn ps)
    | error e =>
      have h' : exec (lastStep env (.tree s)) {} = _ := exec_bind_error (exec_printfln_bad env.fmt (toErr := false) (args := []) hx {})
      rw [guarded_error h']
      obtain ⟨t, ht, _⟩ := guarded_throw env e {}
      rw [ht]
      exact ⟨rfl, rfl⟩

/-- **C53**, exactly: the string is printed unchanged, with exit code 0, if and only if it contains no percent sign. -/
theorem C53_exact (hp : PlainDirs env) (hF : PadsPercent env.fmt) {args : Args} (hd : args.debug = false) {s : JStr} (h : Ends env args (.tree s)) :
    run env args = (0, { out := s ++ j!"\n" }) ↔ PERCENT ∉ s := by
  refine ⟨fun hr hs => ?_, fun hs => C53_prints hp hd h hs⟩
  obtain ⟨h1, h2, h3⟩ := C53_format hp hd h
  by_cases hps : ∃ ps, Pieces env.fmt (s ++ j!"\n") ps
  · obtain ⟨ps, hps⟩ := hps
    by_cases ha : .arg ∈ ps
    · have := (h2 ps hps ha).1; rw [hr] at this; cases this
    · have h4 := h1 ps hps ha
      rw [hr] at h4
      have h5 : s ++ j!"\n" = piecesText ps := congrArg (fun x => x.2.out) h4
      have h6 := (percents hF hps ha).2 (by simp [hs])
      have h7 : ps.takeWhile (· ≠ .arg) = ps := List.takeWhile_eq_self_iff.2 (by intro p hp; simp; rintro rfl; exact ha hp)
      rw [h5, piecesText, h7] at h6
      exact absurd h6 (Nat.lt_irrefl _)
  · have := (h3 (fun ps h => hps ⟨ps, h⟩)).1; rw [hr] at this; cases this

end

/-! ### Examples -/

namespace Demo

/-- Knows `%3%` only. -/
def pads3 : SpecParser := fun rest => if rest.take 2 = j!"3%" then some (.text j!"  %", 2) else none

theorem pads3_contract : PadsPercent pads3 := by
  intro rest p k h
  unfold pads3 at h
  split at h
  · rename_i ht
    cases h
    exact .inr ⟨j!"3", 2, ht, .inl rfl⟩
  · cases h

/-- `a%3%b%%` -/
example : Pieces pads3 j!"a%3%b%%" [.lit 97, .text j!"  %", .lit 98, .lit PERCENT] := .char (by decide) (.other (k := 2) (by decide) rfl (.char (by decide) (.percent .nil)))

/-- The machine with the file `/100%%`: the library returns `100%%`. -/
theorem ends_100 : Ends (machine ⟨true, [j!"100%%"]⟩) (cmd ⟨true, [j!"100%%"]⟩) (.tree j!"100%%") :=
  ends (by decide) (by decide) (by decide) (by decide) (file (by decide) (by decide) (by decide))

example : ¬ run (machine ⟨true, [j!"100%%"]⟩) (cmd ⟨true, [j!"100%%"]⟩) = (0, { out := j!"100%%\n" }) := fun h =>
  (C53_exact (machine_plain _) (fun _ _ _ h => by cases h) rfl ends_100).1 h (by decide)

example : run (machine ⟨true, [j!"100%%"]⟩) (cmd ⟨true, [j!"100%%"]⟩) = (0, { out := j!"100%\n" }) :=
  (C53_format (machine_plain _) rfl ends_100).1 [.lit 49, .lit 48, .lit 48, .lit PERCENT, .lit NL]
    (.char (by decide) (.char (by decide) (.char (by decide) (.percent (.char (by decide) .nil))))) (by decide)

end Demo
end JFTP
