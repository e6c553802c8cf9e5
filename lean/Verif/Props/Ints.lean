import Verif.Props.Printed
import Verif.Model.Scanner32

/-!
C62: 32-bit arithmetic.
-/

namespace JFTP
open Spec

/-- The same options, numbers read as integers. -/
def ScanOpts32.widen {m : Type → Type} [Monad m] (o : ScanOpts32 m) : ScanOpts m :=
  ⟨o.maxDepth.toInt, fun p => Int32.toInt <$> o.childLimit p, o.pathComparator, o.pathFilter⟩

namespace Ints

theorem one_toInt : (1 : Int32).toInt = 1 := by decide
theorem zero_toInt : (0 : Int32).toInt = 0 := by decide
theorem max_toInt : Int32.maxValue.toInt = 2 ^ 31 - 1 := by decide

section
variable (v : Path → Except Exn TreeEntry)

/-- Unlimited: the counter is irrelevant (it may wrap around). -/
theorem loop_negative (n : Int32) (hn : n.toInt < 0) (ps : List Path) : ∀ (i : Int32) (j : Int),
    Scanner32.childLoop v n i ps = Scanner.childLoop v n.toInt j ps := by
  induction ps with
  | nil => intro i j; rfl
  | cons p ps ih =>
    intro i j
    have h1 : ¬ (n ≥ 0) := by
      intro h
      have := Int32.le_iff_toInt_le.1 h
      rw [zero_toInt] at this
      omega
    unfold Scanner32.childLoop Scanner.childLoop
    dsimp only
    rw [if_neg (fun h => h1 h.1), if_neg (fun h => by omega)]
    cases v p with
    | error e => rfl
    | ok e =>
      simp only [bind, Except.bind]
      rw [ih (i + 1) (j + 1)]

/-- Limited: the counter never passes the limit by more than one. -/
theorem loop_limited (n : Int32) (hn : 0 ≤ n.toInt) (ps : List Path) : ∀ i : Int32, 0 ≤ i.toInt → i.toInt ≤ n.toInt →
    (n = Int32.maxValue → i.toInt + ps.length < 2 ^ 31) →
    Scanner32.childLoop v n i ps = Scanner.childLoop v n.toInt i.toInt ps := by
  induction ps with
  | nil => intro i _ _ _; rfl
  | cons p ps ih =>
    intro i h0 hi hlen
    have hlt : i.toInt + 1 < 2 ^ 31 := by
      by_cases hm : n = Int32.maxValue
      · have := hlen hm
        simp only [List.length_cons] at this
        omega
      · have h1 := Int32.toInt_le n
        rw [max_toInt] at h1
        have h2 : n.toInt ≠ 2 ^ 31 - 1 := fun h => hm (Int32.toInt_inj.1 (by rw [h, max_toInt]))
        omega
    have hs : (i + 1).toInt = i.toInt + 1 := by
      rw [Int32.toInt_add, one_toInt]
      apply Int.bmod_eq_of_le <;> omega
    have hcond : (n ≥ 0 ∧ i + 1 > n) ↔ (n.toInt ≥ 0 ∧ i.toInt + 1 > n.toInt) := by
      constructor
      · intro h
        have := Int32.lt_iff_toInt_lt.1 h.2
        rw [hs] at this
        exact ⟨hn, this⟩
      · intro h
        exact ⟨Int32.le_iff_toInt_le.2 (by rw [zero_toInt]; exact hn), Int32.lt_iff_toInt_lt.2 (by rw [hs]; exact h.2)⟩
    unfold Scanner32.childLoop Scanner.childLoop
    dsimp only
    by_cases hc : n.toInt ≥ 0 ∧ i.toInt + 1 > n.toInt
    · rw [if_pos hc, if_pos (hcond.2 hc)]
    · rw [if_neg hc, if_neg (fun h => hc (hcond.1 h))]
      have hrec := ih (i + 1) (by omega) (by rw [hs]; omega) (fun hm => by
        have := hlen hm
        simp only [List.length_cons] at this
        rw [hs]; omega)
      rw [hs] at hrec
      cases v p with
      | error e => rfl
      | ok e =>
        simp only [bind, Except.bind]
        rw [hrec]

theorem loop (n : Int32) (ps : List Path) (h : n = Int32.maxValue → ps.length < 2 ^ 31) :
    Scanner32.childLoop v n 0 ps = Scanner.childLoop v n.toInt 0 ps := by
  by_cases hn : n.toInt < 0
  · exact loop_negative v n hn ps 0 0
  · have := loop_limited v n (by omega) ps 0 (by rw [zero_toInt]) (by rw [zero_toInt]; omega) (fun hm => by rw [zero_toInt]; have := h hm; omega)
    rwa [zero_toInt] at this

end

theorem filterEntries_length {f : Matcher (Except Exn)} {cs ks : List Path} (h : Scanner.filterEntries f cs = .ok ks) : ks.length ≤ cs.length := by
  induction cs generalizing ks with
  | nil => cases h; simp
  | cons c cs ih =>
    unfold Scanner.filterEntries at h
    obtain ⟨b, _, h⟩ := except_bind_ok h
    obtain ⟨ks', hk, h⟩ := except_bind_ok h
    have := ih hk
    cases h
    cases b <;> simp <;> omega

section
variable {fs : Fs (Except Exn)} {o : ScanOpts32 (Except Exn)}

theorem handle (hsz : ∀ p cs bad, fs.listDir p = .ok (.opened cs bad) → o.childLimit p = .ok Int32.maxValue → cs.length < 2 ^ 31)
    (d : Int32) (hd : 0 ≤ d.toInt) (p : Path) :
    Scanner32.handle fs o d p = Scanner.handle fs o.widen d.toInt.toNat p := by
  rw [Scanner32.handle, Scanner.handle]
  cases PathMatchers.isDirectory fs p with
  | error e => rfl
  | ok b =>
    cases b with
    | false => rfl
    | true =>
      simp only [bind, Except.bind, if_true]
      have hdn : ((d.toInt.toNat : Nat) : Int) = d.toInt := by omega
      by_cases hk : d ≥ o.maxDepth
      · rw [dif_pos hk, dif_pos (by rw [hdn]; exact Int32.le_iff_toInt_le.1 hk)]
      · rw [dif_neg hk, dif_neg (by rw [hdn]; exact fun h => hk (Int32.le_iff_toInt_le.2 h))]
        have hs := Scanner32.depth_succ hk
        have ih : (fun c => Scanner32.handle fs o (d + 1) c) = fun c => Scanner.handle fs o.widen (d.toInt.toNat + 1) c := by
          funext c
          rw [handle hsz (d + 1) (by omega) c, hs]
          congr 1
          omega
        rw [ih]
        unfold Scanner32.handleDirectory Scanner.handleDirectory
        cases hl : fs.listDir p with
        | error e => rfl
        | ok r =>
          cases r with
          | openFailed => rfl
          | opened cs bad =>
            unfold Scanner32.handleDirectoryChildren Scanner.handleDirectoryChildren ScanOpts32.widen
            simp only [bind, Except.bind]
            cases hn : o.childLimit p with
            | error e => rfl
            | ok n =>
              simp only [Functor.map, Except.map]
              cases hf : Scanner.filterEntries o.pathFilter cs with
              | error e => rfl
              | ok ks =>
                cases bad with
                | true => rfl
                | false =>
                  simp only [Bool.false_eq_true, if_false]
                  rw [loop _ n _ (fun hm => by
                    have h1 := hsz p cs false hl (by rw [hn, hm])
                    have h2 := filterEntries_length hf
                    have h3 := (streamSorted_perm o.pathComparator ks).length_eq
                    omega)]
termination_by (o.maxDepth.toInt - d.toInt).toNat
decreasing_by
  rw [Scanner32.depth_succ hk]
  have := Int32.lt_iff_toInt_lt.1 (Int32.not_le.1 hk)
  omega

end
end Ints

/-- `prettyPrint` with the max depth and the child limits being 32-bit numbers (scanning with wrapping `int` counters). -/
def prettyPrint32 (fs : Fs (Except Exn)) (cwd : Path) (o : Options (Except Exn)) (maxDepth : Int32) (childLimit : Path → Except Exn Int32) (path : Path) : Except Exn JStr := do
  let tree ← Scanner32.scan fs ⟨maxDepth, childLimit, o.pathComparator, o.pathFilter fs⟩ cwd (path.toAbsolutePath cwd).normalize
  Renderer.renderRoot o.toRender (LineRenderer.create o.toRender) tree

/-- **C62**: on Java's wrapping 32-bit numbers `prettyPrint` behaves as on unbounded integers, for all max depths, child limits and file systems, faults included. Only a limit of exactly
`Integer.MAX_VALUE` on a directory with more than that many entries is excluded. -/
theorem C62_no_overflow (fs : Fs (Except Exn)) (cwd : Path) (o : Options (Except Exn)) (maxDepth : Int32) (childLimit : Path → Except Exn Int32) (path : Path)
    (hsz : ∀ p cs bad, fs.listDir p = .ok (.opened cs bad) → childLimit p = .ok Int32.maxValue → cs.length < 2 ^ 31) :
    prettyPrint32 fs cwd o maxDepth childLimit path =
      prettyPrint fs cwd ((o.withMaxDepth maxDepth.toInt).withChildLimitFn (fun p => Int32.toInt <$> childLimit p)) path := by
  unfold prettyPrint32 Scanner32.scan
  dsimp only
  rw [Ints.handle (o := ⟨maxDepth, childLimit, o.pathComparator, o.pathFilter fs⟩) hsz 0 (by decide)]
  rfl

/-- Example: limits as small and as large as possible, on the demo disk. -/
example := C62_no_overflow Demo.dfs.lift Path.root Demo.dflt Int32.maxValue (fun p => .ok (if p = Demo.r then Int32.minValue else 2147483646)) Demo.r
  (fun p cs bad _ h => by
    have h := Except.ok.inj h
    split at h
    · exact absurd h (by decide)
    · exact absurd h (by decide))

end JFTP
