import Verif.Model.Scanner

/-
Recording the accesses of a run to the file system, and what a recorded run has to look like.
-/

namespace JFTP
namespace Spec

/-- One access with its answer. -/
inductive Access where
  | isDir (p : Path) (answer : Bool)
  | list (p : Path) (answer : Listing)
  | attrs (p : Path) (answer : Option Attrs)

/-- A computation with states `σ` (e.g. a changing file system), next to a log that it does not touch. -/
def unlogged {σ α : Type} (x : ExceptT Exn (StateM σ) α) : ExceptT Exn (StateM (σ × List Access)) α :=
  ExceptT.mk fun (s, l) => let r := (ExceptT.run x).run s; (r.1, (r.2, l))

/-- The same, and the answer is appended to the log. -/
def logging {σ α : Type} (mk : α → Access) (x : ExceptT Exn (StateM σ) α) : ExceptT Exn (StateM (σ × List Access)) α :=
  ExceptT.mk fun (s, l) => match (ExceptT.run x).run s with
    | (.ok a, s') => (.ok a, (s', l ++ [mk a]))
    | (.error e, s') => (.error e, (s', l))

/-- An arbitrary file system whose accesses are recorded. -/
def logFs {σ : Type} (fs : Fs (ExceptT Exn (StateM σ))) : Fs (ExceptT Exn (StateM (σ × List Access))) where
  isDir p := logging (.isDir p) (fs.isDir p)
  listDir p := logging (.list p) (fs.listDir p)
  readAttrs p := logging (.attrs p) (fs.readAttrs p)
  isRegular p := unlogged (fs.isRegular p)
  isLink p := unlogged (fs.isLink p)
  lstat p := unlogged (fs.lstat p)

/-- The same callbacks, next to the log. -/
def logOpts {σ : Type} (o : ScanOpts (ExceptT Exn (StateM σ))) : ScanOpts (ExceptT Exn (StateM (σ × List Access))) where
  maxDepth := o.maxDepth
  childLimit p := unlogged (o.childLimit p)
  pathComparator := o.pathComparator
  pathFilter p := unlogged (o.pathFilter p)

/-- `Reached log top k q`: `q` is `top` or was found by `k` nested directory listings that start at `top` and are all recorded. -/
inductive Reached (log : List Access) (top : Path) : Nat → Path → Prop where
  | top : Reached log top 0 top
  | child {k d cs bad q} : Reached log top k d → .list d (.opened cs bad) ∈ log → q ∈ cs → Reached log top (k + 1) q

/-- What is required when access `x` happens after the accesses `pre`: a directory is only opened if the previous access said that it is a
directory (links not followed), and only above the maximal depth; attributes are only read if the previous access said that it is not a directory;
everything asked about was reached by at most `max maxDepth 0` listings. -/
def Allowed (top : Path) (maxDepth : Int) (pre : List Access) : Access → Prop
  | .isDir q _ => ∃ k : Nat, (k : Int) ≤ max maxDepth 0 ∧ Reached pre top k q
  | .list q _ => pre.getLast? = some (.isDir q true) ∧ ∃ k : Nat, (k : Int) < maxDepth ∧ Reached pre top k q
  | .attrs q _ => pre.getLast? = some (.isDir q false) ∧ ∃ k : Nat, (k : Int) ≤ max maxDepth 0 ∧ Reached pre top k q

/-- Every recorded access was allowed when it happened. -/
def AllAllowed (top : Path) (maxDepth : Int) (log : List Access) : Prop :=
  ∀ pre x post, log = pre ++ x :: post → Allowed top maxDepth pre x

end Spec
end JFTP
