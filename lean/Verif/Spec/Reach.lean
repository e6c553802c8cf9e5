import Verif.Spec.Visit

/-
What "child", "descendant", "ancestor" and "way from one path to another" mean.
-/

namespace JFTP
namespace Spec

/-- `Reach fs n d q`: `q` is found in `n` steps from `d`, each step going from a directory to one of its listed entries (links are no directories). -/
inductive Reach (fs : PureFs) : Nat → Path → Path → Prop where
  | child {d q : Path} {cs : List Path} {bad : Bool} : fs.isDir d = true → fs.listDir d = .opened cs bad → q ∈ cs → Reach fs 1 d q
  | down {n : Nat} {d c q : Path} {cs : List Path} {bad : Bool} : fs.isDir d = true → fs.listDir d = .opened cs bad → c ∈ cs → Reach fs n c q → Reach fs (n + 1) d q

/-- All directories found in fewer than `n` steps from `d` can be listed completely, and the attributes of everything found in at most `n` steps can be read. -/
def Listable (fs : PureFs) (n : Nat) (d : Path) : Prop :=
  (fs.isDir d = true → ∃ cs, fs.listDir d = .opened cs false) ∧
  (∀ k q, k < n → Reach fs k d q → fs.isDir q = true → ∃ cs, fs.listDir q = .opened cs false) ∧
  ∀ k q, k ≤ n → Reach fs k d q → fs.lstat q ≠ none

/-- A walk stops at `q`: its attributes cannot be read, or it has to be listed (`n` levels are left) and cannot. -/
def Stuck (fs : PureFs) (n : Nat) (q : Path) : Prop :=
  fs.lstat q = none ∨ (1 ≤ n ∧ fs.isDir q = true ∧ ∀ cs, fs.listDir q ≠ .opened cs false)

/-- `q` is a proper ancestor of `p`: a proper prefix (for relative paths, a non-empty one). -/
def Ancestor (p q : Path) : Prop := q.abs = p.abs ∧ (∃ n ns, p.names = q.names ++ n :: ns) ∧ (p.abs = false → q.names ≠ [])

/-- `w` leads from the names `a` to the names `b`: up to the last common directory, then down. -/
structure Way (a b w : List JStr) : Prop where
  way : ∃ common up down, a = common ++ up ∧ b = common ++ down ∧ w = List.replicate up.length j!".." ++ down ∧
    (∀ x xs y ys, up = x :: xs → down = y :: ys → x ≠ y)

/-- A relative path with the given names; the empty path for no names. -/
def relPath (w : List JStr) : Path := if w = [] then Path.empty else ⟨false, w⟩

end Spec
end JFTP
