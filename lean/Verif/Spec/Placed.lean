import Verif.Spec.Visit

/-
Exactly which paths are displayed, and where, when filters, sort order, child limits and maximal depth act together.
-/

namespace JFTP
namespace Spec

/-- The entries of a listing that come before `q`: they pass the filters, and the comparator puts them before it. -/
def earlier (fs : PureFs) (o : Options (Except Exn)) (cs : List Path) (q : Path) : List Path :=
  cs.filter fun c => passes fs o c && decide (o.pathComparator c q < 0)

/-- `Placed fs o top k q`: `q` has a place in the display, `k` levels below the printed path `top`: it is that path, or it is listed in a directory that has a place above the maximal depth, passes
the filters, and fewer entries come before it than the child limit of that directory allows (a negative limit allows any number). -/
inductive Placed (fs : PureFs) (o : Options (Except Exn)) (top : Path) : Nat → Path → Prop where
  | top : Placed fs o top 0 top
  | child {k d cs q n} : Placed fs o top k d → fs.isDir d = true → (k : Int) < o.maxDepth → fs.listDir d = .opened cs false → q ∈ cs → passes fs o q = true →
      o.childLimit d = .ok n → (n < 0 ∨ ((earlier fs o cs q).length : Int) < n) → Placed fs o top (k + 1) q

end Spec
end JFTP
