import Verif.Spec.Added

/-
One more entry, a file or a directory with everything below it, in a directory (C90).
-/

namespace JFTP
namespace Spec

/-- `q` is `f` or lies below it. -/
def Inside (f q : Path) : Prop := q.abs = f.abs ∧ f.names <+: q.names

/-- The second file system is the first one with one more entry `f` in the directory `d`: nothing is said about `f` and what lies below it, everything else is the same, possibly listed in another order. -/
structure AddedEntry (fs fs' : PureFs) (d f : Path) : Prop where
  isDir_other : ∀ q, ¬ Inside f q → fs'.isDir q = fs.isDir q
  attrs_other : ∀ q, ¬ Inside f q → fs'.readAttrs q = fs.readAttrs q
  list : ∃ cs cs', fs.listDir d = .opened cs false ∧ fs'.listDir d = .opened cs' false ∧ cs'.Perm (f :: cs)
  list_other : ∀ q, q ≠ d → ¬ Inside f q → (fs.listDir q = .openFailed ∧ fs'.listDir q = .openFailed) ∨
    ∃ cs cs' bad, fs.listDir q = .opened cs bad ∧ fs'.listDir q = .opened cs' bad ∧ cs'.Perm cs

end Spec
end JFTP
