import Verif.Spec.AddedEntry

/-
A change inside one directory (C91).
-/

namespace JFTP
namespace Spec

/-- Outside `f` the two file systems are the same, possibly listed in another order; nothing is said about `f` and what lies below it. -/
structure SameOutside (fs fs' : PureFs) (f : Path) : Prop where
  isDir : ∀ q, ¬ Inside f q → fs'.isDir q = fs.isDir q
  attrs : ∀ q, ¬ Inside f q → fs'.readAttrs q = fs.readAttrs q
  list : ∀ q, ¬ Inside f q → (fs.listDir q = .openFailed ∧ fs'.listDir q = .openFailed) ∨
    ∃ cs cs' bad, fs.listDir q = .opened cs bad ∧ fs'.listDir q = .opened cs' bad ∧ cs'.Perm cs

/-- `Replaced x x' n t t'`: `t'` is `t` with `x'` in the place of one entry `x`, which is `n` levels below the top. -/
inductive Replaced (x x' : TreeEntry) : Nat → TreeEntry → TreeEntry → Prop where
  | here : Replaced x x' 0 x x'
  | inside {q l1 l2 e e' n} : Replaced x x' n e e' → Replaced x x' (n + 1) (.dir q (l1 ++ e :: l2)) (.dir q (l1 ++ e' :: l2))

/-- The displayed lines `b` are a block of `f`: the first one, at depth `n`, shows the directories `ds` and then `f`; all others are deeper; what they show lies inside `f`. -/
structure IsBlock (f : Path) (n : Nat) (ds : List Path) (b : List (Nat × Item)) : Prop where
  first : ∃ i, b.head? = some (n, i) ∧ (ds.map some ++ [some f]) <+: i.shows
  deeper : ∀ y ∈ b.tail, n < y.1
  inside : ∀ y ∈ b, ∀ q, some q ∈ y.2.shows → q ∈ ds ∨ Inside f q

end Spec
end JFTP
