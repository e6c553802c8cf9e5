import Verif.Spec.AddedEntry

/-
The lines that change when an entry is added to a directory (C112).
-/

namespace JFTP
namespace Spec

/-- `q` is listed in `d` and passes its filter. -/
def ShownIn (fs : PureFs) (o : Options (Except Exn)) (d q : Path) : Prop :=
  ∃ cs, fs.listDir d = .opened cs false ∧ q ∈ cs ∧ (fs.isDir q = true → o.dirMatcher q = .ok true) ∧ (fs.isDir q = false → o.fileMatcher q = .ok true)

/-- The lines of several siblings, given the lines of each of them alone: all but the last are attached with the symbol for non-last children and continued with the continuation symbol,
the last one with the symbol for the last child and the empty symbol. -/
def siblings (f : TreeFormat) : List (List JStr) → List JStr
  | [] => []
  | [b] => block (f.lastChildSymbol ++ j!" ") (f.emptySymbol ++ j!" ") b
  | b :: c :: bs => block (f.nonLastChildSymbol ++ j!" ") (f.continuationSymbol ++ j!" ") b ++ siblings f (c :: bs)

/-- What stands before the connectors of the children of a directory at depth `k`: `k` cells, each with the continuation symbol or the empty symbol. -/
def Indent (f : TreeFormat) (k : Nat) (pre : JStr) : Prop :=
  ∃ more : List Bool, more.length = k ∧ pre = more.flatMap (fun b => (if b then f.continuationSymbol else f.emptySymbol) ++ j!" ")

end Spec
end JFTP
