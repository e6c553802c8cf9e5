import Verif.Spec.Visit

/-
Removing entries from a displayed tree, and comparing filters.
-/

namespace JFTP
namespace Spec

/-- The entry is a marker or its path is to be kept. -/
def keeps (keep : Path → Bool) (e : TreeEntry) : Bool :=
  match entryPath e with
  | none => true
  | some q => keep q

mutual
/-- The tree without the entries (and everything below them) whose path is not to be kept. The top is always kept. -/
def prune (keep : Path → Bool) : TreeEntry → TreeEntry
  | .dir d es => .dir d (pruneAll keep es)
  | .file p a => .file p a
  | .skipped p => .skipped p
  | .maxDepth n => .maxDepth n
/-- The same for lists. -/
def pruneAll (keep : Path → Bool) : List TreeEntry → List TreeEntry
  | [] => []
  | e :: es => if keeps keep e then prune keep e :: pruneAll keep es else pruneAll keep es
end

/-- `o'` accepts at most what `o` accepts, and its filters do not throw. -/
structure Stricter (o o' : Options (Except Exn)) : Prop where
  dirs : ∀ q, o'.dirMatcher q = .ok false ∨ (o'.dirMatcher q = .ok true ∧ o.dirMatcher q = .ok true)
  files : ∀ q, o'.fileMatcher q = .ok false ∨ (o'.fileMatcher q = .ok true ∧ o.fileMatcher q = .ok true)

end Spec
end JFTP
