import Verif.Spec.Visit
import Verif.Spec.Layout

/-
Trees narrowed by child limits (C12), and trees with the children of every entry in another order (C88).
-/

namespace JFTP
namespace Spec

mutual
/-- The entry tree with limits on the children: a directory with more than `lim d` children keeps the first `lim d`, followed by the marker. Negative limits are no limits. -/
def narrow (lim : Path → Int) : TreeEntry → TreeEntry
  | .dir d es =>
    if 0 ≤ lim d ∧ lim d < (es.filterMap entryPath).length then .dir d ((narrowAll lim es).take (lim d).toNat ++ [.skipped d])
    else .dir d (narrowAll lim es)
  | .file p a => .file p a
  | .skipped d => .skipped d
  | .maxDepth n => .maxDepth n
/-- The same for every entry of a list (no entry is removed from the list itself). -/
def narrowAll (lim : Path → Int) : List TreeEntry → List TreeEntry
  | [] => []
  | e :: es => narrow lim e :: narrowAll lim es
end

mutual
/-- The two entry trees have the same entries with the same children, in another order. -/
inductive Reordered : TreeEntry → TreeEntry → Prop where
  | dir {d es es' es''} : ReorderedAll es es' → es'.Perm es'' → Reordered (.dir d es) (.dir d es'')
  | file {p a} : Reordered (.file p a) (.file p a)
  | skipped {d} : Reordered (.skipped d) (.skipped d)
  | maxDepth {n} : Reordered (.maxDepth n) (.maxDepth n)
/-- The same for the entries of two lists, pair by pair. -/
inductive ReorderedAll : List TreeEntry → List TreeEntry → Prop where
  | nil : ReorderedAll [] []
  | cons {e e' es es'} : Reordered e e' → ReorderedAll es es' → ReorderedAll (e :: es) (e' :: es')
end

mutual
/-- The two displayed trees have the same labels with the same children, in another order. -/
inductive Shuffled : Disp → Disp → Prop where
  | node {l ks ks' ks''} : ShuffledAll ks ks' → ks'.Perm ks'' → Shuffled (.node l ks) (.node l ks'')
/-- The same for the trees of two lists, pair by pair. -/
inductive ShuffledAll : List Disp → List Disp → Prop where
  | nil : ShuffledAll [] []
  | cons {k k' ks ks'} : Shuffled k k' → ShuffledAll ks ks' → ShuffledAll (k :: ks) (k' :: ks')
end

end Spec
end JFTP
