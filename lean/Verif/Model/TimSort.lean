import Verif.Model.Sorts

/-
The sort of the JDK behind `Stream.sorted(comparator)` (scanner/DefaultPathToTreeScanner.java:98): `java.util.TimSort` (JDK 11 to 25, `sort`, `binarySort`,
`countRunAndMakeAscending`, `minRunLength`, `pushRun`, `mergeCollapse`, `mergeForceCollapse`, `mergeAt`, `gallopLeft`, `gallopRight`, `mergeLo`, `mergeHi`).

A part of the array is the list of its elements; the temporary array and the cursors into it are the list of the elements not yet moved. The loops that are not over a list have an argument
`fuel`, the number of rounds that is enough; going on after that would be `crash`, which is proved not to happen (so these loops end).
-/

namespace JFTP

/-- A run of a sorting method: it has returned, has thrown `IllegalArgumentException` ("Comparison method violates its general contract!"), has accessed an array outside of its bounds
(or, for the model, has made more rounds than it was given `fuel` for), or calls the comparator and goes on depending on the result. -/
inductive SortRun (α : Type) where
  | done (a : α)
  | fail
  | crash
  | ask (a b : Path) (next : Int → SortRun α)

namespace SortRun

/-- One run after the other. -/
def bind {α β : Type} : SortRun α → (α → SortRun β) → SortRun β
  | .done a, f => f a
  | .fail, _ => .fail
  | .crash, _ => .crash
  | .ask a b next, f => .ask a b (fun r => bind (next r) f)

instance : Monad SortRun where
  pure := .done
  bind := bind

/-- `c.compare(a, b)` -/
def compare (a b : Path) : SortRun Int := .ask a b .done

/-- `a[i]` -/
def read (l : List Path) (i : Nat) : SortRun Path :=
  match l[i]? with
  | some x => .done x
  | none => .crash

/-- A run with a comparator. -/
def exec {m : Type → Type} [Monad m] [MonadExceptOf Exn m] {α : Type} (c : Path → Path → m Int) : SortRun α → m α
  | .done a => Pure.pure a
  | .fail => throw Exn.illegalArgument
  | .crash => throw Exn.indexOutOfBounds
  | .ask a b next => do
    let r ← c a b
    exec c (next r)

end SortRun

namespace TimSort
open SortRun

/-! ### Runs and insertion sort -/

/-- `countRunAndMakeAscending` (JDK), the loop of the descending case: `run` is the run so far, reversed; `last` its last element. -/
def descLoop : Path → List Path → List Path → SortRun (List Path × List Path)
  | _, run, [] => pure (run, [])
  | last, run, x :: rest => do
    let r ← compare x last
    if r < 0 then descLoop x (x :: run) rest else return (run, x :: rest)

/-- `countRunAndMakeAscending` (JDK), the loop of the ascending case: `run` is the run so far, last element first. -/
def ascLoop : Path → List Path → List Path → SortRun (List Path × List Path)
  | _, run, [] => pure (run.reverse, [])
  | last, run, x :: rest => do
    let r ← compare x last
    if r ≥ 0 then ascLoop x (x :: run) rest else return (run.reverse, x :: rest)

/-- `countRunAndMakeAscending` (JDK): the first run, in ascending order, and the rest. -/
def countRun : List Path → SortRun (List Path × List Path)
  | [] => pure ([], [])
  | [a] => pure ([a], [])
  | a :: b :: rest => do
    let r ← compare b a
    if r < 0 then descLoop b [b, a] rest else ascLoop b [b, a] rest

/-- `binarySort` (JDK), the search for the position of `pivot` between `left` and `right`. -/
def position (pivot : Path) (sorted : List Path) (left right : Nat) : SortRun Nat :=
  if h : left < right then
    let mid := (left + right) / 2
    do
      let x ← read sorted mid
      let r ← compare pivot x
      if r < 0 then position pivot sorted left mid else position pivot sorted (mid + 1) right
  else pure left
termination_by right - left
decreasing_by all_goals omega

/-- `binarySort` (JDK): `sorted` is the part before `start`. -/
def binarySort : List Path → List Path → SortRun (List Path)
  | sorted, [] => pure sorted
  | sorted, pivot :: rest => do
    let i ← position pivot sorted 0 sorted.length
    binarySort (sorted.insertIdx i pivot) rest

/-- `TimSort.sort` (JDK) for fewer than 32 (`MIN_MERGE`) elements. -/
def small (l : List Path) : SortRun (List Path) := do
  let (run, rest) ← countRun l
  binarySort run rest

/-! ### Galloping -/

/-- `gallopLeft`, `gallopRight` (JDK), the loop that doubles the distance from `hint`: `above r` says that the key belongs after the element it has been compared to, `index ofs` is the
index of the element at the distance `ofs`, `go` what the loop goes on for. (`ofs = (ofs << 1) + 1` becomes negative instead of greater than `maxOfs` for arrays of more than 2³⁰ elements and is then set to `maxOfs`,
as it is here after the loop.) The result is `(lastOfs, ofs)`. -/
def double (key : Path) (run : List Path) (index : Nat → Nat) (go : Int → Bool) (maxOfs : Nat) : Nat → Nat → Nat → SortRun (Nat × Nat)
  | 0, _, _ => .crash
  | fuel + 1, lastOfs, ofs =>
    if ofs < maxOfs then do
      let x ← read run (index ofs)
      let r ← compare key x
      if go r then double key run index go maxOfs fuel ofs (ofs * 2 + 1) else return (lastOfs, ofs)
    else return (lastOfs, maxOfs)

/-- `gallopLeft`, `gallopRight` (JDK), the binary search between `lastOfs` and `ofs`. -/
def search (key : Path) (run : List Path) (above : Int → Bool) : Nat → Nat → Nat → SortRun Nat
  | 0, _, _ => .crash
  | fuel + 1, lastOfs, ofs =>
    if lastOfs < ofs then do
      let m := lastOfs + (ofs - lastOfs) / 2
      let x ← read run m
      let r ← compare key x
      if above r then search key run above fuel (m + 1) ofs else search key run above fuel lastOfs m
    else return ofs

/-- What `gallopLeft` and `gallopRight` (JDK) have in common; they differ in `above`. `start` is `lastOfs` after `lastOfs++`. -/
def gallop (above : Int → Bool) (key : Path) (run : List Path) (hint : Nat) : SortRun Nat := do
  let x ← read run hint
  let r ← compare key x
  if above r then
    let (lastOfs, ofs) ← double key run (fun ofs => hint + ofs) above (run.length - hint) (run.length + 1) 0 1
    search key run above (run.length + 1) (lastOfs + hint + 1) (ofs + hint)
  else
    let (lastOfs, ofs) ← double key run (fun ofs => hint - ofs) (fun r => !above r) (hint + 1) (run.length + 1) 0 1
    search key run above (run.length + 1) (hint + 1 - ofs) (hint - lastOfs)

/-- `gallopLeft` (JDK): the position of `key` in `run`, before equal elements. -/
def gallopLeft (key : Path) (run : List Path) (hint : Nat) : SortRun Nat := gallop (fun r => decide (r > 0)) key run hint

/-- `gallopRight` (JDK): the position of `key` in `run`, after equal elements. -/
def gallopRight (key : Path) (run : List Path) (hint : Nat) : SortRun Nat := gallop (fun r => decide (r ≥ 0)) key run hint

/-! ### Merging -/

/-- `MIN_GALLOP` (JDK) -/
def MIN_GALLOP : Nat := 7

/-- The variables of `mergeLo` and `mergeHi` (JDK): what has been merged, what is left of the two runs, `minGallop`. -/
structure Merging where
  out : List Path
  run1 : List Path
  run2 : List Path
  minGallop : Int

/-- `mergeLo` (JDK), after the loop. -/
def finishLo (s : Merging) : SortRun (List Path × Int) :=
  let minGallop := if s.minGallop < 1 then 1 else s.minGallop
  if s.run1.length = 1 then return (s.out ++ s.run2 ++ s.run1, minGallop)
  else if s.run1.length = 0 then .fail
  else return (s.out ++ s.run1 ++ s.run2, minGallop)

/-- `mergeLo` (JDK), the body of the first inner loop: one comparison. `true` stands for `break outer`. -/
def stepLo (s : Merging) (count1 count2 : Nat) : SortRun (Merging × Nat × Nat × Bool) := do
  let y ← read s.run2 0
  let x ← read s.run1 0
  let r ← compare y x
  if r < 0 then
    let s := { s with out := s.out ++ [y], run2 := s.run2.drop 1 }
    return (s, 0, count2 + 1, s.run2.length = 0)
  else
    let s := { s with out := s.out ++ [x], run1 := s.run1.drop 1 }
    return (s, count1 + 1, 0, s.run1.length = 1)

/-- `mergeLo` (JDK), the body of the second inner loop (galloping). -/
def gallopLo (s : Merging) : SortRun (Merging × Nat × Nat × Bool) := do
  let y ← read s.run2 0
  let count1 ← gallopRight y s.run1 0
  let s := { s with out := s.out ++ s.run1.take count1, run1 := s.run1.drop count1 }
  if count1 ≠ 0 ∧ s.run1.length ≤ 1 then return (s, count1, 0, true)
  let s := { s with out := s.out ++ [y], run2 := s.run2.drop 1 }
  if s.run2.length = 0 then return (s, count1, 0, true)
  let x ← read s.run1 0
  let count2 ← gallopLeft x s.run2 0
  let s := { s with out := s.out ++ s.run2.take count2, run2 := s.run2.drop count2 }
  if count2 ≠ 0 ∧ s.run2.length = 0 then return (s, count1, count2, true)
  let s := { s with out := s.out ++ [x], run1 := s.run1.drop 1 }
  if s.run1.length = 1 then return (s, count1, count2, true)
  return ({ s with minGallop := s.minGallop - 1 }, count1, count2, false)

/-- `mergeLo` and `mergeHi` (JDK), the outer loop: `step` and `gallop` are the bodies of the two inner loops, `inGallop` says in which of them we are. -/
def mergeLoop (step : Merging → Nat → Nat → SortRun (Merging × Nat × Nat × Bool)) (gallop : Merging → SortRun (Merging × Nat × Nat × Bool)) :
    Nat → Bool → Merging → Nat → Nat → SortRun Merging
  | 0, _, _, _, _ => .crash
  | fuel + 1, false, s, count1, count2 => do
    let (s, count1, count2, stop) ← step s count1 count2
    if stop then return s
    mergeLoop step gallop fuel (!decide (((count1 ||| count2 : Nat) : Int) < s.minGallop)) s count1 count2
  | fuel + 1, true, s, _, _ => do
    let (s, count1, count2, stop) ← gallop s
    if stop then return s
    if count1 ≥ MIN_GALLOP ∨ count2 ≥ MIN_GALLOP then mergeLoop step gallop fuel true s 0 0
    else mergeLoop step gallop fuel false { s with minGallop := (if s.minGallop < 0 then 0 else s.minGallop) + 2 } 0 0

/-- `mergeLo` (JDK): merges two adjacent runs, `run1` has been copied to the temporary array. -/
def mergeLo (minGallop : Int) (run1 run2 : List Path) : SortRun (List Path × Int) := do
  let y ← read run2 0
  let s : Merging := { out := [y], run1, run2 := run2.drop 1, minGallop }
  if s.run2.length = 0 then return (s.out ++ s.run1, minGallop)
  if s.run1.length = 1 then return (s.out ++ s.run2 ++ s.run1, minGallop)
  let s ← mergeLoop stepLo gallopLo (run1.length + run2.length) false s 0 0
  finishLo s

/-- `mergeHi` (JDK), after the loop. -/
def finishHi (s : Merging) : SortRun (List Path × Int) :=
  let minGallop := if s.minGallop < 1 then 1 else s.minGallop
  if s.run2.length = 1 then return (s.run2 ++ s.run1 ++ s.out, minGallop)
  else if s.run2.length = 0 then .fail
  else return (s.run1 ++ s.run2 ++ s.out, minGallop)

/-- `mergeHi` (JDK), the body of the first inner loop. -/
def stepHi (s : Merging) (count1 count2 : Nat) : SortRun (Merging × Nat × Nat × Bool) := do
  let y ← read s.run2 (s.run2.length - 1)
  let x ← read s.run1 (s.run1.length - 1)
  let r ← compare y x
  if r < 0 then
    let s := { s with out := x :: s.out, run1 := s.run1.take (s.run1.length - 1) }
    return (s, count1 + 1, 0, s.run1.length = 0)
  else
    let s := { s with out := y :: s.out, run2 := s.run2.take (s.run2.length - 1) }
    return (s, 0, count2 + 1, s.run2.length = 1)

/-- `mergeHi` (JDK), the body of the second inner loop (galloping). -/
def gallopHi (s : Merging) : SortRun (Merging × Nat × Nat × Bool) := do
  let y ← read s.run2 (s.run2.length - 1)
  let k ← gallopRight y s.run1 (s.run1.length - 1)
  let count1 := s.run1.length - k
  let s := { s with out := s.run1.drop k ++ s.out, run1 := s.run1.take k }
  if count1 ≠ 0 ∧ s.run1.length = 0 then return (s, count1, 0, true)
  let s := { s with out := y :: s.out, run2 := s.run2.take (s.run2.length - 1) }
  if s.run2.length = 1 then return (s, count1, 0, true)
  let x ← read s.run1 (s.run1.length - 1)
  let k ← gallopLeft x s.run2 (s.run2.length - 1)
  let count2 := s.run2.length - k
  let s := { s with out := s.run2.drop k ++ s.out, run2 := s.run2.take k }
  if count2 ≠ 0 ∧ s.run2.length ≤ 1 then return (s, count1, count2, true)
  let s := { s with out := x :: s.out, run1 := s.run1.take (s.run1.length - 1) }
  if s.run1.length = 0 then return (s, count1, count2, true)
  return ({ s with minGallop := s.minGallop - 1 }, count1, count2, false)

/-- `mergeHi` (JDK): merges two adjacent runs from the end, `run2` has been copied to the temporary array. -/
def mergeHi (minGallop : Int) (run1 run2 : List Path) : SortRun (List Path × Int) := do
  let x ← read run1 (run1.length - 1)
  let s : Merging := { out := [x], run1 := run1.take (run1.length - 1), run2, minGallop }
  if s.run1.length = 0 then return (s.run2 ++ s.out, minGallop)
  if s.run2.length = 1 then return (s.run2 ++ s.run1 ++ s.out, minGallop)
  let s ← mergeLoop stepHi gallopHi (run1.length + run2.length) false s 0 0
  finishHi s

/-- `mergeAt` (JDK) for two adjacent runs: the merged run, and the new `this.minGallop`. -/
def mergeRuns (minGallop : Int) (run1 run2 : List Path) : SortRun (List Path × Int) := do
  let first ← read run2 0
  let k ← gallopRight first run1 0
  if run1.length - k = 0 then return (run1 ++ run2, minGallop)
  let last ← read (run1.drop k) (run1.length - k - 1)
  let len2 ← gallopLeft last run2 (run2.length - 1)
  if len2 = 0 then return (run1 ++ run2, minGallop)
  let (merged, minGallop) ← if run1.length - k ≤ len2 then mergeLo minGallop (run1.drop k) (run2.take len2) else mergeHi minGallop (run1.drop k) (run2.take len2)
  return (run1.take k ++ merged ++ run2.drop len2, minGallop)

/-! ### The stack of pending runs -/

/-- The fields of a `TimSort` object (JDK): the pending runs, last one first, and `minGallop`. -/
structure Pending where
  runs : List (List Path)
  minGallop : Int

/-- `mergeCollapse` (JDK): the test `n > 1 && runLen[n-2] <= runLen[n] + runLen[n-1]` -/
def deeperTest (y z : List Path) : List (List Path) → Bool
  | w :: _ => w.length ≤ y.length + z.length
  | [] => false

/-- `mergeCollapse` (JDK): `fuel` is the number of pending runs. -/
def mergeCollapse : Nat → Pending → SortRun Pending
  | 0, _ => .crash
  | fuel + 1, ts =>
    match ts.runs with
    | x :: y :: z :: older =>
      if z.length ≤ y.length + x.length ∨ deeperTest y z older then
        if z.length < x.length then do
          let (m, minGallop) ← mergeRuns ts.minGallop z y
          mergeCollapse fuel { runs := x :: m :: older, minGallop }
        else do
          let (m, minGallop) ← mergeRuns ts.minGallop y x
          mergeCollapse fuel { runs := m :: z :: older, minGallop }
      else if y.length > x.length then return ts
      else do
        let (m, minGallop) ← mergeRuns ts.minGallop y x
        mergeCollapse fuel { runs := m :: z :: older, minGallop }
    | [x, y] =>
      if y.length > x.length then return ts
      else do
        let (m, minGallop) ← mergeRuns ts.minGallop y x
        mergeCollapse fuel { runs := [m], minGallop }
    | _ => return ts

/-- `mergeForceCollapse` (JDK): `fuel` is the number of pending runs. -/
def mergeForceCollapse : Nat → Pending → SortRun Pending
  | 0, _ => .crash
  | fuel + 1, ts =>
    match ts.runs with
    | x :: y :: z :: older =>
      if z.length < x.length then do
        let (m, minGallop) ← mergeRuns ts.minGallop z y
        mergeForceCollapse fuel { runs := x :: m :: older, minGallop }
      else do
        let (m, minGallop) ← mergeRuns ts.minGallop y x
        mergeForceCollapse fuel { runs := m :: z :: older, minGallop }
    | [x, y] => do
      let (m, minGallop) ← mergeRuns ts.minGallop y x
      mergeForceCollapse fuel { runs := [m], minGallop }
    | _ => return ts

/-- `stackLen` in the constructor of `TimSort` (JDK): the size of the arrays `runBase` and `runLen`. (No array has more than 2³¹-1 elements; the last case is without meaning.) -/
def stackLen (len : Nat) : Nat := if len < 120 then 5 else if len < 1542 then 10 else if len < 119151 then 24 else if len ≤ 2147483647 then 49 else len

/-- `pushRun` (JDK): `runBase[stackSize] = …` -/
def pushRun (size : Nat) (run : List Path) (ts : Pending) : SortRun Pending :=
  if ts.runs.length < size then return { ts with runs := run :: ts.runs } else .crash

/-- `minRunLength` (JDK): `r` is 1 if a bit has been shifted off. -/
def minRunLoop (n r : Nat) : Nat := if h : n ≥ 32 then minRunLoop (n / 2) (r ||| n % 2) else n + r
termination_by n

/-- `minRunLength` (JDK) -/
def minRunLength (n : Nat) : Nat := minRunLoop n 0

/-- `TimSort.sort` (JDK), the loop over the array: `rest` is the part from `lo` on. -/
def sortLoop (minRun size : Nat) : Nat → List Path → Pending → SortRun Pending
  | 0, _, _ => .crash
  | fuel + 1, rest, ts => do
    let (run, after) ← countRun rest
    let force := if rest.length ≤ minRun then rest.length else minRun
    let (run, after) ← if run.length < minRun then do
        let run' ← binarySort run (after.take (force - run.length))
        pure (run', after.drop (force - run.length))
      else pure (run, after)
    let ts ← pushRun size run ts
    let ts ← mergeCollapse ts.runs.length ts
    if after.length ≠ 0 then sortLoop minRun size fuel after ts else return ts

/-- `TimSort.sort` (JDK) for 32 elements and more. -/
def big (l : List Path) : SortRun (List Path) := do
  let ts ← sortLoop (minRunLength l.length) (stackLen l.length) l.length l { runs := [], minGallop := MIN_GALLOP }
  let ts ← mergeForceCollapse ts.runs.length ts
  match ts.runs with
  | [l] => return l
  | _ => .crash

/-- `TimSort.sort` (JDK). -/
def sort (l : List Path) : SortRun (List Path) :=
  if l.length < 2 then pure l
  else if l.length < 32 then small l
  else big l

end TimSort
end JFTP
