import Verif.Model.Fs

/-
options/PathSorts.java, options/PathSortBuilder.java and the JDK comparator combinators they use.
A comparator is a pure function here: comparators that read the file system take the answers as parameters (a file system that
does not change while one directory is being sorted), and comparators that throw are not modelled.
-/

namespace JFTP

/-- `java.util.Comparator<Path>`. -/
abbrev Cmp := Path → Path → Int

/-- `Integer.compare` / `Long.compare` (JDK). -/
def intCompare (a b : Int) : Int := if a < b then -1 else if a = b then 0 else 1

/-- `Comparator.thenComparing(Comparator)` (JDK). -/
def thenComparing (c d : Cmp) : Cmp := fun a b => let r := c a b; if r ≠ 0 then r else d a b

/-- `Comparator.reversed()` (JDK). -/
def reversed (c : Cmp) : Cmp := fun a b => c b a

namespace PathSorts

/-- Key of options/PathSorts.java:17-19: the file name, `""` for a root. -/
def nameKey (p : Path) : JStr := p.getFileName.getD []

/-- options/PathSorts.java:16-20 -/
def ALPHABETICAL : Cmp := fun a b => compareTo (nameKey a) (nameKey b)

/-- options/PathSorts.java:26-28. `size` is `path.toFile().length()` (JDK), a `long`. -/
def BY_FILE_SIZE (isDir : Path → Bool) (size : Path → Int) : Cmp := fun a b =>
  intCompare (if isDir a then 0 else size a) (if isDir b then 0 else size b)

/-- options/PathSorts.java:34-41 -/
def DIRECTORY_FIRST (isDir : Path → Bool) : Cmp := fun p1 p2 =>
  let isP1Dir := isDir p1
  let isP2Dir := isDir p2
  if isP1Dir = isP2Dir then 0
  else if isP1Dir then -1 else 1

/-- options/PathSorts.java:47 -/
def DIRECTORY_LAST (isDir : Path → Bool) : Cmp := reversed (DIRECTORY_FIRST isDir)

/-- options/PathSorts.java:111-118: the loop over `parts1[i1]`, `parts2[i2]` downwards while both indices are ≥ 1, on the remaining
parts in reverse order (last part first, `parts[0]` excluded). Returns `inl cmp` if it returned from inside the loop, otherwise `inr`
the numbers of parts left on both sides. -/
def extLoop (fold : JChar → JChar) : List JStr → List JStr → Sum Int (Nat × Nat)
  | a :: as, b :: bs =>
    let cmp := compareToIgnoreCase fold a b
    if cmp ≠ 0 then .inl cmp else extLoop fold as bs
  | as, bs => .inr (as.length, bs.length)

/-- options/PathSorts.java:79-128. `p.getFileName()` is never null for the non-directories compared here; the model uses the key `""` for
it (a root path is a directory). Lines 109-124: with `n` parts the loop index starts at `n-1` and ends at 0 (or stays at -1 when `n = 0`, which only happens
for names consisting of dots); comparing the final indices is comparing the numbers of parts left, with -1 for the `n = 0` case. -/
def BY_EXTENSION (fold : JChar → JChar) (isDir : Path → Bool) : Cmp := fun p1 p2 =>
  let isDir1 := isDir p1
  let isDir2 := isDir p2
  if isDir1 then (if isDir2 then 0 else -1)
  else if isDir2 then 1
  else
    let name1 := nameKey p1
    let name2 := nameKey p2
    let parts1 := splitDots name1
    let parts2 := splitDots name2
    if parts1.length = 1 ∧ parts2.length = 1 then compareToIgnoreCase fold name1 name2
    else if parts1.length = 1 then -1
    else if parts2.length = 1 then 1
    else
      match extLoop fold parts1.tail.reverse parts2.tail.reverse with
      | .inl cmp => cmp
      | .inr (r1, r2) =>
        let i1 : Int := if parts1.length = 0 then -1 else r1
        let i2 : Int := if parts2.length = 0 then -1 else r2
        if i1 > i2 then 1
        else if i2 > i1 then -1
        else 0

end PathSorts

/-! ### PathSortBuilder -/

/-- options/PathSortBuilder.java:49 (`Integer.MIN_VALUE`) -/
def HIGHEST_PRECEDENCE : Int := -2147483648
/-- options/PathSortBuilder.java:52 -/
def DEFAULT_PRECEDENCE : Int := 0
/-- options/PathSortBuilder.java:55 (`Integer.MAX_VALUE`) -/
def LOWEST_PRECEDENCE : Int := 2147483647

/-- options/PathSortBuilder.java:57: the rules, in insertion order. -/
structure PathSortBuilder where
  orders : List (Path → Int) := []

namespace PathSortBuilder

/-- options/PathSortBuilder.java:76-85: the loop over the remaining rules with the current `result`. -/
def precedenceLoop (path : Path) : Int → List (Path → Int) → Int
  | result, [] => result
  | _, rule :: rest =>
    let result := rule path
    if result ≠ DEFAULT_PRECEDENCE then result else precedenceLoop path result rest

/-- The comparator object returned by `build()` (options/PathSortBuilder.java:74-87): it holds a copy of the rules (line 75). -/
structure Built where
  immutOrders : List (Path → Int)

/-- options/PathSortBuilder.java:74-75 -/
def build (b : PathSortBuilder) : Built := ⟨b.orders⟩

/-- options/PathSortBuilder.java:76-85 -/
def Built.finalFunction (f : Built) (path : Path) : Int := precedenceLoop path DEFAULT_PRECEDENCE f.immutOrders

/-- options/PathSortBuilder.java:86: use of the built comparator while the builder object is in state `_live`, which it does not read.
(`Comparator.comparing` on `Integer` keys compares them, there is no subtraction.) -/
def Built.compare (f : Built) (_live : PathSortBuilder) : Cmp :=
  thenComparing (fun p q => intCompare (f.finalFunction p) (f.finalFunction q)) PathSorts.ALPHABETICAL

/-- options/PathSortBuilder.java:97-101 -/
def add (b : PathSortBuilder) (order : Path → Int) : PathSortBuilder := ⟨b.orders ++ [order]⟩

/-- options/PathSortBuilder.java:113-116 -/
def addMatching (b : PathSortBuilder) (mt : Path → Bool) (order : Int) : PathSortBuilder :=
  b.add (fun path => if mt path then order else DEFAULT_PRECEDENCE)

/-- options/PathSortBuilder.java:124-126 -/
def addFirst (b : PathSortBuilder) (mt : Path → Bool) : PathSortBuilder := b.addMatching mt HIGHEST_PRECEDENCE

/-- options/PathSortBuilder.java:134-136 -/
def addLast (b : PathSortBuilder) (mt : Path → Bool) : PathSortBuilder := b.addMatching mt LOWEST_PRECEDENCE

end PathSortBuilder

/-- options/PathSorts.java:135-137 -/
def PathSorts.builder : PathSortBuilder := ⟨[]⟩

/-- `Stream.sorted(comparator)` (JDK): a stable sort; used in scanner/DefaultPathToTreeScanner.java:97. -/
def streamSorted (c : Cmp) (l : List Path) : List Path := l.mergeSort (fun a b => decide (c a b ≤ 0))

end JFTP
