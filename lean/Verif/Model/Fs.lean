import Verif.Model.JPath

/-
Java exceptions, and the file-system calls of the repository as effectful oracles.
-/

namespace JFTP

/-- The Java exceptions the modelled code throws or lets through. -/
inductive Exn where
  /-- `UncheckedIOException("Unable to list files for directory: " + dir, e)`, scanner/DefaultPathToTreeScanner.java:59 -/
  | cannotList (dir : Path)
  /-- `UncheckedIOException("Unable to read file attributes: " + file, e)`, scanner/DefaultPathToTreeScanner.java:107 -/
  | cannotReadAttrs (file : Path)
  /-- `UncheckedIOException` raised while walking, options/PathMatchers.java:698 or by the `Files.walk` iterator -/
  | cannotWalk (dir : Path)
  /-- `DirectoryIteratorException` thrown by a `DirectoryStream` iterator (JDK) -/
  | dirIteration (dir : Path)
  /-- `NullPointerException` -/
  | nullPointer
  /-- `IllegalArgumentException` -/
  | illegalArgument
  /-- `IllegalStateException` -/
  | illegalState
  /-- `ArrayIndexOutOfBoundsException` -/
  | indexOutOfBounds
  /-- any exception thrown by a user supplied callback -/
  | user (tag : Nat)
deriving DecidableEq, Repr

/-- Is the exception a `java.io.UncheckedIOException`? -/
def Exn.isUncheckedIO : Exn → Bool
  | .cannotList _ | .cannotReadAttrs _ | .cannotWalk _ => true
  | _ => false

/-- The part of `BasicFileAttributes` that the repository reads (renderer/DefaultFileFormatter.java:25,27). -/
structure Attrs where
  isSymbolicLink : Bool
  isOther : Bool
deriving DecidableEq, Repr

/-- What `Files.newDirectoryStream(dir)` and the iteration over it deliver:
either opening fails with an `IOException`, or the entries come one by one and, if `iterFails`, the iterator throws
`DirectoryIteratorException` after the last of them. -/
inductive Listing where
  | openFailed
  | opened (children : List Path) (iterFails : Bool)
deriving DecidableEq, Repr

/-- File-system accesses of the repository, in an arbitrary effect context `m`.
* `isDir p`     — `Files.isDirectory(p, NOFOLLOW_LINKS)` (options/PathMatchers.java:555)
* `listDir p`   — `Files.newDirectoryStream(p, …)` before filtering (scanner/DefaultPathToTreeScanner.java:55), and the directory
                  reads inside `Files.walk` (options/PathMatchers.java:692)
* `readAttrs p` — `Files.readAttributes(p, BasicFileAttributes.class)`, following links (DefaultPathToTreeScanner.java:104);
                  `none` is an `IOException`.
* `isRegular p` — `Files.isRegularFile(p, NOFOLLOW_LINKS)` (PathMatchers.java:586)
* `isLink p`    — `Files.isSymbolicLink(p)` (PathMatchers.java:597)
* `lstat p`     — `Files.readAttributes(p, BasicFileAttributes.class, NOFOLLOW_LINKS)` inside `Files.walk` (PathMatchers.java:692), of which
                  only `isDirectory()` is used; `none` is an `IOException` (no permission, or the file has gone) -/
structure Fs (m : Type → Type) where
  isDir : Path → m Bool
  listDir : Path → m Listing
  readAttrs : Path → m (Option Attrs)
  isRegular : Path → m Bool
  isLink : Path → m Bool
  lstat : Path → m (Option Bool)

/-- A stable file system: every access is a function of the path only. `statFails p`: `p` is not a directory as far as one can see, because its attributes cannot be read
(`Files.isDirectory` answers `false` in this case: JDK contract). -/
structure PureFs where
  isDir : Path → Bool
  listDir : Path → Listing
  readAttrs : Path → Option Attrs
  isRegular : Path → Bool
  isLink : Path → Bool
  statFails : Path → Bool := fun _ => false

/-- The attributes of `p`, not following links. -/
def PureFs.lstat (fs : PureFs) (p : Path) : Option Bool :=
  if fs.isDir p then some true else if fs.statFails p then none else some false

/-- A stable file system seen in any effect context. -/
def PureFs.lift {m : Type → Type} [Monad m] (fs : PureFs) : Fs m where
  isDir p := pure (fs.isDir p)
  listDir p := pure (fs.listDir p)
  readAttrs p := pure (fs.readAttrs p)
  isRegular p := pure (fs.isRegular p)
  isLink p := pure (fs.isLink p)
  lstat p := pure (fs.lstat p)

/-! ### A concrete finite file system (witnesses and link semantics) -/

/-- One entry of a concrete Unix file system (no link followed). -/
inductive Node where
  | regular (size : Nat)
  | special                                     -- fifo, socket, device
  | symlink (target : Path)                     -- absolute target
  | dir (readable : Bool) (children : List (JStr × Node))

/-- Find a child by name (first occurrence). -/
def Node.lookupChild (n : JStr) : List (JStr × Node) → Option Node
  | [] => none
  | (k, v) :: rest => if k = n then some v else lookupChild n rest

/-- The node reached from `t` by following name elements, without following links. -/
def Node.get (t : Node) : List JStr → Option Node
  | [] => some t
  | n :: ns =>
    match t with
    | .dir _ cs => match Node.lookupChild n cs with
      | some c => c.get ns
      | none => none
    | _ => none

/-- The node at an absolute path, not following a final link.
Simplification: links in intermediate directories are not resolved (the scanner never descends through links); `Model/Posix.lean` resolves them, and C108 says when this makes no difference. -/
def Node.at (t : Node) (p : Path) : Option Node := t.get p.names

/-- The node at a path following final links, at most `fuel` of them (the OS gives up with an error after a fixed number). -/
def Node.follow (t : Node) : Nat → Path → Option Node
  | 0, _ => none
  | fuel + 1, p => match t.at p with
    | some (.symlink q) => t.follow fuel q
    | r => r

/-- The file system given by a concrete tree whose root node is `/` (at most 40 links are followed, as on Linux). -/
def Node.toFs (t : Node) : PureFs where
  isDir p := match t.at p with | some (.dir _ _) => true | _ => false
  listDir p := match t.at p with
    | some (.dir true cs) => .opened (cs.map (fun c => p.child c.1)) false
    | _ => .openFailed
  readAttrs p := match t.follow 41 p with
    | some (.regular _) => some ⟨false, false⟩
    | some (.dir _ _) => some ⟨false, false⟩
    | some .special => some ⟨false, true⟩
    | some (.symlink _) => some ⟨true, false⟩        -- unreachable: `follow` never stops at a link
    | none => none
  isRegular p := match t.at p with | some (.regular _) => true | _ => false
  isLink p := match t.at p with | some (.symlink _) => true | _ => false
  statFails p := (t.at p).isNone

end JFTP
