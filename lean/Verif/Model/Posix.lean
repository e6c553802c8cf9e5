import Verif.Model.Fs

/-
How the operating system finds the entry that a path names, with symbolic links in every place of the path (POSIX.1-2017, 4.13 "Pathname Resolution"). The repository gives its paths to
`java.nio.file.Files`, which gives them to the operating system as they are (scanner/DefaultPathToTreeScanner.java:55,104; options/PathMatchers.java:555,586,597).
Simplifications: no limit on the number of links (a chain of links that never ends leads nowhere, as with the limit of 40 on Linux; a chain of more than 40 links that ends is followed here);
no missing search permissions; one disk, no mounts.
-/

namespace JFTP

/-- `t.Leads d ns r`: on the disk `t` the names `ns`, taken one after the other from the place `/d` on, lead to the place `/r`. Every link is replaced by its target, also the last one; `..` goes to the
directory that contains the place reached so far. -/
inductive Node.Leads (t : Node) : List JStr → List JStr → List JStr → Prop
  | done {d} : Leads t d [] d
  | dot {d ns r b cs} : t.get d = some (.dir b cs) → Leads t d ns r → Leads t d (Path.dotName :: ns) r
  | up {d ns r b cs} : t.get d = some (.dir b cs) → Leads t d.dropLast ns r → Leads t d (Path.dotDotName :: ns) r
  | step {d n ns r x} : n ≠ Path.dotName → n ≠ Path.dotDotName → t.get (d ++ [n]) = some x → (∀ q, x ≠ .symlink q) → Leads t (d ++ [n]) ns r → Leads t d (n :: ns) r
  | link {d n ns r q} : n ≠ Path.dotName → n ≠ Path.dotDotName → t.get (d ++ [n]) = some (.symlink q) → Leads t (if q.abs then [] else d) (q.names ++ ns) r → Leads t d (n :: ns) r

/-- `t.Denotes ns r`: the absolute path with the names `ns` is the entry at the place `/r`, which may be a link: a link in the last position is not followed (`NOFOLLOW_LINKS`). -/
inductive Node.Denotes (t : Node) : List JStr → List JStr → Prop
  | root : Denotes t [] []
  | plain {ns n d x} : n ≠ Path.dotName → n ≠ Path.dotDotName → t.Leads [] ns d → t.get (d ++ [n]) = some x → Denotes t (ns ++ [n]) (d ++ [n])
  | dots {ns n r} : n = Path.dotName ∨ n = Path.dotDotName → t.Leads [] (ns ++ [n]) r → Denotes t (ns ++ [n]) r

open Classical in
/-- The node at a path, links followed except in the last position. -/
noncomputable def Node.entry (t : Node) (p : Path) : Option Node := if h : ∃ r, t.Denotes p.names r then t.get h.choose else none

open Classical in
/-- The node at a path, all links followed. -/
noncomputable def Node.real (t : Node) (p : Path) : Option Node := if h : ∃ r, t.Leads [] p.names r then t.get h.choose else none

/-- The attributes of a node, `Files.readAttributes(p, BasicFileAttributes.class)` (DefaultPathToTreeScanner.java:104). -/
def Node.attrsOf : Node → Attrs
  | .regular _ => ⟨false, false⟩
  | .dir _ _ => ⟨false, false⟩
  | .special => ⟨false, true⟩
  | .symlink _ => ⟨true, false⟩

/-- The answers of the operating system for absolute paths: kinds without following a link in the last position (PathMatchers.java:555,586,597), entries of a directory and attributes with links
followed (DefaultPathToTreeScanner.java:55,104). -/
noncomputable def Node.posix (t : Node) : PureFs where
  isDir p := match t.entry p with | some (.dir _ _) => true | _ => false
  listDir p := match t.real p with
    | some (.dir true cs) => .opened (cs.map (fun c => p.child c.1)) false
    | _ => .openFailed
  readAttrs p := (t.real p).map Node.attrsOf
  isRegular p := match t.entry p with | some (.regular _) => true | _ => false
  isLink p := match t.entry p with | some (.symlink _) => true | _ => false
  statFails p := (t.entry p).isNone

end JFTP
