import Verif.Lemmas.Handle

/-
Facts about the concrete file systems (`Node`), and a small one used in examples.
-/

namespace JFTP
open Spec

mutual
/-- No directory has two entries of the same name. -/
def Node.WF : Node → Prop
  | .dir _ cs => (cs.map Prod.fst).Nodup ∧ WFAll cs
  | _ => True
/-- The same for lists. -/
def Node.WFAll : List (JStr × Node) → Prop
  | [] => True
  | c :: cs => c.2.WF ∧ WFAll cs
end

theorem Node.WFAll.lookup {n : JStr} {cs : List (JStr × Node)} (h : Node.WFAll cs) {t : Node} (ht : Node.lookupChild n cs = some t) : t.WF := by
  induction cs with
  | nil => cases ht
  | cons c cs ih =>
    obtain ⟨k, v⟩ := c
    rw [Node.WFAll] at h
    rw [Node.lookupChild] at ht
    split at ht
    · cases ht; exact h.1
    · exact ih h.2 ht

theorem Node.WF.get {t : Node} (h : t.WF) {ns : List JStr} {u : Node} (hu : t.get ns = some u) : u.WF := by
  induction ns generalizing t with
  | nil => rw [Node.get] at hu; cases hu; exact h
  | cons n ns ih =>
    rw [Node.get.eq_def] at hu
    cases t with
    | dir r cs =>
      dsimp only at hu
      rw [Node.WF] at h
      split at hu
      · rename_i c hc; exact ih (h.2.lookup hc) hu
      · cases hu
    | regular _ => cases hu
    | special => cases hu
    | symlink _ => cases hu

theorem Path.child_inj {p : Path} {a b : JStr} (h : p.child a = p.child b) : a = b := by
  unfold Path.child at h
  split at h <;> simpa using h

/-- A file system given by a tree without duplicate names satisfies the contract of `DirectoryStream`. -/
theorem Node.WF.proper {t : Node} (h : t.WF) : ProperFs t.toFs := by
  intro p cs bad hl
  have hl : (match t.at p with
    | some (.dir true cs) => Listing.opened (cs.map (fun c : JStr × Node => p.child c.1)) false
    | _ => .openFailed) = .opened cs bad := hl
  split at hl
  · rename_i l hat
    cases hl
    have hw := h.get hat
    rw [Node.WF] at hw
    constructor
    · rw [show (l.map (fun c : JStr × Node => p.child c.1)) = (l.map Prod.fst).map p.child by simp]
      exact hw.1.map (fun a b => Path.child_inj)
    · intro c hc
      obtain ⟨x, _, rfl⟩ := List.mem_map.1 hc
      exact ⟨x.1, rfl⟩
  · cases hl

theorem Node.follow_not_link (t : Node) (fuel : Nat) (p q : Path) : t.follow fuel p ≠ some (.symlink q) := by
  induction fuel generalizing p with
  | zero => simp [Node.follow]
  | succ n ih =>
    rw [Node.follow]
    cases h : t.at p with
    | none => simp
    | some u =>
      cases u with
      | symlink r => exact ih r
      | regular _ => simp
      | special => simp
      | dir _ _ => simp

/-- On every concrete file system attributes are read through links. -/
theorem Node.followsLinks (t : Node) : FollowsLinks t.toFs := by
  intro p a h
  have h : (match t.follow 41 p with
    | some (.regular _) => some (⟨false, false⟩ : Attrs)
    | some (.dir _ _) => some ⟨false, false⟩
    | some .special => some ⟨false, true⟩
    | some (.symlink _) => some ⟨true, false⟩
    | none => none) = some a := h
  split at h
  · cases h; rfl
  · cases h; rfl
  · cases h; rfl
  · rename_i q hq; exact absurd hq (Node.follow_not_link t 41 p q)
  · cases h

namespace Demo

/-- `/r/{b.txt, a/{y, x}, z (special)}` -/
def disk : Node := .dir true [(j!"r", .dir true
  [(j!"b.txt", .regular 3), (j!"a", .dir true [(j!"y", .regular 0), (j!"x", .regular 1)]), (j!"z", .special)])]

def dfs : PureFs := disk.toFs
def r : Path := ⟨true, [j!"r"]⟩
def a : Path := ⟨true, [j!"r", j!"a"]⟩
def x : Path := ⟨true, [j!"r", j!"a", j!"x"]⟩
def y : Path := ⟨true, [j!"r", j!"a", j!"y"]⟩
def b : Path := ⟨true, [j!"r", j!"b.txt"]⟩
def z : Path := ⟨true, [j!"r", j!"z"]⟩

/-- The options with all defaults. -/
def dflt : Options (Except Exn) := Options.createDefault

theorem disk_wf : disk.WF := by
  simp [disk, Node.WF, Node.WFAll]

theorem proper : ProperFs dfs := disk_wf.proper

/-- The entries found below `/r`. -/
def found : TreeEntry :=
  .dir r [.dir a [.file x ⟨false, false⟩, .file y ⟨false, false⟩], .file b ⟨false, false⟩, .file z ⟨false, true⟩]

theorem scanned_spec : Scanned (answers dfs dflt) PathSorts.ALPHABETICAL 20 0 r found := by
  refine Scanned.dir (A := answers dfs dflt) (c := PathSorts.ALPHABETICAL) (maxDepth := 20) (k := 0) (p := r) (n := -1) (cs := [b, a, z]) (ks := [b, a, z]) (srt := [a, b, z])
    (es := [.dir a [.file x ⟨false, false⟩, .file y ⟨false, false⟩], .file b ⟨false, false⟩, .file z ⟨false, true⟩])
    rfl (by decide) rfl rfl (.keep rfl (.keep rfl (.keep rfl .nil))) (by decide) (by decide) ?_
  refine .cons ?_ (.cons (.file rfl rfl) (.cons (.file rfl rfl) .nil))
  exact Scanned.dir (A := answers dfs dflt) (c := PathSorts.ALPHABETICAL) (maxDepth := 20) (k := 1) (p := a) (n := -1) (cs := [y, x]) (ks := [y, x]) (srt := [x, y])
    (es := [.file x ⟨false, false⟩, .file y ⟨false, false⟩])
    rfl (by decide) rfl rfl (.keep rfl (.keep rfl .nil)) (by decide) (by decide) (.cons (.file rfl rfl) (.cons (.file rfl rfl) .nil))

theorem distinguishes : DistinguishesAll PathSorts.ALPHABETICAL dfs := sort_distinguishes lawful_const proper

theorem scanned_found : scanned dfs Path.root dflt r = .ok found :=
  scanned_complete rfl lawful_ALPHABETICAL distinguishes scanned_spec

end Demo
end JFTP
