import Verif.Spec.Compose
import Verif.Lemmas.Disk

/-
Concrete disks whose listings contain real names only.
-/

namespace JFTP
open Spec

mutual
/-- No entry of the disk is called `.` or `..`. -/
def Node.Real : Node → Prop
  | .dir _ cs => RealAll cs
  | _ => True
/-- The same for lists. -/
def Node.RealAll : List (JStr × Node) → Prop
  | [] => True
  | c :: cs => (c.1 ≠ j!"." ∧ c.1 ≠ j!"..") ∧ c.2.Real ∧ RealAll cs
end

theorem Node.RealAll.mem {cs : List (JStr × Node)} (h : Node.RealAll cs) {c : JStr × Node} (hc : c ∈ cs) : (c.1 ≠ j!"." ∧ c.1 ≠ j!"..") ∧ c.2.Real := by
  induction cs with
  | nil => cases hc
  | cons d cs ih =>
    rw [Node.RealAll] at h
    cases hc with
    | head => exact ⟨h.1, h.2.1⟩
    | tail _ hc => exact ih h.2.2 hc

theorem Node.RealAll.lookup {n : JStr} {cs : List (JStr × Node)} (h : Node.RealAll cs) {t : Node} (ht : Node.lookupChild n cs = some t) : t.Real := by
  induction cs with
  | nil => cases ht
  | cons c cs ih =>
    obtain ⟨k, v⟩ := c
    rw [Node.RealAll] at h
    rw [Node.lookupChild] at ht
    split at ht
    · cases ht; exact h.2.1
    · exact ih h.2.2 ht

theorem Node.Real.get {t : Node} (h : t.Real) {ns : List JStr} {u : Node} (hu : t.get ns = some u) : u.Real := by
  induction ns generalizing t with
  | nil => rw [Node.get] at hu; cases hu; exact h
  | cons n ns ih =>
    rw [Node.get.eq_def] at hu
    cases t with
    | dir r cs =>
      dsimp only at hu
      rw [Node.Real] at h
      split at hu
      · rename_i c hc; exact ih (h.lookup hc) hu
      · cases hu
    | regular _ => cases hu
    | special => cases hu
    | symlink _ => cases hu

theorem Node.Real.realNames {t : Node} (h : t.Real) : RealNames t.toFs := by
  intro p cs bad hl c hc
  have hl : (match t.at p with
    | some (.dir true cs) => Listing.opened (cs.map (fun c : JStr × Node => p.child c.1)) false
    | _ => .openFailed) = .opened cs bad := hl
  split at hl
  · rename_i l hat
    cases hl
    have hw := h.get hat
    rw [Node.Real] at hw
    obtain ⟨x, hx, rfl⟩ := List.mem_map.1 hc
    exact ⟨x.1, rfl, (hw.mem hx).1⟩
  · cases hl

theorem Demo.real : RealNames Demo.dfs := Node.Real.realNames (by simp [Demo.disk, Node.Real, Node.RealAll])

end JFTP
