import Verif.Props.Kinds
import Verif.Lemmas.Compose
import Verif.Lemmas.RealNames

/-!
C61: the text of a directory is put together from the texts of its children.
-/

namespace JFTP
open Spec

section
variable {fs : PureFs} {cwd : Path} {o : Options (Except Exn)} {p : Path} {s : JStr}

/-- **C61**: the text printed for a directory is its own line followed by one block per displayed child. The block of a child is the text `prettyPrint` returns for that child alone, with a max depth
smaller by one, each line behind its tree symbols; the block of a marker is `...`. (In compact mode a child that shows nothing but one directory is merged with it, so its own text may look different.)
No assumption on filters, limits, comparator, emojis and extensions, which may also throw. -/
theorem C61_children (hw : cwd.abs = true) (hfs : RealNames fs) {D : Int} (h : prettyPrint fs.lift cwd (o.withMaxDepth (D + 1)) p = .ok s)
    (hd : fs.isDir (target cwd p) = true) :
    ∃ es header blocks, scanned fs cwd (o.withMaxDepth (D + 1)) p = .ok (.dir (target cwd p) es) ∧
      s = joinLines (header :: stack o.treeFormat blocks) ∧
      List.Forall₂ (fun e block => match entryPath e with
        | none => block = [j!"..."]
        | some q => (o.compactDirectories = true ∧ SingleDir e) ∨ prettyPrint fs.lift cwd (o.withMaxDepth D) q = .ok (joinLines block)) es blocks := by
  have h0 := h
  rw [prettyPrint_eq] at h
  obtain ⟨t, ht, h⟩ := except_bind_ok h
  have hs := ht
  rw [scanned_eq fs hw] at hs
  rw [C01_render_is_picture_effectful] at h
  obtain ⟨T, hT, h⟩ : ∃ T, dispM ⟨o.emojiMapping, o.compactDirectories, extensionOf o.toRender⟩ true t = .ok T ∧ s = picture o.treeFormat T := by
    revert h
    show picture o.treeFormat <$> dispM ⟨o.emojiMapping, o.compactDirectories, extensionOf o.toRender⟩ true t = .ok s → _
    cases dispM ⟨o.emojiMapping, o.compactDirectories, extensionOf o.toRender⟩ true t with
    | error e => intro h; cases h
    | ok T => intro h; cases h; exact ⟨T, rfl, rfl⟩
  cases t with
  | skipped q => have := handle_top _ _ _ _ _ hs; cases this
  | maxDepth q => have := handle_top _ _ _ _ _ hs; cases this
  | file q a =>
    rw [Scanner.handle] at hs
    obtain ⟨b, hb, hs⟩ := except_bind_ok hs
    have hb : fs.isDir (target cwd p) = b := Except.ok.inj hb
    rw [← hb, hd] at hs
    simp only [if_true] at hs
    split at hs
    · cases hs
    · unfold Scanner.handleDirectory at hs
      obtain ⟨r, _, hs⟩ := except_bind_ok hs
      cases r with
      | openFailed => cases hs
      | opened cs bad => obtain ⟨es, _, hs⟩ := except_bind_ok hs; cases hs
  | dir d es =>
    obtain ⟨rfl, hes⟩ := handle_dir_ok hs
    obtain ⟨n, x, ks, h1, h2, h3, rfl⟩ := dispM_dir_ok hT
    refine ⟨es, n ++ x.getD [], ks.map (layout o.treeFormat), ht, ?_, ?_⟩
    · rw [h, picture, layout, layoutKids_stack]
    · rw [List.forall₂_map_right_iff]
      have hk := dispKidsM_forall₂ h3
      have hall := (List.forall₂_and_left (p := fun e => e ∈ es) es ks).2 ⟨fun e he => he, hk⟩
      refine hall.imp (fun e k he => ?_)
      obtain ⟨he, hk⟩ := he
      rcases hes e he with hn | ⟨cs, bad, c, hl, hc, hh⟩
      · rw [hn]
        dsimp only
        cases e with
        | dir _ _ => cases hn
        | file _ _ => cases hn
        | skipped q => rw [dispM] at hk; cases hk; simp [layout, layoutKids]
        | maxDepth q => rw [dispM] at hk; cases hk; simp [layout, layoutKids]
      · have hp := handle_top _ _ _ _ _ hh
        rw [hp]
        dsimp only
        by_cases hm : o.compactDirectories = true ∧ SingleDir e
        · exact .inl hm
        · right
          obtain ⟨nm, rfl, hn1, hn2⟩ := hfs _ _ _ hl c hc
          have hsh := handle_shift fs.lift (o.toScan fs.lift) D 0 ((target cwd p).child nm)
          have hsh' : Scanner.handle fs.lift ((o.withMaxDepth (D + 1)).toScan fs.lift) (0 + 1) ((target cwd p).child nm) =
            bump <$> Scanner.handle fs.lift ((o.withMaxDepth D).toScan fs.lift) 0 ((target cwd p).child nm) := hsh
          rw [hh] at hsh'
          cases ho : Scanner.handle fs.lift ((o.withMaxDepth D).toScan fs.lift) 0 ((target cwd p).child nm) with
          | error x => rw [ho] at hsh'; cases hsh'
          | ok e' =>
            rw [ho] at hsh'
            have he' : e = bump e' := Except.ok.inj hsh'
            have hs' : scanned fs cwd (o.withMaxDepth D) ((target cwd p).child nm) = .ok e' := by
              rw [scanned_eq fs hw, target_child hw hn1 hn2, ho]
            rw [prettyPrint_eq, hs']
            show Renderer.renderRoot _ _ e' = _
            rw [C01_render_is_picture_effectful]
            have hk' : dispM ⟨o.emojiMapping, o.compactDirectories, extensionOf o.toRender⟩ true e' = .ok k := by
              rw [← dispM_bump, ← he', dispM_top_eq _ e ?_]
              · exact hk
              · by_cases hc : o.compactDirectories = false
                · exact .inl hc
                · right; intro hse; exact hm ⟨by simpa using hc, hse⟩
            show picture o.treeFormat <$> dispM ⟨o.emojiMapping, o.compactDirectories, extensionOf o.toRender⟩ true e' = _
            rw [hk']
            rfl

end

/-- Example: `/r/{a/{x, y}, b.txt, z}` printed with the default options. -/
example := C61_children (o := Demo.dflt) (D := 19) rfl Demo.real Demo.printed_found rfl

end JFTP
