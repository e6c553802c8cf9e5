import Verif.Props.Reorder

/-!
C89: the tree format only decides about the connectors in front of the labels.
-/

namespace JFTP
open Spec

/-- **C89** in every effect context: printing is computing the labels, which does not depend on the tree format, and laying them out with it. In particular every tree
format causes the same accesses to the file system, the same calls of the callbacks and the same exceptions. -/
theorem C89_labels_first {m : Type → Type} [Monad m] [LawfulMonad m] [MonadExceptOf Exn m] (fs : Fs m) (cwd : Path) (o : Options m) (p : Path) :
    ∃ D : m Disp, ∀ f, prettyPrint fs cwd (o.withTreeFormat f) p = picture f <$> D := by
  refine ⟨Scanner.scan fs (o.toScan fs) cwd ((p.toAbsolutePath cwd).normalize) >>=
    dispM ⟨o.toRender.emojiMapping, o.toRender.compactDirectories, extensionOf o.toRender⟩ true, fun f => ?_⟩
  unfold prettyPrint Printer.prettyPrint
  dsimp only
  rw [map_bind]
  show Scanner.scan fs (o.toScan fs) cwd _ >>= _ = _
  congr 1
  funext t
  exact C01_render_is_picture_effectful (o.withTreeFormat f).toRender t

variable {fs : PureFs} {cwd p : Path} {o : Options (Except Exn)} {s s' : JStr} {f g : TreeFormat} {v w : Nat}

/-- **C89**: a call either throws the same exception with all tree formats, or there is one displayed tree and the call returns its picture in the tree format. -/
theorem C89_one_tree (fs : PureFs) (cwd : Path) (o : Options (Except Exn)) (p : Path) :
    (∃ x, ∀ f, prettyPrint fs.lift cwd (o.withTreeFormat f) p = .error x) ∨ ∃ D, ∀ f, prettyPrint fs.lift cwd (o.withTreeFormat f) p = .ok (picture f D) := by
  obtain ⟨D, h⟩ := C89_labels_first fs.lift cwd o p
  cases D with
  | error x => exact .inl ⟨x, h⟩
  | ok D => exact .inr ⟨D, h⟩

/-- **C89**, line by line: the i-th lines of the texts with two tree formats carry the same label at the same depth; both are drawn with the symbols of the format. -/
theorem C89_same_lines (h : prettyPrint fs.lift cwd (o.withTreeFormat f) p = .ok s) (h' : prettyPrint fs.lift cwd (o.withTreeFormat g) p = .ok s') :
    ∃ (xs : List (Nat × JStr)) (ls ls' : List JStr), s = joinLines ls ∧ s' = joinLines ls' ∧ List.Forall₂ (DrawnAt f) xs ls ∧ List.Forall₂ (DrawnAt g) xs ls' := by
  rcases C89_one_tree fs cwd o p with ⟨x, hx⟩ | ⟨D, hD⟩
  · rw [hx] at h; cases h
  · rw [hD] at h h'
    cases h; cases h'
    exact ⟨preorder 0 D, layout f D, layout g D, rfl, rfl, C04_lines_drawn f D, C04_lines_drawn g D⟩

/-- **C89**, lengths: with symbols of the same length the two texts have the same length. -/
theorem C89_same_length (hf : TreeFormatOK f w) (hg : TreeFormatOK g w) (h : prettyPrint fs.lift cwd (o.withTreeFormat f) p = .ok s)
    (h' : prettyPrint fs.lift cwd (o.withTreeFormat g) p = .ok s') : s.length = s'.length := by
  rcases C89_one_tree fs cwd o p with ⟨x, hx⟩ | ⟨D, hD⟩
  · rw [hx] at h; cases h
  · rw [hD] at h h'
    cases h; cases h'
    have h1 := picture_length hf D
    have h2 := picture_length hg D
    omega

/-- **C89**, translation: the text in one readable format determines the text in every other format: decode it and lay it out again. -/
theorem C89_translate (hf : TreeFormatOK f w) (hr : Readable f) (hnl : FormatNoNL f) (h : prettyPrint fs.lift cwd (o.withTreeFormat f) p = .ok s)
    (hc : ∀ t, scanned fs cwd o p = .ok t → CleanText o t) :
    ∃ D, decode f s = some D ∧ ∀ g, prettyPrint fs.lift cwd (o.withTreeFormat g) p = .ok (picture g D) := by
  obtain ⟨t, T, ht, hp⟩ := printed h
  have hc := hc t ht
  have hdec := C03_decode_roundtrip f w hf hr hnl _ (hp.labels_noNL ⟨hc.names, hc.emojis, hc.exts⟩)
  have hs : s = picture f (T.toDisp (lookOf o)) := hp.text
  refine ⟨T.toDisp (lookOf o), by rw [hs]; exact hdec, fun g => ?_⟩
  rcases C89_one_tree fs cwd o p with ⟨x, hx⟩ | ⟨D, hD⟩
  · rw [hx] at h; cases h
  · obtain ⟨t', T', ht', hp'⟩ := printed (hD g)
    have ht2 : scanned fs cwd o p = .ok t' := ht'
    have ht1 : scanned fs cwd o p = .ok t := ht
    rw [ht1] at ht2
    cases ht2
    have hT : ShowsTop (lookOf o) t T := hp.shows
    have hT' : ShowsTop (lookOf o) t T' := hp'.shows
    rw [hD g, hp'.text, hT.unique hT']
    rfl

/-! ### A concrete case -/

namespace Demo

/-- The text of the demo disk in the default format determines its text in the other built-in format. -/
example : ∃ D, decode TreeFormats.UNICODE_BOX_DRAWING (joinLines [j!"r/", j!"├─ a/", j!"│  ├─ x", j!"│  └─ y", j!"├─ b.txt", j!"└─ z?"]) = some D ∧
    ∀ g, prettyPrint dfs.lift Path.root (dflt.withTreeFormat g) r = .ok (picture g D) :=
  C89_translate builtin_formats_ok.1 builtin_formats_ok.2.1 builtin_formats_noNL.1 (o := dflt) printed_found found_clean

example : picture TreeFormats.CLASSIC_ASCII (.node j!"r/" [.node j!"a/" [.node j!"x" [], .node j!"y" []], .node j!"b.txt" [], .node j!"z?" []]) =
    joinLines [j!"r/", j!"|-- a/", j!"│   |-- x", j!"│   `-- y", j!"|-- b.txt", j!"`-- z?"] := rfl

end Demo
end JFTP
