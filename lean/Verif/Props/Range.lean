import Verif.Spec.Range
import Verif.Props.Connect
import Verif.Props.Recreate
import Verif.Props.Snapshot

/-
C120: the texts that the default options can return.
-/

namespace JFTP
open Spec

namespace Range
open Recreate

abbrev dflt : Options (Except Exn) := Options.createDefault

theorem usual_lookup {n : JStr} {cs : List (JStr × Node)} (h : UsualAll cs) {c : Node} (hc : Node.lookupChild n cs = some c) : FileName n ∧ Usual c := by
  induction cs with
  | nil => cases hc
  | cons x cs ih =>
    obtain ⟨k, v⟩ := x
    rw [UsualAll] at h
    rw [Node.lookupChild] at hc
    split at hc
    · rename_i hk
      cases hc
      exact ⟨hk ▸ h.1, h.2.1⟩
    · exact ih h.2.2 hc

theorem usual_get {t u : Node} (h : Usual t) {ns : List JStr} (hu : t.get ns = some u) : Usual u ∧ ∀ n ∈ ns, FileName n := by
  induction ns generalizing t with
  | nil => rw [Node.get] at hu; cases hu; exact ⟨h, by simp⟩
  | cons n ns ih =>
    rw [Node.get.eq_def] at hu
    cases t with
    | dir r cs =>
      dsimp only at hu
      rw [Usual] at h
      split at hu
      · rename_i c hc
        obtain ⟨h1, h2⟩ := usual_lookup h.2 hc
        obtain ⟨h3, h4⟩ := ih h2 hu
        exact ⟨h3, fun m hm => by
          rcases List.mem_cons.1 hm with rfl | hm
          · exact h1
          · exact h4 m hm⟩
      · cases hu
    | regular _ => cases hu
    | special => cases hu
    | symlink _ => cases hu

theorem bareName_make (D : Disp) : bareName D = (make D).1 := by
  cases D
  rw [bareName, make]
  split <;> rfl

theorem last_of {disk : Node} (hU : Usual disk) {q : Path} (hq : q.names ≠ []) {u : Node} (hu : disk.at q = some u) : FileName (lastName q) :=
  (usual_get hU hu).2 _ (List.mem_of_getLast? (OnePage.name_some hq))

theorem at_dir {disk : Node} {q : Path} (h : disk.toFs.isDir q = true) : ∃ b cs, disk.at q = some (.dir b cs) := by
  have h : (match disk.at q with | some (.dir _ _) => true | _ => false) = true := h
  split at h
  · rename_i b cs hb; exact ⟨b, cs, hb⟩
  · cases h

theorem at_file {disk : Node} (hU : Usual disk) {q : Path} {a : Attrs} (h : disk.toFs.isDir q = false) (ha : disk.toFs.readAttrs q = some a) : ∃ n, disk.at q = some (.regular n) := by
  have h : (match disk.at q with | some (.dir _ _) => true | _ => false) = false := h
  have ha : (match disk.follow 41 q with
      | some (.regular _) => some (⟨false, false⟩ : Attrs)
      | some (.dir _ _) => some ⟨false, false⟩
      | some .special => some ⟨false, true⟩
      | some (.symlink _) => some ⟨true, false⟩
      | none => none) = some a := ha
  cases hq : disk.at q with
  | none => rw [Node.follow, hq] at ha; cases ha
  | some u =>
    have := (usual_get hU hq).1
    cases u with
    | dir b cs => rw [hq] at h; cases h
    | regular n => exact ⟨n, rfl⟩
    | special => cases this
    | symlink _ => cases this

mutual
theorem possible_of {disk : Node} (hd : disk.WF) (hU : Usual disk) {k : Nat} (hk20 : k ≤ 20) {p : Path} {e : TreeEntry} (h : Scanned (answers disk.toFs dflt) PathSorts.ALPHABETICAL 20 k p e) (hn : Named e) :
    Possible k (lab e) ∧ bareName (lab e) = lastName p := by
  cases h with
  | @file _ _ a h1 h2 =>
    rw [Named] at hn
    obtain ⟨n, hat⟩ := at_file hU h1 h2
    have hf := last_of hU hn hat
    have ha : a = ⟨false, false⟩ := by
      have := (disk_file hat).2
      rw [show disk.toFs.readAttrs p = some a from h2] at this
      exact Option.some.inj this
    subst ha
    have : lab (.file p ⟨false, false⟩) = .node (lastName p) [] := by rw [lab]; simp [fileMark]
    rw [this]
    exact ⟨.file hf, by rw [bareName_make, make_file hf.2.2.2.1]⟩
  | tooDeep h1 h2 =>
    obtain ⟨b, cs, hat⟩ := at_dir h1
    have hf := last_of hU hn.1 hat
    have h20 : k = 20 := by omega
    subst h20
    have : lab (.dir p [.maxDepth 20]) = .node (lastName p ++ j!"/") [.node j!"..." []] := by rw [lab]; rfl
    rw [this]
    exact ⟨.cut hf, by rw [bareName_make, make_dir]⟩
  | @dir _ _ n cs ks srt es h1 hk h2 h3 h4 h5 h6 h7 =>
    have hneg : n < 0 := by cases h2; decide
    have hm : ∀ l, moreMark n l p = [] := by intro l; unfold moreMark; rw [if_neg (by omega)]
    have hl : ∀ l, limitTo n l = l := by intro l; unfold limitTo; rw [if_pos hneg]
    rw [hl] at h7
    rw [hm, List.append_nil] at hn ⊢
    obtain ⟨b, cs', hat⟩ := at_dir h1
    have hf := last_of hU hn.1 hat
    have h8 := possibles_of hd hU (by omega) h7 hn.2
    obtain ⟨hnd, hch⟩ := hd.proper p cs false h3
    have hks : srt.Nodup := h5.nodup_iff.2 (h4.subset.nodup hnd)
    have hlt : srt.Pairwise (fun a b => Smaller (lastName a) (lastName b)) := by
      refine (h6.and hks).imp_of_mem ?_
      rintro x y hx hy ⟨hxy, hne⟩
      unfold PathSorts.ALPHABETICAL at hxy
      rw [nameKey_eq, nameKey_eq] at hxy
      refine (C08_string_order _ _).1.1 (lt_of_le_of_ne hxy fun h0 => hne ?_)
      have h0 := (C08_string_order _ _).2.1 h0
      obtain ⟨u, rfl⟩ := hch x (h4.subset.subset (h5.mem_iff.1 hx))
      obtain ⟨v, rfl⟩ := hch y (h4.subset.subset (h5.mem_iff.1 hy))
      rw [lastName_child, lastName_child] at h0
      rw [h0]
    have hnames : es.map (fun e => bareName (lab e)) = srt.map lastName := by
      clear hlt hks h6 h5 h7 hn
      induction h8 with
      | nil => rfl
      | cons h _ ih => simp [h.2, ih]
    refine ⟨?_, by rw [bareName_make, lab, make_dir]⟩
    rw [lab, labAll_eq]
    refine .dir hf (by omega) ?_ ?_
    · intro c hc
      obtain ⟨e, he, rfl⟩ := List.mem_map.1 hc
      obtain ⟨_, _, h9⟩ := forall₂_mem h8.flip he
      exact h9.1
    · rw [List.pairwise_map]
      have : (es.map (fun e => bareName (lab e))).Pairwise Smaller := by
        rw [hnames, List.pairwise_map]
        exact hlt
      rwa [List.pairwise_map] at this
termination_by (20 - k, 0)
decreasing_by exact Prod.Lex.left _ _ (by omega)
theorem possibles_of {disk : Node} (hd : disk.WF) (hU : Usual disk) {k : Nat} (hk20 : k ≤ 20) {ps : List Path} {es : List TreeEntry} (h : ScannedAll (answers disk.toFs dflt) PathSorts.ALPHABETICAL 20 k ps es)
    (hn : NamedAll es) : List.Forall₂ (fun p e => Possible k (lab e) ∧ bareName (lab e) = lastName p) ps es := by
  match ps, es, h with
  | _, _, .nil => exact .nil
  | _, _, .cons h1 h2 => exact .cons (possible_of hd hU hk20 h1 hn.1) (possibles_of hd hU hk20 h2 hn.2)
termination_by (20 - k, ps.length + 1)
end

/-- A possible tree comes from entries, and what is made from it can be printed. -/
theorem key_of_possible {k : Nat} {D : Disp} (h : Possible k D) : FileName (bareName D) ∧ Usual (make D).2 ∧ ∃ e, lab e = D ∧ Key k e := by
  induction h with
  | @file k n hf =>
    have hm : make (.node n []) = (n, .regular 0) := make_file hf.2.2.2.1 _
    have hl : lab (.file ⟨true, [n]⟩ ⟨false, false⟩) = .node n [] := by rw [lab]; simp [fileMark, lastName]
    refine ⟨by rw [bareName_make, hm]; exact hf, by rw [hm]; trivial, .file ⟨true, [n]⟩ ⟨false, false⟩, hl, ?_⟩
    unfold Key
    rw [hl, hm]
    refine ⟨trivial, fun disk q hw hq hne hat hn => ?_⟩
    exact ⟨.file q ⟨false, false⟩, .file (disk_file hat).1 (disk_file hat).2, by rw [lab, hn]; simp [fileMark], by rw [skeleton, skeleton, hn]; rfl, hne⟩
  | @cut n hf =>
    have hm : make (.node (n ++ j!"/") [.node j!"..." []]) = (n, .dir true [(j!"...", .regular 0)]) := by rw [make_dir]; rfl
    have hl : lab (.dir ⟨true, [n]⟩ [.maxDepth 20]) = .node (n ++ j!"/") [.node j!"..." []] := by rw [lab]; rfl
    refine ⟨by rw [bareName_make, hm]; exact hf, by rw [hm]; refine ⟨rfl, ?_, trivial, trivial⟩; unfold FileName; decide, .dir ⟨true, [n]⟩ [.maxDepth 20], hl, ?_⟩
    unfold Key
    rw [hl, hm]
    refine ⟨by simp [Node.WF, Node.WFAll], fun disk q hw hq hne hat hn => ?_⟩
    exact ⟨.dir q [.maxDepth 20], .tooDeep (disk_isDir hat) (by decide), by rw [lab, hn]; rfl, by rw [skeleton, skeleton, hn]; rfl, hne, trivial, trivial⟩
  | @dir k n ks hf hk hp hs ih =>
    have hes : ∃ es : List TreeEntry, labAll es = ks ∧ List.Forall₂ (fun p e => Key (k + 1) e ∧ (make (lab e)).1 = lastName p) (ks.map fun c => (⟨true, [bareName c]⟩ : Path)) es := by
      clear hs hp
      induction ks with
      | nil => exact ⟨[], rfl, .nil⟩
      | cons c ks ih' =>
        obtain ⟨es, h1, h2⟩ := ih' (fun x hx => ih x (.tail _ hx))
        obtain ⟨_, _, e, h3, h4⟩ := ih c (.head _)
        exact ⟨e :: es, by rw [labAll, h1, h3], .cons ⟨h4, by rw [h3, ← bareName_make]; rfl⟩ h2⟩
    obtain ⟨es, h1, h2⟩ := hes
    have hl : lab (.dir ⟨true, [n]⟩ es) = .node (n ++ j!"/") ks := by rw [lab, h1]; rfl
    refine ⟨by rw [bareName_make, make_dir]; exact hf, ?_, .dir ⟨true, [n]⟩ es, hl, ?_⟩
    · rw [make_dir]
      refine ⟨rfl, ?_⟩
      clear hs hp h1 h2 hl
      induction ks with
      | nil => trivial
      | cons c ks ih' =>
        obtain ⟨h3, h4, _⟩ := ih c (.head _)
        rw [bareName_make] at h3
        exact ⟨h3, h4, ih' (fun x hx => ih x (.tail _ hx))⟩
    · have hlt : ks.Pairwise (fun a b => compareTo (bareName a) (bareName b) < 0) := hs.imp fun h => (C08_string_order _ _).1.2 h
      refine make_dir_key hk rfl h2 ?_ ?_
      · rw [List.map_map]
        show (ks.map bareName).Nodup
        rw [List.Nodup, List.pairwise_map]
        refine hlt.imp fun {a b} h h0 => ?_
        rw [(C08_string_order _ _).2.2 h0] at h
        omega
      · rw [List.pairwise_map]
        refine hlt.imp fun {a b} h => ?_
        unfold PathSorts.ALPHABETICAL
        rw [nameKey_eq, nameKey_eq]
        exact Int.le_of_lt h

end Range

/-- **C120**: the texts that the default options return for regular files and readable directories are exactly the pictures of the possible trees. -/
theorem C120_default_texts (s : JStr) :
    (∃ (disk : Node) (cwd p : Path), disk.WF ∧ Usual disk ∧ cwd.abs = true ∧ prettyPrint disk.toFs.lift cwd (Options.createDefault (m := Except Exn)) p = .ok s) ↔
      ∃ D, Possible 0 D ∧ s = picture TreeFormats.UNICODE_BOX_DRAWING D := by
  constructor
  · rintro ⟨disk, cwd, p, hd, hU, hw, h⟩
    obtain ⟨t, E, ht, hE, hs⟩ := prettyPrint_disp.1 h
    have hb : Recreate.Bare (labelling (Options.createDefault (m := Except Exn))) := ⟨fun _ => rfl, rfl, fun _ => rfl⟩
    obtain ⟨hnamed, -⟩ := dispM_ok_shows _ _ hE
    rw [Recreate.disp_lab hb true t hnamed] at hE
    cases hE
    have hscan := scanned_sound hw lawful_ALPHABETICAL ht
    exact ⟨Recreate.lab t, (Range.possible_of hd hU (by omega) hscan hnamed).1, hs⟩
  · rintro ⟨D, hD, rfl⟩
    obtain ⟨hf, hU, e, rfl, hkey⟩ := Range.key_of_possible hD
    rw [Range.bareName_make] at hf
    have hwf : (made (Recreate.lab e)).WF := by
      unfold made
      rw [Node.WF, Node.WFAll, Node.WFAll]
      exact ⟨List.nodup_singleton _, hkey.1, trivial⟩
    refine ⟨made (Recreate.lab e), Path.root, ⟨true, [(make (Recreate.lab e)).1]⟩, hwf, ⟨rfl, hf, hU, trivial⟩, rfl, ?_⟩
    have hroot : target Path.root ⟨true, [(make (Recreate.lab e)).1]⟩ = ⟨true, [(make (Recreate.lab e)).1]⟩ := by
      refine target_self rfl (fun n h => ?_)
      rw [List.mem_singleton.1 h]
      exact ⟨hf.2.1, hf.2.2.1⟩
    have hat : (made (Recreate.lab e)).at ⟨true, [(make (Recreate.lab e)).1]⟩ = some (make (Recreate.lab e)).2 := by
      show (made (Recreate.lab e)).get [(make (Recreate.lab e)).1] = _
      simp [made, Node.get, Node.lookupChild]
    obtain ⟨t', h1, h2, -, h3⟩ := hkey.2 (made (Recreate.lab e)) ⟨true, [(make (Recreate.lab e)).1]⟩ hwf rfl (by simp) hat rfl
    refine prettyPrint_disp.2 ⟨t', Recreate.lab t', ?_, Recreate.disp_lab ⟨fun _ => rfl, rfl, fun _ => rfl⟩ true t' h3, by rw [h2]; rfl⟩
    refine scanned_complete (o := Options.createDefault (m := Except Exn)) rfl lawful_ALPHABETICAL (sort_distinguishes lawful_const hwf.proper) ?_
    rw [hroot]
    exact h1

namespace Range

theorem preorderKids_mem {m : Nat} {ks : List Disp} {x : Nat × JStr} (h : x ∈ preorderKids m ks) : ∃ c ∈ ks, x ∈ preorder m c := by
  induction ks with
  | nil => cases h
  | cons k ks ih =>
    rw [preorderKids] at h
    rcases List.mem_append.1 h with h | h
    · exact ⟨k, .head _, h⟩
    · obtain ⟨c, h1, h2⟩ := ih h
      exact ⟨c, .tail _ h1, h2⟩

theorem possible_noNL {k : Nat} {D : Disp} (h : Possible k D) : ∀ m, ∀ x ∈ preorder m D, NoNL x.2 := by
  have slash : ∀ {n : JStr}, FileName n → NoNL (n ++ j!"/") := by
    intro n hn
    unfold NoNL
    rw [List.mem_append]
    rintro (h | h)
    · exact hn.2.2.2.2.2 h
    · revert h; decide
  induction h with
  | file hf =>
    intro m x hx
    rw [preorder, preorderKids] at hx
    rw [List.mem_singleton.1 hx]
    exact hf.2.2.2.2.2
  | cut hf =>
    intro m x hx
    simp only [preorder, preorderKids, List.append_nil, List.mem_cons, List.not_mem_nil, or_false] at hx
    rcases hx with rfl | rfl
    · exact slash hf
    · show NoNL j!"..."
      unfold NoNL; decide
  | dir hf _ _ _ ih =>
    intro m x hx
    rw [preorder] at hx
    rcases List.mem_cons.1 hx with rfl | hx
    · exact slash hf
    · obtain ⟨c, h1, h2⟩ := preorderKids_mem hx
      exact ih c h1 _ x h2

end Range

/-- **C120**: whether a given text can be returned is decided by reading it back. -/
theorem C120_recognised (s : JStr) :
    (∃ (disk : Node) (cwd p : Path), disk.WF ∧ Usual disk ∧ cwd.abs = true ∧ prettyPrint disk.toFs.lift cwd (Options.createDefault (m := Except Exn)) p = .ok s) ↔
      ∃ D, decode TreeFormats.UNICODE_BOX_DRAWING s = some D ∧ Possible 0 D ∧ picture TreeFormats.UNICODE_BOX_DRAWING D = s := by
  rw [C120_default_texts]
  refine exists_congr fun D => ⟨?_, fun h => ⟨h.2.1, h.2.2.symm⟩⟩
  rintro ⟨hD, rfl⟩
  refine ⟨C03_decode_roundtrip _ 2 Recreate.unicode.1 Recreate.unicode.2.1 Recreate.unicode.2.2 D ?_, hD, rfl⟩
  intro l hl
  obtain ⟨x, hx, rfl⟩ := List.mem_map.1 hl
  exact Range.possible_noNL hD 0 x hx

namespace Range

theorem name_a : FileName j!"a" := by unfold FileName; decide
theorem name_b : FileName j!"b" := by unfold FileName; decide
theorem name_r : FileName j!"r" := by unfold FileName; decide

/-- This text is returned for some directory. -/
example : ∃ (disk : Node) (cwd p : Path), disk.WF ∧ Usual disk ∧ cwd.abs = true ∧ prettyPrint disk.toFs.lift cwd (Options.createDefault (m := Except Exn)) p = .ok j!"r/\n├─ a/\n│  └─ b\n└─ b" := by
  refine (C120_default_texts _).2 ⟨.node j!"r/" [.node j!"a/" [.node j!"b" []], .node j!"b" []], ?_, by decide⟩
  refine .dir (n := j!"r") name_r (by decide) ?_ (by unfold Smaller; simp only [List.pairwise_cons, List.mem_singleton, forall_eq]; exact ⟨.rel (by decide), by simp, .nil⟩)
  intro c hc
  simp only [List.mem_cons, List.not_mem_nil, or_false] at hc
  rcases hc with rfl | rfl
  · refine .dir (n := j!"a") name_a (by decide) (fun c hc => ?_) (List.pairwise_singleton _ _)
    rw [List.mem_singleton.1 hc]
    exact .file name_b
  · exact .file name_b

/-- A line that leads nowhere is not returned for any directory. -/
example : ¬ ∃ (disk : Node) (cwd p : Path), disk.WF ∧ Usual disk ∧ cwd.abs = true ∧ prettyPrint disk.toFs.lift cwd (Options.createDefault (m := Except Exn)) p = .ok j!"r/\n├─ a" := by
  rw [C120_recognised]
  rintro ⟨D, h1, h2, h3⟩
  have h4 : decode TreeFormats.UNICODE_BOX_DRAWING j!"r/\n├─ a" = some (.node j!"r/" [.node j!"a" []]) := by
    unfold decode
    rw [show linesOf j!"r/\n├─ a" = [j!"r/", j!"├─ a"] by decide]
    simp only [decodeKids, List.takeWhile_nil, List.dropWhile_nil, List.map_nil]
    rfl
  cases h4.symm.trans h1
  revert h3
  decide

end Range
end JFTP
