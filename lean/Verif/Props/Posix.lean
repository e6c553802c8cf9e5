import Verif.Lemmas.Posix

/-
C108: symbolic links on the way to the printed path.
-/

namespace JFTP
open Spec OnePage

variable {t : Node}

theorem get_child (hd : t.WF) {r : List JStr} {b : Bool} {cs : List (JStr × Node)} (h : t.get r = some (.dir b cs)) {n : JStr} {c : Node} (hc : (n, c) ∈ cs) : t.get (r ++ [n]) = some c := by
  have hw := hd.get h
  rw [Node.WF] at hw
  rw [get_append, h]
  show Node.get (.dir b cs) [n] = some c
  simp only [Node.get, lookup_mem hw.1 hc]

theorem denotes_child (hd : t.WF) (hn : t.NamesAre NoDots) {ns r : List JStr} (hl : t.Leads [] ns r) {b : Bool} {cs : List (JStr × Node)} (h : t.get r = some (.dir b cs)) {n : JStr} {c : Node}
    (hc : (n, c) ∈ cs) : t.Denotes (ns ++ [n]) (r ++ [n]) := by
  have hN := hn.get h
  rw [Node.NamesAre] at hN
  obtain ⟨h1, h2⟩ := hN.mem hc
  exact .plain h1 h2 hl (get_child hd h hc)

theorem posix_isDir {p : Path} {r : List JStr} (h : t.Denotes p.names r) : t.posix.isDir p = (match t.get r with | some (.dir _ _) => true | _ => false) := by
  simp only [Node.posix, t.entry_of h]; rfl

/-- The answers for the path of an entry show the tree that lies at its place. -/
theorem posix_holds (hd : t.WF) (hn : t.NamesAre NoDots) {r : List JStr} {T : FileTree} (hT : Lies t r T) : ∀ {ns : List JStr}, t.Denotes ns r → Holds t.posix ⟨true, ns⟩ T := by
  induction hT with
  | @regular r n h =>
    intro ns hns
    have hl : t.Leads [] ns r := hns.leads fun q e => by rw [h] at e; cases e
    have ha : t.posix.readAttrs ⟨true, ns⟩ = some ⟨false, false⟩ := by simp only [Node.posix, t.real_of (p := ⟨true, ns⟩) hl, h]; rfl
    rw [← ha]
    exact .file (by rw [posix_isDir (p := ⟨true, ns⟩) hns, h])
  | @special r h =>
    intro ns hns
    have hl : t.Leads [] ns r := hns.leads fun q e => by rw [h] at e; cases e
    have ha : t.posix.readAttrs ⟨true, ns⟩ = some ⟨false, true⟩ := by simp only [Node.posix, t.real_of (p := ⟨true, ns⟩) hl, h]; rfl
    rw [← ha]
    exact .file (by rw [posix_isDir (p := ⟨true, ns⟩) hns, h])
  | @link r q e x h he hx =>
    intro ns hns
    have hl : t.Leads [] ns e := by
      have := (hns.same hns.place []).1 e
      rw [List.append_nil, List.append_nil] at this
      exact this.2 he
    have ha : t.posix.readAttrs ⟨true, ns⟩ = some x.attrsOf := by simp only [Node.posix, t.real_of (p := ⟨true, ns⟩) hl, hx]; rfl
    rw [← ha]
    exact .file (by rw [posix_isDir (p := ⟨true, ns⟩) hns, h])
  | @lost r q h he =>
    intro ns hns
    have hl : ∀ e, ¬ t.Leads [] ns e := by
      intro e hl
      have := (hns.same hns.place []).1 e
      rw [List.append_nil, List.append_nil] at this
      exact he e (this.1 hl)
    have ha : t.posix.readAttrs ⟨true, ns⟩ = none := by simp only [Node.posix, t.real_none (p := ⟨true, ns⟩) hl]; rfl
    rw [← ha]
    exact .file (by rw [posix_isDir (p := ⟨true, ns⟩) hns, h])
  | @closed r cs h =>
    intro ns hns
    have hl : t.Leads [] ns r := hns.leads fun q e => by rw [h] at e; cases e
    refine .closed (by rw [posix_isDir (p := ⟨true, ns⟩) hns, h]) fun cs' hc => ?_
    simp only [Node.posix, t.real_of (p := ⟨true, ns⟩) hl, h] at hc
    cases hc
  | @dir r cs es h hf _ ih =>
    intro ns hns
    have hl : t.Leads [] ns r := hns.leads fun q e => by rw [h] at e; cases e
    refine .dir (by rw [posix_isDir (p := ⟨true, ns⟩) hns, h]) ?_ fun e he => ?_
    · simp only [Node.posix, t.real_of (p := ⟨true, ns⟩) hl, h]
      rw [show (cs.map fun c => Path.child ⟨true, ns⟩ c.1) = (cs.map Prod.fst).map (Path.child ⟨true, ns⟩) by simp, ← hf]
      simp
    · rw [child_abs rfl]
      have hm : e.1 ∈ cs.map Prod.fst := hf ▸ List.mem_map.2 ⟨e, he, rfl⟩
      obtain ⟨c, hc, hce⟩ := List.mem_map.1 hm
      have := denotes_child hd hn hl h (n := c.1) (c := c.2) hc
      rw [hce] at this
      exact ih e he this

/-- Something lies at every place. -/
theorem lies_total (hd : t.WF) (x : Node) (r : List JStr) (h : t.get r = some x) : ∃ T, Lies t r T := by
  match x with
  | .regular n => exact ⟨_, .regular h⟩
  | .special => exact ⟨_, .special h⟩
  | .symlink q =>
    by_cases he : ∃ e x, t.Leads [] r e ∧ t.get e = some x
    · obtain ⟨e, x, h1, h2⟩ := he; exact ⟨_, .link h h1 h2⟩
    · refine ⟨_, .lost h fun e hl => he ?_⟩
      have hc := hl.canon .nil
      rcases List.eq_nil_or_concat e with rfl | ⟨d, n, rfl⟩
      · exact ⟨[], t, hl, rfl⟩
      · rw [List.concat_eq_append] at hc hl
        obtain ⟨-, -, x, hx, -⟩ := hc d n [] rfl
        exact ⟨_, x, hl, hx⟩
  | .dir false cs => exact ⟨_, .closed h⟩
  | .dir true cs =>
    have hk : ∀ l : List (JStr × Node), (∀ c ∈ l, c ∈ cs) → ∃ es : List (JStr × FileTree), es.map Prod.fst = l.map Prod.fst ∧ ∀ e ∈ es, Lies t (r ++ [e.1]) e.2 := by
      intro l
      induction l with
      | nil => intro _; exact ⟨[], rfl, fun e he => by cases he⟩
      | cons c l ih =>
        intro hl
        obtain ⟨es, h1, h2⟩ := ih fun c hc => hl c (by simp [hc])
        have hc := hl c (by simp)
        have : sizeOf c.2 < 1 + sizeOf true + sizeOf cs := by
          have := List.sizeOf_lt_of_mem hc
          cases c; simp at this ⊢; omega
        obtain ⟨T, hT⟩ := lies_total hd c.2 (r ++ [c.1]) (get_child hd h hc)
        exact ⟨(c.1, T) :: es, by simp [h1], fun e he => by
          rcases List.mem_cons.1 he with rfl | he
          · exact hT
          · exact h2 e he⟩
    obtain ⟨es, h1, h2⟩ := hk cs fun _ h => h
    exact ⟨_, .dir h h1 h2⟩
termination_by sizeOf x

theorem Node.Leads.denotes {ns r : List JStr} (h : t.Leads [] ns r) : ∃ e, t.Denotes ns e := by
  rcases List.eq_nil_or_concat ns with rfl | ⟨ns, n, rfl⟩
  · exact ⟨_, .root⟩
  · rw [List.concat_eq_append] at h ⊢
    obtain ⟨d, h1, h2⟩ := h.split rfl
    cases h2 with
    | dot g1 g2 => exact ⟨_, .dots (.inl rfl) h⟩
    | up g1 g2 => exact ⟨_, .dots (.inr rfl) h⟩
    | step g1 g2 g3 => exact ⟨_, .plain g1 g2 h1 g3⟩
    | link g1 g2 g3 => exact ⟨_, .plain g1 g2 h1 g3⟩

variable {cwd cwd' p p' : Path} {o : Options (Except Exn)} {S : Settings}

/-- **C108**: let the printed path be the entry at the place `/r` of a disk, with any links on the way. The text is that of the tree that lies at this place: links below it are single lines, nothing from
behind them is printed. For every options. -/
theorem C108_text (hd : t.WF) (hn : t.NamesAre NoDots) (hw : cwd.abs = true) (ho : Obeys o S) (hc : LawfulCmp S.order) {r : List JStr} (h : t.Denotes (target cwd p).names r) {T : FileTree}
    (hT : Lies t r T) (s : JStr) : prettyPrint t.posix.lift cwd o p = .ok s ↔ OnePage.text S (target cwd p) T = some s := by
  refine C100_one_page hd.posix_proper hw ho hc ?_ s
  have := posix_holds hd hn hT h
  rw [← target_abs (p := p) hw] at this
  exact this

/-- **C108**, such a tree exists for every entry. -/
theorem C108_tree (hd : t.WF) {ns r : List JStr} (h : t.Denotes ns r) : ∃ T, Lies t r T := by
  cases h with
  | root => exact lies_total hd t [] rfl
  | plain _ _ _ h => exact lies_total hd _ _ h
  | dots _ h =>
    have hc := h.canon .nil
    rcases List.eq_nil_or_concat r with rfl | ⟨d, n, rfl⟩
    · exact lies_total hd t [] rfl
    · rw [List.concat_eq_append] at hc ⊢
      obtain ⟨-, -, x, hx, -⟩ := hc d n [] rfl
      exact lies_total hd x _ hx

/-- **C108**, if the path is no entry, nothing is printed. -/
theorem C108_nothing (hd : t.WF) (hw : cwd.abs = true) (ho : Obeys o S) (hc : LawfulCmp S.order) (h : ∀ r, ¬ t.Denotes (target cwd p).names r) (s : JStr) :
    prettyPrint t.posix.lift cwd o p ≠ .ok s := by
  intro hs
  have hl : ∀ r, ¬ t.Leads [] (target cwd p).names r := fun r hl => by obtain ⟨e, he⟩ := hl.denotes; exact h e he
  have hh : Holds t.posix (target cwd p) (.file (t.posix.readAttrs (target cwd p))) := .file (by simp only [Node.posix, t.entry_none h])
  have ha : t.posix.readAttrs (target cwd p) = none := by simp only [Node.posix, t.real_none hl]; rfl
  rw [C100_one_page hd.posix_proper hw ho hc hh, ha] at hs
  simp [OnePage.text, OnePage.complete] at hs

theorem target_under (hw : cwd.abs = true) : target cwd p = under (target cwd p).names [] := by
  have := target_abs (p := p) hw
  generalize target cwd p = q at this
  obtain ⟨a, ns⟩ := q
  simp only at this
  simp [under, this]

theorem target_last (hw : cwd.abs = true) {r : List JStr} (h : t.Denotes (target cwd p).names r) : (target cwd p).names.getLast? = r.getLast? := by
  have hcl := target_clean (p := p) hw
  generalize (target cwd p).names = ns at h hcl
  cases h with
  | root => rfl
  | plain => simp
  | dots h1 =>
    have := hcl _ (List.mem_append_right _ (List.mem_singleton.2 rfl))
    rcases h1 with rfl | rfl
    · exact absurd rfl this.1
    · exact absurd rfl this.2

/-- **C108**, the way does not matter: two paths of the same entry are printed with the same text, whatever links are on the way. -/
theorem C108_through (hd : t.WF) (hw : cwd.abs = true) (hw' : cwd'.abs = true) {r : List JStr} (h : t.Denotes (target cwd p).names r) (h' : t.Denotes (target cwd' p').names r) (s : JStr) :
    prettyPrint t.posix.lift cwd' (Options.createDefault (m := Except Exn)) p' = .ok s ↔ prettyPrint t.posix.lift cwd (Options.createDefault (m := Except Exn)) p = .ok s :=
  C83_default hw hw' (h.sameBelow h') hd.posix_proper hd.posix_proper (target_under hw) (target_under hw') ((target_last hw' h').trans (target_last hw h).symm) s

/-- **C108**, the same for all options without user-written functions. -/
theorem C108_through_builtin (hd : t.WF) (hw : cwd.abs = true) (hw' : cwd'.abs = true) {r : List JStr} (h : t.Denotes (target cwd p).names r) (h' : t.Denotes (target cwd' p').names r)
    (fmt : TreeFormat) (limit depth : Int) (compact : Bool) (em : Option (EmojiMapping × EmojiMappingBuilder (Except Exn)))
    (hem : ∀ f live, em = some (f, live) → live.dirMatchersEmojis = [] ∧ live.fileMatchersEmojis = []) (s : JStr) :
    prettyPrint t.posix.lift cwd' (simpleOptions t.posix fmt limit depth compact em) p' = .ok s ↔ prettyPrint t.posix.lift cwd (simpleOptions t.posix fmt limit depth compact em) p = .ok s :=
  C83_builtin hw hw' (h.sameBelow h') hd.posix_proper hd.posix_proper (target_under hw) (target_under hw') ((target_last hw' h').trans (target_last hw h).symm) fmt limit depth compact em hem s

/-- **C108**, a link in the last position: if the printed path is a link that leads to something, only one line is printed, with the name of the link, even if it leads to a directory. -/
theorem C108_link (hd : t.WF) (hn : t.NamesAre NoDots) (hw : cwd.abs = true) (ho : Obeys o S) (hc : LawfulCmp S.order) {r : List JStr} (h : t.Denotes (target cwd p).names r) {q : Path}
    (hr : t.get r = some (.symlink q)) (hne : r ≠ []) {e : List JStr} {x : Node} (hl : t.Leads [] r e) (hx : t.get e = some x) :
    prettyPrint t.posix.lift cwd o p = .ok (icon (S.emoji (target cwd p)) ++ r.getLastD [] ++ mark x.attrsOf ++ (S.ext (target cwd p)).getD []) := by
  rw [C108_text hd hn hw ho hc h (.link hr hl hx)]
  have hlast := target_last hw h
  have hne' : (target cwd p).names ≠ [] := by intro he; rw [he] at hlast; exact hne (List.getLast?_eq_none_iff.1 hlast.symm)
  unfold OnePage.text
  rw [if_pos ⟨hne', by rw [OnePage.complete]; rfl⟩, OnePage.block]
  simp [OnePage.name, List.getLastD_eq_getLast?, hlast]

/-! ### The given path and the printed path -/

theorem normNames_snoc (ns : List JStr) (n : JStr) : Path.normNames true (ns ++ [n]) = (Path.normStep true (Path.normNames true ns).reverse n).reverse := by
  simp [Path.normNames, List.foldl_append]

theorem Node.Leads.lexical : ∀ {a : List JStr}, NoLinkOn t a → ∀ {d}, t.Leads [] a d → Path.normNames true a = d := by
  intro a
  induction a using List.reverseRecOn with
  | nil => intro _ d h; cases h; rfl
  | append_singleton a n ih =>
    intro hno d h
    obtain ⟨m, h1, h2⟩ := h.split rfl
    have hno' : NoLinkOn t a := by
      intro k r q hk
      refine hno (min k a.length) r q ?_
      rw [List.take_append_of_le_length (by omega), ← List.take_eq_take_min]
      exact hk
    have ih := ih hno' h1
    rw [normNames_snoc, ih]
    have hc := h1.canon .nil
    unfold Path.normStep
    cases h2 with
    | dot g1 g2 => cases g2; simp
    | up g1 g2 =>
      cases g2
      rw [if_neg (by decide), if_pos rfl]
      rcases List.eq_nil_or_concat m with rfl | ⟨m', x, rfl⟩
      · rfl
      · rw [List.concat_eq_append] at hc ⊢
        obtain ⟨-, hx, -⟩ := hc m' x [] rfl
        simp [hx]
    | step g1 g2 g3 g4 g5 => cases g5; rw [if_neg g1, if_neg g2]; simp
    | link g1 g2 g3 g5 =>
      exact absurd g3 (hno (a.length + 1) _ _ (by rw [List.take_of_length_le (by simp)]; exact .plain g1 g2 h1 g3))

theorem normNames_plain (a : List JStr) : ∀ {c : List JStr}, (∀ n ∈ c, NoDots n) → Path.normNames true (a ++ c) = Path.normNames true a ++ c := by
  intro c
  induction c using List.reverseRecOn with
  | nil => intro _; simp
  | append_singleton c n ih =>
    intro hc
    rw [← List.append_assoc, normNames_snoc, ih fun n hn => hc n (by simp [hn])]
    obtain ⟨h1, h2⟩ := hc n (by simp)
    unfold Path.normStep
    rw [if_neg (show n ≠ Path.dotName from h1), if_neg (show n ≠ Path.dotDotName from h2)]
    simp

/-- **C108**, the given path: if behind the first link on the way there is neither `.` nor `..`, then what is printed is the entry that the operating system finds at the given path. -/
theorem C108_meant (hw : cwd.abs = true) {a c r : List JStr} (hp : (p.toAbsolutePath cwd).names = a ++ c) (ha : NoLinkOn t a) (hc : ∀ n ∈ c, NoDots n)
    (h : t.Denotes (p.toAbsolutePath cwd).names r) : t.Denotes (target cwd p).names r := by
  have ht : (target cwd p).names = Path.normNames true a ++ c := by
    unfold target
    rw [Path.normalize_abs (Path.toAbsolutePath_abs hw), hp, normNames_plain a hc]
  rw [ht]
  rw [hp] at h
  rcases List.eq_nil_or_concat c with rfl | ⟨c, n, rfl⟩
  · rw [List.append_nil] at h ⊢
    have hl : t.Leads [] a r := h.leads fun q => ha a.length r q (by rw [List.take_length]; exact h)
    rw [hl.lexical ha]
    exact h.place
  · rw [List.concat_eq_append] at h hc ⊢
    rw [← List.append_assoc] at h ⊢
    obtain ⟨h1, h2⟩ := hc n (by simp)
    rcases Node.denotes_snoc.1 h with ⟨-, d, x, g1, g2, rfl⟩ | ⟨g, -⟩
    · obtain ⟨m, k1, k2⟩ := g1.split rfl
      rw [k1.lexical ha]
      exact .plain h1 h2 (k1.place.trans k2) g2
    · rcases g with g | g <;> contradiction

/-! ### Disks on which links are not followed inside a path -/

theorem lies_treeOf (hd : t.WF) (hn : t.NamesAre NoDots) (x : Node) (r : List JStr) (h : t.get r = some x) (hr : t.Denotes r r)
    (hl : ∀ rest q, t.get (r ++ rest) = some (.symlink q) → t.posix.readAttrs (under r rest) = t.toFs.readAttrs (under r rest)) : Lies t r (treeOf t ⟨true, r⟩ x) := by
  match x with
  | .regular n =>
    rw [treeOf]
    · have : t.toFs.readAttrs ⟨true, r⟩ = some ⟨false, false⟩ := by
        simp only [Node.toFs, follow_of_at (t := t) (p := ⟨true, r⟩) (fun q e => by rw [Node.at, h] at e; cases e) 40, Node.at, h]
      rw [this]; exact .regular h
    all_goals intros; contradiction
  | .special =>
    rw [treeOf]
    · have : t.toFs.readAttrs ⟨true, r⟩ = some ⟨false, true⟩ := by
        simp only [Node.toFs, follow_of_at (t := t) (p := ⟨true, r⟩) (fun q e => by rw [Node.at, h] at e; cases e) 40, Node.at, h]
      rw [this]; exact .special h
    all_goals intros; contradiction
  | .symlink q =>
    rw [treeOf]
    · have := hl [] q (by rw [List.append_nil]; exact h)
      rw [under, List.append_nil] at this
      rw [← this]
      by_cases he : ∃ e, t.Leads [] r e
      · obtain ⟨e, he⟩ := he
        have : ∃ x, t.get e = some x := by
          have hc := he.canon .nil
          rcases List.eq_nil_or_concat e with rfl | ⟨d, n, rfl⟩
          · exact ⟨t, rfl⟩
          · rw [List.concat_eq_append] at hc ⊢
            obtain ⟨-, -, x, hx, -⟩ := hc d n [] rfl
            exact ⟨x, hx⟩
        obtain ⟨x, hx⟩ := this
        have ha : t.posix.readAttrs ⟨true, r⟩ = some x.attrsOf := by simp only [Node.posix, t.real_of (p := ⟨true, r⟩) he, hx]; rfl
        rw [ha]; exact .link h he hx
      · have ha : t.posix.readAttrs ⟨true, r⟩ = none := by simp only [Node.posix, t.real_none (p := ⟨true, r⟩) fun e h => he ⟨e, h⟩]; rfl
        rw [ha]; exact .lost h fun e h => he ⟨e, h⟩
    all_goals intros; contradiction
  | .dir false cs => rw [treeOf]; exact .closed h
  | .dir true cs =>
    rw [treeOf, treesOf_eq]
    refine .dir h (by simp [List.map_map, Function.comp_def]) ?_
    intro e he
    obtain ⟨c, hc, rfl⟩ := List.mem_map.1 he
    have : sizeOf c.2 < 1 + sizeOf true + sizeOf cs := by
      have := List.sizeOf_lt_of_mem hc
      cases c; simp at this ⊢; omega
    have hL : t.Leads [] r r := hr.leads fun q e => by rw [h] at e; cases e
    have := lies_treeOf hd hn c.2 (r ++ [c.1]) (get_child hd h hc) (denotes_child hd hn hL h (n := c.1) (c := c.2) hc) fun rest q hq => by
      have := hl ([c.1] ++ rest) q (by rw [← List.append_assoc]; exact hq)
      simp only [under, ← List.append_assoc] at this ⊢
      exact this
    rw [child_abs rfl]
    exact this
termination_by sizeOf x

/-- **C108** and the simpler disks of the other properties (`Node.toFs`: no link is followed inside a path): if the printed path is a place (no links on the way), and the attributes of the links below it are
the same, then so is the text. -/
theorem C108_disk (hd : t.WF) (hn : t.NamesAre NoDots) (hw : cwd.abs = true) (ho : Obeys o S) (hc : LawfulCmp S.order) (h : t.Denotes (target cwd p).names (target cwd p).names)
    (hl : ∀ rest q, t.get ((target cwd p).names ++ rest) = some (.symlink q) → t.posix.readAttrs (under (target cwd p).names rest) = t.toFs.readAttrs (under (target cwd p).names rest)) (s : JStr) :
    prettyPrint t.posix.lift cwd o p = .ok s ↔ prettyPrint t.toFs.lift cwd o p = .ok s := by
  have ha := target_abs (p := p) hw
  have hx : ∃ x, t.get (target cwd p).names = some x := by
    obtain ⟨T, hT⟩ := C108_tree hd h
    cases hT <;> exact ⟨_, by assumption⟩
  obtain ⟨x, hx⟩ := hx
  have hT := lies_treeOf hd hn x _ hx h hl
  rw [C108_text hd hn hw ho hc h hT, C100_disk hd hw ho hc]
  unfold treeAt
  rw [show t.at (target cwd p) = some x from hx, show (⟨true, (target cwd p).names⟩ : Path) = target cwd p by rw [← ha]]

/-- The attributes are the same if the target of the link is absolute, exists and has no links in it. -/
theorem attrs_same {r : List JStr} {q : Path} (hr : t.Denotes r r) (h : t.get r = some (.symlink q)) (hq : q.abs = true) (hc : Canon t q.names) (h0 : ∀ q, t ≠ .symlink q) :
    t.posix.readAttrs ⟨true, r⟩ = t.toFs.readAttrs ⟨true, r⟩ := by
  obtain ⟨x, hx, hxl⟩ := hc.leads.real (fun q e => by rw [Node.get] at e; cases e; exact h0 q rfl)
  have hl : t.Leads [] r q.names := by
    have key : ∀ {ns}, t.Denotes ns r → t.Leads [] ns q.names := by
      intro ns hr
      cases hr with
      | root => rw [Node.get] at h; cases h; exact absurd rfl (h0 q)
      | plain h1 h2 h3 h4 =>
        refine h3.trans (.link h1 h2 h ?_)
        rw [if_pos hq, List.append_nil]
        exact hc.leads
      | dots _ hl =>
        obtain ⟨x, hx, hxl⟩ := hl.real (fun q e => by rw [Node.get] at e; cases e; exact h0 q rfl)
        rw [h] at hx; cases hx; exact absurd rfl (hxl q)
    exact key hr
  have hf : t.follow 41 ⟨true, r⟩ = some x := by
    rw [Node.follow, show t.at ⟨true, r⟩ = some (.symlink q) from h]
    dsimp only
    rw [follow_of_at (fun q' e => by rw [Node.at, hx] at e; cases e; exact hxl q' rfl)]
    exact hx
  simp only [Node.posix, Node.toFs, t.real_of (p := ⟨true, r⟩) hl, hx, hf]
  cases x <;> first | rfl | exact absurd rfl (hxl _)

/-! ### A disk with links -/

namespace Demo

/-- `/home/work` is a link to `../data/x`, `/loop` a link to itself; `/data/x/sub/back` a link to `..`. -/
def linked : Node := .dir true
  [(j!"home", .dir true [(j!"work", .symlink ⟨false, [j!"..", j!"data", j!"x"]⟩), (j!"notes", .regular 3)]), (j!"loop", .symlink ⟨false, [j!"loop"]⟩),
   (j!"data", .dir true [(j!"x", .dir true [(j!"sub", .dir true [(j!"f", .regular 1), (j!"back", .symlink ⟨false, [j!".."]⟩)]), (j!"g", .special)]), (j!"y", .regular 2)])]

theorem linked_wf : linked.WF := by simp [linked, Node.WF, Node.WFAll]

theorem linked_names : linked.NamesAre NoDots := by
  simp [linked, Node.NamesAre, Node.NamesAreAll, NoDots]

/-- One step of a proof that names lead somewhere. -/
macro "walk" : tactic => `(tactic| first
  | exact .done
  | refine .link (by decide) (by decide) rfl ?_
  | refine .step (by decide) (by decide) rfl (by intro q h; cases h) ?_
  | refine .up rfl ?_
  | refine .dot rfl ?_)

theorem linked_work : linked.Leads [] [j!"home", j!"work"] [j!"data", j!"x"] := by
  repeat walk

theorem linked_sub : linked.Denotes [j!"home", j!"work", j!"sub"] [j!"data", j!"x", j!"sub"] :=
  .plain (ns := [j!"home", j!"work"]) (by decide) (by decide) linked_work rfl

/-- A link to itself leads nowhere. -/
theorem no_way {d ns r : List JStr} {n : JStr} (h1 : n ≠ Path.dotName) (h2 : n ≠ Path.dotDotName) (h : t.get (d ++ [n]) = some (.symlink ⟨false, [n]⟩)) : ¬ t.Leads d (n :: ns) r := by
  intro hl
  generalize hm : n :: ns = ms at hl
  induction hl generalizing ns with
  | done => cases hm
  | dot => cases hm; exact h1 rfl
  | up => cases hm; exact h2 rfl
  | step _ _ h3 h4 => cases hm; rw [h] at h3; cases h3; exact h4 _ rfl
  | link _ _ h3 _ ih =>
    cases hm; rw [h] at h3; cases h3
    exact ih h rfl

theorem linked_back : linked.Leads [] [j!"data", j!"x", j!"sub", j!"back"] [j!"data", j!"x"] := by
  repeat walk

theorem linked_lies : Lies linked [j!"data", j!"x", j!"sub"] (.dir [(j!"f", .file (some ⟨false, false⟩)), (j!"back", .file (some ⟨false, false⟩))]) := by
  refine .dir rfl rfl ?_
  intro e he
  simp only [List.mem_cons, List.not_mem_nil, or_false] at he
  rcases he with rfl | rfl
  · exact .regular rfl
  · exact .link (e := [j!"data", j!"x"]) rfl linked_back rfl

/-- Printed through the link `/home/work`: the link `back` is one line. -/
example : prettyPrint linked.posix.lift Path.root dflt ⟨true, [j!"home", j!"work", j!"sub"]⟩ = .ok j!"sub/\n├─ back\n└─ f" :=
  (C108_text (S := standard) (p := ⟨true, [j!"home", j!"work", j!"sub"]⟩) linked_wf linked_names rfl obeys_standard lawful_const linked_sub linked_lies _).2 (by decide)

/-- The same text at its place. -/
example (s : JStr) : prettyPrint linked.posix.lift Path.root dflt ⟨true, [j!"data", j!"x", j!"sub"]⟩ = .ok s ↔ prettyPrint linked.posix.lift Path.root dflt ⟨true, [j!"home", j!"work", j!"sub"]⟩ = .ok s :=
  C108_through (p := ⟨true, [j!"home", j!"work", j!"sub"]⟩) (p' := ⟨true, [j!"data", j!"x", j!"sub"]⟩) linked_wf rfl rfl linked_sub linked_sub.place s

/-- And with other options. -/
example (s : JStr) : prettyPrint linked.posix.lift Path.root (simpleOptions linked.posix TreeFormats.UNICODE_BOX_DRAWING 1 3 true none) ⟨true, [j!"data", j!"x", j!"sub"]⟩ = .ok s ↔
    prettyPrint linked.posix.lift Path.root (simpleOptions linked.posix TreeFormats.UNICODE_BOX_DRAWING 1 3 true none) ⟨true, [j!"home", j!"work", j!"sub"]⟩ = .ok s :=
  C108_through_builtin (p := ⟨true, [j!"home", j!"work", j!"sub"]⟩) (p' := ⟨true, [j!"data", j!"x", j!"sub"]⟩) linked_wf rfl rfl linked_sub linked_sub.place _ _ _ _ _ (by intro _ _ h; cases h) s

/-- The link itself is one line. -/
example : prettyPrint linked.posix.lift Path.root dflt ⟨true, [j!"home", j!"work"]⟩ = .ok j!"work" :=
  C108_link (S := standard) (p := ⟨true, [j!"home", j!"work"]⟩) linked_wf linked_names rfl obeys_standard lawful_const
    (.plain (ns := [j!"home"]) (d := [j!"home"]) (n := j!"work") (by decide) (by decide) (by repeat walk) rfl) rfl (by simp) linked_work rfl

/-- Nothing is printed of a path through a link to itself. -/
example (s : JStr) : prettyPrint linked.posix.lift Path.root dflt ⟨true, [j!"loop", j!"x"]⟩ ≠ .ok s := by
  refine C108_nothing (S := standard) linked_wf rfl obeys_standard lawful_const ?_ s
  intro r hr
  rcases (Node.denotes_snoc (ns := [j!"loop"]) (n := j!"x")).1 hr with ⟨-, d, x, h, -⟩ | ⟨h, -⟩
  · exact no_way (by decide) (by decide) rfl h
  · revert h; decide

/-- A path with `..` before the link. -/
example : linked.Denotes (target Path.root ⟨true, [j!"data", j!"..", j!"home", j!"work", j!"sub"]⟩).names [j!"data", j!"x", j!"sub"] := by
  refine C108_meant (p := ⟨true, [j!"data", j!"..", j!"home", j!"work", j!"sub"]⟩) rfl (a := [j!"data", j!".."]) (c := [j!"home", j!"work", j!"sub"]) rfl ?_ (by decide) ?_
  · intro k r q hk hr
    have h0 : linked.Denotes [] [] := .root
    have h1 : linked.Denotes [j!"data"] [j!"data"] := .plain (ns := []) (d := []) (by decide) (by decide) .done rfl
    have h2 : linked.Denotes [j!"data", j!".."] [] := .dots (ns := [j!"data"]) (.inr rfl) (by repeat walk)
    match k with
    | 0 => rw [h0.unique hk] at hr; cases hr
    | 1 => rw [h1.unique hk] at hr; cases hr
    | k + 2 =>
      have hk : linked.Denotes [j!"data", j!".."] r := by simpa using hk
      rw [h2.unique hk] at hr; cases hr
  · exact .plain (ns := [j!"data", j!"..", j!"home", j!"work"]) (d := [j!"data", j!"x"]) (by decide) (by decide) (by repeat walk) rfl

theorem linked_data : Lies linked [j!"data"] (.dir [(j!"x", .dir [(j!"sub", .dir [(j!"f", .file (some ⟨false, false⟩)), (j!"back", .file (some ⟨false, false⟩))]), (j!"g", .file (some ⟨false, true⟩))]),
    (j!"y", .file (some ⟨false, false⟩))]) := by
  refine .dir rfl rfl ?_
  intro e he
  simp only [List.mem_cons, List.not_mem_nil, or_false] at he
  rcases he with rfl | rfl
  · refine .dir rfl rfl ?_
    intro e he
    simp only [List.mem_cons, List.not_mem_nil, or_false] at he
    rcases he with rfl | rfl
    · exact linked_lies
    · exact .special rfl
  · exact .regular rfl

theorem linked_home : Lies linked [j!"home"] (.dir [(j!"work", .file (some ⟨false, false⟩)), (j!"notes", .file (some ⟨false, false⟩))]) := by
  refine .dir rfl rfl ?_
  intro e he
  simp only [List.mem_cons, List.not_mem_nil, or_false] at he
  rcases he with rfl | rfl
  · exact .link (e := [j!"data", j!"x"]) rfl linked_work rfl
  · exact .regular rfl

/-- `/a/l` is a link to `/b/f`. -/
def short : Node := .dir true [(j!"a", .dir true [(j!"l", .symlink ⟨true, [j!"b", j!"f"]⟩)]), (j!"b", .dir true [(j!"f", .regular 0)])]

/-- On this disk both ways to look at it agree. -/
example (s : JStr) : prettyPrint short.posix.lift Path.root dflt ⟨true, [j!"a"]⟩ = .ok s ↔ prettyPrint short.toFs.lift Path.root dflt ⟨true, [j!"a"]⟩ = .ok s := by
  have ha : short.Denotes [j!"a"] [j!"a"] := .plain (ns := []) (d := []) (by decide) (by decide) .done rfl
  have hal : short.Denotes [j!"a", j!"l"] [j!"a", j!"l"] := .plain (ns := [j!"a"]) (d := [j!"a"]) (by decide) (by decide) (by repeat walk) rfl
  refine C108_disk (S := standard) (p := ⟨true, [j!"a"]⟩) (by simp [short, Node.WF, Node.WFAll]) (by simp [short, Node.NamesAre, Node.NamesAreAll, NoDots]) rfl obeys_standard lawful_const ha ?_ s
  intro rest q hq
  have hrest : rest = [j!"l"] ∧ q = ⟨true, [j!"b", j!"f"]⟩ := by
    have hq : short.get ([j!"a"] ++ rest) = some (.symlink q) := hq
    rw [get_append] at hq
    have hq : Node.get (.dir true [(j!"l", .symlink ⟨true, [j!"b", j!"f"]⟩)]) rest = some (.symlink q) := hq
    cases rest with
    | nil => cases hq
    | cons n rest =>
      rw [Node.get, Node.lookupChild, Node.lookupChild] at hq
      by_cases hn : j!"l" = n
      · rw [if_pos hn] at hq
        cases rest with
        | nil => rw [← hn]; cases hq; exact ⟨rfl, rfl⟩
        | cons m rest => cases hq
      · rw [if_neg hn] at hq; cases hq
  obtain ⟨rfl, rfl⟩ := hrest
  have hb : short.Leads [] [j!"b", j!"f"] [j!"b", j!"f"] := by repeat walk
  exact attrs_same hal rfl rfl (hb.canon .nil) (by intro q h; cases h)

end Demo

/-- **C108**, what `..` and `.` behind a name mean: for the operating system `/d/l/..` is the directory that contains the directory to which `/d/l` leads, and `/d/l/.` is that directory. What is printed is
`/d` and `/d/l`. -/
theorem C108_dots {d e : List JStr} {l : JStr} {b : Bool} {cs : List (JStr × Node)} (hd : ∀ n ∈ d, NoDots n) (hl : NoDots l) (h : t.Leads [] (d ++ [l]) e) (he : t.get e = some (.dir b cs)) :
    (t.Denotes (d ++ [l, j!".."]) e.dropLast ∧ target cwd ⟨true, d ++ [l, j!".."]⟩ = ⟨true, d⟩) ∧ t.Denotes (d ++ [l, j!"."]) e ∧ target cwd ⟨true, d ++ [l, j!"."]⟩ = ⟨true, d ++ [l]⟩ := by
  have hdl : Path.normNames true (d ++ [l]) = d ++ [l] := by
    have := normNames_plain [] (c := d ++ [l]) (by
      intro n hn
      rcases List.mem_append.1 hn with hn | hn
      · exact hd n hn
      · rw [List.mem_singleton.1 hn]; exact hl)
    simpa [Path.normNames] using this
  have ht : ∀ ns : List JStr, target cwd ⟨true, ns⟩ = ⟨true, Path.normNames true ns⟩ := fun ns => rfl
  rw [show d ++ [l, j!".."] = (d ++ [l]) ++ [j!".."] by simp, show d ++ [l, j!"."] = (d ++ [l]) ++ [j!"."] by simp, ht, ht, normNames_snoc (d ++ [l]), normNames_snoc (d ++ [l]), hdl]
  refine ⟨⟨.dots (.inr rfl) (h.trans (.up he .done)), ?_⟩, .dots (.inl rfl) (h.trans (.dot he .done)), ?_⟩
  · have hl2 : l ≠ Path.dotDotName := hl.2
    have : Path.normStep true (d ++ [l]).reverse Path.dotDotName = d.reverse := by
      unfold Path.normStep
      rw [if_neg (by decide), if_pos rfl]
      simp [hl2]
    rw [show j!".." = Path.dotDotName from rfl, this, List.reverse_reverse]
  · have : Path.normStep true (d ++ [l]).reverse Path.dotName = (d ++ [l]).reverse := by
      unfold Path.normStep
      rw [if_pos rfl]
    rw [show j!"." = Path.dotName from rfl, this, List.reverse_reverse]

/-- **C108**, refuted for `..` behind a link: `/home/work/..` is `/data` for the operating system, but `/home` is printed. -/
theorem C108_dotdot : ∃ (disk : Node) (p : Path), disk.WF ∧ disk.NamesAre NoDots ∧ p.abs = true ∧ disk.Denotes p.names [j!"data"] ∧
    prettyPrint disk.posix.lift Path.root Demo.dflt p = .ok j!"home/\n├─ notes\n└─ work" ∧
    prettyPrint disk.posix.lift Path.root Demo.dflt ⟨true, [j!"data"]⟩ = .ok j!"data/\n├─ x/\n│  ├─ g?\n│  └─ sub/\n│     ├─ back\n│     └─ f\n└─ y" := by
  obtain ⟨⟨h1, h2⟩, -⟩ := C108_dots (cwd := Path.root) (d := [j!"home"]) (l := j!"work") (by decide) (by decide) Demo.linked_work rfl
  refine ⟨Demo.linked, ⟨true, [j!"home", j!"work", j!".."]⟩, Demo.linked_wf, Demo.linked_names, rfl, h1, ?_, ?_⟩
  · rw [C108_text (S := standard) (r := [j!"home"]) Demo.linked_wf Demo.linked_names rfl obeys_standard lawful_const ?_ Demo.linked_home]
    · decide
    · exact .plain (ns := []) (d := []) (by decide) (by decide) .done rfl
  · rw [C108_text (S := standard) (r := [j!"data"]) Demo.linked_wf Demo.linked_names rfl obeys_standard lawful_const ?_ Demo.linked_data]
    · decide
    · exact .plain (ns := []) (d := []) (by decide) (by decide) .done rfl

/-- **C108**, refuted for `.` behind a link: `/home/work/.` is the directory `/data/x` for the operating system, but one line with the name of the link is printed. -/
theorem C108_dot : ∃ (disk : Node) (p : Path) (b : Bool) (cs : List (JStr × Node)), disk.WF ∧ disk.NamesAre NoDots ∧ p.abs = true ∧ disk.Denotes p.names [j!"data", j!"x"] ∧
    disk.get [j!"data", j!"x"] = some (.dir b cs) ∧ cs ≠ [] ∧ prettyPrint disk.posix.lift Path.root Demo.dflt p = .ok j!"work" := by
  obtain ⟨-, h1, h2⟩ := C108_dots (cwd := Path.root) (d := [j!"home"]) (l := j!"work") (by decide) (by decide) Demo.linked_work rfl
  refine ⟨Demo.linked, ⟨true, [j!"home", j!"work", j!"."]⟩, _, _, Demo.linked_wf, Demo.linked_names, rfl, h1, rfl, by simp, ?_⟩
  have := C108_link (S := standard) (o := Demo.dflt) (cwd := Path.root) (p := ⟨true, [j!"home", j!"work", j!"."]⟩) (r := [j!"home", j!"work"]) Demo.linked_wf Demo.linked_names rfl obeys_standard
    lawful_const (.plain (ns := [j!"home"]) (d := [j!"home"]) (n := j!"work") (by decide) (by decide) (by repeat walk) rfl) rfl (by simp) Demo.linked_work rfl
  exact this

end JFTP
