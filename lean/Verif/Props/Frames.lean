import Verif.Model.Frames
import Verif.Lemmas.Scan
import Verif.Spec.Streams

/-
C122: the depth of the call stack.
-/

namespace JFTP

/-! ### The scanner -/

namespace Frames

theorem handle_eq {m : Type → Type} [Monad m] [MonadExceptOf Exn m] (stop : Exn) (fs : Fs m) (o : ScanOpts m) :
    ∀ (frames depth : Nat) (p : Path), 3 * (o.maxDepth - depth).toNat + 2 ≤ frames →
      handle stop fs o frames depth p = Scanner.handle fs o depth p
  | 0, depth, p, h => by omega
  | 1, depth, p, h => by omega
  | 2, depth, p, h => by
    unfold handle Scanner.handle
    have hd : (depth : Int) ≥ o.maxDepth := by omega
    simp only [handleDirectory, hd, if_true, dite_true]
  | frames + 3, depth, p, h => by
    unfold handle Scanner.handle
    refine congrArg (PathMatchers.isDirectory fs p >>= ·) (funext fun b => ?_)
    by_cases hd : (depth : Int) ≥ o.maxDepth
    · simp only [handleDirectory, hd, if_true, dite_true]
    · have ih : (fun c => handle stop fs o frames (depth + 1) c) = fun c => Scanner.handle fs o (depth + 1) c :=
        funext fun c => handle_eq stop fs o frames (depth + 1) c (by omega)
      simp only [handleDirectory, Scanner.handleDirectory, hd, if_false, dite_false, ih]
      rfl

/-! ### The renderer -/

mutual
/-- The number of nested entries. -/
def height : TreeEntry → Nat
  | .dir _ es => heights es + 1
  | _ => 1
/-- The greatest number of nested entries in a list. -/
def heights : List TreeEntry → Nat
  | [] => 0
  | e :: es => max (height e) (heights es)
end

theorem height_pos : ∀ e : TreeEntry, 1 ≤ height e
  | .dir _ _ => by simp [height]
  | .file _ _ => by simp [height]
  | .skipped _ => by simp [height]
  | .maxDepth _ => by simp [height]

section
variable {m : Type → Type} [Monad m] [MonadExceptOf Exn m] (stop : Exn) (o : RenderOpts m) (lr : LineRenderer m)

mutual
theorem renderTree_eq (frames : Nat) (depth : Depth) : ∀ e : TreeEntry, 2 * height e ≤ frames →
    renderTree stop o lr frames depth e = Renderer.renderTree o lr depth e
  | .dir d es, h => by
    simp only [height] at h
    obtain ⟨n, rfl⟩ : ∃ n, frames = n + 1 := ⟨frames - 1, by omega⟩
    unfold renderTree Renderer.renderTree
    exact renderDirectory_eq n depth d es [d] (by omega)
  | .file f a, h => by
    simp only [height] at h
    obtain ⟨n, rfl⟩ : ∃ n, frames = n + 2 := ⟨frames - 2, by omega⟩
    unfold renderTree Renderer.renderTree; rfl
  | .skipped _, h => by
    simp only [height] at h
    obtain ⟨n, rfl⟩ : ∃ n, frames = n + 2 := ⟨frames - 2, by omega⟩
    unfold renderTree Renderer.renderTree; rfl
  | .maxDepth _, h => by
    simp only [height] at h
    obtain ⟨n, rfl⟩ : ∃ n, frames = n + 2 := ⟨frames - 2, by omega⟩
    unfold renderTree Renderer.renderTree; rfl
termination_by e => (sizeOf e, 1)

theorem renderDirectory_eq (frames : Nat) (depth : Depth) (dir : Path) : ∀ (es : List TreeEntry) (paths : List Path),
    2 * heights es + 1 ≤ frames →
    renderDirectory stop o lr frames depth dir es paths = Renderer.renderDirectory o lr depth dir es paths
  | [.dir c ces], paths, h => by
    obtain ⟨n, rfl⟩ : ∃ n, frames = n + 1 := ⟨frames - 1, by omega⟩
    have hc := renderChildren_eq n depth [.dir c ces] (by omega)
    have ih := renderDirectory_eq n depth c ces (paths ++ [c]) (by simp [heights, height] at h; omega)
    unfold renderDirectory Renderer.renderDirectory
    simp only [hc, ih]
    rfl
  | [], paths, h => by
    obtain ⟨n, rfl⟩ : ∃ n, frames = n + 1 := ⟨frames - 1, by omega⟩
    have hc := renderChildren_eq n depth ([]) (by omega)
    unfold renderDirectory Renderer.renderDirectory
    simp only [hc]
  | [.file x y], paths, h => by
    obtain ⟨n, rfl⟩ : ∃ n, frames = n + 1 := ⟨frames - 1, by omega⟩
    have hc := renderChildren_eq n depth ([.file x y]) (by omega)
    unfold renderDirectory Renderer.renderDirectory
    simp only [hc]
  | [.skipped x], paths, h => by
    obtain ⟨n, rfl⟩ : ∃ n, frames = n + 1 := ⟨frames - 1, by omega⟩
    have hc := renderChildren_eq n depth ([.skipped x]) (by omega)
    unfold renderDirectory Renderer.renderDirectory
    simp only [hc]
  | [.maxDepth x], paths, h => by
    obtain ⟨n, rfl⟩ : ∃ n, frames = n + 1 := ⟨frames - 1, by omega⟩
    have hc := renderChildren_eq n depth ([.maxDepth x]) (by omega)
    unfold renderDirectory Renderer.renderDirectory
    simp only [hc]
  | a :: b :: rest, paths, h => by
    obtain ⟨n, rfl⟩ : ∃ n, frames = n + 1 := ⟨frames - 1, by omega⟩
    have hc := renderChildren_eq n depth (a :: b :: rest) (by omega)
    unfold renderDirectory Renderer.renderDirectory
    simp only [hc]
termination_by es => (sizeOf es, 3)

theorem renderChildren_eq (frames : Nat) (depth : Depth) : ∀ es : List TreeEntry, 2 * heights es ≤ frames →
    renderChildren stop o lr frames depth es = Renderer.renderChildren o lr depth es
  | [], _ => by unfold renderChildren Renderer.renderChildren; rfl
  | e :: rest, h => by
    simp only [heights] at h
    have h1 : 2 * height e ≤ frames := by omega
    have h2 : 2 * heights rest ≤ frames := by omega
    unfold renderChildren Renderer.renderChildren
    simp only [fun d => renderTree_eq frames d e h1, renderChildren_eq frames depth rest h2]
termination_by es => (sizeOf es, 2)
end
end

/-! ### How high the scanned tree is -/

open Spec

section
variable {σ : Type}

theorem heights_append : ∀ a b : List TreeEntry, heights (a ++ b) = max (heights a) (heights b)
  | [], b => by simp [heights]
  | e :: a, b => by simp [heights, heights_append a b, Nat.max_assoc]

theorem any_post {α : Type} (x : WorldM σ α) : PostMonad.Post x (fun _ => True) := fun _ _ _ _ => trivial

theorem height_loop (visit : Path → WorldM σ TreeEntry) (k : Nat) (hv : ∀ p, PostMonad.Post (visit p) (fun t => height t ≤ k)) (n : Int) :
    ∀ (ps : List Path) (i : Int), PostMonad.Post (Scanner.childLoop visit n i ps) (fun r => heights r.1 ≤ k)
  | [], i => PostMonad.pure (by simp [heights])
  | p :: ps, i => by
    unfold Scanner.childLoop
    dsimp only
    split
    · exact PostMonad.pure (by simp [heights])
    · refine PostMonad.bind (hv p) (fun e he => PostMonad.bind (height_loop visit k hv n ps (i + 1)) (fun r hr => PostMonad.pure ?_))
      simp only [heights]
      omega

theorem height_handle (fs : Fs (WorldM σ)) (o : ScanOpts (WorldM σ)) : ∀ (k depth : Nat) (p : Path), (o.maxDepth - depth).toNat = k →
    PostMonad.Post (Scanner.handle fs o depth p) (fun t => height t ≤ k + 2)
  | k, depth, p, hk => by
    unfold Scanner.handle
    refine PostMonad.bind (any_post _) (fun b _ => ?_)
    cases b with
    | false =>
      simp only [Bool.false_eq_true, if_false]
      unfold Scanner.handleFile
      refine PostMonad.bind (any_post _) (fun r _ => ?_)
      cases r with
      | none => exact PostMonad.throw
      | some a => exact PostMonad.pure (by simp [height])
    | true =>
      simp only [if_true]
      by_cases hd : (depth : Int) ≥ o.maxDepth
      · rw [dif_pos hd]
        exact PostMonad.pure (by simp [height, heights])
      · rw [dif_neg hd]
        unfold Scanner.handleDirectory
        refine PostMonad.bind (any_post _) (fun r _ => ?_)
        cases r with
        | openFailed => exact PostMonad.throw
        | opened cs bad =>
          have hv := fun c => height_handle fs o (k - 1) (depth + 1) c (by omega)
          refine PostMonad.bind (P := fun es => heights es ≤ k + 1) ?_ (fun es hes => PostMonad.pure (by simp only [height]; omega))
          unfold Scanner.handleDirectoryChildren
          refine PostMonad.bind (any_post _) (fun n _ => PostMonad.bind (any_post _) (fun ks _ => ?_))
          cases bad with
          | true => exact PostMonad.throw
          | false =>
            refine PostMonad.bind (height_loop _ (k - 1 + 2) hv n _ 0) (fun r hr => PostMonad.pure ?_)
            split
            · omega
            · simp only [heights_append, heights, height]; omega
termination_by k => k
decreasing_by omega

theorem bind_eq_of_post {α β : Type} {x : WorldM σ α} {P : α → Prop} (h : PostMonad.Post x P) {f g : α → WorldM σ β}
    (hfg : ∀ a, P a → f a = g a) : x >>= f = x >>= g := by
  apply ExceptT.ext
  funext s
  show ((ExceptT.run (x >>= f)).run s) = ((ExceptT.run (x >>= g)).run s)
  rw [ExceptT.run_bind, StateT.run_bind, ExceptT.run_bind, StateT.run_bind]
  have h1 := h s
  revert h1
  rcases (ExceptT.run x).run s with ⟨r, s1⟩
  intro h1
  cases r with
  | error e => rfl
  | ok a => show (ExceptT.run (f a)).run s1 = (ExceptT.run (g a)).run s1; rw [hfg a (h1 a s1 rfl)]

end

/-! ### No fixed stack is enough for every depth limit -/

/-- A disk whose root holds `n` directories named `a`, one within the other, the innermost one empty. -/
def nested (n : Nat) : PureFs where
  isDir p := decide (p.names.length ≤ n)
  listDir p := .opened (if p.names.length < n then [p.child [97]] else []) false
  readAttrs _ := none
  isRegular _ := false
  isLink _ := false

/-- The default options with another depth limit. -/
def upTo (d : Nat) : Options (Except Exn) := (Options.createDefault : Options (Except Exn)).withMaxDepth d

theorem child_length (p : Path) (hp : p.abs = true) (c : JStr) : (p.child c).names.length = p.names.length + 1 ∧ (p.child c).abs = true := by
  have : p ≠ Path.empty := fun e => by rw [e] at hp; cases hp
  simp [Path.child, this, hp]

theorem handle_overflows (stop : Exn) (n d : Nat) : ∀ (frames depth : Nat) (p : Path), p.abs = true → p.names.length = depth → depth ≤ n →
    depth ≤ d → frames < 3 * (min n d - depth) + 2 →
      handle stop (nested n).lift ((upTo d).toScan (nested n).lift) frames depth p = .error stop
  | 0, depth, p, hp, hl, h1, h2, h3 => rfl
  | 1, depth, p, hp, hl, h1, h2, h3 => rfl
  | 2, depth, p, hp, hl, h1, h2, h3 => by
    have hd : ¬ ((depth : Int) ≥ ((upTo d).toScan (nested n).lift).maxDepth) := by
      show ¬ ((depth : Int) ≥ (d : Int)); omega
    have hi : PathMatchers.isDirectory (nested n).lift p = (pure true : Except Exn Bool) := by
      show (pure (decide (p.names.length ≤ n)) : Except Exn Bool) = pure true
      rw [decide_eq_true (by omega)]
    unfold handle handleDirectory
    rw [hi]
    simp only [pure_bind, if_true, hd, if_false]
    rfl
  | frames + 3, depth, p, hp, hl, h1, h2, h3 => by
    have hd : ¬ ((depth : Int) ≥ ((upTo d).toScan (nested n).lift).maxDepth) := by
      show ¬ ((depth : Int) ≥ (d : Int)); omega
    have hi : ∀ q : Path, q.names.length ≤ n → PathMatchers.isDirectory (nested n).lift q = (pure true : Except Exn Bool) := fun q hq => by
      show (pure (decide (q.names.length ≤ n)) : Except Exn Bool) = pure true
      rw [decide_eq_true hq]
    obtain ⟨c1, c2⟩ := child_length p hp [97]
    have hlist : (nested n).lift.listDir p = (pure (.opened [p.child [97]] false) : Except Exn Listing) := by
      show (pure (Listing.opened (if p.names.length < n then [p.child [97]] else []) false) : Except Exn Listing) = _
      rw [if_pos (by omega)]
    have ih := handle_overflows stop n d frames (depth + 1) (p.child [97]) c2 (by omega) (by omega) (by omega) (by omega)
    have hk : Scanner.filterEntries ((upTo d).toScan (nested n).lift).pathFilter [p.child [97]] = (pure [p.child [97]] : Except Exn (List Path)) := by
      have : ((upTo d).toScan (nested n).lift).pathFilter (p.child [97]) = (pure true : Except Exn Bool) := by
        show (PathMatchers.isDirectory (nested n).lift (p.child [97]) >>= fun b => if b then pure true else pure true) = (pure true : Except Exn Bool)
        rw [hi _ (by omega)]; rfl
      unfold Scanner.filterEntries
      rw [this]; rfl
    have hs : streamSorted ((upTo d).toScan (nested n).lift).pathComparator [p.child [97]] = [p.child [97]] := by
      simp [streamSorted]
    have hu : ((upTo d).toScan (nested n).lift).childLimit p = (pure (-1) : Except Exn Int) := rfl
    unfold handle handleDirectory
    rw [hi p (by omega)]
    simp only [pure_bind, if_true, hd, if_false, hlist]
    unfold Scanner.handleDirectoryChildren
    simp only [hk, hu, pure_bind, hs, Bool.false_eq_true, if_false]
    simp only [Scanner.childLoop, ih]
    rfl

end Frames

/-! ### The claims -/

open Frames (nested upTo handle_eq bind_eq_of_post height_handle renderTree_eq handle_overflows)
open Spec (WorldM)

/-- Whatever the directory, the file system and the callbacks do: a call stack on which `3 · maxDepth + 4` calls can be nested never runs
out. -/
theorem C122_stack_suffices {σ : Type} (stop : Exn) (frames : Nat) (fs : Fs (WorldM σ)) (cwd : Path) (o : Options (WorldM σ)) (p : Path)
    (h : 3 * o.maxDepth.toNat + 4 ≤ frames) : Frames.prettyPrint stop frames fs cwd o p = prettyPrint fs cwd o p := by
  unfold Frames.prettyPrint prettyPrint Printer.prettyPrint Scanner.scan
  have hm : (o.toScan fs).maxDepth = o.maxDepth := rfl
  simp only []
  rw [handle_eq stop fs (o.toScan fs) frames 0 _ (by rw [hm]; omega)]
  refine bind_eq_of_post (height_handle fs (o.toScan fs) _ 0 _ rfl) (fun t ht => ?_)
  rw [hm] at ht
  exact renderTree_eq stop _ _ frames _ t (by omega)

/-- With the default depth, 64 nested calls are enough. -/
theorem C122_default {σ : Type} (stop : Exn) (fs : Fs (WorldM σ)) (cwd : Path) (o : Options (WorldM σ)) (p : Path)
    (h : o.maxDepth = Options.createDefault (m := WorldM σ).maxDepth) : Frames.prettyPrint stop 64 fs cwd o p = prettyPrint fs cwd o p :=
  C122_stack_suffices stop 64 fs cwd o p (by rw [h]; exact (by decide : 3 * (20 : Int).toNat + 4 ≤ 64))

/-- The bound is exact for the scanner, and without a depth limit no stack is deep enough: `n` nested directories, read down to depth `d`,
take `3 · min n d + 2` nested calls. -/
theorem C122_grows (stop : Exn) (n d frames : Nat) (h : frames < 3 * min n d + 2) :
    Frames.prettyPrint stop frames (nested n).lift Path.root (upTo d) Path.root = .error stop := by
  unfold Frames.prettyPrint
  have := handle_overflows stop n d frames 0 Path.root rfl rfl (by omega) (by omega) (by omega)
  show (Frames.handle stop (nested n).lift ((upTo d).toScan (nested n).lift) frames 0 Path.root >>= _) = _
  rw [this]
  rfl

/-- A stack of 1000 frames, a million nested directories: read to the default depth, the stack does not run out; without a limit on the
depth it does. -/
example {σ : Type} (stop : Exn) :
    Frames.prettyPrint stop 1000 (nested 1000000).lift Path.root (Options.createDefault : Options (WorldM σ)) Path.root
      = prettyPrint (nested 1000000).lift Path.root Options.createDefault Path.root ∧
    Frames.prettyPrint stop 1000 (nested 1000000).lift Path.root (upTo 2147483647) Path.root = .error stop :=
  ⟨C122_stack_suffices stop 1000 _ _ _ _ (show 3 * (20 : Int).toNat + 4 ≤ 1000 by decide), C122_grows stop 1000000 2147483647 1000 (by omega)⟩

end JFTP
