import Verif.Model.Nulls

/-
Which calls with null arguments are accepted, and what they mean then.
-/

namespace JFTP
namespace Spec

variable {m : Type → Type} [Monad m] [MonadExceptOf Exn m]

/-- What an accepted call does to the object; `none` if the call is rejected. -/
abbrev Meaning (σ : Type) := Option (σ → σ)

/-- `call` does what `meaning` says: a rejected call throws `NullPointerException` and changes nothing. -/
def Means {σ : Type} (call : Call σ Unit) (meaning : Meaning σ) : Prop :=
  ∀ s, (ExceptT.run call).run s = match meaning with
    | none => (.error .nullPointer, s)
    | some f => (.ok (), f s)

/-- The object after the accepted ones of the calls. -/
def afterAccepted {σ C : Type} (meaning : C → Meaning σ) (s : σ) (cs : List C) : σ := (cs.filterMap meaning).foldl (fun s f => f s) s

/-- Options: only the line extension may be null. -/
def setterOf : NSetter m → Option (Setter m)
  | .childLimit (some f) => some (.childLimit f)
  | .treeFormat (some f) => some (.treeFormat f)
  | .emojis (some f) => some (.emojis f)
  | .compactDirectories c => some (.compactDirectories c)
  | .maxDepth n => some (.maxDepth n)
  | .sort (some c) => some (.sort c)
  | .filterDirectories (some mt) => some (.filterDirectories mt)
  | .filterFiles (some mt) => some (.filterFiles mt)
  | .lineExtension e => some (.lineExtension e)
  | _ => none

/-- Child limits. -/
def limitMeaning : NLimitCall m → Meaning (ChildLimitBuilder m)
  | .setDefault n => some fun b => { b with defaultLimit := n }
  | .add (some f) => some fun b => { b with limits := b.limits ++ [f] }
  | .addMatching (some mt) n => some fun b => { b with limits := b.limits ++ [fun p => (fun r : Bool => if r then n else -1) <$> mt p] }
  | _ => none

/-- Line extensions: the text may be null, the matcher may not. -/
def extMeaning : NExtCall m → Meaning (LineExtensionBuilder m)
  | .add (some f) => some fun b => ⟨b.extensions ++ [f]⟩
  | .addMatching (some mt) x => some fun b => ⟨b.extensions ++ [fun p => (fun r : Bool => if r then x else none) <$> mt p]⟩
  | .addLineBreak (some mt) => some fun b => ⟨b.extensions ++ [fun p => (fun r : Bool => if r then some [] else none) <$> mt p]⟩
  | _ => none

/-- Sorting. -/
def sortMeaning : NSortCall → Meaning PathSortBuilder
  | .add (some f) => some fun b => ⟨b.orders ++ [f]⟩
  | .addMatching (some mt) n => some fun b => ⟨b.orders ++ [fun p => if mt p then n else 0]⟩
  | .addFirst (some mt) => some fun b => ⟨b.orders ++ [fun p => if mt p then -2147483648 else 0]⟩
  | .addLast (some mt) => some fun b => ⟨b.orders ++ [fun p => if mt p then 2147483647 else 0]⟩
  | _ => none

/-- Emojis: nothing may be null. -/
def emojiMeaning : NEmojiCall m → Meaning (EmojiMappingBuilder m)
  | .setDefaultDirectoryEmoji (some e) => some fun b => { b with defaultDirEmoji := e }
  | .setDirectoryNameEmoji (some n) (some e) => some fun b => { b with dirNamesEmojis := b.dirNamesEmojis.put n e }
  | .addDirectoryEmoji (some mt) (some e) => some fun b => { b with dirMatchersEmojis := b.dirMatchersEmojis ++ [⟨mt, e⟩] }
  | .setDefaultFileEmoji (some e) => some fun b => { b with defaultFileEmoji := e }
  | .setFileNameEmoji (some n) (some e) => some fun b => { b with fileNamesEmojis := b.fileNamesEmojis.put n e }
  | .setFileExtensionEmoji (some x) (some e) => some fun b => { b with fileExtensionsEmojis := b.fileExtensionsEmojis.put x e }
  | .addFileEmoji (some mt) (some e) => some fun b => { b with fileMatchersEmojis := b.fileMatchersEmojis ++ [⟨mt, e⟩] }
  | _ => none

/-- Calls on printers, builders and options. -/
def opOf : NOp m → Option (Op m)
  | .newOptions => some .newOptions
  | .set r s => (setterOf s).map (.set r)
  | .newBuilder => some .newBuilder
  | .withOptions b (some r) => some (.withOptions b r)
  | .withOptions _ none => none
  | .build b => some (.build b)

/-- The calls before the first rejected one. -/
def acceptedPrefix : List (NOp m) → List (Op m)
  | [] => []
  | c :: cs => match opOf c with
    | some op => op :: acceptedPrefix cs
    | none => []

/-- No call is rejected. -/
def AllAccepted (cs : List (NOp m)) : Prop := ∀ c ∈ cs, opOf c ≠ none

/-- A null-free history with the same effect as one call of a client, in the store `w`. -/
inductive SameAs (w : World m) : NCall m → List (Op m) → Prop where
  /-- an accepted call -/
  | accepted {c op} : opOf c = some op → SameAs w (.op c) [op]
  /-- a rejected call has no effect -/
  | rejected {c} : opOf c = none → SameAs w (.op c) []
  /-- a null customizer has no effect -/
  | noCustomizer {b} : SameAs w (.customizeOptions b none) []
  /-- a customizer that returns an options object -/
  | customized {b r f r'} : w.builders[b]? = some r → AllAccepted (f.calls r) → f.result r = .ok (some r') →
      SameAs w (.customizeOptions b (some f)) (acceptedPrefix (f.calls r) ++ [.withOptions b r'])
  /-- a customizer that throws, or returns null: what it has done stays, but the builder keeps its options object -/
  | failed {b r f} : w.builders[b]? = some r → ¬ (AllAccepted (f.calls r) ∧ ∃ r', f.result r = .ok (some r')) →
      SameAs w (.customizeOptions b (some f)) (acceptedPrefix (f.calls r))
  /-- (there is no such builder) -/
  | nobody {b f} : w.builders[b]? = none → SameAs w (.customizeOptions b f) []

/-- The same for a whole history. -/
inductive SameHistory : World m → List (NCall m) → List (Op m) → Prop where
  | nil {w} : SameHistory w [] []
  | cons {w c cs ops rest} : SameAs w c ops → SameHistory (w.run ops) cs rest → SameHistory w (c :: cs) (ops ++ rest)

end Spec
end JFTP
