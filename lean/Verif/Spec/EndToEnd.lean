import Verif.Spec.Process
import Verif.Spec.Document
import Verif.Spec.Printed
import Verif.Spec.Emoji
import Verif.Spec.Compose

/-
The text that an options document asks for (C86): read off the document and the disk, without reference to library options.
-/

namespace JFTP
namespace Spec
open Cli

/-- The child limits a document allows for a directory (every negative number means "no limit"). -/
def docLimit (G : JStr → Path → Bool) (tgt : Path) (x : ExternalOptions) (p : Path) (n : Int) : Prop :=
  match x.childLimit with
  | none => n < 0
  | some (.static l) => n = l.getD 0
  | some (.dynamic ls) => LimitIs (limitRules G tgt (ls.getD [])) p n

/-- Does the document let the path through? Directories are tested with the directory filter, everything else with the file filter; a missing filter lets everything through. -/
def docKeeps (fs : PureFs) (G : JStr → Path → Bool) (tgt : Path) (x : ExternalOptions) (p : Path) : Bool :=
  match x.filter.bind (if fs.isDir p then (·.dir) else (·.file)) with
  | none => true
  | some d => docHolds G tgt p d

/-- The answers that determine the entry tree. -/
def docAnswers (fs : PureFs) (G : JStr → Path → Bool) (tgt : Path) (x : ExternalOptions) : Answers where
  isDir p b := fs.isDir p = b
  list p cs := fs.listDir p = .opened cs false
  attrs p a := fs.readAttrs p = some a
  limit := docLimit G tgt x
  keep p b := docKeeps fs G tgt x p = b

/-- `DocLook … L`: emojis, extensions and the compact switch are as the document says. -/
structure DocLook (lower : JStr → JStr) (fs : PureFs) (G : JStr → Path → Bool) (tgt : Path) (x : ExternalOptions) (L : Look) : Prop where
  compact : L.compact = x.compactDirectories.getD false
  ext : ∀ p rest, InTarget tgt p rest → L.ext p = firstMatch none (extensionRules G tgt (x.lineExtensions.getD [])) p
  noEmoji : x.emojis ≠ some true → ∀ p, L.emoji p = none
  dirEmoji : x.emojis = some true → ∀ p, fs.isDir p = true → L.emoji p = some j!"📂"
  fileEmoji : x.emojis = some true → ∀ p, fs.isDir p = false → ∀ exts, (∀ n, p.getFileName = some n → ExtParts lower n exts) → (p.getFileName = none → exts = []) →
    L.emoji p = some (fileEmoji lower defaultCalls p exts)

/-- `DocPrints … s`: `s` is the text the document `x` asks for. -/
def DocPrints (lower : JStr → JStr) (fs : PureFs) (G : JStr → Path → Bool) (tgt : Path) (x : ExternalOptions) (s : JStr) : Prop :=
  ∃ L t T, DocLook lower fs G tgt x L ∧ Scanned (docAnswers fs G tgt x) PathSorts.ALPHABETICAL (x.maxDepth.getD 20) 0 tgt t ∧ Named t ∧
    ShowsTop L t T ∧ s = picture TreeFormats.UNICODE_BOX_DRAWING (T.toDisp L)

end Spec
end JFTP
