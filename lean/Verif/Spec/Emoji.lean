import Verif.Model.Emoji
import Verif.Spec.Rules

/-
Documented meaning of emoji mappings (options/EmojiMappingBuilder.java), as a function of the history of builder calls.
-/

namespace JFTP
namespace Spec

/-- One call on an emoji mapping builder, with matchers that are functions of the path. -/
inductive EmojiCall where
  | setDefaultDirectoryEmoji (e : JStr)
  | setDirectoryNameEmoji (n e : JStr)
  | addDirectoryEmoji (mt : Path → Bool) (e : JStr)
  | setDefaultFileEmoji (e : JStr)
  | setFileNameEmoji (n e : JStr)
  | setFileExtensionEmoji (x e : JStr)
  | addFileEmoji (mt : Path → Bool) (e : JStr)

namespace EmojiCall

def asDefaultDir : EmojiCall → Option JStr
  | setDefaultDirectoryEmoji e => some e
  | _ => none
def asDirName : EmojiCall → Option (JStr × JStr)
  | setDirectoryNameEmoji n e => some (n, e)
  | _ => none
def asDirRule : EmojiCall → Option (Rule JStr)
  | addDirectoryEmoji mt e => some (mt, e)
  | _ => none
def asDefaultFile : EmojiCall → Option JStr
  | setDefaultFileEmoji e => some e
  | _ => none
def asFileName : EmojiCall → Option (JStr × JStr)
  | setFileNameEmoji n e => some (n, e)
  | _ => none
def asFileExt : EmojiCall → Option (JStr × JStr)
  | setFileExtensionEmoji x e => some (x, e)
  | _ => none
def asFileRule : EmojiCall → Option (Rule JStr)
  | addFileEmoji mt e => some (mt, e)
  | _ => none

end EmojiCall

/-- The emoji most recently set under a key with the lower-case form `k`. -/
def lastSet (lower : JStr → JStr) (sets : List (JStr × JStr)) (k : JStr) : Option JStr :=
  (sets.reverse.find? (fun s => decide (lower s.1 = k))).map Prod.snd

/-- The name has (in lower case) the extension parts `exts`. -/
def ExtParts (lower : JStr → JStr) (n : JStr) (exts : List JStr) : Prop :=
  (∃ base, HasExts (lower n) base exts) ∨ (exts = [] ∧ (HasNoExt (lower n) ∨ ∃ k, lower n = List.replicate (k + 1) DOT))

/-- The first custom rule that matches. -/
def customEmoji (rules : List (Rule JStr)) (p : Path) : Option JStr := (rules.find? (fun r => r.1 p)).map Prod.snd

/-- `candidates [b, c, d] = [b.c.d, c.d, d]`: from most to least specific. -/
def candidates : List JStr → List JStr
  | [] => []
  | e :: es => joinDots (e :: es) :: candidates es

/-- Documented emoji of a directory (a root has no name). -/
def dirEmoji (lower : JStr → JStr) (calls : List EmojiCall) (p : Path) : JStr :=
  (((customEmoji (calls.filterMap EmojiCall.asDirRule) p).or
    (p.getFileName.bind (fun n => lastSet lower (calls.filterMap EmojiCall.asDirName) (lower n)))).or
    (calls.filterMap EmojiCall.asDefaultDir).getLast?).getD j!"📂"

/-- Documented emoji of a file whose name has the extension parts `exts`. -/
def fileEmoji (lower : JStr → JStr) (calls : List EmojiCall) (p : Path) (exts : List JStr) : JStr :=
  ((((customEmoji (calls.filterMap EmojiCall.asFileRule) p).or
    (p.getFileName.bind (fun n => lastSet lower (calls.filterMap EmojiCall.asFileName) (lower n)))).or
    ((candidates exts).findSome? (lastSet lower (calls.filterMap EmojiCall.asFileExt)))).or
    (calls.filterMap EmojiCall.asDefaultFile).getLast?).getD j!"📄"

/-- Lower-casing leaves texts of ASCII lower-case letters, digits, `.`, `-` and `_` unchanged (so it is in every locale). -/
def KeepsLowerAscii (lower : JStr → JStr) : Prop := ∀ k : JStr, (∀ c ∈ k, c ∈ j!"abcdefghijklmnopqrstuvwxyz0123456789.-_") → lower k = k

/-- Two different keys that differ in case only were set. -/
def CaseClash (lower : JStr → JStr) (sets : List (JStr × JStr)) : Prop :=
  ∃ s ∈ sets, ∃ s' ∈ sets, s.1 ≠ s'.1 ∧ lower s.1 = lower s'.1

/-- The default tables as calls. -/
def defaultCalls : List EmojiCall :=
  DEFAULT_FILENAME_EMOJIS.map (fun e => .setFileNameEmoji e.1 e.2) ++ DEFAULT_FILEEXTENSIONS_EMOJIS.map (fun e => .setFileExtensionEmoji e.1 e.2)

end Spec
end JFTP
