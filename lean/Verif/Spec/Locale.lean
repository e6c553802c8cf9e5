import Verif.Model.Emoji
import Verif.Spec.DefaultEmojis
import Verif.Spec.Clone

/-
The default emojis in different locales.
-/

namespace JFTP
namespace Spec

/-- The emoji of a file with this name in lower case: that of its name, else that of its last extension, else the default one. -/
inductive Icon (low : JStr) : JStr → Prop where
  | name {e} : (low, e) ∈ DEFAULT_FILENAME_EMOJIS → Icon low e
  | ext {key e} : low ∉ DEFAULT_FILENAME_EMOJIS.map Prod.fst → LastExt low key → (key, e) ∈ DEFAULT_FILEEXTENSIONS_EMOJIS → Icon low e
  | other : low ∉ DEFAULT_FILENAME_EMOJIS.map Prod.fst → (∀ key, LastExt low key → key ∉ DEFAULT_FILEEXTENSIONS_EMOJIS.map Prod.fst) → Icon low j!"📄"

/-- A letter of ASCII in lower case. -/
def usualChar (c : JChar) : JChar := if 65 ≤ c ∧ c ≤ 90 then c + 32 else c

/-- A letter of ASCII in lower case in a Turkish or Azeri locale: the capital `I` becomes the dotless `ı` (U+0131). -/
def turkishChar (c : JChar) : JChar := if c = 73 then 0x131 else if 65 ≤ c ∧ c ≤ 90 then c + 32 else c

/-- What `String.toLowerCase()` does with ASCII names in a Turkish or Azeri default locale. -/
def LowersTurkish (lower : JStr → JStr) : Prop := ∀ s : JStr, (∀ c ∈ s, c < 128) → lower s = s.map turkishChar

/-- The file names that lose their emoji in a Turkish locale: known by name and written with a capital `I`, or not known by name and known by an extension written with a capital `I`. -/
inductive Dotted (n : JStr) : Prop where
  | name : 73 ∈ n → n.map usualChar ∈ DEFAULT_FILENAME_EMOJIS.map Prod.fst → Dotted n
  | ext {x} : n.map usualChar ∉ DEFAULT_FILENAME_EMOJIS.map Prod.fst → LastExt n x → 73 ∈ x → x.map usualChar ∈ DEFAULT_FILEEXTENSIONS_EMOJIS.map Prod.fst → Dotted n

end Spec
end JFTP
