import Verif.Spec.Emoji

/-
What the default emojis are by documentation.
-/

namespace JFTP
namespace Spec

/-- The name ends with a dot and `key`, apart from dots at its very end. -/
def LastExt (name key : JStr) : Prop := DOT ∉ key ∧ key ≠ [] ∧ ∃ base k, name = base ++ DOT :: key ++ List.replicate k DOT

/-- README.md:201-212: emojis shown for extensions. -/
def readmeExtensions : List (JStr × JStr) :=
  [(j!"zip", j!"📦"), (j!"java", j!"☕"), (j!"ini", j!"⚙️"), (j!"xlsx", j!"📊"), (j!"docx", j!"📃"), (j!"pdf", j!"📕"), (j!"mp3", j!"🎵"), (j!"jpeg", j!"🖼️"), (j!"avi", j!"🎬")]

/-- README.md:202-205: emojis shown for names. -/
def readmeNames : List (JStr × JStr) := [(j!"dockerfile", j!"🐳"), (j!"jenkinsfile", j!"🤵"), (j!"readme", j!"📖")]

end Spec
end JFTP
