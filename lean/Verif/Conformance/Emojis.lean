import Verif.Conformance.Core

/-
core/src/test/java/io/github/computerdaddyguy/jfiletreeprettyprinter/EmojisTest.java replayed on the model (tests, not proofs; see `Conformance.Core`).
-/

namespace JFTP
namespace Conformance
open PathMatchers (hasName)

/-- `withDefaultEmojis()` -/
def emojis (fs : PureFs) : Opts := match dflt.withDefaultEmojis asciiCasing fs.lift with | .ok o => o | .error _ => dflt

#guard printsWith [] emojis ["📂 targetPath/"]

/-- Lines 36-191: expected emoji and file name. -/
def rows : List (String × String) := [
  ("📄", "file.unknown_extension"), ("📄", "file_without_extension"), ("📱", "file.apk"), ("🖥️", "file.app"), ("⚙️", "file.bin"),
  ("⚙️", "file.exe"), ("📦", "file.msi"), ("📱", "file.ipa"), ("🧩", "file.dll"), ("🧩", "file.lib"),
  ("🧩", "file.so"), ("📦", "file.7z"), ("📦", "file.gz"), ("💿", "file.img"), ("💿", "file.iso"),
  ("📦", "file.rar"), ("📦", "file.tar"), ("📦", "file.zip"), ("🚫", ".gitignore"), ("🐳", "Dockerfile"),
  ("🤵", "Jenkinsfile"), ("⚙️", "docker-compose.yml"), ("🛠️", "build.gradle"), ("🛠️", "makefile"), ("🛠️", "package.json"),
  ("🛠️", "pom.xml"), ("💠", "file.c"), ("☕", "file.class"), ("💠", "file.cpp"), ("💠", "file.cs"),
  ("🎨", "file.css"), ("🌐", "file.htm"), ("🌐", "file.html"), ("🌐", "file.htmx"), ("📦", "file.jar"),
  ("☕", "file.java"), ("🎨", "file.less"), ("🐘", "file.php"), ("🐍", "file.py"), ("🎨", "file.scss"),
  ("🗄️", "file.sql"), ("🔷", "file.ts"), ("📜", "file.bash"), ("📜", "file.bat"), ("📜", "file.sh"),
  ("⚙️", "file.cfg"), ("⚙️", "file.conf"), ("📊", "file.csv"), ("⚙️", "file.ini"), ("📝", "file.json"),
  ("📊", "file.ods"), ("⚙️", "file.properties"), ("📊", "file.xls"), ("📊", "file.xlsx"), ("📝", "file.xml"),
  ("📝", "file.yaml"), ("📝", "file.yml"), ("📝", "file.doc"), ("📝", "file.docx"), ("📚", "file.epub"),
  ("📝", "file.md"), ("📝", "file.odt"), ("📕", "file.pdf"), ("📝", "file.rtf"), ("📝", "file.txt"),
  ("🤖", "robots.txt"), ("🆕", "changelog"), ("🆕", "changelog.md"), ("🤝", "contributing"), ("🤝", "contributing.md"),
  ("⚖️", "license"), ("⚖️", "license.md"), ("📘", "readme"), ("📘", "readme.md"), ("🗺️", "roadmap"),
  ("🗺️", "roadmap.md"), ("🛡️", "security"), ("🛡️", "security.md"), ("🎵", "file.aac"), ("🎵", "file.flac"),
  ("🎹", "file.midi"), ("🎵", "file.mp3"), ("🎵", "file.ogg"), ("🎵", "file.wav"), ("🖼️", "file.bmp"),
  ("🎞️", "file.gif"), ("🖼️", "file.ico"), ("🖼️", "file.jpeg"), ("🖼️", "file.jpg"), ("🖼️", "file.png"),
  ("✒️", "file.svg"), ("🎬", "file.avi"), ("🎬", "file.mkv"), ("🎬", "file.mov"), ("🎬", "file.mp4"),
  ("🎬", "file.webm"), ("🎬", "file.wmv"), ("💾", "file.bak"), ("🔐", "file.crt"), ("🔑", "file.key"),
  ("📜", "file.log"), ("🔐", "file.pem"), ("🔓", "file.pub"), ("🗑️", "file.tmp")]

#guard rows.length == 104
#guard rows.all (fun r => printsWith [f r.2] emojis ["📂 targetPath/", "└─ " ++ r.1 ++ " " ++ r.2])

/-- `withEmojis(mapping)` with a mapping built from the default one. -/
def emojisOf (change : EmojiMappingBuilder (Except Exn) → EmojiMappingBuilder (Except Exn)) (fs : PureFs) : Opts :=
  let b := change EmojiMappingBuilder.newDefaultInstance
  match b.build asciiCasing with
  | .ok e => dflt.withEmojis (e.getPathEmoji fs.lift b)
  | .error _ => dflt

/-- The directories of two tests. -/
def abc : List (JStr × Node) := [d "dirA", d "dirB", d "dirC"]

#guard printsWith abc (emojisOf (fun b => b.setDirectoryNameEmoji (js "dirA") (js "⭐"))) ["📂 targetPath/", "├─ ⭐ dirA/", "├─ 📂 dirB/", "└─ 📂 dirC/"]
#guard printsWith abc (emojisOf (fun b => (b.addDirectoryEmoji (hasName (js "dirA")) (js "⭐")).addDirectoryEmoji (hasName (js "dirB")) (js "😊"))) ["📂 targetPath/", "├─ ⭐ dirA/", "├─ 😊 dirB/", "└─ 📂 dirC/"]
#guard printsWith [f "aaa", f "dockerfile", f "jenkinsfile", f "license"]
    (emojisOf (fun b => (b.setFileNameEmoji (js "aaa") (js "⭐")).setFileNameEmoji (js "dockerfile") (js "😊"))) ["📂 targetPath/", "├─ ⭐ aaa", "├─ 😊 dockerfile", "├─ 🤵 jenkinsfile", "└─ ⚖️ license"]
#guard printsWith [f "file.plop", f "file.avi", f "file.gif", f "license"]
    (emojisOf (fun b => (b.setFileExtensionEmoji (js "plop") (js "⭐")).setFileExtensionEmoji (js "avi") (js "😊"))) ["📂 targetPath/", "├─ 😊 file.avi", "├─ 🎞️ file.gif", "├─ ⭐ file.plop", "└─ ⚖️ license"]
#guard printsWith [f "file.plop", f "file.avi", f "file.gif", f "license"]
    (emojisOf (fun b => (b.addFileEmoji (hasName (js "file.plop")) (js "⭐")).addFileEmoji (hasName (js "file.avi")) (js "😊"))) ["📂 targetPath/", "├─ 😊 file.avi", "├─ 🎞️ file.gif", "├─ ⭐ file.plop", "└─ ⚖️ license"]

end Conformance
end JFTP
