import Verif.Model.Renderer

/-
options/DefaultEmojiMappingBuilder.java, DefaultEmojiMapping.java, SequentialEmojiFunction.java, PathMatcherEmojiFunction.java,
PathNameEmojiFunction.java, PathExtensionEmojiFunction.java, MappingUtils.java, EmojiMapping.java
-/

namespace JFTP

/-- `java.util.HashMap<String, String>`: an association list with pairwise different keys (only built by `StrMap.put` from the empty map).
Iteration order is not modelled: nothing in the repository depends on it (see `toLowerCaseKeys`). -/
abbrev StrMap := List (JStr × JStr)

namespace StrMap
/-- `Map.get` (`null` is `none`) -/
def get (t : StrMap) (k : JStr) : Option JStr := List.lookup k t
/-- `Map.put` -/
def put (t : StrMap) (k v : JStr) : StrMap := t.filter (fun e => e.1 != k) ++ [(k, v)]
end StrMap

/-- options/MappingUtils.java:14-23: `Collectors.toMap` throws `IllegalStateException` when two entries have the same lower-cased key. -/
def toLowerCaseKeys (cs : Casing) (t : StrMap) : Except Exn StrMap :=
  let t' := t.map (fun e => (cs.lower e.1, e.2))
  if (t'.map Prod.fst).Nodup then .ok t' else .error .illegalState

variable {m : Type → Type} [Monad m] [MonadExceptOf Exn m]

/-- options/PathMatcherEmojiFunction.java:31 -/
structure EmojiMatch (m : Type → Type) where
  matcher : Matcher m
  emoji : JStr

/-- options/PathMatcherEmojiFunction.java:23-29 (`stream().filter(..).findFirst()` is lazy: later matchers are not called). -/
def pathMatcherEmoji : List (EmojiMatch m) → EmojiFn m
  | [], _ => pure none
  | item :: rest, path => do
    if ← item.matcher path then return some item.emoji
    else pathMatcherEmoji rest path

/-- options/PathNameEmojiFunction.java:20-25 -/
def pathNameEmoji (cs : Casing) (mapping : StrMap) (path : Path) : Option JStr :=
  match path.getFileName with
  | none => none
  | some n => mapping.get (cs.lower n)

/-- options/PathExtensionEmojiFunction.java:48-56: the loop running down from the last part; `acc` is the list built so far. -/
def extensionsLoop : List JStr → List JStr → List JStr
  | [], acc => acc
  | part :: rest, [] => extensionsLoop rest [part]
  | part :: rest, first :: acc => extensionsLoop rest ((part ++ DOT :: first) :: first :: acc)

/-- options/PathExtensionEmojiFunction.java:43-57, for the file name `name`. -/
def getExtensions (cs : Casing) (name : JStr) : List JStr :=
  let parts := splitDots (cs.lower name)
  if parts.length = 1 then []
  else extensionsLoop parts.tail.reverse []

/-- options/PathExtensionEmojiFunction.java:27-34: the lookup loop. -/
def firstMapped (mapping : StrMap) : List JStr → Option JStr
  | [] => none
  | ext :: rest =>
    match mapping.get ext with
    | some emoji => some emoji
    | none => firstMapped mapping rest

/-- options/PathExtensionEmojiFunction.java:22-35 -/
def pathExtensionEmoji (cs : Casing) (mapping : StrMap) (path : Path) : Option JStr :=
  match path.getFileName with
  | none => none
  | some n => firstMapped mapping (getExtensions cs n)

/-- options/SequentialEmojiFunction.java:21-30 -/
def sequentialEmoji : List (EmojiFn m) → EmojiFn m
  | [], _ => pure none
  | fn :: rest, path => do
    match ← fn path with
    | some e => return some e
    | none => sequentialEmoji rest path

/-- options/DefaultEmojiMappingBuilder.java:18-25: a mutable builder object; the model is its current state. -/
structure EmojiMappingBuilder (m : Type → Type) where
  defaultDirEmoji : JStr := j!"📂"
  dirMatchersEmojis : List (EmojiMatch m) := []
  dirNamesEmojis : StrMap := []
  defaultFileEmoji : JStr := j!"📄"
  fileMatchersEmojis : List (EmojiMatch m) := []
  fileNamesEmojis : StrMap := []
  fileExtensionsEmojis : StrMap := []

/-- options/DefaultEmojiMappingBuilder.java:119-165 -/
def DEFAULT_FILENAME_EMOJIS : StrMap := [
  (j!".gitignore", j!"🚫"),
  (j!"dockerfile", j!"🐳"),
  (j!"docker-compose.yaml", j!"⚙️"),
  (j!"docker-compose.yml", j!"⚙️"),
  (j!"jenkinsfile", j!"🤵"),
  (j!"makefile", j!"🛠️"),
  (j!"pom.xml", j!"🛠️"),
  (j!"build.gradle", j!"🛠️"),
  (j!"package.json", j!"🛠️"),
  (j!"robots.txt", j!"🤖"),
  (j!"readme", j!"📘"),
  (j!"readme.md", j!"📘"),
  (j!"roadmap", j!"🗺️"),
  (j!"roadmap.md", j!"🗺️"),
  (j!"license", j!"⚖️"),
  (j!"license.md", j!"⚖️"),
  (j!"changelog", j!"🆕"),
  (j!"changelog.md", j!"🆕"),
  (j!"security", j!"🛡️"),
  (j!"security.md", j!"🛡️"),
  (j!"todo", j!"✅"),
  (j!"todo.md", j!"✅"),
  (j!"contributing", j!"🤝"),
  (j!"contributing.md", j!"🤝")]

/-- options/DefaultEmojiMappingBuilder.java:167-286 -/
def DEFAULT_FILEEXTENSIONS_EMOJIS : StrMap := [
  (j!"exe", j!"⚙️"),
  (j!"bin", j!"⚙️"),
  (j!"msi", j!"📦"),
  (j!"apk", j!"📱"),
  (j!"ipa", j!"📱"),
  (j!"app", j!"🖥️"),
  (j!"dll", j!"🧩"),
  (j!"lib", j!"🧩"),
  (j!"so", j!"🧩"),
  (j!"7z", j!"📦"),
  (j!"gz", j!"📦"),
  (j!"img", j!"💿"),
  (j!"iso", j!"💿"),
  (j!"tar", j!"📦"),
  (j!"rar", j!"📦"),
  (j!"zip", j!"📦"),
  (j!"java", j!"☕"),
  (j!"class", j!"☕"),
  (j!"jar", j!"📦"),
  (j!"py", j!"🐍"),
  (j!"js", j!"⚡"),
  (j!"ts", j!"🔷"),
  (j!"c", j!"💠"),
  (j!"cpp", j!"💠"),
  (j!"cs", j!"💠"),
  (j!"css", j!"🎨"),
  (j!"scss", j!"🎨"),
  (j!"less", j!"🎨"),
  (j!"html", j!"🌐"),
  (j!"htm", j!"🌐"),
  (j!"htmx", j!"🌐"),
  (j!"php", j!"🐘"),
  (j!"sql", j!"🗄️"),
  (j!"vue", j!"🟩"),
  (j!"sh", j!"📜"),
  (j!"bash", j!"📜"),
  (j!"bat", j!"📜"),
  (j!"cfg", j!"⚙️"),
  (j!"conf", j!"⚙️"),
  (j!"csv", j!"📊"),
  (j!"ini", j!"⚙️"),
  (j!"properties", j!"⚙️"),
  (j!"json", j!"📝"),
  (j!"ods", j!"📊"),
  (j!"xls", j!"📊"),
  (j!"xlsx", j!"📊"),
  (j!"xml", j!"📝"),
  (j!"yaml", j!"📝"),
  (j!"yml", j!"📝"),
  (j!"doc", j!"📝"),
  (j!"docx", j!"📝"),
  (j!"epub", j!"📚"),
  (j!"md", j!"📝"),
  (j!"odt", j!"📝"),
  (j!"pdf", j!"📕"),
  (j!"rtf", j!"📝"),
  (j!"txt", j!"📝"),
  (j!"aac", j!"🎵"),
  (j!"flac", j!"🎵"),
  (j!"midi", j!"🎹"),
  (j!"mp3", j!"🎵"),
  (j!"ogg", j!"🎵"),
  (j!"wav", j!"🎵"),
  (j!"bmp", j!"🖼️"),
  (j!"gif", j!"🎞️"),
  (j!"jpeg", j!"🖼️"),
  (j!"jpg", j!"🖼️"),
  (j!"png", j!"🖼️"),
  (j!"svg", j!"✒️"),
  (j!"ico", j!"🖼️"),
  (j!"avi", j!"🎬"),
  (j!"mkv", j!"🎬"),
  (j!"mov", j!"🎬"),
  (j!"mp4", j!"🎬"),
  (j!"webm", j!"🎬"),
  (j!"wmv", j!"🎬"),
  (j!"bak", j!"💾"),
  (j!"log", j!"📜"),
  (j!"tmp", j!"🗑️"),
  (j!"key", j!"🔑"),
  (j!"pem", j!"🔐"),
  (j!"crt", j!"🔐"),
  (j!"pub", j!"🔓")]

/-- The object returned by `build()` (options/DefaultEmojiMapping.java:19-25): default emojis and lower-cased maps are copies taken at build
time; the two matcher lists are *references* to the builder's lists (options/PathMatcherEmojiFunction.java:16-19 does not copy), so they are not
stored here but read from the builder when the mapping is called. -/
structure EmojiMapping where
  casing : Casing
  defaultDirEmoji : JStr
  dirNames : StrMap
  defaultFileEmoji : JStr
  fileNames : StrMap
  fileExtensions : StrMap

namespace EmojiMappingBuilder

/-- options/DefaultEmojiMappingBuilder.java:27-29 -/
def newBlankInstance : EmojiMappingBuilder m := {}

/-- options/DefaultEmojiMappingBuilder.java:31-36 -/
def newDefaultInstance : EmojiMappingBuilder m :=
  { fileNamesEmojis := DEFAULT_FILENAME_EMOJIS, fileExtensionsEmojis := DEFAULT_FILEEXTENSIONS_EMOJIS }

/-- options/DefaultEmojiMappingBuilder.java:39-57 -/
def build (cs : Casing) (b : EmojiMappingBuilder m) : Except Exn EmojiMapping := do
  let dirNames ← toLowerCaseKeys cs b.dirNamesEmojis
  let fileNames ← toLowerCaseKeys cs b.fileNamesEmojis
  let fileExtensions ← toLowerCaseKeys cs b.fileExtensionsEmojis
  return ⟨cs, b.defaultDirEmoji, dirNames, b.defaultFileEmoji, fileNames, fileExtensions⟩

/-- options/DefaultEmojiMappingBuilder.java:63-67 -/
def setDefaultDirectoryEmoji (b : EmojiMappingBuilder m) (e : JStr) : EmojiMappingBuilder m := { b with defaultDirEmoji := e }
/-- options/DefaultEmojiMappingBuilder.java:69-75 -/
def setDirectoryNameEmoji (b : EmojiMappingBuilder m) (n e : JStr) : EmojiMappingBuilder m :=
  { b with dirNamesEmojis := b.dirNamesEmojis.put n e }
/-- options/DefaultEmojiMappingBuilder.java:77-83 -/
def addDirectoryEmoji (b : EmojiMappingBuilder m) (mt : Matcher m) (e : JStr) : EmojiMappingBuilder m :=
  { b with dirMatchersEmojis := b.dirMatchersEmojis ++ [⟨mt, e⟩] }
/-- options/DefaultEmojiMappingBuilder.java:87-91 -/
def setDefaultFileEmoji (b : EmojiMappingBuilder m) (e : JStr) : EmojiMappingBuilder m := { b with defaultFileEmoji := e }
/-- options/DefaultEmojiMappingBuilder.java:93-99 -/
def setFileNameEmoji (b : EmojiMappingBuilder m) (n e : JStr) : EmojiMappingBuilder m :=
  { b with fileNamesEmojis := b.fileNamesEmojis.put n e }
/-- options/DefaultEmojiMappingBuilder.java:101-107 -/
def setFileExtensionEmoji (b : EmojiMappingBuilder m) (x e : JStr) : EmojiMappingBuilder m :=
  { b with fileExtensionsEmojis := b.fileExtensionsEmojis.put x e }
/-- options/DefaultEmojiMappingBuilder.java:109-115 -/
def addFileEmoji (b : EmojiMappingBuilder m) (mt : Matcher m) (e : JStr) : EmojiMappingBuilder m :=
  { b with fileMatchersEmojis := b.fileMatchersEmojis ++ [⟨mt, e⟩] }

end EmojiMappingBuilder

/-- options/DefaultEmojiMapping.java:28-32: call of the built mapping while the builder object is in state `live`. -/
def EmojiMapping.getPathEmoji (fs : Fs m) (f : EmojiMapping) (live : EmojiMappingBuilder m) : EmojiFn m := fun path => do
  if ← PathMatchers.isDirectory fs path then
    let e ← sequentialEmoji
      [pathMatcherEmoji live.dirMatchersEmojis,
       fun p => pure (pathNameEmoji f.casing f.dirNames p)] path
    return some (e.getD f.defaultDirEmoji)
  else
    let e ← sequentialEmoji
      [pathMatcherEmoji live.fileMatchersEmojis,
       fun p => pure (pathNameEmoji f.casing f.fileNames p),
       fun p => pure (pathExtensionEmoji f.casing f.fileExtensions p)] path
    return some (e.getD f.defaultFileEmoji)

/-- options/EmojiMapping.java:18-20 -/
def EmojiMapping.none : EmojiFn m := fun _ => pure Option.none

end JFTP
