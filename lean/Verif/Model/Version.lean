import Verif.Model.JStr

/-
cli/ManifestVersionProvider.java (paths relative to jfiletreeprettyprinter-cli/src/main/java/io/github/computerdaddyguy/jfiletreeprettyprinter)
-/

namespace JFTP
namespace Version

/-- `java.util.jar.Attributes` as the manifest reader leaves it (JDK): names with their values, later entries for the same name have replaced earlier ones. -/
abbrev Attributes := List (JStr × JStr)

/-- What `getResourceAsStream("/META-INF/MANIFEST.MF")` and `new Manifest(is)` give: no such resource, a manifest that cannot be read (`IOException`), or its main attributes. -/
inductive Resource where
  | missing
  | unreadable
  | manifest (main : Attributes)
deriving DecidableEq, Repr

/-- `Attributes.getValue(String)` (JDK): names are compared ignoring the case of ASCII letters. -/
def getValue (m : Attributes) (name : JStr) : Option JStr :=
  (m.find? fun a => equalsIgnoreCase asciiLowerChar a.1 name).map (·.2)

/-- cli/ManifestVersionProvider.java:39-41 -/
def valueOrUnknown (value : Option JStr) : JStr := value.getD j!"unknown"

/-- cli/ManifestVersionProvider.java:9-37; `none` is the `IOException` of an unreadable manifest. -/
def getVersion (r : Resource) : Option (List JStr) :=
  let lines (implVersion projectDesc commitId commitTime scmUrl buildTime : Option JStr) : List JStr := [
    j!"JFileTreePrettyPrinter " ++ valueOrUnknown implVersion,
    valueOrUnknown projectDesc,
    j!"Repository: " ++ valueOrUnknown scmUrl,
    j!"Commit: " ++ valueOrUnknown commitId ++ j!" (" ++ valueOrUnknown commitTime ++ j!")",
    j!"Built on: " ++ valueOrUnknown buildTime]
  match r with
  | .missing => some (lines none none none none none none)
  | .unreadable => none
  | .manifest m =>
    let implVersion := getValue m j!"Implementation-Version"
    let projectDesc := getValue m j!"Project-Desc"
    let commitId := getValue m j!"Commit-Id"
    let commitTime := getValue m j!"Commit-Time"
    let scmUrl := getValue m j!"Scm-Url"
    let buildTime := getValue m j!"Build-Time"
    some (lines implVersion projectDesc commitId commitTime scmUrl buildTime)

end Version
end JFTP
