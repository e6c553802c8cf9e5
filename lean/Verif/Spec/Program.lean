import Verif.Spec.OnePage
import Verif.Spec.EndToEnd

/-
The command line program on one page: the text it prints, or none if it fails.
-/

namespace JFTP
namespace Spec
namespace OnePage
open Cli

/-- The pieces between the dots of a name. -/
def pieces : JStr → List JStr
  | [] => [[]]
  | c :: cs =>
    match pieces cs with
    | [] => []
    | w :: ws => if c = DOT then [] :: w :: ws else (c :: w) :: ws

/-- A list without the empty pieces at its end. -/
def trim : List JStr → List JStr
  | [] => []
  | w :: ws =>
    match trim ws with
    | [] => if w = [] then [] else [w]
    | v :: vs => w :: v :: vs

/-- The extensions of a name: what stands behind its first piece. -/
def extensions (n : JStr) : List JStr := (trim (pieces n)).tail

/-- What an options document chooses. -/
def ofDocument (lower : JStr → JStr) (isDir : Path → Bool) (G : JStr → Path → Bool) (tgt : Path) (x : ExternalOptions) : Settings :=
  { standard with
    showDir := fun p => match x.filter.bind (·.dir) with | some d => docHolds G tgt p d | none => true
    showFile := fun p => match x.filter.bind (·.file) with | some d => docHolds G tgt p d | none => true
    limit := fun p => match x.childLimit with
      | some (.static l) => l.getD 0
      | some (.dynamic ls) => match (limitRules G tgt (ls.getD [])).find? (fun r => r.1 p && decide (0 ≤ r.2)) with | some r => r.2 | none => -1
      | none => -1
    maxDepth := x.maxDepth.getD 20
    compact := x.compactDirectories.getD false
    emoji := fun p => if x.emojis = some true then some (if isDir p then j!"📂" else fileEmoji lower defaultCalls p ((p.names.getLast?.map fun n => extensions (lower n)).getD [])) else none
    ext := fun p => firstMatch none (extensionRules G tgt (x.lineExtensions.getD [])) p }

/-- The valid options document at a place: `some none` if there is nothing, `none` if there is something that is not a readable, valid document. -/
def documentAt (env : Env) (p : Path) : Option (Option ExternalOptions) :=
  if !env.fileExists p then some none
  else if env.isFile p && env.canRead p then
    match env.yaml p with
    | some (some x) => if x.valid then some (some x) else none
    | _ => none
  else none

/-- The first existing one of several places. -/
def firstDocument (env : Env) : List Path → Option (Option ExternalOptions)
  | [] => some none
  | p :: ps =>
    match documentAt env p with
    | some none => firstDocument env ps
    | r => r

/-- The document used in a run: the given one, which has to exist, or the first one found. -/
def document (env : Env) (args : Args) : Option ExternalOptions :=
  match args.optionsFile with
  | some p => (documentAt env (target env.cwd p)).join
  | none => (firstDocument env (places env (targetOf env args))).map (·.getD {})

/-- The set of paths of a glob. -/
def globSet (env : Env) (g : JStr) (p : Path) : Bool :=
  match env.glob g with
  | .ok f => f p
  | .error _ => false

/-- All globs of the document can be compiled (`*` is not compiled). -/
def globsGood (env : Env) (x : ExternalOptions) : Bool := (allGlobs x).all fun g => g = j!"*" || (env.glob g).isOk

/-- The text printed by the program for the directory tree `t` at its target; none if it fails. -/
def program (env : Env) (args : Args) (t : FileTree) : Option JStr :=
  if env.fileExists (targetOf env args) then
    match document env args with
    | some x => if globsGood env x then text (ofDocument env.casing.lower env.fs.isDir (globSet env) (targetOf env args) x) (targetOf env args) t else none
    | none => none
  else none

end OnePage
end Spec
end JFTP
