import Verif.Spec.Process
import Verif.Spec.OnePage

/-
What README.md:443-482 says about options files, and what the example options file prints.
-/

namespace JFTP
namespace Spec
namespace ReadmeCli
open Cli OnePage

/-- README.md:445-450: the places in the order of the README; `exe` is the directory of the executable. -/
def readmePlaces (env : Env) (exe tgt : Path) : List Path := [optionsFileIn tgt, optionsFileIn exe, optionsFileIn env.home]

/-- The files whose presence or content can matter: what is printed, and the options files. -/
def consulted (env : Env) (args : Args) : List Path :=
  targetOf env args :: (match args.optionsFile with | some p => [target env.cwd p] | none => places env (targetOf env args))

/-- Nothing is different at the path. -/
structure SameAt (env env' : Env) (p : Path) : Prop where
  fileExists : env'.fileExists p = env.fileExists p
  isFile : env'.isFile p = env.isFile p
  canRead : env'.canRead p = env.canRead p
  yaml : env'.yaml p = env.yaml p

/-- The same machine with other options files. -/
def withFiles (env : Env) (fileExists isFile canRead : Path → Bool) (yaml : Path → Option (Option ExternalOptions)) : Env :=
  { env with fileExists := fileExists, isFile := isFile, canRead := canRead, yaml := yaml }

/-- `(n, a)` is a file of the directory with the name `n`, which ends in `.java`, and with the attributes `a`. -/
def JavaFile (entries : List (JStr × FileTree)) (x : JStr × Option Attrs) : Prop := (x.1, FileTree.file x.2) ∈ entries ∧ j!".java" <:+ x.1

/-- What follows the name of a file or directory. -/
def comment (n : JStr) : JStr := if n = j!"FileTreePrettyPrinter.java" then j!" // Main entry point" else []

/-- The line of a file: link and other special files are marked. -/
def javaLine (x : JStr × Option Attrs) : JStr :=
  j!"☕ " ++ x.1 ++ (match x.2 with | some a => if a.isSymbolicLink then j!"*" else if a.isOther then j!"?" else [] | none => []) ++ comment x.1

/-- Lines below a directory. -/
def branches : List JStr → List JStr
  | [] => []
  | [l] => [j!"└─ " ++ l]
  | l :: ls => (j!"├─ " ++ l) :: branches ls

/-- The lines printed with the example options file: the directory and its first three java files; nothing of its directories. -/
def exampleLines (dirName : JStr) (files : List (JStr × Option Attrs)) : List JStr :=
  (j!"📂 " ++ dirName ++ j!"/" ++ comment dirName) :: branches ((files.take 3).map javaLine ++ if 3 < files.length then [j!"..."] else [])

end ReadmeCli
end Spec
end JFTP
