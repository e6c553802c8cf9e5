import Verif.Model.Cli
import Verif.Spec.Visit

/-
What a run of the command line program has to do.
-/

namespace JFTP
namespace Spec
open Cli

/-- Working directory and home directory are absolute paths without `.` and `..`. -/
structure PlainDirs (env : Env) : Prop where
  cwd : env.cwd.abs = true ∧ ∀ n ∈ env.cwd.names, n ≠ j!"." ∧ n ≠ j!".."
  home : env.home.abs = true ∧ ∀ n ∈ env.home.names, n ≠ j!"." ∧ n ≠ j!".."

/-- What is found at the place of an options file. -/
inductive FileState where
  | missing
  | bad (e : CliExn)
  | good (x : ExternalOptions)

/-- `AtPlace env p s`: what is found at `p`. -/
inductive AtPlace (env : Env) (p : Path) : FileState → Prop where
  | missing : env.fileExists p = false → AtPlace env p .missing
  | notFile : env.fileExists p = true → env.isFile p = false → AtPlace env p (.bad (.externalOptions p j!"Options file is actually not a file"))
  | unreadable : env.fileExists p = true → env.isFile p = true → env.canRead p = false →
      AtPlace env p (.bad (.externalOptions p j!"Options file exist but is not readable"))
  | malformed : env.fileExists p = true → env.isFile p = true → env.canRead p = true → env.yaml p = none →
      AtPlace env p (.bad (.externalOptions p j!"IO error or malformed options file"))
  | nullDocument : env.fileExists p = true → env.isFile p = true → env.canRead p = true → env.yaml p = some none → AtPlace env p (.bad .validateNull)
  | invalid {x : ExternalOptions} : env.fileExists p = true → env.isFile p = true → env.canRead p = true → env.yaml p = some (some x) → x.valid = false →
      AtPlace env p (.bad (.constraintViolation (env.violations x)))
  | good {x : ExternalOptions} : env.fileExists p = true → env.isFile p = true → env.canRead p = true → env.yaml p = some (some x) → x.valid = true →
      AtPlace env p (.good x)

/-- The options file of a directory. -/
def optionsFileIn (d : Path) : Path := ⟨true, d.names ++ [j!".prettyprint"]⟩

/-- Where options files are looked for if none is given. -/
def places (env : Env) (tgt : Path) : List Path := [optionsFileIn tgt, optionsFileIn env.cwd, optionsFileIn env.home]

/-- `FirstOf env ps r`: the result of looking for a file at the places `ps`; the first existing one decides. -/
inductive FirstOf (env : Env) (ps : List Path) : Except CliExn (Option ExternalOptions) → Prop where
  | nothing : (∀ p ∈ ps, AtPlace env p .missing) → FirstOf env ps (.ok none)
  | used {l₁ l₂ : List Path} {p : Path} {x : ExternalOptions} : ps = l₁ ++ p :: l₂ → (∀ q ∈ l₁, AtPlace env q .missing) → AtPlace env p (.good x) →
      FirstOf env ps (.ok (some x))
  | refused {l₁ l₂ : List Path} {p : Path} {e : CliExn} : ps = l₁ ++ p :: l₂ → (∀ q ∈ l₁, AtPlace env q .missing) → AtPlace env p (.bad e) →
      FirstOf env ps (.error e)

/-- `Chosen env tgt given r`: the options document that is used; `given` is the file given on the command line. -/
inductive Chosen (env : Env) (tgt : Path) : Option Path → Except CliExn (Option ExternalOptions) → Prop where
  | givenMissing {p : Path} : AtPlace env (target env.cwd p) .missing →
      Chosen env tgt (some p) (.error (.externalOptions (target env.cwd p) j!"Options file does not exist"))
  | givenBad {p : Path} {e : CliExn} : AtPlace env (target env.cwd p) (.bad e) → Chosen env tgt (some p) (.error e)
  | givenGood {p : Path} {x : ExternalOptions} : AtPlace env (target env.cwd p) (.good x) → Chosen env tgt (some p) (.ok (some x))
  | fallback {r : Except CliExn (Option ExternalOptions)} : FirstOf env (places env tgt) r → Chosen env tgt none r

/-- The directory or file to print: the given one, else the working directory. -/
def targetOf (env : Env) (args : Args) : Path :=
  match args.target with
  | some p => target env.cwd p
  | none => env.cwd

/-- The library options for a document; the default options without one. -/
def optionsFor (env : Env) (tgt : Path) : Option ExternalOptions → Except Exn (Options (Except Exn))
  | none => .ok Options.createDefault
  | some x => mapToOptions env.casing env.glob env.fs.lift env.cwd tgt x

/-- How a run ends, apart from printing. -/
inductive Outcome where
  | notFound (tgt : Path)
  | failed (e : CliExn)
  | tree (s : JStr)

/-- `Ends env args r`: how the run has to end. -/
inductive Ends (env : Env) (args : Args) : Outcome → Prop where
  | notFound : env.fileExists (targetOf env args) = false → Ends env args (.notFound (targetOf env args))
  | badOptions {e : CliExn} : env.fileExists (targetOf env args) = true → Chosen env (targetOf env args) args.optionsFile (.error e) → Ends env args (.failed e)
  | unusableOptions {x : Option ExternalOptions} {e : Exn} : env.fileExists (targetOf env args) = true → Chosen env (targetOf env args) args.optionsFile (.ok x) →
      optionsFor env (targetOf env args) x = .error e → Ends env args (.failed (.lib e))
  | unprintable {x : Option ExternalOptions} {o : Options (Except Exn)} {e : Exn} : env.fileExists (targetOf env args) = true →
      Chosen env (targetOf env args) args.optionsFile (.ok x) → optionsFor env (targetOf env args) x = .ok o →
      prettyPrint env.fs.lift env.cwd o (targetOf env args) = .error e → Ends env args (.failed (.lib e))
  | printed {x : Option ExternalOptions} {o : Options (Except Exn)} {s : JStr} : env.fileExists (targetOf env args) = true →
      Chosen env (targetOf env args) args.optionsFile (.ok x) → optionsFor env (targetOf env args) x = .ok o →
      prettyPrint env.fs.lift env.cwd o (targetOf env args) = .ok s → Ends env args (.tree s)

/-- The text of the error message for a failure. -/
def failureText (env : Env) : CliExn → JStr
  | .externalOptions p msg => msg ++ j!": " ++ pathString p
  | .constraintViolation vs => j!"Invalid options file:" ++ [NL] ++ joinLines (vs.map (fun v => j!"  -> " ++ v))
  | e => j!"Error while pretty printing: " ++ env.message e

/-- Debug messages on the standard output. -/
def debugLines (msgs : List JStr) : JStr := msgs.flatMap (fun t => j!"[DEBUG] " ++ t ++ j!"\n")

end Spec
end JFTP
