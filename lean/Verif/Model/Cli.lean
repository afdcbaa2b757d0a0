import Verif.Model.Monad

/-!
# The command line tool (cmd/raml/validate.go, cmd/raml/raml.go)

`parse` stands for `raml.ParseFromPathCtx(ctx, arg, OptWithUnwrap(), OptWithValidate())`: the error for a path, if any.  Logging is
modelled by the list of verdicts it prints.
-/

namespace GoRaml

/-- A line of the log: the verdict printed for a path (validate.go:39-44). -/
inductive Verdict where
  | invalid (path : String)
  | valid (path : String)
  deriving DecidableEq, Repr

/-- cmd/raml/validate.go:37-45: the loop over the arguments.  `err` is the variable declared before the loop; every iteration
assigns it. -/
def validateLoop (parse : String → Option String) : List String → Option String → List Verdict × Option String
  | [], err => ([], err)
  | arg :: args, _ =>
    let err := parse arg
    let line := match err with
      | some _ => Verdict.invalid arg
      | none => Verdict.valid arg
    let (log, err) := validateLoop parse args err
    (line :: log, err)

/-- cmd/raml/validate.go:29-48 `ValidateCommand.Execute`. -/
def validateExecute (parse : String → Option String) (args : List String) : List Verdict × Out Unit :=
  let (log, err) := validateLoop parse args none
  match err with
  | some _ => (log, .err "errors have been found in the RAML files")
  | none => (log, .ok ())

/-- cmd/raml/raml.go:38-47, 53-111: the exit code of `raml validate args...`; cobra rejects an empty argument list
(`cobra.MinimumNArgs(1)`, external). -/
def exitCode (parse : String → Option String) (args : List String) : Nat :=
  if args.isEmpty then 1
  else match (validateExecute parse args).2 with
    | .ok _ => 0
    | _ => 1

end GoRaml
