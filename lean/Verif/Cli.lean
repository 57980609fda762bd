import Verif.Parser
import Verif.Locator
import Verif.Validator

/-!
# The command line tool (parse/parser.go) and `ParserValidator` (validator/validator.go:169-187)
-/

namespace PP

/-- Options and arguments of the command, parse/parser.go:19-24, and the runtime functions used. -/
structure CliArgs where
  validateOnly : Bool := false
  json : Bool := false
  strict : GoStr := b!"off"
  tasks : Bool := false
  workflow : Bool := false
  fileName : GoStr
  content : GoStr
  uniLetter : Nat → Bool := fun _ => false
  fmtFloat : FloatVal → GoStr := fun v => v.text
  feq : FloatVal → FloatVal → Bool := fun a b => a == b

/-- What is written and how the process ends.  parse/parser.go:26-128. -/
structure CliOut where
  /-- exit status; 0 when `main` returns -/
  exit : Nat
  /-- the AST written to standard output: PN text, or with `-j` the `ast` entry of the JSON object -/
  ast : Option PN := none
  /-- the parse error written to standard error, or with `-j` in the JSON object -/
  error : Option Err := none
  /-- the issues written to standard error, or with `-j` in the JSON object -/
  issues : List Issue := []

/-- The process ends with a Go panic (exit status 2 and a stack trace).  parse/parser.go:26-128. -/
inductive CliPanic where
  | strictness
  | parse (k : Crash)
  | timeout
  | validate (p : VPanic)
  | toPN (p : Expr.PNPanic)
  /-- `err.Error()` asks the locator for a line (only for `issue.Reported` errors) -/
  | location (e : LocErr)

/-- The location part of `Error()`/`String()` of a reported issue: line and position on the line are
computed by the locator (parser/expression.go:574-608), which panics on invalid text. -/
def describe (text : GoStr) (off : Int) : Except CliPanic Unit := do
  match lineForOffset text off with
  | .error e => .error (.location e)
  | .ok _ => match posOnLine text off with
    | .error e => .error (.location e)
    | .ok _ => .ok ()

/-- The locations of a list of issues.  parse/parser.go:73-100. -/
def describeAll (text : GoStr) : List Issue → Except CliPanic Unit
  | [] => .ok ()
  | i :: is => do
    describe text i.at_.off
    describeAll text is

/-- `severity` after the loop of parse/parser.go:78-84, 107-112. -/
def maxSeverity (is : List Issue) : Severity :=
  is.foldl (fun s i => if s.rank < i.severity.rank then i.severity else s) .ignore

/-- The parser options, parse/parser.go:51-60. -/
def CliArgs.env (a : CliArgs) : Env :=
  { text := a.content, epp := b!".epp" <:+ a.fileName, tasks := a.tasks, workflow := a.workflow,
    uniLetter := a.uniLetter, fmtFloat := a.fmtFloat }

/-- `main` after the arguments were read, parse/parser.go:49-122.  Reading the file and writing are
assumed to succeed; JSON encoding is in Json.lean. -/
def cliMain (a : CliArgs) : Except CliPanic CliOut :=
  match strict a.strict with
  | none => .error .strictness
  | some s =>
    match parse a.env false with
    | .panic k => .error (.parse k)
    | .timeout => .error .timeout
    | .error (.issue code pos) => do
      describe a.content pos
      return { exit := 1, error := some (.issue code pos) }
    | .error e => .ok { exit := 1, error := some e }
    | .value expr =>
      let c : Checker := { kind := .puppet, strict := s, textLen := a.content.length, feq := a.feq, ff := a.fmtFloat }
      match validateWith c expr with
      | .error p => .error (.validate p)
      | .ok issues => do
        describeAll a.content issues
        if maxSeverity issues = .error then return { exit := 1, issues := issues }
        if a.validateOnly then return { exit := 0, issues := issues }
        match expr.toPN with
        | .error p => .error (.toPN p)
        | .ok p => return { exit := 0, ast := some p, issues := issues }

/-- Result of `ParserValidator.Parse`, validator/validator.go:173-187. -/
inductive PVResult where
  /-- expression, nil -/
  | clean (e : Expr)
  /-- expression and issues -/
  | issues (e : Expr) (is : List Issue)
  /-- nil and the parse error as the only issue -/
  | parseError (e : Err)
  /-- a panic -/
  | panic

/-- `parserValidator.Parse`, validator/validator.go:173-187, on a fresh parser; a reader error is
turned into a panic. -/
def parserValidatorParse (env : Env) (c : Checker) : PVResult :=
  match parse env false with
  | .value e => match validateWith c e with
    | .ok [] => .clean e
    | .ok is => .issues e is
    | .error _ => .panic
  | .error (.issue code p) => .parseError (.issue code p)
  | _ => .panic

end PP
