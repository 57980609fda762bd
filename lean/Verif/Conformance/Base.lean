import Verif.Props.Seen
import Verif.Locator
import Verif.Validator

/-!
# Conformance: what the tests of the repository observe

The modules `Conformance/Parser*` and `Conformance/Validator*` are generated by `tools/conformance.py` from the tests in
/repo.  Each example states that the model gives what a test of the repository expects.  They are tests of the fidelity of the
model, not properties; none of the theorems depends on them.
-/
namespace PP.Conformance
open PP.Props

/-- What a test sees. -/
inductive Obs where
  | pn (text : GoStr)
  | heredoc (text : GoStr)
  | error (code : Code) (line col : Nat)
  | invalidUnicode (pos : Nat)
  | other
deriving DecidableEq, Repr

/-- The option environment of the tests; the only letter from U+0080 on that they use is U+00F6. -/
def opts (text : GoStr) (epp tasks workflow hexEsc backtick : Bool := false) : Env :=
  { text, epp, tasks, workflow, hexEsc, backtick, uniLetter := fun n => n == 246 }

/-- Observation of a value or an error with its line and column. -/
def observe (env : Env) (view : Expr → Obs) : Obs :=
  match parse env false with
  | .value e => view e
  | .error (.issue c p) =>
    match lineForOffset env.text p, posOnLine env.text p with
    | .ok l, .ok k => .error c l k
    | _, _ => .other
  | .error (.invalidUnicode p) => .invalidUnicode p
  | _ => .other

def pn (e : Expr) : Obs :=
  match seenExpr e with
  | .ast t => .pn t
  | _ => .other

/-- `parseExpression` of parser_test.go: the one statement of the program.  go: parser/parser_test.go:2130-2155 -/
def one : Expr → Expr
  | .program _ (.block _ [x]) _ => x
  | .program _ b _ => b
  | e => e

/-- go: parser/parser_test.go:2078-2088 -/
def block (env : Env) : Obs := observe env pn

/-- go: parser/parser_test.go:2069-2076 -/
def dump (env : Env) : Obs := observe env fun e => pn (one e)

/-- go: parser/parser_test.go:2106-2128 -/
def heredoc (env : Env) : Obs := observe env fun e =>
  match one e with
  | .heredoc _ _ (.string _ v) => .heredoc v
  | e => match pn e with
    | .pn t => .heredoc t
    | o => o

/-- Validation with strictness error reports exactly these codes (in any order, any number of times).
go: validator/checker_test.go:706-803 -/
def reports (env : Env) (kind : CheckerKind) (codes : List VCode) : Bool :=
  match parse env false with
  | .value e =>
    match validateWith { kind, strict := .error, textLen := env.text.length } e with
    | .ok is => is.all (fun i => codes.contains i.code) && codes.all fun c => is.any fun i => i.code == c
    | .error _ => false
  | _ => false

end PP.Conformance
