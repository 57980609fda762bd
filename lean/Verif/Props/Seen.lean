import Verif.Parser

/-!
# What a caller sees

To write down concrete cases: the outcome of `Parse` with the program printed as PN text, as the
command line tool prints it.
-/
namespace PP.Props

/-- The outcome of `Parse`, with the program as PN text. -/
inductive Seen where
  | ast (pn : GoStr)
  /-- `ToPN` panics -/
  | unprintable
  | issue (code : Code) (pos : Nat)
  | invalidUnicode (pos : Nat)
  | panic (k : Crash)
  | other
deriving DecidableEq, Repr

def seenExpr (e : Expr) : Seen :=
  match e.toPN with
  | .ok pn => .ast (pn.format fun v => if v.neg then b!"-" ++ v.text else v.text)
  | .error _ => .unprintable

def seen : Outcome → Seen
  | .value e => seenExpr e
  | .error (.issue c p) => .issue c p
  | .error (.invalidUnicode p) => .invalidUnicode p
  | .panic k => .panic k
  | _ => .other


/-- `PuppetParser` of a fresh parser. -/
def see (text : GoStr) : Seen := seen (parse { text } false)
def seeWorkflow (text : GoStr) : Seen := seen (parse { text, workflow := true } false)
def seeTasks (text : GoStr) : Seen := seen (parse { text, tasks := true } false)
def seeEpp (text : GoStr) : Seen := seen (parse { text, epp := true } false)

/-- Two calls of `Parse` on one parser; what the second one gives. -/
def seeAfter (before text : GoStr) : Seen :=
  seen (parseFrom { text } (parseFrom { text := before } {} false).2 false).1

end PP.Props
