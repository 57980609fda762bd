import Verif.Ast

/-!
# Where nodes start

`Starts text workflow e`: the node `e` starts at the word or symbol that introduces it, or where its first part starts.
-/
namespace PP

/-- The text reads `w` at the offset `o`. -/
def ReadsAt (text : GoStr) (o : Nat) (w : GoStr) : Prop := w <+: text.drop o

/-- The expression that access, calls and queries are applied to, through all of them. -/
def innermost : Expr → Expr
  | .access _ o _ => innermost o
  | .call _ _ _ f _ _ => innermost f
  | .collect _ t _ _ => innermost t
  | .bin _ .namedAccess l _ => innermost l
  | e => e

def isNumberLit : Expr → Bool
  | .integer .. | .float .. => true
  | _ => false

/-- The construct starts where its first part starts, or at the sign of a number. -/
def Leads (text : GoStr) (p : Pos) (first : Expr) : Prop :=
  p.off = first.off ∨ ((ReadsAt text p.off b!"-" ∨ ReadsAt text p.off b!"+") ∧ isNumberLit (innermost first) = true)

/-- The symbol of an operator that comes before its operand. -/
def UnKind.symbol : UnKind → GoStr
  | .not => b!"!"
  | .paren => b!"("
  | .minus => b!"-"
  | .unfold => b!"*"
  | .render => b!"<%="
  | _ => []

def Expr.isEpp : Expr → Bool
  | .epp .. => true
  | _ => false

/-- Resources start at their type, or at the `@` of virtual and the `@@` of exported resources. -/
def StartsForm (text : GoStr) (p : Pos) (form : Form) (type : Expr) : Prop :=
  match form with
  | .regular => p.off = type.off
  | .virtual => ReadsAt text p.off b!"@"
  | .exported => ReadsAt text p.off b!"@@"

/-- The word of a definition. -/
def DefKind.word : DefKind → GoStr
  | .application => b!"application"
  | .define => b!"define"
  | .hostClass _ => b!"class"

def Starts (text : GoStr) (workflow : Bool) : Expr → Prop
  -- nodes that start where their first part starts
  | .bin p k l _ => k ≠ .namedAccess → p.off = l.off
  | .access p o _ => Leads text p o
  | .call p .named _ f _ _ => Leads text p f ∨ ReadsAt text p.off b!"@"
  | .call p .method _ f _ _ => Leads text p f ∨ b!"${" <:+: text
  | .collect p t _ _ => Leads text p t
  | .selector p t _ => p.off = t.off
  | .keyedEntry p k _ => workflow = false → p.off = k.off
  | .resource p form t _ => StartsForm text p form t
  | .resourceDefaults p form t _ => StartsForm text p form t
  | .resourceOverride p form t _ => StartsForm text p form t
  | .resourceBody p t _ => p.off = t.off
  | .commaSep p es => ∀ e ∈ es.head?, p.off = e.off
  -- nodes that start with a symbol
  | .un p k _ => ReadsAt text p.off k.symbol
  | .query p exported _ => ReadsAt text p.off (if exported then b!"<<|" else b!"<|")
  | .attributesOp p _ => ReadsAt text p.off b!"*"
  | .lambda p _ b _ => b.isEpp = true ∨ ReadsAt text p.off b!"|"
  -- nodes that start with a word
  | .ifE p unless_ _ _ _ =>
    if unless_ then ReadsAt text p.off b!"unless" else ReadsAt text p.off b!"if" ∨ ReadsAt text p.off b!"elsif"
  | .caseE p _ _ => ReadsAt text p.off b!"case"
  | .namedDef p k _ _ _ => ReadsAt text p.off k.word
  | .function p plan _ _ _ _ => ReadsAt text p.off (if plan then b!"plan" else b!"function")
  | .node p _ _ _ => ReadsAt text p.off b!"node"
  | .site p _ => ReadsAt text p.off b!"site"
  | .boolean p v => ReadsAt text p.off (if v then b!"true" else b!"false")
  | .dflt p => ReadsAt text p.off b!"default"
  | .reserved p w _ => ReadsAt text p.off w
  | .qref p n _ => ReadsAt text p.off n ∨ n = b!"Object" ∨ (workflow = true ∧ n = b!"Deferred")
  | _ => True

end PP
