import Verif.Ast

/-!
# Literal values (literal/literal.go)
-/

namespace PP

/-- The Go values `ToLiteral` produces (literal/literal.go:25-59): nil, `DefaultInstance`, bool, int64,
float64, string, `[]interface{}` and `map[interface{}]interface{}`.  A map is the list of its entries
in order of first insertion (Go maps are unordered; no caller depends on the order). -/
inductive Value where
  | undef
  | dflt
  | bool (b : Bool)
  | int (i : Int)
  | float (f : FloatVal)
  | str (s : GoStr)
  | list (vs : List Value)
  | map (es : List (Value × Value))
deriving Inhabited

/-- Why `toLiteral` panics: with `notLiteral` (recovered, literal/literal.go:10-18), or with a runtime
error that `ToLiteral` panics with again. -/
inductive LitErr where
  | notLiteral
  /-- assignment to a map with a slice or map as key (literal/literal.go:41) -/
  | unhashable
  /-- `entry.(*parser.KeyedEntry)` (literal/literal.go:40) -/
  | notKeyed
deriving DecidableEq, Repr

/-- Go can use the value as a map key.  Needed for the map in literal/literal.go:36-43. -/
def Value.hashable : Value → Bool
  | .list _ | .map _ => false
  | _ => true

/-- Go's `==` on two interface values that hold hashable values; `feq` is `==` on float64.  Used by the map in literal/literal.go:36-43. -/
def Value.keyEq (feq : FloatVal → FloatVal → Bool) : Value → Value → Bool
  | .undef, .undef => true
  | .dflt, .dflt => true
  | .bool a, .bool b => a == b
  | .int a, .int b => a == b
  | .float a, .float b => feq a b
  | .str a, .str b => a == b
  | _, _ => false

/-- Go's `m[k] = v` on a map, for a hashable `k`.  literal/literal.go:36-43. -/
def mapAssign (feq : FloatVal → FloatVal → Bool) (k v : Value) : List (Value × Value) → List (Value × Value)
  | [] => [(k, v)]
  | (k', v') :: es => if k.keyEq feq k' then (k', v) :: es else (k', v') :: mapAssign feq k v es

mutual
/-- `toLiteral`, literal/literal.go:25-59.  The `LiteralValue` implementations are LiteralBoolean,
LiteralDefault, LiteralFloat, LiteralInteger, LiteralString, LiteralUndef, QualifiedName (and, by
embedding, QualifiedReference), RegexpExpression, ReservedWord and, by embedding, RenderStringExpression
(parser/expression.go:1238-1400, 1613, 1651, 1719, 393-395, 385-388). -/
def toLit (feq : FloatVal → FloatVal → Bool) : Expr → Except LitErr Value
  | .program _ b _ => toLit feq b
  | .list _ es => do return .list (← toLitList feq es)
  | .hash _ es => do return .map (← toLitEntries feq [] es)
  | .concat _ segs => match segs with
    | [.string _ s] => .ok (.str s)
    | [.renderString ..] => .error .notLiteral
    | _ => .error .notLiteral
  | .heredoc _ _ t => toLit feq t
  | .boolean _ b => .ok (.bool b)
  | .dflt _ => .ok .dflt
  | .float _ v => .ok (.float v)
  | .integer _ _ v => .ok (.int v)
  | .string _ s => .ok (.str s)
  | .undef _ => .ok .undef
  | .qname _ n => .ok (.str n)
  | .qref _ n _ => .ok (.str n)
  | .regexp _ v => .ok (.str v)
  | .renderString _ s => .ok (.str s)
  | .reserved _ w _ => .ok (.str w)
  | _ => .error .notLiteral

/-- The loop over list elements, literal/literal.go:31-34. -/
def toLitList (feq : FloatVal → FloatVal → Bool) : List Expr → Except LitErr (List Value)
  | [] => .ok []
  | e :: es => do
    let v ← toLit feq e
    return v :: (← toLitList feq es)

/-- The loop over hash entries, literal/literal.go:39-42: key and value are evaluated before the
assignment to the map panics. -/
def toLitEntries (feq : FloatVal → FloatVal → Bool) (m : List (Value × Value)) :
    List Expr → Except LitErr (List (Value × Value))
  | [] => .ok m
  | e :: es => match e with
    | .keyedEntry _ k v => do
      let kv ← toLit feq k
      let vv ← toLit feq v
      if kv.hashable then toLitEntries feq (mapAssign feq kv vv m) es
      else .error .unhashable
    | _ => .error .notKeyed
end

/-- What `ToLiteral` gives its caller.  literal/literal.go:9-23. -/
inductive LitResult where
  /-- the value and true -/
  | literal (v : Value)
  /-- nil and false -/
  | notLiteral
  /-- a panic -/
  | panic (e : LitErr)

/-- `ToLiteral`, literal/literal.go:9-23. -/
def toLiteral (feq : FloatVal → FloatVal → Bool) (e : Expr) : LitResult :=
  match toLit feq e with
  | .ok v => .literal v
  | .error .notLiteral => .notLiteral
  | .error k => .panic k

end PP
