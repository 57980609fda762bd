import Verif.Spec.Printed
import Verif.Spec.Words
import Verif.PN

/-! # The AST from its PN -/
namespace PP.Decode
open PP.Spec

/-- The heads of calls in PN. -/
inductive Head where
  | access | op (k : BinKind) | minus | un (k : UnKind) | var | query (x : Bool) | splatHash | block
  | call (k : CallKind) (rv : Bool) | mapping | case | collect | concat | epp | heredoc | cond (u : Bool) | arrow | plus
  | lambda | dflt | hash | int | array | nop | named (k : DefKind) | cls | function (plan : Bool) | node | param
  | qn | qr | regexp | renderS | reserved | resource | body | defaults | override | selector | site | alias | typeDef
  | typeMap | step
deriving DecidableEq

def heads : List (GoStr × Head) :=
  [(b!"access", .access), (b!"-", .minus), (b!"!", .un .not), (b!"paren", .un .paren), (b!"render", .un .render),
   (b!"str", .un .text), (b!"unfold", .un .unfold), (b!"var", .var), (b!"exported-query", .query true),
   (b!"virtual-query", .query false), (b!"splat-hash", .splatHash), (b!"block", .block),
   (b!"call-lambda", .call .function true), (b!"invoke-lambda", .call .function false),
   (b!"call-method", .call .method true), (b!"invoke-method", .call .method false),
   (b!"call", .call .named true), (b!"invoke", .call .named false), (b!"produces", .mapping), (b!"consumes", .mapping),
   (b!"case", .case), (b!"collect", .collect), (b!"concat", .concat), (b!"epp", .epp), (b!"heredoc", .heredoc),
   (b!"if", .cond false), (b!"unless", .cond true), (b!"=>", .arrow), (b!"+>", .plus), (b!"lambda", .lambda),
   (b!"default", .dflt), (b!"hash", .hash), (b!"int", .int), (b!"array", .array), (b!"nop", .nop),
   (b!"application", .named .application), (b!"define", .named .define), (b!"class", .cls), (b!"function", .function false),
   (b!"plan", .function true), (b!"node", .node), (b!"param", .param), (b!"qn", .qn), (b!"qr", .qr),
   (b!"regexp", .regexp), (b!"render-s", .renderS), (b!"reserved", .reserved), (b!"resource", .resource),
   (b!"resource-body", .body), (b!"resource-defaults", .defaults), (b!"resource-override", .override), (b!"?", .selector),
   (b!"site", .site), (b!"type-alias", .alias), (b!"type-definition", .typeDef), (b!"type-mapping", .typeMap),
   (b!"step", .step)] ++ operators.map fun x => (x.1, .op x.2)

def head (name : GoStr) : Option Head := heads.lookup name

/-- What `=>` is. -/
inductive Ctx where
  | value | entry | sel | attr
deriving DecidableEq

def decL (r : PN → Option Expr) : List PN → Option (List Expr)
  | [] => some []
  | p :: ps => r p >>= fun e => decL r ps >>= fun es => some (e :: es)

def decO (r : PN → Option Expr) : Option PN → Option (Option Expr)
  | none => some none
  | some p => r p >>= fun e => some (some e)

/-- Bodies. -/
def decB (r : PN → Option Expr) : PN → Option Expr
  | .list [.call n es] => if n = b!"epp" then r (.call n es) else r (.call b!"block" [.call n es])
  | .list es => r (.call b!"block" es)
  | _ => none

def decP (r : PN → Option Expr) : List (GoStr × PN) → Option (List Expr)
  | [] => some []
  | (k, .map m) :: es => decO r (m.lookup b!"type") >>= fun t => decO r (m.lookup b!"value") >>= fun v =>
    decP r es >>= fun es => some (.parameter z k v t (m.lookup b!"splat").isSome :: es)
  | _ => none

/-- Parameters. -/
def decPs (r : PN → Option Expr) : Option PN → Option (List Expr)
  | none => some []
  | some (.map es) => decP r es
  | some _ => none

def str : Option PN → Option GoStr
  | some (.lit (.str s)) => some s
  | _ => none

def elems : Option PN → Option (List PN)
  | some (.list es) => some es
  | _ => none

def formOf (m : List (GoStr × PN)) : Option Form :=
  match m.lookup b!"form" with
  | none => some .regular
  | some (.lit (.str s)) => if s = b!"virtual" then some .virtual else if s = b!"exported" then some .exported else none
  | some _ => none

def styleOf (s : GoStr) : Option StepStyle :=
  if s = b!"action" then some .action else if s = b!"resource" then some .resource
  else if s = b!"stateHandler" then some .stateHandler else if s = b!"workflow" then some .workflow else none

def decH (r : Ctx → PN → Option Expr) (c : Ctx) (name : GoStr) : Head → List PN → Option Expr
  | .access, o :: ks => r .value o >>= fun o => decL (r .value) ks >>= fun ks => some (.access z o ks)
  | .op k, [a, b] => r .value a >>= fun a => r .value b >>= fun b => some (.bin z k a b)
  | .minus, [a, b] => r .value a >>= fun a => r .value b >>= fun b => some (.bin z (.arithmetic b!"-") a b)
  | .minus, [a] => r .value a >>= fun a => some (.un z .minus a)
  | .un k, [a] => r .value a >>= fun a => some (.un z k a)
  | .var, [.lit (.str n)] => some (.un z .variable (.qname z n))
  | .var, [.lit (.int v)] => some (.un z .variable (.integer z 10 v))
  | .query x, [] => some (.query z x (.nop z))
  | .query x, [e] => r .value e >>= fun e => some (.query z x e)
  | .splatHash, [e] => r .value e >>= fun e => some (.attributesOp z e)
  | .block, ss => decL (r .value) ss >>= fun ss => some (.block z ss)
  | .call k rv, [.map m] => decO (r .value) (m.lookup b!"functor") >>= fun f => f >>= fun f =>
    elems (m.lookup b!"args") >>= fun args => decL (r .value) args >>= fun args =>
    decO (r .value) (m.lookup b!"block") >>= fun lam => some (.call z k rv f args lam)
  | .mapping, [x, .list (.lit (.str cap) :: ms)] => r .value x >>= fun x => decL (r .attr) ms >>= fun ms =>
    some (.capabilityMapping z name cap x ms)
  | .case, [t, .list os] => r .value t >>= fun t => decL (r .value) os >>= fun os => some (.caseE z t os)
  | .collect, [.map m] => decO (r .value) (m.lookup b!"type") >>= fun t => t >>= fun t =>
    decO (r .value) (m.lookup b!"query") >>= fun q => q >>= fun q =>
    decL (r .attr) ((elems (m.lookup b!"ops")).getD []) >>= fun ops => some (.collect z t q ops)
  | .concat, ss => decL (r .value) ss >>= fun ss => some (.concat z ss)
  | .epp, ss => decL (r .value) ss >>= fun ss => some (.epp z true (.block z ss))
  | .heredoc, [.map m] => decO (r .value) (m.lookup b!"text") >>= fun t => t >>= fun t =>
    some (.heredoc z ((str (m.lookup b!"syntax")).getD []) t)
  | .cond u, [.map m] => decO (r .value) (m.lookup b!"test") >>= fun c => c >>= fun c =>
    decO (decB (r .value)) (m.lookup b!"then") >>= fun t => t >>= fun t =>
    decO (decB (r .value)) (m.lookup b!"else") >>= fun e => some (.ifE z u c t (e.getD (.nop z)))
  | .arrow, [k, v] => match c with
    | .entry => r .value k >>= fun k => r .value v >>= fun v => some (.keyedEntry z k v)
    | .sel => r .value k >>= fun k => r .value v >>= fun v => some (.selectorEntry z k v)
    | .attr => str (some k) >>= fun k => r .value v >>= fun v => some (.attributeOp z name k v)
    | .value => none
  | .plus, [k, v] => str (some k) >>= fun k => r .value v >>= fun v => some (.attributeOp z name k v)
  | .lambda, [.map m] => decPs (r .value) (m.lookup b!"params") >>= fun ps =>
    decO (r .value) (m.lookup b!"returns") >>= fun rt =>
    decO (decB (r .value)) (m.lookup b!"body") >>= fun b => b >>= fun b => some (.lambda z ps b rt)
  | .dflt, [] => some (.dflt z)
  | .hash, es => decL (r .entry) es >>= fun es => some (.hash z es)
  | .int, [.map m] => match m.lookup b!"radix", m.lookup b!"value" with
    | some (.lit (.int x)), some (.lit (.int v)) => some (.integer z x.toNat v)
    | _, _ => none
  | .array, es => decL (r .value) es >>= fun es => some (.list z es)
  | .nop, [] => some (.nop z)
  | .named k, [.map m] => str (m.lookup b!"name") >>= fun n => decPs (r .value) (m.lookup b!"params") >>= fun ps =>
    decO (decB (r .value)) (m.lookup b!"body") >>= fun b => b >>= fun b => some (.namedDef z k n ps b)
  | .cls, [.map m] => str (m.lookup b!"name") >>= fun n => decPs (r .value) (m.lookup b!"params") >>= fun ps =>
    decO (decB (r .value)) (m.lookup b!"body") >>= fun b => b >>= fun b =>
    some (.namedDef z (.hostClass ((str (m.lookup b!"parent")).getD [])) n ps b)
  | .function pl, [.map m] => str (m.lookup b!"name") >>= fun n => decPs (r .value) (m.lookup b!"params") >>= fun ps =>
    decO (decB (r .value)) (m.lookup b!"body") >>= fun b => b >>= fun b =>
    decO (r .value) (m.lookup b!"returns") >>= fun rt => some (.function z pl n ps b rt)
  | .node, [.map m] => elems (m.lookup b!"matches") >>= fun hs => decL (r .value) hs >>= fun hs =>
    decO (r .value) (m.lookup b!"parent") >>= fun pa =>
    decO (decB (r .value)) (m.lookup b!"body") >>= fun b => b >>= fun b => some (.node z pa hs b)
  | .param, [.map m] => str (m.lookup b!"name") >>= fun n => decO (r .value) (m.lookup b!"type") >>= fun t =>
    decO (r .value) (m.lookup b!"value") >>= fun v => some (.parameter z n v t (m.lookup b!"splat").isSome)
  | .qn, [.lit (.str n)] => some (.qname z n)
  | .qr, [.lit (.str n)] => some (.qref z n (toLowerAscii n))
  | .regexp, [.lit (.str v)] => some (.regexp z v)
  | .renderS, [.lit (.str v)] => some (.renderString z v)
  | .reserved, [.lit (.str w)] => some (.reserved z w false)
  | .resource, [.map m] => formOf m >>= fun f => decO (r .value) (m.lookup b!"type") >>= fun t => t >>= fun t =>
    elems (m.lookup b!"bodies") >>= fun bs => decL (r .value) (bs.map fun b => .call b!"resource-body" [b]) >>= fun bs =>
    some (.resource z f t bs)
  | .body, [.map m] => decO (r .value) (m.lookup b!"title") >>= fun t => t >>= fun t =>
    elems (m.lookup b!"ops") >>= fun ops => decL (r .attr) ops >>= fun ops => some (.resourceBody z t ops)
  | .defaults, [.map m] => formOf m >>= fun f => decO (r .value) (m.lookup b!"type") >>= fun t => t >>= fun t =>
    elems (m.lookup b!"ops") >>= fun ops => decL (r .attr) ops >>= fun ops => some (.resourceDefaults z f t ops)
  | .override, [.map m] => formOf m >>= fun f => decO (r .value) (m.lookup b!"resources") >>= fun t => t >>= fun t =>
    elems (m.lookup b!"ops") >>= fun ops => decL (r .attr) ops >>= fun ops => some (.resourceOverride z f t ops)
  | .selector, [l, .list ss] => r .value l >>= fun l => decL (r .sel) ss >>= fun ss => some (.selector z l ss)
  | .site, ss => decL (r .value) ss >>= fun ss => some (.site z (.block z ss))
  | .alias, [.lit (.str n), t] => r .value t >>= fun t => some (.typeAlias z n t)
  | .typeDef, [.lit (.str n), .lit (.str pa), b] => r .value b >>= fun b => some (.typeDefinition z n pa b)
  | .typeMap, [t, m] => r .value t >>= fun t => r .value m >>= fun m => some (.typeMapping z t m)
  | .step, [.map m] => str (m.lookup b!"name") >>= fun n => str (m.lookup b!"style") >>= fun s => styleOf s >>= fun s =>
    decO (r .value) (m.lookup b!"properties") >>= fun ps => decO (r .value) (m.lookup b!"definition") >>= fun d =>
    some (.step z n s ps d)
  | _, _ => none

def dec : Nat → Ctx → PN → Option Expr
  | 0, _, _ => none
  | _ + 1, _, .lit .nil => some (.undef z)
  | _ + 1, _, .lit (.str s) => some (.string z s)
  | _ + 1, _, .lit (.int i) => some (.integer z 10 i)
  | _ + 1, _, .lit (.float f) => some (.float z f)
  | _ + 1, _, .lit (.bool b) => some (.boolean z b)
  | n + 1, _, .map m => elems (m.lookup b!"when") >>= fun vs => decL (dec n .value) vs >>= fun vs =>
    decO (decB (dec n .value)) (m.lookup b!"then") >>= fun b => b >>= fun b => some (.caseOption z vs b)
  | _ + 1, _, .list _ => none
  | n + 1, c, .call name args => head name >>= fun h => decH (dec n) c name h args

end PP.Decode
