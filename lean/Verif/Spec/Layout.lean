import Verif.Spec.Lexemes
import Verif.Spec.Epp
import Verif.Spec.Grammar
import Verif.Spec.Heredoc

/-!
# The language: how a sequence of tokens is written

`Layout env fin prev first pend ts rs`: the characters `rs` are the tokens `ts`, separated by white space and comments.  `fin`
tells where they end: at the end of the source, or at a `}` that is followed by the given characters.  `prev` is the token before them, `first` tells that `rs` is at the start of a line.  A sequence of tokens has many layouts: white space and
comments are free, except that a token may not run into the next one (`Fits`), that `[` directly after a token differs from `[`
after white space, and that `(` at the start of a line differs from `(` elsewhere.  The text of a heredoc begins on the next
line (or where the text of another heredoc that was declared on the same line ends): if `pend` is `some after`, then the line
contains a heredoc and the source goes on with `after` when the line ends.
-/
namespace PP.Spec

/-- White space and comments; the flag tells whether they contain a line break outside of `/* */`. -/
inductive White : List Nat → Bool → Prop
  | nil : White [] false
  | blank {c ws nl} : c = c%' ' ∨ c = c%'\t' ∨ c = c%'\r' → White ws nl → White (c :: ws) nl
  | newline {ws nl} : White ws nl → White (c%'\n' :: ws) true
  | line {body ws nl} : (∀ c ∈ body, c ≠ c%'\n' ∧ c ≠ 0) → White ws nl → White (c%'#' :: (body ++ c%'\n' :: ws)) true
  | block {body ws nl} : (∀ c ∈ body, c ≠ 0) → ¬ [c%'*', c%'/'] <:+: body → White ws nl →
      White (c%'/' :: c%'*' :: (body ++ c%'*' :: c%'/' :: ws)) nl

/-- The spelling of punctuation. -/
def symText : Tok → List Nat
  | .assign => [c%'='] | .addAssign => [c%'+', c%'='] | .subtractAssign => [c%'-', c%'=']
  | .multiply => [c%'*'] | .divide => [c%'/'] | .remainder => [c%'%'] | .subtract => [c%'-'] | .add => [c%'+']
  | .lshift => [c%'<', c%'<'] | .rshift => [c%'>', c%'>']
  | .equal => [c%'=', c%'='] | .notEqual => [c%'!', c%'='] | .less => [c%'<'] | .lessEqual => [c%'<', c%'=']
  | .greater => [c%'>'] | .greaterEqual => [c%'>', c%'='] | .match_ => [c%'=', c%'~'] | .notMatch => [c%'!', c%'~']
  | .lcollect => [c%'<', c%'|'] | .llcollect => [c%'<', c%'<', c%'|'] | .rcollect => [c%'|', c%'>']
  | .rrcollect => [c%'|', c%'>', c%'>']
  | .farrow => [c%'=', c%'>'] | .parrow => [c%'+', c%'>']
  | .inEdge => [c%'-', c%'>'] | .inEdgeSub => [c%'~', c%'>'] | .outEdge => [c%'<', c%'-'] | .outEdgeSub => [c%'<', c%'~']
  | .not => [c%'!'] | .at_ => [c%'@'] | .atat => [c%'@', c%'@']
  | .lp | .wslp => [c%'('] | .rp => [c%')'] | .lb | .listStart => [c%'['] | .rb => [c%']']
  | .lc | .selc => [c%'{'] | .rc => [c%'}'] | .pipe | .pipeEnd => [c%'|']
  | .comma => [c%','] | .dot => [c%'.'] | .qmark => [c%'?'] | .colon => [c%':'] | .semicolon => [c%';']
  | _ => []

/-- The text between slashes of a regular expression and what it means: only `\/` is unescaped. -/
inductive Rx : List Nat → List Nat → Prop
  | nil : Rx [] []
  | char {c src out} : c ≠ c%'/' → c ≠ c%'\\' → c ≠ 0 → Rx src out → Rx (c :: src) (c :: out)
  | slash {src out} : Rx src out → Rx (c%'\\' :: c%'/' :: src) (c%'/' :: out)
  | other {c src out} : c ≠ c%'/' → c ≠ 0 → Rx src out → Rx (c%'\\' :: c :: src) (c%'\\' :: c :: out)

/-- Words with a meaning of their own. -/
def Reserved (tasks : Bool) (w : GoStr) : Prop :=
  w ∈ [b!"true", b!"false", b!"default"] ∨ ∃ k, spell k = w ∧ w ≠ [] ∧ (k = .kPlan → tasks = true)

/-- A token that may precede a regular expression; after the others a slash is the division operator. -/
def beforeRegexp : Tok → Bool
  | .rp | .rb | .typeName | .identifier | .boolean | .integer | .float | .string | .heredoc | .concatenatedString
  | .regexp | .variable => false
  | _ => true

/-- The first character that is not white space or part of a comment; 0 at the end.  If `here`, it is on the same line. -/
def NextChar (here : Bool) (rest : List Nat) (c : Nat) : Prop :=
  ∃ ws tail nl, rest = ws ++ tail ∧ White ws nl ∧ NoSkip tail ∧ headC tail = c ∧ (here = true → nl = false)

/-- Characters that would be taken as a part of the punctuation before them. -/
def absorbs (epp : Bool) : Tok → List Nat
  | .assign => [c%'=', c%'~', c%'>'] | .subtract => [c%'=', c%'>'] ++ (if epp then [c%'%'] else []) | .add => [c%'=', c%'>'] | .lshift => [c%'|']
  | .not => [c%'=', c%'~'] | .greater => [c%'=', c%'>'] | .less => [c%'=', c%'<', c%'|', c%'-', c%'~'] ++ (if epp then [c%'%'] else [])
  | .colon => [c%':'] | .rcollect => [c%'>'] | .at_ => [c%'@', c%'('] | .pipe | .pipeEnd => [c%'>'] | .divide => [c%'*']
  | .remainder => if epp then [c%'>'] else []
  | _ => []

/-- A name after its first character is `src` and ends before `rest`. -/
def IsName (tok : Tok) (first : Nat → Bool) (cs rest : List Nat) : Prop :=
  ∃ g c src, (g = [] ∨ g = [c%':', c%':']) ∧ cs = g ++ c :: src ∧ first c = true ∧ Tail tok false src false ∧ EndsName tok rest

/-- Digits. -/
def Digits (ds : List Nat) : Prop := ds ≠ [] ∧ ∀ c ∈ ds, isDecimalDigit c = true

/-- The exponent of a floating point literal. -/
def Exponent (cs : List Nat) : Prop :=
  ∃ e sign ds, cs = e :: (sign ++ ds) ∧ (e = c%'e' ∨ e = c%'E') ∧ (sign = [] ∨ sign = [c%'-'] ∨ sign = [c%'+']) ∧ Digits ds

/-- A floating point literal. -/
def IsFloat (cs : List Nat) : Prop :=
  ∃ whole part, cs = whole ++ part ∧ (whole = [c%'0'] ∨ Digits whole ∧ headC whole ≠ c%'0') ∧
    (Exponent part ∨ (∃ ds, part = c%'.' :: ds ∧ Digits ds) ∨ ∃ ds ex, part = c%'.' :: (ds ++ ex) ∧ Digits ds ∧ Exponent ex)

/-- The characters `cs`, followed by the characters `rest`, are the token `t`. -/
def Spelled (env : Env) (t : T) (cs rest : List Nat) : Prop :=
  match t with
  | .int r v =>
    (r = 10 ∧ v = (min (numeral 10 cs) maxInt : Nat) ∧ (∃ d ds, cs = d :: ds ∧ c%'1' ≤ d ∧ d ≤ c%'9' ∧ ∀ c ∈ ds, isDecimalDigit c = true) ∧
      EndsInteger env cs.length (headC rest)) ∨
    (r = 10 ∧ v = 0 ∧ cs = [c%'0'] ∧ EndsInteger env 2 (headC rest)) ∨
    (r = 8 ∧ v = (min (numeral 8 cs) maxInt : Nat) ∧ (∃ ds, cs = c%'0' :: ds ∧ ds ≠ [] ∧ ∀ c ∈ ds, isOctalDigit c = true) ∧
      EndsInteger env 2 (headC rest)) ∨
    (r = 16 ∧ ∃ x ds, v = (min (numeral 16 ds) maxInt : Nat) ∧ cs = c%'0' :: x :: ds ∧ (x = c%'x' ∨ x = c%'X') ∧ ds ≠ [] ∧
      (∀ c ∈ ds, isHexDigit c = true) ∧ isHexDigit (headC rest) = false ∧ isLetter (headC rest) = false)
  | .str v =>
    (∃ src out, cs = c%'\'' :: (src ++ [c%'\'']) ∧ Sq src out ∧ v = utf8 out) ∨
    (∃ src, cs = c%'"' :: (src ++ [c%'"']) ∧ Dq env.hexEsc src v) ∨
    (∃ src, cs = c%'`' :: (src ++ [c%'`']) ∧ env.backtick = true ∧ (∀ c ∈ src, c ≠ c%'`' ∧ c ≠ 0) ∧ v = utf8 src) ∨
    (∃ c src, cs = c :: src ∧ isLowercaseLetter c = true ∧ Tail .identifier false src true ∧ EndsName .identifier rest ∧ v = utf8 cs)
  | .float v => v = utf8 cs ∧ IsFloat cs ∧ isDecimalDigit (headC rest) = false ∧ uniIsLetter env (headC rest) = false
  | .interp _ => False
  | .heredoc .. => False
  | .regexp v => ∃ src out, cs = c%'/' :: (src ++ [c%'/']) ∧ headC src ≠ c%'*' ∧ Rx src out ∧ v = utf8 out
  | .var v => ∃ w, cs = c%'$' :: w ∧ v = utf8 w ∧ IsName .variable isLowercaseLetter w rest
  | .type v => v = utf8 cs ∧ IsName .typeName isUppercaseLetter cs rest
  | .name v => v = utf8 cs ∧ IsName .identifier isLowercaseLetter cs rest ∧ ¬ Reserved env.tasks v ∧ (env.workflow = true → ∀ k, v ≠ styleName k)
  | .style k => env.workflow = true ∧ utf8 cs = styleName k ∧ IsName .identifier isLowercaseLetter cs rest
  | .bool v => utf8 cs = (if v then b!"true" else b!"false") ∧ IsName .identifier isLowercaseLetter cs rest
  | .dflt => utf8 cs = b!"default" ∧ IsName .identifier isLowercaseLetter cs rest
  | .word k => utf8 cs = spell k ∧ (k = .kPlan → env.tasks = true) ∧ IsName .identifier isLowercaseLetter cs rest
  | .sign k => (k = .subtract ∨ k = .add) ∧ cs = symText k ∧ isDecimalDigit (headC rest) = true
  | .sym k => cs = symText k ∧ cs ≠ [] ∧ headC rest ∉ absorbs env.epp k ∧
      (k = .subtract ∨ k = .add → isDecimalDigit (headC rest) = false)
  | .brace => cs = [c%'{'] ∧ env.epp = false
  | .render _ => False

/-- A `|` before this character closes a list of parameters. -/
def EndsParameters (epp : Bool) (c : Nat) : Prop := c = c%'{' ∨ c = c%'>' ∨ epp = true ∧ (c = c%'%' ∨ c = c%'-')

instance {epp c} : Decidable (EndsParameters epp c) := inferInstanceAs (Decidable (_ ∨ _ ∨ _ ∧ (_ ∨ _)))

/-- The token depends on what precedes it: the separator `ws` (with a line break if `nl`) and the token `prev`.  If a heredoc is
pending (`hd`) then a `|` may not be the last token on its line and resource defaults and overrides may not follow. -/
def Fits (epp : Bool) (prev : Tok) (first hd : Bool) (ws : List Nat) (nl : Bool) (t : T) (rest : List Nat) : Prop :=
  match t with
  | .regexp _ => beforeRegexp prev = true
  | .sym .divide => beforeRegexp prev = false
  | .sym .lc => prev ≠ .qmark
  | .brace => prev ≠ .qmark ∧ hd = false
  | .sym .selc => prev = .qmark
  | .sym .lb => ws = [] ∧ first = false
  | .sym .listStart => ws ≠ [] ∨ first = true
  | .sym .lp => nl = false ∧ first = false
  | .sym .wslp => nl = true ∨ first = true
  | .sym .pipe => prev ≠ .pipe ∧ ∃ c, NextChar hd rest c ∧ ¬ EndsParameters epp c
  | .sym .pipeEnd => prev = .pipe ∨ ∃ c, NextChar hd rest c ∧ EndsParameters epp c
  | _ => True

/-- A comment at the end of a line, or nothing. -/
def IsComment (cm : List Nat) : Prop := cm = [] ∨ ∃ body, cm = c%'#' :: body ∧ ∀ c ∈ body, c ≠ c%'\n' ∧ c ≠ 0

/-- `$n` -/
def varOf (n : GoStr) : Expr := .un z .variable (.qname z n)

/-- The meaning of the left side of `.member` in a string: a name is a variable there. -/
def receiver : Expr → Option Expr
  | .qname _ n => some (varOf n)
  | .access _ (.qname _ n) ks => some (.access z (varOf n) ks)
  | .bin _ .namedAccess l r => (receiver l).map fun l' => .bin z .namedAccess l' r
  | .call _ .method true (.bin _ .namedAccess l r) args lam => (receiver l).map fun l' => .call z .method true (.bin z .namedAccess l' r) args lam
  | .call _ .method _ _ _ _ => none
  | e => some e

/-- The meaning of an expression in a string: `${a}`, `${a[1]}` and `${a.b}` are about the variable `$a`. -/
def asVariable : Expr → Option Expr
  | .qname _ n => some (varOf n)
  | .access _ (.qname _ n) ks => some (.access z (varOf n) ks)
  | .call _ .method true (.bin _ .namedAccess l r) args lam => (receiver l).map fun l' => .call z .method true (.bin z .namedAccess l' r) args lam
  | .call _ .method _ _ _ _ => none
  | e => some e

/-- A part of a string that is text. -/
def textPart (v : GoStr) : List Expr := if v = [] then [] else [.string z v]

mutual

/-- How tokens are written. -/
inductive Layout (env : Env) : Option (List Nat) → Tok → Bool → Option (List Nat) → List T → List Nat → Prop
  | done {prev first ws nl} : White ws nl → Layout env none prev first none [] ws
  /-- a comment at the end of the source -/
  | comment {prev first ws nl body} : White ws nl → (∀ c ∈ body, c ≠ c%'\n' ∧ c ≠ 0) →
      Layout env none prev first none [] (ws ++ c%'#' :: body)
  /-- the end of an expression in a string -/
  | close {prev first ws nl rest} : White ws nl → Layout env (some rest) prev first none [] (ws ++ c%'}' :: rest)
  | token {fin prev first pend ws nl t cs ts rest} : White ws nl → Spelled env t cs rest → Fits env.epp prev first pend.isSome ws nl t rest →
      (pend ≠ none → nl = false ∧ c%'\n' ∉ cs) →
      Layout env fin t.tok false pend ts rest → Layout env fin prev first pend (t :: ts) (ws ++ (cs ++ rest))
  /-- a double quoted string with interpolation -/
  | interp {fin prev first ws nl ps rs rest ts} : White ws nl → Parts env prev ps rs rest → (∃ e, .un z .text e ∈ ps) →
      Layout env fin .concatenatedString false none ts rest →
      Layout env fin prev first none (.interp ps :: ts) (ws ++ c%'"' :: rs)
  /-- the first heredoc on a line: its text is on the next line -/
  | heredoc {fin prev first ws nl syn src out decl text ln after ts} : White ws nl → IsHeredoc syn src out decl text →
      RestOfLine ln → AtEol after →
      Layout env fin .heredoc false (some after) ts (ln ++ c%'\n' :: (text ++ after)) →
      Layout env fin prev first none (.heredoc (utf8 syn) (.string z out) :: ts)
        (ws ++ (c%'@' :: c%'(' :: (decl ++ c%')' :: (ln ++ c%'\n' :: (text ++ after)))))
  /-- another heredoc on the same line: its text is after the text of the one before it -/
  | another {fin prev first ws syn src out decl text ln skipped after ts} : White ws false → IsHeredoc syn src out decl text →
      RestOfLine ln → AtEol after →
      Layout env fin .heredoc false (some after) ts (ln ++ c%'\n' :: skipped) →
      Layout env fin prev first (some (c%'\n' :: (text ++ after))) (.heredoc (utf8 syn) (.string z out) :: ts)
        (ws ++ (c%'@' :: c%'(' :: (decl ++ c%')' :: (ln ++ c%'\n' :: skipped))))
  /-- the line with the heredoc ends -/
  | resume {fin prev first ws cm skipped after ts} : White ws false → IsComment cm → Layout env fin prev true none ts after →
      Layout env fin prev first (some (c%'\n' :: after)) ts (ws ++ (cm ++ c%'\n' :: skipped))
  | resumeEnd {prev first ws cm skipped} : White ws false → IsComment cm →
      Layout env none prev first (some []) [] (ws ++ (cm ++ c%'\n' :: skipped))
  /-- in templates: the end of a tag and the text after it -/
  | text {fin prev first ws nl te cs out o rest ts} : env.epp = true → White ws nl → TagEnd (cs ++ rest) te → Rendered rest cs out → Shown rest out o → o ≠ [] →
      Tags env fin ts rest → Layout env fin prev first none (.render (utf8 o) :: ts) (ws ++ (te ++ (cs ++ rest)))
  | noText {fin prev first ws nl te cs out rest ts} : env.epp = true → White ws nl → TagEnd (cs ++ rest) te → Rendered rest cs out → Shown rest out [] →
      Tags env fin ts rest → Layout env fin prev first none ts (ws ++ (te ++ (cs ++ rest)))

/-- What follows the text of a template: the end or a tag. -/
inductive Tags (env : Env) : Option (List Nat) → List T → List Nat → Prop
  | finish : Tags env none [] []
  /-- `<%=` -/
  | render {fin ts rest} : Layout env fin .renderExpr false none ts rest → Tags env fin (.sym .renderExpr :: ts) (c%'<' :: c%'%' :: c%'=' :: rest)
  /-- `<%-` -/
  | trim {fin ts rest} : Layout env fin .renderString false none ts rest → Tags env fin ts (c%'<' :: c%'%' :: c%'-' :: rest)
  /-- `<%` -/
  | code {fin ts rest} : headC rest ∉ [c%'=', c%'-', c%'%', c%'#'] → Layout env fin .renderString false none ts rest → Tags env fin ts (c%'<' :: c%'%' :: rest)

/-- `Parts env prev ps rs rest`: after an opening double quote the characters `rs` are the parts `ps` of a string, a closing quote and
`rest`.  `prev` is the token before an expression in the string. -/
inductive Parts (env : Env) : Tok → List Expr → List Nat → List Nat → Prop
  | quote {prev src out rest} : Dq env.hexEsc src out → Parts env prev (textPart out) (src ++ c%'"' :: rest) rest
  /-- `$name` -/
  | name {prev src out v cs ps rs rest} : Dq env.hexEsc src out → Spelled env (.name v) cs rs → Parts env .identifier ps rs rest →
      Parts env prev (textPart out ++ .un z .text (varOf v) :: ps) (src ++ c%'$' :: (cs ++ rs)) rest
  /-- `${expression}` -/
  | expr {prev src out ts e e' ps inner rs rest} : Dq env.hexEsc src out → (∀ ns, G ns (.bin .rel) e ts) → asVariable e = some e' →
      Layout env (some rs) prev false none ts inner → Parts env .rc ps rs rest →
      Parts env prev (textPart out ++ .un z .text e' :: ps) (src ++ c%'$' :: c%'{' :: inner) rest

end

/-- The source text is a layout of the tokens. -/
def Source (env : Env) (ts : List T) : Prop :=
  ∃ rs, env.text = utf8 rs ∧ (∀ r ∈ rs, Rune r) ∧ Layout env none .end_ true none ts rs

end PP.Spec
