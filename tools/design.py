text = r'''# Formal model of lyraproj/puppet-parser in Lean 4

Contents: 1 what is modelled; 2 what is not; 3 trusted base; 4 modelling decisions; 5 how the proofs work; 6 the specifications;
7 the properties one by one; 8 findings about the code; 9 how the model and the theorems were tested; 10 rebuilding.

## 1. What is modelled

| module (`lean/Verif/`) | models | code |
|---|---|---|
| `Basic`      | Go strings as byte lists, UTF-8 decoding and encoding, character classes, `b!".."` literals | Go `utf8`, `strings`, lexer.go classes |
| `PN`         | PN trees, `Format`, `ToData`, `AsCall`, `AsParameters`, `WithName`, `Map` key check, `DoubleQuote` | pn/pn.go, pn/quote.go |
| `Ast`        | all node classes, child lists, `Contents`/`AllContents`, `ToPN`, factory functions | parser/expression.go, factory.go, workflow.go |
| `Locator`    | line and column of an offset | parser/expression.go `Locator`, reader.go |
| `Monad`      | the parser state, errors, tokens, options | parser/lexer.go `context`, issues.go (codes) |
| `Lexer`      | reader, white space, tokens, numbers, names, strings, interpolation, heredocs, EPP text | parser/reader.go, lexer.go |
| `Parser`     | every production, `Parse`, `CreateParser` options, backtracking of resources, workflow steps | parser/parser.go |
| `Literal`    | `ToLiteral` | literal/literal.go |
| `Validator`  | `Accept`, `Validate*`, the three checkers, strictness, severities | validator/*.go |
| `Cli`        | decisions of the command line tool | parse/parser.go |

Every definition of these modules has a comment with the file and lines that it models, and its simplifications.

## 2. What is not modelled

* the `issue` package that fills and prints messages (a parameter of Message.lean), and the arguments of the messages of parse errors: a parse error is its code and location (issues of validation have their arguments);
* `strconv.ParseFloat` / `FormatFloat`: a float literal is its text and sign, its formatting is a parameter of the model
  (`Env.fmtFloat`), equality of float hash keys is a parameter of `ToLiteral`'s model;
* `unicode.IsLetter` from U+0080 on is a parameter (`Env.uniLetter`): the theorems hold for every table;
* regexp compilation in the lexer (`regexp.Compile` is not called by this code);
* how `encoding/json` prints finite floats (a parameter of C60; the rest of its work on `ToData` values is modelled in Json.lean),
  and file access of the command line tool;
* pointer identity of nodes and the aliasing of path slices in `DeepVisit` (F28): a visitor that keeps the path after it
  returned sees it change; the model shows the path as it is at the time of the call;
* getters without logic; the `reflect` based `Label` function;
* memory and stack limits of the Go run time.

## 3. Trusted base

* Lean 4.33.0's kernel. No `sorry`, no axioms of our own, no `native_decide`/`bv_decide`; concrete cases use `decide +kernel`,
  which the kernel evaluates.
* Axioms: at most `propext`, `Quot.sound`, `Classical.choice`; AXIOMS.md (generated with `#print axioms`) lists them for every
  property theorem.
* That the model is what the Go code does: by reading, by the citations at every definition, and by the 445 expectations of the
  repository's own tests which the kernel checks against the model (section 9).
* That the specifications in `lean/Verif/Spec` and the statements in `lean/Verif/Props` say what the English properties say.

## 4. Modelling decisions

* Go `string` = `List UInt8` (`GoStr`); runes are natural numbers; `utf8.DecodeRuneInString` is modelled bit exactly, including
  U+FFFD of width 1 for invalid bytes.
* The mutable `*context` is a state record `St`; the options and the text are `Env`. `P a = Env -> St -> Res a`, where a result is
  `ok a s` or `fail err s`. `err` is `issue code pos` or `invalidUnicode pos` (panics that `Parse` recovers), `crash k` (any other
  Go panic: it escapes `Parse`), or `timeout` (fuel of the model; C26 proves that it does not occur).
* The mutual recursion of the productions is open recursion over a type `NT` of non-terminals (`step (self : NT -> P Val)`),
  closed with fuel: `run (n+1) = step (run n)`. The fuel given is a function of the length of the text; C26 proves it sufficient
  from every state and that more fuel does not change anything.
* Loops over characters have fuel `2*length+8`, with the same status.
* `nextLineStart = -1` is `none`. Offsets are `Nat`; lengths are `Int`: the code computes negative ones (F10).
* `Parse` starts with whatever an earlier call left in the state: `parseFrom env s single`; `parse` is the call on a new parser.
* Only fields the parser can leave nil are `Option`.

## 5. How the proofs work

* `Lemmas/Wp`: weakest preconditions for `P`. `Lemmas/LexChars .. LexHeredoc, LexTok`: one specification for each function of the
  lexer. `Lemmas/Inv`: the state invariant (position at most one past the end, pending heredoc line, name stack, definitions only
  grow) and a measure that decreases, which is what makes backtracking and heredoc jumps terminate. `Lemmas/Spec`, `Parse1-9`:
  one specification for each production, by induction on fuel. They give C26, C27, C30-C34, C43-C45, C47, C50 at once.
* `Lemmas/Node, NodeOps, Tree`: the local grammar of parse results, used by C07, C08, C24, C31, C32, C43.
* `Lemmas/Feed, Mono`: evaluation: "the parser with enough fuel, reading these tokens, gives this value"; monotone in fuel.
  `Gram0-9`: every phrase of `Spec/Grammar` is read as its meaning. `Layout1-4`, `Tokens`, `Puncts`, `Names`, `Strings`, `Floats`,
  `Heredoc*`: every layout of a token sequence is lexed as that token sequence. Together C35, C51, C52, C28.
* `Lemmas/Exec` (`ex` tactic): running the lexer on known characters.
* Validator: the log of issues is characterised as a `flatMap` over the visited nodes (`Lemmas/Reports`), so "reported exactly"
  is an equation of lists of places.

## 6. The specifications (`lean/Verif/Spec`)

* `Grammar`: tokens, meaning of every phrase. Left out: resource defaults and overrides, `type X inherits ..`/type mappings,
  capability mappings (`produces`/`consumes`), workflow steps, EPP templates as a grammar (text: `Spec/Epp`), `$x[1]` on a name of
  a statement function, `x.y[1]` (F33), keywords as the start of argument lists (F36).
* `Lexemes`, `Layout`: how tokens are written, where white space is free, forbidden or necessary. Left out: interpolated strings
  and heredocs (tokens exist in the grammar; their writing is not specified), NUL and U+FFFD.
* `Heredoc`: text, margin, escapes, flags, the end line. `Epp`: text between tags. `Operators`: printing with
  parentheses. `Bare`, `Shape`: words; lists and statement calls.

## 7. Properties
'''
import json
props=[json.loads(l) for l in open('/verif/properties.jsonl')]
man={c['property']:c for c in json.load(open('/verif/MANIFEST.json'))['claims']}
how=json.load(open('/verif/tools/how.json'))
for p in props:
    c=man.get(p['id'])
    st=c['status'] if c else 'in progress'
    text+=f"* **{p['id']}** {p['title']} ({st}). {how.get(p['id'],'')}"
    if c and c['note']: text+=f" *{c['note']}*"
    text+='\n'
text+=open('/verif/tools/design_tail.md').read()
open('/verif/DESIGN.md','w').write(text)
