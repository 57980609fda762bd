import Verif.Spec.Layout

/-!
# Heredocs with interpolation

The text of a heredoc with a quoted tag is a sequence of parts, as in a double quoted string: text with its escapes replaced, variables and
expressions.
-/
namespace PP.Spec

/-- `MeansTo fl k rest src out`: the text `src`, at the start of a line without its margin `k`, means `out` up to its rest `rest`.  The
cases are those of `Means`; a `$` is not part of what is in front of the rest unless it is escaped. -/
inductive MeansTo (fl : List Nat) (k : Nat) (rest : List Nat) : List Nat → GoStr → Prop
  | here : MeansTo fl k rest rest []
  | char {c src out} : c ≠ c%'\\' → c ≠ c%'\n' → c ≠ c%'$' → MeansTo fl k rest src out → MeansTo fl k rest (c :: src) (encodeRune c ++ out)
  | newline {src out} : MeansTo fl k rest (strip k src) out → MeansTo fl k rest (c%'\n' :: src) (10 :: out)
  | noEsc {c src out} : c ∉ fl ∨ c = c%'L' → c ≠ c%'\n' → c ≠ c%'$' → MeansTo fl k rest src out →
      MeansTo fl k rest (c%'\\' :: c :: src) (92 :: (encodeRune c ++ out))
  | noJoin {src out} : c%'L' ∉ fl → MeansTo fl k rest (strip k src) out → MeansTo fl k rest (c%'\\' :: c%'\n' :: src) (92 :: 10 :: out)
  | join {src out} : c%'L' ∈ fl → MeansTo fl k rest (strip k src) out → MeansTo fl k rest (c%'\\' :: c%'\n' :: src) out
  | esc {c d src out} : c ∈ fl → (c, d) ∈ flagTable → MeansTo fl k rest src out → MeansTo fl k rest (c%'\\' :: c :: src) (encodeRune d ++ out)
  | u4 {a b c d src out} : c%'u' ∈ fl → (∀ x ∈ [a, b, c, d], isHexDigit x = true) → MeansTo fl k rest src out →
      MeansTo fl k rest (c%'\\' :: c%'u' :: a :: b :: c :: d :: src) (encodeRune (numeral 16 [a, b, c, d]) ++ out)
  | braces {hs src out} : c%'u' ∈ fl → (∀ x ∈ hs, isHexDigit x = true) → 2 ≤ hs.length → hs.length ≤ 6 → MeansTo fl k rest src out →
      MeansTo fl k rest (c%'\\' :: c%'u' :: c%'{' :: (hs ++ c%'}' :: src)) (encodeRune (numeral 16 hs) ++ out)

/-- `TextParts env fl k after prev ps src`: the text `src`, which `after` follows, consists of the parts `ps`.  `prev` is the token
before an expression in the text. -/
inductive TextParts (env : Env) (fl : List Nat) (k : Nat) (after : List Nat) : Tok → List Expr → List Nat → Prop
  | last {prev src out} : Means fl true k src out → TextParts env fl k after prev (textPart out) src
  /-- `$name` -/
  | name {prev src out v cs ps rs} : MeansTo fl k (c%'$' :: (cs ++ rs)) src out → Spelled env (.name v) cs (rs ++ after) →
      TextParts env fl k after .identifier ps rs → TextParts env fl k after prev (textPart out ++ .un z .text (varOf v) :: ps) src
  /-- `${expression}` -/
  | expr {prev src out ts e e' ps inner rs} : MeansTo fl k (c%'$' :: c%'{' :: (inner ++ rs)) src out → (∀ ns, G ns (.bin .rel) e ts) →
      asVariable e = some e' → Layout env (some (rs ++ after)) prev false none ts (inner ++ (rs ++ after)) →
      TextParts env fl k after .rc ps rs → TextParts env fl k after prev (textPart out ++ .un z .text e' :: ps) src

/-- `IsTextHeredoc env prev syntx src ps decl text after`: `@(decl)` declares a heredoc and `text`, from the next line on, is its text `src`
and the line with the tag, without the newline at its end; `after` follows.  The text consists of the parts `ps`. -/
inductive IsTextHeredoc (env : Env) (prev : Tok) : List Nat → List Nat → List Expr → List Nat → List Nat → List Nat → Prop
  | mk {tag syntx flags decl ls ws m ws' dash margin ps cut after} :
      IsTag tag → Decl tag true syntx flags decl → (∀ l ∈ ls, TextLine tag l) →
      Ws ws → Mark ws.length m dash margin → Ws ws' → (dash = true → ls ≠ []) → AtEol after →
      unlines ls ++ (ws ++ m ++ tag ++ ws') ++ after = body dash ls ++ cut →
      TextParts env (flags.getD []) margin cut prev ps (strip margin (body dash ls)) →
      IsTextHeredoc env prev syntx (body dash ls) ps decl (unlines ls ++ (ws ++ m ++ tag ++ ws')) after

/-- The source begins with a heredoc with interpolation that is alone on its line (up to a comment): its parts are `ps`.  What follows it is a
layout of the tokens `ts`. -/
def TextHeredocSource (env : Env) (syntx : List Nat) (ps : List Expr) (ts : List T) : Prop :=
  ∃ ws nl decl cm text after src, env.text = utf8 (ws ++ (c%'@' :: c%'(' :: (decl ++ c%')' :: (cm ++ c%'\n' :: (text ++ after))))) ∧
    (∀ r ∈ ws ++ (c%'@' :: c%'(' :: (decl ++ c%')' :: (cm ++ c%'\n' :: (text ++ after)))), Rune r) ∧ White ws nl ∧ IsComment cm ∧
    IsTextHeredoc env .end_ syntx src ps decl text after ∧ (∃ e, .un z .text e ∈ ps) ∧
    ((∃ rest, after = c%'\n' :: rest ∧ Layout env none .heredoc true none ts rest) ∨ after = [] ∧ ts = [])

end PP.Spec
