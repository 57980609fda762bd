import Verif.Lemmas.Lexes
import Verif.Lemmas.Leaf
import Verif.Props.Seen

/-!
# C54: malformed lexemes

What is not a lexeme is an error, with the code and the location that its kind has, and everything else is a token.
`Malformed` (`Spec/Malformed.lean`) lists the texts from which no token can be read.
-/
namespace PP.Props
open PP.Spec

/-- The characters of a text. -/
def utf8Chars (s : String) : List Nat := s.toList.map Char.toNat

section
variable {env : Env} {s s0 : St} {rs ws : List Nat} {n p' b' off : Nat} {code : Code}

/-- Wherever a token is expected, after any white space and comments, a malformed lexeme is an error with its code and its location. -/
theorem C54_rejected (hfac : env.hasFactory = true) (hn : s.nls = none) (hs : Skips s.pos s.bol ws p' b')
    (h : Here env s.pos (ws ++ rs)) (hf : rs.length < n) (hm : Malformed env s.tok rs code off) :
    ∃ t, run (n + 1) .nextToken env s = .fail (.issue code (p' + off)) t :=
  lex_malformed hm hfac hn hs h hf

/-- Every other text starts with a token.  Heredocs and interpolated strings are not considered (they contain expressions that may have
errors of other kinds); for `(` the start of its line is read again. -/
theorem C54_accepted (hepp : env.epp = false) (hfac : env.hasFactory = true) (hn : s.nls = none) (hs : Skips s.pos s.bol ws p' b')
    (h : Here env s.pos (ws ++ rs)) (hf : rs.length < n) (hno : NoSkip rs ∨ OpenComment rs ∨ LastComment rs) (hpl : Plain env rs)
    (hlp : headC rs = c%'(' → ∃ pre line q b'', Here env b' (pre ++ line) ∧ Skips b' b' pre q b'' ∧ NoSkip line) :
    (∃ t, run (n + 1) .nextToken env s = .ok () t) ↔ ¬ ∃ code off, Malformed env s.tok rs code off := by
  constructor
  · rintro ⟨t, e⟩ ⟨code, off, hm⟩
    obtain ⟨u, e'⟩ := lex_malformed hm hfac hn hs h hf
    rw [e] at e'
    exact nomatch e'
  · intro hm
    rcases lex_total hepp hfac hn hs h hf hno hpl hlp with hb | hok
    · exact absurd hb hm
    · exact hok

/-- If no token can be read, then the reason is one of those listed, and the error is the one listed for it. -/
theorem C54_only (hepp : env.epp = false) (hfac : env.hasFactory = true) (hn : s.nls = none) (hs : Skips s.pos s.bol ws p' b')
    (h : Here env s.pos (ws ++ rs)) (hf : rs.length < n) (hno : NoSkip rs ∨ OpenComment rs ∨ LastComment rs) (hpl : Plain env rs)
    (hlp : headC rs = c%'(' → ∃ pre line q b'', Here env b' (pre ++ line) ∧ Skips b' b' pre q b'' ∧ NoSkip line)
    {e : Err} {t : St} (he : run (n + 1) .nextToken env s = .fail e t) :
    ∃ code off, Malformed env s.tok rs code off ∧ e = .issue code (p' + off) := by
  rcases lex_total hepp hfac hn hs h hf hno hpl hlp with ⟨code, off, hm⟩ | ⟨u, hok⟩
  · obtain ⟨u, e'⟩ := lex_malformed hm hfac hn hs h hf
    rw [he] at e'
    injection e' with e1
    exact ⟨code, off, hm, e1⟩
  · rw [he] at hok
    exact nomatch hok

/-- What precedes a token can always be told apart: every text is white space and comments followed by something that is neither, by a
comment that is not closed or by a line comment that the end of the source ends. -/
theorem C54_every_text (l : List Nat) (p b : Nat) :
    ∃ ws rs p' b', l = ws ++ rs ∧ Skips p b ws p' b' ∧ (NoSkip rs ∨ OpenComment rs ∨ LastComment rs) := by
  obtain ⟨ws, rs, nl, h1, h2, h3⟩ := white_split _ l (Nat.lt_succ_self _)
  obtain ⟨b', hs⟩ := white_skip h2 p b
  exact ⟨ws, rs, _, b', h1, hs, h3⟩

/-- A source that starts with a malformed lexeme: `Parse` returns this error, whatever the parser parsed before. -/
theorem C54_source {single : Bool} (hepp : env.epp = false) (hfac : env.hasFactory = true)
    (htext : env.text = utf8 (ws ++ rs)) (hr : ∀ r ∈ ws ++ rs, Rune r)
    (hs : Skips 0 s0.bol ws p' b') (hm : Malformed env s0.tok rs code off) :
    (parseFrom env s0 single).1 = .error (.issue code (p' + off)) := by
  have h : Here env 0 ((ws ++ rs) ++ []) := Here.start (by simpa using htext) (by simpa using hr)
  rw [List.append_nil] at h
  have hlen : rs.length ≤ env.text.length := by
    rw [htext]
    have := utf8_length_le (ws ++ rs)
    simp only [List.length_append] at this
    omega
  have hbig := parseFuel_big env.text
  obtain ⟨n, hn⟩ : ∃ n, parseFuel env.text = n + 1 := ⟨parseFuel env.text - 1, by omega⟩
  obtain ⟨t, e⟩ := C54_rejected (env := env) (s := { s0 with pos := 0, defs := [], nls := none }) (n := n) hfac rfl hs h (by omega) hm
  rw [← hn] at e
  unfold parseFrom parseProgram parseTop
  ex
  simp only [hepp, Bool.false_eq_true, if_false]
  rw [e]

/-- The classes of characters that the list of malformed lexemes speaks about. -/
theorem C54_character_classes (c : Nat) :
    (isDecimalDigit c = true ↔ c ∈ utf8Chars "0123456789") ∧ (isOctalDigit c = true ↔ c ∈ utf8Chars "01234567") ∧
    (isHexDigit c = true ↔ c ∈ utf8Chars "0123456789abcdefABCDEF") ∧
    (isLowercaseLetter c = true ↔ c ∈ utf8Chars "abcdefghijklmnopqrstuvwxyz") ∧
    (isUppercaseLetter c = true ↔ c ∈ utf8Chars "ABCDEFGHIJKLMNOPQRSTUVWXYZ") ∧
    (isLetter c = true ↔ isLowercaseLetter c = true ∨ isUppercaseLetter c = true ∨ c = c%'_') ∧
    (isLetterOrDigit c = true ↔ isLetter c = true ∨ isDecimalDigit c = true) ∧
    (isBlank c = true ↔ c ∈ utf8Chars " \t\r\n") := by
  simp [utf8Chars, isDecimalDigit, isOctalDigit, isHexDigit, isLowercaseLetter, isUppercaseLetter, isLetter, isLetterOrDigit, isBlank]
  omega

/-! ## Concrete cases -/

/-- Unterminated comment, after a comment. -/
example : Skips 0 0 [c%'#', c%'x', 10] 3 3 ∧ Malformed env .end_ [c%'/', c%'*', c%'a'] .lexUnterminatedComment 0 :=
  ⟨.line (body := [c%'x']) (ws := []) (by simp) (.nil _ _), .comment ⟨[c%'a'], [], rfl, by simp, by decide, rfl⟩⟩
/-- `"é\uZ"`: at the backslash. -/
example : Malformed env .end_ [c%'"', 0xe9, c%'\\', c%'u', c%'Z', c%'"'] .lexMalformedUnicodeEscape 3 :=
  .unicode (src := [0xe9]) (.char (by simp) (by simp) (by simp) (by simp) .nil) (.start rfl (by decide))
/-- `12.5e+x`: after the sign. -/
example : Malformed env .end_ [c%'1', c%'2', c%'.', c%'5', c%'e', c%'+', c%'x'] .lexDigitExpected 6 :=
  .fraction (d := c%'1') (cs := [c%'2']) (rest := [c%'5', c%'e', c%'+', c%'x']) (k := 3) (by simp) (by simp)
    ⟨⟨[], [c%'2'], rfl, .inl rfl, by simp [isDecimalDigit]⟩, rfl, by simp⟩
    (.exponent (cs := [c%'5']) (rest := [c%'+', c%'x']) (k := 1) ⟨⟨[], [c%'5'], rfl, .inl rfl, by simp [isDecimalDigit]⟩, rfl, by simp⟩
      ⟨c%'5', by simp, rfl⟩ (.inl rfl)
      (.none (cs := [c%'+']) (rest := [c%'x']) ⟨⟨[c%'+'], [], rfl, .inr (.inr rfl), by simp⟩, rfl, by simp⟩ (by rintro ⟨c, h, h'⟩; simp at h; subst h; exact nomatch h')))
/-- `a::b-c::D`: at the start of the word. -/
example : Malformed env .end_ [c%'a', c%':', c%':', c%'b', c%'-', c%'c', c%':', c%':', c%'D'] .lexInvalidName 0 :=
  .word rfl (.next (ws := []) (by simp) rfl (.dash (ws := []) (k := 0) rfl (by simp) rfl
    (.here (ws := []) (by simp) (.inl rfl))))
/-- A name is a token: the converse applies. -/
example : NoSkip [c%'a', c%' '] ∧ Plain env [c%'a', c%' '] ∧ ¬ headC [c%'a', c%' '] = c%'(' :=
  ⟨⟨rfl, by decide, by simp⟩, ⟨by simp, by simp⟩, by decide⟩

/-! What a caller sees. -/
example : see b!"# x\n /* a" = .issue .lexUnterminatedComment 5 := by decide +kernel
example : see b!" 'abc" = .issue .lexUnterminatedString 1 := by decide +kernel
example : see b!"$a = \"x\\" = .issue .lexUnterminatedString 5 := by decide +kernel
example : see b!"\"ab\\u{1}\"" = .issue .lexMalformedUnicodeEscape 3 := by decide +kernel
example : see b!"\"ab$ \"" = .issue .lexMalformedInterpolation 1 := by decide +kernel
example : see b!"12.5e+x" = .issue .lexDigitExpected 6 := by decide +kernel
example : see b!"0xg" = .issue .lexHexdigitExpected 2 := by decide +kernel
example : see b!"0128" = .issue .lexOctaldigitExpected 3 := by decide +kernel
example : see b!" a::b-c::D" = .issue .lexInvalidName 1 := by decide +kernel
example : see b!"Foo::bar" = .issue .lexInvalidTypeName 0 := by decide +kernel
example : see b!"$a::_b::c" = .issue .lexInvalidVariableName 0 := by decide +kernel
example : see b!"$A" = .issue .lexInvalidVariableName 1 := by decide +kernel
example : see b!"::1" = .issue .lexDoubleColonNotFollowedByName 0 := by decide +kernel
example : see b!"1 ~ 2" = .issue .lexUnexpectedToken 2 := by decide +kernel
example : see b!"1 ^ 2" = .issue .lexUnexpectedToken 2 := by decide +kernel
/-- A slash without a second one is a division; one that ends in a backslash is an error. -/
example : see b!"/ab\\" = .issue .lexUnterminatedString 0 := by decide +kernel
/-- With `ParserHexEscapes`, `\x` needs two digits; if it has none, it is a NUL and the character that follows is lost. -/
example : seen (parse { text := b!"\"\\x1g\"", hexEsc := true } false) = .issue .lexMalformedHexEscape 1 := by decide +kernel
example : seen (parse { text := b!"\"a\\xgb\"", hexEsc := true } false) = .ast b!"(block \"a\\o000b\")" := by decide +kernel

end
end PP.Props
