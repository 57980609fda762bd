import Verif.Lemmas.HeredocErrors
import Verif.Props.Malformed
import Verif.Props.Heredoc

/-!
# C54: malformed heredocs

`BadHeredoc` (`Spec/HeredocErrors.lean`) lists the texts behind `@(` from which no token can be read.
-/
namespace PP.Props
open PP.Spec

section
variable {env : Env} {s s0 : St} {rs ws : List Nat} {n p' b' off : Nat} {code : Code}

/-- C54: wherever a token is expected, after any white space and comments, a malformed heredoc is an error with its code and its location. -/
theorem C54_heredoc (hn : s.nls = none) (hs : Skips s.pos s.bol ws p' b') (h : Here env s.pos (ws ++ c%'@' :: c%'(' :: rs))
    (hb : BadHeredoc rs code off) : ∃ t, run (n + 1) .nextToken env s = .fail (.issue code (p' + off)) t := by
  have hp := h.append
  rw [← hs.pos] at hp
  have h1 : Here env (p' + 1) (c%'(' :: rs) := hp.tail1 (by decide)
  have h2 : Here env (p' + 2) rs := h1.tail1 (by decide)
  rw [nextToken_exec hs hn h ⟨rfl, by simp, by simp⟩, headC_cons, width_cons, enc_len (by omega)]
  refine lexChar_heredoc (s := { s with pos := p' + 1, bol := b', tsp := p' }) h1 ?_
  exact consume_bad (s := { s with pos := p' + 2, bol := b', tsp := p' }) hb rfl hn h2

/-- C54: a source that starts with a malformed heredoc: `Parse` returns this error, whatever the parser parsed before. -/
theorem C54_heredoc_source {single : Bool} (hepp : env.epp = false)
    (htext : env.text = utf8 (ws ++ c%'@' :: c%'(' :: rs)) (hr : ∀ r ∈ ws ++ c%'@' :: c%'(' :: rs, Rune r)
    (hs : Skips 0 s0.bol ws p' b') (hb : BadHeredoc rs code off) :
    (parseFrom env s0 single).1 = .error (.issue code (p' + off)) := by
  have h : Here env 0 (ws ++ c%'@' :: c%'(' :: rs) := Here.start htext hr
  have hbig := parseFuel_big env.text
  obtain ⟨n, hn⟩ : ∃ n, parseFuel env.text = n + 1 := ⟨parseFuel env.text - 1, by omega⟩
  obtain ⟨t, e⟩ := C54_heredoc (env := env) (s := { s0 with pos := 0, defs := [], nls := none }) (n := n) rfl hs h hb
  rw [← hn] at e
  unfold parseFrom parseProgram parseTop
  ex
  simp only [hepp, Bool.false_eq_true, if_false]
  rw [e]

/-! ## Concrete cases -/

/-- `@(X:md/tz)`: `z` is no escape. -/
example : BadHeredoc [c%'X', c%':', c%'m', c%'d', c%'/', c%'t', c%'z', c%')'] .lexHeredocIllegalEscape 7 :=
  .badFlag (pre := [c%'X', c%':', c%'m', c%'d']) (fl := [c%'t', c%'z']) (rest := [])
    (.syntx (pre := [c%'X']) (.start (by unfold PlainChars; decide)) (by simp) (by unfold PlainChars; decide)) (by simp) (by unfold PlainChars; decide)
    ⟨c%'z', by simp, by decide⟩

/-- `@(X)`, a line of text and the end of the source. -/
example : BadHeredoc [c%'X', c%')', 10, c%'a', c%'X'] .lexHeredocUnterminated 0 :=
  .noEnd (decl := [c%'X']) (ln := []) (ls := []) (l := [c%'a', c%'X']) (rest := []) tagX (.plain (.plain (by unfold PlainChars; decide))) .nil nofun
    (textLine (by decide) (by decide) (by decide) (by decide) (by simp)) rfl

/-! What a caller sees. -/
example : see b!" @(X:md/tz)\nX" = .issue .lexHeredocIllegalEscape 8 := by decide +kernel
example : see b!"@(X)\naX" = .issue .lexHeredocUnterminated 0 := by decide +kernel
example : see b!"1 @(X) # c" = .issue .lexHeredocUnterminated 2 := by decide +kernel
example : see b!"@(X\n)" = .issue .lexHeredocDeclUnterminated 0 := by decide +kernel
example : see b!"@(\"X\n\")" = .issue .lexHeredocDeclUnterminated 0 := by decide +kernel
example : see b!"@()" = .issue .lexHeredocEmptyTag 0 := by decide +kernel
example : see b!"@(\"\")" = .issue .lexHeredocEmptyTag 0 := by decide +kernel
example : see b!"@(\"X\"\"Y\")" = .issue .lexHeredocMultipleTag 5 := by decide +kernel
example : see b!"@(X:a:b)" = .issue .lexHeredocMultipleSyntax 5 := by decide +kernel
example : see b!"@(X/t/n)" = .issue .lexHeredocMultipleEscape 5 := by decide +kernel

end
end PP.Props
