import Verif.Lemmas.HeredocBad
import Verif.Props.HeredocErrors
import Verif.Props.Parse

/-!
# C54: heredocs whose text has no meaning

`BadText` (`Spec/HeredocBad.lean`) lists the texts behind `@(` that are a heredoc in whose text there is a `\u` without the digits of a
character or a `$` that starts no interpolation.
-/
namespace PP.Props
open PP.Spec

section
variable {env : Env} {s s0 t : St} {rs ws : List Nat} {ks : List Tok} {p' b' off : Nat} {code : Code}

theorem badText_exec (hfac : env.hasFactory = true) (hn : s.nls = none) (hs : Skips s.pos s.bol ws p' b')
    (h : Here env s.pos (ws ++ c%'@' :: c%'(' :: rs)) (hb : BadText rs code off) :
    EvX env (fun self => self .nextToken) s code (p' + off) := by
  have hp := h.append
  rw [← hs.pos] at hp
  have h1 : Here env (p' + 1) (c%'(' :: rs) := hp.tail1 (by decide)
  have h2 : Here env (p' + 2) rs := h1.tail1 (by decide)
  obtain ⟨k, hk⟩ := (consume_badText (s := { s with pos := p' + 2, bol := b', tsp := p' }) (start := p') hfac hb rfl hn h2).ex
  refine ⟨k + 1, fun f hf => ?_⟩
  obtain ⟨f, rfl⟩ : ∃ g, f = g + 1 := ⟨f - 1, by omega⟩
  rw [nextToken_exec hs hn h ⟨rfl, by simp, by simp⟩, headC_cons, width_cons, enc_len (by omega)]
  exact lexChar_heredoc (s := { s with pos := p' + 1, bol := b', tsp := p' }) h1 (hk f (by omega))

/-- C54: wherever a token is expected, after any tokens, white space and comments, a heredoc whose text has no meaning is an error with
its code and its location. -/
theorem C54_heredoc_text (hfac : env.hasFactory = true) (hst : AtStart s) (hr : Reads env s ks t) (hn : t.nls = none)
    (hs : Skips t.pos t.bol ws p' b') (h : Here env t.pos (ws ++ c%'@' :: c%'(' :: rs)) (hb : BadText rs code off) :
    ∃ u, nextToken env t = .fail (.issue code (p' + off)) u := by
  obtain ⟨k, hk⟩ := (badText_exec hfac hn hs h hb).ex
  unfold nextToken
  have h1 := wp_first (reads_base hst hr)
  unfold wp at h1
  have h2 := hk (max k (parseFuel env.text)) (by omega)
  rcases (run_mono (Nat.le_max_right k (parseFuel env.text)) .nextToken).cases env t with ⟨u, h3⟩ | h3
  · rw [h3] at h1; exact h1.elim
  · rw [h3]; exact h2

/-- C54: a source that starts with such a heredoc: `Parse` returns this error, whatever the parser parsed before. -/
theorem C54_heredoc_text_source {single : Bool} (hepp : env.epp = false) (hfac : env.hasFactory = true)
    (htext : env.text = utf8 (ws ++ c%'@' :: c%'(' :: rs)) (hr : ∀ r ∈ ws ++ c%'@' :: c%'(' :: rs, Rune r)
    (hs : Skips 0 s0.bol ws p' b') (hb : BadText rs code off) :
    (parseFrom env s0 single).1 = .error (.issue code (p' + off)) := by
  have h : Here env 0 (ws ++ c%'@' :: c%'(' :: rs) := Here.start htext hr
  obtain ⟨k, hk⟩ := (badText_exec (s := { s0 with pos := 0, defs := [], nls := none }) hfac rfl hs h hb).ex
  obtain ⟨t, e⟩ := hk (max k (parseFuel env.text)) (by omega)
  rw [← (C26_depth_irrelevant env s0 single (max k (parseFuel env.text))).1 (by omega)]
  unfold parseWith parseProgram parseTop
  ex
  simp only [hepp, Bool.false_eq_true, if_false]
  rw [e]

/-! ## Concrete cases -/

/-- The characters of a literal. -/
local macro:max "r!" s:str : term => do
  let cs ← s.getString.toList.toArray.mapM fun c => `($(Lean.Syntax.mkNumLit (toString c.toNat)))
  `(([$cs,*] : List Nat))

/-- `@(X/u)`, the text `a\uz` and the tag. -/
example : BadText r!"X/u)\na\\uz\nX" .lexMalformedUnicodeEscape 8 :=
  .mk (tag := r!"X") (quoted := false) (syn := []) (flags := some r!"u") (decl := r!"X/u") (ln := []) (ls := [r!"a\\uz"]) (ws := []) (m := [])
    (ws' := []) (after := []) (cut := r!"X") (pre := r!"a") (bad := r!"\\uz\n") (dash := false) (margin := 0) (off := 0)
    tagX (.flags (.plain (by unfold PlainChars; decide)) (by decide)) .nil
    (by intro l hl
        rw [List.mem_singleton] at hl; subst hl
        exact textLine (by decide) (by decide) (by decide) (by decide) (by simp))
    nofun .none nofun nofun (.inl rfl) rfl rfl
    (.char (by decide) (by decide) (by decide) .here) (.unicode (r := r!"z\n") (by decide) (.start (by decide) (by decide)))

/-! What a caller sees. -/
example : see b!"@(X/u)\na\\uz\nX" = .issue .lexMalformedUnicodeEscape 8 := by decide +kernel
example : see b!" @(X/tu)\na\\tb\\u{1}\nX" = .issue .lexMalformedUnicodeEscape 13 := by decide +kernel
example : see b!"@(\"X\")\n a$ b\n |X" = .issue .lexMalformedInterpolation 9 := by decide +kernel
example : see b!"@(\"X\")\n a\\$ b\n |X" = .issue .lexMalformedInterpolation 10 := by decide +kernel

end
end PP.Props
