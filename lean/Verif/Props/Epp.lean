import Verif.Spec.Epp
import Verif.Lemmas.Layout4
import Verif.Lemmas.EppText
import Verif.Props.Parse
import Verif.Props.Seen
import Verif.Props.History

/-!
# C39: the text of a template
-/
namespace PP.Props
open PP.Spec

section
variable {env : Env} {s : St} {rest cs out : List Nat}

theorem lexChar_end {self : Self} {p q : Nat} : lexChar self p 0 q env s = .ok () { s with tok := .end_, val := .nil } := by
  unfold lexChar
  ex
  simp [isUppercaseLetter, isLowercaseLetter]

/-- **C39**: a template without tags is one piece of text. -/
theorem C39_text (he : env.epp = true) (htext : env.text = utf8 cs) (hrunes : ∀ c ∈ cs, Rune c) (hr : Rendered [] cs out) (s : St) :
    ∃ p1 p2 p3 p4 p5, (parseFrom env s false).1 = .value (.program p1 (.lambda p2 [] (.epp p3 true (.block p4 [.renderString p5 (utf8 out)])) none) []) := by
  obtain ⟨n, hn⟩ : ∃ n, parseFuel env.text = n + 1 := ⟨parseFuel env.text - 1, by
    have : 0 < parseFuel env.text := by unfold parseFuel; exact Nat.mul_pos (by omega) (Nat.pow_pos (by omega))
    omega⟩
  unfold parseFrom
  rw [hn]
  unfold parseProgram parseTop
  ex
  rw [if_pos he]
  unfold parseEpp
  ex
  have h : Here env (({ s with pos := 0, defs := [], nls := none } : St)).pos cs := ⟨Nat.zero_le _, by simpa using htext, hrunes⟩
  rw [consume_end hr h]
  by_cases ho : out.isEmpty
  · simp only [if_pos ho]
    have ho : out = [] := List.isEmpty_iff.1 ho
    subst ho
    simp [asEppLambda, ex_bind, ex_here, ex_pure, mkEpp, utf8]
  · simp only [if_neg ho]
    have := nextToken_of (n := n) (atEnd (env := env) (u := { s with pos := env.text.length, defs := [], nls := none, tok := .renderString, val := .str (utf8 out) }) (Nat.le_refl _))
    simp only [if_true, tokenString]
    rw [this]
    simp [lexChar_end, asEppLambda, ex_bind, ex_here, ex_pure, mkEpp]

theorem lexChar_minus {self : Self} {p q : Nat} : lexChar self p c%'-' q env s = lexMinus self env s := by
  unfold lexChar
  ex
  simp [isUppercaseLetter, isLowercaseLetter]

/-- **C39**: after the end of a tag the next token is the text up to the next tag. -/
theorem C39_after {ws te o : List Nat} {nl : Bool} (he : env.epp = true) (hn : s.nls = none) (hw : White ws nl) (hte : TagEnd (cs ++ rest) te)
    (hr : Rendered rest cs out) (hrest : rest = [] ∨ Tag rest) (ho : Shown rest out o) (hne : o ≠ [])
    (h : Here env s.pos (ws ++ te ++ cs ++ rest)) :
    ∃ t, nextToken env s = .ok () t ∧ t.tok = .renderString ∧ t.val = .str (utf8 o) ∧ t.pos = s.pos + (utf8 (ws ++ te ++ cs)).length := by
  obtain ⟨n, hf⟩ : ∃ n, parseFuel env.text = n + 1 := ⟨parseFuel env.text - 1, by
    have : 0 < parseFuel env.text := by unfold parseFuel; exact Nat.mul_pos (by omega) (Nat.pow_pos (by omega))
    omega⟩
  obtain ⟨b', -, h2, -, -⟩ := white_skips hw s.pos s.bol
  have h : Here env s.pos (ws ++ (te ++ (cs ++ rest))) := by simpa using h
  have hns : NoSkip (te ++ (cs ++ rest)) := by
    cases hte <;> exact ⟨rfl, by simp, by simp⟩
  have h3 := skipWhite_exec h2 hn h hns
  unfold nextToken
  rw [hf, nextToken_of h3]
  have h4 : Here env (s.pos + (utf8 ws).length) (te ++ (cs ++ rest)) := h.append
  have h5 : Here env (s.pos + (utf8 ws).length + (utf8 te).length) (cs ++ rest) := h4.append
  cases hte with
  | plain =>
    have h6 : Here env (s.pos + (utf8 ws).length + 1) (c%'>' :: (cs ++ rest)) := h4.tail1 (by decide)
    have : ∀ u : St, lexChar (run n) s.pos c%'%' (s.pos + (utf8 ws).length) env u = lexPercent (run n) env u := by
      intro u
      unfold lexChar
      ex
      simp [isUppercaseLetter, isLowercaseLetter]
    simp only [List.cons_append, headC_cons, width_cons, enc_len (show 37 < 128 by omega)]
    rw [this, lexPercent_close (s := { s with pos := s.pos + (utf8 ws).length + 1, bol := b', tsp := _ }) he h6,
      consume_text (s := { s with pos := s.pos + (utf8 ws).length + 1 + 1, bol := b', tsp := _, tok := .remainder, val := .nil }) hr hrest ho hne (h6.tail1 (by decide))]
    refine ⟨_, rfl, rfl, rfl, ?_⟩
    simp only [utf8_append, utf8_cons, List.length_append, enc_len (show 37 < 128 by omega), enc_len (show 62 < 128 by omega)]
    simp [utf8]; omega
  | @line bs hb =>
    have h4 : Here env (s.pos + (utf8 ws).length) (c%'-' :: (c%'%' :: c%'>' :: (bs ++ (c%'\n' :: (cs ++ rest))))) := by simpa using h4
    have h6 : Here env (s.pos + (utf8 ws).length + 1) (c%'%' :: c%'>' :: (bs ++ (c%'\n' :: (cs ++ rest)))) := h4.tail1 (by decide)
    have h7 := lexMinus_close (self := run n) (s := { s with pos := s.pos + (utf8 ws).length + 1, bol := b', tsp := s.pos + (utf8 ws).length }) he h6 hb (by rw [headC_cons]; unfold IsBlank; omega)
    have h8 : Here env (s.pos + (utf8 ws).length + 1 + 2 + (utf8 bs).length + 1) (cs ++ rest) :=
      (h6.tail1 (by decide)).tail1 (by decide) |>.append.tail1 (by decide)
    simp only [List.cons_append, headC_cons, width_cons, enc_len (show 45 < 128 by omega)]
    rw [lexChar_minus, h7]
    simp only [headC_cons, if_true]
    rw [consume_text (s := { s with pos := s.pos + (utf8 ws).length + 1 + 2 + (utf8 bs).length + 1, bol := b', tsp := _ }) hr hrest ho hne h8]
    refine ⟨_, rfl, rfl, rfl, ?_⟩
    simp only [utf8_append, utf8_cons, List.length_append, enc_len (show 45 < 128 by omega), enc_len (show 37 < 128 by omega),
      enc_len (show 62 < 128 by omega), enc_len (show 10 < 128 by omega)]
    simp [utf8]; omega
  | @trim bs hb h9 h10 =>
    have h4 : Here env (s.pos + (utf8 ws).length) (c%'-' :: (c%'%' :: c%'>' :: (bs ++ (cs ++ rest)))) := by simpa using h4
    have h6 : Here env (s.pos + (utf8 ws).length + 1) (c%'%' :: c%'>' :: (bs ++ (cs ++ rest))) := h4.tail1 (by decide)
    have h7 := lexMinus_close (self := run n) (s := { s with pos := s.pos + (utf8 ws).length + 1, bol := b', tsp := s.pos + (utf8 ws).length }) he h6 hb h9
    have h8 : Here env (s.pos + (utf8 ws).length + 1 + 2 + (utf8 bs).length) (cs ++ rest) :=
      (h6.tail1 (by decide)).tail1 (by decide) |>.append
    simp only [List.cons_append, headC_cons, width_cons, enc_len (show 45 < 128 by omega)]
    rw [lexChar_minus, h7]
    simp only [if_neg h10, Nat.add_zero]
    rw [consume_text (s := { s with pos := s.pos + (utf8 ws).length + 1 + 2 + (utf8 bs).length, bol := b', tsp := _ }) hr hrest ho hne h8]
    refine ⟨_, rfl, rfl, rfl, ?_⟩
    simp only [utf8_append, utf8_cons, List.length_append, enc_len (show 45 < 128 by omega), enc_len (show 37 < 128 by omega),
      enc_len (show 62 < 128 by omega)]
    omega

/-- Characters that stand for themselves. -/
theorem rendered_plain (cs : List Nat) (h0 : ∀ c ∈ cs, c ≠ 0) (h1 : ¬ [c%'<', c%'%'] <:+: cs) (h2 : ¬ [c%'%', c%'%'] <:+: cs) : Rendered [] cs cs := by
  induction cs with
  | nil => exact .done
  | cons c cs ih =>
    have inf : ∀ x : List Nat, ¬ x <:+: c :: cs → ¬ x <:+: cs := fun x hx hi => hx (hi.trans (List.suffix_cons c cs).isInfix)
    refine .char (h0 c (by simp)) ?_ ?_ (ih (fun x hx => h0 x (by simp [hx])) (inf _ h1) (inf _ h2))
    all_goals
      rintro rfl h
      rw [List.append_nil] at h
      cases cs with
      | nil => cases h
      | cons x cs => rw [headC_cons] at h; subst h; first | exact h1 ⟨[], cs, rfl⟩ | exact h2 ⟨[], cs, rfl⟩

/-- **C39**: text without `<%` and `%%` is rendered as it is. -/
theorem C39_verbatim (he : env.epp = true) (htext : env.text = utf8 cs) (hrunes : ∀ c ∈ cs, Rune c ∧ c ≠ 0) (h1 : ¬ [c%'<', c%'%'] <:+: cs)
    (h2 : ¬ [c%'%', c%'%'] <:+: cs) (s : St) :
    ∃ p1 p2 p3 p4 p5, (parseFrom env s false).1 = .value (.program p1 (.lambda p2 [] (.epp p3 true (.block p4 [.renderString p5 env.text])) none) []) := by
  have := C39_text he htext (fun c hc => (hrunes c hc).1) (rendered_plain cs (fun c hc => (hrunes c hc).2) h1 h2) s
  rwa [← htext] at this

end

/-- A concrete case: `<%%`, `%%>`, `%%` and a comment in one text. -/
example : Rendered [] ([c%'<', c%'%', c%'%', c%'a', c%'%', c%'%', c%'>', c%'%', c%'%', c%'<', c%'%', c%'#', c%'x', c%'%', c%'>', c%'é'])
    [c%'<', c%'%', c%'a', c%'%', c%'>', c%'%', c%'%', c%'é'] := by
  refine .opening (.char (by decide) (by decide) (by decide) (.closing (.percents (by decide) (.comment (body := [c%'x']) (by decide)
    (.char (by decide) (by decide) (by decide) .done)))))

/-- A concrete case for `C39_after`: blanks in front of `<%-` are not rendered. -/
example : ∃ t, nextToken { text := b!"-%> \n a  <%- 1 %>", epp := true } {} = .ok () t ∧ t.tok = .renderString ∧ t.val = .str (utf8 [c%' ', c%'a']) ∧ t.pos = 9 := by
  have h : Here { text := b!"-%> \n a  <%- 1 %>", epp := true } ({} : St).pos ([] ++ [c%'-', c%'%', c%'>', c%' ', c%'\n'] ++ [c%' ', c%'a', c%' ', c%' '] ++
      [c%'<', c%'%', c%'-', c%' ', c%'1', c%' ', c%'%', c%'>']) := ⟨by decide, by decide, fun r hr => Rune.ascii (by revert r; decide)⟩
  have := C39_after (ws := []) (te := [c%'-', c%'%', c%'>', c%' ', c%'\n']) (cs := [c%' ', c%'a', c%' ', c%' '])
    (rest := [c%'<', c%'%', c%'-', c%' ', c%'1', c%' ', c%'%', c%'>']) (out := [c%' ', c%'a', c%' ', c%' ']) (o := [c%' ', c%'a']) rfl rfl White.nil
    (TagEnd.line (bs := [c%' ']) (by simp [IsBlank]))
    (.char (by decide) (by decide) (by decide) (.char (by decide) (by decide) (by decide) (.char (by decide) (by decide) (by decide) (.char (by decide) (by decide) (by decide) .done))))
    (.inr ⟨_, rfl, by decide, by decide⟩) (.inl ⟨⟨_, rfl⟩, [c%' ', c%' '], rfl, by simp [IsBlank], by simp [IsBlank]⟩) (by decide) h
  exact this

/-- A whole template. -/
example : seeEpp b!"a<%= $x %> b <%- f(1) -%> \nc" =
    .ast b!"(lambda {:body [(epp (render-s \"a\") (render (var \"x\")) (render-s \" b\") (invoke {:functor (qn \"f\") :args [1]}) (render-s \"c\"))]})" := by
  decide +kernel

end PP.Props
