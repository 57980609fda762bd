import Verif.Lemmas.Heredoc2
import Verif.Lemmas.Layout4
import Verif.Props.Grammar
import Verif.Props.History

/-!
# C42: heredocs

`IsHeredoc syn src out decl text` (Spec/Heredoc.lean): `@(decl)` declares a heredoc with the syntax `syn`; `text`, from the next line on,
is its text and the line with the tag.  `src` is the text and `out` what it means: escapes, margins and the newline at the end are
described by `Means`, `strip`, `body` and `chomp`.
-/
namespace PP.Props
open PP.Spec

/-- What the lexer computes with some depth of recursion, it computes. -/
theorem nextToken_of_evn {env : Env} {s t : St} (hb : Base env { s with tsp := 0 }) (h : EvN env .nextToken s () t) : nextToken env s = .ok () t := by
  obtain ⟨k, h⟩ := h.ex
  unfold nextToken
  have h1 := wp_first hb
  unfold wp at h1
  have h2 := h (max k (parseFuel env.text)) (by omega)
  rcases (run_mono (Nat.le_max_right k (parseFuel env.text)) .nextToken).cases env s with ⟨u, h3⟩ | h3
  · rw [h3] at h1; exact h1.elim
  · rw [h3]; exact h2

/-- C42: a heredoc is one token, wherever it is in a source.  Its value is the text that is on the following lines, and the rest of the
line is read next (`pos`); the lines with the text are skipped when this line ends (`nls`). -/
theorem C42_heredoc {env : Env} {s t : St} {ks : List Tok} {ws decl ln text after syn src : List Nat} {nl : Bool} {out : GoStr}
    (hfac : env.hasFactory = true) (hs : AtStart s) (hr : Reads env s ks t) (hn : t.nls = none)
    (hH : Here env t.pos (ws ++ (c%'@' :: c%'(' :: (decl ++ c%')' :: (ln ++ c%'\n' :: (text ++ after))))))
    (hw : White ws nl) (hI : IsHeredoc syn src out decl text) (hln : RestOfLine ln) (he : AtEol after) :
    ∃ u start textAt, start = t.pos + (utf8 ws).length ∧ textAt = start + 2 + (utf8 decl).length + 1 + (utf8 ln).length + 1 ∧
      nextToken env t = .ok () u ∧ u.tok = .heredoc ∧
      u.val = .expr (.heredoc ⟨start, (textAt : Int) + (utf8 src).length - (start : Nat)⟩ (utf8 syn) (.string ⟨textAt, (utf8 src).length⟩ out)) ∧
      u.pos = start + 2 + (utf8 decl).length + 1 ∧ u.nls = some (textAt + (utf8 text).length + 1) := by
  obtain ⟨b', -, hsk, -⟩ := white_skips hw t.pos t.bol
  have hp := hH.append
  have hp1 := hp.tail1 (by decide)
  have hp4 := ((hp1.tail1 (by decide)).append.tail1 (by decide)).append
  have hT := hp4.tail1 (by decide)
  have hprev : env.text[t.pos + (utf8 ws).length + 2 + (utf8 decl).length + 1 + (utf8 ln).length]? = some 10 := by
    have := hp4.drop
    rw [utf8_cons, encodeRune_ascii (by omega)] at this
    rw [← Nat.add_zero (t.pos + (utf8 ws).length + 2 + (utf8 decl).length + 1 + (utf8 ln).length), ← List.getElem?_drop]
    have e : t.pos + (utf8 ws).length + 2 + (utf8 decl).length + 1 + (utf8 ln).length = t.pos + (utf8 ws).length + 1 + 1 + (utf8 decl).length + 1 + (utf8 ln).length := by omega
    rw [e, this]
    rfl
  have hlex := lexAt_heredoc (env := env) (s := { t with pos := t.pos + (utf8 ws).length + 1, bol := b', tsp := t.pos + (utf8 ws).length }) (scan := t.pos)
    (start := t.pos + (utf8 ws).length) (T0 := t.pos + (utf8 ws).length + 2 + (utf8 decl).length + 1 + (utf8 ln).length + 1) hfac hI hln he hp1 rfl
    (by show _ = t.nls.getD _; rw [hn]; rfl) (by omega) (by simpa using hprev) (by simpa using hT)
  refine ⟨_, _, _, rfl, rfl, nextToken_of_evn (t := afterHeredoc { t with pos := t.pos + (utf8 ws).length + 1, bol := b', tsp := t.pos + (utf8 ws).length } _ _ _ _ _ _ _)
    (reads_base hs hr) (EvN.step ?_), rfl, rfl, rfl, rfl⟩
  obtain ⟨k, hk⟩ := hlex.ex
  refine ⟨k, fun f hf => ?_⟩
  have := nextToken_of (n := f) (skipWhite_exec hsk hn hH ⟨rfl, by simp, by simp⟩)
  show run (f + 1) .nextToken env t = _
  rw [this]
  exact hk f hf

/-- C42: without quotes and flags and without a margin the text means itself. -/
theorem C42_verbatim {tag decl m ws ws' : List Nat} {syn : List Nat} {ls : List (List Nat)} {dash : Bool}
    (ht : IsTag tag) (hd : Decl tag false syn none decl) (hl : ∀ l ∈ ls, TextLine tag l)
    (hw : Ws ws) (hm : m = [] ∧ dash = false ∨ (∃ bs, m = c%'-' :: bs ∧ Ws bs) ∧ dash = true ∧ ls ≠ []) (hw' : Ws ws') :
    IsHeredoc syn (body dash ls) (utf8 (body dash ls)) decl (unlines ls ++ (ws ++ m ++ tag ++ ws')) := by
  have hmeans : ∀ src : List Nat, Means [] false 0 src (utf8 src) := by
    have key : ∀ n, ∀ src : List Nat, src.length ≤ n → Means [] false 0 src (utf8 src) := by
      intro n
      induction n with
      | zero => intro src h; rw [show src = [] from List.length_eq_zero_iff.1 (by omega)]; exact .nil
      | succ n ih =>
        intro src h
        have hz : ∀ src, strip 0 src = src := fun src => by unfold strip; simp
        match src with
        | [] => exact .nil
        | c :: src =>
          simp only [List.length_cons] at h
          rw [utf8_cons]
          by_cases h10 : c = 10
          · subst h10
            exact .newline (by rw [hz]; exact ih src (by omega))
          by_cases h92 : c = 92
          · subst h92
            match src with
            | [] => exact .last
            | d :: src =>
              simp only [List.length_cons] at h
              rw [utf8_cons]
              by_cases h10 : d = 10
              · subst h10
                exact .noJoin (by simp) (by rw [hz]; exact ih src (by omega))
              · exact .noEsc (.inl (by simp)) h10 (fun _ => rfl) (ih src (by omega))
          · exact .char h92 h10 (fun _ => rfl) (ih src (by omega))
    exact fun src => key _ src (Nat.le_refl _)
  have hz : strip 0 (body dash ls) = body dash ls := by unfold strip; simp
  refine .mk (margin := 0) ht hd hl hw ?_ hw' ?_ (by rw [hz]; exact hmeans _)
  · rcases hm with ⟨rfl, rfl⟩ | ⟨⟨bs, rfl, hb⟩, rfl, -⟩
    · exact .none
    · exact .dash hb
  · rintro rfl
    rcases hm with ⟨-, h⟩ | ⟨-, -, h⟩
    · cases h
    · exact h

/-! ## Concrete cases -/

/-- The characters of a literal. -/
local macro:max "r!" s:str : term => do
  let cs ← s.getString.toList.toArray.mapM fun c => `($(Lean.Syntax.mkNumLit (toString c.toNat)))
  `(([$cs,*] : List Nat))

theorem textLine {tag l : List Nat} (h1 : ∀ c ∈ l, c ≠ 0 ∧ c ≠ 10) (h2 : ¬ IsWs (headC l)) (h3 : headC l ≠ c%'|' ∧ headC l ≠ c%'-')
    (h4 : headC l ≠ headC tag) (hne : tag ≠ []) : TextLine tag l := by
  refine ⟨h1, ?_, ?_⟩
  · rintro bs c r rfl hb
    cases bs with
    | nil => exact h3
    | cons b bs => exact absurd (hb b (by simp)) h2
  · rintro bs bs' hb - rfl
    cases bs with
    | nil => exact h4 (by cases tag with | nil => exact absurd rfl hne | cons t tag => rfl)
    | cons b bs => exact absurd (hb b (by simp)) h2

theorem textLine1 {tag l : List Nat} {c : Nat} (hc : IsWs c) (h : TextLine tag l) (ht : ¬ IsWs (headC tag)) (hne : tag ≠ []) : TextLine tag (c :: l) := by
  refine ⟨?_, ?_, ?_⟩
  · intro x hx
    rcases List.mem_cons.1 hx with rfl | hx
    · rcases hc with rfl | rfl | rfl <;> decide
    · exact h.chars x hx
  · rintro bs d r heq hb
    cases bs with
    | nil => injection heq with h1 _; subst h1; rcases hc with rfl | rfl | rfl <;> decide
    | cons b bs =>
      injection heq with h1 h2
      exact h.mark bs d r h2 (fun x hx => hb x (by simp [hx]))
  · rintro bs bs' hb hb' heq
    cases bs with
    | nil =>
      cases tag with
      | nil => exact hne rfl
      | cons t tag => injection heq with h1 _; subst h1; exact ht hc
    | cons b bs =>
      injection heq with h1 h2
      exact h.notEnd bs bs' (fun x hx => hb x (by simp [hx])) hb' h2

theorem tagX : IsTag r!"X" := ⟨by simp, by decide, by decide, by decide, by decide⟩

/-- `f(@(X), @("Y":md/t), 3)`, the two texts, and a line after them. -/
theorem two_heredocs : Source { text := b!"f(@(X), @(\"Y\":md/t), 3) # c\nfoo\nX\n  a\\tb\n c\n | Y\n+ 2" }
    [.name b!"f", .sym .lp, .heredoc [] (.string z b!"foo\n"), .sym .comma, .heredoc b!"md" (.string z b!" a\tb\nc\n"), .sym .comma, .int 10 3, .sym .rp,
     .sym .add, .int 10 2] := by
  refine ⟨r!"f(@(X), @(\"Y\":md/t), 3) # c\nfoo\nX\n  a\\tb\n c\n | Y\n+ 2", by decide, by decide, ?_⟩
  refine plainToken (ws := []) (cs := r!"f") .nil ⟨by decide, simpleName rfl (by decide) rfl (by decide) (by decide), ?_, nofun⟩ trivial ?_
  · rintro (h | ⟨k, hk, -⟩)
    · revert h; decide
    · cases k <;> revert hk <;> decide
  refine plainToken (ws := []) (cs := r!"(") .nil ⟨rfl, by decide, by decide, nofun⟩ ⟨rfl, rfl⟩ ?_
  refine Layout.heredoc (ws := []) (decl := r!"X") (ln := r!", @(\"Y\":md/t), 3) # c") (text := r!"foo\nX") (after := r!"\n  a\\tb\n c\n | Y\n+ 2") .nil
    (C42_verbatim (ls := [r!"foo"]) (ws := []) (m := []) (ws' := []) (syn := []) tagX (.plain (.plain (by unfold PlainChars; decide))) ?_ nofun (.inl ⟨rfl, rfl⟩) nofun) ?_ (.inr ⟨_, rfl⟩) ?_
  · intro l hl
    rw [List.mem_singleton] at hl; subst hl
    exact textLine (by decide) (by decide) (by decide) (by decide) (by simp)
  · repeat first | exact .nil | exact .comment (by decide) | exact .slash (by decide) (by decide) (by decide) (by decide) (by decide) (by decide) (by decide) (by repeat first | exact .comment (by decide) | refine .char (by decide) (by decide) (by decide) (by decide) ?_) | refine .char (by decide) (by decide) (by decide) (by decide) ?_
  refine Layout.token (ws := []) (cs := r!",") .nil ⟨rfl, by decide, by decide, nofun⟩ trivial (fun _ => ⟨rfl, by decide⟩) ?_
  refine Layout.another (ws := r!" ") (decl := r!"\"Y\":md/t") (ln := r!", 3) # c") (text := r!"  a\\tb\n c\n | Y") (after := r!"\n+ 2") (syn := r!"md")
    (.blank (.inl rfl) .nil)
    (.mk (tag := r!"Y") (quoted := true) (flags := some r!"t") (ls := [r!"  a\\tb", r!" c"]) (ws := r!" ") (m := r!"| ") (ws' := []) (dash := false) (margin := 1)
      ⟨by simp, by decide, by decide, by decide, by decide⟩ (.both (tt := r!"\"Y\"") (sy := r!"md") (fl := r!"t") (.quoted (by decide)) (by unfold PlainChars; decide) (by decide)) ?_ ?_
      (.bar (bs := r!" ") ?_) nofun nofun ?_) ?_ (.inr ⟨_, rfl⟩) ?_
  · intro l hl
    rcases List.mem_cons.1 hl with rfl | hl
    · exact textLine1 (.inl rfl) (textLine1 (.inl rfl) (textLine (by decide) (by decide) (by decide) (by decide) (by simp)) (by decide) (by simp)) (by decide) (by simp)
    · rw [List.mem_singleton] at hl; subst hl
      exact textLine1 (.inl rfl) (textLine (by decide) (by decide) (by decide) (by decide) (by simp)) (by decide) (by simp)
  · unfold Ws; decide
  · unfold Ws; decide
  · show Means r!"t" true 1 r!" a\\tb\n c\n" b!" a\tb\nc\n"
    exact .char (c := 32) (by decide) (by decide) (by decide) (.char (c := 97) (by decide) (by decide) (by decide) (.esc (c := 116) (d := 9) (by decide) (by decide) (.char (c := 98) (by decide) (by decide) (by decide)
      (.newline (.char (c := 99) (by decide) (by decide) (by decide) (.newline .nil))))))
  · repeat first | exact .nil | exact .comment (by decide) | exact .slash (by decide) (by decide) (by decide) (by decide) (by decide) (by decide) (by decide) (by repeat first | exact .comment (by decide) | refine .char (by decide) (by decide) (by decide) (by decide) ?_) | refine .char (by decide) (by decide) (by decide) (by decide) ?_
  refine Layout.token (ws := []) (cs := r!",") .nil ⟨rfl, by decide, by decide, nofun⟩ trivial (fun _ => ⟨rfl, by decide⟩) ?_
  refine Layout.token (ws := r!" ") (cs := r!"3") (.blank (.inl rfl) .nil)
    (.inl ⟨rfl, by decide, ⟨c%'3', [], rfl, by decide, by decide, by decide⟩, rfl, by decide, by decide, by decide⟩) trivial (fun _ => ⟨rfl, by decide⟩) ?_
  refine Layout.token (ws := []) (cs := r!")") .nil ⟨rfl, by decide, by decide, nofun⟩ trivial (fun _ => ⟨rfl, by decide⟩) ?_
  refine Layout.resume (ws := r!" ") (cm := r!"# c") (.blank (.inl rfl) .nil) (.inr ⟨_, rfl, by decide⟩) ?_
  refine plainToken (ws := []) (cs := r!"+") .nil ⟨rfl, by decide, by decide, fun _ => rfl⟩ trivial ?_
  refine plainToken (ws := r!" ") (cs := r!"2") (.blank (.inl rfl) .nil)
    (.inl ⟨rfl, by decide, ⟨c%'2', [], rfl, by decide, by decide, by decide⟩, rfl, by decide, by decide, by decide⟩) trivial ?_
  exact .done .nil

/-- What the model computes for it. -/
example : see b!"f(@(X), @(\"Y\":md/t), 3) # c\nfoo\nX\n  a\\tb\n c\n | Y\n+ 2" = .ast
    b!"(block (+ (call {:functor (qn \"f\") :args [(heredoc {:text \"foo\\n\"}) (heredoc {:syntax \"md\" :text \" a\\tb\\nc\\n\"}) 3]}) 2))" := by
  decide +kernel

/-- A case for `C42_heredoc`: the first token of a source. -/
example : ∃ u, nextToken { text := b!" @(X)\na\nX" } {} = .ok () u ∧ u.tok = .heredoc ∧
    u.val = .expr (.heredoc ⟨1, 7⟩ [] (.string ⟨6, 2⟩ b!"a\n")) := by
  have hI : IsHeredoc [] r!"a\n" b!"a\n" r!"X" r!"a\nX" :=
    C42_verbatim (ls := [r!"a"]) (ws := []) (m := []) (ws' := []) (syn := []) (dash := false) tagX (.plain (.plain (by unfold PlainChars; decide)))
      (by intro l hl
          rw [List.mem_singleton] at hl; subst hl
          exact textLine (by decide) (by decide) (by decide) (by decide) (by simp)) nofun (.inl ⟨rfl, rfl⟩) nofun
  obtain ⟨u, st, ta, rfl, rfl, h1, h2, h3, -⟩ := C42_heredoc (env := { text := b!" @(X)\na\nX" }) (s := {}) (t := {}) (ks := []) (ws := r!" ") (ln := []) (after := []) (nl := false) rfl ⟨rfl, rfl, rfl⟩ (.start _) rfl
    ⟨by decide, by decide, by decide⟩ (.blank (.inl rfl) .nil) hI .nil (.inl rfl)
  exact ⟨u, h1, h2, h3⟩

/-! ## Where the unchanged program does not take the text verbatim -/

/-- A line of the text that starts with `-` removes the newline at the end of the text. -/
theorem C42_violated_dash : see b!"@(X)\na\n- b\nX" = .ast b!"(block (heredoc {:text \"a\\n- b\"}))" := by decide +kernel

/-- A line of the text that starts with `|` sets a margin. -/
theorem C42_violated_bar : see b!"@(X)\n  a\n  | b\nX" = .ast b!"(block (heredoc {:text \"a\\n| b\\n\"}))" := by decide +kernel

/-- A `/` before the last character of the line: the text is taken to begin on the line after the next one. -/
theorem C42_violated_slash : see b!"f(@(X))/2\nfoo\nX\nbar\nX" = .ast
    b!"(block (/ (call {:functor (qn \"f\") :args [(heredoc {:text \"\"})]}) 2) (qn \"bar\") (qr \"X\"))" := by decide +kernel

/-- A `/` at the end of the line: the text loses its first character. -/
theorem C42_violated_divide : see b!"f(@(X)) /\nfoo\nX\n2" = .ast
    b!"(block (/ (call {:functor (qn \"f\") :args [(heredoc {:text \"oo\\n\"})]}) 2))" := by decide +kernel

/-- A `|` at the end of the line: the text of the heredoc is read as code. -/
theorem C42_violated_pipe : see b!"f(@(X)) |\n$a\nX\n$a| { $a }" = .issue .parseExpectedOneOfTokens 13 := by decide +kernel

end PP.Props
