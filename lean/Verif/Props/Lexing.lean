import Verif.Lemmas.Leaf
import Verif.Props.Seen

/-!
# Numbers, strings, words, white space (C36, C37, C38, C40, C48)

Sources are given as lists of characters `rs` with `env.text = utf8 rs`; `Here env p rs` says that the
source from byte `p` on consists of the characters `rs`.  `Skips p b ws p' b'` says that `ws` is white
space and comments.  `run (n + 1) .nextToken env s` is `NextToken` of a lexer in state `s`.
-/
namespace PP.Props
open PP

theorem saturate_eq (n : Nat) : saturate n = (min n maxInt : Nat) := by
  unfold saturate maxInt
  split <;> omega

section
variable {env : Env} {s s0 : St} {ws ds rest : List Nat} {n p' b' : Nat}

/-! ## C36: integers -/

private theorem noSkip_of {c : Nat} {rs : List Nat} (h : 48 ≤ c) : NoSkip (c :: rs) := by
  refine ⟨?_, ?_, ?_⟩
  · simp [isBlank]; omega
  · simp; omega
  · intro r hr; simp only [List.cons.injEq] at hr; omega

/-- A decimal literal is one token and has the value that its digits denote, up to 2^63-1. -/
theorem C36_decimal_token {d : Nat} (hn : s.nls = none) (hs : Skips s.pos s.bol ws p' b')
    (h : Here env s.pos (ws ++ (d :: (ds ++ rest)))) (hd : c%'1' ≤ d ∧ d ≤ c%'9') (hds : ∀ c ∈ ds, isDecimalDigit c = true)
    (he : EndsInteger env (d :: ds).length (headC rest)) :
    run (n + 1) .nextToken env s =
      .ok () { s with bol := b', tsp := p', pos := p' + (d :: ds).length, tok := .integer, radix := 10,
                      val := .int (min (numeral 10 (d :: ds)) maxInt : Nat) } := by
  have hp := h.append
  rw [← hs.pos] at hp
  have he' : EndsDecimal env ds (headC rest) := ⟨he.1, he.2.1, he.2.2.1, fun h => he.2.2.2 (by rw [h]; rfl)⟩
  rw [nextToken_exec hs hn h (noSkip_of (by omega)), headC_cons,
    lexNumber_exec (start := p') hd hds he' hp (by simp [width, enc_len (show d < 128 by omega)]), saturate_eq]
  simp only [List.length_cons]
  congr 2; omega

/-- The same for a hexadecimal literal. -/
theorem C36_hexadecimal_token {x : Nat} (hn : s.nls = none) (hs : Skips s.pos s.bol ws p' b')
    (h : Here env s.pos (ws ++ (c%'0' :: x :: (ds ++ rest)))) (hx : x = c%'x' ∨ x = c%'X') (hds : ∀ c ∈ ds, isHexDigit c = true)
    (hne : ds ≠ []) (he : isHexDigit (headC rest) = false ∧ isLetter (headC rest) = false) :
    run (n + 1) .nextToken env s =
      .ok () { s with bol := b', tsp := p', pos := p' + 2 + ds.length, tok := .integer, radix := 16,
                      val := .int (min (numeral 16 ds) maxInt : Nat) } := by
  have hp := h.append
  rw [← hs.pos] at hp
  rw [nextToken_exec hs hn h (noSkip_of (by omega)), headC_cons,
    lexHex_exec (start := p') hx hds hne he hp (by simp [width, enc_len]), saturate_eq]

/-- The same for an octal literal; `0` alone is a decimal literal. -/
theorem C36_octal_token (hn : s.nls = none) (hs : Skips s.pos s.bol ws p' b')
    (h : Here env s.pos (ws ++ (c%'0' :: (ds ++ rest)))) (hds : ∀ c ∈ ds, isOctalDigit c = true)
    (he : EndsInteger env 2 (headC rest)) :
    run (n + 1) .nextToken env s =
      .ok () { s with bol := b', tsp := p', pos := p' + 1 + ds.length, tok := .integer, radix := if ds = [] then 10 else 8,
                      val := .int (min (numeral 8 ds) maxInt : Nat) } := by
  have hp := h.append
  rw [← hs.pos] at hp
  rw [nextToken_exec hs hn h (noSkip_of (by omega)), headC_cons,
    lexOctal_exec (start := p') hds ⟨he.1, he.2.1, he.2.2.1⟩ hp (by simp [width, enc_len]), saturate_eq]

/-- A source that is one literal is one token. -/
private theorem whole_here {rs : List Nat} (htext : env.text = utf8 rs) (hr : ∀ r ∈ rs, r < 128) :
    Here env 0 (rs ++ []) ∧ env.text.length = rs.length := by
  refine ⟨Here.start (by simpa using htext) (by simpa using fun r h => Rune.ascii (hr r h)), ?_⟩
  rw [htext, utf8_ascii_length hr]

private theorem fuel_succ (text : GoStr) : ∃ n, parseFuel text = n + 1 ∧ 500 * (text.length + 8) ≤ n := by
  have := parseFuel_big text
  exact ⟨parseFuel text - 1, by omega, by omega⟩

/-- `Parse` of a decimal literal gives the number that the literal denotes (at most 2^63-1), with its
location and radix; it does not matter what the parser parsed before. -/
theorem C36_decimal_literal {d : Nat} (hepp : env.epp = false) (htext : env.text = utf8 (d :: ds))
    (hd : c%'1' ≤ d ∧ d ≤ c%'9') (hds : ∀ c ∈ ds, isDecimalDigit c = true) :
    (parseFrom env s0 true).1 = .value (.integer ⟨0, (d :: ds).length⟩ 10 (min (numeral 10 (d :: ds)) maxInt : Nat)) := by
  obtain ⟨h, hl⟩ := whole_here htext (by
    intro r hr
    rcases List.mem_cons.1 hr with rfl | hr
    · omega
    · exact hex_ascii (dec_hex (hds r hr)).1)
  obtain ⟨n, hn, -⟩ := fuel_succ env.text
  have ht := C36_decimal_token (env := env) (s := { s0 with pos := 0, defs := [], nls := none }) (n := n) (ws := []) (rest := []) rfl
    (.nil _ _) (by simpa using h) hd hds ⟨rfl, rfl, by simp, by simp⟩
  rw [← hn] at ht
  refine parse_literal hepp ht ?_ rfl (by simp [hl])
  simp [literalOf]

theorem C36_hexadecimal_literal {x : Nat} (hepp : env.epp = false) (htext : env.text = utf8 (c%'0' :: x :: ds))
    (hx : x = c%'x' ∨ x = c%'X') (hds : ∀ c ∈ ds, isHexDigit c = true) (hne : ds ≠ []) :
    (parseFrom env s0 true).1 = .value (.integer ⟨0, 2 + ds.length⟩ 16 (min (numeral 16 ds) maxInt : Nat)) := by
  obtain ⟨h, hl⟩ := whole_here htext (by
    intro r hr
    simp only [List.mem_cons] at hr
    rcases hr with rfl | rfl | hr
    · omega
    · omega
    · exact hex_ascii (hds r hr))
  obtain ⟨n, hn, -⟩ := fuel_succ env.text
  have ht := C36_hexadecimal_token (env := env) (s := { s0 with pos := 0, defs := [], nls := none }) (n := n) (ws := []) (rest := []) rfl
    (.nil _ _) (by simpa using h) hx hds hne ⟨rfl, rfl⟩
  rw [← hn] at ht
  refine parse_literal hepp ht ?_ rfl (by simp [hl]; omega)
  simp [literalOf]

theorem C36_octal_literal (hepp : env.epp = false) (htext : env.text = utf8 (c%'0' :: ds))
    (hds : ∀ c ∈ ds, isOctalDigit c = true) :
    (parseFrom env s0 true).1 =
      .value (.integer ⟨0, 1 + ds.length⟩ (if ds = [] then 10 else 8) (min (numeral 8 ds) maxInt : Nat)) := by
  obtain ⟨h, hl⟩ := whole_here htext (by
    intro r hr
    rcases List.mem_cons.1 hr with rfl | hr
    · omega
    · exact hex_ascii (oct_hex (hds r hr)).1)
  obtain ⟨n, hn, -⟩ := fuel_succ env.text
  have ht := C36_octal_token (env := env) (s := { s0 with pos := 0, defs := [], nls := none }) (n := n) (ws := []) (rest := []) rfl
    (.nil _ _) (by simpa using h) hds ⟨rfl, rfl, by simp, by simp⟩
  rw [← hn] at ht
  refine parse_literal hepp ht ?_ rfl (by simp [hl]; omega)
  simp [literalOf]

/-- Every number below 2^63, printed in decimal, is parsed as that number. -/
theorem C36_printed_number {k : Nat} (hepp : env.epp = false) (htext : env.text = natToDec k) (hk : k < 2 ^ 63) :
    ∃ len, (parseFrom env s0 true).1 = .value (.integer ⟨0, len⟩ 10 k) := by
  obtain ⟨ds, h1, h2, h3, h4, h5⟩ := numeral_natToDec k
  have hm : min k maxInt = k := by unfold maxInt; omega
  rcases Nat.eq_zero_or_pos k with rfl | hpos
  · have := C36_octal_literal (s0 := s0) (ds := []) hepp (by rw [htext, ← h2, h5 rfl]) (by simp)
    exact ⟨_, this⟩
  · obtain ⟨d, t, rfl, hd⟩ := h4 hpos
    have := C36_decimal_literal (s0 := s0) hepp (htext.trans h2.symm) hd (fun c hc => h1 c (List.mem_cons_of_mem _ hc))
    rw [h3, hm] at this
    exact ⟨_, this⟩

/-- The exception in general: one digit directly followed by a sign and more digits is one token with value 0. -/
theorem C36_sign_swallowed {d g : Nat} (hn : s.nls = none) (hs : Skips s.pos s.bol ws p' b')
    (h : Here env s.pos (ws ++ (d :: g :: (ds ++ rest)))) (hd : c%'1' ≤ d ∧ d ≤ c%'9') (hg : g = c%'-' ∨ g = c%'+')
    (hds : ∀ c ∈ ds, isDecimalDigit c = true) (he : EndsInteger env 2 (headC rest)) :
    run (n + 1) .nextToken env s =
      .ok () { s with bol := b', tsp := p', pos := p' + 2 + ds.length, tok := .integer, radix := 10, val := .int 0 } := by
  have hp := h.append
  rw [← hs.pos] at hp
  rw [nextToken_exec hs hn h (noSkip_of (by omega)), headC_cons,
    lexNumber_sign (start := p') hd hg hds ⟨he.1, he.2.1, he.2.2.1⟩ hp (by simp [width, enc_len (show d < 128 by omega)])]

/-- The exception: a literal of one digit directly followed by a sign (`1-2`, `1+$x`) swallows the sign and
the following digits and has the value 0. -/
theorem C36_sign_after_digit :
    see b!"1-2" = .ast b!"(block 0)" ∧ see b!"1+$x" = .ast b!"(block 0 (var \"x\"))" ∧
    see b!"12-2" = .ast b!"(block (- 12 2))" ∧ see b!"1 -2" = .ast b!"(block (- 1 2))" := by
  decide +kernel

/-- Larger literals saturate; the negative bound cannot be written. -/
example : see b!"9223372036854775808" = .ast b!"(block 9223372036854775807)" ∧
    see b!"-9223372036854775808" = .ast b!"(block -9223372036854775807)" ∧
    see b!"0xfF" = .ast b!"(block (int {:radix 16 :value 255}))" := by decide +kernel

/-! ## C37: single quoted strings -/

/-- `Sq src out` (Lemmas/Strings.lean): between single quotes `src` means `out`; `\\'` is a quote, `\\\\` a
backslash, and every other backslash stands for itself. -/
theorem C37_token {src out : List Nat} (hn : s.nls = none) (hs : Skips s.pos s.bol ws p' b') (hq : Sq src out)
    (h : Here env s.pos (ws ++ (c%'\'' :: (src ++ c%'\'' :: rest)))) (hf : src.length < n) :
    run (n + 1) .nextToken env s =
      .ok () { s with bol := b', tsp := p', pos := p' + (utf8 src).length + 2, tok := .string, val := .str (utf8 out) } := by
  have hp := h.append
  rw [← hs.pos] at hp
  rw [nextToken_exec hs hn h ⟨rfl, by simp, by simp⟩, headC_cons, width_cons, enc_len (by omega),
    lexSq_exec (s := { s with pos := p' + 1, bol := b', tsp := p' }) hq hf (hp.tail1 (by omega))]
  simp only
  congr 2; omega

private theorem whole_runes {rs : List Nat} (htext : env.text = utf8 rs) (hr : ∀ r ∈ rs, Rune r) :
    Here env 0 rs ∧ env.text.length = (utf8 rs).length := ⟨Here.start htext hr, by rw [htext]⟩

/-- `Parse` of a single quoted string gives the text that it means. -/
theorem C37_literal {src out : List Nat} (hepp : env.epp = false) (htext : env.text = utf8 (c%'\'' :: (src ++ [c%'\''])))
    (hr : ∀ r ∈ src, Rune r) (hq : Sq src out) :
    (parseFrom env s0 true).1 = .value (.string ⟨0, env.text.length⟩ (utf8 out)) := by
  obtain ⟨h, hl⟩ := whole_runes htext (by
    intro r hr'
    simp only [List.mem_cons, List.mem_append, List.not_mem_nil, or_false] at hr'
    rcases hr' with rfl | hr' | rfl
    · exact Rune.ascii (by omega)
    · exact hr r hr'
    · exact Rune.ascii (by omega))
  have hlen : env.text.length = (utf8 src).length + 2 := by
    rw [hl, utf8_cons, utf8_append, List.length_append, List.length_append, utf8_cons, enc_len (by omega), List.length_append, enc_len (by omega)]
    simp [utf8]; omega
  obtain ⟨n, hn, hbig⟩ := fuel_succ env.text
  have hsrc := utf8_length_le src
  have ht := C37_token (env := env) (s := { s0 with pos := 0, defs := [], nls := none }) (n := n) (ws := []) (rest := []) rfl
    (.nil _ _) hq h (by omega)
  rw [← hn] at ht
  refine parse_literal hepp ht ?_ rfl (by simp [hlen])
  simp [literalOf, hlen]

/-- Text with quotes and backslashes escaped. -/
def quoteSq (text : List Nat) : List Nat :=
  text.flatMap fun c => if c = c%'\'' ∨ c = c%'\\' then [c%'\\', c] else [c]

private theorem quoteSq_spec {text : List Nat} (h0 : ∀ c ∈ text, c ≠ 0) : Sq (quoteSq text) text := by
  induction text with
  | nil => exact .nil
  | cons c t ih =>
    have ih := ih fun x hx => h0 x (List.mem_cons_of_mem _ hx)
    have hc := h0 c (List.mem_cons_self ..)
    show Sq ((if c = c%'\'' ∨ c = c%'\\' then [c%'\\', c] else [c]) ++ quoteSq t) (c :: t)
    by_cases h39 : c = 39
    · subst h39; exact .quote ih
    · by_cases h92 : c = 92
      · subst h92; exact .backslash ih
      · rw [if_neg (by omega)]; exact .char h39 h92 hc ih

/-- Every text without NUL and U+FFFD, quoted, is parsed as a string with exactly that text. -/
theorem C37_round_trip {text : List Nat} (hepp : env.epp = false) (hr : ∀ r ∈ text, Rune r ∧ r ≠ 0)
    (htext : env.text = utf8 (c%'\'' :: (quoteSq text ++ [c%'\'']))) :
    (parseFrom env s0 true).1 = .value (.string ⟨0, env.text.length⟩ (utf8 text)) := by
  refine C37_literal hepp htext ?_ (quoteSq_spec fun c hc => (hr c hc).2)
  intro r hr'
  unfold quoteSq at hr'
  obtain ⟨c, hc, hm⟩ := List.mem_flatMap.1 hr'
  split at hm
  · simp only [List.mem_cons, List.not_mem_nil, or_false] at hm
    rcases hm with rfl | rfl
    · exact Rune.ascii (by omega)
    · exact (hr r hc).1
  · simp only [List.mem_singleton] at hm
    subst hm; exact (hr r hc).1

example : Sq [c%'a', c%'\\', c%'\'', c%'\\', c%'n'] [c%'a', c%'\'', c%'\\', c%'n'] :=
  .char (by omega) (by omega) (by omega) (.quote (.other (by omega) (by omega) (by omega) .nil))

example : see b!"'it\\'s \\n'" = .ast b!"(block \"it's \\\\n\")" := by decide +kernel

/-! ## C38: double quoted strings -/

/-- `Dq hexEsc src out` (Lemmas/Strings.lean): between double quotes `src`, which has no interpolation, means the
bytes `out`. -/
theorem C38_token {src : List Nat} {out : GoStr} (hfac : env.hasFactory = true) (hn : s.nls = none) (hs : Skips s.pos s.bol ws p' b')
    (hq : Dq env.hexEsc src out) (h : Here env s.pos (ws ++ (c%'"' :: (src ++ c%'"' :: rest)))) (hf : src.length < n) :
    run (n + 1) .nextToken env s =
      .ok () { s with bol := b', tsp := p', pos := p' + (utf8 src).length + 2, tok := .string, val := .str out } := by
  have hp := h.append
  rw [← hs.pos] at hp
  rw [nextToken_exec hs hn h ⟨rfl, by simp, by simp⟩, headC_cons, width_cons, enc_len (by omega),
    lexDq_exec (s := { s with pos := p' + 1, bol := b', tsp := p' }) hq hfac hf (hp.tail1 (by omega))]
  simp only
  congr 2; omega

theorem C38_literal {src : List Nat} {out : GoStr} (hepp : env.epp = false) (hfac : env.hasFactory = true)
    (htext : env.text = utf8 (c%'"' :: (src ++ [c%'"']))) (hr : ∀ r ∈ src, Rune r) (hq : Dq env.hexEsc src out) :
    (parseFrom env s0 true).1 = .value (.string ⟨0, env.text.length⟩ out) := by
  obtain ⟨h, hl⟩ := whole_runes htext (by
    intro r hr'
    simp only [List.mem_cons, List.mem_append, List.not_mem_nil, or_false] at hr'
    rcases hr' with rfl | hr' | rfl
    · exact Rune.ascii (by omega)
    · exact hr r hr'
    · exact Rune.ascii (by omega))
  have hlen : env.text.length = (utf8 src).length + 2 := by
    rw [hl, utf8_cons, utf8_append, List.length_append, List.length_append, utf8_cons, enc_len (by omega), List.length_append, enc_len (by omega)]
    simp [utf8]; omega
  obtain ⟨n, hn, hbig⟩ := fuel_succ env.text
  have hsrc := utf8_length_le src
  have ht := C38_token (env := env) (s := { s0 with pos := 0, defs := [], nls := none }) (n := n) (ws := []) (rest := []) hfac rfl
    (.nil _ _) hq h (by omega)
  rw [← hn] at ht
  refine parse_literal hepp ht ?_ rfl (by simp [hlen])
  simp [literalOf, hlen]

/-- Text with double quotes, backslashes and `$` escaped; `e` selects further characters that are escaped by a
letter. -/
def quoteDq (newline tab ret : Bool) (text : List Nat) : List Nat :=
  text.flatMap fun c =>
    if c = c%'"' ∨ c = c%'\\' ∨ c = c%'$' then [c%'\\', c]
    else if c = 10 ∧ newline = true then [c%'\\', c%'n']
    else if c = 9 ∧ tab = true then [c%'\\', c%'t']
    else if c = 13 ∧ ret = true then [c%'\\', c%'r']
    else [c]

private theorem quoteDq_spec {h a b c : Bool} {text : List Nat} (h0 : ∀ c ∈ text, c ≠ 0) : Dq h (quoteDq a b c text) (utf8 text) := by
  induction text with
  | nil => exact .nil
  | cons x t ih =>
    have ih := ih fun x hx => h0 x (List.mem_cons_of_mem _ hx)
    have hc := h0 x (List.mem_cons_self ..)
    rw [utf8_cons]
    unfold quoteDq
    rw [List.flatMap_cons]
    split
    · next hx =>
      refine .esc ?_ ih
      simp only [dqTable, List.mem_cons, Prod.mk.injEq, List.not_mem_nil, or_false]
      omega
    · split
      · next hx => obtain ⟨rfl, _⟩ := hx; exact .esc (by decide) ih
      · split
        · next hx => obtain ⟨rfl, _⟩ := hx; exact .esc (by decide) ih
        · split
          · next hx => obtain ⟨rfl, _⟩ := hx; exact .esc (by decide) ih
          · exact .char (by omega) (by omega) (by omega) hc ih

/-- Every text without NUL and U+FFFD, quoted, is parsed as a plain string with exactly that text. -/
theorem C38_round_trip {text : List Nat} {a b c : Bool} (hepp : env.epp = false) (hfac : env.hasFactory = true)
    (hr : ∀ r ∈ text, Rune r ∧ r ≠ 0) (htext : env.text = utf8 (c%'"' :: (quoteDq a b c text ++ [c%'"']))) :
    (parseFrom env s0 true).1 = .value (.string ⟨0, env.text.length⟩ (utf8 text)) := by
  refine C38_literal hepp hfac htext ?_ (quoteDq_spec fun c hc => (hr c hc).2)
  intro r hr'
  unfold quoteDq at hr'
  obtain ⟨x, hx, hm⟩ := List.mem_flatMap.1 hr'
  have h92 : Rune 92 := Rune.ascii (by omega)
  repeat' split at hm
  all_goals
    simp only [List.mem_cons, List.not_mem_nil, or_false] at hm
  · rcases hm with rfl | rfl
    · exact h92
    · exact (hr r hx).1
  · rcases hm with rfl | rfl <;> exact Rune.ascii (by omega)
  · rcases hm with rfl | rfl <;> exact Rune.ascii (by omega)
  · rcases hm with rfl | rfl <;> exact Rune.ascii (by omega)
  · subst hm; exact (hr r hx).1

example : see b!"\"a\\u0041\\u{1F600}\\t\\$x\"" = .ast (b!"(block \"aA" ++ encodeRune 0x1F600 ++ b!"\\t$x\")") := by decide +kernel

/-- Interpolation is what an unescaped `$` does. -/
example : see b!"\"a$x\"" = .ast b!"(block (concat \"a\" (str (var \"x\"))))" := by decide +kernel

/-! ## C40: white space and comments -/

/-- White space and comments in front of a token are skipped exactly: reading from before them gives what reading
from behind them gives (`b'` is the start of the line behind them), unless the token is `[`. -/
theorem C40_skip_white {rs : List Nat} (hn : s.nls = none) (hs : Skips s.pos s.bol ws p' b')
    (h : Here env s.pos (ws ++ rs)) (hr : NoSkip rs) (hb : headC rs ≠ c%'[') :
    run (n + 1) .nextToken env s = run (n + 1) .nextToken env { s with pos := p', bol := b' } := by
  have hp := h.append
  rw [← hs.pos] at hp
  rw [nextToken_exec hs hn h hr,
    nextToken_exec (s := { s with pos := p', bol := b' }) (ws := []) (rs := rs) (.nil _ _) hn (by simpa using hp) hr]
  unfold lexChar
  simp only [hb, if_false]

/-- `[` is the start of a list after white space and at the start of the source, and an access operator otherwise. -/
theorem C40_bracket (hn : s.nls = none) (hs : Skips s.pos s.bol ws p' b') (h : Here env s.pos (ws ++ (c%'[' :: rest))) :
    run (n + 1) .nextToken env s =
      .ok () { s with bol := b', tsp := p', pos := p' + 1, val := .nil,
                      tok := if ws ≠ [] ∨ p' = 0 then .listStart else .lb } := by
  rw [nextToken_exec hs hn h ⟨rfl, by simp, by simp⟩, headC_cons, width_cons, enc_len (by omega)]
  unfold lexChar
  ex
  simp only [(by decide : ¬ (49 ≤ 91 ∧ 91 ≤ 57)), show isUppercaseLetter 91 = false from rfl, show isLowercaseLetter 91 = false from rfl,
    if_false, Bool.false_eq_true]
  simp only [Nat.reduceEqDiff, if_false, if_true]
  have : s.pos < p' ↔ ws ≠ [] := by
    have h1 := hs.pos
    have h2 := utf8_length_le ws
    constructor
    · rintro h3 rfl; simp [utf8] at h1; omega
    · intro h3; have := List.length_pos_iff.2 h3; omega
  simp only [this]

/-- `(` starts a parenthesized expression rather than the arguments of a call exactly if it is the first token of its
line: `line` is the start of the line, `pre` what precedes the first token on it. -/
theorem C40_paren {pre line : List Nat} {q b'' : Nat} (hn : s.nls = none) (hs : Skips s.pos s.bol ws p' b')
    (h : Here env s.pos (ws ++ (c%'(' :: rest))) (hl : Here env b' (pre ++ line)) (hpre : Skips b' b' pre q b'') (hline : NoSkip line) :
    ∃ t, run (n + 1) .nextToken env s = .ok () t ∧ t.tsp = p' ∧ t.pos = p' + 1 ∧ t.tok = if q = p' then .wslp else .lp := by
  rw [nextToken_exec hs hn h ⟨rfl, by simp, by simp⟩, headC_cons, width_cons, enc_len (by omega)]
  unfold lexChar
  ex
  simp only [(by decide : ¬ (49 ≤ 40 ∧ 40 ≤ 57)), show isUppercaseLetter 40 = false from rfl, show isLowercaseLetter 40 = false from rfl,
    if_false, Bool.false_eq_true]
  simp only [Nat.reduceEqDiff, if_false, if_true]
  unfold lexLp
  ex
  have := skipWhite_exec (env := env) (s := { s with pos := b', bol := b', tsp := p' }) hpre hn hl hline
  rw [this]
  exact ⟨_, rfl, rfl, rfl, rfl⟩

/-- A comment with everything in it. -/
example : Skips 5 0 [c%' ', c%'#', c%'x', 10, c%'/', c%'*', 10, c%'*', c%'/', c%'\t'] 15 9 :=
  .blank (by omega) (.line (body := [c%'x']) (by simp) (.block (body := [10]) (by simp) (by decide) (.blank (by omega) (.nil _ _))))

/-- Spaces decide about brackets, line breaks about parentheses. -/
example : see b!"f($x)" = .ast b!"(block (invoke {:functor (qn \"f\") :args [(var \"x\")]}))" ∧
    see b!"f /* c */ ($x)" = see b!"f($x)" ∧ see b!"f\n ($x)" = .ast b!"(block (qn \"f\") (paren (var \"x\")))" ∧
    see b!"1 $a[$x]" = .ast b!"(block 1 (access (var \"a\") (var \"x\")))" ∧
    see b!"1 $a [$x]" = .ast b!"(block 1 (var \"a\") (array (var \"x\")))" := by decide +kernel

/-! ## C48: words -/

/-- The reserved words of the language with the text of their token. -/
def reservedWords : List GoStr :=
  [b!"application", b!"and", b!"attr", b!"case", b!"class", b!"consumes", b!"define", b!"function", b!"else", b!"elsif", b!"if",
   b!"in", b!"inherits", b!"node", b!"or", b!"private", b!"produces", b!"site", b!"type", b!"undef", b!"unless"]

/-- What a lower case word is: the token and its value. -/
def wordToken (tasks hasDash : Bool) (w : GoStr) (t : Tok) (v : TokVal) : Prop :=
  if hasDash then t = .string ∧ v = .str w
  else if w = b!"true" then t = .boolean ∧ v = .bool true
  else if w = b!"false" then t = .boolean ∧ v = .bool false
  else if w = b!"default" then t = .kDefault ∧ v = .dflt
  else if w = b!"plan" ∧ tasks = true then t = .kPlan ∧ v = .str w
  else if w ∈ reservedWords then t.isKeyword = true ∧ t.str = w ∧ v = .str w
  else t = .identifier ∧ v = .str w

private theorem classify_spec (d : Bool) (w : GoStr) :
    wordToken env.tasks d w (classify env .identifier d w).1 (classify env .identifier d w).2 := by
  unfold wordToken classify
  simp only [if_true]
  cases d with
  | true => simp
  | false =>
    simp only [Bool.false_eq_true, if_false]
    by_cases hk : w ∈ keywords.map Prod.fst
    · simp only [keywords, List.map_cons, List.map_nil, List.mem_cons, List.not_mem_nil, or_false] at hk
      cases ht : env.tasks <;>
        (rcases hk with rfl | rfl | rfl | rfl | rfl | rfl | rfl | rfl | rfl | rfl | rfl | rfl | rfl | rfl | rfl | rfl | rfl | rfl | rfl |
          rfl | rfl | rfl | rfl | rfl | rfl) <;>
        first
          | exact ⟨rfl, rfl⟩
          | exact ⟨rfl, rfl, rfl⟩
    · have hl : lookupStr keywords w = none := by
        unfold lookupStr
        have : keywords.find? (fun kv => kv.1 == w) = none := by
          rw [List.find?_eq_none]
          rintro kv hkv heq
          exact hk (List.mem_map.2 ⟨kv, hkv, by simpa using heq⟩)
        rw [this]; rfl
      rw [hl]
      simp only [keywords, List.map_cons, List.map_nil, List.mem_cons, List.not_mem_nil, or_false, not_or] at hk
      simp only [reservedWords, List.mem_cons, List.not_mem_nil, or_false, hk, false_and, if_false]
      simp

/-- A word that starts with a lower case letter: letters, digits and underscores, segments separated by `::` that start with
a lower case letter, dashes that are followed by a letter or digit (`Tail .identifier`, Lemmas/Names.lean).  It is lexed as
one token, classified by `wordToken`. -/
theorem C48_word {c : Nat} {src : List Nat} {d : Bool} (hn : s.nls = none) (hs : Skips s.pos s.bol ws p' b')
    (h : Here env s.pos (ws ++ (c :: (src ++ rest)))) (hc : isLowercaseLetter c = true) (ht : Tail .identifier false src d)
    (he : EndsName .identifier rest) :
    ∃ t v, wordToken env.tasks d (utf8 (c :: src)) t v ∧
      run (n + 1) .nextToken env s = .ok () { s with bol := b', tsp := p', pos := p' + 1 + src.length, tok := t, val := v } := by
  have hp := h.append
  rw [← hs.pos] at hp
  have hc' := hc
  simp only [isLowercaseLetter, Bool.and_eq_true, decide_eq_true_eq] at hc'
  refine ⟨_, _, classify_spec d (utf8 (c :: src)), ?_⟩
  rw [nextToken_exec hs hn h (noSkip_of (by omega)), headC_cons, width_cons, enc_len (by omega)]
  have hu : isUppercaseLetter c = false := by simp [isUppercaseLetter]; omega
  unfold lexChar
  ex
  rw [if_neg (by omega)]
  simp only [hu, hc, Bool.false_eq_true, if_false, if_true]
  rw [qualifiedName_exec (by simp) ht (by omega) hp he rfl]

/-- A word that starts with an upper case letter, with segments that start with an upper case letter, is a type name. -/
theorem C48_type_name {c : Nat} {src : List Nat} {d : Bool} (hn : s.nls = none) (hs : Skips s.pos s.bol ws p' b')
    (h : Here env s.pos (ws ++ (c :: (src ++ rest)))) (hc : isUppercaseLetter c = true) (ht : Tail .typeName false src d)
    (he : EndsName .typeName rest) :
    run (n + 1) .nextToken env s =
      .ok () { s with bol := b', tsp := p', pos := p' + 1 + src.length, tok := .typeName, val := .str (utf8 (c :: src)) } := by
  have hp := h.append
  rw [← hs.pos] at hp
  have hc' := hc
  simp only [isUppercaseLetter, Bool.and_eq_true, decide_eq_true_eq] at hc'
  rw [nextToken_exec hs hn h (noSkip_of (by omega)), headC_cons, width_cons, enc_len (by omega)]
  unfold lexChar
  ex
  rw [if_neg (by omega)]
  simp only [hc, if_true]
  rw [qualifiedName_exec (by simp) ht (by omega) hp he rfl]
  simp [classify]

/-- `$` and a name is a variable; segments may start with an underscore. -/
theorem C48_variable {c : Nat} {src : List Nat} {d : Bool} (hn : s.nls = none) (hs : Skips s.pos s.bol ws p' b')
    (h : Here env s.pos (ws ++ (c%'$' :: c :: (src ++ rest)))) (hc : isLowercaseLetter c = true) (ht : Tail .variable false src d)
    (he : EndsName .variable rest) :
    run (n + 1) .nextToken env s =
      .ok () { s with bol := b', tsp := p', pos := p' + 2 + src.length, tok := .variable, val := .str (utf8 (c :: src)) } := by
  have hp := h.append
  rw [← hs.pos] at hp
  rw [nextToken_exec hs hn h ⟨rfl, by simp, by simp⟩, headC_cons, width_cons, enc_len (by omega),
    variable_exec (start := p') ht hc hp he rfl]

/-- A name in which `::` is not followed by a letter that may start a segment is not a name: the error is located at its
first character. -/
theorem C48_bad_segment {c : Nat} {src : List Nat} {d : Bool} (hn : s.nls = none) (hs : Skips s.pos s.bol ws p' b')
    (h : Here env s.pos (ws ++ (c :: (src ++ c%':' :: c%':' :: rest)))) :
    (isLowercaseLetter c = true → Tail .identifier false src d → isLowercaseLetter (headC rest) = false →
      ∃ t, run (n + 1) .nextToken env s = .fail (.issue .lexInvalidName p') t) ∧
    (isUppercaseLetter c = true → Tail .typeName false src d → isUppercaseLetter (headC rest) = false →
      ∃ t, run (n + 1) .nextToken env s = .fail (.issue .lexInvalidTypeName p') t) := by
  have hp := h.append
  rw [← hs.pos] at hp
  refine ⟨fun hc ht hr => ?_, fun hc ht hr => ?_⟩
  · have hc' := hc
    simp only [isLowercaseLetter, Bool.and_eq_true, decide_eq_true_eq] at hc'
    have h1 : Here env (p' + 1) (src ++ c%':' :: c%':' :: rest) := hp.tail1 (by omega)
    rw [nextToken_exec hs hn h (noSkip_of (by omega)), headC_cons, width_cons, enc_len (by omega)]
    have hu : isUppercaseLetter c = false := by simp [isUppercaseLetter]; omega
    unfold lexChar
    ex
    rw [if_neg (by omega)]
    simp only [hu, hc, Bool.false_eq_true, if_false, if_true]
    unfold consumeQualifiedName
    ex
    rw [nameLoop_bad (s := { s with pos := p' + 1, bol := b', tsp := p' }) ht h1.fuel h1 hr]
    exact ⟨_, rfl⟩
  · have hc' := hc
    simp only [isUppercaseLetter, Bool.and_eq_true, decide_eq_true_eq] at hc'
    have h1 : Here env (p' + 1) (src ++ c%':' :: c%':' :: rest) := hp.tail1 (by omega)
    rw [nextToken_exec hs hn h (noSkip_of (by omega)), headC_cons, width_cons, enc_len (by omega)]
    unfold lexChar
    ex
    rw [if_neg (by omega)]
    simp only [hc, if_true]
    unfold consumeQualifiedName
    ex
    rw [nameLoop_bad (s := { s with pos := p' + 1, bol := b', tsp := p' }) ht h1.fuel h1 hr]
    exact ⟨_, rfl⟩

/-- A name with `::` is never a keyword. -/
theorem C48_qualified_not_keyword {tasks : Bool} {w : List Nat} {t : Tok} {v : TokVal} (h : c%':' ∈ w)
    (ht : wordToken tasks false (utf8 w) t v) : t = .identifier ∧ v = .str (utf8 w) := by
  have hm : (58 : UInt8) ∈ utf8 w := by
    unfold utf8
    refine List.mem_flatMap.2 ⟨58, h, ?_⟩
    rw [encodeRune_ascii (by omega)]; simp
  have hne : ∀ k : GoStr, (58 : UInt8) ∉ k → utf8 w ≠ k := fun k hk e => hk (e ▸ hm)
  have hres : utf8 w ∉ reservedWords := by
    intro hr
    have : ∀ k ∈ reservedWords, (58 : UInt8) ∉ k := by decide
    exact this _ hr hm
  unfold wordToken at ht
  simp only [Bool.false_eq_true, if_false, hne b!"true" (by decide), hne b!"false" (by decide), hne b!"default" (by decide),
    hne b!"plan" (by decide), false_and, hres] at ht
  exact ht

example : Tail .identifier false [c%'b', c%':', c%':', c%'c', c%'_', c%'-', c%'-', c%'1'] true :=
  .seg (ws := [c%'b']) (by simp; decide) (by decide) (.dash (ws := [c%'_']) (k := 1) rfl (by simp; decide) (by decide) (.done (by simp)))

example : see b!"plan" = .ast b!"(block (qn \"plan\"))" ∧ see b!"true::x" = .ast b!"(block (qn \"true::x\"))" ∧
    see b!"a--b" = .ast b!"(block \"a--b\")" := by decide +kernel

end
end PP.Props
