import Verif.Lemmas.Leaf
import Verif.Spec.Layout

/-! # Punctuation -/
namespace PP
open PP.Spec

section
variable {env : Env} {s : St} {n p scan : Nat} {rest : List Nat}

macro "dispatch" : tactic => `(tactic| (unfold lexChar; ex; simp [isUppercaseLetter, isLowercaseLetter]))

theorem lexChar_eq : lexChar (run n) scan 61 p env s = lexAssign env s := by dispatch
theorem lexChar_lc : lexChar (run n) scan 123 p env s = lexLc env s := by dispatch
theorem lexChar_rc : lexChar (run n) scan 125 p env s = setToken .rc env s := by dispatch
theorem lexChar_lb : lexChar (run n) scan 91 p env s = setToken (if scan < p ∨ p = 0 then .listStart else .lb) env s := by dispatch
theorem lexChar_rb : lexChar (run n) scan 93 p env s = setToken .rb env s := by dispatch
theorem lexChar_lp : lexChar (run n) scan 40 p env s = lexLp p env s := by dispatch
theorem lexChar_rp : lexChar (run n) scan 41 p env s = setToken .rp env s := by dispatch
theorem lexChar_comma : lexChar (run n) scan 44 p env s = setToken .comma env s := by dispatch
theorem lexChar_semi : lexChar (run n) scan 59 p env s = setToken .semicolon env s := by dispatch
theorem lexChar_dot : lexChar (run n) scan 46 p env s = setToken .dot env s := by dispatch
theorem lexChar_qmark : lexChar (run n) scan 63 p env s = setToken .qmark env s := by dispatch
theorem lexChar_colon : lexChar (run n) scan 58 p env s = lexColon p env s := by dispatch
theorem lexChar_minus : lexChar (run n) scan 45 p env s = lexMinus (run n) env s := by dispatch
theorem lexChar_plus : lexChar (run n) scan 43 p env s = lexPlus env s := by dispatch
theorem lexChar_star : lexChar (run n) scan 42 p env s = setToken .multiply env s := by dispatch
theorem lexChar_percent : lexChar (run n) scan 37 p env s = lexPercent (run n) env s := by dispatch
theorem lexChar_not : lexChar (run n) scan 33 p env s = lexNot env s := by dispatch
theorem lexChar_greater : lexChar (run n) scan 62 p env s = lexGreater env s := by dispatch
theorem lexChar_tilde : lexChar (run n) scan 126 p env s = lexTilde p env s := by dispatch
theorem lexChar_at : lexChar (run n) scan 64 p env s = lexAt (run n) env s := by dispatch
theorem lexChar_less : lexChar (run n) scan 60 p env s = lexLess (run n) env s := by dispatch
theorem lexChar_pipe : lexChar (run n) scan 124 p env s = lexPipe env s := by dispatch
theorem lexChar_slash : lexChar (run n) scan 47 p env s = lexSlash (run n) env s := by dispatch
theorem lexChar_dollar : lexChar (run n) scan 36 p env s = lexDollar p env s := by dispatch
theorem lexChar_end : lexChar (run n) scan 0 p env s = setToken .end_ env s := by dispatch
theorem lexChar_backtick (h : env.backtick = true) : lexChar (run n) scan 96 p env s = consumeBacktickedString env s := by
  unfold lexChar; ex; simp [isUppercaseLetter, isLowercaseLetter, h]

/-- Symbols that only depend on the characters that follow. -/
def plainSym : Tok → Bool
  | .lp | .wslp | .lb | .listStart | .lc | .selc | .pipe | .pipeEnd | .divide => false
  | _ => true

/-- Read a symbol. -/
theorem lexSym {k : Tok} (hk : plainSym k = true) (hne : symText k ≠ []) (h : Here env p (symText k ++ rest))
    (hp : s.pos = p + 1) (ha : headC rest ∉ absorbs env.epp k) :
    lexChar (run n) scan (headC (symText k ++ rest)) p env s =
      .ok () { s with pos := p + (symText k).length, tok := k, val := .nil } := by
  have h1 : Here env s.pos ((symText k ++ rest).drop 1) := by
    rw [hp]
    cases k <;> first | exact absurd rfl hne | exact h.tail1 (by decide)
  cases hepp : env.epp <;> rw [hepp] at ha
  all_goals cases k
  all_goals first | exact absurd rfl hne | exact absurd hk (by decide) | skip
  all_goals
    simp only [symText, List.cons_append, List.nil_append, headC_cons, List.length_cons, List.length_nil, List.drop_succ_cons, List.drop_zero] at h1 ⊢
  all_goals
    simp only [absorbs, List.mem_append, List.mem_cons, List.not_mem_nil, or_false, not_or, not_false_eq_true, Bool.false_eq_true, if_true, if_false, and_true] at ha
  all_goals
    simp only [lexChar_eq, lexChar_rc, lexChar_rb, lexChar_rp, lexChar_comma, lexChar_semi, lexChar_dot, lexChar_qmark,
      lexChar_colon, lexChar_minus, lexChar_plus, lexChar_star, lexChar_percent, lexChar_not, lexChar_greater, lexChar_tilde,
      lexChar_at, lexChar_less, lexChar_pipe]
  all_goals
    try unfold lexAssign
    try unfold lexColon
    try unfold lexMinus
    try unfold lexPlus
    try unfold lexPercent
    try unfold lexNot
    try unfold lexGreater
    try unfold lexTilde
    try unfold lexAt
    try unfold lexLess
    try unfold lexPipe
    ex
    try rw [peek_here h1]
    try simp only [headC_cons, width_cons, enc_len (show 61 < 128 by omega), enc_len (show 62 < 128 by omega), enc_len (show 60 < 128 by omega),
      enc_len (show 124 < 128 by omega), enc_len (show 45 < 128 by omega), enc_len (show 126 < 128 by omega), enc_len (show 64 < 128 by omega)]
    try simp only [adv1]
    try ex
    try simp [ha, hp, hepp]
  all_goals
    rw [hp] at h1
    first
      | (have h2 := h1.tail1 (by decide)
         rw [peek_here (by exact h2)]
         simp [ha, width_cons, enc_len]; done)
      | (rw [peek_here (by exact h1)]
         simp [ha])

/-- `{` after a question mark and elsewhere. -/
theorem lexBrace : lexChar (run n) scan 123 p env s =
    .ok () { s with tok := if s.tok = .qmark then .selc else .lc, val := .nil } := by
  rw [lexChar_lc]; unfold lexLc; ex

/-- `(`. -/
theorem lexParen {pre line : List Nat} {q b' : Nat} (hl : Here env s.bol (pre ++ line))
    (hpre : Skips s.bol s.bol pre q b') (hn : s.nls = none ∨ b' = s.bol) (hline : NoSkip line) :
    lexChar (run n) scan 40 p env s = .ok () { s with tok := if q = p then .wslp else .lp, val := .nil, bol := b' } := by
  rw [lexChar_lp]
  unfold lexLp
  ex
  have := skipWhite_exec' (env := env) (s := { s with pos := s.bol }) hpre (hn.imp id fun h => ⟨h, Nat.le_refl _⟩) hl hline
  rw [this]

/-- `|`. -/
theorem lexBar {ws tail : List Nat} {b' : Nat} (hn : s.nls = none ∨ b' = s.bol ∧ s.bol ≤ s.pos) (h : Here env s.pos rest)
    (hr : rest = ws ++ tail) (hs : Skips s.pos s.bol ws (s.pos + (utf8 ws).length) b') (ht : NoSkip tail)
    (h62 : headC rest ≠ 62) (hp : s.tok ≠ .pipe) :
    lexChar (run n) scan 124 p env s =
      .ok () { s with tok := if EndsParameters env.epp (headC tail) then .pipeEnd else .pipe, val := .nil, bol := b' } := by
  subst hr
  rw [lexChar_pipe]
  unfold lexPipe
  ex
  rw [peek_here h]
  dsimp only
  rw [if_neg h62, if_neg hp, skipWhite_exec' (s := s) hs hn h ht]
  have e : endsParameters env (headC tail) = true ↔ EndsParameters env.epp (headC tail) := by
    simp only [endsParameters, EndsParameters, Bool.and_eq_true, Bool.or_eq_true, beq_iff_eq, or_assoc]
  by_cases hc : EndsParameters env.epp (headC tail)
  · simp only [if_pos (e.2 hc), if_pos hc]
  · simp only [if_neg (fun h => hc (e.1 h)), if_neg hc]

theorem lexBarEnd (h : Here env s.pos rest) (h62 : headC rest ≠ 62) (hp : s.tok = .pipe) :
    lexChar (run n) scan 124 p env s = .ok () { s with tok := .pipeEnd, val := .nil } := by
  rw [lexChar_pipe]
  unfold lexPipe
  ex
  rw [peek_here h]
  dsimp only
  rw [if_neg h62, if_pos hp]

/-- The division operator. -/
theorem lexDivide (h : isRegexpAcceptable s.tok = false) :
    lexChar (run n) scan 47 p env s = .ok () { s with tok := .divide, val := .nil } := by
  rw [lexChar_slash]
  unfold lexSlash
  ex
  rw [h]
  simp

theorem rx_exec {dstart start : Nat} {segs : List Expr} {src out : List Nat} (hq : Rx src out) {buf : GoStr} (hf : src.length < n)
    (h : Here env s.pos (src ++ 47 :: rest)) :
    rest_ n 47 dstart false .regexp start segs buf env s =
      .ok segs { s with pos := s.pos + (utf8 src).length + 1, tok := .string, val := .str (buf ++ utf8 out) } := by
  induction hq generalizing n s buf with
  | nil =>
    obtain ⟨n, rfl⟩ : ∃ m, n = m + 1 := ⟨n - 1, by omega⟩
    rw [rest_end (by omega) (by omega) h]
    simp [utf8]
  | @char c src out h1 h2 h3 _ ih =>
    obtain ⟨n, rfl⟩ : ∃ m, n = m + 1 := ⟨n - 1, by omega⟩
    rw [rest_char h3 h1 h2 (by simp) h, ih (by simp at hf; omega) h.tail]
    simp only [utf8_cons, List.length_append, List.append_assoc, Nat.add_assoc]
  | @slash src out _ ih =>
    obtain ⟨n, rfl⟩ : ∃ m, n = m + 1 := ⟨n - 1, by omega⟩
    rw [rest_escD (by omega) (by omega) (by omega) h, ih (s := { s with pos := s.pos + 2 }) (by simp at hf; omega) ((h.tail1 (by omega)).tail1 (by omega))]
    simp only [utf8_cons, List.length_append, List.append_assoc, enc_len (show 92 < 128 by omega), enc_len (show 47 < 128 by omega)]
    simp only [Nat.add_assoc]
    congr 2; omega
  | @other c src out h1 h3 _ ih =>
    obtain ⟨n, rfl⟩ : ∃ m, n = m + 1 := ⟨n - 1, by omega⟩
    rw [rest_esc (out := 92 :: encodeRune c) (q := s.pos + 1 + (encodeRune c).length) (by omega) h3 h1 h rfl,
      ih (by simp at hf; omega) (h.tail1 (by omega)).tail]
    simp only [utf8_cons, List.length_append, List.append_assoc, encodeRune_ascii (show 92 < 128 by omega)]
    simp only [Nat.add_assoc, List.cons_append, List.nil_append, List.length_cons, List.length_nil, Nat.zero_add]
    rfl

/-- A regular expression. -/
theorem lexRegexp {src out : List Nat} (hq : Rx src out) (hf : src.length < n) (hp : isRegexpAcceptable s.tok = true)
    (h : Here env s.pos (src ++ 47 :: rest)) :
    lexChar (run n) scan 47 p env s =
      .ok () { s with pos := s.pos + (utf8 src).length + 1, tok := .regexp, val := .str (utf8 out) } := by
  rw [lexChar_slash]
  unfold lexSlash consumeRegexp consumeDelimitedString
  ex
  rw [hp]
  simp only [if_true]
  have := rx_exec (dstart := s.pos - 1) (start := s.pos) (segs := []) (buf := []) hq hf h
  unfold rest_ at this
  rw [ex_bind] at this
  rw [next_here h] at this ⊢
  dsimp only at this ⊢
  rw [this]
  simp

/-- A string between backticks. -/
theorem lexBacktick {src : List Nat} (hb : env.backtick = true) (hq : ∀ c ∈ src, c ≠ 96 ∧ c ≠ 0) (h : Here env s.pos (src ++ 96 :: rest)) :
    lexChar (run n) scan 96 p env s =
      .ok () { s with pos := s.pos + (utf8 src).length + 1, tok := .string, val := .str (utf8 src) } := by
  rw [lexChar_backtick hb]
  unfold consumeBacktickedString
  ex
  rw [advWhile_here h.fuel h (fun c hc => by have := hq c hc; simp [this]) (by simp)]
  simp only [headC_cons, width_cons, enc_len (show 96 < 128 by omega)]
  rw [if_neg (by omega), from_here (s := { s with pos := s.pos + (utf8 src).length }) h rfl]

/-- A name that starts with `::`. -/
theorem lexGlobal {c : Nat} {src : List Nat} {tok : Tok} {d : Bool} (hv : tok = .typeName ∧ isUppercaseLetter c = true ∨ tok = .identifier ∧ isLowercaseLetter c = true)
    (ht : Tail tok false src d) (h : Here env p (58 :: 58 :: c :: (src ++ rest))) (he : EndsName tok rest) (hp : s.pos = p + 1) :
    lexChar (run n) scan 58 p env s =
      .ok () { s with pos := p + 3 + src.length, tok := (classify env tok d (utf8 (58 :: 58 :: c :: src))).1,
                      val := (classify env tok d (utf8 (58 :: 58 :: c :: src))).2 } := by
  have hc : c < 128 ∧ (isUppercaseLetter c = true → tok = .typeName) ∧ (isUppercaseLetter c = false → tok = .identifier ∧ isLowercaseLetter c = true) := by
    simp only [isUppercaseLetter, isLowercaseLetter, Bool.and_eq_true, decide_eq_true_eq, Bool.and_eq_false_iff, decide_eq_false_iff_not] at hv ⊢
    rcases hv with ⟨rfl, hv⟩ | ⟨rfl, hv⟩
    · refine ⟨by omega, fun _ => rfl, fun h => by omega⟩
    · refine ⟨by omega, fun h => by omega, fun _ => ⟨rfl, by omega⟩⟩
  have h1 : Here env (p + 1) (58 :: c :: (src ++ rest)) := h.tail1 (by omega)
  have h2 : Here env (p + 1 + 1) (c :: (src ++ rest)) := h1.tail1 (by omega)
  have h3 : Here env (p + 1 + 1 + 1) (src ++ rest) := h2.tail1 hc.1
  have hl : (utf8 src).length = src.length := utf8_ascii_length ht.ascii
  have hcq : ∀ u : St, u.pos = p + 3 → consumeQualifiedName p tok env u =
      .ok () { u with pos := p + 3 + src.length, tok := (classify env tok d (utf8 (58 :: 58 :: c :: src))).1,
                      val := (classify env tok d (utf8 (58 :: 58 :: c :: src))).2 } := by
    intro u hu
    unfold consumeQualifiedName
    ex
    rw [nameLoop_exec (s := u) ht h3.fuel (by rw [hu]; exact h3) he]
    dsimp only
    rw [if_neg (by rcases hv with hv | hv <;> rw [hv.1] <;> simp)]
    have hf := from_here (s := { u with pos := u.pos + src.length }) (ws := 58 :: 58 :: c :: src) (rs := rest) h (by
      rw [utf8_cons, utf8_cons, utf8_cons, List.length_append, List.length_append, List.length_append, enc_len hc.1, enc_len (by omega), hl]
      show u.pos + _ = _; omega)
    rw [hf, hu]
    simp only [Bool.false_or]
  rw [lexChar_colon]
  unfold lexColon
  ex
  rw [peek_here (s := { s with tok := .colon, val := .nil }) (by rw [← hp] at h1; exact h1)]
  simp only [headC_cons, if_true, width_cons, enc_len (show 58 < 128 by omega)]
  rw [next_here (s := { s with tok := .colon, val := .nil, pos := s.pos + 1 }) (by rw [← hp] at h2; exact h2)]
  simp only [headC_cons, width_cons, enc_len hc.1]
  cases hu : isUppercaseLetter c with
  | true =>
    have := hc.2.1 hu
    subst this
    simp only [if_true]
    rw [hcq _ (by show s.pos + 1 + 1 = _; omega)]
  | false =>
    obtain ⟨rfl, hlow⟩ := hc.2.2 hu
    simp only [Bool.false_eq_true, if_false, hlow, if_true]
    rw [hcq _ (by show s.pos + 1 + 1 = _; omega)]

/-- A variable that starts with `::`. -/
theorem lexGlobalVar {c : Nat} {src : List Nat} {d : Bool} (hc : isLowercaseLetter c = true)
    (ht : Tail .variable false src d) (h : Here env p (36 :: 58 :: 58 :: c :: (src ++ rest))) (he : EndsName .variable rest) (hp : s.pos = p + 1) :
    lexChar (run n) scan 36 p env s =
      .ok () { s with pos := p + 4 + src.length, tok := .variable, val := .str (utf8 (58 :: 58 :: c :: src)) } := by
  have hc7 : c < 128 := by simp [isLowercaseLetter] at hc; omega
  have h0 : Here env (p + 1) (58 :: 58 :: c :: (src ++ rest)) := h.tail1 (by omega)
  have h1 : Here env (p + 1 + 1) (58 :: c :: (src ++ rest)) := h0.tail1 (by omega)
  have h2 : Here env (p + 1 + 1 + 1) (c :: (src ++ rest)) := h1.tail1 (by omega)
  have h3 : Here env (p + 1 + 1 + 1 + 1) (src ++ rest) := h2.tail1 hc7
  have hl : (utf8 src).length = src.length := utf8_ascii_length ht.ascii
  rw [lexChar_dollar]
  unfold lexDollar
  ex
  rw [peek_here (s := s) (by rw [hp]; exact h0)]
  simp only [headC_cons, if_true, width_cons, enc_len (show 58 < 128 by omega)]
  rw [peek_here (s := { s with pos := s.pos + 1 }) (by rw [← hp] at h1; exact h1)]
  simp only [headC_cons, ne_eq, not_true_eq_false, if_false, width_cons, enc_len (show 58 < 128 by omega)]
  rw [peek_here (s := { s with pos := s.pos + 1 + 1 }) (by rw [← hp] at h2; exact h2)]
  simp only [headC_cons, hc, if_true, width_cons, enc_len hc7]
  unfold consumeQualifiedName
  ex
  rw [nameLoop_exec (s := { s with pos := s.pos + 1 + 1 + 1 }) ht h3.fuel (by rw [← hp] at h3; exact h3) he]
  simp only [if_true]
  have hf := from_here (s := { s with pos := s.pos + 1 + 1 + 1 + src.length }) (ws := 58 :: 58 :: c :: src) (rs := rest) h0 (by
    rw [utf8_cons, utf8_cons, utf8_cons, List.length_append, List.length_append, List.length_append, enc_len hc7, enc_len (by omega), hl]
    show s.pos + _ + _ + _ + _ = _; omega)
  rw [hf]
  simp only [classify, reduceCtorEq, if_false]
  rw [hp]

end
end PP
