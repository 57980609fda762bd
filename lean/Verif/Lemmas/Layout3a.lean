import Verif.Lemmas.Layout3

/-! # A text that is a layout of tokens feeds these tokens to the parser: going back -/
namespace PP
open PP.Spec
set_option linter.unusedSimpArgs false

/-- Tokens whose reading does not depend on what precedes them. -/
def rereadable : T → Bool
  | .sym .farrow | .sym .parrow | .sym .multiply => true
  | t => plainName t

section
variable {env : Env} {s s' s'' x : St} {q : Nat} {ws cs rest : List Nat} {t u : T} {ts r : List T} {nl : Bool}

theorem EvN.det {x : NT} {a b : Out x} (h : EvN env x s a s') (h2 : EvN env x s b s'') : a = b ∧ s' = s'' := by
  obtain ⟨k, h⟩ := h.ex
  obtain ⟨k', h2⟩ := h2.ex
  have e := (h (k + k') (by omega)).symm.trans (h2 (k + k') (by omega))
  injection e with e1 e2
  exact ⟨e1, e2⟩

theorem reread (hw : White ws nl) (hsp : Spelled env t cs rest) (ht : rereadable t = true)
    (h : Here env q (ws ++ (cs ++ rest))) :
    ∃ e p tk v, ∃ B : Nat → Nat, ((∀ b, B b = b) ∨ ∃ c, ∀ b, B b = c) ∧ (nl = false → ∀ b, B b = b) ∧ (∀ x : St, x.tok = tk → x.val = v → Reads t x) ∧
      Here env p (cs ++ rest) ∧ Here env e rest ∧
      ∀ x : St, x.pos = q → x.nls = none →
        EvN env .nextToken x () { x with pos := e, tok := tk, val := v, tsp := p, bol := B x.bol } ∧
        skipWhite false env x = .ok (headC (cs ++ rest), p) { x with pos := p + 1, bol := B x.bol } := by
  obtain ⟨hne, -, -, h128, -⟩ := spelled_first hsp
  have hns := spelled_noSkip hsp
  have hwid : width (cs ++ rest) = 1 := by
    cases cs with
    | nil => exact absurd rfl hne
    | cons c cs => rw [List.cons_append, width_cons]; exact enc_len h128
  have hp := h.append
  obtain ⟨B, hB, hB', hsk⟩ : ∃ B : Nat → Nat, ((∀ b, B b = b) ∨ ∃ c, ∀ b, B b = c) ∧ (nl = false → ∀ b, B b = b) ∧ ∀ b, Skips q b ws (q + (utf8 ws).length) (B b) := by
    cases nl with
    | true =>
      obtain ⟨b', h1, -⟩ := white_skips hw q 0
      exact ⟨fun _ => b', .inr ⟨b', fun _ => rfl⟩, nofun, fun b => h1 b rfl⟩
    | false =>
      refine ⟨id, .inl fun _ => rfl, fun _ _ => rfl, fun b => ?_⟩
      obtain ⟨b', -, h2, h3, -⟩ := white_skips hw q b
      rw [h3 rfl] at h2
      exact h2
  generalize hpe : q + (utf8 ws).length = p at *
  have hskip : ∀ x : St, x.pos = q → x.nls = none → skipWhite false env x =
      .ok (headC (cs ++ rest), p) { x with pos := p + 1, bol := B x.bol } := by
    intro x hx hxn
    have := skipWhite_exec (env := env) (s := x) (ws := ws) (rs := cs ++ rest) (b' := B x.bol) (p' := p)
      (by show Skips x.pos x.bol _ _ _; rw [hx]; exact hsk _) hxn (by show Here env x.pos _; rw [hx]; exact h) hns
    rw [hwid] at this
    exact this
  have lex : ∃ tk v, (∀ x : St, x.tok = tk → x.val = v → Reads t x) ∧ ∀ (f scan : Nat) (x : St), x.pos = p + 1 →
      lexChar (run f) scan (headC (cs ++ rest)) p env x = .ok () { x with pos := p + (utf8 cs).length, tok := tk, val := v } := by
    unfold rereadable plainName at ht
    have name : ∀ {x : GoStr}, IsName .identifier isLowercaseLetter cs rest → utf8 cs = x → ∀ (f scan : Nat) (s : St), s.pos = p + 1 →
        lexChar (run f) scan (headC (cs ++ rest)) p env s = .ok () { s with pos := p + (utf8 cs).length, tok := (classify env .identifier false x).1, val := (classify env .identifier false x).2 } := by
      intro x hi hx f scan s hs
      rw [lexName (s := s) (.inr ⟨rfl, rfl⟩) hi hp hs, hx]
    have word : ∀ {k}, t = .word k → ∃ tk v, (∀ x : St, x.tok = tk → x.val = v → Reads t x) ∧ ∀ (f scan : Nat) (x : St), x.pos = p + 1 →
      lexChar (run f) scan (headC (cs ++ rest)) p env x = .ok () { x with pos := p + (utf8 cs).length, tok := tk, val := v } := by
      rintro k rfl
      obtain ⟨hw, hk, hi⟩ := hsp
      obtain ⟨h1, h2, h3⟩ := classify_word (env := env) (k := k) (by
        intro h; rw [h] at hw
        have h1 := utf8_length_le cs
        have h2 := List.length_pos_iff.2 hne
        rw [hw] at h1; change _ ≤ 0 at h1; omega) hk
      have := name hi hw
      rw [h1] at this
      exact ⟨_, _, fun x hx hv => ⟨hx, hv, h2, h3⟩, this⟩
    have sym : ∀ {k}, t = .sym k → plainSym k = true → (∀ x : St, x.tok = k → x.val = .nil → Reads t x) → ∃ tk v, (∀ x : St, x.tok = tk → x.val = v → Reads t x) ∧ ∀ (f scan : Nat) (x : St), x.pos = p + 1 →
      lexChar (run f) scan (headC (cs ++ rest)) p env x = .ok () { x with pos := p + (utf8 cs).length, tok := tk, val := v } := by
      rintro k rfl hpl hR
      obtain ⟨rfl, hne, ha, -⟩ := hsp
      have hlen : (utf8 (symText k)).length = (symText k).length := by
        cases k <;> first | rfl | cases hpl
      exact ⟨_, _, hR, fun f scan x hx => by rw [hlen]; exact lexSym hpl hne hp hx ha⟩
    split at ht
    · exact sym rfl rfl fun x h1 h2 => ⟨h1, h2⟩
    · exact sym rfl rfl fun x h1 h2 => ⟨h1, h2⟩
    · exact sym rfl rfl fun x h1 h2 => ⟨h1, h2⟩
    split at ht
    · obtain ⟨hw, hi, hr, -⟩ := hsp
      have := name hi hw.symm
      rw [classify_name (hw ▸ hr)] at this
      exact ⟨_, _, fun x hx hv => ⟨hx, hv⟩, this⟩
    · obtain ⟨-, hw, hi⟩ := hsp
      have := name hi hw
      rw [classify_style] at this
      exact ⟨_, _, fun x hx hv => ⟨hx, hv⟩, this⟩
    · obtain ⟨hw, hi⟩ := hsp
      exact ⟨_, _, fun x hx hv => ⟨hx, hv⟩, name hi hw⟩
    · exact word rfl
    · exact word rfl
    · exact word rfl
    · exact word rfl
    · cases ht
  obtain ⟨tk, v, hR, hlex⟩ := lex
  refine ⟨p + (utf8 cs).length, p, tk, v, B, hB, hB', hR, hp, hp.append, fun x hx hxn => ⟨⟨1, fun f hf => ?_⟩, hskip x hx hxn⟩⟩
  obtain ⟨g, rfl⟩ : ∃ g, f = g + 1 := ⟨f - 1, by omega⟩
  show run (g + 1) .nextToken env _ = _
  rw [nextToken_of (hskip x hx hxn)]
  exact hlex g _ _ rfl

/-- Where the first tokens are written. -/
structure Reread (env : Env) (ts : List T) (rest : List Nat) : Prop where
  star : ts.head? = some (.sym .multiply) → ∃ ws nl cs tail, rest = ws ++ (cs ++ tail) ∧ White ws nl ∧ Spelled env (.sym .multiply) cs tail
  named : ∀ t u r, ts = t :: u :: r → plainName t = true → (attributeOperator u).isSome = true →
    ∃ ws nl cs ws2 nl2 cs2 tail, rest = ws ++ (cs ++ (ws2 ++ (cs2 ++ tail))) ∧ White ws nl ∧ Spelled env t cs (ws2 ++ (cs2 ++ tail)) ∧
      White ws2 nl2 ∧ Spelled env u cs2 tail

theorem plainName_reread (h : plainName t = true) : rereadable t = true := by
  unfold rereadable
  split <;> first | rfl | exact h

theorem operator_reread (h : (attributeOperator u).isSome = true) : rereadable u = true := by
  unfold attributeOperator at h
  split at h <;> first | rfl | cases h

theorem layout_reread {fin : Option (List Nat)} {prev : Tok} {first : Bool} (hepp : env.epp = false) (h : Layout env fin prev first none ts rest) : Reread env ts rest := by
  constructor
  · intro hs
    cases h with
    | done => cases hs
    | comment => cases hs
    | close => cases hs
    | interp => cases hs
    | token hw hsp hf hp hl =>
      obtain rfl := Option.some.inj hs
      exact ⟨_, _, _, _, rfl, hw, hsp⟩
    | heredoc => cases hs
    | text he => rw [hepp] at he; cases he
    | noText he => rw [hepp] at he; cases he
  · rintro t u r rfl ht hu
    cases h with
    | token hw hsp hf hp hl =>
      cases hl with
      | token hw2 hsp2 => exact ⟨_, _, _, _, _, _, _, rfl, hw, hsp, hw2, hsp2⟩
      | heredoc => cases hu
      | interp => cases hu
      | text he => rw [hepp] at he; cases he
      | noText he => rw [hepp] at he; cases he
    | heredoc => cases ht
    | interp => cases ht
    | text he => rw [hepp] at he; cases he
    | noText he => rw [hepp] at he; cases he

section
variable [Ending]

/-- Going back after an opening brace. -/
theorem rewinds (hre : Reread env ts rest) (h : Here env s.pos rest) (hx : x.pos = s.pos) (hn : x.nls = none)
    (h1 : EvN env .nextToken x () s') (hf : Feeds env ts s') : Rewinds env (Feeds env ts) ts s s' := by
  constructor
  · intro hs
    obtain ⟨ws, nl, cs, tail, rfl, hw, hsp⟩ := hre.star hs
    obtain ⟨e, p, tk, v, B, hB, -, -, -, -, hr⟩ := reread hw hsp rfl h
    have hb : B (B x.bol) = B x.bol := by rcases hB with h | ⟨c, h⟩ <;> rw [h, h]
    obtain ⟨-, rfl⟩ := h1.det (hr x hx hn).1
    refine ⟨_, ?_, rfl, hf⟩
    have h2 := (hr ({ x with pos := s.pos, tok := tk, val := v, tsp := p, bol := B x.bol }) rfl hn).1
    simp only [hb] at h2
    exact h2
  · rintro t u r rfl ht hu s'' h2
    obtain ⟨ws, nl, cs, ws2, nl2, cs2, tail, rfl, hw, hsp, hw2, hsp2⟩ := hre.named t u r rfl ht hu
    obtain ⟨e1, p1, tk1, v1, B1, hB1, -, hR1, -, he1, hx1⟩ := reread hw hsp (plainName_reread ht) h
    obtain ⟨e2, p2, tk2, v2, B2, hB2, -, hR2, -, -, hx2⟩ := reread hw2 hsp2 (operator_reread hu) he1
    have i2 : ∀ b, B2 (B1 (B2 (B1 b))) = B2 (B1 b) := fun b => by
      rcases hB1 with h | ⟨c, h⟩ <;> rcases hB2 with h' | ⟨c', h'⟩ <;> simp only [h, h']
    obtain ⟨-, rfl⟩ := h1.det (hx1 x hx hn).1
    obtain ⟨-, rfl⟩ := h2.det (hx2 { x with pos := e1, tok := tk1, val := v1, tsp := p1, bol := B1 x.bol } rfl hn).1
    refine ⟨_, (hx1 { x with pos := s.pos, tok := tk2, val := v2, tsp := p2, bol := B2 (B1 x.bol) } rfl hn).1, rfl, hR1 _ rfl rfl, ⟨?_, ?_, hf.start, hf.past, hf.2.1.name⟩, fun v n d => ?_⟩
    · rintro k rfl; cases ht
    · rintro (rfl | rfl) <;> cases ht
    · obtain ⟨-, -, hf⟩ := hf
      obtain ⟨s3, g1, g2, g3, g4, -⟩ := hf v n d
      obtain ⟨-, rfl⟩ := g1.det (hx2 { x with pos := e1, tok := tk1, val := v, tsp := p1, bol := B1 x.bol, names := n, defs := d } rfl hn).1
      refine ⟨_, ?_, g2, g3, g4, ?_⟩
      · have h3 := (hx2 { x with pos := e1, tok := tk1, val := v, tsp := p1, bol := B1 (B2 (B1 x.bol)), names := n, defs := d } rfl hn).1
        simp only [i2] at h3
        exact h3
      · rintro rfl; cases ht

/-- The same after skipping the white space. -/
theorem rewinds_skipped {p c : Nat} {v : St} (hre : Reread env ts rest) (h : Here env s.pos rest) (hn : s.nls = none)
    (hsk : skipWhite false env s = .ok (c, p) v) (hx : x.pos = p) (hxn : x.nls = v.nls) (h1 : EvN env .nextToken x () s') (hf : Feeds env ts s') :
    Rewinds env (Feeds env ts) ts { v with pos := p } s' := by
  have key : ∀ {ws cs tail nl t}, White ws nl → Spelled env t cs tail → rereadable t = true → rest = ws ++ (cs ++ tail) →
      Here env p (cs ++ tail) ∧ v.nls = none := by
    rintro ws cs tail nl t hw hsp ht rfl
    obtain ⟨e1, p1, tk1, v1, B1, -, -, -, hp, -, hy⟩ := reread hw hsp ht h
    have := hsk.symm.trans (hy s rfl hn).2
    injection this with e1 e2
    injection e1 with _ e1
    subst e1 e2
    exact ⟨hp, hn⟩
  constructor
  · intro hs
    obtain ⟨ws, nl, cs, tail, rfl, hw, hsp⟩ := hre.star hs
    obtain ⟨k1, k2⟩ := key hw hsp rfl rfl
    exact (rewinds (s := { v with pos := p }) ⟨fun _ => ⟨[], _, _, _, rfl, .nil, hsp⟩, fun t u r hts ht => by
      rw [hts] at hs; obtain rfl := Option.some.inj hs; cases ht⟩ k1 hx (hxn.trans k2) h1 hf).star hs
  · rintro t u r rfl ht hu s'' h2
    obtain ⟨ws, nl, cs, ws2, nl2, cs2, tail, rfl, hw, hsp, hw2, hsp2⟩ := hre.named t u r rfl ht hu
    obtain ⟨k1, k2⟩ := key hw hsp (plainName_reread ht) rfl
    refine (rewinds (s := { v with pos := p }) ⟨fun hs => ?_, fun t' u' r' hts _ _ => ?_⟩ k1 hx (hxn.trans k2) h1 hf).named t u r rfl ht hu s'' h2
    · obtain rfl := Option.some.inj hs
      cases ht
    · injection hts with e1 e2
      injection e2 with e2 _
      subst e1 e2
      exact ⟨[], _, _, _, _, _, _, rfl, .nil, hsp, hw2, hsp2⟩

end
end
end PP
