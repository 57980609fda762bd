import Verif.Lemmas.Layout2

/-! # A text that is a layout of tokens feeds these tokens to the parser (3) -/
namespace PP
open PP.Spec
set_option linter.unusedSimpArgs false

section
variable {env : Env} {s : St} {n p b scan : Nat} {ws cs rest rs : List Nat} {t : T} {ts : List T} {prev : Tok} {first nl hd : Bool}

theorem saturate_min (n : Nat) : saturate n = (min n maxInt : Nat) := by
  unfold saturate maxInt
  split <;> omega

theorem numeral_zero {base : Nat} {ds : List Nat} : numeral base (48 :: ds) = numeral base ds := by
  unfold numeral
  rw [List.foldl_cons]
  congr 1
  simp [digitOf]

/-- Reading one token. -/
theorem lexSpelled (hfac : env.hasFactory = true)
    (hsp : Spelled env t cs rest) (hfit : Fits env.epp prev first hd ws nl t rest) (h : Here env p (cs ++ rest))
    (hst : LineAt env b p (nl = true ∨ first = true)) (htok : s.tok = prev ∨ (prev = .listStart ∧ s.tok = .lb)) (hn : hd = true ∧ ¬ NoHeredoc env ∨ hd = false ∧ s.nls = none)
    (hb : s.bol = b) (hpos : s.pos = p + 1) (hscan : first = false → ws = [] → ¬ (scan < p ∨ p = 0)) :
    ∃ r : St, (∃ k, ∀ n, k ≤ n → ∀ v ns ds, lexChar (run n) scan (headC (cs ++ rest)) p env { s with val := v, names := ns, defs := ds } =
        .ok () { r with names := ns, defs := ds }) ∧ Reads t r ∧ (r.nls, r.tsp) = (s.nls, s.tsp) ∧ r.pos = p + (utf8 cs).length ∧
      (r.bol = b ∨ hd = false ∧ Good env r.bol r.pos ∨ hd = false ∧ ∃ c q, ∀ u : St, u.pos = r.pos → u.nls = none → ∃ v, skipWhite false env { u with bol := b } = .ok (c, q) v ∧ v.bol = r.bol) := by
  have hlc : (utf8 cs).length ≥ 1 := by
    have h1 := utf8_length_le cs
    have h2 := List.length_pos_iff.2 (spelled_first hsp).1
    omega
  cases t with
  | int r v =>
    have hall : ∀ ds : List Nat, (∀ c ∈ ds, isHexDigit c = true) → (utf8 ds).length = ds.length := fun ds hd =>
      utf8_ascii_length fun w hw => hex_ascii (hd w hw)
    rcases hsp with ⟨rfl, rfl, ⟨d, ds, rfl, h1, h2, h3⟩, he⟩ | ⟨rfl, rfl, rfl, he⟩ | ⟨rfl, rfl, ⟨ds, rfl, hne, h3⟩, he⟩ | ⟨rfl, x, ds, rfl, rfl, hx, hne, h3, he⟩
    · refine ⟨{ s with pos := p + 1 + ds.length, tok := .integer, radix := 10, val := .int (saturate (numeral 10 (d :: ds))) },
        ⟨0, fun n _ v ns dd => ?_⟩, ⟨rfl, by rw [saturate_min], rfl⟩, rfl, ?_, .inl hb⟩
      · exact lexNumber_exec (s := { s with val := v, names := ns, defs := dd }) ⟨h1, h2⟩ h3
          ⟨he.1, he.2.1, he.2.2.1, fun h => he.2.2.2 (by rw [h]; rfl)⟩ h hpos
      · show p + 1 + ds.length = _
        rw [utf8_cons, List.length_append, enc_len (by omega), hall ds (fun c hc => (dec_hex (h3 c hc)).1)]; omega
    · refine ⟨{ s with pos := p + 1, tok := .integer, radix := 10, val := .int 0 }, ⟨0, fun n _ v ns dd => ?_⟩, ⟨rfl, rfl, rfl⟩, rfl, ?_, .inl hb⟩
      · exact lexOctal_exec (ds := []) (s := { s with val := v, names := ns, defs := dd }) (by simp) ⟨he.1, he.2.1, he.2.2.1⟩ h hpos
      · show p + 1 = _
        rfl
    · refine ⟨{ s with pos := p + 1 + ds.length, tok := .integer, radix := 8, val := .int (saturate (numeral 8 ds)) },
        ⟨0, fun n _ v ns dd => ?_⟩, ⟨rfl, by rw [saturate_min, numeral_zero], rfl⟩, rfl, ?_, .inl hb⟩
      · have := lexOctal_exec (n := n) (scan := scan) (ds := ds) (s := { s with val := v, names := ns, defs := dd }) h3 ⟨he.1, he.2.1, he.2.2.1⟩ h hpos
        rw [if_neg hne] at this
        exact this
      · show p + 1 + ds.length = _
        rw [utf8_cons, List.length_append, enc_len (by omega), hall ds (fun c hc => (oct_hex (h3 c hc)).1)]; omega
    · refine ⟨{ s with pos := p + 2 + ds.length, tok := .integer, radix := 16, val := .int (saturate (numeral 16 ds)) },
        ⟨0, fun n _ v ns dd => ?_⟩, ⟨rfl, by rw [saturate_min], rfl⟩, rfl, ?_, .inl hb⟩
      · exact lexHex_exec (s := { s with val := v, names := ns, defs := dd }) hx h3 hne he h hpos
      · show p + 2 + ds.length = _
        rw [utf8_cons, utf8_cons, List.length_append, List.length_append, enc_len (by omega), enc_len (by omega), hall ds h3]; omega
  | float v =>
    obtain ⟨rfl, hf, e1, e2⟩ := hsp
    refine ⟨{ s with pos := p + (utf8 cs).length, tok := .float, val := .flt ⟨false, utf8 cs⟩, radix := if headC cs = 48 then 10 else s.radix },
      ⟨0, fun n _ v ns dd => ?_⟩, ⟨rfl, rfl⟩, rfl, rfl, .inl hb⟩
    have := lexFloat_exec (n := n) (scan := scan) (s := { s with val := v, names := ns, defs := dd }) hf e1 e2 h hpos
    have hh : headC (cs ++ rest) = headC cs := by
      cases cs with
      | nil => exact absurd rfl (spelled_first (t := .float _) ⟨rfl, hf, e1, e2⟩).1
      | cons c cs => rfl
    rw [hh]
    exact this
  | brace =>
    obtain ⟨(rfl : cs = symText .lc), -⟩ := hsp
    obtain ⟨tok, b', h1, h2, h3⟩ := lexSpelledSym (k := .lc) ⟨rfl, by simp [symText], by simp [absorbs], nofun⟩ hfit.1 h hst htok hn hb hpos hscan
    refine ⟨{ s with pos := p + (utf8 (symText .lc)).length, tok := tok, val := .nil, bol := b' }, ⟨0, fun n _ v ns dd => h2 n v ns dd⟩, ?_, rfl, rfl, ?_⟩
    · rcases h1 with rfl | ⟨h1, -⟩
      · exact ⟨rfl, rfl⟩
      · cases h1
    · exact h3
  | interp => exact hsp.elim
  | heredoc => exact hsp.elim
  | render => exact hsp.elim
  | str v =>
    rcases hsp with ⟨src, out, rfl, hq, rfl⟩ | ⟨src, rfl, hq⟩ | ⟨src, rfl, hbt, hq, rfl⟩ | ⟨c, src, rfl, hc, ht, he, rfl⟩
    · have h1 : Here env (p + 1) (src ++ 39 :: rest) := by simpa using (h.tail1 (by omega))
      refine ⟨{ s with pos := p + 1 + (utf8 src).length + 1, tok := .string, val := .str (utf8 out) },
        ⟨src.length + 1, fun n hk v ns dd => ?_⟩, ⟨rfl, rfl⟩, rfl, ?_, .inl hb⟩
      · have := lexSq_exec (n := n) (scan := scan) (start := p) (rs := rest) (s := { s with val := v, names := ns, defs := dd }) hq (by omega) (by rw [← hpos] at h1; exact h1)
        rw [show headC (39 :: (src ++ [39]) ++ rest) = 39 from rfl, this]
        simp only [hpos]
      · show p + 1 + _ + 1 = _
        simp only [utf8_cons, utf8_append, List.length_append]
        rw [enc_len (by omega)]; simp only [utf8, List.flatMap_nil, List.length_nil]; omega
    · have h1 : Here env (p + 1) (src ++ 34 :: rest) := by simpa using (h.tail1 (by omega))
      refine ⟨{ s with pos := p + 1 + (utf8 src).length + 1, tok := .string, val := .str v },
        ⟨src.length + 1, fun n hk v ns dd => ?_⟩, ⟨rfl, rfl⟩, rfl, ?_, .inl hb⟩
      · have := lexDq_exec (n := n) (scan := scan) (start := p) (rs := rest) (s := { s with val := v, names := ns, defs := dd }) hq hfac (by omega) (by rw [← hpos] at h1; exact h1)
        rw [show headC (34 :: (src ++ [34]) ++ rest) = 34 from rfl, this]
        simp only [hpos]
      · show p + 1 + _ + 1 = _
        simp only [utf8_cons, utf8_append, List.length_append]
        rw [enc_len (by omega)]; simp only [utf8, List.flatMap_nil, List.length_nil]; omega
    · have h1 : Here env (p + 1) (src ++ 96 :: rest) := by simpa using (h.tail1 (by omega))
      refine ⟨{ s with pos := p + 1 + (utf8 src).length + 1, tok := .string, val := .str (utf8 src) },
        ⟨0, fun n hk v ns dd => ?_⟩, ⟨rfl, rfl⟩, rfl, ?_, .inl hb⟩
      · have := lexBacktick (n := n) (scan := scan) (p := p) (rest := rest) (s := { s with val := v, names := ns, defs := dd }) hbt hq (by rw [← hpos] at h1; exact h1)
        rw [show headC (96 :: (src ++ [96]) ++ rest) = 96 from rfl, this]
        simp only [hpos]
      · show p + 1 + _ + 1 = _
        simp only [utf8_cons, utf8_append, List.length_append]
        rw [enc_len (by omega)]; simp only [utf8, List.flatMap_nil, List.length_nil]; omega
    · have hc' := hc
      simp only [isLowercaseLetter, Bool.and_eq_true, decide_eq_true_eq] at hc'
      refine ⟨{ s with pos := p + 1 + src.length, tok := .string, val := .str (utf8 (c :: src)) },
        ⟨0, fun n hk v ns dd => ?_⟩, ⟨rfl, rfl⟩, rfl, ?_, .inl hb⟩
      · have hu : isUppercaseLetter c = false := by simp [isUppercaseLetter]; omega
        show lexChar (run n) scan c p env _ = _
        unfold lexChar
        ex
        rw [if_neg (by omega)]
        simp only [hu, hc, Bool.false_eq_true, if_false, if_true]
        rw [qualifiedName_exec (s := { s with val := v, names := ns, defs := dd }) (by simp) ht (by omega) h he hpos]
        simp [classify]
      · show p + 1 + src.length = _
        rw [utf8_cons, List.length_append, enc_len (by omega), utf8_ascii_length ht.ascii]; omega
  | regexp v =>
    obtain ⟨src, out, rfl, h42, hq, rfl⟩ := hsp
    have hf : beforeRegexp prev = true := hfit
    have hrx : isRegexpAcceptable s.tok = true := by
      rw [← hf]
      have : ∀ q, isRegexpAcceptable q = beforeRegexp q := by intro q; cases q <;> rfl
      rcases htok with h | ⟨h, h'⟩
      · rw [h, this]
      · rw [h, h']; rfl
    have h1 : Here env (p + 1) (src ++ 47 :: rest) := by simpa using (h.tail1 (by omega))
    refine ⟨{ s with pos := p + 1 + (utf8 src).length + 1, tok := .regexp, val := .str (utf8 out) },
      ⟨src.length + 1, fun n hk v ns dd => ?_⟩, ⟨rfl, rfl⟩, rfl, ?_, .inl hb⟩
    · have := lexRegexp (n := n) (scan := scan) (p := p) (rest := rest) (s := { s with val := v, names := ns, defs := dd }) hq (by omega) hrx (by rw [← hpos] at h1; exact h1)
      rw [show headC (47 :: (src ++ [47]) ++ rest) = 47 from rfl, this]
      simp only [hpos]
    · show p + 1 + _ + 1 = _
      simp only [utf8_cons, utf8_append, List.length_append]
      rw [enc_len (by omega)]; simp only [utf8, List.flatMap_nil, List.length_nil]; omega
  | var v =>
    obtain ⟨w, rfl, rfl, hi⟩ := hsp
    refine ⟨{ s with pos := p + (utf8 (36 :: w)).length, tok := .variable, val := .str (utf8 w) },
      ⟨0, fun n hk v ns dd => ?_⟩, ⟨rfl, rfl⟩, rfl, rfl, .inl hb⟩
    exact lexVar (s := { s with val := v, names := ns, defs := dd }) hi h hpos
  | type v =>
    obtain ⟨rfl, hi⟩ := hsp
    refine ⟨{ s with pos := p + (utf8 cs).length, tok := .typeName, val := .str (utf8 cs) },
      ⟨0, fun n hk v ns dd => ?_⟩, ⟨rfl, rfl⟩, rfl, rfl, .inl hb⟩
    rw [lexName (s := { s with val := v, names := ns, defs := dd }) (.inl ⟨rfl, rfl⟩) hi h hpos]
    simp [classify]
  | name v =>
    obtain ⟨rfl, hi, hr, -⟩ := hsp
    refine ⟨{ s with pos := p + (utf8 cs).length, tok := .identifier, val := .str (utf8 cs) },
      ⟨0, fun n hk v ns dd => ?_⟩, ⟨rfl, rfl⟩, rfl, rfl, .inl hb⟩
    rw [lexName (s := { s with val := v, names := ns, defs := dd }) (.inr ⟨rfl, rfl⟩) hi h hpos, classify_name hr]
  | style k =>
    obtain ⟨-, hw, hi⟩ := hsp
    refine ⟨{ s with pos := p + (utf8 cs).length, tok := .identifier, val := .str (styleName k) },
      ⟨0, fun n hk v ns dd => ?_⟩, ⟨rfl, rfl⟩, rfl, rfl, .inl hb⟩
    rw [lexName (s := { s with val := v, names := ns, defs := dd }) (.inr ⟨rfl, rfl⟩) hi h hpos, hw, classify_style]
  | bool v =>
    obtain ⟨hw, hi⟩ := hsp
    refine ⟨{ s with pos := p + (utf8 cs).length, tok := .boolean, val := .bool v },
      ⟨0, fun n hk v' ns dd => ?_⟩, ⟨rfl, rfl⟩, rfl, rfl, .inl hb⟩
    rw [lexName (s := { s with val := v', names := ns, defs := dd }) (.inr ⟨rfl, rfl⟩) hi h hpos]
    have : classify env .identifier false (utf8 cs) = (.boolean, .bool v) := by rw [hw]; cases v <;> rfl
    rw [this]
  | dflt =>
    obtain ⟨hw, hi⟩ := hsp
    refine ⟨{ s with pos := p + (utf8 cs).length, tok := .kDefault, val := .dflt },
      ⟨0, fun n hk v' ns dd => ?_⟩, ⟨rfl, rfl⟩, rfl, rfl, .inl hb⟩
    rw [lexName (s := { s with val := v', names := ns, defs := dd }) (.inr ⟨rfl, rfl⟩) hi h hpos]
    have : classify env .identifier false (utf8 cs) = (.kDefault, .dflt) := by rw [hw]; rfl
    rw [this]
  | word k =>
    obtain ⟨hw, hk, hi⟩ := hsp
    obtain ⟨h1, h2, h3⟩ := classify_word (env := env) (k := k) (by intro h; rw [h] at hw; rw [hw] at hlc; simp at hlc) hk
    refine ⟨{ s with pos := p + (utf8 cs).length, tok := k, val := .str (spell k) },
      ⟨0, fun n hk v' ns dd => ?_⟩, ⟨rfl, rfl, h2, h3⟩, rfl, rfl, .inl hb⟩
    rw [lexName (s := { s with val := v', names := ns, defs := dd }) (.inr ⟨rfl, rfl⟩) hi h hpos, hw, h1]
  | sign k =>
    obtain ⟨hk, rfl, hd⟩ := hsp
    have ha : headC rest ∉ absorbs env.epp k := by
      simp only [isDecimalDigit, Bool.and_eq_true, decide_eq_true_eq] at hd
      rcases hk with rfl | rfl <;> (simp only [absorbs, List.mem_append, List.mem_cons, List.not_mem_nil, or_false]; first | omega | (split <;> simp only [List.mem_cons, List.not_mem_nil, or_false] <;> omega))
    refine ⟨{ s with pos := p + (symText k).length, tok := k, val := .nil }, ⟨0, fun n _ v ns dd => ?_⟩, ?_, rfl, ?_, .inl hb⟩
    · exact lexSym (s := { s with val := v, names := ns, defs := dd }) (by rcases hk with rfl | rfl <;> rfl) (by rcases hk with rfl | rfl <;> simp [symText]) h hpos ha
    · rcases hk with rfl | rfl <;> exact ⟨rfl, rfl⟩
    · rcases hk with rfl | rfl <;> rfl
  | sym k =>
    obtain ⟨tok, b', h1, h2, h3⟩ := lexSpelledSym hsp hfit h hst htok hn hb hpos hscan
    refine ⟨{ s with pos := p + (utf8 cs).length, tok := tok, val := .nil, bol := b' }, ⟨0, fun n _ v ns dd => h2 n v ns dd⟩, ?_, rfl, rfl, ?_⟩
    · rcases h1 with rfl | ⟨rfl, rfl⟩
      · cases tok <;> first | exact ⟨rfl, rfl⟩ | exact ⟨.inl rfl, rfl⟩
      · exact ⟨.inr rfl, rfl⟩
    · exact h3

end
end PP
