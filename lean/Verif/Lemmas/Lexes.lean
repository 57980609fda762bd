import Verif.Lemmas.Malformed

/-! # Texts from which a token can be read: everything that is not malformed -/
namespace PP
open PP.Spec
set_option linter.unusedSimpArgs false

section
variable {env : Env} {s : St} {rs ws ds rest src : List Nat} {n p' b' f csp p scan : Nat}

/-! ## Splitting a text -/

theorem span_split (q : Nat → Bool) (h0 : q 0 = false) (l : List Nat) :
    ∃ ws rest, l = ws ++ rest ∧ (∀ w ∈ ws, q w = true) ∧ q (headC rest) = false := by
  induction l with
  | nil => exact ⟨[], [], rfl, by simp, h0⟩
  | cons c l ih =>
    cases hc : q c with
    | false => exact ⟨[], c :: l, rfl, by simp, hc⟩
    | true =>
      obtain ⟨ws, rest, rfl, h1, h2⟩ := ih
      exact ⟨c :: ws, rest, rfl, by simpa [hc] using h1, h2⟩

theorem number_split (l : List Nat) : ∃ cs rest, l = cs ++ rest ∧ Number cs rest := by
  have main : ∀ l, ∃ ds rest, l = ds ++ rest ∧ (∀ c ∈ ds, isDecimalDigit c = true) ∧ isDecimalDigit (headC rest) = false :=
    span_split _ rfl
  by_cases h : headC l = 45 ∨ headC l = 43
  · cases l with
    | nil => simp at h
    | cons c l =>
      obtain ⟨ds, rest, rfl, h1, h2⟩ := main l
      refine ⟨c :: ds, rest, rfl, ⟨[c], ds, rfl, ?_, h1⟩, h2, by simp⟩
      simp only [headC_cons] at h
      rcases h with rfl | rfl <;> simp
  · obtain ⟨ds, rest, rfl, h1, h2⟩ := main l
    refine ⟨ds, rest, rfl, ⟨[], ds, rfl, .inl rfl, h1⟩, h2, ?_⟩
    rintro rfl
    simpa using h

theorem sq_split : ∀ (l : List Nat), ∃ src out rest, Sq src out ∧
    (l = src ++ 39 :: rest ∨ headC rest = 0 ∧ (l = src ++ rest ∨ l = src ++ 92 :: rest))
  | [] => ⟨[], [], [], .nil, .inr ⟨rfl, .inl rfl⟩⟩
  | c :: l => by
    by_cases h39 : c = 39
    · subst h39; exact ⟨[], [], l, .nil, .inl rfl⟩
    by_cases h0 : c = 0
    · subst h0; exact ⟨[], [], 0 :: l, .nil, .inr ⟨rfl, .inl rfl⟩⟩
    by_cases h92 : c = 92
    · subst h92
      match l with
      | [] => exact ⟨[], [], [], .nil, .inr ⟨rfl, .inr rfl⟩⟩
      | d :: l =>
        obtain ⟨src, out, rest, hq, h⟩ := sq_split l
        by_cases d0 : d = 0
        · subst d0; exact ⟨[], [], 0 :: l, .nil, .inr ⟨rfl, .inr rfl⟩⟩
        have : ∃ out, Sq (92 :: d :: src) out := by
          by_cases d39 : d = 39
          · subst d39; exact ⟨_, .quote hq⟩
          by_cases d92 : d = 92
          · subst d92; exact ⟨_, .backslash hq⟩
          exact ⟨_, .other d39 d92 d0 hq⟩
        obtain ⟨out', hq'⟩ := this
        refine ⟨_, out', rest, hq', ?_⟩
        rcases h with rfl | ⟨h0, rfl | rfl⟩
        · exact .inl rfl
        · exact .inr ⟨h0, .inl rfl⟩
        · exact .inr ⟨h0, .inr rfl⟩
    · obtain ⟨src, out, rest, hq, h⟩ := sq_split l
      refine ⟨c :: src, c :: out, rest, .char h39 h92 h0 hq, ?_⟩
      rcases h with rfl | ⟨h0, rfl | rfl⟩
      · exact .inl rfl
      · exact .inr ⟨h0, .inl rfl⟩
      · exact .inr ⟨h0, .inr rfl⟩

theorem rx_split : ∀ (l : List Nat), ∃ src out rest, Rx src out ∧
    (l = src ++ 47 :: rest ∨ headC rest = 0 ∧ (l = src ++ rest ∨ l = src ++ 92 :: rest))
  | [] => ⟨[], [], [], .nil, .inr ⟨rfl, .inl rfl⟩⟩
  | c :: l => by
    by_cases h39 : c = 47
    · subst h39; exact ⟨[], [], l, .nil, .inl rfl⟩
    by_cases h0 : c = 0
    · subst h0; exact ⟨[], [], 0 :: l, .nil, .inr ⟨rfl, .inl rfl⟩⟩
    by_cases h92 : c = 92
    · subst h92
      match l with
      | [] => exact ⟨[], [], [], .nil, .inr ⟨rfl, .inr rfl⟩⟩
      | d :: l =>
        obtain ⟨src, out, rest, hq, h⟩ := rx_split l
        by_cases d0 : d = 0
        · subst d0; exact ⟨[], [], 0 :: l, .nil, .inr ⟨rfl, .inr rfl⟩⟩
        have : ∃ out, Rx (92 :: d :: src) out := by
          by_cases d39 : d = 47
          · subst d39; exact ⟨_, .slash hq⟩
          exact ⟨_, .other d39 d0 hq⟩
        obtain ⟨out', hq'⟩ := this
        refine ⟨_, out', rest, hq', ?_⟩
        rcases h with rfl | ⟨h0, rfl | rfl⟩
        · exact .inl rfl
        · exact .inr ⟨h0, .inl rfl⟩
        · exact .inr ⟨h0, .inr rfl⟩
    · obtain ⟨src, out, rest, hq, h⟩ := rx_split l
      refine ⟨c :: src, c :: out, rest, .char h39 h92 h0 hq, ?_⟩
      rcases h with rfl | ⟨h0, rfl | rfl⟩
      · exact .inl rfl
      · exact .inr ⟨h0, .inl rfl⟩
      · exact .inr ⟨h0, .inr rfl⟩

theorem unicode_split (l : List Nat) : BadUnicode l ∨ (∃ a b c d r, l = a :: b :: c :: d :: r ∧ ∀ x ∈ [a, b, c, d], isHexDigit x = true) ∨
    ∃ hs r, l = 123 :: (hs ++ 125 :: r) ∧ (∀ x ∈ hs, isHexDigit x = true) ∧ 2 ≤ hs.length ∧ hs.length ≤ 6 := by
  by_cases hx : isHexDigit (headC l) = true
  · cases l with
    | nil => exact absurd hx (by decide)
    | cons a l =>
      simp only [headC_cons] at hx
      match l with
      | [] => exact .inl (.short (hs := []) (rest := []) hx (by simp) (by simp) rfl)
      | b :: l =>
        by_cases hb : isHexDigit b = true
        · match l with
          | [] => exact .inl (.short (hs := [b]) (rest := []) hx (by simp [hb]) (by simp) rfl)
          | c :: l =>
            by_cases hc : isHexDigit c = true
            · match l with
              | [] => exact .inl (.short (hs := [b, c]) (rest := []) hx (by simp [hb, hc]) (by simp) rfl)
              | d :: l =>
                by_cases hd : isHexDigit d = true
                · exact .inr (.inl ⟨a, b, c, d, l, rfl, by simp [hx, hb, hc, hd]⟩)
                · exact .inl (.short (hs := [b, c]) (rest := d :: l) hx (by simp [hb, hc]) (by simp) (by simpa using hd))
            · exact .inl (.short (hs := [b]) (rest := c :: l) hx (by simp [hb]) (by simp) (by simpa using hc))
        · exact .inl (.short (hs := []) (rest := b :: l) hx (by simp) (by simp) (by simpa using hb))
  · rw [Bool.not_eq_true] at hx
    by_cases h123 : headC l = 123
    · cases l with
      | nil => simp at h123
      | cons c l =>
        simp only [headC_cons] at h123
        subst h123
        obtain ⟨hs, rest, rfl, h1, h2⟩ := span_split isHexDigit rfl l
        by_cases hok : 2 ≤ hs.length ∧ hs.length ≤ 6 ∧ headC rest = 125
        · cases rest with
          | nil => simp at hok
          | cons d rest =>
            simp only [headC_cons] at hok
            obtain ⟨k1, k2, rfl⟩ := hok
            exact .inr (.inr ⟨hs, rest, rfl, h1, k1, k2⟩)
        · exact .inl (.braces h1 h2 hok)
    · exact .inl (.start hx h123)

/-- How a double quoted string goes on after some text. -/
def DqStop (hexEsc : Bool) (l : List Nat) : Prop :=
  (∃ r, l = 34 :: r) ∨ headC l = 0 ∨ (∃ r, l = 92 :: r ∧ headC r = 0) ∨ (hexEsc = true ∧ l = [92, 120]) ∨
  (∃ r, l = 92 :: 117 :: r ∧ BadUnicode r) ∨
  (∃ a r, hexEsc = true ∧ l = 92 :: 120 :: a :: r ∧ isHexDigit a = true ∧ isHexDigit (headC r) = false) ∨ ∃ r, l = 36 :: r

theorem dq_split (x : Bool) : ∀ (n : Nat) (l : List Nat), l.length < n → ∃ src out rest, l = src ++ rest ∧ Dq x src out ∧ DqStop x rest
  | 0, _, h => by omega
  | n + 1, l, hn => by
    have stop : DqStop x l → ∃ src out rest, l = src ++ rest ∧ Dq x src out ∧ DqStop x rest := fun h => ⟨[], [], l, rfl, .nil, h⟩
    have go : ∀ w t, l = w ++ t → w ≠ [] → (∀ src out, Dq x src out → ∃ out', Dq x (w ++ src) out') →
        ∃ src out rest, l = src ++ rest ∧ Dq x src out ∧ DqStop x rest := by
      rintro w t rfl hw hst
      have hl : 0 < w.length := List.length_pos_iff.2 hw
      obtain ⟨src, out, rest, rfl, hq, hs⟩ := dq_split x n t (by simp at hn; omega)
      obtain ⟨out', hq'⟩ := hst src out hq
      exact ⟨w ++ src, out', rest, by simp, hq', hs⟩
    match l with
    | [] => exact stop (.inr (.inl rfl))
    | c :: t =>
      by_cases h34 : c = 34
      · subst h34; exact stop (.inl ⟨t, rfl⟩)
      by_cases h0 : c = 0
      · subst h0; exact stop (.inr (.inl rfl))
      by_cases h36 : c = 36
      · subst h36; exact stop (.inr (.inr (.inr (.inr (.inr (.inr ⟨t, rfl⟩))))))
      by_cases h92 : c = 92
      · subst h92
        match t with
        | [] => exact stop (.inr (.inr (.inl ⟨[], rfl, rfl⟩)))
        | d :: t =>
          by_cases d0 : d = 0
          · subst d0; exact stop (.inr (.inr (.inl ⟨_, rfl, rfl⟩)))
          by_cases dt : ∃ e, (d, e) ∈ dqTable
          · obtain ⟨e, dt⟩ := dt
            exact go [92, d] t rfl (by simp) fun src out hq => ⟨_, .esc dt hq⟩
          have dt' : ∀ e, (d, e) ∉ dqTable := fun e h => dt ⟨e, h⟩
          by_cases du : d = 117
          · subst du
            rcases unicode_split t with h | ⟨a, b, c, d, r, rfl, h⟩ | ⟨hs, r, rfl, h1, h2, h3⟩
            · exact stop (.inr (.inr (.inr (.inr (.inl ⟨t, rfl, h⟩)))))
            · exact go [92, 117, a, b, c, d] r rfl (by simp) fun src out hq => ⟨_, .u4 h hq⟩
            · exact go (92 :: 117 :: 123 :: (hs ++ [125])) r (by simp) (by simp) fun src out hq => ⟨_, by simpa using Dq.braces h1 h2 h3 hq⟩
          by_cases dx : d = 120 ∧ x = true
          · obtain ⟨rfl, hx⟩ := dx
            match t with
            | [] => exact stop (.inr (.inr (.inr (.inl ⟨hx, rfl⟩))))
            | a :: t =>
              by_cases ha : isHexDigit a = true
              · by_cases hb : isHexDigit (headC t) = true
                · cases t with
                  | nil => exact absurd hb (by decide)
                  | cons b t =>
                    simp only [headC_cons] at hb
                    exact go [92, 120, a, b] t rfl (by simp) fun src out hq => ⟨_, .hex hx ha hb hq⟩
                · exact stop (.inr (.inr (.inr (.inr (.inr (.inl ⟨a, t, hx, rfl, ha, by simpa using hb⟩))))))
              · exact go [92, 120, a] t rfl (by simp) fun src out hq => ⟨_, .badHex hx (by simpa using ha) hq⟩
          · refine go [92, d] t rfl (by simp) fun src out hq => ⟨_, .other dt' du ?_ d0 hq⟩
            intro e
            cases hx : x with
            | false => rfl
            | true => exact absurd ⟨e, hx⟩ dx
      · exact go [c] t rfl (by simp) fun src out hq => ⟨_, .char h34 h92 h36 h0 hq⟩

/-! ## Numbers -/

theorem from_ok {start : Nat} (h1 : start ≤ s.pos) (h2 : s.pos ≤ env.text.length) : ∃ t, from_ start env s = .ok t s := by
  unfold from_
  rw [if_pos ⟨h1, h2⟩]
  exact ⟨_, rfl⟩

theorem float_end {start : Nat} (h1 : start ≤ s.pos) (h2 : s.pos ≤ env.text.length) :
    ∃ u, (do let t ← from_ start; setTokenValue .float (.flt { neg := false, text := t }) : P Unit) env s = .ok () u := by
  obtain ⟨t, e⟩ := from_ok (env := env) (s := s) h1 h2
  ex
  rw [e]
  exact ⟨_, rfl⟩

theorem consumeFloat_totalE {start d : Nat} (hd : d ≠ 46) (hs : start ≤ s.pos) (h : Here env s.pos rest) :
    (∃ k, BadNumber env rest k) ∨ ∃ u, consumeFloat start d env s = .ok () u := by
  obtain ⟨cs, r, rfl, hn⟩ := number_split rest
  by_cases hdg : HasDigit cs
  · by_cases hl : uniIsLetter env (headC r) = true
    · exact .inl ⟨_, .letter hn hdg hl⟩
    · right
      unfold consumeFloat
      ex
      rw [needDigits_ok hn hdg h]
      have h1 := hn.tail h
      dsimp only
      rw [peek_here (s := { s with pos := s.pos + cs.length }) h1]
      dsimp only
      rw [if_neg (by omega)]
      rw [if_neg hl]
      exact float_end (s := { s with pos := s.pos + cs.length }) (by dsimp only; omega) h1.le
  · exact .inl ⟨_, .none hn hdg⟩

theorem consumeFloat_total {start : Nat} (hs : start ≤ s.pos) (h : Here env s.pos rest) :
    (∃ k, BadFraction env rest k) ∨ ∃ u, consumeFloat start 46 env s = .ok () u := by
  obtain ⟨cs, r, rfl, hn⟩ := number_split rest
  by_cases hdg : HasDigit cs
  · have h1 := hn.tail h
    by_cases he : headC r = 101 ∨ headC r = 69
    · cases r with
      | nil => simp at he
      | cons e r =>
        simp only [headC_cons] at he
        have he128 : e < 128 := by omega
        have h2 : Here env (s.pos + cs.length + 1) r := h1.tail1 he128
        obtain ⟨cs', r', rfl, hn'⟩ := number_split r
        by_cases hdg' : HasDigit cs'
        · by_cases hl : uniIsLetter env (headC r') = true
          · exact .inl ⟨_, .exponent hn hdg he (.letter hn' hdg' hl)⟩
          · right
            unfold consumeFloat
            ex
            rw [needDigits_ok hn hdg h]
            dsimp only
            rw [peek_here (s := { s with pos := s.pos + cs.length }) h1]
            dsimp only [headC_cons, width_cons]
            rw [if_pos ⟨trivial, he⟩, enc_len he128, needDigits_ok (s := { s with pos := s.pos + cs.length + 1 }) hn' hdg' h2]
            dsimp only
            have h3 := hn'.tail h2
            rw [peek_here (s := { s with pos := s.pos + cs.length + 1 + cs'.length }) h3]
            dsimp only
            rw [if_neg hl]
            exact float_end (s := { s with pos := s.pos + cs.length + 1 + cs'.length }) (by dsimp only; omega) h3.le
        · exact .inl ⟨_, .exponent hn hdg he (.none hn' hdg')⟩
    · by_cases hl : uniIsLetter env (headC r) = true
      · exact .inl ⟨_, .letter hn hdg hl (by omega) (by omega)⟩
      · right
        unfold consumeFloat
        ex
        rw [needDigits_ok hn hdg h]
        dsimp only
        rw [peek_here (s := { s with pos := s.pos + cs.length }) h1]
        dsimp only
        rw [if_neg (by omega)]
        rw [if_neg hl]
        exact float_end (s := { s with pos := s.pos + cs.length }) (by dsimp only; omega) h1.le
  · exact .inl ⟨_, .none hn hdg⟩

theorem lexNumber_total {prev : Tok} {d : Nat} (h1 : 49 ≤ d) (h2 : d ≤ 57) (hs : p ≤ s.pos) (h : Here env s.pos rest) :
    (∃ c o, Malformed env prev (d :: rest) c o) ∨ ∃ u, lexNumber p env s = .ok () u := by
  obtain ⟨cs, r, rfl, hn⟩ := number_split rest
  have h3 := hn.tail h
  obtain ⟨res, run_⟩ : ∃ res, lexNumber p env s = res := ⟨_, rfl⟩
  rw [run_]
  unfold lexNumber at run_
  simp only [ex_bind, ex_getEnv, skipDigits_exec hn h, peek_here (s := { s with pos := s.pos + cs.length }) h3, ex_ite, ex_advance, ex_issue] at run_
  by_cases hc : headC r = 46 ∨ headC r = 101 ∨ headC r = 69
  · cases r with
    | nil => simp at hc
    | cons c r =>
      simp only [headC_cons] at hc
      have hc128 : c < 128 := by omega
      have h4 : Here env (s.pos + cs.length + 1) r := h3.tail1 hc128
      simp only [headC_cons, width_cons, enc_len hc128, if_pos hc] at run_
      rw [← run_]
      by_cases h46 : c = 46
      · subst h46
        rcases consumeFloat_total (start := p) (s := { s with pos := s.pos + cs.length + 1 }) (by dsimp only; omega) h4 with ⟨k, hb⟩ | hok
        · exact .inl ⟨_, _, .fraction h1 h2 hn hb⟩
        · exact .inr hok
      · rcases consumeFloat_totalE (start := p) (d := c) (s := { s with pos := s.pos + cs.length + 1 }) h46 (by dsimp only; omega) h4 with ⟨k, hb⟩ | hok
        · exact .inl ⟨_, _, .exponent h1 h2 hn (by omega) hb⟩
        · exact .inr hok
  · by_cases hl : uniIsLetter env (headC r) = true
    · exact .inl ⟨_, _, .decimal h1 h2 hn hl (by omega) (by omega)⟩
    · right
      rw [← run_, if_neg hc, if_neg hl]
      obtain ⟨t, e⟩ := from_ok (env := env) (start := p) (s := { s with pos := s.pos + cs.length }) (by dsimp only; omega) h3.le
      rw [e]
      exact ⟨_, rfl⟩

theorem lexZero_total {prev : Tok} (hs : p ≤ s.pos) (h : Here env s.pos rest) :
    (∃ c o, Malformed env prev (48 :: rest) c o) ∨ ∃ u, lexZero p env s = .ok () u := by
  obtain ⟨res, run_⟩ : ∃ res, lexZero p env s = res := ⟨_, rfl⟩
  rw [run_]
  unfold lexZero at run_
  simp only [ex_bind, ex_getEnv, ex_modS, peek_here (s := { s with radix := 10 }) h, ex_ite, ex_advance, ex_issue, ex_getPos] at run_
  by_cases h0 : headC rest = 0
  · right
    rw [← run_, if_pos h0]
    exact ⟨_, rfl⟩
  rw [if_neg h0] at run_
  by_cases hx : headC rest = 120 ∨ headC rest = 88
  · rw [if_pos hx] at run_
    cases rest with
    | nil => simp at h0
    | cons c r =>
      simp only [headC_cons] at hx run_
      have hc128 : c < 128 := by omega
      have h4 : Here env (s.pos + 1) r := h.tail1 hc128
      obtain ⟨ds, r, rfl, hd, hr⟩ := span_split isHexDigit rfl r
      have hu : (utf8 ds).length = ds.length := utf8_ascii_length fun w hw => hex_ascii (hd w hw)
      rw [width_cons, enc_len hc128, advWhile_here (s := { s with radix := 10, pos := s.pos + 1 }) h4.fuel h4 hd hr] at run_
      simp only [hu] at run_
      by_cases hb : ds = [] ∨ isLetter (headC r) = true
      · exact .inl ⟨_, _, .hexadecimal hx hd hr hb⟩
      · right
        have hne : ¬ (s.pos + 1 + ds.length = s.pos + 1 ∨ isLetter (headC r) = true) := by
          rintro (e | e)
          · exact hb (.inl (List.eq_nil_of_length_eq_zero (by omega)))
          · exact hb (.inr e)
        rw [← run_, if_neg hne]
        have h5 := h4.append
        rw [hu] at h5
        obtain ⟨t, e⟩ := from_ok (env := env) (start := s.pos + 1) (s := { s with radix := 10, pos := s.pos + 1 + ds.length }) (by dsimp only; omega) h5.le
        rw [e]
        exact ⟨_, rfl⟩
  rw [if_neg hx] at run_
  by_cases hc : headC rest = 46 ∨ headC rest = 101 ∨ headC rest = 69
  · rw [if_pos hc] at run_
    cases rest with
    | nil => simp at h0
    | cons c r =>
      simp only [headC_cons] at hc run_
      have hc128 : c < 128 := by omega
      have h4 : Here env (s.pos + 1) r := h.tail1 hc128
      rw [width_cons, enc_len hc128] at run_
      rw [← run_]
      by_cases h46 : c = 46
      · subst h46
        rcases consumeFloat_total (start := p) (s := { s with radix := 10, pos := s.pos + 1 }) (by dsimp only; omega) h4 with ⟨k, hb⟩ | hok
        · exact .inl ⟨_, _, .zeroFraction hb⟩
        · exact .inr hok
      · rcases consumeFloat_totalE (start := p) (d := c) (s := { s with radix := 10, pos := s.pos + 1 }) h46 (by dsimp only; omega) h4 with ⟨k, hb⟩ | hok
        · exact .inl ⟨_, _, .zeroExponent (by omega) hb⟩
        · exact .inr hok
  rw [if_neg hc] at run_
  obtain ⟨ds, r, rfl, hd, hr⟩ := span_split isOctalDigit rfl rest
  have hu : (utf8 ds).length = ds.length := utf8_ascii_length fun w hw => by have := oct_ne (hd w hw); omega
  rw [advWhile_here (s := { s with radix := 10 }) h.fuel h hd hr] at run_
  simp only [hu] at run_
  by_cases hb : isDecimalDigit (headC r) = true ∨ uniIsLetter env (headC r) = true
  · refine .inl ⟨_, _, .octal hd hb hr ?_⟩
    rintro rfl
    simp only [List.nil_append] at hx hc
    simp only [List.mem_cons, List.not_mem_nil, or_false, not_or]
    omega
  · right
    rw [← run_, if_neg hb]
    split
    · have h5 := h.append
      rw [hu] at h5
      obtain ⟨t, e⟩ := from_ok (env := env) (start := s.pos) (s := { s with radix := 10, pos := s.pos + ds.length }) (by dsimp only; omega) h5.le
      rw [e]
      exact ⟨_, rfl⟩
    · exact ⟨_, rfl⟩

/-! ## White space -/

theorem comment_split : ∀ l : List Nat,
    (∃ body rest, l = body ++ 42 :: 47 :: rest ∧ (∀ c ∈ body, c ≠ 0) ∧ ¬ [42, 47] <:+: body) ∨
    ∃ body rest, l = body ++ rest ∧ (∀ c ∈ body, c ≠ 0) ∧ ¬ [42, 47] <:+: body ∧ headC rest = 0
  | [] => .inr ⟨[], [], rfl, by simp, by simp, rfl⟩
  | c :: l => by
    by_cases h0 : c = 0
    · subst h0; exact .inr ⟨[], 0 :: l, rfl, by simp, by simp, rfl⟩
    by_cases h4 : c = 42 ∧ ∃ r, l = 47 :: r
    · obtain ⟨rfl, r, rfl⟩ := h4
      exact .inl ⟨[], r, rfl, by simp, by simp⟩
    have key : ∀ {body rest : List Nat}, l = body ++ rest → ¬ [42, 47] <:+: body → ¬ [42, 47] <:+: c :: body := by
      rintro body rest rfl hb hi
      rcases List.infix_cons_iff.1 hi with h | h
      · obtain ⟨r, e⟩ := h
        simp only [List.cons_append, List.nil_append] at e
        injection e with e1 e2
        exact h4 ⟨e1.symm, r ++ rest, by rw [← e2]; rfl⟩
      · exact hb h
    rcases comment_split l with ⟨body, rest, rfl, h1, h2⟩ | ⟨body, rest, rfl, h1, h2, h3⟩
    · exact .inl ⟨c :: body, rest, rfl, by simpa [h0] using h1, key rfl h2⟩
    · exact .inr ⟨c :: body, rest, rfl, by simpa [h0] using h1, key rfl h2, h3⟩

/-- Every text is white space and comments, followed by something else, by a comment that is not closed, or by a comment that the
end of the source closes. -/
theorem white_split : ∀ (n : Nat) (l : List Nat), l.length < n →
    ∃ ws tail nl, l = ws ++ tail ∧ White ws nl ∧ (NoSkip tail ∨ OpenComment tail ∨ LastComment tail)
  | 0, _, h => by omega
  | n + 1, l, hn => by
    by_cases hno : NoSkip l
    · exact ⟨[], l, _, rfl, .nil, .inl hno⟩
    cases l with
    | nil => exact absurd ⟨rfl, by simp, by simp⟩ hno
    | cons c l =>
      simp only [List.length_cons] at hn
      by_cases hb : c = 32 ∨ c = 9 ∨ c = 13
      · obtain ⟨ws, tail, nl, rfl, hw, ht⟩ := white_split n l (by omega)
        exact ⟨c :: ws, tail, nl, rfl, .blank hb hw, ht⟩
      by_cases hl : c = 10
      · subst hl
        obtain ⟨ws, tail, nl, rfl, hw, ht⟩ := white_split n l (by omega)
        exact ⟨10 :: ws, tail, _, rfl, .newline hw, ht⟩
      by_cases hh : c = 35
      · subst hh
        obtain ⟨body, rest, rfl, h1, h2⟩ := span_split (fun c => c != 10 && c != 0) rfl l
        have h1' : ∀ c ∈ body, c ≠ 10 ∧ c ≠ 0 := by simpa using h1
        by_cases h0 : headC rest = 0
        · exact ⟨[], _, _, rfl, .nil, .inr (.inr ⟨body, rest, rfl, h1', h0⟩)⟩
        · cases rest with
          | nil => simp at h0
          | cons d rest =>
            have : d = 10 := by
              simp only [headC_cons, Bool.and_eq_false_iff, bne_eq_false_iff_eq] at h2 h0
              omega
            subst this
            obtain ⟨ws, tail, nl, rfl, hw, ht⟩ := white_split n rest (by simp at hn; omega)
            exact ⟨35 :: (body ++ 10 :: ws), tail, _, by simp, .line h1' hw, ht⟩
      by_cases hs : c = 47 ∧ ∃ r, l = 42 :: r
      · obtain ⟨rfl, r, rfl⟩ := hs
        rcases comment_split r with ⟨body, rest, rfl, h1, h2⟩ | ⟨body, rest, rfl, h1, h2, h3⟩
        · obtain ⟨ws, tail, nl, rfl, hw, ht⟩ := white_split n rest (by simp at hn; omega)
          exact ⟨47 :: 42 :: (body ++ 42 :: 47 :: ws), tail, nl, by simp, .block h1 h2 hw, ht⟩
        · exact ⟨[], _, _, rfl, .nil, .inr (.inl ⟨body, rest, rfl, h1, h2, h3⟩)⟩
      · refine absurd ⟨?_, hh, ?_⟩ hno
        · simp only [headC_cons, isBlank, Bool.or_eq_false_iff, beq_eq_false_iff_ne]
          omega
        · rintro r e
          injection e with e1 e2
          exact hs ⟨e1, r, e2⟩

theorem loop_lastComment {body : List Nat} (hb : ∀ c ∈ body, c ≠ 10 ∧ c ≠ 0) (hf : body.length < f)
    (h : Here env s.pos (body ++ rs)) (h0 : headC rs = 0) :
    ∃ q u, skipWhiteLoop false f .hash csp env s = .ok (0, q) u := by
  induction body generalizing f s with
  | nil =>
    obtain ⟨f, rfl⟩ : ∃ g, f = g + 1 := ⟨f - 1, by simp at hf; omega⟩
    unfold skipWhiteLoop
    ex
    rw [next_here h]
    simp only [List.nil_append, h0, if_true, reduceCtorEq, if_false]
    exact ⟨_, _, rfl⟩
  | cons c body ih =>
    obtain ⟨f, rfl⟩ : ∃ g, f = g + 1 := ⟨f - 1, by simp at hf; omega⟩
    have hc := hb c (List.mem_cons_self ..)
    have ih := ih (f := f) (s := { s with pos := s.pos + (encodeRune c).length })
      (fun x hx => hb x (List.mem_cons_of_mem _ hx)) (by simpa using hf) h.tail
    unfold skipWhiteLoop
    ex
    rw [next_here h]
    simp only [List.cons_append, headC_cons, width, hc.1, hc.2, if_false, if_true, reduceCtorEq]
    repeat' split
    all_goals first | exact ih | contradiction

theorem skipWhite_lastComment (hs : Skips s.pos s.bol ws p' b') (hn : s.nls = none) (h : Here env s.pos (ws ++ rs)) (ho : LastComment rs) :
    ∃ q u, skipWhite false env s = .ok (0, q) u := by
  obtain ⟨body, rest, rfl, hb, h0⟩ := ho
  unfold skipWhite
  ex
  have hf0 : (ws ++ (35 :: body)).length < charFuel env := by
    refine Here.fuel (p := s.pos) (rs := rest) ?_
    simpa using h
  obtain ⟨f', csp', h1, -, h2⟩ := loop_skips (csp := 0) hs rfl rfl hn h (Nat.le_of_lt h.fuel)
  rw [h2]
  simp only [List.length_append, List.length_cons] at hf0
  obtain ⟨g, rfl⟩ : ∃ g, f' = g + 1 := ⟨f' - 1, by omega⟩
  have h3 := h.append
  rw [← hs.pos] at h3
  have h4 : Here env (p' + 1) (body ++ rest) := h3.tail1 (by omega)
  unfold skipWhiteLoop
  ex
  rw [next_here (s := { s with pos := p', bol := b' }) h3]
  simp only [headC_cons, width, enc_len (show 35 < 128 by omega)]
  simp only [(by decide : ¬ (35:Nat) = 0), (by decide : ¬ (35:Nat) = 10), if_false, if_true]
  exact loop_lastComment (s := { s with pos := p' + 1, bol := b' }) hb (by omega) h4 h0

/-! ## Names -/

theorem name_split (tok : Tok) : ∀ (n : Nat) (u : Bool) (l : List Nat), l.length < n →
    BadName tok u l ∨ ∃ src rest d, l = src ++ rest ∧ Tail tok u src d ∧ EndsName tok rest
  | 0, _, _, h => by omega
  | n + 1, u, l, hn => by
    obtain ⟨ws, r, rfl, hw, hr⟩ := span_split isLetterOrDigit rfl l
    simp only [List.length_append] at hn
    by_cases hc : ∃ r', r = 58 :: 58 :: r'
    · obtain ⟨r, rfl⟩ := hc
      by_cases hb : startsSegment tok (headC r) = false ∨ u = true
      · exact .inl (.here hw hb)
      · simp only [not_or, Bool.not_eq_false, Bool.not_eq_true] at hb
        obtain ⟨hs, rfl⟩ := hb
        cases r with
        | nil => exact absurd hs (by cases tok <;> decide)
        | cons c t =>
          rw [headC_cons] at hs
          rcases name_split tok n (c == 95) t (by simp at hn; omega) with h | ⟨src, rest, d, rfl, ht, he⟩
          · exact .inl (.next hw hs h)
          · exact .inr ⟨ws ++ 58 :: 58 :: c :: src, rest, d, by simp, .seg hw hs ht, he⟩
    by_cases hd : tok = .identifier ∧ ∃ k r', r = List.replicate (k + 1) 45 ++ r' ∧ isLetterOrDigit (headC r') = true
    · obtain ⟨hi, k, r, rfl, hl⟩ := hd
      cases r with
      | nil => exact absurd hl (by decide)
      | cons c t =>
        rw [headC_cons] at hl
        rcases name_split tok n u t (by simp at hn; omega) with h | ⟨src, rest, d, rfl, ht, he⟩
        · exact .inl (.dash hi hw hl h)
        · exact .inr ⟨ws ++ (List.replicate (k + 1) 45 ++ c :: src), rest, true, by simp, .dash hi hw hl ht, he⟩
    · refine .inr ⟨ws, r, false, rfl, .done hw, hr, fun r' e => hc ⟨r', e⟩, fun hi k r' e => ?_⟩
      cases hq : isLetterOrDigit (headC r') with
      | false => rfl
      | true => exact absurd ⟨hi, k, r', e, hq⟩ hd

theorem name_total {tok : Tok} {t : List Nat} (hp : p + 1 ≤ s.pos) (h : Here env s.pos t) :
    BadName tok false t ∨ ∃ u, consumeQualifiedName p tok env s = .ok () u := by
  rcases name_split tok _ false t (Nat.lt_succ_self _) with hb | ⟨src, rest, d, rfl, ht, he⟩
  · exact .inl hb
  · right
    have hl : (utf8 src).length = src.length := utf8_ascii_length ht.ascii
    have h2 := h.append
    rw [hl] at h2
    unfold consumeQualifiedName
    ex
    rw [nameLoop_exec ht h.fuel h he]
    dsimp only
    have hst : (if tok = .variable then p + 1 else p) ≤ s.pos := by split <;> omega
    obtain ⟨t, e⟩ := from_ok (env := env) (s := { s with pos := s.pos + src.length }) (start := if tok = .variable then p + 1 else p)
      (by dsimp only; omega) h2.le
    rw [e]
    exact ⟨_, rfl⟩

/-! ## Punctuation -/

theorem rest_divide {dstart start : Nat} {segs : List Expr} {buf : GoStr} (h : Here env s.pos rs) (h0 : headC rs = 0) :
    ∃ u, rest_ (n + 1) 47 dstart false .regexp start segs buf env s = .ok segs u ∧ u.tok = .divide := by
  unfold rest_
  ex
  rw [next_here h]
  dsimp only
  show ∃ u, delimBody (run n) 47 dstart false .regexp buf (headC rs) start segs env { s with pos := s.pos + width rs } = .ok segs u ∧ u.tok = .divide
  rw [h0]
  unfold delimBody
  simp only [if_true, ne_eq, not_true_eq_false, if_false]
  ex
  exact ⟨_, rfl, rfl⟩

theorem lexSlash_total {prev : Tok} (hpr : prev = s.tok) (hno : ∀ r, (47 :: rest) ≠ 47 :: 42 :: r) (hf : rest.length < n)
    (h : Here env s.pos rest) :
    (∃ c o, Malformed env prev (47 :: rest) c o) ∨ ∃ u, lexSlash (run n) env s = .ok () u := by
  subst hpr
  cases hp : isRegexpAcceptable s.tok with
  | false =>
    right
    unfold lexSlash
    ex
    rw [hp]
    exact ⟨_, rfl⟩
  | true =>
    obtain ⟨src, out, r, hq, rfl | ⟨h0, rfl | rfl⟩⟩ := rx_split rest
    · right
      have := lexRegexp (n := n) (scan := 0) (p := 0) hq (by simp at hf; omega) hp h
      rw [lexChar_slash] at this
      exact ⟨_, this⟩
    · right
      unfold lexSlash consumeRegexp consumeDelimitedString
      ex
      rw [hp]
      simp only [if_true]
      obtain ⟨k, hk, hst⟩ := rx_steps (dstart := s.pos - 1) (start := s.pos) (segs := []) (buf := []) hq h
      simp only [List.length_append] at hf
      obtain ⟨m, rfl⟩ : ∃ m, n = m + 1 + k := ⟨n - 1 - k, by omega⟩
      have key := hst (m + 1)
      obtain ⟨u, e, eu⟩ := rest_divide (n := m) (dstart := s.pos - 1) (start := s.pos) (segs := []) (buf := [] ++ utf8 out)
        (s := { s with pos := s.pos + (utf8 src).length }) h.append h0
      rw [e] at key
      unfold rest_ at key
      rw [ex_bind] at key
      rw [next_here h] at key ⊢
      dsimp only at key ⊢
      rw [key]
      simp only [eu, reduceCtorEq, if_false]
      exact ⟨_, rfl⟩
    · left
      refine ⟨_, _, .regexp (by rw [← acceptable_eq]; exact hp) hq h0 ?_⟩
      cases src with
      | nil => decide
      | cons a src =>
        simp only [List.cons_append, headC_cons]
        rintro rfl
        exact hno _ rfl

theorem lexBacktick_total {prev : Tok} (hb : env.backtick = true) (h : Here env s.pos rest) :
    (∃ c o, Malformed env prev (96 :: rest) c o) ∨ ∃ u, consumeBacktickedString env s = .ok () u := by
  obtain ⟨src, r, rfl, h1, h2⟩ := span_split (fun c => c != 0 && c != 96) rfl rest
  have h1' : ∀ c ∈ src, c ≠ 96 ∧ c ≠ 0 := fun c hc => by have := h1 c hc; simp at this; exact this.symm
  by_cases h0 : headC r = 0
  · exact .inl ⟨_, _, .backtick hb h1' h0⟩
  · right
    cases r with
    | nil => simp at h0
    | cons d r =>
      have : d = 96 := by
        simp only [headC_cons, Bool.and_eq_false_iff, bne_eq_false_iff_eq] at h2 h0
        omega
      subst this
      have := lexBacktick (n := 0) (scan := 0) (p := 0) hb h1' h
      rw [lexChar_backtick hb] at this
      exact ⟨_, this⟩

theorem lexSq_total {prev : Tok} (hf : rest.length < n) (h : Here env s.pos rest) :
    (∃ c o, Malformed env prev (39 :: rest) c o) ∨ ∃ u, consumeSingleQuotedString (run n) env s = .ok () u := by
  obtain ⟨src, out, r, hq, rfl | ⟨h0, rfl | rfl⟩⟩ := sq_split rest
  · right
    have := lexSq_exec (n := n) (scan := 0) (start := 0) hq (by simp at hf; omega) h
    rw [lexChar_sq] at this
    exact ⟨_, this⟩
  · exact .inl ⟨_, _, .single hq h0⟩
  · exact .inl ⟨_, _, .singleEscape hq h0⟩

theorem lexDq_total {prev : Tok} (hfac : env.hasFactory = true) (hp : Plain env (34 :: rest)) (hf : rest.length < n) (h : Here env s.pos rest) :
    (∃ c o, Malformed env prev (34 :: rest) c o) ∨ ∃ u, consumeDoubleQuotedString (run n) env s = .ok () u := by
  obtain ⟨src, out, r, rfl, hq, hs⟩ := dq_split env.hexEsc _ rest (Nat.lt_succ_self _)
  rcases hs with ⟨r, rfl⟩ | h0 | ⟨r, rfl, h0⟩ | ⟨hx, rfl⟩ | ⟨r, rfl, hb⟩ | ⟨a, r, hx, rfl, ha, hr⟩ | ⟨r, rfl⟩
  · right
    have := lexDq_exec (n := n) (scan := 0) (start := 0) hq hfac (by simp at hf; omega) h
    rw [lexChar_dq] at this
    exact ⟨_, this⟩
  · exact .inl ⟨_, _, .double hq h0⟩
  · exact .inl ⟨_, _, .doubleEscape hq h0⟩
  · exact .inl ⟨_, _, .doubleHex hx hq⟩
  · exact .inl ⟨_, _, .unicode hq hb⟩
  · exact .inl ⟨_, _, .hexEscape hx hq ha hr⟩
  · obtain ⟨h1, h2, h3, h4⟩ := hp.2 src out r hq rfl
    exact .inl ⟨_, _, .interpolation hq h1 h2 h3 h4⟩

theorem lexDollar_total {prev : Tok} (hp : s.pos = p + 1) (h : Here env s.pos rest) :
    (∃ c o, Malformed env prev (36 :: rest) c o) ∨ ∃ u, lexDollar p env s = .ok () u := by
  have key : ∀ g r, (g = [] ∨ g = [58, 58]) → (g = [] → headC r ≠ 58) → rest = g ++ r →
      (∃ c o, Malformed env prev (36 :: (g ++ r)) c o) ∨ ∃ u, lexDollar p env s = .ok () u := by
    rintro g r hg h58 rfl
    have hgl : (utf8 g).length = g.length := by rcases hg with rfl | rfl <;> rfl
    have hr := h.append
    rw [hgl] at hr
    rw [lexDollar_prefix hg h58 h]
    by_cases hl : isLowercaseLetter (headC r) = true
    · rw [if_pos hl]
      cases r with
      | nil => exact absurd hl (by decide)
      | cons c t =>
        rw [headC_cons] at hl
        have hc : c < 128 := by simp [isLowercaseLetter] at hl; omega
        rw [width_cons, enc_len hc]
        rcases name_total (tok := .variable) (p := p) (s := { s with pos := s.pos + g.length + 1 }) (by dsimp only; omega) (hr.tail1 hc) with hb | hok
        · exact .inl ⟨_, _, .variable hg hl hb⟩
        · exact .inr hok
    rw [if_neg hl]
    by_cases hd : isDecimalDigit (headC r) = true
    · right
      rw [if_pos hd]
      cases r with
      | nil => exact absurd hd (by decide)
      | cons c t =>
        rw [headC_cons] at hd
        have hc : c < 128 := by simp [isDecimalDigit] at hd; omega
        rw [width_cons, enc_len hc]
        obtain ⟨cs, t, rfl, hnum⟩ := number_split t
        have h3 : Here env (s.pos + g.length + 1) (cs ++ t) := hr.tail1 hc
        have h4 := hnum.tail h3
        ex
        rw [skipDigits_exec (s := { s with pos := s.pos + g.length + 1 }) hnum h3]
        dsimp only
        obtain ⟨w, e⟩ := from_ok (env := env) (start := p + 1) (s := { s with pos := s.pos + g.length + 1 + cs.length }) (by dsimp only; omega) h4.le
        rw [e]
        exact ⟨_, rfl⟩
    rw [if_neg hd]
    by_cases hu : uniIsLetter env (headC r) = true
    · exact .inl ⟨_, _, .variableLetter hg hu (by simpa using hl)⟩
    · right
      rw [if_neg hu]
      exact ⟨_, rfl⟩
  by_cases h58 : headC rest = 58
  · cases rest with
    | nil => simp at h58
    | cons c r =>
      rw [headC_cons] at h58
      subst h58
      by_cases h2 : headC r = 58
      · cases r with
        | nil => simp at h2
        | cons c r =>
          rw [headC_cons] at h2
          subst h2
          exact key [58, 58] r (.inr rfl) (by simp) rfl
      · exact .inl ⟨_, _, .variableColon h2⟩
  · exact key [] rest (.inl rfl) (fun _ => h58) rfl

theorem lexColon_total {prev : Tok} (hp : s.pos = p + 1) (h : Here env s.pos rest) :
    (∃ c o, Malformed env prev (58 :: rest) c o) ∨ ∃ u, lexColon p env s = .ok () u := by
  by_cases h58 : headC rest = 58
  · cases rest with
    | nil => simp at h58
    | cons c r =>
      rw [headC_cons] at h58
      subst h58
      have h1 : Here env (s.pos + 1) r := h.tail1 (by omega)
      by_cases hn : isLowercaseLetter (headC r) = false ∧ isUppercaseLetter (headC r) = false
      · exact .inl ⟨_, _, .noName hn.1 hn.2⟩
      · cases r with
        | nil => exact absurd ⟨rfl, rfl⟩ hn
        | cons c t =>
          rw [headC_cons] at hn
          have hc : c < 128 := by
            simp only [isLowercaseLetter, isUppercaseLetter, Bool.and_eq_false_iff, decide_eq_false_iff_not] at hn
            omega
          have h2 : Here env (s.pos + 1 + 1) t := h1.tail1 hc
          obtain ⟨res, run_⟩ : ∃ res, lexColon p env s = res := ⟨_, rfl⟩
          rw [run_]
          unfold lexColon issueAt at run_
          simp only [ex_bind, ex_setToken, ex_ite, ex_advance] at run_
          rw [peek_here (s := { s with tok := .colon, val := .nil }) h] at run_
          simp only [headC_cons, if_true, width_cons, enc_len (show 58 < 128 by omega)] at run_
          rw [next_here (s := { s with tok := .colon, val := .nil, pos := s.pos + 1 }) h1] at run_
          simp only [headC_cons, width_cons, enc_len hc] at run_
          cases hu : isUppercaseLetter c with
          | true =>
            rw [hu] at run_
            simp only [if_true] at run_
            rcases name_total (tok := .typeName) (p := p) (s := { s with tok := .colon, val := .nil, pos := s.pos + 1 + 1 }) (by dsimp only; omega) h2 with hb | hok
            · exact .inl ⟨_, _, .globalTypeName hu hb⟩
            · rw [run_] at hok; exact .inr hok
          | false =>
            have hl : isLowercaseLetter c = true := by
              cases hl : isLowercaseLetter c with
              | true => rfl
              | false => exact absurd ⟨hl, hu⟩ hn
            rw [hu, hl] at run_
            simp only [if_true, Bool.false_eq_true, if_false] at run_
            rcases name_total (tok := .identifier) (p := p) (s := { s with tok := .colon, val := .nil, pos := s.pos + 1 + 1 }) (by dsimp only; omega) h2 with hb | hok
            · exact .inl ⟨_, _, .globalWord hl hb⟩
            · rw [run_] at hok; exact .inr hok
  · right
    unfold lexColon
    ex
    rw [peek_here (s := { s with tok := .colon, val := .nil }) h]
    dsimp only
    rw [if_neg h58]
    exact ⟨_, rfl⟩

theorem lexPipe_total {prev : Tok} (hpr : prev = s.tok) (hn : s.nls = none) (h : Here env s.pos rest) :
    (∃ c o, Malformed env prev (124 :: rest) c o) ∨ ∃ u, lexPipe env s = .ok () u := by
  subst hpr
  by_cases h62 : headC rest = 62
  · right
    cases rest with
    | nil => simp at h62
    | cons c r =>
      rw [headC_cons] at h62
      subst h62
      have h1 : Here env (s.pos + 1) r := h.tail1 (by omega)
      unfold lexPipe
      ex
      rw [peek_here h]
      simp only [headC_cons, if_true, width_cons, enc_len (show 62 < 128 by omega)]
      rw [peek_here (s := { s with pos := s.pos + 1 }) h1]
      dsimp only
      split <;> exact ⟨_, rfl⟩
  by_cases hp : s.tok = .pipe
  · right
    have := lexBarEnd (n := 0) (scan := 0) (p := 0) h h62 hp
    rw [lexChar_pipe] at this
    exact ⟨_, this⟩
  obtain ⟨ws, tail, nl, rfl, hw, ht⟩ := white_split _ rest (Nat.lt_succ_self _)
  by_cases ho : OpenComment tail
  · exact .inl ⟨_, _, .pipe hp h62 hw ho⟩
  right
  obtain ⟨b', hsk⟩ := white_skip hw s.pos s.bol
  have hskip : ∃ c q u, skipWhite false env s = .ok (c, q) u := by
    rcases ht with ht | ht | ht
    · exact ⟨_, _, _, skipWhite_exec hsk hn h ht⟩
    · exact absurd ht ho
    · obtain ⟨q, u, e⟩ := skipWhite_lastComment hsk hn h ht
      exact ⟨_, _, _, e⟩
  obtain ⟨c, q, u, e⟩ := hskip
  unfold lexPipe
  ex
  rw [peek_here h]
  dsimp only
  rw [if_neg h62, if_neg hp, e]
  exact ⟨_, rfl⟩

theorem lexAssign_ok (h : Here env s.pos rest) : ∃ u, lexAssign env s = .ok () u := by
  unfold lexAssign
  ex
  rw [peek_here h]
  dsimp only
  repeat' split
  all_goals exact ⟨_, rfl⟩

theorem lexPlus_ok (h : Here env s.pos rest) : ∃ u, lexPlus env s = .ok () u := by
  unfold lexPlus
  ex
  rw [peek_here h]
  dsimp only
  repeat' split
  all_goals exact ⟨_, rfl⟩

theorem lexNot_ok (h : Here env s.pos rest) : ∃ u, lexNot env s = .ok () u := by
  unfold lexNot
  ex
  rw [peek_here h]
  dsimp only
  repeat' split
  all_goals exact ⟨_, rfl⟩

theorem lexGreater_ok (h : Here env s.pos rest) : ∃ u, lexGreater env s = .ok () u := by
  unfold lexGreater
  ex
  rw [peek_here h]
  dsimp only
  repeat' split
  all_goals exact ⟨_, rfl⟩

theorem lexMinus_ok (hepp : env.epp = false) (h : Here env s.pos rest) : ∃ u, lexMinus (run n) env s = .ok () u := by
  unfold lexMinus
  ex
  rw [peek_here h]
  simp only [hepp, Bool.false_eq_true, and_false, if_false]
  repeat' split
  all_goals exact ⟨_, rfl⟩

theorem lexPercent_ok (hepp : env.epp = false) : ∃ u, lexPercent (run n) env s = .ok () u := by
  unfold lexPercent
  ex
  simp only [hepp, Bool.false_eq_true, if_false]
  exact ⟨_, rfl⟩

theorem lexLess_ok (hepp : env.epp = false) (h : Here env s.pos rest) : ∃ u, lexLess (run n) env s = .ok () u := by
  unfold lexLess
  ex
  rw [peek_here h]
  simp only [hepp, Bool.false_eq_true, and_false, if_false]
  split
  · exact ⟨_, rfl⟩
  split
  · next h60 =>
    cases rest with
    | nil => simp at h60
    | cons c r =>
      rw [headC_cons] at h60
      subst h60
      have h1 : Here env (s.pos + 1) r := h.tail1 (by omega)
      simp only [width_cons, enc_len (show 60 < 128 by omega)]
      rw [peek_here (s := { s with pos := s.pos + 1 }) h1]
      dsimp only
      split <;> exact ⟨_, rfl⟩
  · repeat' split
    all_goals exact ⟨_, rfl⟩

theorem lexAt_ok (hp : ∀ r, (64 :: rest) ≠ 64 :: 40 :: r) (h : Here env s.pos rest) : ∃ u, lexAt (run n) env s = .ok () u := by
  unfold lexAt
  ex
  rw [peek_here h]
  dsimp only
  have : headC rest ≠ 40 := by
    cases rest with
    | nil => decide
    | cons c r => rintro e; rw [headC_cons] at e; subst e; exact hp r rfl
  rw [if_neg this]
  split <;> exact ⟨_, rfl⟩

/-! ## All texts -/

theorem lexChar_total {c : Nat} (hepp : env.epp = false) (hfac : env.hasFactory = true) (hn : s.nls = none)
    (hno : NoSkip (c :: rest)) (hpl : Plain env (c :: rest)) (hp : s.pos = p + (encodeRune c).length) (h : Here env s.pos rest) (hf : rest.length < n)
    (hlp : c = 40 → ∃ pre line q b'', Here env s.bol (pre ++ line) ∧ Skips s.bol s.bol pre q b'' ∧ NoSkip line) :
    (∃ co o, Malformed env s.tok (c :: rest) co o) ∨ ∃ u, lexChar (run n) scan c p env s = .ok () u := by
  by_cases hst : startsToken env c = false
  · exact .inl ⟨_, _, .noToken hst hno.1 hno.2.1⟩
  by_cases hc7 : 128 ≤ c
  · refine absurd ?_ hst
    unfold startsToken
    simp only [Bool.or_eq_false_iff, beq_eq_false_iff_ne, List.mem_cons, List.not_mem_nil, or_false, decide_eq_false_iff_not, not_or, isDecimalDigit,
      isUppercaseLetter, isLowercaseLetter, Bool.and_eq_false_iff]
    omega
  have hp : s.pos = p + 1 := by rw [hp, enc_len (by omega)]
  by_cases hd : 49 ≤ c ∧ c ≤ 57
  · rw [lexChar_digit hd.1 hd.2]
    exact lexNumber_total hd.1 hd.2 (by omega) h
  by_cases hu : isUppercaseLetter c = true
  · rw [lexChar_upper hu]
    rcases name_total (tok := .typeName) (p := p) (by omega) h with hb | hok
    · exact .inl ⟨_, _, .typeName hu hb⟩
    · exact .inr hok
  by_cases hl : isLowercaseLetter c = true
  · rw [lexChar_lower hl]
    rcases name_total (tok := .identifier) (p := p) (by omega) h with hb | hok
    · exact .inl ⟨_, _, .word hl hb⟩
    · exact .inr hok
  have hcs : c = 0 ∨ c = 48 ∨ c ∈ [61, 123, 125, 91, 93, 40, 41, 44, 59, 46, 63, 58, 45, 43, 42, 37, 33, 62, 126, 64, 60, 124, 34, 39, 47, 36] ∨
      c = 96 ∧ env.backtick = true := by
    simp only [startsToken, isDecimalDigit, Bool.not_eq_false, Bool.or_eq_true, hu, hl, Bool.false_eq_true, or_false, beq_iff_eq, Bool.and_eq_true,
      decide_eq_true_eq] at hst
    rcases hst with ((h | h) | h) | h
    · exact .inl h
    · exact .inr (.inl (by omega))
    · exact .inr (.inr (.inl h))
    · exact .inr (.inr (.inr h))
  rcases hcs with rfl | rfl | hcs | ⟨rfl, hb⟩
  · rw [lexChar_end]; exact .inr ⟨_, rfl⟩
  · have : lexChar (run n) scan 48 p env s = lexZero p env s := by
      unfold lexChar
      ex
      simp [isUppercaseLetter, isLowercaseLetter]
    rw [this]
    exact lexZero_total (by omega) h
  · simp only [List.mem_cons, List.not_mem_nil, or_false] at hcs
    rcases hcs with rfl | rfl | rfl | rfl | rfl | rfl | rfl | rfl | rfl | rfl | rfl | rfl | rfl | rfl | rfl | rfl | rfl | rfl | rfl | rfl | rfl |
      rfl | rfl | rfl | rfl | rfl
    · rw [lexChar_eq]; exact .inr (lexAssign_ok h)
    · rw [lexBrace]; exact .inr ⟨_, rfl⟩
    · rw [lexChar_rc]; exact .inr ⟨_, rfl⟩
    · rw [lexChar_lb]; exact .inr ⟨_, rfl⟩
    · rw [lexChar_rb]; exact .inr ⟨_, rfl⟩
    · obtain ⟨pre, line, q, b'', k1, k2, k3⟩ := hlp rfl
      right
      rw [lexChar_lp]
      unfold lexLp
      ex
      have := skipWhite_exec (env := env) (s := { s with pos := s.bol }) k2 hn k1 k3
      rw [this]
      exact ⟨_, rfl⟩
    · rw [lexChar_rp]; exact .inr ⟨_, rfl⟩
    · rw [lexChar_comma]; exact .inr ⟨_, rfl⟩
    · rw [lexChar_semi]; exact .inr ⟨_, rfl⟩
    · rw [lexChar_dot]; exact .inr ⟨_, rfl⟩
    · rw [lexChar_qmark]; exact .inr ⟨_, rfl⟩
    · rw [lexChar_colon]; exact lexColon_total hp h
    · rw [lexChar_minus]; exact .inr (lexMinus_ok hepp h)
    · rw [lexChar_plus]; exact .inr (lexPlus_ok h)
    · rw [lexChar_star]; exact .inr ⟨_, rfl⟩
    · rw [lexChar_percent]; exact .inr (lexPercent_ok hepp)
    · rw [lexChar_not]; exact .inr (lexNot_ok h)
    · rw [lexChar_greater]; exact .inr (lexGreater_ok h)
    · rw [lexChar_tilde]
      by_cases h62 : headC rest = 62
      · right
        unfold lexTilde
        ex
        rw [peek_here h]
        dsimp only
        rw [if_pos h62]
        exact ⟨_, rfl⟩
      · exact .inl ⟨_, _, .tilde h62⟩
    · rw [lexChar_at]; exact .inr (lexAt_ok hpl.1 h)
    · rw [lexChar_less]; exact .inr (lexLess_ok hepp h)
    · rw [lexChar_pipe]; exact lexPipe_total rfl hn h
    · rw [lexChar_dq]; exact lexDq_total hfac hpl hf h
    · rw [lexChar_sq]; exact lexSq_total hf h
    · rw [lexChar_slash]; exact lexSlash_total rfl hno.2.2 hf h
    · rw [lexChar_dollar]; exact lexDollar_total hp h
  · rw [lexChar_backtick hb]; exact lexBacktick_total hb h

/-- A text that is not malformed starts with a token. -/
theorem lex_total (hepp : env.epp = false) (hfac : env.hasFactory = true) (hn : s.nls = none)
    (hs : Skips s.pos s.bol ws p' b') (h : Here env s.pos (ws ++ rs)) (hf : rs.length < n)
    (hno : NoSkip rs ∨ OpenComment rs ∨ LastComment rs) (hpl : Plain env rs)
    (hlp : headC rs = 40 → ∃ pre line q b'', Here env b' (pre ++ line) ∧ Skips b' b' pre q b'' ∧ NoSkip line) :
    (∃ co o, Malformed env s.tok rs co o) ∨ ∃ u, run (n + 1) .nextToken env s = .ok () u := by
  rcases hno with hno | hno | hno
  · rw [nextToken_exec hs hn h hno]
    cases rs with
    | nil => rw [headC_nil, lexChar_end]; exact .inr ⟨_, rfl⟩
    | cons c r =>
      rw [headC_cons, width_cons]
      rw [headC_cons] at hlp
      have h2 := h.append
      rw [← hs.pos] at h2
      simp only [List.length_cons] at hf
      exact lexChar_total (s := { s with pos := p' + (encodeRune c).length, bol := b', tsp := p' }) hepp hfac hn hno hpl rfl h2.tail (by omega) hlp
  · exact .inl ⟨_, _, .comment hno⟩
  · right
    obtain ⟨q, u, e⟩ := skipWhite_lastComment hs hn h hno
    show ∃ t, nextTokenBody (run n) env s = _
    unfold nextTokenBody
    ex
    rw [e]
    dsimp only
    rw [lexChar_end]
    exact ⟨_, rfl⟩

end
end PP
