import Verif.Lemmas.Layout3a
import Verif.Lemmas.Gram9
import Verif.Lemmas.NodeOps

/-! # Strings with interpolation -/
namespace PP
open PP.Spec
set_option linter.unusedSimpArgs false

theorem conv_of (start : Nat) (p : Pos) (l r : Expr) : ∀ l', receiver (bare l) = some l' →
    ∃ f b, convertNamedAccessLHS start p l r = some (f, b) ∧ bare f = .bin z .namedAccess l' (bare r) ∧
      (b = false → f = .bin p .namedAccess l r) := by
  fun_induction convertNamedAccessLHS start p l r with
  | case1 p q n rhs =>
    intro l' h
    simp only [bare, receiver, Option.some.injEq] at h
    subst h
    exact ⟨_, _, rfl, by simp [bare, varOf], nofun⟩
  | case2 p q o ks rhs lhe =>
    intro l' h
    refine ⟨_, _, rfl, ?_, nofun⟩
    have : bare lhe = l' := by
      cases o <;> simp only [bare, receiver, Option.some.injEq] at h <;> subst h <;> simp [lhe, bare, varOf]
    simp only [bare, this]
  | case3 p q l r rhs f b hc ih =>
    intro l' h
    simp only [bare, receiver, Option.map_eq_some_iff] at h
    obtain ⟨m, h, rfl⟩ := h
    obtain ⟨f', b', h1, h2, -⟩ := ih _ h
    rw [hc] at h1
    obtain ⟨rfl, rfl⟩ := Prod.mk.inj (Option.some.inj h1)
    exact ⟨_, _, rfl, by simp only [bare, h2], nofun⟩
  | case4 p q l r rhs hc ih =>
    intro l' h
    simp only [bare, receiver, Option.map_eq_some_iff] at h
    obtain ⟨m, h, rfl⟩ := h
    obtain ⟨f', b', h1, h2, -⟩ := ih _ h
    rw [hc] at h1
    cases h1
  | case5 p q rv r l' r' args lam rhs f b hc ih =>
    intro m h
    cases rv <;> simp only [bare, receiver, Option.map_eq_some_iff, reduceCtorEq] at h
    obtain ⟨m, h, rfl⟩ := h
    obtain ⟨f', b', h1, h2, -⟩ := ih _ h
    rw [hc] at h1
    obtain ⟨rfl, rfl⟩ := Prod.mk.inj (Option.some.inj h1)
    exact ⟨_, _, rfl, by simp only [bare, h2], nofun⟩
  | case6 p q rv r l' r' args lam rhs hc ih =>
    intro m h
    cases rv <;> simp only [bare, receiver, Option.map_eq_some_iff, reduceCtorEq] at h
    obtain ⟨m, h, rfl⟩ := h
    obtain ⟨f', b', h1, h2, -⟩ := ih _ h
    rw [hc] at h1
    cases h1
  | case7 p q rv f args lam rhs hne =>
    intro m h
    exfalso
    cases f with
    | bin a k b c => cases k <;> cases rv <;> simp [bare, receiver] at h <;> exact hne _ _ _ rfl
    | _ => cases rv <;> simp [bare, receiver] at h
  | case8 p l r h1 h2 h3 h4 h5 =>
    intro m h
    refine ⟨_, _, rfl, ?_, fun _ => rfl⟩
    have : bare l = m := by
      cases l with
      | qname => exact absurd rfl (h1 _ _)
      | access => exact absurd rfl (h2 _ _ _)
      | bin a k b c => cases k <;> first | exact absurd rfl (h3 _ _ _) | (simpa [bare, receiver] using h)
      | call a k => cases k <;> first | exact absurd rfl (h5 _ _ _ _ _) | (simpa [bare, receiver] using h)
      | _ => simpa [bare, receiver] using h
    simp only [bare, this]

theorem interpolated_of {start : Nat} {len : Int} {e e' : Expr} (h : asVariable (bare e) = some e') :
    ∃ a, interpolated start len e = some a ∧ bare a = e' := by
  unfold interpolated
  split
  · simp only [bare, asVariable, Option.some.injEq] at h
    exact ⟨_, rfl, by rw [← h]; simp [bare, varOf]⟩
  · simp only [bare, asVariable, Option.some.injEq] at h
    exact ⟨_, rfl, by rw [← h]; simp [bare, varOf]⟩
  · rename_i q rv r l rr args lam
    cases rv <;> simp only [bare, asVariable, Option.map_eq_some_iff, reduceCtorEq] at h
    obtain ⟨m, h, rfl⟩ := h
    obtain ⟨f, b, h1, h2, h3⟩ := conv_of start r l rr _ h
    rw [h1]
    cases b
    · refine ⟨_, rfl, ?_⟩
      rw [h3 rfl] at h2
      simp only [bare] at h2 ⊢
      rw [h2]
    · exact ⟨_, rfl, by simp only [bare, h2]⟩
  · rename_i h1 h2 h3
    refine ⟨_, rfl, ?_⟩
    cases e with
      | qname => exact absurd rfl (h1 _ _)
      | access a b => cases b <;> first | exact absurd rfl (h2 _ _ _ _) | (simpa [bare, asVariable] using h)
      | call a k rv f => 
        cases k
        case method =>
          cases f with
          | bin a k b c => cases k <;> first | exact absurd rfl (h3 _ _ _ _ _ _ _) | (cases rv <;> simp [bare, asVariable] at h)
          | _ => cases rv <;> simp [bare, asVariable] at h
        all_goals simpa [bare, asVariable] using h
      | _ => simpa [bare, asVariable] using h

/-- What is left of a string when `segs` and then `buf` were read. -/
def more (ds start : Nat) (segs : List Expr) (buf : GoStr) (self : Self) : P (List Expr) := do
  let (ec, _) ← next
  self (.delim 34 ds true .dq buf ec start segs)

/-- The same at the start of a part. -/
def parts (ds : Nat) (segs : List Expr) (self : Self) : P (List Expr) := do
  let (ec, start) ← next
  self (.delim 34 ds true .dq [] ec start segs)

section
variable {env : Env} {s s' t : St} {ds start : Nat} {segs as : List Expr} {buf out : GoStr} {src rs rest : List Nat}

theorem parts_of (h : Here env s.pos rs) (h2 : EvP env (more ds s.pos segs []) s as t) : EvP env (parts ds segs) s as t := by
  obtain ⟨k, h2⟩ := h2.ex
  refine ⟨k, fun f hf => ?_⟩
  have := h2 f hf
  unfold more at this
  unfold parts
  ex
  rw [ex_bind, next_here h] at this
  rw [next_here h]
  exact this

/-- Text. -/
theorem more_text (hq : Dq env.hexEsc src out) (hfac : env.hasFactory = true) (h : Here env s.pos (src ++ rs))
    (h2 : EvP env (more ds start segs (buf ++ out)) { s with pos := s.pos + (utf8 src).length } as t) : EvP env (more ds start segs buf) s as t := by
  obtain ⟨k, -, h1⟩ := dq_steps (dstart := ds) (start := start) (segs := segs) (i := true) (buf := buf) hq hfac h
  obtain ⟨k', h2⟩ := h2.ex
  refine ⟨k' + k, fun f hf => ?_⟩
  obtain ⟨n, rfl⟩ : ∃ n, f = n + k := ⟨f - k, by omega⟩
  exact (h1 n).trans (h2 n (by omega))

/-- The closing quote. -/
theorem more_quote (h : Here env s.pos (34 :: rs)) :
    EvP env (more ds start segs buf) s segs { s with pos := s.pos + 1, tok := .string, val := .str buf } := by
  refine ⟨1, fun f hf => ?_⟩
  obtain ⟨n, rfl⟩ : ∃ n, f = n + 1 := ⟨f - 1, by omega⟩
  exact rest_end (n := n) (by omega) (by omega) h

/-- A `$`. -/
theorem more_dollar {e : Expr} {l : List Expr} (h : Here env s.pos (36 :: rs))
    (hl : l = (if buf.isEmpty then segs else segs ++ [.string ⟨s.tsp, ((s.pos + 1 : Nat) : Int) - s.tsp⟩ buf]) ++ [e])
    (h1 : EvP env (fun self => interpolate self start) { s with pos := s.pos + 1 } e s')
    (h2 : EvP env (parts ds l) { s' with tsp := s'.pos } as t) :
    EvP env (more ds start segs buf) s as t := by
  unfold more
  refine EvP.prim (next_here h) ?_
  simp only [headC_cons, width, enc_len (show 36 < 128 by omega)]
  refine EvN.step ?_
  show EvP env (fun self => delimBody self 34 ds true .dq buf 36 start segs) _ _ _
  unfold delimBody
  refine EvP.neg (by omega) (EvP.neg (by omega) (EvP.neg (by omega) (EvP.pos ⟨rfl, rfl⟩ ?_)))
  unfold parts at h2
  refine EvP.bind (a := l) (t := { s' with tsp := s'.pos }) ?_ h2
  unfold handleInterpolation
  ev
  refine EvP.bind h1 ?_
  ev
  subst hl
  exact EvP.ret

/-- `$name` -/
theorem interp_name {v : GoStr} {cs : List Nat} (hsp : Spelled env (.name v) cs rs) (h : Here env s.pos (cs ++ rs)) (hn : s.nls = none) :
    ∃ e t, EvP env (fun self => interpolate self start) s e t ∧ bare e = .un z .text (varOf v) ∧ t.tok = .identifier ∧ t.names = s.names ∧
      t.nls = none ∧ t.bol = s.bol ∧ Here env t.pos rs ∧ s.pos ≤ t.pos := by
  obtain ⟨hne, hc⟩ := isName_first hsp.2.1
  have hpk := peek_here h
  obtain ⟨p', p, tk, v', B, -, hB, hR, -, h2, h3⟩ := reread (nl := false) .nil hsp rfl (by simpa using h)
  obtain ⟨h3, h4⟩ := h3 { s with tok := .variable, val := .nil } rfl hn
  obtain ⟨hr1, hr2⟩ := hR { s with tok := tk, val := v' } rfl rfl
  have hr1 : tk = .identifier := hr1
  have hr2 : v' = .str v := hr2
  subst hr1 hr2
  have hle : s.pos ≤ p' := by
    have h5 := h.length
    have h6 := h2.length
    rw [utf8_append, List.length_append] at h5
    omega
  have hh : headC (cs ++ rs) = headC cs := by
    cases cs with
    | nil => exact absurd rfl hne
    | cons c cs => rfl
  rw [hh] at hpk
  refine ⟨.un ⟨start, (p' : Int) - start⟩ .text (.un ⟨start, (p' : Int) - start⟩ .variable (.qname ⟨start + 1, (p' : Int) - (start + 1 : Nat)⟩ v)),
    { s with pos := p', tok := .identifier, val := .str v, tsp := p, bol := B s.bol }, ?_, by simp [bare, varOf], rfl, rfl, hn, hB rfl _, h2, hle⟩
  · unfold interpolate
    refine EvP.prim hpk (EvP.neg ?_ (EvP.prim (a := ()) (t := { s with tok := .variable, val := .nil }) rfl ?_))
    · rcases hc with h | h
      · rw [h]; decide
      · intro h'; rw [h'] at h; cases h
    · have hc' : headC cs = 58 ∨ isLowercaseLetter (headC cs) = true ∨ isDecimalDigit (headC cs) = true := hc.imp id Or.inl
      dsimp only
      refine EvP.pos hc' (EvP.bind h3 ?_)
      ev
      refine EvP.neg (by simp) ?_
      exact EvP.ret

/-- Where an expression in a string ends. -/
@[reducible] def Ending.brace (env : Env) (rest : List Nat) (good : Nat → Nat → Prop) : Ending :=
  ⟨.rc, fun s => s.nls = none ∧ Here env s.pos rest ∧ good s.bol s.pos, fun _ _ _ h => h, fun _ _ => True, fun _ _ => True, fun _ _ _ _ => trivial,
    fun _ _ => ⟨trivial, trivial⟩⟩

/-- `${expression}` -/
theorem interp_expr {good : Nat → Nat → Prop} {e e' : Expr} {ts : List T} (hg : ∀ ns, G ns (.bin .rel) e ts)
    (he : asVariable e = some e') (h : Here env s.pos (123 :: rs)) {s1 u : St} {c p : Nat} (h1 : EvN env .nextToken { s with pos := s.pos + 1 } () s1)
    (h2 : skipWhite false env s1 = .ok (c, p) u) (h3 : u.names = s.names) (h4 : letI := Ending.brace env rest good; Feeds env ts { u with pos := p }) :
    ∃ e t, EvP env (fun self => interpolate self start) s e t ∧ bare e = .un z .text e' ∧ t.tok = .rc ∧ t.names = s.names ∧
      t.nls = none ∧ good t.bol t.pos ∧ Here env t.pos rest := by
  letI := Ending.brace env rest good
  have htok : ({ u with pos := p } : St).tok ≠ .rc := by
    obtain ⟨t, r, rfl, ht⟩ := G_first (hg [])
    refine h4.ne ?_
    intro h
    rw [show hd (t :: r) = t.tok from rfl] at h
    rw [h] at ht
    cases ht
  obtain ⟨a, s2, b1, b2, b3, b4⟩ := g_binDone (G_reads (hg s.names)) [] { u with pos := p } (by rw [List.append_nil]; exact h4) h3 rfl
  obtain ⟨b5, b6, b7, b8, b9⟩ := b3
  subst b2
  obtain ⟨x, hx1, rfl⟩ := interpolated_of (start := start) (len := (s2.pos : Int) - start) he
  refine ⟨.un ⟨start, (s2.pos : Int) - start⟩ .text x, s2, ?_, by simp [bare], b5, b4, b7, b9, b8⟩
  unfold interpolate
  refine EvP.prim (peek_here h) (EvP.pos rfl ?_)
  refine EvP.prim (a := ()) (t := { s with pos := s.pos + 1 }) rfl ?_
  refine EvP.bind h1 (EvP.bind (a := a) (t := s2) (EvN.step ?_) ?_)
  · show EvP env (fun self => parseBody self .rc true) _ _ _
    unfold parseBody
    refine EvP.prim h2 ?_
    dsimp only
    ev
    refine EvP.pos rfl ?_
    ev
    refine EvP.neg htok (EvP.bind b1 (EvP.prim (assertToken_ok b5) ?_))
    ev
  · ev
    rw [hx1]
    exact EvP.ret

/-- The token for a string with interpolation. -/
theorem lex_interp {scan start : Nat} {tail : GoStr} (hfac : env.hasFactory = true) (h : EvP env (parts (s.pos - 1) []) s as t) (hne : as ≠ [])
    (hv : t.val = .str tail) : ∃ p as', EvP env (fun self => lexChar self scan 34 start) s () { t with tok := .concatenatedString, val := .expr (.concat p as') } ∧
      bareL as' = bareL as ++ textPart tail := by
  cases as with
  | nil => exact absurd rfl hne
  | cons a as =>
    refine ⟨⟨a.off, (t.pos : Int) - a.off⟩, if tail.isEmpty then a :: as else (a :: as) ++ [.string ⟨t.tsp, (t.pos : Int) - t.tsp⟩ tail], ?_, ?_⟩
    · unfold lexChar
      ev
      simp only [(by decide : ¬ (49 ≤ 34 ∧ 34 ≤ 57)), show isUppercaseLetter 34 = false from rfl, show isLowercaseLetter 34 = false from rfl,
        if_false, Bool.false_eq_true]
      simp only [Nat.reduceEqDiff, if_false, if_true]
      unfold consumeDoubleQuotedString
      ev
      unfold parts at h
      refine EvP.bind (a := a :: as) (t := t) ?_ ?_
      · unfold consumeDelimitedString
        rw [hfac]
        exact h
      · refine EvP.neg (by rw [hfac]; simp) ?_
        ev
        rw [hv]
        exact EvP.of rfl
    · cases tail <;> simp [textPart, bare]

end
end PP
