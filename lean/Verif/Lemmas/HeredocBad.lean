import Verif.Spec.HeredocBad
import Verif.Lemmas.HeredocErrors
import Verif.Lemmas.Heredoc2
import Verif.Lemmas.Malformed

/-! # Heredocs whose text has no meaning -/
namespace PP
open PP.Spec

section
variable {env : Env} {end_ : Int} {k : Nat} {buf : GoStr} {fl src bad after : List Nat} {ip : Bool} {s : St} {α β : Type}

/-- The computation fails with this issue, if the recursion may be deep enough. -/
abbrev EvX (env : Env) {α : Type} (m : Self → P α) (s : St) (code : Code) (p : Nat) : Prop :=
  EvR env m s (fun r => ∃ t, r = .fail (.issue code p) t)

theorem EvX.bind {m : Self → P α} {f : Self → α → P β} {code : Code} {p : Nat} (h : EvX env m s code p) :
    EvX env (fun self => m self >>= f self) s code p := by
  obtain ⟨k, h⟩ := h.ex
  refine ⟨k, fun g hg => ?_⟩
  obtain ⟨t, e⟩ := h g hg
  exact ⟨t, bind_fail e⟩

theorem EvX.of {m : P α} {code : Code} {p : Nat} (h : ∃ t, m env s = .fail (.issue code p) t) : EvX env (fun _ => m) s code p := ⟨0, fun _ _ => h⟩

theorem _root_.PP.Spec.Reaches.nil (h : Reaches fl ip k bad []) : bad = [] := by
  cases h; rfl

/-- `$` that starts no interpolation. -/
theorem interp_bad {rs : List Nat} {start : Nat} {segs : List Expr} (hb : BadDollar rs) (h : Here env s.pos rs) :
    EvX env (fun self => handleInterpolation self start segs buf) s .lexMalformedInterpolation start := by
  obtain ⟨h1, h2, h3, h4⟩ := hb
  refine ⟨0, fun f _ => ?_⟩
  unfold handleInterpolation interpolate
  ex
  rw [peek_here h]
  dsimp only
  rw [if_neg h1, if_neg (by simp [h2, h3, h4])]
  exact ⟨_, rfl⟩

/-- The loop over the text of a heredoc comes to the place. -/
theorem reaches_exec {code : Code} {off q : Nat} (hfl : ∀ x ∈ fl, x ∈ flagLetters) (hm : Reaches fl ip k bad src) (hb : BadPlace fl ip after bad code off)
    (h0 : ∀ c ∈ src, c ≠ 0) (hfin : HdTail src after)
    (hh : Here env s.pos (src ++ after)) (hend : end_ = s.pos + (utf8 src).length) (hq : end_ = q + (utf8 bad).length) :
    EvX env (fun self => self (.escapes end_ k (flagBytes fl) ip buf [])) s code (q + off) := by
  have hbad : bad ≠ [] := by rintro rfl; cases hb
  induction hm generalizing s buf with
  | here =>
    have hqs : q = s.pos := by omega
    subst hqs
    refine EvN.def (m := fun self => escapesBody self end_ k (flagBytes fl) ip buf []) ?_ (fun _ => rfl)
    unfold escapesBody
    refine EvP.prim (next_here hh) ?_
    cases hb with
    | @unicode r h1 h2 =>
      have hh1 : Here env (s.pos + 1) (c%'u' :: (r ++ after)) := hh.tail1 (by decide)
      have hh2 : Here env (s.pos + 1 + 1) (r ++ after) := hh1.tail1 (by decide)
      dsimp only [List.cons_append, headC_cons, width_cons]
      refine EvP.neg (by rw [hend]; simp [enc_len]; try omega) (EvP.neg (by simp) ?_)
      rw [enc_len (show 92 < 128 by omega)]
      refine EvP.prim (next_here (s := { s with pos := s.pos + 1 }) hh1) ?_
      dsimp only [List.cons_append, headC_cons, width_cons]
      refine EvP.neg (by rw [hend]; simp [enc_len]; try omega) ?_
      refine EvP.neg (fun h => h ⟨by omega, (flag_contains (by omega) hfl).2 (.inr ⟨h1, by omega⟩)⟩) (EvP.neg (by omega) ?_)
      simp only [Nat.reduceEqDiff, if_false, if_true, enc_len (show 117 < 128 by omega)]
      have := appendUnicode_bad (s := { s with pos := s.pos + 1 + 1 }) h2 hh2
      exact EvX.bind (EvX.of this)
    | @dollar r h1 h2 =>
      have hh1 : Here env (s.pos + 1) (r ++ after) := hh.tail1 (by decide)
      dsimp only [List.cons_append, headC_cons, width_cons]
      refine EvP.neg (by rw [hend]; simp [enc_len]; try omega) (EvP.pos (by simp) (EvP.pos ⟨rfl, h1⟩ ?_))
      rw [enc_len (show 36 < 128 by omega)]
      exact EvX.bind (interp_bad (s := { s with pos := s.pos + 1 }) h2 hh1)
    | @backslash r h1 h2 h3 =>
      have hh1 : Here env (s.pos + 1) (c%'$' :: (r ++ after)) := hh.tail1 (by decide)
      have hh2 : Here env (s.pos + 1 + 1) (r ++ after) := hh1.tail1 (by decide)
      dsimp only [List.cons_append, headC_cons, width_cons]
      refine EvP.neg (by rw [hend]; simp [enc_len]; try omega) (EvP.neg (by simp) ?_)
      rw [enc_len (show 92 < 128 by omega)]
      refine EvP.prim (next_here (s := { s with pos := s.pos + 1 }) hh1) ?_
      dsimp only [List.cons_append, headC_cons, width_cons]
      refine EvP.neg (by rw [hend]; simp [enc_len]; try omega) ?_
      refine EvP.pos ?_ (EvP.pos ⟨rfl, h1⟩ ?_)
      · rintro ⟨a, b⟩
        rw [flag_contains a hfl] at b
        rcases b with b | b
        · omega
        · exact h2 b.1
      · rw [enc_len (show 36 < 128 by omega)]
        exact EvX.bind (interp_bad (s := { s with pos := s.pos + 1 + 1 }) h3 hh2)
  | @char c src hb hn hd _ ih =>
    have h2 := ih (s := { s with pos := s.pos + (encodeRune c).length }) (buf := buf ++ encodeRune c) (fun x hx => h0 x (by simp [hx])) hfin.tail hh.tail
      (by rw [hend, utf8_cons, List.length_append]; simp; omega)
    have hp := encodeRune_length_pos c
    refine EvN.def (m := fun self => escapesBody self end_ k (flagBytes fl) ip buf []) ?_ (fun _ => rfl)
    unfold escapesBody
    refine EvP.prim (next_here hh) ?_
    dsimp only [List.cons_append, headC_cons, width_cons]
    refine EvP.neg ?_ (EvP.pos hb (EvP.neg (fun h => by rw [hd h.1] at h; cases h.2) ?_))
    · rintro (h | h)
      · exact h0 c (by simp) h
      · apply h; rw [hend, utf8_cons, List.length_append]; omega
    · simp only [if_neg hn]
      exact h2
  | @newline src hm ih =>
    have hh1 : Here env (s.pos + 1) (src ++ after) := hh.tail1 (by decide)
    have hend1 : end_ = (s.pos + 1 : Nat) + (utf8 src).length := by
      rw [hend, utf8_cons, List.length_append, enc_len (by omega)]; omega
    have hne : src ≠ [] := by
      rintro rfl
      have : strip k [] = [] := by unfold strip; split <;> simp
      rw [this] at hm
      exact hbad (hm.nil)
    obtain ⟨p, g1, g2, g4⟩ := strip_exec (s := { s with pos := s.pos + 1 }) (k := k) hne hfin.tail hh1
    have g3 := ih (s := { s with pos := p }) (buf := (buf ++ encodeRune 10)) (fun x hx => h0 x (by
        obtain ⟨y, e⟩ := strip_suffix k src
        rw [e]; simp [hx])) hfin.tail.strip g2 (by rw [hend1]; dsimp only at g4 ⊢; omega)
    refine EvN.def (m := fun self => escapesBody self end_ k (flagBytes fl) ip buf []) ?_ (fun _ => rfl)
    unfold escapesBody
    refine EvP.prim (next_here hh) ?_
    dsimp only [List.cons_append, headC_cons, width_cons]
    refine EvP.neg (by rw [hend]; simp [enc_len]; try omega) (EvP.pos (by simp) (EvP.neg (by simp) ?_))
    simp only [if_true, enc_len (show 10 < 128 by omega)]
    refine EvP.prim g1 ?_
    exact g3
  | @noEsc c src h1 h2 h3 _ ih =>
    have hh1 : Here env (s.pos + 1) (c :: (src ++ after)) := hh.tail1 (by decide)
    have hp := encodeRune_length_pos c
    have e2 := ih (s := { s with pos := s.pos + 1 + (encodeRune c).length }) (buf := buf ++ [92] ++ encodeRune c) (fun x hx => h0 x (by simp [hx])) hfin.tail.tail hh1.tail
      (by rw [hend]; simp [enc_len]; omega)
    refine EvN.def (m := fun self => escapesBody self end_ k (flagBytes fl) ip buf []) ?_ (fun _ => rfl)
    unfold escapesBody
    refine EvP.prim (next_here hh) ?_
    dsimp only [List.cons_append, headC_cons, width_cons]
    refine EvP.neg (by rw [hend]; simp [enc_len]; try omega) (EvP.neg (by simp) ?_)
    rw [enc_len (show 92 < 128 by omega)]
    refine EvP.prim (next_here (s := { s with pos := s.pos + 1 }) hh1) ?_
    dsimp only [List.cons_append, headC_cons, width_cons]
    refine EvP.neg (by rw [hend]; simp [enc_len]; try omega) ?_
    refine EvP.pos ?_ (EvP.neg (fun h => by rw [h3 h.1] at h; cases h.2) ?_)
    · rintro ⟨a, b⟩
      rw [flag_contains a hfl] at b
      rcases b with b | b
      · exact h2 b.1
      · rcases h1 with h1 | h1
        · exact h1 b.1
        · exact b.2 h1
    · simp only [if_neg h2]
      exact e2
  | @noJoin src h1 hm ih =>
    have hh1 : Here env (s.pos + 1) (c%'\n' :: (src ++ after)) := hh.tail1 (by decide)
    have hh2 : Here env (s.pos + 1 + 1) (src ++ after) := hh1.tail1 (by decide)
    have hend1 : end_ = (s.pos + 1 + 1 : Nat) + (utf8 src).length := by
      rw [hend]; simp [enc_len]; omega
    have hne : src ≠ [] := by
      rintro rfl
      have : strip k [] = [] := by unfold strip; split <;> simp
      rw [this] at hm
      exact hbad (hm.nil)
    obtain ⟨p, g1, g2, g4⟩ := strip_exec (s := { s with pos := s.pos + 1 + 1 }) (k := k) hne hfin.tail.tail hh2
    have g3 := ih (s := { s with pos := p }) (buf := (buf ++ [92] ++ encodeRune 10)) (fun x hx => h0 x (by
        obtain ⟨y, e⟩ := strip_suffix k src
        rw [e]; simp [hx])) hfin.tail.tail.strip g2 (by rw [hend1]; dsimp only at g4 ⊢; omega)
    refine EvN.def (m := fun self => escapesBody self end_ k (flagBytes fl) ip buf []) ?_ (fun _ => rfl)
    unfold escapesBody
    refine EvP.prim (next_here hh) ?_
    dsimp only [List.cons_append, headC_cons, width_cons]
    refine EvP.neg (by rw [hend]; simp [enc_len]; try omega) (EvP.neg (by simp) ?_)
    rw [enc_len (show 92 < 128 by omega)]
    refine EvP.prim (next_here (s := { s with pos := s.pos + 1 }) hh1) ?_
    dsimp only [List.cons_append, headC_cons, width_cons]
    refine EvP.neg (by rw [hend]; simp [enc_len]; try omega) ?_
    refine EvP.pos ?_ (EvP.neg (by simp) ?_)
    · rintro ⟨a, b⟩
      rw [flag_contains a hfl] at b
      rcases b with b | b
      · exact h1 b.2
      · have := hfl _ b.1
        revert this; decide
    · simp only [if_true, enc_len (show 10 < 128 by omega)]
      refine EvP.prim g1 ?_
      exact g3
  | @join src h1 hm ih =>
    have hh1 : Here env (s.pos + 1) (c%'\n' :: (src ++ after)) := hh.tail1 (by decide)
    have hh2 : Here env (s.pos + 1 + 1) (src ++ after) := hh1.tail1 (by decide)
    have hend1 : end_ = (s.pos + 1 + 1 : Nat) + (utf8 src).length := by
      rw [hend]; simp [enc_len]; omega
    have hne : src ≠ [] := by
      rintro rfl
      have : strip k [] = [] := by unfold strip; split <;> simp
      rw [this] at hm
      exact hbad (hm.nil)
    obtain ⟨p, g1, g2, g4⟩ := strip_exec (s := { s with pos := s.pos + 1 + 1 }) (k := k) hne hfin.tail.tail hh2
    have g3 := ih (s := { s with pos := p }) (buf := buf) (fun x hx => h0 x (by
        obtain ⟨y, e⟩ := strip_suffix k src
        rw [e]; simp [hx])) hfin.tail.tail.strip g2 (by rw [hend1]; dsimp only at g4 ⊢; omega)
    refine EvN.def (m := fun self => escapesBody self end_ k (flagBytes fl) ip buf []) ?_ (fun _ => rfl)
    unfold escapesBody
    refine EvP.prim (next_here hh) ?_
    dsimp only [List.cons_append, headC_cons, width_cons]
    refine EvP.neg (by rw [hend]; simp [enc_len]; try omega) (EvP.neg (by simp) ?_)
    rw [enc_len (show 92 < 128 by omega)]
    refine EvP.prim (next_here (s := { s with pos := s.pos + 1 }) hh1) ?_
    dsimp only [List.cons_append, headC_cons, width_cons]
    refine EvP.neg (by rw [hend]; simp [enc_len]; try omega) ?_
    refine EvP.neg (fun h => h ⟨by omega, (flag_contains (by omega) hfl).2 (.inl ⟨rfl, h1⟩)⟩) (EvP.pos rfl ?_)
    simp only [enc_len (show 10 < 128 by omega)]
    exact EvP.prim g1 g3
  | @esc c d src h1 h2 _ ih =>
    have hcl : c < 128 ∧ c ≠ c%'L' ∧ c ≠ 10 := by
      simp only [flagTable, List.mem_cons, List.not_mem_nil, or_false, Prod.mk.injEq] at h2
      omega
    have hh1 : Here env (s.pos + 1) (c :: (src ++ after)) := hh.tail1 (by decide)
    have e2 := ih (s := { s with pos := s.pos + 1 + (encodeRune c).length }) (buf := buf ++ encodeRune d) (fun x hx => h0 x (by simp [hx])) hfin.tail.tail hh1.tail
      (by rw [hend]; simp [enc_len]; omega)
    have hp := encodeRune_length_pos c
    refine EvN.def (m := fun self => escapesBody self end_ k (flagBytes fl) ip buf []) ?_ (fun _ => rfl)
    unfold escapesBody
    refine EvP.prim (next_here hh) ?_
    dsimp only [List.cons_append, headC_cons, width_cons]
    refine EvP.neg (by rw [hend]; simp [enc_len]; try omega) (EvP.neg (by simp) ?_)
    rw [enc_len (show 92 < 128 by omega)]
    refine EvP.prim (next_here (s := { s with pos := s.pos + 1 }) hh1) ?_
    dsimp only [List.cons_append, headC_cons, width_cons]
    refine EvP.neg (by rw [hend]; simp [enc_len]; try omega) ?_
    refine EvP.neg (fun h => h ⟨hcl.1, (flag_contains hcl.1 hfl).2 (.inr ⟨h1, hcl.2.1⟩)⟩) (EvP.neg hcl.2.2 ?_)
    simp only [flagTable, List.mem_cons, List.not_mem_nil, or_false, Prod.mk.injEq] at h2
    rcases h2 with ⟨rfl, rfl⟩ | ⟨rfl, rfl⟩ | ⟨rfl, rfl⟩ | ⟨rfl, rfl⟩ | ⟨rfl, rfl⟩ <;>
      simp only [Nat.reduceEqDiff, if_false, if_true] <;> exact EvP.prim rfl e2
  | @u4 a b c d src h1 h2 _ ih =>
    have hh1 : Here env (s.pos + 1) (c%'u' :: a :: b :: c :: d :: (src ++ after)) := hh.tail1 (by decide)
    have hh2 : Here env (s.pos + 1 + 1) (a :: ([b, c, d] ++ (src ++ after))) := hh1.tail1 (by decide)
    have la := hex_ascii (h2 a (by simp))
    have lb := hex_ascii (h2 b (by simp))
    have lc := hex_ascii (h2 c (by simp))
    have ld := hex_ascii (h2 d (by simp))
    have hh3 : Here env (s.pos + 1 + 1 + 4) (src ++ after) := (((hh2.tail1 la).tail1 lb).tail1 lc).tail1 ld
    have e2 := ih (s := { s with pos := s.pos + 1 + 1 + 4 }) (buf := buf ++ encodeRune (numeral 16 [a, b, c, d])) (fun x hx => h0 x (by simp [hx]))
      hfin.tail.tail.tail.tail.tail.tail hh3 (by rw [hend]; simp [enc_len, la, lb, lc, ld]; omega)
    refine EvN.def (m := fun self => escapesBody self end_ k (flagBytes fl) ip buf []) ?_ (fun _ => rfl)
    unfold escapesBody
    refine EvP.prim (next_here hh) ?_
    dsimp only [List.cons_append, headC_cons, width_cons]
    refine EvP.neg (by rw [hend]; simp [enc_len]; try omega) (EvP.neg (by simp) ?_)
    rw [enc_len (show 92 < 128 by omega)]
    refine EvP.prim (next_here (s := { s with pos := s.pos + 1 }) hh1) ?_
    dsimp only [List.cons_append, headC_cons, width_cons]
    refine EvP.neg (by rw [hend]; simp [enc_len]; try omega) ?_
    refine EvP.neg (fun h => h ⟨by omega, (flag_contains (by omega) hfl).2 (.inr ⟨h1, by omega⟩)⟩) (EvP.neg (by omega) ?_)
    simp only [Nat.reduceEqDiff, if_false, if_true, enc_len (show 117 < 128 by omega)]
    refine EvP.prim (appendUnicode4 (s := { s with pos := s.pos + 1 + 1 }) (ds := [b, c, d]) h2 rfl hh2) ?_
    exact e2
  | @braces hs src h1 h2 h3 h4 _ ih =>
    have hu : (utf8 hs).length = hs.length := utf8_ascii_length fun w hw => hex_ascii (h2 w hw)
    have hh : Here env s.pos (c%'\\' :: c%'u' :: c%'{' :: (hs ++ c%'}' :: (src ++ after))) := by simpa using hh
    have hh1 : Here env (s.pos + 1) (c%'u' :: c%'{' :: (hs ++ c%'}' :: (src ++ after))) := hh.tail1 (by decide)
    have hh2 : Here env (s.pos + 1 + 1) (c%'{' :: (hs ++ c%'}' :: (src ++ after))) := hh1.tail1 (by decide)
    have hh3 : Here env (s.pos + 1 + 1 + 2 + hs.length) (src ++ after) := by
      have := (hh2.tail1 (by decide)).append.tail1 (by decide)
      rw [hu] at this
      rwa [show s.pos + 1 + 1 + 2 + hs.length = s.pos + 1 + 1 + 1 + hs.length + 1 by omega]
    have e2 := ih (s := { s with pos := s.pos + 1 + 1 + 2 + hs.length }) (buf := buf ++ encodeRune (numeral 16 hs)) (fun x hx => h0 x (by simp [hx]))
      hfin.tail.tail.tail.append.tail hh3 (by rw [hend]; simp [enc_len, hu]; omega)
    refine EvN.def (m := fun self => escapesBody self end_ k (flagBytes fl) ip buf []) ?_ (fun _ => rfl)
    unfold escapesBody
    refine EvP.prim (next_here hh) ?_
    dsimp only [List.cons_append, headC_cons, width_cons]
    refine EvP.neg (by rw [hend]; simp [enc_len]; try omega) (EvP.neg (by simp) ?_)
    rw [enc_len (show 92 < 128 by omega)]
    refine EvP.prim (next_here (s := { s with pos := s.pos + 1 }) hh1) ?_
    dsimp only [List.cons_append, headC_cons, width_cons]
    refine EvP.neg (by rw [hend]; simp [enc_len]; try omega) ?_
    refine EvP.neg (fun h => h ⟨by omega, (flag_contains (by omega) hfl).2 (.inr ⟨h1, by omega⟩)⟩) (EvP.neg (by omega) ?_)
    simp only [Nat.reduceEqDiff, if_false, if_true, enc_len (show 117 < 128 by omega)]
    refine EvP.prim (appendUnicodeBraces (s := { s with pos := s.pos + 1 + 1 }) h2 h3 h4 hh2) ?_
    exact e2

/-- `consumeHeredocString`, just behind `@(`. -/
theorem consume_badText {rs : List Nat} {start off : Nat} {code : Code} (hfac : env.hasFactory = true) (hb : BadText rs code off)
    (hst : s.pos = start + 2) (hn : s.nls = none) (hh : Here env s.pos rs) :
    EvX env (fun self => consumeHeredocString self) s code (start + off) := by
  cases hb with
  | @mk tag q syn fo decl ln ls bs m bs' after cut pre bad dash margin code off ht hd hln hl hw hm hw' hne he hcut hpre hr hplace =>
    have hrt : ∀ r ∈ tag, Rune r := fun r hr => hh.runes r (by simp [hr])
    have hfl : ∀ x ∈ fo.getD [], x ∈ flagLetters := by
      rcases hd with _ | _ | ⟨_, h⟩ | ⟨_, _, h⟩
      · intro x hx; cases hx
      · intro x hx; cases hx
      · exact h
      · exact h
    obtain ⟨h, hD, hd1⟩ := decl_exec ht hd hh
    have h3 : Here env (s.pos + (utf8 decl).length + 1) (ln ++ c%'\n' :: (unlines ls ++ (bs ++ m ++ tag ++ bs' ++ after))) :=
      hh.append.tail1 (by decide)
    have h2 : Here env (s.pos + (utf8 decl).length + 1 + (utf8 ln).length + 1) (unlines ls ++ (bs ++ m ++ tag ++ bs' ++ after)) :=
      h3.append.tail1 (by decide)
    have hf1 : ln.length < charFuel env := by
      have := Here.fuel (ws := ln) h3
      omega
    have hf2 : (unlines ls).length < charFuel env := by
      have := Here.fuel (ws := unlines ls) h2
      omega
    have hprev : env.text[s.pos + (utf8 decl).length + 1 + (utf8 ln).length + 1 - 1]? = some 10 := by
      have := h3.append.drop
      rw [utf8_cons, encodeRune_ascii (by omega)] at this
      rw [Nat.add_sub_cancel, ← Nat.add_zero (s.pos + (utf8 decl).length + 1 + (utf8 ln).length), ← List.getElem?_drop, this]
      rfl
    generalize hT : s.pos + (utf8 decl).length + 1 + (utf8 ln).length + 1 = T0 at *
    obtain ⟨hce, after', hsplit, hfin⟩ := contentEnd_exec (dash := dash) hne (by omega) hprev h2
    have hca : cut = after' := List.append_cancel_left (hcut.symm.trans hsplit)
    subst hca
    have h4 : Here env T0 (body dash ls ++ cut) := hsplit ▸ h2
    have hzero : ∀ c ∈ body dash ls, c ≠ 0 := fun c hc => unlines_mem hl (body_mem hc)
    have hbad : bad ≠ [] := by rintro rfl; cases hplace
    have hbne : body dash ls ≠ [] := by
      rw [hpre]; intro h; exact hbad (List.append_eq_nil_iff.1 h).2
    unfold consumeHeredocString
    refine EvP.prim ex_getEnv ?_
    refine EvP.prim ex_getPos ?_
    refine EvP.prim hd1 ?_
    refine EvP.prim ex_getPos ?_
    refine EvP.neg (by rw [hD.tag, utf8_ne ht.ne]; decide) ?_
    refine EvP.prim (peek_here (s := { s with pos := s.pos + (utf8 decl).length + 1 }) h3) ?_
    refine EvP.prim (findStart_exec (s := { s with pos := s.pos + (utf8 decl).length + 1 }) hln h3 hf1) ?_
    refine EvP.prim ex_getPos ?_
    dsimp only
    simp only [hn, Option.getD_none]
    rw [hT]
    obtain ⟨f', hf', hlines⟩ := text_lines (env := env) (hs := s.pos - 2) (f := charFuel env) (sup := false) (indent := 0) (s := { s with pos := T0, nls := none }) ht hrt hl hf2 h2
    obtain ⟨f', rfl⟩ : ∃ g, f' = g + 1 := ⟨f' - 1, by omega⟩
    obtain ⟨t, ht', hend⟩ := end_line (env := env) (hs := s.pos - 2) (f := f') (s := { s with pos := T0 + (utf8 (unlines ls)).length, nls := none }) ht hrt hw hm hw' he hce h2.append
    rw [hD.tag]
    refine EvP.prim (hlines.trans hend) ?_
    dsimp only
    rw [hD.flags, hD.quote, hD.syn]
    have hfb : (fo.map flagBytes).getD [] = flagBytes (fo.getD []) := by cases fo <;> rfl
    rw [hfb, hfac, Bool.and_true]
    have hc : (fo.map flagBytes).isSome = true ∨ q = true ∨ 0 < margin := by
      cases hplace with
      | unicode h1 _ =>
        left
        cases fo with
        | none => cases h1
        | some x => rfl
      | dollar h1 _ => exact .inr (.inl h1)
      | backslash h1 _ _ => exact .inr (.inl h1)
    obtain ⟨p, k1, k2, k3⟩ := strip_exec (s := { t with pos := T0 }) (k := margin) hbne hfin h4
    refine EvP.pos hc ?_
    refine EvP.prim ex_setPos ?_
    refine EvP.prim k1 ?_
    refine EvX.bind ?_
    have := reaches_exec (s := { t with pos := p }) (buf := []) (end_ := ((T0 + (utf8 (body dash ls)).length : Nat) : Int)) (q := T0 + (utf8 pre).length)
      hfl hr hplace (fun x hx => hzero x (by
        obtain ⟨y, e⟩ := strip_suffix margin (body dash ls)
        rw [e]; simp [hx])) hfin.strip k2 (by dsimp only at k3 ⊢; omega)
      (by rw [hpre]; simp only [utf8_append, List.length_append]; omega)
    rwa [show T0 + (utf8 pre).length + off = start + (2 + (utf8 decl).length + 1 + (utf8 ln).length + 1 + (utf8 pre).length + off) by omega] at this

end
end PP
