import Verif.Spec.HeredocText
import Verif.Lemmas.HeredocBad
import Verif.Lemmas.Layout4

/-! # Heredocs with interpolation -/
namespace PP
open PP.Spec

section
variable {env : Env} {end_ : Int} {k : Nat} {buf out : GoStr} {segs : List Expr} {fl src bad after : List Nat} {s : St}

theorem _root_.PP.Spec.MeansTo.nil (h : MeansTo fl k bad [] out) : bad = [] := by
  cases h; rfl

theorem _root_.PP.Spec.MeansTo.suffix (h : MeansTo fl k bad src out) : ∃ y, src = y ++ bad := by
  have st : ∀ x : List Nat, (∃ y, strip k x = y ++ bad) → ∃ y, x = y ++ bad := by
    rintro x ⟨y, e⟩
    obtain ⟨w, e'⟩ := strip_suffix k x
    exact ⟨w ++ y, by rw [e', e, List.append_assoc]⟩
  induction h with
  | here => exact ⟨[], rfl⟩
  | @char c _ _ _ _ _ _ ih => obtain ⟨y, e⟩ := ih; exact ⟨c :: y, by rw [e]; rfl⟩
  | newline _ ih => obtain ⟨y, e⟩ := st _ ih; exact ⟨_ :: y, by rw [e]; rfl⟩
  | noEsc _ _ _ _ ih => obtain ⟨y, e⟩ := ih; exact ⟨_ :: _ :: y, by rw [e]; rfl⟩
  | noJoin _ _ ih => obtain ⟨y, e⟩ := st _ ih; exact ⟨_ :: _ :: y, by rw [e]; rfl⟩
  | join _ _ ih => obtain ⟨y, e⟩ := st _ ih; exact ⟨_ :: _ :: y, by rw [e]; rfl⟩
  | esc _ _ _ ih => obtain ⟨y, e⟩ := ih; exact ⟨_ :: _ :: y, by rw [e]; rfl⟩
  | u4 _ _ _ ih => obtain ⟨y, e⟩ := ih; exact ⟨_ :: _ :: _ :: _ :: _ :: _ :: y, by rw [e]; rfl⟩
  | @braces hs _ _ _ _ _ _ _ ih => obtain ⟨y, e⟩ := ih; exact ⟨c%'\\' :: c%'u' :: c%'{' :: (hs ++ c%'}' :: y), by rw [e]; simp⟩

/-- The loop over the text of a heredoc, up to some place in the text. -/
theorem meansTo_exec {R : Res (GoStr × List Expr) → Prop} (hfl : ∀ x ∈ fl, x ∈ flagLetters) (hm : MeansTo fl k bad src out) (hbad : bad ≠ [])
    (h0 : ∀ c ∈ src, c ≠ 0) (hfin : HdTail src after)
    (hh : Here env s.pos (src ++ after)) (hend : end_ = s.pos + (utf8 src).length)
    (hR : ∀ q : Nat, end_ = q + (utf8 bad).length → Here env q (bad ++ after) →
      EvR env (fun self => self (.escapes end_ k (flagBytes fl) true (buf ++ out) segs)) { s with pos := q } R) :
    EvR env (fun self => self (.escapes end_ k (flagBytes fl) true buf segs)) s R := by
  induction hm generalizing s buf with
  | here =>
    have := hR s.pos hend hh
    rwa [List.append_nil] at this
  | @char c src out hb hn hd _ ih =>
    have h2 := ih (s := { s with pos := s.pos + (encodeRune c).length }) (buf := buf ++ encodeRune c) (fun x hx => h0 x (by simp [hx])) hfin.tail hh.tail
      (by rw [hend, utf8_cons, List.length_append]; simp; omega) (fun q a b => by have := hR q a b; rwa [← List.append_assoc] at this)
    have hp := encodeRune_length_pos c
    refine EvN.def (m := fun self => escapesBody self end_ k (flagBytes fl) true buf segs) ?_ (fun _ => rfl)
    unfold escapesBody
    refine EvP.prim (next_here hh) ?_
    dsimp only [List.cons_append, headC_cons, width_cons]
    refine EvP.neg ?_ (EvP.pos hb (EvP.neg (fun h => hd h.1) ?_))
    · rintro (h | h)
      · exact h0 c (by simp) h
      · apply h; rw [hend, utf8_cons, List.length_append]; omega
    · simp only [if_neg hn]
      exact h2
  | @newline src out hm ih =>
    have hh1 : Here env (s.pos + 1) (src ++ after) := hh.tail1 (by decide)
    have hend1 : end_ = (s.pos + 1 : Nat) + (utf8 src).length := by
      rw [hend, utf8_cons, List.length_append, enc_len (by omega)]; omega
    have hne : src ≠ [] := by
      rintro rfl
      have : strip k [] = [] := by unfold strip; split <;> simp
      rw [this] at hm
      exact hbad (hm.nil)
    obtain ⟨p, g1, g2, g4⟩ := strip_exec (s := { s with pos := s.pos + 1 }) (k := k) hne hfin.tail hh1
    have g3 := ih (s := { s with pos := p }) (buf := (buf ++ encodeRune 10)) (fun x hx => h0 x (by
        obtain ⟨y, e⟩ := strip_suffix k src
        rw [e]; simp [hx])) hfin.tail.strip g2 (by rw [hend1]; dsimp only at g4 ⊢; omega) (fun q a b => by have := hR q a b; rwa [show buf ++ (10 :: out) = buf ++ encodeRune 10 ++ out by simp [encodeRune_ascii]] at this)
    refine EvN.def (m := fun self => escapesBody self end_ k (flagBytes fl) true buf segs) ?_ (fun _ => rfl)
    unfold escapesBody
    refine EvP.prim (next_here hh) ?_
    dsimp only [List.cons_append, headC_cons, width_cons]
    refine EvP.neg (by rw [hend]; simp [enc_len]; try omega) (EvP.pos (by simp) (EvP.neg (by simp) ?_))
    simp only [if_true, enc_len (show 10 < 128 by omega)]
    refine EvP.prim g1 ?_
    exact g3
  | @noEsc c src out h1 h2 h3 _ ih =>
    have hh1 : Here env (s.pos + 1) (c :: (src ++ after)) := hh.tail1 (by decide)
    have hp := encodeRune_length_pos c
    have e2 := ih (s := { s with pos := s.pos + 1 + (encodeRune c).length }) (buf := buf ++ [92] ++ encodeRune c) (fun x hx => h0 x (by simp [hx])) hfin.tail.tail hh1.tail
      (by rw [hend]; simp [enc_len]; omega) (fun q a b => by have := hR q a b; rwa [show buf ++ (92 :: (encodeRune c ++ out)) = buf ++ [92] ++ encodeRune c ++ out by simp] at this)
    refine EvN.def (m := fun self => escapesBody self end_ k (flagBytes fl) true buf segs) ?_ (fun _ => rfl)
    unfold escapesBody
    refine EvP.prim (next_here hh) ?_
    dsimp only [List.cons_append, headC_cons, width_cons]
    refine EvP.neg (by rw [hend]; simp [enc_len]; try omega) (EvP.neg (by simp) ?_)
    rw [enc_len (show 92 < 128 by omega)]
    refine EvP.prim (next_here (s := { s with pos := s.pos + 1 }) hh1) ?_
    dsimp only [List.cons_append, headC_cons, width_cons]
    refine EvP.neg (by rw [hend]; simp [enc_len]; try omega) ?_
    refine EvP.pos ?_ (EvP.neg (fun h => h3 h.1) ?_)
    · rintro ⟨a, b⟩
      rw [flag_contains a hfl] at b
      rcases b with b | b
      · exact h2 b.1
      · rcases h1 with h1 | h1
        · exact h1 b.1
        · exact b.2 h1
    · simp only [if_neg h2]
      exact e2
  | @noJoin src out h1 hm ih =>
    have hh1 : Here env (s.pos + 1) (c%'\n' :: (src ++ after)) := hh.tail1 (by decide)
    have hh2 : Here env (s.pos + 1 + 1) (src ++ after) := hh1.tail1 (by decide)
    have hend1 : end_ = (s.pos + 1 + 1 : Nat) + (utf8 src).length := by
      rw [hend]; simp [enc_len]; omega
    have hne : src ≠ [] := by
      rintro rfl
      have : strip k [] = [] := by unfold strip; split <;> simp
      rw [this] at hm
      exact hbad (hm.nil)
    obtain ⟨p, g1, g2, g4⟩ := strip_exec (s := { s with pos := s.pos + 1 + 1 }) (k := k) hne hfin.tail.tail hh2
    have g3 := ih (s := { s with pos := p }) (buf := (buf ++ [92] ++ encodeRune 10)) (fun x hx => h0 x (by
        obtain ⟨y, e⟩ := strip_suffix k src
        rw [e]; simp [hx])) hfin.tail.tail.strip g2 (by rw [hend1]; dsimp only at g4 ⊢; omega) (fun q a b => by have := hR q a b; rwa [show buf ++ (92 :: 10 :: out) = buf ++ [92] ++ encodeRune 10 ++ out by simp [encodeRune_ascii]] at this)
    refine EvN.def (m := fun self => escapesBody self end_ k (flagBytes fl) true buf segs) ?_ (fun _ => rfl)
    unfold escapesBody
    refine EvP.prim (next_here hh) ?_
    dsimp only [List.cons_append, headC_cons, width_cons]
    refine EvP.neg (by rw [hend]; simp [enc_len]; try omega) (EvP.neg (by simp) ?_)
    rw [enc_len (show 92 < 128 by omega)]
    refine EvP.prim (next_here (s := { s with pos := s.pos + 1 }) hh1) ?_
    dsimp only [List.cons_append, headC_cons, width_cons]
    refine EvP.neg (by rw [hend]; simp [enc_len]; try omega) ?_
    refine EvP.pos ?_ (EvP.neg (by simp) ?_)
    · rintro ⟨a, b⟩
      rw [flag_contains a hfl] at b
      rcases b with b | b
      · exact h1 b.2
      · have := hfl _ b.1
        revert this; decide
    · simp only [if_true, enc_len (show 10 < 128 by omega)]
      refine EvP.prim g1 ?_
      exact g3
  | @join src out h1 hm ih =>
    have hh1 : Here env (s.pos + 1) (c%'\n' :: (src ++ after)) := hh.tail1 (by decide)
    have hh2 : Here env (s.pos + 1 + 1) (src ++ after) := hh1.tail1 (by decide)
    have hend1 : end_ = (s.pos + 1 + 1 : Nat) + (utf8 src).length := by
      rw [hend]; simp [enc_len]; omega
    have hne : src ≠ [] := by
      rintro rfl
      have : strip k [] = [] := by unfold strip; split <;> simp
      rw [this] at hm
      exact hbad (hm.nil)
    obtain ⟨p, g1, g2, g4⟩ := strip_exec (s := { s with pos := s.pos + 1 + 1 }) (k := k) hne hfin.tail.tail hh2
    have g3 := ih (s := { s with pos := p }) (buf := buf) (fun x hx => h0 x (by
        obtain ⟨y, e⟩ := strip_suffix k src
        rw [e]; simp [hx])) hfin.tail.tail.strip g2 (by rw [hend1]; dsimp only at g4 ⊢; omega) hR
    refine EvN.def (m := fun self => escapesBody self end_ k (flagBytes fl) true buf segs) ?_ (fun _ => rfl)
    unfold escapesBody
    refine EvP.prim (next_here hh) ?_
    dsimp only [List.cons_append, headC_cons, width_cons]
    refine EvP.neg (by rw [hend]; simp [enc_len]; try omega) (EvP.neg (by simp) ?_)
    rw [enc_len (show 92 < 128 by omega)]
    refine EvP.prim (next_here (s := { s with pos := s.pos + 1 }) hh1) ?_
    dsimp only [List.cons_append, headC_cons, width_cons]
    refine EvP.neg (by rw [hend]; simp [enc_len]; try omega) ?_
    refine EvP.neg (fun h => h ⟨by omega, (flag_contains (by omega) hfl).2 (.inl ⟨rfl, h1⟩)⟩) (EvP.pos rfl ?_)
    simp only [enc_len (show 10 < 128 by omega)]
    exact EvP.prim g1 g3
  | @esc c d src out h1 h2 _ ih =>
    have hcl : c < 128 ∧ c ≠ c%'L' ∧ c ≠ 10 := by
      simp only [flagTable, List.mem_cons, List.not_mem_nil, or_false, Prod.mk.injEq] at h2
      omega
    have hh1 : Here env (s.pos + 1) (c :: (src ++ after)) := hh.tail1 (by decide)
    have e2 := ih (s := { s with pos := s.pos + 1 + (encodeRune c).length }) (buf := buf ++ encodeRune d) (fun x hx => h0 x (by simp [hx])) hfin.tail.tail hh1.tail
      (by rw [hend]; simp [enc_len]; omega) (fun q a b => by have := hR q a b; rwa [← List.append_assoc] at this)
    have hp := encodeRune_length_pos c
    refine EvN.def (m := fun self => escapesBody self end_ k (flagBytes fl) true buf segs) ?_ (fun _ => rfl)
    unfold escapesBody
    refine EvP.prim (next_here hh) ?_
    dsimp only [List.cons_append, headC_cons, width_cons]
    refine EvP.neg (by rw [hend]; simp [enc_len]; try omega) (EvP.neg (by simp) ?_)
    rw [enc_len (show 92 < 128 by omega)]
    refine EvP.prim (next_here (s := { s with pos := s.pos + 1 }) hh1) ?_
    dsimp only [List.cons_append, headC_cons, width_cons]
    refine EvP.neg (by rw [hend]; simp [enc_len]; try omega) ?_
    refine EvP.neg (fun h => h ⟨hcl.1, (flag_contains hcl.1 hfl).2 (.inr ⟨h1, hcl.2.1⟩)⟩) (EvP.neg hcl.2.2 ?_)
    simp only [flagTable, List.mem_cons, List.not_mem_nil, or_false, Prod.mk.injEq] at h2
    rcases h2 with ⟨rfl, rfl⟩ | ⟨rfl, rfl⟩ | ⟨rfl, rfl⟩ | ⟨rfl, rfl⟩ | ⟨rfl, rfl⟩ <;>
      simp only [Nat.reduceEqDiff, if_false, if_true] <;> exact EvP.prim rfl e2
  | @u4 a b c d src out h1 h2 _ ih =>
    have hh1 : Here env (s.pos + 1) (c%'u' :: a :: b :: c :: d :: (src ++ after)) := hh.tail1 (by decide)
    have hh2 : Here env (s.pos + 1 + 1) (a :: ([b, c, d] ++ (src ++ after))) := hh1.tail1 (by decide)
    have la := hex_ascii (h2 a (by simp))
    have lb := hex_ascii (h2 b (by simp))
    have lc := hex_ascii (h2 c (by simp))
    have ld := hex_ascii (h2 d (by simp))
    have hh3 : Here env (s.pos + 1 + 1 + 4) (src ++ after) := (((hh2.tail1 la).tail1 lb).tail1 lc).tail1 ld
    have e2 := ih (s := { s with pos := s.pos + 1 + 1 + 4 }) (buf := buf ++ encodeRune (numeral 16 [a, b, c, d])) (fun x hx => h0 x (by simp [hx]))
      hfin.tail.tail.tail.tail.tail.tail hh3 (by rw [hend]; simp [enc_len, la, lb, lc, ld]; omega) (fun q a b => by have := hR q a b; rwa [← List.append_assoc] at this)
    refine EvN.def (m := fun self => escapesBody self end_ k (flagBytes fl) true buf segs) ?_ (fun _ => rfl)
    unfold escapesBody
    refine EvP.prim (next_here hh) ?_
    dsimp only [List.cons_append, headC_cons, width_cons]
    refine EvP.neg (by rw [hend]; simp [enc_len]; try omega) (EvP.neg (by simp) ?_)
    rw [enc_len (show 92 < 128 by omega)]
    refine EvP.prim (next_here (s := { s with pos := s.pos + 1 }) hh1) ?_
    dsimp only [List.cons_append, headC_cons, width_cons]
    refine EvP.neg (by rw [hend]; simp [enc_len]; try omega) ?_
    refine EvP.neg (fun h => h ⟨by omega, (flag_contains (by omega) hfl).2 (.inr ⟨h1, by omega⟩)⟩) (EvP.neg (by omega) ?_)
    simp only [Nat.reduceEqDiff, if_false, if_true, enc_len (show 117 < 128 by omega)]
    refine EvP.prim (appendUnicode4 (s := { s with pos := s.pos + 1 + 1 }) (ds := [b, c, d]) h2 rfl hh2) ?_
    exact e2
  | @braces hs src out h1 h2 h3 h4 _ ih =>
    have hu : (utf8 hs).length = hs.length := utf8_ascii_length fun w hw => hex_ascii (h2 w hw)
    have hh : Here env s.pos (c%'\\' :: c%'u' :: c%'{' :: (hs ++ c%'}' :: (src ++ after))) := by simpa using hh
    have hh1 : Here env (s.pos + 1) (c%'u' :: c%'{' :: (hs ++ c%'}' :: (src ++ after))) := hh.tail1 (by decide)
    have hh2 : Here env (s.pos + 1 + 1) (c%'{' :: (hs ++ c%'}' :: (src ++ after))) := hh1.tail1 (by decide)
    have hh3 : Here env (s.pos + 1 + 1 + 2 + hs.length) (src ++ after) := by
      have := (hh2.tail1 (by decide)).append.tail1 (by decide)
      rw [hu] at this
      rwa [show s.pos + 1 + 1 + 2 + hs.length = s.pos + 1 + 1 + 1 + hs.length + 1 by omega]
    have e2 := ih (s := { s with pos := s.pos + 1 + 1 + 2 + hs.length }) (buf := buf ++ encodeRune (numeral 16 hs)) (fun x hx => h0 x (by simp [hx]))
      hfin.tail.tail.tail.append.tail hh3 (by rw [hend]; simp [enc_len, hu]; omega) (fun q a b => by have := hR q a b; rwa [← List.append_assoc] at this)
    refine EvN.def (m := fun self => escapesBody self end_ k (flagBytes fl) true buf segs) ?_ (fun _ => rfl)
    unfold escapesBody
    refine EvP.prim (next_here hh) ?_
    dsimp only [List.cons_append, headC_cons, width_cons]
    refine EvP.neg (by rw [hend]; simp [enc_len]; try omega) (EvP.neg (by simp) ?_)
    rw [enc_len (show 92 < 128 by omega)]
    refine EvP.prim (next_here (s := { s with pos := s.pos + 1 }) hh1) ?_
    dsimp only [List.cons_append, headC_cons, width_cons]
    refine EvP.neg (by rw [hend]; simp [enc_len]; try omega) ?_
    refine EvP.neg (fun h => h ⟨by omega, (flag_contains (by omega) hfl).2 (.inr ⟨h1, by omega⟩)⟩) (EvP.neg (by omega) ?_)
    simp only [Nat.reduceEqDiff, if_false, if_true, enc_len (show 117 < 128 by omega)]
    refine EvP.prim (appendUnicodeBraces (s := { s with pos := s.pos + 1 + 1 }) h2 h3 h4 hh2) ?_
    exact e2

/-- A `$`. -/
theorem esc_dollar {R : Res (GoStr × List Expr) → Prop} {rs : List Nat} {e : Expr} {l : List Expr} {u : St} (h : Here env s.pos (c%'$' :: rs)) (hlt : (s.pos : Int) < end_)
    (hl : l = (if buf.isEmpty then segs else segs ++ [.string ⟨s.tsp, ((s.pos + 1 : Nat) : Int) - s.tsp⟩ buf]) ++ [e])
    (h1 : EvP env (fun self => interpolate self s.pos) { s with pos := s.pos + 1 } e u)
    (h2 : EvR env (fun self => self (.escapes end_ k (flagBytes fl) true [] l)) { u with tsp := u.pos } R) :
    EvR env (fun self => self (.escapes end_ k (flagBytes fl) true buf segs)) s R := by
  refine EvN.def (m := fun self => escapesBody self end_ k (flagBytes fl) true buf segs) ?_ (fun _ => rfl)
  unfold escapesBody
  refine EvP.prim (next_here h) ?_
  dsimp only [List.cons_append, headC_cons, width_cons]
  refine EvP.neg (by simp; omega) (EvP.pos (by simp) (EvP.pos ⟨rfl, rfl⟩ ?_))
  rw [enc_len (show 36 < 128 by omega)]
  refine EvP.bind (a := l) (t := { u with tsp := u.pos }) ?_ h2
  unfold handleInterpolation
  ev
  refine EvP.bind h1 ?_
  ev
  subst hl
  exact EvP.ret

/-- The loop over the text of a heredoc with interpolation. -/
theorem textParts_exec {prev : Tok} {ps : List Expr} (hfac : env.hasFactory = true) (hfl : ∀ x ∈ fl, x ∈ flagLetters)
    (hp : TextParts env fl k after prev ps src) (h0 : ∀ c ∈ src, c ≠ 0) (hfin : HdTail src after)
    (hh : Here env s.pos (src ++ after)) (hend : end_ = s.pos + (utf8 src).length) (hn : s.nls = none)
    (htok : s.tok = prev ∨ (prev = .listStart ∧ s.tok = .lb)) (hgood : Good env s.bol s.pos) :
    ∃ segs' buf' t, EvN env (.escapes end_ k (flagBytes fl) true [] segs) s (buf', segs ++ segs') t ∧ ps = bareL segs' ++ textPart buf' ∧
      t.nls = none ∧ t.names = s.names := by
  induction hp generalizing s segs with
  | @last prev src out hm =>
    obtain ⟨t, e1, e2⟩ := means_exec (buf := []) (segs := segs) (end_ := end_) hfl hm h0 hfin hh hend
    refine ⟨[], out, t, by simpa using e2, by simp, by rw [e1]; exact hn, by rw [e1]⟩
  | @name prev src out v cs ps rs hm hsp _ ih =>
    obtain ⟨y, rfl⟩ := hm.suffix
    have hd : Here env (s.pos + (utf8 y).length) (c%'$' :: (cs ++ (rs ++ after))) := by
      have := Here.append (ws := y) (rs := c%'$' :: (cs ++ (rs ++ after))) (by simpa using hh)
      exact this
    have hd1 := hd.tail1 (by omega)
    obtain ⟨e, t, a1, a2, a3, a4, a5, a6, a7, a8⟩ := interp_name (start := s.pos + (utf8 y).length) (s := { s with pos := s.pos + (utf8 y).length + 1 }) hsp hd1 hn
    have hle : s.pos + (utf8 y).length + 1 ≤ t.pos := a8
    have hl1 := hh.length
    have hl2 := a7.length
    simp only [utf8_append, List.length_append] at hl1 hl2 hend
    have hg2 : Good env t.bol t.pos := by
      rw [a6]
      exact hgood.mono (by omega)
    have hsuf : ∃ z, y ++ c%'$' :: (cs ++ rs) = z ++ rs := ⟨y ++ c%'$' :: cs, by simp⟩
    obtain ⟨z, hz⟩ := hsuf
    obtain ⟨segs', buf', t', e1, e2, e3, e4⟩ := ih (s := { t with tsp := t.pos })
      (segs := (if out.isEmpty then segs else segs ++ [.string ⟨s.tsp, ((s.pos + (utf8 y).length + 1 : Nat) : Int) - s.tsp⟩ out]) ++ [e])
      (fun c hc => h0 c (by rw [hz]; simp [hc])) (by rw [hz] at hfin; exact hfin.append) a7 (by dsimp only; omega) a5 (.inl a3) hg2
    obtain ⟨p1, p2⟩ := part_text (buf := out) (segs := segs) (ps' := segs') (q := ⟨s.tsp, ((s.pos + (utf8 y).length + 1 : Nat) : Int) - s.tsp⟩) a2
    rw [p1] at e1
    refine ⟨_, buf', t', meansTo_exec (end_ := end_) hfl hm (by simp) h0 hfin hh (by simp only [utf8_append, List.length_append]; omega) fun q b1 b2 => ?_,
      by rw [p2, e2]; simp, e3, e4.trans a4⟩
    have hq : q = s.pos + (utf8 y).length := by omega
    subst hq
    exact esc_dollar (s := { s with pos := s.pos + (utf8 y).length }) hd (by have := encodeRune_length_pos 36; simp only [utf8_cons, List.length_append] at hend; dsimp only; omega) (by simp) a1 e1
  | @expr prev src out ts e e' ps inner rs hm hg hv hl _ ih =>
    obtain ⟨y, rfl⟩ := hm.suffix
    have hd : Here env (s.pos + (utf8 y).length) (c%'$' :: c%'{' :: (inner ++ (rs ++ after))) := by
      have := Here.append (ws := y) (rs := c%'$' :: c%'{' :: (inner ++ (rs ++ after))) (by simpa using hh)
      exact this
    have hb : Here env (s.pos + (utf8 y).length + 1) (123 :: (inner ++ (rs ++ after))) := hd.tail1 (by omega)
    have hts : ts ≠ [] := by
      obtain ⟨t, r, rfl, -⟩ := G_first (hg [])
      simp
    obtain ⟨hrd, -⟩ := layout_ready hfac hl (Ending.brace env (rs ++ after) (Good env)) ⟨rfl, fun s h1 h2 h3 => ⟨h1, h2, h3⟩⟩ ⟨fun _ _ _ _ => trivial, fun _ _ => trivial, fun _ _ _ => trivial, fun _ _ _ => trivial⟩
      { s with pos := s.pos + (utf8 y).length + 1 + 1 }
      { s with pos := s.pos + (utf8 y).length + 1 + 1 } s.bol .refl (fun _ => rfl) (fun _ => rfl) hn htok (hb.tail1 (by omega)) ⟨by simpa using hgood.mono (by omega), .inl rfl⟩
    obtain ⟨s1, r1, r2, r3, r4⟩ := hrd s.val s.names s.defs
    obtain ⟨c, p, u, r5, r6, r7⟩ := r4 (.inl hts)
    obtain ⟨e, t, a1, a2, a3, a4, a5, a6, a7⟩ := interp_expr (start := s.pos + (utf8 y).length) (s := { s with pos := s.pos + (utf8 y).length + 1 }) hg hv hb r1 r5 r6 r7
    have hl1 := hh.length
    have hl2 := a7.length
    simp only [utf8_append, List.length_append] at hl1 hl2 hend
    have hsuf : ∃ z, y ++ c%'$' :: c%'{' :: (inner ++ rs) = z ++ rs := ⟨y ++ c%'$' :: c%'{' :: inner, by simp⟩
    obtain ⟨z, hz⟩ := hsuf
    obtain ⟨segs', buf', t', e1, e2, e3, e4⟩ := ih (s := { t with tsp := t.pos })
      (segs := (if out.isEmpty then segs else segs ++ [.string ⟨s.tsp, ((s.pos + (utf8 y).length + 1 : Nat) : Int) - s.tsp⟩ out]) ++ [e])
      (fun c hc => h0 c (by rw [hz]; simp [hc])) (by rw [hz] at hfin; exact hfin.append) a7 (by dsimp only; omega) a5 (.inl a3) a6
    obtain ⟨p1, p2⟩ := part_text (buf := out) (segs := segs) (ps' := segs') (q := ⟨s.tsp, ((s.pos + (utf8 y).length + 1 : Nat) : Int) - s.tsp⟩) a2
    rw [p1] at e1
    refine ⟨_, buf', t', meansTo_exec (end_ := end_) hfl hm (by simp) h0 hfin hh (by simp only [utf8_append, List.length_append]; omega) fun q b1 b2 => ?_,
      by rw [p2, e2]; simp, e3, e4.trans a4⟩
    have hq : q = s.pos + (utf8 y).length := by omega
    subst hq
    exact esc_dollar (s := { s with pos := s.pos + (utf8 y).length }) hd (by have := encodeRune_length_pos 36; simp only [utf8_cons, List.length_append] at hend; dsimp only; omega) (by simp) a1 e1

/-- `consumeHeredocString`, just behind `@(`. -/
theorem consume_textHeredoc {prev : Tok} {ps : List Expr} {syn decl text ln : List Nat} {start T0 : Nat} (hfac : env.hasFactory = true)
    (hI : IsTextHeredoc env prev syn src ps decl text after) (hex : ∃ e, .un z .text e ∈ ps) (hln : RestOfLine ln)
    (hst : s.pos = start + 2) (hn : s.nls = none) (hh : Here env s.pos (decl ++ c%')' :: (ln ++ c%'\n' :: (text ++ after))))
    (hT : s.pos + (utf8 decl).length + 1 + (utf8 ln).length + 1 = T0)
    (htok : s.tok = prev ∨ (prev = .listStart ∧ s.tok = .lb)) (hgood : Good env s.bol s.pos) :
    ∃ segs u, EvP env (fun self => consumeHeredocString self) s () u ∧ bareL segs = ps ∧ u.tok = .heredoc ∧
      u.val = .expr (.heredoc ⟨start, (T0 : Int) + (utf8 src).length - (start : Nat)⟩ (utf8 syn) (.concat ⟨T0, (utf8 src).length⟩ segs)) ∧
      u.pos = s.pos + (utf8 decl).length + 1 ∧ u.nls = some (T0 + (utf8 text).length + 1) ∧ u.names = s.names := by
  cases hI with
  | @mk tag _ fo _ ls bs m bs' dash margin _ cut _ ht hd hl hw hm hw' hne he hcut hps =>
    have hcut : unlines ls ++ (bs ++ m ++ tag ++ bs' ++ after) = body dash ls ++ cut := by rw [← hcut]; simp
    have hh : Here env s.pos (decl ++ c%')' :: (ln ++ c%'\n' :: (unlines ls ++ (bs ++ m ++ tag ++ bs' ++ after)))) := by simpa using hh
    have hrt : ∀ r ∈ tag, Rune r := fun r hr => hh.runes r (by simp [hr])
    have hfl : ∀ x ∈ fo.getD [], x ∈ flagLetters := by
      rcases hd with _ | _ | ⟨_, h⟩ | ⟨_, _, h⟩
      · intro x hx; cases hx
      · intro x hx; cases hx
      · exact h
      · exact h
    obtain ⟨h, hD, hd1⟩ := decl_exec ht hd hh
    have h3 : Here env (s.pos + (utf8 decl).length + 1) (ln ++ c%'\n' :: (unlines ls ++ (bs ++ m ++ tag ++ bs' ++ after))) :=
      hh.append.tail1 (by decide)
    have h2 : Here env (s.pos + (utf8 decl).length + 1 + (utf8 ln).length + 1) (unlines ls ++ (bs ++ m ++ tag ++ bs' ++ after)) :=
      h3.append.tail1 (by decide)
    have hf1 : ln.length < charFuel env := by
      have := Here.fuel (ws := ln) h3
      omega
    have hf2 : (unlines ls).length < charFuel env := by
      have := Here.fuel (ws := unlines ls) h2
      omega
    have hprev : env.text[s.pos + (utf8 decl).length + 1 + (utf8 ln).length + 1 - 1]? = some 10 := by
      have := h3.append.drop
      rw [utf8_cons, encodeRune_ascii (by omega)] at this
      rw [Nat.add_sub_cancel, ← Nat.add_zero (s.pos + (utf8 decl).length + 1 + (utf8 ln).length), ← List.getElem?_drop, this]
      rfl
    rw [hT] at h2 hprev
    have hT1 : s.pos + 1 + 1 ≤ T0 := by omega
    obtain ⟨hce, after', hsplit, hfin⟩ := contentEnd_exec (dash := dash) hne (by omega) hprev h2
    have hca : cut = after' := List.append_cancel_left (hcut.symm.trans hsplit)
    subst hca
    have h4 : Here env T0 (body dash ls ++ cut) := hsplit ▸ h2
    have hzero : ∀ c ∈ body dash ls, c ≠ 0 := fun c hc => unlines_mem hl (body_mem hc)
    have hbne : body dash ls ≠ [] := by
      intro h
      rw [h, show strip margin [] = [] by unfold strip; split <;> simp] at hps
      obtain ⟨e, hex⟩ := hex
      cases hps with
      | last hm =>
        cases hm
        cases hex
      | name hm => exact absurd hm.nil (by simp)
      | expr hm => exact absurd hm.nil (by simp)
    obtain ⟨f', hf', hlines⟩ := text_lines (env := env) (hs := s.pos - 2) (f := charFuel env) (sup := false) (indent := 0) (s := { s with pos := T0, nls := none }) ht hrt hl hf2 h2
    obtain ⟨f', rfl⟩ : ∃ g, f' = g + 1 := ⟨f' - 1, by omega⟩
    obtain ⟨t, ht', hend⟩ := end_line (env := env) (hs := s.pos - 2) (f := f') (s := { s with pos := T0 + (utf8 (unlines ls)).length, nls := none }) ht hrt hw hm hw' he hce h2.append
    have hfb : (fo.map flagBytes).getD [] = flagBytes (fo.getD []) := by cases fo <;> rfl
    obtain ⟨p, k1, k2, k3⟩ := strip_exec (s := { t with pos := T0 }) (k := margin) hbne hfin h4
    obtain ⟨w, hw2⟩ := strip_suffix margin (body dash ls)
    have hple : T0 ≤ p := by
      have g1 := congrArg (fun x => (utf8 x).length) hw2
      simp only [utf8_append, List.length_append] at g1
      dsimp only at k3
      omega
    obtain ⟨segs', buf', u, e1, e2, e3, e4⟩ := textParts_exec (s := { t with pos := p }) (segs := []) (end_ := ((T0 + (utf8 (body dash ls)).length : Nat) : Int))
      hfac hfl hps (fun x hx => hzero x (by rw [hw2]; simp [hx])) hfin.strip k2 (by dsimp only at k3 ⊢; omega) (by rw [ht']) (by rw [ht']; exact htok)
      (by rw [ht']; exact hgood.mono (by dsimp only; omega))
    have hne' : segs' ≠ [] := by
      rintro rfl
      obtain ⟨e, hex⟩ := hex
      rw [e2] at hex
      simp only [bareL_nil, List.nil_append, textPart] at hex
      split at hex <;> simp at hex
    have hlen : (((T0 + (utf8 (body dash ls)).length : Nat) : Int) - (T0 : Int)) = (utf8 (body dash ls)).length := by omega
    refine ⟨if buf'.isEmpty then segs' else segs' ++ [.string ⟨u.tsp, (u.pos : Int) - u.tsp⟩ buf'], { u with
      pos := s.pos + (utf8 decl).length + 1, nls := some (T0 + (utf8 (unlines ls ++ (bs ++ m ++ tag ++ bs'))).length + 1), tok := .heredoc,
      val := .expr (.heredoc ⟨start, (T0 : Int) + (utf8 (body dash ls)).length - (start : Nat)⟩ (utf8 syn) (.concat ⟨T0, (utf8 (body dash ls)).length⟩
        (if buf'.isEmpty then segs' else segs' ++ [.string ⟨u.tsp, (u.pos : Int) - u.tsp⟩ buf']))) }, ?_, ?_, rfl, rfl, rfl, rfl, e4.trans (by rw [ht'])⟩
    · unfold consumeHeredocString
      refine EvP.prim ex_getEnv ?_
      refine EvP.prim ex_getPos ?_
      refine EvP.prim hd1 ?_
      refine EvP.prim ex_getPos ?_
      refine EvP.neg (by rw [hD.tag, utf8_ne ht.ne]; decide) ?_
      refine EvP.prim (peek_here (s := { s with pos := s.pos + (utf8 decl).length + 1 }) h3) ?_
      refine EvP.prim (findStart_exec (s := { s with pos := s.pos + (utf8 decl).length + 1 }) hln h3 hf1) ?_
      refine EvP.prim ex_getPos ?_
      dsimp only
      simp only [hn, Option.getD_none]
      rw [hT]
      rw [hD.tag]
      refine EvP.prim (hlines.trans hend) ?_
      dsimp only
      rw [hD.flags, hD.quote, hD.syn]
      rw [hfb, hfac, Bool.and_true]
      rw [hlen]
      refine EvP.pos (.inr (.inl rfl)) ?_
      refine EvP.prim ex_setPos ?_
      refine EvP.prim k1 ?_
      refine EvP.bind e1 ?_
      refine EvP.prim ex_getS ?_
      rw [List.nil_append]
      refine EvP.neg (by simpa using hne') ?_
      cases hb : buf'.isEmpty
      · simp only [Bool.false_eq_true, if_false]
        refine EvP.prim ex_pure ?_
        refine EvP.of ?_
        unfold heredocDone
        ex
        have : (segs' ++ [Expr.string ⟨u.tsp, (u.pos : Int) - u.tsp⟩ buf']).isEmpty = false := by simp
        simp only [this, if_true, utf8_append, List.length_append]
        push_cast
        simp only [hst, Nat.add_sub_cancel, Nat.add_assoc]
      · simp only [if_true]
        refine EvP.prim ex_pure ?_
        refine EvP.of ?_
        unfold heredocDone
        ex
        have : segs'.isEmpty = false := by simpa using hne'
        simp only [this, if_true, utf8_append, List.length_append]
        push_cast
        simp only [hst, Nat.add_sub_cancel, Nat.add_assoc]
    · rw [e2]
      cases buf' <;> simp [textPart, bare]

end
end PP
