import Verif.Lemmas.Heredoc

/-! # Heredocs as tokens -/
namespace PP
open PP.Spec

section
variable {env : Env} {s : St} {rest tag cs syn ln : List Nat}

theorem body_mem {dash : Bool} {ls : List (List Nat)} {c : Nat} (h : c ∈ body dash ls) : c ∈ unlines ls := by
  unfold body at h
  split at h
  · unfold chomp at h
    split at h
    · exact (List.dropLast_subset _) ((List.dropLast_subset _) h)
    · exact (List.dropLast_subset _) h
  · exact h

theorem unlines_mem {ls : List (List Nat)} {c : Nat} (hl : ∀ l ∈ ls, TextLine tag l) (h : c ∈ unlines ls) : c ≠ 0 := by
  obtain ⟨l, h1, h2⟩ := List.mem_flatMap.1 h
  rcases List.mem_append.1 h2 with h2 | h2
  · exact ((hl l h1).chars c h2).1
  · rw [List.mem_singleton] at h2; subst h2; decide

/-- `consumeHeredocString`, just behind `@(`.  `T0` is where the text begins. -/
theorem heredoc_exec {q dash : Bool} {fl : Option (List Nat)} {ls : List (List Nat)} {bs m bs' after : List Nat} {margin T0 : Nat} {out : GoStr}
    (hfac : env.hasFactory = true) (ht : IsTag tag) (hrt : ∀ r ∈ tag, Rune r) (hd : Decl tag q syn fl cs) (hln : RestOfLine ln)
    (h1 : Here env s.pos (cs ++ c%')' :: (ln ++ c%'\n' :: rest)))
    (hT0 : T0 = s.nls.getD (s.pos + (utf8 cs).length + 1 + (utf8 ln).length + 1)) (hT : 1 ≤ T0) (hprev : env.text[T0 - 1]? = some 10)
    (h2 : Here env T0 (unlines ls ++ (bs ++ m ++ tag ++ bs' ++ after)))
    (hl : ∀ l ∈ ls, TextLine tag l) (hb : Ws bs) (hm : Mark bs.length m dash margin) (hb' : Ws bs') (he : AtEol after)
    (hne : dash = true → ls ≠ [])
    (hmeans : Means (fl.getD []) q margin (strip margin (body dash ls)) out) :
    EvP env (fun self => consumeHeredocString self) s ()
      { s with pos := s.pos + (utf8 cs).length + 1,
               nls := some (T0 + (utf8 (unlines ls ++ (bs ++ m ++ tag ++ bs'))).length + 1),
               tok := .heredoc,
               val := .expr (.heredoc ⟨s.pos - 2, (T0 : Int) + (utf8 (body dash ls)).length - (s.pos - 2 : Nat)⟩ (utf8 syn)
                 (.string ⟨T0, (utf8 (body dash ls)).length⟩ out)) } := by
  have hfl : ∀ x ∈ fl.getD [], x ∈ flagLetters := by
    rcases hd with _ | _ | ⟨_, h⟩ | ⟨_, _, h⟩
    · intro x hx; cases hx
    · intro x hx; cases hx
    · exact h
    · exact h
  obtain ⟨hce, after', hsplit, hfin⟩ := contentEnd_exec (dash := dash) hne hT hprev h2
  obtain ⟨h, hD, hd1⟩ := decl_exec ht hd h1
  have h3 : Here env (s.pos + (utf8 cs).length + 1) (ln ++ c%'\n' :: rest) := by
    have := h1.append
    exact this.tail1 (by decide)
  have hf1 : ln.length < charFuel env := by
    have := Here.fuel (ws := ln) h3
    omega
  have hf2 : (unlines ls).length < charFuel env := by
    have := Here.fuel (ws := unlines ls) h2
    omega
  have h4 : Here env T0 (body dash ls ++ after') := hsplit ▸ h2
  unfold consumeHeredocString
  refine EvP.prim ex_getEnv ?_
  refine EvP.prim ex_getPos ?_
  refine EvP.prim hd1 ?_
  refine EvP.prim ex_getPos ?_
  refine EvP.neg (by rw [hD.tag, utf8_ne ht.ne]; decide) ?_
  refine EvP.prim (peek_here (s := { s with pos := s.pos + (utf8 cs).length + 1 }) h3) ?_
  refine EvP.prim (findStart_exec (s := { s with pos := s.pos + (utf8 cs).length + 1 }) hln h3 hf1) ?_
  refine EvP.prim ex_getPos ?_
  dsimp only
  rw [← hT0]
  obtain ⟨f', hf', hlines⟩ := text_lines (env := env) (hs := s.pos - 2) (f := charFuel env) (sup := false) (indent := 0) (s := { s with pos := T0, nls := none }) ht hrt hl hf2 h2
  obtain ⟨f', rfl⟩ : ∃ g, f' = g + 1 := ⟨f' - 1, by omega⟩
  obtain ⟨t, ht', hend⟩ := end_line (env := env) (hs := s.pos - 2) (f := f') (s := { s with pos := T0 + (utf8 (unlines ls)).length, nls := none }) ht hrt hb hm hb' he hce h2.append
  rw [hD.tag]
  refine EvP.prim (hlines.trans hend) ?_
  dsimp only
  rw [hD.flags, hD.quote, hD.syn]
  have hzero : ∀ c ∈ body dash ls, c ≠ 0 := fun c hc => unlines_mem hl (body_mem hc)
  have hfb : (fl.map flagBytes).getD [] = flagBytes (fl.getD []) := by cases fl <;> rfl
  rw [hfb, hfac, Bool.and_true]
  have hlen : (((T0 + (utf8 (body dash ls)).length : Nat) : Int) - (T0 : Int)) = (utf8 (body dash ls)).length := by omega
  rw [hlen]
  have fin : ∀ u : St, u = { s with pos := u.pos, nls := u.nls } → EvP env (fun _ => do
        heredocDone (s.pos + (utf8 cs).length + 1) (T0 + (utf8 (unlines ls)).length + (utf8 (bs ++ m ++ tag ++ bs')).length)
        setTokenValue .heredoc (.expr (.heredoc ⟨s.pos - 2, ((T0 + (utf8 (body dash ls)).length : Nat) : Int) - (s.pos - 2 : Nat)⟩ (utf8 syn)
          (.string ⟨T0, (utf8 (body dash ls)).length⟩ out)))) u ()
      { s with pos := s.pos + (utf8 cs).length + 1,
               nls := some (T0 + (utf8 (unlines ls ++ (bs ++ m ++ tag ++ bs'))).length + 1),
               tok := .heredoc,
               val := .expr (.heredoc ⟨s.pos - 2, (T0 : Int) + (utf8 (body dash ls)).length - (s.pos - 2 : Nat)⟩ (utf8 syn)
                 (.string ⟨T0, (utf8 (body dash ls)).length⟩ out)) } := by
    intro u hu
    refine EvP.of ?_
    unfold heredocDone
    ex
    rw [hu]
    simp only [utf8_append, List.length_append]
    push_cast
    simp only [Nat.add_assoc]
  by_cases hc : (fl.map flagBytes).isSome = true ∨ q = true ∨ 0 < margin
  · obtain ⟨p, k1, t2, k2, k3⟩ := means_start (env := env) (s := { t with pos := T0 }) hfl hmeans hzero hfin h4 rfl
    refine EvP.pos hc ?_
    refine EvP.prim ex_setPos ?_
    refine EvP.prim k1 ?_
    refine EvP.bind k3 ?_
    refine EvP.prim ex_getS ?_
    refine EvP.pos rfl ?_
    refine EvP.prim ex_pure ?_
    have := fin t2 (by rw [k2, ht'])
    simpa using this
  · have hm0 : margin = 0 := by omega
    have hq0 : q = false := by simpa using fun h => hc (.inr (.inl h))
    have hfl0 : fl = none := by
      cases fl with
      | none => rfl
      | some x => exact absurd (.inl rfl) hc
    subst hm0 hq0 hfl0
    rw [strip_zero] at hmeans
    have hout := means_verbatim hmeans
    have hv : verbatimText env T0 (T0 + (utf8 (body dash ls)).length : Nat) = some out := by
      unfold verbatimText
      have hle := h4.append.le
      rw [if_pos ⟨by omega, by omega⟩, h4.drop, hout, Int.toNat_natCast, Nat.add_sub_cancel_left, utf8_append, List.take_left]
    refine EvP.neg hc ?_
    rw [hv]
    refine EvP.prim ex_pure ?_
    have := fin t (by rw [ht'])
    simpa using this

/-- What `consumeHeredocString` makes of a heredoc. -/
def heredocTree (start T0 : Nat) (syn src : List Nat) (out : GoStr) : Expr :=
  .heredoc ⟨start, (T0 : Int) + (utf8 src).length - (start : Nat)⟩ (utf8 syn) (.string ⟨T0, (utf8 src).length⟩ out)

/-- The state after a heredoc: `T0` is where its text begins. -/
def afterHeredoc (s : St) (start T0 : Nat) (syn src : List Nat) (out : GoStr) (decl text : List Nat) : St :=
  { s with pos := start + 2 + (utf8 decl).length + 1, nls := some (T0 + (utf8 text).length + 1), tok := .heredoc,
           val := .expr (heredocTree start T0 syn src out) }

theorem heredoc_at {src decl text after : List Nat} {start T0 : Nat} {out : GoStr} (hfac : env.hasFactory = true) (hI : IsHeredoc syn src out decl text)
    (hln : RestOfLine ln) (he : AtEol after) (h1 : Here env s.pos (decl ++ c%')' :: (ln ++ c%'\n' :: rest))) (hs : s.pos = start + 2)
    (hT0 : T0 = s.nls.getD (start + 2 + (utf8 decl).length + 1 + (utf8 ln).length + 1)) (hT : 1 ≤ T0) (hprev : env.text[T0 - 1]? = some 10)
    (h2 : Here env T0 (text ++ after)) :
    EvP env (fun self => consumeHeredocString self) s () (afterHeredoc s start T0 syn src out decl text) := by
  cases hI with
  | @mk tag quoted _ flags _ ls ws m ws' dash margin _ ht hd hl hw hm hw' hne hmeans =>
    have hrt : ∀ r ∈ tag, Rune r := fun r hr => h2.runes r (by simp [hr])
    have := heredoc_exec (env := env) (s := s) (T0 := T0) hfac ht hrt hd hln h1 (by rw [hT0, hs]) hT hprev
      (by simpa using h2) hl hw hm hw' he hne hmeans
    unfold afterHeredoc heredocTree
    rw [hs, Nat.add_sub_cancel] at this
    exact this

theorem lexAt_heredoc {src decl text after : List Nat} {start T0 scan : Nat} {out : GoStr} (hfac : env.hasFactory = true) (hI : IsHeredoc syn src out decl text)
    (hln : RestOfLine ln) (he : AtEol after) (h1 : Here env s.pos (c%'(' :: (decl ++ c%')' :: (ln ++ c%'\n' :: rest)))) (hs : s.pos = start + 1)
    (hT0 : T0 = s.nls.getD (start + 2 + (utf8 decl).length + 1 + (utf8 ln).length + 1)) (hT : 1 ≤ T0) (hprev : env.text[T0 - 1]? = some 10)
    (h2 : Here env T0 (text ++ after)) :
    EvP env (fun self => lexChar self scan c%'@' start) s () (afterHeredoc s start T0 syn src out decl text) := by
  have h3 : Here env (s.pos + 1) (decl ++ c%')' :: (ln ++ c%'\n' :: rest)) := h1.tail1 (by decide)
  obtain ⟨k, hk⟩ := (heredoc_at (env := env) (s := { s with pos := s.pos + 1 }) hfac hI hln he h3 (by simp only [hs]) hT0 hT hprev h2).ex
  refine ⟨k, fun f hf => ?_⟩
  have hk := hk f hf
  show lexChar (run f) scan 64 start env s = _
  unfold lexChar
  ex
  simp only [isUppercaseLetter, isLowercaseLetter]
  simp only [Nat.reduceEqDiff, Nat.reduceLeDiff, decide_true, decide_false, Bool.false_and, Bool.false_eq_true, if_false, if_true, false_and]
  unfold lexAt
  ex
  rw [peek_here h1]
  dsimp only [headC_cons, width_cons]
  simp only [Nat.reduceEqDiff, if_false, if_true]
  rw [enc_len (by omega)]
  exact hk

end
end PP
