import Verif.Lemmas.Decode2

/-! # The decoder inverts `ToPN`: all classes. -/
namespace PP.Decode
open PP.Spec PP.Props

theorem params_of {ps : List Expr} {m : List (GoStr × PN)} (h : Expr.paramsEntry ps = .ok m)
    (H : ∀ ms, Expr.paramEntries ps = .ok ms → BackPs ps ms) : BackParams ps m := by
  cases ps with
  | nil =>
    simp only [Expr.paramsEntry, Except.ok.injEq] at h
    subst h
    exact .nil
  | cons e es =>
    rw [Expr.paramsEntry] at h
    obtain ⟨x, h1, h⟩ := bindOk h
    obtain ⟨xs, h2, h⟩ := bindOk h
    obtain ⟨q, h3, h⟩ := bindOk h
    have := mkMapOk h3
    subst this
    injection h with h
    subst h
    exact .cons (H _ (by rw [Expr.paramEntries, h1]; simp only [bind, Except.bind, h2]; rfl))

theorem canon_epp {e : Expr} {b : Bool} {x : Expr} {q : Pos} (h : canon e = .epp q b x)
    (hv : isValue e = true ∨ ∃ p es, e = .commaSep p es) : False := by
  rcases hv with hv | ⟨p, es, rfl⟩
  · cases e <;> first | cases hv; done | (simp only [canon] at h; cases h; done) | skip
  · simp only [canon] at h
    cases h

theorem dec_epp {n : Nat} {c : Ctx} {es : List PN} {x : Expr} (h : dec n c (.call b!"epp" es) = some x) :
    ∃ q b y, x = .epp q b y := by
  cases n with
  | zero => cases h
  | succ n =>
    have : head b!"epp" = some .epp := by decide
    simp only [dec, this, Option.bind_eq_bind, Option.bind_some, decH] at h
    obtain ⟨ss, -, h⟩ := Option.bind_eq_some_iff.1 h
    injection h with h
    exact ⟨_, _, _, h.symm⟩

theorem body_read {t : Expr} {p : PN} (hb : isBlock t = true) (hw : WellFormed t) (h : Expr.toPN t = .ok p)
    (H : Back t p) : Ev (fun n => decB (dec n .value) (Expr.blockEntry t p)) (canon t) := by
  cases t <;> try (cases hb; done)
  rename_i q ss
  rw [Expr.toPN] at h
  obtain ⟨ps, h1, h2⟩ := bindOk h
  injection h2 with h2
  subst h2
  change Ev (fun n => dec n .value (.call b!"block" ps)) _ at H
  have hne : ∀ es, ps ≠ [.call b!"epp" es] := by
    rintro es rfl
    obtain ⟨N, H⟩ := H
    have H := H (N + 1) (by omega)
    have hh : head b!"block" = some .block := by decide
    simp only [dec, hh, Option.bind_eq_bind, Option.bind_some, decH, decL, canon] at H
    obtain ⟨xs, hx, H⟩ := Option.bind_eq_some_iff.1 H
    obtain ⟨x, hx1, hx⟩ := Option.bind_eq_some_iff.1 hx
    injection hx with hx
    subst hx
    injection H with H
    injection H with _ H
    obtain ⟨_, _, _, rfl⟩ := dec_epp hx1
    cases ss with
    | nil => simp [canonL] at H
    | cons e ss =>
      rw [canonL] at H
      injection H with H _
      exact canon_epp H.symm (hw _ (List.mem_cons_self ..))
  have : ∀ n, decB (dec n .value) (.list ps) = dec n .value (.call b!"block" ps) := by
    intro n
    unfold decB
    split
    · rename_i n' es he
      injection he with he
      subst he
      rw [if_neg]
      rintro rfl
      exact hne es rfl
    · rename_i he
      injection he with he
      subst he
      rfl
    · rename_i he1 he2
      exact absurd rfl (he2 _)
  show Ev (fun n => decB (dec n .value) (.list ps)) _
  simp only [this]
  exact H

theorem decO_some {r : Nat → PN → Option Expr} {p : PN} {x : Expr} (h : Ev (fun n => r n p) x) :
    Ev (fun n => decO (r n) (some p)) (some x) := h.bind (Ev.pure _)

theorem join_some {α β : Type} {x : α} {f : Nat → α → Option β} {y : β} (h : Ev (fun n => f n x) y) :
    Ev (fun n => some x >>= f n) y := h

theorem BackO.read {k : GoStr} {o : Option Expr} {m : List (GoStr × PN)} (h : BackO k o m)
    (hc : ∀ e, o = Option.some e → ctxOf e = .value) : Ev (fun n => decO (dec n .value) (m.lookup k)) (canonO o) := by
  cases h with
  | none => exact Ev.pure _
  | some h =>
    simp only [List.lookup_cons, beq_self_eq_true]
    exact decO_some (h.as (hc _ rfl))

end PP.Decode
