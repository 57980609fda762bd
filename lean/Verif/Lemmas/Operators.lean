import Verif.Spec.Operators

namespace PP
open PP.Spec

/-- The phrase of the rank. -/
def At : Nat → Expr → List T → Prop
  | 0, e, ts => G [] (.bin .rel) e ts
  | 1, e, ts => G [] .assign e ts
  | 2, e, ts => G [] (.bin .or) e ts
  | 3, e, ts => G [] (.bin .and) e ts
  | 4, e, ts => G [] (.bin .compare) e ts
  | 5, e, ts => G [] (.bin .equal) e ts
  | 6, e, ts => G [] (.bin .shift) e ts
  | 7, e, ts => G [] (.bin .additive) e ts
  | 8, e, ts => G [] (.bin .mult) e ts
  | 9, e, ts => G [] (.bin .match_) e ts
  | 10, e, ts => G [] (.bin .in_) e ts
  | 11, e, ts => G [] .unary e ts
  | _, e, ts => G [] .primary e ts

theorem At.up {n : Nat} {e : Expr} {ts : List T} (h : At (n + 1) e ts) (hs : ∀ k, ts ≠ [.style k]) : At n e ts := by
  match n with
  | 0 => exact G.operand (G.opdRel h)
  | 1 => exact G.noAssign (G.noResource (G.sel (G.noSelector h)) hs)
  | 2 => exact G.operand (G.opdTighter (l := .or) (l' := .and) rfl h)
  | 3 => exact G.operand (G.opdTighter (l := .and) (l' := .compare) rfl h)
  | 4 => exact G.operand (G.opdTighter (l := .compare) (l' := .equal) rfl h)
  | 5 => exact G.operand (G.opdTighter (l := .equal) (l' := .shift) rfl h)
  | 6 => exact G.operand (G.opdTighter (l := .shift) (l' := .additive) rfl h)
  | 7 => exact G.operand (G.opdTighter (l := .additive) (l' := .mult) rfl h)
  | 8 => exact G.operand (G.opdTighter (l := .mult) (l' := .match_) rfl h)
  | 9 => exact G.operand (G.opdTighter (l := .match_) (l' := .in_) rfl h)
  | 10 => exact G.operand (G.opdIn h)
  | 11 => exact G.primary h
  | n + 12 => exact h

theorem At.le {n m : Nat} {e : Expr} {ts : List T} (hn : n ≤ m) (hs : ∀ k, ts ≠ [.style k]) (h : At m e ts) : At n e ts := by
  induction hn with
  | refl => exact h
  | step _ ih => exact ih (h.up hs)

theorem At.prim {n : Nat} {e : Expr} {ts : List T} (hs : ∀ k, ts ≠ [.style k]) (h : G [] .atom e ts) : At n e ts := by
  have : At (n + 12) e ts := G.prim (G.atom h)
  exact At.le (by omega) hs this

theorem At.binary {l : Lvl} {t : T} {k : BinKind} {a b : Expr} {ta tb : List T} (h : operator l t = some k) (ha : At (rank l) a ta)
    (hb : At (rank l + 1) b tb) : At (rank l) (.bin z k a b) (ta ++ t :: tb) := by
  cases l with
  | rel => exact G.binary ha h (G.opdRel hb)
  | in_ => exact G.binary ha h (G.opdIn hb)
  | or => exact G.binary ha h (G.opdTighter (l' := .and) rfl hb)
  | and => exact G.binary ha h (G.opdTighter (l' := .compare) rfl hb)
  | compare => exact G.binary ha h (G.opdTighter (l' := .equal) rfl hb)
  | equal => exact G.binary ha h (G.opdTighter (l' := .shift) rfl hb)
  | shift => exact G.binary ha h (G.opdTighter (l' := .additive) rfl hb)
  | additive => exact G.binary ha h (G.opdTighter (l' := .mult) rfl hb)
  | mult => exact G.binary ha h (G.opdTighter (l' := .match_) rfl hb)
  | match_ => exact G.binary ha h (G.opdTighter (l' := .in_) rfl hb)

theorem leaf_dropParens {t : T} {e : Expr} (h : leafOf t = some e) : dropParens e = e := by
  cases t with
  | word k => cases k <;> simp only [leafOf, Option.some.injEq, reduceCtorEq] at h <;> subst h <;> rfl
  | sym k => simp [leafOf] at h
  | sign k => simp [leafOf] at h
  | brace => simp [leafOf] at h
  | _ => simp only [leafOf, Option.some.injEq] at h; subst h; rfl

theorem written_style {n : Nat} {e : Expr} {ts : List T} (h : Written n e ts) : ∀ k, ts ≠ [.style k] := by
  have mid : ∀ {a b : List T} {t : T}, (∀ k, t ≠ .style k) → ∀ k, a ++ t :: b ≠ [.style k] := by
    intro a b t ht k he
    cases a with
    | nil => exact ht k (by simpa using he : t = .style k ∧ b = []).1
    | cons c a => simp at he
  cases h with
  | leaf _ hs => intro k he; exact hs k (by simpa using he)
  | binary h =>
    refine mid ?_
    rintro k rfl
    rename_i l _ _ _ _ _ _ _ _
    cases l <;> cases h
  | assign h => refine mid ?_; rintro k rfl; cases h
  | not => exact fun k => by simp
  | minus => exact fun k => by simp
  | parens hp =>
    intro k he
    have := congrArg List.length he
    simp at this

theorem written_at {n : Nat} {e : Expr} {ts : List T} (h : Written n e ts) : ∃ e', At n e' ts ∧ dropParens e' = e := by
  induction h with
  | leaf h hs => exact ⟨_, At.prim (fun k he => hs k (by simpa using he)) (G.leaf h), leaf_dropParens h⟩
  | binary h hn wa wb iha ihb =>
    have hw := Written.binary h hn wa wb
    obtain ⟨a, ha, rfl⟩ := iha
    obtain ⟨b, hb, rfl⟩ := ihb
    exact ⟨_, At.le hn (written_style hw) (At.binary h ha hb), rfl⟩
  | assign h hn wa wb iha ihb =>
    have hw := Written.assign h hn wa wb
    obtain ⟨a, ha, rfl⟩ := iha
    obtain ⟨b, hb, rfl⟩ := ihb
    have : At 1 (.bin z (.assignment _) a b) _ := G.assign (G.noResource (G.sel (G.noSelector ha)) (written_style wa)) h hb
    exact ⟨_, At.le hn (written_style hw) this, rfl⟩
  | not hn wa ih =>
    have hw := Written.not hn wa
    obtain ⟨a, ha, rfl⟩ := ih
    have : At 11 (.un z .not a) _ := G.not ha
    exact ⟨_, At.le hn (written_style hw) this, rfl⟩
  | minus hn wa hs ih =>
    have hw := Written.minus hn wa hs
    obtain ⟨a, ha, rfl⟩ := ih
    have : At 11 (.un z .minus a) _ := G.minus ha hs
    exact ⟨_, At.le hn (written_style hw) this, rfl⟩
  | parens hp _ ih =>
    obtain ⟨a, ha, rfl⟩ := ih
    exact ⟨_, At.prim (fun k he => by simpa using congrArg List.length he) (G.paren hp ha), rfl⟩

end PP
