import Verif.Lemmas.Decode3

/-! # The decoder inverts `ToPN`: the theorem. -/
namespace PP.Decode
open PP.Spec PP.Props

macro "kid" : term => `(term| by simp [Expr.kids])

theorem kind_head {o : GoStr} {k : BinKind} (h : (o, k) ∈ operators) : Expr.binOp k = o ∧
    (head o = some (.op k) ∨ (o = b!"-" ∧ k = .arithmetic b!"-")) := by
  revert h
  have : ∀ x ∈ operators, Expr.binOp x.2 = x.1 ∧ (head x.1 = some (.op x.2) ∨ (x.1 = b!"-" ∧ x.2 = .arithmetic b!"-")) := by
    decide
  exact this (o, k)

theorem resource_bodies {bs : List Expr} (hb : ∀ b ∈ bs, isBody b = true) : ∀ {ps}, Expr.pnMap bs = .ok ps →
    (ps.flatMap PN.asParameters).map (fun b => PN.call b!"resource-body" [b]) = ps := by
  induction bs with
  | nil =>
    intro ps h
    simp only [Expr.pnMap, Except.ok.injEq] at h
    subst h
    rfl
  | cons b bs ih =>
    intro ps h
    rw [Expr.pnMap] at h
    obtain ⟨p, h1, h⟩ := bindOk h
    obtain ⟨ps', h2, h⟩ := bindOk h
    injection h with h
    subst h
    have ih := ih (fun x hx => hb x (List.mem_cons_of_mem _ hx)) h2
    have hb := hb b (List.mem_cons_self ..)
    cases b <;> try (cases hb; done)
    rw [Expr.toPN] at h1
    obtain ⟨t, -, h1⟩ := bindOk h1
    obtain ⟨ops, -, h1⟩ := bindOk h1
    obtain ⟨m, h3, h1⟩ := bindOk h1
    have := mkMapOk h3
    subst this
    injection h1 with h1
    subst h1
    rw [List.flatMap_cons, List.map_append, ih]
    rfl

theorem form_read {f : Form} {m : List (GoStr × PN)} (h : m.lookup b!"form" = none) : formOf (m ++ Expr.formEntry f) = some f := by
  have : (m ++ Expr.formEntry f).lookup b!"form" = (Expr.formEntry f).lookup b!"form" := by
    rw [List.lookup_append, h]
    rfl
  unfold formOf
  rw [this]
  cases f <;> rfl

mutual
theorem back : ∀ (e : Expr), AllWell e → ∀ p, Expr.toPN e = .ok p → Back e p
  | .access q o ks, w, p, h => by
    rw [Expr.toPN] at h
    obtain ⟨a, h1, h⟩ := bindOk h
    obtain ⟨b, h2, h⟩ := bindOk h
    injection h with h
    subst h
    have wf := w.wf
    refine Ev.call (hd := .access) (by decide) ?_
    simp only [decH]
    rw [canon]
    exact ((back o (w.kid kid) a h1).as (ctx_operand wf.1)).bind
      (((backs ks (fun x hx => w.kid (by simp [Expr.kids, hx])) b h2).as fun x hx => ctx_value (wf.2 x hx)).bind (Ev.pure _))
  | .bin q k l r, w, p, h => by
    rw [Expr.toPN] at h
    obtain ⟨a, h1, h⟩ := bindOk h
    obtain ⟨b, h2, h⟩ := bindOk h
    injection h with h
    subst h
    have wf := w.wf
    obtain ⟨o, ho⟩ := w.kw
    obtain ⟨e1, e2⟩ := kind_head ho
    have cl : ctxOf l = .value := by
      cases k <;> first | exact ctx_value wf.1 | exact ctx_operand wf.1
    have cr : ctxOf r = .value := by
      cases k <;> exact ctx_value wf.2
    have bl := (back l (w.kid kid) a h1).as cl
    have br := (back r (w.kid kid) b h2).as cr
    rw [e1]
    unfold Back
    rw [canon]
    rcases e2 with e2 | ⟨rfl, rfl⟩
    · refine Ev.call e2 ?_
      simp only [decH]
      exact bl.bind (br.bind (Ev.pure _))
    · refine Ev.call (hd := .minus) (by decide) ?_
      simp only [decH]
      exact bl.bind (br.bind (Ev.pure _))
  | .un q k e, w, p, h => by
    have wf := w.wf
    unfold Back
    rw [canon]
    cases k with
    | «variable» =>
      rcases wf with ⟨q', n, rfl⟩ | ⟨q', v, rfl⟩
      · simp only [Expr.toPN, Except.ok.injEq] at h
        subst h
        refine Ev.call (hd := .var) (by decide) ?_
        simp only [decH]
        exact Ev.pure _
      · simp only [Expr.toPN, Except.ok.injEq] at h
        subst h
        refine Ev.call (hd := .var) (by decide) ?_
        simp only [decH]
        exact Ev.pure _
    | minus =>
      simp only [Expr.toPN] at h
      obtain ⟨a, h1, h⟩ := bindOk h
      injection h with h
      subst h
      refine Ev.call (hd := .minus) (by decide) ?_
      simp only [decH]
      exact ((back e (w.kid kid) a h1).as (ctx_value wf)).bind (Ev.pure _)
    | not =>
      simp only [Expr.toPN] at h
      obtain ⟨a, h1, h⟩ := bindOk h
      injection h with h
      subst h
      refine Ev.call (hd := .un .not) (by decide) ?_
      simp only [decH]
      exact ((back e (w.kid kid) a h1).as (ctx_value wf)).bind (Ev.pure _)
    | paren =>
      simp only [Expr.toPN] at h
      obtain ⟨a, h1, h⟩ := bindOk h
      injection h with h
      subst h
      refine Ev.call (hd := .un .paren) (by decide) ?_
      simp only [decH]
      exact ((back e (w.kid kid) a h1).as (ctx_value wf)).bind (Ev.pure _)
    | render =>
      simp only [Expr.toPN] at h
      obtain ⟨a, h1, h⟩ := bindOk h
      injection h with h
      subst h
      refine Ev.call (hd := .un .render) (by decide) ?_
      simp only [decH]
      exact ((back e (w.kid kid) a h1).as (ctx_value wf)).bind (Ev.pure _)
    | text =>
      simp only [Expr.toPN] at h
      obtain ⟨a, h1, h⟩ := bindOk h
      injection h with h
      subst h
      refine Ev.call (hd := .un .text) (by decide) ?_
      simp only [decH]
      exact ((back e (w.kid kid) a h1).as (ctx_value wf)).bind (Ev.pure _)
    | unfold =>
      simp only [Expr.toPN] at h
      obtain ⟨a, h1, h⟩ := bindOk h
      injection h with h
      subst h
      refine Ev.call (hd := .un .unfold) (by decide) ?_
      simp only [decH]
      exact ((back e (w.kid kid) a h1).as (ctx_value wf)).bind (Ev.pure _)
  | .query q x e, w, p, h => by
    have wf := w.wf
    unfold Back
    rw [canon]
    have hh : head (if x = true then b!"exported-query" else b!"virtual-query") = some (.query x) := by cases x <;> decide
    simp only [Expr.toPN] at h
    cases hn : e.isNop with
    | true =>
      simp only [hn, if_true] at h
      injection h with h
      subst h
      have : ∃ q', e = .nop q' := by cases e <;> first | exact ⟨_, rfl⟩ | cases hn
      obtain ⟨q', rfl⟩ := this
      refine Ev.call hh ?_
      simp only [decH]
      exact Ev.pure _
    | false =>
      simp only [hn, Bool.false_eq_true, if_false] at h
      obtain ⟨a, h1, h⟩ := bindOk h
      injection h with h
      subst h
      refine Ev.call hh ?_
      simp only [decH]
      have hv : isValue e = true := by
        simp only [WellFormed, hn, Bool.or_false] at wf
        exact wf
      exact ((back e (w.kid kid) a h1).as (ctx_value hv)).bind (Ev.pure _)
  | .attributeOp q op n v, w, p, h => by
    rw [Expr.toPN] at h
    obtain ⟨a, h1, h⟩ := bindOk h
    injection h with h
    subst h
    have wf := w.wf
    unfold Back
    rw [canon]
    have hv := (back v (w.kid kid) a h1).as (ctx_value wf)
    rcases w.kw with rfl | rfl
    · refine Ev.call (hd := .arrow) (by decide) ?_
      simp only [decH, ctxOf]
      exact join_some (hv.bind (Ev.pure _))
    · refine Ev.call (hd := .plus) (by decide) ?_
      simp only [decH]
      exact join_some (hv.bind (Ev.pure _))
  | .attributesOp q v, w, p, h => by
    rw [Expr.toPN] at h
    obtain ⟨a, h1, h⟩ := bindOk h
    injection h with h
    subst h
    refine Ev.call (hd := .splatHash) (by decide) ?_
    simp only [decH]
    rw [canon]
    exact ((back v (w.kid kid) a h1).as (ctx_value w.wf)).bind (Ev.pure _)
  | .block q ss, w, p, h => by
    rw [Expr.toPN] at h
    obtain ⟨ps, h1, h⟩ := bindOk h
    injection h with h
    subst h
    have wf := w.wf
    refine Ev.call (hd := .block) (by decide) ?_
    simp only [decH]
    rw [canon]
    refine ((backs ss (fun x hx => w.kid (by simp [Expr.kids, hx])) ps h1).as fun x hx => ?_).bind (Ev.pure _)
    rcases wf x hx with h | ⟨p, es, rfl⟩
    · exact ctx_value h
    · rfl
  | .call q k rv f args lam, w, p, h => by
    unfold Expr.toPN at h
    obtain ⟨a, h1, h⟩ := bindOk h
    obtain ⟨b, h2, h⟩ := bindOk h
    obtain ⟨l, h3, h⟩ := bindOk h
    obtain ⟨m, h4, h⟩ := bindOk h
    have := mkMapOk h4
    subst this
    injection h with h
    subst h
    obtain ⟨w1, w2, w3, w4, w5⟩ := w.wf
    have cf : ctxOf f = .value := by
      cases k with
      | function => exact absurd rfl w3
      | method => exact ctx_named (w1 rfl)
      | named => exact ctx_value (w2 rfl)
    have bf := (back f (w.kid kid) a h1).as cf
    have ba := (backs args (fun x hx => w.kid (by simp [Expr.kids, hx])) b h2).as fun x hx => ctx_value (w4 x hx)
    have bo := backO b!"block" lam (fun x hx => w.kid (by subst hx; simp [Expr.kids])) l h3
    have bl := bo.read fun x hx => ctx_lambda (w5 x hx)
    unfold Back
    rw [canon]
    have key : ∀ nm c, Ev (fun n => decH (dec n) c nm (.call k rv)
        [.map ([(b!"functor", a), (b!"args", PN.list b)] ++ l)]) (.call z k rv (canon f) (canonL args) (canonO lam)) := by
      intro nm c
      simp only [decH]
      refine (decO_some bf).bind (join_some (join_some (ba.bind ?_)))
      exact bl.bind (Ev.pure _)
    exact Ev.call (hd := .call k rv) (by cases k <;> cases rv <;> decide) (key _ _)
  | .capabilityMapping q kind cap comp ms, w, p, h => by
    rw [Expr.toPN] at h
    obtain ⟨a, h1, h⟩ := bindOk h
    obtain ⟨b, h2, h⟩ := bindOk h
    injection h with h
    subst h
    have wf := w.wf
    unfold Back
    rw [canon]
    have bc := (back comp (w.kid kid) a h1).as (ctx_value wf.1)
    have bm := (backs ms (fun x hx => w.kid (by simp [Expr.kids, hx])) b h2).as fun x hx => ctx_attr (wf.2 x hx)
    rcases w.kw with rfl | rfl
    · refine Ev.call (hd := .mapping) (by decide) ?_
      simp only [decH]
      exact bc.bind (bm.bind (Ev.pure _))
    · refine Ev.call (hd := .mapping) (by decide) ?_
      simp only [decH]
      exact bc.bind (bm.bind (Ev.pure _))
  | .caseE q t os, w, p, h => by
    rw [Expr.toPN] at h
    obtain ⟨a, h1, h⟩ := bindOk h
    obtain ⟨b, h2, h⟩ := bindOk h
    injection h with h
    subst h
    have wf := w.wf
    refine Ev.call (hd := .case) (by decide) ?_
    simp only [decH]
    rw [canon]
    exact ((back t (w.kid kid) a h1).as (ctx_value wf.1)).bind
      (((backs os (fun x hx => w.kid (by simp [Expr.kids, hx])) b h2).as fun x hx => ctx_option (wf.2 x hx)).bind (Ev.pure _))
  | .caseOption q vs t, w, p, h => by
    rw [Expr.toPN] at h
    obtain ⟨a, h1, h⟩ := bindOk h
    obtain ⟨b, h2, h⟩ := bindOk h
    obtain ⟨c, h3, rfl⟩ := mapOk h2
    have := mkMapOk h
    subst this
    have wf := w.wf
    have bt := body_read wf.2 (w.kid (k := t) kid).wf h3 (back t (w.kid kid) c h3)
    have bv := (backs vs (fun x hx => w.kid (by simp [Expr.kids, hx])) a h1).as fun x hx => ctx_value (wf.1 x hx)
    refine Ev.succ ?_
    simp only [dec]
    rw [canon]
    exact join_some (bv.bind ((decO_some bt).bind (join_some (Ev.pure _))))
  | .collect q t y ops, w, p, h => by
    rw [Expr.toPN] at h
    obtain ⟨a, h1, h⟩ := bindOk h
    obtain ⟨b, h2, h⟩ := bindOk h
    obtain ⟨c, h3, h⟩ := bindOk h
    obtain ⟨m, h4, h⟩ := bindOk h
    have := mkMapOk h4
    subst this
    injection h with h
    subst h
    have wf := w.wf
    have bt := (back t (w.kid kid) a h1).as (ctx_operand wf.1)
    have bq := (back y (w.kid kid) b h2).as (ctx_query wf.2.1)
    have bo := (backs ops (fun x hx => w.kid (by simp [Expr.kids, hx])) c h3).as fun x hx => ctx_attr (wf.2.2 x hx)
    refine Ev.call (hd := .collect) (by decide) ?_
    simp only [decH]
    rw [canon]
    cases ops with
    | nil =>
      simp only [Expr.pnMap, Except.ok.injEq] at h3
      subst h3
      exact (decO_some bt).bind (join_some ((decO_some bq).bind (join_some (bo.bind (Ev.pure _)))))
    | cons o os => exact (decO_some bt).bind (join_some ((decO_some bq).bind (join_some (bo.bind (Ev.pure _)))))
  | .concat q ss, w, p, h => by
    rw [Expr.toPN] at h
    obtain ⟨ps, h1, h⟩ := bindOk h
    injection h with h
    subst h
    refine Ev.call (hd := .concat) (by decide) ?_
    simp only [decH]
    rw [canon]
    exact ((backs ss (fun x hx => w.kid (by simp [Expr.kids, hx])) ps h1).as fun x hx => ctx_segment (w.wf x hx)).bind (Ev.pure _)
  | .epp q b t, w, p, h => by
    rw [Expr.toPN] at h
    obtain ⟨a, h1, h⟩ := bindOk h
    injection h with h
    subst h
    have hb := back t (w.kid kid) a h1
    have wf := w.wf
    have wk := w.kw
    cases t <;> try (cases wf; done)
    rename_i q' ss
    rw [Expr.toPN] at h1
    obtain ⟨ps, h2, h1⟩ := bindOk h1
    injection h1 with h1
    subst h1
    simp only [KnownWords] at wk
    subst wk
    refine Ev.call (hd := .epp) (by decide) ?_
    simp only [decH]
    rw [canon, canon]
    obtain ⟨N, hb⟩ := hb
    refine ⟨N, fun n hn => ?_⟩
    have hb := hb (n + 1) (by omega)
    have hh : head b!"block" = some .block := by decide
    simp only [dec, hh, Option.bind_eq_bind, Option.bind_some, decH, canon] at hb
    obtain ⟨xs, hx, hb⟩ := Option.bind_eq_some_iff.1 hb
    injection hb with hb
    injection hb with _ hb
    subst hb
    show (decL (dec n .value) ps).bind _ = _
    rw [hx]
    rfl
  | .heredoc q s t, w, p, h => by
    rw [Expr.toPN] at h
    obtain ⟨a, h1, h⟩ := bindOk h
    obtain ⟨m, h4, h⟩ := bindOk h
    have := mkMapOk h4
    subst this
    injection h with h
    subst h
    have ct : ctxOf t = .value := by
      rcases w.wf with ⟨_, _, rfl⟩ | ⟨_, _, rfl⟩ <;> rfl
    have bt := (back t (w.kid kid) a h1).as ct
    refine Ev.call (hd := .heredoc) (by decide) ?_
    simp only [decH]
    rw [canon]
    cases s with
    | nil => exact (decO_some bt).bind (join_some (Ev.pure _))
    | cons c s => exact (decO_some bt).bind (join_some (Ev.pure _))
  | .ifE q u c t e, w, p, h => by
    rw [Expr.toPN] at h
    obtain ⟨a, h1, h⟩ := bindOk h
    obtain ⟨b, h2, h⟩ := bindOk h
    obtain ⟨d, h3, h⟩ := bindOk h
    obtain ⟨b, h2', rfl⟩ := mapOk h2
    obtain ⟨d, h3', rfl⟩ := mapOk h3
    obtain ⟨m, h4, h⟩ := bindOk h
    have := mkMapOk h4
    subst this
    injection h with h
    subst h
    obtain ⟨w1, w2, w3⟩ := w.wf
    have bc := (back c (w.kid kid) a h1).as (ctx_value w1)
    have bt := body_read w2 (w.kid (k := t) kid).wf h2' (back t (w.kid kid) b h2')
    have tn : t.isNop = false := by cases t <;> first | rfl | cases w2
    have be := back e (w.kid kid) d h3'
    have key : ∀ nm cx, Ev (fun n => decH (dec n) cx nm (.cond u) [.map ([(b!"test", a)] ++
        (if t.isNop = true then [] else [(b!"then", Expr.blockEntry t b)]) ++
        (if e.isNop = true then [] else [(b!"else", Expr.blockEntry e d)]))])
        (.ifE z u (canon c) (canon t) (elseBlock (canon e))) := by
      intro nm cx
      simp only [decH, tn, Bool.false_eq_true, if_false]
      rcases w3 with w3 | w3 | ⟨q', c', t', x', rfl⟩
      · have be := body_read w3 (w.kid (k := e) kid).wf h3' be
        have en : e.isNop = false := by cases e <;> first | rfl | cases w3
        have ee : elseBlock (canon e) = canon e := by
          cases e <;> first | (simp only [canon, elseBlock]; done) | cases w3
        simp only [en, Bool.false_eq_true, if_false, ee]
        exact (decO_some bc).bind (join_some ((decO_some bt).bind (join_some ((decO_some be).bind (Ev.pure _)))))
      · have ee : elseBlock (canon e) = .nop z := by
          cases e <;> first | (simp only [canon, elseBlock]; done) | cases w3
        simp only [w3, if_true, ee]
        exact (decO_some bc).bind (join_some ((decO_some bt).bind (join_some ((Ev.pure _).bind (Ev.pure _)))))
      · simp only [Expr.isNop, Bool.false_eq_true, if_false]
        have hd : ∃ m, d = .call b!"if" m := by
          rw [Expr.toPN] at h3'
          obtain ⟨_, _, h⟩ := bindOk h3'
          obtain ⟨_, _, h⟩ := bindOk h
          obtain ⟨_, _, h⟩ := bindOk h
          obtain ⟨_, h4, h⟩ := bindOk h
          have := mkMapOk h4
          subst this
          injection h with h
          exact ⟨_, h.symm⟩
        obtain ⟨m, rfl⟩ := hd
        have be : Ev (fun n => decB (dec n .value) (.list [.call b!"if" m])) (elseBlock (canon (.ifE q' false c' t' x'))) := by
          show Ev (fun n => if b!"if" = b!"epp" then dec n .value (.call b!"if" m) else dec n .value (.call b!"block" [.call b!"if" m])) _
          simp only [if_neg (show ¬ b!"if" = b!"epp" by decide)]
          refine Ev.call (hd := .block) (by decide) ?_
          simp only [decH, decL, canon]
          show Ev _ (Expr.block z [Expr.ifE z false (canon c') (canon t') (elseBlock (canon x'))])
          have be := be.as rfl
          simp only [canon] at be
          exact Ev.bind (x := [_]) (be.bind ((Ev.pure []).bind (Ev.pure _))) (Ev.pure _)
        exact (decO_some bc).bind (join_some ((decO_some bt).bind (join_some ((decO_some be).bind (Ev.pure _)))))
    unfold Back
    rw [canon]
    exact Ev.call (hd := .cond u) (by cases u <;> decide) (key _ _)
  | .keyedEntry q k v, w, p, h => by
    rw [Expr.toPN] at h
    obtain ⟨a, h1, h⟩ := bindOk h
    obtain ⟨b, h2, h⟩ := bindOk h
    injection h with h
    subst h
    have wf := w.wf
    refine Ev.call (hd := .arrow) (by decide) ?_
    simp only [decH, ctxOf]
    rw [canon]
    exact ((back k (w.kid kid) a h1).as (ctx_value wf.1)).bind (((back v (w.kid kid) b h2).as (ctx_value wf.2)).bind (Ev.pure _))
  | .lambda q ps b r, w, p, h => by
    rw [Expr.toPN] at h
    obtain ⟨a, h1, h⟩ := bindOk h
    obtain ⟨c, h2, h⟩ := bindOk h
    obtain ⟨d, h3, h⟩ := bindOk h
    obtain ⟨d, h3', rfl⟩ := mapOk h3
    obtain ⟨m, h4, h⟩ := bindOk h
    have := mkMapOk h4
    subst this
    injection h with h
    subst h
    obtain ⟨w1, w2, w3⟩ := w.wf
    have bp := params_of h1 (backPs ps (fun x hx => w.kid (by simp [Expr.kids, hx])) w1)
    have br := backO b!"returns" r (fun x hx => w.kid (by subst hx; simp [Expr.kids])) c h2
    have bb := back b (w.kid kid) d h3'
    have bb : Ev (fun n => decB (dec n .value) (Expr.blockEntry b d)) (canon b) := by
      rcases w2 with w2 | ⟨q', x, rfl⟩
      · exact body_read w2 (w.kid (k := b) kid).wf h3' bb
      · have hd : ∃ es, d = .call b!"epp" es := by
          have wx := (w.kid (k := .epp q' true x) kid).wf
          cases x <;> try (cases wx; done)
          rw [Expr.toPN, Expr.toPN] at h3'
          obtain ⟨y, hy, h⟩ := bindOk h3'
          obtain ⟨y', _, hy⟩ := bindOk hy
          injection hy with hy
          subst hy
          injection h with h
          exact ⟨_, h.symm⟩
        obtain ⟨es, rfl⟩ := hd
        show Ev (fun n => if b!"epp" = b!"epp" then dec n .value (.call b!"epp" es) else dec n .value (.call b!"block" [.call b!"epp" es])) _
        simp only [if_pos (rfl : b!"epp" = b!"epp")]
        exact bb
    refine Ev.call (hd := .lambda) (by decide) ?_
    simp only [decH]
    rw [canon]
    have e1 := bp.read
    have e2 := br.read fun x hx => ctx_value (w3 x hx)
    cases bp <;> cases br <;> exact e1.bind (e2.bind ((decO_some bb).bind (join_some (Ev.pure _))))
  | .boolean q v, w, p, h => by
    simp only [Expr.toPN, Except.ok.injEq] at h
    subst h
    exact Ev.succ (Ev.pure _)
  | .dflt q, w, p, h => by
    simp only [Expr.toPN, Except.ok.injEq] at h
    subst h
    exact Ev.call (hd := .dflt) (by decide) (Ev.pure _)
  | .float q v, w, p, h => by
    simp only [Expr.toPN, Except.ok.injEq] at h
    subst h
    exact Ev.succ (Ev.pure _)
  | .hash q es, w, p, h => by
    rw [Expr.toPN] at h
    obtain ⟨ps, h1, h⟩ := bindOk h
    injection h with h
    subst h
    refine Ev.call (hd := .hash) (by decide) ?_
    simp only [decH]
    rw [canon]
    exact ((backs es (fun x hx => w.kid (by simp [Expr.kids, hx])) ps h1).as fun x hx => ctx_entry (w.wf x hx)).bind (Ev.pure _)
  | .integer q r v, w, p, h => by
    rw [Expr.toPN] at h
    unfold Back
    rw [canon]
    split at h
    · rename_i hr
      injection h with h
      subst h
      subst hr
      exact Ev.succ (Ev.pure _)
    · obtain ⟨m, h4, h⟩ := bindOk h
      have := mkMapOk h4
      subst this
      injection h with h
      subst h
      refine Ev.call (hd := .int) (by decide) ?_
      exact Ev.pure _
  | .list q es, w, p, h => by
    rw [Expr.toPN] at h
    obtain ⟨ps, h1, h⟩ := bindOk h
    injection h with h
    subst h
    refine Ev.call (hd := .array) (by decide) ?_
    simp only [decH]
    rw [canon]
    refine ((backs es (fun x hx => w.kid (by simp [Expr.kids, hx])) ps h1).as fun x hx => ?_).bind (Ev.pure _)
    rcases w.wf with h | h
    · exact ctx_value (h x hx)
    · exact ctx_param (h x hx)
  | .string q v, w, p, h => by
    simp only [Expr.toPN, Except.ok.injEq] at h
    subst h
    exact Ev.succ (Ev.pure _)
  | .undef q, w, p, h => by
    simp only [Expr.toPN, Except.ok.injEq] at h
    subst h
    exact Ev.succ (Ev.pure _)
  | .nop q, w, p, h => by
    simp only [Expr.toPN, Except.ok.injEq] at h
    subst h
    exact Ev.call (hd := .nop) (by decide) (Ev.pure _)
  | .namedDef q k n ps b, w, p, h => by
    obtain ⟨w1, w2⟩ := w.wf
    unfold Back
    rw [canon]
    cases k with
    | application =>
      rw [Expr.toPN] at h
      obtain ⟨a, h1, h⟩ := bindOk h
      obtain ⟨d, h3, h⟩ := bindOk h
      obtain ⟨d, h3', rfl⟩ := mapOk h3
      obtain ⟨m, h4, h⟩ := bindOk h
      have := mkMapOk h4
      subst this
      injection h with h
      subst h
      have bp := params_of h1 (backPs ps (fun x hx => w.kid (by simp [Expr.kids, hx])) w1)
      have bb := body_read w2 (w.kid (k := b) kid).wf h3' (back b (w.kid kid) d h3')
      refine Ev.call (hd := .named .application) (by decide) ?_
      simp only [decH]
      have e1 := bp.read
      cases bp <;> exact join_some (e1.bind ((decO_some bb).bind (join_some (Ev.pure _))))
    | define =>
      rw [Expr.toPN] at h
      obtain ⟨a, h1, h⟩ := bindOk h
      obtain ⟨d, h3, h⟩ := bindOk h
      obtain ⟨d, h3', rfl⟩ := mapOk h3
      obtain ⟨m, h4, h⟩ := bindOk h
      have := mkMapOk h4
      subst this
      injection h with h
      subst h
      have bp := params_of h1 (backPs ps (fun x hx => w.kid (by simp [Expr.kids, hx])) w1)
      have bb := body_read w2 (w.kid (k := b) kid).wf h3' (back b (w.kid kid) d h3')
      refine Ev.call (hd := .named .define) (by decide) ?_
      simp only [decH]
      have e1 := bp.read
      cases bp <;> exact join_some (e1.bind ((decO_some bb).bind (join_some (Ev.pure _))))
    | hostClass parent =>
      rw [Expr.toPN] at h
      obtain ⟨a, h1, h⟩ := bindOk h
      obtain ⟨d, h3, h⟩ := bindOk h
      obtain ⟨d, h3', rfl⟩ := mapOk h3
      obtain ⟨m, h4, h⟩ := bindOk h
      have := mkMapOk h4
      subst this
      injection h with h
      subst h
      have bp := params_of h1 (backPs ps (fun x hx => w.kid (by simp [Expr.kids, hx])) w1)
      have bb := body_read w2 (w.kid (k := b) kid).wf h3' (back b (w.kid kid) d h3')
      refine Ev.call (hd := .cls) (by decide) ?_
      simp only [decH]
      have e1 := bp.read
      cases parent <;> cases bp <;> exact join_some (e1.bind ((decO_some bb).bind (join_some (Ev.pure _))))
  | .function q pl n ps b r, w, p, h => by
    rw [Expr.toPN] at h
    obtain ⟨a, h1, h⟩ := bindOk h
    obtain ⟨d, h3, h⟩ := bindOk h
    obtain ⟨d, h3', rfl⟩ := mapOk h3
    obtain ⟨c, h2, h⟩ := bindOk h
    obtain ⟨m, h4, h⟩ := bindOk h
    have := mkMapOk h4
    subst this
    injection h with h
    subst h
    obtain ⟨w1, w2, w3⟩ := w.wf
    have bp := params_of h1 (backPs ps (fun x hx => w.kid (by simp [Expr.kids, hx])) w1)
    have br := backO b!"returns" r (fun x hx => w.kid (by subst hx; simp [Expr.kids])) c h2
    have bb := body_read w2 (w.kid (k := b) kid).wf h3' (back b (w.kid kid) d h3')
    have e1 := bp.read
    have e2 := br.read fun x hx => ctx_value (w3 x hx)
    unfold Back
    rw [canon]
    have key : ∀ nm cx, Ev (fun n' => decH (dec n') cx nm (.function pl) [.map ([(b!"name", PN.lit (.str n))] ++ a ++
        [(b!"body", Expr.blockEntry b d)] ++ c)]) (.function z pl n (canonL ps) (canon b) (canonO r)) := by
      intro nm cx
      simp only [decH]
      cases bp <;> cases br <;> exact join_some (e1.bind ((decO_some bb).bind (join_some (e2.bind (Ev.pure _)))))
    exact Ev.call (hd := .function pl) (by cases pl <;> decide) (key _ _)
  | .node q pa hs b, w, p, h => by
    rw [Expr.toPN] at h
    obtain ⟨a, h1, h⟩ := bindOk h
    obtain ⟨c, h2, h⟩ := bindOk h
    obtain ⟨d, h3, h⟩ := bindOk h
    obtain ⟨d, h3', rfl⟩ := mapOk h3
    obtain ⟨m, h4, h⟩ := bindOk h
    have := mkMapOk h4
    subst this
    injection h with h
    subst h
    obtain ⟨w1, w2, w3⟩ := w.wf
    have bh := (backs hs (fun x hx => w.kid (by simp [Expr.kids, hx])) a h1).as fun x hx => ctx_value (w2 x hx)
    have br := backO b!"parent" pa (fun x hx => w.kid (by subst hx; simp [Expr.kids])) c h2
    have bb := body_read w3 (w.kid (k := b) kid).wf h3' (back b (w.kid kid) d h3')
    have e2 := br.read fun x hx => ctx_value (w1 x hx)
    refine Ev.call (hd := .node) (by decide) ?_
    simp only [decH]
    rw [canon]
    cases br <;> exact join_some (bh.bind (e2.bind ((decO_some bb).bind (join_some (Ev.pure _)))))
  | .parameter q n v t c, w, p, h => by
    rw [Expr.toPN] at h
    obtain ⟨a, h1, h⟩ := bindOk h
    obtain ⟨b, h2, h⟩ := bindOk h
    obtain ⟨m, h4, h⟩ := bindOk h
    have := mkMapOk h4
    subst this
    injection h with h
    subst h
    obtain ⟨w1, w2⟩ := w.wf
    have bt := backO b!"type" t (fun x hx => w.kid (by subst hx; simp [Expr.kids])) a h1
    have bv := backO b!"value" v (fun x hx => w.kid (by subst hx; simp [Expr.kids])) b h2
    have e1 := bt.read fun x hx => ctx_value (w2 x hx)
    have e2 := bv.read fun x hx => ctx_value (w1 x hx)
    refine Ev.call (hd := .param) (by decide) ?_
    simp only [decH]
    rw [canon]
    cases bt <;> cases bv <;> cases c <;> exact join_some (e1.bind (e2.bind (Ev.pure _)))
  | .program q b ds, w, p, h => by
    rw [Expr.toPN] at h
    have hb := back b (w.kid kid) p h
    unfold Back at hb ⊢
    rw [canon]
    have : ctxOf b = .value := by
      rcases w.wf with h | ⟨_, _, _, _, rfl⟩
      · exact ctx_block h
      · rfl
    rw [this] at hb
    exact hb
  | .qname q n, w, p, h => by
    simp only [Expr.toPN, Except.ok.injEq] at h
    subst h
    exact Ev.call (hd := .qn) (by decide) (Ev.pure _)
  | .qref q n d, w, p, h => by
    simp only [Expr.toPN, Except.ok.injEq] at h
    subst h
    have : d = toLowerAscii n := w.wf
    subst this
    exact Ev.call (hd := .qr) (by decide) (Ev.pure _)
  | .regexp q n, w, p, h => by
    simp only [Expr.toPN, Except.ok.injEq] at h
    subst h
    exact Ev.call (hd := .regexp) (by decide) (Ev.pure _)
  | .renderString q n, w, p, h => by
    simp only [Expr.toPN, Except.ok.injEq] at h
    subst h
    exact Ev.call (hd := .renderS) (by decide) (Ev.pure _)
  | .reserved q n f, w, p, h => by
    simp only [Expr.toPN, Except.ok.injEq] at h
    subst h
    have : f = false := w.kw
    subst this
    exact Ev.call (hd := .reserved) (by decide) (Ev.pure _)
  | .resource q f t bs, w, p, h => by
    rw [Expr.toPN] at h
    obtain ⟨a, h1, h⟩ := bindOk h
    obtain ⟨b, h2, h⟩ := bindOk h
    obtain ⟨m, h4, h⟩ := bindOk h
    have := mkMapOk h4
    subst this
    injection h with h
    subst h
    obtain ⟨w1, w2⟩ := w.wf
    have bt := (back t (w.kid kid) a h1).as (ctx_value w1)
    have bb := (backs bs (fun x hx => w.kid (by simp [Expr.kids, hx])) b h2).as fun x hx => ctx_bodyExpr (w2 x hx)
    have hb := resource_bodies w2 h2
    refine Ev.call (hd := .resource) (by decide) ?_
    simp only [decH]
    rw [canon, form_read rfl]
    refine join_some ((decO_some bt).bind (join_some (join_some (Ev.bind ?_ (Ev.pure _)))))
    rw [hb]
    exact bb
  | .resourceBody q t ops, w, p, h => by
    rw [Expr.toPN] at h
    obtain ⟨a, h1, h⟩ := bindOk h
    obtain ⟨b, h2, h⟩ := bindOk h
    obtain ⟨m, h4, h⟩ := bindOk h
    have := mkMapOk h4
    subst this
    injection h with h
    subst h
    obtain ⟨w1, w2⟩ := w.wf
    have bt := (back t (w.kid kid) a h1).as (ctx_value w1)
    have bo := (backs ops (fun x hx => w.kid (by simp [Expr.kids, hx])) b h2).as fun x hx => ctx_attr (w2 x hx)
    refine Ev.call (hd := .body) (by decide) ?_
    simp only [decH]
    rw [canon]
    exact (decO_some bt).bind (join_some (join_some (bo.bind (Ev.pure _))))
  | .resourceDefaults q f t ops, w, p, h => by
    rw [Expr.toPN] at h
    obtain ⟨a, h1, h⟩ := bindOk h
    obtain ⟨b, h2, h⟩ := bindOk h
    obtain ⟨m, h4, h⟩ := bindOk h
    have := mkMapOk h4
    subst this
    injection h with h
    subst h
    obtain ⟨w1, w2⟩ := w.wf
    have bt := (back t (w.kid kid) a h1).as (ctx_value w1)
    have bo := (backs ops (fun x hx => w.kid (by simp [Expr.kids, hx])) b h2).as fun x hx => ctx_attr (w2 x hx)
    refine Ev.call (hd := .defaults) (by decide) ?_
    simp only [decH]
    rw [canon, form_read rfl]
    exact join_some ((decO_some bt).bind (join_some (join_some (bo.bind (Ev.pure _)))))
  | .resourceOverride q f t ops, w, p, h => by
    rw [Expr.toPN] at h
    obtain ⟨a, h1, h⟩ := bindOk h
    obtain ⟨b, h2, h⟩ := bindOk h
    obtain ⟨m, h4, h⟩ := bindOk h
    have := mkMapOk h4
    subst this
    injection h with h
    subst h
    obtain ⟨w1, w2⟩ := w.wf
    have bt := (back t (w.kid kid) a h1).as (ctx_value w1)
    have bo := (backs ops (fun x hx => w.kid (by simp [Expr.kids, hx])) b h2).as fun x hx => ctx_attr (w2 x hx)
    refine Ev.call (hd := .override) (by decide) ?_
    simp only [decH]
    rw [canon, form_read rfl]
    exact join_some ((decO_some bt).bind (join_some (join_some (bo.bind (Ev.pure _)))))
  | .selector q l ss, w, p, h => by
    rw [Expr.toPN] at h
    obtain ⟨a, h1, h⟩ := bindOk h
    obtain ⟨b, h2, h⟩ := bindOk h
    injection h with h
    subst h
    have wf := w.wf
    refine Ev.call (hd := .selector) (by decide) ?_
    simp only [decH]
    rw [canon]
    exact ((back l (w.kid kid) a h1).as (ctx_value wf.1)).bind
      (((backs ss (fun x hx => w.kid (by simp [Expr.kids, hx])) b h2).as fun x hx => ctx_sel (wf.2 x hx)).bind (Ev.pure _))
  | .selectorEntry q k v, w, p, h => by
    rw [Expr.toPN] at h
    obtain ⟨a, h1, h⟩ := bindOk h
    obtain ⟨b, h2, h⟩ := bindOk h
    injection h with h
    subst h
    have wf := w.wf
    refine Ev.call (hd := .arrow) (by decide) ?_
    simp only [decH, ctxOf]
    rw [canon]
    exact ((back k (w.kid kid) a h1).as (ctx_value wf.1)).bind (((back v (w.kid kid) b h2).as (ctx_value wf.2)).bind (Ev.pure _))
  | .site q t, w, p, h => by
    rw [Expr.toPN] at h
    obtain ⟨a, h1, h⟩ := bindOk h
    injection h with h
    subst h
    have hb := back t (w.kid kid) a h1
    have wf := w.wf
    cases t <;> try (cases wf; done)
    rename_i q' ss
    rw [Expr.toPN] at h1
    obtain ⟨ps, h2, h1⟩ := bindOk h1
    injection h1 with h1
    subst h1
    refine Ev.call (hd := .site) (by decide) ?_
    simp only [decH]
    rw [canon, canon]
    obtain ⟨N, hb⟩ := hb
    refine ⟨N, fun n hn => ?_⟩
    have hb := hb (n + 1) (by omega)
    have hh : head b!"block" = some .block := by decide
    simp only [dec, hh, Option.bind_eq_bind, Option.bind_some, decH, canon] at hb
    obtain ⟨xs, hx, hb⟩ := Option.bind_eq_some_iff.1 hb
    injection hb with hb
    injection hb with _ hb
    subst hb
    show (decL (dec n .value) ps).bind _ = _
    rw [hx]
    rfl
  | .typeAlias q n t, w, p, h => by
    rw [Expr.toPN] at h
    obtain ⟨a, h1, h⟩ := bindOk h
    injection h with h
    subst h
    refine Ev.call (hd := .alias) (by decide) ?_
    simp only [decH]
    rw [canon]
    exact ((back t (w.kid kid) a h1).as (ctx_value w.wf)).bind (Ev.pure _)
  | .typeDefinition q n pa b, w, p, h => by
    rw [Expr.toPN] at h
    obtain ⟨a, h1, h⟩ := bindOk h
    injection h with h
    subst h
    refine Ev.call (hd := .typeDef) (by decide) ?_
    simp only [decH]
    rw [canon]
    exact ((back b (w.kid kid) a h1).as (ctx_block w.wf)).bind (Ev.pure _)
  | .typeMapping q t m, w, p, h => by
    rw [Expr.toPN] at h
    obtain ⟨a, h1, h⟩ := bindOk h
    obtain ⟨b, h2, h⟩ := bindOk h
    injection h with h
    subst h
    have wf := w.wf
    refine Ev.call (hd := .typeMap) (by decide) ?_
    simp only [decH]
    rw [canon]
    exact ((back t (w.kid kid) a h1).as (ctx_value wf.1)).bind (((back m (w.kid kid) b h2).as (ctx_value wf.2)).bind (Ev.pure _))
  | .step q n s ps d, w, p, h => by
    rw [Expr.toPN] at h
    obtain ⟨a, h1, h⟩ := bindOk h
    obtain ⟨b, h2, h⟩ := bindOk h
    obtain ⟨m, h4, h⟩ := bindOk h
    have := mkMapOk h4
    subst this
    injection h with h
    subst h
    obtain ⟨w1, w2, w3, -⟩ := w.wf
    have bp := backO b!"properties" ps (fun x hx => w.kid (by subst hx; simp [Expr.kids])) a h1
    have bd := backO b!"definition" d (fun x hx => w.kid (by subst hx; simp [Expr.kids])) b h2
    have e1 := bp.read fun x hx => ctx_hash (w1 x hx)
    have e2 := bd.read fun x hx => by
      by_cases hs : s = .resource
      · exact ctx_value (w2 x hx hs)
      · exact ctx_block (w3 x hx hs)
    refine Ev.call (hd := .step) (by decide) ?_
    simp only [decH]
    rw [canon]
    cases bp <;> cases bd <;> cases s <;> exact join_some (join_some (join_some (e1.bind (e2.bind (Ev.pure _)))))
  | .commaSep q es, w, p, h => by
    rw [Expr.toPN] at h
    obtain ⟨ps, h1, h⟩ := bindOk h
    injection h with h
    subst h
    refine Ev.call (hd := .array) (by decide) ?_
    simp only [decH]
    rw [canon]
    exact ((backs es (fun x hx => w.kid (by simp [Expr.kids, hx])) ps h1).as fun x hx => ctx_value (w.wf.2 x hx)).bind (Ev.pure _)
theorem backs : ∀ (es : List Expr), (∀ e ∈ es, AllWell e) → ∀ ps, Expr.pnMap es = .ok ps → Backs es ps
  | [], _, ps, h => by
    simp only [Expr.pnMap, Except.ok.injEq] at h
    subst h
    exact .nil
  | e :: es, w, ps, h => by
    rw [Expr.pnMap] at h
    obtain ⟨a, h1, h⟩ := bindOk h
    obtain ⟨b, h2, h⟩ := bindOk h
    injection h with h
    subst h
    exact .cons (back e (w e (List.mem_cons_self ..)) a h1) (backs es (fun x hx => w x (List.mem_cons_of_mem _ hx)) b h2)
theorem backO (k : GoStr) : ∀ (o : Option Expr), (∀ e, o = some e → AllWell e) → ∀ m, Expr.optEntry k o = .ok m → BackO k o m
  | none, _, m, h => by
    simp only [Expr.optEntry, Except.ok.injEq] at h
    subst h
    exact .none
  | some e, w, m, h => by
    rw [Expr.optEntry] at h
    obtain ⟨a, h1, h⟩ := bindOk h
    injection h with h
    subst h
    exact .some (back e (w e rfl) a h1)
theorem backPs : ∀ (es : List Expr), (∀ e ∈ es, AllWell e) → (∀ e ∈ es, isParameter e = true) → ∀ ms,
    Expr.paramEntries es = .ok ms → BackPs es ms
  | [], _, _, ms, h => by
    simp only [Expr.paramEntries, Except.ok.injEq] at h
    subst h
    exact .nil
  | .parameter q n v t c :: es, w, w', ms, h => by
    rw [Expr.paramEntries] at h
    obtain ⟨x, h1, h⟩ := bindOk h
    obtain ⟨xs, h2, h⟩ := bindOk h
    injection h with h
    subst h
    rw [Expr.paramEntry] at h1
    obtain ⟨a, h3, h1⟩ := bindOk h1
    obtain ⟨b, h4, h1⟩ := bindOk h1
    obtain ⟨m, h5, h1⟩ := bindOk h1
    have := mkMapOk h5
    subst this
    injection h1 with h1
    subst h1
    have we := w _ (List.mem_cons_self ..)
    have wf := we.wf
    exact .cons (backO b!"type" t (fun x hx => we.kid (by subst hx; simp [Expr.kids])) a h3)
      (backO b!"value" v (fun x hx => we.kid (by subst hx; simp [Expr.kids])) b h4)
      (fun x hx => ctx_value (wf.2 x hx)) (fun x hx => ctx_value (wf.1 x hx))
      (backPs es (fun x hx => w x (List.mem_cons_of_mem _ hx)) (fun x hx => w' x (List.mem_cons_of_mem _ hx)) xs h2)
  | e :: es, w, w', ms, h => by
    have := w' e (List.mem_cons_self ..)
    cases e <;> first | (cases this; done) | skip
    rename_i q n v t c
    rw [Expr.paramEntries] at h
    obtain ⟨x, h1, h⟩ := bindOk h
    obtain ⟨xs, h2, h⟩ := bindOk h
    injection h with h
    subst h
    rw [Expr.paramEntry] at h1
    obtain ⟨a, h3, h1⟩ := bindOk h1
    obtain ⟨b, h4, h1⟩ := bindOk h1
    obtain ⟨m, h5, h1⟩ := bindOk h1
    have := mkMapOk h5
    subst this
    injection h1 with h1
    subst h1
    have we := w _ (List.mem_cons_self ..)
    have wf := we.wf
    exact .cons (backO b!"type" t (fun x hx => we.kid (by subst hx; simp [Expr.kids])) a h3)
      (backO b!"value" v (fun x hx => we.kid (by subst hx; simp [Expr.kids])) b h4)
      (fun x hx => ctx_value (wf.2 x hx)) (fun x hx => ctx_value (wf.1 x hx))
      (backPs es (fun x hx => w x (List.mem_cons_of_mem _ hx)) (fun x hx => w' x (List.mem_cons_of_mem _ hx)) xs h2)
end

end PP.Decode
