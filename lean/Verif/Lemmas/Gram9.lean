import Verif.Lemmas.Gram8b

/-! # The parser reads every phrase of the grammar -/
namespace PP
open PP.Spec
set_option linter.unusedSimpArgs false

/-- What the parser does with a phrase. -/
def Mot [Ending] (env : Env) (ns : List GoStr) : (n : N) → Spec.Res n → List T → Prop
  | .bin l, e, ts => DoneK env ns (fun self => self (.binary l)) (fun e self => self (.binLoop l e)) (Is e) ts (cOpd l)
  | .opd l, e, ts => DoneP env ns (fun self => operand self l) (Is e) ts (cOpd l)
  | .assign, e, ts => DoneP env ns (fun self => self .assignment) (Is e) ts cAssign
  | .res, e, ts => DoneP env ns (fun self => stepOrResource self) (Is e) ts cRes
  | .expr, e, ts => DoneP env ns (fun self => self .expression) (Is e) ts cExpr
  | .sel, e, ts => DoneK env ns selHead (fun e self => self (.selLoop e)) (Is e) ts (cBin .or)
  | .unary, e, ts => DoneP env ns (fun self => self .unary) (Is e) ts cPrim
  | .primary, e, ts => DoneP env ns (fun self => self .primary) (Is e) ts cPrim
  | .prim c, e, ts => DonePrim env ns c (Is e) ts
  | .callee c, e, ts => DoneCallee env ns c (Is e) ts
  | .dotted, lr, ts => DonePrim env ns false (IsDotted lr) ts
  | .atom, e, ts => DoneP env ns (fun self => self .atom) (Is e) ts cAtom
  | .key, e, ts => DoneP env ns (fun self => handleKeyword self) (Is e) ts (cBin .rel)
  | .elem k, e, ts => DoneP env ns (fun self => produce self (producer k)) (Is e) ts (cElem k)
  | .many k, es, ts => DoneMany env ns k es ts
  | .block, b, ts => DoneBlock env ns b ts
  | .stmts, ss, ts => DoneStmts env ns ss ts
  | .commas, es, ts => DoneCommas env ns es ts
  | .ifRest u, e, ts => DoneIf env ns u e ts
  | .elseRest u, e, ts => DoneElse env ns u e ts
  | .options, os, ts => DoneL env ns (fun acc self => self (.caseOptions acc)) os ts notRcOnly
  | .resType h, e, ts => DoneResType env ns h e ts
  | .bodies, bs, ts => DoneBodies env ns bs ts
  | .attrs, as, ts => DoneL env ns (fun acc self => self (.attrOps acc)) as ts notAttrEnd
  | .attr, a, ts => DoneAttr env ns a ts
  | .query, q, ts => DoneQuery env ns q ts
  | .lambda, l, ts => DoneP env ns (fun self => lambda self) (Is l) ts (fun _ => false)
  | .ret, r, ts => DoneP env ns (fun self => optReturnType self) (IsO r) ts cRet
  | .typ, e, ts => DoneP env ns (fun self => parameterType self) (Is e) ts cPrim
  | .optTyp, e, ts => DoneOptTyp env ns e ts
  | .dfltVal, e, ts => DoneDflt env ns e ts
  | .params, ps, ts => DoneP env ns (fun self => optParameterList self) (IsL ps) ts cParams
  | .typeDef, e, ts => DoneType env ns e ts
  | .parent, p, ts => DoneParent env ns p ts
  | .hosts, hs, ts => DoneL env ns (fun acc self => self (.hostnames acc)) hs ts cHosts
  | .host, h, ts => DoneP env ns (fun self => hostname self) (Is h) ts cHost
  | .segs, ss, ts => DoneSegs env ns ss ts
  | .nodeParent, p, ts => DoneNodeParent env ns p ts
  | .stepHead n, ps, ts => DoneHead env ns n ps ts
  | .iteration n, is, ts => DoneP env ns (fun self => stepIteration self n) (IsL is) ts cIter
  | .stepBody k, b, ts => DoneBody env ns k b ts (fun _ => false)
  | .activities, as, ts => DoneL env ns (fun acc self => self (.activities acc)) as ts notRcOnly
  | .source, d, ts => DoneSource env ns d ts

theorem cOpd_in {t : Tok} (h : cOpd .in_ t = false) : cPrim t = false := by
  simp only [cOpd, cOps, tighterThan, List.any_nil, Bool.or_false] at h
  exact h

theorem typeDef_shape {ns : List GoStr} {e : Expr} {ts : List T} (h : G ns .typeDef e ts) : withRval false e = e ∧ isStatementName e = false ∧ ∀ n, e ≠ .qname z n := by
  cases h <;> exact ⟨rfl, rfl, nofun⟩

/-- Phrases that are names. -/
def NameAt : (n : N) → Spec.Res n → List T → Prop
  | .bin _, e, ts | .opd _, e, ts | .assign, e, ts | .res, e, ts | .expr, e, ts | .sel, e, ts | .unary, e, ts | .primary, e, ts | .prim _, e, ts
  | .callee _, e, ts | .atom, e, ts => ∀ w, e = .qname z w → ts = [.name w] ∨ (∃ k, ts = [.style k]) ∨ w = b!"type"
  | .ifRest _, e, _ => ∀ w, e ≠ .qname z w
  | _, _, _ => True

theorem leafOf_name {t : T} {e : Expr} {w : GoStr} (h : leafOf t = some e) (he : e = .qname z w) : [t] = [.name w] ∨ (∃ k, [t] = [T.style k]) ∨ w = b!"type" := by
  subst he
  unfold leafOf at h
  split at h <;> first | (cases h; done) | (cases h; exact .inl rfl) | (cases h; exact .inr (.inl ⟨_, rfl⟩))

theorem G_name {ns : List GoStr} {n : N} {r : Spec.Res n} {ts : List T} (h : G ns n r ts) : NameAt n r ts := by
  induction h <;> first
    | assumption
    | (intro w hw; cases hw; done)
    | exact fun w hw => leafOf_name ‹_› hw
    | exact fun w hw => absurd hw (‹∀ w, _ ≠ Expr.qname z w› w)
    | exact fun w hw => .inr (.inr (by cases hw; rfl))
    | trivial
    | (cases ‹Elem› <;> trivial)

theorem activities_hd [Ending] {ns : List GoStr} {as : List Expr} {ts rest : List T} (h : G ns .activities as ts) (hr : hd rest = .rc) :
    cAtom (hd (ts ++ rest)) = false := by
  cases h
  · rw [List.nil_append, hr]; rfl
  all_goals rfl

theorem G_reads [Ending] {env : Env} {ns : List GoStr} {n : N} {r : Spec.Res n} {ts : List T} (h : G ns n r ts) :
    Mot env ns n r ts := by
  induction h with
  | operand _ ih => exact g_operand ih
  | binary _ hk _ iha ihb => exact g_binary iha hk ihb
  | opdRel _ ih => exact ih
  | opdTighter hl _ ih => exact g_opdTighter hl ih
  | opdIn _ ih => exact DoneP.mono (c' := cOpd .in_) ih fun t => cOpd_in
  | noAssign _ ih => exact g_noAssign ih
  | assign _ ho _ iha ihb => exact g_assign iha ho ihb
  | noResource h hs ih =>
    refine g_plainRes (g_noResource ih) fun rest s hf hw k he => ?_
    rcases G_name h _ he with rfl | ⟨k', rfl⟩ | h'
    · exact hf.2.1.name.name hw _ rfl k rfl
    · exact hs k' rfl
    · revert h'; cases k <;> decide
  | resType _ ih => exact g_resType ih
  | hiddenType _ ih => exact g_hiddenType ih
  | resClass => exact g_resClass
  | resource _ _ ih ihb => exact g_plainRes (g_resource ih ihb) fun _ _ _ _ _ => nofun
  | defaults _ hd _ hb ih iho => exact g_plainRes (g_defaults ih hd iho hb) fun _ _ _ _ _ => nofun
  | override _ hd _ hb ih iho => exact g_plainRes (g_override ih hd iho hb) fun _ _ _ _ _ => nofun
  | hiddenDefaults ht _ hd _ hb ih iho => exact g_hiddenDefaults ht ih hd iho hb
  | hiddenOverride ht _ hd _ hb ih iho => exact g_hiddenOverride ht ih hd iho hb
  | collect h hq ih ihq => exact g_plainRes (g_collect ih (G_first h) ihq (G_first hq)) fun _ _ _ _ _ => nofun
  | collectOps h hq _ ih ihq iho => exact g_plainRes (g_collectOps ih (G_first h) ihq (G_first hq) iho) fun _ _ _ _ _ => nofun
  | allVirtual => exact g_allVirtual
  | allExported => exact g_allExported
  | someVirtual h ih => exact g_someVirtual ih (G_first h)
  | someExported h ih => exact g_someExported ih (G_first h)
  | body h hs _ hsm ih iha => exact g_body ih (G_first h) hs iha hsm
  | bodies h hs _ _ ih iha ihb => exact g_bodies ih (G_first h) hs iha ihb
  | noAttr => exact g_noAttr
  | lastAttr _ ih => exact g_lastAttr ih
  | attrs _ _ ih ihs => exact g_attrs ih ihs
  | attr ht hu _ ih => exact g_attr ht hu ih
  | attrSplat _ ih => exact g_attrSplat ih
  | noSelector _ ih => exact g_noSelector ih
  | selector _ _ ih ihs => exact g_selector ih ihs
  | sel _ ih => exact g_sel ih
  | selectOne _ hf ih ihf => exact g_selectOne ih ihf (G_first hf)
  | mapping _ hc hk ht _ ih iho => exact g_mapping ih hc hk ht iho
  | primary h ih => exact g_primary ih (G_first h)
  | not _ ih => exact g_not ih
  | splat _ ih => exact g_splat ih
  | minus h hi ih => exact g_minus ih (G_first h) hi
  | negative hv => exact g_negative hv
  | positive => exact g_positive
  | negativeFloat => exact g_negativeFloat
  | positiveFloat => exact g_positiveFloat
  | virtual _ _ ih ihb => exact g_virtual ih ihb
  | exported _ _ ih ihb => exact g_exported ih ihb
  | prim h ih => exact g_prim ih (G_plain h)
  | dottedEnd _ ih => exact g_dottedEnd ih
  | atom _ ih => exact g_atom ih
  | callee _ ih => exact DonePrim.callee ih
  | typeCallee => exact g_typeCallee
  | call h _ ih iha => exact g_callOf ih iha fun f args q hf ha => by rw [mkCall_plain hf (G_plain h), ha, bareO_none]
  | callLambda h _ hl ih iha ihl =>
    exact g_callLambdaOf ih iha ihl (G_first hl) fun f args lam q hf ha hlam => by rw [mkCall_plain hf (G_plain h), ha, bareO_some, hlam]
  | lambdaCall h hl ih ihl =>
    exact g_lambdaCallOf ih ihl (G_first hl) fun f lam q hf hlam => by rw [mkCall_plain hf (G_plain h), bareL_nil, bareO_some, hlam]
  | methodCall _ _ ih iha => exact g_callOf (DonePrim.callee ih) iha fun f args q hf ha => by rw [mkCall_dotted hf, ha, bareO_none]; rfl
  | methodLambda _ _ hl ih iha ihl =>
    exact g_callLambdaOf (DonePrim.callee ih) iha ihl (G_first hl) fun f args lam q hf ha hlam => by rw [mkCall_dotted hf, ha, bareO_some, hlam]; rfl
  | lambdaMethod _ hl ih ihl =>
    exact g_lambdaCallOf (DonePrim.callee ih) ihl (G_first hl) fun f lam q hf hlam => by rw [mkCall_dotted hf, bareL_nil, bareO_some, hlam]; rfl
  | access _ he _ ih ihk => exact g_access ih he ihk
  | dot h hm ih =>
    refine g_dotOf ih hm fun p e r0 he hr => ⟨p, e, r0, rfl, ?_, hr⟩
    have he : bare e = _ := he
    rw [convertLhs_plain (by rw [← plain_bare, he]; exact G_plain h), he]
  | dots _ hm ih =>
    refine g_dotOf (DonePrim.callee ih) hm fun p e r0 he hr => ⟨p, e, r0, rfl, ?_, hr⟩
    obtain ⟨q, l, r, rfl, h1, h2⟩ := he
    rw [convertLhs_named, h1, h2]
  | none => exact g_none
  | one h ih => exact g_one ih (G_first h)
  | more h _ ih ihs => exact g_more ih (G_first h) ihs
  | keyRel h hk ih => exact g_keyRel (g_binDone ih) (G_first h) hk
  | keyWord h => exact g_keyWord h
  | arg _ ih => exact g_arg ih
  | argPair _ _ ihk ihv => exact g_argPair ihk ihv
  | entry _ _ ihk ihv => exact g_entry ihk ihv
  | selEntry _ _ ihk ihv => exact g_selEntry ihk ihv
  | value _ ih => exact ih
  | param _ _ iht ihd => exact g_param iht ihd
  | paramRest _ _ iht ihd => exact g_paramRest iht ihd
  | leaf h => exact g_leaf h
  | paren ht _ ih => exact g_paren ht (g_binDone ih)
  | list ht _ ih => exact g_list ht ih
  | hash _ ih => exact g_hash ih
  | if_ _ ih => exact g_if ih
  | unless_ _ ih => exact g_unless ih
  | ifRest _ hb _ ihc ihb ihe => exact g_ifRest (g_binDone ihc) ihb (G_first hb) ihe
  | noElse => exact g_noElse
  | else_ _ ih => exact g_else ih
  | elsif _ ih => exact g_elsif ih
  | case _ _ ihe iho => exact g_case ihe iho
  | option _ _ ihv ihb => exact g_option ihv ihb
  | options _ _ ho ihv ihb iho => exact g_options ihv ihb iho (G_first ho)
  | lambda _ _ hb ihp ihr ihb => exact g_lambda ihp ihr ihb (G_first hb)
  | noRet => exact g_noRet
  | ret _ ih => exact g_ret ih
  | typ => exact g_typ
  | typArgs _ ih => exact g_typArgs ih
  | noTyp => exact g_noTyp
  | optTyp h ih => exact g_optTyp ih (G_first h)
  | noDflt => exact g_noDflt
  | dfltVal _ ih => exact g_dfltVal ih
  | noParams => exact g_noParams
  | params ht _ ih => exact g_params ht ih
  | class_ ht _ hq hb ihp ihq ihb => exact g_class ht ihp ihq (fun _ => parent_hd hq) ihb (G_first hb)
  | noParent => exact g_noParent
  | parent h => exact g_parent h
  | define ht _ hb ihp ihb => exact g_define ht ihp ihb (G_first hb)
  | application ht _ hb ihp ihb => exact g_application ht ihp ihb (G_first hb)
  | function ht _ hr hb ihp ihr ihb => exact g_function ht ihp ihr (fun _ => ret_hd hr) ihb (G_first hb)
  | plan ht _ hr hb ihp ihr ihb => exact g_plan ht ihp ihr (fun _ => ret_hd hr) ihb (G_first hb)
  | node _ hp hb ihh ihp ihb => exact g_node ihh ihp (fun _ => nodeParent_hd hp) ihb (G_first hb)
  | noNodeParent => exact g_noNodeParent
  | nodeParent _ ih => exact g_nodeParent ih
  | lastHost _ ih => exact g_lastHost ih
  | lastHostComma _ ih => exact g_lastHostComma ih
  | hosts _ hs ih ihs => exact g_hosts ih ihs (G_first hs)
  | host h => exact g_host h
  | hostName _ ih => exact g_hostName ih
  | seg h => exact g_seg h
  | segs h _ ih => exact g_segs h ih
  | site _ ih => exact g_site ih
  | block _ ih => exact g_block ih
  | noStmt => exact g_noStmt
  | stmt h hsn hs ha hss ih ihs => exact g_stmt (g_binDone ih) (G_plain h) (G_first h) hsn hs ha (G_stmts hss) ihs
  | stmtCall hn hc hap hs ha hss ihc ihs => exact g_stmtCall hn ihc (G_first hc) hap hs ha (G_stmts hss) ihs
  | stmtName hn hs => exact g_stmtName hn hs
  | typeStmt h hs ha hss ih ihs =>
    obtain ⟨h1, h2, h3⟩ := typeDef_shape h
    exact g_typeStmt h3 ih (G_plain h) h1 h2 (G_first h) hs ha (G_stmts hss) ihs
  | typeAlias _ ih => exact g_typeAlias ih
  | rendered _ ih => exact g_rendered ih
  | typeExtends _ ih => exact g_typeExtends ih
  | typeDefinition hb ih => exact g_typeDefinition ih (G_first hb)
  | typeInherits hb ih => exact g_typeInherits ih (G_first hb)
  | typeMapping _ _ ih ihe => exact g_typeMapping ih ihe
  | comma h ih => exact g_comma (g_binDone ih) (G_plain h)
  | commas h _ ih ihs => exact g_commas (g_binDone ih) (G_plain h) ihs
  | step ht hc _ hb ihp ihb => exact g_step ht hc ihp ihb (G_first hb)
  | stepHead _ _ ihp ihi => exact g_stepHead ihp ihi
  | noIteration => exact g_noIteration
  | iteration hi hp _ _ ihp ihv => exact g_iteration hi hp ihp ihv
  | namedIteration hi hp _ _ ihp ihv => exact g_namedIteration hi hp ihp ihv
  | workflowBody _ ih => exact g_workflowBody ih
  | resourceBody _ ih => exact g_resourceBody ih
  | actionBody hk _ ih => exact g_actionBody hk ih
  | noActivity => exact g_noActivity
  | activity ht _ hb _ ihp ihb iha => exact g_activity ht ihp ihb (G_first hb) iha
  | lastActivity hk ht _ ihp => exact g_lastActivity hk ht ihp
  | helper _ ha ih iha => exact g_helper ih iha fun _ hr => activities_hd ha hr
  | propParameters hp _ ih => exact g_propParameters hp ih
  | propReturns hp _ ih => exact g_propReturns hp ih
  | prop ht h1 h2 _ ih => exact g_prop ht h1 h2 ih
  | state ht _ ih => exact g_state ht ih
  | output _ _ iht ihd => exact g_output iht ihd
  | noSource => exact g_noSource
  | source ht => exact g_source ht
  | sources hp _ ih => exact g_sources hp ih
  | alias ht => exact g_alias ht

end PP
