import Verif.Lemmas.Err5
import Verif.Lemmas.Gram9

/-! # Every wrong phrase makes the parser fail -/
namespace PP
open PP.Spec
set_option linter.unusedSimpArgs false
set_option linter.unusedSectionVars false

theorem morePrimary_eq (t : Tok) : cPrim t = morePrimary t := by cases t <;> rfl
theorem moreOr_eq (t : Tok) : cBin .or t = moreOr t := by cases t <;> rfl
theorem moreExpr_eq (t : Tok) : cExpr t = moreExpr t := by cases t <;> rfl
theorem moreRel_eq (t : Tok) : cBin .rel t = moreRel t := by cases t <;> rfl
theorem moreElem_eq (k : Elem) (t : Tok) : cElem k t = moreElem k t := by
  cases k <;> simp only [cElem, moreElem, moreExpr_eq, moreRel_eq]

section
variable [Ending] {env : Env} {ns : List GoStr} {rest : List T} {c : Code} {p : Where}

theorem hd_next (hE : Ending.tok = .end_) (ts : List T) : hd ts = Spec.next ts := by
  cases ts with
  | nil => exact hE
  | cons t ts => rfl

/-! ## First tokens -/

theorem Called.first {d : Bool} {ts : List T} (h : Called ns d ts) : FirstTok opensPrimary ts := by
  cases h with
  | callee h => exact G_first h
  | dotted h => exact G_first h

theorem Called.reads {d : Bool} {ts : List T} (h : Called ns d ts) : ∃ ok, DoneCallee env ns d ok ts := by
  cases h with
  | callee h => exact ⟨_, G_reads h⟩
  | dotted h => exact ⟨_, DonePrim.callee (G_reads h)⟩

/-- Does not start with a unary operator. -/
abbrev NoUnary (rest ts : List T) : Prop := startsUnary (Spec.next (ts ++ rest)) = false

theorem opensPrimary_unary {t : Tok} (h : opensPrimary t = true) : startsUnary t = false := by
  simp only [opensPrimary, Bool.and_eq_true, Bool.not_eq_true'] at h
  exact h.2

theorem FirstTok.noUnary {ts : List T} (h : FirstTok opensPrimary ts) : NoUnary rest ts := by
  obtain ⟨t, r, rfl, h⟩ := h
  exact opensPrimary_unary h

theorem cannotStart_unary {t : Tok} (h : cannotStart t = true) : startsUnary t = false := by
  cases t <;> first | rfl | cases h

theorem definesName_unary {t : Tok} (h : definesName t = true) : startsUnary t = false := by
  cases t <;> first | rfl | cases h

theorem functionIssue_unary {t : Tok} (h : functionIssue t = some c) : startsUnary t = false := by
  cases t <;> first | rfl | cases h

theorem Wrong_first {k : K} {ts : List T} (h : Wrong rest ns k ts c p) (hk : k = .primary ∨ k = .atom) : NoUnary rest ts := by
  rcases hk with rfl | rfl
  · cases h with
    | query h _ _ _ _ => exact (Called.first h).append.noUnary
  · cases h with
    | start h => exact cannotStart_unary h
    | paren h => exact opensPrimary_unary (isParen_first h)
    | defineName h => exact definesName_unary h
    | functionName h => exact functionIssue_unary h
    | _ => rfl

theorem Bad_first {k : K} {ts : List T} (h : Bad rest c p ns k ts) : (k = .primary ∨ k = .atom → NoUnary rest ts) ∧
    (k = .lambda → FirstTok (isTok .pipe) ts) ∧ (k = .ret → FirstTok (isTok .rshift) ts) := by
  induction h with
  | here h =>
    refine ⟨Wrong_first h, ?_, ?_⟩
    · rintro rfl; cases h
    · rintro rfl; cases h
  | atom _ ih => exact ⟨fun _ => ih.1 (.inr rfl), nofun, nofun⟩
  | paren h | list h =>
    refine ⟨fun _ => ?_, nofun, nofun⟩
    first | exact opensPrimary_unary (isParen_first h) | exact opensPrimary_unary (isBracket_first h)
  | args h | argsLambda h | callLambda h | access h | dot h | query h | queryAttrs h =>
    exact ⟨fun _ => (Called.first h).append.noUnary, nofun, nofun⟩
  | lambdaParams | lambdaRet | lambdaBlock => exact ⟨(by rintro (h | h) <;> cases h), fun _ => FirstTok.mk rfl, nofun⟩
  | ret => exact ⟨(by rintro (h | h) <;> cases h), nofun, fun _ => FirstTok.mk rfl⟩
  | defineParams h | defineBlock h =>
    exact ⟨fun _ => definesName_unary h, nofun, nofun⟩
  | _ => first
    | exact ⟨fun _ => rfl, nofun, nofun⟩
    | exact ⟨(by rintro (h | h) <;> cases h), nofun, nofun⟩

/-! ## The parser -/

/-- What the parser does with a wrong phrase. -/
def BMot (env : Env) (ns : List GoStr) (rest : List T) (c : Code) (p : Where) : K → List T → Prop
  | .bin l, ts => BadP env ns rest c p (fun self => self (.binary l)) ts
  | .opd l, ts => BadP env ns rest c p (fun self => operand self l) ts
  | .assign, ts => BadP env ns rest c p (fun self => self .assignment) ts
  | .res, ts => BadP env ns rest c p (fun self => resource self) ts
  | .expr, ts => BadP env ns rest c p (fun self => self .expression) ts
  | .unary, ts => BadP env ns rest c p (fun self => self .unary) ts
  | .primary, ts => BadP env ns rest c p (fun self => self .primary) ts
  | .atom, ts => BadP env ns rest c p (fun self => self .atom) ts
  | .key, ts => BadP env ns rest c p (fun self => handleKeyword self) ts
  | .elem k, ts => BadP env ns rest c p (fun self => produce self (producer k)) ts
  | .many k close, ts => isEnd close = true → ∀ acc, BadP env ns rest c p (fun self => self (.exprs close (producer k) acc)) ts
  | .block, ts => BadP env ns rest c p (fun self => braces self) ts
  | .stmts close, ts => close = .rc ∨ close = .end_ → ∀ acc, BadP env ns rest c p (fun self => self (.stmts close acc)) ts
  | .commas, ts => ∀ acc, BadP env ns rest c p (commaRest acc) ts
  | .ifRest u, ts => BadIf env ns rest c p u ts
  | .options, ts => ∀ acc, BadP env ns rest c p (fun self => self (.caseOptions acc)) ts
  | .bodies, ts => BadBodies env ns rest c p ts
  | .attrs semi, ts => BadAttrs env ns rest c p semi ts
  | .attr, ts => BadP env ns rest c p (fun self => attributeOperation self) ts
  | .lambda, ts => BadP env ns rest c p (fun self => lambda self) ts
  | .ret, ts => BadP env ns rest c p (fun self => optReturnType self) ts
  | .typ, ts => BadP env ns rest c p (fun self => parameterType self) ts
  | .params, ts => BadP env ns rest c p (fun self => optParameterList self) ts
  | .hosts, ts => BadHosts env ns rest c p ts
  | .host, ts => BadP env ns rest c p (fun self => hostname self) ts
  | .segs, ts => ∀ start acc, BadP env ns rest c p (fun self => self (.dottedName start acc)) ts

theorem Wrong_fails (hE : Ending.tok = .end_) {k : K} {ts : List T} (h : Wrong rest ns k ts c p) : BMot env ns rest c p k ts := by
  induction h <;> try simp only [← hd_next hE, ← morePrimary_eq, ← moreOr_eq, ← moreExpr_eq, ← moreRel_eq, ← moreElem_eq] at *
  case start h => exact b_start h
  case plus hr h => subst hr; exact b_plus h
  case paren ht h h1 h2 => exact b_parenEnd ht (g_binDone (G_reads h)) h1 h2
  case brace h => exact b_brace h
  case caseBrace h h1 h2 => exact b_caseBrace (G_reads h) h1 h2
  case hiddenBrace ht h h1 h2 => exact b_hiddenBrace ht (G_reads h) h1 h2
  case query h hc hq h1 h2 => obtain ⟨ok, hd⟩ := Called.reads h; exact b_queryEnd hd hc (G_reads hq) (G_first hq) h1 h2
  case attrsEnd h h1 h2 h3 h4 => exact b_attrsEnd (G_reads h) h1 h2 h3 h4
  case attrsSemicolon h => exact b_attrsSemicolon h
  case selArrow h h1 h2 => exact b_selArrow (G_reads h) h1 h2
  case splatArrow h => exact b_splatArrow h
  case mappingBrace h hc hk ht h1 => exact b_mappingBrace (G_reads h) hc hk ht h1
  case typeBrace h => exact b_typeBrace h
  case nodeBrace h h1 h2 h3 h4 => exact b_nodeBrace (G_reads h) h1 h2 h3 h4
  case separator h h1 h2 h3 => exact fun hc acc => b_separator (G_reads h) (G_first h) hc h1 h2 h3 acc
  case arrow h h1 h2 => exact b_arrow (G_reads h) h1 h2
  case «variable» h h1 h2 h3 h4 => exact b_variable (G_reads h) (by simp only [cTyp, h1, Bool.false_or, beq_eq_false_iff_ne]; exact h2) h3 h4
  case variableRest h h1 => exact b_variableRest (G_reads h) h1
  case attrName h h1 => exact b_attrName h h1
  case attrArrow h h1 h2 => exact b_attrArrow h h1 h2
  case title h hr hx hs h1 h2 => exact b_title (G_reads h) hr (G_reads hx) (G_first hx) hs h1 h2
  case resource h hr hx hs h1 h2 => exact b_invalidResource (G_reads h) hr (G_reads hx) (G_first hx) hs h1 h2
  case laterTitle h hs ha hx h1 h2 h3 => exact b_laterTitle (G_reads h) (G_first h) hs (G_reads ha) (G_reads hx) (G_first hx) h1 h2 h3
  case elsif h hb hr => exact b_elsifUnless (g_binDone (G_reads h)) (G_reads hb) (G_first hb) hr
  case className h h1 => exact b_className h h1
  case parentName ht hp h h1 => exact b_parentName ht (G_reads hp) h h1
  case defineName hk h => exact b_defineName hk h
  case functionName hk h1 h2 => exact b_functionName hk h1 h2
  case mappingName h hc hk hi => exact b_mappingName (G_reads h) hc hk hi
  case host h => exact b_host h
  case segment h => exact fun start acc => b_segment h start acc
  case typeName h => exact b_typName h
  case typeParent h => exact b_typeParent h
  case typeAlias h1 h2 h3 h4 h5 => exact b_typeWrong h1 h2 h3 h4 h5
  case typeMapping h h1 => exact b_typeNoMapping (G_reads h) h1

theorem ret_params {r : Option Expr} {tr rest : List T} (h : G ns .ret r tr) (hr : cParams (hd rest) = false) : cParams (hd (tr ++ rest)) = false := by
  cases h
  · exact hr
  · rfl

theorem parent_params {r : GoStr} {tr rest : List T} (h : G ns .parent r tr) (hr : cParams (hd rest) = false) : cParams (hd (tr ++ rest)) = false := by
  cases h
  · exact hr
  · rfl

theorem apart_next {ts : List T} (h : Apart ts) : moreRel (Spec.next ts) = false ∧ Spec.next ts ≠ .comma := by
  cases ts with
  | nil => exact ⟨rfl, nofun⟩
  | cons t ts =>
    have : continues t.tok = false := h t rfl
    show moreRel t.tok = false ∧ t.tok ≠ .comma
    revert this
    cases t.tok <;> intro h <;> first | exact absurd h (by decide) | exact ⟨rfl, nofun⟩

theorem noKeyWord {ts : List T} (h : StartsNot isKeyWord ts) : (keyOf (.word (Spec.next ts))).isSome = false := by
  cases ts with
  | nil => rfl
  | cons t ts => exact h t rfl

theorem not_params {t : Tok} (h1 : t ≠ .lp) (h2 : t ≠ .wslp) : cParams t = false := by
  simp only [cParams, Bool.or_eq_false_iff, beq_eq_false_iff_ne]
  exact ⟨h1, h2⟩

theorem morePrimary_lp {t : Tok} (h : cPrim t = false) : t ≠ .lp := by
  rintro rfl; cases h

theorem FirstTok.ret_params {ts : List T} (h : FirstTok (isTok .rshift) ts) : cParams (hd (ts ++ rest)) = false := by
  obtain ⟨t, r, rfl, h⟩ := h
  simp only [isTok, beq_iff_eq] at h
  show cParams t.tok = false
  rw [h]; rfl

theorem Bad_fails (hE : Ending.tok = .end_) {k : K} {ts : List T} (h : Bad rest c p ns k ts) : BMot env ns rest c p k ts := by
  induction h <;> try simp only [← hd_next hE, ← morePrimary_eq, ← moreOr_eq, ← moreExpr_eq, ← moreRel_eq, ← moreElem_eq] at *
  case here h => exact Wrong_fails hE h
  case operand ih => exact b_operand ih
  case binary h hk _ ih => exact b_binary (G_reads h) hk ih
  case opdRel ih => exact ih
  case opdTighter hl _ ih => exact b_opdTighter hl ih
  case opdIn ih => exact ih
  case noAssign ih => exact b_noAssign ih
  case assign h ho _ ih => exact b_assign (G_reads h) ho ih
  case noResource ih => exact b_noResource ih
  case resource h _ ih => exact b_resource (G_reads h) ih
  case defaults h hd hb _ ih => exact b_defaults (G_reads h) hd hb ih
  case bodyTitle ih h1 => exact b_bodyTitle ih h1
  case bodyAttrs h hs _ ih => exact b_bodyAttrs (G_reads h) (G_first h) hs ih
  case bodies h hs ha _ ih h1 => exact b_bodies (G_reads h) (G_first h) hs (G_reads ha) ih h1
  case attr ih h1 h2 => exact b_attr ih h1 h2
  case attrs h _ ih => exact b_attrs (G_reads h) ih
  case attrValue ht hu _ ih => exact b_attrValue ht hu ih
  case attrSplat ih => exact b_attrSplat ih
  case value ih => exact b_value ih
  case selector h _ ih => exact b_selector (G_reads h) (ih rfl)
  case selectOne h _ ih h1 => exact b_selectOne (G_reads h) ih h1
  case mapping h hc hk ht _ ih => exact b_mapping (G_reads h) hc hk ht ih
  case primary h ih => exact b_primary ih (by rw [hd_next hE]; exact (Bad_first h).1 (.inl rfl))
  case not ih => exact b_not ih
  case splat ih => exact b_splat ih
  case minus hi ih => exact b_minus ih hi
  case hiddenType ht _ ih => exact b_hiddenType ht ih
  case hidden ht h _ ih => exact b_hidden ht (G_reads h) ih
  case hiddenDefaults ht h hd hb _ ih => exact b_hiddenDefaults ht (G_reads h) hd hb ih
  case atom ih => exact b_atom ih
  case args h _ ih => obtain ⟨ok, h⟩ := Called.reads h; exact b_args h (ih rfl)
  case argsLambda h ha hl ih => obtain ⟨ok, h⟩ := Called.reads h; exact b_argsLambda h (G_reads ha) ih ((Bad_first hl).2.1 rfl)
  case callLambda h hl ih => obtain ⟨ok, h⟩ := Called.reads h; exact b_callLambda h ih ((Bad_first hl).2.1 rfl)
  case access h _ ih => obtain ⟨ok, h⟩ := Called.reads h; exact b_access h (ih rfl)
  case dot h _ ih h1 => obtain ⟨ok, h⟩ := Called.reads h; exact b_dot h ih h1
  case query h hc _ ih h1 => obtain ⟨ok, h⟩ := Called.reads h; exact b_query h hc ih h1
  case queryAttrs h hq _ ih => obtain ⟨ok, h⟩ := Called.reads h; exact b_queryAttrs h (G_reads hq) (G_first hq) ih.rc
  case elem ih h1 => exact fun hc acc => b_elem ih hc h1 acc
  case elems h _ ih => exact fun hc acc => b_elems (G_reads h) (G_first h) hc (ih hc) acc
  case key hk ih => exact b_key ih (by rw [hd_next hE]; exact noKeyWord hk)
  case arg ih => exact b_arg ih
  case argValue h _ ih => exact b_argValue (G_reads h) ih
  case entry ih => exact b_entry ih
  case entryValue h _ ih => exact b_entryValue (G_reads h) ih
  case selEntry ih => exact b_selEntry ih
  case selEntryValue h _ ih => exact b_selEntryValue (G_reads h) ih
  case caseValue ih => exact ih
  case paramType ih => exact b_paramType (b_typArgs (ih rfl)) rfl
  case paramDefault h _ ih => exact b_paramDefault (G_reads h) ih
  case paramRestDefault h _ ih => exact b_paramRestDefault (G_reads h) ih
  case paren ht _ ih => exact b_paren ht ih
  case list ht _ ih => exact b_list ht (ih rfl)
  case hash ih => exact b_hash (ih rfl)
  case if_ ih => exact b_if ih
  case unless_ ih => exact b_unless ih
  case condition ih => exact b_condition ih
  case then_ h _ ih h1 => exact b_then (g_binDone (G_reads h)) ih h1
  case else_ h hb _ ih => exact b_else (g_binDone (G_reads h)) (G_reads hb) (G_first hb) ih
  case elsif h hb _ ih => exact b_elsif (g_binDone (G_reads h)) (G_reads hb) (G_first hb) ih
  case caseTest ih => exact b_caseTest ih
  case case h _ ih => exact b_case (G_reads h) ih
  case optionValues ih => exact fun acc => b_optionValues (ih rfl) acc
  case optionBlock h _ ih => exact fun acc => b_optionBlock (G_reads h) ih acc
  case options h hb _ ih h1 => exact fun acc => b_options (G_reads h) (G_reads hb) ih h1 acc
  case lambdaParams ih => exact b_lambdaParams (ih rfl)
  case lambdaRet h _ ih => exact b_lambdaRet (G_reads h) ih
  case lambdaBlock h hr _ ih h1 h2 => exact b_lambdaBlock (G_reads h) (G_reads hr) ih (by simp only [cRet, h1, Bool.false_or, beq_eq_false_iff_ne]; exact h2)
  case ret ih => exact b_ret ih
  case typ ih => exact b_typArgs (ih rfl)
  case params ht _ ih => exact b_params ht (ih rfl)
  case classParams ht _ ih => exact b_classParams ht ih
  case classBlock ht hp hq _ ih h1 h2 h3 => exact b_classBlock ht (G_reads hp) (G_reads hq) (parent_params hq (not_params h1 h2)) h3 ih
  case defineParams hk ht _ ih => exact b_defineParams hk ht ih
  case defineBlock hk ht hp _ ih h1 h2 => exact b_defineBlock hk ht (G_reads hp) (not_params h1 h2) ih
  case functionParams ht _ ih => exact b_functionParams (plan := false) ht ih
  case functionRet ht hp h ih => exact b_functionRet (plan := false) ht (G_reads hp) ((Bad_first h).2.2 rfl).ret_params ih
  case functionBlock ht hp hr _ ih h1 h2 h3 =>
    exact b_functionBlock (plan := false) ht (G_reads hp) (ret_params hr (not_params (morePrimary_lp h1) h2)) (G_reads hr)
      (by simp only [cRet, h1, Bool.false_or, beq_eq_false_iff_ne]; exact h3) ih
  case planParams ht _ ih => exact b_functionParams (plan := true) ht ih
  case planRet ht hp h ih => exact b_functionRet (plan := true) ht (G_reads hp) ((Bad_first h).2.2 rfl).ret_params ih
  case planBlock ht hp hr _ ih h1 h2 h3 =>
    exact b_functionBlock (plan := true) ht (G_reads hp) (ret_params hr (not_params (morePrimary_lp h1) h2)) (G_reads hr)
      (by simp only [cRet, h1, Bool.false_or, beq_eq_false_iff_ne]; exact h3) ih
  case nodeHosts ih => exact b_nodeHosts ih
  case nodeParent h _ ih => exact b_nodeParent (G_reads h) ih
  case nodeBlock h _ ih h1 => exact b_nodeBlock (G_reads h) h1 ih
  case nodeParentBlock h hp _ ih h1 => exact b_nodeParentBlock (G_reads h) (G_reads hp) h1 ih
  case hosts ih => exact b_hosts ih
  case moreHosts h _ ih h1 h2 => exact b_moreHosts (G_reads h) ih h1 h2
  case hostName ht _ ih => exact b_hostSegs ht ih
  case segs ht _ ih => exact b_hostName ht ih
  case site ih => exact b_site ih
  case typeAlias ih => exact b_typeAlias ih
  case typeExtends ih => exact b_typeExtends ih
  case typeDefinition ih => exact b_typeDefinition hE (ih (.inl rfl))
  case typeInherits ih => exact b_typeInherits hE (ih (.inl rfl))
  case typeArgs ih => exact b_typeArgs (ih rfl)
  case typeMapping h _ ih => exact b_typeMapping (G_reads h) ih
  case block ih => exact b_block hE (ih (.inl rfl))
  case comma ih => exact fun acc => b_comma ih acc
  case commas h _ ih => exact fun acc => b_commas (g_binDone (G_reads h)) ih acc
  case stmt ih h1 => exact fun hc acc => b_stmt ih h1 (by rcases hc with rfl | rfl <;> nofun) acc
  case stmts h hs ha _ ih hsm =>
    have hap := apart_next ha
    rw [← moreRel_eq, ← hd_next hE] at hap
    exact fun hc acc => b_stmts (G_reads h) (G_first h) hs hsm hap.1 hap.2 hc (ih hc) acc
  case typeStmts h hs ha _ ih hsm =>
    have hap := apart_next ha
    rw [← moreRel_eq, ← hd_next hE] at hap
    have ht := G_first h
    exact fun hc acc => b_stmts (g_comma (rel_of_type (typeDef_shape h).2.2 (G_reads h) (G_plain h) ht) (G_plain h))
      (ht.imp fun t => by cases t <;> simp [isTypeDef, opens, closer]) hs hsm hap.1 hap.2 hc (ih hc) acc

end
end PP
