import Verif.Lemmas.Exec

/-! # The fuel of the model does not matter: a result that is not a timeout stays with more fuel -/
namespace PP

/-- `m'` agrees with `m` wherever `m` does not time out. -/
structure LeT {α : Type} (m m' : P α) : Prop where
  cases : ∀ env s, (∃ t, m env s = .fail .timeout t) ∨ m env s = m' env s

/-- The same for the recursive functions. -/
def LeS (self self' : Self) : Prop := ∀ x, LeT (self x) (self' x)

section
variable {α β : Type}

theorem LeT.refl (m : P α) : LeT m m := ⟨fun _ _ => .inr rfl⟩

theorem LeT.bind {m m' : P α} {f f' : α → P β} (h : LeT m m') (hf : ∀ a, LeT (f a) (f' a)) : LeT (m >>= f) (m' >>= f') := by
  refine ⟨fun env s => ?_⟩
  rcases h.cases env s with ⟨t, h⟩ | h
  · exact .inl ⟨t, by rw [bind_fail h]⟩
  · cases h' : m env s with
    | fail e t => exact .inr (by rw [bind_fail h', bind_fail (h ▸ h')])
    | ok a t =>
      rw [bind_ok h', bind_ok (h ▸ h')]
      exact (hf a).cases env t

theorem LeT.ite {c : Prop} [Decidable c] {m m' n n' : P α} (h : c → LeT m m') (h' : ¬ c → LeT n n') :
    LeT (if c then m else n) (if c then m' else n') := by
  split
  · exact h ‹_›
  · exact h' ‹_›

theorem LeT.app {self self' : Self} (h : LeS self self') (x : NT) : LeT (self x) (self' x) := h x

end

/-- A body that was treated before. -/
syntax "mono_known" : tactic
macro_rules | `(tactic| mono_known) => `(tactic| fail)

/-- One step through a body. -/
macro "mono" : tactic => `(tactic| repeat first
  | with_reducible exact LeT.refl _
  | intro _
  | (with_reducible apply LeT.app; assumption)
  | mono_known
  | with_reducible apply LeT.bind
  | with_reducible apply LeT.ite
  | split)

section
variable {self self' : Self}

theorem mono_interpolate (h : LeS self self') :
    ∀ start, LeT (interpolate self start) (interpolate self' start) := by
  intro start
  unfold interpolate
  mono
macro_rules | `(tactic| mono_known) => `(tactic| (with_reducible apply mono_interpolate; assumption))

theorem mono_handleInterpolation (h : LeS self self') :
    ∀ start segs buf, LeT (handleInterpolation self start segs buf) (handleInterpolation self' start segs buf) := by
  intro start segs buf
  unfold handleInterpolation
  mono
macro_rules | `(tactic| mono_known) => `(tactic| (with_reducible apply mono_handleInterpolation; assumption))

theorem mono_delimBody (h : LeS self self') :
    ∀ d ds i hd buf ec start segs, LeT (delimBody self d ds i hd buf ec start segs) (delimBody self' d ds i hd buf ec start segs) := by
  intro d ds i hd buf ec start segs
  unfold delimBody
  mono
macro_rules | `(tactic| mono_known) => `(tactic| (with_reducible apply mono_delimBody; assumption))

theorem mono_consumeDelimitedString (h : LeS self self') :
    ∀ d ds i hd, LeT (consumeDelimitedString self d ds i hd) (consumeDelimitedString self' d ds i hd) := by
  intro d ds i hd
  unfold consumeDelimitedString
  mono
macro_rules | `(tactic| mono_known) => `(tactic| (with_reducible apply mono_consumeDelimitedString; assumption))

theorem mono_consumeEPP (h : LeS self self') :
    LeT (consumeEPP self) (consumeEPP self') := by
  unfold consumeEPP
  mono
macro_rules | `(tactic| mono_known) => `(tactic| (with_reducible apply mono_consumeEPP; assumption))

theorem mono_consumeDoubleQuotedString (h : LeS self self') :
    LeT (consumeDoubleQuotedString self) (consumeDoubleQuotedString self') := by
  unfold consumeDoubleQuotedString
  mono
macro_rules | `(tactic| mono_known) => `(tactic| (with_reducible apply mono_consumeDoubleQuotedString; assumption))

theorem mono_consumeSingleQuotedString (h : LeS self self') :
    LeT (consumeSingleQuotedString self) (consumeSingleQuotedString self') := by
  unfold consumeSingleQuotedString
  mono
macro_rules | `(tactic| mono_known) => `(tactic| (with_reducible apply mono_consumeSingleQuotedString; assumption))

theorem mono_consumeRegexp (h : LeS self self') :
    LeT (consumeRegexp self) (consumeRegexp self') := by
  unfold consumeRegexp
  mono
macro_rules | `(tactic| mono_known) => `(tactic| (with_reducible apply mono_consumeRegexp; assumption))

theorem mono_escapesBody (h : LeS self self') :
    ∀ e i fl ip buf segs, LeT (escapesBody self e i fl ip buf segs) (escapesBody self' e i fl ip buf segs) := by
  intro e i fl ip buf segs
  unfold escapesBody
  mono
macro_rules | `(tactic| mono_known) => `(tactic| (with_reducible apply mono_escapesBody; assumption))

theorem mono_consumeHeredocString (h : LeS self self') :
    LeT (consumeHeredocString self) (consumeHeredocString self') := by
  unfold consumeHeredocString
  mono
macro_rules | `(tactic| mono_known) => `(tactic| (with_reducible apply mono_consumeHeredocString; assumption))

theorem mono_lexMinus (h : LeS self self') :
    LeT (lexMinus self) (lexMinus self') := by
  unfold lexMinus
  mono
macro_rules | `(tactic| mono_known) => `(tactic| (with_reducible apply mono_lexMinus; assumption))

theorem mono_lexPercent (h : LeS self self') :
    LeT (lexPercent self) (lexPercent self') := by
  unfold lexPercent
  mono
macro_rules | `(tactic| mono_known) => `(tactic| (with_reducible apply mono_lexPercent; assumption))

theorem mono_lexAt (h : LeS self self') :
    LeT (lexAt self) (lexAt self') := by
  unfold lexAt
  mono
macro_rules | `(tactic| mono_known) => `(tactic| (with_reducible apply mono_lexAt; assumption))

theorem mono_lexLess (h : LeS self self') :
    LeT (lexLess self) (lexLess self') := by
  unfold lexLess
  mono
macro_rules | `(tactic| mono_known) => `(tactic| (with_reducible apply mono_lexLess; assumption))

theorem mono_lexSlash (h : LeS self self') :
    LeT (lexSlash self) (lexSlash self') := by
  unfold lexSlash
  mono
macro_rules | `(tactic| mono_known) => `(tactic| (with_reducible apply mono_lexSlash; assumption))

theorem mono_lexChar (h : LeS self self') :
    ∀ a b c, LeT (lexChar self a b c) (lexChar self' a b c) := by
  intro a b c
  unfold lexChar
  mono
macro_rules | `(tactic| mono_known) => `(tactic| (with_reducible apply mono_lexChar; assumption))

theorem mono_nextTokenBody (h : LeS self self') :
    LeT (nextTokenBody self) (nextTokenBody self') := by
  unfold nextTokenBody
  mono
macro_rules | `(tactic| mono_known) => `(tactic| (with_reducible apply mono_nextTokenBody; assumption))

theorem mono_identifier (h : LeS self self') :
    LeT (identifier self) (identifier self') := by
  unfold identifier
  mono
macro_rules | `(tactic| mono_known) => `(tactic| (with_reducible apply mono_identifier; assumption))

theorem mono_identifierExpr (h : LeS self self') :
    LeT (identifierExpr self) (identifierExpr self') := by
  unfold identifierExpr
  mono
macro_rules | `(tactic| mono_known) => `(tactic| (with_reducible apply mono_identifierExpr; assumption))

theorem mono_typeName (h : LeS self self') :
    LeT (typeName self) (typeName self') := by
  unfold typeName
  mono
macro_rules | `(tactic| mono_known) => `(tactic| (with_reducible apply mono_typeName; assumption))

theorem mono_arrayExpression (h : LeS self self') :
    LeT (arrayExpression self) (arrayExpression self') := by
  unfold arrayExpression
  mono
macro_rules | `(tactic| mono_known) => `(tactic| (with_reducible apply mono_arrayExpression; assumption))

theorem mono_parameterType (h : LeS self self') :
    LeT (parameterType self) (parameterType self') := by
  unfold parameterType
  mono
macro_rules | `(tactic| mono_known) => `(tactic| (with_reducible apply mono_parameterType; assumption))

theorem mono_parameterList (h : LeS self self') :
    LeT (parameterList self) (parameterList self') := by
  unfold parameterList
  mono
macro_rules | `(tactic| mono_known) => `(tactic| (with_reducible apply mono_parameterList; assumption))

theorem mono_optParameterList (h : LeS self self') :
    LeT (optParameterList self) (optParameterList self') := by
  unfold optParameterList
  mono
macro_rules | `(tactic| mono_known) => `(tactic| (with_reducible apply mono_optParameterList; assumption))

theorem mono_optReturnType (h : LeS self self') :
    LeT (optReturnType self) (optReturnType self') := by
  unfold optReturnType
  mono
macro_rules | `(tactic| mono_known) => `(tactic| (with_reducible apply mono_optReturnType; assumption))

theorem mono_lambdaParameterList (h : LeS self self') :
    LeT (lambdaParameterList self) (lambdaParameterList self') := by
  unfold lambdaParameterList
  mono
macro_rules | `(tactic| mono_known) => `(tactic| (with_reducible apply mono_lambdaParameterList; assumption))

theorem mono_braces (h : LeS self self') :
    LeT (braces self) (braces self') := by
  unfold braces
  mono
macro_rules | `(tactic| mono_known) => `(tactic| (with_reducible apply mono_braces; assumption))

theorem mono_lambda (h : LeS self self') :
    LeT (lambda self) (lambda self') := by
  unfold lambda
  mono
macro_rules | `(tactic| mono_known) => `(tactic| (with_reducible apply mono_lambda; assumption))

theorem mono_callFunctionExpression (h : LeS self self') :
    ∀ f, LeT (callFunctionExpression self f) (callFunctionExpression self' f) := by
  intro f
  unfold callFunctionExpression
  mono
macro_rules | `(tactic| mono_known) => `(tactic| (with_reducible apply mono_callFunctionExpression; assumption))

theorem mono_handleKeyword (h : LeS self self') :
    LeT (handleKeyword self) (handleKeyword self') := by
  unfold handleKeyword
  mono
macro_rules | `(tactic| mono_known) => `(tactic| (with_reducible apply mono_handleKeyword; assumption))

theorem mono_argument (h : LeS self self') :
    LeT (argument self) (argument self') := by
  unfold argument
  mono
macro_rules | `(tactic| mono_known) => `(tactic| (with_reducible apply mono_argument; assumption))

theorem mono_keyedEntry (h : LeS self self') :
    LeT (keyedEntry self) (keyedEntry self') := by
  unfold keyedEntry
  mono
macro_rules | `(tactic| mono_known) => `(tactic| (with_reducible apply mono_keyedEntry; assumption))

theorem mono_selectorEntry (h : LeS self self') :
    LeT (selectorEntry self) (selectorEntry self') := by
  unfold selectorEntry
  mono
macro_rules | `(tactic| mono_known) => `(tactic| (with_reducible apply mono_selectorEntry; assumption))

theorem mono_parameter (h : LeS self self') :
    LeT (parameter self) (parameter self') := by
  unfold parameter
  mono
macro_rules | `(tactic| mono_known) => `(tactic| (with_reducible apply mono_parameter; assumption))

theorem mono_attributeAlias (h : LeS self self') :
    LeT (attributeAlias self) (attributeAlias self') := by
  unfold attributeAlias
  mono
macro_rules | `(tactic| mono_known) => `(tactic| (with_reducible apply mono_attributeAlias; assumption))

theorem mono_returnParameter (h : LeS self self') :
    LeT (returnParameter self) (returnParameter self') := by
  unfold returnParameter
  mono
macro_rules | `(tactic| mono_known) => `(tactic| (with_reducible apply mono_returnParameter; assumption))

theorem mono_stepProperty (h : LeS self self') :
    LeT (stepProperty self) (stepProperty self') := by
  unfold stepProperty
  mono
macro_rules | `(tactic| mono_known) => `(tactic| (with_reducible apply mono_stepProperty; assumption))

theorem mono_stateAttribute (h : LeS self self') :
    LeT (stateAttribute self) (stateAttribute self') := by
  unfold stateAttribute
  mono
macro_rules | `(tactic| mono_known) => `(tactic| (with_reducible apply mono_stateAttribute; assumption))

theorem mono_produce (h : LeS self self') :
    ∀ pr, LeT (produce self pr) (produce self' pr) := by
  intro pr
  unfold produce
  mono
macro_rules | `(tactic| mono_known) => `(tactic| (with_reducible apply mono_produce; assumption))

theorem mono_exprsBody (h : LeS self self') :
    ∀ t pr acc, LeT (exprsBody self t pr acc) (exprsBody self' t pr acc) := by
  intro t pr acc
  unfold exprsBody
  mono
macro_rules | `(tactic| mono_known) => `(tactic| (with_reducible apply mono_exprsBody; assumption))

theorem mono_commaArgsBody (h : LeS self self') :
    ∀ acc, LeT (commaArgsBody self acc) (commaArgsBody self' acc) := by
  intro acc
  unfold commaArgsBody
  mono
macro_rules | `(tactic| mono_known) => `(tactic| (with_reducible apply mono_commaArgsBody; assumption))

theorem mono_syntacticStatement (h : LeS self self') :
    LeT (syntacticStatement self) (syntacticStatement self') := by
  unfold syntacticStatement
  mono
macro_rules | `(tactic| mono_known) => `(tactic| (with_reducible apply mono_syntacticStatement; assumption))

theorem mono_stmtsBody (h : LeS self self') :
    ∀ t acc, LeT (stmtsBody self t acc) (stmtsBody self' t acc) := by
  intro t acc
  unfold stmtsBody
  mono
macro_rules | `(tactic| mono_known) => `(tactic| (with_reducible apply mono_stmtsBody; assumption))

theorem mono_parseBody (h : LeS self self') :
    ∀ t single, LeT (parseBody self t single) (parseBody self' t single) := by
  intro t single
  unfold parseBody
  mono
macro_rules | `(tactic| mono_known) => `(tactic| (with_reducible apply mono_parseBody; assumption))

theorem mono_className (h : LeS self self') :
    LeT (className self) (className self') := by
  unfold className
  mono
macro_rules | `(tactic| mono_known) => `(tactic| (with_reducible apply mono_className; assumption))

theorem mono_attributeOperation (h : LeS self self') :
    LeT (attributeOperation self) (attributeOperation self') := by
  unfold attributeOperation
  mono
macro_rules | `(tactic| mono_known) => `(tactic| (with_reducible apply mono_attributeOperation; assumption))

theorem mono_attrOpsBody (h : LeS self self') :
    ∀ acc, LeT (attrOpsBody self acc) (attrOpsBody self' acc) := by
  intro acc
  unfold attrOpsBody
  mono
macro_rules | `(tactic| mono_known) => `(tactic| (with_reducible apply mono_attrOpsBody; assumption))

theorem mono_capabilityMapping (h : LeS self self') :
    ∀ c k, LeT (capabilityMapping self c k) (capabilityMapping self' c k) := by
  intro c k
  unfold capabilityMapping
  mono
macro_rules | `(tactic| mono_known) => `(tactic| (with_reducible apply mono_capabilityMapping; assumption))

theorem mono_expressionBody (h : LeS self self') :
    LeT (expressionBody self) (expressionBody self') := by
  unfold expressionBody
  mono
macro_rules | `(tactic| mono_known) => `(tactic| (with_reducible apply mono_expressionBody; assumption))

theorem mono_selectorsExpression (h : LeS self self') :
    ∀ e, LeT (selectorsExpression self e) (selectorsExpression self' e) := by
  intro e
  unfold selectorsExpression
  mono
macro_rules | `(tactic| mono_known) => `(tactic| (with_reducible apply mono_selectorsExpression; assumption))

theorem mono_selLoopBody (h : LeS self self') :
    ∀ e, LeT (selLoopBody self e) (selLoopBody self' e) := by
  intro e
  unfold selLoopBody
  mono
macro_rules | `(tactic| mono_known) => `(tactic| (with_reducible apply mono_selLoopBody; assumption))

theorem mono_stepName (h : LeS self self') :
    LeT (stepName self) (stepName self') := by
  unfold stepName
  mono
macro_rules | `(tactic| mono_known) => `(tactic| (with_reducible apply mono_stepName; assumption))

theorem mono_stepStyle (h : LeS self self') :
    LeT (stepStyle self) (stepStyle self') := by
  unfold stepStyle
  mono
macro_rules | `(tactic| mono_known) => `(tactic| (with_reducible apply mono_stepStyle; assumption))

theorem mono_stepIteration (h : LeS self self') :
    ∀ n, LeT (stepIteration self n) (stepIteration self' n) := by
  intro n
  unfold stepIteration
  mono
macro_rules | `(tactic| mono_known) => `(tactic| (with_reducible apply mono_stepIteration; assumption))

theorem mono_stepBlock (h : LeS self self') :
    ∀ s st, LeT (stepBlock self s st) (stepBlock self' s st) := by
  intro s st
  unfold stepBlock
  mono
macro_rules | `(tactic| mono_known) => `(tactic| (with_reducible apply mono_stepBlock; assumption))

theorem mono_stepDeclaration (h : LeS self self') :
    ∀ s st n top, LeT (stepDeclaration self s st n top) (stepDeclaration self' s st n top) := by
  intro s st n top
  unfold stepDeclaration
  mono
macro_rules | `(tactic| mono_known) => `(tactic| (with_reducible apply mono_stepDeclaration; assumption))

theorem mono_resource (h : LeS self self') :
    LeT (resource self) (resource self') := by
  unfold resource
  mono
macro_rules | `(tactic| mono_known) => `(tactic| (with_reducible apply mono_resource; assumption))

theorem mono_stepOrResource (h : LeS self self') :
    LeT (stepOrResource self) (stepOrResource self') := by
  unfold stepOrResource
  mono
macro_rules | `(tactic| mono_known) => `(tactic| (with_reducible apply mono_stepOrResource; assumption))

theorem mono_assignmentBody (h : LeS self self') :
    LeT (assignmentBody self) (assignmentBody self') := by
  unfold assignmentBody
  mono
macro_rules | `(tactic| mono_known) => `(tactic| (with_reducible apply mono_assignmentBody; assumption))

theorem mono_assignLoopBody (h : LeS self self') :
    ∀ e, LeT (assignLoopBody self e) (assignLoopBody self' e) := by
  intro e
  unfold assignLoopBody
  mono
macro_rules | `(tactic| mono_known) => `(tactic| (with_reducible apply mono_assignLoopBody; assumption))

theorem mono_operand (h : LeS self self') :
    ∀ l, LeT (operand self l) (operand self' l) := by
  intro l
  unfold operand
  mono
macro_rules | `(tactic| mono_known) => `(tactic| (with_reducible apply mono_operand; assumption))

theorem mono_binaryBody (h : LeS self self') :
    ∀ l, LeT (binaryBody self l) (binaryBody self' l) := by
  intro l
  unfold binaryBody
  mono
macro_rules | `(tactic| mono_known) => `(tactic| (with_reducible apply mono_binaryBody; assumption))

theorem mono_binLoopBody (h : LeS self self') :
    ∀ l e, LeT (binLoopBody self l e) (binLoopBody self' l e) := by
  intro l e
  unfold binLoopBody
  mono
macro_rules | `(tactic| mono_known) => `(tactic| (with_reducible apply mono_binLoopBody; assumption))

theorem mono_unaryBody (h : LeS self self') :
    LeT (unaryBody self) (unaryBody self') := by
  unfold unaryBody
  mono
macro_rules | `(tactic| mono_known) => `(tactic| (with_reducible apply mono_unaryBody; assumption))

theorem mono_collectExpression (h : LeS self self') :
    ∀ e, LeT (collectExpression self e) (collectExpression self' e) := by
  intro e
  unfold collectExpression
  mono
macro_rules | `(tactic| mono_known) => `(tactic| (with_reducible apply mono_collectExpression; assumption))

theorem mono_primaryBody (h : LeS self self') :
    LeT (primaryBody self) (primaryBody self') := by
  unfold primaryBody
  mono
macro_rules | `(tactic| mono_known) => `(tactic| (with_reducible apply mono_primaryBody; assumption))

theorem mono_primLoopBody (h : LeS self self') :
    ∀ e, LeT (primLoopBody self e) (primLoopBody self' e) := by
  intro e
  unfold primLoopBody
  mono
macro_rules | `(tactic| mono_known) => `(tactic| (with_reducible apply mono_primLoopBody; assumption))

theorem mono_functionDefinition (h : LeS self self') :
    ∀ pl, LeT (functionDefinition self pl) (functionDefinition self' pl) := by
  intro pl
  unfold functionDefinition
  mono
macro_rules | `(tactic| mono_known) => `(tactic| (with_reducible apply mono_functionDefinition; assumption))

theorem mono_hostname (h : LeS self self') :
    LeT (hostname self) (hostname self') := by
  unfold hostname
  mono
macro_rules | `(tactic| mono_known) => `(tactic| (with_reducible apply mono_hostname; assumption))

theorem mono_dottedNameBody (h : LeS self self') :
    ∀ s ns, LeT (dottedNameBody self s ns) (dottedNameBody self' s ns) := by
  intro s ns
  unfold dottedNameBody
  mono
macro_rules | `(tactic| mono_known) => `(tactic| (with_reducible apply mono_dottedNameBody; assumption))

theorem mono_hostnamesBody (h : LeS self self') :
    ∀ acc, LeT (hostnamesBody self acc) (hostnamesBody self' acc) := by
  intro acc
  unfold hostnamesBody
  mono
macro_rules | `(tactic| mono_known) => `(tactic| (with_reducible apply mono_hostnamesBody; assumption))

theorem mono_nodeDefinition (h : LeS self self') :
    LeT (nodeDefinition self) (nodeDefinition self') := by
  unfold nodeDefinition
  mono
macro_rules | `(tactic| mono_known) => `(tactic| (with_reducible apply mono_nodeDefinition; assumption))

theorem mono_siteDefinition (h : LeS self self') :
    LeT (siteDefinition self) (siteDefinition self') := by
  unfold siteDefinition
  mono
macro_rules | `(tactic| mono_known) => `(tactic| (with_reducible apply mono_siteDefinition; assumption))

theorem mono_resourceDefinition (h : LeS self self') :
    ∀ ap, LeT (resourceDefinition self ap) (resourceDefinition self' ap) := by
  intro ap
  unfold resourceDefinition
  mono
macro_rules | `(tactic| mono_known) => `(tactic| (with_reducible apply mono_resourceDefinition; assumption))

theorem mono_classExpression (h : LeS self self') :
    ∀ s, LeT (classExpression self s) (classExpression self' s) := by
  intro s
  unfold classExpression
  mono
macro_rules | `(tactic| mono_known) => `(tactic| (with_reducible apply mono_classExpression; assumption))

theorem mono_typeAliasBody (h : LeS self self') :
    LeT (typeAliasBody self) (typeAliasBody self') := by
  unfold typeAliasBody
  mono
macro_rules | `(tactic| mono_known) => `(tactic| (with_reducible apply mono_typeAliasBody; assumption))

theorem mono_typeDefinitionBody (h : LeS self self') :
    ∀ s n pa, LeT (typeDefinitionBody self s n pa) (typeDefinitionBody self' s n pa) := by
  intro s n pa
  unfold typeDefinitionBody
  mono
macro_rules | `(tactic| mono_known) => `(tactic| (with_reducible apply mono_typeDefinitionBody; assumption))

theorem mono_typeAliasOrDefinition (h : LeS self self') :
    LeT (typeAliasOrDefinition self) (typeAliasOrDefinition self') := by
  unfold typeAliasOrDefinition
  mono
macro_rules | `(tactic| mono_known) => `(tactic| (with_reducible apply mono_typeAliasOrDefinition; assumption))

theorem mono_caseOption (h : LeS self self') :
    LeT (caseOption self) (caseOption self') := by
  unfold caseOption
  mono
macro_rules | `(tactic| mono_known) => `(tactic| (with_reducible apply mono_caseOption; assumption))

theorem mono_caseOptionsBody (h : LeS self self') :
    ∀ acc, LeT (caseOptionsBody self acc) (caseOptionsBody self' acc) := by
  intro acc
  unfold caseOptionsBody
  mono
macro_rules | `(tactic| mono_known) => `(tactic| (with_reducible apply mono_caseOptionsBody; assumption))

theorem mono_caseExpression (h : LeS self self') :
    LeT (caseExpression self) (caseExpression self') := by
  unfold caseExpression
  mono
macro_rules | `(tactic| mono_known) => `(tactic| (with_reducible apply mono_caseExpression; assumption))

theorem mono_ifBody (h : LeS self self') :
    ∀ u, LeT (ifBody self u) (ifBody self' u) := by
  intro u
  unfold ifBody
  mono
macro_rules | `(tactic| mono_known) => `(tactic| (with_reducible apply mono_ifBody; assumption))

theorem mono_leaf (h : LeS self self') :
    ∀ e, LeT (leaf self e) (leaf self' e) := by
  intro e
  unfold leaf
  mono
macro_rules | `(tactic| mono_known) => `(tactic| (with_reducible apply mono_leaf; assumption))

theorem mono_atomBody (h : LeS self self') :
    LeT (atomBody self) (atomBody self') := by
  unfold atomBody
  mono
macro_rules | `(tactic| mono_known) => `(tactic| (with_reducible apply mono_atomBody; assumption))

theorem mono_resourceExprBody (h : LeS self self') :
    ∀ s f fo, LeT (resourceExprBody self s f fo) (resourceExprBody self' s f fo) := by
  intro s f fo
  unfold resourceExprBody
  mono
macro_rules | `(tactic| mono_known) => `(tactic| (with_reducible apply mono_resourceExprBody; assumption))

theorem mono_resourceBody (h : LeS self self') :
    ∀ t, LeT (resourceBody self t) (resourceBody self' t) := by
  intro t
  unfold resourceBody
  mono
macro_rules | `(tactic| mono_known) => `(tactic| (with_reducible apply mono_resourceBody; assumption))

theorem mono_resourceBodiesBody (h : LeS self self') :
    ∀ t acc, LeT (resourceBodiesBody self t acc) (resourceBodiesBody self' t acc) := by
  intro t acc
  unfold resourceBodiesBody
  mono
macro_rules | `(tactic| mono_known) => `(tactic| (with_reducible apply mono_resourceBodiesBody; assumption))

theorem mono_stepExpression (h : LeS self self') :
    LeT (stepExpression self) (stepExpression self') := by
  unfold stepExpression
  mono
macro_rules | `(tactic| mono_known) => `(tactic| (with_reducible apply mono_stepExpression; assumption))

theorem mono_activitiesBody (h : LeS self self') :
    ∀ acc, LeT (activitiesBody self acc) (activitiesBody self' acc) := by
  intro acc
  unfold activitiesBody
  mono
macro_rules | `(tactic| mono_known) => `(tactic| (with_reducible apply mono_activitiesBody; assumption))

theorem mono_eppLoopBody (h : LeS self self') :
    ∀ acc, LeT (eppLoopBody self acc) (eppLoopBody self' acc) := by
  intro acc
  unfold eppLoopBody
  mono
macro_rules | `(tactic| mono_known) => `(tactic| (with_reducible apply mono_eppLoopBody; assumption))

theorem mono_step (h : LeS self self') : LeS (step self) (step self') := by
  intro x
  cases x <;> unfold step <;> mono

theorem mono_asEppLambda : ∀ e, LeT (asEppLambda e) (asEppLambda e) := fun _ => LeT.refl _

theorem mono_parseEpp (h : LeS self self') : LeT (parseEpp self) (parseEpp self') := by
  unfold parseEpp
  mono
macro_rules | `(tactic| mono_known) => `(tactic| (with_reducible apply mono_parseEpp; assumption))

theorem mono_parseTop (h : LeS self self') : ∀ single, LeT (parseTop self single) (parseTop self' single) := by
  intro single
  unfold parseTop
  mono
macro_rules | `(tactic| mono_known) => `(tactic| (with_reducible apply mono_parseTop; assumption))

theorem mono_parseProgram (h : LeS self self') : ∀ single, LeT (parseProgram self single) (parseProgram self' single) := by
  intro single
  unfold parseProgram
  mono

end

theorem run_succ (f : Nat) : LeS (run f) (run (f + 1)) := by
  induction f with
  | zero => exact fun x => ⟨fun env s => .inl ⟨s, rfl⟩⟩
  | succ f ih => exact mono_step ih

theorem LeT.trans {α : Type} {a b c : P α} (h : LeT a b) (h' : LeT b c) : LeT a c := by
  refine ⟨fun env s => ?_⟩
  rcases h.cases env s with h | h
  · exact .inl h
  · rw [h]; exact h'.cases env s

theorem run_mono {f g : Nat} (hfg : f ≤ g) : LeS (run f) (run g) := by
  induction hfg with
  | refl => exact fun x => LeT.refl _
  | step _ ih => exact fun x => (ih x).trans (run_succ _ x)

/-- A result stays with more fuel. -/
theorem run_ok {f g : Nat} {x : NT} {env : Env} {s t : St} {a : Out x} (hfg : f ≤ g) (h : run f x env s = .ok a t) :
    run g x env s = .ok a t := by
  rcases (run_mono hfg x).cases env s with ⟨u, h'⟩ | h'
  · rw [h] at h'; cases h'
  · rw [← h', h]

end PP
