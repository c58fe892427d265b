import Verif.Proofs.FwdModule

/-!
# All constructs of the fragment

The induction that puts the lemmas on the constructs together.
-/

namespace Jsparse.Forward

open P Spec FNT

/-- The constructs whose meaning does not depend on whether `in` is an operator. -/
def inFree : FNT → Bool
  | key | pattern | target | bindings | binding | elisions | element => true
  | _ => false

/-- The induction hypothesis. -/
def Good (C : Ctx) (n : FNT) (u v : List Tok) : Prop :=
  ∀ c, (inFree n = false → c = C.in_) → Sem { C with in_ := c } n u v

theorem Good.sem {C : Ctx} {n : FNT} {u v : List Tok} (h : Good C n u v) : Sem C n u v := h C.in_ fun _ => rfl

theorem Good.of {C : Ctx} {n : FNT} {u v : List Tok} (h : Sem C n u v) (hn : inFree n = false) : Good C n u v := by
  intro c hc
  obtain rfl := hc hn
  exact h

theorem Good.any {C : Ctx} {n : FNT} {u v : List Tok} (h : Good C n u v) (hn : inFree n = true) (c : Bool) :
    Sem { C with in_ := c } n u v := h c fun h' => by rw [hn] at h'; cases h'

macro "frag_close" : tactic => `(tactic| first
  | assumption
  | exact Good.sem (by assumption)
  | exact Good.any (by assumption) rfl _
  | exact fun c => Good.any (by assumption) rfl c
  | exact heads (by assumption) rfl)

theorem frag_good {lx : Bool} {C : Ctx} {n : FNT} {u v : List Tok} (h : FragX lx C n u v) : Good C n u v := by
  induction h
  case name => refine Good.of ?_ rfl; apply sem_name <;> frag_close
  case word => refine Good.of ?_ rfl; apply sem_word <;> frag_close
  case num => refine Good.of ?_ rfl; apply sem_num <;> frag_close
  case str => refine Good.of ?_ rfl; apply sem_str <;> frag_close
  case regex => refine Good.of ?_ rfl; apply sem_regex <;> frag_close
  case array => refine Good.of ?_ rfl; apply sem_array <;> frag_close
  case object => refine Good.of ?_ rfl; apply sem_object <;> frag_close
  case paren => refine Good.of ?_ rfl; apply sem_paren <;> frag_close
  case parenEmpty => refine Good.of ?_ rfl; apply sem_parenEmpty <;> frag_close
  case func => refine Good.of ?_ rfl; apply sem_func <;> frag_close
  case funcName => refine Good.of ?_ rfl; apply sem_funcName <;> frag_close
  case gen => refine Good.of ?_ rfl; apply sem_gen <;> frag_close
  case genName => refine Good.of ?_ rfl; apply sem_genName <;> frag_close
  case plainTemplate => refine Good.of ?_ rfl; apply sem_plainTemplate <;> frag_close
  case substTemplate => refine Good.of ?_ rfl; apply sem_substTemplate <;> frag_close
  case elemsNil => refine Good.of ?_ rfl; apply sem_elemsNil <;> frag_close
  case elemsHole => refine Good.of ?_ rfl; apply sem_elemsHole <;> frag_close
  case elemsLast => refine Good.of ?_ rfl; apply sem_elemsLast <;> frag_close
  case elemsCons => refine Good.of ?_ rfl; apply sem_elemsCons <;> frag_close
  case elemsSpreadLast => refine Good.of ?_ rfl; apply sem_elemsSpreadLast <;> frag_close
  case elemsSpread => refine Good.of ?_ rfl; apply sem_elemsSpread <;> frag_close
  case propsNil => refine Good.of ?_ rfl; apply sem_propsNil <;> frag_close
  case propsLast => refine Good.of ?_ rfl; apply sem_propsLast <;> frag_close
  case propsCons => refine Good.of ?_ rfl; apply sem_propsCons <;> frag_close
  case propsHole => refine Good.of ?_ rfl; apply sem_propsHole <;> frag_close
  case spread => refine Good.of ?_ rfl; apply sem_spread <;> frag_close
  case keyValue => refine Good.of ?_ rfl; apply sem_keyValue <;> frag_close
  case shorthand => refine Good.of ?_ rfl; apply sem_shorthand <;> frag_close
  case headShort => refine Good.of ?_ rfl; apply sem_headShort <;> frag_close
  case headValue => refine Good.of ?_ rfl; apply sem_headValue <;> frag_close
  case headPlain => refine Good.of ?_ rfl; apply sem_headPlain <;> frag_close
  case headStatic => refine Good.of ?_ rfl; apply sem_headStatic <;> frag_close
  case headKey => refine Good.of ?_ rfl; apply sem_headKey <;> frag_close
  case headStar => refine Good.of ?_ rfl; apply sem_headStar <;> frag_close
  case headKind => refine Good.of ?_ rfl; apply sem_headKind <;> frag_close
  case headAsync => refine Good.of ?_ rfl; apply sem_headAsync <;> frag_close
  case headKindStar => refine Good.of ?_ rfl; apply sem_headKindStar <;> frag_close
  case propStatic => refine Good.of ?_ rfl; apply sem_propStatic <;> frag_close
  case starGetter => refine Good.of ?_ rfl; apply sem_starGetter <;> frag_close
  case starSetter => refine Good.of ?_ rfl; apply sem_starSetter <;> frag_close
  case parenCover => refine Good.of ?_ rfl; apply sem_parenCover <;> frag_close
  case parenRest => refine Good.of ?_ rfl; apply sem_parenRest <;> frag_close
  case coverNil => refine Good.of ?_ rfl; apply sem_coverNil <;> frag_close
  case coverCons => refine Good.of ?_ rfl; apply sem_coverCons <;> frag_close
  case coverTarget => refine Good.of ?_ rfl; apply sem_coverTarget <;> frag_close
  case classWord => refine Good.of ?_ rfl; apply sem_classWord <;> frag_close
  case propMethod => refine Good.of ?_ rfl; apply sem_propMethod <;> frag_close
  case keyName => intro c _; apply sem_keyName <;> frag_close
  case keyStr => intro c _; apply sem_keyStr <;> frag_close
  case keyNum => intro c _; apply sem_keyNum <;> frag_close
  case keyExpr => intro c _; apply sem_keyExpr <;> frag_close
  case keyEmpty => intro c _; apply sem_keyEmpty <;> frag_close
  case plainMethod => refine Good.of ?_ rfl; apply sem_plainMethod <;> frag_close
  case genMethod => refine Good.of ?_ rfl; apply sem_genMethod <;> frag_close
  case asyncMethod => refine Good.of ?_ rfl; apply sem_asyncMethod <;> frag_close
  case asyncNamed => refine Good.of ?_ rfl; apply sem_asyncNamed <;> frag_close
  case getter => refine Good.of ?_ rfl; apply sem_getter <;> frag_close
  case setter => refine Good.of ?_ rfl; apply sem_setter <;> frag_close
  case templateLast => refine Good.of ?_ rfl; apply sem_templateLast <;> frag_close
  case templateCons => refine Good.of ?_ rfl; apply sem_templateCons <;> frag_close
  case tailNil => refine Good.of ?_ rfl; apply sem_tailNil <;> frag_close
  case tailDot => refine Good.of ?_ rfl; apply sem_tailDot <;> frag_close
  case tailIndex => refine Good.of ?_ rfl; apply sem_tailIndex <;> frag_close
  case tailTemplate => refine Good.of ?_ rfl; apply sem_tailTemplate <;> frag_close
  case tailSubst => refine Good.of ?_ rfl; apply sem_tailSubst <;> frag_close
  case tailCall => refine Good.of ?_ rfl; apply sem_tailCall <;> frag_close
  case lhs => refine Good.of ?_ rfl; apply sem_lhs <;> frag_close
  case new => refine Good.of ?_ rfl; apply sem_new <;> frag_close
  case newCall => refine Good.of ?_ rfl; apply sem_newCall <;> frag_close
  case super => refine Good.of ?_ rfl; apply sem_super <;> frag_close
  case argsNil => refine Good.of ?_ rfl; apply sem_argsNil <;> frag_close
  case argsLast => refine Good.of ?_ rfl; apply sem_argsLast <;> frag_close
  case argsCons => refine Good.of ?_ rfl; apply sem_argsCons <;> frag_close
  case argsSpreadLast => refine Good.of ?_ rfl; apply sem_argsSpreadLast <;> frag_close
  case argsSpread => refine Good.of ?_ rfl; apply sem_argsSpread <;> frag_close
  case plain => refine Good.of ?_ rfl; apply sem_plain <;> frag_close
  case «postfix» => refine Good.of ?_ rfl; apply sem_postfix <;> frag_close
  case «prefix» => refine Good.of ?_ rfl; apply sem_prefix <;> frag_close
  case prefixUpdate => refine Good.of ?_ rfl; apply sem_prefixUpdate <;> frag_close
  case updated => refine Good.of ?_ rfl; apply sem_updated <;> frag_close
  case unaryOp => refine Good.of ?_ rfl; apply sem_unaryOp <;> frag_close
  case unaryWord => refine Good.of ?_ rfl; apply sem_unaryWord <;> frag_close
  case await => refine Good.of ?_ rfl; apply sem_await <;> frag_close
  case operand => refine Good.of ?_ rfl; apply sem_operand <;> frag_close
  case operator => refine Good.of ?_ rfl; apply sem_operator <;> frag_close
  case «instanceof» => refine Good.of ?_ rfl; apply sem_instanceof <;> frag_close
  case isIn => refine Good.of ?_ rfl; apply sem_isIn <;> frag_close
  case unconditional => refine Good.of ?_ rfl; apply sem_unconditional <;> frag_close
  case conditional => refine Good.of ?_ rfl; apply sem_conditional <;> frag_close
  case value => refine Good.of ?_ rfl; apply sem_value <;> frag_close
  case assignment => refine Good.of ?_ rfl; apply sem_assignment <;> frag_close
  case assignTo => refine Good.of ?_ rfl; apply sem_assignTo <;> frag_close
  case arrowName => refine Good.of ?_ rfl; apply sem_arrowName <;> frag_close
  case arrow => refine Good.of ?_ rfl; apply sem_arrow <;> frag_close
  case asyncArrow => refine Good.of ?_ rfl; apply sem_asyncArrow <;> frag_close
  case asyncOpen => refine Good.of ?_ rfl; apply sem_asyncOpen <;> frag_close
  case asyncBlock => refine Good.of ?_ rfl; apply sem_asyncBlock <;> frag_close
  case asyncArrows => refine Good.of ?_ rfl; apply sem_asyncArrows <;> frag_close
  case yield => refine Good.of ?_ rfl; apply sem_yield <;> frag_close
  case yieldStar => refine Good.of ?_ rfl; apply sem_yieldStar <;> frag_close
  case yieldBare => refine Good.of ?_ rfl; apply sem_yieldBare <;> frag_close
  case moreNil => refine Good.of ?_ rfl; apply sem_moreNil <;> frag_close
  case moreCons => refine Good.of ?_ rfl; apply sem_moreCons <;> frag_close
  case expr => refine Good.of ?_ rfl; apply sem_expr <;> frag_close
  case yieldMore => refine Good.of ?_ rfl; apply sem_yieldMore <;> frag_close
  case yieldStarMore => refine Good.of ?_ rfl; apply sem_yieldStarMore <;> frag_close
  case yieldAny => refine Good.of ?_ rfl; apply sem_yieldAny <;> frag_close
  case yieldAnyStar => refine Good.of ?_ rfl; apply sem_yieldAnyStar <;> frag_close
  case yieldOpen => refine Good.of ?_ rfl; apply sem_yieldOpen <;> frag_close
  case yieldOpenStar => refine Good.of ?_ rfl; apply sem_yieldOpenStar <;> frag_close
  case yieldEmpty => refine Good.of ?_ rfl; apply sem_yieldEmpty <;> frag_close
  case yieldEmptyStar => refine Good.of ?_ rfl; apply sem_yieldEmptyStar <;> frag_close
  case arrowNil => refine Good.of ?_ rfl; apply sem_arrowNil <;> frag_close
  case arrowRest => refine Good.of ?_ rfl; apply sem_arrowRest <;> frag_close
  case arrowLast => refine Good.of ?_ rfl; apply sem_arrowLast <;> frag_close
  case arrowCons => refine Good.of ?_ rfl; apply sem_arrowCons <;> frag_close
  case arrowParam => refine Good.of ?_ rfl; apply sem_arrowParam <;> frag_close
  case arrowPattern => refine Good.of ?_ rfl; apply sem_arrowPattern <;> frag_close
  case arrowPatternDefault => refine Good.of ?_ rfl; apply sem_arrowPatternDefault <;> frag_close
  case arrowDefault => refine Good.of ?_ rfl; apply sem_arrowDefault <;> frag_close
  case bodyBlock => refine Good.of ?_ rfl; apply sem_bodyBlock <;> frag_close
  case bodyExpr => refine Good.of ?_ rfl; apply sem_bodyExpr <;> frag_close
  case function => refine Good.of ?_ rfl; apply sem_function <;> frag_close
  case paramsNil => refine Good.of ?_ rfl; apply sem_paramsNil <;> frag_close
  case paramsRest => refine Good.of ?_ rfl; apply sem_paramsRest <;> frag_close
  case paramsLast => refine Good.of ?_ rfl; apply sem_paramsLast <;> frag_close
  case paramsDefaultLast => refine Good.of ?_ rfl; apply sem_paramsDefaultLast <;> frag_close
  case paramsCons => refine Good.of ?_ rfl; apply sem_paramsCons <;> frag_close
  case paramsDefault => refine Good.of ?_ rfl; apply sem_paramsDefault <;> frag_close
  case classBody => refine Good.of ?_ rfl; apply sem_classBody <;> frag_close
  case «extends» => refine Good.of ?_ rfl; apply sem_extends <;> frag_close
  case elementsNil => refine Good.of ?_ rfl; apply sem_elementsNil <;> frag_close
  case elementsSemi => refine Good.of ?_ rfl; apply sem_elementsSemi <;> frag_close
  case elementsCons => refine Good.of ?_ rfl; apply sem_elementsCons <;> frag_close
  case elementsStatic => refine Good.of ?_ rfl; apply sem_elementsStatic <;> frag_close
  case objectPattern => intro c _; apply sem_objectPattern <;> frag_close
  case arrayPattern => intro c _; apply sem_arrayPattern <;> frag_close
  case targetName => intro c _; apply sem_targetName <;> frag_close
  case targetPattern => intro c _; apply sem_targetPattern <;> frag_close
  case bindingsNil => intro c _; apply sem_bindingsNil <;> frag_close
  case bindingsLast => intro c _; apply sem_bindingsLast <;> frag_close
  case bindingsCons => intro c _; apply sem_bindingsCons <;> frag_close
  case bindName => intro c _; apply sem_bindName <;> frag_close
  case bindDefault => intro c _; apply sem_bindDefault <;> frag_close
  case bindAny => intro c _; apply sem_bindAny <;> frag_close
  case bindAnyDefault => intro c _; apply sem_bindAnyDefault <;> frag_close
  case bindKey => intro c _; apply sem_bindKey <;> frag_close
  case elisionsNil => intro c _; apply sem_elisionsNil <;> frag_close
  case elisionsRest => intro c _; apply sem_elisionsRest <;> frag_close
  case elisionsHole => intro c _; apply sem_elisionsHole <;> frag_close
  case elisionsLast => intro c _; apply sem_elisionsLast <;> frag_close
  case elisionsCons => intro c _; apply sem_elisionsCons <;> frag_close
  case element => intro c _; apply sem_element <;> frag_close
  case elementDefault => intro c _; apply sem_elementDefault <;> frag_close
  case init => refine Good.of ?_ rfl; apply sem_init <;> frag_close
  case block => refine Good.of ?_ rfl; apply sem_block <;> frag_close
  case itemsNil => refine Good.of ?_ rfl; apply sem_itemsNil <;> frag_close
  case itemsCons => refine Good.of ?_ rfl; apply sem_itemsCons <;> frag_close
  case itemStmt => refine Good.of ?_ rfl; apply sem_itemStmt <;> frag_close
  case funcDecl => refine Good.of ?_ rfl; apply sem_funcDecl <;> frag_close
  case genDecl => refine Good.of ?_ rfl; apply sem_genDecl <;> frag_close
  case classDecl => refine Good.of ?_ rfl; apply sem_classDecl <;> frag_close
  case letDecl => refine Good.of ?_ rfl; apply sem_letDecl <;> frag_close
  case constDecl => refine Good.of ?_ rfl; apply sem_constDecl <;> frag_close
  case declrName => refine Good.of ?_ rfl; apply sem_declrName <;> frag_close
  case declrInit => refine Good.of ?_ rfl; apply sem_declrInit <;> frag_close
  case conditionalOpen => refine Good.of ?_ rfl; apply sem_conditionalOpen <;> frag_close
  case valueOpen => refine Good.of ?_ rfl; apply sem_valueOpen <;> frag_close
  case closeOpen => refine Good.of ?_ rfl; apply sem_closeOpen <;> frag_close
  case assignee => refine Good.of ?_ rfl; apply sem_assignee <;> frag_close
  case assigneeOpen => refine Good.of ?_ rfl; apply sem_assigneeOpen <;> frag_close
  case assignAny => refine Good.of ?_ rfl; apply sem_assignAny <;> frag_close
  case assignAnyOpen => refine Good.of ?_ rfl; apply sem_assignAnyOpen <;> frag_close
  case arrowAny => refine Good.of ?_ rfl; apply sem_arrowAny <;> frag_close
  case arrowAnyOpen => refine Good.of ?_ rfl; apply sem_arrowAnyOpen <;> frag_close
  case arrowBlock => refine Good.of ?_ rfl; apply sem_arrowBlock <;> frag_close
  case exprOpen => refine Good.of ?_ rfl; apply sem_exprOpen <;> frag_close
  case exprOpenMore => refine Good.of ?_ rfl; apply sem_exprOpenMore <;> frag_close
  case openInit => refine Good.of ?_ rfl; apply sem_openInit <;> frag_close
  case openPattern => refine Good.of ?_ rfl; apply sem_openPattern <;> frag_close
  case constOpen => refine Good.of ?_ rfl; apply sem_constOpen <;> frag_close
  case exprStmtOpen => refine Good.of ?_ rfl; apply sem_exprStmtOpen <;> frag_close
  case returnOpen => refine Good.of ?_ rfl; apply sem_returnOpen <;> frag_close
  case throwOpen => refine Good.of ?_ rfl; apply sem_throwOpen <;> frag_close
  case exportConstOpen => refine Good.of ?_ rfl; apply sem_exportConstOpen <;> frag_close
  case exportExprOpen => refine Good.of ?_ rfl; apply sem_exportExprOpen <;> frag_close
  case declrPattern => refine Good.of ?_ rfl; apply sem_declrPattern <;> frag_close
  case declrsLast => refine Good.of ?_ rfl; apply sem_declrsLast <;> frag_close
  case declrsCons => refine Good.of ?_ rfl; apply sem_declrsCons <;> frag_close
  case openLast => refine Good.of ?_ rfl; apply sem_openLast <;> frag_close
  case openCons => refine Good.of ?_ rfl; apply sem_openCons <;> frag_close
  case funcAnon => refine Good.of ?_ rfl; apply sem_funcAnon <;> frag_close
  case genAnon => refine Good.of ?_ rfl; apply sem_genAnon <;> frag_close
  case classAnon => refine Good.of ?_ rfl; apply sem_classAnon <;> frag_close
  case exportVarOpen => refine Good.of ?_ rfl; apply sem_exportVarOpen <;> frag_close
  case exportLetOpen => refine Good.of ?_ rfl; apply sem_exportLetOpen <;> frag_close
  case letOpen => refine Good.of ?_ rfl; apply sem_letOpen <;> frag_close
  case varOpen => refine Good.of ?_ rfl; apply sem_varOpen <;> frag_close
  case blockStmt => refine Good.of ?_ rfl; apply sem_blockStmt <;> frag_close
  case empty => refine Good.of ?_ rfl; apply sem_empty <;> frag_close
  case var => refine Good.of ?_ rfl; apply sem_var <;> frag_close
  case exprStmt => refine Good.of ?_ rfl; apply sem_exprStmt <;> frag_close
  case ifThen => refine Good.of ?_ rfl; apply sem_ifThen <;> frag_close
  case ifElse => refine Good.of ?_ rfl; apply sem_ifElse <;> frag_close
  case «while» => refine Good.of ?_ rfl; apply sem_while <;> frag_close
  case doWhile => refine Good.of ?_ rfl; apply sem_doWhile <;> frag_close
  case forPlain => refine Good.of ?_ rfl; apply sem_forPlain <;> frag_close
  case forExpr => refine Good.of ?_ rfl; apply sem_forExpr <;> frag_close
  case forDecl => refine Good.of ?_ rfl; apply sem_forDecl <;> frag_close
  case forInExpr => refine Good.of ?_ rfl; apply sem_forInExpr <;> frag_close
  case forInAny => refine Good.of ?_ rfl; apply sem_forInAny <;> frag_close
  case forInNone => refine Good.of ?_ rfl; apply sem_forInNone <;> frag_close
  case forInDecl => refine Good.of ?_ rfl; apply sem_forInDecl <;> frag_close
  case forRest => refine Good.of ?_ rfl; apply sem_forRest <;> frag_close
  case forRestL => refine Good.of ?_ rfl; apply sem_forRestL <;> frag_close
  case forRestR => refine Good.of ?_ rfl; apply sem_forRestR <;> frag_close
  case forRestLR => refine Good.of ?_ rfl; apply sem_forRestLR <;> frag_close
  case inOf => refine Good.of ?_ rfl; apply sem_inOf <;> frag_close
  case switch => refine Good.of ?_ rfl; apply sem_switch <;> frag_close
  case clausesNil => refine Good.of ?_ rfl; apply sem_clausesNil <;> frag_close
  case clausesCase => refine Good.of ?_ rfl; apply sem_clausesCase <;> frag_close
  case clausesDefault => refine Good.of ?_ rfl; apply sem_clausesDefault <;> frag_close
  case clausesLater => refine Good.of ?_ rfl; apply sem_clausesLater <;> frag_close
  case jump => refine Good.of ?_ rfl; apply sem_jump <;> frag_close
  case jumpLine => refine Good.of ?_ rfl; apply sem_jumpLine <;> frag_close
  case jumpTo => refine Good.of ?_ rfl; apply sem_jumpTo <;> frag_close
  case jumpToLine => refine Good.of ?_ rfl; apply sem_jumpToLine <;> frag_close
  case «return» => refine Good.of ?_ rfl; apply sem_return <;> frag_close
  case returnLine => refine Good.of ?_ rfl; apply sem_returnLine <;> frag_close
  case returnExpr => refine Good.of ?_ rfl; apply sem_returnExpr <;> frag_close
  case «with» => refine Good.of ?_ rfl; apply sem_with <;> frag_close
  case label => refine Good.of ?_ rfl; apply sem_label <;> frag_close
  case labelAny => refine Good.of ?_ rfl; apply sem_labelAny <;> frag_close
  case throw => refine Good.of ?_ rfl; apply sem_throw <;> frag_close
  case throwAny => refine Good.of ?_ rfl; apply sem_throwAny <;> frag_close
  case throwLine => refine Good.of ?_ rfl; apply sem_throwLine <;> frag_close
  case tryCatch => refine Good.of ?_ rfl; apply sem_tryCatch <;> frag_close
  case tryFinally => refine Good.of ?_ rfl; apply sem_tryFinally <;> frag_close
  case tryBoth => refine Good.of ?_ rfl; apply sem_tryBoth <;> frag_close
  case tryOnly => refine Good.of ?_ rfl; apply sem_tryOnly <;> frag_close
  case debugger => refine Good.of ?_ rfl; apply sem_debugger <;> frag_close
  case debuggerLine => refine Good.of ?_ rfl; apply sem_debuggerLine <;> frag_close
  case specifiersNil => refine Good.of ?_ rfl; apply sem_specifiersNil <;> frag_close
  case specifiersLast => refine Good.of ?_ rfl; apply sem_specifiersLast <;> frag_close
  case specifiersAsLast => refine Good.of ?_ rfl; apply sem_specifiersAsLast <;> frag_close
  case specifiersCons => refine Good.of ?_ rfl; apply sem_specifiersCons <;> frag_close
  case specifiersAs => refine Good.of ?_ rfl; apply sem_specifiersAs <;> frag_close
  case importFile => refine Good.of ?_ rfl; apply sem_importFile <;> frag_close
  case importDefault => refine Good.of ?_ rfl; apply sem_importDefault <;> frag_close
  case importStar => refine Good.of ?_ rfl; apply sem_importStar <;> frag_close
  case importNames => refine Good.of ?_ rfl; apply sem_importNames <;> frag_close
  case importBoth => refine Good.of ?_ rfl; apply sem_importBoth <;> frag_close
  case importBothStar => refine Good.of ?_ rfl; apply sem_importBothStar <;> frag_close
  case exportNames => refine Good.of ?_ rfl; apply sem_exportNames <;> frag_close
  case exportNamesFrom => refine Good.of ?_ rfl; apply sem_exportNamesFrom <;> frag_close
  case exportStar => refine Good.of ?_ rfl; apply sem_exportStar <;> frag_close
  case exportVar => refine Good.of ?_ rfl; apply sem_exportVar <;> frag_close
  case exportLet => refine Good.of ?_ rfl; apply sem_exportLet <;> frag_close
  case exportConst => refine Good.of ?_ rfl; apply sem_exportConst <;> frag_close
  case letIn => refine Good.of ?_ rfl; apply sem_letIn <;> frag_close
  case constIn => refine Good.of ?_ rfl; apply sem_constIn <;> frag_close
  case exportLetIn => refine Good.of ?_ rfl; apply sem_exportLetIn <;> frag_close
  case exportConstIn => refine Good.of ?_ rfl; apply sem_exportConstIn <;> frag_close
  case exportFunc => refine Good.of ?_ rfl; apply sem_exportFunc <;> frag_close
  case exportFuncName => refine Good.of ?_ rfl; apply sem_exportFuncName <;> frag_close
  case exportGen => refine Good.of ?_ rfl; apply sem_exportGen <;> frag_close
  case exportAsyncName => refine Good.of ?_ rfl; apply sem_exportAsyncName <;> frag_close
  case exportAsync => refine Good.of ?_ rfl; apply sem_exportAsync <;> frag_close
  case exportGenName => refine Good.of ?_ rfl; apply sem_exportGenName <;> frag_close
  case exportClass => refine Good.of ?_ rfl; apply sem_exportClass <;> frag_close
  case exportClassName => refine Good.of ?_ rfl; apply sem_exportClassName <;> frag_close
  case exportExpr => refine Good.of ?_ rfl; apply sem_exportExpr <;> frag_close
  case moduleItem => refine Good.of ?_ rfl; apply sem_moduleItem <;> frag_close
  case moduleItemsNil => refine Good.of ?_ rfl; apply sem_moduleItemsNil <;> frag_close
  case moduleItemsCons => refine Good.of ?_ rfl; apply sem_moduleItemsCons <;> frag_close
  case program => refine Good.of ?_ rfl; apply sem_program <;> frag_close

/-- Every construct of the fragment means what the parser does with it. -/
theorem frag_sem {lx : Bool} {C : Ctx} {n : FNT} {u v : List Tok} (h : FragX lx C n u v) : Sem C n u v := (frag_good h).sem

end Jsparse.Forward
