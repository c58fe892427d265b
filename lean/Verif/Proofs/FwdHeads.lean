import Verif.Proofs.FwdLogic
/-!
# The first tokens of the constructs of the fragment
-/

namespace Jsparse.Forward

open P Spec FNT

/-! ## Names -/

theorem _root_.Jsparse.Spec.PlainName.ne {n k : Bytes} (h : PlainName n)
    (hk : k ∈ reservedWords ++ [b!"await", b!"yield"]) : n ≠ k := by
  rintro rfl
  rcases List.mem_append.1 hk with hk | hk
  · exact h.1 hk
  · exact h.2 hk

/-- A name, or `await`. -/
def NameWord (n : Bytes) : Prop := PlainName n ∨ n = b!"await"

theorem NameWord.ne {n k : Bytes} (h : NameWord n) (hk : k ∈ reservedWords ++ [b!"yield"]) : n ≠ k := by
  rcases h with h | rfl
  · refine h.ne ?_
    rcases List.mem_append.1 hk with hk | hk
    · exact List.mem_append_left _ hk
    · exact List.mem_append_right _ (List.mem_cons_of_mem _ hk)
  · rintro rfl
    revert hk
    decide

theorem _root_.Jsparse.Spec.Named.word {lx : Bool} {C : Ctx} {n : Bytes} (h : Named lx C n) : NameWord n :=
  h.imp_right fun h => h.2.1

theorem _root_.Jsparse.Spec.Named.ne {lx : Bool} {C : Ctx} {n k : Bytes} (h : Named lx C n)
    (hk : k ∈ reservedWords ++ [b!"yield"]) : n ≠ k := h.word.ne hk

theorem _root_.Jsparse.Spec.Named.exported {lx : Bool} {C : Ctx} {n : Bytes} (h : Named lx C n) :
    Named lx { C with default := true } n := h

theorem plain_binding {fl : Flags} {n : Bytes} (hs : fl.isStrict = false) (h : PlainName n) :
    isBindingIdentifier fl n = true := by
  have h1 : n ∉ keywords := by
    intro hk
    have : ∀ k ∈ keywords, k ∈ reservedWords ++ [b!"await", b!"yield"] := by decide
    exact h.ne (this n hk) rfl
  simp [isBindingIdentifier, hs, h1, h.ne (k := b!"yield") (by decide), h.ne (k := b!"await") (by decide),
    h.ne (k := b!"enum") (by decide), h.ne (k := b!"null") (by decide), h.ne (k := b!"true") (by decide),
    h.ne (k := b!"false") (by decide)]

/-- Flags under which the names of the context are taken as names. -/
def Keen (C : Ctx) (fl : Flags) : Prop := fl.isStrict = false ∧ fl.allowAwait = C.await

theorem named_binding {lx : Bool} {C : Ctx} {fl : Flags} {n : Bytes} (hs : Keen C fl) (h : Named lx C n) :
    isBindingIdentifier fl n = true := by
  rcases h with h | ⟨-, rfl, h⟩
  · exact plain_binding hs.1 h
  · have h1 : b!"await" ∉ keywords := by decide
    simp [isBindingIdentifier, hs.1, hs.2, h, h1]

theorem keyword_binding {fl : Flags} {n : Bytes}
    (h : n ∈ keywords ++ [b!"null", b!"true", b!"false", b!"enum"]) : isBindingIdentifier fl n = false := by
  by_cases hk : n ∈ keywords
  · simp [isBindingIdentifier, hk]
  · rcases List.mem_append.1 h with h | h
    · exact absurd h hk
    · simp only [List.mem_cons, List.not_mem_nil, or_false] at h
      rcases h with rfl | rfl | rfl | rfl <;> simp [isBindingIdentifier]

/-- The words other than names of variables that an expression can begin with. -/
def headWords : List Bytes :=
  [b!"this", b!"null", b!"true", b!"false", b!"function", b!"new", b!"super", b!"delete", b!"void",
   b!"typeof", b!"await", b!"class"]

/-- The words an expression can begin with; `b`: as an AssignmentExpression. -/
def HeadWord (b : Bool) (n : Bytes) : Prop :=
  PlainName n ∨ n ∈ headWords ∨ (b = true ∧ n = b!"yield")

theorem HeadWord.ne {b : Bool} {n k : Bytes} (h : HeadWord b n)
    (hk : k ∈ reservedWords ++ [b!"await", b!"yield"]) (h1 : k ∉ headWords)
    (h2 : b = true → k ≠ b!"yield") : n ≠ k := by
  rintro rfl
  rcases h with h | h | h
  · exact h.ne hk rfl
  · exact h1 h
  · exact h2 h.1 h.2

/-- The tokens an expression can begin with. -/
def Starts (b : Bool) : Token → Prop
  | .ident n => HeadWord b n
  | .num _ => True
  | .str _ => True
  | .regex _ _ => True
  | .template .noSubstitution _ _ => True
  | .template .head _ _ => True
  | .punct q => q ∈ [Punct.squareOpen, .curlyOpen, .parenOpen, .plusPlus, .minusMinus, .plus, .minus,
      .tilde, .exclam]
  | _ => False

theorem Starts.mono {t : Token} (h : Starts false t) : Starts true t := by
  cases t with
  | ident n => rcases h with h | h | h
               · exact .inl h
               · exact .inr (.inl h)
               · cases h.1
  | template f _ _ => cases f <;> exact h
  | _ => exact h

theorem Starts.compat {b : Bool} {t : Token} (h : Starts b t) (c : Bool) : compat c t = true := by
  cases t with
  | punct q => cases q <;> first | rfl | (simp [Starts] at h)
  | template f _ _ => cases f <;> first | rfl | exact h.elim
  | _ => rfl

theorem Starts.slashy {b : Bool} {t : Token} (h : Starts b t) : slashy t = false := by
  cases t with
  | punct q => cases q <;> first | rfl | (simp [Starts] at h)
  | _ => rfl

theorem Starts.punct {b : Bool} {t : Token} (h : Starts b t) {q : Punct}
    (hq : q ∉ [Punct.squareOpen, .curlyOpen, .parenOpen, .plusPlus, .minusMinus, .plus, .minus,
      .tilde, .exclam] := by decide) : t ≠ .punct q := by
  rintro rfl
  exact hq h

theorem Starts.word {b : Bool} {t : Token} (h : Starts b t) {k : Bytes}
    (hk : k ∈ reservedWords ++ [b!"await", b!"yield"] := by decide)
    (h1 : k ∉ headWords := by decide) (h2 : b = true → k ≠ b!"yield" := by decide) :
    t ≠ .ident k := by
  rintro rfl
  exact HeadWord.ne (b := b) h hk h1 h2 rfl

/-- A token that can be read with every hint. -/
def Quiet (t : Token) : Prop := slashy t = false ∧ isRegexTok t = false ∧ ∀ b, compat b t = true

theorem Quiet.ready {t : Token} (h : Quiet t) (m : Mode) (fl : Flags) : Ready m fl t := by
  refine ⟨?_, h.2.2 _⟩
  simp [Mode.ready, h.1, h.2.1]

theorem quiet_word (n : Bytes) : Quiet (.ident n) := ⟨rfl, rfl, fun _ => rfl⟩

theorem Starts.quiet {b : Bool} {t : Token} (h : Starts b t) (hr : isRegexTok t = false) : Quiet t :=
  ⟨h.slashy, hr, h.compat⟩

theorem notRegex_tok {x : Tok} {u : List Tok} (h : NotRegex (x :: u)) : isRegexTok x.2 = false := by
  obtain ⟨l, t⟩ := x
  cases t <;> first | rfl | exact absurd rfl (h _ _ _ _)

theorem _root_.Jsparse.Spec.Begins.quiet {t : Token} (h : Begins t) : Quiet t := by
  cases t with
  | punct q => cases q <;> first | exact h.elim | exact ⟨rfl, rfl, fun _ => rfl⟩
  | ident n => exact quiet_word n
  | num _ => exact ⟨rfl, rfl, fun _ => rfl⟩
  | str _ => exact ⟨rfl, rfl, fun _ => rfl⟩
  | template f => cases f <;> first | exact h.elim | exact ⟨rfl, rfl, fun _ => rfl⟩
  | _ => exact h.elim

/-! ## First tokens -/

/-- What the first token of a construct can be. -/
def HeadOf (lx : Bool) : FNT → Token → Prop
  | prim _ _ _ => Starts false
  | lhs _ _ _ _ => Starts false
  | update _ _ _ => Starts false
  | unary _ _ _ => Starts false
  | binary _ _ => Starts false
  | FNT.cond _ _ => Starts false
  | assign _ _ => Starts true
  | condOpen _ => Starts false
  | assignOpen _ => Starts true
  | exprOpen _ => Starts true
  | assignee _ => Starts false
  | expr _ => Starts true
  | FNT.template => Starts true
  | prop => fun t => t = .punct .ellipsis ∨ t = .punct .star ∨ t = .punct .squareOpen ∨ (∃ n, t = .ident n) ∨
      (∃ n, t = .str n) ∨ ∃ n, t = .num n
  | propHead _ => fun t => t = .punct .star ∨ t = .punct .squareOpen ∨ (∃ n, t = .ident n) ∨
      (∃ n, t = .str n) ∨ ∃ n, t = .num n
  | arrowParam => Starts true
  | arrowBody _ => fun t => t = .punct .curlyOpen ∨ Starts true t
  | key => fun t => t = .punct .squareOpen ∨ (∃ n, t = .ident n) ∨ (∃ n, t = .str n) ∨
      ∃ n, t = .num n
  | method => fun t => t = .punct .star ∨ t = .punct .squareOpen ∨ (∃ n, t = .ident n) ∨
      (∃ n, t = .str n) ∨ ∃ n, t = .num n
  | function => fun t => t = .punct .parenOpen
  | classTail => fun t => t = .punct .curlyOpen ∨ t = .ident b!"extends"
  | pattern => fun t => t = .punct .curlyOpen ∨ t = .punct .squareOpen
  | target => fun t => t = .punct .curlyOpen ∨ t = .punct .squareOpen ∨ ∃ n, t = .ident n ∧ NameWord n
  | binding => fun t => t = .punct .squareOpen ∨ (∃ n, t = .ident n) ∨ (∃ n, t = .str n) ∨ ∃ n, t = .num n
  | element => fun t => t = .punct .curlyOpen ∨ t = .punct .squareOpen ∨ ∃ n, t = .ident n ∧ NameWord n
  | init => fun t => t = .punct .eq
  | block => fun t => t = .punct .curlyOpen
  | item => Quiet
  | stmt => Quiet
  | declr _ => fun t => t = .punct .curlyOpen ∨ t = .punct .squareOpen ∨ ∃ n, t = .ident n ∧ NameWord n
  | declrs _ _ => fun t => t = .punct .curlyOpen ∨ t = .punct .squareOpen ∨ ∃ n, t = .ident n ∧ NameWord n
  | forRest => fun t => t = .punct .semicolon
  | inOf => fun t => t = .ident b!"in" ∨ t = .ident b!"of"
  | moduleItem => Quiet
  | _ => fun _ => False

/-- The constructs that have at least one token. -/
def solid : FNT → Bool
  | prim _ _ _ | lhs _ _ _ _ | update _ _ _ | unary _ _ _ | binary _ _ | FNT.cond _ _ | assign _ _ | expr _
  | condOpen _ | assignOpen _ | exprOpen _ | assignee _
  | FNT.template | prop | propHead _ | arrowParam | arrowBody _ | key | method | function | classTail | pattern | target
  | binding | element | init | block | item | stmt | declr _ | declrs _ _ | forRest | inOf
  | moduleItem => true
  | _ => false

def HeadIs (Q : Token → Prop) (u : List Tok) : Prop := ∃ x u', u = x :: u' ∧ Q x.2

theorem HeadIs.mono {Q R : Token → Prop} {u : List Tok} (h : HeadIs Q u) (hq : ∀ t, Q t → R t) : HeadIs R u := by
  obtain ⟨x, u', rfl, h⟩ := h
  exact ⟨x, u', rfl, hq _ h⟩

theorem headIs_cons {Q : Token → Prop} {x : Tok} {u : List Tok} : HeadIs Q (x :: u) ↔ Q x.2 := by
  constructor
  · rintro ⟨y, u', h, hq⟩
    injection h with h1 h2
    subst h1
    exact hq
  · intro h
    exact ⟨x, u, rfl, h⟩

theorem plain_starts {n : Bytes} (b : Bool) (h : PlainName n) : Starts b (.ident n) := .inl h

theorem named_starts {lx : Bool} {C : Ctx} {n : Bytes} (b : Bool) (h : Named lx C n) : Starts b (.ident n) := by
  rcases h with h | ⟨-, rfl, -⟩
  · exact .inl h
  · exact .inr (.inl (by decide))

theorem word_starts {n : Bytes} (b : Bool) (h : n ∈ headWords) : Starts b (.ident n) := .inr (.inl h)

theorem word_head {lx : Bool} {n : FNT} {x : Tok} {u : List Tok} {k : Bytes} (hn : HeadOf lx n = Starts false) (hx : x.2 = .ident k)
    (h : k ∈ headWords) : HeadIs (HeadOf lx n) (x :: u) := by
  rw [headIs_cons, hn, hx]
  exact word_starts _ h

theorem heads {lx : Bool} {C : Ctx} {n : FNT} {u v : List Tok} (h : FragX lx C n u v) (hs : solid n = true) :
    HeadIs (HeadOf lx n) u := by
  induction h <;> first | (cases hs; done) | skip
  case name h _ _ => exact headIs_cons.2 (named_starts false h)
  case word h =>
    refine headIs_cons.2 (word_starts false ?_)
    have : ∀ k ∈ [b!"this", b!"null", b!"true", b!"false"], k ∈ headWords := by decide
    exact this _ h
  case num | str | regex | plainTemplate | substTemplate => exact headIs_cons.2 trivial
  case array | object | paren => exact headIs_cons.2 (by show _ ∈ _; decide)
  case parenEmpty | parenCover | parenRest => exact headIs_cons.2 (by show _ ∈ _; decide)
  case classWord => exact headIs_cons.2 (word_starts false (by decide))
  case func | funcName | gen | genName => exact headIs_cons.2 (word_starts false (by decide))
  case spread => exact headIs_cons.2 (.inl rfl)
  case keyValue ih _ =>
    refine (ih rfl).mono fun t h => ?_
    exact .inr (.inr h)
  case shorthand => exact headIs_cons.2 (.inr (.inr (.inr (.inl ⟨_, rfl⟩))))
  case headShort ih => exact (ih rfl).mono fun t h => .inr h
  case headValue ih _ => exact (ih rfl).mono fun t h => .inr h
  case headPlain ih => exact ih rfl
  case headKey ih => exact (ih rfl).mono fun t h => .inr h
  case headStar => exact headIs_cons.2 (.inl rfl)
  case headStatic | headKind | headKindStar | headAsync => exact headIs_cons.2 (.inr (.inr (.inl ⟨_, rfl⟩)))
  case propStatic => exact headIs_cons.2 (.inr (.inr (.inr (.inl ⟨_, rfl⟩))))
  case propMethod ih =>
    refine (ih rfl).mono fun t h => ?_
    exact .inr h
  case keyName => exact headIs_cons.2 (.inr (.inl ⟨_, rfl⟩))
  case keyStr => exact headIs_cons.2 (.inr (.inr (.inl ⟨_, rfl⟩)))
  case keyNum => exact headIs_cons.2 (.inr (.inr (.inr ⟨_, rfl⟩)))
  case keyExpr | keyEmpty => exact headIs_cons.2 (.inl rfl)
  case plainMethod ih _ =>
    exact (ih rfl).mono fun t h => .inr h
  case genMethod => exact headIs_cons.2 (.inl rfl)
  case asyncMethod | asyncNamed | getter | setter | starGetter | starSetter => exact headIs_cons.2 (.inr (.inr (.inl ⟨_, rfl⟩)))
  case templateLast ih => exact ih rfl
  case templateCons ih _ => exact ih rfl
  case lhs ih _ => exact ih rfl
  case new | newCall | super => exact headIs_cons.2 (word_starts false (by decide))
  case plain ih => exact ih rfl
  case «postfix» ih => exact ih rfl
  case «prefix» hq _ _ =>
    refine headIs_cons.2 ?_
    have : ∀ q ∈ [Punct.plusPlus, .minusMinus], Starts false (.punct q) := by
      intro q hq
      show q ∈ _
      revert q
      decide
    exact this _ hq
  case prefixUpdate hq _ _ =>
    refine headIs_cons.2 ?_
    have : ∀ q ∈ [Punct.plusPlus, .minusMinus], Starts false (.punct q) := by
      intro q hq
      show q ∈ _
      revert q
      decide
    exact this _ hq
  case updated ih => exact ih rfl
  case unaryOp hq _ _ =>
    refine headIs_cons.2 ?_
    have : ∀ q ∈ [Punct.plus, .minus, .tilde, .exclam], Starts false (.punct q) := by
      intro q hq
      show q ∈ _
      revert q
      decide
    exact this _ hq
  case unaryWord h _ _ =>
    refine headIs_cons.2 (word_starts false ?_)
    have : ∀ k ∈ [b!"delete", b!"void", b!"typeof"], k ∈ headWords := by decide
    exact this _ h
  case await => exact headIs_cons.2 (word_starts false (by decide))
  case operand ih => exact ih rfl
  case operator ih _ => exact ih rfl
  case instanceof ih _ => exact ih rfl
  case isIn ih _ => exact ih rfl
  case unconditional ih => exact ih rfl
  case conditional ih _ _ => exact ih rfl
  case value ih => exact (ih rfl).mono fun _ h => h.mono
  case assignment ih _ => exact (ih rfl).mono fun _ h => h.mono
  case assignTo ih _ => exact (ih rfl).mono fun _ h => h.mono
  case conditionalOpen ih _ _ => exact ih rfl
  case valueOpen ih => exact (ih rfl).mono fun _ h => h.mono
  case closeOpen ih => exact ih rfl
  case assignee ih => exact ih rfl
  case assigneeOpen ih => exact ih rfl
  case assignAny ih _ => exact (ih rfl).mono fun _ h => h.mono
  case assignAnyOpen ih _ => exact (ih rfl).mono fun _ h => h.mono
  case arrowAny ih _ => exact (ih rfl).mono fun _ h => h.mono
  case arrowAnyOpen ih _ => exact (ih rfl).mono fun _ h => h.mono
  case arrowBlock ih _ => exact (ih rfl).mono fun _ h => h.mono
  case exprOpen ih => exact ih rfl
  case exprOpenMore ih _ => exact ih rfl
  case arrowName h _ _ => exact headIs_cons.2 (plain_starts true h)
  case arrow => exact headIs_cons.2 (by show _ ∈ _; decide)
  case asyncArrow | asyncArrows | asyncBlock | asyncOpen => exact headIs_cons.2 (plain_starts true (by decide))
  case yield | yieldStar | yieldBare | yieldMore | yieldStarMore | yieldAny | yieldAnyStar | yieldOpen | yieldOpenStar | yieldEmpty | yieldEmptyStar =>
    exact headIs_cons.2 (.inr (.inr ⟨rfl, rfl⟩))
  case expr ih _ => exact ih rfl
  case arrowParam h => exact headIs_cons.2 (plain_starts true h)
  case arrowDefault h _ _ => exact headIs_cons.2 (plain_starts true h)
  case arrowPattern ih => exact (ih rfl).mono fun _ h => h.mono
  case arrowPatternDefault ih _ => exact (ih rfl).mono fun _ h => h.mono
  case bodyBlock ih => exact (ih rfl).mono fun _ h => .inl h
  case bodyExpr ih => exact (ih rfl).mono fun _ h => .inr h
  case function | init | block => exact headIs_cons.2 rfl
  case classBody => exact headIs_cons.2 (.inl rfl)
  case «extends» => exact headIs_cons.2 (.inr rfl)
  case objectPattern => exact headIs_cons.2 (.inl rfl)
  case arrayPattern => exact headIs_cons.2 (.inr rfl)
  case targetName h => exact headIs_cons.2 (.inr (.inr ⟨_, rfl, h.word⟩))
  case targetPattern ih =>
    refine (ih rfl).mono fun t h => ?_
    rcases h with h | h
    · exact .inl h
    · exact .inr (.inl h)
  case bindName | bindDefault => exact headIs_cons.2 (.inr (.inl ⟨_, rfl⟩))
  case bindAny ih => exact ih rfl
  case bindAnyDefault ih _ => exact ih rfl
  case bindKey ih _ =>
    refine (ih rfl).mono fun t h => ?_
    exact h
  case element ih => exact ih rfl
  case elementDefault ih _ => exact ih rfl
  case itemStmt _ ih => exact ih rfl
  case funcDecl | genDecl | classDecl | funcAnon | genAnon | classAnon | letDecl | letOpen | letIn | constDecl | constOpen | constIn => exact headIs_cons.2 (quiet_word _)
  case declrName h => exact headIs_cons.2 (.inr (.inr ⟨_, rfl, h.word⟩))
  case declrInit h _ _ => exact headIs_cons.2 (.inr (.inr ⟨_, rfl, h.word⟩))
  case declrPattern ih _ =>
    refine (ih rfl).mono fun t h => ?_
    rcases h with h | h
    · exact .inl h
    · exact .inr (.inl h)
  case declrsLast ih => exact ih rfl
  case declrsCons ih _ => exact ih rfl
  case blockStmt ih =>
    refine (ih rfl).mono fun t h => ?_
    obtain rfl : t = _ := h
    exact ⟨rfl, rfl, fun _ => rfl⟩
  case empty => exact headIs_cons.2 ⟨rfl, rfl, fun _ => rfl⟩
  case exprStmt hr _ _ ih => exact headIs_cons.2 ((headIs_cons.1 (ih rfl)).quiet (notRegex_tok hr))
  case exprStmtOpen hr _ _ _ _ ih => exact headIs_cons.2 ((headIs_cons.1 (ih rfl)).quiet (notRegex_tok hr))
  case var | varOpen | ifThen | ifElse | «while» | doWhile | forPlain | forExpr | forDecl | forInExpr | forInAny | forInNone | forInDecl | switch
    | «return» | returnLine | returnExpr | returnOpen | «with» | throw | throwAny | throwOpen | throwLine | tryCatch | tryFinally | tryBoth | tryOnly | debugger | debuggerLine
    | jump | jumpLine | jumpToLine | jumpTo | label | labelAny =>
    exact headIs_cons.2 (quiet_word _)
  case forRest | forRestL | forRestR | forRestLR => exact headIs_cons.2 rfl
  case inOf hk _ _ =>
    refine headIs_cons.2 ?_
    simp only [List.mem_cons, List.not_mem_nil, or_false] at hk
    rcases hk with rfl | rfl
    · exact .inl rfl
    · exact .inr rfl
  case importFile | importDefault | importStar | importNames | importBoth | importBothStar | exportNames | exportNamesFrom
    | exportStar | exportVar | exportVarOpen | exportLet | exportLetOpen | exportLetIn | exportConst | exportConstOpen | exportConstIn | exportFunc | exportFuncName | exportGen | exportGenName | exportAsync | exportAsyncName | exportClass
    | exportClassName | exportExpr | exportExprOpen => exact headIs_cons.2 (quiet_word _)
  case moduleItem ih => exact ih rfl

/-! ## Second tokens -/

/-- The token behind an expression: `col`, not a colon; `e`, the operators with a slash may follow. -/
def NextOk (fl : Flags) (col e : Bool) (t : Token) : Prop :=
  compat fl.expectTemplate t = true ∧ isRegexTok t = false ∧ (slashy t = true → e = true) ∧
    (col = true → t ≠ .punct .colon)

theorem NextOk.mono {fl col t} (h : NextOk fl col false t) (e : Bool) : NextOk fl col e t :=
  ⟨h.1, h.2.1, fun hs => (by cases h.2.2.1 hs), h.2.2.2⟩

theorem Quiet.nextOk {fl : Flags} {col e : Bool} {t : Token} (h : Quiet t) (ht : t ≠ .punct .colon) :
    NextOk fl col e t := ⟨h.2.2 _, h.2.1, fun hs => (by rw [h.1] at hs; cases hs), fun _ => ht⟩

theorem punct_nextOk {fl : Flags} {col e : Bool} {q : Punct}
    (h : slashy (.punct q) = false ∧ q ≠ .colon ∧ q ≠ .curlyClose := by decide) : NextOk fl col e (.punct q) := by
  refine ⟨?_, rfl, fun hs => (by rw [h.1] at hs; cases hs), fun _ hq => h.2.1 (Token.punct.inj hq)⟩
  have := h.2.2
  cases q <;> first | rfl | exact absurd rfl this

theorem operator_nextOk {fl : Flags} {col e : Bool} {q : Punct} (h : q ∈ binaryOperators)
    (he : q = .slash → e = true) : NextOk fl col e (.punct q) := by
  by_cases hq : q = .slash
  · subst hq
    exact ⟨rfl, rfl, fun _ => he rfl, fun _ h => by cases h⟩
  · refine punct_nextOk ?_
    have : ∀ q ∈ binaryOperators, q ≠ .slash → slashy (.punct q) = false ∧ q ≠ .colon ∧ q ≠ .curlyClose := by
      decide
    exact this _ h hq

theorem assignment_nextOk {fl : Flags} {col e : Bool} {q : Punct} (h : q ∈ assignmentOperators)
    (he : q = .slashEq → e = true) : NextOk fl col e (.punct q) := by
  by_cases hq : q = .slashEq
  · subst hq
    exact ⟨rfl, rfl, fun _ => he rfl, fun _ h => by cases h⟩
  · refine punct_nextOk ?_
    have : ∀ q ∈ assignmentOperators, q ≠ .slashEq → slashy (.punct q) = false ∧ q ≠ .colon ∧ q ≠ .curlyClose := by
      decide
    exact this _ h hq

theorem assigner_nextOk {fl : Flags} {col e : Bool} {q : Punct} (h : q ∈ Punct.arrow :: assignmentOperators)
    (he : q ≠ .slashEq) : NextOk fl col e (.punct q) := by
  rcases List.mem_cons.1 h with rfl | h
  · exact punct_nextOk
  · exact assignment_nextOk h fun h => absurd h he

theorem word_nextOk {fl : Flags} {col e : Bool} {k : Bytes} : NextOk fl col e (.ident k) :=
  (quiet_word k).nextOk (by simp)

/-- The token behind the name an expression begins with can be looked at. -/
def Second (fl : Flags) (col : Bool) (u : List Tok) : Prop :=
  ∀ l n w, u = kw l n :: w → HeadIs (fun t => LookOk fl n t ∧ (col = true → t ≠ .punct .colon)) w

theorem second_cons {fl : Flags} {col : Bool} {x : Tok} {u : List Tok} (hx : isWord x.2 = false) :
    Second fl col (x :: u) := by
  intro l n w h
  injection h with h _
  rw [h] at hx
  cases hx

theorem second_word {fl : Flags} {col : Bool} {l n} {u : List Tok}
    (h : HeadIs (fun t => LookOk fl n t ∧ (col = true → t ≠ .punct .colon)) u) :
    Second fl col (kw l n :: u) := by
  intro l' n' w h'
  injection h' with h1 h2
  injection h1 with _ h1
  injection h1 with h1
  subst h1 h2
  exact h

theorem NextOk.look {fl : Flags} {col e : Bool} {n : Bytes} {t : Token} (h : NextOk fl col e t)
    (he : e = true → isBindingIdentifier fl n = true) : LookOk fl n t ∧ (col = true → t ≠ .punct .colon) :=
  ⟨⟨h.1, fun hs => he (h.2.2.1 hs), fun hs => by rw [h.2.1] at hs; cases hs⟩, h.2.2.2⟩

theorem Starts.look {fl : Flags} {b col : Bool} {n : Bytes} {t : Token} (h : Starts b t)
    (hr : isRegexTok t = true → isBindingIdentifier fl n = false) :
    LookOk fl n t ∧ (col = true → t ≠ .punct .colon) :=
  ⟨⟨h.compat _, fun hs => (by rw [h.slashy] at hs; cases hs), hr⟩, fun _ => h.punct⟩

/-- What is to be shown about each construct. -/
def SecondOf (fl : Flags) (col : Bool) (u v : List Tok) : FNT → Prop
  | prim _ e _ | lhs _ _ e _ | update _ e _ | unary _ e _ => HeadIs (NextOk fl col e) v → Second fl col u
  | binary _ _ | FNT.cond _ _ | assign _ _ | expr _ => HeadIs (NextOk fl col false) v → Second fl col u
  | assignOpen _ | exprOpen _ => HeadIs (NextOk fl col false) v → Second fl col u
  | condOpen _ | assignee _ => Second fl col u
  | tail _ e₀ _ e _ => HeadIs (NextOk fl col e) v → HeadIs (NextOk fl col e₀) u
  | more _ _ => HeadIs (NextOk fl col false) v → HeadIs (NextOk fl col false) u
  | _ => True

theorem seconds {lx : Bool} {C : Ctx} {n : FNT} {u v : List Tok} (h : FragX lx C n u v) :
    ∀ fl col, Keen C fl → SecondOf fl col u v n := by
  induction h <;> first | (intros; exact trivial) | skip
  all_goals intro fl col hs
  case name h _ _ =>
    intro hv
    exact second_word (hv.mono fun _ ht => ht.look fun _ => named_binding hs h)
  case word h =>
    intro hv
    exact second_word (hv.mono fun _ ht => ht.look fun he => by cases he)
  case classWord =>
    intro hv
    exact second_word (hv.mono fun _ ht => ht.look fun he => by cases he)
  case num | str | regex | plainTemplate | substTemplate | array | object | paren | parenEmpty | parenCover | parenRest =>
    exact fun _ => second_cons rfl
  case func h _ =>
    intro _
    refine second_word ((heads h rfl).mono fun t ht => ?_)
    obtain rfl : t = _ := ht
    exact NextOk.look (e := false) punct_nextOk (by simp)
  case funcName | genName | gen =>
    intro _
    exact second_word (headIs_cons.2 (NextOk.look (e := false) (by first | exact word_nextOk | exact punct_nextOk) (by simp)))
  case tailNil => exact id
  case tailDot | tailIndex | tailCall => exact fun _ => headIs_cons.2 punct_nextOk
  case tailTemplate | tailSubst =>
    exact fun _ => headIs_cons.2 ⟨rfl, rfl, fun h => (by cases h), fun _ h => by cases h⟩
  case lhs ih₁ ih₂ => exact fun hv => ih₁ fl col hs (ih₂ fl col hs hv)
  case new hr h _ =>
    intro _
    refine second_word ?_
    obtain ⟨x, u', rfl, hx⟩ := heads h rfl
    exact headIs_cons.2 (Starts.look hx fun h => by rw [notRegex_tok hr] at h; cases h)
  case newCall hr h _ _ _ _ _ =>
    intro _
    refine second_word ?_
    obtain ⟨x, u', rfl, hx⟩ := heads h rfl
    exact headIs_cons.2 (Starts.look hx fun h => by rw [notRegex_tok hr] at h; cases h)
  case super ih =>
    intro hv
    exact second_word ((ih fl col hs hv).mono fun _ ht => ht.look fun he => by cases he)
  case plain ih => exact ih fl col hs
  case «postfix» hq _ ih =>
    intro _
    refine ih fl col hs (headIs_cons.2 (punct_nextOk ?_))
    have : ∀ q ∈ [Punct.plusPlus, .minusMinus], slashy (.punct q) = false ∧ q ≠ .colon ∧ q ≠ .curlyClose := by
      decide
    exact this _ hq
  case «prefix» | prefixUpdate => exact fun _ => second_cons rfl
  case updated ih => exact ih fl col hs
  case unaryOp => exact fun _ => second_cons rfl
  case unaryWord hk h _ =>
    intro _
    refine second_word ((heads h rfl).mono fun t ht => Starts.look ht fun _ => keyword_binding ?_)
    have : ∀ k ∈ [b!"delete", b!"void", b!"typeof"],
      k ∈ keywords ++ [b!"null", b!"true", b!"false", b!"enum"] := by decide
    exact this _ hk
  case await hr h _ =>
    intro _
    refine second_word ?_
    obtain ⟨x, u', rfl, hx⟩ := heads h rfl
    exact headIs_cons.2 (Starts.look hx fun h => by rw [notRegex_tok hr] at h; cases h)
  case operand ih => exact fun hv => ih fl col hs (hv.mono fun _ h => h.mono _)
  case operator hq he _ _ ih _ => exact fun _ => ih fl col hs (headIs_cons.2 (operator_nextOk hq he))
  case instanceof ih _ => exact fun _ => ih fl col hs (headIs_cons.2 word_nextOk)
  case isIn ih _ => exact fun _ => ih fl col hs (headIs_cons.2 word_nextOk)
  case unconditional ih => exact ih fl col hs
  case conditional ih _ _ => exact fun _ => ih fl col hs (headIs_cons.2 punct_nextOk)
  case value ih => exact ih fl col hs
  case assignment hq he _ _ ih _ => exact fun _ => ih fl col hs (headIs_cons.2 (assignment_nextOk hq he))
  case assignTo hq he _ _ ih _ =>
    exact fun _ => ih fl col hs (headIs_cons.2 (assignment_nextOk hq fun h => absurd h he))
  case conditionalOpen ih _ _ => exact ih fl col hs (headIs_cons.2 punct_nextOk)
  case valueOpen ih => exact fun _ => ih fl col hs
  case closeOpen ih => exact ih fl col hs
  case assignee hq he _ ih => exact ih fl col hs (headIs_cons.2 (assigner_nextOk hq he))
  case assigneeOpen ih => exact ih fl col hs
  case assignAny ih _ => exact fun _ => ih fl col hs
  case assignAnyOpen ih _ => exact fun _ => ih fl col hs
  case arrowAny ih _ => exact fun _ => ih fl col hs
  case arrowAnyOpen ih _ => exact fun _ => ih fl col hs
  case arrowBlock ih _ => exact fun _ => ih fl col hs
  case exprOpen ih => exact ih fl col hs
  case exprOpenMore ih _ => exact fun _ => ih fl col hs (headIs_cons.2 punct_nextOk)
  case arrowName =>
    exact fun _ => second_word (headIs_cons.2 (NextOk.look (e := false) punct_nextOk (by simp)))
  case arrow => exact fun _ => second_cons rfl
  case asyncArrow | asyncBlock | asyncOpen =>
    exact fun _ => second_word (headIs_cons.2 (NextOk.look (e := false) word_nextOk (by simp)))
  case asyncArrows =>
    exact fun _ => second_word (headIs_cons.2 (NextOk.look (e := false) punct_nextOk (by simp)))
  case yieldStar | yieldStarMore | yieldAnyStar | yieldOpenStar | yieldEmptyStar =>
    exact fun _ => second_word (headIs_cons.2 (NextOk.look (e := false) punct_nextOk (by simp)))
  case yieldBare | yieldEmpty => exact fun hv => second_word (hv.mono fun _ h => h.look (by simp))
  case yieldMore hr h _ | yieldOpen hr h _ =>
    intro _
    refine second_word ?_
    obtain ⟨x, u', rfl, hx⟩ := heads h rfl
    exact headIs_cons.2 (Starts.look hx fun h => by rw [notRegex_tok hr] at h; cases h)
  case yield hr _ h _ | yieldAny hr _ h _ =>
    intro _
    refine second_word ?_
    obtain ⟨x, u', rfl, hx⟩ := heads h rfl
    exact headIs_cons.2 (Starts.look hx fun h => by rw [notRegex_tok hr] at h; cases h)
  case moreNil => exact id
  case moreCons => exact fun _ => headIs_cons.2 punct_nextOk
  case expr ih₁ ih₂ => exact fun hv => ih₁ fl col hs (ih₂ fl col hs hv)

/-! ## The name `async` -/

/-- No word follows the name `async` that an expression begins with. -/
def AsyncOk (u : List Tok) : Prop := ∀ l l' k w, u ≠ kw l b!"async" :: kw l' k :: w

def AsyncOf (u : List Tok) : FNT → Prop
  | prim _ _ _ | lhs _ _ _ _ | update _ _ _ | unary _ _ _ | binary _ _ | FNT.cond _ _ | condOpen _ | assignee _ => AsyncOk u
  | _ => True

theorem asyncOk_cons {x : Tok} {u : List Tok} (hx : x.2 ≠ .ident b!"async") : AsyncOk (x :: u) := by
  intro l l' k w h
  injection h with h _
  exact hx (by rw [h])

theorem asyncOk_word {l k} {u : List Tok} (hk : k ≠ b!"async" := by decide) : AsyncOk (kw l k :: u) :=
  asyncOk_cons (by simpa using hk)

theorem asyncs {lx : Bool} {C : Ctx} {n : FNT} {u v : List Tok} (h : FragX lx C n u v) (hl : lx = false) :
    AsyncOf u n := by
  induction h <;> first | exact trivial | skip
  case name h _ =>
    intro l l' k w hu
    injection hu with h1 h2
    injection h1 with _ h1
    injection h1 with h1
    exact h hl h1 _ _ _ h2
  case word h =>
    refine asyncOk_word ?_
    rintro rfl
    revert h
    decide
  case num | str | regex | plainTemplate | substTemplate | array | object | paren | parenEmpty | parenCover | parenRest => exact asyncOk_cons (by simp)
  case func | funcName | genName | gen | new | newCall | super | await | classWord => exact asyncOk_word
  case lhs ih _ => exact ih
  case plain ih => exact ih
  case «postfix» ih => exact ih
  case «prefix» | prefixUpdate | unaryOp => exact asyncOk_cons (by simp)
  case updated ih => exact ih
  case unaryWord h _ _ =>
    refine asyncOk_word ?_
    rintro rfl
    revert h
    decide
  case operand ih => exact ih
  case operator ih _ => exact ih
  case instanceof ih _ => exact ih
  case isIn ih _ => exact ih
  case unconditional ih => exact ih
  case conditional ih _ _ => exact ih
  case conditionalOpen ih _ _ => exact ih
  case assignee ih => exact ih
  case assigneeOpen ih => exact ih

theorem AsyncOk.lone {C : Ctx} {u : List Tok} (h : AsyncOk u) : LoneAsync C u := fun l n w hu => absurd hu (h l false n w)

theorem lone {lx : Bool} {C : Ctx} {u : List Tok} (hA : lx = true → LoneAsync C u) (h : lx = false → AsyncOk u) : LoneAsync C u := by
  cases lx with
  | false => exact (h rfl).lone
  | true => exact hA rfl

/-- No expression begins with `function function`, or is `function`. -/
def TwiceOk (u : List Tok) : Prop := ∀ x w, u = x :: w → x.2 = .ident b!"function" →
  ∃ y w', w = y :: w' ∧ y.2 ≠ .ident b!"function"

def TwiceOf (u : List Tok) : FNT → Prop
  | prim _ _ _ | lhs _ _ _ _ | update _ _ _ | unary _ _ _ | binary _ _ | FNT.cond _ _ | assign _ _ | expr _
  | condOpen _ | assignOpen _ | exprOpen _ | assignee _ => TwiceOk u
  | _ => True

theorem twiceOk_cons {x : Tok} {u : List Tok} (hx : x.2 ≠ .ident b!"function") : TwiceOk (x :: u) := by
  intro y w h hy
  cases h
  exact absurd hy hx

theorem twiceOk_word {l k} {u : List Tok} (hk : k ≠ b!"function" := by decide) : TwiceOk (kw l k :: u) :=
  twiceOk_cons (by simpa using hk)

theorem twiceOk_second {x y : Tok} {u : List Tok} (hy : y.2 ≠ .ident b!"function") : TwiceOk (x :: y :: u) := by
  intro z w h _
  cases h
  exact ⟨_, _, rfl, hy⟩

theorem twices {lx : Bool} {C : Ctx} {n : FNT} {u v : List Tok} (h : FragX lx C n u v) : TwiceOf u n := by
  induction h <;> first | exact trivial | assumption | (refine twiceOk_cons ?_; simp; done) | skip
  case name hn _ _ => exact twiceOk_word (hn.ne (k := b!"function") (by decide))
  case arrowName hn _ _ => exact twiceOk_word (hn.ne (k := b!"function") (by decide))
  case word hk | unaryWord hk _ _ => exact twiceOk_word (by rintro rfl; revert hk; decide)
  case func h _ =>
    obtain ⟨x, w, rfl, hx⟩ := heads h rfl
    exact twiceOk_second (by rw [show x.2 = _ from hx]; simp)
  case funcName hn _ _ => exact twiceOk_second (by simpa using hn.ne (k := b!"function") (by decide))
  case gen | genName => exact twiceOk_second (by simp)

/-- No expression begins with `async function`. -/
def FuncOk (u : List Tok) : Prop := ∀ l l' w, u ≠ kw l b!"async" :: kw l' b!"function" :: w

theorem AsyncOk.func {u : List Tok} (h : AsyncOk u) : FuncOk u := fun l l' w => h l l' _ w

def FuncOf (u : List Tok) : FNT → Prop
  | prim _ _ _ | lhs _ _ _ _ | update _ _ _ | unary _ _ _ | binary _ _ | FNT.cond _ _ | assign _ _ | expr _
  | condOpen _ | assignOpen _ | exprOpen _ | assignee _ => FuncOk u
  | _ => True

theorem funcs {lx : Bool} {C : Ctx} {n : FNT} {u v : List Tok} (h : FragX lx C n u v) : FuncOf u n := by
  induction h <;> first | exact trivial | assumption | (refine AsyncOk.func (asyncOk_cons ?_); simp; done) | skip
  case name h =>
    intro l l' w hu
    injection hu with _ hu
    exact h _ _ hu
  case word h =>
    refine AsyncOk.func (asyncOk_word ?_)
    rintro rfl
    revert h
    decide
  case unaryWord h _ _ =>
    refine AsyncOk.func (asyncOk_word ?_)
    rintro rfl
    revert h
    decide
  case arrowName =>
    intro l l' w h
    injection h with _ h
    injection h with h _
    injection h with _ h
    cases h
  case asyncArrow hn _ _ | asyncBlock hn _ _ | asyncOpen hn _ _ _ =>
    intro l l' w h
    injection h with _ h
    injection h with h _
    injection h with _ h
    injection h with h
    exact hn.ne (k := b!"function") (by decide) h
  case asyncArrows =>
    intro l l' w h
    injection h with _ h
    injection h with h _
    injection h with _ h
    cases h

end Jsparse.Forward
