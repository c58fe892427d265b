import Verif.Model.ParseFns
/-!
# The token tests as one primitive

`takeIf f` looks at the current token and removes it if `f` accepts it.  All the methods of
parser/mod.rs that consume a token are of this form; in particular the `unreachable!` branches after
`pop` are never taken.
-/

namespace Jsparse

open P

/-- The state after a `pop`. -/
def popState (s : PState) : PState :=
  { s with
    slot0 := if s.index then s.slot0 else { s.slot0 with token := .eof }
    slot1 := if s.index then { s.slot1 with token := .eof } else s.slot1
    index := !s.index
    count := s.count - 1
    log := s.log ++ [cur s] }

/-- Look at the current token; remove it if `f` accepts it. -/
def takeIf {β : Type} (f : Bool → Token → Option β) : P (Option β) := fun s =>
  match fill s with
  | .ok _ s' =>
    match f (cur s').line (cur s').token with
    | some b => .ok (some b) (popState s')
    | none => .ok none s'
  | .err e s => .err e s
  | .panic p => .panic p
  | .timeout => .timeout

theorem fill_count {s s' : PState} {u : Unit} (h : fill s = .ok u s') : s'.count ≠ 0 := by
  unfold fill at h
  split at h
  · split at h
    · injection h with h1 h2
      subst h2
      simp
    · cases h
    · cases h
  · injection h with h1 h2
    subst h2
    assumption

theorem pop_eq {s : PState} (h : s.count ≠ 0) : pop s = .ok (cur s).token (popState s) := by
  unfold pop
  rw [if_neg h]
  rfl

theorem bind_apply {α β : Type} (m : P α) (k : α → P β) (s : PState) :
    (m >>= k) s = match m s with
      | .ok a s' => k a s'
      | .err e s => .err e s
      | .panic p => .panic p
      | .timeout => .timeout := rfl

theorem pure_apply {α : Type} (a : α) (s : PState) : (pure a : P α) s = .ok a s := rfl

theorem map_apply {α β : Type} (f : α → β) (m : P α) (s : PState) :
    (f <$> m) s = (m >>= fun a => pure (f a)) s := rfl

theorem fill_err {s s' : PState} {e : ParseErr} : fill s ≠ .err e s' := by
  unfold fill
  split
  · split <;> nofun
  · nofun

theorem tokenAndLine_apply (s : PState) : tokenAndLine s = match fill s with
    | .ok _ s' => .ok (cur s').seen s'
    | .err e s => .err e s
    | .panic p => .panic p
    | .timeout => .timeout := by
  refine (bind_apply fill _ s).trans ?_
  cases fill s <;> rfl

/-- The second half of `identLookahead`, on a filled buffer. -/
def lookSecond (s : PState) : Res (Option (Bool × Token)) :=
  if s.count < 2 then
    match (cur s).token with
    | .ident name =>
      match readToken s.tok { s.hint with expression := !isBindingIdentifier s.flags name } with
      | .ok look tok =>
        .ok (some look.seen)
          { s with tok
                   slot0 := if s.index then look else s.slot0
                   slot1 := if s.index then s.slot1 else look
                   count := s.count + 1 }
      | .panic p => .panic p
      | .timeout => .timeout
    | _ => .ok none s
  else .ok (some (other s).seen) s

theorem identLookahead_apply (s : PState) : identLookahead s = match fill s with
    | .ok _ s' => lookSecond s'
    | .err e s => .err e s
    | .panic p => .panic p
    | .timeout => .timeout := by
  refine (bind_apply fill _ s).trans ?_
  cases fill s <;> rfl

/-- Equality of methods that look at the current token first. -/
theorem tokenAndLine_bind_ext {α : Type} {F G : Bool × Token → P α}
    (h : ∀ s, s.count ≠ 0 → F (cur s).seen s = G (cur s).seen s) :
    (tokenAndLine >>= F) = (tokenAndLine >>= G) := by
  funext s
  simp only [tokenAndLine_apply, bind_apply]
  cases hf : fill s with
  | ok u s' => exact h s' (fill_count hf)
  | err e => rfl
  | panic p => rfl
  | timeout => rfl

theorem token_bind_ext {α : Type} {F G : Token → P α}
    (h : ∀ s, s.count ≠ 0 → F (cur s).token s = G (cur s).token s) :
    (token >>= F) = (token >>= G) := by
  funext s
  simp only [token, tokenAndLine_apply, bind_apply, pure_apply]
  cases hf : fill s with
  | ok u s' => exact h s' (fill_count hf)
  | err e => rfl
  | panic p => rfl
  | timeout => rfl

/-- A method that looks at the current token first is determined by what it does on a filled buffer. -/
theorem token_eq_takeIf {β γ : Type} (f : Bool → Token → Option β) (k : Option β → P γ)
    (F : Token → P γ)
    (h : ∀ s, s.count ≠ 0 → F (cur s).token s =
      match f (cur s).line (cur s).token with
      | some b => k (some b) (popState s)
      | none => k none s) :
    (token >>= F) = (takeIf f >>= k) := by
  funext s
  simp only [token, tokenAndLine_apply, takeIf, bind_apply, pure_apply]
  cases hf : fill s with
  | ok u s' =>
    simp only
    refine (h s' (fill_count hf)).trans ?_
    cases f (cur s').line (cur s').token <;> rfl
  | err e => rfl
  | panic p => rfl
  | timeout => rfl

theorem bind_pure_P {α : Type} (m : P α) : (m >>= pure) = m := by
  funext s
  rw [bind_apply]
  cases m s <;> rfl

theorem token_eq_takeIf' {β : Type} (f : Bool → Token → Option β) (F : Token → P (Option β))
    (h : ∀ s, s.count ≠ 0 → F (cur s).token s =
      match f (cur s).line (cur s).token with
      | some b => .ok (some b) (popState s)
      | none => .ok none s) :
    (token >>= F) = takeIf f := by
  rw [token_eq_takeIf f pure F h, bind_pure_P]

/-! ## The token tests -/

def isPunc (p : Punct) (_ : Bool) (t : Token) : Option Punct := if t = .punct p then some p else none

theorem punc_eq (p : Punct) : punc p = takeIf (isPunc p) := by
  refine token_eq_takeIf' _ _ fun s hs => ?_
  unfold isPunc
  by_cases h : (cur s).token = .punct p
  · simp only [h, if_true, bind_apply, pop_eq hs]; rfl
  · simp only [h, if_false]; rfl

def isNum (_ : Bool) : Token → Option NumExpr
  | .num v => some v
  | _ => none

theorem numeric_eq : numeric = takeIf isNum := by
  refine token_eq_takeIf' _ _ fun s hs => ?_
  cases h : (cur s).token <;> simp only [isNum, bind_apply, pop_eq hs, h] <;> rfl

def isStr (_ : Bool) : Token → Option Bytes
  | .str v => some v
  | _ => none

theorem string_eq : string = takeIf isStr := by
  refine token_eq_takeIf' _ _ fun s hs => ?_
  cases h : (cur s).token <;> simp only [isStr, bind_apply, pop_eq hs, h] <;> rfl

def isRegex (_ : Bool) : Token → Option (Bytes × Bytes)
  | .regex p f => some (p, f)
  | _ => none

theorem regex_eq : regex = takeIf isRegex := by
  refine token_eq_takeIf' _ _ fun s hs => ?_
  cases h : (cur s).token <;> simp only [isRegex, bind_apply, pop_eq hs, h] <;> rfl

def isTemplate (_ : Bool) : Token → Option TemplateFormat
  | .template .noSubstitution _ _ => some .noSubstitution
  | .template .head _ _ => some .head
  | _ => none

theorem template_eq : template = takeIf isTemplate := by
  refine token_eq_takeIf' _ _ fun s hs => ?_
  cases h : (cur s).token with
  | template f a b =>
    cases f <;> simp [isTemplate, isTemplateStart, bind_apply, pop_eq hs, h] <;> rfl
  | _ => simp [isTemplate, isTemplateStart] <;> rfl

def isTemplateTail (_ : Bool) : Token → Option TemplateFormat
  | .template .middle _ _ => some .middle
  | .template .tail _ _ => some .tail
  | _ => none

theorem templateTail_eq : templateTail = takeIf isTemplateTail := by
  refine token_eq_takeIf' _ _ fun s hs => ?_
  cases h : (cur s).token with
  | template f a b =>
    cases f <;> simp [isTemplateTail, isTemplateCont, bind_apply, pop_eq hs, h] <;> rfl
  | _ => simp [isTemplateTail, isTemplateCont] <;> rfl

def isBinding (flags : Flags) (_ : Bool) : Token → Option Bytes
  | .ident v => if isBindingIdentifier flags v = true then some v else none
  | _ => none

theorem bindingIdentifier_eq :
    bindingIdentifier = getFlags >>= fun flags => takeIf (isBinding flags) := by
  unfold bindingIdentifier
  congr 1
  funext flags
  refine token_eq_takeIf' _ _ fun s hs => ?_
  cases h : (cur s).token with
  | ident v =>
    by_cases hb : isBindingIdentifier flags v = true
    · simp only [isBinding, hb, if_true, bind_apply, pop_eq hs, h]; rfl
    · simp only [isBinding, hb]; rfl
  | _ => simp only [isBinding] <;> rfl

def isKeyword (k : Bytes) (_ : Bool) (t : Token) : Option Bytes :=
  if t = .ident k then some k else none

theorem keyword_eq (k : Bytes) : keyword k = takeIf (isKeyword k) := by
  refine token_eq_takeIf' _ _ fun s hs => ?_
  unfold isKeyword
  by_cases h : (cur s).token = .ident k
  · simp only [h, if_true, bind_apply, pop_eq hs]; rfl
  · simp only [h, if_false]; rfl

def isIdent (_ : Bool) : Token → Option Bytes
  | .ident v => some v
  | _ => none

theorem identifier_eq : identifier = takeIf isIdent := by
  refine token_eq_takeIf' _ _ fun s hs => ?_
  cases h : (cur s).token <;> simp only [isIdent, bind_apply, pop_eq hs, h] <;> rfl

def isEof (_ : Bool) : Token → Option Unit
  | .eof => some ()
  | _ => none

theorem eof_eq : eof = takeIf isEof := by
  refine token_eq_takeIf' _ _ fun s hs => ?_
  cases h : (cur s).token <;> simp only [isEof, bind_apply, pop_eq hs, h] <;> rfl

/-! ## The other places that remove tokens -/

/-- A semicolon that is really there. -/
def isSemicolon (_ : Bool) (t : Token) : Option Unit :=
  if t = .punct .semicolon then some () else none

theorem semicolonInner_eq (w : Bool) :
    semicolonInner w = takeIf isSemicolon >>= fun
      | some _ => return some ()
      | none => tokenAndLine >>= fun lt =>
          match semicolonExists w lt.1 lt.2 with
          | some _ => do expectExpression; return some ()
          | none => return none := by
  funext s
  simp only [semicolonInner, tokenAndLine_apply, takeIf, bind_apply]
  cases hf : fill s with
  | ok u s' =>
    have hs := fill_count hf
    have hf' : fill s' = .ok () s' := by unfold fill; rw [if_neg hs]
    simp only [Look.seen]
    by_cases h : (cur s').token = .punct .semicolon
    · simp only [h, isSemicolon, semicolonExists, if_true, bind_apply, pop_eq hs]
    · simp only [h, isSemicolon, if_false, bind_apply]
      have key : semicolonExists w (cur s').line (cur s').token ≠ some true := by
        unfold semicolonExists
        split <;> simp_all
      rw [tokenAndLine_apply, hf']
      simp only [Look.seen]
      revert key
      cases semicolonExists w (cur s').line (cur s').token with
      | none => intro _; rfl
      | some b =>
        cases b
        · intro _; rfl
        · intro h; exact absurd rfl h
  | err e => rfl
  | panic p => rfl
  | timeout => rfl

def isReify (_ : Bool) (t : Token) : Option Bool := reifyType t

theorem assignmentRest_eq (r : Rec) :
    assignmentRest r = (do
      let some _ ← r.call .conditionalExpression | return none
      match ← takeIf isReify with
      | some true => must (r.call .reifyArrow)
      | some false => must (r.call .reifyAssignment)
      | none => found) := by
  unfold assignmentRest
  congr 1
  funext x
  cases x with
  | none => rfl
  | some u =>
    refine token_eq_takeIf isReify _ _ fun s hs => ?_
    unfold isReify
    cases h : reifyType (cur s).token with
    | none => rfl
    | some b => cases b <;> simp only [bind_apply, pop_eq hs]

def isOperator (allowIn : Bool) (_ : Bool) (t : Token) : Option Nat := newPrecedence allowIn t

theorem fancyRound_eq (r : Rec) (allowIn : Bool) (precedence : Nat) :
    fancyRound r allowIn precedence = (do
      match ← takeIf (isOperator allowIn) with
      | none => return .inr ()
      | some newPrec => do
        expectExpression
        if newPrec ≥ precedence ∧ newPrec ≠ 11 then
          eat (r.call .unaryExpression)
          return .inl newPrec
        else
          eat (r.call (.fancy newPrec))
          return .inl precedence) := by
  unfold fancyRound
  refine token_eq_takeIf (isOperator allowIn) _ _ fun s hs => ?_
  unfold isOperator
  cases h : newPrecedence allowIn (cur s).token with
  | none => rfl
  | some n => simp only [bind_apply, pop_eq hs]

def isMember (_ : Bool) (t : Token) : Option Bool :=
  if t = .punct .period then some true else if t = .punct .squareOpen then some false else none

theorem leftHandRound_eq (r : Rec) (allowCall : Bool) :
    leftHandRound r allowCall = (do
      match ← takeIf isMember with
      | some true => do
        let _ ← eat (withFlag .fin true identifier)
        return .inl ()
      | some false => do
        eat (withFlag .fin true (r.call .expression))
        let _ ← eat (punc .squareClose)
        return .inl ()
      | none => do
        let t ← token
        match leftType t with
        | some .call =>
          if allowCall then do
            eat (r.call .callArguments)
            return .inl ()
          else return .inr ()
        | some .template => do
          eat (r.call .templateLiteralExpression)
          return .inl ()
        | _ => return .inr ()) := by
  unfold leftHandRound
  refine token_eq_takeIf isMember _ _ fun s hs => ?_
  have hf : fill s = .ok () s := by unfold fill; rw [if_neg hs]
  have ht : token s = .ok (cur s).token s := by
    simp only [token, tokenAndLine_apply, bind_apply, hf, pure_apply]; rfl
  unfold isMember
  by_cases h1 : (cur s).token = .punct .period
  · simp only [h1, leftType, if_true, bind_apply, pop_eq hs]
  · by_cases h2 : (cur s).token = .punct .squareOpen
    · simp only [h2, leftType, bind_apply, pop_eq hs]; rfl
    · simp only [h1, h2, if_false, bind_apply, ht]
      unfold leftType
      split <;> simp_all

/-- `async` arrow functions: the `unreachable!` of expressions.rs:47 is not reached, because the token
after `async` was seen to be on the same line. -/
theorem asyncArrow_eq (r : Rec) (flags : Flags) (k : P (Option Unit)) :
    (do
      let ahead ← identLookahead
      let isAsync ← if maybeAsyncArrow flags ahead then keyword b!"async" else pure none
      match isAsync with
      | some _ => asyncArrowRest r
      | none => k) =
    (do
      let ahead ← identLookahead
      let isAsync ← if maybeAsyncArrow flags ahead then keyword b!"async" else pure none
      match isAsync with
      | some _ => do
        let _ ← eat bindingIdentifier
        let ok ← noLineTerminator
        if ok then do
          let _ ← eat (punc .arrow)
          must (r.call .reifyArrow)
        else fail .asyncArrowLine
      | none => k) := by
  have key : ∀ s a s', identLookahead s = .ok a s' → ∀ x, a = some x →
      2 ≤ s'.count ∧ (other s').seen = x := by
    intro s a s' h x hx
    subst hx
    rw [identLookahead_apply] at h
    cases hf : fill s with
    | ok u s1 =>
      rw [hf] at h
      have hc := fill_count hf
      simp only [lookSecond] at h
      split at h
      · split at h
        · split at h
          · injection h with h1 h2
            subst h2
            injection h1 with h1
            refine ⟨by simp only; omega, ?_⟩
            rw [← h1]
            unfold other
            simp only
            split <;> rfl
          · cases h
          · cases h
        · injection h with h1; cases h1
      · injection h with h1 h2
        subst h2
        injection h1 with h1
        exact ⟨by omega, h1⟩
    | err e => rw [hf] at h; cases h
    | panic p => rw [hf] at h; cases h
    | timeout => rw [hf] at h; cases h
  funext s
  rw [bind_apply, bind_apply]
  cases hl : identLookahead s with
  | ok a s' =>
    simp only
    by_cases hm : maybeAsyncArrow flags a = true
    · simp only [hm, if_true, bind_apply, keyword_eq, takeIf]
      obtain ⟨x, rfl, hx⟩ : ∃ x, a = some x ∧ x.1 = false := by
        unfold maybeAsyncArrow at hm
        split at hm
        · exact ⟨_, rfl, rfl⟩
        · cases hm
      obtain ⟨hc, ho⟩ := key _ _ _ hl x rfl
      have hf : fill s' = .ok () s' := by unfold fill; rw [if_neg (by omega)]
      simp only [hf]
      cases isKeyword b!"async" (cur s').line (cur s').token with
      | none => rfl
      | some v =>
        simp only
        have hcur : cur (popState s') = other s' := by
          unfold cur other popState
          cases s'.index <;> rfl
        have hf2 : fill (popState s') = .ok () (popState s') := by
          unfold fill
          rw [if_neg]
          simp only [popState]
          omega
        have hn : noLineTerminator (popState s') = .ok true (popState s') := by
          simp only [noLineTerminator, tokenAndLine_apply, bind_apply, hf2, pure_apply, hcur, ho, hx]
          rfl
        unfold asyncArrowRest
        simp only [bind_apply, hn, if_true]
    · simp only [hm]; rfl
  | err e => rfl
  | panic p => rfl
  | timeout => rfl

theorem parseAssignmentExpression_eq (r : Rec) :
    parseAssignmentExpression r = (do
      match ← r.call .yieldExpression with
      | some _ => found
      | none => do
        let flags ← getFlags
        let ahead ← identLookahead
        let isAsync ← if maybeAsyncArrow flags ahead then keyword b!"async" else pure none
        match isAsync with
        | some _ => do
          let _ ← eat bindingIdentifier
          let ok ← noLineTerminator
          if ok then do
            let _ ← eat (punc .arrow)
            must (r.call .reifyArrow)
          else fail .asyncArrowLine
        | none => assignmentRest r) := by
  unfold parseAssignmentExpression
  congr 1
  funext x
  cases x with
  | some _ => rfl
  | none =>
    simp only
    congr 1
    funext flags
    exact asyncArrow_eq r flags (assignmentRest r)

end Jsparse
