import Verif.Proofs.Letters
/-!
# Where `import` and `export` may stand
-/

namespace Jsparse

open Spec

namespace TopLevel

/-- The last token: `.`; something behind which only a statement or an operand may follow (`else`,
`do`, `=>`, `:`, `)` after `if`, `for`, `with`); `if`, `for`, `with` (`cond`); the word `import` or `export` used as a name (`pend`), or as a label (`label`). -/
inductive Last where
  | other | dot | start | pend | label | cond
  deriving DecidableEq, Repr

/-- The state: whether a bracket is open, and the last token. -/
abbrev Q := Bool × Last

inductive L where
  | dot | word | start | startWord | condWord | colon | follow | other
  deriving DecidableEq

def words : List (Nat × L) :=
  [(w!"import", .word), (w!"export", .word), (w!"else", .startWord), (w!"do", .startWord),
   (w!"if", .condWord), (w!"for", .condWord), (w!"with", .condWord), (w!"as", .follow)]

def see (_ : Bool) : Ltr L → L
  | .punct .period => .dot
  | .punct .arrow => .start
  | .punct .colon => .colon
  | .punct .comma => .follow
  | .punct .eq => .follow
  | .word k => k
  | _ => .other

def plain : L → Last
  | .dot => .dot
  | .start => .start
  | .startWord => .start
  | .condWord => .cond
  | .colon => .start
  | _ => .other

def step (q : Q) (l : L) : Option Q :=
  match q.2, l with
  | .pend, .colon => some (q.1, .start)
  | .pend, .follow => some (q.1, .other)
  | .pend, _ => none
  | .label, .colon => some (q.1, .start)
  | .label, _ => none
  | .dot, .word => some (q.1, .other)
  | .dot, .startWord => some (q.1, .other)
  | .dot, .condWord => some (q.1, .other)
  | .start, .word => some (q.1, .label)
  | .other, .word => some (q.1, if q.1 then .pend else .other)
  | .cond, .word => some (q.1, if q.1 then .pend else .other)
  | _, l => some (q.1, plain l)

def enter (q : Q) (b : Br) : Option Q :=
  match q.2, b with
  | .pend, .paren => some (true, .other)
  | .pend, _ => none
  | .label, _ => none
  | _, _ => some (true, .other)

def next (q : Q) : Option Q :=
  match q.2 with
  | .pend => none
  | .label => none
  | _ => some (true, .other)

def leave (p q : Q) (b : Br) : Option Q :=
  match q.2, b, p.2 with
  | .pend, .curly, _ => some (p.1, .other)
  | .pend, _, _ => none
  | .label, _, _ => none
  | _, .paren, .cond => some (p.1, .start)
  | _, _, _ => some (p.1, .other)

def states : List Q :=
  [(true, .other), (true, .dot), (true, .start), (true, .pend), (true, .label), (true, .cond),
   (false, .other), (false, .dot), (false, .start), (false, .pend), (false, .label), (false, .cond)]

def lens : Lens Q L L where
  states := states
  words := words
  see := see
  step := step
  enter := enter
  next := next
  leave := leave
  keeps := false
  agrees _ _ := true
  names := [.word, .startWord, .condWord, .follow, .other]
  bindings := [.follow, .other]
  assigns := [.follow, .other]
  binaries := [.other]

theorem right : lens.Right := by
  constructor <;> decide +kernel

-- TABLE
def rows : NT → List (Nat × List Nat)
  | .Module | .ModuleItem | .ImportDeclaration | .ExportDeclaration
    => [(6, [6])]
  | .StatementListItem | .Declaration | .LetDeclaration | .ConstDeclaration | .BindingPattern |
    .ObjectBindingPattern | .ArrayBindingPattern | .FunctionDeclaration | .ClassDeclaration
    => [(0, [0]), (2, [0]), (6, [6])]
  | .Statement | .Block | .VariableStatement | .ExpressionStatement | .IfStatement |
    .BreakableStatement | .IterationStatement | .DoWhile | .While | .For | .SwitchStatement |
    .ContinueStatement | .BreakStatement | .ReturnStatement | .WithStatement | .LabelledStatement |
    .ThrowStatement | .TryStatement | .DebuggerStatement | .FunctionExpression | .Expression |
    .AssignmentExpression | .YieldExpression | .ConditionalExpression | .BinaryExpression |
    .UnaryExpression | .UpdateExpression | .PrimaryExpression | .ArrayLiteral | .ObjectLiteral |
    .TemplateLiteral | .CoverParenthesized | .LeftHandSideExpression true
    => [(0, [0]), (2, [0]), (6, [6]), (8, [6])]
  | .VariableDeclaration | .ClassHeritage | .ClassBody | .Arguments | .LexicalBinding true |
    .LexicalBinding false | .LeftHandSideExpression false | .FunctionRest true false | .FunctionRest
    false true | .FunctionRest false false
    => [(0, [0]), (6, [6])]
  | .CaseClause | .DefaultClause
    => [(0, [0, 2]), (2, [0, 2])]
  | .BindingProperty | .PropertyName | .ImportSpecifier | .ExportSpecifier | .PropertyDefinition |
    .MethodHead .get true false | .MethodHead .get false false | .MethodHead .set true false |
    .MethodHead .set false false | .MethodHead .none true false | .MethodHead .none false true |
    .MethodHead .none false false
    => [(0, [0, 2, 3, 5])]
  | .BindingElement
    => [(0, [0]), (2, [0])]
  | .BindingRestElement | .ClassElement | .ArrayElement
    => [(0, [0])]
  | .Initializer
    => [(0, [0]), (2, [0]), (3, [0]), (5, [0]), (6, [6])]
  | .FormalParameters
    => [(0, [0]), (2, [0]), (3, [0]), (5, [2]), (6, [6])]
  | .ArrowBody
    => [(2, [0]), (8, [6])]
  | .MethodTail .get true false | .MethodTail .get false false | .MethodTail .set true false
  | .MethodTail .set false false | .MethodTail .none true false | .MethodTail .none false true
  | .MethodTail .none false false
    => [(0, [0]), (2, [0]), (3, [0]), (5, [0])]
  | _ => []

-- END

theorem closed : Closed lens.auto (tableOf states rows) :=
  closed_iff (qs := states) (by
    rintro ⟨b, l⟩
    cases b <;> cases l <;> decide) (by decide +kernel)

theorem sound : lens.auto.Sound := Lens.sound right (fun _ _ _ => rfl) (fun _ => rfl) (fun _ _ => rfl)
  (fun _ => rfl) (fun _ _ h => by cases h)

/-- The flag in the states says whether a bracket is open. -/
def Depths : List (Br × Q) → Prop
  | [] => True
  | (_, p) :: σ => p.1 = !σ.isEmpty ∧ Depths σ

def Inv (q : Q) (σ : List (Br × Q)) : Prop := q.1 = !σ.isEmpty ∧ Depths σ

theorem step_flag {q q' : Q} {l : L} (h : step q l = some q') : q'.1 = q.1 := by
  obtain ⟨b, k⟩ := q
  cases k <;> cases l <;> simp [step] at h <;> rw [← h]

theorem enter_flag {q q' : Q} {b : Br} (h : enter q b = some q') : q' = (true, .other) := by
  unfold enter at h
  split at h <;> simp at h <;> exact h.symm

theorem next_flag {q q' : Q} (h : next q = some q') : q' = (true, .other) := by
  unfold next at h
  split at h <;> simp at h <;> exact h.symm

theorem leave_flag {p q q' : Q} {b : Br} (h : leave p q b = some q') :
    q'.1 = p.1 ∧ q'.2 ≠ .dot := by
  unfold leave at h
  split at h <;> cases h <;> exact ⟨rfl, by simp⟩

theorem inv_move (q : Q) (σ : List (Br × Q)) (x : Tok) (c : Q × List (Br × Q)) (hI : Inv q σ)
    (h : lens.auto.move q σ (nestOf x.2) (lens.auto.cls x) = some c) : Inv c.1 c.2 := by
  unfold Auto.move at h
  split at h
  · simp only [Option.map_eq_some_iff] at h
    obtain ⟨q', h1, rfl⟩ := h
    exact ⟨(step_flag h1).trans hI.1, hI.2⟩
  · simp only [Option.map_eq_some_iff] at h
    obtain ⟨q', h1, rfl⟩ := h
    cases enter_flag h1
    exact ⟨rfl, hI⟩
  · split at h
    · split at h
      · simp only [Option.map_eq_some_iff] at h
        obtain ⟨q', h1, rfl⟩ := h
        exact ⟨(leave_flag h1).1.trans hI.2.1, hI.2.2⟩
      · cases h
    · cases h
  · split at h
    · simp only [Option.map_eq_some_iff] at h
      obtain ⟨q', h1, rfl⟩ := h
      cases next_flag h1
      exact ⟨rfl, hI.2⟩
    · cases h

theorem see_dot {b : Bool} {t : Token} (h : see b (ltr words t) = .dot) : t = .punct .period := by
  unfold see at h
  split at h <;> try cases h
  · exact ltr_punct ‹_›
  · obtain ⟨v, -, hv⟩ := ltr_word ‹_›
    simp [words] at hv

/-- The state `dot` is only reached by a dot. -/
theorem dot_last {q : Q} {σ : List (Br × Q)} {x : Tok} {c : Q × List (Br × Q)}
    (h : lens.auto.move q σ (nestOf x.2) (lens.auto.cls x) = some c) (hc : c.1.2 = .dot) :
    x.2 = .punct .period := by
  unfold Auto.move at h
  split at h
  · simp only [Option.map_eq_some_iff] at h
    obtain ⟨q', h1, rfl⟩ := h
    have : lens.auto.cls x = .dot := by
      revert h1
      generalize lens.auto.cls x = l
      obtain ⟨b, k⟩ := q
      intro h1
      change step (b, k) l = some q' at h1
      cases k <;> cases l <;> first | rfl | (simp [step, plain] at h1; try subst h1) <;> simp at hc
      all_goals (split at hc <;> cases hc)
    exact see_dot (b := x.1) this
  · simp only [Option.map_eq_some_iff] at h
    obtain ⟨q', h1, rfl⟩ := h
    cases enter_flag h1
    cases hc
  · split at h
    · split at h
      · simp only [Option.map_eq_some_iff] at h
        obtain ⟨q', h1, rfl⟩ := h
        exact absurd hc (leave_flag h1).2
      · cases h
    · cases h
  · split at h
    · simp only [Option.map_eq_some_iff] at h
      obtain ⟨q', h1, rfl⟩ := h
      cases next_flag h1
      cases hc
    · cases h

theorem program_run {u : List Tok} (h : Program u) :
    ∃ c, lens.auto.run (false, .other) [] u = some c := by
  obtain ⟨w, hw, h1⟩ := der_run (q := (false, .other)) sound closed h rfl
  obtain ⟨d, hd, h1, -⟩ := h1 fun _ _ => rfl
  rw [List.append_nil] at hw
  subst hw
  exact ⟨_, h1⟩

/-- The letter of a name. -/
theorem cls_ident {b : Bool} {v : Bytes} :
    lens.auto.cls (b, .ident v) = (if v = b!"import" ∨ v = b!"export" then .word
      else if v = b!"else" ∨ v = b!"do" then .startWord
      else if v = b!"if" ∨ v = b!"for" ∨ v = b!"with" then .condWord
      else if v = b!"as" then .follow else .other) := by
  change see b (nameLtr words (code v)) = _
  by_cases h1 : v = b!"import" ∨ v = b!"export"
  · rw [if_pos h1]
    rcases h1 with rfl | rfl <;> rw [nameLtr_word (k := .word) (by decide +kernel)] <;> rfl
  · rw [if_neg h1]
    by_cases h2 : v = b!"else" ∨ v = b!"do"
    · rw [if_pos h2]
      rcases h2 with rfl | rfl <;> rw [nameLtr_word (k := .startWord) (by decide +kernel)] <;> rfl
    · rw [if_neg h2]
      by_cases h4 : v = b!"if" ∨ v = b!"for" ∨ v = b!"with"
      · rw [if_pos h4]
        rcases h4 with rfl | rfl | rfl <;> rw [nameLtr_word (k := .condWord) (by decide +kernel)] <;> rfl
      rw [if_neg h4]
      by_cases h3 : v = b!"as"
      · subst h3; rw [nameLtr_word (k := .follow) (by decide +kernel)]; rfl
      · rw [if_neg h3, nameLtr_other (V := [b!"import", b!"export", b!"else", b!"do", b!"if", b!"for",
          b!"with", b!"as"])]
        · rfl
        · decide +kernel
        · simp only [List.mem_cons, List.not_mem_nil, or_false]
          rintro (h | h | h | h | h | h | h | h)
          · exact h1 (.inl h)
          · exact h1 (.inr h)
          · exact h2 (.inl h)
          · exact h2 (.inr h)
          · exact h4 (.inl h)
          · exact h4 (.inr (.inl h))
          · exact h4 (.inr (.inr h))
          · exact h3 h

/-- The tokens that may follow `import` and `export` where they are names. -/
theorem follow_pend {q : Bool} {σ : List (Br × Q)} {y : Tok} {c : Q × List (Br × Q)}
    (h : lens.auto.move (q, .pend) σ (nestOf y.2) (lens.auto.cls y) = some c) :
    y.2 ∈ [.punct .colon, .punct .comma, .punct .eq, .punct .parenOpen, .punct .curlyClose,
      .ident b!"as"] := by
  obtain ⟨b, t⟩ := y
  cases t with
  | punct p =>
    cases p <;> first
      | (simp; done)
      | (exfalso; revert h; cases σ <;> simp [Auto.move, nestOf, Lens.auto, lens, leave, enter, step,
          ltr, see]; done)
  | ident v =>
    rw [cls_ident] at h
    by_cases hv : v = b!"as"
    · subst hv; simp
    · exfalso
      rw [if_neg hv] at h
      revert h
      split <;> (try split) <;> (try split) <;> (try split) <;> simp [Auto.move, nestOf, Lens.auto, lens, step]
  | template f _ _ =>
    exfalso
    revert h
    cases f <;> rcases σ with _ | ⟨⟨_ | _ | _ | _, _⟩, _⟩ <;>
      simp [Auto.move, nestOf, Lens.auto, lens, leave, enter, next, step, ltr, see]
  | _ => exfalso; revert h; simp [Auto.move, nestOf, Lens.auto, lens, step, ltr, see]

/-- Only a colon may follow `import` and `export` where they are labels. -/
theorem follow_label {q : Bool} {σ : List (Br × Q)} {y : Tok} {c : Q × List (Br × Q)}
    (h : lens.auto.move (q, .label) σ (nestOf y.2) (lens.auto.cls y) = some c) :
    y.2 = .punct .colon := by
  obtain ⟨b, t⟩ := y
  cases t with
  | punct p =>
    cases p <;> first
      | rfl
      | (exfalso; revert h; cases σ <;> simp [Auto.move, nestOf, Lens.auto, lens, leave, enter, step,
          ltr, see]; done)
  | ident v =>
    exfalso
    rw [cls_ident] at h
    revert h
    split <;> (try split) <;> (try split) <;> (try split) <;> simp [Auto.move, nestOf, Lens.auto, lens, step]
  | template f _ _ =>
    exfalso
    revert h
    cases f <;> rcases σ with _ | ⟨⟨_ | _ | _ | _, _⟩, _⟩ <;>
      simp [Auto.move, nestOf, Lens.auto, lens, leave, enter, next, step, ltr, see]
  | _ => exfalso; revert h; simp [Auto.move, nestOf, Lens.auto, lens, step, ltr, see]

/-- The state after tokens whose last one is not a dot. -/
theorem not_dot {u : List Tok} {c : Q × List (Br × Q)}
    (h : lens.auto.run (false, .other) [] u = some c)
    (hl : (u.map (·.2)).getLast? ≠ some (.punct .period)) : c.1.2 ≠ .dot := by
  intro hc
  rcases List.eq_nil_or_concat u with rfl | ⟨u, z, rfl⟩
  · cases h; cases hc
  · rw [List.concat_eq_append] at h hl
    obtain ⟨d, hd⟩ := Auto.run_last _ h
    refine hl ?_
    rw [List.map_append, List.map_cons, List.map_nil, List.getLast?_append, dot_last hd hc]
    rfl

theorem nested_word {u : List Tok} (h : Program u) {pre post : List Token} {w : Bytes} {b : Token}
    (hu : u.map (·.2) = pre ++ .ident w :: b :: post) (hw : w = b!"import" ∨ w = b!"export")
    (hdot : pre.getLast? ≠ some (.punct .period)) (hn : nest [] pre ≠ some []) :
    b ∈ [.punct .colon, .punct .comma, .punct .eq, .punct .parenOpen, .punct .curlyClose,
      .ident b!"as"] := by
  obtain ⟨c, hr⟩ := program_run h
  obtain ⟨u1, u2, rfl, rfl, h1⟩ := List.map_eq_append_iff.1 hu
  obtain ⟨x, u3, rfl, hx, h2⟩ := List.map_eq_cons_iff.1 h1
  obtain ⟨y, u4, rfl, rfl, h3⟩ := List.map_eq_cons_iff.1 h2
  obtain ⟨d, e, r1, r2, r3⟩ := Auto.run_at _ hr
  obtain ⟨e', f, r4, r5, -⟩ := Auto.run_at (u := []) _ r3
  cases r4
  have hnd := not_dot r1 hdot
  have hd := Auto.run_inv _ (I := Inv) inv_move (q := (false, .other)) (σ := []) ⟨rfl, trivial⟩ r1
  have hne := Auto.run_nest _ r1
  obtain ⟨⟨q1, q2⟩, σ⟩ := d
  have hq : q1 = true := by
    cases σ with
    | nil => exact absurd hne hn
    | cons => exact hd.1
  subst hq
  obtain ⟨bx, tx⟩ := x
  cases hx
  rw [cls_ident, if_pos hw] at r2
  cases q2 with
  | dot => exact absurd rfl hnd
  | other => cases r2; exact follow_pend r5
  | cond => cases r2; exact follow_pend r5
  | start =>
    cases r2
    rw [follow_label r5]
    exact List.mem_cons_self
  | pend => cases r2
  | label => cases r2

theorem start_word {u : List Tok} (h : Program u) {pre post : List Token} {k : Token} {w : Bytes}
    {b : Token} (hu : u.map (·.2) = pre ++ k :: .ident w :: b :: post)
    (hw : w = b!"import" ∨ w = b!"export")
    (hk : k ∈ [.ident b!"else", .ident b!"do", .punct .arrow, .punct .colon])
    (hdot : pre.getLast? ≠ some (.punct .period)) :
    b = .punct .colon := by
  obtain ⟨c, hr⟩ := program_run h
  obtain ⟨u1, u2, rfl, rfl, h1⟩ := List.map_eq_append_iff.1 hu
  obtain ⟨z, u0, rfl, rfl, h0⟩ := List.map_eq_cons_iff.1 h1
  obtain ⟨x, u3, rfl, hx, h2⟩ := List.map_eq_cons_iff.1 h0
  obtain ⟨y, u4, rfl, rfl, h3⟩ := List.map_eq_cons_iff.1 h2
  obtain ⟨d, e, r1, r2, r3⟩ := Auto.run_at _ hr
  obtain ⟨e', f, r4, r5, r6⟩ := Auto.run_at (u := []) _ r3
  cases r4
  obtain ⟨e', g, r4, r7, -⟩ := Auto.run_at (u := []) _ r6
  cases r4
  have hnd := not_dot r1 hdot
  obtain ⟨⟨q1, q2⟩, σ⟩ := d
  have he : e.1.2 = .start := by
    obtain ⟨bz, tz⟩ := z
    simp only [List.mem_cons, List.not_mem_nil, or_false] at hk
    rcases hk with rfl | rfl | rfl | rfl <;> cases q2 <;>
      first | exact absurd rfl hnd | (cases r2; rfl) | cases r2
  obtain ⟨⟨e1, e2⟩, τ⟩ := e
  cases he
  obtain ⟨bx, tx⟩ := x
  cases hx
  rw [cls_ident, if_pos hw] at r5
  cases r5
  exact follow_label r7

end TopLevel

end Jsparse
