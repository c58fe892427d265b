import Verif.Spec.Grammar
import Verif.Spec.Nesting
/-!
# Automata over the tokens of a program

An automaton reads tokens; opening brackets push its state, closing brackets pop it.  A symbol of the
grammar is over-approximated by the pairs of states between which it can be read (`post`), and a table
for the nonterminals that is closed under the productions (`Closed`) is sound for all derivations
(`der_run`).
-/

namespace Jsparse

open Spec

/-- What is known about the next token. -/
inductive Prom where
  | any
  /-- a semicolon may be inserted before it -/
  | ins
  /-- it is on the same line as the token before it -/
  | same
  /-- both -/
  | close
  deriving DecidableEq, Repr

def Prom.Holds : Prom → List Tok → Prop
  | .any, _ => True
  | .ins, u => ∃ x v, u = x :: v ∧ InsertSemi x
  | .same, u => ∃ x v, u = x :: v ∧ x.1 = false
  | .close, u => ∃ x v, u = x :: v ∧ InsertSemi x ∧ x.1 = false

/-- What is known about the next token; `free`: it does not begin a declaration. -/
structure Known where
  next : Prom
  free : Bool
  deriving DecidableEq, Repr

/-- Nothing is known. -/
def Known.any : Known := ⟨.any, false⟩

def Known.Holds (k : Known) (u : List Tok) : Prop :=
  k.next.Holds u ∧ (k.free = true → ∃ x v, u = x :: v ∧ x.2 ∉ declarationWords)

theorem Known.any_holds (u : List Tok) : Known.any.Holds u := ⟨trivial, fun h => by cases h⟩

/-- An automaton with states `Q` that sees tokens as letters `L`; `none` is failure. -/
structure Auto (Q L : Type) where
  states : List Q
  cls : Tok → L
  step : Q → L → Option Q
  /-- an opening bracket may first change the state, depending on its letter -/
  before : Q → L → Q
  /-- the state behind an opening bracket -/
  enter : Q → Br → Option Q
  /-- the state behind the part `}…${` of a template, given the state before it -/
  next : Q → Option Q
  /-- the state behind a closing bracket, given the state before the opening bracket and the state
  before the closing one -/
  leave : Q → Q → Br → Option Q
  /-- the letters that a terminal may be seen as -/
  may : Term → List L
  /-- whether it makes use of what is known about the next token -/
  keeps : Bool
  /-- the letters that agree with what is known -/
  agrees : Prom → L → Bool
  /-- whether it makes use of the knowledge that no declaration follows -/
  warned : Bool
  /-- letters of tokens that begin a declaration -/
  declares : L → Bool
  /-- letters that do not occur in the tokens of interest -/
  absent : L → Bool

namespace Auto

variable {Q L : Type} (A : Auto Q L)

/-- One token. -/
def move (q : Q) (σ : List (Br × Q)) (k : Nest) (l : L) : Option (Q × List (Br × Q)) :=
  match k with
  | .plain => (A.step q l).map fun q' => (q', σ)
  | .opens b => (A.enter (A.before q l) b).map fun q' => (q', (b, A.before q l) :: σ)
  | .closes b =>
    match σ with
    | (b', p) :: σ' => if b' = b then (A.leave p q b).map fun q' => (q', σ') else none
    | [] => none
  | .middle =>
    match σ with
    | (.template, _) :: _ => (A.next q).map fun q' => (q', σ)
    | _ => none

def run (q : Q) (σ : List (Br × Q)) : List Tok → Option (Q × List (Br × Q))
  | [] => some (q, σ)
  | x :: u => (A.move q σ (nestOf x.2) (A.cls x)).bind fun c => run c.1 c.2 u

theorem run_append {q : Q} {σ : List (Br × Q)} {u v : List Tok} :
    A.run q σ (u ++ v) = (A.run q σ u).bind fun c => A.run c.1 c.2 v := by
  induction u generalizing q σ with
  | nil => rfl
  | cons x u ih =>
    simp only [List.cons_append, run]
    cases A.move q σ (nestOf x.2) (A.cls x) with
    | none => rfl
    | some c => exact ih

theorem move_frame {q : Q} {σ ρ : List (Br × Q)} {k : Nest} {l : L} {c : Q × List (Br × Q)}
    (h : A.move q σ k l = some c) : A.move q (σ ++ ρ) k l = some (c.1, c.2 ++ ρ) := by
  cases k with
  | plain =>
    simp only [move, Option.map_eq_some_iff] at h ⊢
    obtain ⟨a, h1, rfl⟩ := h
    exact ⟨a, h1, rfl⟩
  | opens b =>
    simp only [move, Option.map_eq_some_iff] at h ⊢
    obtain ⟨a, h1, rfl⟩ := h
    exact ⟨a, h1, rfl⟩
  | closes b =>
    cases σ with
    | nil => cases h
    | cons x σ =>
      simp only [move, List.cons_append] at h ⊢
      split at h
      · rename_i hb
        rw [if_pos hb]
        simp only [Option.map_eq_some_iff] at h ⊢
        obtain ⟨a, h1, rfl⟩ := h
        exact ⟨a, h1, rfl⟩
      · cases h
  | middle =>
    cases σ with
    | nil => cases h
    | cons x σ =>
      obtain ⟨b, p⟩ := x
      cases b <;> simp only [move, List.cons_append] at h ⊢ <;> try cases h
      simp only [Option.map_eq_some_iff] at h ⊢
      obtain ⟨a, h1, rfl⟩ := h
      exact ⟨a, h1, rfl⟩

/-- An automaton follows the nesting of brackets. -/
theorem move_nest {q : Q} {σ : List (Br × Q)} {x : Tok} {c : Q × List (Br × Q)}
    (h : A.move q σ (nestOf x.2) (A.cls x) = some c) :
    nestStep (σ.map (·.1)) x.2 = some (c.2.map (·.1)) := by
  unfold nestStep
  unfold Auto.move at h
  split at h <;> rename_i hk <;> rw [hk]
  · simp only [Option.map_eq_some_iff] at h
    obtain ⟨_, -, rfl⟩ := h
    rfl
  · simp only [Option.map_eq_some_iff] at h
    obtain ⟨_, -, rfl⟩ := h
    rfl
  · split at h
    · simp only [List.map_cons]
      split at h
      · rename_i hb
        rw [if_pos hb]
        simp only [Option.map_eq_some_iff] at h
        obtain ⟨_, -, rfl⟩ := h
        rfl
      · cases h
    · cases h
  · split at h
    · simp only [Option.map_eq_some_iff] at h
      obtain ⟨_, -, rfl⟩ := h
      rfl
    · cases h

theorem run_nest {q : Q} {σ : List (Br × Q)} {u : List Tok} {c : Q × List (Br × Q)}
    (h : A.run q σ u = some c) :
    Spec.nest (σ.map (·.1)) (u.map (·.2)) = some (c.2.map (·.1)) := by
  induction u generalizing q σ with
  | nil => cases h; rfl
  | cons x u ih =>
    simp only [Auto.run, Option.bind_eq_some_iff] at h
    obtain ⟨d, h1, h2⟩ := h
    simp only [List.map_cons, Spec.nest]
    rw [A.move_nest h1]
    exact ih h2

/-- The states around a token of a list that is read without failure. -/
theorem run_at {q : Q} {σ : List (Br × Q)} {u v : List Tok} {x : Tok} {c : Q × List (Br × Q)}
    (h : A.run q σ (u ++ x :: v) = some c) :
    ∃ d e, A.run q σ u = some d ∧ A.move d.1 d.2 (nestOf x.2) (A.cls x) = some e ∧
      A.run e.1 e.2 v = some c := by
  rw [run_append, Option.bind_eq_some_iff] at h
  obtain ⟨d, h1, h2⟩ := h
  simp only [run, Option.bind_eq_some_iff] at h2
  obtain ⟨e, h2, h3⟩ := h2
  exact ⟨d, e, h1, h2, h3⟩

/-- The state after the last token. -/
theorem run_last {q : Q} {σ : List (Br × Q)} {u : List Tok} {c : Q × List (Br × Q)} {x : Tok}
    (h : A.run q σ (u ++ [x]) = some c) :
    ∃ d : Q × List (Br × Q), A.move d.1 d.2 (nestOf x.2) (A.cls x) = some c := by
  obtain ⟨d, e, -, h1, h2⟩ := A.run_at h
  cases h2
  exact ⟨d, h1⟩

/-- Something that holds at the beginning and is preserved by each token holds at the end. -/
theorem run_inv {I : Q → List (Br × Q) → Prop}
    (hI : ∀ q σ x c, I q σ → A.move q σ (nestOf x.2) (A.cls x) = some c → I c.1 c.2)
    {q : Q} {σ : List (Br × Q)} {u : List Tok} {c : Q × List (Br × Q)} (h0 : I q σ)
    (h : A.run q σ u = some c) : I c.1 c.2 := by
  induction u generalizing q σ with
  | nil => cases h; exact h0
  | cons x u ih =>
    simp only [Auto.run, Option.bind_eq_some_iff] at h
    obtain ⟨d, h1, h2⟩ := h
    exact ih (hI _ _ _ _ h0 h1) h2

/-- `P` holds of the state at the lowest of some levels of brackets. -/
def Bottom (P : Q → Prop) (q : Q) : List (Br × Q) → Prop
  | [] => P q
  | (_, p) :: τ => Bottom P p τ

theorem Bottom.change {P : Q → Prop} {q q' : Q} {τ : List (Br × Q)} (h : P q → P q')
    (hb : Bottom P q τ) : Bottom P q' τ := by
  cases τ with
  | nil => exact h hb
  | cons => exact hb

/-- Balanced tokens leave the open brackets alone, and preserve what is preserved by the tokens at
their level. -/
theorem run_level {P : Q → Prop} {u : List Tok}
    (hstep : ∀ q q' x, x ∈ u → P q → A.step q (A.cls x) = some q' → P q')
    (hbefore : ∀ q x, x ∈ u → P q → P (A.before q (A.cls x)))
    (hleave : ∀ p q q' b, P p → A.leave p q b = some q' → P q')
    {q : Q} {τ σ : List (Br × Q)} {ρ : List Br} {c : Q × List (Br × Q)} (hb : Bottom P q τ)
    (hn : Spec.nest (τ.map (·.1)) (u.map (·.2)) = some ρ) (h : A.run q (τ ++ σ) u = some c) :
    ∃ τ', c.2 = τ' ++ σ ∧ τ'.map (·.1) = ρ ∧ Bottom P c.1 τ' := by
  induction u generalizing q τ with
  | nil =>
    cases h
    cases hn
    exact ⟨τ, rfl, rfl, hb⟩
  | cons x u ih =>
    simp only [Auto.run, Option.bind_eq_some_iff] at h
    obtain ⟨d, h1, h2⟩ := h
    simp only [List.map_cons, Spec.nest, Option.bind_eq_some_iff] at hn
    obtain ⟨o, hn1, hn2⟩ := hn
    have key : ∃ τ', d.2 = τ' ++ σ ∧ Bottom P d.1 τ' ∧ o = τ'.map (·.1) := by
      unfold move at h1
      unfold nestStep at hn1
      split at h1 <;> rename_i hk <;> rw [hk] at hn1 <;> simp only at hn1
      · simp only [Option.map_eq_some_iff] at h1
        obtain ⟨q', h1, rfl⟩ := h1
        cases hn1
        exact ⟨τ, rfl, hb.change fun h => hstep _ _ x List.mem_cons_self h h1, rfl⟩
      · simp only [Option.map_eq_some_iff] at h1
        obtain ⟨q', h1, rfl⟩ := h1
        cases hn1
        refine ⟨(_, A.before q (A.cls x)) :: τ, rfl, ?_, rfl⟩
        exact Bottom.change (q' := A.before q (A.cls x))
          (fun h => hbefore _ x List.mem_cons_self h) hb
      · cases τ with
        | nil => cases hn1
        | cons y τ =>
          obtain ⟨b', p⟩ := y
          simp only [List.cons_append] at h1
          split at h1
          · simp only [Option.map_eq_some_iff] at h1
            obtain ⟨q', h1, rfl⟩ := h1
            simp only [List.map_cons] at hn1
            rw [if_pos ‹_›] at hn1
            cases hn1
            exact ⟨τ, rfl, Bottom.change (fun h => hleave _ _ _ _ h h1) hb, rfl⟩
          · cases h1
      · cases τ with
        | nil => cases hn1
        | cons y τ =>
          obtain ⟨b', p⟩ := y
          cases b' <;> try cases hn1
          simp only [List.cons_append, Option.map_eq_some_iff] at h1
          obtain ⟨q', h1, rfl⟩ := h1
          exact ⟨(.template, p) :: τ, rfl, hb, rfl⟩
    obtain ⟨τ', e1, e2, rfl⟩ := key
    rw [e1] at h2
    exact ih (fun q q' x hx => hstep q q' x (List.mem_cons_of_mem _ hx))
      (fun q x hx => hbefore q x (List.mem_cons_of_mem _ hx)) e2 hn2 h2

/-- The same for the whole of a balanced list. -/
theorem run_balanced {P : Q → Prop} {u : List Tok}
    (hstep : ∀ q q' x, x ∈ u → P q → A.step q (A.cls x) = some q' → P q')
    (hbefore : ∀ q x, x ∈ u → P q → P (A.before q (A.cls x)))
    (hleave : ∀ p q q' b, P p → A.leave p q b = some q' → P q')
    {q : Q} {σ : List (Br × Q)} {c : Q × List (Br × Q)} (hq : P q)
    (hn : Balanced (u.map (·.2))) (h : A.run q σ u = some c) : c.2 = σ ∧ P c.1 := by
  obtain ⟨τ, h1, h2, h3⟩ := A.run_level (τ := []) hstep hbefore hleave hq hn h
  cases τ with
  | nil => exact ⟨h1, h3⟩
  | cons => cases h2

end Auto

/-- The nesting of the tokens of a terminal. -/
def Spec.Term.nest : Term → Nest
  | .p q => nestOf (.punct q)
  | .tmpl f => nestOf (.template f [] [])
  | _ => .plain

theorem nestOf_op {q : Punct} (h : q ∈ assignmentOperators ++ binaryOperators) :
    nestOf (.punct q) = .plain := by
  have : ∀ q ∈ assignmentOperators ++ binaryOperators, nestOf (.punct q) = .plain := by
    decide +kernel
  exact this q h

theorem Term.nest_sound {C : Ctx} {k : Term} {t : Token} (h : k.Is C t) : nestOf t = k.nest := by
  cases k with
  | kw k => cases h; rfl
  | p q => cases h; rfl
  | name => obtain ⟨v, rfl⟩ := h; rfl
  | binding => obtain ⟨v, rfl, -⟩ := h; rfl
  | num => obtain ⟨v, rfl⟩ := h; rfl
  | str => obtain ⟨v, rfl⟩ := h; rfl
  | regex => obtain ⟨v, f, rfl⟩ := h; rfl
  | tmpl f => obtain ⟨c, r, rfl⟩ := h; cases f <;> rfl
  | assignOp =>
    obtain ⟨q, hq, rfl⟩ := h
    exact nestOf_op (List.mem_append_left _ hq)
  | binaryOp =>
    rcases h with ⟨q, hq, rfl⟩ | rfl | ⟨rfl, -⟩
    · exact nestOf_op (List.mem_append_right _ hq)
    · rfl
    · rfl
  | eof => cases h; rfl

/-- What the letters say about terminals and promises is right. -/
structure Auto.Sound {Q L : Type} (A : Auto Q L) : Prop where
  may : ∀ {C k l t}, Term.Is C k t → A.cls (l, t) ∈ A.may k
  agrees : ∀ {p x v}, p.Holds (x :: v) → A.agrees p (A.cls x) = true
  declares : ∀ {x}, A.declares (A.cls x) = true → x.2 ∈ declarationWords

/-- A configuration: what is known about the next token, the state, and the states of the brackets
opened in this production. -/
abbrev Cfg (Q : Type) := Known × Q × List (Br × Q)

/-- For each nonterminal and state at its beginning, the states at its end; `none`: not analysed. -/
abbrev Table (Q : Type) := NT → Known → Q → Option (List (Known × Q))

section

variable {Q L : Type} [DecidableEq Q] (A : Auto Q L) (T : Table Q)

/-- Add an element to a list, unless it is there. -/
def add {β : Type} [DecidableEq β] (x : β) : List β → List β
  | [] => [x]
  | y :: b => if x = y then y :: b else y :: add x b

theorem mem_add {β : Type} [DecidableEq β] {b : List β} {x z : β} :
    z ∈ add x b ↔ z = x ∨ z ∈ b := by
  induction b with
  | nil => simp [add]
  | cons y b ih =>
    unfold add
    split
    · rename_i h
      subst h
      simp
    · rw [List.mem_cons, List.mem_cons, ih]
      constructor
      · rintro (h | h | h) <;> simp [h]
      · rintro (h | h | h) <;> simp [h]

/-- The union of two lists. -/
def join {β : Type} [DecidableEq β] : List β → List β → List β
  | [], b => b
  | x :: a, b => add x (join a b)

theorem mem_join {β : Type} [DecidableEq β] {a b : List β} {x : β} :
    x ∈ join a b ↔ x ∈ a ∨ x ∈ b := by
  induction a with
  | nil => simp [join]
  | cons y a ih =>
    unfold join
    rw [mem_add, List.mem_cons, or_assoc, ih]

/-- All results of a partial function with several values on a list; `none` if one fails. -/
def collect {α β : Type} [DecidableEq β] (f : α → Option (List β)) : List α → Option (List β)
  | [] => some []
  | x :: xs =>
    match f x, collect f xs with
    | some a, some b => some (join a b)
    | _, _ => none

theorem collect_some {α β : Type} [DecidableEq β] {f : α → Option (List β)} {xs : List α}
    {S : List β} (h : collect f xs = some S) {x : α} (hx : x ∈ xs) :
    ∃ S', f x = some S' ∧ ∀ y ∈ S', y ∈ S := by
  induction xs generalizing S with
  | nil => cases hx
  | cons z zs ih =>
    unfold collect at h
    split at h
    · rename_i a b ha hb
      cases h
      rcases List.mem_cons.1 hx with rfl | hx
      · exact ⟨a, ha, fun y hy => mem_join.2 (.inl hy)⟩
      · obtain ⟨S', h1, h2⟩ := ih hb hx
        exact ⟨S', h1, fun y hy => mem_join.2 (.inr (h2 y hy))⟩
    · cases h

/-- A state, evaluated. -/
def norm (q : Q) : Option Q := A.states.find? fun q' => decide (q' = q)

variable {A} in
theorem norm_some {q q' : Q} (h : norm A q = some q') : q' = q := by
  have := List.find?_some h
  simpa using this

/-- Continue with evaluated knowledge. -/
def Known.eval {α : Type} (p : Known) (k : Known → α) : α :=
  match p.next, p.free with
  | .any, false => k ⟨.any, false⟩
  | .ins, false => k ⟨.ins, false⟩
  | .same, false => k ⟨.same, false⟩
  | .close, false => k ⟨.close, false⟩
  | .any, true => k ⟨.any, true⟩
  | .ins, true => k ⟨.ins, true⟩
  | .same, true => k ⟨.same, true⟩
  | .close, true => k ⟨.close, true⟩

theorem Known.eval_eq {α : Type} (p : Known) (k : Known → α) : p.eval k = k p := by
  obtain ⟨n, f⟩ := p
  cases n <;> cases f <;> rfl

def postTerm (k : Term) (c : Cfg Q) : Option (List (Cfg Q)) :=
  collect (fun l =>
    if A.agrees c.1.next l && !(c.1.free && A.declares l) && !A.absent l then
      match A.move c.2.1 c.2.2 k.nest l with
      | some d =>
        match norm A d.1 with
        | some q => some [(Known.any, q, d.2)]
        | none => none
      | none => none
    else some []) (A.may k)

/-- Note `p'` in addition to `p`. -/
def note (p p' : Prom) : Prom :=
  match A.keeps, p, p' with
  | true, .any, p' => p'
  | true, .ins, .same => .close
  | true, .same, .ins => .close
  | _, p, _ => p

omit [DecidableEq Q] in
variable {A} in
theorem note_holds {p p' : Prom} {u : List Tok} (h : p.Holds u) (h' : p'.Holds u) :
    (note A p p').Holds u := by
  unfold note
  split
  · exact h'
  · obtain ⟨x, v, hx, h1⟩ := h
    obtain ⟨y, w, hy, h2⟩ := h'
    cases hx
    cases hy
    exact ⟨_, _, rfl, h1, h2⟩
  · obtain ⟨x, v, hx, h1⟩ := h
    obtain ⟨y, w, hy, h2⟩ := h'
    cases hx
    cases hy
    exact ⟨_, _, rfl, h2, h1⟩
  · exact h

/-- Note in addition how the next token is preceded by line terminators. -/
def Known.note (k : Known) (p : Prom) : Known := ⟨Jsparse.note A k.next p, k.free⟩

omit [DecidableEq Q] in
variable {A} in
theorem Known.note_holds {k : Known} {p : Prom} {u : List Tok} (h : k.Holds u) (h' : p.Holds u) :
    (k.note A p).Holds u :=
  ⟨Jsparse.note_holds h.1 h', h.2⟩

/-- Note that no declaration follows. -/
def Known.shun (k : Known) (ts : List Token) : Known :=
  ⟨k.next, k.free || (A.warned && decide (ts = declarationWords))⟩

omit [DecidableEq Q] in
variable {A} in
theorem Known.shun_holds {k : Known} {ts : List Token} {x : Tok} {v : List Tok}
    (h : k.Holds (x :: v)) (h' : x.2 ∉ ts) : (k.shun A ts).Holds (x :: v) := by
  refine ⟨h.1, fun hf => ?_⟩
  simp only [Known.shun, Bool.or_eq_true, Bool.and_eq_true, decide_eq_true_eq] at hf
  rcases hf with hf | ⟨-, rfl⟩
  · exact h.2 hf
  · exact ⟨x, v, rfl, h'⟩

/-- Add what is reached by `f`, a number of times. -/
def closure (f : List (Cfg Q) → Option (List (Cfg Q))) : Nat → List (Cfg Q) → Option (List (Cfg Q))
  | 0, S =>
    match f S with
    | some S' => if ∀ c ∈ S', c ∈ S then some S else none
    | none => none
  | n + 1, S =>
    match f S with
    | some S' => if ∀ c ∈ S', c ∈ S then some S else closure f n (join S S')
    | none => none

theorem closure_some {f : List (Cfg Q) → Option (List (Cfg Q))} {n : Nat} {S R : List (Cfg Q)}
    (h : closure f n S = some R) :
    (∀ c ∈ S, c ∈ R) ∧ ∃ R', f R = some R' ∧ ∀ c ∈ R', c ∈ R := by
  induction n generalizing S with
  | zero =>
    unfold closure at h
    split at h
    · rename_i S' hS
      split at h
      · rename_i hc; cases h; exact ⟨fun c h => h, S', hS, hc⟩
      · cases h
    · cases h
  | succ n ih =>
    unfold closure at h
    split at h
    · rename_i S' hS
      split at h
      · rename_i hc; cases h; exact ⟨fun c h => h, S', hS, hc⟩
      · obtain ⟨h1, h2⟩ := ih h
        exact ⟨fun c hc => h1 c (mem_join.2 (.inl hc)), h2⟩
    · cases h

/-- The configurations after a symbol, from any of some configurations; `none` if the automaton may
fail. -/
def post : G → List (Cfg Q) → Option (List (Cfg Q))
  | .t k, S => collect (postTerm A k) S
  | .nt n, S => collect (fun c =>
      match T n c.1 c.2.1 with
      | some r => some (r.map fun x => (x.1, x.2, c.2.2))
      | none => none) S
  | .par _ _ g, S => post g S
  | .onlyIf _ _, S => some S
  | .noLine, S => collect (fun c => (c.1.note A .same).eval fun p => some [(p, c.2)]) S
  | .line, S => some S
  | .sameLine, S => some S
  | .notDeclared, S => some S
  | .notFunction, S => some S
  | .notStart, S => some S
  | .noTemplate, S => some S
  | .notAsync, S => some S
  | .notAhead ts, S => collect (fun c => (c.1.shun A ts).eval fun p => some [(p, c.2)]) S
  | .semi, S =>
    match collect (postTerm A (.p .semicolon)) S,
      collect (fun c => (c.1.note A .ins).eval fun p => some [(p, c.2)]) S with
    | some R, some R' => some (join R R')
    | _, _ => none
  | .semiDo, S =>
    match collect (postTerm A (.p .semicolon)) S with
    | some R => some (join R S)
    | none => none
  | .eps, S => some S
  | .seq a b, S =>
    match post a S with
    | some R => post b R
    | none => none
  | .alt a b, S =>
    match post a S, post b S with
    | some R, some R' => some (join R R')
    | _, _ => none
  | .opt a, S =>
    match post a S with
    | some R => some (join R S)
    | none => none
  | .star a, S => closure (post a) 12 S

/-- What `post` guarantees, in a form that is preserved by iteration. -/
def Pst : G → List (Cfg Q) → List (Cfg Q) → Prop
  | .star a, S, R => (∀ c ∈ S, c ∈ R) ∧ ∃ R', post A T a R = some R' ∧ ∀ d ∈ R', d ∈ R
  | g, S, R => post A T g S = some R

/-- One entry of the table agrees with the production. -/
def entryOk (n : NT) (p : Known) (q : Q) : Bool :=
  match T n p q with
  | none => true
  | some r =>
    match post A T (production n) [(p, q, [])] with
    | none => false
    | some S => S.all fun c => c.2.2.isEmpty && decide ((c.1, c.2.1) ∈ r)

/-- The table is closed under all productions. -/
def Closed : Prop := ∀ n p q, entryOk A T n p q = true

/-- The nonterminals. -/
def allNT : List NT :=
  let two := [true, false]
  [.Module, .ModuleItem, .StatementListItem, .Declaration, .Statement, .Block, .VariableStatement,
   .VariableDeclaration, .ExpressionStatement, .IfStatement, .BreakableStatement,
   .IterationStatement, .DoWhile, .While, .For, .SwitchStatement, .CaseClause, .DefaultClause,
   .ContinueStatement, .BreakStatement, .ReturnStatement, .WithStatement, .LabelledStatement,
   .ThrowStatement, .TryStatement, .DebuggerStatement, .LetDeclaration, .ConstDeclaration,
   .BindingPattern, .ObjectBindingPattern, .ArrayBindingPattern, .BindingProperty, .BindingElement,
   .BindingRestElement, .Initializer, .PropertyName, .FunctionDeclaration, .FunctionExpression,
   .FormalParameters, .ClassDeclaration, .ClassHeritage, .ClassBody, .ClassElement,
   .ImportDeclaration, .ImportSpecifier, .ExportDeclaration, .ExportSpecifier, .Expression,
   .AssignmentExpression, .ArrowBody, .YieldExpression, .ConditionalExpression, .BinaryExpression,
   .UnaryExpression, .UpdateExpression, .Arguments, .PrimaryExpression, .ArrayLiteral,
   .ArrayElement, .ObjectLiteral, .PropertyDefinition, .TemplateLiteral, .CoverParenthesized] ++
  two.map .LexicalBinding ++ two.map .LeftHandSideExpression ++
  two.flatMap (fun a => two.map (.FunctionRest a)) ++
  [MKind.get, .set, .none].flatMap fun k => two.flatMap fun a => two.flatMap fun b =>
    [.MethodHead k a b, .MethodTail k a b]

theorem mem_allNT (n : NT) : n ∈ allNT := by
  cases n with
  | LexicalBinding a => cases a <;> decide
  | LeftHandSideExpression a => cases a <;> decide
  | FunctionRest a b => cases a <;> cases b <;> decide
  | MethodHead k a b => cases k <;> cases a <;> cases b <;> decide
  | MethodTail k a b => cases k <;> cases a <;> cases b <;> decide
  | _ => decide

/-- `Closed`, for computation; `qs` are the states. -/
def closed (qs : List Q) : Bool :=
  allNT.all fun n => [Prom.any, .ins, .same, .close].all fun p => [false, true].all fun f =>
    qs.all fun q => entryOk A T n ⟨p, f⟩ q

variable {A T} in
theorem closed_iff {qs : List Q} (hq : ∀ q, q ∈ qs) (h : closed A T qs = true) : Closed A T := by
  intro n ⟨p, f⟩ q
  refine List.all_eq_true.1 (List.all_eq_true.1 (List.all_eq_true.1 (List.all_eq_true.1 h n
    (mem_allNT n)) p ?_) f ?_) q (hq q)
  · cases p <;> decide
  · cases f <;> decide

/-- A table given by numbers: the knowledge with number `p` and the state number `i` are the number
`p * qs.length + i`. -/
def tableOf (qs : List Q) (rows : NT → List (Nat × List Nat)) : Table Q := fun n p q =>
  let k := match p.next, p.free with
    | .any, false => 0
    | .ins, false => 1
    | .same, false => 2
    | .close, false => 3
    | .any, true => 4
    | .ins, true => 5
    | .same, true => 6
    | .close, true => 7
  ((rows n).lookup (k * qs.length + qs.idxOf q)).map fun r => r.filterMap fun i =>
    match qs[i % qs.length]? with
    | some q' =>
      (match i / qs.length with
      | 0 => some (⟨.any, false⟩, q')
      | 1 => some (⟨.ins, false⟩, q')
      | 2 => some (⟨.same, false⟩, q')
      | 3 => some (⟨.close, false⟩, q')
      | 4 => some (⟨.any, true⟩, q')
      | 5 => some (⟨.ins, true⟩, q')
      | 6 => some (⟨.same, true⟩, q')
      | _ => some (⟨.close, true⟩, q'))
    | none => none

variable {A T}

theorem postTerm_run (hA : A.Sound) {C : Ctx} {k : Term} {l : Bool} {t : Token} {v : List Tok}
    (hk : k.Is C t) {c : Cfg Q} {S : List (Cfg Q)} (h : postTerm A k c = some S)
    (hp : c.1.Holds ((l, t) :: v)) (hl : A.absent (A.cls (l, t)) = false) (ρ : List (Br × Q)) :
    ∃ d ∈ S, A.run c.2.1 (c.2.2 ++ ρ) [(l, t)] = some (d.2.1, d.2.2 ++ ρ) ∧ d.1.Holds v := by
  obtain ⟨S', h1, h2⟩ := collect_some h (hA.may (l := l) hk)
  have hd : (c.1.free && A.declares (A.cls (l, t))) = false := by
    cases hf : c.1.free with
    | false => rfl
    | true =>
      obtain ⟨x, w, hx, hn⟩ := hp.2 hf
      cases hx
      cases hd : A.declares (A.cls (l, t)) with
      | false => rfl
      | true => exact absurd (hA.declares hd) hn
  rw [if_pos (by rw [hA.agrees hp.1, hd, hl]; rfl)] at h1
  split at h1
  · rename_i d hd
    split at h1
    · rename_i q hq
      cases h1
      refine ⟨_, h2 _ (List.mem_singleton.2 rfl), ?_, Known.any_holds _⟩
      simp only [Auto.run]
      rw [Term.nest_sound hk, Auto.move_frame _ hd, norm_some hq]
      rfl
    · cases h1
  · cases h1

theorem pst_of_post {g : G} {S R : List (Cfg Q)} (h : post A T g S = some R) :
    Pst A T g S R := by
  cases g <;> try exact h
  exact closure_some (f := post A T _) h

/-- A derived segment takes the automaton to one of the configurations computed. -/
theorem der_pst (hA : A.Sound) (hT : Closed A T) {C : Ctx} {g : G} {u v : List Tok}
    (h : Der C g u v) : ∃ w, u = w ++ v ∧
      ∀ S R : List (Cfg Q), Pst A T g S R → ∀ c ∈ S, c.1.Holds u →
      (∀ x ∈ w, A.absent (A.cls x) = false) → ∀ ρ,
      ∃ d ∈ R, A.run c.2.1 (c.2.2 ++ ρ) w = some (d.2.1, d.2.2 ++ ρ) ∧ d.1.Holds v := by
  induction h with
  | t hk =>
    refine ⟨[_], rfl, fun S R h c hc hp ha ρ => ?_⟩
    obtain ⟨R', h1, h2⟩ := collect_some (f := postTerm A _) h hc
    obtain ⟨d, hd, h3⟩ := postTerm_run hA hk h1 hp (ha _ List.mem_cons_self) ρ
    exact ⟨d, h2 d hd, h3⟩
  | @nt C n u v _ ih =>
    obtain ⟨w, hw, ih⟩ := ih
    refine ⟨w, hw, fun S R h c hc hp ha ρ => ?_⟩
    simp only [Pst, post] at h
    obtain ⟨R', h, hR⟩ := collect_some h hc
    split at h
    · rename_i r hr
      cases h
      have he := hT n c.1 c.2.1
      unfold entryOk at he
      rw [hr] at he
      simp only at he
      split at he
      · cases he
      · rename_i S hS
        obtain ⟨d, hd, h1, h2⟩ := ih _ _ (pst_of_post hS) _ (List.mem_singleton.2 rfl) hp ha
          (c.2.2 ++ ρ)
        have := List.all_eq_true.1 he d hd
        rw [Bool.and_eq_true, decide_eq_true_eq, List.isEmpty_iff] at this
        refine ⟨(d.1, d.2.1, c.2.2), hR _ (List.mem_map.2 ⟨_, this.2, rfl⟩), ?_, h2⟩
        rw [this.1] at h1
        exact h1
    · cases h
  | par _ ih =>
    obtain ⟨w, hw, ih⟩ := ih
    exact ⟨w, hw, fun S R h => ih S R (pst_of_post h)⟩
  | onlyIf _ =>
    refine ⟨[], rfl, fun S R h c hc hp ha ρ => ?_⟩
    cases h
    exact ⟨c, hc, rfl, hp⟩
  | noLine hx =>
    refine ⟨[], rfl, fun S R h c hc hp ha ρ => ?_⟩
    simp only [Pst, post] at h
    obtain ⟨R', h, hR⟩ := collect_some h hc
    rw [Known.eval_eq] at h
    cases h
    exact ⟨_, hR _ (List.mem_singleton.2 rfl), rfl,
      Known.note_holds (p := .same) hp ⟨_, _, rfl, hx⟩⟩
  | line _ =>
    refine ⟨[], rfl, fun S R h c hc hp ha ρ => ?_⟩
    cases h
    exact ⟨c, hc, rfl, hp⟩
  | sameLine _ =>
    refine ⟨[], rfl, fun S R h c hc hp ha ρ => ?_⟩
    cases h
    exact ⟨c, hc, rfl, hp⟩
  | notDeclared _ =>
    refine ⟨[], rfl, fun S R h c hc hp ha ρ => ?_⟩
    cases h
    exact ⟨c, hc, rfl, hp⟩
  | notFunction _ =>
    refine ⟨[], rfl, fun S R h c hc hp ha ρ => ?_⟩
    cases h
    exact ⟨c, hc, rfl, hp⟩
  | notStart _ =>
    refine ⟨[], rfl, fun S R h c hc hp ha ρ => ?_⟩
    cases h
    exact ⟨c, hc, rfl, hp⟩
  | noTemplate _ =>
    refine ⟨[], rfl, fun S R h c hc hp ha ρ => ?_⟩
    cases h
    exact ⟨c, hc, rfl, hp⟩
  | notAsync _ =>
    refine ⟨[], rfl, fun S R h c hc hp ha ρ => ?_⟩
    cases h
    exact ⟨c, hc, rfl, hp⟩
  | notAhead hx =>
    refine ⟨[], rfl, fun S R h c hc hp ha ρ => ?_⟩
    simp only [Pst, post] at h
    obtain ⟨R', h, hR⟩ := collect_some h hc
    rw [Known.eval_eq] at h
    cases h
    exact ⟨_, hR _ (List.mem_singleton.2 rfl), rfl, Known.shun_holds hp hx⟩
  | @semi C l u =>
    refine ⟨[_], rfl, fun S R h c hc hp ha ρ => ?_⟩
    simp only [Pst, post] at h
    split at h
    · rename_i R1 R2 h1 h2
      cases h
      obtain ⟨R', h3, hR⟩ := collect_some h1 hc
      obtain ⟨d, hd, h4⟩ := postTerm_run (C := C) hA (k := .p .semicolon) rfl h3 hp
        (ha _ List.mem_cons_self) ρ
      exact ⟨d, mem_join.2 (.inl (hR d hd)), h4⟩
    · cases h
  | insert hx =>
    refine ⟨[], rfl, fun S R h c hc hp ha ρ => ?_⟩
    simp only [Pst, post] at h
    split at h
    · rename_i R1 R2 h1 h2
      cases h
      obtain ⟨R', h3, hR⟩ := collect_some h2 hc
      rw [Known.eval_eq] at h3
      cases h3
      exact ⟨_, mem_join.2 (.inr (hR _ (List.mem_singleton.2 rfl))), rfl,
        Known.note_holds (p := .ins) hp ⟨_, _, rfl, hx⟩⟩
    · cases h
  | @semiDo C l u =>
    refine ⟨[_], rfl, fun S R h c hc hp ha ρ => ?_⟩
    simp only [Pst, post] at h
    split at h
    · rename_i R1 h1
      cases h
      obtain ⟨R', h3, hR⟩ := collect_some h1 hc
      obtain ⟨d, hd, h4⟩ := postTerm_run (C := C) hA (k := .p .semicolon) rfl h3 hp
        (ha _ List.mem_cons_self) ρ
      exact ⟨d, mem_join.2 (.inl (hR d hd)), h4⟩
    · cases h
  | insertDo =>
    refine ⟨[], rfl, fun S R h c hc hp ha ρ => ?_⟩
    simp only [Pst, post] at h
    split at h
    · cases h
      exact ⟨c, mem_join.2 (.inr hc), rfl, hp⟩
    · cases h
  | eps =>
    refine ⟨[], rfl, fun S R h c hc hp ha ρ => ?_⟩
    cases h
    exact ⟨c, hc, rfl, hp⟩
  | seq _ _ ih1 ih2 =>
    obtain ⟨w1, hw1, ih1⟩ := ih1
    obtain ⟨w2, hw2, ih2⟩ := ih2
    refine ⟨w1 ++ w2, by rw [hw1, hw2, List.append_assoc], fun S R h c hc hp ha ρ => ?_⟩
    simp only [Pst, post] at h
    split at h
    · rename_i R1 h0
      obtain ⟨d, hd, h1, h2⟩ := ih1 S R1 (pst_of_post h0) c hc hp
        (fun x hx => ha x (List.mem_append_left _ hx)) ρ
      obtain ⟨e, he, h3, h4⟩ := ih2 R1 R (pst_of_post h) d hd h2
        (fun x hx => ha x (List.mem_append_right _ hx)) ρ
      refine ⟨e, he, ?_, h4⟩
      rw [Auto.run_append, h1]
      exact h3
    · cases h
  | altl _ ih =>
    obtain ⟨w, hw, ih⟩ := ih
    refine ⟨w, hw, fun S R h c hc hp ha ρ => ?_⟩
    simp only [Pst, post] at h
    split at h
    · rename_i R1 R2 h1 h2
      cases h
      obtain ⟨d, hd, h3⟩ := ih S R1 (pst_of_post h1) c hc hp ha ρ
      exact ⟨d, mem_join.2 (.inl hd), h3⟩
    · cases h
  | altr _ ih =>
    obtain ⟨w, hw, ih⟩ := ih
    refine ⟨w, hw, fun S R h c hc hp ha ρ => ?_⟩
    simp only [Pst, post] at h
    split at h
    · rename_i R1 R2 h1 h2
      cases h
      obtain ⟨d, hd, h3⟩ := ih S R2 (pst_of_post h2) c hc hp ha ρ
      exact ⟨d, mem_join.2 (.inr hd), h3⟩
    · cases h
  | skip =>
    refine ⟨[], rfl, fun S R h c hc hp ha ρ => ?_⟩
    simp only [Pst, post] at h
    split at h
    · cases h
      exact ⟨c, mem_join.2 (.inr hc), rfl, hp⟩
    · cases h
  | opt _ ih =>
    obtain ⟨w, hw, ih⟩ := ih
    refine ⟨w, hw, fun S R h c hc hp ha ρ => ?_⟩
    simp only [Pst, post] at h
    split at h
    · rename_i R1 h1
      cases h
      obtain ⟨d, hd, h3⟩ := ih S R1 (pst_of_post h1) c hc hp ha ρ
      exact ⟨d, mem_join.2 (.inl hd), h3⟩
    · cases h
  | nil =>
    refine ⟨[], rfl, fun S R h c hc hp ha ρ => ?_⟩
    exact ⟨c, h.1 c hc, rfl, hp⟩
  | @star C a u v w _ _ ih1 ih2 =>
    obtain ⟨w1, hw1, ih1⟩ := ih1
    obtain ⟨w2, hw2, ih2⟩ := ih2
    refine ⟨w1 ++ w2, by rw [hw1, hw2, List.append_assoc], fun S R h c hc hp ha ρ => ?_⟩
    obtain ⟨hS, R', hR', hsub⟩ := h
    obtain ⟨d, hd, h1, h2⟩ := ih1 R R' (pst_of_post hR') c (hS c hc) hp
      (fun x hx => ha x (List.mem_append_left _ hx)) ρ
    obtain ⟨e, he, h3, h4⟩ := ih2 R R ⟨fun _ h => h, R', hR', hsub⟩ d (hsub d hd) h2
      (fun x hx => ha x (List.mem_append_right _ hx)) ρ
    refine ⟨e, he, ?_, h4⟩
    rw [Auto.run_append, h1]
    exact h3

/-- A derived segment without absent letters takes the automaton to one of the configurations
computed. -/
theorem der_run (hA : A.Sound) (hT : Closed A T) {C : Ctx} {g : G} {u v : List Tok}
    (h : Der C g u v) {q : Q} {S : List (Cfg Q)} (hS : post A T g [(Known.any, q, [])] = some S) :
    ∃ w, u = w ++ v ∧ ((∀ x ∈ w, A.absent (A.cls x) = false) →
      ∃ d ∈ S, A.run q [] w = some (d.2.1, d.2.2) ∧ d.1.Holds v) := by
  obtain ⟨w, hw, h1⟩ := der_pst hA hT h
  refine ⟨w, hw, fun ha => ?_⟩
  obtain ⟨d, hd, h2, h3⟩ := h1 _ _ (pst_of_post hS) _ (List.mem_singleton.2 rfl) (Known.any_holds u) ha []
  exact ⟨d, hd, by simpa using h2, h3⟩

end

end Jsparse
