import Verif.Proofs.Printer
import Verif.Spec.Printer
/-!
# Invariants of the printer

The settings of the formatter, the brackets and the words; each is shown for the primitives.
-/

namespace Jsparse.Ast

open Jsparse.Spec

/-! ## The settings of the formatter -/

/-- What printing does to the formatter. -/
structure Kept (f g : Fmt) : Prop where
  prec : g.prec = f.prec
  inOperator : g.inOperator = f.inOperator
  wrapStandaloneIf : g.wrapStandaloneIf = f.wrapStandaloneIf
  /-- The output only grows; with the first piece the restriction on the beginning is over. -/
  output : ∃ ps, g.output = f.output ++ ps ∧ g.look = if ps = [] then f.look else none

theorem kept_output {f g h : Fmt}
    (h1 : ∃ ps, g.output = f.output ++ ps ∧ g.look = if ps = [] then f.look else none)
    (h2 : ∃ ps, h.output = g.output ++ ps ∧ h.look = if ps = [] then g.look else none) :
    ∃ ps, h.output = f.output ++ ps ∧ h.look = if ps = [] then f.look else none := by
  obtain ⟨p, a, b⟩ := h1
  obtain ⟨q, c, d⟩ := h2
  refine ⟨p ++ q, by rw [c, a, List.append_assoc], ?_⟩
  by_cases hp : p = [] <;> by_cases hq : q = [] <;> simp_all

theorem keyword_output (k : Keyword) (f : Fmt) :
    ∃ ps, (f.keyword k).output = f.output ++ ps ++ [.kw k] ∧ strip ps = [] := by
  by_cases h : f.endsWithKeyword = true
  · exact ⟨[.space], by simp [Fmt.keyword, Fmt.write, Fmt.separate, h], rfl⟩
  · exact ⟨[], by simp [Fmt.keyword, Fmt.write, Fmt.separate, h], rfl⟩

theorem identifier_output (t : Bytes) (f : Fmt) :
    ∃ ps, (f.identifier t).output = f.output ++ ps ++ [.ident t] ∧ strip ps = [] := by
  by_cases h : f.endsWithKeyword = true
  · exact ⟨[.space], by simp [Fmt.identifier, Fmt.write, Fmt.separate, h], rfl⟩
  · exact ⟨[], by simp [Fmt.identifier, Fmt.write, Fmt.separate, h], rfl⟩

theorem number_output (t : Bytes) (f : Fmt) :
    ∃ ps, (f.number t).output = f.output ++ ps ++ [.num t] ∧ strip ps = [] := by
  by_cases h : f.endsWithKeyword = true
  · exact ⟨[.space], by simp [Fmt.number, Fmt.write, Fmt.separate, h], rfl⟩
  · exact ⟨[], by simp [Fmt.number, Fmt.write, Fmt.separate, h], rfl⟩

theorem separate_settings (f : Fmt) :
    f.separate.prec = f.prec ∧ f.separate.inOperator = f.inOperator ∧
      f.separate.wrapStandaloneIf = f.wrapStandaloneIf := by
  unfold Fmt.separate
  split <;> exact ⟨rfl, rfl, rfl⟩

theorem closed_kept : Closed Kept where
  refl f := ⟨rfl, rfl, rfl, [], by simp, by simp⟩
  trans a b := ⟨b.prec.trans a.prec, b.inOperator.trans a.inOperator,
    b.wrapStandaloneIf.trans a.wrapStandaloneIf, kept_output a.output b.output⟩
  keyword k f := by
    obtain ⟨ps, h, -⟩ := keyword_output k f
    obtain ⟨a, b, c⟩ := separate_settings f
    refine ⟨a, b, c, ps ++ [.kw k], by rw [h, List.append_assoc], ?_⟩
    simp [Fmt.keyword, Fmt.write]
  punct p f _ := ⟨rfl, rfl, rfl, [.punct p], rfl, rfl⟩
  ident t f := by
    obtain ⟨ps, h, -⟩ := identifier_output t f
    obtain ⟨a, b, c⟩ := separate_settings f
    refine ⟨a, b, c, ps ++ [.ident t], by rw [h, List.append_assoc], ?_⟩
    simp [Fmt.identifier, Fmt.write]
  str t f := ⟨rfl, rfl, rfl, [.punct .sQuote, .raw t, .punct .sQuote], by
    simp [Fmt.string, Fmt.punctuator, Fmt.write], rfl⟩
  num t f := by
    obtain ⟨ps, h, -⟩ := number_output t f
    obtain ⟨a, b, c⟩ := separate_settings f
    refine ⟨a, b, c, ps ++ [.num t], by rw [h, List.append_assoc], ?_⟩
    simp [Fmt.number, Fmt.write]
  regexp v t f := ⟨rfl, rfl, rfl, [.punct .slash, .raw v, .punct .slash, .raw t], by
    simp [Fmt.regexp, Fmt.punctuator, Fmt.write], rfl⟩
  text t p f _ := ⟨rfl, rfl, rfl, [.raw t, .punct p], by
    simp [Fmt.templatePart, Fmt.punctuator, Fmt.write], rfl⟩
  parens w body f hb := by
    cases w with
    | false => exact hb f
    | true =>
      obtain ⟨-, -, -, ps, h, -⟩ := hb ({ f with
        prec := .normal, inOperator := true, wrapStandaloneIf := false }.punctuator .parenL)
      refine ⟨rfl, rfl, rfl, .punct .parenL :: ps ++ [.punct .parenR], ?_, ?_⟩
      · simp only [Fmt.wrapParensInner, Fmt.punctuator, Fmt.write] at h ⊢
        simp [h]
      · simp [Fmt.wrapParensInner, Fmt.punctuator, Fmt.write]
  reqPrec p body f hb := by
    obtain ⟨-, b, c, d⟩ := hb { f with prec := p }
    exact ⟨rfl, b, c, d⟩
  restrict l body f hb := by
    obtain ⟨a, b, c, ps, d, e⟩ := hb { f with look := some l }
    unfold Fmt.restrictLookahead
    simp only
    split
    · refine ⟨a, b, c, ps, d, ?_⟩
      by_cases hp : ps = []
      · simp [hp]
      · simp_all
    · refine ⟨a, b, c, ps, d, ?_⟩
      by_cases hp : ps = []
      · simp_all
      · simp_all
  allow body f hb := by
    obtain ⟨a, b, c, d⟩ := hb { f with inOperator := true }
    exact ⟨a, rfl, c, d⟩
  disallow body f hb := by
    obtain ⟨a, b, c, d⟩ := hb { f with inOperator := false }
    exact ⟨a, rfl, c, d⟩
  curly body f hb := by
    obtain ⟨a, -, -, ps, h, -⟩ := hb ({ f with
      wrapStandaloneIf := false, inOperator := true }.punctuator .curlyL)
    refine ⟨a, rfl, rfl, .punct .curlyL :: ps ++ [.punct .curlyR], ?_, ?_⟩
    · simp only [Fmt.wrapCurly, Fmt.wrapBy, Fmt.punctuator, Fmt.write] at h ⊢
      simp [h]
    · simp [Fmt.wrapCurly, Fmt.wrapBy, Fmt.punctuator, Fmt.write]
  square body f hb := by
    obtain ⟨a, -, -, ps, h, -⟩ := hb ({ f with
      wrapStandaloneIf := false, inOperator := true }.punctuator .squareL)
    refine ⟨a, rfl, rfl, .punct .squareL :: ps ++ [.punct .squareR], ?_, ?_⟩
    · simp only [Fmt.wrapSquare, Fmt.wrapBy, Fmt.punctuator, Fmt.write] at h ⊢
      simp [h]
    · simp [Fmt.wrapSquare, Fmt.wrapBy, Fmt.punctuator, Fmt.write]
  orphan body f hb := by
    obtain ⟨a, b, c, d⟩ := hb { f with wrapStandaloneIf := true }
    exact ⟨a, b, rfl, d⟩

/-! ## Brackets -/

/-- What was written can be skipped by `bracketsMatch`. -/
def Matched (f g : Fmt) : Prop :=
  ∃ ps, g.output = f.output ++ ps ∧
    ∀ st rest, bracketsMatch st (ps ++ rest) = bracketsMatch st rest

theorem bracketsMatch_plain {p : Piece} (h : ∀ q, p = .punct q → q.isBracket = false)
    (st : List Punct) (rest : List Piece) :
    bracketsMatch st (p :: rest) = bracketsMatch st rest := by
  cases p with
  | punct q =>
    have := h q rfl
    cases q <;> first | rfl | (simp [Punct.isBracket] at this)
  | _ => rfl

theorem bracketsMatch_all {ps : List Piece}
    (h : ∀ p ∈ ps, ∀ q, p = .punct q → q.isBracket = false) (st : List Punct)
    (rest : List Piece) : bracketsMatch st (ps ++ rest) = bracketsMatch st rest := by
  induction ps with
  | nil => rfl
  | cons p ps ih =>
    rw [List.cons_append, bracketsMatch_plain (h p (by simp))]
    exact ih fun q hq => h q (by simp [hq])

theorem bracketsMatch_space {ps : List Piece} (h : strip ps = []) (st : List Punct)
    (rest : List Piece) : bracketsMatch st (ps ++ rest) = bracketsMatch st rest := by
  refine bracketsMatch_all (fun p hp q hq => ?_) st rest
  have : p = .space := by simpa [strip] using List.filter_eq_nil_iff.1 h p hp
  subst hq
  cases this

theorem matched_word {f g : Fmt} {ps : List Piece} {p : Piece}
    (h : g.output = f.output ++ ps ++ [p]) (hs : strip ps = [])
    (hp : ∀ q, p = .punct q → q.isBracket = false) : Matched f g := by
  refine ⟨ps ++ [p], by rw [h, List.append_assoc], fun st rest => ?_⟩
  rw [List.append_assoc, bracketsMatch_space hs]
  exact bracketsMatch_plain hp st rest

theorem matched_wrap {f g : Fmt} {ps : List Piece} {l r : Punct} (hc : closing l = some r)
    (h : g.output = f.output ++ (.punct l :: ps ++ [.punct r]))
    (hp : ∀ st rest, bracketsMatch st (ps ++ rest) = bracketsMatch st rest) : Matched f g := by
  refine ⟨_, h, fun st rest => ?_⟩
  have : bracketsMatch st (.punct l :: ps ++ [.punct r] ++ rest) =
      bracketsMatch (r :: st) (ps ++ (.punct r :: rest)) := by
    rw [List.append_assoc, List.cons_append]
    conv => lhs; unfold bracketsMatch
    simp only [hc]
    rfl
  rw [this, hp]
  cases l <;> simp [closing] at hc <;> subst hc <;> simp [bracketsMatch, closing]

theorem closed_matched : Closed Matched where
  refl f := ⟨[], by simp, fun _ _ => rfl⟩
  trans := by
    rintro f g h ⟨p, a, b⟩ ⟨q, c, d⟩
    refine ⟨p ++ q, by rw [c, a, List.append_assoc], fun st rest => ?_⟩
    rw [List.append_assoc, b, d]
  keyword k f := by
    obtain ⟨ps, h, hs⟩ := keyword_output k f
    exact matched_word h hs nofun
  punct p f hp := by
    refine ⟨[.punct p], rfl, fun st rest => bracketsMatch_plain ?_ st rest⟩
    rintro q ⟨rfl⟩
    exact hp
  ident t f := by
    obtain ⟨ps, h, hs⟩ := identifier_output t f
    exact matched_word h hs nofun
  str t f := ⟨[.punct .sQuote, .raw t, .punct .sQuote], by
    simp [Fmt.string, Fmt.punctuator, Fmt.write], fun _ _ => by simp [bracketsMatch, closing]⟩
  num t f := by
    obtain ⟨ps, h, hs⟩ := number_output t f
    exact matched_word h hs nofun
  regexp v t f := ⟨[.punct .slash, .raw v, .punct .slash, .raw t], by
    simp [Fmt.regexp, Fmt.punctuator, Fmt.write], fun _ _ => by simp [bracketsMatch, closing]⟩
  text t p f hp := by
    refine ⟨[.raw t, .punct p], by simp [Fmt.templatePart, Fmt.punctuator, Fmt.write],
      bracketsMatch_all ?_⟩
    intro x hx q hq
    simp only [List.mem_cons, List.not_mem_nil, or_false] at hx
    rcases hx with rfl | rfl
    · cases hq
    · cases hq
      exact hp
  parens w body f hb := by
    cases w with
    | false => exact hb f
    | true =>
      obtain ⟨ps, h, hm⟩ := hb ({ f with
        prec := .normal, inOperator := true, wrapStandaloneIf := false }.punctuator .parenL)
      refine matched_wrap (ps := ps) (l := .parenL) (r := .parenR) rfl ?_ hm
      simp only [Fmt.wrapParensInner, Fmt.punctuator, Fmt.write] at h ⊢
      simp [h]
  reqPrec p body f hb := hb { f with prec := p }
  restrict l body f hb := by
    obtain ⟨ps, d, e⟩ := hb { f with look := some l }
    unfold Fmt.restrictLookahead
    simp only
    split <;> exact ⟨ps, d, e⟩
  allow body f hb := hb { f with inOperator := true }
  disallow body f hb := hb { f with inOperator := false }
  curly body f hb := by
    obtain ⟨ps, h, hm⟩ := hb ({ f with
      wrapStandaloneIf := false, inOperator := true }.punctuator .curlyL)
    refine matched_wrap (ps := ps) (l := .curlyL) (r := .curlyR) rfl ?_ hm
    simp only [Fmt.wrapCurly, Fmt.wrapBy, Fmt.punctuator, Fmt.write] at h ⊢
    simp [h]
  square body f hb := by
    obtain ⟨ps, h, hm⟩ := hb ({ f with
      wrapStandaloneIf := false, inOperator := true }.punctuator .squareL)
    refine matched_wrap (ps := ps) (l := .squareL) (r := .squareR) rfl ?_ hm
    simp only [Fmt.wrapSquare, Fmt.wrapBy, Fmt.punctuator, Fmt.write] at h ⊢
    simp [h]
  orphan body f hb := hb { f with wrapStandaloneIf := true }

/-! ## Words -/

/-- The last piece is a word. -/
def endsInWord (ps : List Piece) : Bool := (ps.getLast?.map isWord).getD false

/-- The words are apart, and `ends_with_keyword` tells whether the last piece is a word. -/
structure Apart (f : Fmt) : Prop where
  words : WordsApart f.output
  flag : f.endsWithKeyword = endsInWord f.output

theorem wordsApart_snoc {ps : List Piece} {q : Piece} (h : WordsApart ps)
    (hq : endsInWord ps = true → isWordOrNum q = false) : WordsApart (ps ++ [q]) := by
  intro xs p r ys e hp
  rcases List.eq_nil_or_concat ys with rfl | ⟨zs, z, rfl⟩
  · have : ps = xs ++ [p] ∧ q = r := by
      have e' : ps ++ [q] = (xs ++ [p]) ++ [r] := by simpa using e
      have := List.append_inj' e' rfl
      simpa using this
    obtain ⟨rfl, rfl⟩ := this
    exact hq (by simp [endsInWord, hp])
  · have : ps = xs ++ p :: r :: zs := by
      have e' : ps ++ [q] = (xs ++ p :: r :: zs) ++ [z] := by simpa using e
      exact (List.append_inj' e' rfl).1
    exact h xs p r zs this hp

theorem endsInWord_snoc (ps : List Piece) (q : Piece) : endsInWord (ps ++ [q]) = isWord q := by
  simp [endsInWord]

theorem apart_separate {f : Fmt} (h : Apart f) :
    WordsApart f.separate.output ∧ endsInWord f.separate.output = false := by
  unfold Fmt.separate
  split
  · exact ⟨wordsApart_snoc h.words fun _ => rfl, endsInWord_snoc _ _⟩
  · refine ⟨h.words, ?_⟩
    rw [← h.flag]
    exact Bool.eq_false_iff.2 ‹_›

theorem Apart.punct {f : Fmt} (p : Punct) (h : WordsApart f.output) : Apart (f.punctuator p) :=
  ⟨wordsApart_snoc h fun _ => rfl, (endsInWord_snoc f.output (.punct p)).symm⟩

theorem Apart.raw {f : Fmt} (t : Bytes) (h : WordsApart f.output) :
    WordsApart (f.write (.raw t)).output := wordsApart_snoc h fun _ => rfl

/-- A formatter in order stays in order. -/
def KeepsApart (f g : Fmt) : Prop := Apart f → Apart g

theorem closed_apart : Closed KeepsApart where
  refl f := id
  trans a b := b ∘ a
  keyword k f h := by
    obtain ⟨a, b⟩ := apart_separate h
    exact ⟨wordsApart_snoc a fun e => (by simp [b] at e), (endsInWord_snoc f.separate.output (.kw k)).symm⟩
  punct p f _ h := .punct p h.words
  ident t f h := by
    obtain ⟨a, b⟩ := apart_separate h
    exact ⟨wordsApart_snoc a fun e => (by simp [b] at e), (endsInWord_snoc f.separate.output (.ident t)).symm⟩
  str t f h := .punct _ (Apart.raw t (Apart.punct (f := { f with look := none }) _ h.words).words)
  num t f h := by
    obtain ⟨a, b⟩ := apart_separate h
    exact ⟨wordsApart_snoc a fun e => (by simp [b] at e), (endsInWord_snoc f.separate.output (.num t)).symm⟩
  regexp v t f h :=
    ⟨Apart.raw t (Apart.punct _ (Apart.raw v (Apart.punct _ h.words).words)).words,
      (endsInWord_snoc _ (.raw t)).symm⟩
  text t p f _ h := .punct p (Apart.raw t h.words)
  parens w body f hb h := by
    cases w with
    | false => exact hb f h
    | true =>
      refine .punct _ (hb _ ?_).words
      exact Apart.punct (f := { f with
        prec := .normal, inOperator := true, wrapStandaloneIf := false }) _ h.words
  reqPrec p body f hb h := by
    have := hb { f with prec := p } ⟨h.words, h.flag⟩
    exact ⟨this.words, this.flag⟩
  restrict l body f hb h := by
    have := hb { f with look := some l } ⟨h.words, h.flag⟩
    unfold Fmt.restrictLookahead
    simp only
    split <;> exact ⟨this.words, this.flag⟩
  allow body f hb h := by
    have := hb { f with inOperator := true } ⟨h.words, h.flag⟩
    exact ⟨this.words, this.flag⟩
  disallow body f hb h := by
    have := hb { f with inOperator := false } ⟨h.words, h.flag⟩
    exact ⟨this.words, this.flag⟩
  curly body f hb h := by
    refine .punct _ (hb _ ?_).words
    exact Apart.punct (f := { f with wrapStandaloneIf := false, inOperator := true }) _ h.words
  square body f hb h := by
    refine .punct _ (hb _ ?_).words
    exact Apart.punct (f := { f with wrapStandaloneIf := false, inOperator := true }) _ h.words
  orphan body f hb h := by
    have := hb { f with wrapStandaloneIf := true } ⟨h.words, h.flag⟩
    exact ⟨this.words, this.flag⟩

end Jsparse.Ast
