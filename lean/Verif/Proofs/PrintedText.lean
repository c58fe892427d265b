import Verif.Proofs.PrintedStmt
import Verif.Proofs.PrinterInv
/-!
# The printed text is a text with the tokens of the pieces
-/

namespace Jsparse.Ast.Printed

open Jsparse.Spec

/-! ## Spaces -/

theorem spaced_snoc {ps : List Piece} {q : Piece} (h : Spaced ps) (hq : q ≠ .space) :
    Spaced (ps ++ [q]) := by
  intro xs ys e
  rcases List.eq_nil_or_concat ys with rfl | ⟨zs, z, rfl⟩
  · exact absurd (List.append_inj' e rfl).2 (by simpa using hq)
  · have e' : ps ++ [q] = (xs ++ .space :: zs) ++ [z] := by simpa using e
    obtain ⟨w, ws, rfl, hw⟩ := h xs zs (List.append_inj' e' rfl).1
    exact ⟨w, ws ++ [z], by simp, hw⟩

theorem spaced_word {ps : List Piece} {q : Piece} (h : Spaced ps) (hq : isWordOrNum q = true) :
    Spaced (ps ++ [.space] ++ [q]) := by
  intro xs ys e
  rcases List.eq_nil_or_concat ys with rfl | ⟨zs, z, rfl⟩
  · have := (List.append_inj' e rfl).2
    simp only [List.cons.injEq, and_true] at this
    simp [this, isWordOrNum] at hq
  · have e' : ps ++ [.space] ++ [q] = (xs ++ .space :: zs) ++ [z] := by simpa using e
    obtain ⟨h1, h2⟩ := List.append_inj' e' rfl
    simp only [List.cons.injEq, and_true] at h2
    subst h2
    rcases List.eq_nil_or_concat zs with rfl | ⟨zs', z', rfl⟩
    · exact ⟨q, [], rfl, hq⟩
    · have e'' : ps ++ [.space] = (xs ++ .space :: zs') ++ [z'] := by simpa using h1
      obtain ⟨w, ws, rfl, hw⟩ := h xs zs' (List.append_inj' e'' rfl).1
      exact ⟨w, ws ++ [z'] ++ [q], by simp, hw⟩

theorem spaced_separate {f : Fmt} {q : Piece} (h : Spaced f.output) (hq : isWordOrNum q = true) :
    Spaced (f.separate.output ++ [q]) := by
  unfold Fmt.separate
  split
  · exact spaced_word h hq
  · refine spaced_snoc h ?_
    rintro rfl
    simp [isWordOrNum] at hq

theorem closed_spaced : Closed fun f g => Spaced f.output → Spaced g.output where
  refl f := id
  trans a b := b ∘ a
  keyword k f h := spaced_separate h rfl
  punct p f _ h := spaced_snoc h nofun
  ident t f h := spaced_separate h rfl
  str t f h := spaced_snoc (spaced_snoc (spaced_snoc h nofun) nofun) nofun
  num t f h := spaced_separate h rfl
  regexp v t f h := spaced_snoc (spaced_snoc (spaced_snoc (spaced_snoc h nofun) nofun) nofun) nofun
  text t p f _ h := spaced_snoc (spaced_snoc h nofun) nofun
  parens w body f hb h := by
    cases w with
    | false => exact hb f h
    | true => exact spaced_snoc (hb _ (spaced_snoc h nofun)) nofun
  reqPrec p body f hb h := hb { f with prec := p } h
  restrict l body f hb h := by
    have := hb { f with look := some l } h
    unfold Fmt.restrictLookahead
    simp only
    split <;> exact this
  allow body f hb h := hb { f with inOperator := true } h
  disallow body f hb h := hb { f with inOperator := false } h
  curly body f hb h := spaced_snoc (hb _ (spaced_snoc h nofun)) nofun
  square body f hb h := spaced_snoc (hb _ (spaced_snoc h nofun)) nofun
  orphan body f hb h := hb { f with wrapStandaloneIf := true } h

theorem spaced_print (n : Node) : Spaced (n.fmt Fmt.new).output :=
  Node.closed closed_spaced n Fmt.new (by intro xs ys h; simp [Fmt.new] at h)

theorem spaced_tail {x : Piece} {ps : List Piece} (h : Spaced (x :: ps)) : Spaced ps :=
  fun xs ys e => h (x :: xs) ys (by rw [e]; rfl)

theorem wordsApart_tail {x : Piece} {ps : List Piece} (h : WordsApart (x :: ps)) : WordsApart ps :=
  fun xs p q ys e => h (x :: xs) p q ys (by rw [e]; rfl)

theorem clear_tail {x : Piece} {ps : List Piece} (h : Clear (x :: ps) = true) : Clear ps = true := by
  cases ps with
  | nil => rfl
  | cons y ps =>
    simp only [Clear, Bool.and_eq_true] at h
    exact h.2

/-! ## Tokens -/

theorem kw_lexeme (k : Keyword) : Lexeme (.ident k.text) k.text := by
  have : ∃ b w, k.text = b :: w ∧ IdentStart b ∧ ∀ c ∈ w, IdentPart c := by
    cases k <;> exact ⟨_, _, rfl, by decide, by decide⟩
  obtain ⟨b, w, e, h, h'⟩ := this
  rw [e]
  exact .name h h'

theorem spelling_mem {q : P} (h : q ≠ .lAngleExclamDashDash) : spelling q ∈ punctuators := by
  cases q <;> first | exact absurd rfl h | decide

/-- A punctuator other than `...` without its last byte is a punctuator. -/
theorem longer {p q : P} (hq : q ≠ .lAngleExclamDashDash) {r : Bytes}
    (h : spelling q <+: spelling p ++ r) (hl : (spelling p).length < (spelling q).length) :
    (p = .period ∧ b!".." <+: r) ∨ ∃ b r', r = b :: r' ∧ spelling p ++ [b] ∈ punctuators := by
  cases r with
  | nil =>
    have := h.length_le
    simp at this
    omega
  | cons b r =>
    obtain ⟨s, hs⟩ := h
    have key : (spelling q).take ((spelling p).length + 1) = spelling p ++ [b] := by
      have := congrArg (List.take ((spelling p).length + 1)) hs
      rw [List.take_append_of_le_length (by omega)] at this
      rw [this, List.take_append, List.take_of_length_le (by omega)]
      simp
    have all : ∀ w ∈ punctuators, ∀ n, n ≤ w.length → w.take n ∈ punctuators ∨ n = 0 ∨
        (w = b!"..." ∧ n = 2) := by decide
    rcases all _ (spelling_mem hq) _ (show (spelling p).length + 1 ≤ _ by omega) with h | h | ⟨h, h'⟩
    · exact .inr ⟨b, r, rfl, key ▸ h⟩
    · omega
    · left
      rw [h, h'] at key
      have hp : spelling p = b!"." := by
        have key : b!"." ++ [c!"."] = spelling p ++ [b] := key
        exact (List.append_inj' key rfl).1.symm
      refine ⟨?_, ?_⟩
      · revert hp
        cases p <;> first | (intro; rfl) | (intro h; exact absurd h (by decide))
      · rw [hp, h] at hs
        refine ⟨s, ?_⟩
        simpa using hs

abbrev txt (xs : List Piece) : Bytes := xs.flatMap Piece.text

theorem punct_text (p : Ast.Punct) :
    ∃ b bs, p.text = b :: bs ∧ (p ≠ .templateOpen → ¬ IdentPart b) := by
  cases p <;> first | exact ⟨_, _, rfl, fun _ => by decide⟩ | exact ⟨_, _, rfl, fun h => absurd rfl h⟩

theorem spelling_dollar (q : P) (r : Bytes) : spelling q ≠ c!"$" :: r := by
  cases q <;> exact fun h => absurd (List.cons.inj h).1 (by decide)

theorem text_space : Piece.space.text = [0x20] := rfl

theorem strip_cons {x : Piece} (h : x ≠ .space) (xs : List Piece) : strip (x :: xs) = x :: strip xs := by
  simp [strip, h]

theorem strip_space (xs : List Piece) : strip (.space :: xs) = strip xs := by simp [strip]

/-- What can follow a token. -/
def Next (xs : List Piece) : Prop :=
  xs = [] ∨ ∃ y r b bs, xs = y :: r ∧ y.text = b :: bs ∧ (∀ t, y ≠ .raw t) ∧ y ≠ .punct .templateOpen

theorem next_punct {p : Ast.Punct} (hp : p ≠ .templateOpen) (r : List Piece) :
    Next (.punct p :: r) := by
  obtain ⟨b, bs, e, _⟩ := punct_text p
  exact .inr ⟨_, r, _, _, rfl, e, nofun, by simpa using hp⟩

theorem next {ps : List Piece} {u : List Tok} (h : Written ps u) {xs : List Piece}
    (hs : strip xs = ps) : Next xs := by
  cases xs with
  | nil => exact .inl rfl
  | cons y r =>
    by_cases hy : y = .space
    · exact .inr ⟨y, r, 0x20, [], rfl, hy ▸ rfl, hy ▸ nofun, hy ▸ nofun⟩
    · rw [strip_cons hy] at hs
      generalize strip r = ps' at hs
      subst hs
      cases h with
      | kw k =>
        obtain ⟨b, w, h⟩ : ∃ b w, k.text = b :: w := by cases k <;> exact ⟨_, _, rfl⟩
        exact .inr ⟨_, r, b, w, rfl, h, nofun, nofun⟩
      | ident hn => cases hn with | name => exact .inr ⟨_, r, _, _, rfl, rfl, nofun, nofun⟩
      | @num v t _ _ hn =>
        have : t ≠ [] := by
          intro ht
          generalize htok : Token.num v = tok at hn
          cases hn with
          | @decimal d _ hd =>
            have hi : d.int = [] := by
              simp only [Decimal.text, List.append_eq_nil_iff] at ht
              exact ht.1.1
            obtain ⟨b, f, hf⟩ := hd.leadingDot hi
            simp [Decimal.text, hf] at ht
          | _ => first | exact Token.noConfusion htok | exact List.cons_ne_nil _ _ ht
        obtain ⟨b, w, rfl⟩ := List.exists_cons_of_ne_nil this
        exact .inr ⟨_, r, _, _, rfl, rfl, nofun, nofun⟩
      | str => exact next_punct (p := .sQuote) nofun r
      | @punct p _ _ q hq =>
        exact next_punct (by rintro rfl; exact spelling_dollar q _ hq) r
      | @joined p _ _ q _ hq =>
        exact next_punct (by rintro rfl; exact spelling_dollar q _ hq) r

theorem dot_not_part : ¬ IdentPart c!"." := by decide

theorem apart_word {n : Bytes} (hn : Lexeme (.ident n) n) {x : Piece} {xs : List Piece}
    (hx : isWord x = true) (hw : WordsApart (x :: xs))
    (hnext : Next xs) :
    Spec.Apart (.ident n) n (txt xs) := by
  refine ⟨?_, ?_⟩
  · rintro ⟨⟨a, ha⟩, _⟩
    cases hn with
    | @name b w hb hc =>
      have : c!"." ∈ b :: w := ha ▸ by simp
      rcases List.mem_cons.1 this with h | h
      · exact dot_not_part (.inl (h ▸ hb))
      · exact dot_not_part (hc _ h)
  · intro b r' e
    rcases hnext with rfl | ⟨y, r, b', bs, rfl, hy, hraw, hopen⟩
    · simp at e
    · simp only [txt, List.flatMap_cons, hy, List.cons_append, List.cons.injEq] at e
      obtain ⟨rfl, -⟩ := e
      have hq := hw [] x y r rfl hx
      cases y with
      | kw | ident | num => simp [isWordOrNum] at hq
      | raw t => exact absurd rfl (hraw t)
      | space =>
        simp only [text_space, List.cons.injEq] at hy
        exact hy.1 ▸ by decide
      | punct p =>
        obtain ⟨c, cs, e, h⟩ := punct_text p
        simp only [Piece.text, e, List.cons.injEq] at hy
        exact hy.1 ▸ h (by rintro rfl; exact hopen rfl)

/-- What the hypothesis says about a piece and the byte behind it. -/
theorem clear_byte {x y : Piece} {r : List Piece} {b : UInt8} {bs : Bytes}
    (h : Clear (x :: y :: r) = true) (hy : y.text = b :: bs) :
    (y = .punct .eq ∧ b = c!"=") ∨ sticksTo x b = false := by
  simp only [Clear, sticks, hy, Bool.and_eq_true, Bool.not_eq_true', Bool.and_eq_false_iff,
    bne_eq_false_iff_eq] at h
  rcases h.1 with h | h
  · subst h
    simp only [Piece.text, Punct.text, List.cons.injEq] at hy
    exact .inl ⟨rfl, hy.1.symm⟩
  · exact .inr h

theorem getLast_of_suffix {a : UInt8} {w : Bytes} (h : [a] <:+ w) : w.getLast? = some a := by
  obtain ⟨v, rfl⟩ := h
  simp

theorem apart_num {v : NumExpr} {t : Bytes} {xs : List Piece} (hc : Clear (.num t :: xs) = true)
    (hnext : Next xs) :
    Spec.Apart (.num v) t (txt xs) := by
  have key : ∀ b r', txt xs = b :: r' → ¬ IdentPart b ∧ b ≠ c!"." ∧
      (([c!"e"] <:+ t ∨ [c!"E"] <:+ t) → b ≠ c!"+" ∧ b ≠ c!"-") := by
    intro b r' e
    rcases hnext with rfl | ⟨y, r, b', bs, rfl, hy, hraw, hopen⟩
    · simp at e
    · simp only [txt, List.flatMap_cons, hy, List.cons_append, List.cons.injEq] at e
      obtain ⟨rfl, -⟩ := e
      rcases clear_byte hc hy with ⟨rfl, rfl⟩ | h
      · exact ⟨by decide, by decide, fun _ => by decide⟩
      · simp only [sticksTo, Bool.or_eq_false_iff, Bool.and_eq_false_iff, decide_eq_false_iff_not,
          beq_eq_false_iff_ne] at h
        refine ⟨h.1.1, h.1.2, fun he => ?_⟩
        rcases h.2 with h' | h'
        · rcases he with he | he
          · exact absurd (getLast_of_suffix he) h'.1
          · exact absurd (getLast_of_suffix he) h'.2
        · exact h'
  refine ⟨?_, key⟩
  rintro ⟨_, ⟨r, hr⟩⟩
  exact (key _ r hr.symm).2.1 rfl

theorem text_period {p : Ast.Punct} {q : P} (h : spelling q = p.text) (hq : q = .period ∨ q = .ellipsis) :
    p.text.getLast? = some c!"." := by
  rcases hq with rfl | rfl <;> rw [← h] <;> rfl

theorem ends_dot {q : P} (h : [c!"."] <:+ spelling q) : q = .period ∨ q = .ellipsis := by
  have := getLast_of_suffix h
  revert this
  cases q <;> first
    | exact fun _ => .inl rfl | exact fun _ => .inr rfl | (intro h; exact absurd h (by decide))

theorem apart_punct {q : P} {p : Ast.Punct} {xs : List Piece} (hq : spelling q = p.text)
    (hsl : q ≠ .slash) (hc : Clear (.punct p :: xs) = true)
    (heq : ∀ r, xs = .punct .eq :: r → q = .parenClose ∨ q = .squareClose)
    (hnext : Next xs) :
    Spec.Apart (.punct q) (spelling q) (txt xs) := by
  have key : ∀ b r', txt xs = b :: r' → spelling q ++ [b] ∉ punctuators ∧
      ((q = .period ∨ q = .ellipsis) → b ≠ c!"." ∧ ¬ Digit b) := by
    intro b r' e
    rcases hnext with rfl | ⟨y, r, b', bs, rfl, hy, hraw, hopen⟩
    · simp at e
    · simp only [txt, List.flatMap_cons, hy, List.cons_append, List.cons.injEq] at e
      obtain ⟨rfl, -⟩ := e
      rcases clear_byte hc hy with ⟨rfl, rfl⟩ | h
      · rcases heq r rfl with rfl | rfl <;> exact ⟨by decide, fun h => absurd h (by decide)⟩
      · simp only [sticksTo, Bool.or_eq_false_iff, Bool.and_eq_false_iff, decide_eq_false_iff_not,
          beq_eq_false_iff_ne] at h
        refine ⟨?_, fun hp => ?_⟩
        · rw [hq]
          simpa using h.1
        · rcases h.2 with h' | h'
          · exact absurd (text_period hq hp) h'
          · exact h'
  refine ⟨?_, ?_, fun h => absurd h hsl, ?_⟩
  · rintro ⟨h, ⟨r, hr⟩⟩
    exact ((key _ r hr.symm).2 (ends_dot h)).1 rfl
  · intro q' hq' h
    by_contra hl
    rcases longer hq' h (by omega) with ⟨hp, ⟨r, hr⟩⟩ | ⟨b, r, hr, hm⟩
    · exact ((key _ _ hr.symm).2 (.inl hp)).1 rfl
    · exact (key b r hr).1 hm
  · intro hp b r hr
    exact ((key b r hr).2 (.inl hp)).2

theorem apart_joined {q : P} (hq : q ∈ assignmentOperators) (hl : 2 ≤ (spelling q).length) (r : Bytes) :
    Spec.Apart (.punct q) (spelling q) r := by
  have hdot : ∀ q ∈ assignmentOperators, q ≠ .period ∧ q ≠ .ellipsis ∧ q ≠ .slash := by decide
  have hlong : ∀ w ∈ punctuators, ∀ q ∈ assignmentOperators, 2 ≤ (spelling q).length →
      w.dropLast ≠ spelling q := by decide
  obtain ⟨h1, h2, h3⟩ := hdot q hq
  refine ⟨?_, ?_, fun h => absurd h h3, fun h => absurd h h1⟩
  · rintro ⟨h, _⟩
    rcases ends_dot h with h | h
    · exact h1 h
    · exact h2 h
  · intro q' hq' h
    by_contra hl'
    rcases longer hq' h (by omega) with ⟨hp, _⟩ | ⟨b, r, hr, hm⟩
    · exact h1 hp
    · exact hlong _ hm q hq hl (by simp)

/-- The first piece, perhaps with a space before it. -/
theorem lead {xs ps : List Piece} {x : Piece} (h : strip xs = x :: ps) (hs : Spaced xs) :
    ∃ xs', strip xs' = ps ∧
      (xs = x :: xs' ∨ (isWordOrNum x = true ∧ xs = .space :: x :: xs')) := by
  cases xs with
  | nil => simp [strip] at h
  | cons y r =>
    by_cases hy : y = .space
    · subst hy
      obtain ⟨w, zs, rfl, hw⟩ := hs [] r rfl
      have hw' : w ≠ .space := by rintro rfl; simp [isWordOrNum] at hw
      rw [strip_space, strip_cons hw'] at h
      simp only [List.cons.injEq] at h
      obtain ⟨rfl, h⟩ := h
      exact ⟨zs, h, .inr ⟨hw, rfl⟩⟩
    · rw [strip_cons hy] at h
      simp only [List.cons.injEq] at h
      obtain ⟨rfl, h⟩ := h
      exact ⟨r, h, .inl rfl⟩

/-- The text of one token and of those behind it. -/
theorem spells_one {x : Piece} {t : Token} {xs xs' : List Piece} {u : List Tok}
    (hl : Lexeme t x.text) (ha : Spec.Apart t x.text (txt xs')) (hr : Spells (txt xs') u)
    (h : xs = x :: xs' ∨ (isWordOrNum x = true ∧ xs = .space :: x :: xs')) :
    Spells (txt xs) ((false, t) :: u) := by
  rcases h with rfl | ⟨_, rfl⟩
  · exact Spells.cons .nil hl ha hr
  · exact Spells.cons (.blank 0x20 [] false (by decide) .nil) hl ha hr

theorem not_comment {q : P} {p : Ast.Punct} (h : spelling q = p.text) : q ≠ .lAngleExclamDashDash := by
  rintro rfl
  revert h
  cases p <;> exact fun h => absurd h (by decide)

theorem spelling_eq {q : P} (h : spelling q = b!"=") : q = .eq := by
  revert h
  cases q <;> first | exact fun _ => rfl | exact fun h => absurd h (by decide)

/-- Only the end of an expression comes before a piece `=` that is a token. -/
theorem before_eq {ps : List Piece} {u : List Tok} (h : Written ps u) {x : Tok} {r : List Piece}
    (hs : strip (.punct .eq :: r) = ps)
    (heq : ∀ a x' y b, x :: u = a ++ x' :: y :: b → y.2 = .punct .eq → Ender x'.2) : Ender x.2 := by
  rw [strip_cons (x := .punct .eq) nofun] at hs
  generalize strip r = ps' at hs
  subst hs
  cases h with
  | @punct _ _ u q hq => exact heq [] x _ u rfl (congrArg Token.punct (spelling_eq hq))
  | joined q hm hq =>
    have : ∀ q ∈ assignmentOperators, spelling q ≠ b!"==" := by decide
    exact absurd hq (this q hm)

/-- **The text of the pieces consists of the tokens.** -/
theorem spells {ps : List Piece} {u : List Tok} (h : Written ps u) :
    ∀ xs, strip xs = ps → Spaced xs → WordsApart xs → Clear xs = true →
    (∀ x ∈ u, Plain x.2) →
    (∀ a x y b, u = a ++ x :: y :: b → y.2 = .punct .eq → Ender x.2) →
    Spells (txt xs) (u ++ [(false, .eof)]) := by
  induction h with
  | nil =>
    intro xs hs hsp _ _ _ _
    cases xs with
    | nil => exact Spells.eof .nil
    | cons y r =>
      by_cases hy : y = .space
      · subst hy
        obtain ⟨w, zs, rfl, hw⟩ := hsp [] r rfl
        have hw' : w ≠ .space := by rintro rfl; simp [isWordOrNum] at hw
        rw [strip_space, strip_cons hw'] at hs
        cases hs
      · rw [strip_cons hy] at hs
        cases hs
  | kw k hr ih =>
    intro xs hs hsp hw hc hp he
    obtain ⟨xs', hs', hx⟩ := lead hs hsp
    have hd : Spaced xs' ∧ WordsApart (.kw k :: xs') ∧ Clear (.kw k :: xs') = true := by
      rcases hx with rfl | ⟨_, rfl⟩
      · exact ⟨(spaced_tail hsp), hw, hc⟩
      · exact ⟨(spaced_tail (spaced_tail hsp)), wordsApart_tail hw, clear_tail hc⟩
    exact spells_one (x := .kw k) (kw_lexeme k) (apart_word (kw_lexeme k) rfl hd.2.1 (next hr hs'))
      (ih xs' hs' hd.1 (wordsApart_tail hd.2.1) (clear_tail hd.2.2)
        (fun x hx => hp x (.tail _ hx)) (fun a x y b e => he (_ :: a) x y b (by rw [e]; rfl))) hx
  | @ident n _ _ hn hr ih =>
    intro xs hs hsp hw hc hp he
    obtain ⟨xs', hs', hx⟩ := lead hs hsp
    have hd : Spaced xs' ∧ WordsApart (.ident n :: xs') ∧ Clear (.ident n :: xs') = true := by
      rcases hx with rfl | ⟨_, rfl⟩
      · exact ⟨(spaced_tail hsp), hw, hc⟩
      · exact ⟨(spaced_tail (spaced_tail hsp)), wordsApart_tail hw, clear_tail hc⟩
    exact spells_one (x := .ident n) hn (apart_word hn rfl hd.2.1 (next hr hs'))
      (ih xs' hs' hd.1 (wordsApart_tail hd.2.1) (clear_tail hd.2.2)
        (fun x hx => hp x (.tail _ hx)) (fun a x y b e => he (_ :: a) x y b (by rw [e]; rfl))) hx
  | @num v t _ _ hn hr ih =>
    intro xs hs hsp hw hc hp he
    obtain ⟨xs', hs', hx⟩ := lead hs hsp
    have hd : Spaced xs' ∧ WordsApart (.num t :: xs') ∧ Clear (.num t :: xs') = true := by
      rcases hx with rfl | ⟨_, rfl⟩
      · exact ⟨(spaced_tail hsp), hw, hc⟩
      · exact ⟨(spaced_tail (spaced_tail hsp)), wordsApart_tail hw, clear_tail hc⟩
    exact spells_one (x := .num t) hn (apart_num hd.2.2 (next hr hs'))
      (ih xs' hs' hd.1 (wordsApart_tail hd.2.1) (clear_tail hd.2.2)
        (fun x hx => hp x (.tail _ hx)) (fun a x y b e => he (_ :: a) x y b (by rw [e]; rfl))) hx
  | @str t _ _ ht _ hr ih =>
    intro xs hs hsp hw hc hp he
    obtain ⟨x1, hs1, hx1⟩ := lead hs hsp
    obtain rfl : xs = _ := hx1.resolve_right (by simp [isWordOrNum])
    obtain ⟨x2, hs2, hx2⟩ := lead hs1 (spaced_tail hsp)
    obtain rfl : x1 = _ := hx2.resolve_right (by simp [isWordOrNum])
    obtain ⟨x3, hs3, hx3⟩ := lead hs2 (spaced_tail (spaced_tail hsp))
    obtain rfl : x2 = _ := hx3.resolve_right (by simp [isWordOrNum])
    have := Spells.cons (g := []) .nil (Lexeme.str (q := c!"'") (v := t) (.inl rfl) ht)
      (r := txt x3) ⟨by
        rintro ⟨h, _⟩
        have := getLast_of_suffix h
        rw [List.getLast?_concat] at this
        exact absurd this (by decide), trivial⟩
      (ih x3 hs3 (spaced_tail (spaced_tail (spaced_tail hsp))) (wordsApart_tail (wordsApart_tail (wordsApart_tail hw)))
        (clear_tail (clear_tail (clear_tail hc)))
        (fun x hx => hp x (.tail _ hx)) (fun a x y b e => he (_ :: a) x y b (by rw [e]; rfl)))
    simpa [txt, Piece.text, Punct.text] using this
  | @punct p _ _ q hq hr ih =>
    intro xs hs hsp hw hc hp he
    obtain ⟨xs', hs', hx⟩ := lead hs hsp
    obtain rfl : xs = _ := hx.resolve_right (by simp [isWordOrNum])
    have hpl : Plain (.punct q) := hp _ (.head _)
    refine spells_one (x := .punct p) (show Lexeme (.punct q) p.text from hq ▸ .punct (not_comment hq)) ?_
      (ih xs' hs' (spaced_tail hsp) (wordsApart_tail hw) (clear_tail hc)
        (fun x hx => hp x (.tail _ hx)) (fun a x y b e => he (_ :: a) x y b (by rw [e]; rfl))) hx
    have := apart_punct hq (by rintro rfl; exact absurd hpl.1 (by decide)) hc (fun r e => by
      subst e
      have := before_eq hr hs' he
      simpa [Ender] using this) (next hr hs')
    rw [hq] at this
    exact this
  | @joined p _ _ q hm hq hr ih =>
    intro xs hs hsp hw hc hp he
    obtain ⟨x1, hs1, hx1⟩ := lead hs hsp
    obtain rfl : xs = _ := hx1.resolve_right (by simp [isWordOrNum])
    obtain ⟨x2, hs2, hx2⟩ := lead hs1 (spaced_tail hsp)
    obtain rfl : x1 = _ := hx2.resolve_right (by simp [isWordOrNum])
    have hl : 2 ≤ (spelling q).length := by
      obtain ⟨b, bs, e, _⟩ := punct_text p
      rw [hq, e]
      simp
    have hne : q ≠ .lAngleExclamDashDash := by rintro rfl; exact absurd hm (by decide)
    have := Spells.cons (g := []) .nil (Lexeme.punct hne) (apart_joined hm hl (txt x2))
      (ih x2 hs2 (spaced_tail (spaced_tail hsp)) (wordsApart_tail (wordsApart_tail hw)) (clear_tail (clear_tail hc))
        (fun x hx => hp x (.tail _ hx)) (fun a x y b e => he (_ :: a) x y b (by rw [e]; rfl)))
    rw [hq] at this
    simpa [txt, Piece.text, Punct.text] using this

end Jsparse.Ast.Printed
