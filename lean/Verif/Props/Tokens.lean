import Verif.Spec.Tokens
import Verif.Props.Ranges
/-!
# C03, C04, C06, C08–C13: what the tokens are
-/

namespace Jsparse

open Spec

theorem take_append_length (a b : Bytes) {n : Nat} (h : n = a.length) : (a ++ b).take n = a := by
  subst h; simp

/-! ## C03 -/

theorem Lexed.renders {h : Hint} {s : Bytes} {tok : Token} {n : Nat} (hl : Lexed h s tok n) :
    (∃ v, tok = .num v) ∨ Renders tok (s.take n) ∨ (tok = .str [] ∧ n = 0 ∧ OpenString s) := by
  cases hl with
  | eof => exact .inr (.inl .eof)
  | punct p s hp =>
    obtain ⟨r, rfl⟩ := hp.pre
    rw [take_append_length _ _ rfl]; exact .inr (.inl (.punct p))
  | slash rest => exact .inr (.inl (.punct .slash))
  | slashEq rest => exact .inr (.inl (.punct .slashEq))
  | curlyClose rest => exact .inr (.inl (.punct .curlyClose))
  | line v e =>
    have : c!"/" :: c!"/" :: (v ++ e) = (b!"//" ++ v) ++ e := rfl
    rw [this, take_append_length _ _ (by simp)]; exact .inr (.inl (.line v))
  | block v rest =>
    have : c!"/" :: c!"*" :: (v ++ (b!"*/" ++ rest)) = (b!"/*" ++ v ++ b!"*/") ++ rest := by simp
    rw [this, take_append_length _ _ (by simp)]; exact .inr (.inl (.block v))
  | regex v flags rest =>
    have : c!"/" :: (v ++ c!"/" :: (flags ++ rest)) = (b!"/" ++ v ++ b!"/" ++ flags) ++ rest := by
      simp
    rw [this, take_append_length _ _ (by simp; omega)]; exact .inr (.inl (.regex v flags))
  | str q v rest hq =>
    have : q :: (v ++ q :: rest) = ([q] ++ v ++ [q]) ++ rest := by simp
    rw [this, take_append_length _ _ (by simp)]; exact .inr (.inl (.str q v hq))
  | strOpen q s hq hs => exact .inr (.inr ⟨rfl, rfl, q, s, rfl, hq, hs⟩)
  | num v => exact .inl ⟨v, rfl⟩
  | templateTick v rest =>
    have : c!"`" :: (v ++ c!"`" :: rest) = (b!"`" ++ v ++ b!"`") ++ rest := by simp
    rw [this, take_append_length _ _ (by simp)]; exact .inr (.inl (.noSubstitution v))
  | templateCurly v rest =>
    have : c!"`" :: (v ++ c!"$" :: c!"{" :: rest) = (b!"`" ++ v ++ b!"${") ++ rest := by simp
    rw [this, take_append_length _ _ (by simp)]; exact .inr (.inl (.head v))
  | tailTick v rest =>
    have : c!"}" :: (v ++ c!"`" :: rest) = (b!"}" ++ v ++ b!"`") ++ rest := by simp
    rw [this, take_append_length _ _ (by simp)]; exact .inr (.inl (.tail v))
  | tailCurly v rest =>
    have : c!"}" :: (v ++ c!"$" :: c!"{" :: rest) = (b!"}" ++ v ++ b!"${") ++ rest := by simp
    rw [this, take_append_length _ _ (by simp)]; exact .inr (.inl (.middle v))
  | newline b rest hb =>
    refine .inr (.inl (.terminator _ ?_))
    rcases hb with rfl | rfl <;> simp
  | lsps s hs =>
    refine .inr (.inl (.terminator _ ?_))
    rcases hs with ⟨r, rfl⟩ | ⟨r, rfl⟩
    · rw [take_append_length lineSeparator r (n := 3) rfl]; simp
    · rw [take_append_length paragraphSeparator r (n := 3) rfl]; simp
  | ident v rest => rw [take_append_length _ _ rfl]; exact .inr (.inl (.ident v))

/-- **C03.** Every token other than a number, written back, is the text of its range; the only
exception is the empty token for an unclosed string. -/
theorem C03_lossless {t : Tokenizer} (hv : Valid t) {h : Hint} {tok skip w}
    (hr : Reads t h tok skip w) (hn : ∀ v, tok ≠ .num v) :
    Renders tok w ∨ (tok = .str [] ∧ w = [] ∧ ∃ s, unread t = skip ++ s ∧ OpenString s) := by
  obtain ⟨bl, s, ha⟩ := ahead t
  obtain ⟨rfl, -, n, hl, hle, rfl, -⟩ := ha.inv hv hr
  rcases hl.renders with ⟨v, rfl⟩ | h1 | ⟨rfl, rfl, h1⟩
  · exact absurd rfl (hn v)
  · exact .inl h1
  · exact .inr ⟨rfl, rfl, s, ha.unread, h1⟩

/-- The second token of `x /*a*/` is a block comment that renders as `/*a*/`. -/
example : ∃ skip w, Reads ⟨true, b!"x /*a*/", ⟨1, 0, 1⟩⟩ {} (.comment .block b!"a") skip w ∧
    Renders (.comment .block b!"a") w :=
  ⟨b!" ", b!"/*a*/", ⟨_, _, rfl, rfl, rfl, rfl, rfl, rfl, rfl⟩, .block b!"a"⟩

/-! ## C04 -/

theorem special_iff (b : UInt8) : special b = false ∧ ¬ IdentPart b ↔ ¬ Recognised b := by
  have hs : (∃ p, [b] <+: spelling p) ↔ (b = c!"{" ∨ b = c!"}" ∨ b = c!"(" ∨ b = c!")" ∨ b = c!"[" ∨
      b = c!"]" ∨ b = c!";" ∨ b = c!"," ∨ b = c!"~" ∨ b = c!"?" ∨ b = c!":" ∨ b = c!"." ∨ b = c!"<" ∨
      b = c!">" ∨ b = c!"!" ∨ b = c!"=" ∨ b = c!"+" ∨ b = c!"-" ∨ b = c!"%" ∨ b = c!"*" ∨ b = c!"/" ∨
      b = c!"&" ∨ b = c!"|" ∨ b = c!"^") := by
    constructor
    · rintro ⟨p, hp⟩
      cases p <;> simp [spelling] at hp <;> simp [hp]
    · rintro (rfl | rfl | rfl | rfl | rfl | rfl | rfl | rfl | rfl | rfl | rfl | rfl | rfl | rfl | rfl |
        rfl | rfl | rfl | rfl | rfl | rfl | rfl | rfl | rfl)
      exacts [⟨.curlyOpen, by decide⟩, ⟨.curlyClose, by decide⟩, ⟨.parenOpen, by decide⟩,
        ⟨.parenClose, by decide⟩, ⟨.squareOpen, by decide⟩, ⟨.squareClose, by decide⟩,
        ⟨.semicolon, by decide⟩, ⟨.comma, by decide⟩, ⟨.tilde, by decide⟩, ⟨.question, by decide⟩,
        ⟨.colon, by decide⟩, ⟨.period, by decide⟩, ⟨.lAngle, by decide⟩, ⟨.rAngle, by decide⟩,
        ⟨.exclam, by decide⟩, ⟨.eq, by decide⟩, ⟨.plus, by decide⟩, ⟨.minus, by decide⟩,
        ⟨.percent, by decide⟩, ⟨.star, by decide⟩, ⟨.slash, by decide⟩, ⟨.amp, by decide⟩,
        ⟨.bar, by decide⟩, ⟨.caret, by decide⟩]
  unfold Recognised
  rw [hs]
  have hd : ∀ b, Digit b ↔ c!"0" ≤ b ∧ b ≤ c!"9" := fun _ => Iff.rfl
  simp only [special, Quote, Blank, IdentPart, hd]
  constructor
  · rintro ⟨h1, h2⟩
    simp_all
  · intro h
    simp_all

theorem tokStr_open {q : UInt8} (hq : Quote q) {s : Bytes}
    (ho : ∀ v rest, s = v ++ q :: rest → ¬ LooseBody q false v) :
    tokStr q (q :: s) = .ok (.str [], 0) ∨ ∃ p, tokStr q (q :: s) = .error p := by
  unfold tokStr
  have h0 : (q :: s).drop 1 = s := rfl
  rw [h0]
  cases hs : strLoop q s 1 {} with
  | error p => exact .inr ⟨p, rfl⟩
  | ok o =>
    cases o with
    | none => exact .inl rfl
    | some k =>
      obtain ⟨v, rest, h1, h2, -⟩ := strLoop_complete hq s false 1 k hs
      exact absurd h2 (ho v rest h1)

/-- **C04** is false of the code; this is exactly when a token other than EOF has width zero: an
unrecognised character or a string that is never closed comes next. -/
theorem C04_zero_width_iff {t : Tokenizer} (hv : Valid t) {h : Hint} {tok skip w}
    (hr : Reads t h tok skip w) :
    w = [] ↔ tok = .eof ∨ ∃ s, unread t = skip ++ s ∧ (Unrecognised s ∨ OpenString s) := by
  obtain ⟨bl, s, ha⟩ := ahead t
  obtain ⟨rfl, hw, n, hl, hle, rfl, hrd⟩ := ha.inv hv hr
  have hs : ∀ s', unread t = skip ++ s' → s' = s := fun s' h' =>
    List.append_cancel_left (h'.symm.trans ha.unread)
  have pos : ∀ {a : Bytes} {k : Nat}, a ≠ [] → 1 ≤ k → a.take k ≠ [] := by
    intro a k h1 h2 h3
    cases a with
    | nil => exact h1 rfl
    | cons b a => cases k with
      | zero => omega
      | succ k => simp at h3
  -- the first byte of an unrecognised text
  have unrec : Unrecognised s → ∀ b r, s = b :: r → ¬ Recognised b := by
    rintro ⟨b, r, h1, h2, -⟩ b' r' h3
    rw [h1] at h3; simp only [List.cons.injEq] at h3
    rw [← h3.1]; exact h2
  constructor
  · intro h0
    cases hl with
    | eof => exact .inl rfl
    | punct p s hp =>
      obtain ⟨r, rfl⟩ := hp.pre
      rw [take_append_length _ _ rfl] at h0
      cases p <;> simp [spelling] at h0
    | strOpen q r hq hs' => exact .inr ⟨_, ha.unread, .inr ⟨q, r, rfl, hq, hs'⟩⟩
    | ident v rest h1 h2 h3 h4 =>
      rw [take_append_length _ _ rfl] at h0
      subst h0
      obtain ⟨b, r, rfl, h5, h6⟩ := h4 rfl
      refine .inr ⟨_, ha.unread, .inl ⟨b, r, rfl, ?_, h6⟩⟩
      exact (special_iff b).1 ⟨h5, h2 b r rfl⟩
    | lsps s h1 =>
      rcases h1 with ⟨r, rfl⟩ | ⟨r, rfl⟩ <;> simp [lineSeparator, paragraphSeparator] at h0
    | num v s n h1 h2 h3 =>
      rcases h3 with ⟨b, r, rfl, -⟩ | ⟨b, r, rfl, -⟩ <;> exact absurd h0 (pos (by simp) h1)
    | _ => simp at h0
  · rintro (rfl | ⟨s', hs', h1⟩)
    · cases hl; rfl
    · obtain rfl := hs s' hs'
      rcases h1 with h1 | ⟨q, r, rfl, hq, hopen⟩
      · have hrec := unrec h1
        obtain ⟨-, -, -, -, hln⟩ := h1
        cases hl with
        | eof => rfl
        | punct p s hp =>
          obtain ⟨r, rfl⟩ := hp.pre
          exfalso
          cases hsp : spelling p with
          | nil => cases p <;> simp [spelling] at hsp
          | cons b rest =>
            refine hrec b (rest ++ r) (by rw [hsp]; rfl) ?_
            exact .inr (.inr (.inr (.inr (.inr (.inr ⟨p, by rw [hsp]; simp⟩)))))
        | strOpen q r => rfl
        | ident v rest h1 h2 h3 h4 =>
          cases v with
          | nil => rfl
          | cons b v => exact absurd (.inl (h1 b (by simp))) (hrec b (v ++ rest) rfl)
        | lsps s h1 => exact absurd (.inr (.inr h1)) hln
        | num v s n h1 h2 h3 =>
          rcases h3 with ⟨b, r, rfl, hd⟩ | ⟨b, r, rfl, hd⟩
          · exact absurd (.inl (.inr hd)) (hrec b r rfl)
          · exact absurd (.inr (.inr (.inr (.inr (.inr (.inr ⟨.period, by decide⟩))))))
              (hrec _ _ rfl)
        | newline b rest hb =>
          refine absurd ?_ (hrec b rest rfl)
          rcases hb with rfl | rfl
          · exact .inr (.inr (.inl rfl))
          · exact .inr (.inr (.inr (.inl rfl)))
        | str q v rest hq =>
          exact absurd (.inr (.inr (.inr (.inr (.inl hq))))) (hrec _ _ rfl)
        | templateTick v rest | templateCurly v rest =>
          exact absurd (.inr (.inr (.inr (.inr (.inr (.inl rfl)))))) (hrec _ _ rfl)
        | curlyClose rest | tailTick v rest | tailCurly v rest =>
          exact absurd (.inr (.inr (.inr (.inr (.inr (.inr ⟨.curlyClose, by decide⟩))))))
            (hrec _ _ rfl)
        | slash rest | slashEq rest | line v e | block v rest | regex v flags rest =>
          exact absurd (.inr (.inr (.inr (.inr (.inr (.inr ⟨.slash, by decide⟩))))))
            (hrec _ _ rfl)
      · have hd : readNext t.checked (q :: r) h = tokStr q (q :: r) := by
          rcases hq with rfl | rfl <;> rfl
        rw [hd] at hrd
        rcases tokStr_open hq hopen with h1 | ⟨p, h1⟩
        · rw [h1] at hrd; cases hrd; rfl
        · rw [h1] at hrd; cases hrd

/-- **C04**, the part that holds: a token other than EOF covers at least one byte, unless an
unrecognised character or a string that is never closed comes next. -/
theorem C04_progress_partial {t : Tokenizer} (hv : Valid t) {h : Hint} {tok skip w}
    (hr : Reads t h tok skip w) (hne : tok ≠ .eof)
    (hu : ∀ s, unread t = skip ++ s → ¬ Unrecognised s ∧ ¬ OpenString s) : 1 ≤ w.length := by
  cases w with
  | cons b w => simp
  | nil =>
    rcases (C04_zero_width_iff hv hr).1 rfl with h1 | ⟨s, h1, h2 | h2⟩
    · exact absurd h1 hne
    · exact absurd h2 (hu s h1).1
    · exact absurd h2 (hu s h1).2

example : ∃ tok skip w, Reads (intoTokenizer true b!" 'a' ") {} tok skip w ∧ tok ≠ .eof ∧ w ≠ [] :=
  ⟨.str b!"a", b!" ", b!"'a'", ⟨_, _, rfl, rfl, rfl, rfl, rfl, rfl, rfl⟩, by decide, by decide⟩

/-- **C04** is false: `#` gives an identifier of width zero, and so does an unclosed string. -/
theorem C04_no_progress :
    Reads (intoTokenizer true b!"#") {} (.ident []) [] [] ∧
    Reads (intoTokenizer true b!"\"abc") {} (.str []) [] [] :=
  ⟨⟨_, _, rfl, rfl, rfl, rfl, rfl, rfl, rfl⟩, ⟨_, _, rfl, rfl, rfl, rfl, rfl, rfl, rfl⟩⟩

/-! ## C06 -/

/-- The text starts with a slash that opens no comment. -/
theorem readNext_hint (checked : Bool) (s : Bytes) (h1 h2 : Hint)
    (hx : h1.expression = h2.expression ∨ ¬ (b!"/" <+: s ∧ ¬ b!"//" <+: s ∧ ¬ b!"/*" <+: s))
    (ht : h1.template = h2.template ∨ ¬ b!"}" <+: s) :
    readNext checked s h1 = readNext checked s h2 := by
  cases s with
  | nil => rfl
  | cons b r =>
    by_cases hb : b = c!"/"
    · subst hb
      show tokSlash (c!"/" :: r) h1 = tokSlash (c!"/" :: r) h2
      unfold tokSlash
      by_cases e1 : (c!"/" :: r)[1]? = some c!"/"
      · rw [if_pos e1, if_pos e1]
      · by_cases e2 : (c!"/" :: r)[1]? = some c!"*"
        · rw [if_neg e1, if_neg e1, if_pos e2, if_pos e2]
        · have : h1.expression = h2.expression := by
            rcases hx with hx | hx
            · exact hx
            · exfalso
              apply hx
              cases r with
              | nil => simp
              | cons c r =>
                simp at e1 e2
                simp [Ne.symm e1, Ne.symm e2]
          rw [this]
    · by_cases hc : b = c!"}"
      · subst hc
        show tokCurlyClose (c!"}" :: r) h1 = tokCurlyClose (c!"}" :: r) h2
        rcases ht with ht | ht
        · unfold tokCurlyClose; rw [ht]
        · simp at ht
      · simp only [readNext, if_neg hb, if_neg hc]

/-- **C06.** Two hints give the same result (token, range, new state or panic) unless they differ in
the expression hint and a slash that opens no comment comes next, or they differ in the template hint
and a closing brace comes next.  In particular the strict hint never matters. -/
theorem C06_hints_irrelevant (t : Tokenizer) (h1 h2 : Hint)
    (hx : h1.expression = h2.expression ∨
      ¬ ∃ bl s, unread t = bl ++ s ∧ Blanks bl ∧ b!"/" <+: s ∧ ¬ b!"//" <+: s ∧ ¬ b!"/*" <+: s)
    (ht : h1.template = h2.template ∨ ¬ ∃ bl s, unread t = bl ++ s ∧ Blanks bl ∧ b!"}" <+: s) :
    t.nextToken h1 = t.nextToken h2 := by
  obtain ⟨bl, s, ha⟩ := ahead t
  by_cases hb : isBoundary t.code t.position.offset = true
  · by_cases hw : StartsWide s
    · rw [nextToken_wide h1 hb ha.unread ha.blanks hw, nextToken_wide h2 hb ha.unread ha.blanks hw]
    · have : readNext t.checked s h1 = readNext t.checked s h2 := by
        apply readNext_hint
        · exact hx.imp id fun hx h => hx ⟨bl, s, ha.unread, ha.blanks, h⟩
        · exact ht.imp id fun ht h => ht ⟨bl, s, ha.unread, ha.blanks, h⟩
      unfold Tokenizer.nextToken
      rw [eatWhitespace_eq hb ha.unread ha.blanks ha.noBlank hw]
      simp only [bind, Except.bind]
      have hd : t.code.drop (skipPos t.position bl.length).offset = s := drop_skip ha.unread
      unfold sliceFrom
      by_cases hb' : isBoundary t.code (skipPos t.position bl.length).offset = true
      · rw [if_pos hb', hd]; simp only [this]
      · rw [if_neg hb']
  · simp [Tokenizer.nextToken, eatWhitespace, sliceFrom, hb, bind, Except.bind]

/-- With `a / b` behind the `a`: the strict and template hints do not matter… -/
example : Tokenizer.nextToken ⟨true, b!"a / b/", ⟨1, 0, 1⟩⟩ {} =
    Tokenizer.nextToken ⟨true, b!"a / b/", ⟨1, 0, 1⟩⟩ { strict := true, template := true } := by
  apply C06_hints_irrelevant
  · exact .inl rfl
  · right
    rintro ⟨bl, s, h1, h2, r, rfl⟩
    have : c!"}" ∈ unread ⟨true, b!"a / b/", ⟨1, 0, 1⟩⟩ := by rw [h1]; simp
    revert this; decide

/-- … and the expression hint does: the exceptions of C06 are needed. -/
example : Tokenizer.nextToken ⟨true, b!"a / b/", ⟨1, 0, 1⟩⟩ {} ≠
    Tokenizer.nextToken ⟨true, b!"a / b/", ⟨1, 0, 1⟩⟩ { expression := true } := by decide

/-! ## C04, continued: the tokenizer is stuck -/

/-- Hints do not matter at the texts that give tokens of width zero. -/
theorem zero_width_any_hint {checked : Bool} {h : Hint} {s : Bytes} {tok : Token}
    (hs : Utf8 s) (hb : NoBlankHead s) (hw : ¬ StartsWide s)
    (hr : readNext checked s h = .ok (tok, 0)) (h' : Hint) :
    readNext checked s h' = .ok (tok, 0) := by
  rw [← hr]
  rcases readNext_described checked h hs hb hw with ⟨tok', n, hr', hl⟩ | ⟨p, hr', -⟩
  · have hn : n = 0 := by rw [hr] at hr'; simp only [Except.ok.injEq, Prod.mk.injEq] at hr'; exact hr'.2.symm
    have key : ¬ b!"/" <+: s ∧ ¬ b!"}" <+: s := by
      cases hl with
      | eof => simp
      | strOpen q s hq => rcases hq with rfl | rfl <;> simp
      | ident v rest h1 h2 h3 h4 =>
        have : v = [] := List.length_eq_zero_iff.1 hn
        subst this
        obtain ⟨b, r, rfl, h5, -⟩ := h4 rfl
        simp only [List.nil_append, List.cons_prefix_cons, List.nil_prefix, and_true]
        constructor <;> rintro rfl <;> simp [special] at h5
      | punct p _ hp => exfalso; cases p <;> simp [spelling] at hn
      | num v _ n h1 => omega
      | _ => omega
    exact readNext_hint checked s h' h (.inr fun h => key.1 h.1) (.inr key.2)
  · rw [hr] at hr'; cases hr'

/-- **C04.** After a token of width zero the tokenizer is stuck: every later sequence of calls, with
whatever hints, returns only that same token with the same range. -/
theorem C04_stuck {t : Tokenizer} (hv : Valid t) {h : Hint} {tok r t'}
    (hn : t.nextToken h = .ok (tok, r, t')) (hz : r.start.offset = r.stop.offset)
    {toks t''} (hc : Calls t' toks t'') : t'' = t' ∧ ∀ x ∈ toks, x = (tok, r) := by
  have hf : ∀ h', t'.nextToken h' = .ok (tok, r, t') := by
    intro h'
    refine zero_width_repeats hn hz h' fun bl s hi => ?_
    have ha : Ahead t bl s := ⟨hi.unread, hi.blanks, hi.noBlank⟩
    exact zero_width_any_hint (ha.utf8 hv) hi.noBlank hi.noWide hi.read h'
  generalize ht : t' = t1 at hc
  induction hc with
  | nil => subst ht; simp
  | cons t1 h1 tok1 r1 t2 toks t3 hn1 _ ih =>
    subst ht
    rw [hf h1] at hn1
    simp only [Except.ok.injEq, Prod.mk.injEq] at hn1
    obtain ⟨rfl, rfl, rfl⟩ := hn1
    have := ih rfl
    refine ⟨this.1, ?_⟩
    intro x hx
    rcases List.mem_cons.1 hx with rfl | hx
    · rfl
    · exact this.2 x hx

example : ∃ r t', Tokenizer.nextToken (intoTokenizer true b!" #a") {} = .ok (.ident [], r, t') ∧
    r.start.offset = r.stop.offset := ⟨_, _, rfl, rfl⟩

/-! ## C08 -/

/-- The punctuator with a given spelling. -/
def punctOf (w : Bytes) : Option Punct :=
  [Punct.curlyOpen, .curlyClose, .parenOpen, .parenClose, .squareOpen, .squareClose, .semicolon,
    .comma, .tilde, .question, .colon, .period, .ellipsis, .lAngle, .lAngleEq, .lAngleAngle,
    .lAngleAngleEq, .lAngleExclamDashDash, .rAngle, .rAngleEq, .rAngleAngle, .rAngleAngleEq,
    .rAngleAngleAngle, .rAngleAngleAngleEq, .exclam, .exclamEq, .exclamEqEq, .eq, .arrow, .eqEq,
    .eqEqEq, .plus, .plusEq, .plusPlus, .minus, .minusEq, .minusMinus, .minusMinusAngle, .percent,
    .percentEq, .star, .starEq, .starStar, .starStarEq, .slash, .slashEq, .amp, .ampAmp, .ampEq, .bar,
    .barBar, .barEq, .caret, .caretEq].find? (spelling · == w)

theorem punctOf_spelling (p : Punct) : punctOf (spelling p) = some p := by cases p <;> decide

theorem spelling_injective {p q : Punct} (h : spelling p = spelling q) : p = q := by
  have h1 := punctOf_spelling p
  rw [h, punctOf_spelling q] at h1
  exact (Option.some.inj h1).symm

theorem spelling_head {p : Punct} {s : Bytes} {c : UInt8} (h1 : spelling p <+: s) (h2 : [c] <+: s) :
    ∃ r, spelling p = c :: r := by
  obtain ⟨a, rfl⟩ := h1
  cases hp : spelling p with
  | nil => cases p <;> simp [spelling] at hp
  | cons b r =>
    rw [hp] at h2
    simp at h2
    exact ⟨r, by rw [h2]⟩

/-- Bytes that start no punctuator. -/
theorem spelling_head_ne {p : Punct} {c : UInt8} {r : Bytes} (h : spelling p = c :: r) :
    ¬ IdentPart c ∧ ¬ Quote c ∧ c ≠ c!"`" ∧ c < 0x80 ∧ c ≠ 0x0A ∧ c ≠ 0x0D ∧ special c = true := by
  cases p <;> simp only [spelling, List.cons.injEq] at h <;> obtain ⟨rfl, -⟩ := h <;>
    refine ⟨by decide, by simp [Quote], by decide, by decide, by decide, by decide, by decide⟩

theorem simplePunct_notPunct {p : Punct} {s : Bytes} (hp : SimplePunct p s) (h : Hint) :
    ¬ NotPunct h s := by
  have hslash : ¬ b!"/" <+: s := by
    intro h1
    obtain ⟨r, h2⟩ := spelling_head hp.pre h1
    have h3 := hp.neSlash
    have h4 := hp.neSlashEq
    clear hp
    cases p <;> simp [spelling] at h2 h3 h4
  have hcurly : ¬ b!"}" <+: s := by
    intro h1
    obtain ⟨r, h2⟩ := spelling_head hp.pre h1
    have h3 := hp.neCurly
    clear hp
    cases p <;> simp [spelling] at h2 h3
  rintro (⟨r, rfl⟩ | ⟨r, rfl⟩ | ⟨b, r, rfl, h1⟩ | ⟨h1, -⟩ | ⟨h1, -⟩)
  · simp at hslash
  · simp at hslash
  · obtain ⟨r', h2⟩ := spelling_head (c := c!".") hp.pre (by simp)
    have h3 : p = .period := by
      have h4 := hp.pre
      cases p <;> simp [spelling] at h2 h4 ⊢
      exact absurd (h4.1 ▸ h1) (by decide)
    have := hp.period h3 b r rfl
    rw [(isDigit_iff b).2 h1] at this; cases this
  · exact hslash h1
  · exact hcurly h1

theorem longest_of {p : Punct} {s : Bytes} (h1 : spelling p <+: s)
    (h2 : ∀ q, q ≠ .lAngleExclamDashDash → spelling q <+: s →
      (spelling q).length ≤ (spelling p).length) : LongestPunct p s := ⟨h1, h2⟩

/-- **C08.** A call returns the punctuator `p` exactly if `p` is the longest punctuator spelled at the
start of the text ahead and no comment, fraction, regular expression or template continuation starts
there. -/
theorem C08_longest_punctuator {t : Tokenizer} (hv : Valid t) {bl s : Bytes} (hu : unread t = bl ++ s)
    (hbl : Blanks bl) (hs : NoBlankHead s) (h : Hint) (p : Punct) :
    Reads t h (.punct p) bl (spelling p) ↔
      p ≠ .lAngleExclamDashDash ∧ LongestPunct p s ∧ ¬ NotPunct h s := by
  have ha : Ahead t bl s := ⟨hu, hbl, hs⟩
  constructor
  · intro hr
    obtain ⟨-, hw, n, hl, hle, hsp, -⟩ := ha.inv hv hr
    generalize htok : Token.punct p = tok at hl
    cases hl with
    | punct p' _ hp =>
      cases htok
      exact ⟨hp.neHtml, ⟨hp.pre, hp.longest⟩, simplePunct_notPunct hp h⟩
    | slash rest hx hc he =>
      cases htok
      refine ⟨by decide, ⟨by simp [spelling], ?_⟩, ?_⟩
      · intro q hq hpre
        obtain ⟨r, h2⟩ := spelling_head (c := c!"/") hpre (by simp)
        cases q <;> simp [spelling] at h2 hpre he ⊢
        exact he hpre
      · rintro (⟨r, h1⟩ | ⟨r, h1⟩ | ⟨b, r, h1, -⟩ | ⟨-, h1⟩ | ⟨h1, -⟩)
        · simp only [List.cons_append, List.nil_append, List.cons.injEq, true_and] at h1
          exact hc.1 ⟨r, h1⟩
        · simp only [List.cons_append, List.nil_append, List.cons.injEq, true_and] at h1
          exact hc.2 ⟨r, h1⟩
        · simp at h1
        · rw [hx] at h1; cases h1
        · simp at h1
    | slashEq rest hx =>
      cases htok
      refine ⟨by decide, ⟨by simp [spelling], ?_⟩, ?_⟩
      · intro q hq hpre
        obtain ⟨r, h2⟩ := spelling_head (c := c!"/") hpre (by simp)
        cases q <;> simp [spelling] at h2 hpre ⊢
      · rintro (⟨r, h1⟩ | ⟨r, h1⟩ | ⟨b, r, h1, -⟩ | ⟨-, h1⟩ | ⟨h1, -⟩)
        · simp at h1
        · simp at h1
        · simp at h1
        · rw [hx] at h1; cases h1
        · simp at h1
    | curlyClose rest hx =>
      cases htok
      refine ⟨by decide, ⟨by simp [spelling], ?_⟩, ?_⟩
      · intro q hq hpre
        obtain ⟨r, h2⟩ := spelling_head (c := c!"}") hpre (by simp)
        cases q <;> simp [spelling] at h2 hpre ⊢
      · rintro (⟨r, h1⟩ | ⟨r, h1⟩ | ⟨b, r, h1, -⟩ | ⟨h1, -⟩ | ⟨-, h1⟩)
        · simp at h1
        · simp at h1
        · simp at h1
        · simp at h1
        · rw [hx] at h1; cases h1
    | _ => cases htok
  · rintro ⟨hne, hlong, hnot⟩
    -- the first byte
    obtain ⟨c, r0, hc⟩ : ∃ c r, spelling p = c :: r := by
      cases hp : spelling p with
      | nil => cases p <;> simp [spelling] at hp
      | cons b r => exact ⟨b, r, rfl⟩
    obtain ⟨f1, f2, f3, f4, f5, f6, f7⟩ := spelling_head_ne hc
    have hsc : ∀ b r, s = b :: r → b = c := by
      intro b r hs'
      obtain ⟨e, he⟩ := hlong.spelled
      rw [hc, hs'] at he
      simp only [List.cons_append, List.cons.injEq] at he
      exact he.1.symm
    have hsne : s ≠ [] := by
      rintro rfl
      have := hlong.spelled
      rw [hc] at this
      simp at this
    have hwide : ¬ StartsWide s := by
      rintro (⟨r, h1⟩ | ⟨r, h1⟩)
      · have := hsc _ _ h1.symm; rw [← this] at f4; revert f4; decide
      · have := hsc _ _ h1.symm; rw [← this] at f4; revert f4; decide
    have same : ∀ p', p' ≠ .lAngleExclamDashDash → LongestPunct p' s →
        Reads t h (.punct p') bl (s.take (spelling p').length) →
        Reads t h (.punct p) bl (spelling p) := by
      intro p' hne' hl' hr
      have h1 := hlong.longest p' hne' hl'.spelled
      have h2 := hl'.longest p hne hlong.spelled
      obtain ⟨a, ha1⟩ := hlong.spelled
      obtain ⟨b, hb1⟩ := hl'.spelled
      have h3 := List.append_inj (ha1.trans hb1.symm) (by omega)
      have h4 := spelling_injective h3.1
      subst h4
      rw [← hb1, take_append_length _ _ rfl] at hr
      exact hr
    rcases ha.cases hv h with ⟨hw, -⟩ | ⟨-, q, hm, -⟩ | ⟨-, tok, n, hl, hbd, hr⟩
    · exact absurd hw hwide
    · exfalso
      cases hm with
      | wide _ h1 => exact hwide h1
      | number _ _ h1 =>
        cases h1 with
        | exponent d e rest _ hwf he _ =>
          cases hi : d.int with
          | nil =>
            obtain ⟨b, f, hf⟩ := hwf.leadingDot hi
            have hb := hwf.frac _ hf b (by simp)
            exact hnot (.inr (.inr (.inl ⟨b, f ++ (d.exp.elim [] Exponent.text ++ rest),
              by simp [Decimal.text, hi, hf], hb⟩)))
          | cons b r =>
            have hb := hwf.int b (by rw [hi]; simp)
            have hb' : b = c := hsc b _ (by simp only [Decimal.text, hi, List.cons_append]; rfl)
            exact f1 (hb' ▸ .inr hb)
        | _ => exact f1 (hsc _ _ rfl ▸ .inr (by decide))
      | template v => exact f3 (hsc _ _ rfl).symm
      | templateTail v ht => exact hnot (.inr (.inr (.inr (.inr ⟨by simp, ht⟩))))
      | comment v => exact hnot (.inr (.inl (by simp)))
      | regex s hx => exact hnot (.inr (.inr (.inr (.inl ⟨by simp, hx⟩))))
      | str q v e p hq => exact f2 (hsc _ _ rfl ▸ hq)
    · cases hl with
      | eof => exact absurd rfl hsne
      | punct p' _ hp => exact same p' hp.neHtml ⟨hp.pre, hp.longest⟩ hr
      | slash rest hx hc' he =>
        refine same .slash (by decide) ⟨by simp [spelling], ?_⟩ hr
        intro q hq hpre
        obtain ⟨r, h2⟩ := spelling_head (c := c!"/") hpre (by simp)
        cases q <;> simp [spelling] at h2 hpre he ⊢
        exact he hpre
      | slashEq rest hx =>
        refine same .slashEq (by decide) ⟨by simp [spelling], ?_⟩ hr
        intro q hq hpre
        obtain ⟨r, h2⟩ := spelling_head (c := c!"/") hpre (by simp)
        cases q <;> simp [spelling] at h2 hpre ⊢
      | curlyClose rest hx =>
        refine same .curlyClose (by decide) ⟨by simp [spelling], ?_⟩ hr
        intro q hq hpre
        obtain ⟨r, h2⟩ := spelling_head (c := c!"}") hpre (by simp)
        cases q <;> simp [spelling] at h2 hpre ⊢
      | line v e => exact absurd (.inl (by simp)) hnot
      | block v rest => exact absurd (.inr (.inl (by simp))) hnot
      | regex v flags rest hx => exact absurd (.inr (.inr (.inr (.inl ⟨by simp, hx⟩)))) hnot
      | str q v rest hq => exact absurd (hsc _ _ rfl ▸ hq) f2
      | strOpen q s hq => exact absurd (hsc _ _ rfl ▸ hq) f2
      | num v _ n h1 h2 h3 =>
        rcases h3 with ⟨b, r, rfl, hd⟩ | ⟨b, r, rfl, hd⟩
        · exact absurd (hsc _ _ rfl ▸ .inr hd) f1
        · exact absurd (.inr (.inr (.inl ⟨b, r, rfl, hd⟩))) hnot
      | templateTick v rest => exact absurd (hsc _ _ rfl).symm f3
      | templateCurly v rest => exact absurd (hsc _ _ rfl).symm f3
      | tailTick v rest ht => exact absurd (.inr (.inr (.inr (.inr ⟨by simp, ht⟩)))) hnot
      | tailCurly v rest ht => exact absurd (.inr (.inr (.inr (.inr ⟨by simp, ht⟩)))) hnot
      | newline b rest hb =>
        rcases hb with rfl | rfl
        · exact absurd (hsc _ _ rfl).symm f5
        · exact absurd (hsc _ _ rfl).symm f6
      | lsps _ h1 =>
        exfalso
        rcases h1 with ⟨r, rfl⟩ | ⟨r, rfl⟩ <;> have := hsc _ _ rfl <;> rw [← this] at f4 <;>
          revert f4 <;> decide
      | ident v rest h1 h2 h3 h4 =>
        cases v with
        | nil =>
          obtain ⟨b, r, rfl, h5, -⟩ := h4 rfl
          rw [hsc b r rfl, f7] at h5; cases h5
        | cons b v => exact absurd (hsc _ _ rfl ▸ h1 b (by simp)) f1

/-- **C08.** The punctuator `<!--` is never returned. -/
theorem C08_never_html {t : Tokenizer} (hv : Valid t) (h : Hint) (skip w : Bytes) :
    ¬ Reads t h (.punct .lAngleExclamDashDash) skip w := by
  intro hr
  obtain ⟨bl, s, ha⟩ := ahead t
  obtain ⟨rfl, hw, n, hl, hle, rfl, hrd⟩ := ha.inv hv hr
  generalize htok : Token.punct .lAngleExclamDashDash = tok at hl
  cases hl with
  | punct p' _ hp => cases htok; exact hp.neHtml rfl
  | _ => cases htok

/-- `>>>=` is read whole, not as `>>>` or `>`. -/
example : Reads (intoTokenizer true b!" >>>= x") {} (.punct .rAngleAngleAngleEq) b!" " b!">>>=" :=
  (C08_longest_punctuator (valid_intoTokenizer true (utf8_ascii (by decide))) (bl := b!" ")
    (s := b!">>>= x") rfl (by decide) (by intro b r h; cases h; decide) {} .rAngleAngleAngleEq).2
    ⟨by decide, ⟨⟨b!" x", rfl⟩, by intro q _ h; cases q <;> simp [spelling] at h ⊢⟩, by
      rintro (h | h | ⟨b, r, h, -⟩ | ⟨h, -⟩ | ⟨h, -⟩) <;> simp at h⟩

/-! ## C09 -/

/-- A statement about all bytes can be checked byte by byte. -/
theorem forall_byte {P : UInt8 → Prop} (h : ∀ n : Fin 256, P (UInt8.ofNat n)) (b : UInt8) : P b := by
  have := h ⟨b.toNat, b.toNat_lt⟩
  simpa using this

theorem identStart_special : ∀ b, IdentStart b → special b = false := by
  apply forall_byte
  decide +kernel

theorem identStart_notBlank {b : UInt8} (h : IdentStart b) : ¬ Blank b := by
  rintro (rfl | rfl | rfl | rfl) <;> revert h <;> decide

theorem ascii_notWide {b : UInt8} {r : Bytes} (h : b < 0x80) : ¬ StartsWide (b :: r) := by
  apply noWide_cons <;> rintro rfl <;> revert h <;> decide

theorem readNext_ident {checked : Bool} {h : Hint} {b : UInt8} {r : Bytes} (hb : IdentStart b) :
    readNext checked (b :: r) h = tokIdent (b :: r) := by
  have hs := identStart_special b hb
  have ha : b < 0x80 := identPart_ascii (.inl hb)
  have hd := readNext_dispatch checked (b :: r) h
  generalize readNext checked (b :: r) h = x at hd
  generalize hsr : b :: r = s at hd
  have key : ∀ c r', c :: r' = s → special c = true → False := by
    rintro c r' rfl h1
    simp only [List.cons.injEq] at hsr
    rw [← hsr.1, hs] at h1; cases h1
  have e2 : ∀ r', 0xE2 :: r' = s → False := by
    rintro r' rfl
    simp only [List.cons.injEq] at hsr
    rw [hsr.1] at ha; revert ha; decide
  cases hd with
  | eof => cases hsr
  | punct p _ hp =>
    obtain ⟨e, rfl⟩ := hp.pre
    cases hc : spelling p with
    | nil => cases p <;> simp [spelling] at hc
    | cons c r' =>
      exact (key c (r' ++ e) (by rw [hc]; rfl) (spelling_head_ne hc).2.2.2.2.2.2).elim
  | fractional c rest => exact (key _ _ rfl (by decide)).elim
  | slash rest => exact (key _ _ rfl (by decide)).elim
  | curly rest => exact (key _ _ rfl (by decide)).elim
  | str q rest hq => exact (key _ _ rfl (by rcases hq with rfl | rfl <;> decide)).elim
  | zero rest => exact (key _ _ rfl (by decide)).elim
  | num c rest hc =>
    refine (key _ _ rfl ?_).elim
    have h1 : c!"0" ≤ c := UInt8.le_trans (by decide) hc.1
    have h2 : c ≤ c!"9" := hc.2
    simp [special, h1, h2]
  | template rest => exact (key _ _ rfl (by decide)).elim
  | blank c rest hc => exact (key _ _ rfl (by rcases hc with rfl | rfl | rfl | rfl <;> decide)).elim
  | wide _ hw =>
    exfalso
    have : StartsWide s := by
      rcases hw with hw | hw
      · exact .inr ((startsWith_iff _ _).1 hw)
      · exact .inl ((startsWith_iff _ _).1 hw)
    rw [← hsr] at this
    exact ascii_notWide ha this
  | newline c rest hc => exact (key _ _ rfl (by rcases hc with rfl | rfl <;> decide)).elim
  | lsps _ h1 =>
    rcases (startsLSPS_iff s).1 h1 with ⟨r', rfl⟩ | ⟨r', rfl⟩
    · exact (e2 _ rfl).elim
    · exact (e2 _ rfl).elim
  | ident c rest => rfl

/-- **C09.** A text that starts with a letter, `$` or `_` gives the identifier made of the longest run
of identifier characters. -/
theorem C09_identifier {t : Tokenizer} (hv : Valid t) {bl : Bytes} {b : UInt8} {v rest : Bytes}
    (hu : unread t = bl ++ (b :: v ++ rest)) (hbl : Blanks bl) (hb : IdentStart b)
    (hp : ∀ x ∈ v, IdentPart x) (hr : ∀ x r, rest = x :: r → ¬ IdentPart x) (h : Hint) :
    Reads t h (.ident (b :: v)) bl (b :: v) := by
  have ha : Ahead t bl (b :: v ++ rest) := ⟨hu, hbl, noBlankHead_cons (identStart_notBlank hb)⟩
  have h8 := ha.utf8 hv
  have hp' : ∀ x ∈ b :: v, IdentPart x := by
    intro x hx
    rcases List.mem_cons.1 hx with rfl | hx
    · exact .inl hb
    · exact hp x hx
  have h1 : readNext t.checked (b :: v ++ rest) h = .ok (.ident (b :: v), (b :: v).length) := by
    rw [← tokIdent_eq h8 hp' hr]; exact readNext_ident hb
  have := ha.reads hv (ascii_notWide (identPart_ascii (.inl hb))) h1
    (ascii_boundary h8 fun x hx => identPart_ascii (hp' x hx))
  rwa [take_append_length _ _ rfl] at this

example : Reads (intoTokenizer true b!"  _a1$+b") {} (.ident b!"_a1$") b!"  " b!"_a1$" :=
  C09_identifier (valid_intoTokenizer true (utf8_ascii (by decide))) (bl := b!"  ") (b := c!"_")
    (v := b!"a1$") (rest := b!"+b") rfl (by decide) (by decide) (by decide)
    (by intro x r h; cases h; decide) {}

/-! ## C10 -/

/-- Reading at a slash. -/
theorem ahead_slash {t : Tokenizer} {bl s : Bytes} (hu : unread t = bl ++ c!"/" :: s) (hbl : Blanks bl) :
    Ahead t bl (c!"/" :: s) ∧ ¬ StartsWide (c!"/" :: s) :=
  ⟨⟨hu, hbl, noBlankHead_cons (by decide)⟩, ascii_notWide (by decide)⟩

/-- **C10.** A line comment extends to just before the first line terminator, or to the end. -/
theorem C10_line_comment {t : Tokenizer} (hv : Valid t) {bl v e : Bytes}
    (hu : unread t = bl ++ (b!"//" ++ v ++ e)) (hbl : Blanks bl) (hn : NowhereIn v e StartsLine)
    (he : e = [] ∨ StartsLine e) (h : Hint) : Reads t h (.comment .line v) bl (b!"//" ++ v) := by
  obtain ⟨ha, hw⟩ := ahead_slash (s := c!"/" :: (v ++ e)) hu hbl
  have h8 := ha.utf8 hv
  have h1 : readNext t.checked (c!"/" :: c!"/" :: (v ++ e)) h = .ok (.comment .line v, v.length + 2) :=
    tokSlash_line (h := h) h8 hn he
  have := ha.reads hv hw h1 ((Lexed.line (h := h) v e hn he).boundary h8)
  have h2 : c!"/" :: c!"/" :: (v ++ e) = (b!"//" ++ v) ++ e := rfl
  rwa [h2, take_append_length _ _ (by simp)] at this

/-- **C10.** Every text starting with `//` is of this kind. -/
theorem C10_line_comment_total (s : Bytes) :
    ∃ v e, s = v ++ e ∧ NowhereIn v e StartsLine ∧ (e = [] ∨ StartsLine e) := by
  rcases first_occurrence StartsLine s with ⟨v, e, h1, -, h2, h3⟩ | h
  · exact ⟨v, e, h1, h3, .inr h2⟩
  · exact ⟨s, [], by simp, h, .inl rfl⟩

/-- `// a` then LF: the comment ends before the LF. -/
example : Reads (intoTokenizer true b!"// a\nb") {} (.comment .line b!" a") [] b!"// a" := by
  refine C10_line_comment (valid_intoTokenizer true (utf8_ascii (by decide))) (bl := []) (v := b!" a")
    (e := b!"\nb") rfl (by decide) ?_ (.inr (by decide)) {}
  rw [nowhereIn_cons, nowhereIn_cons]
  exact ⟨by decide, by decide, nowhereIn_nil _ _⟩

/-! ## C11 -/

/-- **C11.** A block comment ends with the first `*/`. -/
theorem C11_block_comment {t : Tokenizer} (hv : Valid t) {bl v rest : Bytes}
    (hu : unread t = bl ++ (b!"/*" ++ v ++ b!"*/" ++ rest)) (hbl : Blanks bl)
    (hn : NowhereIn v (b!"*/" ++ rest) (b!"*/" <+: ·)) (h : Hint) :
    Reads t h (.comment .block v) bl (b!"/*" ++ v ++ b!"*/") := by
  obtain ⟨ha, hw⟩ := ahead_slash (s := c!"*" :: (v ++ (b!"*/" ++ rest))) (by rw [hu]; simp) hbl
  have h8 := ha.utf8 hv
  have h1 : readNext t.checked (c!"/" :: c!"*" :: (v ++ (b!"*/" ++ rest))) h = _ :=
    tokSlash_block (h := h) h8 hn
  have := ha.reads hv hw h1 ((Lexed.block (h := h) v rest hn).boundary h8)
  have h2 : c!"/" :: c!"*" :: (v ++ (b!"*/" ++ rest)) = (b!"/*" ++ v ++ b!"*/") ++ rest := by simp
  rwa [h2, take_append_length _ _ (by simp)] at this

/-- **C11.** The tokenizer panics on `/*` exactly if no `*/` follows. -/
theorem C11_unterminated_iff {t : Tokenizer} (hv : Valid t) {bl s : Bytes}
    (hu : unread t = bl ++ (b!"/*" ++ s)) (hbl : Blanks bl) (h : Hint) :
    (∃ p, PanicsWith t h p) ↔ ¬ b!"*/" <:+: s := by
  have hnow : NowhereIn s [] (b!"*/" <+: ·) ↔ ¬ b!"*/" <:+: s := by
    constructor
    · rintro hn ⟨a, c, rfl⟩
      exact hn a (b!"*/" ++ c) (by simp) (by simp) ⟨c, by simp⟩
    · rintro hn a b rfl _ ⟨c, hc⟩
      refine hn ⟨a, c, ?_⟩
      rw [List.append_nil] at hc
      rw [← hc]; simp
  obtain ⟨ha, hw⟩ := ahead_slash (s := c!"*" :: s) hu hbl
  rw [← hnow]
  constructor
  · rintro ⟨p, hp⟩
    rcases first_occurrence (b!"*/" <+: ·) s with ⟨v, e, rfl, -, ⟨e, rfl⟩, hn⟩ | hn
    · obtain ⟨r, t', h1, -⟩ := C11_block_comment hv (by rw [hu]; simp) hbl hn h
      unfold PanicsWith at hp
      rw [hp] at h1; cases h1
    · exact hn
  · intro hn
    exact ⟨_, ha.panics hv hw (p := .unterminatedComment) (tokSlash_block_none (h := h) hn)⟩

example : Reads (intoTokenizer true b!"/***/x*/") {} (.comment .block b!"*") [] b!"/***/" := by
  refine C11_block_comment (valid_intoTokenizer true (utf8_ascii (by decide))) (bl := []) (v := b!"*")
    (rest := b!"x*/") rfl (by decide) ?_ {}
  rw [nowhereIn_cons]
  exact ⟨by decide, nowhereIn_nil _ _⟩

example : ∃ p, PanicsWith (intoTokenizer true b!"/*/ x") {} p :=
  (C11_unterminated_iff (valid_intoTokenizer true (utf8_ascii (by decide))) (bl := []) (s := b!"/ x")
    rfl (by decide) {}).2 (by decide)

/-! ## C12 -/

/-- **C12.** A template that is closed by a backtick. -/
theorem C12_no_substitution {t : Tokenizer} (hv : Valid t) {bl v rest : Bytes}
    (hu : unread t = bl ++ (b!"`" ++ v ++ b!"`" ++ rest)) (hbl : Blanks bl)
    (hn : NowhereIn v (b!"`" ++ rest) TemplateStop) (h : Hint) :
    Reads t h (.template .noSubstitution v v) bl (b!"`" ++ v ++ b!"`") := by
  have ha : Ahead t bl (c!"`" :: (v ++ c!"`" :: rest)) :=
    ⟨by rw [hu]; simp, hbl, noBlankHead_cons (by decide)⟩
  have h8 := ha.utf8 hv
  have h1 : readNext t.checked (c!"`" :: (v ++ c!"`" :: rest)) h = _ := tokTemplateHead_tick h8 hn
  have := ha.reads hv (ascii_notWide (by decide)) h1
    ((Lexed.templateTick (h := h) v rest hn).boundary h8)
  have h2 : c!"`" :: (v ++ c!"`" :: rest) = (b!"`" ++ v ++ b!"`") ++ rest := by simp
  rwa [h2, take_append_length _ _ (by simp)] at this

/-- **C12.** A template head, up to the first `${`. -/
theorem C12_head {t : Tokenizer} (hv : Valid t) {bl v rest : Bytes}
    (hu : unread t = bl ++ (b!"`" ++ v ++ b!"${" ++ rest)) (hbl : Blanks bl)
    (hn : NowhereIn v (b!"${" ++ rest) TemplateStop) (h : Hint) :
    Reads t h (.template .head v v) bl (b!"`" ++ v ++ b!"${") := by
  have ha : Ahead t bl (c!"`" :: (v ++ c!"$" :: c!"{" :: rest)) :=
    ⟨by rw [hu]; simp, hbl, noBlankHead_cons (by decide)⟩
  have h8 := ha.utf8 hv
  have h1 : readNext t.checked (c!"`" :: (v ++ c!"$" :: c!"{" :: rest)) h = _ :=
    tokTemplateHead_curly h8 hn
  have := ha.reads hv (ascii_notWide (by decide)) h1
    ((Lexed.templateCurly (h := h) v rest hn).boundary h8)
  have h2 : c!"`" :: (v ++ c!"$" :: c!"{" :: rest) = (b!"`" ++ v ++ b!"${") ++ rest := by simp
  rwa [h2, take_append_length _ _ (by simp)] at this

/-- **C12.** A template continuation (closing brace with the template hint) closed by a backtick. -/
theorem C12_tail {t : Tokenizer} (hv : Valid t) {bl v rest : Bytes}
    (hu : unread t = bl ++ (b!"}" ++ v ++ b!"`" ++ rest)) (hbl : Blanks bl)
    (hn : NowhereIn v (b!"`" ++ rest) TemplateStop) {h : Hint} (ht : h.template = true) :
    Reads t h (.template .tail v v) bl (b!"}" ++ v ++ b!"`") := by
  have ha : Ahead t bl (c!"}" :: (v ++ c!"`" :: rest)) :=
    ⟨by rw [hu]; simp, hbl, noBlankHead_cons (by decide)⟩
  have h8 := ha.utf8 hv
  have h1 : readNext t.checked (c!"}" :: (v ++ c!"`" :: rest)) h = _ := tokCurlyClose_tick ht h8 hn
  have := ha.reads hv (ascii_notWide (by decide)) h1
    ((Lexed.tailTick (h := h) v rest ht hn).boundary h8)
  have h2 : c!"}" :: (v ++ c!"`" :: rest) = (b!"}" ++ v ++ b!"`") ++ rest := by simp
  rwa [h2, take_append_length _ _ (by simp)] at this

/-- **C12.** A template continuation up to the next `${`. -/
theorem C12_middle {t : Tokenizer} (hv : Valid t) {bl v rest : Bytes}
    (hu : unread t = bl ++ (b!"}" ++ v ++ b!"${" ++ rest)) (hbl : Blanks bl)
    (hn : NowhereIn v (b!"${" ++ rest) TemplateStop) {h : Hint} (ht : h.template = true) :
    Reads t h (.template .middle v v) bl (b!"}" ++ v ++ b!"${") := by
  have ha : Ahead t bl (c!"}" :: (v ++ c!"$" :: c!"{" :: rest)) :=
    ⟨by rw [hu]; simp, hbl, noBlankHead_cons (by decide)⟩
  have h8 := ha.utf8 hv
  have h1 : readNext t.checked (c!"}" :: (v ++ c!"$" :: c!"{" :: rest)) h = _ :=
    tokCurlyClose_curly ht h8 hn
  have := ha.reads hv (ascii_notWide (by decide)) h1
    ((Lexed.tailCurly (h := h) v rest ht hn).boundary h8)
  have h2 : c!"}" :: (v ++ c!"$" :: c!"{" :: rest) = (b!"}" ++ v ++ b!"${") ++ rest := by simp
  rwa [h2, take_append_length _ _ (by simp)] at this

/-- **C12.** At a backtick, or at a closing brace with the template hint, the tokenizer panics exactly
if neither a backtick nor `${` follows. -/
theorem C12_unterminated_iff {t : Tokenizer} (hv : Valid t) {bl s : Bytes} {c : UInt8} {h : Hint}
    (hc : c = c!"`" ∨ (c = c!"}" ∧ h.template = true)) (hu : unread t = bl ++ c :: s)
    (hbl : Blanks bl) :
    (∃ p, PanicsWith t h p) ↔ ¬ b!"`" <:+: s ∧ ¬ b!"${" <:+: s := by
  have hnow : NowhereIn s [] TemplateStop ↔ ¬ b!"`" <:+: s ∧ ¬ b!"${" <:+: s := by
    constructor
    · intro hn
      constructor
      · rintro ⟨a, c, rfl⟩
        exact hn a (b!"`" ++ c) (by simp) (by simp) (.inl ⟨c, by simp⟩)
      · rintro ⟨a, c, rfl⟩
        exact hn a (b!"${" ++ c) (by simp) (by simp) (.inr ⟨c, by simp⟩)
    · rintro ⟨h1, h2⟩ a b rfl _ (⟨c, hc⟩ | ⟨c, hc⟩)
      · refine h1 ⟨a, c, ?_⟩
        rw [List.append_nil] at hc
        rw [← hc]; simp
      · refine h2 ⟨a, c, ?_⟩
        rw [List.append_nil] at hc
        rw [← hc]; simp
  rw [← hnow]
  have hnp : ∀ tok w, Reads t h tok bl w → ¬ ∃ p, PanicsWith t h p := by
    rintro tok w ⟨r, t', h1, -⟩ ⟨p, hp⟩
    unfold PanicsWith at hp
    rw [hp] at h1; cases h1
  constructor
  · intro hp
    rcases template_cases s with ⟨v, rest, rfl, hn⟩ | ⟨v, rest, rfl, hn⟩ | hn
    · rcases hc with rfl | ⟨rfl, ht⟩
      · exact absurd hp (hnp _ _ (C12_no_substitution hv (by rw [hu]; simp) hbl hn h))
      · exact absurd hp (hnp _ _ (C12_tail hv (by rw [hu]; simp) hbl hn ht))
    · rcases hc with rfl | ⟨rfl, ht⟩
      · exact absurd hp (hnp _ _ (C12_head hv (by rw [hu]; simp) hbl hn h))
      · exact absurd hp (hnp _ _ (C12_middle hv (by rw [hu]; simp) hbl hn ht))
    · exact hn
  · intro hn
    rcases hc with rfl | ⟨rfl, ht⟩
    · have ha : Ahead t bl (c!"`" :: s) := ⟨hu, hbl, noBlankHead_cons (by decide)⟩
      exact ⟨_, ha.panics hv (ascii_notWide (by decide)) (p := .unterminatedTemplate)
        (tokTemplateHead_none hn)⟩
    · have ha : Ahead t bl (c!"}" :: s) := ⟨hu, hbl, noBlankHead_cons (by decide)⟩
      exact ⟨_, ha.panics hv (ascii_notWide (by decide)) (p := .unterminatedTemplateTail)
        (tokCurlyClose_none ht hn)⟩

/-- **C12**, the deviation from JavaScript: a backslash does not protect a backtick. -/
theorem C12_backslash_ignored :
    Reads (intoTokenizer true b!"`a\\`b`") {} (.template .noSubstitution b!"a\\" b!"a\\") []
      b!"`a\\`" :=
  ⟨_, _, rfl, rfl, rfl, rfl, rfl, rfl, rfl⟩

/-- `` `a$b${ `` is a head: a lone `$` does not end it. -/
example : Reads (intoTokenizer true b!"`a$b${x}`") {} (.template .head b!"a$b" b!"a$b") []
    b!"`a$b${" := by
  refine C12_head (valid_intoTokenizer true (utf8_ascii (by decide))) (bl := []) (v := b!"a$b")
    (rest := b!"x}`") rfl (by decide) ?_ {}
  simp only [nowhereIn_cons, TemplateStop]
  exact ⟨by decide, by decide, by decide, nowhereIn_nil _ _⟩

example : ∃ p, PanicsWith (intoTokenizer true b!"`a$b") {} p :=
  (C12_unterminated_iff (valid_intoTokenizer true (utf8_ascii (by decide))) (bl := []) (s := b!"a$b")
    (.inl rfl) rfl (by decide)).2 (by decide)

/-! ## C13 -/

/-- **C13.** With the expression hint, a slash that opens no comment starts a regular expression: the
body extends to the first slash outside of escapes and classes, the flags are the longest run of
lowercase letters. -/
theorem C13_regex {t : Tokenizer} (hv : Valid t) {bl v flags rest : Bytes}
    (hu : unread t = bl ++ (b!"/" ++ v ++ b!"/" ++ flags ++ rest)) (hbl : Blanks bl)
    (hb : RegexBody v) (h1 : v ≠ []) (h2 : ¬ b!"*" <+: v)
    (hf : ∀ b ∈ flags, Lower b) (hr : ∀ b r, rest = b :: r → ¬ Lower b)
    {h : Hint} (hx : h.expression = true) :
    Reads t h (.regex v flags) bl (b!"/" ++ v ++ b!"/" ++ flags) := by
  obtain ⟨ha, hw⟩ := ahead_slash (s := v ++ c!"/" :: (flags ++ rest)) (by rw [hu]; simp) hbl
  have hc : NoComment (v ++ c!"/" :: (flags ++ rest)) := by
    cases hb with
    | nil => exact absurd rfl h1
    | esc b v => exact ⟨by simp, by simp⟩
    | cls c v => exact ⟨by simp, by simp⟩
    | char b v g1 g2 g3 =>
      simp only [List.cons_prefix_cons, List.nil_prefix, and_true] at h2
      refine ⟨?_, ?_⟩ <;> simp only [List.cons_append, List.cons_prefix_cons, List.nil_prefix, and_true]
      · exact fun h => g2 h.symm
      · exact h2
  have h8 := ha.utf8 hv
  have e1 : readNext t.checked (c!"/" :: (v ++ c!"/" :: (flags ++ rest))) h = _ :=
    tokSlash_regex hx h8 hc hb hf hr
  have := ha.reads hv hw e1 ((Lexed.regex (h := h) v flags rest hx hc hb hf hr).boundary h8)
  have e2 : c!"/" :: (v ++ c!"/" :: (flags ++ rest)) = (b!"/" ++ v ++ b!"/" ++ flags) ++ rest := by
    simp
  rwa [e2, take_append_length _ _ (by simp; omega)] at this

/-- **C13.** It panics exactly if there is no such slash. -/
theorem C13_unterminated_iff {t : Tokenizer} (hv : Valid t) {bl s : Bytes}
    (hu : unread t = bl ++ (b!"/" ++ s)) (hbl : Blanks bl) (h1 : ¬ b!"/" <+: s) (h2 : ¬ b!"*" <+: s)
    {h : Hint} (hx : h.expression = true) :
    (∃ p, PanicsWith t h p) ↔ ∀ v rest, s = v ++ b!"/" ++ rest → ¬ RegexBody v := by
  obtain ⟨ha, hw⟩ := ahead_slash (s := s) hu hbl
  constructor
  · rintro ⟨p, hp⟩ v rest rfl hb
    obtain ⟨flags, rest, rfl, hf, hr⟩ := run_split Lower rest
    have hv1 : v ≠ [] := by rintro rfl; simp at h1
    have hv2 : ¬ b!"*" <+: v := by
      rintro ⟨r, rfl⟩; simp at h2
    obtain ⟨r, t', e1, -⟩ := C13_regex hv (bl := bl) (v := v) (flags := flags) (rest := rest)
      (by rw [hu]; simp) hbl hb hv1 hv2 hf hr hx
    unfold PanicsWith at hp
    rw [hp] at e1; cases e1
  · intro hn
    exact ⟨_, ha.panics hv hw (p := .unterminatedRegex)
      (tokSlash_regex_none hx ⟨h1, h2⟩ fun v rest h => hn v rest (by rw [h]; simp))⟩

/-- `/[/]\//g` : neither the slash in the class nor the escaped one ends the body. -/
example : Reads (intoTokenizer true b!"/[/]\\//g.x") { expression := true }
    (.regex b!"[/]\\/" b!"g") [] b!"/[/]\\//g" :=
  C13_regex (valid_intoTokenizer true (utf8_ascii (by decide))) (bl := []) (v := b!"[/]\\/")
    (flags := b!"g") (rest := b!".x") rfl (by decide)
    (.cls b!"/" b!"\\/" (.char _ _ (by decide) (by decide) .nil) (.esc _ _ .nil)) (by decide) (by decide)
    (by intro b hb; simp at hb; subst hb; exact ⟨by decide, by decide⟩)
    (by intro b r h; cases h; unfold Lower; decide) rfl

end Jsparse
