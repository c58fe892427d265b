import Verif.Proofs.PrinterInv
/-!
# How the text of an expression begins

The lookahead restrictions of the formatter keep the beginnings away that the grammar forbids.
-/

namespace Jsparse.Ast

open Jsparse.Spec

/-- From `a` to `b` pieces were written that begin as `l` allows, whatever comes after. -/
def Opens (l : Look) (a b : List Piece) : Prop :=
  ∃ ps, b = a ++ ps ∧ ∀ more, forbidden l (strip ps ++ more) = false

/-- From `a` to `b` one name was written, or what `Opens` says. -/
def Starts (l : Look) (a b : List Piece) : Prop :=
  (∃ ps n, b = a ++ ps ∧ strip ps = [.ident n]) ∨ Opens l a b

/-- A piece that no restriction is about. -/
def harmless : Piece → Bool
  | .kw k => !(k = .«function» || k = .«class» || k = .«async»)
  | .punct p => p != .curlyL
  | .ident _ => false
  | .space => false
  | _ => true

theorem strip_append (a b : List Piece) : strip (a ++ b) = strip a ++ strip b := by
  simp [strip]

theorem forbidden_harmless {p : Piece} (h : harmless p = true) (l : Look) (more : List Piece) :
    forbidden l (p :: more) = false := by
  cases p with
  | kw k => cases k <;> first | (simp [harmless] at h; done) | (cases l <;> rfl)
  | punct q => cases q <;> first | (simp [harmless] at h; done) | (cases l <;> rfl)
  | ident t => cases h
  | space => cases h
  | _ => cases l <;> rfl

theorem forbidden_ident {l : Look} (hl : l ≠ .forOfInit) (n : Bytes) {q : Piece}
    (hq : q ≠ .punct .squareL) (more : List Piece) :
    forbidden l (.ident n :: q :: more) = false := by
  have : beginsLetSquare (.ident n :: q :: more) = false := by
    unfold beginsLetSquare
    split
    · rename_i h
      simp at h
      exact absurd h.2.1 hq
    · rfl
  cases l <;> first | exact absurd rfl hl | simp [forbidden, beginsDeclaration, beginsCurly, this]

theorem opens_harmless (l : Look) {a b sp rest : List Piece} {p : Piece} (hp : harmless p = true)
    (h : b = a ++ sp ++ p :: rest) (hs : strip sp = []) : Opens l a b := by
  refine ⟨sp ++ p :: rest, by rw [h, List.append_assoc], fun more => ?_⟩
  have : strip (p :: rest) = p :: strip rest := by
    cases p <;> simp [harmless] at hp <;> simp [strip]
  rw [strip_append, hs, List.nil_append, this]
  exact forbidden_harmless hp l _

theorem Opens.ext {l : Look} {a b c : List Piece} (h : Opens l a b) (hc : ∃ ps, c = b ++ ps) :
    Opens l a c := by
  obtain ⟨ps, rfl, h⟩ := h
  obtain ⟨qs, rfl⟩ := hc
  refine ⟨ps ++ qs, by rw [List.append_assoc], fun more => ?_⟩
  rw [strip_append, List.append_assoc]
  exact h _

theorem Starts.next {l : Look} (hl : l ≠ .forOfInit) {a b c sp rest : List Piece} {q : Piece}
    (h : Starts l a b) (hc : c = b ++ sp ++ q :: rest) (hs : strip sp = [])
    (hq : q ≠ .punct .squareL) (hq' : q ≠ .space) : Opens l a c := by
  rcases h with ⟨ps, n, rfl, hn⟩ | h
  · refine ⟨ps ++ sp ++ q :: rest, by rw [hc]; simp, fun more => ?_⟩
    have : strip (q :: rest) = q :: strip rest := by
      simp [strip, hq']
    rw [strip_append, strip_append, hn, hs, List.append_nil, this]
    exact forbidden_ident hl n hq _
  · exact h.ext ⟨sp ++ q :: rest, by rw [hc, List.append_assoc]⟩

theorem Kept.ext {f g : Fmt} (h : Kept f g) : ∃ ps, g.output = f.output ++ ps :=
  let ⟨ps, h, _⟩ := h.output; ⟨ps, h⟩

theorem Opens.kept {l : Look} {a : List Piece} {f g : Fmt} (h : Opens l a f.output)
    (hk : Kept f g) : Opens l a g.output := h.ext hk.ext

section
variable {l : Look} (hl : l ≠ .forOfInit) {a : List Piece} {f : Fmt}

theorem Opens.keyword {k : Keyword} (hk : harmless (.kw k) = true) :
    Opens l f.output (f.keyword k).output := by
  obtain ⟨sp, h, hs⟩ := keyword_output k f
  exact opens_harmless l (rest := []) hk h hs

theorem Opens.punct {p : Punct} (hp : harmless (.punct p) = true) :
    Opens l f.output (f.punctuator p).output :=
  opens_harmless l (sp := []) (rest := []) hp (by simp [Fmt.punctuator, Fmt.write]) rfl

theorem Opens.parens {body : Fmt → Fmt} (hb : ∀ f, Kept f (body f)) :
    Opens l f.output (f.wrapParensInner true body).output := by
  obtain ⟨ps, h⟩ := (hb ({ f with
    prec := .normal, inOperator := true, wrapStandaloneIf := false }.punctuator .parenL)).ext
  refine opens_harmless l (p := .punct .parenL) (sp := []) (rest := ps ++ [.punct .parenR]) rfl ?_
    rfl
  simp only [Fmt.wrapParensInner, Fmt.punctuator, Fmt.write] at h ⊢
  simp [h]

theorem Opens.inner {w : Bool} {body : Fmt → Fmt} (hb : ∀ f, Kept f (body f))
    (h : w = false → Opens l f.output (body f).output) :
    Opens l f.output (f.wrapParensInner w body).output := by
  cases w with
  | true => exact .parens hb
  | false => exact h rfl

include hl

theorem Starts.keyword {k : Keyword} (h : Starts l a f.output) :
    Opens l a (f.keyword k).output := by
  obtain ⟨sp, e, hs⟩ := keyword_output k f
  exact h.next hl (rest := []) e hs nofun nofun

theorem Starts.punct {p : Punct} (hp : p ≠ .squareL) (h : Starts l a f.output) :
    Opens l a (f.punctuator p).output :=
  h.next hl (sp := []) (rest := []) (q := .punct p) (by simp [Fmt.punctuator, Fmt.write]) rfl
    (fun e => hp (Piece.punct.inj e)) nofun

theorem Starts.binOp {op : BinOp} (h : Starts l a f.output) : Opens l a (op.fmt f).output := by
  cases op <;> first | exact h.punct hl nofun | exact h.keyword hl

theorem Starts.parens {body : Fmt → Fmt} (hb : ∀ f, Kept f (body f)) (h : Starts l a f.output) :
    Opens l a (f.wrapParens body).output := by
  obtain ⟨ps, e⟩ := (hb ({ f with
    prec := .normal, inOperator := true, wrapStandaloneIf := false }.punctuator .parenL)).ext
  refine h.next hl (sp := []) (q := .punct .parenL) (rest := ps ++ [.punct .parenR]) ?_ rfl nofun
    nofun
  simp only [Fmt.wrapParens, Fmt.wrapParensInner, Fmt.punctuator, Fmt.write] at e ⊢
  simp [e]

end

/-- The text of `e` is one name or begins as it may. -/
def BeginsWell (e : Node) : Prop :=
  ∀ l ≠ Look.forOfInit, ∀ f : Fmt, f.look = some l →
    (∃ n, e = .ident n) ∨ Opens l f.output (e.fmt f).output

theorem BeginsWell.starts {e : Node} (h : BeginsWell e) {l : Look} (hl : l ≠ .forOfInit) {f : Fmt}
    (hf : f.look = some l) : Starts l f.output (e.fmt f).output := by
  rcases h l hl f hf with ⟨n, rfl⟩ | h
  · obtain ⟨ps, a, b⟩ := identifier_output n f
    refine .inl ⟨ps ++ [.ident n], n, ?_, ?_⟩
    · simp only [Node.fmt]
      rw [a, List.append_assoc]
    · rw [strip_append, b]
      rfl
  · exact .inr h

theorem BeginsWell.startsReq {e : Node} (h : BeginsWell e) {l : Look} (hl : l ≠ .forOfInit)
    {f : Fmt} (hf : f.look = some l) (p : Prec) :
    Starts l f.output (f.requirePrecedence p e.fmt).output :=
  h.starts hl (f := { f with prec := p }) hf

theorem Opens.string {l : Look} {f : Fmt} (t : Bytes) : Opens l f.output (f.string t).output :=
  opens_harmless l (p := .punct .sQuote) (sp := []) (rest := [.raw t, .punct .sQuote]) rfl
    (by simp [Fmt.string, Fmt.punctuator, Fmt.write]) rfl

theorem Opens.number {l : Look} {f : Fmt} (t : Bytes) : Opens l f.output (f.number t).output := by
  obtain ⟨sp, h, hs⟩ := number_output t f
  exact opens_harmless l (rest := []) rfl h hs

theorem Opens.square {l : Look} {f : Fmt} {body : Fmt → Fmt} (hb : ∀ f, Kept f (body f)) :
    Opens l f.output (f.wrapSquare body).output := by
  obtain ⟨ps, h⟩ := (hb ({ f with
    wrapStandaloneIf := false, inOperator := true }.punctuator .squareL)).ext
  refine opens_harmless l (p := .punct .squareL) (sp := []) (rest := ps ++ [.punct .squareR]) rfl ?_
    rfl
  simp only [Fmt.wrapSquare, Fmt.wrapBy, Fmt.punctuator, Fmt.write] at h ⊢
  simp [h]

theorem Opens.curly {l : Look} (hl : l = .exportDefault ∨ l = .forInit) {f : Fmt}
    {body : Fmt → Fmt} (hb : ∀ f, Kept f (body f)) :
    Opens l f.output (f.wrapCurly body).output := by
  obtain ⟨ps, h⟩ := (hb ({ f with
    wrapStandaloneIf := false, inOperator := true }.punctuator .curlyL)).ext
  refine ⟨.punct .curlyL :: ps ++ [.punct .curlyR], ?_, fun more => ?_⟩
  · simp only [Fmt.wrapCurly, Fmt.wrapBy, Fmt.punctuator, Fmt.write] at h ⊢
    simp [h]
  · rw [List.cons_append]
    rcases hl with rfl | rfl <;> simp [strip, forbidden, beginsDeclaration, beginsLetSquare]

theorem curly_allowed {l : Look} (hl : l ≠ .forOfInit)
    (h : LookSeq.curly.forbidden (some l) = false) : l = .exportDefault ∨ l = .forInit := by
  cases l <;> simp_all [LookSeq.forbidden]

theorem restrictLookahead_output (l : Look) (body : Fmt → Fmt) (f : Fmt) :
    (f.restrictLookahead l body).output = (body { f with look := some l }).output := by
  unfold Fmt.restrictLookahead
  simp only
  split <;> rfl

/-- The printers only append. -/
theorem Node.kept (n : Node) (f : Fmt) : Kept f (n.fmt f) := Node.closed closed_kept n f

theorem Opens.wrap {l : Look} {f : Fmt} {body : Fmt → Fmt} (hb : ∀ f, Kept f (body f)) :
    Opens l f.output (f.wrapParens body).output := .parens hb

theorem Opens.unOp {l : Look} {f : Fmt} (op : UnOp) : Opens l f.output (op.fmt f).output := by
  cases op <;> first | exact .keyword rfl | exact .punct rfl

theorem Opens.regexp {l : Look} {f : Fmt} (v t : Bytes) :
    Opens l f.output (f.regexp v t).output :=
  opens_harmless l (p := .punct .slash) (sp := []) (rest := [.raw v, .punct .slash, .raw t]) rfl
    (by simp [Fmt.regexp, Fmt.punctuator, Fmt.write]) rfl

theorem Opens.pattern {l : Look} (h : l = .exportDefault ∨ l = .forInit) {f : Fmt} (p : Prec)
    (items : Nodes) (last : Node) :
    Opens l f.output (f.requirePrecedence p fun f => f.wrapCurly fun f =>
      last.fmt (items.fmtComma f)).output :=
  Opens.curly (f := { f with prec := p }) h fun _ =>
    closed_kept.trans (Nodes.closedComma closed_kept _ _) (Node.closed closed_kept _ _)

theorem Opens.arrayPattern {l : Look} {f : Fmt} (p : Prec) (items : Nodes) (last : Node) :
    Opens l f.output (f.requirePrecedence p fun f => f.wrapSquare fun f =>
      last.fmt (items.fmtComma f)).output :=
  Opens.square (f := { f with prec := p }) fun _ =>
    closed_kept.trans (Nodes.closedComma closed_kept _ _) (Node.closed closed_kept _ _)

/-- `function` and `async function`, where they are allowed. -/
theorem Opens.fnKind {l : Look} (hl : l ≠ .forOfInit)
    (h : LookSeq.declaration.forbidden (some l) = false) {f : Fmt} (kind : FnKind) :
    Opens l f.output (kind.fmt f).output := by
  have hl' : l = .forInit ∨ l = .conciseBody := by
    cases l <;> simp_all [LookSeq.forbidden]
  have key : ∀ (k : Keyword), (k = .«function» ∨ k = .«async») →
      Opens l f.output (f.keyword k).output := by
    intro k hk
    obtain ⟨sp, e, hs⟩ := keyword_output k f
    refine ⟨sp ++ [.kw k], by rw [e, List.append_assoc], fun more => ?_⟩
    rw [strip_append, hs]
    rcases hl' with rfl | rfl <;> rcases hk with rfl | rfl <;>
      simp [strip, forbidden, beginsLetSquare, beginsCurly]
  cases kind
  · exact key _ (.inl rfl)
  · exact (key _ (.inl rfl)).kept (closed_kept.punct _ _ rfl)
  · exact (key _ (.inr rfl)).kept (closed_kept.keyword _ _)
  · exact (key _ (.inr rfl)).kept
      (closed_kept.trans (closed_kept.keyword _ _) (closed_kept.punct _ _ rfl))

/-- `class`, where it is allowed. -/
theorem Opens.classKeyword {l : Look} (hl : l ≠ .forOfInit)
    (h : LookSeq.declaration.forbidden (some l) = false) {f : Fmt} :
    Opens l f.output (f.keyword .«class»).output := by
  have hl' : l = .forInit ∨ l = .conciseBody := by
    cases l <;> simp_all [LookSeq.forbidden]
  obtain ⟨sp, e, hs⟩ := keyword_output .«class» f
  refine ⟨sp ++ [.kw .«class»], by rw [e, List.append_assoc], fun more => ?_⟩
  rw [strip_append, hs]
  rcases hl' with rfl | rfl <;> simp [strip, forbidden, beginsLetSquare, beginsCurly]

/-- `async` and something else than `function`. -/
theorem opens_async {l : Look} {a b sp rest : List Piece} {q : Piece}
    (h : b = a ++ sp ++ .kw .«async» :: q :: rest) (hs : strip sp = [])
    (hq : q ≠ .kw .«function») (hq' : q ≠ .space) : Opens l a b := by
  refine ⟨sp ++ .kw .«async» :: q :: rest, by rw [h, List.append_assoc], fun more => ?_⟩
  have : strip (.kw .«async» :: q :: rest) = .kw .«async» :: q :: strip rest := by
    simp [strip, hq']
  rw [strip_append, hs, List.nil_append, this]
  have hd : beginsDeclaration (.kw .«async» :: q :: (strip rest ++ more)) = false := by
    unfold beginsDeclaration
    split
    · simp_all
    · simp_all
    · rename_i h
      simp at h
      exact absurd h.1 hq
    · rfl
  cases l <;> simp [forbidden, hd, beginsCurly, beginsLetSquare, beginsLet]

theorem opens_async_parens {l : Look} {f : Fmt} {body : Fmt → Fmt} (hb : ∀ f, Kept f (body f)) :
    Opens l f.output ((f.keyword .«async»).wrapParens body).output := by
  obtain ⟨sp, h, hs⟩ := keyword_output .«async» f
  obtain ⟨ps, e⟩ := (hb ({ f.keyword .«async» with
    prec := .normal, inOperator := true, wrapStandaloneIf := false }.punctuator .parenL)).ext
  refine opens_async (sp := sp) (q := .punct .parenL) (rest := ps ++ [.punct .parenR]) ?_ hs nofun
    nofun
  have : ((f.keyword .«async»).wrapParens body).output =
      ((f.keyword .«async»).output ++ [.punct .parenL]) ++ ps ++ [.punct .parenR] := by
    simp only [Fmt.wrapParens, Fmt.wrapParensInner, Fmt.punctuator, Fmt.write] at e ⊢
    simp [e]
  rw [this, h]
  simp

theorem opens_async_ident {l : Look} {f : Fmt} (n : Bytes) :
    Opens l f.output ((f.keyword .«async»).identifier n).output := by
  obtain ⟨sp, h, hs⟩ := keyword_output .«async» f
  have : ((f.keyword .«async»).identifier n).output =
      (f.keyword .«async»).output ++ [.space, .ident n] := by
    simp [Fmt.keyword, Fmt.identifier, Fmt.separate, Fmt.write]
  refine ⟨sp ++ [.kw .«async», .space, .ident n], by rw [this, h]; simp, fun more => ?_⟩
  rw [strip_append, hs]
  cases l <;> simp [strip, forbidden, beginsDeclaration, beginsCurly, beginsLetSquare, beginsLet]

/-- A computed member of a name, if not in parentheses. -/
theorem opens_computed {l : Look} (hl : l ≠ .forOfInit) {f : Fmt} (n : Bytes) {p : Prec}
    {access : Fmt → Fmt} (hn : l ≠ .exportDefault → l ≠ .conciseBody → n ≠ b!"let")
    (ha : ∀ f, Kept f (access f)) :
    Opens l f.output (access (f.requirePrecedence p (Node.ident n).fmt)).output := by
  refine Opens.kept ?_ (ha _)
  obtain ⟨sp, h, hs⟩ := identifier_output n { f with prec := p }
  have e : (f.requirePrecedence p (Node.ident n).fmt).output = f.output ++ sp ++ [.ident n] := by
    have : (Node.ident n).fmt = Fmt.identifier n := by funext g; simp only [Node.fmt]
    rw [this]
    exact h
  refine ⟨sp ++ [.ident n], by rw [e, List.append_assoc], fun more => ?_⟩
  rw [strip_append, hs]
  have hsq : n ≠ b!"let" → beginsLetSquare (.ident n :: more) = false := by
    intro hn
    unfold beginsLetSquare
    split
    · rename_i h
      simp at h
      simp [← h.1, hn]
    · rfl
  cases l <;> simp_all [strip, forbidden, beginsDeclaration, beginsCurly]

/-- `Kept f (…)` for a composition of printers. -/
macro "kept" : tactic => `(tactic| (intros; (try dsimp only); through closed_kept))

seal Fmt.keyword Fmt.punctuator Fmt.identifier Fmt.string Fmt.number Fmt.regexp Fmt.templatePart
  Fmt.wrapParensInner Fmt.wrapParens Fmt.precedence Fmt.requirePrecedence Fmt.restrictLookahead
  Fmt.lookaheadWrapParens Fmt.allowIn Fmt.disallowIn Fmt.inWrapParens Fmt.wrapCurly Fmt.wrapSquare
  Fmt.disallowOrphanIf Fmt.wrapOrphanIf BinOp.fmt UnOp.fmt Meta.fmt FnKind.fmt FnKind.fmtArrowHead
  in
set_option maxHeartbeats 1000000 in
theorem beginsWell (e : Node) (he : beginsAsExpr e = true) : BeginsWell e := by
  fun_induction beginsAsExpr e
  case case1 n => exact fun _ _ _ _ => .inl ⟨n, rfl⟩
  case case46 => cases he
  all_goals
    intro l hl f hf
    refine .inr ?_
    simp only [Node.fmt, Fmt.precedence, Fmt.lookaheadWrapParens, Fmt.inWrapParens]
  case case2 => exact .keyword rfl
  case case3 => exact .keyword rfl
  case case4 b => cases b <;> exact .keyword rfl
  case case5 t => exact .number t
  case case6 t => exact .string t
  case case7 v t =>
    exact .regexp v t
  case case8 e => exact .wrap (by kept)
  case case9 tag parts last ih =>
    refine Opens.kept (f := (f.requirePrecedence .member tag.fmt).punctuator .templateTick) ?_ ?_
    · exact ((ih he).startsReq hl hf _).punct hl nofun
    · kept
  case case10 parts last =>
    refine Opens.kept (f := f.punctuator .templateTick) (.punct rfl) ?_
    kept
  case case11 callee items last ih =>
    exact ((ih he).startsReq hl hf _).parens hl (by kept)
  case case12 callee args ih =>
    exact (((ih he).startsReq hl hf _).punct hl (p := .questionPeriod) nofun).kept (by kept)
  case case13 => exact .inner (by kept) fun _ => (Opens.keyword (k := .«new») rfl).kept (by kept)
  case case14 => exact .inner (by kept) fun _ => (Opens.keyword (k := .«new») rfl).kept (by kept)
  case case15 => exact (Opens.keyword (k := .«import») rfl).kept (by kept)
  case case16 => exact (Opens.keyword (k := .super) rfl).kept (by kept)
  case case17 => exact (Opens.keyword (k := .super) rfl).kept (by kept)
  case case18 object id ih =>
    exact .inner (by kept) fun _ => (((ih he).startsReq hl hf _).punct hl (p := .period) nofun).kept (by kept)
  case case19 object e ih =>
    refine .inner (by kept) fun h => ?_
    rw [hf] at h
    rcases ih he l hl { f with prec := .member } hf with ⟨n, rfl⟩ | ho
    · refine opens_computed hl n ?_ (by kept)
      rintro h1 h2 rfl
      cases l <;> simp_all [Node.sequence, LookSeq.forbidden]
    · have : Opens l f.output (f.requirePrecedence .member object.fmt).output := by
        simpa only [Fmt.requirePrecedence] using ho
      exact this.kept (by kept)
  case case20 object id ih =>
    exact .inner (by kept) fun _ => (((ih he).startsReq hl hf _).punct hl (p := .period) nofun).kept (by kept)
  case case21 object access ih =>
    exact (((ih he).startsReq hl hf _).punct hl (p := .question) nofun).kept (by kept)
  case case22 inc v ih =>
    cases inc <;> exact ((ih he).startsReq hl hf _).punct hl nofun
  case case23 inc v =>
    refine Opens.kept (f := f.punctuator (if inc then .plusPlus else .minusMinus)) ?_ (by kept)
    cases inc <;> exact .punct rfl
  case case24 op v =>
    exact .inner (by kept) fun _ => Opens.kept (f := op.fmt f) (.unOp op) (by kept)
  case case25 => exact .inner (by kept) fun _ => (Opens.keyword (k := .yield) rfl).kept (by kept)
  case case26 => exact .inner (by kept) fun _ => (Opens.keyword (k := .yield) rfl).kept (by kept)
  case case27 => exact .inner (by kept) fun _ => (Opens.punct (p := .bind) rfl).kept (by kept)
  case case28 ih =>
    exact .inner (by kept) fun _ => (((ih he).startsReq hl hf _).punct hl (p := .colonColon) nofun).kept (by kept)
  case case29 op left right ih =>
    exact .inner (by kept) fun _ => (((ih he).starts hl hf).binOp hl (op := op)).kept (by kept)
  case case30 ih =>
    exact .inner (by kept) fun _ => .inner (by kept) fun _ =>
      (((ih he).starts hl hf).keyword hl (k := .«in»)).kept (by kept)
  case case31 ih =>
    exact .inner (by kept) fun _ => (((ih he).startsReq hl hf _).punct hl (p := .question) nofun).kept (by kept)
  case case32 op left right ih =>
    refine Opens.kept (f := (f.requirePrecedence .leftHand left.fmt).punctuator op.punct) ?_
      (by kept)
    exact ((ih he).startsReq hl hf _).punct hl (by cases op <;> nofun)
  case case33 ih =>
    exact .inner (by kept) fun _ => (((ih he).starts hl hf).punct hl (p := .comma) nofun).kept (by kept)
  case case34 items last right =>
    refine .inner (by kept) fun h => ?_
    rw [hf] at h
    exact (Opens.pattern (curly_allowed hl h) .leftHand items last).kept (by kept)
  case case35 items last right =>
    refine .inner (by kept) fun h => ?_
    exact (Opens.arrayPattern .leftHand items last).kept (by kept)
  case case36 ih =>
    exact .inner (by kept) fun _ => (((ih he).startsReq hl hf _).punct hl (p := .eq) nofun).kept (by kept)
  case case37 => exact (Opens.keyword (k := .«do») rfl).kept (by kept)
  case case38 m =>
    cases m <;> simp only [Meta.fmt]
    · exact (Opens.keyword (k := .«new») rfl).kept (by kept)
    · exact (Opens.keyword (k := .«import») rfl).kept (by kept)
    · simp at he
    · simp at he
  case case39 =>
    refine .inner (by kept) fun h => ?_
    rw [hf] at h
    exact .curly (curly_allowed hl h) (by kept)
  case case40 => exact .inner (by kept) fun _ => .square (by kept)
  case case41 kind id params body =>
    refine .inner (by kept) fun h => ?_
    rw [hf] at h
    exact Opens.kept (f := kind.fmt f) (.fnKind hl h kind) (by kept)
  case case42 =>
    simp only [ItemKind.fmt, Fmt.lookaheadWrapParens, Nodes.fmtList]
    refine .inner (by kept) fun h => ?_
    rw [hf] at h
    exact Opens.kept (f := f.keyword .«class») (.classKeyword hl h) (by kept)
  case case43 =>
    simp only [ItemKind.fmt, Fmt.lookaheadWrapParens, Nodes.fmtList, Node.fmt]
    refine .inner (by kept) fun h => ?_
    exact (Opens.punct (p := .«at») rfl).kept (by kept)
  case case44 kind items last body =>
    cases kind <;> simp only [FnKind.fmtArrowHead]
    · exact (Opens.wrap (body := fun f => last.fmt (items.fmtComma f)) (by kept)).kept (by kept)
    · exact (Opens.wrap (body := fun f => last.fmt (items.fmtComma f)) (by kept)).kept (by kept)
    · exact (opens_async_parens (body := fun f => last.fmt (items.fmtComma f)) (by kept)).kept (by kept)
    · exact (opens_async_parens (body := fun f => last.fmt (items.fmtComma f)) (by kept)).kept (by kept)
  case case45 kind name body =>
    have hs : Starts l f.output (f.identifier name).output := by
      obtain ⟨ps, a, b⟩ := identifier_output name f
      refine .inl ⟨ps ++ [.ident name], name, by rw [a, List.append_assoc], ?_⟩
      rw [strip_append, b]
      rfl
    cases kind <;> simp only [FnKind.fmtArrowHead, FnKind.arrow]
    · exact (hs.punct hl (p := .arrow) nofun).kept (by kept)
    · exact (hs.punct hl (p := .arrowStar) nofun).kept (by kept)
    · exact (opens_async_ident name).kept (by kept)
    · exact (opens_async_ident name).kept (by kept)

end Jsparse.Ast
