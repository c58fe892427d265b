import Verif.Proofs.Automaton
/-!
# Letters for automata over tokens

The automata that state facts about accepted programs look at a few words, at whether other names are
reserved, at punctuators and at line terminators.  `Lens` describes what one automaton looks at, and
`lensAuto_sound` justifies its letters.
-/

namespace Jsparse

open Spec

/-- A number that identifies a name; comparing numbers is cheaper than comparing byte strings. -/
def code (v : Bytes) : Nat := v.foldr (fun b n => n * 257 + (b.toNat + 1)) 0

/-- `w!"abc"` is the literal with the value `code b!"abc"`. -/
macro:max "w!" s:str : term => do
  let n := s.getString.toUTF8.toList.foldr (fun b n => n * 257 + (b.toNat + 1)) 0
  `(($(Lean.Syntax.mkNumLit (toString n)) : Nat))

example : code b!"const" = w!"const" := by decide +kernel

theorem code_inj {v w : Bytes} (h : code v = code w) : v = w := by
  induction v generalizing w with
  | nil =>
    cases w with
    | nil => rfl
    | cons y w =>
      simp only [code, List.foldr_nil, List.foldr_cons] at h
      omega
  | cons x v ih =>
    cases w with
    | nil =>
      simp only [code, List.foldr_nil, List.foldr_cons] at h
      omega
    | cons y w =>
      have h' : code v * 257 + (x.toNat + 1) = code w * 257 + (y.toNat + 1) := h
      have hx := x.toNat_lt
      have hy := y.toNat_lt
      have h1 : code v = code w := by omega
      have h2 : x.toNat = y.toNat := by omega
      rw [ih h1, UInt8.toNat_inj.1 h2]

/-- Lookup by number. -/
def find {K : Type} : List (Nat × K) → Nat → Option K
  | [], _ => none
  | (m, k) :: W, n =>
    match Nat.beq m n with
    | true => some k
    | false => find W n

theorem find_none {K : Type} {W : List (Nat × K)} {n : Nat} :
    find W n = none ↔ n ∉ W.map (·.1) := by
  induction W with
  | nil => simp [find]
  | cons x W ih =>
    obtain ⟨m, k⟩ := x
    unfold find
    split
    · rename_i h
      simp [Nat.eq_of_beq_eq_true h]
    · rename_i h
      rw [ih]
      have := Nat.ne_of_beq_eq_false h
      simp [Ne.symm this]

theorem find_some {K : Type} {W : List (Nat × K)} {n : Nat} {k : K} (h : find W n = some k) :
    (n, k) ∈ W := by
  induction W with
  | nil => cases h
  | cons x W ih =>
    obtain ⟨m, k'⟩ := x
    unfold find at h
    split at h
    · rename_i hm
      cases h
      rw [Nat.eq_of_beq_eq_true hm]
      exact List.mem_cons_self
    · exact List.mem_cons_of_mem _ (ih h)

/-- The reserved words, by number; `yield` is never a binding name. -/
def reservedCodes : List (Nat × Unit) :=
  [(w!"break", ()), (w!"case", ()), (w!"catch", ()), (w!"class", ()), (w!"const", ()),
   (w!"continue", ()), (w!"debugger", ()), (w!"default", ()), (w!"delete", ()), (w!"do", ()),
   (w!"else", ()), (w!"enum", ()), (w!"export", ()), (w!"extends", ()), (w!"false", ()),
   (w!"finally", ()), (w!"for", ()), (w!"function", ()), (w!"if", ()), (w!"import", ()),
   (w!"in", ()), (w!"instanceof", ()), (w!"new", ()), (w!"null", ()), (w!"return", ()),
   (w!"super", ()), (w!"switch", ()), (w!"this", ()), (w!"throw", ()), (w!"true", ()), (w!"try", ()),
   (w!"typeof", ()), (w!"var", ()), (w!"void", ()), (w!"while", ()), (w!"with", ()),
   (w!"yield", ())]

/-- Reserved, by number. -/
def isReserved (n : Nat) : Bool := (find reservedCodes n).isSome

theorem reservedCodes_eq : reservedCodes.map (·.1) = (reservedWords ++ [b!"yield"]).map code := by
  decide +kernel

theorem isReserved_iff {v : Bytes} :
    isReserved (code v) = true ↔ v ∈ reservedWords ∨ v = b!"yield" := by
  have h : isReserved (code v) = false ↔ ¬ (v ∈ reservedWords ∨ v = b!"yield") := by
    unfold isReserved
    rw [Option.isSome_eq_false_iff, Option.isNone_iff_eq_none, find_none, reservedCodes_eq]
    refine not_congr ⟨fun h => ?_, fun h => ?_⟩
    · obtain ⟨w, hw, h⟩ := List.mem_map.1 h
      rw [← code_inj h]
      rcases List.mem_append.1 hw with h | h
      · exact .inl h
      · exact .inr (List.mem_singleton.1 h)
    · refine List.mem_map.2 ⟨v, List.mem_append.2 ?_, rfl⟩
      rcases h with h | h
      · exact .inl h
      · exact .inr (List.mem_singleton.2 h)
  cases hc : isReserved (code v) with
  | false => simp [h.1 hc]
  | true =>
    refine ⟨fun _ => ?_, fun _ => rfl⟩
    refine Classical.byContradiction fun hn => ?_
    rw [h.2 hn] at hc
    cases hc

/-- A token as an automaton may see it. -/
inductive Ltr (K : Type) where
  /-- one of the words it knows -/
  | word (k : K)
  /-- any other name -/
  | ident (reserved : Bool)
  | punct (q : Punct)
  | num | str | regex
  | tmpl (f : TemplateFormat)
  | eof
  | none
  deriving DecidableEq

variable {K : Type}

/-- The letter of a name. -/
def nameLtr (W : List (Nat × K)) (n : Nat) : Ltr K :=
  match find W n with
  | some k => .word k
  | none => .ident (isReserved n)

def ltr (W : List (Nat × K)) : Token → Ltr K
  | .ident v => nameLtr W (code v)
  | .punct q => .punct q
  | .num _ => .num
  | .str _ => .str
  | .regex _ _ => .regex
  | .template f _ _ => .tmpl f
  | .eof => .eof
  | _ => .none

/-- The letter of one of the words. -/
theorem nameLtr_word {W : List (Nat × K)} {v : Bytes} {k : K} (h : find W (code v) = some k) :
    nameLtr W (code v) = .word k := by
  unfold nameLtr
  rw [h]

/-- The letter of any other name; `V` are the words. -/
theorem nameLtr_other {W : List (Nat × K)} {V : List Bytes} (hV : W.map (·.1) = V.map code)
    {v : Bytes} (h : v ∉ V) : nameLtr W (code v) = .ident (isReserved (code v)) := by
  unfold nameLtr
  rw [find_none.2]
  rw [hV]
  intro hm
  obtain ⟨w, hw, he⟩ := List.mem_map.1 hm
  exact h (code_inj he ▸ hw)

/-- The letters of a terminal. -/
def ltrs (W : List (Nat × K)) : Term → List (Ltr K)
  | .kw k => [nameLtr W (code k)]
  | .p q => [.punct q]
  | .name => W.map (fun x => .word x.2) ++ [.ident true, .ident false]
  | .binding => (W.filter fun x => !isReserved x.1).map (fun x => .word x.2) ++ [.ident false]
  | .num => [.num]
  | .str => [.str]
  | .regex => [.regex]
  | .tmpl f => [.tmpl f]
  | .assignOp => assignmentOperators.map .punct
  | .binaryOp => binaryOperators.map .punct ++ [nameLtr W w!"instanceof", nameLtr W w!"in"]
  | .eof => [.eof]

theorem ltrs_sound {W : List (Nat × K)} {C : Ctx} {k : Term} {t : Token} (h : k.Is C t) :
    ltr W t ∈ ltrs W k := by
  cases k with
  | kw k => cases h; simp [ltrs, ltr]
  | p q => cases h; simp [ltrs, ltr]
  | name =>
    obtain ⟨v, rfl⟩ := h
    simp only [ltrs, ltr, nameLtr, List.mem_append, List.mem_map, List.mem_cons, List.not_mem_nil,
      or_false]
    split
    · exact .inl ⟨_, find_some ‹_›, rfl⟩
    · cases isReserved (code v) <;> simp
  | binding =>
    obtain ⟨v, rfl, h1, h2, -⟩ := h
    have hr : isReserved (code v) = false := by
      rw [← Bool.not_eq_true, isReserved_iff]
      rintro (h | h)
      · exact h1 h
      · exact h2 h
    simp only [ltrs, ltr, nameLtr, List.mem_append, List.mem_map, List.mem_filter, List.mem_cons,
      List.not_mem_nil, or_false]
    split
    · exact .inl ⟨_, ⟨find_some ‹_›, by simp [hr]⟩, rfl⟩
    · rw [hr]; exact .inr rfl
  | num => obtain ⟨v, rfl⟩ := h; simp [ltrs, ltr]
  | str => obtain ⟨v, rfl⟩ := h; simp [ltrs, ltr]
  | regex => obtain ⟨v, f, rfl⟩ := h; simp [ltrs, ltr]
  | tmpl f => obtain ⟨c, r, rfl⟩ := h; simp [ltrs, ltr]
  | assignOp =>
    obtain ⟨q, hq, rfl⟩ := h
    exact List.mem_map.2 ⟨q, hq, rfl⟩
  | binaryOp =>
    have hi : code b!"instanceof" = w!"instanceof" := by decide +kernel
    have hn : code b!"in" = w!"in" := by decide +kernel
    simp only [ltrs, List.mem_append, List.mem_map, List.mem_cons, List.not_mem_nil, or_false]
    rcases h with ⟨q, hq, rfl⟩ | rfl | ⟨rfl, -⟩
    · exact .inl ⟨q, hq, rfl⟩
    · exact .inr (.inl (by rw [← hi]; rfl))
    · exact .inr (.inr (by rw [← hn]; rfl))
  | eof => cases h; simp [ltrs, ltr]

theorem ltr_punct {W : List (Nat × K)} {t : Token} {q : Punct} (h : ltr W t = .punct q) :
    t = .punct q := by
  unfold ltr at h
  split at h <;> try cases h
  · unfold nameLtr at h
    split at h <;> cases h
  · rfl

theorem ltr_word {W : List (Nat × K)} {t : Token} {k : K} (h : ltr W t = .word k) :
    ∃ v, t = .ident v ∧ (code v, k) ∈ W := by
  unfold ltr at h
  split at h <;> try cases h
  unfold nameLtr at h
  split at h
  · cases h
    exact ⟨_, rfl, find_some ‹_›⟩
  · cases h

/-- A semicolon may be inserted before a token with this letter. -/
def Ltr.inserts (line : Bool) : Ltr K → Bool
  | .punct .curlyClose => true
  | .eof => true
  | _ => line

/-- What an automaton looks at, and what it does with it. -/
structure Lens (Q K L : Type) where
  states : List Q
  words : List (Nat × K)
  see : Bool → Ltr K → L
  step : Q → L → Option Q
  before : Q → L → Q := fun q _ => q
  enter : Q → Br → Option Q
  next : Q → Option Q
  leave : Q → Q → Br → Option Q
  keeps : Bool
  agrees : Prom → L → Bool
  warned : Bool := false
  declares : L → Bool := fun _ => false
  absent : L → Bool := fun _ => false
  /-- the letters of names, of binding names and of operators, precomputed -/
  names : List L
  bindings : List L
  assigns : List L
  binaries : List L

/-- The letters of a terminal. -/
def Lens.seen {Q L : Type} [DecidableEq L] (A : Lens Q K L) (k : Term) : List L :=
  join ((ltrs A.words k).map (A.see true)) (join ((ltrs A.words k).map (A.see false)) [])

/-- The precomputed letters are right. -/
structure Lens.Right {Q L : Type} [DecidableEq L] (A : Lens Q K L) : Prop where
  names : ∀ l ∈ A.seen .name, l ∈ A.names
  bindings : ∀ l ∈ A.seen .binding, l ∈ A.bindings
  assigns : ∀ l ∈ A.seen .assignOp, l ∈ A.assigns
  binaries : ∀ l ∈ A.seen .binaryOp, l ∈ A.binaries

def Lens.auto {Q L : Type} [DecidableEq L] (A : Lens Q K L) : Auto Q L where
  states := A.states
  cls x := A.see x.1 (ltr A.words x.2)
  step := A.step
  before := A.before
  enter := A.enter
  next := A.next
  leave := A.leave
  may
    | .name => A.names
    | .binding => A.bindings
    | .assignOp => A.assigns
    | .binaryOp => A.binaries
    | k => A.seen k
  keeps := A.keeps
  agrees := A.agrees
  warned := A.warned
  declares := A.declares
  absent := A.absent

theorem Lens.sound {Q L : Type} [DecidableEq L] {A : Lens Q K L} (hr : A.Right)
    (hi : ∀ b l, l.inserts b = true → A.agrees .ins (A.see b l) = true)
    (hs : ∀ l, A.agrees .same (A.see false l) = true)
    (hc : ∀ l, l.inserts false = true → A.agrees .close (A.see false l) = true)
    (ha : ∀ l, A.agrees .any l = true)
    (hd : ∀ b t, A.declares (A.see b (ltr A.words t)) = true → t ∈ declarationWords) :
    A.auto.Sound := by
  constructor
  · intro C k l t h
    have hl : A.auto.cls (l, t) ∈ A.seen k := by
      have := ltrs_sound (W := A.words) h
      simp only [Lens.auto, Lens.seen, mem_join]
      cases l
      · exact .inr (.inl (List.mem_map.2 ⟨_, this, rfl⟩))
      · exact .inl (List.mem_map.2 ⟨_, this, rfl⟩)
    cases k with
    | name => exact hr.names _ hl
    | binding => exact hr.bindings _ hl
    | assignOp => exact hr.assigns _ hl
    | binaryOp => exact hr.binaries _ hl
    | _ => exact hl
  · intro p x v h
    cases p with
    | any => exact ha _
    | ins =>
      obtain ⟨y, w, hy, h⟩ := h
      cases hy
      refine hi _ _ ?_
      unfold Ltr.inserts
      rcases h.2 with h | h | h
      · rw [h]; split <;> rfl
      · rw [h]; rfl
      · rw [h]; rfl
    | same =>
      obtain ⟨y, w, hy, h⟩ := h
      cases hy
      simp only [Lens.auto]
      rw [h]
      exact hs _
    | close =>
      obtain ⟨y, w, hy, h, h'⟩ := h
      cases hy
      simp only [Lens.auto]
      rw [h']
      refine hc _ ?_
      unfold Ltr.inserts
      rcases h.2 with h | h | h
      · rw [h] at h'; cases h'
      · rw [h]; rfl
      · rw [h]; rfl
  · intro x h
    exact hd _ _ h

namespace Lens

/-- States that are only reached by a dot. -/
theorem last_dot {Q L : Type} [DecidableEq L] (A : Lens Q K L) {D : Q → Prop}
    (hs : ∀ q x q', A.step q (A.auto.cls x) = some q' → D q' → x.2 = .punct .period)
    (he : ∀ q b q', A.enter q b = some q' → ¬ D q') (hn : ∀ q q', A.next q = some q' → ¬ D q')
    (hl : ∀ p q b q', A.leave p q b = some q' → ¬ D q') {q : Q} {u : List Tok}
    {c : Q × List (Br × Q)} (hq : ¬ D q) (h : A.auto.run q [] u = some c)
    (hu : (u.map (·.2)).getLast? ≠ some (.punct .period)) : ¬ D c.1 := by
  intro hc
  rcases List.eq_nil_or_concat u with rfl | ⟨u, z, rfl⟩
  · cases h; exact hq hc
  · rw [List.concat_eq_append] at h hu
    obtain ⟨d, h⟩ := Auto.run_last _ h
    refine hu ?_
    rw [List.map_append, List.map_cons, List.map_nil, List.getLast?_append]
    suffices z.2 = .punct .period by rw [this]; rfl
    unfold Auto.move at h
    split at h
    · simp only [Option.map_eq_some_iff] at h
      obtain ⟨q', h1, rfl⟩ := h
      exact hs _ _ _ h1 hc
    · simp only [Option.map_eq_some_iff] at h
      obtain ⟨q', h1, rfl⟩ := h
      exact absurd hc (he _ _ _ h1)
    · split at h
      · split at h
        · simp only [Option.map_eq_some_iff] at h
          obtain ⟨q', h1, rfl⟩ := h
          exact absurd hc (hl _ _ _ _ h1)
        · cases h
      · cases h
    · split at h
      · simp only [Option.map_eq_some_iff] at h
        obtain ⟨q', h1, rfl⟩ := h
        exact absurd hc (hn _ _ h1)
      · cases h

end Lens

end Jsparse
