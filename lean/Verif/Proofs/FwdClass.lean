import Verif.Proofs.FwdAssign
/-!
# Properties, methods, functions, classes, patterns
-/

namespace Jsparse.Forward

open P Spec FNT

section class_

variable {lx : Bool} {C : Ctx} {fl : Flags} {f e g : Bool} {u v : List Tok} {m : Mode}

theorem Quiet.plain {t : Token} (h : Quiet t) : Plain fl t := fun m => h.ready m fl

theorem curly_plain (h : fl.expectTemplate = false) : Plain fl (.punct .curlyClose) :=
  (stops_punct (by decide) fun _ => h).ready

theorem Closes.plain {t : Token} (h : Closes fl t) : Plain fl t := by
  rcases h with rfl | rfl | ⟨rfl, h⟩
  · exact fun m => ⟨rfl, rfl⟩
  · exact fun m => ⟨rfl, rfl⟩
  · exact curly_plain h

theorem closes_follow (hv : HeadIs (Closes fl) v) : Follow fl 1 false v := by
  obtain ⟨⟨l, t⟩, w, rfl, h⟩ := hv
  rcases h with h | h | ⟨h, ht⟩
  · obtain rfl : t = _ := h
    exact follow_pt
  · obtain rfl : t = _ := h
    exact follow_pt
  · obtain rfl : t = _ := h
    exact follow_curly ht

/-! ## Property names -/

theorem sem_keyName {l n} : Sem C key (kw l n :: v) v := by
  intro fl ha
  refine Fwd.call ?_
  show Fwd (fun n => parsePropertyName (recOf n)) _ _ _ _ _ _
  unfold parsePropertyName
  refine Fwd.orTry_first (Fwd.call ?_)
  show Fwd (fun n => parseLiteralPropertyName) _ _ _ _ _ _
  unfold parseLiteralPropertyName
  fb Fwd.identifier ⟨rfl, rfl⟩
  exact Fwd.pure

theorem sem_keyStr {l x} : Sem C key ((l, .str x) :: v) v := by
  intro fl ha
  refine Fwd.call ?_
  show Fwd (fun n => parsePropertyName (recOf n)) _ _ _ _ _ _
  unfold parsePropertyName
  refine Fwd.orTry_first (Fwd.call ?_)
  show Fwd (fun n => parseLiteralPropertyName) _ _ _ _ _ _
  unfold parseLiteralPropertyName
  fb Fwd.noIdentifier (x := (l, .str x)) ⟨rfl, rfl⟩ rfl
  fb Fwd.string ⟨rfl, rfl⟩
  exact Fwd.pure

theorem sem_keyNum {l x} : Sem C key ((l, .num x) :: v) v := by
  intro fl ha
  refine Fwd.call ?_
  show Fwd (fun n => parsePropertyName (recOf n)) _ _ _ _ _ _
  unfold parsePropertyName
  refine Fwd.orTry_first (Fwd.call ?_)
  show Fwd (fun n => parseLiteralPropertyName) _ _ _ _ _ _
  unfold parseLiteralPropertyName
  fb Fwd.noIdentifier (x := (l, .num x)) ⟨rfl, rfl⟩ rfl
  fb Fwd.noString (x := (l, .num x)) ⟨rfl, rfl⟩ (by simp)
  fb Fwd.numeric ⟨rfl, rfl⟩
  exact Fwd.pure

theorem no_literalName {x : Tok} {q : Punct} (hx : x.2 = .punct q) (hp : Plain fl x.2) :
    Fwd (fun n => run n .literalPropertyName) m fl (x :: u) none m.fill (x :: u) := by
  refine Fwd.call ?_
  show Fwd (fun n => parseLiteralPropertyName) _ _ _ _ _ _
  unfold parseLiteralPropertyName
  fb Fwd.noIdentifier (hp _) (by rw [hx]; rfl)
  fb Fwd.noString (hp _) (by simp [hx])
  fb Fwd.noNumeric (hp _) (by simp [hx])
  exact Fwd.pure

theorem sem_keyExpr {l l'} (h : FragX lx { C with in_ := true } (assign true g) u (pt l' .squareClose :: v))
    (ih : Sem { C with in_ := true } (assign true g) u (pt l' .squareClose :: v)) :
    Sem C key (pt l .squareOpen :: u) v := by
  intro fl ha
  refine Fwd.call ?_
  show Fwd (fun n => parsePropertyName (recOf n)) _ _ _ _ _ _
  unfold parsePropertyName
  refine Fwd.orTry_second (no_literalName rfl fun m => ⟨rfl, rfl⟩) (Fwd.call ?_)
  show Fwd (fun n => parseComputedPropertyName (recOf n)) _ _ _ _ _ _
  unfold parseComputedPropertyName
  fb Fwd.punc ⟨rfl, rfl⟩
  fb Fwd.expect
  fb Fwd.withFlag (enter_X ff_assignment (assign_starts h) (ih _ ha.in_true follow_pt))
  fb Fwd.eat (Fwd.punc ⟨rfl, rfl⟩)
  exact Fwd.pure.post (by cases g <;> rfl)

theorem sem_keyEmpty {l l'} : Sem C key (pt l .squareOpen :: pt l' .squareClose :: v) v := by
  intro fl ha
  refine Fwd.call ?_
  show Fwd (fun n => parsePropertyName (recOf n)) _ _ _ _ _ _
  unfold parsePropertyName
  refine Fwd.orTry_second (no_literalName rfl fun m => ⟨rfl, rfl⟩) (Fwd.call ?_)
  show Fwd (fun n => parseComputedPropertyName (recOf n)) _ _ _ _ _ _
  unfold parseComputedPropertyName
  fb Fwd.punc ⟨rfl, rfl⟩
  fb Fwd.expect
  fb Fwd.withFlag (no_assignment (x := pt l' .squareClose) (stops_punct (by decide) (by simp)) rfl _)
  fb Fwd.eat (Fwd.punc ⟨rfl, rfl⟩)
  exact Fwd.pure.post rfl

theorem no_propertyName {x : Tok} {q : Punct} (hx : x.2 = .punct q) (hq : q ≠ .squareOpen) (hp : Plain fl x.2) :
    Fwd (fun n => run n .propertyName) m fl (x :: u) none m.fill (x :: u) := by
  refine Fwd.call ?_
  show Fwd (fun n => parsePropertyName (recOf n)) _ _ _ _ _ _
  unfold parsePropertyName
  refine Fwd.orTry_second (no_literalName hx hp) (Fwd.call ?_)
  show Fwd (fun n => parseComputedPropertyName (recOf n)) _ _ _ _ _ _
  unfold parseComputedPropertyName
  fb Fwd.noPunc (hp _) (by rw [hx]; simpa using hq)
  exact Fwd.pure

/-! ## Methods -/

/-- The first token of a property name. -/
def KeyHead (t : Token) : Prop :=
  Quiet t ∧ t ≠ .punct .star ∧ t ≠ .punct .ellipsis ∧ t ≠ .punct .semicolon

theorem key_head (h : FragX lx C key u v) : HeadIs KeyHead u := by
  refine (heads h rfl).mono fun t ht => ?_
  rcases ht with rfl | ⟨n, rfl⟩ | ⟨n, rfl⟩ | ⟨n, rfl⟩
  · exact ⟨⟨rfl, rfl, fun _ => rfl⟩, by simp, by simp, by simp⟩
  · exact ⟨quiet_word n, by simp, by simp, by simp⟩
  · exact ⟨⟨rfl, rfl, fun _ => rfl⟩, by simp, by simp, by simp⟩
  · exact ⟨⟨rfl, rfl, fun _ => rfl⟩, by simp, by simp, by simp⟩

theorem head_plain {stat : Option Bytes} {x : Tok} (hx : KeyHead x.2)
    (h2 : ∀ k ∈ [b!"async", b!"get", b!"set"], x.2 ≠ .ident k)
    (h : Fwd (fun n => run n .propertyName) S fl (x :: u) (some ()) Z v) :
    Fwd (fun n => headRest (recOf n) stat) S fl (x :: u) (some ⟨.none, false, false⟩) Z v := by
  obtain ⟨hq, h1, -, -⟩ := hx
  unfold headRest
  refine Fwd.bind (a := .none) (u₁ := x :: u) (m₁ := L false) ?_ ?_
  · fb Fwd.noKeyword (hq.ready _ _) (h2 _ (by decide))
    fb Fwd.noKeyword (hq.ready _ _) (h2 _ (by decide))
    exact Fwd.pure
  refine Fwd.bind (a := false) (u₁ := x :: u) (m₁ := L false) ?_ ?_
  · dsimp only
    fb Fwd.noKeyword (hq.ready _ _) (h2 _ (by decide))
    exact Fwd.pure
  simp only [Bool.false_eq_true, if_false, Bool.false_and]
  fb Fwd.noPunc (hq.ready _ _) h1
  fb Fwd.pure
  fb h.pre (m₁ := L false) rfl
  exact Fwd.pure

theorem head_gen {stat : Option Bytes} {l} (h : Fwd (fun n => run n .propertyName) S fl u (some ()) Z v) :
    Fwd (fun n => headRest (recOf n) stat) S fl (pt l .star :: u) (some ⟨.none, true, false⟩) Z v := by
  unfold headRest
  refine Fwd.bind (a := .none) (u₁ := pt l .star :: u) (m₁ := L false) ?_ ?_
  · fb Fwd.noKeyword (x := pt l .star) ⟨rfl, rfl⟩ (by simp)
    fb Fwd.noKeyword (x := pt l .star) ⟨rfl, rfl⟩ (by simp)
    exact Fwd.pure
  refine Fwd.bind (a := false) (u₁ := pt l .star :: u) (m₁ := L false) ?_ ?_
  · dsimp only
    fb Fwd.noKeyword (x := pt l .star) ⟨rfl, rfl⟩ (by simp)
    exact Fwd.pure
  simp only [Bool.false_eq_true, if_false, Bool.false_and]
  fb Fwd.punc ⟨rfl, rfl⟩
  fb Fwd.pure
  fb h.pre (m₁ := Z) rfl
  exact Fwd.pure

theorem head_async {stat : Option Bytes} {l} (hl : NoLine u) (hu : HeadIs KeyHead u)
    (h : Fwd (fun n => run n .propertyName) S fl u (some ()) Z v) :
    Fwd (fun n => headRest (recOf n) stat) S fl (kw l b!"async" :: u) (some ⟨.none, false, true⟩) Z v := by
  obtain ⟨x, w, rfl, hq, h1, -, -⟩ := hu
  unfold headRest
  refine Fwd.bind (a := .none) (u₁ := kw l b!"async" :: x :: w) (m₁ := L false) ?_ ?_
  · fb Fwd.noKeyword (x := kw l b!"async") ⟨rfl, rfl⟩ (by simp)
    fb Fwd.noKeyword (x := kw l b!"async") ⟨rfl, rfl⟩ (by simp)
    exact Fwd.pure
  refine Fwd.bind (a := true) (u₁ := x :: w) (m₁ := Z) ?_ ?_
  · dsimp only
    fb Fwd.keyword ⟨rfl, rfl⟩
    exact Fwd.pure
  simp only [if_true]
  fb Fwd.pure
  fb Fwd.noLine (hq.ready _ _)
  rw [hl _ _ rfl]
  simp only [Bool.not_false, Bool.and_self, if_true]
  fb h.pre rfl
  exact Fwd.pure

theorem head_get {stat : Option Bytes} {l} (hu : HeadIs KeyHead u)
    (h : Fwd (fun n => run n .propertyName) S fl u (some ()) Z v) :
    Fwd (fun n => headRest (recOf n) stat) S fl (kw l b!"get" :: u) (some ⟨.get, false, false⟩) Z v := by
  obtain ⟨x, w, rfl, hq, h1, -, -⟩ := hu
  unfold headRest
  refine Fwd.bind (a := .get) (u₁ := x :: w) (m₁ := Z) ?_ ?_
  · fb Fwd.keyword ⟨rfl, rfl⟩
    exact Fwd.pure
  dsimp only
  fb Fwd.pure
  simp only [Bool.false_eq_true, if_false, Bool.false_and]
  fb Fwd.noPunc (hq.ready _ _) h1
  fb Fwd.pure
  fb h.pre rfl
  exact Fwd.pure

theorem head_set {stat : Option Bytes} {l} (hu : HeadIs KeyHead u)
    (h : Fwd (fun n => run n .propertyName) S fl u (some ()) Z v) :
    Fwd (fun n => headRest (recOf n) stat) S fl (kw l b!"set" :: u) (some ⟨.set, false, false⟩) Z v := by
  obtain ⟨x, w, rfl, hq, h1, -, -⟩ := hu
  unfold headRest
  refine Fwd.bind (a := .set) (u₁ := x :: w) (m₁ := Z) ?_ ?_
  · fb Fwd.noKeyword (x := kw l b!"set") ⟨rfl, rfl⟩ (by simp)
    fb Fwd.keyword ⟨rfl, rfl⟩
    exact Fwd.pure
  dsimp only
  fb Fwd.pure
  simp only [Bool.false_eq_true, if_false, Bool.false_and]
  fb Fwd.noPunc (hq.ready _ _) h1
  fb Fwd.pure
  fb h.pre rfl
  exact Fwd.pure

theorem head_get_star {stat : Option Bytes} {l l'} (h : Fwd (fun n => run n .propertyName) S fl u (some ()) Z v) :
    Fwd (fun n => headRest (recOf n) stat) S fl (kw l b!"get" :: pt l' .star :: u) (some ⟨.get, true, false⟩) Z v := by
  unfold headRest
  refine Fwd.bind (a := .get) (u₁ := pt l' .star :: u) (m₁ := Z) ?_ ?_
  · fb Fwd.keyword ⟨rfl, rfl⟩
    exact Fwd.pure
  dsimp only
  fb Fwd.pure
  simp only [Bool.false_eq_true, if_false, Bool.false_and]
  fb Fwd.punc ⟨rfl, rfl⟩
  fb Fwd.pure
  fb h.pre rfl
  exact Fwd.pure

theorem head_set_star {stat : Option Bytes} {l l'} (h : Fwd (fun n => run n .propertyName) S fl u (some ()) Z v) :
    Fwd (fun n => headRest (recOf n) stat) S fl (kw l b!"set" :: pt l' .star :: u) (some ⟨.set, true, false⟩) Z v := by
  unfold headRest
  refine Fwd.bind (a := .set) (u₁ := pt l' .star :: u) (m₁ := Z) ?_ ?_
  · fb Fwd.noKeyword (x := kw l b!"set") ⟨rfl, rfl⟩ (by simp)
    fb Fwd.keyword ⟨rfl, rfl⟩
    exact Fwd.pure
  dsimp only
  fb Fwd.pure
  simp only [Bool.false_eq_true, if_false, Bool.false_and]
  fb Fwd.punc ⟨rfl, rfl⟩
  fb Fwd.pure
  fb h.pre rfl
  exact Fwd.pure

/-- No method begins with the closing token. -/
theorem no_methodHead {x : Tok} {q : Punct} (hx : x.2 = .punct q) (hq : q ≠ .squareOpen ∧ q ≠ .star) (hp : Plain fl x.2) :
    Fwd (fun n => parseMethodHead (recOf n) true) m fl (x :: u) none m.fill (x :: u) := by
  simp only [parseMethodHead_eq]
  fb Fwd.noKeyword (hp _) (by simp [hx])
  unfold headRest
  refine Fwd.bind (a := .none) (u₁ := x :: u) (m₁ := m.fill) ?_ ?_
  · fb Fwd.noKeyword (hp _) (by simp [hx])
    fb Fwd.noKeyword (hp _) (by simp [hx])
    exact Fwd.pure
  refine Fwd.bind (a := false) (u₁ := x :: u) (m₁ := m.fill) ?_ ?_
  · dsimp only
    fb Fwd.noKeyword (hp _) (by simp [hx])
    exact Fwd.pure
  simp only [Bool.false_eq_true, if_false, Bool.false_and]
  fb Fwd.noPunc (hp _) (by simp [hx, hq.2])
  fb Fwd.pure
  fb no_propertyName hx hq.1 hp
  exact Fwd.bind (a := none) Fwd.pure Fwd.pure

/-- `get` and `set` are property names if no other follows. -/
theorem head_word_get {stat : Option Bytes} {l k} (hk : k ∈ [b!"get", b!"set"]) (hv : HeadIs (AfterKey fl) v) :
    Fwd (fun n => headRest (recOf n) stat) S fl (kw l k :: v) (some ⟨.none, false, false⟩) S v := by
  obtain ⟨y, w, rfl, hp, q, hq, h1, h2⟩ := hv
  unfold headRest
  have key : ∀ kind : MethodKind, kind ≠ .none → Fwd (fun n => do
      match ← (recOf n).call .propertyName with
      | some _ => return some (⟨kind, false, false⟩ : MethodHead)
      | none =>
        match ← methodHeadNoName stat.isSome kind false with
        | some kind' => return some (⟨kind', false, false⟩ : MethodHead)
        | none => return none) (L false) fl (y :: w) (some ⟨.none, false, false⟩) S (y :: w) := by
    intro kind hkind
    fb no_propertyName hq h1 hp
    refine Fwd.bind (a := some .none) (m₁ := L false) (u₁ := y :: w) ?_ (Fwd.pure.post rfl)
    cases kind with
    | none => exact absurd rfl hkind
    | get => exact Fwd.pure
    | set => exact Fwd.pure
  simp only [List.mem_cons, List.not_mem_nil, or_false] at hk
  rcases hk with rfl | rfl
  · refine Fwd.bind (a := .get) (u₁ := y :: w) (m₁ := Z) ?_ ?_
    · fb Fwd.keyword ⟨rfl, rfl⟩
      exact Fwd.pure
    dsimp only
    fb Fwd.pure
    simp only [Bool.false_eq_true, if_false, Bool.false_and]
    fb Fwd.noPunc (hp _) (by rw [hq]; simpa using h2)
    fb Fwd.pure
    exact (key .get nofun).pre rfl
  · refine Fwd.bind (a := .set) (u₁ := y :: w) (m₁ := Z) ?_ ?_
    · fb Fwd.noKeyword (x := kw l b!"set") ⟨rfl, rfl⟩ (by simp)
      fb Fwd.keyword ⟨rfl, rfl⟩
      exact Fwd.pure
    dsimp only
    fb Fwd.pure
    simp only [Bool.false_eq_true, if_false, Bool.false_and]
    fb Fwd.noPunc (hp _) (by rw [hq]; simpa using h2)
    fb Fwd.pure
    exact (key .set nofun).pre rfl

/-- So is `async`. -/
theorem head_word_async {stat : Option Bytes} {l} (hv : HeadIs (AfterKey fl) v) :
    Fwd (fun n => headRest (recOf n) stat) S fl (kw l b!"async" :: v) (some ⟨.none, false, true⟩) S v := by
  obtain ⟨y, w, rfl, hp, q, hq, h1, h2⟩ := hv
  unfold headRest
  refine Fwd.bind (a := .none) (u₁ := kw l b!"async" :: y :: w) (m₁ := L false) ?_ ?_
  · fb Fwd.noKeyword (x := kw l b!"async") ⟨rfl, rfl⟩ (by simp)
    fb Fwd.noKeyword (x := kw l b!"async") ⟨rfl, rfl⟩ (by simp)
    exact Fwd.pure
  refine Fwd.bind (a := true) (u₁ := y :: w) (m₁ := Z) ?_ ?_
  · dsimp only
    fb Fwd.keyword ⟨rfl, rfl⟩
    exact Fwd.pure
  simp only [if_true]
  fb Fwd.pure
  fb Fwd.noLine (hp _)
  cases y.1 with
  | true =>
    simp only [Bool.not_true, Bool.and_false, Bool.false_eq_true, if_false]
    exact Fwd.pure.post rfl
  | false =>
    simp only [Bool.not_false, Bool.and_self, if_true]
    fb no_propertyName hq h1 hp
    exact Fwd.pure.post rfl

/-- And so is `static`. -/
theorem head_word_static {l} (hv : HeadIs (AfterKey fl) v) :
    Fwd (fun n => parseMethodHead (recOf n) true) S fl (kw l b!"static" :: v) (some ⟨.none, false, false⟩) S v := by
  obtain ⟨y, w, rfl, hp, q, hq, h1, h2⟩ := hv
  simp only [parseMethodHead_eq]
  fb Fwd.keyword ⟨rfl, rfl⟩
  unfold headRest
  refine Fwd.bind (a := .none) (u₁ := y :: w) (m₁ := L false) ?_ ?_
  · fb Fwd.noKeyword (hp _) (by simp [hq])
    fb Fwd.noKeyword (hp _) (by simp [hq])
    exact Fwd.pure.post rfl
  refine Fwd.bind (a := false) (u₁ := y :: w) (m₁ := L false) ?_ ?_
  · dsimp only
    fb Fwd.noKeyword (hp _) (by simp [hq])
    exact Fwd.pure
  simp only [Bool.false_eq_true, if_false, Bool.false_and]
  fb Fwd.noPunc (hp _) (by rw [hq]; simpa using h2)
  fb Fwd.pure
  fb no_propertyName hq h1 hp
  exact Fwd.bind (a := some .none) Fwd.pure (Fwd.pure.post rfl)

theorem method_start {x : Tok} (hx : Quiet x.2) (hs : x.2 ≠ .ident b!"static") {head : MethodHead}
    (h : ∀ stat, Fwd (fun n => headRest (recOf n) stat) S fl (x :: u) (some head) S v) :
    Fwd (fun n => parseMethodHead (recOf n) true) S fl (x :: u) (some head) S v := by
  simp only [parseMethodHead_eq]
  fb Fwd.noKeyword (hx.ready _ _) hs
  exact (h none).pre rfl

/-- A property name, as the head of a method. -/
theorem key_method (hk : FragX lx C key u v) (hv : HeadIs (AfterKey fl) v) (ha : Agree C fl) (ih : Sem C key u v) :
    ∃ a, (∀ stat, Fwd (fun n => headRest (recOf n) stat) S fl u (some ⟨.none, false, a⟩) S v) ∧
      Fwd (fun n => parseMethodHead (recOf n) true) S fl u (some ⟨.none, false, a⟩) S v ∧
      (NotNext b!"async" u → a = false) := by
  have h := ih fl ha
  obtain ⟨x, u', rfl, hx⟩ := key_head hk
  by_cases hn : ∀ k ∈ [b!"async", b!"get", b!"set", b!"static"], x.2 ≠ .ident k
  · have h1 := fun stat => (head_plain (stat := stat) hx (fun k hk => hn k (by revert k; decide)) h).post (m₁ := S) rfl
    exact ⟨false, h1, method_start hx.1 (hn _ (by decide)) h1, fun _ => rfl⟩
  · obtain ⟨l, t⟩ := x
    have : ∃ k ∈ [b!"async", b!"get", b!"set", b!"static"], t = .ident k := by
      apply Classical.byContradiction
      intro h
      exact hn fun k hk e => h ⟨k, hk, e⟩
    obtain ⟨k, hk', rfl⟩ := this
    cases hk
    simp only [List.mem_cons, List.not_mem_nil, or_false] at hk'
    rcases hk' with rfl | rfl | rfl | rfl
    · exact ⟨true, fun stat => head_word_async hv, method_start hx.1 (by simp) fun stat => head_word_async hv,
        fun h => absurd rfl (h _ _)⟩
    · exact ⟨false, fun stat => head_word_get (by decide) hv, method_start hx.1 (by simp) fun stat => head_word_get (by decide) hv,
        fun _ => rfl⟩
    · exact ⟨false, fun stat => head_word_get (by decide) hv, method_start hx.1 (by simp) fun stat => head_word_get (by decide) hv,
        fun _ => rfl⟩
    · exact ⟨false, fun stat => (head_plain (x := kw l b!"static") hx (by simp) h).post rfl, head_word_static hv, fun _ => rfl⟩

theorem function_open (h : FragX lx C function u v) : ∃ l w, u = pt l .parenOpen :: w := by
  obtain ⟨⟨l, t⟩, w, rfl, hx⟩ := heads h rfl
  obtain rfl : t = _ := hx
  exact ⟨l, w, rfl⟩

theorem sem_plainMethod {u'} (hn : NotNext b!"async" u) (hk : FragX lx C key u u') (hf : FragX lx { C with await := false, yield := false } function u' v)
    (ih : Sem C key u u') (ih₁ : Sem { C with await := false, yield := false } function u' v) : Sem C method u v := by
  intro fl ha
  obtain ⟨l, w, rfl⟩ := function_open hf
  obtain ⟨a, ha₁, ha₂, ha₃⟩ := key_method (fl := fl) hk (headIs_cons.2 ⟨fun m => ⟨rfl, rfl⟩, _, rfl, by simp, by simp⟩) ha ih
  obtain rfl := ha₃ hn
  refine ⟨⟨.none, false, false⟩, l, w, ha₁, ha₂, Fwd.call ?_⟩
  show Fwd (fun n => methodRest (recOf n) ⟨.none, false, false⟩) _ _ _ _ _ _
  unfold methodRest
  simp only [Bool.false_eq_true, if_false]
  refine Fwd.withFlag (Fwd.withFlag ?_)
  obtain ⟨u₁, h1, h2⟩ := ih₁ (Fwd.setFlag .yield false (Fwd.setFlag .await false fl)) ⟨ha.in_, rfl, ha.strict, ha.default⟩
  fb h1
  fb Fwd.eat h2
  exact Fwd.pure

theorem sem_genMethod {l u'} (hf : FragX lx { C with await := false, yield := true } function u' v)
    (ih : Sem C key u u') (ih₁ : Sem { C with await := false, yield := true } function u' v) :
    Sem C method (pt l .star :: u) v := by
  intro fl ha
  obtain ⟨l', w, rfl⟩ := function_open hf
  have h := fun stat => (head_gen (stat := stat) (l := l) (ih fl ha)).post (m₁ := S) rfl
  refine ⟨⟨.none, true, false⟩, l', w, h, method_start ⟨rfl, rfl, fun _ => rfl⟩ (by simp) h, Fwd.call ?_⟩
  show Fwd (fun n => methodRest (recOf n) ⟨.none, true, false⟩) _ _ _ _ _ _
  unfold methodRest
  simp only [Bool.false_eq_true, if_false, if_true]
  refine Fwd.withFlag (Fwd.withFlag ?_)
  obtain ⟨u₁, h1, h2⟩ := ih₁ (Fwd.setFlag .yield true (Fwd.setFlag .await false fl)) ⟨ha.in_, rfl, ha.strict, ha.default⟩
  fb h1
  fb Fwd.eat h2
  exact Fwd.pure

theorem params_fwd {l l' u'} (h : HeadIs (· = .punct .parenClose) (pt l' .parenClose :: u') →
      LoopFwd (fun n _ => functionParamsRound (recOf n)) () Z fl u () S (pt l' .parenClose :: u')) :
    Fwd (fun n => run n .functionParams) S fl (pt l .parenOpen :: u) (some ()) Z u' := by
  refine Fwd.call ?_
  show Fwd (fun n => parseFunctionParams (recOf n)) _ _ _ _ _ _
  unfold parseFunctionParams
  fb Fwd.punc ⟨rfl, rfl⟩
  fb LoopFwd.fwd (h (headIs_cons.2 rfl))
  fb Fwd.eat (Fwd.punc ⟨rfl, rfl⟩)
  exact Fwd.pure

theorem body_fwd (h : Fwd (fun n => run n .blockStatement) W fl u (some ()) Z v) :
    Fwd (fun n => run n .functionBody) Z fl u (some ()) Z v := Fwd.call (h.pre rfl)

theorem sem_asyncMethod {l l' l'' u' u''} (hl : NoLine u) (hk : FragX lx C key u (pt l' .parenOpen :: u'))
    (ih : Sem C key u (pt l' .parenOpen :: u'))
    (ih₁ : Sem { C with yield := false } params u' (pt l'' .parenClose :: u''))
    (ih₂ : Sem { C with await := true, yield := false } block u'' v) : Sem C method (kw l b!"async" :: u) v := by
  intro fl ha
  have h := fun stat => (head_async (stat := stat) (l := l) hl (key_head hk) (ih fl ha)).post (m₁ := S) rfl
  refine ⟨⟨.none, false, true⟩, l', u', h, method_start (quiet_word _) (by simp) h, Fwd.call ?_⟩
  show Fwd (fun n => methodRest (recOf n) ⟨.none, false, true⟩) _ _ _ _ _ _
  unfold methodRest
  simp only [if_true]
  refine Fwd.withFlag ?_
  fb params_fwd (ih₁ (Fwd.setFlag .yield false fl) ⟨ha.in_, ha.await, ha.strict, ha.default⟩)
  fb Fwd.eat (Fwd.withFlag (body_fwd (ih₂ _ ⟨ha.in_, rfl, ha.strict, ha.default⟩)))
  exact Fwd.pure

theorem sem_asyncNamed {l l' l'' u'}
    (ih₁ : Sem { C with yield := false } params u (pt l'' .parenClose :: u'))
    (ih₂ : Sem { C with await := true, yield := false } block u' v) :
    Sem C method (kw l b!"async" :: pt l' .parenOpen :: u) v := by
  intro fl ha
  have h := fun stat => head_word_async (fl := fl) (stat := stat) (l := l) (v := pt l' .parenOpen :: u)
    (headIs_cons.2 ⟨fun m => ⟨rfl, rfl⟩, _, rfl, by simp, by simp⟩)
  refine ⟨⟨.none, false, true⟩, l', u, h, method_start (quiet_word _) (by simp) h, Fwd.call ?_⟩
  show Fwd (fun n => methodRest (recOf n) ⟨.none, false, true⟩) _ _ _ _ _ _
  unfold methodRest
  simp only [if_true]
  refine Fwd.withFlag ?_
  fb params_fwd (ih₁ (Fwd.setFlag .yield false fl) ⟨ha.in_, ha.await, ha.strict, ha.default⟩)
  fb Fwd.eat (Fwd.withFlag (body_fwd (ih₂ _ ⟨ha.in_, rfl, ha.strict, ha.default⟩)))
  exact Fwd.pure

theorem sem_getter {l l' l'' u'} (hk : FragX lx C key u (pt l' .parenOpen :: pt l'' .parenClose :: u'))
    (ih : Sem C key u (pt l' .parenOpen :: pt l'' .parenClose :: u')) (ih₁ : Sem C block u' v) :
    Sem C method (kw l b!"get" :: u) v := by
  intro fl ha
  have h := fun stat => (head_get (stat := stat) (l := l) (key_head hk) (ih fl ha)).post (m₁ := S) rfl
  refine ⟨⟨.get, false, false⟩, l', _, h, method_start (quiet_word _) (by simp) h, Fwd.call ?_⟩
  show Fwd (fun n => parseMethodTail (recOf n) ⟨.get, false, false⟩) _ _ _ _ _ _
  unfold parseMethodTail
  dsimp only
  fb Fwd.punc ⟨rfl, rfl⟩
  fb Fwd.eat (Fwd.punc ⟨rfl, rfl⟩)
  exact Fwd.must ((body_fwd (ih₁ fl ha)).pre rfl)

theorem sem_setter {l l' l'' u' u''} (hk : FragX lx C key u (pt l' .parenOpen :: u'))
    (ih : Sem C key u (pt l' .parenOpen :: u')) (ih₁ : Sem C target u' (pt l'' .parenClose :: u''))
    (ih₂ : Sem C block u'' v) : Sem C method (kw l b!"set" :: u) v := by
  intro fl ha
  obtain ⟨pat, ht⟩ := ih₁ fl ha
  have h := fun stat => (head_set (stat := stat) (l := l) (key_head hk) (ih fl ha)).post (m₁ := S) rfl
  refine ⟨⟨.set, false, false⟩, l', _, h, method_start (quiet_word _) (by simp) h, Fwd.call ?_⟩
  show Fwd (fun n => parseMethodTail (recOf n) ⟨.set, false, false⟩) _ _ _ _ _ _
  unfold parseMethodTail
  dsimp only
  fb Fwd.punc ⟨rfl, rfl⟩
  fb (target_fwd ht).pre rfl
  fb Fwd.eat (Fwd.punc ⟨rfl, rfl⟩)
  exact Fwd.must ((body_fwd (ih₂ fl ha)).pre rfl)

theorem sem_starGetter {l l₁ l' l'' u'} (ih : Sem C key u (pt l' .parenOpen :: pt l'' .parenClose :: u'))
    (ih₁ : Sem C block u' v) : Sem C method (kw l b!"get" :: pt l₁ .star :: u) v := by
  intro fl ha
  have h := fun stat => (head_get_star (stat := stat) (l := l) (l' := l₁) (ih fl ha)).post (m₁ := S) rfl
  refine ⟨⟨.get, true, false⟩, l', _, h, method_start (quiet_word _) (by simp) h, Fwd.call ?_⟩
  show Fwd (fun n => parseMethodTail (recOf n) ⟨.get, true, false⟩) _ _ _ _ _ _
  unfold parseMethodTail
  dsimp only
  fb Fwd.punc ⟨rfl, rfl⟩
  fb Fwd.eat (Fwd.punc ⟨rfl, rfl⟩)
  exact Fwd.must ((body_fwd (ih₁ fl ha)).pre rfl)

theorem sem_starSetter {l l₁ l' l'' u' u''} (ih : Sem C key u (pt l' .parenOpen :: u'))
    (ih₁ : Sem C target u' (pt l'' .parenClose :: u'')) (ih₂ : Sem C block u'' v) :
    Sem C method (kw l b!"set" :: pt l₁ .star :: u) v := by
  intro fl ha
  obtain ⟨pat, ht⟩ := ih₁ fl ha
  have h := fun stat => (head_set_star (stat := stat) (l := l) (l' := l₁) (ih fl ha)).post (m₁ := S) rfl
  refine ⟨⟨.set, true, false⟩, l', _, h, method_start (quiet_word _) (by simp) h, Fwd.call ?_⟩
  show Fwd (fun n => parseMethodTail (recOf n) ⟨.set, true, false⟩) _ _ _ _ _ _
  unfold parseMethodTail
  dsimp only
  fb Fwd.punc ⟨rfl, rfl⟩
  fb (target_fwd ht).pre rfl
  fb Fwd.eat (Fwd.punc ⟨rfl, rfl⟩)
  exact Fwd.must ((body_fwd (ih₂ fl ha)).pre rfl)

/-! ## Object literals -/

theorem no_property {l} {q : Punct} (hp : Plain fl (.punct q)) (hq : q ≠ .squareOpen ∧ q ≠ .star ∧ q ≠ .ellipsis) :
    Fwd (fun n => run n .objectProperty) Z fl (pt l q :: u) none (L true) (pt l q :: u) := by
  refine Fwd.call ?_
  show Fwd (fun n => parseObjectProperty (recOf n)) _ _ _ _ _ _
  unfold parseObjectProperty
  fb Fwd.noPunc (x := pt l q) (hp _) (by simpa using hq.2.2)
  fb no_methodHead (x := pt l q) rfl ⟨hq.1, hq.2.1⟩ hp
  exact Fwd.pure

theorem sem_propsNil : Sem C props v v := by
  intro fl ha ht hv
  refine comma_last (q := .curlyClose) (m := L true) (a := none) (by decide) ?_ (by simp [compat, ht]) rfl hv rfl
  obtain ⟨⟨l, t⟩, w, rfl, hx⟩ := hv
  obtain rfl : t = _ := hx
  exact no_property (curly_plain ht) (by decide)

theorem sem_propsHole {l} (ih : Sem C props u v) : Sem C props (pt l .comma :: u) v :=
  fun fl ha ht hv => comma_next (no_property (fun _ => ⟨rfl, rfl⟩) (by decide)) rfl (ih fl ha ht hv)

theorem sem_propsLast (ih : Sem C prop u v) : Sem C props u v :=
  fun fl ha ht hv => comma_last (q := .curlyClose) (by decide) (ih fl ha ht (hv.mono fun _ h => .inl h))
    (by simp [compat, ht]) rfl hv rfl

theorem sem_propsCons {l u'} (ih : Sem C prop u (pt l .comma :: u')) (ih₁ : Sem C props u' v) : Sem C props u v :=
  fun fl ha ht hv => comma_next (ih fl ha ht (headIs_cons.2 (.inr rfl))) rfl (ih₁ fl ha ht hv)

theorem prop_follow (ht : fl.expectTemplate = false) (hv : HeadIs (fun t => t = .punct .curlyClose ∨ t = .punct .comma) v) :
    Follow fl 1 false v :=
  closes_follow (hv.mono fun _ h => by
    rcases h with h | h
    · exact .inr (.inr ⟨h, ht⟩)
    · exact .inl h)

theorem sem_spread {l} (h : FragX lx C (assign true g) u v) (ih : Sem C (assign true g) u v) :
    Sem C prop (pt l .ellipsis :: u) v := by
  intro fl ha ht hv
  refine Fwd.call ?_
  show Fwd (fun n => parseObjectProperty (recOf n)) _ _ _ _ _ _
  unfold parseObjectProperty
  fb Fwd.punc ⟨rfl, rfl⟩
  fb Fwd.expect
  exact Fwd.must ((enter_X ff_assignment (assign_starts h) (ih fl ha (prop_follow ht hv))).post (by cases g <;> rfl))

theorem key_prop (hk : FragX lx C key u v) (hv : HeadIs (AfterKey fl) v) (ha : Agree C fl) (ih : Sem C key u v)
    {w : List Tok}
    (h : ∀ a, Fwd (fun n => do
      match ← punc .colon with
      | some _ => do
        expectExpression
        must ((recOf n).call .assignmentExpression)
      | none => do
        let _ ← (recOf n).call (.methodTail ⟨.none, false, a⟩)
        found) S fl v (some ()) S w) :
    Fwd (fun n => run n .objectProperty) Z fl u (some ()) S w := by
  obtain ⟨a, -, h₁, -⟩ := key_method hk hv ha ih
  obtain ⟨x, u', rfl, hx, -, he, -⟩ := key_head hk
  refine Fwd.call ?_
  show Fwd (fun n => parseObjectProperty (recOf n)) _ _ _ _ _ _
  unfold parseObjectProperty
  fb Fwd.noPunc (hx.ready _ _) he
  fb h₁.pre rfl
  exact h a

theorem sem_keyValue {l u'} (hk : FragX lx C key u (pt l .colon :: u')) (h : FragX lx C (assign true g) u' v)
    (ih : Sem C key u (pt l .colon :: u')) (ih₁ : Sem C (assign true g) u' v) : Sem C prop u v := by
  intro fl ha ht hv
  refine key_prop hk (headIs_cons.2 ⟨fun m => ⟨rfl, rfl⟩, _, rfl, by simp, by simp⟩) ha ih fun a => ?_
  fb Fwd.punc ⟨rfl, rfl⟩
  fb Fwd.expect
  exact Fwd.must ((enter_X ff_assignment (assign_starts h) (ih₁ fl ha (prop_follow ht hv))).post (by cases g <;> rfl))

theorem prop_plain {x : Tok} (ht : fl.expectTemplate = false) (hx : x.2 = .punct .curlyClose ∨ x.2 = .punct .comma) :
    Plain fl x.2 := by
  rcases hx with hx | hx <;> rw [hx]
  · exact curly_plain ht
  · exact fun m => ⟨rfl, rfl⟩

theorem prop_afterKey {x : Tok} (ht : fl.expectTemplate = false) (hx : x.2 = .punct .curlyClose ∨ x.2 = .punct .comma) :
    AfterKey fl x.2 := ⟨prop_plain ht hx, by
    rcases hx with h | h <;> rw [h]
    · exact ⟨_, rfl, by simp, by simp⟩
    · exact ⟨_, rfl, by simp, by simp⟩⟩

/-- No value and no parameters follow. -/
theorem no_value {x w} {head : MethodHead} (ht : fl.expectTemplate = false) (hx : x.2 = .punct .curlyClose ∨ x.2 = .punct .comma) :
    Fwd (fun n => do
      match ← punc .colon with
      | some _ => do
        expectExpression
        must ((recOf n).call .assignmentExpression)
      | none => do
        let _ ← (recOf n).call (.methodTail head)
        found) S fl (x :: w) (some ()) S (x :: w) := by
  have hp : ∀ fl' : Flags, fl'.expectTemplate = false → Plain fl' x.2 := fun fl' h => prop_plain h hx
  fb Fwd.noPunc (hp _ ht _) (by rcases hx with h | h <;> simp [h])
  refine Fwd.bind (a := none) (u₁ := x :: w) (m₁ := L false) (Fwd.call ?_) (Fwd.pure.post rfl)
  have hf : ∀ fl' : Flags, fl'.expectTemplate = false →
      Fwd (fun n => run n .functionParams) (L false) fl' (x :: w) none (L false) (x :: w) := by
    intro fl' ht'
    refine Fwd.call ?_
    show Fwd (fun n => parseFunctionParams (recOf n)) _ _ _ _ _ _
    unfold parseFunctionParams
    fb Fwd.noPunc (hp _ ht' _) (by rcases hx with h | h <;> simp [h])
    exact Fwd.pure
  obtain ⟨kind, s, a⟩ := head
  cases kind with
  | get =>
    show Fwd (fun n => parseMethodTail (recOf n) ⟨.get, s, a⟩) _ _ _ _ _ _
    unfold parseMethodTail
    dsimp only
    fb Fwd.noPunc (hp _ ht _) (by rcases hx with h | h <;> simp [h])
    exact Fwd.pure
  | set =>
    show Fwd (fun n => parseMethodTail (recOf n) ⟨.set, s, a⟩) _ _ _ _ _ _
    unfold parseMethodTail
    dsimp only
    fb Fwd.noPunc (hp _ ht _) (by rcases hx with h | h <;> simp [h])
    exact Fwd.pure
  | none =>
  show Fwd (fun n => methodRest (recOf n) ⟨.none, s, a⟩) _ _ _ _ _ _
  unfold methodRest
  cases a with
  | false =>
    simp only [Bool.false_eq_true, if_false]
    cases s with
    | false =>
      simp only [Bool.false_eq_true, if_false]
      exact Fwd.withFlag (Fwd.withFlag (Fwd.bind (hf _ ht) Fwd.pure))
    | true =>
      simp only [if_true]
      exact Fwd.withFlag (Fwd.withFlag (Fwd.bind (hf _ ht) Fwd.pure))
  | true =>
    simp only [if_true]
    exact Fwd.withFlag (Fwd.bind (hf _ ht) Fwd.pure)

theorem sem_shorthandKey (hk : FragX lx C key u v) (ih : Sem C key u v) : Sem C prop u v := by
  intro fl ha ht hv
  obtain ⟨x, w, rfl, hx⟩ := hv
  exact key_prop hk (headIs_cons.2 (prop_afterKey ht hx)) ha ih fun a => no_value ht hx

theorem sem_shorthand {l n} : Sem C prop (kw l n :: v) v :=
  sem_shorthandKey (lx := false) .keyName sem_keyName

/-- What precedes the colon or the parameters of a property. -/
theorem head_quiet {s : Bool} (h : FragX lx C (propHead s) u v) :
    HeadIs (fun t => Quiet t ∧ t ≠ .punct .ellipsis ∧ t ≠ .punct .semicolon) u := by
  refine (heads h rfl).mono fun t ht => ?_
  rcases ht with rfl | rfl | ⟨n, rfl⟩ | ⟨n, rfl⟩ | ⟨n, rfl⟩
  · exact ⟨⟨rfl, rfl, fun _ => rfl⟩, by simp, by simp⟩
  · exact ⟨⟨rfl, rfl, fun _ => rfl⟩, by simp, by simp⟩
  · exact ⟨quiet_word n, by simp, by simp⟩
  · exact ⟨⟨rfl, rfl, fun _ => rfl⟩, by simp, by simp⟩
  · exact ⟨⟨rfl, rfl, fun _ => rfl⟩, by simp, by simp⟩

theorem head_prop {s : Bool} (h : FragX lx C (propHead s) u v) (ha : Agree C fl) (hv : HeadIs (AfterKey fl) v)
    (ih : Sem C (propHead s) u v) {w : List Tok}
    (hw : ∀ head, Fwd (fun n => do
      match ← punc .colon with
      | some _ => do
        expectExpression
        must ((recOf n).call .assignmentExpression)
      | none => do
        let _ ← (recOf n).call (.methodTail head)
        found) S fl v (some ()) S w) :
    Fwd (fun n => run n .objectProperty) Z fl u (some ()) S w := by
  obtain ⟨head, -, h₁⟩ := ih fl ha hv
  obtain ⟨x, u', rfl, hx, he, -⟩ := head_quiet h
  refine Fwd.call ?_
  show Fwd (fun n => parseObjectProperty (recOf n)) _ _ _ _ _ _
  unfold parseObjectProperty
  fb Fwd.noPunc (hx.ready _ _) he
  fb h₁.pre rfl
  exact hw head

theorem sem_headShort (h : FragX lx C (propHead true) u v) (ih : Sem C (propHead true) u v) : Sem C prop u v := by
  intro fl ha ht hv
  obtain ⟨x, w, rfl, hx⟩ := hv
  exact head_prop h ha (headIs_cons.2 (prop_afterKey ht hx)) ih fun head => no_value ht hx

theorem sem_headValue {l u'} (hh : FragX lx C (propHead true) u (pt l .colon :: u')) (h : FragX lx C (assign true g) u' v)
    (ih : Sem C (propHead true) u (pt l .colon :: u')) (ih₁ : Sem C (assign true g) u' v) : Sem C prop u v := by
  intro fl ha ht hv
  refine head_prop hh ha (headIs_cons.2 ⟨fun m => ⟨rfl, rfl⟩, _, rfl, by simp, by simp⟩) ih fun head => ?_
  fb Fwd.punc ⟨rfl, rfl⟩
  fb Fwd.expect
  exact Fwd.must ((enter_X ff_assignment (assign_starts h) (ih₁ fl ha (prop_follow ht hv))).post (by cases g <;> rfl))

theorem sem_headPlain (ih : Sem C (propHead false) u v) : Sem C (propHead true) u v := by
  intro fl ha hv
  obtain ⟨head, -, h⟩ := ih fl ha hv
  exact ⟨head, nofun, h⟩

theorem sem_headStatic {l} (ih : Sem C (propHead false) u v) : Sem C (propHead true) (kw l b!"static" :: u) v := by
  intro fl ha hv
  obtain ⟨head, h, -⟩ := ih fl ha hv
  refine ⟨head, nofun, ?_⟩
  simp only [parseMethodHead_eq]
  fb Fwd.keyword ⟨rfl, rfl⟩
  exact (h rfl _).pre rfl

theorem sem_headKey (hk : FragX lx C key u v) (ih : Sem C key u v) : Sem C (propHead false) u v := by
  intro fl ha hv
  obtain ⟨a, h, h₁, -⟩ := key_method hk hv ha ih
  exact ⟨_, fun _ => h, h₁⟩

theorem sem_headStar {l} (ih : Sem C key u v) : Sem C (propHead false) (pt l .star :: u) v := by
  intro fl ha hv
  have h := fun stat => (head_gen (stat := stat) (l := l) (ih fl ha)).post (m₁ := S) rfl
  exact ⟨_, fun _ => h, method_start ⟨rfl, rfl, fun _ => rfl⟩ (by simp) h⟩

theorem sem_headKind {l k} (hn : k ∈ [b!"get", b!"set"]) (hk : FragX lx C key u v) (ih : Sem C key u v) :
    Sem C (propHead false) (kw l k :: u) v := by
  intro fl ha hv
  simp only [List.mem_cons, List.not_mem_nil, or_false] at hn
  rcases hn with rfl | rfl
  · have h := fun stat => (head_get (stat := stat) (l := l) (key_head hk) (ih fl ha)).post (m₁ := S) rfl
    exact ⟨_, fun _ => h, method_start (quiet_word _) (by simp) h⟩
  · have h := fun stat => (head_set (stat := stat) (l := l) (key_head hk) (ih fl ha)).post (m₁ := S) rfl
    exact ⟨_, fun _ => h, method_start (quiet_word _) (by simp) h⟩

theorem sem_headAsync {l} (hl : NoLine u) (hk : FragX lx C key u v) (ih : Sem C key u v) :
    Sem C (propHead false) (kw l b!"async" :: u) v := by
  intro fl ha hv
  have h := fun stat => (head_async (stat := stat) (l := l) hl (key_head hk) (ih fl ha)).post (m₁ := S) rfl
  exact ⟨_, fun _ => h, method_start (quiet_word _) (by simp) h⟩

theorem sem_headKindStar {l l' k} (hn : k ∈ [b!"get", b!"set"]) (ih : Sem C key u v) :
    Sem C (propHead false) (kw l k :: pt l' .star :: u) v := by
  intro fl ha hv
  simp only [List.mem_cons, List.not_mem_nil, or_false] at hn
  rcases hn with rfl | rfl
  · have h := fun stat => (head_get_star (stat := stat) (l := l) (l' := l') (ih fl ha)).post (m₁ := S) rfl
    exact ⟨_, fun _ => h, method_start (quiet_word _) (by simp) h⟩
  · have h := fun stat => (head_set_star (stat := stat) (l := l) (l' := l') (ih fl ha)).post (m₁ := S) rfl
    exact ⟨_, fun _ => h, method_start (quiet_word _) (by simp) h⟩

/-- The first token of a method. -/
theorem method_head (h : FragX lx C method u v) :
    HeadIs (fun t => Quiet t ∧ t ≠ .punct .ellipsis ∧ t ≠ .punct .semicolon) u := by
  refine (heads h rfl).mono fun t ht => ?_
  rcases ht with rfl | rfl | ⟨n, rfl⟩ | ⟨n, rfl⟩ | ⟨n, rfl⟩
  · exact ⟨⟨rfl, rfl, fun _ => rfl⟩, by simp, by simp⟩
  · exact ⟨⟨rfl, rfl, fun _ => rfl⟩, by simp, by simp⟩
  · exact ⟨quiet_word n, by simp, by simp⟩
  · exact ⟨⟨rfl, rfl, fun _ => rfl⟩, by simp, by simp⟩
  · exact ⟨⟨rfl, rfl, fun _ => rfl⟩, by simp, by simp⟩

theorem sem_propMethod (h : FragX lx C method u v) (ih : Sem C method u v) : Sem C prop u v := by
  intro fl ha ht hv
  obtain ⟨x, u', rfl, hx, he, -⟩ := method_head h
  obtain ⟨head, l, w, -, h1, h2⟩ := ih fl ha
  refine Fwd.call ?_
  show Fwd (fun n => parseObjectProperty (recOf n)) _ _ _ _ _ _
  unfold parseObjectProperty
  fb Fwd.noPunc (hx.ready _ _) he
  fb h1.pre rfl
  fb Fwd.noPunc (x := pt l .parenOpen) ⟨rfl, rfl⟩ (by simp)
  fb h2.pre (m₁ := L false) rfl
  exact Fwd.pure.post rfl

theorem sem_propStatic {l} (ih : Sem C method u v) : Sem C prop (kw l b!"static" :: u) v := by
  intro fl ha ht hv
  obtain ⟨head, l₁, w, h1, -, h2⟩ := ih fl ha
  refine Fwd.call ?_
  show Fwd (fun n => parseObjectProperty (recOf n)) _ _ _ _ _ _
  unfold parseObjectProperty
  fb Fwd.noPunc (x := kw l b!"static") ⟨rfl, rfl⟩ (by simp)
  simp only [parseMethodHead_eq]
  refine Fwd.bind (a := some head) (m₁ := S) (u₁ := pt l₁ .parenOpen :: w) ?_ ?_
  · fb Fwd.keyword ⟨rfl, rfl⟩
    exact (h1 _).pre rfl
  fb Fwd.noPunc (x := pt l₁ .parenOpen) ⟨rfl, rfl⟩ (by simp)
  fb h2.pre (m₁ := L false) rfl
  exact Fwd.pure.post rfl

/-! ## Functions -/

theorem sem_function {l l' u'} (ih : Sem C params u (pt l' .parenClose :: u')) (ih₁ : Sem C block u' v) :
    Sem C function (pt l .parenOpen :: u) v :=
  fun fl ha => ⟨u', params_fwd (ih fl ha), body_fwd (ih₁ fl ha)⟩

theorem no_rest {x : Tok} (hx : x.2 ≠ .punct .ellipsis) (hr : Ready m fl x.2) :
    Fwd (fun n => run n .bindingRestElement) m fl (x :: u) none m.fill (x :: u) := by
  refine Fwd.call ?_
  show Fwd (fun n => parseBindingRestElement (recOf n)) _ _ _ _ _ _
  unfold parseBindingRestElement
  fb Fwd.noPunc hr hx
  exact Fwd.pure

theorem rest_fwd {l} {pat : Bool} (h : Target fl pat u v) :
    Fwd (fun n => run n .bindingRestElement) S fl (pt l .ellipsis :: u) (some ()) S v := by
  refine Fwd.call ?_
  show Fwd (fun n => parseBindingRestElement (recOf n)) _ _ _ _ _ _
  unfold parseBindingRestElement
  fb Fwd.punc ⟨rfl, rfl⟩
  fb (target_fwd h).pre rfl
  exact Fwd.pure

theorem no_pattern {x : Tok} (h1 : x.2 ≠ .punct .curlyOpen) (h2 : x.2 ≠ .punct .squareOpen)
    (hc : compat false x.2 = true) (hr : Ready m fl x.2) :
    Fwd (fun n => run n .bindingPattern) m fl (x :: u) none m.fill (x :: u) := by
  refine Fwd.call ?_
  show Fwd (fun n => parseBindingPattern (recOf n)) _ _ _ _ _ _
  unfold parseBindingPattern
  refine Fwd.orTry_second (u₁ := x :: u) (m₁ := m.fill) (Fwd.call ?_) (Fwd.call ?_)
  · show Fwd (fun n => parseObjectBindingPattern (recOf n)) _ _ _ _ _ _
    unfold parseObjectBindingPattern
    refine Fwd.withFlag ?_
    fb Fwd.noPunc (m := m) ⟨hr.1, hc⟩ h1
    exact Fwd.pure
  · show Fwd (fun n => parseArrayBindingPattern (recOf n)) _ _ _ _ _ _
    unfold parseArrayBindingPattern
    have hr' : Ready m.fill fl x.2 := ⟨by simp [Mode.ready, Mode.fill], hr.2⟩
    fb Fwd.noPunc hr' h2
    exact Fwd.pure

theorem no_init {x : Tok} (hx : x.2 ≠ .punct .eq) (hr : Ready m fl x.2) :
    Fwd (fun n => run n .initializer) m fl (x :: u) none m.fill (x :: u) := by
  refine Fwd.call ?_
  show Fwd (fun n => parseInitializer (recOf n)) _ _ _ _ _ _
  unfold parseInitializer
  fb Fwd.noPunc hr hx
  exact Fwd.pure

theorem target_head (h : FragX lx C target u v) : HeadIs (fun t => Quiet t ∧ t ≠ .punct .ellipsis) u := by
  refine (heads h rfl).mono fun t ht => ?_
  rcases ht with rfl | rfl | ⟨n, rfl, -⟩
  · exact ⟨⟨rfl, rfl, fun _ => rfl⟩, by simp⟩
  · exact ⟨⟨rfl, rfl, fun _ => rfl⟩, by simp⟩
  · exact ⟨quiet_word n, by simp⟩

/-- A parameter with an optional initializer. -/
theorem param_round {pat : Bool} {u₁ : List Tok} {ini : Option Unit} (hu : HeadIs (fun t => Quiet t ∧ t ≠ .punct .ellipsis) u)
    (ht : Target fl pat u u₁) (hi : Fwd (fun n => run n .initializer) S fl u₁ ini S v) {a : Unit ⊕ Unit} {m' : Mode} {w : List Tok}
    (h : Fwd (fun _ => do
      match ← punc .comma with
      | none => return .inr ()
      | some _ => return .inl ()) S fl v a m' w) :
    Fwd (fun n => functionParamsRound (recOf n)) Z fl u a m' w := by
  obtain ⟨x, u', rfl, hx, he⟩ := hu
  unfold functionParamsRound
  fb no_rest he (hx.ready _ _)
  refine Fwd.bind (a := true) (u₁ := v) (m₁ := S) ?_ ?_
  · cases pat with
    | true =>
      fb Fwd.pre (m := S) ht rfl
      fb hi
      exact Fwd.pure
    | false =>
      obtain ⟨h1, y, h2⟩ := ht
      fb h1.pre rfl
      fb h2
      fb hi
      exact Fwd.pure
  · exact h

theorem close_end (hv : HeadIs (· = .punct .parenClose) v) :
    Fwd (fun _ => do
      match ← punc .comma with
      | none => return .inr ()
      | some _ => return .inl () : Nat → P (Unit ⊕ Unit)) S fl v (.inr ()) S v := by
  obtain ⟨⟨l, t⟩, w, rfl, hx⟩ := hv
  obtain rfl : t = _ := hx
  fb Fwd.noPunc (x := pt l .parenClose) ⟨rfl, rfl⟩ (by simp)
  exact Fwd.pure.post rfl

theorem comma_end {l} :
    Fwd (fun _ => do
      match ← punc .comma with
      | none => return .inr ()
      | some _ => return .inl () : Nat → P (Unit ⊕ Unit)) S fl (pt l .comma :: v) (.inl ()) Z v := by
  fb Fwd.punc ⟨rfl, rfl⟩
  exact Fwd.pure.post rfl

theorem no_init_S {x : Tok} (hx : x.2 ≠ .punct .eq) (hr : Ready S fl x.2) :
    Fwd (fun n => run n .initializer) S fl (x :: u) none S (x :: u) := (no_init hx hr).post rfl

theorem sem_paramsNil : Sem C params v v := by
  intro fl ha hv
  obtain ⟨⟨l, t⟩, w, rfl, hx⟩ := hv
  obtain rfl : t = _ := hx
  refine LoopFwd.stop ?_
  unfold functionParamsRound
  fb no_rest (x := pt l .parenClose) (by simp) ⟨rfl, rfl⟩
  refine Fwd.bind (a := false) (u₁ := pt l .parenClose :: w) (m₁ := S) ?_ Fwd.pure
  fb no_pattern (x := pt l .parenClose) (by simp) (by simp) rfl ⟨rfl, rfl⟩
  fb Fwd.noBinding (x := pt l .parenClose) ⟨rfl, rfl⟩ (by simp)
  exact Fwd.pure.post rfl

theorem sem_paramsRest {l} (ih : Sem C target u v) : Sem C params (pt l .ellipsis :: u) v := by
  intro fl ha hv
  obtain ⟨pat, ht⟩ := ih fl ha
  refine LoopFwd.stop ?_
  unfold functionParamsRound
  fb (rest_fwd ht).pre rfl
  exact Fwd.pure

theorem sem_paramsLast (h : FragX lx C target u v) (ih : Sem C target u v) : Sem C params u v := by
  intro fl ha hv
  obtain ⟨pat, ht⟩ := ih fl ha
  have he := close_end (fl := fl) hv
  obtain ⟨⟨l, t⟩, w, rfl, hx⟩ := hv
  obtain rfl : t = _ := hx
  exact LoopFwd.stop (param_round (target_head h) ht (no_init_S (x := pt l .parenClose) (by simp) ⟨rfl, rfl⟩) he)

theorem sem_paramsDefaultLast {u'} (h : FragX lx C target u u') (ih : Sem C target u u') (ih₁ : Sem C init u' v) :
    Sem C params u v := by
  intro fl ha hv
  obtain ⟨pat, ht⟩ := ih fl ha
  exact LoopFwd.stop (param_round (target_head h) ht (ih₁ fl ha (paren_follow hv)) (close_end hv))

theorem sem_paramsCons {l u'} (h : FragX lx C target u (pt l .comma :: u')) (ih : Sem C target u (pt l .comma :: u'))
    (ih₁ : Sem C params u' v) : Sem C params u v := by
  intro fl ha hv
  obtain ⟨pat, ht⟩ := ih fl ha
  exact LoopFwd.next (st' := ())
    (param_round (target_head h) ht (no_init_S (x := pt l .comma) (by simp) ⟨rfl, rfl⟩) comma_end) (ih₁ fl ha hv)

theorem sem_paramsDefault {l u' u''} (h : FragX lx C target u u') (ih : Sem C target u u')
    (ih₁ : Sem C init u' (pt l .comma :: u'')) (ih₂ : Sem C params u'' v) : Sem C params u v := by
  intro fl ha hv
  obtain ⟨pat, ht⟩ := ih fl ha
  exact LoopFwd.next (st' := ()) (param_round (target_head h) ht (ih₁ fl ha follow_pt) comma_end) (ih₂ fl ha hv)

/-! ## Classes -/

theorem class_body {l l'} {m : Mode} (ha : Agree C fl) (ih : Sem C elements u (pt l' .curlyClose :: v)) :
    Fwd (fun n => run n .classBody) m fl (pt l .curlyOpen :: u) (some ()) Z v := by
  refine Fwd.call ?_
  show Fwd (fun n => parseClassBody (recOf n)) _ _ _ _ _ _
  unfold parseClassBody
  refine Fwd.withFlag ?_
  fb Fwd.eat (Fwd.punc ⟨by simp [Mode.ready, slashy, isRegexTok], rfl⟩)
  fb LoopFwd.whileSome ((ih _ ha.template rfl (headIs_cons.2 rfl)).pre (by cases m; simp [Mode.le, Mode.pop, Mode.fill]))
  fb Fwd.eat (Fwd.punc ⟨rfl, rfl⟩)
  exact Fwd.pure.post rfl

theorem sem_classBody {l l'} (ih : Sem C elements u (pt l' .curlyClose :: v)) :
    Sem C classTail (pt l .curlyOpen :: u) v := by
  intro fl ha
  refine ⟨none, pt l .curlyOpen :: u, Fwd.call ?_, class_body ha ih⟩
  show Fwd (fun n => parseClassHeritage (recOf n)) _ _ _ _ _ _
  unfold parseClassHeritage
  fb Fwd.noKeyword (x := pt l .curlyOpen) ⟨rfl, rfl⟩ (by simp)
  exact Fwd.pure

theorem sem_extends {l l' l'' u'} (h : FragX lx C (FNT.lhs true true e g) u (pt l' .curlyOpen :: u'))
    (ih : Sem C (FNT.lhs true true e g) u (pt l' .curlyOpen :: u'))
    (ih₁ : Sem C elements u' (pt l'' .curlyClose :: v)) : Sem C classTail (kw l b!"extends" :: u) v := by
  intro fl ha
  refine ⟨some (), pt l' .curlyOpen :: u', Fwd.call ?_, class_body ha ih₁⟩
  show Fwd (fun n => parseClassHeritage (recOf n)) _ _ _ _ _ _
  unfold parseClassHeritage
  fb Fwd.keyword ⟨rfl, rfl⟩
  fb Fwd.expect
  refine Fwd.must (Fwd.call ?_)
  show Fwd (fun n => run n (.leftHandExpression true)) _ _ _ _ _ _
  exact (enter_X (ff_leftHand true) ((lhs_head h).mono fun _ h => h.1) (ih fl ha follow_pt)).post (by cases g <;> rfl)

theorem sem_elementsNil : Sem C elements v v := by
  intro fl ha ht hv
  obtain ⟨⟨l, t⟩, w, rfl, hx⟩ := hv
  obtain rfl : t = _ := hx
  have hp := curly_plain ht
  refine LoopFwd.stop ?_
  unfold whileBody
  refine Fwd.bind (a := none) (u₁ := pt l .curlyClose :: w) (m₁ := L false) (Fwd.call ?_) Fwd.pure
  show Fwd (fun n => parseClassItem (recOf n)) _ _ _ _ _ _
  unfold parseClassItem
  fb Fwd.noPunc (x := pt l .curlyClose) (hp _) (by simp)
  fb no_methodHead (x := pt l .curlyClose) rfl (by decide) hp
  exact Fwd.pure.post rfl

theorem sem_elementsSemi {l} (ih : Sem C elements u v) : Sem C elements (pt l .semicolon :: u) v := by
  intro fl ha ht hv
  refine LoopFwd.next (st' := ()) ?_ (ih fl ha ht hv)
  unfold whileBody
  refine Fwd.bind (a := some ()) (u₁ := u) (m₁ := Z) (Fwd.call ?_) Fwd.pure
  show Fwd (fun n => parseClassItem (recOf n)) _ _ _ _ _ _
  unfold parseClassItem
  fb Fwd.punc ⟨rfl, rfl⟩
  exact Fwd.pure.post rfl

theorem sem_elementsCons {u'} (h : FragX lx C method u u') (ih : Sem C method u u') (ih₁ : Sem C elements u' v) :
    Sem C elements u v := by
  intro fl ha ht hv
  obtain ⟨x, w', rfl, hx, -, hc⟩ := method_head h
  obtain ⟨head, l, w, -, h1, h2⟩ := ih fl ha
  refine LoopFwd.next (st' := ()) ?_ (ih₁ fl ha ht hv)
  unfold whileBody
  refine Fwd.bind (a := some ()) (u₁ := u') (m₁ := Z) (Fwd.call ?_) Fwd.pure
  show Fwd (fun n => parseClassItem (recOf n)) _ _ _ _ _ _
  unfold parseClassItem
  fb Fwd.noPunc (hx.ready _ _) hc
  fb h1.pre rfl
  exact Fwd.must (h2.pre rfl)

theorem sem_elementsStatic {l u'} (ih : Sem C method u u') (ih₁ : Sem C elements u' v) :
    Sem C elements (kw l b!"static" :: u) v := by
  intro fl ha ht hv
  obtain ⟨head, l', w, h1, -, h2⟩ := ih fl ha
  refine LoopFwd.next (st' := ()) ?_ (ih₁ fl ha ht hv)
  unfold whileBody
  refine Fwd.bind (a := some ()) (u₁ := u') (m₁ := Z) (Fwd.call ?_) Fwd.pure
  show Fwd (fun n => parseClassItem (recOf n)) _ _ _ _ _ _
  unfold parseClassItem
  fb Fwd.noPunc (x := kw l b!"static") ⟨rfl, rfl⟩ (by simp)
  simp only [parseMethodHead_eq]
  refine Fwd.bind (a := some head) (u₁ := pt l' .parenOpen :: w) (m₁ := S) ?_ (Fwd.must (h2.pre rfl))
  fb Fwd.keyword ⟨rfl, rfl⟩
  exact (h1 _).pre rfl

/-! ## Patterns -/

theorem sem_objectPattern {l l'} (ih : Sem C bindings u (pt l' .curlyClose :: v)) :
    Sem C pattern (pt l .curlyOpen :: u) v := by
  intro fl ha
  refine Fwd.call ?_
  show Fwd (fun n => parseBindingPattern (recOf n)) _ _ _ _ _ _
  unfold parseBindingPattern
  refine Fwd.orTry_first (Fwd.call ?_)
  show Fwd (fun n => parseObjectBindingPattern (recOf n)) _ _ _ _ _ _
  unfold parseObjectBindingPattern
  refine Fwd.withFlag ?_
  fb Fwd.punc ⟨rfl, rfl⟩
  fb LoopFwd.fwd ((ih _ ha.template rfl (headIs_cons.2 rfl)).pre rfl)
  fb Fwd.eat (Fwd.punc ⟨rfl, rfl⟩)
  exact Fwd.pure.post rfl

theorem sem_arrayPattern {l l'} (ih : Sem C elisions u (pt l' .squareClose :: v)) :
    Sem C pattern (pt l .squareOpen :: u) v := by
  intro fl ha
  refine Fwd.call ?_
  show Fwd (fun n => parseBindingPattern (recOf n)) _ _ _ _ _ _
  unfold parseBindingPattern
  refine Fwd.orTry_second (u₁ := pt l .squareOpen :: u) (m₁ := L false) (Fwd.call ?_) (Fwd.call ?_)
  · show Fwd (fun n => parseObjectBindingPattern (recOf n)) _ _ _ _ _ _
    unfold parseObjectBindingPattern
    refine Fwd.withFlag ?_
    fb Fwd.noPunc (x := pt l .squareOpen) ⟨rfl, rfl⟩ (by simp)
    exact Fwd.pure
  · show Fwd (fun n => parseArrayBindingPattern (recOf n)) _ _ _ _ _ _
    unfold parseArrayBindingPattern
    fb Fwd.punc ⟨rfl, rfl⟩
    fb LoopFwd.fwd ((ih _ ha (headIs_cons.2 rfl)).pre rfl)
    fb Fwd.eat (Fwd.punc ⟨rfl, rfl⟩)
    exact Fwd.pure.post rfl

theorem name_target {l n} (hn : Named lx C n) (ha : Keen C fl) : Target fl false (kw l n :: v) v :=
  ⟨(no_pattern (x := kw l n) (by simp) (by simp) rfl ⟨rfl, rfl⟩).post rfl, n,
    (Fwd.binding ⟨rfl, rfl⟩ (named_binding ha hn)).post rfl⟩

theorem sem_targetName {l n} (hn : Named lx C n) : Sem C target (kw l n :: v) v :=
  fun _ ha => ⟨false, name_target hn ha.keen⟩

theorem sem_targetPattern (ih : Sem C pattern u v) : Sem C target u v := fun fl ha => ⟨true, ih fl ha⟩

theorem sem_bindingsNil : Sem C bindings v v := by
  intro fl ha ht hv
  obtain ⟨⟨l, t⟩, w, rfl, hx⟩ := hv
  obtain rfl : t = _ := hx
  have hp := curly_plain ht
  refine LoopFwd.stop ?_
  unfold objectBindingRound
  refine Fwd.bind (a := none) (u₁ := pt l .curlyClose :: w) (m₁ := L false) (Fwd.call ?_) Fwd.pure
  show Fwd (fun n => parseBindingProperty (recOf n)) _ _ _ _ _ _
  unfold parseBindingProperty
  fb no_propertyName (x := pt l .curlyClose) rfl (by simp) hp
  exact Fwd.pure.post rfl

theorem sem_bindingsLast (ih : Sem C binding u v) : Sem C bindings u v := by
  intro fl ha ht hv
  have h := ih fl ha ht (hv.mono fun _ h => .inl h)
  obtain ⟨⟨l, t⟩, w, rfl, hx⟩ := hv
  obtain rfl : t = _ := hx
  refine LoopFwd.stop ?_
  unfold objectBindingRound
  fb h
  fb Fwd.noPunc (x := pt l .curlyClose) (curly_plain ht _) (by simp)
  exact Fwd.pure

theorem sem_bindingsCons {l u'} (ih : Sem C binding u (pt l .comma :: u')) (ih₁ : Sem C bindings u' v) :
    Sem C bindings u v := by
  intro fl ha ht hv
  refine LoopFwd.next (st' := ()) ?_ (ih₁ fl ha ht hv)
  unfold objectBindingRound
  fb ih fl ha ht (headIs_cons.2 (.inr rfl))
  fb Fwd.punc ⟨rfl, rfl⟩
  exact Fwd.pure

theorem sem_bindAny (ih : Sem C key u v) : Sem C binding u v := by
  intro fl ha ht hv
  obtain ⟨x, w, rfl, hx⟩ := hv
  have hp : ∀ fl' : Flags, fl'.expectTemplate = false → Plain fl' x.2 := by
    intro fl' h
    rcases hx with hx | hx <;> rw [hx]
    · exact curly_plain h
    · exact fun m => ⟨rfl, rfl⟩
  refine Fwd.call ?_
  show Fwd (fun n => parseBindingProperty (recOf n)) _ _ _ _ _ _
  unfold parseBindingProperty
  fb (ih fl ha).pre (m₁ := Z) rfl
  fb Fwd.noPunc (hp _ ht _) (by rcases hx with h | h <;> simp [h])
  fb Fwd.withFlag (no_init (by rcases hx with h | h <;> simp [h]) (hp _ ht _))
  exact Fwd.pure.post rfl

theorem sem_bindName {l n} : Sem C binding (kw l n :: v) v := sem_bindAny sem_keyName

theorem init_open (h : FragX lx C init u v) : ∃ l w, u = pt l .eq :: w := by
  obtain ⟨⟨l, t⟩, w, rfl, hx⟩ := heads h rfl
  obtain rfl : t = _ := hx
  exact ⟨l, w, rfl⟩

theorem closes_in {b : Bool} (hv : HeadIs (Closes fl) v) : HeadIs (Closes (Fwd.setFlag .fin b fl)) v := hv

theorem prop_closes (ht : fl.expectTemplate = false) (hv : HeadIs (fun t => t = .punct .curlyClose ∨ t = .punct .comma) v) :
    HeadIs (Closes fl) v :=
  hv.mono fun _ h => by
    rcases h with h | h
    · exact .inr (.inr ⟨h, ht⟩)
    · exact .inl h

theorem sem_bindAnyDefault {u'} (h : FragX lx { C with in_ := true } init u' v) (ih₁ : Sem C key u u')
    (ih : Sem { C with in_ := true } init u' v) : Sem C binding u v := by
  intro fl ha ht hv
  obtain ⟨l', w, rfl⟩ := init_open h
  refine Fwd.call ?_
  show Fwd (fun n => parseBindingProperty (recOf n)) _ _ _ _ _ _
  unfold parseBindingProperty
  fb (ih₁ fl ha).pre (m₁ := Z) rfl
  fb Fwd.noPunc (x := pt l' .eq) ⟨rfl, rfl⟩ (by simp)
  fb Fwd.withFlag ((ih _ ha.in_true (closes_follow (closes_in (prop_closes ht hv)))).pre rfl)
  exact Fwd.pure

theorem sem_bindDefault {l n} (h : FragX lx { C with in_ := true } init u v) (ih : Sem { C with in_ := true } init u v) :
    Sem C binding (kw l n :: u) v := sem_bindAnyDefault h sem_keyName ih

theorem sem_bindKey {l u'} (ih : Sem C key u (pt l .colon :: u')) (ih₁ : Sem C element u' v) : Sem C binding u v := by
  intro fl ha ht hv
  refine Fwd.call ?_
  show Fwd (fun n => parseBindingProperty (recOf n)) _ _ _ _ _ _
  unfold parseBindingProperty
  fb (ih fl ha).pre rfl
  fb Fwd.punc ⟨rfl, rfl⟩
  fb Fwd.eat ((ih₁ fl ha (prop_closes ht hv)).pre rfl)
  exact Fwd.pure

theorem no_element {x : Tok} (hx : x.2 = .punct .comma ∨ x.2 = .punct .squareClose) :
    Fwd (fun n => run n .bindingElement) m fl (x :: u) none m.fill (x :: u) := by
  have hq : Quiet x.2 := by rcases hx with h | h <;> rw [h] <;> exact ⟨rfl, rfl, fun _ => rfl⟩
  refine Fwd.call ?_
  show Fwd (fun n => parseBindingElement (recOf n)) _ _ _ _ _ _
  unfold parseBindingElement
  fb no_pattern (by rcases hx with h | h <;> simp [h]) (by rcases hx with h | h <;> simp [h]) (hq.2.2 _) (hq.ready _ _)
  fb Fwd.noBinding (hq.ready _ _) (by rcases hx with h | h <;> simp [h])
  exact Fwd.pure

theorem array_binding_round {a : Unit ⊕ Unit} {m' : Mode} {w : List Tok} {b : Option Unit}
    (hu : HeadIs (fun t => Quiet t ∧ t ≠ .punct .ellipsis) u) (h : Fwd (fun n => run n .bindingElement) S fl u b S v)
    (h₁ : Fwd (fun _ => do
      match ← punc .comma with
      | none => return .inr ()
      | some _ => return .inl ()) S fl v a m' w) :
    Fwd (fun n => arrayBindingRound (recOf n)) Z fl u a m' w := by
  obtain ⟨x, u', rfl, hx, he⟩ := hu
  unfold arrayBindingRound
  fb no_rest he (hx.ready _ _)
  fb h.pre (m₁ := L true) rfl
  exact h₁

theorem square_end (hv : HeadIs (· = .punct .squareClose) v) :
    Fwd (fun _ => do
      match ← punc .comma with
      | none => return .inr ()
      | some _ => return .inl () : Nat → P (Unit ⊕ Unit)) S fl v (.inr ()) S v := by
  obtain ⟨⟨l, t⟩, w, rfl, hx⟩ := hv
  obtain rfl : t = _ := hx
  fb Fwd.noPunc (x := pt l .squareClose) ⟨rfl, rfl⟩ (by simp)
  exact Fwd.pure.post rfl

theorem sem_elisionsNil : Sem C elisions v v := by
  intro fl ha hv
  have he := square_end (fl := fl) hv
  obtain ⟨⟨l, t⟩, w, rfl, hx⟩ := hv
  obtain rfl : t = _ := hx
  exact LoopFwd.stop (array_binding_round (headIs_cons.2 ⟨⟨rfl, rfl, fun _ => rfl⟩, by simp⟩)
    ((no_element (x := pt l .squareClose) (.inr rfl)).post rfl) he)

theorem sem_elisionsRest {l} (ih : Sem C target u v) : Sem C elisions (pt l .ellipsis :: u) v := by
  intro fl ha hv
  obtain ⟨pat, ht⟩ := ih fl ha
  refine LoopFwd.stop ?_
  unfold arrayBindingRound
  fb (rest_fwd ht).pre rfl
  exact Fwd.pure

theorem sem_elisionsHole {l} (ih : Sem C elisions u v) : Sem C elisions (pt l .comma :: u) v :=
  fun fl ha hv => LoopFwd.next (st' := ()) (array_binding_round (headIs_cons.2 ⟨⟨rfl, rfl, fun _ => rfl⟩, by simp⟩)
    ((no_element (x := pt l .comma) (.inl rfl)).post rfl) comma_end) (ih fl ha hv)

theorem element_head (h : FragX lx C element u v) : HeadIs (fun t => Quiet t ∧ t ≠ .punct .ellipsis) u := by
  refine (heads h rfl).mono fun t ht => ?_
  rcases ht with rfl | rfl | ⟨n, rfl, -⟩
  · exact ⟨⟨rfl, rfl, fun _ => rfl⟩, by simp⟩
  · exact ⟨⟨rfl, rfl, fun _ => rfl⟩, by simp⟩
  · exact ⟨quiet_word n, by simp⟩

theorem sem_elisionsLast {C' : Ctx} (h : FragX lx C' element u v) (ih : Sem C element u v) : Sem C elisions u v :=
  fun fl ha hv => LoopFwd.stop
    (array_binding_round (element_head h) (ih fl ha (hv.mono fun _ h => .inr (.inl h))) (square_end hv))

theorem sem_elisionsCons {C' : Ctx} {l u'} (h : FragX lx C' element u (pt l .comma :: u')) (ih : Sem C element u (pt l .comma :: u'))
    (ih₁ : Sem C elisions u' v) : Sem C elisions u v :=
  fun fl ha hv => LoopFwd.next (st' := ())
    (array_binding_round (element_head h) (ih fl ha (headIs_cons.2 (.inl rfl))) comma_end) (ih₁ fl ha hv)

theorem element_fwd {pat : Bool} {u₁ : List Tok} {ini : Option Unit} (ht : Target fl pat u u₁)
    (hi : Fwd (fun n => run n .initializer) S (Fwd.setFlag .fin true fl) u₁ ini S v) :
    Fwd (fun n => run n .bindingElement) S fl u (some ()) S v := by
  refine Fwd.call ?_
  show Fwd (fun n => parseBindingElement (recOf n)) _ _ _ _ _ _
  unfold parseBindingElement
  cases pat with
  | true =>
    fb ht
    fb Fwd.withFlag hi
    exact Fwd.pure
  | false =>
    obtain ⟨h1, y, h2⟩ := ht
    fb h1
    fb h2
    fb Fwd.withFlag hi
    exact Fwd.pure

theorem sem_element (ih : Sem C target u v) : Sem C element u v := by
  intro fl ha hv
  obtain ⟨pat, ht⟩ := ih fl ha
  obtain ⟨x, w, rfl, hx⟩ := hv
  exact element_fwd ht (no_init_S (by rcases hx with h | h | ⟨h, -⟩ <;> simp [h]) (Closes.plain (fl := Fwd.setFlag .fin true fl) hx _))

theorem sem_elementDefault {u'} (ih : Sem C target u u') (ih₁ : Sem { C with in_ := true } init u' v) :
    Sem C element u v := by
  intro fl ha hv
  obtain ⟨pat, ht⟩ := ih fl ha
  exact element_fwd ht (ih₁ _ ha.in_true (closes_follow (closes_in hv)))

theorem sem_init {l} (h : FragX lx C (assign true g) u v) (ih : Sem C (assign true g) u v) : Sem C init (pt l .eq :: u) v := by
  intro fl ha hv
  refine Fwd.call ?_
  show Fwd (fun n => parseInitializer (recOf n)) _ _ _ _ _ _
  unfold parseInitializer
  fb Fwd.punc ⟨rfl, rfl⟩
  fb Fwd.expect
  exact Fwd.must ((enter_X ff_assignment (assign_starts h) (ih fl ha hv)).post (by cases g <;> rfl))

end class_

end Jsparse.Forward
