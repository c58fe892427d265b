import Verif.Proofs.Take
import Verif.Proofs.Head
import Verif.Proofs.Invariant
/-!
# A method that returns `None` has consumed nothing

`Ab lv m post`: if `m` is run in a state where `lv` says whether tokens may have been consumed since
the start of the method, and returns `a`, then `post a l` for some such `l`.
-/

namespace Jsparse

open P

set_option linter.unusedVariables false

/-- Whether tokens may have been consumed. -/
inductive Mv where
  | still | moved
  deriving DecidableEq

/-- No token was consumed, and the tokens in the buffer are still there. -/
structure Still (s0 s : PState) : Prop where
  log : s.log = s0.log
  buf : buf s0 <+: buf s

def Mv.holds (s0 s : PState) : Mv → Prop
  | .still => Still s0 s
  | .moved => True

theorem Still.refl (s : PState) : Still s s := ⟨rfl, List.prefix_rfl⟩

theorem Still.trans {s1 s2 s3 : PState} (h : Still s1 s2) (h' : Still s2 s3) : Still s1 s3 := by
  exact ⟨h'.log.trans h.log, h.buf.trans h'.buf⟩

theorem Mv.holds_trans {s0 s s' : PState} {lv : Mv} (h : lv.holds s0 s) (h' : Still s s') :
    lv.holds s0 s' := by
  cases lv
  · exact Still.trans h h'
  · trivial

def Ab (lv : Mv) {α : Type} (m : P α) (post : α → Mv → Prop) : Prop :=
  ∀ s0 s a s', lv.holds s0 s → m s = .ok a s' → ∃ l, post a l ∧ l.holds s0 s'

section

variable {lv : Mv} {α β : Type}

theorem pure_ab {a : α} {post : α → Mv → Prop} (h : post a lv) : Ab lv (pure a) post := by
  intro s0 s b s' hl hm
  cases hm
  exact ⟨lv, h, hl⟩

theorem bind_ab {m : P α} {k : α → P β} {post : β → Mv → Prop}
    (h : Ab lv m fun a l => Ab l (k a) post) : Ab lv (m >>= k) post := by
  intro s0 s b s' hl hm
  rw [bind_apply] at hm
  cases h1 : m s with
  | ok a s1 =>
    rw [h1] at hm
    obtain ⟨l, h2, h3⟩ := h s0 s a s1 hl h1
    exact h2 s0 s1 b s' h3 hm
  | _ => rw [h1] at hm; cases hm

theorem map_ab {m : P α} {f : α → β} {post : β → Mv → Prop}
    (h : Ab lv m fun a l => post (f a) l) : Ab lv (f <$> m) post := by
  have : Ab lv (m >>= fun a => pure (f a)) post := by
    refine bind_ab ?_
    intro s0 s b s' hl hm
    obtain ⟨l, h2, h3⟩ := h s0 s b s' hl hm
    exact ⟨l, pure_ab h2, h3⟩
  exact this

theorem fail_ab {e : ParseErr} {post : α → Mv → Prop} : Ab lv (P.fail e) post := by
  intro s0 s b s' hl hm; cases hm

theorem panic_ab {e : Panic} {post : α → Mv → Prop} : Ab lv (P.panic e) post := by
  intro s0 s b s' hl hm; cases hm

theorem quiet_ab {m : P α} {post : α → Mv → Prop}
    (hm : ∀ s a s', m s = .ok a s' → Still s s') (h : ∀ a, post a lv) : Ab lv m post := by
  intro s0 s b s' hl h1
  exact ⟨lv, h b, Mv.holds_trans hl (hm s b s' h1)⟩

theorem fill_still {s s' : PState} {u : Unit} (h : fill s = .ok u s') : Still s s' := by
  unfold fill at h
  split at h
  · rename_i hc
    split at h
    · injection h with h1 h2
      subst h2
      refine ⟨rfl, ?_⟩
      rw [buf_zero hc]
      exact List.nil_prefix
    · cases h
    · cases h
  · injection h with h1 h2
    subst h2
    exact .refl s

theorem getFlags_ab {post : Flags → Mv → Prop} (h : ∀ a, post a lv) : Ab lv getFlags post :=
  quiet_ab (fun s a s' h => by cases h; exact .refl s) h

theorem expectExpression_ab {post : Unit → Mv → Prop} (h : post () lv) :
    Ab lv expectExpression post :=
  quiet_ab (fun s a s' h => by cases h; exact ⟨rfl, List.prefix_rfl⟩) fun _ => h

theorem tokenAndLine_ab {post : Bool × Token → Mv → Prop} (h : ∀ a, post a lv) :
    Ab lv tokenAndLine post := by
  refine quiet_ab (fun s a s' h => ?_) h
  rw [tokenAndLine_apply] at h
  cases h1 : fill s with
  | ok u s1 => rw [h1] at h; cases h; exact fill_still h1
  | _ => rw [h1] at h; cases h

theorem token_ab {post : Token → Mv → Prop} (h : ∀ a, post a lv) : Ab lv token post :=
  bind_ab (tokenAndLine_ab fun a => pure_ab (h a.2))

theorem noLineTerminator_ab {post : Bool → Mv → Prop} (h : ∀ a, post a lv) :
    Ab lv noLineTerminator post :=
  bind_ab (tokenAndLine_ab fun a => pure_ab (h _))

theorem identLookahead_ab {post : Option (Bool × Token) → Mv → Prop} (h : ∀ a, post a lv) :
    Ab lv identLookahead post := by
  refine quiet_ab (fun s a s' h => ?_) h
  rw [identLookahead_apply] at h
  cases h1 : fill s with
  | ok u s1 =>
    rw [h1] at h
    refine (fill_still h1).trans ?_
    simp only [lookSecond] at h
    split at h
    · split at h
      · split at h
        · cases h
          refine ⟨rfl, ?_⟩
          rename_i hc _ _ _ _ _ _
          by_cases hz : s1.count = 0
          · rw [buf_zero hz]
            exact List.nil_prefix
          have h1c : s1.count = 1 := by omega
          rw [buf_one h1c]
          rw [buf_two (by simp only; omega)]
          have hcur : ∀ (x y : Look), [x] <+: [x, y] := fun x y => ⟨[y], rfl⟩
          convert hcur (cur s1) _ using 2
          unfold cur
          cases hi : s1.index <;> simp
        · cases h
        · cases h
      · cases h
        exact .refl _
    · cases h
      exact .refl _
  | _ => rw [h1] at h; cases h

theorem takeIf_ab {f : Bool → Token → Option β} {post : Option β → Mv → Prop}
    (hn : post none lv) (hs : ∀ b, post (some b) .moved) : Ab lv (takeIf f) post := by
  intro s0 s a s' hl hm
  unfold takeIf at hm
  cases h1 : fill s with
  | ok u s1 =>
    rw [h1] at hm
    simp only at hm
    split at hm
    · cases hm
      exact ⟨.moved, hs _, trivial⟩
    · cases hm
      exact ⟨lv, hn, Mv.holds_trans hl (fill_still h1)⟩
  | _ => rw [h1] at hm; cases hm

theorem punc_ab {p : Punct} {post : Option Punct → Mv → Prop} (hn : post none lv)
    (hs : ∀ b, post (some b) .moved) : Ab lv (punc p) post := by rw [punc_eq]; exact takeIf_ab hn hs
theorem numeric_ab {post : Option NumExpr → Mv → Prop} (hn : post none lv)
    (hs : ∀ b, post (some b) .moved) : Ab lv numeric post := by rw [numeric_eq]; exact takeIf_ab hn hs
theorem regex_ab {post : Option (Bytes × Bytes) → Mv → Prop} (hn : post none lv)
    (hs : ∀ b, post (some b) .moved) : Ab lv regex post := by rw [regex_eq]; exact takeIf_ab hn hs
theorem template_ab {post : Option TemplateFormat → Mv → Prop} (hn : post none lv)
    (hs : ∀ b, post (some b) .moved) : Ab lv template post := by
  rw [template_eq]; exact takeIf_ab hn hs
theorem templateTail_ab {post : Option TemplateFormat → Mv → Prop} (hn : post none lv)
    (hs : ∀ b, post (some b) .moved) : Ab lv templateTail post := by
  rw [templateTail_eq]; exact takeIf_ab hn hs
theorem keyword_ab {k : Bytes} {post : Option Bytes → Mv → Prop} (hn : post none lv)
    (hs : ∀ b, post (some b) .moved) : Ab lv (keyword k) post := by
  rw [keyword_eq]; exact takeIf_ab hn hs
theorem string_ab {post : Option Bytes → Mv → Prop} (hn : post none lv)
    (hs : ∀ b, post (some b) .moved) : Ab lv string post := by rw [string_eq]; exact takeIf_ab hn hs
theorem identifier_ab {post : Option Bytes → Mv → Prop} (hn : post none lv)
    (hs : ∀ b, post (some b) .moved) : Ab lv identifier post := by
  rw [identifier_eq]; exact takeIf_ab hn hs
theorem bindingIdentifier_ab {post : Option Bytes → Mv → Prop} (hn : post none lv)
    (hs : ∀ b, post (some b) .moved) : Ab lv bindingIdentifier post := by
  rw [bindingIdentifier_eq]
  exact bind_ab (getFlags_ab fun flags => takeIf_ab hn hs)

theorem semicolonInner_ab {w : Bool} {post : Option Unit → Mv → Prop}
    (hn : post none lv) (hs : post (some ()) .moved) (he : post (some ()) lv) :
    Ab lv (semicolonInner w) post := by
  rw [semicolonInner_eq]
  refine bind_ab (takeIf_ab ?_ fun _ => pure_ab hs)
  refine bind_ab (tokenAndLine_ab fun a => ?_)
  split
  · exact bind_ab (expectExpression_ab (pure_ab he))
  · exact pure_ab hn

theorem withFlag_ab {f : Flag} {b : Bool} {m : P α} {post : α → Mv → Prop}
    (h : Ab lv m post) : Ab lv (withFlag f b m) post := by
  intro s0 s a s' hl hm
  rw [withFlag_apply] at hm
  obtain ⟨h1, h2, h3, h4, h5, h6, h7⟩ := pushFlags_facts f b s
  have hp : Still s (pushFlags f b s) := ⟨h2, by rw [h4]; exact List.prefix_rfl⟩
  cases h8 : m (pushFlags f b s) with
  | ok x s1 =>
    rw [h8] at hm
    obtain ⟨l, h9, h10⟩ := h s0 _ x s1 (Mv.holds_trans hl hp) h8
    simp only at hm
    cases h11 : popFlags s1 with
    | ok u s2 =>
      rw [h11] at hm
      cases hm
      refine ⟨l, h9, Mv.holds_trans h10 ?_⟩
      unfold popFlags at h11
      split at h11
      · cases h11
      · cases h11
        exact ⟨rfl, List.prefix_rfl⟩
    | _ => rw [h11] at hm; cases hm
  | _ => rw [h8] at hm; cases hm

theorem loop_ab {σ : Type} {n : Nat} {b : σ → P (σ ⊕ β)} {post : β → Mv → Prop} {st : σ}
    (h : ∀ c, post c .moved) : Ab .moved (P.loop n b st) post :=
  fun _ _ a _ _ _ => ⟨.moved, h a, trivial⟩

theorem eat_ab {m : P (Option α)} {post : α → Mv → Prop}
    (h : Ab lv m fun o l =>
      match o with
      | none => True
      | some a => post a l) : Ab lv (eat m) post := by
  unfold eat
  refine bind_ab ?_
  intro s0 s b s' hl hm
  obtain ⟨l, h1, h2⟩ := h s0 s b s' hl hm
  cases b with
  | none => exact ⟨l, fail_ab, h2⟩
  | some a => exact ⟨l, pure_ab h1, h2⟩

/-- `None` means that nothing was consumed. -/
def nonePost : Option Unit → Mv → Prop
  | none, l => l = .still
  | some _, _ => True

structure RecAb (r : Rec) : Prop where
  call : ∀ f, Ab .still (r.call f) nonePost

theorem call_ab {r : Rec} (hr : RecAb r) {f : Fn} {post : Option Unit → Mv → Prop}
    (hn : post none lv) (hs : ∀ b, post (some b) .moved) : Ab lv (r.call f) post := by
  intro s0 s a s' hl hm
  obtain ⟨l, h1, h2⟩ := hr.call f s s a s' (.refl s) hm
  cases a with
  | none =>
    have : l = .still := h1
    subst this
    exact ⟨lv, hn, Mv.holds_trans hl h2⟩
  | some b => exact ⟨.moved, hs b, trivial⟩

macro "ab" : tactic =>
  `(tactic| repeat' first
    | with_reducible assumption
    | with_reducible trivial
    | exact rfl
    | exact True.intro
    | wp_step "ab"
    | with_reducible intro _)

theorem assignmentRest_ab {r : Rec} (hr : RecAb r) {post : Option Unit → Mv → Prop}
    (hn : post none lv) (hs : post (some ()) .moved) : Ab lv (assignmentRest r) post := by
  rw [assignmentRest_eq]
  ab

theorem body_ab {r : Rec} (hr : RecAb r) (f : Fn) : Ab .still (body r f) nonePost := by
  cases f
  all_goals
    unfold body
    ab

end

theorem run_ab : ∀ n f, Ab .still (run n f) nonePost
  | 0, _ => fun _ _ _ _ _ h => by cases h
  | n + 1, f => body_ab (r := ⟨n, run n⟩) ⟨run_ab n⟩ f

end Jsparse
