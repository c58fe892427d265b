import Verif.Proofs.ReplayKind
import Verif.Proofs.FwdText
import Verif.Proofs.GapFollow
/-!
# A text that spells tokens of the same kinds
-/

namespace Jsparse

open P Spec Forward

theorem forall₂_comp {α β γ : Type} {R : α → β → Prop} {S : β → γ → Prop} {T : α → γ → Prop}
    (h : ∀ a b c, R a b → S b c → T a c) {l1 : List α} {l2 : List β} {l3 : List γ}
    (h1 : List.Forall₂ R l1 l2) (h2 : List.Forall₂ S l2 l3) : List.Forall₂ T l1 l3 := by
  induction h1 generalizing l3 with
  | nil => cases h2; exact .nil
  | cons h3 _ ih =>
    cases h2 with
    | cons h4 h5 => exact .cons (h _ _ _ h3 h4) (ih h5)

/-! ## Tokens and the hints they are read with -/

theorem lexed_fits {h : Hint} {s : Bytes} {tok : Token} {n : Nat} (hl : Lexed h s tok n) : Fits h tok := by
  cases hl with
  | punct p s hp =>
    have h1 := hp.neSlash
    have h2 := hp.neSlashEq
    have h3 := hp.neCurly
    refine ⟨?_, ?_, nofun⟩
    · unfold compat; split <;> first | rfl | simp_all
    · unfold slashy; split <;> simp_all
  | slash rest h1 => exact ⟨rfl, fun _ => h1, nofun⟩
  | slashEq rest h1 => exact ⟨rfl, fun _ => h1, nofun⟩
  | curlyClose rest h1 => exact ⟨by simp [compat, h1], nofun, nofun⟩
  | regex v fl rest h1 => exact ⟨rfl, nofun, fun _ => h1⟩
  | tailTick v rest h1 => exact ⟨h1, nofun, nofun⟩
  | tailCurly v rest h1 => exact ⟨h1, nofun, nofun⟩
  | _ => exact ⟨rfl, nofun, nofun⟩

theorem Spec.SameKind.fits {h : Hint} {a b : Token} (hk : SameKind a b) (hf : Fits h a) : Fits h b := by
  cases hk with
  | same => exact hf
  | name => exact ⟨rfl, nofun, nofun⟩
  | number => exact ⟨rfl, nofun, nofun⟩
  | string => exact ⟨rfl, nofun, nofun⟩
  | regex => exact ⟨rfl, nofun, hf.2.2⟩
  | template k => cases k <;> exact ⟨hf.1, nofun, nofun⟩

theorem readToken_fits {t : Tokenizer} (hv : Valid t) {h : Hint} {look : Look} {t' : Tokenizer}
    (hr : readToken t h = .ok look t') : Fits h look.token := by
  obtain ⟨w, hs, -⟩ := scan_of_readToken hv hr
  obtain ⟨-, s, n, hl, -⟩ := scan_last hs hv.unread_utf8
  exact lexed_fits hl

theorem Spec.SameKind.symm {a b : Token} (h : SameKind a b) : SameKind b a := by
  cases h with
  | same => exact .same _
  | name a b ha hb => exact .name _ _ hb ha
  | number => exact .number _ _
  | string => exact .string _ _
  | regex => exact .regex _ _ _ _
  | template => exact .template _ _ _ _ _

theorem Spec.SameKind.trans {a b c : Token} (h : SameKind a b) (h' : SameKind b c) : SameKind a c := by
  cases h with
  | same => exact h'
  | name a b ha hb =>
    cases h' with
    | same => exact .name _ _ ha hb
    | name _ _ _ hc => exact .name _ _ ha hc
  | number => cases h' <;> exact .number _ _
  | string => cases h' <;> exact .string _ _
  | regex => cases h' <;> exact .regex _ _ _ _
  | template => cases h' <;> exact .template _ _ _ _ _

theorem Spec.Alike.symm {x y : Tok} (h : Alike x y) : Alike y x := ⟨h.1.symm, h.2.symm⟩

theorem Spec.Alike.trans {x y z : Tok} (h : Alike x y) (h' : Alike y z) : Alike x z :=
  ⟨h'.1.trans h.1, h.2.trans h'.2⟩

theorem Spec.SameTok.symm {x y : Tok} (h : SameTok x y) : SameTok y x :=
  ⟨h.1.symm, h.2.elim (fun h => .inl h.symm) fun ⟨v, v', h1, h2⟩ => .inr ⟨v', v, h2, h1⟩⟩

theorem Spec.SameTok.alike {x y : Tok} (h : SameTok x y) : Alike x y := by
  refine ⟨h.1, ?_⟩
  rcases h.2 with h | ⟨v, v', h1, h2⟩
  · rw [h]; exact .same _
  · rw [h1, h2]; exact .number _ _

theorem renumber_sameTok (k : Nat → NumExpr) (u : List Tok) : List.Forall₂ SameTok u (renumber k u) := by
  induction u with
  | nil => exact .nil
  | cons x u ih =>
    refine .cons ⟨rfl, ?_⟩ ih
    obtain ⟨f, t⟩ := x
    cases t with
    | num v => exact .inr ⟨_, _, rfl, rfl⟩
    | _ => exact .inl rfl

/-! ## Following -/

theorem kinds_alike : Kinds fun a b => Alike a.seen b.seen :=
  ⟨fun h => h.1, fun h => h.2, fun h => ⟨h.1, .same _⟩⟩

theorem stream_follows {log : List Look} {u : List Tok}
    (hk : List.Forall₂ (fun a x => Alike a.seen x) log u) :
    FollowsK (fun a b => Alike a.seen b.seen) log
      (fun k t1 t2 => Valid t1 ∧ Stream t2 (u.drop k)) := by
  rintro pre look t1 t2 h t1' ⟨post, hp⟩ ⟨hv, hs⟩ hr
  subst hp
  obtain ⟨w, -, hw⟩ := scan_of_readToken hv hr
  have h1 := hk.length_eq
  simp only [List.length_append, List.length_singleton] at h1
  have h2 := (List.forall₂_iff_get.1 hk).2 pre.length (by simp) (by omega)
  simp only [List.get_eq_getElem] at h2
  rw [List.getElem_append_left (by simp), List.getElem_concat_length rfl] at h2
  rw [List.drop_eq_getElem_cons (by omega)] at hs
  obtain ⟨look2, t2', h3, h4, h5⟩ := hs h (h2.2.fits (readToken_fits hv hr))
  exact ⟨look2, t2', h3, show Alike look.seen look2.seen by rw [h4]; exact h2, hw.valid, h5⟩

theorem stream_take : ∀ {w : List Tok} {t : Tokenizer}, Stream t w → ∀ n, Stream t (w.take n)
  | [], _, _, n => by rw [List.take_nil]; trivial
  | x :: w, t, _, 0 => trivial
  | x :: w, t, h, n + 1 => fun hint hf => by
    obtain ⟨look, t', h1, h2, h3⟩ := h hint hf
    exact ⟨look, t', h1, h2, stream_take h3 n⟩

/-- Tokens that were read from a known stream. -/
theorem delivered_stream {t0 : Tokenizer} (hv : Valid t0) {l : List Look} {t : Tokenizer}
    (h : Delivered t0 l t) : ∀ {u1 u2 : List Tok}, Stream t0 (u1 ++ u2) →
    List.Forall₂ (fun a x => Alike a.seen x) l u1 → l.map Look.seen = u1 ∧ Stream t u2 := by
  induction h with
  | nil => intro u1 u2 hs hk; cases hk; exact ⟨rfl, hs⟩
  | @snoc ls t h look t' hd hi ih =>
    intro u1 u2 hs hk
    have hlen := hk.length_eq
    rcases List.eq_nil_or_concat u1 with rfl | ⟨u1, x, rfl⟩
    · simp at hlen
    · rw [List.concat_eq_append] at hs hk hlen ⊢
      simp only [List.length_append, List.length_singleton, Nat.add_right_cancel_iff] at hlen
      rw [List.append_assoc] at hs
      have h1 := List.forall₂_take ls.length hk
      have h2 := List.forall₂_drop ls.length hk
      rw [List.take_left, hlen, List.take_left] at h1
      rw [List.drop_left, hlen, List.drop_left] at h2
      obtain ⟨h3, h4⟩ := ih hs h1
      have h5 := (List.forall₂_cons.1 h2).1
      obtain ⟨look2, t2, h6, h7, h8⟩ := h4 h (h5.2.fits (readToken_fits (hd.valid hv) hi.read))
      rw [hi.read] at h6
      cases h6
      exact ⟨by simp [h3, h7], h8⟩

/-- The end of the text comes last. -/
theorem spells_shape {code : Bytes} {u : List Tok} (h : Spells code u) :
    ∃ u' f, u = u' ++ [(f, .eof)] ∧ ∀ x ∈ u', x.2 ≠ .eof := by
  induction h with
  | eof => exact ⟨[], _, rfl, by simp⟩
  | comment => exact ⟨[], _, rfl, by simp⟩
  | @cons g f x w r u _ hl _ _ ih =>
    obtain ⟨u', f', rfl, h⟩ := ih
    refine ⟨(f, x) :: u', f', rfl, ?_⟩
    intro y hy
    rcases List.mem_cons.1 hy with rfl | hy
    · cases hl <;> nofun
    · exact h y hy

end Jsparse
