import Verif.Proofs.Calm
import Verif.Proofs.Cut
import Verif.Proofs.GrammarBody
import Verif.Proofs.KindFollow
import Verif.Props.Online
import Verif.Props.Fragment
/-!
# C42: what the parser decides depends on the kinds of the tokens

`AcceptedAs checked code log`: the program is accepted, and the parser consumed the tokens `log`.
`Spells code u`: the text `code` is a way to write the tokens `u`.  `Alike`: the same token, or two
ordinary names, two numbers, two strings, two regular expressions, or two template pieces of the same
form; with a line terminator before both or before neither.
-/

namespace Jsparse

open P Spec Forward

/-- **C42.** A text that spells tokens of the same kinds as those of an accepted program is accepted, and
the parser consumes these tokens. -/
theorem C42_same_kinds_accepted {checked1 checked2 : Bool} {code1 code2 : Bytes} {log1 : List Look}
    {u : List Tok} (hu1 : Utf8 code1) (hu2 : Utf8 code2) (h : AcceptedAs checked1 code1 log1)
    (hs : Spells code2 u) (hk : List.Forall₂ (fun a x => Alike a.seen x) log1 u) :
    ∃ log2, AcceptedAs checked2 code2 log2 ∧ List.Forall₂ SameTok u (log2.map Look.seen) := by
  obtain ⟨s, h, rfl⟩ := h
  obtain ⟨k, hst⟩ := stream_of_spells checked2 hs hu2
  have hv1 := valid_intoTokenizer checked1 hu1
  have hv2 := valid_intoTokenizer checked2 hu2
  have hst := hst (intoTokenizer checked2 code2) hv2 rfl rfl
  have hn := renumber_sameTok k u
  have hk' : List.Forall₂ (fun a x => Alike a.seen x) s.log (renumber k u) :=
    forall₂_comp (fun a x y h1 h2 => h1.trans h2.alike) hk hn
  have hn1 := C24_bound_irrelevant checked1 hu1 (n := max (fuelFor code1) (fuelFor code2)) (Nat.le_max_left _ _)
  have hn2 := C24_bound_irrelevant checked2 hu2 (n := max (fuelFor code1) (fuelFor code2)) (Nat.le_max_right _ _)
  obtain ⟨s', h', hlog⟩ := replayK (checked2 := checked2) (code2 := code2) hu1 kinds_alike ⟨rfl, .same _⟩
    (hn1.trans h) (stream_follows hk') ⟨hv1, hst⟩
  have h' := hn2.symm.trans h'
  have hl' := fullLog hu2 h'
  refine ⟨s'.log, ⟨s', h', rfl⟩, ?_⟩
  have hk2 : List.Forall₂ (fun a x => Alike a.seen x) s'.log (renumber k u) :=
    forall₂_comp (R := fun a b => Alike b.seen a.seen) (fun a b x h1 h2 => h1.symm.trans h2) hlog.flip hk'
  rw [(delivered_stream hv2 hl'.stream (u2 := []) (by rw [List.append_nil]; exact hst) hk2).1]
  exact hn

/-- The text is accepted, and the parser consumes the tokens `u` (whatever the values of the numbers). -/
def ParsedAs (checked : Bool) (code : Bytes) (u : List Tok) : Prop :=
  ∃ log, AcceptedAs checked code log ∧ List.Forall₂ SameTok u (log.map Look.seen)

/-- **C42.** Two texts with tokens of the same kinds: both are parsed as these tokens, or neither. -/
theorem C42_kinds_decide {checked1 checked2 : Bool} {code1 code2 : Bytes} {u1 u2 : List Tok}
    (hu1 : Utf8 code1) (hu2 : Utf8 code2) (h1 : Spells code1 u1) (h2 : Spells code2 u2)
    (hk : List.Forall₂ Alike u1 u2) : ParsedAs checked1 code1 u1 ↔ ParsedAs checked2 code2 u2 := by
  have key : ∀ {c1 c2 : Bool} {a b : Bytes} {u v : List Tok}, Utf8 a → Utf8 b → Spells b v →
      List.Forall₂ Alike u v → ParsedAs c1 a u → ParsedAs c2 b v := by
    rintro c1 c2 a b u v ha hb hs hk ⟨log, h, hl⟩
    refine C42_same_kinds_accepted ha hb h hs ?_
    rw [← List.forall₂_map_left_iff (f := Look.seen) (R := Alike)]
    exact forall₂_comp (R := SameTok) (fun a b x h1 h2 => h1.alike.trans h2)
      (S := Alike) (T := Alike) (hl.flip.imp fun _ _ h => SameTok.symm h) hk
  exact ⟨key hu1 hu2 h2 hk, key hu2 hu1 h1 (hk.flip.imp fun _ _ h => Alike.symm h)⟩

/-- Tokens that are no division signs, regular expressions or pieces of templates. -/
structure Simple (u : List Tok) : Prop where
  slash : ∀ x ∈ u, x.2 ≠ .punct .slash ∧ x.2 ≠ .punct .slashEq
  regex : ∀ x ∈ u, ∀ p f, x.2 ≠ .regex p f
  template : ∀ x ∈ u, ∀ k a b, x.2 ≠ .template k a b

theorem forall₂_snoc {α β : Type} {R : α → β → Prop} {f : List α} {x : α} {w : List β}
    (h : List.Forall₂ R (f ++ [x]) w) : ∃ f' e, List.Forall₂ R f f' ∧ R x e ∧ w = f' ++ [e] := by
  induction f generalizing w with
  | nil =>
    cases h with
    | cons h1 h2 => cases h2; exact ⟨[], _, .nil, h1, rfl⟩
  | cons y f ih =>
    cases h with
    | cons h1 h2 =>
      obtain ⟨f', e, h3, h4, rfl⟩ := ih h2
      exact ⟨_ :: f', e, .cons h1 h3, h4, rfl⟩

theorem forall₂_mem {α β : Type} {R : α → β → Prop} {u : List α} {v : List β} (h : List.Forall₂ R u v) {y : β}
    (hy : y ∈ v) : ∃ x ∈ u, R x y := by
  induction h with
  | nil => cases hy
  | cons h1 _ ih =>
    rcases List.mem_cons.1 hy with rfl | hy
    · exact ⟨_, List.mem_cons_self .., h1⟩
    · obtain ⟨x, hx, h⟩ := ih hy
      exact ⟨x, List.mem_cons_of_mem _ hx, h⟩

/-- The parser reads these tokens whatever it expects. -/
theorem Simple.calm {checked : Bool} {code : Bytes} {u : List Tok} (h : Simple u) (hu : Utf8 code) (hs : Spells code u)
    (n : Nat) : ∃ v, List.Forall₂ SameTok u v ∧
      match parseModuleFuel n checked code with
      | .ok _ s => s.log.map Look.seen = v
      | .err _ s => (reads s).map Look.seen <+: v
      | .panic _ => False
      | .timeout => True := by
  have steady : ∀ x ∈ u, Calmly.Steady x.2 := fun x hx => by
    refine ⟨?_, ?_, h.template x hx⟩
    · have := h.slash x hx
      unfold slashy
      split <;> simp_all
    · have := h.regex x hx
      unfold isRegexTok
      split <;> simp_all
  obtain ⟨k, hk⟩ := stream_of_spells checked hs hu
  have hn := renumber_sameTok k u
  refine ⟨_, hn, Calmly.calm_of_stream n (hk _ (valid_intoTokenizer checked hu) rfl rfl) ?_ ?_⟩
  · intro y hy
    obtain ⟨i, hi, rfl⟩ := List.mem_iff_getElem.1 hy
    have h1 := hn.length_eq
    have h2 := (List.forall₂_iff_get.1 hn).2 i (by omega) hi
    rcases h2.2 with h | ⟨v, v', -, h⟩
    · simp only [List.get_eq_getElem] at h
      rw [h]
      exact steady _ (List.getElem_mem _)
    · simp only [List.get_eq_getElem] at h
      rw [h]
      exact ⟨rfl, rfl, by simp⟩
  · obtain ⟨f, l, rfl, hf⟩ := spells_shape hs
    generalize renumber k (f ++ [(l, .eof)]) = w at *
    clear hk
    obtain ⟨f', e, hf', he, rfl⟩ := forall₂_snoc hn
    have h1 : e.2 = .eof := by
      rcases he.2 with h | ⟨v, v', h, -⟩
      · exact h
      · cases h
    refine ⟨f', e.1, by rw [← h1], fun y hy h2 => ?_⟩
    obtain ⟨x, hx, hxy⟩ := forall₂_mem hf' hy
    refine hf x hx ?_
    rcases hxy.2 with h | ⟨v, v', -, h⟩
    · rw [← h, h2]
    · rw [h2] at h; cases h

theorem Simple.parsedAs {checked : Bool} {code : Bytes} {u : List Tok} (h : Simple u) (hu : Utf8 code)
    (hs : Spells code u) (ha : parseRoot checked code = .accepted) : ParsedAs checked code u := by
  obtain ⟨log, s, hm, rfl⟩ := acceptedAs_of_accepted ha
  obtain ⟨v, hv, hc⟩ := h.calm (checked := checked) hu hs (fuelFor code)
  rw [hm] at hc
  exact ⟨s.log, ⟨s, hm, rfl⟩, by rw [show s.log.map Look.seen = v from hc]; exact hv⟩

/-- Tokens that are no division signs and no regular expressions. -/
structure Unslashed (u : List Tok) : Prop where
  slash : ∀ x ∈ u, x.2 ≠ .punct .slash ∧ x.2 ≠ .punct .slashEq
  regex : ∀ x ∈ u, ∀ p f, x.2 ≠ .regex p f

/-- An accepted text without slashes is parsed as these tokens, if the closing braces are what they should be. -/
theorem Unslashed.parsedAs {checked : Bool} {code : Bytes} {u : List Tok} (h : Unslashed u) (hw : WellCut [] u)
    (hu : Utf8 code) (hs : Spells code u) (ha : parseRoot checked code = .accepted) : ParsedAs checked code u := by
  have flat : ∀ x ∈ u, Cut.Flat x.2 := fun x hx => by
    refine ⟨?_, ?_⟩
    · have := h.slash x hx
      unfold slashy
      split <;> simp_all
    · have := h.regex x hx
      unfold isRegexTok
      split <;> simp_all
  obtain ⟨log, s, hm, rfl⟩ := acceptedAs_of_accepted ha
  obtain ⟨k, hk⟩ := stream_of_spells checked hs hu
  have hn := renumber_sameTok k u
  have hst := hk _ (valid_intoTokenizer checked hu) rfl rfl
  have hw' := Cut.wellCut_same hn hw
  generalize renumber k u = w at *
  have hf : ∀ y ∈ w, Cut.Flat y.2 := fun y hy => by
    obtain ⟨x, hx, h⟩ := forall₂_mem hn hy
    rcases h.2 with h | ⟨v, v', -, h⟩
    · rw [h]
      exact flat x hx
    · rw [h]
      exact ⟨rfl, rfl⟩
  have he : ∃ f l, w = f ++ [(l, .eof)] ∧ ∀ x ∈ f, x.2 ≠ .eof := by
    obtain ⟨f, l, rfl, hg⟩ := spells_shape hs
    obtain ⟨f', e, hf', he, rfl⟩ := forall₂_snoc hn
    have h1 : e.2 = .eof := by
      rcases he.2 with h | ⟨v, v', h, -⟩
      · exact h
      · cases h
    refine ⟨f', e.1, by rw [← h1], fun y hy h2 => ?_⟩
    obtain ⟨x, hx, hxy⟩ := forall₂_mem hf' hy
    refine hg x hx ?_
    rcases hxy.2 with h | ⟨v, v', -, h⟩
    · rw [← h, h2]
    · rw [h2] at h; cases h
  rcases Cut.parseModule_keep hf _ (.sync w hst (he.imp fun _ h => h.imp fun _ h => by simpa [buf, initState] using h.1)
    (by simp [reads, buf, initState])) (by simp [initState]) he hm with h | ⟨p, x, y, q, q', rfl, h2, h3⟩
  · exact ⟨s.log, ⟨s, hm, rfl⟩, by rw [h]; exact hn⟩
  · exfalso
    have := program_balanced (parseModule_program (valid_intoTokenizer checked hu) (inv_initState checked code) rfl rfl hm)
    exact Cut.no_clash h3 hw' (by rw [← h2]; exact this)

/-- **C42.** Renaming and changing literals in a text without division signs and regular expressions, with closing
braces that are what they should be: both texts are accepted or neither. -/
theorem C42_template_texts {checked1 checked2 : Bool} {code1 code2 : Bytes} {u1 u2 : List Tok}
    (hu1 : Utf8 code1) (hu2 : Utf8 code2) (h1 : Spells code1 u1) (h2 : Spells code2 u2)
    (hk : List.Forall₂ Alike u1 u2) (hs1 : Unslashed u1) (hs2 : Unslashed u2) (hw1 : WellCut [] u1) (hw2 : WellCut [] u2) :
    parseRoot checked1 code1 = .accepted ↔ parseRoot checked2 code2 = .accepted := by
  have key := C42_kinds_decide (checked1 := checked1) (checked2 := checked2) hu1 hu2 h1 h2 hk
  constructor <;> intro h
  · obtain ⟨log, h, -⟩ := key.1 (hs1.parsedAs hw1 hu1 h1 h)
    exact h.accepted
  · obtain ⟨log, h, -⟩ := key.2 (hs2.parsedAs hw2 hu2 h2 h)
    exact h.accepted

/-- **C42.** Renaming and changing literals in a text without division signs, regular expressions and
templates: both texts are accepted or neither. -/
theorem C42_simple_texts {checked1 checked2 : Bool} {code1 code2 : Bytes} {u1 u2 : List Tok}
    (hu1 : Utf8 code1) (hu2 : Utf8 code2) (h1 : Spells code1 u1) (h2 : Spells code2 u2)
    (hk : List.Forall₂ Alike u1 u2) (hs1 : Simple u1) (hs2 : Simple u2) :
    parseRoot checked1 code1 = .accepted ↔ parseRoot checked2 code2 = .accepted := by
  have key := C42_kinds_decide (checked1 := checked1) (checked2 := checked2) hu1 hu2 h1 h2 hk
  constructor <;> intro h
  · obtain ⟨log, h, -⟩ := key.1 (hs1.parsedAs hu1 h1 h)
    exact h.accepted
  · obtain ⟨log, h, -⟩ := key.2 (hs2.parsedAs hu2 h2 h)
    exact h.accepted

/-- **C42.** A text that begins with tokens of the same kinds as those that the parser has read of a rejected
program: it is rejected with the same error, after reading these tokens. -/
theorem C42_same_kinds_rejected {checked1 checked2 : Bool} {code1 code2 : Bytes} {e : ParseErr}
    {read1 : List Look} {u u' : List Tok} (hu1 : Utf8 code1) (hu2 : Utf8 code2)
    (h : RejectedAs checked1 code1 e read1) (hs : Spells code2 u) (hp : u' <+: u)
    (hk : List.Forall₂ (fun a x => Alike a.seen x) read1 u') :
    ∃ read2, RejectedAs checked2 code2 e read2 ∧ List.Forall₂ SameTok u' (read2.map Look.seen) := by
  obtain ⟨s, h, rfl⟩ := h
  obtain ⟨k, hst⟩ := stream_of_spells checked2 hs hu2
  have hv1 := valid_intoTokenizer checked1 hu1
  have hv2 := valid_intoTokenizer checked2 hu2
  have hst := hst (intoTokenizer checked2 code2) hv2 rfl rfl
  obtain ⟨rest, rfl⟩ := hp
  have hn := List.forall₂_take u'.length (renumber_sameTok k (u' ++ rest))
  rw [List.take_left] at hn
  have hst := stream_take hst u'.length
  generalize (renumber k (u' ++ rest)).take u'.length = v at hn hst
  have hk' : List.Forall₂ (fun a x => Alike a.seen x) (reads s) v :=
    forall₂_comp (fun a x y h1 h2 => h1.trans h2.alike) hk hn
  have hn1 := C24_bound_irrelevant checked1 hu1 (n := max (fuelFor code1) (fuelFor code2)) (Nat.le_max_left _ _)
  have hn2 := C24_bound_irrelevant checked2 hu2 (n := max (fuelFor code1) (fuelFor code2)) (Nat.le_max_right _ _)
  obtain ⟨s', h', hlog, -⟩ := replayE (checked2 := checked2) (code2 := code2) kinds_alike ⟨rfl, .same _⟩
    (hn1.trans h) (stream_follows hk') ⟨hv1, hst⟩
  have h' := hn2.symm.trans h'
  refine ⟨_, ⟨s', h', rfl⟩, ?_⟩
  have hk2 : List.Forall₂ (fun a x => Alike a.seen x) (reads s') v :=
    forall₂_comp (R := fun a b => Alike b.seen a.seen) (fun a b x h1 h2 => h1.symm.trans h2) hlog.flip hk'
  have := (delivered_stream hv2 (err_inv hu2 h').1.stream (u2 := []) (by rw [List.append_nil]; exact hst) hk2).1
  rw [this]
  exact hn

/-- **C42.** Renaming and changing literals in a text without division signs, regular expressions and
templates does not change the error. -/
theorem C42_simple_errors {checked1 checked2 : Bool} {code1 code2 : Bytes} {u1 u2 : List Tok}
    (hu1 : Utf8 code1) (hu2 : Utf8 code2) (h1 : Spells code1 u1) (h2 : Spells code2 u2)
    (hk : List.Forall₂ Alike u1 u2) (hs1 : Simple u1) (hs2 : Simple u2) (e : ParseErr) :
    parseRoot checked1 code1 = .rejected e ↔ parseRoot checked2 code2 = .rejected e := by
  have key : ∀ {c1 c2 : Bool} {a b : Bytes} {u v : List Tok}, Utf8 a → Utf8 b → Spells a u → Spells b v →
      List.Forall₂ Alike u v → Simple u → parseRoot c1 a = .rejected e → parseRoot c2 b = .rejected e := by
    intro c1 c2 a b u v ha hb hsa hsb hk hsi h
    obtain ⟨read, s, h, rfl⟩ := rejectedAs_of_rejected h
    obtain ⟨u', ⟨t, rfl⟩, hf⟩ : ∃ u', u' <+: u ∧ List.Forall₂ SameTok u' ((reads s).map Look.seen) := by
      obtain ⟨w, hw, hc⟩ := hsi.calm (checked := c1) ha hsa (fuelFor a)
      rw [h] at hc
      obtain ⟨r, rfl⟩ : (reads s).map Look.seen <+: w := hc
      have := List.forall₂_take ((reads s).map Look.seen).length hw
      rw [List.take_left] at this
      exact ⟨_, List.take_prefix _ _, this⟩
    have hk2 := List.forall₂_take u'.length hk
    rw [List.take_left] at hk2
    obtain ⟨read2, h, -⟩ := C42_same_kinds_rejected (checked2 := c2) ha hb ⟨s, h, rfl⟩ hsb
      (List.take_prefix u'.length v) (by
        rw [← List.forall₂_map_left_iff (f := Look.seen) (R := Alike)]
        exact forall₂_comp (R := SameTok) (fun a b x h1 h2 => h1.alike.trans h2)
          (S := Alike) (T := Alike) (hf.flip.imp fun _ _ h => SameTok.symm h) hk2)
    exact h.rejected
  exact ⟨key hu1 hu2 h1 h2 hk hs1, key hu2 hu1 h2 h1 (hk.flip.imp fun _ _ h => Alike.symm h) hs2⟩

/-! ## Examples -/

/-- `a + 1` and `some_name + 0x7f`, seen from the first. -/
example : parseRoot false b!"some_name\t+ 0x7f;" = .accepted := by
  have h : AcceptedAs true b!"a + 1;" (tokensOf b!"a + 1;") :=
    acceptedAs_tokensOf (by rw [parseRoot_eval]; decide +kernel)
  have hs : Spells b!"some_name\t+ 0x7f;" [kw false b!"some_name", pt false .plus, (false, .num (.lit 127)),
      pt false .semicolon, (false, .eof)] := by
    refine .cons (w := b!"some_name") (r := b!"\t+ 0x7f;") .nil (.name (by decide) (by decide)) (by apart) ?_
    refine .cons (g := b!"\t") (w := b!"+") (r := b!" 0x7f;") (.blank _ _ _ (by decide) .nil)
      (.punct (q := .plus) (by decide)) (by apart) ?_
    refine .cons (g := b!" ") (w := b!"0x7f") (r := b!";") (.blank _ _ _ (by decide) .nil)
      (.hex (by decide) (by unfold HexDigit; decide)) (by apart) ?_
    refine .cons (w := b!";") (r := []) .nil (.punct (q := .semicolon) (by decide)) (by apart) ?_
    exact .eof .nil
  have hl : (tokensOf b!"a + 1;").map Look.seen = [kw false b!"a", pt false .plus,
      (false, .num (.add (.mul (.lit 0) (.lit 10)) (.lit 1))), pt false .semicolon, (false, .eof)] := by decide +kernel
  obtain ⟨log, h, -⟩ := C42_same_kinds_accepted (checked2 := false) (utf8_ascii (by decide)) (utf8_ascii (by decide)) h hs (by
    rw [← List.forall₂_map_left_iff (f := Look.seen) (R := Alike), hl]
    exact .cons ⟨rfl, .name _ _ (by decide) (by decide)⟩ (.cons ⟨rfl, .same _⟩ (.cons ⟨rfl, .number _ _⟩
      (.cons ⟨rfl, .same _⟩ (.cons ⟨rfl, .same _⟩ .nil)))))
  exact h.accepted

/-- Rejection carries over as well: `a b` and `name x`. -/
example : parseRoot true b!"name x" = .rejected .unexpectedToken := by
  have h1 : Spells b!"a b" [kw false b!"a", kw false b!"b", (false, .eof)] := by
    refine .cons (w := b!"a") (r := b!" b") .nil (.name (by decide) (by decide)) (by apart) ?_
    refine .cons (g := b!" ") (w := b!"b") (r := []) (.blank _ _ _ (by decide) .nil)
      (.name (by decide) (by decide)) ⟨by decide, nofun⟩ ?_
    exact .eof .nil
  have h2 : Spells b!"name x" [kw false b!"name", kw false b!"x", (false, .eof)] := by
    refine .cons (w := b!"name") (r := b!" x") .nil (.name (by decide) (by decide)) (by apart) ?_
    refine .cons (g := b!" ") (w := b!"x") (r := []) (.blank _ _ _ (by decide) .nil)
      (.name (by decide) (by decide)) ⟨by decide, nofun⟩ ?_
    exact .eof .nil
  rw [← C42_simple_errors (checked1 := true) (utf8_ascii (by decide)) (utf8_ascii (by decide)) h1 h2
    (.cons ⟨rfl, .name _ _ (by decide) (by decide)⟩ (.cons ⟨rfl, .name _ _ (by decide) (by decide)⟩
      (.cons ⟨rfl, .same _⟩ .nil)))
    ⟨by decide, by simp [kw], by simp [kw]⟩
    ⟨by decide, by simp [kw], by simp [kw]⟩, parseRoot_eval]
  decide +kernel

/-- `` `${a}b` `` and `` `${x}` ``: templates. -/
example : parseRoot true b!"`${x}`" = .accepted := by
  have h1 : Spells b!"`${a}b`" [(false, .template .head [] []), kw false b!"a", (false, .template .tail b!"b" b!"b"),
      (false, .eof)] := by
    refine .cons (w := b!"`${") (r := b!"a}b`") .nil (.head (v := []) (by unfold PieceBody; decide)) (by apart) ?_
    refine .cons (w := b!"a") (r := b!"}b`") .nil (.name (by decide) (by decide)) (by apart) ?_
    refine .cons (w := b!"}b`") (r := []) .nil (.tail (v := b!"b") (by unfold PieceBody; decide)) (by apart) ?_
    exact .eof .nil
  have h2 : Spells b!"`${x}`" [(false, .template .head [] []), kw false b!"x", (false, .template .tail [] []),
      (false, .eof)] := by
    refine .cons (w := b!"`${") (r := b!"x}`") .nil (.head (v := []) (by unfold PieceBody; decide)) (by apart) ?_
    refine .cons (w := b!"x") (r := b!"}`") .nil (.name (by decide) (by decide)) (by apart) ?_
    refine .cons (w := b!"}`") (r := []) .nil (.tail (v := []) (by unfold PieceBody; decide)) (by apart) ?_
    exact .eof .nil
  rw [← C42_template_texts (checked1 := true) (utf8_ascii (by decide)) (utf8_ascii (by decide)) h1 h2
    (.cons ⟨rfl, .same _⟩ (.cons ⟨rfl, .name _ _ (by decide) (by decide)⟩ (.cons ⟨rfl, .template ..⟩
      (.cons ⟨rfl, .same _⟩ .nil))))
    ⟨by decide, by simp [kw]⟩ ⟨by decide, by simp [kw]⟩ (by decide) (by decide), parseRoot_eval]
  decide +kernel

/-- Words with a meaning are not ordinary names, and numbers are not names. -/
example : parseRoot true b!"var a" = .accepted ∧ parseRoot true b!"var if" ≠ .accepted ∧
    parseRoot true b!"var 1" ≠ .accepted := by
  simp only [parseRoot_eval]; decide +kernel

/-- The kinds of the tokens do not determine which tokens the parser reads: `/` may start a regular
expression. -/
example : parseRoot true b!"a\n/ b /c" = .accepted ∧ parseRoot true b!"a\n/ b /1" = .accepted ∧
    parseRoot true b!"+/ b /c" = .accepted ∧ parseRoot true b!"+/ b /1" ≠ .accepted := by
  simp only [parseRoot_eval]; decide +kernel

end Jsparse
