import Verif.Props.LexText

/-!
# Blanks, newlines and comments are insignificant (C41)
-/

set_option linter.unusedSimpArgs false

namespace RE

/-! ## What a gap does to the tokens before and after it -/

theorem gap_cases {c : Char} (h : isGap c = true) : c = ' ' ∨ c = '\t' ∨ c = '\n' := by
  simp only [isGap, Bool.or_eq_true, beq_iff_eq] at h
  rcases h with (h | h) | h
  · exact .inl h
  · exact .inr (.inl h)
  · exact .inr (.inr h)

/-- the characters of a number -/
def numberChar (c : Char) : Bool := isNameChar c || c == '.' || c == '+' || c == '-'

theorem digits_numberChar {p : Char → Bool} (hp : ∀ c, p c = true → isNameChar c = true) {t : List Char}
    (h : t.all p = true) : t.all numberChar = true := by
  rw [List.all_eq_true] at h ⊢
  intro c hc
  simp [numberChar, hp c (h c hc)]

theorem exponent_chars {t : List Char} (h : Exponent t) : t.all numberChar = true := by
  rcases h with rfl | ⟨e, sg, ds, he, hs, _, hd, rfl⟩
  · rfl
  · have := digits_numberChar (fun c => isDigit_name) hd
    rcases he with rfl | rfl <;> rcases hs with rfl | rfl | rfl <;>
      simp only [List.nil_append, List.cons_append, List.all_cons, this, Bool.and_true] <;> decide

theorem number_chars {t : List Char} (h : Number t) : t.all numberChar = true := by
  rcases h with ⟨c, base, ds, hp, _, hd, rfl⟩ | ⟨ip, fp, ep, _, hi, hf, he, rfl⟩ |
    ⟨fp, ep, _, hf, he, rfl⟩
  · have := digits_numberChar (fun c => isDigitOf_name) hd
    rcases prefix_name hp with rfl | rfl | rfl <;>
      simp only [List.all_cons, this, Bool.and_true] <;> decide
  · have h1 := digits_numberChar (fun c => isDigit_name) hi
    have h2 := exponent_chars he
    rcases hf with rfl | ⟨ds, hd, rfl⟩
    · simp only [List.all_append, h1, h2, List.all_nil, Bool.and_true]
    · have h3 := digits_numberChar (fun c => isDigit_name) hd
      simp only [List.all_append, h1, h2, h3, List.all_cons, Bool.and_true, Bool.true_and]
      decide
  · have h1 := digits_numberChar (fun c => isDigit_name) hf
    have h2 := exponent_chars he
    simp only [List.all_append, h1, h2, List.all_cons, Bool.and_true]
    decide

/-- A character that is in no number ends every number. -/
theorem wholeNumber_stop {m a rest : List Char} {c : Char} {r : List Char} (hc : numberChar c = false)
    (h : wholeNumber m (a ++ rest)) : wholeNumber m (a ++ c :: r) := by
  intro p r' he hn
  have hp : p.all numberChar = true := by
    have := number_chars hn
    simp only [List.all_append, Bool.and_eq_true] at this
    exact this.2
  -- `p` is within `a`
  rcases List.append_eq_append_iff.1 he with ⟨u, hu1, hu2⟩ | ⟨u, hu1, hu2⟩
  · cases u with
    | nil =>
      simp only [List.append_nil] at hu1
      subst hu1
      exact h p rest rfl hn
    | cons d u =>
      simp only [List.cons_append, List.cons.injEq] at hu2
      rw [hu1] at hp
      simp only [List.all_append, List.all_cons, Bool.and_eq_true] at hp
      rw [← hu2.1, hc] at hp
      exact absurd hp.2.1 (by simp)
  · exact h p (u ++ rest) (by simp [hu1]) hn

/-- A character after which a token other than the dots and a comment has ended. -/
def isStop (c : Char) : Bool :=
  !numberChar c && !isQuote c && c != '*' && c != '/' && c != '=' && c != '<' && c != '>' && c != '~' &&
  c != '['

theorem gap_stop {c : Char} (h : isGap c = true) : isStop c = true := by
  rcases gap_cases h with rfl | rfl | rfl <;> decide

/-- After such a character the token still ends where it did. -/
theorem Ends.stop {b : Option Char} {x : Lexeme} {m a rest r : List Char} {c : Char}
    (hc : isStop c = true) (hk : x.kind ≠ .COMMENT) (hd : a = [] → x.kind ≠ .ATTR ∧ x.kind ≠ .ATTR_SAFE)
    (h : Ends b x m (a ++ rest)) : Ends b x m (a ++ c :: r) := by
  obtain ⟨k, t⟩ := x
  obtain ⟨h1, h2⟩ := h
  simp only [isStop, Bool.and_eq_true, Bool.not_eq_true', bne_iff_ne, ne_eq] at hc
  obtain ⟨⟨⟨⟨⟨⟨⟨⟨g1, g2⟩, g3⟩, g4⟩, g5⟩, g6⟩, g7⟩, g8⟩, g9⟩ := hc
  refine ⟨?_, fun hf => wholeNumber_stop g1 (h2 hf)⟩
  have hname : isNameChar c = false := by
    simp only [numberChar, Bool.or_eq_false_iff] at g1
    exact g1.1.1.1
  have hdot : c ≠ '.' := by
    simp only [numberChar, Bool.or_eq_false_iff, beq_eq_false_iff_ne] at g1
    exact g1.1.1.2
  cases a with
  | nil =>
    have hd := hd rfl
    simp only at hd hk
    have hns : isNameStart c = false := by
      rcases hq : isNameStart c with _ | _
      · rfl
      · rw [isNameStart_name hq] at hname; cases hname
    cases k <;> first
      | exact absurd rfl hk
      | exact absurd rfl hd.1
      | exact absurd rfl hd.2
      | simp [ends, headAll, hname, g2, g3, g4, g5, g6, g7, g8, g9, notAccess, hdot, wordKinds]
  | cons d a =>
    simp only [List.cons_append] at h1 ⊢
    simp only at hk
    by_cases hb : k = .BWAND
    · subst hb
      simp only [ends] at h1 ⊢
      cases a with
      | nil =>
        have hns : isNameStart c = false := by
          rcases hq : isNameStart c with _ | _
          · rfl
          · rw [isNameStart_name hq] at hname; cases hname
        simp only [notAccess, List.nil_append, nameAhead, hns, Bool.and_false, Bool.not_false,
          Bool.and_true] at h1 ⊢
        revert h1
        cases behindNonSpace b <;> simp +contextual
      | cons e a => exact h1
    · cases k <;> first
        | exact absurd rfl hk
        | exact absurd rfl hb
        | exact h1

/-- the pieces contain no comment -/
def noComment (ps : List Piece) : Prop := ∀ x ∈ toksOf ps, x.kind ≠ .COMMENT

/-- the pieces do not end with the dot before an attribute -/
def notDot (ps : List Piece) : Prop :=
  ∀ x m, ps.getLast? = some (.tok x m) → x.kind ≠ .ATTR ∧ x.kind ≠ .ATTR_SAFE

/-- the pieces do not start with a dot before an attribute or with `&[` -/
def notAttached (qs : List Piece) : Prop :=
  ∀ x m, qs.head? = some (.tok x m) → attached x = false

theorem laid_text_ne {b : Option Char} {ps : List Piece} (h : Laid b ps) (hne : ps ≠ []) : textOf ps ≠ [] := by
  rcases ps with _ | ⟨c | ⟨x, m⟩, ps⟩
  · exact absurd rfl hne
  · simp
  · obtain ⟨d, m', rfl, _⟩ := h.1.cons
    simp

/-- The end of a text can be changed for another that starts with a character that ends tokens. -/
theorem Laid.tail {qs qs' : List Piece} {c : Char} {r : List Char} (hc : isStop c = true)
    (hq : textOf qs' = c :: r) : ∀ (ps : List Piece) (b : Option Char), Laid b (ps ++ qs) → noComment ps → notDot ps →
    (∀ b' : Option Char, Laid b' qs → Laid b' qs') → Laid b (ps ++ qs') := by
  intro ps
  induction ps with
  | nil => intro b h _ _ hb; exact hb b h
  | cons p ps ih =>
    intro b h hn hd hb
    have hd' : notDot ps := by
      intro x m hx
      refine hd x m ?_
      cases ps with
      | nil => cases hx
      | cons q ps => rwa [List.getLast?_cons_cons]
    cases p with
    | gap d =>
      obtain ⟨h1, h2⟩ := h
      exact ⟨h1, ih _ h2 hn hd' hb⟩
    | tok x m =>
      obtain ⟨h1, h2, h3, h4⟩ := h
      have hn' : noComment ps := fun y hy => hn y (List.mem_cons_of_mem _ hy)
      refine ⟨h1, ?_, h3, ih _ h4 hn' hd' hb⟩
      simp only [List.append_eq, textOf_append, hq] at h2 ⊢
      refine Ends.stop hc (hn x (List.mem_cons_self ..)) (fun he => ?_) h2
      cases ps with
      | nil => exact hd x m rfl
      | cons q ps => exact absurd he (by
          rcases q with c | ⟨y, my⟩
          · simp
          · obtain ⟨d, m', rfl, _⟩ := h4.1.cons
            simp)

/-- White space before a token changes nothing, unless it is a dot or `&[`. -/
theorem Laid.behind {b : Option Char} {c : Char} {qs : List Piece} (hg : isGap c = true)
    (ha : notAttached qs) (h : Laid b qs) : Laid (some c) qs := by
  have hb : behindNonSpace (some c) = false := by
    rcases gap_cases hg with rfl | rfl | rfl <;> decide
  rcases qs with _ | ⟨d | ⟨x, m⟩, qs⟩
  · trivial
  · exact h
  · obtain ⟨h1, h2, h3, h4⟩ := h
    refine ⟨h1, ⟨?_, h2.2⟩, fun hx => ?_, h4⟩
    · by_cases hk : x.kind = .BWAND
      · simp [ends, hk, hb]
      · have := h2.1
        obtain ⟨k, t⟩ := x
        cases k <;> first | exact absurd rfl hk | exact this
    · rw [ha x m rfl] at hx
      cases hx

/-- **C41.** A blank or a newline can be put between any two tokens, but not after the dot before an
attribute, before such a dot or `&[`, or after a comment. -/
theorem insert_gap (ps qs : List Piece) (c : Char) (hg : isGap c = true) (h : Laid none (ps ++ qs))
    (hn : noComment ps) (hd : notDot ps) (ha : notAttached qs) : Laid none (ps ++ .gap c :: qs) :=
  Laid.tail (gap_stop hg) (textOf_gap c qs) ps none h hn hd (fun _ hq => ⟨hg, hq.behind hg ha⟩)

/-- **C41.** Any white space between two tokens can be changed for any other. -/
theorem change_gaps (ps qs : List Piece) (c c' : Char) (g g' : List Char)
    (hg : (c' :: g').all isGap = true)
    (h : Laid none (ps ++ (c :: g).map .gap ++ qs)) (hn : noComment ps) :
    Laid none (ps ++ (c' :: g').map .gap ++ qs) := by
  rw [List.append_assoc] at h ⊢
  have hc' : isGap c' = true := by simp only [List.all_cons, Bool.and_eq_true] at hg; exact hg.1
  refine Laid.tail (gap_stop hc') (r := textOf (g'.map .gap ++ qs)) (by simp) ps none h hn ?_ ?_
  · -- a dot is not followed by a gap
    intro x m hx
    obtain ⟨ps', rfl⟩ : ∃ ps', ps = ps' ++ [.tok x m] := by
      rcases List.eq_nil_or_concat ps with rfl | ⟨ps', p, rfl⟩
      · cases hx
      · rw [List.concat_eq_append, List.getLast?_append] at hx
        cases hx
        exact ⟨ps', by simp⟩
    have key : ∀ (l : List Piece) (b : Option Char), Laid b (l ++ [.tok x m] ++ ((c :: g).map .gap ++ qs)) →
        ∃ b', ends b' x m (textOf ((c :: g).map .gap ++ qs)) = true ∧ isGap c = true := by
      intro l
      induction l with
      | nil => intro b h; exact ⟨b, h.2.1.1, h.2.2.2.1⟩
      | cons p l ih =>
        intro b h
        cases p with
        | gap d => exact ih _ h.2
        | tok y my => exact ih _ h.2.2.2
    obtain ⟨b', h1, h2⟩ := key ps' none h
    obtain ⟨k, t⟩ := x
    constructor <;> rintro rfl <;>
      (simp only [ends, List.map_cons, List.cons_append, textOf_gap, nameAhead] at h1
       rcases gap_cases h2 with rfl | rfl | rfl <;> exact absurd h1 (by decide))
  · intro b' hb
    have hq : ∀ (l : List Char) (b : Option Char) (d : Char),
        Laid b ((d :: l).map .gap ++ qs) → ∃ e, isGap e = true ∧ Laid (some e) qs := by
      intro l
      induction l with
      | nil => intro b d h; exact ⟨d, h.1, h.2⟩
      | cons e l ih => intro b d h; exact ih (some d) e h.2
    obtain ⟨e, he, hqs⟩ := hq g b' c hb
    have ha : notAttached qs := by
      intro x m hx
      rcases qs with _ | ⟨d | ⟨y, my⟩, qs⟩
      · cases hx
      · cases hx
      · cases hx
        rcases hat : attached x with _ | _
        · rfl
        · have := hqs.2.2.1 hat
          rcases gap_cases he with rfl | rfl | rfl <;> exact absurd this (by decide)
    have hput : ∀ (l : List Char) (b : Option Char) (d : Char), (d :: l).all isGap = true →
        Laid b ((d :: l).map .gap ++ qs) := by
      intro l
      induction l with
      | nil =>
        intro b d h
        simp only [List.all_cons, List.all_nil, Bool.and_true] at h
        exact ⟨h, hqs.behind h ha⟩
      | cons e l ih =>
        intro b d h
        simp only [List.all_cons, Bool.and_eq_true] at h
        exact ⟨h.1, ih (some d) e (by simp [h.2])⟩
    exact hput g' b' c' hg

/-- **C41.** A comment can be put at the end of a text without one. -/
theorem append_comment (ps : List Piece) (c : List Char) (hc : '\n' ∉ c) (h : Laid none ps)
    (hn : noComment ps) (hd : notDot ps) :
    Laid none (ps ++ [.tok ⟨.COMMENT, '#' :: c⟩ ('#' :: c)]) := by
  refine Laid.tail (c := '#') (qs := []) (by decide) (by simp; rfl) ps none (by simpa using h) hn hd ?_
  intro b' _
  exact ⟨⟨⟨c, hc, rfl⟩, rfl⟩, ⟨rfl, by simp⟩, by simp [attached], trivial⟩

end RE
