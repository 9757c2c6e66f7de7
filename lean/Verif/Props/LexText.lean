import Verif.Props.LexHit

/-!
# The tokens of a text (C40, C41, C48, C49)
-/

set_option linter.unusedSimpArgs false

namespace RE

/-! ## What is known of a token as written -/

theorem digit_not_gap {c : Char} (h : isDigit c = true) : isGap c = false := by
  rcases hg : isGap c with _ | _
  · rfl
  · simp only [isGap, Bool.or_eq_true, beq_iff_eq] at hg
    rcases hg with (rfl | rfl) | rfl <;> exact absurd h (by decide)

theorem nameChar_not_gap {c : Char} (h : isNameChar c = true) : isGap c = false := by
  rcases hg : isGap c with _ | _
  · rfl
  · simp only [isGap, Bool.or_eq_true, beq_iff_eq] at hg
    rcases hg with (rfl | rfl) | rfl <;> exact absurd h (by decide)

/-- A token starts with a character that is not a gap. -/
theorem Written.cons {x : Lexeme} {m : List Char} (h : Written x m) :
    ∃ c r, m = c :: r ∧ isGap c = false := by
  obtain ⟨k, t⟩ := x
  have hquote : ∀ {t : List Char}, Quoted t → ∃ c r, t = c :: r ∧ isGap c = false := by
    intro t ht
    obtain ⟨q, r, rfl, hq⟩ := quoted_cons ht
    refine ⟨q, r, rfl, ?_⟩
    simp only [isQuote, Bool.or_eq_true, beq_iff_eq] at hq
    rcases hq with rfl | rfl <;> rfl
  cases k <;> simp only [Written] at h
  case STRING =>
    obtain ⟨hq, rfl | rfl⟩ := h
    · exact hquote hq
    · exact ⟨_, _, rfl, rfl⟩
  case BYTES => exact ⟨_, _, h.2, rfl⟩
  case DATETIME => obtain ⟨q, _, _, rfl⟩ := h; exact ⟨_, _, rfl, rfl⟩
  case TIMEDELTA => obtain ⟨q, _, _, rfl⟩ := h; exact ⟨_, _, rfl, rfl⟩
  case FLOAT =>
    obtain ⟨h, rfl⟩ := h
    obtain ⟨c, r, rfl, hc⟩ := number_cons h
    refine ⟨c, r, rfl, ?_⟩
    rcases hc with hc | hc
    · exact digit_not_gap hc
    · rw [hc]; rfl
  case SYMBOL =>
    obtain ⟨h, _, rfl⟩ := h
    obtain ⟨c, r, rfl, hc⟩ := isName_cons h
    refine ⟨c, r, rfl, ?_⟩
    rcases hc.1 with rfl | hc
    · rfl
    · exact nameChar_not_gap (isNameStart_name hc)
  case COMMENT => obtain ⟨⟨c, _, rfl⟩, rfl⟩ := h; exact ⟨_, _, rfl, rfl⟩
  case LBRACKET => obtain ⟨rfl | rfl, rfl⟩ := h <;> exact ⟨_, _, rfl, rfl⟩
  all_goals obtain ⟨_, rfl⟩ := h; exact ⟨_, _, rfl, rfl⟩

theorem quotedBody_newline {q : Char} : ∀ {n : Nat} {body : List Char}, body.length ≤ n →
    quotedBody q body = true → '\n' ∉ body := by
  intro n
  induction n with
  | zero => intro body hn _; simp at hn; simp [hn]
  | succ n ih =>
    intro body hn h
    cases body with
    | nil => simp
    | cons c r =>
      by_cases hb : c = '\\'
      · subst hb
        cases r with
        | nil => simp [quotedBody] at h
        | cons d r =>
          simp only [quotedBody, Bool.and_eq_true, bne_iff_ne, ne_eq] at h
          have := ih (body := r) (by simp at hn; omega) h.2
          simp only [List.mem_cons, not_or]
          exact ⟨by decide, fun e => h.1 e.symm, this⟩
      · rw [quotedBody_other hb] at h
        simp only [Bool.and_eq_true, bne_iff_ne, ne_eq] at h
        have := ih (body := r) (by simp at hn; omega) h.2
        simp only [List.mem_cons, not_or]
        exact ⟨fun e => h.1.2 e.symm, this⟩

theorem all_newline {p : Char → Bool} (hp : p '\n' = false) {t : List Char} (h : t.all p = true) :
    '\n' ∉ t := by
  intro hm
  have := List.all_eq_true.1 h _ hm
  rw [hp] at this
  cases this

theorem exponent_newline {t : List Char} (h : Exponent t) : '\n' ∉ t := by
  rcases h with rfl | ⟨e, sg, ds, he, hs, _, hd, rfl⟩
  · simp
  · have := all_newline (by decide) hd
    rcases he with rfl | rfl <;> rcases hs with rfl | rfl | rfl <;> simp [this]

theorem number_newline {t : List Char} (h : Number t) : '\n' ∉ t := by
  rcases h with ⟨c, base, ds, hp, _, hd, rfl⟩ | ⟨ip, fp, ep, _, hi, hf, he, rfl⟩ |
    ⟨fp, ep, _, hf, he, rfl⟩
  · have h1 := all_newline (by
      rcases h : isDigitOf base '\n' with _ | _
      · rfl
      · exact absurd (isDigitOf_name h) (by decide)) hd
    rcases prefix_name hp with rfl | rfl | rfl <;> simp [h1]
  · have h1 := all_newline (by decide) hi
    have h2 := exponent_newline he
    rcases hf with rfl | ⟨ds, hd, rfl⟩
    · simp [h1, h2]
    · have h3 := all_newline (by decide) hd
      simp [h1, h2, h3]
  · have h1 := all_newline (by decide) hf
    have h2 := exponent_newline he
    simp [h1, h2]

theorem quoted_newline {t : List Char} (h : Quoted t) : '\n' ∉ t := by
  obtain ⟨q, body, hq, hb, rfl⟩ := h
  have h1 := quotedBody_newline (Nat.le_refl _) hb
  have h2 := (isQuote_ne hq).2
  simp only [List.mem_cons, List.mem_append, List.not_mem_nil, or_false, not_or]
  exact ⟨fun e => h2 e.symm, h1, fun e => h2 e.symm⟩

/-- No token spans a newline. -/
theorem Written.no_newline {x : Lexeme} {m : List Char} (h : Written x m) : '\n' ∉ m := by
  obtain ⟨k, t⟩ := x
  have hbody : ∀ {c q : Char} {body : List Char}, c ≠ '\n' → isQuote q = true →
      quotedBody q body = true → '\n' ∉ c :: q :: (body ++ [q]) := by
    intro c q body hc hq hb
    have := quoted_newline ⟨q, body, hq, hb, rfl⟩
    simp only [List.mem_cons, not_or]
    simp only [List.mem_cons, not_or] at this
    exact ⟨fun e => hc e.symm, this⟩
  cases k <;> simp only [Written] at h
  case STRING =>
    obtain ⟨hq, rfl | rfl⟩ := h
    · exact quoted_newline hq
    · simp [quoted_newline hq]
  case BYTES => obtain ⟨hq, rfl⟩ := h; simp [quoted_newline hq]
  case DATETIME => obtain ⟨q, h1, h2, rfl⟩ := h; exact hbody (by decide) h1 h2
  case TIMEDELTA => obtain ⟨q, h1, h2, rfl⟩ := h; exact hbody (by decide) h1 h2
  case FLOAT => obtain ⟨h, rfl⟩ := h; exact number_newline h
  case SYMBOL =>
    obtain ⟨h, _, ht⟩ := h
    subst ht
    simp only [isName] at h
    have key : '\n' ∉ dropDollar m := by
      cases hd : dropDollar m with
      | nil => simp
      | cons d r =>
        simp only [hd, Bool.and_eq_true] at h
        have h3 := all_newline (p := isNameChar) (by decide) h.2
        simp only [List.mem_cons, not_or]
        refine ⟨fun e => ?_, h3⟩
        subst e
        exact absurd h.1 (by decide)
    intro hm
    refine key ?_
    rw [dropDollar.eq_def]
    split
    · simpa using hm
    · exact hm
  case COMMENT =>
    obtain ⟨⟨c, h, rfl⟩, rfl⟩ := h
    simp only [List.mem_cons, not_or]
    exact ⟨by decide, h⟩
  case LBRACKET => obtain ⟨rfl | rfl, rfl⟩ := h <;> decide
  all_goals obtain ⟨_, rfl⟩ := h; decide

/-- A token as written is as the parser expects it. -/
theorem Written.proper {x : Lexeme} {m : List Char} (h : Written x m) : x.Proper := by
  obtain ⟨k, t⟩ := x
  cases k <;> simp only [Written] at h
  case SYMBOL =>
    obtain ⟨h, _, rfl⟩ := h
    obtain ⟨c, r, rfl, hc⟩ := isName_cons h
    exact ⟨by simp, by simp, by simp, by simp⟩
  case LBRACKET =>
    refine ⟨by simp, fun _ => ?_, by simp, by simp⟩
    obtain ⟨rfl | rfl, rfl⟩ := h
    · exact .inr rfl
    · exact .inl rfl
  case COMMENT => exact ⟨by simp, by simp, by simp, by simp⟩
  case FLOAT => exact ⟨by simp, by simp, by simp, by simp⟩
  case STRING => exact ⟨by simp, by simp, by simp, by simp⟩
  case BYTES => exact ⟨by simp, by simp, by simp, by simp⟩
  case DATETIME => exact ⟨by simp, by simp, by simp, by simp⟩
  case TIMEDELTA => exact ⟨by simp, by simp, by simp, by simp⟩
  all_goals
    obtain ⟨rfl, rfl⟩ := h
    exact ⟨by simp, by simp, by simp, fun _ => rfl⟩

/-! ## The stream of tokens -/

theorem gap_of_blank {c : Char} (h : isBlank c = true) : isGap c = true := by
  simp only [isBlank, Bool.or_eq_true] at h
  simp only [isGap, Bool.or_eq_true]
  exact .inl h

theorem newline_not_blank : isBlank '\n' = false := rfl

theorem count_newline_of_all {m : List Char} (h : m.all (· == '\n') = true) : m.count '\n' = m.length := by
  rw [List.count_eq_length]
  intro c hc
  have := List.all_eq_true.1 h c hc
  simp only [beq_iff_eq] at this
  exact this.symm

/-- The line of a place in a text: one newline more, one line more. -/
def lineAfter (line : Nat) (pre : List Char) : Nat := line + pre.count '\n'

/-- `t` is a token of the text, at its place: `t.pos` characters before it, and as many lines down as
there are newlines before it. -/
def Tok.At (line : Nat) (text : List Char) (t : Tok) : Prop :=
  ∃ pre m rest, text = pre ++ (m ++ rest) ∧ Written t.lex m ∧ t.pos = pre.length ∧
    t.line = lineAfter line pre

/-- The end of the stream is where it says. -/
def Stop.At (line : Nat) (text : List Char) : Stop → Prop
  | .eof l => l = lineAfter line text
  | .illegal c l pos => ∃ pre rest, text = pre ++ c :: rest ∧ pos = pre.length ∧ l = lineAfter line pre
  | .keyword l => ∃ pre rest, text = pre ++ rest ∧ l = lineAfter line pre

theorem lexFrom_at (line : Nat) (text : List Char) : ∀ (fuel : Nat) (b : Option Char) (pre s : List Char),
    text = pre ++ s → s.length ≤ fuel →
    (∀ t ∈ (lexFrom fuel b (lineAfter line pre) pre.length s).1, t.At line text) ∧
    (lexFrom fuel b (lineAfter line pre) pre.length s).2.At line text := by
  intro fuel
  induction fuel with
  | zero =>
    intro b pre s ht hn
    simp only [Nat.le_zero_eq, List.length_eq_zero_iff] at hn
    subst hn
    simp only [List.append_nil] at ht
    subst ht
    simp [lexFrom, Stop.At]
  | succ fuel ih =>
    intro b pre s ht hn
    cases s with
    | nil =>
      simp only [List.append_nil] at ht
      subst ht
      simp [lexFrom, Stop.At]
    | cons c r =>
      simp only [List.length_cons, Nat.add_le_add_iff_right] at hn
      simp only [lexFrom]
      by_cases hb : isBlank c = true
      · simp only [hb, if_true]
        have h := ih (some c) (pre ++ [c]) r (by simp [ht]) hn
        have h1 : lineAfter line (pre ++ [c]) = lineAfter line pre := by
          simp only [isBlank, Bool.or_eq_true, beq_iff_eq] at hb
          rcases hb with rfl | rfl <;> simp [lineAfter]
        rw [h1] at h
        simpa using h
      · simp only [Bool.not_eq_true] at hb
        simp only [hb, Bool.false_eq_true, if_false]
        cases hh : lexHit b (c :: r) with
        | none => exact ⟨by simp, pre, r, ht, rfl, rfl⟩
        | some x =>
          have hs := lexHit_sound hh
          cases x with
          | keyword => exact ⟨by simp, pre, c :: r, ht, rfl⟩
          | newlines m rest =>
            obtain ⟨hne, hall, he, _⟩ := hs
            have hl : rest.length ≤ fuel := by
              have := congrArg List.length he
              have := List.length_pos_iff.2 hne
              simp at *
              omega
            have h := ih m.getLast? (pre ++ m) rest (by simp [ht, he]) hl
            have h1 : lineAfter line (pre ++ m) = lineAfter line pre + m.length := by
              simp [lineAfter, count_newline_of_all hall, Nat.add_assoc]
            rw [h1] at h
            simpa using h
          | token x m rest =>
            obtain ⟨hw, he, _, _⟩ := hs
            obtain ⟨d, m', hm, _⟩ := hw.cons
            have hl : rest.length ≤ fuel := by
              have := congrArg List.length he
              simp [hm] at this
              omega
            have h := ih m.getLast? (pre ++ m) rest (by simp [ht, he]) hl
            have h1 : lineAfter line (pre ++ m) = lineAfter line pre := by
              simp [lineAfter, List.count_eq_zero.2 hw.no_newline]
            rw [h1, List.length_append] at h
            refine ⟨?_, h.2⟩
            intro t htm
            simp only [List.mem_cons] at htm
            rcases htm with rfl | htm
            · exact ⟨pre, m, rest, by rw [ht, he], hw, rfl, rfl⟩
            · exact h.1 t htm

/-- Every token of the lexer is a token of the text at the place and on the line it says, and so is
the end. -/
theorem lexText_at (line : Nat) (text : List Char) :
    (∀ t ∈ (lexText line text).1, t.At line text) ∧ (lexText line text).2.At line text := by
  have := lexFrom_at line text text.length none [] text rfl (Nat.le_refl _)
  simpa [lineAfter, lexText] using this

theorem lexText_proper (line : Nat) (text : List Char) : ∀ t ∈ (lexText line text).1, t.lex.Proper := by
  intro t ht
  obtain ⟨_, _, _, _, h, _⟩ := (lexText_at line text).1 t ht
  exact h.proper

/-! ## The tokens of a layout -/

theorem hitNewline_cons (r : List Char) :
    hitNewline ('\n' :: r) = some (.newlines ('\n' :: r.takeWhile (· == '\n')) (r.dropWhile (· == '\n'))) := by
  simp [hitNewline, List.span_eq_takeWhile_dropWhile]

theorem lexHit_newline (b : Option Char) (r : List Char) :
    lexHit b ('\n' :: r) =
      some (.newlines ('\n' :: r.takeWhile (· == '\n')) (r.dropWhile (· == '\n'))) := by
  have h1 : hitOperator ('\n' :: r) = none := rfl
  have h2 : hitString ('\n' :: r) = none := rfl
  have h3 : hitSymbol ('\n' :: r) = none := rfl
  have h4 : Hit.ofScan .COMMENT id [] (scanComment ('\n' :: r)) = none := rfl
  unfold lexHit
  rw [h1, h2, h3, h4, hitNewline_cons]
  rfl

@[simp] theorem textOf_nil : textOf [] = [] := rfl
@[simp] theorem textOf_gap (c : Char) (ps : List Piece) : textOf (.gap c :: ps) = c :: textOf ps := rfl
@[simp] theorem textOf_tok (x : Lexeme) (m : List Char) (ps : List Piece) :
    textOf (.tok x m :: ps) = m ++ textOf ps := rfl
@[simp] theorem toksOf_nil : toksOf [] = [] := rfl
@[simp] theorem toksOf_gap (c : Char) (ps : List Piece) : toksOf (.gap c :: ps) = toksOf ps := rfl
@[simp] theorem toksOf_tok (x : Lexeme) (m : List Char) (ps : List Piece) :
    toksOf (.tok x m :: ps) = x :: toksOf ps := rfl
@[simp] theorem textOf_append (ps qs : List Piece) : textOf (ps ++ qs) = textOf ps ++ textOf qs := by
  simp [textOf]
@[simp] theorem toksOf_append (ps qs : List Piece) : toksOf (ps ++ qs) = toksOf ps ++ toksOf qs := by
  simp [toksOf]

/-- Newlines can be skipped one by one. -/
theorem Laid.newlines : ∀ {ps : List Piece}, Laid (some '\n') ps →
    ∃ qs, Laid (('\n' :: (textOf ps).takeWhile (· == '\n')).getLast?) qs ∧
      textOf qs = (textOf ps).dropWhile (· == '\n') ∧ toksOf qs = toksOf ps := by
  intro ps
  induction ps with
  | nil => intro h; exact ⟨[], h, rfl, rfl⟩
  | cons p ps ih =>
    intro h
    cases p with
    | gap c =>
      by_cases hc : c = '\n'
      · subst hc
        obtain ⟨qs, h1, h2, h3⟩ := ih h.2
        refine ⟨qs, ?_, ?_, ?_⟩
        · simpa [List.takeWhile_cons, List.getLast?_cons_cons] using h1
        · simpa [List.dropWhile_cons] using h2
        · simpa using h3
      · have hc' : (c == '\n') = false := by simpa using hc
        refine ⟨.gap c :: ps, ?_, ?_, rfl⟩
        · simpa [List.takeWhile_cons, hc'] using h
        · simp [List.dropWhile_cons, hc']
    | tok x m =>
      obtain ⟨d, m', rfl, hd⟩ := h.1.cons
      have hc' : (d == '\n') = false := by
        rcases hq : d == '\n' with _ | _
        · rfl
        · simp only [beq_iff_eq] at hq
          subst hq
          exact absurd hd (by decide)
      refine ⟨.tok x (d :: m') :: ps, ?_, ?_, rfl⟩
      · simpa [List.takeWhile_cons, hc'] using h
      · simp [List.dropWhile_cons, hc']

/-- The lexer finds the tokens of a layout, and nothing else. -/
theorem lexFrom_laid : ∀ (fuel : Nat) (b : Option Char) (line pos : Nat) (ps : List Piece),
    (textOf ps).length ≤ fuel → Laid b ps →
    (lexFrom fuel b line pos (textOf ps)).1.map Tok.lex = toksOf ps ∧
    (lexFrom fuel b line pos (textOf ps)).2 = .eof (lineAfter line (textOf ps)) := by
  intro fuel
  induction fuel with
  | zero =>
    intro b line pos ps hn h
    simp only [Nat.le_zero_eq, List.length_eq_zero_iff] at hn
    rcases ps with _ | ⟨c | ⟨x, m⟩, ps⟩
    · simp [lexFrom, lineAfter]
    · simp at hn
    · obtain ⟨d, m', rfl, hd⟩ := h.1.cons
      simp at hn
  | succ fuel ih =>
    intro b line pos ps hn h
    rcases ps with _ | ⟨c | ⟨x, m⟩, ps⟩
    · simp [lexFrom, lineAfter]
    · obtain ⟨hg, h⟩ := h
      simp only [textOf_gap, List.length_cons, Nat.add_le_add_iff_right] at hn
      simp only [textOf_gap, toksOf_gap]
      by_cases hb : isBlank c = true
      · have h1 : lineAfter line (c :: textOf ps) = lineAfter line (textOf ps) := by
          simp only [isBlank, Bool.or_eq_true, beq_iff_eq] at hb
          rcases hb with rfl | rfl <;> simp [lineAfter]
        simp only [lexFrom, hb, if_true, h1]
        exact ih _ _ _ _ hn h
      · have hc : c = '\n' := by
          simp only [isBlank, isGap, Bool.or_eq_true, not_or, beq_iff_eq] at hb hg
          rcases hg with (h | h) | h
          · exact absurd h hb.1
          · exact absurd h hb.2
          · exact h
        subst hc
        simp only [lexFrom, newline_not_blank, Bool.false_eq_true, if_false, lexHit_newline]
        obtain ⟨qs, h2, h3, h4⟩ := h.newlines
        generalize textOf ps = r at *
        have hl : (textOf qs).length ≤ fuel := by
          rw [h3]
          exact Nat.le_trans (List.dropWhile_sublist _).length_le hn
        have h1 : lineAfter line ('\n' :: r) =
            lineAfter (line + ('\n' :: r.takeWhile (· == '\n')).length) (r.dropWhile (· == '\n')) := by
          have ht : r.count '\n' = (r.takeWhile (· == '\n')).count '\n' + (r.dropWhile (· == '\n')).count '\n' := by
            rw [← List.count_append, List.takeWhile_append_dropWhile]
          rw [count_newline_of_all (List.all_takeWhile)] at ht
          simp only [lineAfter, List.count_cons_self, List.length_cons, ht]
          omega
        rw [h1, ← h3, ← h4]
        exact ih _ _ _ _ hl h2
    · obtain ⟨hw, he, ha, h⟩ := h
      obtain ⟨d, m', rfl, hd⟩ := hw.cons
      have hb : isBlank d = false := by
        rcases hb : isBlank d with _ | _
        · rfl
        · rw [gap_of_blank hb] at hd; cases hd
      have hl : (textOf ps).length ≤ fuel := by
        simp at hn
        omega
      have hh := lexHit_written hw he ha
      simp only [List.cons_append] at hh
      simp only [textOf_tok, toksOf_tok, List.cons_append, lexFrom, hb, Bool.false_eq_true, if_false, hh,
        List.map_cons]
      have h1 : lineAfter line (d :: (m' ++ textOf ps)) = lineAfter line (textOf ps) := by
        have := List.count_eq_zero.2 hw.no_newline
        rw [← List.cons_append]
        simp only [lineAfter, List.count_append, this, Nat.zero_add]
      obtain ⟨h2, h3⟩ := ih _ line (pos + (d :: m').length) _ hl h
      exact ⟨by rw [h2], by rw [h3, h1]⟩

theorem laid_newlines {b : Option Char} {ps : List Piece} : ∀ {m : List Char}, m ≠ [] →
    m.all (· == '\n') = true → Laid m.getLast? ps → Laid b (m.map .gap ++ ps) := by
  intro m
  induction m generalizing b with
  | nil => intro h; exact absurd rfl h
  | cons c m ih =>
    intro _ hall h
    simp only [List.all_cons, Bool.and_eq_true, beq_iff_eq] at hall
    obtain ⟨rfl, hall⟩ := hall
    cases m with
    | nil => exact ⟨rfl, h⟩
    | cons d m =>
      refine ⟨rfl, ?_⟩
      rw [List.getLast?_cons_cons] at h
      exact ih (by simp) hall h

/-- A text the lexer reads to its end is a layout of the tokens it finds. -/
theorem lexFrom_complete : ∀ (fuel : Nat) (b : Option Char) (line pos : Nat) (s : List Char) (l : Nat),
    s.length ≤ fuel → (lexFrom fuel b line pos s).2 = .eof l →
    ∃ ps, Laid b ps ∧ textOf ps = s ∧ toksOf ps = (lexFrom fuel b line pos s).1.map Tok.lex := by
  intro fuel
  induction fuel with
  | zero =>
    intro b line pos s l hn _
    simp only [Nat.le_zero_eq, List.length_eq_zero_iff] at hn
    subst hn
    exact ⟨[], trivial, rfl, rfl⟩
  | succ fuel ih =>
    intro b line pos s l hn hst
    cases s with
    | nil => exact ⟨[], trivial, rfl, rfl⟩
    | cons c r =>
      simp only [List.length_cons, Nat.add_le_add_iff_right] at hn
      simp only [lexFrom] at hst ⊢
      by_cases hb : isBlank c = true
      · simp only [hb, if_true] at hst ⊢
        obtain ⟨ps, h1, h2, h3⟩ := ih _ _ _ _ _ hn hst
        exact ⟨.gap c :: ps, ⟨gap_of_blank hb, h1⟩, by simp [h2], by simp [h3]⟩
      · simp only [Bool.not_eq_true] at hb
        simp only [hb, Bool.false_eq_true, if_false] at hst ⊢
        cases hh : lexHit b (c :: r) with
        | none => rw [hh] at hst; cases hst
        | some x =>
          have hs := lexHit_sound hh
          rw [hh] at hst
          cases x with
          | keyword => cases hst
          | newlines m rest =>
            simp only at hst ⊢
            obtain ⟨hne, hall, he, _⟩ := hs
            have hl : rest.length ≤ fuel := by
              have := congrArg List.length he
              have := List.length_pos_iff.2 hne
              simp at *
              omega
            obtain ⟨ps, h1, h2, h3⟩ := ih _ _ _ _ _ hl hst
            refine ⟨m.map .gap ++ ps, laid_newlines hne hall h1, ?_, ?_⟩
            · rw [he, textOf_append, h2]
              congr 1
              clear * -
              induction m with
              | nil => rfl
              | cons c m ih => simp [ih]
            · rw [toksOf_append, h3]
              have : toksOf (m.map .gap) = [] := by
                clear * -
                induction m with
                | nil => rfl
                | cons c m ih => simp [ih]
              rw [this, List.nil_append]
          | token x m rest =>
            simp only at hst ⊢
            obtain ⟨hw, he, ha, hends⟩ := hs
            obtain ⟨d, m', hm, _⟩ := hw.cons
            have hl : rest.length ≤ fuel := by
              have := congrArg List.length he
              simp [hm] at this
              omega
            obtain ⟨ps, h1, h2, h3⟩ := ih _ _ _ _ _ hl hst
            rcases hends with hends | hq
            · refine ⟨.tok x m :: ps, ⟨hw, by rw [h2]; exact hends, ha, h1⟩, by simp [h2, he], by simp [h3]⟩
            · -- a lexical error follows
              exfalso
              have hno := lexHit_openQuote (b := m.getLast?) hq
              obtain ⟨q, r', rfl, hqq, _⟩ := hq
              have hqb : isBlank q = false := by
                simp only [isQuote, Bool.or_eq_true, beq_iff_eq] at hqq
                rcases hqq with rfl | rfl <;> rfl
              cases fuel with
              | zero => simp at hl
              | succ fuel => simp [lexFrom, hqb, hno] at hst

/-- **C41.** The tokens of a text laid out from pieces are those among the pieces: blanks and newlines
between the tokens do not matter, except that they end a token. -/
theorem lex_laid (line : Nat) (ps : List Piece) (h : Laid none ps) :
    (lexText line (textOf ps)).1.map Tok.lex = toksOf ps ∧
    (lexText line (textOf ps)).2 = .eof (lineAfter line (textOf ps)) :=
  lexFrom_laid _ _ _ _ _ (Nat.le_refl _) h

/-- **C41.** Every text without a lexical error is laid out so. -/
theorem lex_complete (line : Nat) (s : List Char) (l : Nat) (h : (lexText line s).2 = .eof l) :
    ∃ ps, Laid none ps ∧ textOf ps = s ∧ toksOf ps = (lexText line s).1.map Tok.lex :=
  lexFrom_complete _ _ _ _ _ _ (Nat.le_refl _) h

end RE
