import Verif.Props.Spacing

/-!
# Parsing texts (C40, C41, C48, C49)
-/

set_option linter.unusedSimpArgs false

namespace RE

/-! ## Positions do not steer the parser -/

/-- the error without the place -/
def PErr.shape : PErr → PErr
  | .unexpected t => .unexpected ⟨t.lex, 0, 0⟩
  | .illegal c _ _ => .illegal c 0 0
  | e => e

/-- the result without places -/
def PResult.shape (r : PResult) : Except PErr (Raw × Option String) :=
  match r.out with
  | .ok v => .ok v
  | .error e => .error e.shape

/-- the end without places -/
def Stop.shape : Stop → Stop
  | .eof _ => .eof 0
  | .illegal c _ _ => .illegal c 0 0
  | .keyword _ => .keyword 0

theorem pstep_shape {codec : LitCodec} {stop stop' : Stop} (hs : stop.shape = stop'.shape)
    {st : List (Nat × Sem)} {toks toks' : List Tok} (ht : toks.map Tok.lex = toks'.map Tok.lex) :
    (∃ st1 us us', pstep codec stop ⟨st, toks⟩ = .inl ⟨st1, us⟩ ∧ pstep codec stop' ⟨st, toks'⟩ = .inl ⟨st1, us'⟩ ∧
      us.map Tok.lex = us'.map Tok.lex) ∨
    (∃ r r', pstep codec stop ⟨st, toks⟩ = .inr r ∧ pstep codec stop' ⟨st, toks'⟩ = .inr r' ∧
      r.shape = r'.shape) := by
  simp only [pstep]
  cases hd : defaulted (topState st) with
  | some p =>
    simp only
    cases hr : reduceBy codec p st with
    | ok st1 => exact .inl ⟨st1, toks, toks', rfl, rfl, ht⟩
    | error e => exact .inr ⟨_, _, rfl, rfl, rfl⟩
  | none =>
    simp only
    cases toks with
    | cons t ts =>
      cases toks' with
      | nil => cases ht
      | cons t' ts' =>
        simp only [List.map_cons, List.cons.injEq] at ht
        simp only
        rw [← ht.1]
        cases ha : action (topState st) t.lex.kind with
        | none => exact .inr ⟨_, _, rfl, rfl, by simp [PResult.shape, PErr.shape, ht.1]⟩
        | some x =>
          cases x with
          | shift q => exact .inl ⟨_, _, _, rfl, rfl, ht.2⟩
          | accept => exact .inr ⟨_, _, rfl, rfl, rfl⟩
          | reduce p =>
            simp only
            cases hr : reduceBy codec p st with
            | ok st1 => exact .inl ⟨st1, _, _, rfl, rfl, by simp [ht.1, ht.2]⟩
            | error e => exact .inr ⟨_, _, rfl, rfl, rfl⟩
    | nil =>
      cases toks' with
      | cons t' ts' => cases ht
      | nil =>
        simp only
        cases stop with
        | illegal c l p =>
          cases stop' <;> simp only [Stop.shape, Stop.illegal.injEq, reduceCtorEq] at hs
          exact .inr ⟨_, _, rfl, rfl, by simp [PResult.shape, PErr.shape, hs.1]⟩
        | keyword l =>
          cases stop' <;> simp only [Stop.shape, reduceCtorEq] at hs
          exact .inr ⟨_, _, rfl, rfl, rfl⟩
        | eof l =>
          cases stop' <;> simp only [Stop.shape, reduceCtorEq] at hs
          simp only
          cases ha : action (topState st) .END with
          | none => exact .inr ⟨_, _, rfl, rfl, rfl⟩
          | some x =>
            cases x with
            | shift q => exact .inr ⟨_, _, rfl, rfl, rfl⟩
            | accept =>
              simp only
              split
              · exact .inr ⟨_, _, rfl, rfl, rfl⟩
              · exact .inr ⟨_, _, rfl, rfl, rfl⟩
            | reduce p =>
              simp only
              cases hr : reduceBy codec p st with
              | ok st1 => exact .inl ⟨st1, _, _, rfl, rfl, rfl⟩
              | error e => exact .inr ⟨_, _, rfl, rfl, rfl⟩

theorem prun_shape {codec : LitCodec} {stop stop' : Stop} (hs : stop.shape = stop'.shape) :
    ∀ (n : Nat) (st : List (Nat × Sem)) (toks toks' : List Tok), toks.map Tok.lex = toks'.map Tok.lex →
    (prun codec stop n ⟨st, toks⟩).map PResult.shape = (prun codec stop' n ⟨st, toks'⟩).map PResult.shape := by
  intro n
  induction n with
  | zero => intro st toks toks' _; rfl
  | succ n ih =>
    intro st toks toks' ht
    simp only [prun]
    rcases pstep_shape (codec := codec) hs (st := st) ht with ⟨st1, us, us', h1, h2, h3⟩ | ⟨r, r', h1, h2, h3⟩
    · rw [h1, h2]
      exact ih _ _ _ h3
    · rw [h1, h2]
      simp [h3]

/-- The result depends on the tokens alone, but for the places in error messages. -/
theorem parseToks_shape {codec : LitCodec} {stop stop' : Stop} (hs : stop.shape = stop'.shape)
    {toks toks' : List Tok} (ht : toks.map Tok.lex = toks'.map Tok.lex) :
    (parseToks codec toks stop).shape = (parseToks codec toks' stop').shape := by
  have hl : toks.length = toks'.length := by simpa using congrArg List.length ht
  have h := prun_shape (codec := codec) hs (parseFuel toks.length) [] toks toks' ht
  simp only [parseToks, ← hl]
  cases h1 : prun codec stop (parseFuel toks.length) ⟨[], toks⟩ with
  | none =>
    rw [h1] at h
    cases h2 : prun codec stop' (parseFuel toks.length) ⟨[], toks'⟩ with
    | none => rfl
    | some r => rw [h2] at h; cases h
  | some r =>
    rw [h1] at h
    cases h2 : prun codec stop' (parseFuel toks.length) ⟨[], toks'⟩ with
    | none => rw [h2] at h; cases h
    | some r' => rw [h2] at h; simpa using h

/-! ## White space and comments -/

/-- **C41.** Two texts with the same tokens parse alike, however they are spaced: to the same tree or
to the same error, at another place. -/
theorem parse_spacing (codec : LitCodec) (line line' : Nat) (ps qs : List Piece) (h : Laid none ps)
    (h' : Laid none qs) (ht : toksOf ps = toksOf qs) :
    (parseText codec line (String.ofList (textOf ps))).shape =
      (parseText codec line' (String.ofList (textOf qs))).shape := by
  rw [parseText_eq, parseText_eq, String.toList_ofList, String.toList_ofList]
  obtain ⟨h1, h2⟩ := lex_laid line ps h
  obtain ⟨h3, h4⟩ := lex_laid line' qs h'
  refine parseToks_shape ?_ ?_
  · rw [h2, h4]; rfl
  · rw [h1, h3, ht]

/-- **C41.** Putting a blank or newline between two tokens of any text does not change the parsed
rule, nor whether there is an error. -/
theorem parse_insert_gap (codec : LitCodec) (line line' : Nat) (ps qs : List Piece) (c : Char)
    (hg : isGap c = true) (h : Laid none (ps ++ qs)) (hn : noComment ps) (hd : notDot ps)
    (ha : notAttached qs) :
    (parseText codec line' (String.ofList (textOf (ps ++ .gap c :: qs)))).shape =
      (parseText codec line (String.ofList (textOf (ps ++ qs)))).shape :=
  parse_spacing codec _ _ _ _ (insert_gap ps qs c hg h hn hd ha) h (by simp)

/-- **C41.** Changing the white space between two tokens does not change the parsed rule. -/
theorem parse_change_gaps (codec : LitCodec) (line line' : Nat) (ps qs : List Piece) (c c' : Char)
    (g g' : List Char) (hg : (c' :: g').all isGap = true)
    (h : Laid none (ps ++ (c :: g).map .gap ++ qs)) (hn : noComment ps) :
    (parseText codec line' (String.ofList (textOf (ps ++ (c' :: g').map .gap ++ qs)))).shape =
      (parseText codec line (String.ofList (textOf (ps ++ (c :: g).map .gap ++ qs)))).shape := by
  refine parse_spacing codec _ _ _ _ (change_gaps ps qs c c' g g' hg h hn) h ?_
  have : ∀ l : List Char, toksOf (l.map .gap) = [] := by
    intro l
    induction l with
    | nil => rfl
    | cons c l ih => simpa using ih
  simp only [toksOf_append, this]

/-! ### Comments -/

/-- not a comment -/
def notComment (x : Lexeme) : Bool := decide (x.kind ≠ .COMMENT)

theorem bracket_notComment (b : Bool) : notComment (bracket b) = true := by cases b <;> rfl
theorem dot_notComment (b : Bool) : notComment (dot b) = true := by cases b <;> rfl
theorem trailing_notComment (b : Bool) : (trailing b).all notComment = true := by cases b <;> rfl
theorem op_notComment : ∀ k ∈ binaryKinds, notComment (fixed k) = true := by decide

mutual
theorem toks_notComment (codec : LitCodec) : ∀ s : Syn, s.ok codec = true → s.toks.all notComment = true
  | .bool true, _ | .bool false, _ | .num _, _ | .nan, _ | .inf, _ | .null, _ | .sym _, _ | .str _, _
  | .bytes _, _ | .datetime _, _ | .timedelta _, _ => rfl
  | .paren e, h => by
    simp only [Syn.ok] at h
    simp [Syn.toks, toks_notComment codec e h, -List.all_eq_true]
    decide
  | .array amp xs comma, h => by
    simp only [Syn.ok, Bool.and_eq_true] at h
    simp [Syn.toks, listToks_notComment codec xs h.1, bracket_notComment, trailing_notComment, -List.all_eq_true]
    decide
  | .set xs comma, h => by
    simp only [Syn.ok, Bool.and_eq_true] at h
    simp [Syn.toks, listToks_notComment codec xs h.1, trailing_notComment, -List.all_eq_true]
    decide
  | .mapping kvs comma, h => by
    simp only [Syn.ok, Bool.and_eq_true] at h
    simp [Syn.toks, pairToks_notComment codec kvs h.1, trailing_notComment, -List.all_eq_true]
    decide
  | .comp amp r v it, h => by
    simp only [Syn.ok, Bool.and_eq_true] at h
    simp [Syn.toks, toks_notComment codec r h.1, toks_notComment codec it h.2, bracket_notComment, -List.all_eq_true]
    exact ⟨by decide, rfl, by decide, by decide⟩
  | .compIf amp r v it c, h => by
    simp only [Syn.ok, Bool.and_eq_true] at h
    simp [Syn.toks, toks_notComment codec r h.1.1, toks_notComment codec it h.1.2, toks_notComment codec c h.2,
      bracket_notComment, -List.all_eq_true]
    exact ⟨by decide, rfl, by decide, by decide⟩
  | .attr o n safe, h => by
    simp only [Syn.ok, Bool.and_eq_true] at h
    simp [Syn.toks, toks_notComment codec o h.1, dot_notComment, -List.all_eq_true]
    rfl
  | .item o i safe, h => by
    simp only [Syn.ok, Bool.and_eq_true] at h
    simp [Syn.toks, toks_notComment codec o h.1.1, toks_notComment codec i h.2, bracket_notComment, -List.all_eq_true]
    decide
  | .slice o safe, h => by
    simp only [Syn.ok, Bool.and_eq_true] at h
    simp [Syn.toks, toks_notComment codec o h.1, bracket_notComment, -List.all_eq_true]
    decide
  | .sliceTo o b safe, h => by
    simp only [Syn.ok, Bool.and_eq_true] at h
    simp [Syn.toks, toks_notComment codec o h.1.1, toks_notComment codec b h.2, bracket_notComment, -List.all_eq_true]
    decide
  | .sliceFrom o a safe, h => by
    simp only [Syn.ok, Bool.and_eq_true] at h
    simp [Syn.toks, toks_notComment codec o h.1.1, toks_notComment codec a h.2, bracket_notComment, -List.all_eq_true]
    decide
  | .sliceBoth o a b safe, h => by
    simp only [Syn.ok, Bool.and_eq_true] at h
    simp [Syn.toks, toks_notComment codec o h.1.1.1, toks_notComment codec a h.1.2, toks_notComment codec b h.2,
      bracket_notComment, -List.all_eq_true]
    decide
  | .call f args, h => by
    simp only [Syn.ok, Bool.and_eq_true] at h
    simp [Syn.toks, toks_notComment codec f h.1.1, listToks_notComment codec args h.2, -List.all_eq_true]
    decide
  | .bin op l r, h => by
    simp only [Syn.ok, Bool.and_eq_true, decide_eq_true_eq] at h
    simp [Syn.toks, toks_notComment codec l h.1.1.1.2, toks_notComment codec r h.1.1.2,
      op_notComment op h.1.1.1.1, -List.all_eq_true]
  | .isIn l r, h => by
    simp only [Syn.ok, Bool.and_eq_true] at h
    simp [Syn.toks, toks_notComment codec l h.1.1.1, toks_notComment codec r h.1.1.2, -List.all_eq_true]
    decide
  | .notIn l r, h => by
    simp only [Syn.ok, Bool.and_eq_true] at h
    simp [Syn.toks, toks_notComment codec l h.1.1.1, toks_notComment codec r h.1.1.2, -List.all_eq_true]
    decide
  | .tern c t f, h => by
    simp only [Syn.ok, Bool.and_eq_true] at h
    simp [Syn.toks, toks_notComment codec c h.1.1.1.1, toks_notComment codec t h.1.1.1.2, toks_notComment codec f h.1.1.2,
      -List.all_eq_true]
    decide
  | .not e, h => by
    simp only [Syn.ok, Bool.and_eq_true] at h
    simp [Syn.toks, toks_notComment codec e h.1, -List.all_eq_true]
    decide
  | .neg e, h => by
    simp only [Syn.ok, Bool.and_eq_true] at h
    simp [Syn.toks, toks_notComment codec e h.1, -List.all_eq_true]
    decide
theorem listToks_notComment (codec : LitCodec) : ∀ xs : List Syn, Syn.okList codec xs = true →
    (Syn.listToks xs).all notComment = true
  | [], _ => rfl
  | x :: xs, h => by
    simp only [Syn.okList, Bool.and_eq_true] at h
    simp [Syn.listToks, toks_notComment codec x h.1, moreToks_notComment codec xs h.2, -List.all_eq_true]
theorem moreToks_notComment (codec : LitCodec) : ∀ xs : List Syn, Syn.okList codec xs = true →
    (Syn.moreToks xs).all notComment = true
  | [], _ => rfl
  | x :: xs, h => by
    simp only [Syn.okList, Bool.and_eq_true] at h
    simp [Syn.moreToks, toks_notComment codec x h.1, moreToks_notComment codec xs h.2, -List.all_eq_true]
    decide
theorem pairToks_notComment (codec : LitCodec) : ∀ xs : List (Syn × Syn), Syn.okPairs codec xs = true →
    (Syn.pairToks xs).all notComment = true
  | [], _ => rfl
  | (k, v) :: xs, h => by
    simp only [Syn.okPairs, Bool.and_eq_true] at h
    simp [Syn.pairToks, toks_notComment codec k h.1.1, toks_notComment codec v h.1.2,
      morePairToks_notComment codec xs h.2, -List.all_eq_true]
    decide
theorem morePairToks_notComment (codec : LitCodec) : ∀ xs : List (Syn × Syn), Syn.okPairs codec xs = true →
    (Syn.morePairToks xs).all notComment = true
  | [], _ => rfl
  | (k, v) :: xs, h => by
    simp only [Syn.okPairs, Bool.and_eq_true] at h
    simp [Syn.morePairToks, toks_notComment codec k h.1.1, toks_notComment codec v h.1.2,
      morePairToks_notComment codec xs h.2, -List.all_eq_true]
    decide
end

/-- the tree a parse gives, if any -/
def PResult.tree (r : PResult) : Option Raw :=
  match r.out with
  | .ok (raw, _) => some raw
  | .error _ => none

/-- **C41.** A comment at the end of a text does not change the parsed rule, nor whether the text is a
rule. -/
theorem parse_append_comment (codec : LitCodec) (line line' : Nat) (ps : List Piece) (c : List Char)
    (hc : '\n' ∉ c) (h : Laid none ps) (hn : noComment ps) (hd : notDot ps) :
    (parseText codec line' (String.ofList (textOf ps ++ '#' :: c))).tree =
      (parseText codec line (String.ofList (textOf ps))).tree := by
  have h' := append_comment ps c hc h hn hd
  have e : textOf ps ++ '#' :: c = textOf (ps ++ [.tok ⟨.COMMENT, '#' :: c⟩ ('#' :: c)]) := by simp
  rw [e, parseText_eq, parseText_eq, String.toList_ofList, String.toList_ofList]
  obtain ⟨h1, h2⟩ := lex_laid line ps h
  obtain ⟨h3, h4⟩ := lex_laid line' _ h'
  simp only [toksOf_append, toksOf_tok, toksOf_nil] at h3
  rw [h2, h4]
  have p1 := lexText_proper line (textOf ps)
  have p3 := lexText_proper line' (textOf (ps ++ [.tok ⟨.COMMENT, '#' :: c⟩ ('#' :: c)]))
  generalize (lexText line (textOf ps)).1 = toks at *
  generalize (lexText line' (textOf (ps ++ [.tok ⟨.COMMENT, '#' :: c⟩ ('#' :: c)]))).1 = toks' at *
  cases r1 : (parseToks codec toks (.eof (lineAfter line (textOf ps)))).out with
  | ok v =>
    obtain ⟨raw, comment⟩ := v
    obtain ⟨s, hok, rfl, hcase⟩ := parse_only_written codec toks _ p1 raw comment r1
    have hs : toksOf ps = s.toks := by
      rcases hcase with ⟨_, hh⟩ | ⟨cm, _, hh⟩
      · rw [← h1, hh]
      · rw [h1] at hh
        exact absurd rfl (hn ⟨.COMMENT, cm⟩ (by rw [hh]; simp))
    rw [hs] at h3
    rw [parse_with_comment codec s hok toks' _ h3]
    simp [PResult.tree, r1]
  | error e1 =>
    cases r2 : (parseToks codec toks' (.eof (lineAfter line' (textOf (ps ++ [.tok ⟨.COMMENT, '#' :: c⟩ ('#' :: c)]))))).out with
    | error e2 => simp only [PResult.tree, r1, r2]
    | ok v =>
      exfalso
      obtain ⟨raw, comment⟩ := v
      obtain ⟨s, hok, rfl, hcase⟩ := parse_only_written codec toks' _ p3 raw comment r2
      rw [h3] at hcase
      rcases hcase with ⟨_, hh⟩ | ⟨cm, _, hh⟩
      · have := toks_notComment codec s hok
        rw [← hh, List.all_append, Bool.and_eq_true] at this
        exact absurd this.2 (by simp [notComment])
      · have hs : toksOf ps = s.toks := (List.append_inj' hh rfl).1
        rw [hs] at h1
        have := parse_as_written codec s hok toks h1 (lineAfter line (textOf ps))
        rw [this] at r1
        cases r1

/-! ## Trees written as texts -/

/-- **C40.** Any syntax tree, written as a text with the parentheses the precedence table requires, and
spaced in any way, parses back to that tree. -/
theorem parse_text (codec : LitCodec) (line : Nat) (s : Syn) (hs : s.wf codec = true) (ps : List Piece)
    (h : Laid none ps) (ht : toksOf ps = s.parens.toks) :
    parseText codec line (String.ofList (textOf ps)) =
      ⟨.ok (s.raw codec, none), lineAfter line (textOf ps)⟩ := by
  rw [parseText_eq, String.toList_ofList]
  obtain ⟨h1, h2⟩ := lex_laid line ps h
  rw [h2]
  exact parse_parens codec s hs _ (h1.trans ht) _

/-- **C40.** Every text the parser accepts is written so: it is laid out from the tokens of a tree
with all the parentheses the table requires, and parses to that tree. -/
theorem parse_text_only (codec : LitCodec) (line : Nat) (text : String) (raw : Raw)
    (comment : Option String) (h : (parseText codec line text).out = .ok (raw, comment)) :
    ∃ s : Syn, ∃ ps : List Piece, s.ok codec = true ∧ raw = s.raw codec ∧ Laid none ps ∧
      text.toList = textOf ps ∧
      ((comment = none ∧ toksOf ps = s.toks) ∨
       ∃ c, comment = some (String.ofList (pyStrip c.tail)) ∧ toksOf ps = s.toks ++ [⟨.COMMENT, c⟩]) := by
  rw [parseText_eq] at h
  have hp := lexText_proper line text.toList
  have hx := parseToks_explains codec _ (lexText line text.toList).2 hp
  simp only [PResult.Explains, h] at hx
  obtain ⟨hstop, s, hok, hr, hc⟩ := hx
  obtain ⟨ps, h1, h2, h3⟩ := lex_complete line text.toList _ hstop
  refine ⟨s, ps, hok, hr, h1, h2.symm, ?_⟩
  rw [h3]
  exact hc

/-! ## No text breaks the parser -/

/-- **C49.** Parsing any text ends, with a tree or with one of the documented errors: a syntax error, or a
string or bytes literal that does not decode. -/
theorem parse_total (codec : LitCodec) (line : Nat) (text : String) :
    (parseText codec line text).out ≠ .error .stuck := by
  rw [parseText_eq]
  exact parse_never_stuck codec _ _ (lexText_proper line text.toList)

/-! ## Places in error messages -/

/-- What the parser says about the place of an error. -/
def PErr.At (line : Nat) (text : List Char) : PErr → Prop
  | .unexpected t => t.At line text
  | .illegal c l pos => ∃ pre rest, text = pre ++ c :: rest ∧ pos = pre.length ∧ l = lineAfter line pre
  | _ => True

/-- The grammar actions report no place. -/
theorem semAct_error {codec : LitCodec} {p : Nat} {vs : List Sem} {e : PErr}
    (h : semAct codec p vs = .error e) : e = .stuck ∨ e = .badString ∨ e = .badBytes := by
  have hb : ∀ ks, actBinary ks vs = .error e → e = .stuck := by
    intro ks h
    unfold actBinary at h
    repeat' split at h
    all_goals first | (cases h; done) | (cases h; rfl)
  unfold semAct at h
  split at h
  all_goals first
    | exact .inl (hb _ h)
    | (unfold actGetAttr at h; split at h <;> first | (cases h; done) | (cases h; exact .inl rfl))
    | (unfold actSymbol at h
       repeat' split at h
       all_goals first | (cases h; done) | (cases h; exact .inl rfl))
    | (unfold actBytes at h
       repeat' split at h
       all_goals first | (cases h; done) | (cases h; exact .inl rfl) | (cases h; exact .inr (.inr rfl)))
    | (unfold actString at h
       repeat' split at h
       all_goals first | (cases h; done) | (cases h; exact .inl rfl) | (cases h; exact .inr (.inl rfl)))
    | (split at h <;> first | (cases h; done) | (cases h; exact .inl rfl))
    | (cases h; exact .inl rfl)

theorem reduceBy_error {codec : LitCodec} {p : Nat} {st : List (Nat × Sem)} {e : PErr}
    (h : reduceBy codec p st = .error e) : e = .stuck ∨ e = .badString ∨ e = .badBytes := by
  simp only [reduceBy] at h
  split at h
  · cases h; exact .inl rfl
  · split at h
    · cases h; exact .inl rfl
    · split at h
      · rename_i e' he
        cases h
        exact semAct_error he
      · split at h
        · cases h; exact .inl rfl
        · cases h

/-- The result's places are places of the text: of an error, and the line the lexer is left at. -/
def PResult.At (line : Nat) (text : List Char) (r : PResult) : Prop :=
  (∀ e, r.out = .error e → e.At line text) ∧ (∀ v, r.out = .ok v → r.line = lineAfter line text) ∧
  ∃ pre rest, text = pre ++ rest ∧ r.line = lineAfter line pre

theorem Tok.At.pre {line : Nat} {text : List Char} {t : Tok} (h : t.At line text) :
    ∃ pre rest, text = pre ++ rest ∧ t.line = lineAfter line pre := by
  obtain ⟨pre, m, rest, h1, _, _, h2⟩ := h
  exact ⟨pre, m ++ rest, h1, h2⟩

theorem pstep_at {codec : LitCodec} {stop : Stop} {line : Nat} {text : List Char} (hs : stop.At line text)
    {c : PConf} (hc : ∀ t ∈ c.toks, t.At line text) :
    match pstep codec stop c with
    | .inl c' => ∀ t ∈ c'.toks, t.At line text
    | .inr r => r.At line text := by
  have hred : ∀ p e l, reduceBy codec p c.stack = .error e →
      (∃ pre rest, text = pre ++ rest ∧ l = lineAfter line pre) → (PResult.mk (.error e) l).At line text := by
    intro p e l h hl
    refine ⟨fun e' he => ?_, fun v hv => (by cases hv), hl⟩
    cases he
    rcases reduceBy_error h with rfl | rfl | rfl <;> trivial
  have hstop : ∀ l, (stop = .eof l ∨ (∃ ch p, stop = .illegal ch l p) ∨ stop = .keyword l) →
      ∃ pre rest, text = pre ++ rest ∧ l = lineAfter line pre := by
    rintro l (rfl | ⟨ch, p, rfl⟩ | rfl)
    · exact ⟨text, [], by simp, hs⟩
    · obtain ⟨pre, rest, h1, _, h2⟩ := hs
      exact ⟨pre, _, h1, h2⟩
    · exact hs
  obtain ⟨st, toks⟩ := c
  simp only at hc hred
  simp only [pstep]
  cases hd : defaulted (topState st) with
  | some p =>
    simp only
    cases hr : reduceBy codec p st with
    | ok st1 => exact hc
    | error e =>
      refine hred p e _ hr ?_
      cases toks with
      | cons t ts => exact (hc t (List.mem_cons_self ..)).pre
      | nil =>
        cases stop with
        | eof l => exact hstop l (.inl rfl)
        | illegal ch l p => exact hstop l (.inr (.inl ⟨ch, p, rfl⟩))
        | keyword l => exact hstop l (.inr (.inr rfl))
  | none =>
    simp only
    cases toks with
    | cons t ts =>
      have ht := hc t (List.mem_cons_self ..)
      simp only
      cases ha : action (topState st) t.lex.kind with
      | none =>
        refine ⟨fun e he => ?_, fun v hv => (by cases hv), ht.pre⟩
        cases he
        exact ht
      | some x =>
        cases x with
        | shift q => exact fun u hu => hc u (List.mem_cons_of_mem _ hu)
        | accept =>
          refine ⟨fun e he => ?_, fun v hv => (by cases hv), ht.pre⟩
          cases he
          trivial
        | reduce p =>
          simp only
          cases hr : reduceBy codec p st with
          | ok st1 => exact hc
          | error e => exact hred p e _ hr ht.pre
    | nil =>
      simp only
      cases stop with
      | illegal ch l p =>
        refine ⟨fun e he => ?_, fun v hv => (by cases hv), hstop l (.inr (.inl ⟨ch, p, rfl⟩))⟩
        cases he
        exact hs
      | keyword l =>
        refine ⟨fun e he => ?_, fun v hv => (by cases hv), hstop l (.inr (.inr rfl))⟩
        cases he
        trivial
      | eof l =>
        have hl := hstop l (.inl rfl)
        simp only
        cases ha : action (topState st) .END with
        | none =>
          refine ⟨fun e he => ?_, fun v hv => (by cases hv), hl⟩
          cases he
          trivial
        | some x =>
          cases x with
          | shift q =>
            refine ⟨fun e he => ?_, fun v hv => (by cases hv), hl⟩
            cases he
            trivial
          | accept =>
            have hno : (PResult.mk (.error .stuck) l).At line text :=
              ⟨fun e he => by cases he; trivial, fun v hv => (by cases hv), hl⟩
            rcases st with _ | ⟨⟨q, v⟩, st⟩
            · exact hno
            · cases v <;> first
                | exact hno
                | exact ⟨fun e he => (by cases he), fun v _ => hs, hl⟩
          | reduce p =>
            simp only
            cases hr : reduceBy codec p st with
            | ok st1 => exact fun t ht => by cases ht
            | error e => exact hred p e _ hr hl

theorem prun_at {codec : LitCodec} {stop : Stop} {line : Nat} {text : List Char} (hs : stop.At line text) :
    ∀ (n : Nat) (c : PConf), (∀ t ∈ c.toks, t.At line text) → ∀ r, prun codec stop n c = some r →
      r.At line text := by
  intro n
  induction n with
  | zero => intro c _ r h; cases h
  | succ n ih =>
    intro c hc r h
    have hi := pstep_at (codec := codec) hs hc
    simp only [prun] at h
    cases hp : pstep codec stop c with
    | inl c' =>
      rw [hp] at hi h
      exact ih c' hi r h
    | inr r' =>
      rw [hp] at hi h
      cases h
      exact hi

/-- **C48.** The place of a syntax error is that of an offending token or character of the text; its
line is the line in the text, counted from where the parser's line counter stood before.  The counter
is left at a line of the text, and at its last line if the text is a rule. -/
theorem error_places (codec : LitCodec) (line : Nat) (text : String) :
    (parseText codec line text).At line text.toList := by
  rw [parseText_eq]
  obtain ⟨h1, h2⟩ := lexText_at line text.toList
  obtain ⟨r', hr'⟩ := prun_total codec (lexText line text.toList).2
    (parseFuel (lexText line text.toList).1.length) ⟨[], (lexText line text.toList).1⟩ (by
    have := stRank_le 0
    simp only [PConf.measure, parseFuel, topState, List.length_nil]
    omega)
  simp only [parseToks, hr']
  exact prun_at h2 _ _ h1 _ hr'

end RE
