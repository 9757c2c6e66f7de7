import Verif.Props.Print

/-!
# Error places over histories of parsed texts (C48), and examples of texts (C40, C41, C48, C49)
-/

set_option linter.unusedSimpArgs false

namespace RE

/-- The shared lexer's line counter after parsing `texts` one after the other, in a new process (PLY's
lexer starts at line 1; parser/base.py 60, 74-80 never reset it). -/
def counterAfter (codec : LitCodec) (texts : List String) : Nat :=
  texts.foldl (fun line text => (parseText codec line text).line) 1

/-- What is wrong with `text`, when it is parsed after `earlier`. -/
def errorAfter (codec : LitCodec) (earlier : List String) (text : String) : Option PErr :=
  match (parseText codec (counterAfter codec earlier) text).out with
  | .ok _ => none
  | .error e => some e

/-- The place of an error, line and offset, if it has one. -/
def PErr.place : PErr → Option (Nat × Nat)
  | .unexpected t => some (t.line, t.pos)
  | .illegal _ l p => some (l, p)
  | _ => none

/-- The line of the character at offset `pos`: one plus the newlines before it. -/
def lineOf (text : String) (pos : Nat) : Nat := 1 + (text.toList.take pos).count '\n'

theorem foldl_counter_le (codec : LitCodec) : ∀ (texts : List String) (line : Nat),
    line ≤ texts.foldl (fun line text => (parseText codec line text).line) line ∧
    texts.foldl (fun line text => (parseText codec line text).line) line ≤
      line + (texts.map fun t => t.toList.count '\n').sum := by
  intro texts
  induction texts with
  | nil => intro line; simp
  | cons t ts ih =>
    intro line
    obtain ⟨_, _, pre, rest, h1, h2⟩ := error_places codec line t
    have hc : pre.count '\n' ≤ t.toList.count '\n' := by rw [h1, List.count_append]; omega
    have h3 := ih (parseText codec line t).line
    simp only [List.foldl_cons, List.map_cons, List.sum_cons]
    simp only [lineAfter] at h2
    omega

/-! ### Another counter, the same result, so many lines further -/

/-- `k` lines further -/
def Tok.shift (k : Nat) (t : Tok) : Tok := { t with line := t.line + k }

/-- `k` lines further -/
def Stop.shift (k : Nat) : Stop → Stop
  | .eof l => .eof (l + k)
  | .illegal c l p => .illegal c (l + k) p
  | .keyword l => .keyword (l + k)

/-- `k` lines further -/
def PErr.shift (k : Nat) : PErr → PErr
  | .unexpected t => .unexpected (t.shift k)
  | .illegal c l p => .illegal c (l + k) p
  | e => e

/-- `k` lines further -/
def PResult.shift (k : Nat) (r : PResult) : PResult :=
  ⟨match r.out with
    | .ok v => .ok v
    | .error e => .error (e.shift k), r.line + k⟩

theorem lexFrom_shift (k : Nat) : ∀ (fuel : Nat) (b : Option Char) (line pos : Nat) (s : List Char),
    lexFrom fuel b (line + k) pos s =
      ((lexFrom fuel b line pos s).1.map (Tok.shift k), (lexFrom fuel b line pos s).2.shift k) := by
  intro fuel
  induction fuel with
  | zero => intro b line pos s; rfl
  | succ fuel ih =>
    intro b line pos s
    cases s with
    | nil => rfl
    | cons c r =>
      simp only [lexFrom]
      by_cases hb : isBlank c = true
      · rw [if_pos hb, if_pos hb]; exact ih _ _ _ _
      · rw [if_neg hb, if_neg hb]
        cases hh : lexHit b (c :: r) with
        | none => rfl
        | some h =>
          cases h with
          | keyword => rfl
          | newlines m rest =>
            simp only
            rw [Nat.add_right_comm]
            exact ih _ _ _ _
          | token x m rest =>
            simp only
            rw [ih]
            rfl

theorem reduceBy_shift {codec : LitCodec} {p : Nat} {st : List (Nat × Sem)} {e : PErr} (k : Nat)
    (h : reduceBy codec p st = .error e) : e.shift k = e := by
  rcases reduceBy_error h with rfl | rfl | rfl <;> rfl

theorem aheadLine_shift (k : Nat) (toks : List Tok) (stop : Stop) :
    aheadLine (toks.map (Tok.shift k)) (stop.shift k) = aheadLine toks stop + k := by
  cases toks with
  | cons t ts => rfl
  | nil => cases stop <;> rfl

theorem pstep_shift {codec : LitCodec} (k : Nat) (stop : Stop) (st : List (Nat × Sem)) (toks : List Tok) :
    pstep codec (stop.shift k) ⟨st, toks.map (Tok.shift k)⟩ =
      match pstep codec stop ⟨st, toks⟩ with
      | .inl c => .inl ⟨c.stack, c.toks.map (Tok.shift k)⟩
      | .inr r => .inr (r.shift k) := by
  simp only [pstep]
  cases hd : defaulted (topState st) with
  | some p =>
    simp only
    cases hr : reduceBy codec p st with
    | ok st1 => rfl
    | error e => simp only [PResult.shift, reduceBy_shift k hr, aheadLine_shift]
  | none =>
    cases toks with
    | cons t ts =>
      simp only [List.map_cons, Tok.shift]
      cases ha : action (topState st) t.lex.kind with
      | none => rfl
      | some x =>
        cases x with
        | shift q => rfl
        | accept => rfl
        | reduce p =>
          simp only
          cases hr : reduceBy codec p st with
          | ok st1 => rfl
          | error e => simp only [PResult.shift, reduceBy_shift k hr]
    | nil =>
      cases stop with
      | illegal c l p => rfl
      | keyword l => rfl
      | eof l =>
        simp only [List.map_nil, Stop.shift]
        cases ha : action (topState st) .END with
        | none => rfl
        | some x =>
          cases x with
          | shift q => rfl
          | accept =>
            simp only
            rcases st with _ | ⟨⟨q, v⟩, st⟩
            · rfl
            · cases v <;> rfl
          | reduce p =>
            simp only
            cases hr : reduceBy codec p st with
            | ok st1 => rfl
            | error e => simp only [PResult.shift, reduceBy_shift k hr]

theorem prun_shift {codec : LitCodec} (k : Nat) (stop : Stop) : ∀ (n : Nat) (st : List (Nat × Sem)) (toks : List Tok),
    prun codec (stop.shift k) n ⟨st, toks.map (Tok.shift k)⟩ =
      (prun codec stop n ⟨st, toks⟩).map (PResult.shift k) := by
  intro n
  induction n with
  | zero => intro st toks; rfl
  | succ n ih =>
    intro st toks
    simp only [prun]
    rw [pstep_shift]
    cases pstep codec stop ⟨st, toks⟩ with
    | inl c => exact ih _ _
    | inr r => rfl

/-- **C48.** When the line counter stands `k` lines further, parsing a text does the same and reports
everything `k` lines further. -/
theorem parse_shift (codec : LitCodec) (line k : Nat) (text : String) :
    parseText codec (line + k) text = (parseText codec line text).shift k := by
  simp only [parseText, lexText]
  rw [lexFrom_shift]
  simp only [List.length_map]
  rw [prun_shift]
  cases prun codec (lexFrom text.toList.length none line 0 text.toList).2 _ _ <;> rfl

/-- **C48** (partly: the line is off by the newlines of the texts parsed before).  The offset reported for
a syntax error is that of the token or character, and the line is its line in the text, plus a number that
does not depend on the text: at most the number of newlines in the texts parsed before, and zero if they
have none. -/
theorem error_line_after_history_partial (codec : LitCodec) (earlier : List String) :
    ∃ extra, extra ≤ (earlier.map fun t => t.toList.count '\n').sum ∧
      ∀ text e l pos, errorAfter codec earlier text = some e → e.place = some (l, pos) →
        pos < text.toList.length ∧ l = lineOf text pos + extra := by
  obtain ⟨h1, h2⟩ := foldl_counter_le codec earlier 1
  refine ⟨counterAfter codec earlier - 1, by simp only [counterAfter]; omega, ?_⟩
  intro text e l pos he hp
  obtain ⟨hat, _⟩ := error_places codec (counterAfter codec earlier) text
  simp only [errorAfter] at he
  split at he
  · cases he
  · rename_i e' hout
    cases he
    have h3 := hat _ hout
    have hge : 1 ≤ counterAfter codec earlier := h1
    cases e with
    | unexpected t =>
      simp only [PErr.place, Option.some.injEq, Prod.mk.injEq] at hp
      obtain ⟨rfl, rfl⟩ := hp
      obtain ⟨pre, m, rest, h4, h5, h6, h7⟩ := h3
      obtain ⟨c, r, rfl, _⟩ := h5.cons
      refine ⟨by rw [h4, h6]; simp, ?_⟩
      rw [h7, lineOf, h4, h6, List.take_left']
      · simp only [lineAfter]; omega
      · rfl
    | illegal c l' p =>
      simp only [PErr.place, Option.some.injEq, Prod.mk.injEq] at hp
      obtain ⟨rfl, rfl⟩ := hp
      obtain ⟨pre, rest, h4, h6, h7⟩ := h3
      refine ⟨by rw [h4, h6]; simp, ?_⟩
      rw [h7, lineOf, h4, h6, List.take_left']
      · simp only [lineAfter]; omega
      · rfl
    | _ => cases hp

/-- **C48** (partly).  After texts without newlines, a syntax error is reported at its place in the
text. -/
theorem error_line_exact_partial (codec : LitCodec) (earlier : List String)
    (hn : ∀ t ∈ earlier, '\n' ∉ t.toList) (text : String) (e : PErr) (l pos : Nat)
    (he : errorAfter codec earlier text = some e) (hp : e.place = some (l, pos)) :
    pos < text.toList.length ∧ l = lineOf text pos := by
  obtain ⟨extra, h1, h2⟩ := error_line_after_history_partial codec earlier
  have hz : (earlier.map fun t => t.toList.count '\n').sum = 0 := by
    rw [List.sum_eq_zero_iff_forall_eq_nat]
    simp only [List.mem_map, forall_exists_index, and_imp, forall_apply_eq_imp_iff₂]
    exact fun t ht => List.count_eq_zero.2 (hn t ht)
  obtain ⟨h3, h4⟩ := h2 text e l pos he hp
  exact ⟨h3, by omega⟩

/-- **C48.** Whatever was parsed before, parsing a text does what it does in a new process, and reports
the same but for the line, which is off by the lines counted in the texts before. -/
theorem parse_after_history (codec : LitCodec) (earlier : List String) (text : String) :
    parseText codec (counterAfter codec earlier) text =
      (parseText codec 1 text).shift (counterAfter codec earlier - 1) := by
  have h1 := (foldl_counter_le codec earlier 1).1
  have h2 : counterAfter codec earlier = 1 + (counterAfter codec earlier - 1) := by
    simp only [counterAfter]; omega
  rw [← parse_shift, ← h2]

/-- **C48.** When the texts parsed before were all rules, the line is off by exactly their newlines. -/
theorem counter_after_rules (codec : LitCodec) (earlier : List String)
    (hr : ∀ t ∈ earlier, ∃ v, (parseText codec 1 t).out = .ok v) :
    counterAfter codec earlier = 1 + (earlier.map fun t => t.toList.count '\n').sum := by
  have : ∀ (texts : List String) (k : Nat), (∀ t ∈ texts, ∃ v, (parseText codec 1 t).out = .ok v) →
      texts.foldl (fun line text => (parseText codec line text).line) (1 + k) =
        1 + k + (texts.map fun t => t.toList.count '\n').sum := by
    intro texts
    induction texts with
    | nil => intro k _; simp
    | cons t ts ih =>
      intro k hk
      obtain ⟨v, hv⟩ := hk t (by simp)
      have h2 := (error_places codec 1 t).2.1 v hv
      simp only [List.foldl_cons, List.map_cons, List.sum_cons]
      rw [parse_shift]
      have e : ((parseText codec 1 t).shift k).line = 1 + (k + t.toList.count '\n') := by
        simp only [PResult.shift, h2, lineAfter]; omega
      rw [e, ih _ (fun u hu => hk u (List.mem_cons_of_mem _ hu))]
      omega
  exact this earlier 0 hr

/-! ### Examples -/

/-- literals without escapes -/
def plainCodec : LitCodec := ⟨fun t => some (String.ofList t), fun _ => none⟩

/-- **C48, the failure.** The same text is wrong at line 1 in a new process, and at line 2 after the rule
"1\n". -/
theorem error_line_depends_on_history :
    (errorAfter plainCodec [] "1 1").map PErr.place = some (some (1, 2)) ∧
    (errorAfter plainCodec ["1\n"] "1 1").map PErr.place = some (some (2, 2)) := by
  constructor <;> decide +kernel

/-- the hypotheses of `error_line_exact_partial` are met -/
example : errorAfter plainCodec ["a", "b ~"] "x >\n 1 1" = some (.unexpected ⟨⟨.FLOAT, ['1']⟩, 2, 7⟩) ∧
    lineOf "x >\n 1 1" 7 = 2 := by
  constructor <;> decide +kernel

/-- `a.b+c` -/
def tightPieces : List Piece :=
  [.tok ⟨.SYMBOL, ['a']⟩ ['a'], .tok ⟨.ATTR, ['.']⟩ ['.'], .tok ⟨.SYMBOL, ['b']⟩ ['b'],
   .tok ⟨.ADD, ['+']⟩ ['+'], .tok ⟨.SYMBOL, ['c']⟩ ['c']]

theorem tightPieces_laid : Laid none tightPieces := by
  have hc : isName ['c'] = true ∧ ['c'] ∉ reservedWords := by decide
  refine ⟨⟨by decide, by decide, rfl⟩, ⟨by decide, by simp⟩, by decide,
    ⟨rfl, rfl⟩, ⟨by decide, by simp⟩, fun _ => by decide,
    ⟨by decide, by decide, rfl⟩, ⟨by decide, by simp⟩, by decide,
    ⟨rfl, rfl⟩, ⟨by decide, by simp⟩, by decide,
    ⟨hc.1, hc.2, rfl⟩, ⟨by decide, by simp⟩, by decide, trivial⟩

/-- the hypotheses of `parse_insert_gap` and `parse_append_comment` are met: `a.b+c`, `a.b +c`, and
`a.b+c# note` -/
example : textOf tightPieces = "a.b+c".toList ∧ Laid none (tightPieces.take 3 ++ .gap ' ' :: tightPieces.drop 3) ∧
    noComment tightPieces ∧ notDot tightPieces := by
  refine ⟨by decide, insert_gap (tightPieces.take 3) (tightPieces.drop 3) ' ' rfl tightPieces_laid ?_ ?_ ?_, ?_, ?_⟩
  all_goals simp [noComment, notDot, notAttached, tightPieces, attached]

/-- the hypotheses of `print_parse` are met: `(a or b) and not 1.5 in c.d`; the tree has parentheses where
the table requires them -/
def orAnd : Syn :=
  .bin .AND (.bin .OR (.sym ['a']) (.sym ['b'])) (.not (.isIn (.num "1.5".toList) (.attr (.sym ['c']) ['d'] false)))

example : orAnd.wf plainCodec = true ∧ orAnd.Printable ∧
    orAnd.parens.toks.map Lexeme.text =
      ["(", "a", "or", "b", ")", "and", "not", "1.5", "in", "c", ".", "d"].map String.toList := by
  have hc : ∀ c ∈ ['a', 'b', 'c', 'd'], isName [c] = true ∧ [c] ∉ reservedWords ∧ plainName [c] = true := by decide
  refine ⟨by decide, ⟨⟨⟨?_, ?_⟩, ⟨?_, ?_⟩⟩, ?_, ⟨?_, ?_⟩, ?_⟩, by decide⟩
  all_goals first
    | exact (hc _ (by decide)).1
    | exact (hc _ (by decide)).2.1
    | exact (hc _ (by decide)).2.2
    | skip
  exact .inr (.inl ⟨['1'], ['.', '5'], [], by simp, by decide, .inr ⟨['5'], by decide, rfl⟩, .inl rfl, by decide⟩)

/-- Precedence of `not in` (not that of `in`): `a & b not in c` is `(a & b) not in c`, while `a & b in c` is
`a & (b in c)`. -/
theorem not_in_precedence :
    (Syn.isIn (.bin .BWAND (.sym ['a']) (.sym ['b'])) (.sym ['c'])).ok plainCodec = false ∧
    (Syn.notIn (.bin .BWAND (.sym ['a']) (.sym ['b'])) (.sym ['c'])).ok plainCodec = true ∧
    (Syn.bin .BWAND (.sym ['a']) (.isIn (.sym ['b']) (.sym ['c']))).ok plainCodec = true := by
  decide

/-- The conclusion of `parse_total` is not for lack of errors: each kind but `stuck` is seen. -/
example : (errorAfter plainCodec [] "1 +") = some .unexpectedEnd ∧
    (errorAfter plainCodec [] "1 ~ 2") = some (.illegal '~' 1 2) ∧
    (errorAfter plainCodec [] "b'x'") = some .badBytes ∧
    (errorAfter plainCodec [] "x and while") = some .keyword := by
  refine ⟨?_, ?_, ?_, ?_⟩ <;> decide +kernel

end RE
