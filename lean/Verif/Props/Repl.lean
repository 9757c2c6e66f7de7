import Verif.Model.Repl
import Verif.Props.RuleText
import Verif.Props.Lines
import Verif.Props.Laws

/-!
# The debug REPL (C81)

People try their rules in the REPL.  What it prints for a line must be what the rule does in a program:
nothing typed before counts, but for the flag of the tracebacks; every line gets its reply; and the command
that sets the flag takes no text away from the rule language.
-/

namespace RE

/-! ## Specification -/

/-- What `Rule(line, context).evaluate(thing)` does in a new process. -/
inductive Fresh where
  | returns (v : Value)
  | refused (e : Err) (place : Option PErr)
  | raises (e : Err)

/-- `Rule(line, context)`, and `evaluate(thing)` if that returns -/
def fresh (codec : LitCodec) (env : Env) (dct : DecCtx) (thing : Value) (line : String) : Fresh :=
  match (Proc.new.rule codec env dct line).1 with
  | .error e => .refused e (match (parseText codec 1 line).out with
      | .ok _ => none
      | .error e => some e)
  | .ok rule =>
    match (Proc.new.evaluate env rule thing).1 with
    | .error e => .raises e
    | .ok v => .returns v

/-- how the REPL prints it, with the flag -/
def Fresh.shown (debugging : Bool) : Fresh → Reply
  | .returns v => .result v
  | .refused (.eng e) place => .engineError e place debugging
  | .refused (.py k) _ => .otherError k
  | .raises (.eng e) => .engineError e none debugging
  | .raises (.py k) => .otherError k

/-- the flag after some lines: what the last command among them says, or what it was -/
def flagAfter (word : Char → Bool) (start : Bool) (lines : List String) : Bool :=
  ((lines.filterMap fun l => debugCommand word l.toList).getLast?).getD start

/-- the reply without its traceback -/
def Reply.plain : Reply → Reply
  | .engineError e place _ => .engineError e place false
  | r => r

/-! ## The loop -/

theorem flagAfter_cons (word : Char → Bool) (start : Bool) (l : String) (lines : List String) :
    flagAfter word start (l :: lines) =
      flagAfter word ((debugCommand word l.toList).getD start) lines := by
  unfold flagAfter
  cases h : debugCommand word l.toList with
  | none => simp [h]
  | some b =>
    simp only [List.filterMap_cons, h, List.getLast?_cons, Option.getD_some]

theorem replTry_spec (codec : LitCodec) (env : Env) (dct : DecCtx) (thing : Value) (debugging : Bool)
    (line : String) (hn : '\n' ∉ line.toList) (p : Proc) (hs : p.st.scopes = []) (hl : p.line = 1) :
    (replTry codec env dct thing debugging line p).1 =
      (fresh codec env dct thing line).shown debugging ∧
    (replTry codec env dct thing debugging line p).2.st.scopes = [] ∧
    (replTry codec env dct thing debugging line p).2.line = 1 := by
  have hline : (parseText codec 1 line).line = 1 := by
    have := foldl_counter_le codec [line] 1
    simp only [List.foldl_cons, List.foldl_nil, List.map_cons, List.map_nil, List.sum_cons, List.sum_nil,
      List.count_eq_zero.2 hn] at this
    omega
  have hr : (p.rule codec env dct line).1 = (Proc.new.rule codec env dct line).1 :=
    parseRule_outcome codec env dct _ _ line _ _ hs
  have hps : (p.rule codec env dct line).2.st.scopes = [] :=
    (parseRule_scopes codec env dct _ line p.st).trans hs
  have hpl : (p.rule codec env dct line).2.line = 1 := by
    simp only [Proc.rule, hl, hline]
  unfold replTry fresh
  rw [← hr, hl]
  rcases hp : p.rule codec env dct line with ⟨(⟨e⟩ | ⟨k⟩) | rule, p1⟩
  · rw [hp] at hps hpl
    exact ⟨rfl, hps, hpl⟩
  · rw [hp] at hps hpl
    exact ⟨rfl, hps, hpl⟩
  · rw [hp] at hps hpl
    have he : (p1.evaluate env rule thing).1 = (Proc.new.evaluate env rule thing).1 :=
      (ruleEval_state_independent env rule thing _ _).1
    have hes : (p1.evaluate env rule thing).2.st.scopes = [] := ruleEval_scopes env rule thing p1.st
    have hel : (p1.evaluate env rule thing).2.line = 1 := hpl
    simp only []
    rw [← he]
    rcases hq : p1.evaluate env rule thing with ⟨(⟨e⟩ | ⟨k⟩) | v, p2⟩ <;> rw [hq] at hes hel <;>
      exact ⟨rfl, hes, hel⟩

theorem repl_spec (codec : LitCodec) (env : Env) (dct : DecCtx) (word : Char → Bool) (thing : Value) :
    ∀ (lines : List String), (∀ l ∈ lines, '\n' ∉ l.toList) → ∀ s : Repl, s.proc.st.scopes = [] →
    s.proc.line = 1 →
    (repl codec env dct word thing lines s).1.length = lines.length ∧
    (repl codec env dct word thing lines s).2.debugging = flagAfter word s.debugging lines ∧
    ∀ before line after, lines = before ++ line :: after →
      (repl codec env dct word thing lines s).1[before.length]? = some
        (match debugCommand word line.toList with
         | some on => .debugging on
         | none => (fresh codec env dct thing line).shown (flagAfter word s.debugging before)) := by
  intro lines
  induction lines with
  | nil => intro _ s _ _; exact ⟨rfl, rfl, fun before line after h => by simp at h⟩
  | cons l ls ih =>
    intro hn s hs hl
    obtain ⟨h1, h2, h3⟩ := replTry_spec codec env dct thing s.debugging l (hn l (by simp)) s.proc hs hl
    have hd : (replLine codec env dct word thing l s).2.debugging =
        (debugCommand word l.toList).getD s.debugging := by
      unfold replLine
      cases debugCommand word l.toList <;> rfl
    have hp : (replLine codec env dct word thing l s).2.proc.st.scopes = [] ∧
        (replLine codec env dct word thing l s).2.proc.line = 1 := by
      unfold replLine
      cases debugCommand word l.toList
      · exact ⟨h2, h3⟩
      · exact ⟨hs, hl⟩
    obtain ⟨i1, i2, i3⟩ := ih (fun l' h => hn l' (by simp [h])) _ hp.1 hp.2
    refine ⟨by simp only [repl, List.length_cons, i1], ?_, ?_⟩
    · simp only [repl, i2, hd, flagAfter_cons]
    · intro before line after h
      cases before with
      | nil =>
        simp only [List.nil_append, List.cons.injEq] at h
        obtain ⟨rfl, rfl⟩ := h
        simp only [repl, List.length_nil, List.getElem?_cons_zero]
        congr 1
        unfold replLine
        cases debugCommand word l.toList with
        | none => exact h1
        | some b => rfl
      | cons b bs =>
        simp only [List.cons_append, List.cons.injEq] at h
        obtain ⟨rfl, rfl⟩ := h
        simp only [repl, List.length_cons, List.getElem?_cons_succ]
        rw [i3 bs line after rfl, hd, flagAfter_cons]

/-! ## The theorems -/

/-- **C81.** Every line typed gets one reply, whatever the lines before did: no rule and no exception ends the
loop. -/
theorem repl_answers (codec : LitCodec) (env : Env) (dct : DecCtx) (word : Char → Bool) (thing : Value)
    (lines : List String) (s : Repl) :
    (repl codec env dct word thing lines s).1.length = lines.length := by
  induction lines generalizing s with
  | nil => rfl
  | cons l ls ih => simp only [repl, List.length_cons, ih]

/-- **C81.** The reply to a line is to say the new flag if the line is a command, and otherwise to show what
`Rule(line, context).evaluate(thing)` does in a new process: the value, or the exception and, for a syntax
error, the place.  Of the lines before, only the last command counts, and only for the traceback.  (A line has
no newline in it.) -/
theorem repl_replies (codec : LitCodec) (env : Env) (dct : DecCtx) (word : Char → Bool) (thing : Value)
    (start : Bool) (before : List String) (line : String) (after : List String)
    (hn : ∀ l ∈ before ++ line :: after, '\n' ∉ l.toList) :
    (repl codec env dct word thing (before ++ line :: after) ⟨start, Proc.new⟩).1[before.length]? = some
      (match debugCommand word line.toList with
       | some on => .debugging on
       | none => (fresh codec env dct thing line).shown (flagAfter word start before)) :=
  (repl_spec codec env dct word thing _ hn ⟨start, Proc.new⟩ rfl rfl).2.2 before line after rfl

/-- **C81.** Without the tracebacks, the replies are the same whatever the flag is when the REPL starts: debugging
changes no result and no error. -/
theorem debugging_changes_nothing (codec : LitCodec) (env : Env) (dct : DecCtx) (word : Char → Bool)
    (thing : Value) (lines : List String) (d d' : Bool) (p : Proc) :
    (repl codec env dct word thing lines ⟨d, p⟩).1.map Reply.plain =
      (repl codec env dct word thing lines ⟨d', p⟩).1.map Reply.plain ∧
    (repl codec env dct word thing lines ⟨d, p⟩).2.proc =
      (repl codec env dct word thing lines ⟨d', p⟩).2.proc := by
  have ht : ∀ line p, (replTry codec env dct thing d line p).1.plain =
        (replTry codec env dct thing d' line p).1.plain ∧
      (replTry codec env dct thing d line p).2 = (replTry codec env dct thing d' line p).2 := by
    intro line p
    unfold replTry
    rcases p.rule codec env dct line with ⟨(⟨e⟩ | ⟨k⟩) | rule, p1⟩
    · exact ⟨rfl, rfl⟩
    · exact ⟨rfl, rfl⟩
    · simp only []
      rcases p1.evaluate env rule thing with ⟨(⟨e⟩ | ⟨k⟩) | v, p2⟩ <;> exact ⟨rfl, rfl⟩
  induction lines generalizing p with
  | nil => exact ⟨rfl, rfl⟩
  | cons l ls ih =>
    simp only [repl, replLine]
    cases debugCommand word l.toList with
    | some b => exact ⟨rfl, rfl⟩
    | none =>
      obtain ⟨h1, h2⟩ := ht l p
      obtain ⟨i1, i2⟩ := ih (replTry codec env dct thing d l p).2
      refine ⟨?_, ?_⟩
      · simp only [List.map_cons]
        rw [h1]
        congr 1
        rw [i1, h2]
      · simp only []
        rw [i2, h2]

/-! ## A command is no rule -/

theorem space_hits_nothing {b : Option Char} {c : Char} (hc : isPySpace c = true) (hn : c ≠ '\n') (r : List Char) :
    lexHit b (c :: r) = none := by
  have ne : ∀ d : Char, isPySpace d = false → (c == d) = false := by
    intro d hd
    rw [beq_eq_false_iff_ne]
    rintro rfl
    rw [hc] at hd
    cases hd
  have hcn : (c == '\n') = false := by rw [beq_eq_false_iff_ne]; exact hn
  have hstart : isNameStart c = false := by
    cases h : isNameStart c with
    | false => rfl
    | true =>
      exfalso
      have h1 : c.toNat = c.val.toNat := rfl
      simp only [isNameStart, Char.isAlpha, Char.isUpper, Char.isLower, Bool.or_eq_true, Bool.and_eq_true,
        decide_eq_true_eq, beq_iff_eq, ge_iff_le, UInt32.le_iff_toNat_le] at h
      simp only [isPySpace, Bool.or_eq_true, Bool.and_eq_true, decide_eq_true_eq, beq_iff_eq] at hc
      rcases h with (h | h) | h
      · have a1 : (65 : Nat) ≤ c.val.toNat := h.1
        have a2 : c.val.toNat ≤ (90 : Nat) := h.2
        omega
      · have a1 : (97 : Nat) ≤ c.val.toNat := h.1
        have a2 : c.val.toNat ≤ (122 : Nat) := h.2
        omega
      · subst h; exact absurd hc (by decide)
  have hdig : isDigit c = false := by
    cases h : isDigit c with
    | false => rfl
    | true =>
      exfalso
      simp only [isDigit, Bool.and_eq_true, decide_eq_true_eq] at h
      simp only [isPySpace, Bool.or_eq_true, Bool.and_eq_true, decide_eq_true_eq, beq_iff_eq] at hc
      omega
  have h1 : hitOperator (c :: r) = none := by
    simp only [hitOperator, ne '*' rfl, ne '/' rfl, ne '<' rfl, ne '>' rfl, ne '=' rfl, ne '!' rfl,
      Bool.false_eq_true, if_false]
  have h2 : hitString (c :: r) = none := by
    simp only [hitString, scanString, ne 'b' rfl, ne 'd' rfl, ne 't' rfl, ne 's' rfl, ne '"' rfl, ne '\'' rfl,
      Bool.false_eq_true, if_false, Bool.or_self, Hit.ofScan, Option.map_none]
  have h3 : hitSymbol (c :: r) = none := by
    simp only [hitSymbol, scanSymbol, ne '$' rfl, hstart, Bool.false_eq_true, if_false]
  have h4 : Hit.ofScan .COMMENT id [] (scanComment (c :: r)) = none := by
    simp only [scanComment, ne '#' rfl, Bool.false_eq_true, if_false, Hit.ofScan, Option.map_none]
  have h5 : hitNewline (c :: r) = none := by
    simp [hitNewline, List.span_eq_takeWhile_dropWhile, hn]
  have h6 : Hit.ofScan .FLOAT id [] (scanFloat (c :: r)) = none := by
    rw [scanFloat_none hdig (fun h => absurd (ne '.' rfl) (by simp [h]))]
    rfl
  have h7 : hitAccess b (c :: r) = none := by
    simp only [hitAccess, ne '&' rfl, ne '.' rfl, ne '[' rfl, Bool.false_eq_true, if_false]
  have h8 : hitPunct (c :: r) = none := by
    simp only [hitPunct, punctKind, ne '=' rfl, ne '!' rfl, ne '&' rfl, ne '|' rfl, ne '^' rfl, ne '(' rfl,
      ne ')' rfl, ne '?' rfl, ne ':' rfl, ne '+' rfl, ne '-' rfl, ne '%' rfl, ne ',' rfl, ne ']' rfl, ne '{' rfl,
      ne '}' rfl, Bool.false_eq_true, if_false]
  simp only [lexHit, h1, h2, h3, h4, h5, h6, h7, h8, Option.orElse_none]

theorem hash_hits (b : Option Char) (r : List Char) :
    lexHit b ('#' :: r) = none ∨ ∃ m rest, (rest = [] ∨ rest = ['\n']) ∧
      lexHit b ('#' :: r) = some (.token ⟨.COMMENT, m⟩ m rest) := by
  have h1 : hitOperator ('#' :: r) = none := rfl
  have h2 : hitString ('#' :: r) = none := rfl
  have h3 : hitSymbol ('#' :: r) = none := rfl
  have h5 : hitNewline ('#' :: r) = none := by
    simp [hitNewline, List.span_eq_takeWhile_dropWhile]
  have h6 : scanFloat ('#' :: r) = none := scanFloat_none rfl (fun h => absurd h (by decide))
  have h7 : hitAccess b ('#' :: r) = none := rfl
  have h8 : hitPunct ('#' :: r) = none := rfl
  cases h4 : scanComment ('#' :: r) with
  | none =>
    left
    simp only [lexHit, h1, h2, h3, h4, h5, h6, h7, h8, Option.orElse_none, Hit.ofScan, Option.map_none]
  | some p =>
    right
    obtain ⟨m, rest⟩ := p
    refine ⟨m, rest, ?_, ?_⟩
    · simp only [scanComment] at h4
      rw [if_pos (by rfl)] at h4
      split at h4
      rename_i cond
      · simp only [Option.some.injEq, Prod.mk.injEq] at h4
        obtain ⟨_, rfl⟩ := h4
        simpa using cond
      · cases h4
    · simp only [lexHit, h1, h2, h3, h4, Option.orElse_none, Hit.ofScan, Option.map_some]
      rfl

/-- white space and then a `#`: nothing, a comment, or an illegal character -/
theorem lexFrom_hash : ∀ (fuel : Nat) (b : Option Char) (line pos : Nat) (s r : List Char),
    skipSpace s = '#' :: r →
    (∃ l, lexFrom fuel b line pos s = ([], .eof l)) ∨
    (∃ c l p, lexFrom fuel b line pos s = ([], .illegal c l p)) ∨
    (∃ m l p l', lexFrom fuel b line pos s = ([⟨⟨.COMMENT, m⟩, l, p⟩], .eof l')) := by
  intro fuel
  induction fuel with
  | zero => intro b line pos s r _; exact .inl ⟨line, by cases s <;> rfl⟩
  | succ n ih =>
    intro b line pos s r h
    cases s with
    | nil => cases h
    | cons c s' =>
      cases hb : isBlank c with
      | true =>
        have hc : isPySpace c = true := by
          simp only [isBlank, Bool.or_eq_true, beq_iff_eq] at hb
          rcases hb with rfl | rfl <;> rfl
        simp only [lexFrom, hb, if_true]
        exact ih _ _ _ s' r (by simpa [skipSpace, List.dropWhile_cons, hc] using h)
      | false =>
        cases hc : isPySpace c with
        | true =>
          by_cases hn : c = '\n'
          · subst hn
            simp only [lexFrom, hb, Bool.false_eq_true, if_false, lexHit_newline]
            refine ih _ _ _ _ r ?_
            have h' : s'.dropWhile isPySpace = '#' :: r := by
              simpa [skipSpace, List.dropWhile_cons, hc] using h
            have : ∀ t : List Char, (t.dropWhile (· == '\n')).dropWhile isPySpace = t.dropWhile isPySpace := by
              intro t
              induction t with
              | nil => rfl
              | cons d t iht =>
                by_cases hd : d = '\n'
                · subst hd
                  have hsp : isPySpace '\n' = true := rfl
                  simp [hsp, iht]
                · simp [List.dropWhile_cons, hd]
            simp only [skipSpace, this, h']
          · right; left
            simp only [lexFrom, hb, Bool.false_eq_true, if_false, space_hits_nothing hc hn]
            exact ⟨c, line, pos, rfl⟩
        | false =>
          have hs : c = '#' ∧ s' = r := by
            simpa [skipSpace, List.dropWhile_cons, hc] using h
          obtain ⟨rfl, rfl⟩ := hs
          rcases hash_hits b s' with h1 | ⟨m, rest, hrest, h1⟩
          · right; left
            simp only [lexFrom, hb, Bool.false_eq_true, if_false, h1]
            exact ⟨_, line, pos, rfl⟩
          · right; right
            simp only [lexFrom, hb, Bool.false_eq_true, if_false, h1]
            have : ∃ l', lexFrom n m.getLast? line (pos + m.length) rest = ([], .eof l') := by
              rcases hrest with rfl | rfl
              · exact ⟨line, by cases n <;> rfl⟩
              · cases n with
                | zero => exact ⟨line, rfl⟩
                | succ k =>
                  simp only [lexFrom, show isBlank '\n' = false from rfl, Bool.false_eq_true, if_false, lexHit_newline]
                  exact ⟨_, by cases k <;> rfl⟩
            obtain ⟨l', hl'⟩ := this
            rw [hl']
            exact ⟨m, line, pos, l', rfl⟩

theorem hash_is_no_rule (codec : LitCodec) (line : Nat) (text : String) (r : List Char)
    (h : skipSpace text.toList = '#' :: r) :
    ∃ e, (parseText codec line text).out = .error e ∧ e.toErr = .eng .ruleSyntax := by
  rw [parseText_eq]
  have hd : defaulted 0 = none := nd 0 rfl
  have ha : action 0 .END = none := by decide +kernel
  have hk : action 0 .COMMENT = none := by decide +kernel
  rcases lexFrom_hash text.toList.length none line 0 text.toList r h with ⟨l, hl⟩ | ⟨c, l, p, hl⟩ | ⟨m, l, p, l', hl⟩
  · have hs : pstep codec (.eof l) ⟨[], []⟩ = .inr ⟨.error .unexpectedEnd, l⟩ := by
      simp [pstep, topState, hd, ha]
    simp only [lexText, hl]
    rw [parseToks_of_reach (.refl _) hs]
    exact ⟨_, rfl, rfl⟩
  · have hs : pstep codec (.illegal c l p) ⟨[], []⟩ = .inr ⟨.error (.illegal c l p), l⟩ := by
      simp [pstep, topState, hd]
    simp only [lexText, hl]
    rw [parseToks_of_reach (.refl _) hs]
    exact ⟨_, rfl, rfl⟩
  · have hs : pstep codec (.eof l') ⟨[], [⟨⟨.COMMENT, m⟩, l, p⟩]⟩ =
        .inr ⟨.error (.unexpected ⟨⟨.COMMENT, m⟩, l, p⟩), l⟩ := by
      simp [pstep, topState, hd, hk]
    simp only [lexText, hl]
    rw [parseToks_of_reach (.refl _) hs]
    exact ⟨_, rfl, rfl⟩

theorem command_starts (word : Char → Bool) (s : List Char) (b : Bool) (h : debugCommand word s = some b) :
    ∃ r, skipSpace s = '#' :: r := by
  unfold debugCommand afterLit at h
  by_cases hp : "#!".toList.isPrefixOf (skipSpace s) = true
  · obtain ⟨t, ht⟩ := List.isPrefixOf_iff_prefix.1 hp
    exact ⟨'!' :: t, by rw [← ht]; rfl⟩
  · rw [if_neg hp] at h
    cases h

/-- **C81.** The command takes nothing from the rule language: a text that the REPL takes for a command is refused
by `Rule(text)` with RuleSyntaxError, in every Context and after every history (whatever the letters of `\w`
are). -/
theorem commands_are_no_rules (codec : LitCodec) (env : Env) (dct : DecCtx) (word : Char → Bool) (text : String)
    (b : Bool) (h : debugCommand word text.toList = some b) (acts : List TextAct) :
    ((runTexts codec env acts Proc.new).rule codec env dct text).1 = .error (.eng .ruleSyntax) := by
  obtain ⟨r, hr⟩ := command_starts word _ b h
  obtain ⟨e, he, hc⟩ := hash_is_no_rule codec (runTexts codec env acts Proc.new).line text r hr
  simp only [Proc.rule, parseRule, he, hc]
  rfl

/-- **C81.** So every text that is a rule gets its result: if `Rule(line)` is accepted and `evaluate(thing)`
returns a value, that value is the reply, wherever the line is typed. -/
theorem rules_get_their_result (codec : LitCodec) (env : Env) (dct : DecCtx) (word : Char → Bool) (thing : Value)
    (start : Bool) (before : List String) (line : String) (after : List String)
    (hn : ∀ l ∈ before ++ line :: after, '\n' ∉ l.toList) (rule : Expr) (v : Value)
    (hr : (Proc.new.rule codec env dct line).1 = .ok rule)
    (hv : (Proc.new.evaluate env rule thing).1 = .ok v) :
    (repl codec env dct word thing (before ++ line :: after) ⟨start, Proc.new⟩).1[before.length]? =
      some (.result v) := by
  rw [repl_replies codec env dct word thing start before line after hn]
  cases h : debugCommand word line.toList with
  | none => simp only [fresh, hr, hv, Fresh.shown]
  | some b =>
    have := commands_are_no_rules codec env dct word line b h []
    rw [show runTexts codec env [] Proc.new = Proc.new from rfl, hr] at this
    cases this

/-- **C81**, cases: the words of the command.  Anything but `false` in any case turns the debugging on, also `0`,
`off` and `falsely`, and what follows the word is not read: `#! debug = False, please` is a command. -/
theorem debug_commands :
    let cmd := fun s : String => debugCommand isNameChar s.toList
    cmd "#!debug=true" = some true ∧ cmd " #! debug = FALSE" = some false ∧ cmd "#!debug=0" = some true ∧
    cmd "#!debug=off" = some true ∧ cmd "#!debug=falsely" = some true ∧
    cmd "#! debug = False, please" = some false ∧ cmd "# debug=true" = none ∧ cmd "#!debug=" = none ∧
    cmd "1 #!debug=true" = none := by decide +kernel

/-- the hypotheses of `rules_get_their_result` are met, and the lines before were a command and no rule: after
`#!debug=true` and `(` the reply to `x` is the value of `x` -/
example (codec : LitCodec) (dct : DecCtx) :
    (repl codec sampleEnv dct isNameChar (dictOf [("x", .bool true)])
      (["#!debug=true", "("] ++ String.ofList ['x'] :: []) ⟨false, Proc.new⟩).1[2]? = some (.result (.bool true)) := by
  have hx : Means codec ['x'] (.sym "x" false) := means_sym x_word
  refine rules_get_their_result codec sampleEnv dct isNameChar _ false ["#!debug=true", "("] _ []
    (by decide) _ _ ((rule_of_means hx).trans rfl) ?_
  decide +kernel

/-- an EngineError that is printed -/
def Reply.error : Reply → Option (EngErr × Option PErr × Bool)
  | .engineError e place trace => some (e, place, trace)
  | _ => none

/-- **C81**, a case: a line that is no rule is answered with its exception, its place and the traceback that was
asked for; a name the thing does not have, with its exception. -/
theorem repl_witness :
    ((repl plainCodec sampleEnv .default isNameChar .none ["#!debug=on", "\r#", "x", "#!debug=false", "("]
      ⟨false, Proc.new⟩).1.map Reply.error) =
    [none, some (.ruleSyntax, some (.illegal '\r' 1 0), true), some (.symbolResolution "x", none, true), none,
      some (.ruleSyntax, some .unexpectedEnd, false)] := by
  decide +kernel

end RE
