import Verif.Props.RuleText
import Verif.Props.Spacing
import Verif.Props.Literals

/-!
# Literals given as texts (C38, C39, C49)
-/

set_option linter.unusedSimpArgs false

namespace RE

/-! ## C49: a text that is no rule -/

/-- **C49.** Any text gives a tree, or `Rule(text)` raises a SyntaxError of the engine, and the thread's
storage is left as it was. -/
theorem text_tree_or_syntax_error (codec : LitCodec) (env : Env) (dct : DecCtx) (line : Nat) (text : String) :
    (∃ raw comment, (parseText codec line text).out = .ok (raw, comment)) ∨
    (∃ err : EngErr, err.isSyntax = true ∧
      ∀ s, parseRule codec env dct line text s = (.error (.eng err), s)) := by
  have ht := parse_total codec line text
  cases hp : (parseText codec line text).out with
  | ok v => exact .inl ⟨v.1, v.2, rfl⟩
  | error e =>
    right
    rw [hp] at ht
    cases e <;> first
      | exact absurd rfl ht
      | refine ⟨.ruleSyntax, rfl, ?_⟩
        intro s; simp only [parseRule, hp]; rfl
      | refine ⟨.stringSyntax, rfl, ?_⟩
        intro s; simp only [parseRule, hp]; rfl
      | refine ⟨.bytesSyntax, rfl, ?_⟩
        intro s; simp only [parseRule, hp]; rfl

/-- all three kinds of refusals occur -/
example :
    let codec : LitCodec := ⟨fun t => if t.contains '\\' then none else some (String.ofList t), fun _ => none⟩
    (Proc.new.rule codec sampleEnv .default "'\\x'").1.toOption.isNone = true ∧
    (Proc.new.run codec sampleEnv "'\\x'" .none) = .error (.eng .stringSyntax) ∧
    (Proc.new.run codec sampleEnv "b'\\x'" .none) = .error (.eng .bytesSyntax) ∧
    (Proc.new.run codec sampleEnv "1 + +" .none) = .error (.eng .ruleSyntax) := by
  refine ⟨?_, ?_, ?_, ?_⟩ <;> decide +kernel

/-! ## A literal alone -/

theorem laid_gaps (b : Option Char) : ∀ post : List Char, (∀ c ∈ post, isGap c = true) →
    Laid b (post.map Piece.gap)
  | [], _ => trivial
  | c :: r, h => ⟨h c (by simp), laid_gaps _ r (fun x hx => h x (by simp [hx]))⟩

theorem laid_gaps_then {b : Option Char} {ps : List Piece} : ∀ pre : List Char, (∀ c ∈ pre, isGap c = true) →
    (∀ b', Laid b' ps) → Laid b (pre.map Piece.gap ++ ps)
  | [], _, hps => hps b
  | c :: r, h, hps => ⟨h c (by simp), laid_gaps_then r (fun x hx => h x (by simp [hx])) hps⟩

theorem textOf_gaps : ∀ post : List Char, textOf (post.map Piece.gap) = post
  | [] => rfl
  | c :: r => by
    have := textOf_gaps r
    simp only [textOf, List.map_cons, List.flatMap_cons, Piece.text] at this ⊢
    rw [this]; rfl

theorem toksOf_gaps : ∀ post : List Char, toksOf (post.map Piece.gap) = []
  | [] => rfl
  | _ :: r => toksOf_gaps r

/-- A token alone, between blanks and newlines. -/
theorem laid_single (x : Lexeme) (m pre post : List Char) (hw : Written x m) (he : ∀ b, Ends b x m post)
    (ha : attached x = false) (hpre : ∀ c ∈ pre, isGap c = true) (hpost : ∀ c ∈ post, isGap c = true) :
    Laid none (pre.map Piece.gap ++ (.tok x m :: post.map Piece.gap)) ∧
    textOf (pre.map Piece.gap ++ (.tok x m :: post.map Piece.gap)) = pre ++ m ++ post ∧
    toksOf (pre.map Piece.gap ++ (.tok x m :: post.map Piece.gap)) = [x] := by
  refine ⟨?_, ?_, ?_⟩
  · refine laid_gaps_then pre hpre ?_
    intro b
    refine ⟨hw, ?_, ?_, laid_gaps _ post hpost⟩
    · rw [textOf_gaps]; exact he b
    · rw [ha]; intro h; cases h
  · rw [textOf_append, textOf_gaps, show (Piece.tok x m :: post.map Piece.gap) = [.tok x m] ++ post.map .gap from rfl,
      textOf_append, textOf_gaps, List.append_assoc]
    simp [textOf, Piece.text]
  · rw [toksOf_append, toksOf_gaps]
    rw [show (Piece.tok x m :: post.map Piece.gap) = [.tok x m] ++ post.map .gap from rfl, toksOf_append, toksOf_gaps]
    rfl

/-- A token alone, between blanks and newlines, parses to the tree of that token. -/
theorem parse_single (codec : LitCodec) (line : Nat) (s : Syn) (hs : s.wf codec = true) (x : Lexeme)
    (hx : s.parens.toks = [x]) (m pre post : List Char) (hw : Written x m) (he : ∀ b, Ends b x m post)
    (ha : attached x = false) (hpre : ∀ c ∈ pre, isGap c = true) (hpost : ∀ c ∈ post, isGap c = true) :
    (parseText codec line (String.ofList (pre ++ m ++ post))).out = .ok (s.raw codec, none) := by
  obtain ⟨h1, h2, h3⟩ := laid_single x m pre post hw he ha hpre hpost
  have := parse_text codec line s hs _ h1 (h3.trans hx.symm)
  rw [h2] at this
  rw [this]

theorem wholeNumber_gaps {m post : List Char} (hpost : ∀ c ∈ post, isGap c = true) : wholeNumber m post := by
  intro p r he hn
  cases p with
  | nil => rfl
  | cons c p =>
    exfalso
    have h1 := number_chars hn
    simp only [List.all_append, List.all_cons, Bool.and_eq_true] at h1
    have h2 := hpost c (by rw [he]; simp)
    have h3 := h1.2.1
    rcases gap_cases h2 with rfl | rfl | rfl <;> revert h3 <;> decide

/-- A number literal alone. -/
theorem parse_number (codec : LitCodec) (line : Nat) (text pre post : List Char) (hn : Number text)
    (hpre : ∀ c ∈ pre, isGap c = true) (hpost : ∀ c ∈ post, isGap c = true) :
    (parseText codec line (String.ofList (pre ++ text ++ post))).out =
      .ok (.floatLit (String.ofList text), none) :=
  parse_single codec line (.num text) rfl ⟨.FLOAT, text⟩ rfl text pre post ⟨hn, rfl⟩
    (fun _ => ⟨rfl, fun _ => wholeNumber_gaps hpost⟩) rfl hpre hpost

/-- What `Rule(text).evaluate(thing)` gives for a number literal between blanks and newlines. -/
theorem run_number (codec : LitCodec) (env : Env) (p : Proc) (thing : Value) (text pre post : List Char)
    (hn : Number text) (hpre : ∀ c ∈ pre, isGap c = true) (hpost : ∀ c ∈ post, isGap c = true) :
    p.run codec env (String.ofList (pre ++ text ++ post)) thing = floatLiteral env text := by
  rw [floatLiteral_eq]
  simp only [Proc.run, Proc.rule, parseRule, parse_number codec _ text pre post hn hpre hpost, construct, build,
    String.toList_ofList]
  rcases parseFloat text with e | d <;> rfl

theorem exponent_of {ex : List Char} {e : Int} (h : IsExponent ex e) : Exponent ex := by
  cases h with
  | absent => exact .inl rfl
  | plain k ds hk hne hd =>
    exact .inr ⟨k, [], ds, hk, .inl rfl, hne, by rw [List.all_eq_true]; exact (isDigits_iff ds).1 hd, rfl⟩
  | plus k ds hk hne hd =>
    exact .inr ⟨k, ['+'], ds, hk, .inr (.inl rfl), hne, by rw [List.all_eq_true]; exact (isDigits_iff ds).1 hd, rfl⟩
  | minus k ds hk hne hd =>
    exact .inr ⟨k, ['-'], ds, hk, .inr (.inr rfl), hne, by rw [List.all_eq_true]; exact (isDigits_iff ds).1 hd, rfl⟩

theorem number_of_decimal {text ip fp : List Char} {e : Int} (h : IsDecimal text ip fp e) : Number text := by
  obtain ⟨hi, hf, hne, mid, ex, rfl, hx, hm⟩ := h
  have hi' : ip.all isDigit = true := by rw [List.all_eq_true]; exact (isDigits_iff ip).1 hi
  have hf' : fp.all isDigit = true := by rw [List.all_eq_true]; exact (isDigits_iff fp).1 hf
  by_cases h0 : ip = []
  · subst h0
    have hfne : fp ≠ [] := by rcases hne with h | h <;> first | exact absurd rfl h | exact h
    rcases hm with rfl | ⟨-, rfl⟩
    · exact .inr (.inr ⟨fp, ex, hfne, hf', exponent_of hx, by simp⟩)
    · exact absurd rfl hfne
  · refine .inr (.inl ⟨ip, mid, ex, h0, hi', ?_, exponent_of hx, rfl⟩)
    rcases hm with rfl | ⟨rfl, -⟩
    · exact .inr ⟨fp, hf', rfl⟩
    · exact .inl rfl

/-- **C38.** The rule whose text is a decimal number, between blanks and newlines, evaluates to exactly
that number, whatever was done before and for every thing: `12`, `12.`, `12.5`, `.5`, `1e3`, … -/
theorem decimal_text_exact (codec : LitCodec) (env : Env) (p : Proc) (thing : Value)
    (text ip fp pre post : List Char) (e : Int) (h : IsDecimal text ip fp e) (hz : ¬ LeadingZero text)
    (hpre : ∀ c ∈ pre, isGap c = true) (hpost : ∀ c ∈ post, isGap c = true) :
    (∃ d, p.run codec env (String.ofList (pre ++ text ++ post)) thing = .ok (.dec d) ∧
      d.num = some (decimalNum ip fp e)) ∨
    (p.run codec env (String.ofList (pre ++ text ++ post)) thing = .error (.eng .floatSyntax) ∧
      decRepresentable (digitsNum 10 (ip ++ fp)) (e - fp.length) = false) := by
  rw [run_number codec env p thing text pre post (number_of_decimal h) hpre hpost]
  exact decimal_literal_exact env text ip fp e h hz

/-- **C38.** A decimal number with a superfluous leading zero is refused. -/
theorem leading_zero_text_rejected (codec : LitCodec) (env : Env) (p : Proc) (thing : Value)
    (text ip fp pre post : List Char) (e : Int) (h : IsDecimal text ip fp e) (hz : LeadingZero text)
    (hpre : ∀ c ∈ pre, isGap c = true) (hpost : ∀ c ∈ post, isGap c = true) :
    p.run codec env (String.ofList (pre ++ text ++ post)) thing = .error (.eng .floatSyntax) := by
  rw [run_number codec env p thing text pre post (number_of_decimal h) hpre hpost]
  exact leading_zero_rejected env text hz

/-- **C38.** The rule whose text is a binary, octal or hexadecimal number evaluates to that number. -/
theorem prefixed_text_exact (codec : LitCodec) (env : Env) (p : Proc) (thing : Value) (base : Nat) (letter : Char)
    (ds pre post : List Char) (hl : (base, letter) ∈ [(2, 'b'), (8, 'o'), (16, 'x')]) (hne : ds ≠ [])
    (hd : IsDigits base ds) (hpre : ∀ c ∈ pre, isGap c = true) (hpost : ∀ c ∈ post, isGap c = true) :
    p.run codec env (String.ofList (pre ++ ('0' :: letter :: ds) ++ post)) thing =
      .ok (.dec (.ofInt (digitsNum base ds))) := by
  have hb : base ≤ 16 := by
    simp only [List.mem_cons, Prod.mk.injEq, List.not_mem_nil, or_false] at hl
    omega
  have hn : Number ('0' :: letter :: ds) := by
    refine .inl ⟨letter, base, ds, ?_, hne, ?_, rfl⟩
    · simp only [List.mem_cons, Prod.mk.injEq, List.not_mem_nil, or_false] at hl
      rcases hl with ⟨rfl, rfl⟩ | ⟨rfl, rfl⟩ | ⟨rfl, rfl⟩ <;> rfl
    · rw [List.all_eq_true]
      intro c hc
      obtain ⟨d, hd1, hd2⟩ := digit_cases hb (hd c hc)
      simp only [isDigitOf, hd2.1, hd1, decide_true]
  rw [run_number codec env p thing _ pre post hn hpre hpost]
  exact prefixed_literal_exact env base letter ds hl hne hd

/-! ## C39 -/

/-- a timedelta literal alone -/
theorem run_timedelta (codec : LitCodec) (env : Env) (p : Proc) (thing : Value) (q : Char) (hq : isQuote q = true)
    (text pre post : List Char) (ht : quotedBody q text = true)
    (hpre : ∀ c ∈ pre, isGap c = true) (hpost : ∀ c ∈ post, isGap c = true) :
    p.run codec env (String.ofList (pre ++ ('t' :: q :: (text ++ [q])) ++ post)) thing =
      timedeltaLiteral env text := by
  have hp := fun line => parse_single codec line (.timedelta text) rfl ⟨.TIMEDELTA, text⟩ rfl
    ('t' :: q :: (text ++ [q])) pre post ⟨q, hq, ht, rfl⟩ (fun _ => ⟨rfl, fun h => by cases h⟩) rfl hpre hpost
  rw [timedeltaLiteral_eq]
  simp only [Proc.run, Proc.rule, parseRule, hp, Syn.raw, construct, build, String.toList_ofList]
  rcases parseTimedelta text with e | d <;> rfl

theorem plain_quotedBody {q : Char} : ∀ {t : List Char}, (∀ c ∈ t, c ≠ q ∧ c ≠ '\n' ∧ c ≠ '\\') →
    quotedBody q t = true
  | [], _ => rfl
  | c :: r, h => by
    obtain ⟨h1, h2, h3⟩ := h c (by simp)
    have ih := plain_quotedBody (t := r) (fun x hx => h x (by simp [hx]))
    unfold quotedBody
    split
    · rfl
    · rename_i heq; exact absurd (List.cons.inj heq).1 h3
    · rename_i heq; exact absurd (List.cons.inj heq).1 h3
    · rename_i heq
      obtain ⟨rfl, rfl⟩ := List.cons.inj heq
      simp [h1, h2, ih]

/-- the characters of durations -/
def durationChar (c : Char) : Bool := isDigit c || c ∈ ['P', 'W', 'D', 'T', 'H', 'M', 'S', '.', ',']

theorem optional_chars {l : Char} (hl : durationChar l = true) {text : List Char}
    {o : Option (List Char × List Char)} (h : IsOptional l text o) : ∀ c ∈ text, durationChar c = true := by
  have dig : ∀ ds, IsDigits 10 ds → ∀ c ∈ ds, durationChar c = true := by
    intro ds h c hc; simp [durationChar, (isDigits_iff ds).1 h c hc]
  cases h with
  | absent => simp
  | present _ ip fp hc =>
    cases hc with
    | whole _ _ hi =>
      intro c hc
      simp only [List.mem_append, List.mem_singleton] at hc
      rcases hc with hc | rfl
      · exact dig ip hi c hc
      · exact hl
    | fraction _ _ sep _ hi _ hf hs =>
      intro c hc
      simp only [List.mem_append, List.mem_cons, List.mem_singleton, List.not_mem_nil, or_false] at hc
      rcases hc with (hc | rfl | hc) | rfl
      · exact dig ip hi c hc
      · rcases hs with rfl | rfl <;> rfl
      · exact dig fp hf c hc
      · exact hl

theorem duration_chars {body : List Char} {d : Duration} (h : IsDurationBody body d) :
    ∀ c ∈ 'P' :: body, durationChar c = true := by
  intro c hc
  rcases List.mem_cons.1 hc with rfl | hc
  · rfl
  cases h with
  | dates w d _ _ h1 h2 =>
    simp only [List.mem_append] at hc
    rcases hc with hc | hc
    · exact optional_chars rfl h1 c hc
    · exact optional_chars rfl h2 c hc
  | times w d h m s _ _ _ _ _ h1 h2 h3 h4 h5 =>
    simp only [List.mem_append, List.mem_cons] at hc
    rcases hc with (hc | hc) | rfl | (hc | hc) | hc
    · exact optional_chars rfl h1 c hc
    · exact optional_chars rfl h2 c hc
    · rfl
    · exact optional_chars rfl h3 c hc
    · exact optional_chars rfl h4 c hc
    · exact optional_chars rfl h5 c hc

theorem durationChar_plain {q : Char} (hq : isQuote q = true) {c : Char} (h : durationChar c = true) :
    c ≠ q ∧ c ≠ '\n' ∧ c ≠ '\\' := by
  simp only [isQuote, Bool.or_eq_true, beq_iff_eq] at hq
  refine ⟨?_, ?_, ?_⟩
  · rintro rfl; rcases hq with rfl | rfl <;> revert h <;> decide
  · rintro rfl; revert h; decide
  · rintro rfl; revert h; decide

/-- the rule `t"P…"` -/
theorem run_duration (codec : LitCodec) (env : Env) (p : Proc) (thing : Value) (q : Char)
    (hq : isQuote q = true) (body pre post : List Char) (d : Duration) (h : IsDurationBody body d)
    (hpre : ∀ c ∈ pre, isGap c = true) (hpost : ∀ c ∈ post, isGap c = true) :
    p.run codec env (String.ofList (pre ++ ('t' :: q :: ('P' :: body ++ [q])) ++ post)) thing =
      timedeltaLiteral env ('P' :: body) :=
  run_timedelta codec env p thing q hq ('P' :: body) pre post
    (plain_quotedBody (fun c hc => durationChar_plain hq (duration_chars h c hc))) hpre hpost

/-- **C39.** The rule `t"P…"` whose components have no fraction evaluates to their sum; it raises an OverflowError
when that is out of the range of a timedelta. -/
theorem duration_text (codec : LitCodec) (env : Env) (p : Proc) (thing : Value) (q : Char)
    (hq : isQuote q = true) (body pre post : List Char) (d : Duration) (hne : body ≠ []) (h : IsDurationBody body d)
    (hw : d.Whole) (hpre : ∀ c ∈ pre, isGap c = true) (hpost : ∀ c ∈ post, isGap c = true) :
    p.run codec env (String.ofList (pre ++ ('t' :: q :: ('P' :: body ++ [q])) ++ post)) thing =
      if timedeltaInRange d.total then .ok (.timedelta d.total) else .error (.py .overflowError) := by
  rw [run_duration codec env p thing q hq body pre post d h hpre hpost]
  exact duration_sum env _ d ⟨body, hne, h, .inl rfl⟩ hw

/-- **C39.** The rule `t"P…"` whose components add up to a whole number of microseconds, and to no more than 50000
days, evaluates to exactly that timedelta. -/
theorem duration_exact_text (codec : LitCodec) (env : Env) (p : Proc) (thing : Value) (q : Char)
    (hq : isQuote q = true) (body pre post : List Char) (d : Duration) (hne : body ≠ []) (h : IsDurationBody body d)
    (n : Int) (hn : d.sum = n) (hle : n ≤ 50000 * 86400 * 1000000)
    (hpre : ∀ c ∈ pre, isGap c = true) (hpost : ∀ c ∈ post, isGap c = true) :
    p.run codec env (String.ofList (pre ++ ('t' :: q :: ('P' :: body ++ [q])) ++ post)) thing =
      .ok (.timedelta n) := by
  rw [run_duration codec env p thing q hq body pre post d h hpre hpost]
  exact duration_exact env _ d ⟨body, hne, h, .inl rfl⟩ n hn hle

/-- **C39.** The rule `t"P…"` evaluates to the sum of its components up to a rounding error of
`0.501 + sum / 2 ** 53` microseconds; it raises an OverflowError when that is out of the range of a timedelta. -/
theorem duration_close_text (codec : LitCodec) (env : Env) (p : Proc) (thing : Value) (q : Char)
    (hq : isQuote q = true) (body pre post : List Char) (d : Duration) (hne : body ≠ []) (h : IsDurationBody body d)
    (hpre : ∀ c ∈ pre, isGap c = true) (hpost : ∀ c ∈ post, isGap c = true) :
    ∃ us : Int, |(us : ℚ) - d.sum| ≤ 501 / 1000 + d.sum / 2 ^ 53 ∧
      p.run codec env (String.ofList (pre ++ ('t' :: q :: ('P' :: body ++ [q])) ++ post)) thing =
        if timedeltaInRange us then .ok (.timedelta us) else .error (.py .overflowError) := by
  rw [run_duration codec env p thing q hq body pre post d h hpre hpost]
  exact duration_close env _ d ⟨body, hne, h, .inl rfl⟩

/-- **C39.** The rule `t"…"` raises a TimedeltaSyntaxError when the text in quotes is no duration. -/
theorem not_a_duration_text (codec : LitCodec) (env : Env) (p : Proc) (thing : Value) (q : Char)
    (hq : isQuote q = true) (text pre post : List Char) (ht : quotedBody q text = true)
    (h : ¬ ∃ d, IsDuration text d) (hpre : ∀ c ∈ pre, isGap c = true) (hpost : ∀ c ∈ post, isGap c = true) :
    p.run codec env (String.ofList (pre ++ ('t' :: q :: (text ++ [q])) ++ post)) thing =
      .error (.eng .timedeltaSyntax) := by
  rw [run_timedelta codec env p thing q hq text pre post ht hpre hpost]
  exact (not_a_duration env text).2 h

/-- the hypotheses are met: numbers and durations written as rules -/
example :
    Proc.new.run plainCodec sampleEnv " 12.\n" .none = .ok (.dec (.fin false 12 0)) ∧
    Proc.new.run plainCodec sampleEnv "12.50e-1" .none = .ok (.dec (.fin false 1250 (-3))) ∧
    Proc.new.run plainCodec sampleEnv "\t.5E+1 " .none = .ok (.dec (.fin false 5 0)) ∧
    Proc.new.run plainCodec sampleEnv "0xfF" .none = .ok (.dec (.ofInt 255)) ∧
    Proc.new.run plainCodec sampleEnv "00.5" .none = .error (.eng .floatSyntax) ∧
    Proc.new.run plainCodec sampleEnv "t'P1WT2M3S'" .none =
      .ok (.timedelta ((7 * 86400 + 2 * 60 + 3) * 1000000)) ∧
    Proc.new.run plainCodec sampleEnv "t\"P1D2W\"" .none = .error (.eng .timedeltaSyntax) := by
  refine ⟨?_, ?_, ?_, ?_, ?_, ?_, ?_⟩ <;> decide +kernel

/-! ## The character classes the specification of layouts speaks of -/

theorem mem_of_toNat {cs : List Char} {p : Nat → Bool} (c : Char)
    (h1 : ∀ c ∈ cs, p c.toNat = true) (h2 : ∀ n, p n = true → Char.ofNat n ∈ cs) : p c.toNat = true ↔ c ∈ cs := by
  constructor
  · intro h
    have := h2 _ h
    rwa [Char.ofNat_toNat] at this
  · exact h1 c

theorem digitVal_char {c : Char} {d : Nat} (h : digitVal c = some d) :
    d < 16 ∧ (c = lowerDigits[d]! ∨ c = upperDigits[d]!) := by
  unfold digitVal at h
  have k1 : ∀ n, 0x30 ≤ n → n ≤ 0x39 → Char.ofNat n = lowerDigits[n - 0x30]! := by
    intro n h1 h2; interval_cases n <;> rfl
  have k2 : ∀ n, 0x61 ≤ n → n ≤ 0x66 → Char.ofNat n = lowerDigits[n - 0x61 + 10]! := by
    intro n h1 h2; interval_cases n <;> rfl
  have k3 : ∀ n, 0x41 ≤ n → n ≤ 0x46 → Char.ofNat n = upperDigits[n - 0x41 + 10]! := by
    intro n h1 h2; interval_cases n <;> rfl
  simp only [Bool.and_eq_true, decide_eq_true_eq] at h
  split at h
  · rename_i hn
    cases h
    refine ⟨by omega, .inl ?_⟩
    rw [← k1 _ hn.1 hn.2, Char.ofNat_toNat]
  · split at h
    · rename_i hn
      cases h
      refine ⟨by omega, .inl ?_⟩
      rw [← k2 _ hn.1 hn.2, Char.ofNat_toNat]
    · split at h
      · rename_i hn
        cases h
        refine ⟨by omega, .inr ?_⟩
        rw [← k3 _ hn.1 hn.2, Char.ofNat_toNat]
      · cases h

theorem digitClass (base : Nat) {cs : List Char} (h1 : ∀ c ∈ cs, isDigitOf base c = true) (c : Char)
    (h2 : ∀ d, d < base → lowerDigits[d]! ∈ cs ∧ upperDigits[d]! ∈ cs) : isDigitOf base c = true ↔ c ∈ cs := by
  constructor
  · intro h
    unfold isDigitOf at h
    split at h
    · rename_i d hd
      obtain ⟨-, hc⟩ := digitVal_char hd
      have := h2 d (by simpa using h)
      rcases hc with rfl | rfl
      · exact this.1
      · exact this.2
    · cases h
  · exact h1 c

theorem underscore_toNat (c : Char) : (c == '_') = (c.toNat == 95) := by
  by_cases h : c = '_'
  · subst h; rfl
  · rw [beq_eq_false_iff_ne.2 h, eq_comm, beq_eq_false_iff_ne]
    intro hn
    apply h
    rw [← Char.ofNat_toNat c, hn]

theorem nameStart_range (c : Char) : isNameStart c = ((decide (97 ≤ c.toNat) && decide (c.toNat ≤ 122)) ||
    (decide (65 ≤ c.toNat) && decide (c.toNat ≤ 90)) || c.toNat == 95) := by
  unfold isNameStart Char.isAlpha Char.isUpper Char.isLower
  rw [underscore_toNat]
  simp only [ge_iff_le, UInt32.le_iff_toNat_le, Bool.decide_and]
  rw [Bool.or_comm (_ && _)]
  rfl

theorem nameChar_range (c : Char) : isNameChar c = ((decide (97 ≤ c.toNat) && decide (c.toNat ≤ 122)) ||
    (decide (65 ≤ c.toNat) && decide (c.toNat ≤ 90)) || c.toNat == 95 ||
    (decide (48 ≤ c.toNat) && decide (c.toNat ≤ 57))) := by
  have h := nameStart_range c
  unfold isNameStart at h
  unfold isNameChar Char.isAlphanum
  rw [← h]
  unfold Char.isDigit
  simp only [ge_iff_le, UInt32.le_iff_toNat_le]
  rw [Bool.or_assoc, Bool.or_comm (_ && _) (c == '_'), ← Bool.or_assoc]
  rfl

/-- **C40, C41.** What `isDigit`, `isDigitOf`, `prefixBase`, `isNameStart`, `isNameChar` and `isGap` in `Written`,
`Number` and `Laid` mean. -/
theorem lexical_classes (c : Char) :
    (isDigit c = true ↔ c ∈ "0123456789".toList) ∧
    (isDigitOf 2 c = true ↔ c ∈ "01".toList) ∧
    (isDigitOf 8 c = true ↔ c ∈ "01234567".toList) ∧
    (isDigitOf 16 c = true ↔ c ∈ "0123456789abcdefABCDEF".toList) ∧
    (∀ b, prefixBase c = some b ↔ (c, b) ∈ [('b', 2), ('o', 8), ('x', 16)]) ∧
    (isNameStart c = true ↔ c ∈ "abcdefghijklmnopqrstuvwxyzABCDEFGHIJKLMNOPQRSTUVWXYZ_".toList) ∧
    (isNameChar c = true ↔ c ∈ "abcdefghijklmnopqrstuvwxyzABCDEFGHIJKLMNOPQRSTUVWXYZ_0123456789".toList) ∧
    (isGap c = true ↔ c ∈ [' ', '\t', '\n']) := by
  refine ⟨?_, ?_, ?_, ?_, ?_, ?_, ?_, ?_⟩
  · refine mem_of_toNat (p := fun n => decide (0x30 ≤ n) && decide (n ≤ 0x39)) c (by decide) ?_
    intro n h
    simp only [Bool.and_eq_true, decide_eq_true_eq] at h
    obtain ⟨h1, h2⟩ := h
    interval_cases n <;> decide
  · exact digitClass 2 (by decide) c (by decide)
  · exact digitClass 8 (by decide) c (by decide)
  · exact digitClass 16 (by decide) c (by decide)
  · intro b
    unfold prefixBase
    by_cases h1 : c = 'b'
    · subst h1; simp [eq_comm]
    by_cases h2 : c = 'o'
    · subst h2; simp [eq_comm]
    by_cases h3 : c = 'x'
    · subst h3; simp [eq_comm]
    simp [h1, h2, h3]
  · rw [nameStart_range]
    refine mem_of_toNat (p := fun n => (decide (97 ≤ n) && decide (n ≤ 122)) || (decide (65 ≤ n) && decide (n ≤ 90)) ||
      n == 95) c (by decide) ?_
    intro n h
    simp only [Bool.or_eq_true, Bool.and_eq_true, decide_eq_true_eq, beq_iff_eq] at h
    rcases h with (⟨h1, h2⟩ | ⟨h1, h2⟩) | rfl
    · interval_cases n <;> decide
    · interval_cases n <;> decide
    · decide
  · rw [nameChar_range]
    refine mem_of_toNat (p := fun n => (decide (97 ≤ n) && decide (n ≤ 122)) || (decide (65 ≤ n) && decide (n ≤ 90)) ||
      n == 95 || (decide (48 ≤ n) && decide (n ≤ 57))) c (by decide) ?_
    intro n h
    simp only [Bool.or_eq_true, Bool.and_eq_true, decide_eq_true_eq, beq_iff_eq] at h
    rcases h with ((⟨h1, h2⟩ | ⟨h1, h2⟩) | rfl) | ⟨h1, h2⟩
    · interval_cases n <;> decide
    · interval_cases n <;> decide
    · decide
    · interval_cases n <;> decide
  · simp [isGap, or_assoc]

end RE
