import Verif.Props.Lex

/-!
# One match of the lexer: it finds the tokens as written, and nothing else
-/

set_option linter.unusedSimpArgs false

namespace RE

theorem scanFloat_none {c : Char} {r : List Char} (hd : isDigit c = false)
    (hp : c = '.' → headAll (fun c => !isDigit c) r = true) : scanFloat (c :: r) = none := by
  have h0 : c ≠ '0' := by rintro rfl; revert hd; decide
  have h1 : scanPrefixed (c :: r) = none := scanPrefixed_none (fun h => absurd h h0)
  have hs : (c :: r).span isDigit = ([], c :: r) :=
    span_append (m := []) rfl (by simp [headAll, hd])
  have h2 : scanDecimal (c :: r) = none := by
    simp only [scanDecimal]
    rw [hs]
    rfl
  simp only [scanFloat, h1, h2, scanPointed]
  split
  · rename_i hc
    have hs' : r.span isDigit = ([], r) :=
      span_append (m := []) rfl (hp (by simpa using hc))
    rw [hs']
    rfl
  · rfl

theorem nameStart_not_digit {c : Char} (h : isNameStart c = true) : isDigit c = false := by
  cases hd : isDigit c with
  | false => rfl
  | true =>
    exfalso
    simp only [isDigit, Bool.and_eq_true, decide_eq_true_eq] at hd
    have h1 : c.toNat = c.val.toNat := rfl
    simp only [isNameStart, Char.isAlpha, Char.isUpper, Char.isLower, Bool.or_eq_true, Bool.and_eq_true,
      decide_eq_true_eq, beq_iff_eq, ge_iff_le, UInt32.le_iff_toNat_le] at h
    rcases h with (h | h) | rfl
    · have : (65 : Nat) ≤ c.val.toNat := h.1
      omega
    · have : (97 : Nat) ≤ c.val.toNat := h.1
      omega
    · exact absurd hd (by decide)

/-! ## Hits -/

theorem lexHit_fixed {k : Kind} {rest : List Char} {b : Option Char}
    (hk : k ∉ wordKinds ∧ k ∉ [.STRING, .BYTES, .DATETIME, .TIMEDELTA, .FLOAT, .SYMBOL, .COMMENT,
      .LBRACKET, .END])
    (he : ends b (fixed k) (spelling k) rest = true)
    (ha : attached (fixed k) = true → behindNonSpace b = true) :
    lexHit b (spelling k ++ rest) = some (.token (fixed k) (spelling k) rest) := by
  have h1 : ∀ c, isDigit c = false → c ≠ '.' → ∀ r, scanFloat (c :: r) = none := fun c hc hd r =>
    scanFloat_none hc (fun h => absurd h hd)
  cases k <;> first
    | (exfalso; revert hk; decide)
    | skip
  case ATTR =>
    have hn : nameAhead rest = true := he
    have hb := ha rfl
    cases rest with
    | nil => cases hn
    | cons c r =>
      have h2 : scanFloat ('.' :: c :: r) = none :=
        scanFloat_none (by decide) (fun _ => by simp only [headAll, nameStart_not_digit hn]; rfl)
      simp [spelling, fixed, lexHit, hitOperator, hitString, Hit.ofScan, scanString, hitSymbol,
        scanSymbol, scanComment, hitNewline, h2, hitAccess, hb, hn, Hit.take, isNameStart]
  case ATTR_SAFE =>
    have hn : nameAhead rest = true := he
    have hb := ha rfl
    simp [spelling, fixed, lexHit, hitOperator, hitString, Hit.ofScan, scanString, hitSymbol,
        scanSymbol, scanComment, hitNewline, h1, hitAccess, hb, hn, Hit.take, isNameStart, isDigit]
  case BWAND =>
    have he' : (!behindNonSpace b || notAccess rest) = true := he
    cases hb : behindNonSpace b with
    | false =>
      simp [spelling, fixed, lexHit, hitOperator, hitString, Hit.ofScan, scanString, hitSymbol,
        scanSymbol, scanComment, hitNewline, h1, hitAccess, hb, Hit.take, isNameStart, isDigit, hitPunct,
        punctKind]
    | true =>
      cases rest with
      | nil =>
        simp [spelling, fixed, lexHit, hitOperator, hitString, Hit.ofScan, scanString, hitSymbol,
          scanSymbol, scanComment, hitNewline, h1, hitAccess, hb, Hit.take, isNameStart, isDigit, hitPunct,
          punctKind]
      | cons c r =>
        simp only [hb, Bool.not_true, Bool.false_or, notAccess, Bool.and_eq_true, Bool.not_eq_true',
          beq_eq_false_iff_ne, Bool.and_eq_false_iff] at he'
        have h2 : ¬(c = '.' ∧ nameAhead r = true) := by
          rintro ⟨h, h'⟩
          rcases he'.2 with h3 | h3
          · exact h3 h
          · rw [h'] at h3; cases h3
        simp [spelling, fixed, lexHit, hitOperator, hitString, Hit.ofScan, scanString, hitSymbol,
          scanSymbol, scanComment, hitNewline, h1, hitAccess, hb, Hit.take, isNameStart, isDigit, hitPunct,
          punctKind, he'.1, h2]
  all_goals
    simp only [spelling, fixed, ends, attached, List.cons_append, List.nil_append] at he ha ⊢
    cases rest with
    | nil => first | rfl | (cases b <;> simp [lexHit, hitOperator, hitString, Hit.ofScan, scanString, hitSymbol, scanSymbol,
        scanComment, hitNewline, h1, hitAccess, hitPunct, Hit.take,
        punctKind, isNameStart, isDigit])
    | cons c r =>
      simp [headAll] at he ha
      simp [lexHit, hitOperator, Hit.take, he, hitString, Hit.ofScan, scanString, hitSymbol, scanSymbol,
        scanComment, hitNewline, h1, hitAccess, ha, hitPunct,
        punctKind, isNameStart, isDigit]

/-- the first character of a name -/
theorem isName_cons {m : List Char} (h : isName m = true) :
    ∃ c r, m = c :: r ∧ (c = '$' ∨ isNameStart c = true) ∧ (c = '$' ∨ r.all isNameChar = true) := by
  cases m with
  | nil => cases h
  | cons c r =>
    by_cases hc : c = '$'
    · exact ⟨c, r, rfl, .inl hc, .inl hc⟩
    · have hdd : dropDollar (c :: r) = c :: r := by
        rw [dropDollar.eq_def]
        split
        · rename_i heq; cases heq; contradiction
        · rfl
      simp only [isName, hdd, Bool.and_eq_true] at h
      exact ⟨c, r, rfl, .inr h.1, .inr h.2⟩

theorem name_not_op {c : Char} (h : c = '$' ∨ isNameStart c = true) :
    c ≠ '*' ∧ c ≠ '/' ∧ c ≠ '<' ∧ c ≠ '>' ∧ c ≠ '=' ∧ c ≠ '!' ∧ c ≠ '"' ∧ c ≠ '\'' := by
  refine ⟨?_, ?_, ?_, ?_, ?_, ?_, ?_, ?_⟩ <;> (rintro rfl; revert h; decide)

theorem nameChar_not_quote {c : Char} (h : isNameChar c = true) : isQuote c = false := by
  cases hq : isQuote c with
  | false => rfl
  | true =>
    simp only [isQuote, Bool.or_eq_true, beq_iff_eq] at hq
    rcases hq with rfl | rfl <;> exact absurd h (by decide)

/-- what follows a word -/
def afterWord (m rest : List Char) : Bool :=
  headAll (fun c => !isNameChar c && !(m.length == 1 && m.any (fun c => c ∈ ['b', 'd', 't', 's'])
    && isQuote c)) rest

theorem hitString_name {m rest : List Char} (h : isName m = true) (hr : afterWord m rest = true) :
    hitString (m ++ rest) = none := by
  obtain ⟨c, r, rfl, hc, hrs⟩ := isName_cons h
  obtain ⟨-, -, -, -, -, -, hq1, hq2⟩ := name_not_op hc
  have hstr : c ∈ ['b', 'd', 't', 's'] → scanString (r ++ rest) = none := by
    intro hmem
    refine scanString_none ?_
    cases r with
    | nil =>
      refine headAll_mono (fun d hd => ?_) hr
      simp only [List.length_cons, List.length_nil, Nat.zero_add, beq_self_eq_true, List.any_cons, hmem,
        decide_true, Bool.true_or, Bool.and_self, Bool.true_and, Bool.and_eq_true] at hd
      exact hd.2
    | cons d r =>
      have hd : isNameChar d = true := by
        rcases hrs with rfl | hrs
        · exact absurd hmem (by decide)
        · simp only [List.all_cons, Bool.and_eq_true] at hrs
          exact hrs.1
      show (!isQuote d) = true
      rw [nameChar_not_quote hd]
      rfl
  have hs2 : scanString (c :: (r ++ rest)) = none := by
    simp [scanString, hq1, hq2]
  simp only [List.cons_append, hitString]
  split
  · rename_i hb
    rw [hstr (by simp only [beq_iff_eq] at hb; simp [hb])]; rfl
  · split
    · rename_i hb
      rw [hstr (by simp only [beq_iff_eq] at hb; simp [hb])]; rfl
    · split
      · rename_i hb
        rw [hstr (by simp only [beq_iff_eq] at hb; simp [hb])]; rfl
      · split
        · rename_i hb
          rw [hstr (by simp only [beq_iff_eq] at hb; simp [hb])]; rfl
        · rw [hs2]; rfl

theorem hitOperator_none {c : Char} (r : List Char)
    (h : c ≠ '*' ∧ c ≠ '/' ∧ c ≠ '<' ∧ c ≠ '>' ∧ c ≠ '=' ∧ c ≠ '!') : hitOperator (c :: r) = none := by
  simp [hitOperator, h]

theorem lexHit_word {m rest : List Char} {b : Option Char} (h : isName m = true)
    (hk : isKeyword m = false) (hr : afterWord m rest = true) :
    lexHit b (m ++ rest) = some (.token ⟨wordKind m, m⟩ m rest) := by
  have h1 : hitOperator (m ++ rest) = none := by
    obtain ⟨c, r, rfl, hc, -⟩ := isName_cons h
    have := name_not_op hc
    exact hitOperator_none _ ⟨this.1, this.2.1, this.2.2.1, this.2.2.2.1, this.2.2.2.2.1, this.2.2.2.2.2.1⟩
  have h2 := hitString_name h hr
  have h3 : hitSymbol (m ++ rest) = some (.token ⟨wordKind m, m⟩ m rest) := by
    simp [hitSymbol, scanSymbol_name h (headAll_mono (fun c hc => (Bool.and_eq_true _ _ ▸ hc : _ ∧ _).1) hr),
      hk]
  simp [lexHit, h1, h2, h3]

theorem quoted_cons {t : List Char} (h : Quoted t) : ∃ q r, t = q :: r ∧ isQuote q = true := by
  obtain ⟨q, body, hq, -, rfl⟩ := h
  exact ⟨q, _, rfl, hq⟩

theorem hitString_quoted {t rest : List Char} (h : Quoted t) :
    hitString (t ++ rest) = some (.token ⟨.STRING, t⟩ t rest) := by
  have hs := scanString_quoted h rest
  obtain ⟨q, r, rfl, hq⟩ := quoted_cons h
  have hne : q ≠ 'b' ∧ q ≠ 'd' ∧ q ≠ 't' ∧ q ≠ 's' := by
    refine ⟨?_, ?_, ?_, ?_⟩ <;> (rintro rfl; revert hq; decide)
  rw [List.cons_append] at hs
  simp [hitString, hne, hs, Hit.ofScan]

theorem lexHit_string {s : List Char} {x : Hit} {b : Option Char} (h : hitString s = some x)
    (ho : hitOperator s = none) : lexHit b s = some x := by
  simp [lexHit, ho, h]

theorem hitOperator_quote {t rest : List Char} (h : Quoted t) : hitOperator (t ++ rest) = none := by
  obtain ⟨q, r, rfl, hq⟩ := quoted_cons h
  refine hitOperator_none _ ?_
  refine ⟨?_, ?_, ?_, ?_, ?_, ?_⟩ <;> (rintro rfl; revert hq; decide)

theorem number_cons {t : List Char} (h : Number t) :
    ∃ c r, t = c :: r ∧ (isDigit c = true ∨ c = '.') := by
  rcases h with ⟨c, base, ds, _, _, _, rfl⟩ | ⟨ip, fp, ep, hne, hip, _, _, rfl⟩ | ⟨fp, ep, _, _, _, rfl⟩
  · exact ⟨'0', _, rfl, .inl (by decide)⟩
  · obtain ⟨z, ip', rfl⟩ := List.exists_cons_of_ne_nil hne
    simp only [List.all_cons, Bool.and_eq_true] at hip
    exact ⟨z, _, rfl, .inl hip.1⟩
  · exact ⟨'.', _, rfl, .inr rfl⟩

theorem digit_ne {c d : Char} (h : isDigit c = true ∨ c = '.') (hd : isDigit d = false) (hd' : d ≠ '.') :
    c ≠ d := by
  rintro rfl
  rcases h with h | h
  · rw [hd] at h; cases h
  · exact hd' h

theorem lexHit_number {t rest : List Char} {b : Option Char} (h : Number t)
    (hr : wholeNumber t rest) :
    lexHit b (t ++ rest) = some (.token ⟨.FLOAT, t⟩ t rest) := by
  have hs := scanFloat_number h hr
  obtain ⟨c, r, rfl, hc⟩ := number_cons h
  have hne : ∀ d, isDigit d = false → d ≠ '.' → c ≠ d := fun d h1 h2 => digit_ne hc h1 h2
  have h1 : hitOperator (c :: r ++ rest) = none := by
    refine hitOperator_none _ ?_
    refine ⟨?_, ?_, ?_, ?_, ?_, ?_⟩ <;> exact hne _ (by decide) (by decide)
  have h2 : hitString (c :: r ++ rest) = none := by
    have hq : scanString (c :: (r ++ rest)) = none := by
      simp [scanString, hne '"' (by decide) (by decide), hne '\'' (by decide) (by decide)]
    simp [hitString, hne 'b' (by decide) (by decide), hne 'd' (by decide) (by decide),
      hne 't' (by decide) (by decide), hne 's' (by decide) (by decide), Hit.ofScan, hq]
  have hns : isNameStart c = false := by
    rcases hc with hc | rfl
    · cases hn : isNameStart c with
      | false => rfl
      | true => rw [nameStart_not_digit hn] at hc; cases hc
    · decide
  have h3 : hitSymbol (c :: r ++ rest) = none := by
    simp [hitSymbol, scanSymbol, hne '$' (by decide) (by decide), hns]
  have h4 : scanComment (c :: r ++ rest) = none := by
    simp [scanComment, hne '#' (by decide) (by decide)]
  have h5 : hitNewline (c :: r ++ rest) = none := by
    simp [hitNewline, hne '\n' (by decide) (by decide)]
  simp only [lexHit, h1, h2, h3, h4, h5, hs, Hit.ofScan]
  simp

theorem lexHit_comment {c rest : List Char} {b : Option Char} (h : '\n' ∉ c)
    (hr : (rest.isEmpty || rest == ['\n']) = true) :
    lexHit b ('#' :: c ++ rest) = some (.token ⟨.COMMENT, '#' :: c⟩ ('#' :: c) rest) := by
  have hs : scanComment ('#' :: c ++ rest) = some ('#' :: c, rest) := by
    have : (c ++ rest).span (· != '\n') = (c, rest) := by
      refine span_append ?_ ?_
      · rw [List.all_eq_true]
        intro d hd
        simp only [bne_iff_ne, ne_eq]
        rintro rfl
        exact h hd
      · simp only [Bool.or_eq_true, List.isEmpty_iff, beq_iff_eq] at hr
        rcases hr with rfl | rfl <;> rfl
    simp only [List.cons_append, scanComment, beq_self_eq_true, if_true]
    rw [this]
    simp only [hr, if_true]
  have h3 : hitSymbol ('#' :: c ++ rest) = none := by
    simp [hitSymbol, scanSymbol, isNameStart]
  have h2 : hitString ('#' :: c ++ rest) = none := by
    simp [hitString, Hit.ofScan, scanString]
  simp only [lexHit, hitOperator_none (c := '#') (c ++ rest) (by decide), h2, h3, hs, Hit.ofScan,
    List.cons_append]
  rw [List.cons_append] at h2 h3 hs
  simp [hitOperator_none, h2, h3, hs]

theorem word_spelling : ∀ k ∈ wordKinds, isName (spelling k) = true ∧ isKeyword (spelling k) = false ∧
    wordKind (spelling k) = k := by decide +kernel

theorem wordKind_symbol {t : List Char} (h : t ∉ reservedWords) :
    wordKind t = .SYMBOL ∧ isKeyword t = false := by
  simp only [reservedWords, List.map_cons, List.map_nil, List.mem_cons, List.not_mem_nil, or_false,
    not_or] at h
  simp only [wordKind, isKeyword, h, if_false, decide_false, Bool.or_self, and_self]

/-- The master regular expression matches a token that is written and ends. -/
theorem lexHit_written {x : Lexeme} {m rest : List Char} {b : Option Char} (hw : Written x m)
    (he : Ends b x m rest) (ha : attached x = true → behindNonSpace b = true) :
    lexHit b (m ++ rest) = some (.token x m rest) := by
  obtain ⟨k, t⟩ := x
  obtain ⟨he, hnum⟩ := he
  by_cases hf : k ∉ wordKinds ∧ k ∉ [.STRING, .BYTES, .DATETIME, .TIMEDELTA, .FLOAT, .SYMBOL, .COMMENT,
      .LBRACKET, .END]
  · have : t = spelling k ∧ m = spelling k := by
      cases k <;> first | exact hw | exact absurd hf (by decide)
    obtain ⟨rfl, rfl⟩ := this
    exact lexHit_fixed hf he ha
  · by_cases hwd : k ∈ wordKinds
    · have : t = spelling k ∧ m = spelling k := by
        cases k <;> first | exact hw | exact absurd hwd (by decide)
      obtain ⟨rfl, rfl⟩ := this
      obtain ⟨h1, h2, h3⟩ := word_spelling k hwd
      have hr : afterWord (spelling k) rest = true := by
        cases k <;> first | exact absurd hwd (by decide) | exact he
      have := lexHit_word (b := b) h1 h2 hr
      rwa [h3] at this
    · cases k <;> first | exact absurd ⟨hwd, by decide⟩ hf | exact absurd (by decide) hwd | skip
      case STRING =>
        obtain ⟨hq, rfl | rfl⟩ := hw
        · exact lexHit_string (hitString_quoted hq) (hitOperator_quote hq)
        · refine lexHit_string ?_ (hitOperator_none _ (by decide))
          simp [hitString, Hit.ofScan, scanString_quoted hq]
      case BYTES =>
        obtain ⟨hq, rfl⟩ := hw
        refine lexHit_string ?_ (hitOperator_none _ (by decide))
        simp [hitString, Hit.ofScan, scanString_quoted hq]
      case DATETIME =>
        obtain ⟨q, hq, hb, rfl⟩ := hw
        refine lexHit_string ?_ (hitOperator_none _ (by decide))
        have := scanString_quoted ⟨q, t, hq, hb, rfl⟩ rest
        simp only [List.cons_append, List.append_assoc, List.nil_append] at this
        have hl : (t ++ [q]).dropLast = t := by simp
        simp [hitString, Hit.ofScan, this, inner2, hl]
      case TIMEDELTA =>
        obtain ⟨q, hq, hb, rfl⟩ := hw
        refine lexHit_string ?_ (hitOperator_none _ (by decide))
        have := scanString_quoted ⟨q, t, hq, hb, rfl⟩ rest
        simp only [List.cons_append, List.append_assoc, List.nil_append] at this
        have hl : (t ++ [q]).dropLast = t := by simp
        simp [hitString, Hit.ofScan, this, inner2, hl]
      case FLOAT =>
        obtain ⟨hn, rfl⟩ := hw
        exact lexHit_number hn (hnum rfl)
      case SYMBOL =>
        obtain ⟨hn, hres, rfl⟩ := hw
        have := lexHit_word (b := b) hn (wordKind_symbol hres).2 he
        rwa [(wordKind_symbol hres).1] at this
      case COMMENT =>
        obtain ⟨⟨c, hc, rfl⟩, rfl⟩ := hw
        exact lexHit_comment hc he
      case LBRACKET =>
        have h1 : ∀ c, isDigit c = false → c ≠ '.' → ∀ r, scanFloat (c :: r) = none := fun c hc hd r =>
          scanFloat_none hc (fun h => absurd h hd)
        obtain ⟨rfl | rfl, rfl⟩ := hw
        · simp [lexHit, hitOperator, hitString, Hit.ofScan, scanString, hitSymbol,
            scanSymbol, scanComment, hitNewline, h1, hitAccess, Hit.take, isNameStart, isDigit]
        · have hb := ha rfl
          simp [lexHit, hitOperator, hitString, Hit.ofScan, scanString, hitSymbol,
            scanSymbol, scanComment, hitNewline, h1, hitAccess, hb, Hit.take, isNameStart, isDigit]
      case END => exact absurd hw (by simp [Written])

/-! ## What a hit is -/

/-- `rest` starts with a quote that does not close: no token starts there -/
def openQuote (rest : List Char) : Prop := ∃ q r, rest = q :: r ∧ isQuote q = true ∧ scanString rest = none

/-- The hit is a token as written, at the front of the text, and ends there (if not, a lexical error
follows). -/
def Hit.Sound (b : Option Char) (s : List Char) : Hit → Prop
  | .token x m rest => Written x m ∧ s = m ++ rest ∧ (attached x = true → behindNonSpace b = true) ∧
      (Ends b x m rest ∨ openQuote rest)
  | .newlines m rest => m ≠ [] ∧ m.all (· == '\n') = true ∧ s = m ++ rest ∧
      headAll (fun c => !(c == '\n')) rest = true
  | .keyword => True

theorem take_sound {k : Kind} {n : Nat} {b : Option Char} {s : List Char} {x : Hit}
    (hx : Hit.take k n s = some x) (h : Written ⟨k, s.take n⟩ (s.take n))
    (ha : attached ⟨k, s.take n⟩ = true → behindNonSpace b = true)
    (he : ends b ⟨k, s.take n⟩ (s.take n) (s.drop n) = true) (hk : k ≠ .FLOAT) : x.Sound b s := by
  cases hx
  exact ⟨h, (List.take_append_drop n s).symm, ha, .inl ⟨he, fun e => absurd e hk⟩⟩

theorem head_eq {r : List Char} {c : Char} (h : r.head? = some c) : ∃ r', r = c :: r' := by
  cases r with
  | nil => cases h
  | cons d r => cases h; exact ⟨r, rfl⟩

theorem hitOperator_sound {b : Option Char} {s : List Char} {x : Hit} (h : hitOperator s = some x) : x.Sound b s := by
  cases s with
  | nil => cases h
  | cons c r =>
    simp only [hitOperator] at h
    repeat' split at h
    all_goals first
      | (cases h; done)
      | (simp only [beq_iff_eq] at *
         subst_vars
         rcases r with _ | ⟨d, _ | ⟨e, r⟩⟩ <;>
         simp only [List.head?_nil, List.head?_cons, List.tail_cons, Option.some.injEq, reduceCtorEq] at * <;>
         subst_vars <;> first | contradiction | exact take_sound h ⟨rfl, rfl⟩ (by simp [attached]) (by simp [ends, headAll, wordKinds, *]) (by decide))

theorem inner2_quoted {c q : Char} {body : List Char} : inner2 (c :: q :: (body ++ [q])) = body := by
  simp [inner2]

theorem hitString_sound {b : Option Char} {s : List Char} {x : Hit} (h : hitString s = some x) : x.Sound b s := by
  cases s with
  | nil => cases h
  | cons c r =>
    simp only [hitString] at h
    by_cases hb : c = 'b'
    · subst hb
      simp only [beq_self_eq_true, if_true, Hit.ofScan, Option.map_eq_some_iff] at h
      obtain ⟨⟨m, rest⟩, hs, rfl⟩ := h
      obtain ⟨hq, he⟩ := scanString_inv hs
      exact ⟨⟨hq, rfl⟩, by simp [he], by simp [attached], .inl ⟨rfl, by simp⟩⟩
    rw [if_neg (by simpa using hb)] at h
    by_cases hd : c = 'd'
    · subst hd
      simp only [beq_self_eq_true, if_true, Hit.ofScan, Option.map_eq_some_iff] at h
      obtain ⟨⟨m, rest⟩, hs, rfl⟩ := h
      obtain ⟨hq, he⟩ := scanString_inv hs
      obtain ⟨q, body, h1, h2, rfl⟩ := hq
      refine ⟨⟨q, h1, ?_, ?_⟩, by simp [he], by simp [attached], .inl ⟨rfl, by simp⟩⟩
      · simpa only [List.singleton_append, inner2_quoted] using h2
      · simp only [List.singleton_append, inner2_quoted]
    rw [if_neg (by simpa using hd)] at h
    by_cases ht : c = 't'
    · subst ht
      simp only [beq_self_eq_true, if_true, Hit.ofScan, Option.map_eq_some_iff] at h
      obtain ⟨⟨m, rest⟩, hs, rfl⟩ := h
      obtain ⟨hq, he⟩ := scanString_inv hs
      obtain ⟨q, body, h1, h2, rfl⟩ := hq
      refine ⟨⟨q, h1, ?_, ?_⟩, by simp [he], by simp [attached], .inl ⟨rfl, by simp⟩⟩
      · simpa only [List.singleton_append, inner2_quoted] using h2
      · simp only [List.singleton_append, inner2_quoted]
    rw [if_neg (by simpa using ht)] at h
    by_cases hc : c = 's'
    · subst hc
      simp only [beq_self_eq_true, if_true, Hit.ofScan, Option.map_eq_some_iff] at h
      obtain ⟨⟨m, rest⟩, hs, rfl⟩ := h
      obtain ⟨hq, he⟩ := scanString_inv hs
      exact ⟨⟨hq, .inr rfl⟩, by simp [he], by simp [attached], .inl ⟨rfl, by simp⟩⟩
    rw [if_neg (by simpa using hc)] at h
    simp only [Hit.ofScan, Option.map_eq_some_iff] at h
    obtain ⟨⟨m, rest⟩, hs, rfl⟩ := h
    obtain ⟨hq, he⟩ := scanString_inv hs
    exact ⟨⟨by simpa using hq, .inl rfl⟩, by simpa using he, by simp [attached], .inl ⟨rfl, by simp⟩⟩

theorem wordKind_cases (t : List Char) :
    (wordKind t = .SYMBOL ∧ t ∉ reservedWords) ∨ isKeyword t = true ∨
    (wordKind t ∈ wordKinds ∧ t = spelling (wordKind t)) := by
  by_cases hr : t ∈ reservedWords
  · refine .inr ?_
    simp only [reservedWords, List.map_cons, List.map_nil, List.mem_cons, List.not_mem_nil,
      or_false] at hr
    rcases hr with rfl | rfl | rfl | rfl | rfl | rfl | rfl | rfl | rfl | rfl | rfl | rfl | rfl | rfl
    all_goals first
      | exact .inr (by decide +kernel)
      | exact .inl (by decide +kernel)
  · exact .inl ⟨(wordKind_symbol hr).1, hr⟩

/-- What follows a word the symbol rule finds. -/
theorem after_word {b : Option Char} {k : Kind} {t m rest : List Char} (hs : hitString (m ++ rest) = none)
    (h3 : headAll (fun c => !isNameChar c) rest = true) (hk : k = .SYMBOL ∨ k ∈ wordKinds) :
    Ends b ⟨k, t⟩ m rest ∨ openQuote rest := by
  by_cases hr : afterWord m rest = true
  · refine .inl ⟨?_, ?_⟩
    · rcases hk with rfl | hk
      · exact hr
      · cases k <;> first | exact absurd hk (by decide) | exact hr
    · rintro rfl
      exact absurd hk (by decide)
  · cases rest with
    | nil => exact absurd rfl hr
    | cons q r =>
      refine .inr ⟨q, r, rfl, ?_⟩
      simp only [headAll] at h3
      simp only [afterWord, headAll, h3, Bool.true_and, Bool.not_eq_true', Bool.not_eq_false,
        Bool.and_eq_true, beq_iff_eq, List.any_eq_true, decide_eq_true_eq] at hr
      obtain ⟨⟨hl, c, hc, hcm⟩, hq⟩ := hr
      refine ⟨hq, ?_⟩
      obtain ⟨c', rfl⟩ := List.length_eq_one_iff.1 hl
      simp only [List.mem_singleton] at hc
      subst hc
      simp only [List.mem_cons, List.not_mem_nil, or_false] at hcm
      rcases hcm with rfl | rfl | rfl | rfl <;>
        simpa [hitString, Hit.ofScan] using hs

theorem hitSymbol_sound {b : Option Char} {s : List Char} {x : Hit} (h : hitSymbol s = some x)
    (hq : hitString s = none) : x.Sound b s := by
  simp only [hitSymbol] at h
  split at h
  · rename_i m rest hs
    obtain ⟨h1, h2, h3⟩ := scanSymbol_inv hs
    subst h2
    split at h
    · cases h; trivial
    · rename_i hk
      cases h
      rcases wordKind_cases m with ⟨hw, hr⟩ | hw | ⟨hw, hsp⟩
      · rw [hw]
        exact ⟨⟨h1, hr, rfl⟩, rfl, by simp [attached], after_word hq h3 (.inl rfl)⟩
      · exact absurd hw hk
      · refine ⟨?_, rfl, ?_, after_word hq h3 (.inr hw)⟩
        · clear hq hs h1 hk
          generalize wordKind m = k at hw hsp
          subst hsp
          cases k <;> first | exact absurd hw (by decide) | exact ⟨rfl, rfl⟩
        · generalize wordKind m = k at hw
          cases k <;> first | exact absurd hw (by decide) | simp [attached]
  · cases h

theorem hitComment_sound {b : Option Char} {s : List Char} {x : Hit}
    (h : Hit.ofScan .COMMENT id [] (scanComment s) = some x) : x.Sound b s := by
  simp only [Hit.ofScan, Option.map_eq_some_iff] at h
  obtain ⟨⟨m, rest⟩, hs, rfl⟩ := h
  cases s with
  | nil => cases hs
  | cons c r =>
    simp only [scanComment] at hs
    split at hs
    · rename_i hc
      simp only [beq_iff_eq] at hc
      subst hc
      obtain ⟨a, b, hsp⟩ : ∃ a b, r.span (· != '\n') = (a, b) := ⟨_, _, rfl⟩
      rw [hsp] at hs
      obtain ⟨h1, h2, h3⟩ := span_inv hsp
      simp only at hs
      split at hs
      · cases hs
        refine ⟨⟨⟨a, ?_, rfl⟩, rfl⟩, by simp [h1], by simp [attached], .inl ⟨by assumption, by simp⟩⟩
        intro hmem
        have := List.all_eq_true.1 h2 _ hmem
        simp at this
      · cases hs
    · cases hs

theorem hitNewline_sound {b : Option Char} {s : List Char} {x : Hit} (h : hitNewline s = some x) : x.Sound b s := by
  obtain ⟨a, b, hsp⟩ : ∃ a b, s.span (· == '\n') = (a, b) := ⟨_, _, rfl⟩
  simp only [hitNewline] at h
  rw [hsp] at h
  obtain ⟨h1, h2, h3⟩ := span_inv hsp
  simp only at h
  split at h
  · cases h
  · rename_i hne
    cases h
    exact ⟨by simpa using hne, h2, h1, h3⟩

theorem hitFloat_sound {b : Option Char} {s : List Char} {x : Hit}
    (h : Hit.ofScan .FLOAT id [] (scanFloat s) = some x) : x.Sound b s := by
  simp only [Hit.ofScan, Option.map_eq_some_iff] at h
  obtain ⟨⟨m, rest⟩, hs, rfl⟩ := h
  obtain ⟨h1, h2⟩ := scanFloat_inv hs
  exact ⟨⟨h1, rfl⟩, by simpa using h2, by simp [attached],
    .inl ⟨rfl, fun _ => scanFloat_whole hs⟩⟩

theorem hitAccess_sound {b : Option Char} {s : List Char} {x : Hit} (h : hitAccess b s = some x) :
    x.Sound b s := by
  cases s with
  | nil => cases h
  | cons c r =>
    simp only [hitAccess, Bool.and_eq_true, decide_eq_true_eq] at h
    repeat' split at h
    all_goals first
      | (cases h; done)
      | skip
    · rename_i h1 h2 h3
      simp only [beq_iff_eq] at h1
      subst h1
      obtain ⟨r, rfl⟩ := head_eq h3.1
      exact take_sound h ⟨rfl, rfl⟩ (fun _ => h2) h3.2 (by decide)
    · rename_i h1 h2 h3 h4
      simp only [beq_iff_eq] at h1
      subst h1
      obtain ⟨r, rfl⟩ := head_eq h4
      exact take_sound h ⟨.inr rfl, rfl⟩ (fun _ => h2) rfl (by decide)
    · rename_i h1 h2 h3
      simp only [beq_iff_eq] at h2
      subst h2
      exact take_sound h ⟨rfl, rfl⟩ (fun _ => h3.1) h3.2 (by decide)
    · rename_i h1 h2 h3
      simp only [beq_iff_eq] at h3
      subst h3
      exact take_sound h ⟨.inl rfl, rfl⟩ (by simp [attached]) rfl (by decide)

theorem punct_spelling {c : Char} {k : Kind} (h : punctKind c = some k) :
    spelling k = [c] ∧ k ∉ wordKinds ∧ k ∉ [.STRING, .BYTES, .DATETIME, .TIMEDELTA, .FLOAT, .SYMBOL,
      .COMMENT, .LBRACKET, .END] := by
  unfold punctKind at h
  iterate 14
    refine (ite_eq_iff.1 h).elim (fun hh => ?_) (fun hh => ?_)
    · obtain ⟨hc, hk⟩ := hh
      simp only [beq_iff_eq] at hc
      subst hc
      cases hk
      decide
    clear h
    obtain ⟨_, h⟩ := hh
  cases h

theorem punct_kinds {c : Char} {k : Kind} (h : punctKind c = some k) :
    k ∈ [Kind.BWAND, .BWOR, .BWXOR, .LPAREN, .RPAREN, .QMARK, .COLON, .ADD, .SUB, .MOD, .COMMA,
      .RBRACKET, .LBRACE, .RBRACE] := by
  unfold punctKind at h
  iterate 14
    refine (ite_eq_iff.1 h).elim (fun hh => ?_) (fun hh => ?_)
    · cases hh.2
      decide
    clear h
    obtain ⟨_, h⟩ := hh
  cases h

theorem hitPunct_sound {b : Option Char} {s : List Char} {x : Hit} (h : hitPunct s = some x)
    (hacc : hitAccess b s = none) : x.Sound b s := by
  cases s with
  | nil => cases h
  | cons c r =>
    simp only [hitPunct] at h
    repeat' split at h
    all_goals first
      | (cases h; done)
      | skip
    · rename_i h1 h2
      simp only [beq_iff_eq] at h1
      subst h1
      obtain ⟨r, rfl⟩ := head_eq h2
      exact take_sound h ⟨rfl, rfl⟩ (by simp [attached]) rfl (by decide)
    · rename_i h0 h1 h2
      simp only [beq_iff_eq] at h1
      subst h1
      obtain ⟨r, rfl⟩ := head_eq h2
      exact take_sound h ⟨rfl, rfl⟩ (by simp [attached]) rfl (by decide)
    · rename_i k hk
      obtain ⟨h1, h2, h3⟩ := punct_spelling hk
      have ht : (c :: r).take 1 = spelling k := by rw [h1]; rfl
      refine take_sound h ?_ ?_ ?_ ?_
      · rw [ht]
        cases k <;> first | exact ⟨rfl, rfl⟩ | exact absurd h2 (by decide) | exact absurd h3 (by decide)
      · rw [ht]
        intro ha
        have hk' : k = .ATTR ∨ k = .ATTR_SAFE := by
          simp only [attached, Bool.or_eq_true, decide_eq_true_eq, Bool.and_eq_true] at ha
          rcases ha with ha | ha
          · exact ha
          · rw [ha.1] at h3; exact absurd h3 (by decide)
        rcases hk' with rfl | rfl
        · cases h1; exact absurd hk (by decide)
        · cases h1
      · have hkind : k ∈ [.BWAND, .BWOR, .BWXOR, .LPAREN, .RPAREN, .QMARK, .COLON, .ADD, .SUB, .MOD, .COMMA,
            .RBRACKET, .LBRACE, .RBRACE] := punct_kinds hk
        by_cases hb : k = .BWAND
        · subst hb
          cases h1
          show (!behindNonSpace b || notAccess r) = true
          cases hbs : behindNonSpace b with
          | false => rfl
          | true =>
            cases r with
            | nil => rfl
            | cons d r =>
              simp only [hitAccess, beq_self_eq_true, if_true, hbs, List.head?_cons, Option.some.injEq,
                List.tail_cons, Hit.take] at hacc
              by_cases h4 : d = '.' ∧ nameAhead r = true
              · simp [h4.1, h4.2] at hacc
              · by_cases h5 : d = '['
                · simp [h5] at hacc
                · rcases hna : nameAhead r with _ | _
                  · simp [notAccess, h5, hna]
                  · simp [hna] at h4
                    simp [notAccess, h5, h4]
        · simp only [List.mem_cons, hb, false_or, List.not_mem_nil, or_false] at hkind
          rcases hkind with rfl | rfl | rfl | rfl | rfl | rfl | rfl | rfl | rfl | rfl | rfl | rfl | rfl <;> rfl
      · rintro rfl
        exact absurd h3 (by decide)

/-- Every hit is a token as written, at the front of the text. -/
theorem lexHit_sound {b : Option Char} {s : List Char} {x : Hit} (h : lexHit b s = some x) :
    x.Sound b s := by
  have orElse_inv : ∀ {α : Type} {o : Option α} {f : Unit → Option α} {a : α},
      o.orElse f = some a → o = some a ∨ (o = none ∧ f () = some a) := by
    intro α o f a h
    cases o with
    | none => exact .inr ⟨rfl, h⟩
    | some v => exact .inl h
  unfold lexHit at h
  rcases orElse_inv h with h | ⟨_, h⟩
  · exact hitOperator_sound h
  rcases orElse_inv h with h | ⟨hq, h⟩
  · exact hitString_sound h
  rcases orElse_inv h with h | ⟨_, h⟩
  · exact hitSymbol_sound h hq
  rcases orElse_inv h with h | ⟨_, h⟩
  · exact hitComment_sound h
  rcases orElse_inv h with h | ⟨_, h⟩
  · exact hitNewline_sound h
  rcases orElse_inv h with h | ⟨_, h⟩
  · exact hitFloat_sound h
  rcases orElse_inv h with h | ⟨hacc, h⟩
  · exact hitAccess_sound h
  · exact hitPunct_sound h hacc

/-- No token starts at a quote that does not close. -/
theorem lexHit_openQuote {b : Option Char} {s : List Char} (h : openQuote s) : lexHit b s = none := by
  obtain ⟨q, r, rfl, hq, hs⟩ := h
  have h1 : ∀ c, isDigit c = false → c ≠ '.' → ∀ r, scanFloat (c :: r) = none := fun c hc hd r =>
    scanFloat_none hc (fun h => absurd h hd)
  simp only [isQuote, Bool.or_eq_true, beq_iff_eq] at hq
  rcases hq with rfl | rfl <;>
    simp [lexHit, hitOperator, hitString, Hit.ofScan, hs, hitSymbol, scanSymbol, isNameStart, scanComment,
      hitNewline, h1, isDigit, hitAccess, hitPunct, punctKind]

end RE
