import Verif.Props.ParseText
import Verif.Props.Strings

/-!
# Rules compose as texts (C56)

A text that is a rule keeps its meaning as a part of a larger one: put in parentheses it can be the operand of any
operator.
-/

set_option linter.unusedSimpArgs false

namespace RE

/-- The text is accepted, has no comment, and means the tree. -/
def Means (codec : LitCodec) (text : List Char) (raw : Raw) : Prop :=
  ∀ line, (parseText codec line (String.ofList text)).out = .ok (raw, none)

/-- the text is laid out from the tokens of the concrete tree -/
def Shows (codec : LitCodec) (text : List Char) (s : Syn) : Prop :=
  s.ok codec = true ∧ ∃ ps, Laid none ps ∧ textOf ps = text ∧ toksOf ps = s.toks

theorem means_iff (codec : LitCodec) (text : List Char) (raw : Raw) :
    Means codec text raw ↔ ∃ s, Shows codec text s ∧ raw = s.raw codec := by
  constructor
  · intro h
    obtain ⟨s, ps, hok, hr, hl, ht, hc⟩ := parse_text_only codec 1 (String.ofList text) raw none (h 1)
    rcases hc with ⟨-, hc⟩ | ⟨c, hc, -⟩
    · exact ⟨s, ⟨hok, ps, hl, by rw [← ht, String.toList_ofList], hc⟩, hr⟩
    · cases hc
  · rintro ⟨s, ⟨hok, ps, hl, rfl, hc⟩, rfl⟩ line
    rw [parseText_eq, String.toList_ofList]
    obtain ⟨h1, h2⟩ := lex_laid line ps hl
    rw [h2, parse_as_written codec s hok _ (h1.trans hc)]

/-! ### The first token of an expression -/

theorem head_ok : ∀ s : Syn, ∃ x r, s.toks = x :: r ∧ x.kind ≠ .BWAND
  | .bool true | .bool false | .num _ | .nan | .inf | .null | .datetime _ | .timedelta _ | .sym _ | .str _
  | .bytes _ => ⟨_, _, rfl, by simp [fixed]⟩
  | .paren _ | .set _ _ | .mapping _ _ | .not _ | .neg _ => ⟨_, _, rfl, by simp [fixed]⟩
  | .array _ _ _ | .comp _ _ _ _ | .compIf _ _ _ _ _ => ⟨_, _, rfl, by simp [bracket]⟩
  | .attr o _ _ | .item o _ _ | .slice o _ | .sliceTo o _ _ | .sliceFrom o _ _ | .sliceBoth o _ _ _ | .call o _
  | .bin _ o _ | .isIn o _ | .notIn o _ | .tern o _ _ => by
    obtain ⟨x, r, h1, h2⟩ := head_ok o
    simp only [Syn.toks, h1, List.cons_append]
    exact ⟨x, _, rfl, h2⟩

theorem laid_any {ps : List Piece} (h : Laid none ps) {x : Lexeme} {r : List Lexeme} (ht : toksOf ps = x :: r)
    (hx : x.kind ≠ .BWAND) (b : Option Char) : Laid b ps := by
  rcases ps with _ | ⟨c | ⟨y, m⟩, ps⟩
  · trivial
  · exact h
  · obtain ⟨h1, h2, h3, h4⟩ := h
    have hy : y = x := by simp only [toksOf, List.filterMap_cons] at ht; exact (List.cons.inj ht).1
    subst hy
    refine ⟨h1, ⟨?_, h2.2⟩, fun ha => absurd (h3 ha) (by simp [behindNonSpace]), h4⟩
    have := h2.1
    obtain ⟨k, t⟩ := y
    cases k <;> first | exact absurd rfl hx | exact this

/-- nothing of an expression is a comment -/
theorem shows_noComment {codec : LitCodec} {s : Syn} (hs : s.ok codec = true) {ps : List Piece}
    (h : toksOf ps = s.toks) : noComment ps := by
  intro x hx
  have := toks_notComment codec s hs
  rw [h] at hx
  rw [List.all_eq_true] at this
  simpa [notComment] using this x hx

theorem laid_notDot {b : Option Char} : ∀ {ps : List Piece}, Laid b ps → notDot ps := by
  intro ps
  induction ps generalizing b with
  | nil => intro _ x m h; cases h
  | cons p ps ih =>
    intro h x m hx
    cases ps with
    | cons q ps =>
      rw [List.getLast?_cons_cons] at hx
      cases p with
      | gap c => exact ih h.2 x m hx
      | tok y my => exact ih h.2.2.2 x m hx
    | nil =>
      cases hx
      have h1 := h.2.1.1
      obtain ⟨k, t⟩ := x
      constructor <;> rintro rfl <;> exact absurd h1 (by simp [ends, nameAhead])

/-- Pieces that can follow an expression: they start with a character that ends every token. -/
def Closing (rest : List Piece) : Prop :=
  (∃ c r, textOf rest = c :: r ∧ isStop c = true) ∧ ∀ b, Laid b rest

/-- An expression can stand before such pieces, and after anything. -/
theorem Shows.before {codec : LitCodec} {t : List Char} {s : Syn} (h : Shows codec t s) :
    ∃ ps, textOf ps = t ∧ toksOf ps = s.toks ∧ (∀ b, Laid b ps) ∧
      ∀ rest, Closing rest → ∀ b, Laid b (ps ++ rest) := by
  obtain ⟨hok, ps, hl, ht, hc⟩ := h
  obtain ⟨x, r, h1, h2⟩ := head_ok s
  have hany := laid_any hl (hc.trans h1) h2
  refine ⟨ps, ht, hc, hany, fun rest ⟨⟨c, r', hr, hs⟩, hf⟩ b => ?_⟩
  exact Laid.tail (qs := []) hs hr ps b (by simpa using hany b) (shows_noComment hok hc) (laid_notDot hl)
    (fun b' _ => hf b')

theorem closing_gap {c : Char} {rest : List Piece} (hc : isGap c = true) (h : Laid (some c) rest) :
    Closing (.gap c :: rest) :=
  ⟨⟨c, textOf rest, by simp, gap_stop hc⟩, fun _ => ⟨hc, h⟩⟩

/-- a token as it is always written -/
abbrev word (k : Kind) : Piece := .tok (fixed k) (spelling k)

/-- the closing bracket, parenthesis or brace, comma, colon and question mark need nothing behind them -/
theorem closing_mark {k : Kind} (hk : k ∈ [Kind.RPAREN, .RBRACKET, .RBRACE, .COMMA, .COLON, .QMARK]) {rest : List Piece}
    (h : Laid (spelling k).getLast? rest) : Closing (word k :: rest) := by
  simp only [List.mem_cons, List.not_mem_nil, or_false] at hk
  rcases hk with rfl | rfl | rfl | rfl | rfl | rfl <;>
    exact ⟨⟨_, textOf rest, rfl, by decide⟩,
      fun b => ⟨⟨rfl, rfl⟩, ⟨by simp [ends, fixed, wordKinds], by simp [fixed]⟩, by simp [attached, fixed], h⟩⟩

theorem laid_open {k : Kind} (hk : k = .LPAREN ∨ k = .LBRACE) {rest : List Piece}
    (h : ∀ b, Laid b rest) (b : Option Char) : Laid b (word k :: rest) := by
  rcases hk with rfl | rfl <;>
    exact ⟨⟨rfl, rfl⟩, ⟨by simp [ends, fixed, wordKinds], by simp [fixed]⟩, by simp [attached, fixed], h _⟩

theorem laid_bracket {rest : List Piece} (h : ∀ b, Laid b rest) (b : Option Char) :
    Laid b (.tok (bracket false) ['['] :: rest) :=
  ⟨⟨.inl rfl, rfl⟩, ⟨by simp [ends, bracket, wordKinds], by simp [bracket]⟩, by simp [attached, bracket], h _⟩

/-- operators and words before a blank -/
theorem laid_word {k : Kind} (hk : k ∈ .IN :: .NOT :: .FOR :: .IF :: binaryKinds) {rest : List Piece} {c : Char}
    (hc : isGap c = true) (h : Laid (some c) rest) (b : Option Char) : Laid b (word k :: .gap c :: rest) := by
  have hw : Written (fixed k) (spelling k) := by
    revert hk; cases k <;> first | (intro _; exact ⟨rfl, rfl⟩) | (intro h; exact absurd h (by decide))
  refine ⟨hw, ⟨?_, ?_⟩, ?_, hc, h⟩
  · rcases gap_cases hc with rfl | rfl | rfl <;> revert hk <;> cases k <;>
      first
      | (intro h; exact absurd h (by decide))
      | (intro _; simp [ends, fixed, headAll, wordKinds, notAccess, isNameChar]; done)
      | (intro _; simp [ends, fixed, headAll, wordKinds, notAccess, isNameChar]; decide)
  · intro hf; subst hf; exact absurd hk (by decide)
  · intro ha; exfalso; revert ha hk; cases k <;> decide

/-! ### Parts in parentheses -/

/-- the text in parentheses -/
def par (t : List Char) : List Char := '(' :: (t ++ [')'])

theorem Shows.group {codec : LitCodec} {t : List Char} {s : Syn} (h : Shows codec t s) :
    ∃ ps, textOf ps = par t ∧ toksOf ps = (Syn.paren s).toks ∧
      ∀ rest, Laid (some ')') rest → ∀ b, Laid b (ps ++ rest) := by
  obtain ⟨ps, h1, h2, -, h3⟩ := h.before
  refine ⟨word .LPAREN :: (ps ++ [word .RPAREN]), ?_, ?_, fun rest hr b => ?_⟩
  · subst h1
    simp [textOf, Piece.text, spelling, par]
  · simp only [Syn.toks, ← h2]
    simp [toksOf]
  · have := h3 (word .RPAREN :: rest) (closing_mark (by simp) hr)
    simpa using laid_open (.inl rfl) this b

theorem shows_of {codec : LitCodec} {s : Syn} (hs : s.ok codec = true) {ps : List Piece} (hl : Laid none ps)
    (ht : toksOf ps = s.toks) : Shows codec (textOf ps) s := ⟨hs, ps, hl, rfl, ht⟩

theorem toksOf_app (ps qs : List Piece) : toksOf (ps ++ qs) = toksOf ps ++ toksOf qs := by simp [toksOf]


theorem gapSpace : isGap ' ' = true := rfl

theorem laid_space {ps : List Piece} (h : Laid (some ' ') ps) (b : Option Char) : Laid b (.gap ' ' :: ps) := ⟨rfl, h⟩

/-- **C56.** `(a)` means what `a` means. -/
theorem means_par {codec : LitCodec} {a : List Char} {ra : Raw} (ha : Means codec a ra) : Means codec (par a) ra := by
  obtain ⟨s, hs, rfl⟩ := (means_iff ..).1 ha
  obtain ⟨ps, h1, h2, h3⟩ := hs.group
  exact (means_iff ..).2 ⟨.paren s, h1 ▸ shows_of (s := .paren s) hs.1 (by simpa using h3 [] trivial none) h2, rfl⟩

/-- **C56.** Any two rules can be the operands of a binary operator. -/
theorem means_bin {codec : LitCodec} {a b : List Char} {ra rb : Raw} (ha : Means codec a ra) (hb : Means codec b rb)
    (k : Kind) (hk : k ∈ binaryKinds) :
    Means codec (par a ++ ' ' :: (spelling k ++ ' ' :: par b)) (.bin (meaning k) ra rb) := by
  obtain ⟨s, hs, rfl⟩ := (means_iff ..).1 ha
  obtain ⟨u, hu, rfl⟩ := (means_iff ..).1 hb
  obtain ⟨ps, h1, h2, h3⟩ := hs.group
  obtain ⟨qs, g1, g2, g3⟩ := hu.group
  refine (means_iff ..).2 ⟨.bin k (.paren s) (.paren u), ?_, rfl⟩
  have hl : Laid none (ps ++ .gap ' ' :: word k :: .gap ' ' :: qs) :=
    h3 _ (laid_space (laid_word (by simp [hk]) gapSpace (by simpa using g3 [] trivial _) _) _) none
  have := shows_of (codec := codec) (s := .bin k (.paren s) (.paren u)) (ps := _) ?_ hl ?_
  · simpa [textOf_append, textOf_tok, textOf_gap, h1, g1] using this
  · simp [Syn.ok, hk, hs.1, hu.1, Syn.rightEdge, Syn.leftEdge]
  · simp [toksOf_app, toksOf_gap, toksOf_tok, h2, g2, Syn.toks]

theorem means_in {codec : LitCodec} {a b : List Char} {ra rb : Raw} (ha : Means codec a ra) (hb : Means codec b rb) :
    Means codec (par a ++ " in ".toList ++ par b) (.contains rb ra) := by
  obtain ⟨s, hs, rfl⟩ := (means_iff ..).1 ha
  obtain ⟨u, hu, rfl⟩ := (means_iff ..).1 hb
  obtain ⟨ps, h1, h2, h3⟩ := hs.group
  obtain ⟨qs, g1, g2, g3⟩ := hu.group
  refine (means_iff ..).2 ⟨.isIn (.paren s) (.paren u), ?_, rfl⟩
  have hl : Laid none (ps ++ .gap ' ' :: word .IN :: .gap ' ' :: qs) :=
    h3 _ (laid_space (laid_word (by simp) gapSpace (by simpa using g3 [] trivial _) _) _) none
  have := shows_of (codec := codec) (s := .isIn (.paren s) (.paren u)) (ps := _) ?_ hl ?_
  · simpa [textOf_append, textOf_tok, textOf_gap, h1, g1, spelling] using this
  · simp [Syn.ok, hs.1, hu.1, Syn.rightEdge, Syn.leftEdge]
  · simp [toksOf_app, toksOf_gap, toksOf_tok, h2, g2, Syn.toks]

theorem means_not_in {codec : LitCodec} {a b : List Char} {ra rb : Raw} (ha : Means codec a ra)
    (hb : Means codec b rb) : Means codec (par a ++ " not in ".toList ++ par b) (.not (.contains rb ra)) := by
  obtain ⟨s, hs, rfl⟩ := (means_iff ..).1 ha
  obtain ⟨u, hu, rfl⟩ := (means_iff ..).1 hb
  obtain ⟨ps, h1, h2, h3⟩ := hs.group
  obtain ⟨qs, g1, g2, g3⟩ := hu.group
  refine (means_iff ..).2 ⟨.notIn (.paren s) (.paren u), ?_, rfl⟩
  have hl : Laid none (ps ++ .gap ' ' :: word .NOT :: .gap ' ' :: word .IN :: .gap ' ' :: qs) :=
    h3 _ (laid_space (laid_word (by simp) gapSpace (laid_word (by simp) gapSpace (by simpa using g3 [] trivial _) _) _)
      _) none
  have := shows_of (codec := codec) (s := .notIn (.paren s) (.paren u)) (ps := _) ?_ hl ?_
  · simpa [textOf_append, textOf_tok, textOf_gap, h1, g1, spelling] using this
  · simp [Syn.ok, hs.1, hu.1, Syn.rightEdge, Syn.leftEdge]
  · simp [toksOf_app, toksOf_gap, toksOf_tok, h2, g2, Syn.toks]

theorem means_not {codec : LitCodec} {a : List Char} {ra : Raw} (ha : Means codec a ra) :
    Means codec ("not ".toList ++ par a) (.not ra) := by
  obtain ⟨s, hs, rfl⟩ := (means_iff ..).1 ha
  obtain ⟨ps, h1, h2, h3⟩ := hs.group
  refine (means_iff ..).2 ⟨.not (.paren s), ?_, rfl⟩
  have hl : Laid none (word .NOT :: .gap ' ' :: ps) := laid_word (by simp) gapSpace (by simpa using h3 [] trivial _) _
  have := shows_of (codec := codec) (s := .not (.paren s)) (ps := _) ?_ hl ?_
  · simpa [textOf_append, textOf_tok, textOf_gap, h1, spelling] using this
  · simp [Syn.ok, hs.1, Syn.leftEdge]
  · simp [toksOf_app, toksOf_gap, toksOf_tok, h2, Syn.toks]

theorem means_neg {codec : LitCodec} {a : List Char} {ra : Raw} (ha : Means codec a ra) :
    Means codec ('-' :: par a) (.neg ra) := by
  obtain ⟨s, hs, rfl⟩ := (means_iff ..).1 ha
  obtain ⟨ps, h1, h2, h3⟩ := hs.group
  refine (means_iff ..).2 ⟨.neg (.paren s), ?_, rfl⟩
  have hl : Laid none (word .SUB :: ps) :=
    ⟨⟨rfl, rfl⟩, ⟨by simp [ends, fixed, wordKinds], by simp [fixed]⟩, by simp [attached, fixed], by simpa using h3 [] trivial _⟩
  have := shows_of (codec := codec) (s := .neg (.paren s)) (ps := _) ?_ hl ?_
  · simpa [textOf_append, textOf_tok, textOf_gap, h1, spelling] using this
  · simp [Syn.ok, hs.1, Syn.leftEdge]
  · simp [toksOf_app, toksOf_gap, toksOf_tok, h2, Syn.toks]

theorem means_tern {codec : LitCodec} {a b c : List Char} {ra rb rc : Raw} (ha : Means codec a ra)
    (hb : Means codec b rb) (hc : Means codec c rc) :
    Means codec (par a ++ " ? ".toList ++ par b ++ " : ".toList ++ par c) (.tern ra rb rc) := by
  obtain ⟨s, hs, rfl⟩ := (means_iff ..).1 ha
  obtain ⟨u, hu, rfl⟩ := (means_iff ..).1 hb
  obtain ⟨w, hw, rfl⟩ := (means_iff ..).1 hc
  obtain ⟨ps, h1, h2, h3⟩ := hs.group
  obtain ⟨qs, g1, g2, g3⟩ := hu.group
  obtain ⟨os, f1, f2, f3⟩ := hw.group
  refine (means_iff ..).2 ⟨.tern (.paren s) (.paren u) (.paren w), ?_, rfl⟩
  have hl : Laid none (ps ++ .gap ' ' :: word .QMARK :: .gap ' ' :: (qs ++ .gap ' ' :: word .COLON :: .gap ' ' :: os)) :=
    h3 _ (laid_space ((closing_mark (by simp) (laid_space (g3 _ (laid_space ((closing_mark (by simp)
      (laid_space (by simpa using f3 [] trivial _) _)).2 _) _) _) _)).2 _) _) none
  have := shows_of (codec := codec) (s := .tern (.paren s) (.paren u) (.paren w)) (ps := _) ?_ hl ?_
  · simpa [textOf_append, textOf_tok, textOf_gap, h1, g1, f1, spelling] using this
  · simp [Syn.ok, hs.1, hu.1, hw.1, Syn.rightEdge, Syn.leftEdge]
  · simp [toksOf_app, toksOf_gap, toksOf_tok, h2, g2, f2, Syn.toks]

/-! ### Attributes, items, members, arguments and comprehensions -/

/-- a name that is not a reserved word -/
def IsWord (n : List Char) : Prop := isName n = true ∧ n ∉ reservedWords

theorem laid_name {n : List Char} (hn : IsWord n) {rest : List Piece}
    (hr : rest = [] ∨ ∃ r, textOf rest = ' ' :: r) (h : ∀ b, Laid b rest) (b : Option Char) :
    Laid b (.tok ⟨.SYMBOL, n⟩ n :: rest) := by
  refine ⟨⟨hn.1, hn.2, rfl⟩, ⟨?_, by simp⟩, by simp [attached], h _⟩
  rcases hr with rfl | ⟨r, hr⟩
  · simp [ends, headAll, textOf]
  · simp only [ends, hr, headAll]
    simp [isNameChar, isQuote]

theorem means_attr {codec : LitCodec} {a n : List Char} {ra : Raw} (ha : Means codec a ra) (hn : IsWord n)
    (hd : n.head? ≠ some '$') (safe : Bool) :
    Means codec (par a ++ ((if safe then "&." else ".").toList ++ n)) (.getAttr ra (String.ofList n) safe) := by
  obtain ⟨s, hs, rfl⟩ := (means_iff ..).1 ha
  obtain ⟨ps, h1, h2, h3⟩ := hs.group
  refine (means_iff ..).2 ⟨.attr (.paren s) n safe, ?_, rfl⟩
  have hnext : nameAhead n = true := by
    have := hn.1
    unfold isName dropDollar at this
    cases n with
    | nil => cases this
    | cons c r =>
      simp only [List.head?_cons, ne_eq, Option.some.injEq] at hd
      split at this
      · rename_i heq
        split at heq
        · rename_i h'; exact absurd (List.cons.inj h').1 hd
        · cases heq
          simp only [Bool.and_eq_true] at this
          simp [nameAhead, this.1]
      · cases this
  have hl : Laid none (ps ++ [.tok (dot safe) (dot safe).text, .tok ⟨.SYMBOL, n⟩ n]) := by
    refine h3 _ ?_ none
    have hrest := laid_name hn (.inl rfl) (rest := []) (fun _ => trivial)
    cases safe
    · exact ⟨⟨rfl, rfl⟩, ⟨by simpa [ends, dot, fixed, textOf, Piece.text] using hnext, by simp [dot, fixed]⟩,
        fun _ => by decide, hrest _⟩
    · exact ⟨⟨rfl, rfl⟩, ⟨by simpa [ends, dot, fixed, textOf, Piece.text] using hnext, by simp [dot, fixed]⟩,
        fun _ => by decide, hrest _⟩
  have := shows_of (codec := codec) (s := .attr (.paren s) n safe) (ps := _) ?_ hl ?_
  · cases safe <;> simpa [textOf_append, textOf_tok, textOf_gap, h1, spelling, dot, fixed, textOf_nil] using this
  · simp [Syn.ok, hs.1, Syn.isObj]
  · simp [toksOf_app, toksOf_gap, toksOf_tok, h2, Syn.toks, toksOf_nil]

theorem laid_safe_bracket {safe : Bool} {rest : List Piece} (h : ∀ b, Laid b rest) :
    Laid (some ')') (.tok (bracket safe) (bracket safe).text :: rest) := by
  cases safe
  · exact laid_bracket h _
  · exact ⟨⟨.inr rfl, rfl⟩, ⟨by simp [ends, bracket, wordKinds], by simp [bracket]⟩, fun _ => by decide, h _⟩

theorem means_item {codec : LitCodec} {a i : List Char} {ra ri : Raw} (ha : Means codec a ra) (hi : Means codec i ri)
    (safe : Bool) :
    Means codec (par a ++ ((if safe then "&[" else "[").toList ++ (i ++ [']']))) (.getItem ra ri safe) := by
  obtain ⟨s, hs, rfl⟩ := (means_iff ..).1 ha
  obtain ⟨u, hu, rfl⟩ := (means_iff ..).1 hi
  obtain ⟨ps, h1, h2, h3⟩ := hs.group
  obtain ⟨qs, g1, g2, -, g3⟩ := hu.before
  refine (means_iff ..).2 ⟨.item (.paren s) u safe, ?_, rfl⟩
  have hl : Laid none (ps ++ .tok (bracket safe) (bracket safe).text :: (qs ++ [word .RBRACKET])) :=
    h3 _ (laid_safe_bracket (g3 _ (closing_mark (by simp) (rest := []) trivial))) none
  have := shows_of (codec := codec) (s := .item (.paren s) u safe) (ps := _) ?_ hl ?_
  · cases safe <;> simpa [textOf_append, textOf_tok, textOf_gap, h1, g1, spelling, bracket, textOf_nil] using this
  · simp [Syn.ok, hs.1, hu.1, Syn.isObj]
  · simp [toksOf_app, toksOf_gap, toksOf_tok, h2, g2, Syn.toks, toksOf_nil]

theorem means_slice {codec : LitCodec} {a i j : List Char} {ra ri rj : Raw} (ha : Means codec a ra)
    (hi : Means codec i ri) (hj : Means codec j rj) (safe : Bool) :
    Means codec (par a ++ ((if safe then "&[" else "[").toList ++ (i ++ (':' :: (j ++ [']'])))))
      (.getSlice ra ri rj safe) := by
  obtain ⟨s, hs, rfl⟩ := (means_iff ..).1 ha
  obtain ⟨u, hu, rfl⟩ := (means_iff ..).1 hi
  obtain ⟨w, hw, rfl⟩ := (means_iff ..).1 hj
  obtain ⟨ps, h1, h2, h3⟩ := hs.group
  obtain ⟨qs, g1, g2, -, g3⟩ := hu.before
  obtain ⟨os, f1, f2, -, f3⟩ := hw.before
  refine (means_iff ..).2 ⟨.sliceBoth (.paren s) u w safe, ?_, rfl⟩
  have hl : Laid none (ps ++ .tok (bracket safe) (bracket safe).text :: (qs ++ word .COLON :: (os ++ [word .RBRACKET]))) :=
    h3 _ (laid_safe_bracket (g3 _ (closing_mark (by simp) (f3 _ (closing_mark (by simp) (rest := []) trivial) _)))) none
  have := shows_of (codec := codec) (s := .sliceBoth (.paren s) u w safe) (ps := _) ?_ hl ?_
  · cases safe <;>
      simpa [textOf_append, textOf_tok, textOf_gap, h1, g1, f1, spelling, bracket, textOf_nil] using this
  · simp [Syn.ok, hs.1, hu.1, hw.1, Syn.isObj]
  · simp [toksOf_app, toksOf_gap, toksOf_tok, h2, g2, f2, Syn.toks, toksOf_nil]

theorem means_comp {codec : LitCodec} {a b x : List Char} {ra rb : Raw} (ha : Means codec a ra)
    (hb : Means codec b rb) (hx : IsWord x) :
    Means codec ('[' :: (a ++ (" for ".toList ++ (x ++ (" in ".toList ++ (b ++ [']']))))))
      (.comp ra (String.ofList x) rb (.lit (.bool true))) := by
  obtain ⟨s, hs, rfl⟩ := (means_iff ..).1 ha
  obtain ⟨u, hu, rfl⟩ := (means_iff ..).1 hb
  obtain ⟨ps, h1, h2, -, h3⟩ := hs.before
  obtain ⟨qs, g1, g2, -, g3⟩ := hu.before
  refine (means_iff ..).2 ⟨.comp false s x u, ?_, rfl⟩
  have hl : Laid none (.tok (bracket false) ['['] :: (ps ++ .gap ' ' :: word .FOR :: .gap ' ' :: .tok ⟨.SYMBOL, x⟩ x ::
      .gap ' ' :: word .IN :: .gap ' ' :: (qs ++ [word .RBRACKET]))) :=
    laid_bracket (h3 _ (closing_gap gapSpace (laid_word (by simp) gapSpace (laid_name hx (.inr ⟨_, textOf_gap ..⟩)
      (fun b => laid_space (laid_word (by simp) gapSpace (g3 _ (closing_mark (by simp) (rest := []) trivial) _) _) b) _) _))) _
  have := shows_of (codec := codec) (s := .comp false s x u) (ps := _) ?_ hl ?_
  · simpa [textOf_append, textOf_tok, textOf_gap, h1, g1, spelling, textOf_nil] using this
  · simp [Syn.ok, hs.1, hu.1]
  · simp [toksOf_app, toksOf_gap, toksOf_tok, h2, g2, Syn.toks, toksOf_nil]

theorem means_comp_if {codec : LitCodec} {a b c x : List Char} {ra rb rc : Raw} (ha : Means codec a ra)
    (hb : Means codec b rb) (hc : Means codec c rc) (hx : IsWord x) :
    Means codec ('[' :: (a ++ (" for ".toList ++ (x ++ (" in ".toList ++ (b ++ (" if ".toList ++ (c ++ [']']))))))))
      (.comp ra (String.ofList x) rb rc) := by
  obtain ⟨s, hs, rfl⟩ := (means_iff ..).1 ha
  obtain ⟨u, hu, rfl⟩ := (means_iff ..).1 hb
  obtain ⟨w, hw, rfl⟩ := (means_iff ..).1 hc
  obtain ⟨ps, h1, h2, -, h3⟩ := hs.before
  obtain ⟨qs, g1, g2, -, g3⟩ := hu.before
  obtain ⟨os, f1, f2, -, f3⟩ := hw.before
  refine (means_iff ..).2 ⟨.compIf false s x u w, ?_, rfl⟩
  have hl : Laid none (.tok (bracket false) ['['] :: (ps ++ .gap ' ' :: word .FOR :: .gap ' ' :: .tok ⟨.SYMBOL, x⟩ x ::
      .gap ' ' :: word .IN :: .gap ' ' :: (qs ++ .gap ' ' :: word .IF :: .gap ' ' :: (os ++ [word .RBRACKET])))) :=
    laid_bracket (h3 _ (closing_gap gapSpace (laid_word (by simp) gapSpace (laid_name hx (.inr ⟨_, textOf_gap ..⟩)
      (fun b => laid_space (laid_word (by simp) gapSpace (g3 _ (closing_gap gapSpace (laid_word (by simp) gapSpace
        (f3 _ (closing_mark (by simp) (rest := []) trivial) _) _)) _) _) b) _) _))) _
  have := shows_of (codec := codec) (s := .compIf false s x u w) (ps := _) ?_ hl ?_
  · simpa [textOf_append, textOf_tok, textOf_gap, h1, g1, f1, spelling, textOf_nil] using this
  · simp [Syn.ok, hs.1, hu.1, hw.1]
  · simp [toksOf_app, toksOf_gap, toksOf_tok, h2, g2, f2, Syn.toks, toksOf_nil]

/-- the texts, separated by commas -/
def commas : List (List Char) → List Char
  | [] => []
  | [t] => t
  | t :: ts => t ++ (", ".toList ++ commas ts)

theorem means_list {codec : LitCodec} : ∀ {ts : List (List Char)} {rs : List Raw},
    List.Forall₂ (Means codec) ts rs → ∃ ss : List Syn, Syn.okList codec ss = true ∧ Syn.raws codec ss = rs ∧
      ∃ ps, textOf ps = commas ts ∧ toksOf ps = Syn.listToks ss ∧ ∀ rest, Closing rest → ∀ b, Laid b (ps ++ rest)
  | [], _, .nil => ⟨[], rfl, rfl, [], rfl, rfl, fun _ h => h.2⟩
  | [t], _, .cons (b := r) ht .nil => by
    obtain ⟨s, hs, rfl⟩ := (means_iff ..).1 ht
    obtain ⟨ps, h1, h2, -, h3⟩ := hs.before
    exact ⟨[s], by simp [Syn.okList, hs.1], rfl, ps, h1, by simp [Syn.listToks, Syn.moreToks, h2], h3⟩
  | t :: t' :: ts, _, .cons (b := r) ht hts => by
    obtain ⟨s, hs, rfl⟩ := (means_iff ..).1 ht
    obtain ⟨ps, h1, h2, -, h3⟩ := hs.before
    obtain ⟨ss, i1, rfl, qs, i2, i3, i4⟩ := means_list hts
    have hne : ss ≠ [] := by
      rintro rfl
      cases hts
    obtain ⟨s', ss', rfl⟩ := List.exists_cons_of_ne_nil hne
    refine ⟨s :: s' :: ss', by simp only [Syn.okList, hs.1, Bool.true_and]; exact i1, rfl,
      ps ++ word .COMMA :: .gap ' ' :: qs, ?_, ?_, fun rest hr b => ?_⟩
    · simp [textOf_append, textOf_tok, textOf_gap, h1, i2, commas, spelling]
    · simp only [Syn.listToks] at i3
      simp [toksOf_app, toksOf_gap, toksOf_tok, h2, i3, Syn.listToks, Syn.moreToks]
    · have := h3 (word .COMMA :: .gap ' ' :: (qs ++ rest)) (closing_mark (by simp) (laid_space (i4 rest hr _) _)) b
      simpa using this

/-- **C56.** Any number of rules can be the members of an array literal … -/
theorem means_array {codec : LitCodec} {ts : List (List Char)} {rs : List Raw} (h : List.Forall₂ (Means codec) ts rs) :
    Means codec ('[' :: (commas ts ++ [']'])) (.array rs) := by
  obtain ⟨ss, h1, rfl, ps, h2, h3, h4⟩ := means_list h
  refine (means_iff ..).2 ⟨.array false ss false, ?_, rfl⟩
  have hl : Laid none (.tok (bracket false) ['['] :: (ps ++ [word .RBRACKET])) :=
    laid_bracket (h4 _ (closing_mark (by simp) (rest := []) trivial)) _
  have := shows_of (codec := codec) (s := .array false ss false) (ps := _) ?_ hl ?_
  · simpa [textOf_append, textOf_tok, textOf_gap, h2, spelling, textOf_nil] using this
  · simp [Syn.ok, h1]
  · simp [toksOf_app, toksOf_gap, toksOf_tok, h3, Syn.toks, toksOf_nil, trailing]

/-- … of a set literal, if there is one … -/
theorem means_set {codec : LitCodec} {ts : List (List Char)} {rs : List Raw} (h : List.Forall₂ (Means codec) ts rs)
    (hne : ts ≠ []) : Means codec ('{' :: (commas ts ++ ['}'])) (.set rs) := by
  obtain ⟨ss, h1, rfl, ps, h2, h3, h4⟩ := means_list h
  have hss : ss ≠ [] := by
    rintro rfl
    cases h
    exact hne rfl
  refine (means_iff ..).2 ⟨.set ss false, ?_, rfl⟩
  have hl : Laid none (word .LBRACE :: (ps ++ [word .RBRACE])) :=
    laid_open (.inr rfl) (h4 _ (closing_mark (by simp) (rest := []) trivial)) _
  have := shows_of (codec := codec) (s := .set ss false) (ps := _) ?_ hl ?_
  · simpa [textOf_append, textOf_tok, textOf_gap, h2, spelling, textOf_nil] using this
  · simp [Syn.ok, h1, hss]
  · simp [toksOf_app, toksOf_gap, toksOf_tok, h3, Syn.toks, toksOf_nil, trailing]

/-- … or the arguments of a call. -/
theorem means_call {codec : LitCodec} {f : List Char} {rf : Raw} {ts : List (List Char)} {rs : List Raw}
    (hf : Means codec f rf) (h : List.Forall₂ (Means codec) ts rs) :
    Means codec (par f ++ par (commas ts)) (.call rf rs) := by
  obtain ⟨s, hs, rfl⟩ := (means_iff ..).1 hf
  obtain ⟨qs, g1, g2, g3⟩ := hs.group
  obtain ⟨ss, h1, rfl, ps, h2, h3, h4⟩ := means_list h
  refine (means_iff ..).2 ⟨.call (.paren s) ss, ?_, rfl⟩
  have hl : Laid none (qs ++ word .LPAREN :: (ps ++ [word .RPAREN])) :=
    g3 _ (laid_open (.inl rfl) (h4 _ (closing_mark (by simp) (rest := []) trivial)) _) none
  have := shows_of (codec := codec) (s := .call (.paren s) ss) (ps := _) ?_ hl ?_
  · simpa [textOf_append, textOf_tok, textOf_gap, h2, g1, spelling, textOf_nil, par] using this
  · simp [Syn.ok, h1, hs.1, Syn.isAtom]
  · simp [toksOf_app, toksOf_gap, toksOf_tok, h3, g2, Syn.toks, toksOf_nil]

/-! ### The smallest rules -/

/-- A name is a rule. -/
theorem means_sym {codec : LitCodec} {n : List Char} (hn : IsWord n) : Means codec n (symRaw n) :=
  (means_iff ..).2 ⟨.sym n, ⟨by rw [Syn.ok]; cases n with | nil => cases hn.1 | cons => rfl, [.tok ⟨.SYMBOL, n⟩ n], laid_name hn (.inl rfl) (fun _ => trivial) _,
    by simp [textOf_tok, textOf_nil], rfl⟩, rfl⟩

/-- A number is a rule. -/
theorem means_number {codec : LitCodec} {t : List Char} (hn : Number t) : Means codec t (.floatLit (String.ofList t)) := by
  intro line
  have := parse_number codec line t [] [] hn (by simp) (by simp)
  simpa using this

theorem x_word : IsWord ['x'] := ⟨by decide, by decide⟩

theorem one_number : Number ['1'] :=
  .inr (.inl ⟨['1'], [], [], by simp, by decide, .inl rfl, .inl rfl, rfl⟩)

/-- The hypotheses are met: a call with a comprehension as its argument, from its parts. -/
example (codec : LitCodec) :
    Means codec "(((x) * (1)).length)([(x) * (1) for x in x if (x) in (x)], 1)".toList
      (.call (.getAttr (.bin (.arith .mul) (.sym "x" false) (.floatLit "1")) "length" false)
        [.comp (.bin (.arith .mul) (.sym "x" false) (.floatLit "1")) "x" (.sym "x" false)
          (.contains (.sym "x" false) (.sym "x" false)), .floatLit "1"]) := by
  have hx : Means codec ['x'] (.sym "x" false) := means_sym x_word
  have h1 : Means codec ['1'] (.floatLit "1") := means_number one_number
  have hm := means_bin hx h1 .MUL (by decide)
  have h := means_call (means_attr (n := "length".toList) hm ⟨by decide, by decide⟩ (by decide) false)
    (.cons (means_comp_if hm hx (means_in hx hx) x_word) (.cons h1 .nil))
  rw [String.ofList_toList] at h
  refine Eq.mp ?_ h
  congr 1

end RE
