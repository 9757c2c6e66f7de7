import Verif.Props.Compose

/-!
# Half-open slices and mapping literals from texts (C56)
-/

set_option linter.unusedSimpArgs false

namespace RE

/-- **C56.** `(a)[i:]` and `(a)&[i:]`: the end of the slice is `null`. -/
theorem means_slice_from {codec : LitCodec} {a i : List Char} {ra ri : Raw} (ha : Means codec a ra)
    (hi : Means codec i ri) (safe : Bool) :
    Means codec (par a ++ ((if safe then "&[" else "[").toList ++ (i ++ [':', ']']))) (.getSlice ra ri (.lit .none) safe) := by
  obtain ⟨s, hs, rfl⟩ := (means_iff ..).1 ha
  obtain ⟨u, hu, rfl⟩ := (means_iff ..).1 hi
  obtain ⟨ps, h1, h2, h3⟩ := hs.group
  obtain ⟨qs, g1, g2, -, g3⟩ := hu.before
  refine (means_iff ..).2 ⟨.sliceFrom (.paren s) u safe, ?_, rfl⟩
  have hl : Laid none (ps ++ .tok (bracket safe) (bracket safe).text :: (qs ++ [word .COLON, word .RBRACKET])) :=
    h3 _ (laid_safe_bracket (g3 _ (closing_mark (by simp) ((closing_mark (by simp) (rest := []) trivial).2 _)))) none
  have := shows_of (codec := codec) (s := .sliceFrom (.paren s) u safe) (ps := _) ?_ hl ?_
  · cases safe <;>
      simpa [textOf_append, textOf_tok, textOf_gap, h1, g1, spelling, bracket, textOf_nil] using this
  · simp [Syn.ok, hs.1, hu.1, Syn.isObj]
  · simp [toksOf_app, toksOf_gap, toksOf_tok, h2, g2, Syn.toks, toksOf_nil]

/-- **C56.** `(a)[:j]` and `(a)&[:j]`: the slice starts at 0. -/
theorem means_slice_to {codec : LitCodec} {a j : List Char} {ra rj : Raw} (ha : Means codec a ra)
    (hj : Means codec j rj) (safe : Bool) :
    Means codec (par a ++ ((if safe then "&[" else "[").toList ++ (':' :: (j ++ [']']))))
      (.getSlice ra (.lit (.dec (.fin false 0 0))) rj safe) := by
  obtain ⟨s, hs, rfl⟩ := (means_iff ..).1 ha
  obtain ⟨u, hu, rfl⟩ := (means_iff ..).1 hj
  obtain ⟨ps, h1, h2, h3⟩ := hs.group
  obtain ⟨qs, g1, g2, -, g3⟩ := hu.before
  refine (means_iff ..).2 ⟨.sliceTo (.paren s) u safe, ?_, rfl⟩
  have hl : Laid none (ps ++ .tok (bracket safe) (bracket safe).text :: word .COLON :: (qs ++ [word .RBRACKET])) :=
    h3 _ (laid_safe_bracket fun b => (closing_mark (by simp) (g3 _ (closing_mark (by simp) (rest := []) trivial) _)).2 b) none
  have := shows_of (codec := codec) (s := .sliceTo (.paren s) u safe) (ps := _) ?_ hl ?_
  · cases safe <;>
      simpa [textOf_append, textOf_tok, textOf_gap, h1, g1, spelling, bracket, textOf_nil] using this
  · simp [Syn.ok, hs.1, hu.1, Syn.isObj]
  · simp [toksOf_app, toksOf_gap, toksOf_tok, h2, g2, Syn.toks, toksOf_nil]

/-- **C56.** `(a)[:]` and `(a)&[:]`. -/
theorem means_slice_all {codec : LitCodec} {a : List Char} {ra : Raw} (ha : Means codec a ra) (safe : Bool) :
    Means codec (par a ++ ((if safe then "&[" else "[").toList ++ [':', ']']))
      (.getSlice ra (.lit (.dec (.fin false 0 0))) (.lit .none) safe) := by
  obtain ⟨s, hs, rfl⟩ := (means_iff ..).1 ha
  obtain ⟨ps, h1, h2, h3⟩ := hs.group
  refine (means_iff ..).2 ⟨.slice (.paren s) safe, ?_, rfl⟩
  have hl : Laid none (ps ++ .tok (bracket safe) (bracket safe).text :: [word .COLON, word .RBRACKET]) :=
    h3 _ (laid_safe_bracket fun b => (closing_mark (by simp) ((closing_mark (by simp) (rest := []) trivial).2 _)).2 b) none
  have := shows_of (codec := codec) (s := .slice (.paren s) safe) (ps := _) ?_ hl ?_
  · cases safe <;>
      simpa [textOf_append, textOf_tok, textOf_gap, h1, spelling, bracket, textOf_nil] using this
  · simp [Syn.ok, hs.1, Syn.isObj]
  · simp [toksOf_app, toksOf_gap, toksOf_tok, h2, Syn.toks, toksOf_nil]

/-- an entry of a mapping literal -/
def entry (kv : List Char × List Char) : List Char := kv.1 ++ (": ".toList ++ kv.2)

theorem means_pairs {codec : LitCodec} : ∀ {ts : List (List Char × List Char)} {rs : List (Raw × Raw)},
    List.Forall₂ (fun t r => Means codec t.1 r.1 ∧ Means codec t.2 r.2) ts rs →
    ∃ ss : List (Syn × Syn), Syn.okPairs codec ss = true ∧ Syn.rawPairs codec ss = rs ∧
      ∃ ps, textOf ps = commas (ts.map entry) ∧ toksOf ps = Syn.pairToks ss ∧ ∀ rest, Closing rest → ∀ b, Laid b (ps ++ rest)
  | [], _, .nil => ⟨[], rfl, rfl, [], rfl, rfl, fun _ h => h.2⟩
  | [(k, v)], _, .cons (b := (rk, rv)) ⟨hk, hv⟩ .nil => by
    obtain ⟨s, hs, hse⟩ := (means_iff ..).1 hk
    obtain ⟨u, hu, hue⟩ := (means_iff ..).1 hv
    simp only at hse hue
    subst hse hue
    obtain ⟨ps, h1, h2, -, h3⟩ := hs.before
    obtain ⟨qs, g1, g2, -, g3⟩ := hu.before
    refine ⟨[(s, u)], by simp [Syn.okPairs, hs.1, hu.1], rfl, ps ++ word .COLON :: .gap ' ' :: qs, ?_, ?_, fun rest hr b => ?_⟩
    · simp [textOf_append, textOf_tok, textOf_gap, h1, g1, commas, entry, spelling]
    · simp [toksOf_app, toksOf_gap, toksOf_tok, h2, g2, Syn.pairToks, Syn.morePairToks]
    · have := h3 (word .COLON :: .gap ' ' :: (qs ++ rest)) (closing_mark (by simp) (laid_space (g3 rest hr _) _)) b
      simpa using this
  | (k, v) :: t' :: ts, _, .cons (b := (rk, rv)) ⟨hk, hv⟩ hts => by
    obtain ⟨s, hs, hse⟩ := (means_iff ..).1 hk
    obtain ⟨u, hu, hue⟩ := (means_iff ..).1 hv
    simp only at hse hue
    subst hse hue
    obtain ⟨ps, h1, h2, -, h3⟩ := hs.before
    obtain ⟨qs, g1, g2, -, g3⟩ := hu.before
    obtain ⟨ss, i1, rfl, os, i2, i3, i4⟩ := means_pairs hts
    have hne : ss ≠ [] := by
      rintro rfl
      cases hts
    obtain ⟨⟨s', u'⟩, ss', rfl⟩ := List.exists_cons_of_ne_nil hne
    refine ⟨(s, u) :: (s', u') :: ss', by simp only [Syn.okPairs, hs.1, hu.1, Bool.true_and]; exact i1, rfl,
      ps ++ word .COLON :: .gap ' ' :: (qs ++ word .COMMA :: .gap ' ' :: os), ?_, ?_, fun rest hr b => ?_⟩
    · simp only [List.map_cons] at i2
      simp [textOf_append, textOf_tok, textOf_gap, h1, g1, i2, commas, entry, spelling]
    · simp only [Syn.pairToks] at i3
      simp [toksOf_app, toksOf_gap, toksOf_tok, h2, g2, i3, Syn.pairToks, Syn.morePairToks]
    · have := h3 (word .COLON :: .gap ' ' :: (qs ++ word .COMMA :: .gap ' ' :: (os ++ rest)))
        (closing_mark (by simp) (laid_space (g3 _ (closing_mark (by simp) (laid_space (i4 rest hr _) _)) _) _)) b
      simpa using this

/-- **C56.** Any number of rules can be the keys and values of a mapping literal. -/
theorem means_mapping {codec : LitCodec} {ts : List (List Char × List Char)} {rs : List (Raw × Raw)}
    (h : List.Forall₂ (fun t r => Means codec t.1 r.1 ∧ Means codec t.2 r.2) ts rs) :
    Means codec ('{' :: (commas (ts.map entry) ++ ['}'])) (.mapping rs) := by
  obtain ⟨ss, h1, rfl, ps, h2, h3, h4⟩ := means_pairs h
  refine (means_iff ..).2 ⟨.mapping ss false, ?_, rfl⟩
  have hl : Laid none (word .LBRACE :: (ps ++ [word .RBRACE])) :=
    laid_open (.inr rfl) (h4 _ (closing_mark (by simp) (rest := []) trivial)) _
  have := shows_of (codec := codec) (s := .mapping ss false) (ps := _) ?_ hl ?_
  · simpa [textOf_append, textOf_tok, textOf_gap, h2, spelling, textOf_nil] using this
  · simp [Syn.ok, h1]
  · simp [toksOf_app, toksOf_gap, toksOf_tok, h3, Syn.toks, toksOf_nil, trailing]

/-- The hypotheses are met: half of an array of mappings. -/
example (codec : LitCodec) :
    Means codec "([{x: 1, 1: (x)[:]}])[1:]".toList
      (.getSlice (.array [.mapping [(.sym "x" false, .floatLit "1"), (.floatLit "1",
        .getSlice (.sym "x" false) (.lit (.dec (.fin false 0 0))) (.lit .none) false)]]) (.floatLit "1") (.lit .none) false) := by
  have hx : Means codec ['x'] (.sym "x" false) := means_sym x_word
  have h1 : Means codec ['1'] (.floatLit "1") := means_number one_number
  have h := means_slice_from (means_array (.cons (means_mapping (ts := [(['x'], ['1']), (['1'], par ['x'] ++ ("[".toList ++ [':', ']']))]) (rs := [(_, _), (_, _)])
    (.cons ⟨hx, h1⟩ (.cons ⟨h1, means_slice_all hx false⟩ .nil))) .nil)) h1 false
  refine Eq.mp ?_ h
  congr 1

/-! ### The words for values -/

/-- **C56.** `true`, `false`, `null`, `nan` and `inf` are rules: those values. -/
theorem means_value_words (codec : LitCodec) :
    Means codec "true".toList (.lit (.bool true)) ∧ Means codec "false".toList (.lit (.bool false)) ∧
    Means codec "null".toList (.lit .none) ∧ Means codec "nan".toList (.floatLit "nan") ∧
    Means codec "inf".toList (.floatLit "inf") := by
  have key : ∀ (k : Kind) (s : Syn), k ∈ [Kind.TRUE, .FALSE, .NULL, .FLOAT_NAN, .FLOAT_INF] → s.ok codec = true →
      [fixed k] = s.toks → Means codec (spelling k) (s.raw codec) := by
    intro k s hk hs ht
    refine (means_iff ..).2 ⟨s, ⟨hs, [word k], ?_, by simp [textOf_tok, textOf_nil, word], ?_⟩, rfl⟩
    · simp only [List.mem_cons, List.not_mem_nil, or_false] at hk
      rcases hk with rfl | rfl | rfl | rfl | rfl <;>
        exact ⟨⟨rfl, rfl⟩, ⟨by simp [ends, fixed, wordKinds, textOf_nil, headAll], by simp [fixed]⟩, by simp [attached, fixed], trivial⟩
    · rw [← ht]; rfl
  exact ⟨key .TRUE (.bool true) (by simp) rfl rfl, key .FALSE (.bool false) (by simp) rfl rfl,
    key .NULL .null (by simp) rfl rfl, key .FLOAT_NAN .nan (by simp) rfl rfl, key .FLOAT_INF .inf (by simp) rfl rfl⟩

end RE
