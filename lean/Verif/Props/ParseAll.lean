import Verif.Props.ParseSound

/-!
# The parser accepts exactly the texts written as the precedence table says (C40, C49)
-/

set_option linter.unusedSimpArgs false

namespace RE

/-- the reductions in the table, but those of the binary operators -/
def reducePairs : List (Nat × Nat) :=
  [(2, 1), (20, 2), (93, 3), (94, 4), (3, 5), (122, 6), (76, 19), (107, 20), (97, 33), (53, 34),
   (11, 35), (52, 36), (6, 37), (7, 38), (13, 39), (14, 40), (15, 41), (8, 42), (9, 43), (10,
   44), (16, 45), (98, 46), (114, 47), (18, 48), (60, 49), (103, 50), (120, 51), (129, 52),
   (132, 53), (58, 54), (62, 54), (90, 54), (115, 55), (56, 56), (100, 57), (116, 58), (119,
   59), (59, 60), (117, 61), (110, 62), (112, 63), (125, 64), (124, 65), (127, 66), (91, 67),
   (108, 68)]

theorem reduce_pairs_fact : ∀ q ∈ List.range 133, ∀ e ∈ (actionRows[q]?).getD [],
    (match e.2 with
    | .reduce p => decide ((q, p) ∈ reducePairs) ||
        binaryKinds.any (fun k => decide (q = exprGoto (opState k)) && decide (p = opProd k))
    | _ => true) = true := by decide +kernel

/-- Every reduction the table asks for fits the stack. -/
theorem red_all {codec : LitCodec} {a : Kind} {st : List (Nat × Sem)} {xs : List Lexeme} {p : Nat}
    (h : Stk codec a st xs) (ha : action (topState st) a = some (.reduce p)) :
    RedOK codec p a st xs := by
  have hf := reduce_pairs_fact _ (action_lt ha) (a, .reduce p) (lookup_mem ha)
  simp only [Bool.or_eq_true, decide_eq_true_eq, List.any_eq_true, Bool.and_eq_true] at hf
  rcases hf with hf | ⟨k, hk, hq, rfl⟩
  swap
  · exact red_binary k hk h hq (by rw [← hq]; exact ha)
  simp only [reducePairs, List.mem_cons, List.not_mem_nil, or_false, Prod.mk.injEq] at hf
  rcases hf with ⟨hq, rfl⟩ | ⟨hq, rfl⟩ | ⟨hq, rfl⟩ | ⟨hq, rfl⟩ | ⟨hq, rfl⟩ | ⟨hq, rfl⟩ | ⟨hq, rfl⟩ | ⟨hq, rfl⟩ | ⟨hq, rfl⟩ | ⟨hq, rfl⟩ | ⟨hq, rfl⟩ | ⟨hq, rfl⟩ | ⟨hq, rfl⟩ | ⟨hq, rfl⟩ | ⟨hq, rfl⟩ | ⟨hq, rfl⟩ | ⟨hq, rfl⟩ | ⟨hq, rfl⟩ | ⟨hq, rfl⟩ | ⟨hq, rfl⟩ | ⟨hq, rfl⟩ | ⟨hq, rfl⟩ | ⟨hq, rfl⟩ | ⟨hq, rfl⟩ | ⟨hq, rfl⟩ | ⟨hq, rfl⟩ | ⟨hq, rfl⟩ | ⟨hq, rfl⟩ | ⟨hq, rfl⟩ | ⟨hq, rfl⟩ | ⟨hq, rfl⟩ | ⟨hq, rfl⟩ | ⟨hq, rfl⟩ | ⟨hq, rfl⟩ | ⟨hq, rfl⟩ | ⟨hq, rfl⟩ | ⟨hq, rfl⟩ | ⟨hq, rfl⟩ | ⟨hq, rfl⟩ | ⟨hq, rfl⟩ | ⟨hq, rfl⟩ | ⟨hq, rfl⟩ | ⟨hq, rfl⟩ | ⟨hq, rfl⟩ | ⟨hq, rfl⟩ | ⟨hq, rfl⟩
  · exact red_1 h (by simp [hq])
  · exact red_2 h (by simp [hq])
  · exact red_3 h (by simp [hq])
  · exact red_4 h (by simp [hq])
  · exact red_5 h (by simp [hq])
  · exact red_6 h (by simp [hq]) (by rw [← hq]; exact ha)
  · exact red_19 h (by simp [hq]) (by rw [← hq]; exact ha)
  · exact red_20 h (by simp [hq]) (by rw [← hq]; exact ha)
  · exact red_33 h (by simp [hq])
  · exact red_34 h (by simp [hq]) (by rw [← hq]; exact ha)
  · exact red_35 h (by simp [hq])
  · exact red_36 h (by simp [hq]) (by rw [← hq]; exact ha)
  · exact red_37 h (by simp [hq])
  · exact red_38 h (by simp [hq])
  · exact red_39 h (by simp [hq])
  · exact red_40 h (by simp [hq])
  · exact red_41 h (by simp [hq])
  · exact red_42 h (by simp [hq])
  · exact red_43 h (by simp [hq])
  · exact red_44 h (by simp [hq])
  · exact red_45 h (by simp [hq])
  · exact red_46 h (by simp [hq])
  · exact red_47 h (by simp [hq])
  · exact red_48 h (by simp [hq])
  · exact red_49 h (by simp [hq])
  · exact red_50 h (by simp [hq])
  · exact red_51 h (by simp [hq])
  · exact red_52 h (by simp [hq])
  · exact red_53 h (by simp [hq])
  · exact red_54 h (by simp [hq])
  · exact red_54 h (by simp [hq])
  · exact red_54 h (by simp [hq])
  · exact red_55 h (by simp [hq])
  · exact red_56 h (by simp [hq])
  · exact red_57 h (by simp [hq])
  · exact red_58 h (by simp [hq])
  · exact red_59 h (by simp [hq])
  · exact red_60 h (by simp [hq])
  · exact red_61 h (by simp [hq])
  · exact red_62 h (by simp [hq])
  · exact red_63 h (by simp [hq])
  · exact red_64 h (by simp [hq])
  · exact red_65 h (by simp [hq])
  · exact red_66 h (by simp [hq])
  · exact red_67 h (by simp [hq])
  · exact red_68 h (by simp [hq])

theorem defaulted_only : ∀ q ∈ List.range 133, ∀ p, defaulted q = some p → q = 20 ∧ p = 2 := by
  intro q hq p hp
  by_cases h20 : q = 20
  · subst h20
    have : defaulted 20 = some 2 := by decide +kernel
    rw [this] at hp
    exact ⟨rfl, (Option.some.inj hp).symm⟩
  · rw [not_defaulted q hq h20] at hp
    cases hp

theorem end_fact : ∀ q ∈ List.range 133, ∀ e ∈ (actionRows[q]?).getD [],
    (match e.2 with
    | .shift _ => decide (e.1 ≠ .END)
    | .accept => decide (e.1 = .END) && decide (q = 1)
    | .reduce _ => true) = true := by decide +kernel

theorem shift_not_end {q r : Nat} {k : Kind} (h : action q k = some (.shift r)) : k ≠ .END := by
  simpa using end_fact q (action_lt h) (k, .shift r) (lookup_mem h)

theorem accept_only {q : Nat} {k : Kind} (h : action q k = some .accept) : k = .END ∧ q = 1 := by
  simpa using end_fact q (action_lt h) (k, .accept) (lookup_mem h)

/-- the start state is on no stack -/
theorem Stk.eq_nil {codec : LitCodec} {a : Kind} {st : List (Nat × Sem)} {xs : List Lexeme}
    (h : Stk codec a st xs) (h0 : topState st = 0) : st = [] ∧ xs = [] := by
  have hz : acc 0 = .n .start := rfl
  cases h with
  | nil => exact ⟨rfl, rfl⟩
  | tok _ _ ht =>
    have h2 := acc_shift ht
    simp only [topState] at h0
    rw [h0, hz] at h2
    cases h2
  | nt _ hg hd =>
    have h2 := acc_goto hg
    simp only [topState] at h0
    rw [h0, hz] at h2
    cases h2
    exact absurd hd (by simp [Den])

/-- What the parser's result says about the tokens `all` and the way they end. -/
def PResult.Explains (codec : LitCodec) (all : List Lexeme) (stop : Stop) (r : PResult) : Prop :=
  match r.out with
  | .ok (raw, comment) => stop = .eof r.line ∧ ∃ s : Syn, s.ok codec = true ∧ raw = s.raw codec ∧
      ((comment = none ∧ all = s.toks) ∨
       ∃ c, comment = some (String.ofList (pyStrip c.tail)) ∧ all = s.toks ++ [⟨.COMMENT, c⟩])
  | .error e => e ≠ .stuck

/-- the invariant of the loop -/
def PConf.Inv (codec : LitCodec) (all : List Lexeme) (c : PConf) : Prop :=
  (∀ t ∈ c.toks, t.lex.Proper) ∧
  ∃ xs, Stk codec (headKind (c.toks.map Tok.lex) .END) c.stack xs ∧ all = xs ++ c.toks.map Tok.lex

theorem Stk.top_lt {codec : LitCodec} {a : Kind} {st : List (Nat × Sem)} {xs : List Lexeme}
    (h : Stk codec a st xs) : topState st ∈ List.range 133 := by
  have hs : ∀ q ∈ List.range 133, ∀ e ∈ (actionRows[q]?).getD [],
      (match e.2 with
      | .shift r => decide (r ∈ List.range 133)
      | _ => true) = true := by decide +kernel
  have hg : ∀ q ∈ List.range 133, ∀ e ∈ (gotoRows[q]?).getD [], e.2 ∈ List.range 133 := by
    decide +kernel
  cases h with
  | nil => decide
  | @tok _ st _ x q _ _ ht =>
    have := hs _ (action_lt ht) (x.kind, .shift q) (lookup_mem ht)
    simp only [decide_eq_true_eq] at this
    exact this
  | @nt _ _ st _ _ _ q n _ hgo _ => exact hg _ (goto_lt hgo) (n, q) (lookup_mem hgo)

/-- One round keeps the invariant, or ends with a result that explains the tokens. -/
theorem pstep_inv {codec : LitCodec} {stop : Stop} {all : List Lexeme} {c : PConf}
    (h : c.Inv codec all) :
    match pstep codec stop c with
    | .inl c' => c'.Inv codec all
    | .inr r => r.Explains codec all stop := by
  obtain ⟨st, toks⟩ := c
  obtain ⟨hp, xs, hs, hall⟩ := h
  simp only at hp hs hall
  simp only [pstep]
  cases hd : defaulted (topState st) with
  | some p =>
    obtain ⟨hq, rfl⟩ := defaulted_only _ hs.top_lt p hd
    simp only
    rcases red_2 hs (by simp [hq]) with ⟨st', hr, hs'⟩ | hr | hr
    · simp only [hr]
      exact ⟨hp, xs, hs', hall⟩
    · simp [hr, PResult.Explains]
    · simp [hr, PResult.Explains]
  | none =>
    simp only
    cases toks with
    | cons t ts =>
      simp only
      have hk : headKind ((t :: ts).map Tok.lex) .END = t.lex.kind := rfl
      rw [hk] at hs
      cases ha : action (topState st) t.lex.kind with
      | none => simp [PResult.Explains]
      | some x =>
        cases x with
        | shift q =>
          simp only
          refine ⟨fun u hu => hp u (List.mem_cons_of_mem _ hu), xs ++ [t.lex], ?_, ?_⟩
          · exact .tok hs (hp t (List.mem_cons_self ..)) ha
          · simpa using hall
        | accept => exact absurd (accept_only ha).1 (hp t (List.mem_cons_self ..)).1
        | reduce p =>
          simp only
          rcases red_all hs ha with ⟨st', hr, hs'⟩ | hr | hr
          · simp only [hr]
            exact ⟨hp, xs, hs', hall⟩
          · simp [hr, PResult.Explains]
          · simp [hr, PResult.Explains]
    | nil =>
      simp only
      cases stop with
      | illegal => simp [PResult.Explains]
      | keyword => simp [PResult.Explains]
      | eof l =>
        simp only
        have hk : headKind (([] : List Tok).map Tok.lex) .END = .END := rfl
        rw [hk] at hs
        cases ha : action (topState st) .END with
        | none => simp [PResult.Explains]
        | some x =>
          cases x with
          | shift q => exact absurd rfl (shift_not_end ha)
          | reduce p =>
            simp only
            rcases red_all hs ha with ⟨st', hr, hs'⟩ | hr | hr
            · simp only [hr]
              exact ⟨hp, xs, hs', hall⟩
            · simp [hr, PResult.Explains]
            · simp [hr, PResult.Explains]
          | accept =>
            have hq := (accept_only ha).2
            obtain ⟨q1, v1, st1, xs1, ys1, c1, rfl, rfl, d1, h1, m1, t1, S1⟩ :=
              hs.popN [1] [0] .statement (by simp [hq]) (by decide) (by decide +kernel)
                (by decide +kernel)
            obtain ⟨rfl, rfl⟩ := h1.eq_nil (by simpa using S1)
            simp only [List.nil_append, List.map_nil, List.append_nil] at hall
            subst hall
            obtain ⟨s, hok, ⟨rfl, rfl⟩ | ⟨cm, rfl, rfl⟩⟩ := d1
            · exact ⟨rfl, s, hok, rfl, .inl ⟨rfl, rfl⟩⟩
            · exact ⟨rfl, s, hok, rfl, .inr ⟨cm, rfl, rfl⟩⟩

theorem prun_inv {codec : LitCodec} {stop : Stop} {all : List Lexeme} :
    ∀ (n : Nat) (c : PConf), c.Inv codec all → ∀ r, prun codec stop n c = some r →
      r.Explains codec all stop := by
  intro n
  induction n with
  | zero => intro c _ r h; cases h
  | succ n ih =>
    intro c hc r h
    have hi := pstep_inv (stop := stop) hc
    simp only [prun] at h
    cases hs : pstep codec stop c with
    | inl c' =>
      rw [hs] at hi h
      exact ih c' hi r h
    | inr r' =>
      rw [hs] at hi h
      cases h
      exact hi

theorem parseToks_explains (codec : LitCodec) (toks : List Tok) (stop : Stop)
    (hp : ∀ t ∈ toks, t.lex.Proper) :
    (parseToks codec toks stop).Explains codec (toks.map Tok.lex) stop := by
  obtain ⟨r', hr'⟩ := prun_total codec stop (parseFuel toks.length) ⟨[], toks⟩ (by
    have := stRank_le 0
    simp only [PConf.measure, parseFuel, topState, List.length_nil]
    omega)
  simp only [parseToks, hr']
  exact prun_inv _ _ ⟨hp, [], .nil _, rfl⟩ _ hr'

/-- **C40.** Whatever the parser accepts is written with the parentheses the precedence table
requires, and parses to the tree so written. -/
theorem parse_only_written (codec : LitCodec) (toks : List Tok) (stop : Stop)
    (hp : ∀ t ∈ toks, t.lex.Proper) (raw : Raw) (comment : Option String)
    (h : (parseToks codec toks stop).out = .ok (raw, comment)) :
    ∃ s : Syn, s.ok codec = true ∧ raw = s.raw codec ∧
      ((comment = none ∧ toks.map Tok.lex = s.toks) ∨
       ∃ c, comment = some (String.ofList (pyStrip c.tail)) ∧
        toks.map Tok.lex = s.toks ++ [⟨.COMMENT, c⟩]) := by
  have := parseToks_explains codec toks stop hp
  simp only [PResult.Explains, h] at this
  exact this.2

/-- **C49.** The grammar actions always get the values they expect: the parser has no internal
failure. -/
theorem parse_never_stuck (codec : LitCodec) (toks : List Tok) (stop : Stop)
    (hp : ∀ t ∈ toks, t.lex.Proper) : (parseToks codec toks stop).out ≠ .error .stuck := by
  intro h
  have := parseToks_explains codec toks stop hp
  simp only [PResult.Explains, h] at this
  exact this rfl

/-- **C40.** The grammar with its precedence table is unambiguous: two trees written with the same
tokens and all the parentheses the table requires mean the same. -/
theorem written_unambiguous (codec : LitCodec) (s s' : Syn) (h : s.ok codec = true)
    (h' : s'.ok codec = true) (ht : s.toks = s'.toks) : s.raw codec = s'.raw codec := by
  have e1 := parse_as_written codec s h (s.toks.map (⟨·, 1, 0⟩)) (by simp [Function.comp_def]) 1
  have e2 := parse_as_written codec s' h' (s.toks.map (⟨·, 1, 0⟩)) (by simp [Function.comp_def, ht]) 1
  rw [e1] at e2
  simpa using e2

end RE
