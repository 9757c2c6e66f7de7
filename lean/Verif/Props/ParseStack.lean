import Verif.Props.Parse

/-!
# What the parser's stack stands for (C40, C49)

The invariant for the converse of `parse_as_written`, and one lemma for each reduction to an object.
-/

set_option linter.unusedSimpArgs false

namespace RE

/-- A token as the lexer makes them: a token of fixed spelling is spelled so, a name is not empty and
the end marker does not occur. -/
def Lexeme.Proper (x : Lexeme) : Prop :=
  x.kind ≠ .END ∧
  (x.kind = .LBRACKET → x = bracket true ∨ x = bracket false) ∧
  (x.kind = .SYMBOL → x.text ≠ []) ∧
  (x.kind ∉ [.LBRACKET, .SYMBOL, .FLOAT, .STRING, .BYTES, .DATETIME, .TIMEDELTA, .COMMENT] →
    x = fixed x.kind)

instance (x : Lexeme) : Decidable x.Proper := by unfold Lexeme.Proper; infer_instance

/-! ## Accessing symbols -/

/-- a grammar symbol -/
inductive Sym where
  | t (k : Kind)
  | n (n : NonTerm)
  deriving DecidableEq, Repr

/-- the symbol by which each state is entered -/
def accSyms : List Sym :=
  [.n .start, .n .statement, .n .expression, .n .object, .t .SUB, .t .NOT, .t .TRUE, .t .FALSE,
   .t .FLOAT, .t .FLOAT_NAN, .t .FLOAT_INF, .t .SYMBOL, .t .LPAREN, .t .BYTES, .t .DATETIME,
   .t .TIMEDELTA, .t .NULL, .t .LBRACE, .t .STRING, .t .LBRACKET, .t .COMMENT, .t .QMARK,
   .t .MOD, .t .MUL, .t .FDIV, .t .TDIV, .t .POW, .t .ADD, .t .SUB, .t .BWAND, .t .BWOR,
   .t .BWXOR, .t .BWLSH, .t .BWRSH, .t .IN, .t .NOT, .t .EQ, .t .NE, .t .GT, .t .GE, .t .LT,
   .t .LE, .t .EQ_FZM, .t .EQ_FZS, .t .NE_FZM, .t .NE_FZS, .t .AND, .t .OR, .t .LPAREN, .t .ATTR,
   .t .ATTR_SAFE, .t .LBRACKET, .n .expression, .n .expression, .n .expression, .n .aryMembers,
   .t .RBRACE, .n .mapMembers, .n .expression, .n .mapMember, .t .RBRACKET, .n .aryMembers,
   .n .expression, .n .expression, .n .expression, .n .expression, .n .expression,
   .n .expression, .n .expression, .n .expression, .n .expression, .n .expression,
   .n .expression, .n .expression, .n .expression, .n .expression, .n .expression, .t .IN,
   .n .expression, .n .expression, .n .expression, .n .expression, .n .expression,
   .n .expression, .n .expression, .n .expression, .n .expression, .n .expression,
   .n .expression, .n .expression, .n .expression, .t .RPAREN, .n .aryMembers, .t .SYMBOL,
   .t .SYMBOL, .n .expression, .t .COLON, .t .RPAREN, .t .RBRACE, .t .COMMA, .t .RBRACE,
   .t .COMMA, .t .COLON, .t .RBRACKET, .t .COMMA, .t .FOR, .t .COLON, .n .expression, .t .RPAREN,
   .t .COMMA, .t .RBRACKET, .t .COLON, .t .RBRACKET, .n .expression, .t .RBRACE, .n .expression,
   .t .RBRACE, .n .mapMember, .n .expression, .n .expression, .t .RBRACKET, .t .SYMBOL,
   .n .expression, .n .expression, .t .RBRACKET, .t .RBRACKET, .t .IN, .t .RBRACKET,
   .n .expression, .t .RBRACKET, .t .IF, .n .expression, .t .RBRACKET]

/-- the symbol by which a state is entered -/
def acc (q : Nat) : Sym := (accSyms[q]?).getD (.n .start)

/-- the transitions of the automaton -/
def trans (q : Nat) : Sym → Option Nat
  | .t k =>
    match action q k with
    | some (.shift r) => some r
    | _ => none
  | .n n => gotoState q n

/-- the states from which the symbol leads to one of the states `S` -/
def preds (S : List Nat) (X : Sym) : List Nat :=
  (List.range 133).filter fun q =>
    match trans q X with
    | some r => decide (r ∈ S)
    | none => false

theorem acc_shift_fact : ∀ q ∈ List.range 133, ∀ e ∈ (actionRows[q]?).getD [],
    (match e.2 with
    | .shift r => decide (acc r = .t e.1)
    | _ => true) = true := by decide +kernel

theorem acc_goto_fact : ∀ q ∈ List.range 133, ∀ e ∈ (gotoRows[q]?).getD [], acc e.2 = .n e.1 := by
  decide +kernel

theorem acc_shift {q r : Nat} {k : Kind} (h : action q k = some (.shift r)) : acc r = .t k := by
  have := acc_shift_fact q (action_lt h) (k, .shift r) (lookup_mem h)
  simpa using this

theorem acc_goto {q r : Nat} {n : NonTerm} (h : gotoState q n = some r) : acc r = .n n :=
  acc_goto_fact q (goto_lt h) (n, r) (lookup_mem h)

theorem mem_preds {q r : Nat} {X : Sym} {S : List Nat} (h : trans q X = some r) (hr : r ∈ S) :
    q ∈ preds S X := by
  rw [preds, List.mem_filter]
  refine ⟨?_, by simp [h, hr]⟩
  cases X with
  | n n => exact goto_lt h
  | t k =>
    simp only [trans] at h
    split at h
    · rename_i ha; exact action_lt ha
    · cases h

/-! ## What the symbols on the stack stand for -/

/-- The value `v` of a symbol that was entered from state `q` and is followed by a token of kind `a`
stands for the tokens `ys`. -/
def Den (codec : LitCodec) (q : Nat) (a : Kind) (v : Sem) (ys : List Lexeme) : NonTerm → Prop
  | .expression => ∃ s : Syn, s.ok codec = true ∧ v = .node (s.raw codec) ∧ ys = s.toks ∧
      s.leftEdge.all (fits q) = true ∧ s.rightEdge.all (closes a) = true
  | .object => ∃ s : Syn, s.ok codec = true ∧ s.isObj = true ∧ v = .node (s.raw codec) ∧ ys = s.toks
  | .aryMembers => ∃ l : List Syn, l ≠ [] ∧ Syn.okList codec l = true ∧ v = .nodes (Syn.raws codec l) ∧
      ys = Syn.listToks l
  | .mapMember => ∃ k v' : Syn, k.ok codec = true ∧ v'.ok codec = true ∧
      v = .pair (k.raw codec) (v'.raw codec) ∧ ys = k.toks ++ (fixed .COLON :: v'.toks)
  | .mapMembers => ∃ l : List (Syn × Syn), l ≠ [] ∧ Syn.okPairs codec l = true ∧
      v = .pairs (Syn.rawPairs codec l) ∧ ys = Syn.pairToks l
  | .statement => ∃ s : Syn, s.ok codec = true ∧
      ((v = .stmt (s.raw codec) none ∧ ys = s.toks) ∨
       ∃ c, v = .stmt (s.raw codec) (some (String.ofList (pyStrip c.tail))) ∧
        ys = s.toks ++ [⟨.COMMENT, c⟩])
  | .start => False

/-- The stack stands for the tokens `xs`; a token of kind `a` is next. -/
inductive Stk (codec : LitCodec) : Kind → List (Nat × Sem) → List Lexeme → Prop
  | nil (a : Kind) : Stk codec a [] []
  | tok {a : Kind} {st : List (Nat × Sem)} {xs : List Lexeme} {x : Lexeme} {q : Nat} :
      Stk codec x.kind st xs → x.Proper → action (topState st) x.kind = some (.shift q) →
      Stk codec a ((q, .tok x) :: st) (xs ++ [x])
  | nt {a b : Kind} {st : List (Nat × Sem)} {xs ys : List Lexeme} {v : Sem} {q : Nat} {n : NonTerm} :
      Stk codec b st xs → gotoState (topState st) n = some q → Den codec (topState st) a v ys n →
      Stk codec a ((q, v) :: st) (xs ++ ys)

/-- pop a token -/
theorem Stk.popT {codec : LitCodec} {a : Kind} {st : List (Nat × Sem)} {xs : List Lexeme}
    (h : Stk codec a st xs) (S T : List Nat) (k : Kind) (hS : topState st ∈ S)
    (hk : (S.all fun q => decide (acc q = .t k)) = true) (hT : preds S (.t k) = T) :
    ∃ q x st' xs', st = (q, .tok x) :: st' ∧ x.kind = k ∧ x.Proper ∧ xs = xs' ++ [x] ∧
      Stk codec k st' xs' ∧ q ∈ S ∧ action (topState st') k = some (.shift q) ∧
      topState st' ∈ T := by
  subst hT
  have hacc : acc (topState st) = .t k := by
    have := List.all_eq_true.1 hk _ hS
    simpa using this
  cases h with
  | nil => exact absurd hacc (by show acc 0 ≠ _; intro h; cases h)
  | @tok _ st' xs' x q h' hx ht =>
    have : acc q = .t x.kind := acc_shift ht
    have hk' : x.kind = k := by
      have h2 : acc q = .t k := hacc
      rw [this] at h2
      cases h2; rfl
    subst hk'
    exact ⟨q, x, st', xs', rfl, rfl, hx, rfl, h', hS, ht, mem_preds (r := q) (by simp [trans, ht]) hS⟩
  | nt h' hg hd =>
    have h2 := acc_goto hg
    simp only [topState] at hacc
    rw [h2] at hacc
    cases hacc

/-- pop a nonterminal -/
theorem Stk.popN {codec : LitCodec} {a : Kind} {st : List (Nat × Sem)} {xs : List Lexeme}
    (h : Stk codec a st xs) (S T : List Nat) (n : NonTerm) (hS : topState st ∈ S)
    (hn : n ≠ .start) (hk : (S.all fun q => decide (acc q = .n n)) = true)
    (hT : preds S (.n n) = T) :
    ∃ q v st' xs' ys b, st = (q, v) :: st' ∧ xs = xs' ++ ys ∧ Den codec (topState st') a v ys n ∧
      Stk codec b st' xs' ∧ q ∈ S ∧ gotoState (topState st') n = some q ∧
      topState st' ∈ T := by
  subst hT
  have hacc : acc (topState st) = .n n := by
    have := List.all_eq_true.1 hk _ hS
    simpa using this
  cases h with
  | nil =>
    exact absurd hacc (by show acc 0 ≠ _; intro h; cases h; exact hn rfl)
  | tok h' hx ht =>
    have h2 := acc_shift ht
    simp only [topState] at hacc
    rw [h2] at hacc
    cases hacc
  | @nt _ b st' xs' ys v q n' h' hg hd =>
    have : acc q = .n n' := acc_goto hg
    have hk' : n' = n := by
      have h2 : acc q = .n n := hacc
      rw [this] at h2
      cases h2; rfl
    subst hk'
    exact ⟨q, v, st', xs', ys, b, rfl, rfl, hd, h', hS, hg, mem_preds (r := q) hg hS⟩

/-- A reduction that fits: it succeeds and the stack stands for the same tokens, or a string or bytes
literal does not decode. -/
def RedOK (codec : LitCodec) (p : Nat) (a : Kind) (st : List (Nat × Sem)) (xs : List Lexeme) : Prop :=
  (∃ st', reduceBy codec p st = .ok st' ∧ Stk codec a st' xs) ∨
  reduceBy codec p st = .error .badString ∨ reduceBy codec p st = .error .badBytes

theorem RedOK.mk {codec : LitCodec} {p n : Nat} {lhs : NonTerm} {v : Sem} {a b : Kind}
    {xs xb ys : List Lexeme} (popped below : List (Nat × Sem))
    (hp : productions[p]? = some (lhs, n)) (hn : popped.length = n)
    (hs : semAct codec p (popped.reverse.map (·.2)) = .ok v)
    (hg : (gotoState (topState below) lhs).isSome = true) (hb : Stk codec b below xb)
    (hd : Den codec (topState below) a v ys lhs) (hx : xs = xb ++ ys) :
    RedOK codec p a (popped ++ below) xs := by
  obtain ⟨q, hq⟩ := Option.isSome_iff_exists.1 hg
  subst hx
  exact .inl ⟨_, reduceBy_eq hp hn hs hq, .nt hb hq hd⟩

theorem Lexeme.Proper.eq_fixed {x : Lexeme} {k : Kind} (h : x.Proper) (hk : x.kind = k)
    (hf : k ∉ [.LBRACKET, .SYMBOL, .FLOAT, .STRING, .BYTES, .DATETIME, .TIMEDELTA, .COMMENT]) :
    x = fixed k := by
  subst hk
  exact h.2.2.2 hf

theorem Lexeme.Proper.eq_bracket {x : Lexeme} (h : x.Proper) (hk : x.kind = .LBRACKET) :
    ∃ b, x = bracket b := by
  rcases h.2.1 hk with h | h
  · exact ⟨_, h⟩
  · exact ⟨_, h⟩

theorem goto_some {q : Nat} {S : List Nat} {n : NonTerm} (h : q ∈ S)
    (hS : (S.all fun q => (gotoState q n).isSome) = true) : (gotoState q n).isSome = true :=
  List.all_eq_true.1 hS q h

/-- an expression followed by `(` shows no operator -/
theorem atom_of_edge {s : Syn} (h : s.rightEdge.all (closes .LPAREN) = true) : s.isAtom = true := by
  have hc : ∀ m, closes .LPAREN m = false := by
    intro m
    simp [closes, closers, infixKinds, binaryKinds]
  cases s <;> simp [Syn.isAtom, Syn.rightEdge, hc] at h ⊢

/-! ## Each reduction -/

/-- the states with an expression on top -/
def afterExpr : List Nat :=
  [2, 52, 53, 54, 58, 62, 63, 64, 65, 66, 67, 68, 69, 70, 71, 72, 73, 74, 75, 76, 78, 79, 80, 81,
   82, 83, 84, 85, 86, 87, 88, 89, 90, 95, 107, 113, 115, 118, 119, 122, 123, 128, 131]

/-- `object -> object ATTR SYMBOL` -/
theorem red_3 {codec : LitCodec} {a : Kind} {st : List (Nat × Sem)} {xs : List Lexeme}
    (h0 : Stk codec a st xs) (S0 : topState st ∈ [93]) : RedOK codec 3 a st xs := by
  obtain ⟨q3, x3, st3, xs3, rfl, k3, p3, rfl, h3, -, t3, S3⟩ :=
    h0.popT _ [49] .SYMBOL S0 (by decide +kernel) (by decide +kernel)
  have ne3 := p3.2.2.1 k3
  obtain ⟨y3, n3⟩ := x3
  obtain rfl : y3 = .SYMBOL := k3
  obtain ⟨q2, x2, st2, xs2, rfl, k2, p2, rfl, h2, -, t2, S2⟩ :=
    h3.popT _ [3] .ATTR S3 (by decide +kernel) (by decide +kernel)
  obtain rfl := p2.eq_fixed k2 (by decide)
  obtain ⟨q1, v1, st1, xs1, ys1, c1, rfl, rfl, d1, h1, -, t1, S1⟩ :=
    h2.popN _ exprStates .object S2 (by decide) (by decide +kernel) (by decide +kernel)
  obtain ⟨s1, ok1, ob1, rfl, rfl⟩ := d1
  refine RedOK.mk [(q3, _), (q2, _), (q1, _)] st1 rfl rfl rfl (goto_some S1 (by decide +kernel)) h1
    ⟨.attr s1 n3 false, by simp [Syn.ok, Syn.okList, Syn.okPairs, ok1, ob1], rfl, rfl, rfl⟩ ?_
  simp [Syn.toks, Syn.listToks, Syn.pairToks, trailing, dot, List.append_assoc]

/-- `object -> object ATTR_SAFE SYMBOL` -/
theorem red_4 {codec : LitCodec} {a : Kind} {st : List (Nat × Sem)} {xs : List Lexeme}
    (h0 : Stk codec a st xs) (S0 : topState st ∈ [94]) : RedOK codec 4 a st xs := by
  obtain ⟨q3, x3, st3, xs3, rfl, k3, p3, rfl, h3, -, t3, S3⟩ :=
    h0.popT _ [50] .SYMBOL S0 (by decide +kernel) (by decide +kernel)
  have ne3 := p3.2.2.1 k3
  obtain ⟨y3, n3⟩ := x3
  obtain rfl : y3 = .SYMBOL := k3
  obtain ⟨q2, x2, st2, xs2, rfl, k2, p2, rfl, h2, -, t2, S2⟩ :=
    h3.popT _ [3] .ATTR_SAFE S3 (by decide +kernel) (by decide +kernel)
  obtain rfl := p2.eq_fixed k2 (by decide)
  obtain ⟨q1, v1, st1, xs1, ys1, c1, rfl, rfl, d1, h1, -, t1, S1⟩ :=
    h2.popN _ exprStates .object S2 (by decide) (by decide +kernel) (by decide +kernel)
  obtain ⟨s1, ok1, ob1, rfl, rfl⟩ := d1
  refine RedOK.mk [(q3, _), (q2, _), (q1, _)] st1 rfl rfl rfl (goto_some S1 (by decide +kernel)) h1
    ⟨.attr s1 n3 true, by simp [Syn.ok, Syn.okList, Syn.okPairs, ok1, ob1], rfl, rfl, rfl⟩ ?_
  simp [Syn.toks, Syn.listToks, Syn.pairToks, trailing, dot, List.append_assoc]

/-- `object -> LPAREN expression RPAREN` -/
theorem red_33 {codec : LitCodec} {a : Kind} {st : List (Nat × Sem)} {xs : List Lexeme}
    (h0 : Stk codec a st xs) (S0 : topState st ∈ [97]) : RedOK codec 33 a st xs := by
  obtain ⟨q3, x3, st3, xs3, rfl, k3, p3, rfl, h3, -, t3, S3⟩ :=
    h0.popT _ [54] .RPAREN S0 (by decide +kernel) (by decide +kernel)
  obtain rfl := p3.eq_fixed k3 (by decide)
  obtain ⟨q2, v2, st2, xs2, ys2, c2, rfl, rfl, d2, h2, -, t2, S2⟩ :=
    h3.popN _ [12] .expression S3 (by decide) (by decide +kernel) (by decide +kernel)
  obtain ⟨s2, ok2, rfl, rfl, le2, re2⟩ := d2
  obtain ⟨q1, x1, st1, xs1, rfl, k1, p1, rfl, h1, -, t1, S1⟩ :=
    h2.popT _ exprStates .LPAREN S2 (by decide +kernel) (by decide +kernel)
  obtain rfl := p1.eq_fixed k1 (by decide)
  refine RedOK.mk [(q3, _), (q2, _), (q1, _)] st1 rfl rfl rfl (goto_some S1 (by decide +kernel)) h1
    ⟨.paren s2, by simp [Syn.ok, Syn.okList, Syn.okPairs, ok2], rfl, rfl, rfl⟩ ?_
  simp [Syn.toks, Syn.listToks, Syn.pairToks, trailing, dot, List.append_assoc]

/-- `object -> SYMBOL` -/
theorem red_35 {codec : LitCodec} {a : Kind} {st : List (Nat × Sem)} {xs : List Lexeme}
    (h0 : Stk codec a st xs) (S0 : topState st ∈ [11]) : RedOK codec 35 a st xs := by
  obtain ⟨q1, x1, st1, xs1, rfl, k1, p1, rfl, h1, -, t1, S1⟩ :=
    h0.popT _ exprStates .SYMBOL S0 (by decide +kernel) (by decide +kernel)
  have ne1 := p1.2.2.1 k1
  obtain ⟨y1, n1⟩ := x1
  obtain rfl : y1 = .SYMBOL := k1
  refine RedOK.mk [(q1, _)] st1 rfl rfl (semAct_sym codec n1 ne1) (goto_some S1 (by decide +kernel)) h1
    ⟨.sym n1, by simp [Syn.ok, Syn.okList, Syn.okPairs, ne1], rfl, rfl, rfl⟩ ?_
  simp [Syn.toks, Syn.listToks, Syn.pairToks, trailing, dot, List.append_assoc]

/-- `object -> DATETIME` -/
theorem red_40 {codec : LitCodec} {a : Kind} {st : List (Nat × Sem)} {xs : List Lexeme}
    (h0 : Stk codec a st xs) (S0 : topState st ∈ [14]) : RedOK codec 40 a st xs := by
  obtain ⟨q1, x1, st1, xs1, rfl, k1, p1, rfl, h1, -, t1, S1⟩ :=
    h0.popT _ exprStates .DATETIME S0 (by decide +kernel) (by decide +kernel)
  obtain ⟨y1, n1⟩ := x1
  obtain rfl : y1 = .DATETIME := k1
  refine RedOK.mk [(q1, _)] st1 rfl rfl rfl (goto_some S1 (by decide +kernel)) h1
    ⟨.datetime n1, by simp [Syn.ok, Syn.okList, Syn.okPairs], rfl, rfl, rfl⟩ ?_
  simp [Syn.toks, Syn.listToks, Syn.pairToks, trailing, dot, List.append_assoc]

/-- `object -> TIMEDELTA` -/
theorem red_41 {codec : LitCodec} {a : Kind} {st : List (Nat × Sem)} {xs : List Lexeme}
    (h0 : Stk codec a st xs) (S0 : topState st ∈ [15]) : RedOK codec 41 a st xs := by
  obtain ⟨q1, x1, st1, xs1, rfl, k1, p1, rfl, h1, -, t1, S1⟩ :=
    h0.popT _ exprStates .TIMEDELTA S0 (by decide +kernel) (by decide +kernel)
  obtain ⟨y1, n1⟩ := x1
  obtain rfl : y1 = .TIMEDELTA := k1
  refine RedOK.mk [(q1, _)] st1 rfl rfl rfl (goto_some S1 (by decide +kernel)) h1
    ⟨.timedelta n1, by simp [Syn.ok, Syn.okList, Syn.okPairs], rfl, rfl, rfl⟩ ?_
  simp [Syn.toks, Syn.listToks, Syn.pairToks, trailing, dot, List.append_assoc]

/-- `object -> NULL` -/
theorem red_45 {codec : LitCodec} {a : Kind} {st : List (Nat × Sem)} {xs : List Lexeme}
    (h0 : Stk codec a st xs) (S0 : topState st ∈ [16]) : RedOK codec 45 a st xs := by
  obtain ⟨q1, x1, st1, xs1, rfl, k1, p1, rfl, h1, -, t1, S1⟩ :=
    h0.popT _ exprStates .NULL S0 (by decide +kernel) (by decide +kernel)
  obtain rfl := p1.eq_fixed k1 (by decide)
  refine RedOK.mk [(q1, _)] st1 rfl rfl rfl (goto_some S1 (by decide +kernel)) h1
    ⟨.null, by simp [Syn.ok, Syn.okList, Syn.okPairs], rfl, rfl, rfl⟩ ?_
  simp [Syn.toks, Syn.listToks, Syn.pairToks, trailing, dot, List.append_assoc]

/-- `object -> LBRACE ary_members RBRACE` -/
theorem red_46 {codec : LitCodec} {a : Kind} {st : List (Nat × Sem)} {xs : List Lexeme}
    (h0 : Stk codec a st xs) (S0 : topState st ∈ [98]) : RedOK codec 46 a st xs := by
  obtain ⟨q3, x3, st3, xs3, rfl, k3, p3, rfl, h3, -, t3, S3⟩ :=
    h0.popT _ [55] .RBRACE S0 (by decide +kernel) (by decide +kernel)
  obtain rfl := p3.eq_fixed k3 (by decide)
  obtain ⟨q2, v2, st2, xs2, ys2, c2, rfl, rfl, d2, h2, -, t2, S2⟩ :=
    h3.popN _ [17] .aryMembers S3 (by decide) (by decide +kernel) (by decide +kernel)
  obtain ⟨l2, ne2, ok2, rfl, rfl⟩ := d2
  obtain ⟨q1, x1, st1, xs1, rfl, k1, p1, rfl, h1, -, t1, S1⟩ :=
    h2.popT _ exprStates .LBRACE S2 (by decide +kernel) (by decide +kernel)
  obtain rfl := p1.eq_fixed k1 (by decide)
  refine RedOK.mk [(q3, _), (q2, _), (q1, _)] st1 rfl rfl rfl (goto_some S1 (by decide +kernel)) h1
    ⟨.set l2 false, by simp [Syn.ok, Syn.okList, Syn.okPairs, ok2, ne2], rfl, rfl, rfl⟩ ?_
  simp [Syn.toks, Syn.listToks, Syn.pairToks, trailing, dot, List.append_assoc]

/-- `object -> LBRACE ary_members COMMA RBRACE` -/
theorem red_47 {codec : LitCodec} {a : Kind} {st : List (Nat × Sem)} {xs : List Lexeme}
    (h0 : Stk codec a st xs) (S0 : topState st ∈ [114]) : RedOK codec 47 a st xs := by
  obtain ⟨q4, x4, st4, xs4, rfl, k4, p4, rfl, h4, -, t4, S4⟩ :=
    h0.popT _ [99] .RBRACE S0 (by decide +kernel) (by decide +kernel)
  obtain rfl := p4.eq_fixed k4 (by decide)
  obtain ⟨q3, x3, st3, xs3, rfl, k3, p3, rfl, h3, -, t3, S3⟩ :=
    h4.popT _ [55] .COMMA S4 (by decide +kernel) (by decide +kernel)
  obtain rfl := p3.eq_fixed k3 (by decide)
  obtain ⟨q2, v2, st2, xs2, ys2, c2, rfl, rfl, d2, h2, -, t2, S2⟩ :=
    h3.popN _ [17] .aryMembers S3 (by decide) (by decide +kernel) (by decide +kernel)
  obtain ⟨l2, ne2, ok2, rfl, rfl⟩ := d2
  obtain ⟨q1, x1, st1, xs1, rfl, k1, p1, rfl, h1, -, t1, S1⟩ :=
    h2.popT _ exprStates .LBRACE S2 (by decide +kernel) (by decide +kernel)
  obtain rfl := p1.eq_fixed k1 (by decide)
  refine RedOK.mk [(q4, _), (q3, _), (q2, _), (q1, _)] st1 rfl rfl rfl (goto_some S1 (by decide +kernel)) h1
    ⟨.set l2 true, by simp [Syn.ok, Syn.okList, Syn.okPairs, ok2, ne2], rfl, rfl, rfl⟩ ?_
  simp [Syn.toks, Syn.listToks, Syn.pairToks, trailing, dot, List.append_assoc]

/-- `object -> LBRACKET RBRACKET` -/
theorem red_49 {codec : LitCodec} {a : Kind} {st : List (Nat × Sem)} {xs : List Lexeme}
    (h0 : Stk codec a st xs) (S0 : topState st ∈ [60]) : RedOK codec 49 a st xs := by
  obtain ⟨q2, x2, st2, xs2, rfl, k2, p2, rfl, h2, -, t2, S2⟩ :=
    h0.popT _ [19] .RBRACKET S0 (by decide +kernel) (by decide +kernel)
  obtain rfl := p2.eq_fixed k2 (by decide)
  obtain ⟨q1, x1, st1, xs1, rfl, k1, p1, rfl, h1, -, t1, S1⟩ :=
    h2.popT _ exprStates .LBRACKET S2 (by decide +kernel) (by decide +kernel)
  obtain ⟨b1, rfl⟩ := p1.eq_bracket k1
  refine RedOK.mk [(q2, _), (q1, _)] st1 rfl rfl rfl (goto_some S1 (by decide +kernel)) h1
    ⟨.array b1 [] false, by simp [Syn.ok, Syn.okList, Syn.okPairs], rfl, rfl, rfl⟩ ?_
  simp [Syn.toks, Syn.listToks, Syn.pairToks, trailing, dot, List.append_assoc]

/-- `object -> LBRACKET ary_members RBRACKET` -/
theorem red_50 {codec : LitCodec} {a : Kind} {st : List (Nat × Sem)} {xs : List Lexeme}
    (h0 : Stk codec a st xs) (S0 : topState st ∈ [103]) : RedOK codec 50 a st xs := by
  obtain ⟨q3, x3, st3, xs3, rfl, k3, p3, rfl, h3, -, t3, S3⟩ :=
    h0.popT _ [61] .RBRACKET S0 (by decide +kernel) (by decide +kernel)
  obtain rfl := p3.eq_fixed k3 (by decide)
  obtain ⟨q2, v2, st2, xs2, ys2, c2, rfl, rfl, d2, h2, -, t2, S2⟩ :=
    h3.popN _ [19] .aryMembers S3 (by decide) (by decide +kernel) (by decide +kernel)
  obtain ⟨l2, ne2, ok2, rfl, rfl⟩ := d2
  obtain ⟨q1, x1, st1, xs1, rfl, k1, p1, rfl, h1, -, t1, S1⟩ :=
    h2.popT _ exprStates .LBRACKET S2 (by decide +kernel) (by decide +kernel)
  obtain ⟨b1, rfl⟩ := p1.eq_bracket k1
  refine RedOK.mk [(q3, _), (q2, _), (q1, _)] st1 rfl rfl rfl (goto_some S1 (by decide +kernel)) h1
    ⟨.array b1 l2 false, by simp [Syn.ok, Syn.okList, Syn.okPairs, ok2, ne2], rfl, rfl, rfl⟩ ?_
  simp [Syn.toks, Syn.listToks, Syn.pairToks, trailing, dot, List.append_assoc]

/-- `object -> LBRACKET ary_members COMMA RBRACKET` -/
theorem red_51 {codec : LitCodec} {a : Kind} {st : List (Nat × Sem)} {xs : List Lexeme}
    (h0 : Stk codec a st xs) (S0 : topState st ∈ [120]) : RedOK codec 51 a st xs := by
  obtain ⟨q4, x4, st4, xs4, rfl, k4, p4, rfl, h4, -, t4, S4⟩ :=
    h0.popT _ [104] .RBRACKET S0 (by decide +kernel) (by decide +kernel)
  obtain rfl := p4.eq_fixed k4 (by decide)
  obtain ⟨q3, x3, st3, xs3, rfl, k3, p3, rfl, h3, -, t3, S3⟩ :=
    h4.popT _ [61] .COMMA S4 (by decide +kernel) (by decide +kernel)
  obtain rfl := p3.eq_fixed k3 (by decide)
  obtain ⟨q2, v2, st2, xs2, ys2, c2, rfl, rfl, d2, h2, -, t2, S2⟩ :=
    h3.popN _ [19] .aryMembers S3 (by decide) (by decide +kernel) (by decide +kernel)
  obtain ⟨l2, ne2, ok2, rfl, rfl⟩ := d2
  obtain ⟨q1, x1, st1, xs1, rfl, k1, p1, rfl, h1, -, t1, S1⟩ :=
    h2.popT _ exprStates .LBRACKET S2 (by decide +kernel) (by decide +kernel)
  obtain ⟨b1, rfl⟩ := p1.eq_bracket k1
  refine RedOK.mk [(q4, _), (q3, _), (q2, _), (q1, _)] st1 rfl rfl rfl (goto_some S1 (by decide +kernel)) h1
    ⟨.array b1 l2 true, by simp [Syn.ok, Syn.okList, Syn.okPairs, ok2, ne2], rfl, rfl, rfl⟩ ?_
  simp [Syn.toks, Syn.listToks, Syn.pairToks, trailing, dot, List.append_assoc]

/-- `object -> LBRACKET expression FOR SYMBOL IN expression RBRACKET` -/
theorem red_52 {codec : LitCodec} {a : Kind} {st : List (Nat × Sem)} {xs : List Lexeme}
    (h0 : Stk codec a st xs) (S0 : topState st ∈ [129]) : RedOK codec 52 a st xs := by
  obtain ⟨q7, x7, st7, xs7, rfl, k7, p7, rfl, h7, -, t7, S7⟩ :=
    h0.popT _ [128] .RBRACKET S0 (by decide +kernel) (by decide +kernel)
  obtain rfl := p7.eq_fixed k7 (by decide)
  obtain ⟨q6, v6, st6, xs6, ys6, c6, rfl, rfl, d6, h6, -, t6, S6⟩ :=
    h7.popN _ [126] .expression S7 (by decide) (by decide +kernel) (by decide +kernel)
  obtain ⟨s6, ok6, rfl, rfl, le6, re6⟩ := d6
  obtain ⟨q5, x5, st5, xs5, rfl, k5, p5, rfl, h5, -, t5, S5⟩ :=
    h6.popT _ [121] .IN S6 (by decide +kernel) (by decide +kernel)
  obtain rfl := p5.eq_fixed k5 (by decide)
  obtain ⟨q4, x4, st4, xs4, rfl, k4, p4, rfl, h4, -, t4, S4⟩ :=
    h5.popT _ [105] .SYMBOL S5 (by decide +kernel) (by decide +kernel)
  have ne4 := p4.2.2.1 k4
  obtain ⟨y4, n4⟩ := x4
  obtain rfl : y4 = .SYMBOL := k4
  obtain ⟨q3, x3, st3, xs3, rfl, k3, p3, rfl, h3, -, t3, S3⟩ :=
    h4.popT _ [62] .FOR S4 (by decide +kernel) (by decide +kernel)
  obtain rfl := p3.eq_fixed k3 (by decide)
  obtain ⟨q2, v2, st2, xs2, ys2, c2, rfl, rfl, d2, h2, -, t2, S2⟩ :=
    h3.popN _ [19] .expression S3 (by decide) (by decide +kernel) (by decide +kernel)
  obtain ⟨s2, ok2, rfl, rfl, le2, re2⟩ := d2
  obtain ⟨q1, x1, st1, xs1, rfl, k1, p1, rfl, h1, -, t1, S1⟩ :=
    h2.popT _ exprStates .LBRACKET S2 (by decide +kernel) (by decide +kernel)
  obtain ⟨b1, rfl⟩ := p1.eq_bracket k1
  refine RedOK.mk [(q7, _), (q6, _), (q5, _), (q4, _), (q3, _), (q2, _), (q1, _)] st1 rfl rfl rfl (goto_some S1 (by decide +kernel)) h1
    ⟨.comp b1 s2 n4 s6, by simp [Syn.ok, Syn.okList, Syn.okPairs, ok2, ok6], rfl, rfl, rfl⟩ ?_
  simp [Syn.toks, Syn.listToks, Syn.pairToks, trailing, dot, List.append_assoc]

/-- `object -> LBRACKET expression FOR SYMBOL IN expression IF expression RBRACKET` -/
theorem red_53 {codec : LitCodec} {a : Kind} {st : List (Nat × Sem)} {xs : List Lexeme}
    (h0 : Stk codec a st xs) (S0 : topState st ∈ [132]) : RedOK codec 53 a st xs := by
  obtain ⟨q9, x9, st9, xs9, rfl, k9, p9, rfl, h9, -, t9, S9⟩ :=
    h0.popT _ [131] .RBRACKET S0 (by decide +kernel) (by decide +kernel)
  obtain rfl := p9.eq_fixed k9 (by decide)
  obtain ⟨q8, v8, st8, xs8, ys8, c8, rfl, rfl, d8, h8, -, t8, S8⟩ :=
    h9.popN _ [130] .expression S9 (by decide) (by decide +kernel) (by decide +kernel)
  obtain ⟨s8, ok8, rfl, rfl, le8, re8⟩ := d8
  obtain ⟨q7, x7, st7, xs7, rfl, k7, p7, rfl, h7, -, t7, S7⟩ :=
    h8.popT _ [128] .IF S8 (by decide +kernel) (by decide +kernel)
  obtain rfl := p7.eq_fixed k7 (by decide)
  obtain ⟨q6, v6, st6, xs6, ys6, c6, rfl, rfl, d6, h6, -, t6, S6⟩ :=
    h7.popN _ [126] .expression S7 (by decide) (by decide +kernel) (by decide +kernel)
  obtain ⟨s6, ok6, rfl, rfl, le6, re6⟩ := d6
  obtain ⟨q5, x5, st5, xs5, rfl, k5, p5, rfl, h5, -, t5, S5⟩ :=
    h6.popT _ [121] .IN S6 (by decide +kernel) (by decide +kernel)
  obtain rfl := p5.eq_fixed k5 (by decide)
  obtain ⟨q4, x4, st4, xs4, rfl, k4, p4, rfl, h4, -, t4, S4⟩ :=
    h5.popT _ [105] .SYMBOL S5 (by decide +kernel) (by decide +kernel)
  have ne4 := p4.2.2.1 k4
  obtain ⟨y4, n4⟩ := x4
  obtain rfl : y4 = .SYMBOL := k4
  obtain ⟨q3, x3, st3, xs3, rfl, k3, p3, rfl, h3, -, t3, S3⟩ :=
    h4.popT _ [62] .FOR S4 (by decide +kernel) (by decide +kernel)
  obtain rfl := p3.eq_fixed k3 (by decide)
  obtain ⟨q2, v2, st2, xs2, ys2, c2, rfl, rfl, d2, h2, -, t2, S2⟩ :=
    h3.popN _ [19] .expression S3 (by decide) (by decide +kernel) (by decide +kernel)
  obtain ⟨s2, ok2, rfl, rfl, le2, re2⟩ := d2
  obtain ⟨q1, x1, st1, xs1, rfl, k1, p1, rfl, h1, -, t1, S1⟩ :=
    h2.popT _ exprStates .LBRACKET S2 (by decide +kernel) (by decide +kernel)
  obtain ⟨b1, rfl⟩ := p1.eq_bracket k1
  refine RedOK.mk [(q9, _), (q8, _), (q7, _), (q6, _), (q5, _), (q4, _), (q3, _), (q2, _), (q1, _)] st1 rfl rfl rfl (goto_some S1 (by decide +kernel)) h1
    ⟨.compIf b1 s2 n4 s6 s8, by simp [Syn.ok, Syn.okList, Syn.okPairs, ok2, ok6, ok8], rfl, rfl, rfl⟩ ?_
  simp [Syn.toks, Syn.listToks, Syn.pairToks, trailing, dot, List.append_assoc]

/-- `object -> LBRACE RBRACE` -/
theorem red_56 {codec : LitCodec} {a : Kind} {st : List (Nat × Sem)} {xs : List Lexeme}
    (h0 : Stk codec a st xs) (S0 : topState st ∈ [56]) : RedOK codec 56 a st xs := by
  obtain ⟨q2, x2, st2, xs2, rfl, k2, p2, rfl, h2, -, t2, S2⟩ :=
    h0.popT _ [17] .RBRACE S0 (by decide +kernel) (by decide +kernel)
  obtain rfl := p2.eq_fixed k2 (by decide)
  obtain ⟨q1, x1, st1, xs1, rfl, k1, p1, rfl, h1, -, t1, S1⟩ :=
    h2.popT _ exprStates .LBRACE S2 (by decide +kernel) (by decide +kernel)
  obtain rfl := p1.eq_fixed k1 (by decide)
  refine RedOK.mk [(q2, _), (q1, _)] st1 rfl rfl rfl (goto_some S1 (by decide +kernel)) h1
    ⟨.mapping [] false, by simp [Syn.ok, Syn.okList, Syn.okPairs], rfl, rfl, rfl⟩ ?_
  simp [Syn.toks, Syn.listToks, Syn.pairToks, trailing, dot, List.append_assoc]

/-- `object -> LBRACE map_members RBRACE` -/
theorem red_57 {codec : LitCodec} {a : Kind} {st : List (Nat × Sem)} {xs : List Lexeme}
    (h0 : Stk codec a st xs) (S0 : topState st ∈ [100]) : RedOK codec 57 a st xs := by
  obtain ⟨q3, x3, st3, xs3, rfl, k3, p3, rfl, h3, -, t3, S3⟩ :=
    h0.popT _ [57] .RBRACE S0 (by decide +kernel) (by decide +kernel)
  obtain rfl := p3.eq_fixed k3 (by decide)
  obtain ⟨q2, v2, st2, xs2, ys2, c2, rfl, rfl, d2, h2, -, t2, S2⟩ :=
    h3.popN _ [17] .mapMembers S3 (by decide) (by decide +kernel) (by decide +kernel)
  obtain ⟨l2, ne2, ok2, rfl, rfl⟩ := d2
  obtain ⟨q1, x1, st1, xs1, rfl, k1, p1, rfl, h1, -, t1, S1⟩ :=
    h2.popT _ exprStates .LBRACE S2 (by decide +kernel) (by decide +kernel)
  obtain rfl := p1.eq_fixed k1 (by decide)
  refine RedOK.mk [(q3, _), (q2, _), (q1, _)] st1 rfl rfl rfl (goto_some S1 (by decide +kernel)) h1
    ⟨.mapping l2 false, by simp [Syn.ok, Syn.okList, Syn.okPairs, ok2, ne2], rfl, rfl, rfl⟩ ?_
  simp [Syn.toks, Syn.listToks, Syn.pairToks, trailing, dot, List.append_assoc]

/-- `object -> LBRACE map_members COMMA RBRACE` -/
theorem red_58 {codec : LitCodec} {a : Kind} {st : List (Nat × Sem)} {xs : List Lexeme}
    (h0 : Stk codec a st xs) (S0 : topState st ∈ [116]) : RedOK codec 58 a st xs := by
  obtain ⟨q4, x4, st4, xs4, rfl, k4, p4, rfl, h4, -, t4, S4⟩ :=
    h0.popT _ [101] .RBRACE S0 (by decide +kernel) (by decide +kernel)
  obtain rfl := p4.eq_fixed k4 (by decide)
  obtain ⟨q3, x3, st3, xs3, rfl, k3, p3, rfl, h3, -, t3, S3⟩ :=
    h4.popT _ [57] .COMMA S4 (by decide +kernel) (by decide +kernel)
  obtain rfl := p3.eq_fixed k3 (by decide)
  obtain ⟨q2, v2, st2, xs2, ys2, c2, rfl, rfl, d2, h2, -, t2, S2⟩ :=
    h3.popN _ [17] .mapMembers S3 (by decide) (by decide +kernel) (by decide +kernel)
  obtain ⟨l2, ne2, ok2, rfl, rfl⟩ := d2
  obtain ⟨q1, x1, st1, xs1, rfl, k1, p1, rfl, h1, -, t1, S1⟩ :=
    h2.popT _ exprStates .LBRACE S2 (by decide +kernel) (by decide +kernel)
  obtain rfl := p1.eq_fixed k1 (by decide)
  refine RedOK.mk [(q4, _), (q3, _), (q2, _), (q1, _)] st1 rfl rfl rfl (goto_some S1 (by decide +kernel)) h1
    ⟨.mapping l2 true, by simp [Syn.ok, Syn.okList, Syn.okPairs, ok2, ne2], rfl, rfl, rfl⟩ ?_
  simp [Syn.toks, Syn.listToks, Syn.pairToks, trailing, dot, List.append_assoc]

/-- `object -> object LBRACKET expression RBRACKET` -/
theorem red_62 {codec : LitCodec} {a : Kind} {st : List (Nat × Sem)} {xs : List Lexeme}
    (h0 : Stk codec a st xs) (S0 : topState st ∈ [110]) : RedOK codec 62 a st xs := by
  obtain ⟨q4, x4, st4, xs4, rfl, k4, p4, rfl, h4, -, t4, S4⟩ :=
    h0.popT _ [95] .RBRACKET S0 (by decide +kernel) (by decide +kernel)
  obtain rfl := p4.eq_fixed k4 (by decide)
  obtain ⟨q3, v3, st3, xs3, ys3, c3, rfl, rfl, d3, h3, -, t3, S3⟩ :=
    h4.popN _ [51] .expression S4 (by decide) (by decide +kernel) (by decide +kernel)
  obtain ⟨s3, ok3, rfl, rfl, le3, re3⟩ := d3
  obtain ⟨q2, x2, st2, xs2, rfl, k2, p2, rfl, h2, -, t2, S2⟩ :=
    h3.popT _ [3] .LBRACKET S3 (by decide +kernel) (by decide +kernel)
  obtain ⟨b2, rfl⟩ := p2.eq_bracket k2
  obtain ⟨q1, v1, st1, xs1, ys1, c1, rfl, rfl, d1, h1, -, t1, S1⟩ :=
    h2.popN _ exprStates .object S2 (by decide) (by decide +kernel) (by decide +kernel)
  obtain ⟨s1, ok1, ob1, rfl, rfl⟩ := d1
  refine RedOK.mk [(q4, _), (q3, _), (q2, _), (q1, _)] st1 rfl rfl (by cases b2 <;> rfl) (goto_some S1 (by decide +kernel)) h1
    ⟨.item s1 s3 b2, by simp [Syn.ok, Syn.okList, Syn.okPairs, ok1, ok3, ob1], rfl, rfl, rfl⟩ ?_
  simp [Syn.toks, Syn.listToks, Syn.pairToks, trailing, dot, List.append_assoc]

/-- `object -> object LBRACKET COLON RBRACKET` -/
theorem red_63 {codec : LitCodec} {a : Kind} {st : List (Nat × Sem)} {xs : List Lexeme}
    (h0 : Stk codec a st xs) (S0 : topState st ∈ [112]) : RedOK codec 63 a st xs := by
  obtain ⟨q4, x4, st4, xs4, rfl, k4, p4, rfl, h4, -, t4, S4⟩ :=
    h0.popT _ [96] .RBRACKET S0 (by decide +kernel) (by decide +kernel)
  obtain rfl := p4.eq_fixed k4 (by decide)
  obtain ⟨q3, x3, st3, xs3, rfl, k3, p3, rfl, h3, -, t3, S3⟩ :=
    h4.popT _ [51] .COLON S4 (by decide +kernel) (by decide +kernel)
  obtain rfl := p3.eq_fixed k3 (by decide)
  obtain ⟨q2, x2, st2, xs2, rfl, k2, p2, rfl, h2, -, t2, S2⟩ :=
    h3.popT _ [3] .LBRACKET S3 (by decide +kernel) (by decide +kernel)
  obtain ⟨b2, rfl⟩ := p2.eq_bracket k2
  obtain ⟨q1, v1, st1, xs1, ys1, c1, rfl, rfl, d1, h1, -, t1, S1⟩ :=
    h2.popN _ exprStates .object S2 (by decide) (by decide +kernel) (by decide +kernel)
  obtain ⟨s1, ok1, ob1, rfl, rfl⟩ := d1
  refine RedOK.mk [(q4, _), (q3, _), (q2, _), (q1, _)] st1 rfl rfl (by cases b2 <;> rfl) (goto_some S1 (by decide +kernel)) h1
    ⟨.slice s1 b2, by simp [Syn.ok, Syn.okList, Syn.okPairs, ok1, ob1], rfl, rfl, rfl⟩ ?_
  simp [Syn.toks, Syn.listToks, Syn.pairToks, trailing, dot, List.append_assoc]

/-- `object -> object LBRACKET COLON expression RBRACKET` -/
theorem red_64 {codec : LitCodec} {a : Kind} {st : List (Nat × Sem)} {xs : List Lexeme}
    (h0 : Stk codec a st xs) (S0 : topState st ∈ [125]) : RedOK codec 64 a st xs := by
  obtain ⟨q5, x5, st5, xs5, rfl, k5, p5, rfl, h5, -, t5, S5⟩ :=
    h0.popT _ [113] .RBRACKET S0 (by decide +kernel) (by decide +kernel)
  obtain rfl := p5.eq_fixed k5 (by decide)
  obtain ⟨q4, v4, st4, xs4, ys4, c4, rfl, rfl, d4, h4, -, t4, S4⟩ :=
    h5.popN _ [96] .expression S5 (by decide) (by decide +kernel) (by decide +kernel)
  obtain ⟨s4, ok4, rfl, rfl, le4, re4⟩ := d4
  obtain ⟨q3, x3, st3, xs3, rfl, k3, p3, rfl, h3, -, t3, S3⟩ :=
    h4.popT _ [51] .COLON S4 (by decide +kernel) (by decide +kernel)
  obtain rfl := p3.eq_fixed k3 (by decide)
  obtain ⟨q2, x2, st2, xs2, rfl, k2, p2, rfl, h2, -, t2, S2⟩ :=
    h3.popT _ [3] .LBRACKET S3 (by decide +kernel) (by decide +kernel)
  obtain ⟨b2, rfl⟩ := p2.eq_bracket k2
  obtain ⟨q1, v1, st1, xs1, ys1, c1, rfl, rfl, d1, h1, -, t1, S1⟩ :=
    h2.popN _ exprStates .object S2 (by decide) (by decide +kernel) (by decide +kernel)
  obtain ⟨s1, ok1, ob1, rfl, rfl⟩ := d1
  refine RedOK.mk [(q5, _), (q4, _), (q3, _), (q2, _), (q1, _)] st1 rfl rfl (by cases b2 <;> rfl) (goto_some S1 (by decide +kernel)) h1
    ⟨.sliceTo s1 s4 b2, by simp [Syn.ok, Syn.okList, Syn.okPairs, ok1, ok4, ob1], rfl, rfl, rfl⟩ ?_
  simp [Syn.toks, Syn.listToks, Syn.pairToks, trailing, dot, List.append_assoc]

/-- `object -> object LBRACKET expression COLON RBRACKET` -/
theorem red_65 {codec : LitCodec} {a : Kind} {st : List (Nat × Sem)} {xs : List Lexeme}
    (h0 : Stk codec a st xs) (S0 : topState st ∈ [124]) : RedOK codec 65 a st xs := by
  obtain ⟨q5, x5, st5, xs5, rfl, k5, p5, rfl, h5, -, t5, S5⟩ :=
    h0.popT _ [111] .RBRACKET S0 (by decide +kernel) (by decide +kernel)
  obtain rfl := p5.eq_fixed k5 (by decide)
  obtain ⟨q4, x4, st4, xs4, rfl, k4, p4, rfl, h4, -, t4, S4⟩ :=
    h5.popT _ [95] .COLON S5 (by decide +kernel) (by decide +kernel)
  obtain rfl := p4.eq_fixed k4 (by decide)
  obtain ⟨q3, v3, st3, xs3, ys3, c3, rfl, rfl, d3, h3, -, t3, S3⟩ :=
    h4.popN _ [51] .expression S4 (by decide) (by decide +kernel) (by decide +kernel)
  obtain ⟨s3, ok3, rfl, rfl, le3, re3⟩ := d3
  obtain ⟨q2, x2, st2, xs2, rfl, k2, p2, rfl, h2, -, t2, S2⟩ :=
    h3.popT _ [3] .LBRACKET S3 (by decide +kernel) (by decide +kernel)
  obtain ⟨b2, rfl⟩ := p2.eq_bracket k2
  obtain ⟨q1, v1, st1, xs1, ys1, c1, rfl, rfl, d1, h1, -, t1, S1⟩ :=
    h2.popN _ exprStates .object S2 (by decide) (by decide +kernel) (by decide +kernel)
  obtain ⟨s1, ok1, ob1, rfl, rfl⟩ := d1
  refine RedOK.mk [(q5, _), (q4, _), (q3, _), (q2, _), (q1, _)] st1 rfl rfl (by cases b2 <;> rfl) (goto_some S1 (by decide +kernel)) h1
    ⟨.sliceFrom s1 s3 b2, by simp [Syn.ok, Syn.okList, Syn.okPairs, ok1, ok3, ob1], rfl, rfl, rfl⟩ ?_
  simp [Syn.toks, Syn.listToks, Syn.pairToks, trailing, dot, List.append_assoc]

/-- `object -> object LBRACKET expression COLON expression RBRACKET` -/
theorem red_66 {codec : LitCodec} {a : Kind} {st : List (Nat × Sem)} {xs : List Lexeme}
    (h0 : Stk codec a st xs) (S0 : topState st ∈ [127]) : RedOK codec 66 a st xs := by
  obtain ⟨q6, x6, st6, xs6, rfl, k6, p6, rfl, h6, -, t6, S6⟩ :=
    h0.popT _ [123] .RBRACKET S0 (by decide +kernel) (by decide +kernel)
  obtain rfl := p6.eq_fixed k6 (by decide)
  obtain ⟨q5, v5, st5, xs5, ys5, c5, rfl, rfl, d5, h5, -, t5, S5⟩ :=
    h6.popN _ [111] .expression S6 (by decide) (by decide +kernel) (by decide +kernel)
  obtain ⟨s5, ok5, rfl, rfl, le5, re5⟩ := d5
  obtain ⟨q4, x4, st4, xs4, rfl, k4, p4, rfl, h4, -, t4, S4⟩ :=
    h5.popT _ [95] .COLON S5 (by decide +kernel) (by decide +kernel)
  obtain rfl := p4.eq_fixed k4 (by decide)
  obtain ⟨q3, v3, st3, xs3, ys3, c3, rfl, rfl, d3, h3, -, t3, S3⟩ :=
    h4.popN _ [51] .expression S4 (by decide) (by decide +kernel) (by decide +kernel)
  obtain ⟨s3, ok3, rfl, rfl, le3, re3⟩ := d3
  obtain ⟨q2, x2, st2, xs2, rfl, k2, p2, rfl, h2, -, t2, S2⟩ :=
    h3.popT _ [3] .LBRACKET S3 (by decide +kernel) (by decide +kernel)
  obtain ⟨b2, rfl⟩ := p2.eq_bracket k2
  obtain ⟨q1, v1, st1, xs1, ys1, c1, rfl, rfl, d1, h1, -, t1, S1⟩ :=
    h2.popN _ exprStates .object S2 (by decide) (by decide +kernel) (by decide +kernel)
  obtain ⟨s1, ok1, ob1, rfl, rfl⟩ := d1
  refine RedOK.mk [(q6, _), (q5, _), (q4, _), (q3, _), (q2, _), (q1, _)] st1 rfl rfl (by cases b2 <;> rfl) (goto_some S1 (by decide +kernel)) h1
    ⟨.sliceBoth s1 s3 s5 b2, by simp [Syn.ok, Syn.okList, Syn.okPairs, ok1, ok3, ok5, ob1], rfl, rfl, rfl⟩ ?_
  simp [Syn.toks, Syn.listToks, Syn.pairToks, trailing, dot, List.append_assoc]

/-- `object -> expression LPAREN RPAREN` -/
theorem red_67 {codec : LitCodec} {a : Kind} {st : List (Nat × Sem)} {xs : List Lexeme}
    (h0 : Stk codec a st xs) (S0 : topState st ∈ [91]) : RedOK codec 67 a st xs := by
  obtain ⟨q3, x3, st3, xs3, rfl, k3, p3, rfl, h3, -, t3, S3⟩ :=
    h0.popT _ [48] .RPAREN S0 (by decide +kernel) (by decide +kernel)
  obtain rfl := p3.eq_fixed k3 (by decide)
  obtain ⟨q2, x2, st2, xs2, rfl, k2, p2, rfl, h2, -, t2, S2⟩ :=
    h3.popT _ afterExpr .LPAREN S3 (by decide +kernel) (by decide +kernel)
  obtain rfl := p2.eq_fixed k2 (by decide)
  obtain ⟨q1, v1, st1, xs1, ys1, c1, rfl, rfl, d1, h1, -, t1, S1⟩ :=
    h2.popN _ exprStates .expression S2 (by decide) (by decide +kernel) (by decide +kernel)
  obtain ⟨s1, ok1, rfl, rfl, le1, re1⟩ := d1
  have at1 := atom_of_edge re1
  refine RedOK.mk [(q3, _), (q2, _), (q1, _)] st1 rfl rfl rfl (goto_some S1 (by decide +kernel)) h1
    ⟨.call s1 [], by simp [Syn.ok, Syn.okList, Syn.okPairs, ok1, at1], rfl, rfl, rfl⟩ ?_
  simp [Syn.toks, Syn.listToks, Syn.pairToks, trailing, dot, List.append_assoc]

/-- `object -> expression LPAREN ary_members RPAREN` -/
theorem red_68 {codec : LitCodec} {a : Kind} {st : List (Nat × Sem)} {xs : List Lexeme}
    (h0 : Stk codec a st xs) (S0 : topState st ∈ [108]) : RedOK codec 68 a st xs := by
  obtain ⟨q4, x4, st4, xs4, rfl, k4, p4, rfl, h4, -, t4, S4⟩ :=
    h0.popT _ [92] .RPAREN S0 (by decide +kernel) (by decide +kernel)
  obtain rfl := p4.eq_fixed k4 (by decide)
  obtain ⟨q3, v3, st3, xs3, ys3, c3, rfl, rfl, d3, h3, -, t3, S3⟩ :=
    h4.popN _ [48] .aryMembers S4 (by decide) (by decide +kernel) (by decide +kernel)
  obtain ⟨l3, ne3, ok3, rfl, rfl⟩ := d3
  obtain ⟨q2, x2, st2, xs2, rfl, k2, p2, rfl, h2, -, t2, S2⟩ :=
    h3.popT _ afterExpr .LPAREN S3 (by decide +kernel) (by decide +kernel)
  obtain rfl := p2.eq_fixed k2 (by decide)
  obtain ⟨q1, v1, st1, xs1, ys1, c1, rfl, rfl, d1, h1, -, t1, S1⟩ :=
    h2.popN _ exprStates .expression S2 (by decide) (by decide +kernel) (by decide +kernel)
  obtain ⟨s1, ok1, rfl, rfl, le1, re1⟩ := d1
  have at1 := atom_of_edge re1
  refine RedOK.mk [(q4, _), (q3, _), (q2, _), (q1, _)] st1 rfl rfl rfl (goto_some S1 (by decide +kernel)) h1
    ⟨.call s1 l3, by simp [Syn.ok, Syn.okList, Syn.okPairs, ok1, ok3, ne3, at1], rfl, rfl, rfl⟩ ?_
  simp [Syn.toks, Syn.listToks, Syn.pairToks, trailing, dot, List.append_assoc]

end RE
