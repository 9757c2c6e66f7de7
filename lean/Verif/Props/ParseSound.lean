import Verif.Props.ParseStack

/-!
# Everything the parser accepts is written as the precedence table says (C40, C49)

The converse of `parse_as_written`: when tokens are accepted they spell a syntax tree with all the
parentheses the table requires, and the result is that tree.  The tables and the grammar actions fit
together: the parser never fails in any way but those of the documentation.
-/

set_option linter.unusedSimpArgs false

namespace RE

/-! ## The other reductions -/

/-! Members and items at the end of a list. -/

theorem moreToks_append (l : List Syn) (x : Syn) :
    Syn.moreToks (l ++ [x]) = Syn.moreToks l ++ Syn.moreToks [x] := by
  induction l with
  | nil => simp [Syn.moreToks]
  | cons y l ih => simp [Syn.moreToks, ih]

theorem listToks_append {l : List Syn} (h : l ≠ []) (x : Syn) :
    Syn.listToks (l ++ [x]) = Syn.listToks l ++ Syn.moreToks [x] := by
  cases l with
  | nil => exact absurd rfl h
  | cons y l => simp [Syn.listToks, moreToks_append]

theorem raws_append (codec : LitCodec) (l : List Syn) (x : Syn) :
    Syn.raws codec (l ++ [x]) = Syn.raws codec l ++ [x.raw codec] := by
  induction l with
  | nil => simp [Syn.raws]
  | cons y l ih => simp [Syn.raws, ih]

theorem okList_append (codec : LitCodec) (l : List Syn) (x : Syn) :
    Syn.okList codec (l ++ [x]) = (Syn.okList codec l && x.ok codec) := by
  induction l with
  | nil => simp [Syn.okList]
  | cons y l ih => simp [Syn.okList, ih, Bool.and_assoc]

theorem morePairToks_append (l : List (Syn × Syn)) (x : Syn × Syn) :
    Syn.morePairToks (l ++ [x]) = Syn.morePairToks l ++ Syn.morePairToks [x] := by
  induction l with
  | nil => simp [Syn.morePairToks]
  | cons y l ih => obtain ⟨k, v⟩ := y; simp [Syn.morePairToks, ih]

theorem pairToks_append {l : List (Syn × Syn)} (h : l ≠ []) (x : Syn × Syn) :
    Syn.pairToks (l ++ [x]) = Syn.pairToks l ++ Syn.morePairToks [x] := by
  cases l with
  | nil => exact absurd rfl h
  | cons y l => obtain ⟨k, v⟩ := y; simp [Syn.pairToks, morePairToks_append]

theorem rawPairs_append (codec : LitCodec) (l : List (Syn × Syn)) (k v : Syn) :
    Syn.rawPairs codec (l ++ [(k, v)]) = Syn.rawPairs codec l ++ [(k.raw codec, v.raw codec)] := by
  induction l with
  | nil => simp [Syn.rawPairs]
  | cons y l ih => obtain ⟨k, v⟩ := y; simp [Syn.rawPairs, ih]

theorem okPairs_append (codec : LitCodec) (l : List (Syn × Syn)) (k v : Syn) :
    Syn.okPairs codec (l ++ [(k, v)]) = (Syn.okPairs codec l && (k.ok codec && v.ok codec)) := by
  induction l with
  | nil => simp [Syn.okPairs]
  | cons y l ih => obtain ⟨k, v⟩ := y; simp [Syn.okPairs, ih, Bool.and_assoc]

/-! What the table says about operators. -/

theorem expr_goto_fact : ∀ q ∈ List.range 133,
    ((gotoState q .expression).isSome → q ∈ exprStates) := by decide +kernel

theorem expr_goto_iff {q r : Nat} (h : gotoState q .expression = some r) :
    q ∈ exprStates ∧ r = exprGoto q := by
  have hq := expr_goto_fact q (goto_lt h) (by rw [h]; rfl)
  have := expr_goto q hq
  rw [h] at this
  exact ⟨hq, Option.some.inj this⟩

theorem shift_fits_fact : ∀ q ∈ exprStates, ∀ k ∈ infixKinds,
    (match action (exprGoto q) k with
    | some (.shift _) => fits q (level k)
    | _ => true) = true := by decide +kernel

/-- an infix token is shifted only if its operator groups before the pending one -/
theorem shift_fits {q r s : Nat} {k : Kind} (h : gotoState q .expression = some r)
    (hk : k ∈ infixKinds) (ha : action r k = some (.shift s)) : fits q (level k) = true := by
  obtain ⟨hq, rfl⟩ := expr_goto_iff h
  have := shift_fits_fact q hq k hk
  rwa [ha] at this

theorem Kind.mem_all (a : Kind) : a ∈ Kind.all := by cases a <;> decide

/-- the states, productions and levels of the operators that are neither binary nor in brackets -/
def otherOps : List (Nat × Nat × Nat) :=
  [(53, 34, 3), (52, 36, 13), (76, 19, 8), (107, 20, 8), (122, 6, 7)]

theorem reduce_closes_fact : ∀ e ∈ otherOps ++ binaryKinds.map
    (fun k => (exprGoto (opState k), opProd k, level k)), ∀ a ∈ Kind.all,
    action e.1 a = some (.reduce e.2.1) → closes a e.2.2 = true := by decide +kernel

/-- an operator is reduced only if the next token ends it -/
theorem reduce_closes (e : Nat × Nat × Nat) (he : e ∈ otherOps ++ binaryKinds.map
    (fun k => (exprGoto (opState k), opProd k, level k))) (a : Kind)
    (h : action e.1 a = some (.reduce e.2.1)) : closes a e.2.2 = true :=
  reduce_closes_fact e he a (Kind.mem_all a) h

theorem infix_not_closer : ∀ k ∈ infixKinds, k ∉ closers := by decide

theorem all_before {ls : List Nat} {k : Kind} (h : ls.all (closes k) = true) (hk : k ∈ infixKinds) :
    ls.all (before · (level k)) = true := by
  rw [List.all_eq_true] at h ⊢
  intro m hm
  have := h m hm
  simpa [closes, infix_not_closer k hk, hk] using this

theorem all_after {ls : List Nat} {q m : Nat} {S : List Nat} (hq : q ∈ S) (h : ls.all (fits q) = true)
    (hS : (S.all fun q => decide (pending q = some m)) = true) : ls.all (after · m) = true := by
  have hp : pending q = some m := by simpa using List.all_eq_true.1 hS q hq
  rw [List.all_eq_true] at h ⊢
  intro l hl
  have := h l hl
  simpa [fits, hp] using this

theorem edges_obj1 {s : Syn} (h : s.isObj = true) : s.leftEdge = [] := by
  cases s <;> first | rfl | simp [Syn.isObj] at h

theorem edges_obj2 {s : Syn} (h : s.isObj = true) : s.rightEdge = [] := by
  cases s <;> first | rfl | simp [Syn.isObj] at h

theorem binary_states_fact : ∀ k ∈ binaryKinds,
    acc (exprGoto (opState k)) = .n .expression ∧
    preds [exprGoto (opState k)] (.n .expression) = [opState k] ∧ acc (opState k) = .t k ∧
    ((preds [opState k] (.t k)).all fun q => decide (acc q = .n .expression)) = true ∧
    k ∉ [.LBRACKET, .SYMBOL, .FLOAT, .STRING, .BYTES, .DATETIME, .TIMEDELTA, .COMMENT] := by
  decide +kernel

/-- `expression -> expression op expression` -/
theorem red_binary {codec : LitCodec} {a : Kind} {st : List (Nat × Sem)} {xs : List Lexeme} (k : Kind)
    (hk : k ∈ binaryKinds) (h0 : Stk codec a st xs) (S0 : topState st = exprGoto (opState k))
    (ha : action (exprGoto (opState k)) a = some (.reduce (opProd k))) :
    RedOK codec (opProd k) a st xs := by
  obtain ⟨f1, f2, f3, f4, f5⟩ := binary_states_fact k hk
  have hi := (binary_mem_infix k hk).1
  obtain ⟨q3, v3, st3, xs3, ys3, c3, rfl, rfl, d3, h3, -, t3, S3⟩ :=
    h0.popN [exprGoto (opState k)] [opState k] .expression (by simp [S0]) (by decide) (by simp [f1]) f2
  obtain ⟨s3, ok3, rfl, rfl, le3, re3⟩ := d3
  obtain ⟨q2, x2, st2, xs2, rfl, k2, p2, rfl, h2, -, t2, S2⟩ :=
    h3.popT _ _ k S3 (by simp [f3]) rfl
  obtain rfl := p2.eq_fixed k2 f5
  obtain ⟨q1, v1, st1, xs1, ys1, c1, rfl, rfl, d1, h1, -, t1, S1⟩ :=
    h2.popN _ _ .expression S2 (by decide) f4 rfl
  obtain ⟨s1, ok1, rfl, rfl, le1, re1⟩ := d1
  have hq2 : topState ((q2, Sem.tok (fixed k)) :: (q1, .node (s1.raw codec)) :: st1) = opState k := by
    simpa using S3
  refine RedOK.mk [(q3, _), (q2, _), (q1, _)] st1 (opProd_prod k hk) rfl (opProd_sem codec k hk _ _)
    (by rw [t1]; rfl) h1 ⟨.bin k s1 s3, ?_, rfl, rfl, ?_, ?_⟩ ?_
  · simp only [Syn.ok, ok1, ok3, hk, decide_true, Bool.true_and, Bool.and_eq_true]
    refine ⟨all_before re1 hi, all_after (S := [opState k]) (by simpa using hq2) le3 ?_⟩
    simp [(opState_mem k hk).2]
  · simp only [Syn.leftEdge, List.all_cons, le1, Bool.and_true]
    exact shift_fits t1 hi t2
  · simp only [Syn.rightEdge, List.all_cons, re3, Bool.and_true]
    exact reduce_closes (exprGoto (opState k), opProd k, level k)
      (List.mem_append_right _ (List.mem_map_of_mem hk)) a ha
  · simp [Syn.toks]

/-- `expression -> TRUE` -/
theorem red_37 {codec : LitCodec} {a : Kind} {st : List (Nat × Sem)} {xs : List Lexeme}
    (h0 : Stk codec a st xs) (S0 : topState st ∈ [6]) :
    RedOK codec 37 a st xs := by
  obtain ⟨q1, x1, st1, xs1, rfl, k1, p1, rfl, h1, m1, t1, S1⟩ :=
    h0.popT _ exprStates .TRUE S0 (by decide +kernel) (by decide +kernel)
  obtain rfl := p1.eq_fixed k1 (by decide)
  refine RedOK.mk [(q1, _)] st1 rfl rfl rfl (goto_some S1 (by decide +kernel)) h1
    ⟨.bool true, rfl, rfl, rfl, rfl, rfl⟩ ?_
  simp [Syn.toks]

/-- `expression -> FALSE` -/
theorem red_38 {codec : LitCodec} {a : Kind} {st : List (Nat × Sem)} {xs : List Lexeme}
    (h0 : Stk codec a st xs) (S0 : topState st ∈ [7]) :
    RedOK codec 38 a st xs := by
  obtain ⟨q1, x1, st1, xs1, rfl, k1, p1, rfl, h1, m1, t1, S1⟩ :=
    h0.popT _ exprStates .FALSE S0 (by decide +kernel) (by decide +kernel)
  obtain rfl := p1.eq_fixed k1 (by decide)
  refine RedOK.mk [(q1, _)] st1 rfl rfl rfl (goto_some S1 (by decide +kernel)) h1
    ⟨.bool false, rfl, rfl, rfl, rfl, rfl⟩ ?_
  simp [Syn.toks]

/-- `expression -> FLOAT` -/
theorem red_42 {codec : LitCodec} {a : Kind} {st : List (Nat × Sem)} {xs : List Lexeme}
    (h0 : Stk codec a st xs) (S0 : topState st ∈ [8]) :
    RedOK codec 42 a st xs := by
  obtain ⟨q1, x1, st1, xs1, rfl, k1, p1, rfl, h1, m1, t1, S1⟩ :=
    h0.popT _ exprStates .FLOAT S0 (by decide +kernel) (by decide +kernel)
  obtain ⟨y1, n1⟩ := x1
  obtain rfl : y1 = .FLOAT := k1
  refine RedOK.mk [(q1, _)] st1 rfl rfl rfl (goto_some S1 (by decide +kernel)) h1
    ⟨.num n1, rfl, rfl, rfl, rfl, rfl⟩ ?_
  simp [Syn.toks]

/-- `expression -> FLOAT_NAN` -/
theorem red_43 {codec : LitCodec} {a : Kind} {st : List (Nat × Sem)} {xs : List Lexeme}
    (h0 : Stk codec a st xs) (S0 : topState st ∈ [9]) :
    RedOK codec 43 a st xs := by
  obtain ⟨q1, x1, st1, xs1, rfl, k1, p1, rfl, h1, m1, t1, S1⟩ :=
    h0.popT _ exprStates .FLOAT_NAN S0 (by decide +kernel) (by decide +kernel)
  obtain rfl := p1.eq_fixed k1 (by decide)
  refine RedOK.mk [(q1, _)] st1 rfl rfl rfl (goto_some S1 (by decide +kernel)) h1
    ⟨.nan, rfl, rfl, rfl, rfl, rfl⟩ ?_
  simp [Syn.toks]

/-- `expression -> FLOAT_INF` -/
theorem red_44 {codec : LitCodec} {a : Kind} {st : List (Nat × Sem)} {xs : List Lexeme}
    (h0 : Stk codec a st xs) (S0 : topState st ∈ [10]) :
    RedOK codec 44 a st xs := by
  obtain ⟨q1, x1, st1, xs1, rfl, k1, p1, rfl, h1, m1, t1, S1⟩ :=
    h0.popT _ exprStates .FLOAT_INF S0 (by decide +kernel) (by decide +kernel)
  obtain rfl := p1.eq_fixed k1 (by decide)
  refine RedOK.mk [(q1, _)] st1 rfl rfl rfl (goto_some S1 (by decide +kernel)) h1
    ⟨.inf, rfl, rfl, rfl, rfl, rfl⟩ ?_
  simp [Syn.toks]

/-- `expression -> object` -/
theorem red_5 {codec : LitCodec} {a : Kind} {st : List (Nat × Sem)} {xs : List Lexeme}
    (h0 : Stk codec a st xs) (S0 : topState st ∈ [3]) :
    RedOK codec 5 a st xs := by
  obtain ⟨q1, v1, st1, xs1, ys1, c1, rfl, rfl, d1, h1, m1, t1, S1⟩ :=
    h0.popN _ exprStates .object S0 (by decide) (by decide +kernel) (by decide +kernel)
  obtain ⟨s1, ok1, ob1, rfl, rfl⟩ := d1
  refine RedOK.mk [(q1, _)] st1 rfl rfl rfl (goto_some S1 (by decide +kernel)) h1
    ⟨s1, ok1, rfl, rfl, by rw [edges_obj1 ob1]; rfl, by rw [edges_obj2 ob1]; rfl⟩ ?_
  simp

/-- `statement -> expression` -/
theorem red_1 {codec : LitCodec} {a : Kind} {st : List (Nat × Sem)} {xs : List Lexeme}
    (h0 : Stk codec a st xs) (S0 : topState st ∈ [2]) :
    RedOK codec 1 a st xs := by
  obtain ⟨q1, v1, st1, xs1, ys1, c1, rfl, rfl, d1, h1, m1, t1, S1⟩ :=
    h0.popN _ [0] .expression S0 (by decide) (by decide +kernel) (by decide +kernel)
  obtain ⟨s1, ok1, rfl, rfl, le1, re1⟩ := d1
  refine RedOK.mk [(q1, _)] st1 rfl rfl rfl (goto_some S1 (by decide +kernel)) h1
    ⟨s1, ok1, .inl ⟨rfl, rfl⟩⟩ ?_
  simp

/-- `statement -> expression COMMENT` -/
theorem red_2 {codec : LitCodec} {a : Kind} {st : List (Nat × Sem)} {xs : List Lexeme}
    (h0 : Stk codec a st xs) (S0 : topState st ∈ [20]) :
    RedOK codec 2 a st xs := by
  obtain ⟨q2, x2, st2, xs2, rfl, k2, p2, rfl, h2, m2, t2, S2⟩ :=
    h0.popT _ [2] .COMMENT S0 (by decide +kernel) (by decide +kernel)
  obtain ⟨y2, n2⟩ := x2
  obtain rfl : y2 = .COMMENT := k2
  obtain ⟨q1, v1, st1, xs1, ys1, c1, rfl, rfl, d1, h1, m1, t1, S1⟩ :=
    h2.popN _ [0] .expression S2 (by decide) (by decide +kernel) (by decide +kernel)
  obtain ⟨s1, ok1, rfl, rfl, le1, re1⟩ := d1
  refine RedOK.mk [(q2, _), (q1, _)] st1 rfl rfl rfl (goto_some S1 (by decide +kernel)) h1
    ⟨s1, ok1, .inr ⟨n2, rfl, rfl⟩⟩ ?_
  simp

/-- `ary_members -> expression` -/
theorem red_54 {codec : LitCodec} {a : Kind} {st : List (Nat × Sem)} {xs : List Lexeme}
    (h0 : Stk codec a st xs) (S0 : topState st ∈ [58, 62, 90]) :
    RedOK codec 54 a st xs := by
  obtain ⟨q1, v1, st1, xs1, ys1, c1, rfl, rfl, d1, h1, m1, t1, S1⟩ :=
    h0.popN _ [17, 19, 48] .expression S0 (by decide) (by decide +kernel) (by decide +kernel)
  obtain ⟨s1, ok1, rfl, rfl, le1, re1⟩ := d1
  refine RedOK.mk [(q1, _)] st1 rfl rfl rfl (goto_some S1 (by decide +kernel)) h1
    ⟨[s1], by simp, by simp [Syn.okList, ok1], rfl, rfl⟩ ?_
  simp [Syn.listToks, Syn.moreToks]

/-- `ary_members -> ary_members COMMA expression` -/
theorem red_55 {codec : LitCodec} {a : Kind} {st : List (Nat × Sem)} {xs : List Lexeme}
    (h0 : Stk codec a st xs) (S0 : topState st ∈ [115]) :
    RedOK codec 55 a st xs := by
  obtain ⟨q3, v3, st3, xs3, ys3, c3, rfl, rfl, d3, h3, m3, t3, S3⟩ :=
    h0.popN _ [99, 104, 109] .expression S0 (by decide) (by decide +kernel) (by decide +kernel)
  obtain ⟨s3, ok3, rfl, rfl, le3, re3⟩ := d3
  obtain ⟨q2, x2, st2, xs2, rfl, k2, p2, rfl, h2, m2, t2, S2⟩ :=
    h3.popT _ [55, 61, 92] .COMMA S3 (by decide +kernel) (by decide +kernel)
  obtain rfl := p2.eq_fixed k2 (by decide)
  obtain ⟨q1, v1, st1, xs1, ys1, c1, rfl, rfl, d1, h1, m1, t1, S1⟩ :=
    h2.popN _ [17, 19, 48] .aryMembers S2 (by decide) (by decide +kernel) (by decide +kernel)
  obtain ⟨l1, ne1, ok1, rfl, rfl⟩ := d1
  refine RedOK.mk [(q3, _), (q2, _), (q1, _)] st1 rfl rfl rfl (goto_some S1 (by decide +kernel)) h1
    ⟨l1 ++ [s3], by simp, by simp [okList_append, Syn.okList, ok1, ok3], by rw [raws_append], rfl⟩ ?_
  simp [listToks_append ne1, Syn.moreToks]

/-- `map_member -> expression COLON expression` -/
theorem red_59 {codec : LitCodec} {a : Kind} {st : List (Nat × Sem)} {xs : List Lexeme}
    (h0 : Stk codec a st xs) (S0 : topState st ∈ [119]) :
    RedOK codec 59 a st xs := by
  obtain ⟨q3, v3, st3, xs3, ys3, c3, rfl, rfl, d3, h3, m3, t3, S3⟩ :=
    h0.popN _ [102] .expression S0 (by decide) (by decide +kernel) (by decide +kernel)
  obtain ⟨s3, ok3, rfl, rfl, le3, re3⟩ := d3
  obtain ⟨q2, x2, st2, xs2, rfl, k2, p2, rfl, h2, m2, t2, S2⟩ :=
    h3.popT _ [58, 118] .COLON S3 (by decide +kernel) (by decide +kernel)
  obtain rfl := p2.eq_fixed k2 (by decide)
  obtain ⟨q1, v1, st1, xs1, ys1, c1, rfl, rfl, d1, h1, m1, t1, S1⟩ :=
    h2.popN _ [17, 101] .expression S2 (by decide) (by decide +kernel) (by decide +kernel)
  obtain ⟨s1, ok1, rfl, rfl, le1, re1⟩ := d1
  refine RedOK.mk [(q3, _), (q2, _), (q1, _)] st1 rfl rfl rfl (goto_some S1 (by decide +kernel)) h1
    ⟨s1, s3, ok1, ok3, rfl, rfl⟩ ?_
  simp

/-- `map_members -> map_member` -/
theorem red_60 {codec : LitCodec} {a : Kind} {st : List (Nat × Sem)} {xs : List Lexeme}
    (h0 : Stk codec a st xs) (S0 : topState st ∈ [59]) :
    RedOK codec 60 a st xs := by
  obtain ⟨q1, v1, st1, xs1, ys1, c1, rfl, rfl, d1, h1, m1, t1, S1⟩ :=
    h0.popN _ [17] .mapMember S0 (by decide) (by decide +kernel) (by decide +kernel)
  obtain ⟨sk1, sv1, okk1, okv1, rfl, rfl⟩ := d1
  refine RedOK.mk [(q1, _)] st1 rfl rfl rfl (goto_some S1 (by decide +kernel)) h1
    ⟨[(sk1, sv1)], by simp, by simp [Syn.okPairs, okk1, okv1], rfl, rfl⟩ ?_
  simp [Syn.pairToks, Syn.morePairToks]

/-- `map_members -> map_members COMMA map_member` -/
theorem red_61 {codec : LitCodec} {a : Kind} {st : List (Nat × Sem)} {xs : List Lexeme}
    (h0 : Stk codec a st xs) (S0 : topState st ∈ [117]) :
    RedOK codec 61 a st xs := by
  obtain ⟨q3, v3, st3, xs3, ys3, c3, rfl, rfl, d3, h3, m3, t3, S3⟩ :=
    h0.popN _ [101] .mapMember S0 (by decide) (by decide +kernel) (by decide +kernel)
  obtain ⟨sk3, sv3, okk3, okv3, rfl, rfl⟩ := d3
  obtain ⟨q2, x2, st2, xs2, rfl, k2, p2, rfl, h2, m2, t2, S2⟩ :=
    h3.popT _ [57] .COMMA S3 (by decide +kernel) (by decide +kernel)
  obtain rfl := p2.eq_fixed k2 (by decide)
  obtain ⟨q1, v1, st1, xs1, ys1, c1, rfl, rfl, d1, h1, m1, t1, S1⟩ :=
    h2.popN _ [17] .mapMembers S2 (by decide) (by decide +kernel) (by decide +kernel)
  obtain ⟨l1, ne1, ok1, rfl, rfl⟩ := d1
  refine RedOK.mk [(q3, _), (q2, _), (q1, _)] st1 rfl rfl rfl (goto_some S1 (by decide +kernel)) h1
    ⟨l1 ++ [(sk3, sv3)], by simp, by simp [okPairs_append, Syn.okPairs, ok1, okk3, okv3],
      by rw [rawPairs_append], rfl⟩ ?_
  simp [pairToks_append ne1, Syn.morePairToks]

/-- `expression -> NOT expression` -/
theorem red_34 {codec : LitCodec} {a : Kind} {st : List (Nat × Sem)} {xs : List Lexeme}
    (h0 : Stk codec a st xs) (S0 : topState st ∈ [53]) (ha : action 53 a = some (.reduce 34)) :
    RedOK codec 34 a st xs := by
  obtain ⟨q2, v2, st2, xs2, ys2, c2, rfl, rfl, d2, h2, m2, t2, S2⟩ :=
    h0.popN _ [5] .expression S0 (by decide) (by decide +kernel) (by decide +kernel)
  obtain ⟨s2, ok2, rfl, rfl, le2, re2⟩ := d2
  obtain ⟨q1, x1, st1, xs1, rfl, k1, p1, rfl, h1, m1, t1, S1⟩ :=
    h2.popT _ exprStates .NOT S2 (by decide +kernel) (by decide +kernel)
  obtain rfl := p1.eq_fixed k1 (by decide)
  refine RedOK.mk [(q2, _), (q1, _)] st1 rfl rfl rfl (goto_some S1 (by decide +kernel)) h1
    ⟨.not s2, ?_, rfl, rfl, rfl, ?_⟩ ?_
  · simp only [Syn.ok, ok2, Bool.true_and]
    exact all_after m1 le2 (by decide)
  · simp only [Syn.rightEdge, List.all_cons, re2, Bool.and_true]
    exact reduce_closes (53, 34, 3) (by decide) a ha
  · simp [Syn.toks]

/-- `expression -> SUB expression` -/
theorem red_36 {codec : LitCodec} {a : Kind} {st : List (Nat × Sem)} {xs : List Lexeme}
    (h0 : Stk codec a st xs) (S0 : topState st ∈ [52]) (ha : action 52 a = some (.reduce 36)) :
    RedOK codec 36 a st xs := by
  obtain ⟨q2, v2, st2, xs2, ys2, c2, rfl, rfl, d2, h2, m2, t2, S2⟩ :=
    h0.popN _ [4] .expression S0 (by decide) (by decide +kernel) (by decide +kernel)
  obtain ⟨s2, ok2, rfl, rfl, le2, re2⟩ := d2
  obtain ⟨q1, x1, st1, xs1, rfl, k1, p1, rfl, h1, m1, t1, S1⟩ :=
    h2.popT _ exprStates .SUB S2 (by decide +kernel) (by decide +kernel)
  obtain rfl := p1.eq_fixed k1 (by decide)
  refine RedOK.mk [(q2, _), (q1, _)] st1 rfl rfl rfl (goto_some S1 (by decide +kernel)) h1
    ⟨.neg s2, ?_, rfl, rfl, rfl, ?_⟩ ?_
  · simp only [Syn.ok, ok2, Bool.true_and]
    exact all_after m1 le2 (by decide)
  · simp only [Syn.rightEdge, List.all_cons, re2, Bool.and_true]
    exact reduce_closes (52, 36, 13) (by decide) a ha
  · simp [Syn.toks]

/-- `expression -> expression IN expression` -/
theorem red_19 {codec : LitCodec} {a : Kind} {st : List (Nat × Sem)} {xs : List Lexeme}
    (h0 : Stk codec a st xs) (S0 : topState st ∈ [76]) (ha : action 76 a = some (.reduce 19)) :
    RedOK codec 19 a st xs := by
  obtain ⟨q3, v3, st3, xs3, ys3, c3, rfl, rfl, d3, h3, m3, t3, S3⟩ :=
    h0.popN _ [34] .expression S0 (by decide) (by decide +kernel) (by decide +kernel)
  obtain ⟨s3, ok3, rfl, rfl, le3, re3⟩ := d3
  obtain ⟨q2, x2, st2, xs2, rfl, k2, p2, rfl, h2, m2, t2, S2⟩ :=
    h3.popT _ _ .IN S3 (by decide +kernel) rfl
  obtain rfl := p2.eq_fixed k2 (by decide)
  obtain ⟨q1, v1, st1, xs1, ys1, c1, rfl, rfl, d1, h1, m1, t1, S1⟩ :=
    h2.popN _ _ .expression S2 (by decide) (by decide +kernel) rfl
  obtain ⟨s1, ok1, rfl, rfl, le1, re1⟩ := d1
  refine RedOK.mk [(q3, _), (q2, _), (q1, _)] st1 rfl rfl rfl (by rw [t1]; rfl) h1
    ⟨.isIn s1 s3, ?_, rfl, rfl, ?_, ?_⟩ ?_
  · simp only [Syn.ok, ok1, ok3, Bool.true_and, Bool.and_eq_true]
    exact ⟨all_before re1 (by decide), all_after m2 le3 (by decide)⟩
  · simp only [Syn.leftEdge, List.all_cons, le1, Bool.and_true]
    exact shift_fits t1 (by decide) t2
  · simp only [Syn.rightEdge, List.all_cons, re3, Bool.and_true]
    exact reduce_closes (76, 19, 8) (by decide) a ha
  · simp [Syn.toks]

/-- `expression -> expression NOT IN expression` -/
theorem red_20 {codec : LitCodec} {a : Kind} {st : List (Nat × Sem)} {xs : List Lexeme}
    (h0 : Stk codec a st xs) (S0 : topState st ∈ [107]) (ha : action 107 a = some (.reduce 20)) :
    RedOK codec 20 a st xs := by
  obtain ⟨q4, v4, st4, xs4, ys4, c4, rfl, rfl, d4, h4, m4, t4, S4⟩ :=
    h0.popN _ [77] .expression S0 (by decide) (by decide +kernel) (by decide +kernel)
  obtain ⟨s4, ok4, rfl, rfl, le4, re4⟩ := d4
  obtain ⟨q3, x3, st3, xs3, rfl, k3, p3, rfl, h3, m3, t3, S3⟩ :=
    h4.popT _ [35] .IN S4 (by decide +kernel) (by decide +kernel)
  obtain rfl := p3.eq_fixed k3 (by decide)
  obtain ⟨q2, x2, st2, xs2, rfl, k2, p2, rfl, h2, m2, t2, S2⟩ :=
    h3.popT _ _ .NOT S3 (by decide +kernel) rfl
  obtain rfl := p2.eq_fixed k2 (by decide)
  obtain ⟨q1, v1, st1, xs1, ys1, c1, rfl, rfl, d1, h1, m1, t1, S1⟩ :=
    h2.popN _ _ .expression S2 (by decide) (by decide +kernel) rfl
  obtain ⟨s1, ok1, rfl, rfl, le1, re1⟩ := d1
  refine RedOK.mk [(q4, _), (q3, _), (q2, _), (q1, _)] st1 rfl rfl rfl (by rw [t1]; rfl) h1
    ⟨.notIn s1 s4, ?_, rfl, rfl, ?_, ?_⟩ ?_
  · simp only [Syn.ok, ok1, ok4, Bool.true_and, Bool.and_eq_true]
    exact ⟨all_before re1 (by decide), all_after m3 le4 (by decide)⟩
  · simp only [Syn.leftEdge, List.all_cons, le1, Bool.and_true]
    exact shift_fits t1 (by decide) t2
  · simp only [Syn.rightEdge, List.all_cons, re4, Bool.and_true]
    exact reduce_closes (107, 20, 8) (by decide) a ha
  · simp [Syn.toks]

/-- `expression -> expression QMARK expression COLON expression` -/
theorem red_6 {codec : LitCodec} {a : Kind} {st : List (Nat × Sem)} {xs : List Lexeme}
    (h0 : Stk codec a st xs) (S0 : topState st ∈ [122]) (ha : action 122 a = some (.reduce 6)) :
    RedOK codec 6 a st xs := by
  obtain ⟨q5, v5, st5, xs5, ys5, c5, rfl, rfl, d5, h5, m5, t5, S5⟩ :=
    h0.popN _ [106] .expression S0 (by decide) (by decide +kernel) (by decide +kernel)
  obtain ⟨s5, ok5, rfl, rfl, le5, re5⟩ := d5
  obtain ⟨q4, x4, st4, xs4, rfl, k4, p4, rfl, h4, m4, t4, S4⟩ :=
    h5.popT _ [63] .COLON S5 (by decide +kernel) (by decide +kernel)
  obtain rfl := p4.eq_fixed k4 (by decide)
  obtain ⟨q3, v3, st3, xs3, ys3, c3, rfl, rfl, d3, h3, m3, t3, S3⟩ :=
    h4.popN _ [21] .expression S4 (by decide) (by decide +kernel) (by decide +kernel)
  obtain ⟨s3, ok3, rfl, rfl, le3, re3⟩ := d3
  obtain ⟨q2, x2, st2, xs2, rfl, k2, p2, rfl, h2, m2, t2, S2⟩ :=
    h3.popT _ _ .QMARK S3 (by decide +kernel) rfl
  obtain rfl := p2.eq_fixed k2 (by decide)
  obtain ⟨q1, v1, st1, xs1, ys1, c1, rfl, rfl, d1, h1, m1, t1, S1⟩ :=
    h2.popN _ _ .expression S2 (by decide) (by decide +kernel) rfl
  obtain ⟨s1, ok1, rfl, rfl, le1, re1⟩ := d1
  refine RedOK.mk [(q5, _), (q4, _), (q3, _), (q2, _), (q1, _)] st1 rfl rfl rfl (by rw [t1]; rfl) h1
    ⟨.tern s1 s3 s5, ?_, rfl, rfl, ?_, ?_⟩ ?_
  · simp only [Syn.ok, ok1, ok3, ok5, Bool.true_and, Bool.and_eq_true]
    exact ⟨all_before re1 (by decide), all_after m4 le5 (by decide)⟩
  · simp only [Syn.leftEdge, List.all_cons, le1, Bool.and_true]
    exact shift_fits t1 (by decide) t2
  · simp only [Syn.rightEdge, List.all_cons, re5, Bool.and_true]
    exact reduce_closes (122, 6, 7) (by decide) a ha
  · simp [Syn.toks]

/-- `object -> BYTES` -/
theorem red_39 {codec : LitCodec} {a : Kind} {st : List (Nat × Sem)} {xs : List Lexeme}
    (h0 : Stk codec a st xs) (S0 : topState st ∈ [13]) :
    RedOK codec 39 a st xs := by
  obtain ⟨q1, x1, st1, xs1, rfl, k1, p1, rfl, h1, m1, t1, S1⟩ :=
    h0.popT _ exprStates .BYTES S0 (by decide +kernel) (by decide +kernel)
  obtain ⟨y1, n1⟩ := x1
  obtain rfl : y1 = .BYTES := k1
  cases hc : codec.bytes n1 with
  | none =>
    refine .inr (.inr ?_)
    simp [reduceBy, productions, semAct, actBytes, hc]
  | some v =>
    refine RedOK.mk [(q1, _)] st1 rfl rfl (v := .node (.lit (.bytes v)))
      (by simp [semAct, actBytes, hc]) (goto_some S1 (by decide +kernel)) h1
      ⟨.bytes n1, by simp [Syn.ok, hc], rfl, by simp [Syn.raw, hc], rfl⟩ ?_
    simp [Syn.toks]

/-- `object -> STRING` -/
theorem red_48 {codec : LitCodec} {a : Kind} {st : List (Nat × Sem)} {xs : List Lexeme}
    (h0 : Stk codec a st xs) (S0 : topState st ∈ [18]) :
    RedOK codec 48 a st xs := by
  obtain ⟨q1, x1, st1, xs1, rfl, k1, p1, rfl, h1, m1, t1, S1⟩ :=
    h0.popT _ exprStates .STRING S0 (by decide +kernel) (by decide +kernel)
  obtain ⟨y1, n1⟩ := x1
  obtain rfl : y1 = .STRING := k1
  cases hc : codec.str n1.tail.dropLast with
  | none =>
    refine .inr (.inl ?_)
    simp [reduceBy, productions, semAct, actString, hc]
  | some v =>
    refine RedOK.mk [(q1, _)] st1 rfl rfl (v := .node (.lit (.str v)))
      (by simp [semAct, actString, hc]) (goto_some S1 (by decide +kernel)) h1
      ⟨.str n1, by simp [Syn.ok, hc], rfl, by simp [Syn.raw, hc], rfl⟩ ?_
    simp [Syn.toks]

end RE
