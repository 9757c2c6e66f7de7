import Verif.Props.Calls

/-!
# Function calls, the `$` scope, attributes (C28, C44, C45)
-/

set_option linter.unusedSimpArgs false

namespace RE

/-! ## C28: function calls -/

/-- Specification: may a function of type `ft` be called with these arguments?  At least the declared
minimum and at most the declared number of arguments, each of a type compatible with the declared
one. -/
def CallAllowed (ft : DataType) (args : List Value) : Prop :=
  ∃ name ret ats min, ft = .function name ret ats min ∧
    (∀ m, min = some m → m ≤ args.length) ∧
    (∀ ts, ats = some ts → args.length ≤ ts.length ∧
      ∀ (i : Nat) (a : Value) (t : DataType), args[i]? = some a → ts[i]? = some t →
        ∃ u, fromValue a = .ok u ∧ DataType.compat u t = true)

theorem validateArgs_iff : ∀ (args : List Value) (ts : List DataType),
    validateArgs args ts = .ok () ↔
      ∀ (i : Nat) (a : Value) (t : DataType), args[i]? = some a → ts[i]? = some t →
        ∃ u, fromValue a = .ok u ∧ DataType.compat u t = true
  | [], ts => by simp [validateArgs]
  | _ :: _, [] => by simp [validateArgs]
  | v :: vs, t :: ts => by
    simp only [validateArgs, except_bind_ok]
    constructor
    · rintro ⟨u, hu, h⟩ i a t' ha ht
      split at h
      · cases i with
        | zero =>
          simp only [List.getElem?_cons_zero, Option.some.injEq] at ha ht
          subst ha ht
          exact ⟨u, hu, ‹_›⟩
        | succ i => exact (validateArgs_iff vs ts).1 h i a t' (by simpa using ha) (by simpa using ht)
      · cases h
    · intro h
      obtain ⟨u, hu, hc⟩ := h 0 v t rfl rfl
      refine ⟨u, hu, ?_⟩
      rw [if_pos hc]
      exact (validateArgs_iff vs ts).2 fun i a t' ha ht =>
        h (i + 1) a t' (by simpa using ha) (by simpa using ht)

theorem validateCallValues_iff (ft : DataType) (args : List Value) :
    validateCallValues ft args = .ok () ↔ CallAllowed ft args := by
  unfold validateCallValues CallAllowed
  cases ft with
  | function name ret ats min =>
    simp only [DataType.function.injEq]
    constructor
    · intro h
      have hm : ∀ m, min = some m → m ≤ args.length := by
        rintro m rfl
        by_contra hc
        simp [show args.length < m by omega, badArg] at h
      rw [if_neg (by cases min <;> simp_all)] at h
      refine ⟨name, ret, ats, min, ⟨rfl, rfl, rfl, rfl⟩, hm, ?_⟩
      rintro ts rfl
      by_cases hl : args.length > ts.length
      · simp [hl, badArg] at h
      · simp only [hl, if_false] at h
        exact ⟨by omega, (validateArgs_iff args ts).1 h⟩
    · rintro ⟨_, _, _, _, ⟨rfl, rfl, rfl, rfl⟩, h1, h2⟩
      rw [if_neg]
      · cases ats with
        | none => rfl
        | some ts =>
          have := h2 ts rfl
          simp only
          rw [if_neg (by omega)]
          exact (validateArgs_iff args ts).2 this.2
      · cases min with
        | none => simp
        | some m => simpa using h1 m rfl
  | _ => simp

/-- **C28.** A function whose type is known is not called at all if the call is not allowed: the
expression raises, and nothing has happened after the arguments were evaluated. -/
theorem disallowed_call_raises (env : Env) (dc : DecCtx) (thing : Value) (f : Expr)
    (args : List Expr) (s s1 s2 : St) (fv : Value) (vs : List Value)
    (hf : eval env dc thing f s = (.ok fv, s1)) (hcall : fv.isCallable = true)
    (ha : seqM (evals env dc thing args) s1 = (.ok vs, s2))
    (hk : DataType.eq f.rt .undefined = false) (hn : ¬ CallAllowed f.rt vs) :
    ∃ e, eval env dc thing (.call f args) s = (.error e, s2) := by
  simp only [eval]
  rw [M.bind_ok hf, if_pos hcall, M.bind_ok ha]
  unfold evalCall
  rw [if_neg (by simp [hk])]
  cases h : validateCallValues f.rt vs with
  | ok _ => exact (hn ((validateCallValues_iff _ _).1 h)).elim
  | error e => exact ⟨e, M.bind_error (by rw [M.lift_apply])⟩

/-- **C28.** Calling something that is not a function raises, without evaluating the arguments. -/
theorem uncallable_raises (env : Env) (dc : DecCtx) (thing : Value) (f : Expr) (args : List Expr)
    (s s1 : St) (fv : Value) (hf : eval env dc thing f s = (.ok fv, s1))
    (hcall : fv.isCallable = false) :
    eval env dc thing (.call f args) s = (.error .mismatch, s1) := by
  simp only [eval]
  rw [M.bind_ok hf]
  simp [hcall]

theorem eval_call_eq (env : Env) (dc : DecCtx) (thing : Value) (f : Expr)
    (args : List Expr) (s s1 s2 : St) (fv : Value) (vs : List Value)
    (hf : eval env dc thing f s = (.ok fv, s1)) (hcall : fv.isCallable = true)
    (ha : seqM (evals env dc thing args) s1 = (.ok vs, s2))
    (hk : DataType.eq f.rt .undefined = true ∨ CallAllowed f.rt vs) :
    eval env dc thing (.call f args) s = finishCall env dc (callNodeType f.rt) fv vs s2 := by
  simp only [eval]
  rw [M.bind_ok hf, if_pos hcall, M.bind_ok ha]
  unfold evalCall
  split
  · rfl
  · rename_i hu
    rcases hk with hk | hk
    · exact (hu hk).elim
    · rw [(validateCallValues_iff _ _).2 hk]; rfl

/-- **C28.** Whatever the function raises, the expression raises FunctionCallError. -/
theorem function_errors_wrapped (env : Env) (dc : DecCtx) (thing : Value) (f : Expr)
    (args : List Expr) (s s1 s2 s3 : St) (fv : Value) (vs : List Value) (err : Err)
    (hf : eval env dc thing f s = (.ok fv, s1)) (hcall : fv.isCallable = true)
    (ha : seqM (evals env dc thing args) s1 = (.ok vs, s2))
    (hk : DataType.eq f.rt .undefined = true ∨ CallAllowed f.rt vs)
    (hr : callFn env dc fv vs s2 = (.error err, s3)) :
    eval env dc thing (.call f args) s = (.error (.eng .functionCall), s3) := by
  rw [eval_call_eq env dc thing f args s s1 s2 fv vs hf hcall ha hk]
  unfold finishCall
  refine M.bind_error ?_
  simp only [M.catchErr, hr, M.throw_apply]

/-- **C28.** If the function returns a value of a known type that is incompatible with the declared
return type, the expression raises FunctionCallError. -/
theorem incompatible_result_raises (env : Env) (dc : DecCtx) (thing : Value) (f : Expr)
    (args : List Expr) (s s1 s2 s3 : St) (fv : Value) (vs : List Value) (r : Value) (t : DataType)
    (hf : eval env dc thing f s = (.ok fv, s1)) (hcall : fv.isCallable = true)
    (ha : seqM (evals env dc thing args) s1 = (.ok vs, s2))
    (hk : DataType.eq f.rt .undefined = true ∨ CallAllowed f.rt vs)
    (hr : callFn env dc fv vs s2 = (.ok r, s3)) (ht : fromValue (newValue env r) = .ok t)
    (hn : DataType.compat t (callNodeType f.rt) = false) :
    eval env dc thing (.call f args) s = (.error (.eng .functionCall), s3) := by
  rw [eval_call_eq env dc thing f args s s1 s2 fv vs hf hcall ha hk]
  unfold finishCall
  rw [M.bind_ok (a := r) (s' := s3) (by simp only [M.catchErr, hr])]
  have hl : ∀ v, fromValue (localise env v) = fromValue v := by
    intro v
    unfold localise
    split <;> rfl
  have hcv : coerceVerify env.utcoffset r = .ok (coerce env.utcoffset r) := by
    unfold coerceVerify
    unfold newValue at ht
    rw [hl] at ht
    simp only [ht]
    rfl
  rw [M.bind_ok (a := coerce env.utcoffset r) (s' := s3) (by rw [M.lift_apply, hcv])]
  rw [M.bind_ok (a := t) (s' := s3) (by rw [M.lift_apply]; unfold newValue at ht; rw [ht])]
  rw [if_neg (by simp [hn])]
  rfl

/-- **C28.** Conversely, if the expression returns a value then the function was called (on the
evaluated arguments, and allowed if its type is known), it returned, and the result is its coerced
value, of a type compatible with the declared return type. -/
theorem call_returns (env : Env) (dc : DecCtx) (thing : Value) (f : Expr) (args : List Expr)
    (s s' : St) (v : Value) (h : eval env dc thing (.call f args) s = (.ok v, s')) :
    ∃ fv s1 vs s2 r t, eval env dc thing f s = (.ok fv, s1) ∧ fv.isCallable = true ∧
      seqM (evals env dc thing args) s1 = (.ok vs, s2) ∧
      (DataType.eq f.rt .undefined = true ∨ CallAllowed f.rt vs) ∧
      callFn env dc fv vs s2 = (.ok r, s') ∧ v = newValue env r ∧
      fromValue v = .ok t ∧ DataType.compat t (callNodeType f.rt) = true := by
  have hfin : ∀ {rt : DataType} {fv : Value} {vs : List Value} {s2 s' : St},
      finishCall env dc rt fv vs s2 = (.ok v, s') →
      ∃ r t, callFn env dc fv vs s2 = (.ok r, s') ∧ v = newValue env r ∧
        fromValue v = .ok t ∧ DataType.compat t rt = true := by
    intro rt fv vs s2 s' h
    simp only [finishCall, M.bind_eq_ok, M.lift_eq_ok] at h
    obtain ⟨r, s1, hr, c, s3, ⟨hc, rfl⟩, t, s4, ⟨ht, rfl⟩, h⟩ := h
    split at h
    · rw [M.pure_eq_ok] at h
      obtain ⟨rfl, rfl⟩ := h
      simp only [coerceVerify, except_bind_ok, Except.ok.injEq] at hc
      obtain ⟨_, -, rfl⟩ := hc
      refine ⟨r, t, ?_, rfl, ht, ‹_›⟩
      simp only [M.catchErr] at hr
      rcases hcf : callFn env dc fv vs s2 with ⟨x | x, s5⟩
      · rw [hcf] at hr; simp at hr
      · rw [hcf] at hr; exact hr
    · simp at h
  simp only [eval, M.bind_eq_ok] at h
  obtain ⟨fv, s1, hf, h⟩ := h
  split at h
  · simp only [M.bind_eq_ok] at h
    obtain ⟨vs, s2, ha, h⟩ := h
    unfold evalCall at h
    split at h
    · obtain ⟨r, t, h1, h2, h3, h4⟩ := hfin h
      exact ⟨fv, s1, vs, s2, r, t, hf, ‹_›, ha, .inl ‹_›, h1, h2, h3, h4⟩
    · simp only [M.bind_eq_ok, M.lift_eq_ok] at h
      obtain ⟨_, s3, ⟨hv, rfl⟩, h⟩ := h
      obtain ⟨r, t, h1, h2, h3, h4⟩ := hfin h
      exact ⟨fv, s1, vs, _, r, t, hf, ‹_›, ha, .inr ((validateCallValues_iff _ _).1 hv), h1, h2, h3, h4⟩
  · simp at h

/-- **C28.** At construction a call of a function of known type is rejected with FunctionCallError if
the number of arguments is not allowed. -/
theorem construction_checks_arity (env : Env) (dct : DecCtx) (f : Raw) (args : List Raw)
    (s s1 s2 : St) (f' : Expr) (as : List Expr) (name : String) (ret : DataType)
    (ats : Option (List DataType)) (min : Option Nat)
    (hf : build env dct f s = (.ok f', s1)) (ha : buildList env dct args s1 = (.ok as, s2))
    (ht : f'.rt = .function name ret ats min)
    (hn : (∃ m, min = some m ∧ as.length < m) ∨ ∃ ts, ats = some ts ∧ ts.length < as.length) :
    build env dct (.call f args) s = (.error (.eng .functionCall), s2) := by
  have hlen : ∀ es : List Expr, (Expr.rts es).length = es.length := by
    intro es
    induction es with
    | nil => rfl
    | cons e es ih => simp [Expr.rts, ih]
  simp only [build]
  rw [M.bind_ok hf, M.bind_ok ha]
  unfold mkCall
  have hv : validateCall f'.rt (Expr.rts as) = .error (.eng .functionCall) := by
    rw [ht]
    unfold validateCall
    simp only [hlen]
    rcases hn with ⟨m, rfl, hm⟩ | ⟨ts, rfl, hts⟩
    · simp [hm, badArg]
    · simp only
      rw [if_pos (show as.length > ts.length from hts)]
      unfold badArg
      simp only [ite_self]
  rw [hv, ht]
  simp only [DataType.eq]
  rfl

/-- `$abs("x")` is rejected at construction, `$abs(x)` at evaluation if `x` is a string, and
`f(x)` raises FunctionCallError if the user's function `f` (number 2) raises ValueError. -/
example : runRaw sampleEnv (.call (.sym "abs" true) [.lit (.str "x")]) (dictOf []) =
      .error (.eng .functionCall) ∧
    runRaw sampleEnv (.call (.sym "abs" true) [.sym "x" false]) (dictOf [("x", .str "x")]) =
      .error (.eng .functionCall) ∧
    runRaw sampleEnv (.call (.sym "abs" true) [.sym "x" false]) (dictOf [("x", .int (-2))]) =
      .ok (.dec (.ofInt 2)) ∧
    runRaw sampleEnv (.call (.sym "f" false) [.sym "x" false])
      (dictOf [("x", .int 1), ("f", .userFn 2)]) = .error (.eng .functionCall) := by
  decide +kernel

/-! ## C44: the `$` scope -/

/-- **C44.** `$name` does not call the resolver or anything else (the state, with its log, is
unchanged), and its value does not depend on the thing, the resolver, or comprehension variables. -/
theorem builtin_scope_separate (env : Env) (dc : DecCtx) (thing thing' : Value) (name : String)
    (rt : DataType) (s s' : St) (r : Value → String → Except Err Value)
    (t : String → Except Err DataType) (hg : s.groups = s'.groups) :
    (eval env dc thing (.sym name rt true) s).2 = s ∧
    (eval env dc thing (.sym name rt true) s).1 =
      (eval { env with resolver := r, typeResolver := t } dc thing' (.sym name rt true) s').1 := by
  have key : ∀ (env : Env) (thing : Value) (s : St),
      eval env dc thing (.sym name rt true) s =
        (match (match builtinValue env s.groups name with
            | some v => some v
            | none => env.defaultValue) with
          | some v => checkSymbol name rt (newValue env v)
          | none => .error (.eng (.symbolResolution name)), s) := by
    intro env thing s
    simp only [eval, evalSymbol]
    rw [M.bind_apply]
    simp only [M.catchErr, ctxResolve, if_true]
    cases h : builtinValue env s.groups name with
    | some v => rfl
    | none =>
      simp only [isSymErr]
      cases hd : env.defaultValue with
      | none => rfl
      | some d => rfl
  constructor
  · rw [key]
  · rw [key, key]
    have hb : builtinValue { env with resolver := r, typeResolver := t } = builtinValue env := rfl
    rw [hb, hg]
    rfl

/-- **C44.** A plain name that is not a comprehension variable is resolved by exactly one call of the
resolver, and its value is determined by the answer: there is no fallback to the builtins, even if
the name is the name of one. -/
theorem plain_name_uses_resolver (env : Env) (dc : DecCtx) (thing : Value) (name : String)
    (rt : DataType) (s : St) (hs : scopeLookup s.scopes name = none) :
    eval env dc thing (.sym name rt false) s =
      (match env.resolver thing name with
        | .ok v => checkSymbol name rt (newValue env v)
        | .error e =>
          if isSymErr e then
            match env.defaultValue with
            | some d => checkSymbol name rt (newValue env d)
            | none => .error e
          else .error e,
        { s with log := s.log ++ [.resolve thing name] }) := by
  simp only [eval, evalSymbol]
  rw [M.bind_apply]
  simp only [M.catchErr, ctxResolve, if_false, Bool.false_eq_true, hs]
  cases h : env.resolver thing name with
  | ok v => rfl
  | error e =>
    simp only
    cases he : isSymErr e <;> cases hd : env.defaultValue <;> rfl

/-- **C44.** The types are separate as well: the type of `$name` does not depend on the type resolver,
that of a plain name not in scope is what the type resolver says. -/
theorem types_of_names_separate (env : Env) (dct : DecCtx) (t : String → Except Err DataType)
    (name : String) (s : St) :
    build env dct (.sym name true) s = build { env with typeResolver := t } dct (.sym name true) s ∧
    (scopeLookup s.scopes name = none →
      (build env dct (.sym name false) s).1 = (env.typeResolver name).map fun t => .sym name t false) := by
  constructor
  · rfl
  · intro hs
    simp only [build, mkSym]
    rw [M.bind_apply, M.modify_apply]
    simp only
    rw [M.bind_apply]
    simp only [ctxResolveType, hs, Bool.false_eq_true, if_false]
    cases env.typeResolver name <;> rfl

/-- `pi` is not `$pi`, and a thing with the key `pi` does not change `$pi`. -/
example : runRaw sampleEnv (.sym "pi" false) (dictOf []) = .error (.eng (.symbolResolution "pi")) ∧
    runRaw sampleEnv (.sym "pi" true) (dictOf [("pi", .int 3)]) =
      .ok (.dec (.fin false 3141592653589793 (-15))) ∧
    runRaw sampleEnv (.sym "pi" false) (dictOf [("pi", .int 3)]) = .ok (.dec (.ofInt 3)) := by
  decide +kernel

/-! ## C45: attributes -/

/-- The attributes of each kind of value, from docs/source/attributes.rst (`to_int` of FLOAT and
STRING included). -/
def documentedAttributes : TypeKind → List String
  | .array => ["ends_with", "is_empty", "length", "starts_with", "to_ary", "to_set"]
  | .bytes => ["decode", "ends_with", "is_empty", "length", "starts_with", "to_ary", "to_set"]
  | .datetime => ["date", "day", "hour", "microsecond", "millisecond", "minute", "month", "second",
      "to_epoch", "weekday", "year", "zone_name"]
  | .float => ["ceiling", "floor", "is_nan", "to_flt", "to_int", "to_str"]
  | .mapping => ["is_empty", "keys", "length", "values"]
  | .set => ["is_empty", "length", "to_ary", "to_set"]
  | .string => ["as_lower", "as_upper", "encode", "ends_with", "is_empty", "length", "starts_with",
      "to_ary", "to_flt", "to_int", "to_set", "to_str"]
  | .timedelta => ["days", "microseconds", "seconds", "total_seconds"]
  | _ => []

theorem attrTypeFn_documented (k : AttrKind) (t : DataType) (h : attrKind t = some k)
    (hu : t ≠ .undefined) (name : String) :
    (attrTypeFn k name).isSome = true ↔ name ∈ documentedAttributes t.kind := by
  cases t <;> simp only [attrKind, Option.some.injEq, reduceCtorEq] at h
  all_goals first | (exact (hu rfl).elim) | skip
  all_goals
    subst h
    simp only [attrTypeFn, DataType.kind, documentedAttributes]
    split <;> simp_all

theorem attrKind_none (t : DataType) (h : attrKind t = none) (name : String) :
    name ∉ documentedAttributes t.kind := by
  cases t <;> simp [attrKind] at h <;> simp [DataType.kind, documentedAttributes]

theorem attrValue_error {env : Env} {k : AttrKind} {name : String} {v : Value} {e : Err}
    (h : attrValue env k name v = .error e) : isAttrErr e = false := by
  have h1 : ∀ {s : String}, stringToFlt env s = .error e → isAttrErr e = false := by
    intro s h
    unfold stringToFlt at h
    simp only at h
    repeat' split at h
    all_goals cases h <;> rfl
  have h5 : ∀ {v : Value}, env.shortInt v = .error e → isAttrErr e = false := by
    intro v h
    rw [(shortInt_error h).1]; rfl
  have h2 : ∀ {v : Value}, assertInteger v = .error e → isAttrErr e = false := by
    intro v h
    rcases assertInteger_error h with rfl | rfl <;> rfl
  have h3 : ∀ {v : Value}, v.members = .error e → isAttrErr e = false := by
    intro v h
    cases v <;> simp [Value.members] at h <;> subst h <;> rfl
  have h4 : ∀ {xs : List Value}, setOfList env.utcoffset xs = .error e → isAttrErr e = false := by
    intro xs h
    unfold setOfList at h
    split at h <;> cases h
    rfl
  have hbind : ∀ {α β : Type} {x : Except Err α} {f : α → Except Err β},
      (x >>= f) = .error e → x = .error e ∨ ∃ a, x = .ok a ∧ f a = .error e := by
    intro α β x f h
    cases x with
    | error e' => left; cases h; rfl
    | ok a => right; exact ⟨a, rfl, h⟩
  unfold attrValue at h
  simp only at h
  split at h
  all_goals try split at h
  all_goals try split at h
  all_goals first
    | (cases h; done)
    | (cases h; rfl)
    | exact h5 h
    | (rcases hbind h with h | ⟨a, -, h⟩
       · exact h1 h
       · exact h5 h)
    | (rcases hbind h with h | ⟨a, -, h⟩
       · first | exact h1 h | exact h2 h | exact h3 h
       · rcases hbind h with h | ⟨b, -, h⟩
         · first | exact h2 h | exact h4 h
         · first | exact h5 h | cases h)
    | (rcases hbind h with h | ⟨a, -, h⟩
       · exact h3 h
       · cases h)
    | (rcases hbind h with h | ⟨a, -, h⟩
       · exact h2 h
       · cases h)

theorem except_bind_error {α β ε : Type} {x : Except ε α} {f : α → Except ε β} {e : ε} :
    (x >>= f) = .error e ↔ x = .error e ∨ ∃ a, x = .ok a ∧ f a = .error e := by
  cases x with
  | error e' => simp [bind, Except.bind]
  | ok a => simp [bind, Except.bind]

mutual
theorem fromValue_error : ∀ (v : Value) {e : Err}, fromValue v = .error e →
    e = .typeError ∨ e = .eng .engine
  | .bool _, _, h | .bytes _, _, h | .date _, _, h | .datetime .., _, h | .timedelta _, _, h
  | .dec _, _, h | .float _, _, h | .int _, _, h | .none, _, h | .str _, _, h | .builtinFn _, _, h
  | .userFn _, _, h | .method .., _, h => by cases h
  | .obj _, _, h | .undef, _, h => by cases h; exact .inl rfl
  | .set xs, e, h => by
    simp only [fromValue, except_bind_error] at h
    rcases h with h | ⟨_, -, h⟩
    · exact typesOf_error xs h
    · cases h
  | .seq _ xs, e, h => by
    simp only [fromValue, except_bind_error] at h
    rcases h with h | ⟨_, -, h⟩
    · exact typesOf_error xs h
    · cases h
  | .map _ kvs, e, h => by
    simp only [fromValue, except_bind_error] at h
    rcases h with h | ⟨_, -, h | ⟨_, -, h⟩⟩
    · exact typesOfKeys_error kvs h
    · exact typesOfVals_error kvs h
    · unfold mkMappingType at h
      split at h <;> cases h
      exact .inr rfl
theorem typesOf_error : ∀ (xs : List Value) {e : Err}, typesOf xs = .error e →
    e = .typeError ∨ e = .eng .engine
  | [], _, h => by cases h
  | x :: xs, e, h => by
    simp only [typesOf, except_bind_error] at h
    rcases h with h | ⟨_, -, h | ⟨_, -, h⟩⟩
    · exact fromValue_error x h
    · exact typesOf_error xs h
    · cases h
theorem typesOfKeys_error : ∀ (xs : List (Value × Value)) {e : Err}, typesOfKeys xs = .error e →
    e = .typeError ∨ e = .eng .engine
  | [], _, h => by cases h
  | (x, _) :: xs, e, h => by
    simp only [typesOfKeys, except_bind_error] at h
    rcases h with h | ⟨_, -, h | ⟨_, -, h⟩⟩
    · exact fromValue_error x h
    · exact typesOfKeys_error xs h
    · cases h
theorem typesOfVals_error : ∀ (xs : List (Value × Value)) {e : Err}, typesOfVals xs = .error e →
    e = .typeError ∨ e = .eng .engine
  | [], _, h => by cases h
  | (_, x) :: xs, e, h => by
    simp only [typesOfVals, except_bind_error] at h
    rcases h with h | ⟨_, -, h | ⟨_, -, h⟩⟩
    · exact fromValue_error x h
    · exact typesOfVals_error xs h
    · cases h
end

/-- An attribute is not found exactly if the value has no data type or its kind has no such
attribute. -/
theorem resolveAttr_not_found (env : Env) (o : Value) (name : String) :
    (∃ e, resolveAttr env o name = .error e ∧ isAttrErr e = true) ↔
      (fromValue o = .error .typeError ∨
        ∃ t, fromValue o = .ok t ∧ name ∉ documentedAttributes t.kind) := by
  unfold resolveAttr
  cases hf : fromValue o with
  | error e =>
    constructor
    · rintro ⟨e', h, he⟩
      left
      rcases fromValue_error o hf with rfl | rfl
      · rfl
      · simp at h
        subst h
        simp [isAttrErr] at he
    · rintro (h | ⟨t, h, -⟩)
      · cases h
        exact ⟨_, rfl, rfl⟩
      · cases h
  | ok t =>
    have hu : t ≠ .undefined := by
      rintro rfl
      exact fromValue_ne_undefined o hf
    simp only [reduceCtorEq, Except.ok.injEq, false_or, exists_eq_left']
    cases hk : attrKind t with
    | none => simp [isAttrErr, attrKind_none t hk name]
    | some k =>
      have hd := attrTypeFn_documented k t hk hu name
      simp only
      cases ha : attrTypeFn k name with
      | none =>
        rw [ha] at hd
        simp only [Option.isSome_none, Bool.false_eq_true, false_iff] at hd
        simp [isAttrErr, hd]
      | some f =>
        rw [ha] at hd
        simp only [Option.isSome_some, true_iff] at hd
        simp only [hd, not_true, iff_false]
        rintro ⟨e, he, hi⟩
        simp only [except_bind_error, coerceVerify] at he
        rcases he with he | ⟨v, -, (he | ⟨_, -, he⟩) | ⟨w, -, he | ⟨u, -, he⟩⟩⟩
        · rw [attrValue_error he] at hi; cases hi
        · rcases fromValue_error _ he with rfl | rfl <;> cases hi
        · cases he
        · rcases fromValue_error _ he with rfl | rfl <;> cases hi
        · split at he <;> cases he
          cases hi

/-- **C45.** If the kind of the object's value has an attribute of that name, the result is that
attribute: the resolver is not called, and comprehension variables, the thing, the resolver and the
default value make no difference. -/
theorem attribute_of_kind (env : Env) (dc dc' : DecCtx) (thing thing' : Value) (x x' : Expr)
    (name : String) (safe safe' : Bool) (s s1 s' s1' : St) (o : Value) (t : DataType)
    (hx : eval env dc thing x s = (.ok o, s1)) (ht : fromValue o = .ok t)
    (hn : name ∈ documentedAttributes t.kind) :
    (eval env dc thing (.getAttr x name safe) s).2 = s1 ∧
    ∀ r tr d, eval (env.alt r tr d) dc' thing' x' s' = (.ok o, s1') →
      (eval (env.alt r tr d) dc' thing' (.getAttr x' name safe') s').1 =
        (eval env dc thing (.getAttr x name safe) s).1 := by
  have hne : o ≠ .none := by
    rintro rfl
    cases ht
    simp [DataType.kind, documentedAttributes] at hn
  have key : ∀ (env : Env) (s : St), evalGetAttr env o name s =
      ((resolveAttr env o name).map (newValue env), s) := by
    intro env s
    unfold evalGetAttr
    cases hr : resolveAttr env o name with
    | ok v => rfl
    | error e =>
      have : isAttrErr e = false := by
        by_contra hc
        have := (resolveAttr_not_found env o name).1 ⟨e, hr, by simpa using hc⟩
        rw [ht] at this
        simp [hn] at this
      simp [this]
      rfl
  have key2 : ∀ (env : Env) (dc : DecCtx) (thing : Value) (x : Expr) (safe : Bool) (s s1 : St),
      eval env dc thing x s = (.ok o, s1) → eval env dc thing (.getAttr x name safe) s =
      ((resolveAttr env o name).map (newValue env), s1) := by
    intro env dc thing x safe s s1 hx
    simp only [eval]
    rw [M.bind_ok hx, if_neg (by simp [hne]), key]
  constructor
  · rw [key2 env dc thing x safe s s1 hx]
  · intro r tr d hx'
    rw [key2 env dc thing x safe s s1 hx, key2 _ dc' thing' x' safe' s' s1' hx']
    rfl

/-- **C45.** Otherwise, if no comprehension variable has that name, the resolver is called once, with
the object's value and the name; if it cannot resolve the name the result is the default value, or
AttributeResolutionError if there is none. -/
theorem attribute_of_object (env : Env) (dc : DecCtx) (thing : Value) (x : Expr) (name : String)
    (s s1 : St) (o : Value) (hx : eval env dc thing x s = (.ok o, s1))
    (hn : fromValue o = .error .typeError ∨
      ∃ t, fromValue o = .ok t ∧ name ∉ documentedAttributes t.kind)
    (hs : scopeLookup s.scopes name = none) :
    ∃ e, isAttrErr e = true ∧
    eval env dc thing (.getAttr x name false) s =
      (match env.resolver o name with
        | .ok v => .ok (newValue env v)
        | .error err =>
          if isSymErr err then
            match env.defaultValue with
            | some d => .ok (newValue env d)
            | none => .error e
          else .error err,
        { s1 with log := s1.log ++ [.resolve o name] }) := by
  obtain ⟨e, he, hi⟩ := (resolveAttr_not_found env o name).2 hn
  have hs1 : scopeLookup s1.scopes name = none := by
    have := eval_restores_variables env dc thing x s
    rw [hx] at this
    simp only at this
    rw [this]; exact hs
  refine ⟨e, hi, ?_⟩
  simp only [eval]
  rw [M.bind_ok hx, if_neg (by simp)]
  unfold evalGetAttr
  rw [he]
  simp only [hi, if_true, ctxResolve, Bool.false_eq_true, if_false, hs1]
  cases env.resolver o name with
  | ok v => rfl
  | error err =>
    simp only
    split
    · cases env.defaultValue <;> rfl
    · rfl

example : runRaw sampleEnv (.getAttr (.sym "x" false) "length" false)
      (dictOf [("x", dictOf [("length", .int 9)])]) = .ok (.dec (.ofInt 1)) ∧
    runRaw sampleEnv (.getAttr (.sym "x" false) "size" false)
      (dictOf [("x", dictOf [("size", .int 9)])]) = .ok (.dec (.ofInt 9)) ∧
    runRaw sampleEnv (.getAttr (.sym "x" false) "size" false)
      (dictOf [("x", .str "abc")]) = .error (.eng (.attributeResolution "size")) := by
  decide +kernel

/-- The hypothesis about comprehension variables is needed: in `[x.y for y in ys]` with a thing in
which `x` has no `y`, the attribute evaluates to the comprehension variable. -/
theorem attribute_captures_variable :
    runRaw sampleEnv (.comp (.getAttr (.sym "x" false) "y" false) "y" (.sym "ys" false)
        (.lit (.bool true)))
      (dictOf [("x", dictOf []), ("ys", .seq .list [.int 1, .int 2])]) =
      .ok (.tuple [.dec (.ofInt 1), .dec (.ofInt 2)]) := by
  decide +kernel

end RE
