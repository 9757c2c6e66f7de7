import Verif.Props.SetOrder

/-!
# Sets have no order: builtin functions (C85)
-/

set_option linter.unusedSimpArgs false
set_option linter.unusedVariables false
set_option linter.unusedSectionVars false

namespace RE

theorem shuffled_members {a b : Value} (h : Shuffled a b) (hn : ∀ xs, a ≠ .set xs) :
    InStep ShuffledAll a.members b.members := by
  cases h with
  | set h => exact absurd rfl (hn _)
  | seq k h => exact .ok h
  | map k h =>
    simp only [Value.members, h.keys]
    exact .ok (shuffled_all _)
  | same v hv => cases a <;> first | exact .error _ | exact .ok (shuffled_all _)

theorem InStep.of_eq {x y : Except Err Value} (h : y = x) : InStep Shuffled x y := by
  subst h
  cases y with
  | ok v => exact .ok (.refl v)
  | error e => exact .error e

section
variable {a a' b b' c c' : Value}

theorem shuffled_asNumber (h : Shuffled a a') : a'.asNumber = a.asNumber := by cases h <;> rfl
theorem shuffled_isDec (h : Shuffled a a') : a'.isDec = a.isDec := by cases h <;> rfl
theorem shuffled_isNatural (h : Shuffled a a') : isNatural a' = isNatural a := by cases h <;> rfl
theorem shuffled_tuple (h : Shuffled a a') : (∃ xs, a' = .tuple xs) → ∃ xs, a = .tuple xs := by
  rintro ⟨xs, rfl⟩
  cases h with
  | seq _ h => exact ⟨_, rfl⟩
  | same _ h => exact ⟨_, rfl⟩

theorem pyLess_else {off : TzDb} {gt : Bool} (h' : ¬ ((∃ xs, a = .tuple xs) ∧ ∃ ys, b = .tuple ys)) :
    pyLess off gt a b = match a.asNumber, b.asNumber with
      | some x, some y =>
        match decCmp x y with
        | some o => .ok ((if gt then CmpOp.gt else CmpOp.lt).holds o)
        | none => if a.isDec || b.isDec then .error (.py .invalidOperation) else .ok false
      | _, _ => if a.pyType = b.pyType then pyCmp off (if gt then CmpOp.gt else CmpOp.lt) a b else .error .typeError := by
  rw [pyLess.eq_def]
  split
  · exact absurd ⟨⟨_, rfl⟩, _, rfl⟩ h'
  · rfl

theorem shuffled_pyLess_else {off : TzDb} {gt : Bool} (h : Shuffled a a') (h' : Shuffled b b')
    (hn : ¬ ((∃ xs, a = .tuple xs) ∧ ∃ ys, b = .tuple ys)) : pyLess off gt a' b' = pyLess off gt a b := by
  rw [pyLess_else hn, pyLess_else (fun hx => hn ⟨shuffled_tuple h hx.1, shuffled_tuple h' hx.2⟩)]
  simp only [shuffled_asNumber h, shuffled_asNumber h', shuffled_isDec h, shuffled_isDec h', shuffled_pyType h,
    shuffled_pyType h', shuffled_pyCmp h h']
end

mutual
theorem shuffled_pyLess {off : TzDb} {gt : Bool} : ∀ {a a' b b' : Value}, Shuffled a a' → Shuffled b b' →
    pyLess off gt a' b' = pyLess off gt a b
  | _, _, _, _, .seq .tuple h, .seq .tuple h' => by
    simp only [pyLess, shuffled_pyLessSeq h h']
  | _, _, _, _, .same v hv, hb =>
    shuffled_pyLess_else (.same v hv) hb (by rintro ⟨⟨xs, rfl⟩, -⟩; simp [Value.isFlat, Value.tuple] at hv)
  | _, _, _, _, .seq .list h, hb => shuffled_pyLess_else (.seq .list h) hb (by simp [Value.tuple])
  | _, _, _, _, .seq .range h, hb => shuffled_pyLess_else (.seq .range h) hb (by simp [Value.tuple])
  | _, _, _, _, .set h, hb => shuffled_pyLess_else (.set h) hb (by simp [Value.tuple])
  | _, _, _, _, .map k h, hb => shuffled_pyLess_else (.map k h) hb (by simp [Value.tuple])
  | _, _, _, _, .seq .tuple h, .same v hv =>
    shuffled_pyLess_else (.seq .tuple h) (.same v hv) (by rintro ⟨-, xs, rfl⟩; simp [Value.isFlat, Value.tuple] at hv)
  | _, _, _, _, .seq .tuple h, .seq .list h' => shuffled_pyLess_else (.seq .tuple h) (.seq .list h') (by simp [Value.tuple])
  | _, _, _, _, .seq .tuple h, .seq .range h' => shuffled_pyLess_else (.seq .tuple h) (.seq .range h') (by simp [Value.tuple])
  | _, _, _, _, .seq .tuple h, .set h' => shuffled_pyLess_else (.seq .tuple h) (.set h') (by simp [Value.tuple])
  | _, _, _, _, .seq .tuple h, .map k h' => shuffled_pyLess_else (.seq .tuple h) (.map k h') (by simp [Value.tuple])
theorem shuffled_pyLessSeq {off : TzDb} {gt : Bool} : ∀ {a a' b b' : List Value}, ShuffledAll a a' → ShuffledAll b b' →
    pyLessSeq off gt a' b' = pyLessSeq off gt a b
  | _, _, _, _, .nil, .nil => rfl
  | _, _, _, _, .nil, .cons _ _ => by simp [pyLessSeq]
  | _, _, _, _, .cons _ _, .nil => by simp [pyLessSeq]
  | _, _, _, _, .cons h hs, .cons h' hs' => by
    simp only [pyLessSeq, shuffled_pyEq h h', shuffled_pyLess h h', shuffled_pyLessSeq hs hs']
end

theorem extreme_fold {off : TzDb} {gt : Bool} : ∀ {xs ys : List Value} {cur cur' : Value}, ShuffledAll xs ys → Shuffled cur cur' →
    InStep Shuffled
      (xs.foldlM (m := Except Err) (fun cur y => do if ← pyLess off gt y cur then .ok y else .ok cur) cur)
      (ys.foldlM (m := Except Err) (fun cur y => do if ← pyLess off gt y cur then .ok y else .ok cur) cur')
  | _, _, _, _, .nil, h => .ok h
  | x :: xs, y :: ys, cur, cur', .cons hx hs, h => by
    simp only [List.foldlM_cons, shuffled_pyLess hx h]
    cases pyLess off gt x cur with
    | error e => exact .error e
    | ok b =>
      cases b with
      | true => exact extreme_fold hs hx
      | false => exact extreme_fold hs h

theorem pyExtreme_shuffled {off : TzDb} {gt : Bool} {xs ys : List Value} (h : ShuffledAll xs ys) :
    InStep Shuffled (pyExtreme off gt xs) (pyExtreme off gt ys) := by
  cases h with
  | nil => exact .error _
  | cons h hs => exact extreme_fold hs h

theorem pySum_shuffled {env : Env} {dc : DecCtx} {xs ys : List Value} (h : ShuffledAll xs ys) :
    pySum env dc ys = pySum env dc xs := by
  unfold pySum
  generalize Value.int 0 = acc
  induction xs generalizing ys acc with
  | nil => cases h; rfl
  | cons x xs ih =>
    cases h with
    | cons hx hs =>
      simp only [List.foldlM_cons, shuffled_numOp (.refl acc) hx]
      cases numOp env dc .add acc x with
      | error e => rfl
      | ok v => exact ih hs v

theorem builtinRange_shuffled {xs ys : List Value} (h : ShuffledAll xs ys) : builtinRange ys = builtinRange xs := by
  rcases h with _ | ⟨h1, _ | ⟨h2, _ | ⟨h3, _ | ⟨h4, h⟩⟩⟩⟩
  · rfl
  · simp only [builtinRange, integerArg, shuffled_isInteger h1, shuffled_toInt h1]
  · simp only [builtinRange, integerArg, shuffled_isInteger h1, shuffled_toInt h1, shuffled_isInteger h2, shuffled_toInt h2,
      shuffled_truthy h2]
  · simp only [builtinRange, integerArg, shuffled_isInteger h1, shuffled_toInt h1, shuffled_isInteger h2, shuffled_toInt h2,
      shuffled_truthy h2, shuffled_isInteger h3, shuffled_toInt h3, shuffled_truthy h3]
  · rfl

theorem builtinSplit_shuffled {xs ys : List Value} (h : ShuffledAll xs ys) : builtinSplit ys = builtinSplit xs := by
  rcases h with _ | ⟨h1, _ | ⟨h2, _ | ⟨h3, _ | ⟨h4, h⟩⟩⟩⟩
  · rfl
  · cases h1 <;> rfl
  · cases h1 <;> cases h2 <;> rfl
  · cases h1 <;> cases h2 <;> cases h3 <;> rfl
  · rfl

theorem allTruthy_shuffled : ∀ {xs ys : List Value}, ShuffledAll xs ys → ys.all Value.truthy = xs.all Value.truthy
  | _, _, .nil => rfl
  | _, _, .cons h hs => by simp only [List.all_cons, shuffled_truthy h, allTruthy_shuffled hs]

theorem callBuiltin_two {env : Env} {dc : DecCtx} {f : Builtin} {x y : Value} {xs : List Value} (h : f ≠ .range) (h' : f ≠ .split) :
    callBuiltin env dc f (x :: y :: xs) = .error .typeError := by
  cases f <;> first | rfl | contradiction | (cases x <;> rfl)

/-- builtin functions but `$map` and `$filter` of arguments that are no sets -/
theorem callBuiltin_shuffled {env : Env} {dc : DecCtx} {f : Builtin} {args args' : List Value} (h : ShuffledAll args args')
    (hn : ∀ v ∈ args, ∀ xs, v ≠ .set xs) : InStep Shuffled (callBuiltin env dc f args) (callBuiltin env dc f args') := by
  have mem : ∀ {g g' : List Value → Except Err Value} {v w : Value}, (∀ {xs ys}, ShuffledAll xs ys → InStep Shuffled (g xs) (g' ys)) →
      Shuffled v w → (∀ xs, v ≠ .set xs) →
      InStep Shuffled (do let xs ← v.members; g xs) (do let xs ← w.members; g' xs) := by
    intro g g' v w hg hv hs
    have := shuffled_members hv hs
    revert this
    generalize v.members = x
    generalize w.members = y
    intro this
    cases this with
    | error e => exact .error e
    | ok h => exact hg h
  rcases h with _ | ⟨h1, _ | ⟨h2, h⟩⟩
  · exact .of_eq rfl
  · have h0 := hn _ (List.mem_singleton.2 rfl)
    cases f with
    | any => exact mem (fun h => .of_eq (by rw [ShuffledAll.any shuffled_truthy h])) h1 h0
    | all => exact mem (fun h => .of_eq (by rw [allTruthy_shuffled h])) h1 h0
    | sum => exact mem (fun h => .of_eq (pySum_shuffled h)) h1 h0
    | max => exact mem pyExtreme_shuffled h1 h0
    | min => exact mem pyExtreme_shuffled h1 h0
    | range => exact .of_eq (builtinRange_shuffled (.cons h1 .nil))
    | split => exact .of_eq (builtinSplit_shuffled (.cons h1 .nil))
    | random => exact .of_eq (by simp only [callBuiltin, shuffled_truthy h1, shuffled_isNatural h1, shuffled_toInt h1])
    | _ => exact .of_eq (by cases h1 <;> rfl)
  · cases f with
    | range => exact .of_eq (builtinRange_shuffled (.cons h1 (.cons h2 h)))
    | split => exact .of_eq (builtinSplit_shuffled (.cons h1 (.cons h2 h)))
    | _ => exact .of_eq (by rw [callBuiltin_two (by decide) (by decide), callBuiltin_two (by decide) (by decide)])

/-! ### Validation -/

theorem validateArgs_shuffled {off : TzDb} : ∀ {vs ws : List Value} {ts : List DataType}, ShuffledAll vs ws → Value.AllWF off vs →
    validateArgs ws ts = validateArgs vs ts
  | _, _, ts, .nil, _ => by cases ts <;> rfl
  | _, _, [], .cons _ _, _ => rfl
  | _, _, t :: ts, .cons h hs, hw => by
    simp only [validateArgs, shuffled_fromValue h hw.1, validateArgs_shuffled hs hw.2]

theorem validateCallValues_shuffled {off : TzDb} {ft : DataType} {vs ws : List Value} (h : ShuffledAll vs ws)
    (hw : Value.AllWF off vs) : validateCallValues ft ws = validateCallValues ft vs := by
  unfold validateCallValues
  simp only [h.length, validateArgs_shuffled h hw]

theorem validated_notSet : ∀ {vs : List Value} {ts : List DataType}, validateArgs vs ts = .ok () → vs.length ≤ ts.length →
    (∀ t ∈ ts, ∀ m n, DataType.compat (.set m n) t = false) → ∀ v ∈ vs, ∀ xs, v ≠ .set xs
  | [], ts, _, _, _, v, hv, _ => by simp at hv
  | v :: vs, t :: ts, h, hl, ht, w, hw, xs => by
    simp only [validateArgs, except_bind_ok] at h
    obtain ⟨vt, h1, h2⟩ := h
    split at h2
    next hc =>
      rcases List.mem_cons.1 hw with rfl | hw
      · rintro rfl
        simp only [fromValue, except_bind_ok, Except.ok.injEq] at h1
        obtain ⟨ts', -, rfl⟩ := h1
        simp [ht t (by simp)] at hc
      · exact validated_notSet h2 (by simpa using hl) (fun t h => ht t (by simp [h])) w hw xs
    next => cases h2
  | v :: vs, [], _, hl, _, _, _, _ => by simp at hl

/-- the builtin functions but `map` and `filter` -/
def plainBuiltins : List String :=
  ["abs", "all", "any", "sum", "max", "min", "parse_datetime", "parse_float", "parse_timedelta", "random", "range", "split"]

theorem plainBuiltin_type {name : String} (h : name ∈ plainBuiltins) : ∃ n rt ts mn, builtinType name = .function n rt (some ts) mn ∧
    ∀ t ∈ ts, ∀ m k, DataType.compat (.set m k) t = false := by
  simp only [plainBuiltins, List.mem_cons, List.not_mem_nil, or_false] at h
  rcases h with rfl | rfl | rfl | rfl | rfl | rfl | rfl | rfl | rfl | rfl | rfl | rfl
  all_goals
    refine ⟨_, _, _, _, rfl, ?_⟩
    simp [DataType.compat, DataType.anyArray]

theorem plainBuiltin_value {name : String} (h : name ∈ plainBuiltins) : ∃ b, b ≠ .map ∧ b ≠ .filter ∧
    ∀ env groups, builtinValue env groups name = some (.builtinFn b) := by
  simp only [plainBuiltins, List.mem_cons, List.not_mem_nil, or_false] at h
  rcases h with rfl | rfl | rfl | rfl | rfl | rfl | rfl | rfl | rfl | rfl | rfl | rfl
  all_goals exact ⟨_, by decide, by decide, fun _ _ => rfl⟩

end RE
