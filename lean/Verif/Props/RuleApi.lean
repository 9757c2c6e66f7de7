import Verif.Props.Built

/-!
# The `Rule` object: `filter` (C30), `is_valid` (C31), and unknown symbols (C33)
-/

set_option linter.unusedSimpArgs false

namespace RE

/-! ## C30 -/

/-- Specification: what `rule.matches(thing)` returns or raises, in a thread that has done nothing else. -/
def matchesResult (env : Env) (e : Expr) (thing : Value) : Except Err Bool :=
  (ruleMatches env e thing St.init).1

/-- Specification: does the thing match? -/
def isMatching (env : Env) (e : Expr) (thing : Value) : Bool :=
  match matchesResult env e thing with
  | .ok b => b
  | .error _ => false

theorem ruleMatches_fst (env : Env) (e : Expr) (thing : Value) (s : St) :
    (ruleMatches env e thing s).1 = matchesResult env e thing := by
  unfold matchesResult ruleMatches
  have h := (ruleEval_state_independent env e thing s St.init).1
  rw [M.bind_apply, M.bind_apply]
  rcases h1 : ruleEval env e thing s with ⟨a, s1⟩
  rcases h2 : ruleEval env e thing St.init with ⟨b, s2⟩
  rw [h1, h2] at h
  simp only at h
  subst h
  cases a <;> rfl

/-- Specification: a client's use of the iterator `rule.filter(things)`.  `FilterRun env e things ys end` means that
repeated calls of `next()` yielded the things `ys` and then raised the exception `end`, or StopIteration if that is
`none`.  Between two calls the client may do anything with its thread (in particular evaluate other rules), so every
call may find another state of the thread's storage. -/
inductive FilterRun (env : Env) (e : Expr) : List Value → List Value → Option Err → Prop
  | done (things : List Value) (s s' : St) :
      filterNext env e things s = (.ok none, s') → FilterRun env e things [] none
  | raised (things : List Value) (s s' : St) (err : Err) :
      filterNext env e things s = (.error err, s') → FilterRun env e things [] (some err)
  | yielded (things : List Value) (s s' : St) (y : Value) (rest ys : List Value) (ending : Option Err) :
      filterNext env e things s = (.ok (some (y, rest)), s') → FilterRun env e rest ys ending →
      FilterRun env e things (y :: ys) ending

theorem filterNext_spec (env : Env) (e : Expr) (things : List Value) (s s' : St)
    (r : Except Err (Option (Value × List Value))) (h : filterNext env e things s = (r, s')) :
    match r with
    | .ok none => ∀ t ∈ things, matchesResult env e t = .ok false
    | .ok (some (y, rest)) => ∃ pre, things = pre ++ y :: rest ∧
        (∀ t ∈ pre, matchesResult env e t = .ok false) ∧ matchesResult env e y = .ok true
    | .error err => ∃ pre t post, things = pre ++ t :: post ∧
        (∀ t ∈ pre, matchesResult env e t = .ok false) ∧ matchesResult env e t = .error err := by
  induction things generalizing s with
  | nil =>
    simp only [filterNext, M.pure_apply, Prod.mk.injEq] at h
    obtain ⟨rfl, -⟩ := h
    simp
  | cons t ts ih =>
    simp only [filterNext, M.bind_apply] at h
    have hf := ruleMatches_fst env e t s
    rcases h1 : ruleMatches env e t s with ⟨_ | b, s1⟩
    · rw [h1] at h hf
      simp only [Prod.mk.injEq] at h hf
      obtain ⟨rfl, -⟩ := h
      exact ⟨[], t, ts, rfl, by simp, hf.symm⟩
    · rw [h1] at h hf
      simp only at h hf
      cases b with
      | true =>
        simp only [if_true, M.pure_apply, Prod.mk.injEq] at h
        obtain ⟨rfl, -⟩ := h
        exact ⟨[], rfl, by simp, hf.symm⟩
      | false =>
        simp only [Bool.false_eq_true, if_false] at h
        have := ih s1 h
        split at this
        · intro x hx
          rcases List.mem_cons.1 hx with rfl | hx
          · exact hf.symm
          · exact this x hx
        · obtain ⟨pre, rfl, h2, h3⟩ := this
          refine ⟨t :: pre, rfl, ?_, h3⟩
          intro x hx
          rcases List.mem_cons.1 hx with rfl | hx
          · exact hf.symm
          · exact h2 x hx
        · obtain ⟨pre, x, post, rfl, h2, h3⟩ := this
          refine ⟨t :: pre, x, post, rfl, ?_, h3⟩
          intro x hx
          rcases List.mem_cons.1 hx with rfl | hx
          · exact hf.symm
          · exact h2 x hx

theorem filter_none_match {env : Env} {e : Expr} {l : List Value}
    (h : ∀ t ∈ l, matchesResult env e t = .ok false) : l.filter (isMatching env e) = [] := by
  rw [List.filter_eq_nil_iff]
  intro t ht
  simp [isMatching, h t ht]

/-- **C30**: `filter` yields, in order and with multiplicity, exactly the things that match; if it ends with an
exception, that is the exception `matches` raises for some thing, and every matching thing before it has been
yielded. -/
theorem filter_yields_matching (env : Env) (e : Expr) (things ys : List Value) (ending : Option Err)
    (h : FilterRun env e things ys ending) :
    match ending with
    | none => (∀ t ∈ things, ∃ b, matchesResult env e t = .ok b) ∧ ys = things.filter (isMatching env e)
    | some err => ∃ pre t post, things = pre ++ t :: post ∧
        (∀ x ∈ pre, ∃ b, matchesResult env e x = .ok b) ∧ matchesResult env e t = .error err ∧
        ys = pre.filter (isMatching env e) := by
  induction h with
  | done things s s' h =>
    have := filterNext_spec env e things s s' _ h
    exact ⟨fun t ht => ⟨_, this t ht⟩, (filter_none_match this).symm⟩
  | raised things s s' err h =>
    obtain ⟨pre, t, post, h1, h2, h3⟩ := filterNext_spec env e things s s' _ h
    exact ⟨pre, t, post, h1, fun x hx => ⟨_, h2 x hx⟩, h3, (filter_none_match h2).symm⟩
  | yielded things s s' y rest ys ending h _ ih =>
    obtain ⟨pre, rfl, h2, h3⟩ := filterNext_spec env e things s s' _ h
    have hy : isMatching env e y = true := by simp [isMatching, h3]
    cases ending with
    | none =>
      simp only at ih ⊢
      obtain ⟨i1, rfl⟩ := ih
      refine ⟨?_, ?_⟩
      · intro t ht
        rcases List.mem_append.1 ht with ht | ht
        · exact ⟨_, h2 t ht⟩
        · rcases List.mem_cons.1 ht with rfl | ht
          · exact ⟨_, h3⟩
          · exact i1 t ht
      · rw [List.filter_append, filter_none_match h2, List.nil_append, List.filter_cons_of_pos hy]
    | some err =>
      simp only at ih ⊢
      obtain ⟨p, t, q, rfl, i1, i2, rfl⟩ := ih
      refine ⟨pre ++ y :: p, t, q, by simp, ?_, i2, ?_⟩
      · intro t ht
        rcases List.mem_append.1 ht with ht | ht
        · exact ⟨_, h2 t ht⟩
        · rcases List.mem_cons.1 ht with rfl | ht
          · exact ⟨_, h3⟩
          · exact i1 t ht
      · rw [List.filter_append, filter_none_match h2, List.nil_append, List.filter_cons_of_pos hy]

/-- **C30**: the iteration always ends: for every list of things there is a run, whatever the states are. -/
theorem filter_terminates (env : Env) (e : Expr) (things : List Value) (states : Nat → St) :
    ∃ ys ending, FilterRun env e things ys ending ∧ ys.length ≤ things.length := by
  obtain ⟨n, hn⟩ : ∃ n, n = things.length := ⟨_, rfl⟩
  induction n using Nat.strongRecOn generalizing things with
  | ind n ih =>
    rcases h : filterNext env e things (states n) with ⟨err | _ | ⟨y, rest⟩, s'⟩
    · exact ⟨[], some err, .raised _ _ _ _ h, Nat.zero_le _⟩
    · exact ⟨[], none, .done _ _ _ h, Nat.zero_le _⟩
    · obtain ⟨pre, hp, -, -⟩ := filterNext_spec env e things _ _ _ h
      have hl : rest.length + 1 ≤ things.length := by rw [hp]; simp
      obtain ⟨ys, ending, h1, h2⟩ := ih rest.length (by omega) rest rfl
      exact ⟨y :: ys, ending, .yielded _ _ _ _ _ _ _ h h1, by simp; omega⟩

/-- **C30**, for one uninterrupted iteration: `ruleFilter` is such a run. -/
theorem ruleFilter_run (env : Env) (e : Expr) (things : List Value) (s : St) :
    (ruleFilter env e things s).1.2 = none →
      (ruleFilter env e things s).1.1 = things.filter (isMatching env e) := by
  induction things generalizing s with
  | nil => intro _; rfl
  | cons t ts ih =>
    intro h
    have hf := ruleMatches_fst env e t s
    simp only [ruleFilter] at h ⊢
    rcases h1 : ruleMatches env e t s with ⟨_ | b, s1⟩
    · rw [h1] at h; simp at h
    · rw [h1] at h hf
      simp only at h hf ⊢
      rw [ih s1 h]
      have : isMatching env e t = b := by simp [isMatching, ← hf]
      cases b <;> simp [this]

/-- Witness for C30: `x > 1` over three things, one of which is repeated, and with one that raises. -/
theorem filter_witness :
    (construct sampleEnv .default (.bin (.cmp .gt) (.sym "x" false) (.floatLit "1")) St.init).1 =
      .ok (.bin (.cmp .gt) (.sym "x" .undefined false) (.lit (.dec (.ofInt 1)) .float)) ∧
    (ruleFilter sampleEnv (.bin (.cmp .gt) (.sym "x" .undefined false) (.lit (.dec (.ofInt 1)) .float))
        [dictOf [("x", .int 2)], dictOf [("x", .int 0)], dictOf [("x", .int 2)]] St.init).1 =
      ([dictOf [("x", .int 2)], dictOf [("x", .int 2)]], none) ∧
    (ruleFilter sampleEnv (.bin (.cmp .gt) (.sym "x" .undefined false) (.lit (.dec (.ofInt 1)) .float))
        [dictOf [("x", .int 2)], dictOf [], dictOf [("x", .int 3)]] St.init).1 =
      ([dictOf [("x", .int 2)]], some (.eng (.symbolResolution "x"))) := by
  refine ⟨rfl, ?_, ?_⟩ <;> decide +kernel

/-! ## C31 -/

/-- **C31** (partial): `is_valid` returns True exactly if the rule can be constructed, and returns False exactly if
construction raises an EngineError.  Missing: for a rule whose construction raises another exception, `is_valid`
raises it too instead of returning False (`is_valid_false`). -/
theorem is_valid_partial (env : Env) (dct : DecCtx) (raw : Raw) (s : St) :
    ((isValid env dct raw s).1 = .ok true ↔ ∃ e, (construct env dct raw s).1 = .ok e) ∧
    ((isValid env dct raw s).1 = .ok false ↔ ∃ e, (construct env dct raw s).1 = .error (.eng e)) ∧
    (isValid env dct raw s).2 = (construct env dct raw s).2 := by
  unfold isValid
  rcases h : construct env dct raw s with ⟨(_ | _) | _, s'⟩ <;> simp

/-- C31 does not hold in full: the rules `1 in {{1}}`, `1 << 20000`, `"a" =~ "x{4294967296}"` and
`d"9999-12-31T24:00"` cannot be constructed, but `is_valid` raises TypeError, ValueError and OverflowError. -/
theorem is_valid_false :
    (isValid sampleEnv .default (.contains (.set [.set [.floatLit "1"]]) (.floatLit "1")) St.init).1 =
      .error .typeError ∧
    (isValid sampleEnv .default (.bin (.shift .lsh) (.floatLit "1") (.floatLit "20000")) St.init).1 =
      .error (.py .valueError) ∧
    (isValid sampleEnv .default (.bin (.fuzzy false false) (.lit (.str "a")) (.lit (.str "x{4294967296}"))) St.init).1 =
      .error (.py .overflowError) ∧
    (isValid sampleEnv .default (.datetimeLit "9999-12-31T24:00") St.init).1 = .error (.py .overflowError) := by
  decide +kernel

/-- Witness for C31: rules for which it returns True and False. -/
theorem is_valid_witness :
    (isValid sampleEnv .default (.bin .add (.sym "x" false) (.floatLit "1")) St.init).1 = .ok true ∧
    (isValid sampleEnv .default (.bin .add (.lit (.str "a")) (.floatLit "1")) St.init).1 = .ok false := by
  decide +kernel

/-! ## C33 -/

mutual
/-- Specification: the rule references the symbol `name` somewhere where no enclosing comprehension binds it. -/
def Raw.Refers (name : String) : Raw → Prop
  | .lit _ | .floatLit _ | .datetimeLit _ | .timedeltaLit _ => False
  | .array xs => Raw.RefersList name xs
  | .set xs => Raw.RefersList name xs
  | .mapping kvs => Raw.RefersPairs name kvs
  | .bin _ l r => l.Refers name ∨ r.Refers name
  | .comp result var iterable cond =>
    iterable.Refers name ∨ (var ≠ name ∧ (result.Refers name ∨ cond.Refers name))
  | .contains c m => c.Refers name ∨ m.Refers name
  | .getAttr o _ _ => o.Refers name
  | .getItem c i _ => c.Refers name ∨ i.Refers name
  | .getSlice c a b _ => c.Refers name ∨ a.Refers name ∨ b.Refers name
  | .sym n builtin => n = name ∧ builtin = false
  | .call f args => f.Refers name ∨ Raw.RefersList name args
  | .tern c t f => c.Refers name ∨ t.Refers name ∨ f.Refers name
  | .not e => e.Refers name
  | .neg e => e.Refers name
/-- in one of the trees -/
def Raw.RefersList (name : String) : List Raw → Prop
  | [] => False
  | x :: xs => x.Refers name ∨ Raw.RefersList name xs
/-- in one of the items -/
def Raw.RefersPairs (name : String) : List (Raw × Raw) → Prop
  | [] => False
  | (k, v) :: xs => k.Refers name ∨ v.Refers name ∨ Raw.RefersPairs name xs
end

theorem scopeLookup_snoc_none {Γ : List Assignment} {a : Assignment} {name : String}
    (h : scopeLookup Γ name = none) (hn : a.name ≠ name) : scopeLookup (Γ ++ [a]) name = none := by
  unfold scopeLookup at *
  rw [List.find?_append, h]
  simp [hn]

mutual
theorem built_refers {env : Env} {dct : DecCtx} {name : String} : ∀ (raw : Raw) {Γ : List Assignment} {e : Expr},
    Built env dct Γ raw e → raw.Refers name → scopeLookup Γ name = none → ∃ t, env.typeResolver name = .ok t
  | .lit _, Γ, e, _, h, _ => by simp only [Raw.Refers] at h
  | .floatLit _, Γ, e, _, h, _ => by simp only [Raw.Refers] at h
  | .datetimeLit _, Γ, e, _, h, _ => by simp only [Raw.Refers] at h
  | .timedeltaLit _, Γ, e, _, h, _ => by simp only [Raw.Refers] at h
  | .array xs, Γ, e, hb, h, hs => by
    simp only [Raw.Refers] at h; simp only [Built] at hb
    obtain ⟨es, hb, -⟩ := hb
    exact builtList_refers xs hb h hs
  | .set xs, Γ, e, hb, h, hs => by
    simp only [Raw.Refers] at h; simp only [Built] at hb
    obtain ⟨es, hb, -⟩ := hb
    exact builtList_refers xs hb h hs
  | .mapping xs, Γ, e, hb, h, hs => by
    simp only [Raw.Refers] at h; simp only [Built] at hb
    obtain ⟨es, hb, -⟩ := hb
    exact builtPairs_refers xs hb h hs
  | .bin op l r, Γ, e, hb, h, hs => by
    simp only [Raw.Refers] at h; simp only [Built] at hb
    obtain ⟨_, _, h1, h2, -⟩ := hb
    rcases h with h | h
    · exact built_refers l h1 h hs
    · exact built_refers r h2 h hs
  | .comp result var iterable cond, Γ, e, hb, h, hs => by
    simp only [Raw.Refers] at h; simp only [Built] at hb
    obtain ⟨_, _, _, _, h1, -, h2, h3, -⟩ := hb
    rcases h with h | ⟨hn, h | h⟩
    · exact built_refers iterable h1 h hs
    · exact built_refers result h3 h (scopeLookup_snoc_none hs hn)
    · exact built_refers cond h2 h (scopeLookup_snoc_none hs hn)
  | .contains c m, Γ, e, hb, h, hs => by
    simp only [Raw.Refers] at h; simp only [Built] at hb
    obtain ⟨_, _, h1, h2, -⟩ := hb
    rcases h with h | h
    · exact built_refers c h1 h hs
    · exact built_refers m h2 h hs
  | .getAttr o n safe, Γ, e, hb, h, hs => by
    simp only [Raw.Refers] at h; simp only [Built] at hb
    obtain ⟨_, h1, -⟩ := hb
    exact built_refers o h1 h hs
  | .getItem c i safe, Γ, e, hb, h, hs => by
    simp only [Raw.Refers] at h; simp only [Built] at hb
    obtain ⟨_, _, h1, h2, -⟩ := hb
    rcases h with h | h
    · exact built_refers c h1 h hs
    · exact built_refers i h2 h hs
  | .getSlice c a b safe, Γ, e, hb, h, hs => by
    simp only [Raw.Refers] at h; simp only [Built] at hb
    obtain ⟨_, _, _, h1, h2, h3, -⟩ := hb
    rcases h with h | h | h
    · exact built_refers c h1 h hs
    · exact built_refers a h2 h hs
    · exact built_refers b h3 h hs
  | .sym n b, Γ, e, hb, h, hs => by
    simp only [Raw.Refers] at h; simp only [Built] at hb
    obtain ⟨rfl, rfl⟩ := h
    obtain ⟨t, ht, -⟩ := hb
    simp only [symType, Bool.false_eq_true, if_false, hs] at ht
    exact ⟨t, ht⟩
  | .call f args, Γ, e, hb, h, hs => by
    simp only [Raw.Refers] at h; simp only [Built] at hb
    obtain ⟨_, _, h1, h2, -⟩ := hb
    rcases h with h | h
    · exact built_refers f h1 h hs
    · exact builtList_refers args h2 h hs
  | .tern c t f, Γ, e, hb, h, hs => by
    simp only [Raw.Refers] at h; simp only [Built] at hb
    obtain ⟨_, _, _, h1, h2, h3, -⟩ := hb
    rcases h with h | h | h
    · exact built_refers c h1 h hs
    · exact built_refers t h2 h hs
    · exact built_refers f h3 h hs
  | .not x, Γ, e, hb, h, hs => by
    simp only [Raw.Refers] at h; simp only [Built] at hb
    obtain ⟨_, h1, -⟩ := hb
    exact built_refers x h1 h hs
  | .neg x, Γ, e, hb, h, hs => by
    simp only [Raw.Refers] at h; simp only [Built] at hb
    obtain ⟨_, h1, -⟩ := hb
    exact built_refers x h1 h hs
theorem builtList_refers {env : Env} {dct : DecCtx} {name : String} :
    ∀ (xs : List Raw) {Γ : List Assignment} {es : List Expr},
    BuiltList env dct Γ xs es → Raw.RefersList name xs → scopeLookup Γ name = none →
      ∃ t, env.typeResolver name = .ok t
  | [], _, _, _, h, _ => by simp only [Raw.RefersList] at h
  | x :: xs, Γ, es, hb, h, hs => by
    simp only [Raw.RefersList] at h; simp only [BuiltList] at hb
    obtain ⟨_, _, h1, h2, -⟩ := hb
    rcases h with h | h
    · exact built_refers x h1 h hs
    · exact builtList_refers xs h2 h hs
theorem builtPairs_refers {env : Env} {dct : DecCtx} {name : String} :
    ∀ (xs : List (Raw × Raw)) {Γ : List Assignment} {es : List (Expr × Expr)},
    BuiltPairs env dct Γ xs es → Raw.RefersPairs name xs → scopeLookup Γ name = none →
      ∃ t, env.typeResolver name = .ok t
  | [], _, _, _, h, _ => by simp only [Raw.RefersPairs] at h
  | (k, v) :: xs, Γ, es, hb, h, hs => by
    simp only [Raw.RefersPairs] at h; simp only [BuiltPairs] at hb
    obtain ⟨_, _, _, h1, h2, h3, -⟩ := hb
    rcases h with h | h | h
    · exact built_refers k h1 h hs
    · exact built_refers v h2 h hs
    · exact builtPairs_refers xs h3 h hs
end

/-- **C33**: with a dictionary as type resolver, a rule that references a symbol that is neither in the dictionary
nor a comprehension variable in scope cannot be constructed, wherever the reference is; whatever was done before in
the thread. -/
theorem unknown_symbol_rejected (env : Env) (d : List (String × DataType))
    (htr : env.typeResolver = typeResolverFromDict d) (dct : DecCtx) (raw : Raw) (name : String)
    (hr : raw.Refers name) (hd : name ∉ d.map Prod.fst) (acts : List Act) :
    ∃ err, (construct env dct raw (runActs env acts St.init)).1 = .error err := by
  rw [construction_independent_of_history]
  rcases h : construct env dct raw St.init with ⟨err | e, s'⟩
  · exact ⟨err, rfl⟩
  · exfalso
    obtain ⟨t, ht⟩ := built_refers raw (build_built raw h) hr rfl
    rw [htr] at ht
    unfold typeResolverFromDict at ht
    split at ht
    · rename_i p hp
      have hm := List.mem_of_find?_eq_some hp
      have hn := List.find?_some hp
      exact hd (List.mem_map.2 ⟨p, hm, by simpa using hn⟩)
    · simp at ht

/-- **C33**: the reference itself raises SymbolResolutionError for that name. -/
theorem unknown_symbol_error (env : Env) (d : List (String × DataType))
    (htr : env.typeResolver = typeResolverFromDict d) (dct : DecCtx) (name : String)
    (hd : name ∉ d.map Prod.fst) (s : St) (hs : s.scopes = []) :
    (construct env dct (.sym name false) s).1 = .error (.eng (.symbolResolution name)) := by
  have : d.find? (fun p => p.1 == name) = none := by
    rw [List.find?_eq_none]
    intro p hp hn
    exact hd (List.mem_map.2 ⟨p, hp, by simpa using hn⟩)
  simp only [construct, build, mkSym, M.bind_apply, M.modify_apply, ctxResolveType, Bool.false_eq_true, if_false, hs,
    scopeLookup, List.find?_nil, htr, typeResolverFromDict, this]

/-- Witness for C33: `true or [y for x in xs]` references the unknown `y` and `xs`, not `x`; construction reports the
first; `true or [x for x in ys]` is accepted if `ys` is in the dictionary. -/
theorem unknown_symbol_witness :
    (Raw.bin .or (.lit (.bool true)) (.comp (.sym "y" false) "x" (.sym "ys" false) (.lit (.bool true)))).Refers "y" ∧
    (construct { sampleEnv with typeResolver := typeResolverFromDict [("ys", .anyArray)] } .default
      (.bin .or (.lit (.bool true)) (.comp (.sym "y" false) "x" (.sym "ys" false) (.lit (.bool true))))
      St.init).1 = .error (.eng (.symbolResolution "y")) ∧
    (isValid { sampleEnv with typeResolver := typeResolverFromDict [("ys", .anyArray)] } .default
      (.bin .or (.lit (.bool true)) (.comp (.sym "x" false) "x" (.sym "ys" false) (.lit (.bool true))))
      St.init).1 = .ok true := by
  refine ⟨by simp [Raw.Refers], rfl, by decide +kernel⟩

end RE
