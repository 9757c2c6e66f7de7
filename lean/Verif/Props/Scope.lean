import Verif.Props.Built
import Verif.Model.Sample

/-!
# Nested comprehension variables (C16)

The engine keeps the variables in a list of scopes and searches that list from the oldest scope.
Here that is compared with an evaluator that has no scopes in its state at all: it passes a lexical
environment down the tree, innermost binding first.
-/

set_option linter.unusedSimpArgs false
set_option linter.unusedVariables false

namespace RE

/-! ## Specification: lexical scoping -/

/-- Specification: the variables of the enclosing comprehensions, innermost first. -/
abbrev Bindings := List (String × Value)

/-- Specification: the innermost binding of a name. -/
def Bindings.find (ρ : Bindings) (name : String) : Option Value :=
  match ρ with
  | [] => none
  | (n, v) :: rest => if n = name then some v else Bindings.find rest name

/-- Specification: a name denotes a builtin if written with `$`, else the innermost variable of that
name, else what the resolver says. -/
def lexResolve (env : Env) (ρ : Bindings) (thing : Value) (name : String) (builtin : Bool) : M Value :=
  fun s =>
    if builtin then
      match builtinValue env s.groups name with
      | some v => (.ok v, s)
      | none => (.error (.eng (.symbolResolution name)), s)
    else
      match ρ.find name with
      | some v => (.ok v, s)
      | none => (env.resolver thing name, { s with log := s.log ++ [.resolve thing name] })

/-- Specification: a symbol, with default value and type check. -/
def lexSymbol (env : Env) (ρ : Bindings) (thing : Value) (name : String) (rt : DataType)
    (builtin : Bool) : M Value := do
  let v ← M.catchErr (lexResolve env ρ thing name builtin) (fun e =>
    match isSymErr e, env.defaultValue with
    | true, some d => pure d
    | _, _ => M.throw e)
  M.lift (checkSymbol name rt (newValue env v))

/-- Specification: an attribute: the type's own attributes, then a name lookup on the object. -/
def lexAttr (env : Env) (ρ : Bindings) (obj : Value) (name : String) : M Value := fun s =>
  match resolveAttr env obj name with
  | .ok v => (.ok (newValue env v), s)
  | .error e =>
    if isAttrErr e then
      match lexResolve env ρ obj name false s with
      | (.ok v, s') => (.ok (newValue env v), s')
      | (.error e', s') =>
        if isSymErr e' then
          match env.defaultValue with
          | some d => (.ok (newValue env d), s')
          | none => (.error e, s')
        else (.error e', s')
    else (.error e, s)

/-- Specification: the loop of a comprehension: condition and result are functions of the current
member. -/
def lexLoop (cond result : Value → M Value) : List Value → M (List Value)
  | [] => pure []
  | x :: xs => do
    let c ← cond x
    let r ← (if c.truthy then do
        let v ← result x
        pure (some v)
      else pure none)
    let vs ← lexLoop cond result xs
    pure (match r with
      | some v => v :: vs
      | none => vs)

mutual
/-- Specification: evaluation with a lexical environment. -/
def lex (env : Env) (dc : DecCtx) (thing : Value) (ρ : Bindings) : Expr → M Value
  | .lit v _ => pure v
  | .array xs => do
    let vs ← seqM (lexs env dc thing ρ xs)
    pure (.tuple vs)
  | .set xs => do
    let vs ← setM env.utcoffset [] (lexs env dc thing ρ xs)
    pure (.set vs)
  | .mapping kvs => do
    let ks ← mapKeysM env.utcoffset [] (lexPairs env dc thing ρ kvs)
    let items ← mapValsM ks
    pure (.map .ordered items)
  | .bin op l r => evalBin env dc op (lex env dc thing ρ l) (lex env dc thing ρ r)
  | .comp result var iterable cond => do
    let it ← lex env dc thing ρ iterable
    let t ← M.lift (fromValue it)
    if t.isIterable then do
      let xs ← M.lift it.members
      let vs ← lexLoop (fun x => lex env dc thing ((var, x) :: ρ) cond)
        (fun x => lex env dc thing ((var, x) :: ρ) result) xs
      pure (.tuple vs)
    else M.throw .mismatch
  | .contains container member => do
    let c ← lex env dc thing ρ container
    let ct ← M.lift (fromValue c)
    let m ← lex env dc thing ρ member
    let b ← M.lift (opContains env.utcoffset ct c m)
    pure (.bool b)
  | .getAttr obj name safe => do
    let o ← lex env dc thing ρ obj
    if o = .none ∧ safe = true then pure .none
    else lexAttr env ρ o name
  | .getItem container item safe => do
    let c ← lex env dc thing ρ container
    if c = .none then (if safe then pure .none else M.throw .mismatch)
    else do
      let i ← lex env dc thing ρ item
      match ← M.lift (opGetItem env.utcoffset c i) with
      | some v => pure (newValue env v)
      | none => if safe then pure .none else M.throw (.eng .lookup)
  | .getSlice container start stop safe => do
    let c ← lex env dc thing ρ container
    if c = .none then (if safe then pure .none else M.throw .mismatch)
    else evalSlice env c (lex env dc thing ρ start) (lex env dc thing ρ stop)
  | .sym name rt builtin => lexSymbol env ρ thing name rt builtin
  | .call f args => do
    let fv ← lex env dc thing ρ f
    if fv.isCallable then do
      let vs ← seqM (lexs env dc thing ρ args)
      evalCall env dc f.rt (callNodeType f.rt) fv vs
    else M.throw .mismatch
  | .tern c t f => do
    let v ← lex env dc thing ρ c
    if v.truthy then lex env dc thing ρ t else lex env dc thing ρ f
  | .not e => do
    let v ← lex env dc thing ρ e
    pure (.bool (!v.truthy))
  | .neg e => do
    let v ← lex env dc thing ρ e
    M.lift (opNeg dc v)
/-- a list of nodes -/
def lexs (env : Env) (dc : DecCtx) (thing : Value) (ρ : Bindings) : List Expr → List (M Value)
  | [] => []
  | e :: es => lex env dc thing ρ e :: lexs env dc thing ρ es
/-- the items of a mapping literal -/
def lexPairs (env : Env) (dc : DecCtx) (thing : Value) (ρ : Bindings) :
    List (Expr × Expr) → List (M Value × M Value)
  | [] => []
  | (k, v) :: rest => (lex env dc thing ρ k, lex env dc thing ρ v) :: lexPairs env dc thing ρ rest
end

mutual
/-- Specification: no comprehension uses the name of an enclosing comprehension's variable (`bound`)
for its own variable. -/
def Raw.NoShadow (bound : List String) : Raw → Prop
  | .lit _ | .floatLit _ | .datetimeLit _ | .timedeltaLit _ | .sym .. => True
  | .array xs | .set xs => Raw.NoShadowList bound xs
  | .mapping kvs => Raw.NoShadowPairs bound kvs
  | .bin _ l r => l.NoShadow bound ∧ r.NoShadow bound
  | .comp result var iterable cond =>
    iterable.NoShadow bound ∧ var ∉ bound ∧ cond.NoShadow (bound ++ [var]) ∧
      result.NoShadow (bound ++ [var])
  | .contains c m => c.NoShadow bound ∧ m.NoShadow bound
  | .getAttr o _ _ => o.NoShadow bound
  | .getItem c i _ => c.NoShadow bound ∧ i.NoShadow bound
  | .getSlice c a b _ => c.NoShadow bound ∧ a.NoShadow bound ∧ b.NoShadow bound
  | .call f args => f.NoShadow bound ∧ Raw.NoShadowList bound args
  | .tern c t f => c.NoShadow bound ∧ t.NoShadow bound ∧ f.NoShadow bound
  | .not e | .neg e => e.NoShadow bound
def Raw.NoShadowList (bound : List String) : List Raw → Prop
  | [] => True
  | x :: xs => x.NoShadow bound ∧ Raw.NoShadowList bound xs
def Raw.NoShadowPairs (bound : List String) : List (Raw × Raw) → Prop
  | [] => True
  | (k, v) :: xs => k.NoShadow bound ∧ v.NoShadow bound ∧ Raw.NoShadowPairs bound xs
end

/-! ## Proof -/

mutual
/-- the same of constructed nodes -/
def Expr.NoShadow (bound : List String) : Expr → Prop
  | .lit .. | .sym .. => True
  | .array xs | .set xs => Expr.NoShadowList bound xs
  | .mapping kvs => Expr.NoShadowPairs bound kvs
  | .bin _ l r => l.NoShadow bound ∧ r.NoShadow bound
  | .comp result var iterable cond =>
    iterable.NoShadow bound ∧ var ∉ bound ∧ cond.NoShadow (bound ++ [var]) ∧
      result.NoShadow (bound ++ [var])
  | .contains c m => c.NoShadow bound ∧ m.NoShadow bound
  | .getAttr o _ _ => o.NoShadow bound
  | .getItem c i _ => c.NoShadow bound ∧ i.NoShadow bound
  | .getSlice c a b _ => c.NoShadow bound ∧ a.NoShadow bound ∧ b.NoShadow bound
  | .call f args => f.NoShadow bound ∧ Expr.NoShadowList bound args
  | .tern c t f => c.NoShadow bound ∧ t.NoShadow bound ∧ f.NoShadow bound
  | .not e | .neg e => e.NoShadow bound
def Expr.NoShadowList (bound : List String) : List Expr → Prop
  | [] => True
  | x :: xs => x.NoShadow bound ∧ Expr.NoShadowList bound xs
def Expr.NoShadowPairs (bound : List String) : List (Expr × Expr) → Prop
  | [] => True
  | (k, v) :: xs => k.NoShadow bound ∧ v.NoShadow bound ∧ Expr.NoShadowPairs bound xs
end

mutual
theorem reduced_noShadow (bound : List String) : ∀ e : Expr, e.reduced = true → e.NoShadow bound
  | .lit .., _ => by simp [Expr.NoShadow]
  | .array xs, h | .set xs, h => by
    simp only [Expr.NoShadow]; simp only [Expr.reduced] at h; exact reduceds_noShadow bound xs h
  | .mapping kvs, h => by
    simp only [Expr.NoShadow]; simp only [Expr.reduced] at h; exact reducedp_noShadow bound kvs h
  | .bin .., h | .comp .., h | .contains .., h | .getAttr .., h | .getItem .., h | .getSlice .., h
  | .sym .., h | .call .., h | .tern .., h | .not _, h | .neg _, h => by simp [Expr.reduced] at h
theorem reduceds_noShadow (bound : List String) : ∀ es : List Expr, Expr.reducedList es = true →
    Expr.NoShadowList bound es
  | [], _ => by simp [Expr.NoShadowList]
  | e :: es, h => by
    simp only [Expr.reducedList, Bool.and_eq_true] at h
    simp only [Expr.NoShadowList]
    exact ⟨reduced_noShadow bound e h.1, reduceds_noShadow bound es h.2⟩
theorem reducedp_noShadow (bound : List String) : ∀ es : List (Expr × Expr),
    Expr.reducedPairs es = true → Expr.NoShadowPairs bound es
  | [], _ => by simp [Expr.NoShadowPairs]
  | (k, v) :: es, h => by
    simp only [Expr.reducedPairs, Bool.and_eq_true] at h
    simp only [Expr.NoShadowPairs]
    exact ⟨reduced_noShadow bound k h.1.1, reduced_noShadow bound v h.1.2,
      reducedp_noShadow bound es h.2⟩
end

theorem litOf_noShadow {off : TzDb} {v : Value} {e : Expr} (bound : List String)
    (h : litOf off v = .ok e) : e.NoShadow bound := by
  simp only [litOf, except_bind_ok, Except.ok.injEq] at h
  obtain ⟨t, _, rfl⟩ := h
  exact reduced_noShadow bound _ (Expr.ofValue_reduced off v)

theorem folds_noShadow {env : Env} {dct : DecCtx} {Γ : List Assignment} {n e : Expr}
    (bound : List String) (h : Folds env dct Γ n e) : e.NoShadow bound := by
  obtain ⟨v, -, h⟩ := h
  exact litOf_noShadow bound h

theorem attrLit_noShadow {bound : List String} {n e : Expr} (h : e.NoShadow bound) :
    (attrLit n e).NoShadow bound := by
  unfold attrLit
  split
  · split <;> simp [Expr.NoShadow]
  · exact h

mutual
theorem built_noShadow {env : Env} {dct : DecCtx} : ∀ (raw : Raw) {Γ : List Assignment} {e : Expr}
    (bound : List String), raw.NoShadow bound → Built env dct Γ raw e → e.NoShadow bound
  | .lit _, Γ, e, bound, hn, h | .floatLit _, Γ, e, bound, hn, h | .datetimeLit _, Γ, e, bound, hn, h
  | .timedeltaLit _, Γ, e, bound, hn, h | .sym _ _, Γ, e, bound, hn, h => by
    simp only [Built] at h
    obtain ⟨_, _, rfl⟩ := h
    simp [Expr.NoShadow]
  | .array xs, Γ, e, bound, hn, h | .set xs, Γ, e, bound, hn, h => by
    simp only [Built] at h
    obtain ⟨es, h1, rfl⟩ := h
    simp only [Raw.NoShadow] at hn
    simp only [Expr.NoShadow]
    exact builts_noShadow xs bound hn h1
  | .mapping kvs, Γ, e, bound, hn, h => by
    simp only [Built] at h
    obtain ⟨es, h1, -, rfl⟩ := h
    simp only [Raw.NoShadow] at hn
    simp only [Expr.NoShadow]
    exact builtp_noShadow kvs bound hn h1
  | .bin op l r, Γ, e, bound, hn, h => by
    simp only [Built] at h
    obtain ⟨l', r', h1, h2, -, h3⟩ := h
    simp only [Raw.NoShadow] at hn
    split at h3
    · exact folds_noShadow bound h3
    · subst h3
      simp only [Expr.NoShadow]
      exact ⟨built_noShadow l bound hn.1 h1, built_noShadow r bound hn.2 h2⟩
  | .comp result var iterable cond, Γ, e, bound, hn, h => by
    simp only [Built] at h
    obtain ⟨it, t, c, r, h1, -, h2, h3, rfl⟩ := h
    simp only [Raw.NoShadow] at hn
    simp only [Expr.NoShadow]
    exact ⟨built_noShadow iterable bound hn.1 h1, hn.2.1, built_noShadow cond _ hn.2.2.1 h2,
      built_noShadow result _ hn.2.2.2 h3⟩
  | .contains l r, Γ, e, bound, hn, h => by
    simp only [Built] at h
    obtain ⟨l', r', h1, h2, -, h3⟩ := h
    simp only [Raw.NoShadow] at hn
    split at h3
    · obtain ⟨v, -, rfl⟩ := h3
      simp [Expr.NoShadow]
    · subst h3
      simp only [Expr.NoShadow]
      exact ⟨built_noShadow l bound hn.1 h1, built_noShadow r bound hn.2 h2⟩
  | .getAttr o name safe, Γ, e, bound, hn, h => by
    simp only [Built] at h
    obtain ⟨o', h1, -, h3⟩ := h
    simp only [Raw.NoShadow] at hn
    split at h3
    · obtain ⟨e', hf, rfl⟩ := h3
      exact attrLit_noShadow (folds_noShadow bound hf)
    · subst h3
      simp only [Expr.NoShadow]
      exact built_noShadow o bound hn h1
  | .getItem l r safe, Γ, e, bound, hn, h => by
    simp only [Built] at h
    obtain ⟨l', r', h1, h2, -, h3⟩ := h
    simp only [Raw.NoShadow] at hn
    split at h3
    · subst h3; simp [Expr.NoShadow]
    split at h3
    · exact folds_noShadow bound h3
    · subst h3
      simp only [Expr.NoShadow]
      exact ⟨built_noShadow l bound hn.1 h1, built_noShadow r bound hn.2 h2⟩
  | .getSlice c a b safe, Γ, e, bound, hn, h => by
    simp only [Built] at h
    obtain ⟨c', a', b', h1, h2, h3, -, h4⟩ := h
    simp only [Raw.NoShadow] at hn
    split at h4
    · exact folds_noShadow bound h4
    · subst h4
      simp only [Expr.NoShadow]
      exact ⟨built_noShadow c bound hn.1 h1, built_noShadow a bound hn.2.1 h2,
        built_noShadow b bound hn.2.2 h3⟩
  | .call f args, Γ, e, bound, hn, h => by
    simp only [Built] at h
    obtain ⟨f', as, h1, h2, -, h3⟩ := h
    simp only [Raw.NoShadow] at hn
    split at h3
    · exact folds_noShadow bound h3
    · subst h3
      simp only [Expr.NoShadow]
      exact ⟨built_noShadow f bound hn.1 h1, builts_noShadow args bound hn.2 h2⟩
  | .tern c t f, Γ, e, bound, hn, h => by
    simp only [Built] at h
    obtain ⟨c', t', f', h1, h2, h3, rfl⟩ := h
    simp only [Raw.NoShadow] at hn
    have i1 := built_noShadow c bound hn.1 h1
    have i2 := built_noShadow t bound hn.2.1 h2
    have i3 := built_noShadow f bound hn.2.2 h3
    unfold mkTern
    split
    · split
      · exact i2
      · exact i3
    · simp only [Expr.NoShadow]
      exact ⟨i1, i2, i3⟩
  | .not x, Γ, e, bound, hn, h => by
    simp only [Built] at h
    obtain ⟨x', h1, h3⟩ := h
    simp only [Raw.NoShadow] at hn
    split at h3
    · obtain ⟨v, -, rfl⟩ := h3
      simp [Expr.NoShadow]
    · subst h3
      simp only [Expr.NoShadow]
      exact built_noShadow x bound hn h1
  | .neg x, Γ, e, bound, hn, h => by
    simp only [Built] at h
    obtain ⟨x', h1, h3⟩ := h
    simp only [Raw.NoShadow] at hn
    split at h3
    · obtain ⟨w, v, t, -, -, -, rfl⟩ := h3
      simp [Expr.NoShadow]
    · subst h3
      simp only [Expr.NoShadow]
      exact built_noShadow x bound hn h1
theorem builts_noShadow {env : Env} {dct : DecCtx} : ∀ (xs : List Raw) {Γ : List Assignment}
    {es : List Expr} (bound : List String), Raw.NoShadowList bound xs → BuiltList env dct Γ xs es →
    Expr.NoShadowList bound es
  | [], Γ, es, bound, hn, h => by
    simp only [BuiltList] at h
    subst h; simp [Expr.NoShadowList]
  | x :: xs, Γ, es, bound, hn, h => by
    simp only [BuiltList] at h
    obtain ⟨e, es', h1, h2, rfl⟩ := h
    simp only [Raw.NoShadowList] at hn
    simp only [Expr.NoShadowList]
    exact ⟨built_noShadow x bound hn.1 h1, builts_noShadow xs bound hn.2 h2⟩
theorem builtp_noShadow {env : Env} {dct : DecCtx} : ∀ (xs : List (Raw × Raw)) {Γ : List Assignment}
    {es : List (Expr × Expr)} (bound : List String), Raw.NoShadowPairs bound xs →
    BuiltPairs env dct Γ xs es → Expr.NoShadowPairs bound es
  | [], Γ, es, bound, hn, h => by
    simp only [BuiltPairs] at h
    subst h; simp [Expr.NoShadowPairs]
  | (k, v) :: xs, Γ, es, bound, hn, h => by
    simp only [BuiltPairs] at h
    obtain ⟨k', v', es', h1, h2, h3, rfl⟩ := h
    simp only [Raw.NoShadowPairs] at hn
    simp only [Expr.NoShadowPairs]
    exact ⟨built_noShadow k bound hn.1 h1, built_noShadow v bound hn.2.1 h2,
      builtp_noShadow xs bound hn.2.2 h3⟩
end

/-- Same outcome and same state afterwards, from any two states that agree except for the scopes: in
the first one these are `S`. -/
def LexRel (S : List Assignment) {α : Type} (m m' : M α) : Prop :=
  ∀ s s' : St, s.scopes = S → s' = { s with scopes := [] } →
    (m s).1 = (m' s').1 ∧ (m s).2.scopes = S ∧ (m' s').2 = { (m s).2 with scopes := [] }

theorem lexRel_base (S : List Assignment) : RelBase (LexRel S) where
  lift x := by rintro s _ h rfl; exact ⟨rfl, h, rfl⟩
  bind := by
    rintro α β m m' f f' hm hf s _ hs rfl
    obtain ⟨h1, h2, h3⟩ := hm s _ hs rfl
    rw [M.bind_apply, M.bind_apply]
    rcases hr : m s with ⟨x, t⟩
    rcases hr' : m' { s with scopes := [] } with ⟨x', t'⟩
    rw [hr] at h1 h2 h3
    rw [hr'] at h1 h3
    simp only at h1 h2 h3
    subst h1
    cases x with
    | error e => exact ⟨rfl, h2, h3⟩
    | ok a => exact hf a t t' h2 h3
  setGroups g _ := by rintro s _ h rfl; exact ⟨rfl, h, rfl⟩
  logCall f args α x := by rintro s _ h rfl; exact ⟨rfl, h, rfl⟩
  rethrow := by
    rintro α e m m' hm s _ hs rfl
    obtain ⟨h1, h2, h3⟩ := hm s _ hs rfl
    unfold M.catchErr
    rcases hr : m s with ⟨x, t⟩
    rcases hr' : m' { s with scopes := [] } with ⟨x', t'⟩
    rw [hr] at h1 h2 h3
    rw [hr'] at h1 h3
    simp only at h1 h2 h3
    subst h1
    cases x with
    | error e => exact ⟨rfl, h2, h3⟩
    | ok a => exact ⟨rfl, h2, h3⟩

/-- the bindings that correspond to scopes -/
def bindingsOf (S : List Assignment) : Bindings := (S.map fun a => (a.name, a.value)).reverse

theorem find_append (ρ ρ' : Bindings) (name : String) :
    Bindings.find (ρ ++ ρ') name = (Bindings.find ρ name).or (Bindings.find ρ' name) := by
  induction ρ with
  | nil => simp [Bindings.find]
  | cons p t ih =>
    obtain ⟨n, v⟩ := p
    simp only [List.cons_append, Bindings.find]
    split
    · rfl
    · exact ih

/-- with distinct names the order of the search does not matter -/
theorem scopeLookup_bindings : ∀ {S : List Assignment}, (S.map (·.name)).Nodup → ∀ name,
    (scopeLookup S name).map (·.value) = (bindingsOf S).find name
  | [], _, name => rfl
  | a :: S, h, name => by
    simp only [List.map_cons, List.nodup_cons] at h
    have ih := scopeLookup_bindings h.2 name
    unfold scopeLookup at ih ⊢
    simp only [bindingsOf, List.map_cons, List.reverse_cons, find_append]
    rw [show ((List.map (fun a => (a.name, a.value)) S).reverse : Bindings) = bindingsOf S from rfl,
      ← ih, List.find?_cons]
    by_cases hn : a.name = name
    · have : S.find? (fun a => a.name == name) = none := by
        rw [List.find?_eq_none]
        intro x hx hc
        simp only [beq_iff_eq] at hc
        exact h.1 (by rw [hn, ← hc]; exact List.mem_map.2 ⟨x, hx, rfl⟩)
      simp [hn, this, Bindings.find]
    · have hb : (a.name == name) = false := beq_eq_false_iff_ne.2 hn
      rw [hb]
      simp [hn, Bindings.find]

theorem bindingsOf_append (S : List Assignment) (a : Assignment) :
    bindingsOf (S ++ [a]) = (a.name, a.value) :: bindingsOf S := by
  simp [bindingsOf]

theorem resolve_lexRel {S : List Assignment} (hS : (S.map (·.name)).Nodup) (env : Env) (thing : Value)
    (name : String) (b : Bool) :
    LexRel S (ctxResolve env thing name b) (lexResolve env (bindingsOf S) thing name b) := by
  rintro s _ hs rfl
  unfold ctxResolve lexResolve
  cases b with
  | true =>
    simp only [if_true]
    cases builtinValue env s.groups name with
    | none => exact ⟨rfl, hs, rfl⟩
    | some v => exact ⟨rfl, hs, rfl⟩
  | false =>
    simp only [Bool.false_eq_true, if_false]
    have := scopeLookup_bindings hS name
    cases hl : scopeLookup S name with
    | none =>
      have hl' : scopeLookup s.scopes name = none := by rw [hs]; exact hl
      rw [hl] at this
      simp only [Option.map_none] at this
      simp only [hl', ← this]
      exact ⟨trivial, hs, trivial⟩
    | some a =>
      have hl' : scopeLookup s.scopes name = some a := by rw [hs]; exact hl
      rw [hl] at this
      simp only [Option.map_some] at this
      simp only [hl', ← this]
      exact ⟨trivial, hs, trivial⟩

theorem symbol_lexRel {S : List Assignment} (hS : (S.map (·.name)).Nodup) (env : Env) (thing : Value)
    (name : String) (rt : DataType) (b : Bool) :
    LexRel S (evalSymbol env thing name rt b) (lexSymbol env (bindingsOf S) thing name rt b) := by
  refine (lexRel_base S).bind ?_ fun v => (lexRel_base S).lift _
  rintro s _ hs rfl
  obtain ⟨h1, h2, h3⟩ := resolve_lexRel hS env thing name b s _ hs rfl
  unfold M.catchErr
  rcases hr : ctxResolve env thing name b s with ⟨x, t⟩
  rcases hr' : lexResolve env (bindingsOf S) thing name b { s with scopes := [] } with ⟨x', t'⟩
  rw [hr] at h1 h2 h3
  rw [hr'] at h1 h3
  simp only at h1 h2 h3
  subst h1
  cases x with
  | ok a => exact ⟨rfl, h2, h3⟩
  | error e =>
    simp only
    rcases h5 : isSymErr e with _ | _ <;> rcases h6 : env.defaultValue with _ | d <;>
      exact ⟨rfl, h2, h3⟩

theorem attr_lexRel {S : List Assignment} (hS : (S.map (·.name)).Nodup) (env : Env) (o : Value)
    (name : String) : LexRel S (evalGetAttr env o name) (lexAttr env (bindingsOf S) o name) := by
  rintro s _ hs rfl
  obtain ⟨h1, h2, h3⟩ := resolve_lexRel hS env o name false s _ hs rfl
  rcases hr : ctxResolve env o name false s with ⟨x, t⟩
  rcases hr' : lexResolve env (bindingsOf S) o name false { s with scopes := [] } with ⟨x', t'⟩
  rw [hr] at h1 h2 h3
  rw [hr'] at h1 h3
  simp only at h1 h2 h3
  subst h1
  unfold evalGetAttr lexAttr
  rw [hr, hr']
  cases resolveAttr env o name with
  | ok v => exact ⟨rfl, hs, rfl⟩
  | error e =>
    simp only
    cases isAttrErr e with
    | false => exact ⟨rfl, hs, rfl⟩
    | true =>
      cases x with
      | ok a => exact ⟨rfl, h2, h3⟩
      | error e =>
        simp only
        rcases isSymErr e with _ | _ <;> rcases env.defaultValue with _ | d <;>
          exact ⟨rfl, h2, h3⟩

/-- a scope against a binding passed as an argument -/
theorem scope_lexRel {S : List Assignment} {a : Assignment} {α : Type} {m m' : M α}
    (h : LexRel (S ++ [a]) m m') : LexRel S (M.withScope a m) m' := by
  rintro s _ hs rfl
  obtain ⟨h1, h2, h3⟩ := h { s with scopes := S ++ [a] } { s with scopes := [] } rfl rfl
  unfold M.withScope
  rw [hs]
  rcases hr : m { s with scopes := S ++ [a] } with ⟨x, t⟩
  rw [hr] at h1 h2 h3
  refine ⟨h1, ?_, ?_⟩
  · simp only at h2 ⊢
    rw [h2, List.dropLast_concat]
  · simpa using h3

theorem loop_lexRel {S : List Assignment} {var : String} {c r : M Value} {c' r' : Value → M Value}
    (hc : ∀ x, LexRel (S ++ [⟨var, x, .undefined⟩]) c (c' x))
    (hr : ∀ x, LexRel (S ++ [⟨var, x, .undefined⟩]) r (r' x)) : ∀ xs : List Value,
    LexRel S (compM var c r xs) (lexLoop c' r' xs)
  | [] => (lexRel_base S).pure _
  | x :: xs => by
    have hB := lexRel_base (S ++ [⟨var, x, .undefined⟩])
    have h1 : LexRel S (M.withScope ⟨var, x, .undefined⟩ (do
          let c ← c
          if c.truthy then do
            let v ← r
            pure (some v)
          else pure none)) (do
          let c ← c' x
          if c.truthy then do
            let v ← r' x
            pure (some v)
          else pure none) :=
      scope_lexRel (hB.bind (hc x) fun a => hB.ite (fun _ => hB.bind (hr x) fun _ => hB.pure _)
        (fun _ => hB.pure _))
    have h2 := (lexRel_base S).bind h1 fun o => (lexRel_base S).bind (loop_lexRel hc hr xs) fun vs =>
      (lexRel_base S).pure (match o with | some v => v :: vs | none => vs)
    simp only [bind_assoc] at h2
    exact h2

mutual
theorem eval_lexRel {env : Env} {dc : DecCtx} {thing : Value} : ∀ (e : Expr) {S : List Assignment},
    (S.map (·.name)).Nodup → e.NoShadow (S.map (·.name)) →
    LexRel S (eval env dc thing e) (lex env dc thing (bindingsOf S) e)
  | .lit v _, S, hS, h => by simp only [eval, lex]; exact (lexRel_base S).pure _
  | .array xs, S, hS, h => by
    have hB := lexRel_base S
    simp only [Expr.NoShadow] at h
    simp only [eval, lex]
    exact hB.bind (seqM_rel hB (evals_lexRel xs hS h)) fun _ => hB.pure _
  | .set xs, S, hS, h => by
    have hB := lexRel_base S
    simp only [Expr.NoShadow] at h
    simp only [eval, lex]
    exact hB.bind (setM_rel hB _ (evals_lexRel xs hS h) []) fun _ => hB.pure _
  | .mapping kvs, S, hS, h => by
    have hB := lexRel_base S
    simp only [Expr.NoShadow] at h
    simp only [eval, lex]
    rw [← bind_assoc, ← bind_assoc]
    exact hB.bind (mapM_rel hB _ (evalp_lexRel kvs hS h) .nil) fun _ => hB.pure _
  | .bin op l r, S, hS, h => by
    have hB := lexRel_base S
    simp only [Expr.NoShadow] at h
    simp only [eval, lex]
    exact evalBin_rel hB env env.resolver env.typeResolver env.defaultValue dc op
      (eval_lexRel l hS h.1) (eval_lexRel r hS h.2)
  | .comp result var iterable cond, S, hS, h => by
    have hB := lexRel_base S
    simp only [Expr.NoShadow] at h
    obtain ⟨h1, h2, h3, h4⟩ := h
    simp only [eval, lex]
    refine hB.bind (eval_lexRel iterable hS h1) fun it => hB.bind (hB.lift _) fun t =>
      hB.ite (fun _ => hB.bind (hB.lift _) fun xs => hB.bind ?_ fun _ => hB.pure _)
        (fun _ => hB.throw _)
    have nodup : ∀ x, ((S ++ [(⟨var, x, .undefined⟩ : Assignment)]).map (fun a : Assignment => a.name)).Nodup := by
      intro x
      rw [List.map_append, List.nodup_append]
      refine ⟨hS, by simp, ?_⟩
      intro a ha b hb
      simp only [List.map_cons, List.map_nil, List.mem_singleton] at hb
      subst hb
      rintro rfl
      exact h2 ha
    refine loop_lexRel (fun x => ?_) (fun x => ?_) xs
    · have := eval_lexRel (env := env) (dc := dc) (thing := thing) cond (nodup x) (by simpa using h3)
      rwa [bindingsOf_append] at this
    · have := eval_lexRel (env := env) (dc := dc) (thing := thing) result (nodup x) (by simpa using h4)
      rwa [bindingsOf_append] at this
  | .contains c m, S, hS, h => by
    have hB := lexRel_base S
    simp only [Expr.NoShadow] at h
    simp only [eval, lex]
    exact hB.bind (eval_lexRel c hS h.1) fun _ => hB.bind (hB.lift _) fun _ =>
      hB.bind (eval_lexRel m hS h.2) fun _ => hB.bind (hB.lift _) fun _ => hB.pure _
  | .getAttr o name safe, S, hS, h => by
    have hB := lexRel_base S
    simp only [Expr.NoShadow] at h
    simp only [eval, lex]
    exact hB.bind (eval_lexRel o hS h) fun _ => hB.ite (fun _ => hB.pure _)
      (fun _ => attr_lexRel hS env _ _)
  | .getItem c i safe, S, hS, h => by
    have hB := lexRel_base S
    simp only [Expr.NoShadow] at h
    simp only [eval, lex]
    refine hB.bind (eval_lexRel c hS h.1) fun cv => ?_
    refine hB.ite (fun _ => hB.ite (fun _ => hB.pure _) (fun _ => hB.throw _)) (fun _ => ?_)
    refine hB.bind (eval_lexRel i hS h.2) fun iv => ?_
    refine hB.bind (hB.lift _) fun o => ?_
    cases o
    · exact hB.ite (fun _ => hB.pure _) (fun _ => hB.throw _)
    · exact hB.pure _
  | .getSlice c a b safe, S, hS, h => by
    have hB := lexRel_base S
    simp only [Expr.NoShadow] at h
    simp only [eval, lex]
    refine hB.bind (eval_lexRel c hS h.1) fun cv => ?_
    exact hB.ite (fun _ => hB.ite (fun _ => hB.pure _) (fun _ => hB.throw _)) (fun _ =>
      evalSlice_rel hB env env.resolver env.typeResolver env.defaultValue cv
        (eval_lexRel a hS h.2.1) (eval_lexRel b hS h.2.2))
  | .sym name rt b, S, hS, h => by
    simp only [eval, lex]
    exact symbol_lexRel hS env thing name rt b
  | .call f args, S, hS, h => by
    have hB := lexRel_base S
    simp only [Expr.NoShadow] at h
    simp only [eval, lex]
    refine hB.bind (eval_lexRel f hS h.1) fun fv => ?_
    refine hB.ite (fun _ => ?_) (fun _ => hB.throw _)
    exact hB.bind (seqM_rel hB (evals_lexRel args hS h.2)) fun vs =>
      evalCall_rel hB env env.resolver env.typeResolver env.defaultValue dc _ _ fv vs
  | .tern c a b, S, hS, h => by
    have hB := lexRel_base S
    simp only [Expr.NoShadow] at h
    simp only [eval, lex]
    exact hB.bind (eval_lexRel c hS h.1) fun v =>
      hB.ite (fun _ => eval_lexRel a hS h.2.1) (fun _ => eval_lexRel b hS h.2.2)
  | .not e, S, hS, h => by
    have hB := lexRel_base S
    simp only [Expr.NoShadow] at h
    simp only [eval, lex]
    exact hB.bind (eval_lexRel e hS h) fun _ => hB.pure _
  | .neg e, S, hS, h => by
    have hB := lexRel_base S
    simp only [Expr.NoShadow] at h
    simp only [eval, lex]
    exact hB.bind (eval_lexRel e hS h) fun _ => hB.lift _
theorem evals_lexRel {env : Env} {dc : DecCtx} {thing : Value} : ∀ (es : List Expr)
    {S : List Assignment}, (S.map (·.name)).Nodup → Expr.NoShadowList (S.map (·.name)) es →
    List.Forall₂ (fun m m' => LexRel S m m') (evals env dc thing es)
      (lexs env dc thing (bindingsOf S) es)
  | [], S, hS, h => .nil
  | e :: es, S, hS, h => by
    simp only [Expr.NoShadowList] at h
    exact .cons (eval_lexRel e hS h.1) (evals_lexRel es hS h.2)
theorem evalp_lexRel {env : Env} {dc : DecCtx} {thing : Value} : ∀ (es : List (Expr × Expr))
    {S : List Assignment}, (S.map (·.name)).Nodup → Expr.NoShadowPairs (S.map (·.name)) es →
    RelPairs (LexRel S) (evalPairs env dc thing es) (lexPairs env dc thing (bindingsOf S) es)
  | [], S, hS, h => .nil
  | (k, v) :: es, S, hS, h => by
    simp only [Expr.NoShadowPairs] at h
    exact .cons ⟨eval_lexRel k hS h.1, eval_lexRel v hS h.2.1⟩ (evalp_lexRel es hS h.2.2)
end

/-! ## The property -/

/-- **C16** (partial): if no comprehension reuses the name of an enclosing comprehension's variable,
evaluation of the constructed rule is lexically scoped: result, exception and effects are those of the
evaluator in which a name refers to the innermost enclosing comprehension that binds it.  Without the
hypothesis the statement is false: `scoping_not_lexical`. -/
theorem lexical_scoping_partial {env : Env} {dct : DecCtx} {raw : Raw} {s s' : St} {e : Expr}
    (hns : raw.NoShadow []) (hs : s.scopes = [])
    (hc : construct env dct raw s = (.ok e, s')) (thing : Value) (t : St) :
    ruleEval env e thing t = lex env env.decCtx thing [] e t.reset := by
  have hb := build_built raw hc
  have hn := built_noShadow raw [] hns hb
  obtain ⟨h1, h2, h3⟩ := eval_lexRel (env := env) (dc := env.decCtx) (thing := thing) e
    (S := []) (by simp) (by simpa using hn) t.reset t.reset rfl rfl
  unfold ruleEval
  rw [Prod.ext_iff]
  refine ⟨h1, ?_⟩
  rw [show (bindingsOf [] : Bindings) = [] from rfl] at h3
  rw [h3, ← h2]

/-- Static types likewise: among variables with distinct names, a name gets the type of its variable. -/
theorem lexical_type_partial (env : Env) {S : List Assignment} (hS : (S.map (·.name)).Nodup)
    {a : Assignment} (ha : a ∈ S) (s : St) (hs : s.scopes = S) :
    ctxResolveType env a.name false s = (.ok a.type, s) := by
  unfold ctxResolveType
  rw [if_neg (by simp), hs]
  have : scopeLookup S a.name = some a := by
    clear hs
    unfold scopeLookup
    induction S with
    | nil => simp at ha
    | cons b S ih =>
      simp only [List.map_cons, List.nodup_cons] at hS
      rw [List.find?_cons]
      rcases List.mem_cons.1 ha with rfl | ha
      · simp
      · have : (b.name == a.name) = false := by
          rw [beq_eq_false_iff_ne]
          intro hc
          exact hS.1 (hc ▸ List.mem_map.2 ⟨a, ha, rfl⟩)
        rw [this]
        exact ih hS.2 ha
  rw [this]

/-- construct a rule, then evaluate it with lexical scoping -/
def runLex (env : Env) (raw : Raw) (thing : Value) : Except Err Value :=
  match construct env env.decCtx raw St.init with
  | (.ok e, s) => (lex env env.decCtx thing [] e s.reset).1
  | (.error e, _) => .error e

/-- the tree of `[[x for x in [2]] for x in [1]]` -/
def shadowing : Raw :=
  .comp (.comp (.sym "x" false) "x" (.array [.floatLit "2"]) (.lit (.bool true))) "x"
    (.array [.floatLit "1"]) (.lit (.bool true))

/-- Without `NoShadow` the property is false: in `[[x for x in [2]] for x in [1]]` the inner `x` should
be 2; the engine answers with the outer variable, 1. -/
theorem scoping_not_lexical :
    runRaw sampleEnv shadowing .none = .ok (.tuple [.tuple [.dec (.fin false 1 0)]]) ∧
    runLex sampleEnv shadowing .none = .ok (.tuple [.tuple [.dec (.fin false 2 0)]]) ∧
    ¬ shadowing.NoShadow [] := by
  refine ⟨by decide +kernel, by decide +kernel, ?_⟩
  simp [shadowing, Raw.NoShadow, Raw.NoShadowList]

/-- Non-vacuity: `[[[x, y, z] for y in x] for x in [[1, 2]] if x]` has no shadowing, is accepted, and
inner and outer variables (and the symbol `z`) get their own values. -/
example :
    let raw : Raw := .comp (.comp (.array [.sym "x" false, .sym "y" false, .sym "z" false]) "y"
      (.sym "x" false) (.lit (.bool true))) "x"
      (.array [.array [.floatLit "1", .floatLit "2"]]) (.sym "x" false)
    let d (n : Nat) : Value := .dec (.fin false n 0)
    raw.NoShadow [] ∧
    runRaw sampleEnv raw (dictOf [("x", .str "no"), ("z", .str "yes")]) =
      .ok (.tuple [.tuple [.tuple [.tuple [d 1, d 2], d 1, .str "yes"],
        .tuple [.tuple [d 1, d 2], d 2, .str "yes"]]]) ∧
    runLex sampleEnv raw (dictOf [("x", .str "no"), ("z", .str "yes")]) =
      .ok (.tuple [.tuple [.tuple [.tuple [d 1, d 2], d 1, .str "yes"],
        .tuple [.tuple [d 1, d 2], d 2, .str "yes"]]]) := by
  refine ⟨?_, by decide +kernel, by decide +kernel⟩
  simp [Raw.NoShadow, Raw.NoShadowList]

end RE
