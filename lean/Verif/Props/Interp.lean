import Verif.Props.Canonical
import Verif.Props.Thread
import Verif.Props.Calls
import Verif.Props.SoundRule

/-!
# Constant folding (C01) and type hints (C46)

`interp` evaluates a syntax tree directly: no node is replaced by a literal, and no static types are
used.  A constructed rule is compared with it.
-/

set_option linter.unusedSimpArgs false
set_option linter.unusedVariables false

namespace RE

/-! ## Specification: evaluation of the tree itself -/

mutual
/-- Specification: evaluate the syntax tree directly. -/
def interp (env : Env) (dc : DecCtx) (thing : Value) : Raw → M Value
  | .lit v => pure v
  | .floatLit s => do
    let d ← M.lift (parseFloat s.toList)
    pure (.dec d)
  | .datetimeLit s => M.lift (parseDatetime env s)
  | .timedeltaLit s => do
    let us ← M.lift (parseTimedelta s.toList)
    pure (.timedelta us)
  | .array xs => do
    let vs ← seqM (interps env dc thing xs)
    pure (.tuple vs)
  | .set xs => do
    let vs ← setM env.utcoffset [] (interps env dc thing xs)
    pure (.set vs)
  | .mapping kvs => do
    let ks ← mapKeysM env.utcoffset [] (interpPairs env dc thing kvs)
    let items ← mapValsM ks
    pure (.map .ordered items)
  | .bin op l r => evalBin env dc op (interp env dc thing l) (interp env dc thing r)
  | .comp result var iterable cond => do
    let it ← interp env dc thing iterable
    let t ← M.lift (fromValue it)
    if t.isIterable then do
      let xs ← M.lift it.members
      let vs ← compM var (interp env dc thing cond) (interp env dc thing result) xs
      pure (.tuple vs)
    else M.throw .mismatch
  | .contains container member => do
    let c ← interp env dc thing container
    let ct ← M.lift (fromValue c)
    let m ← interp env dc thing member
    let b ← M.lift (opContains env.utcoffset ct c m)
    pure (.bool b)
  | .getAttr obj name safe => do
    let o ← interp env dc thing obj
    if o = .none ∧ safe = true then pure .none
    else evalGetAttr env o name
  | .getItem container item safe => do
    let c ← interp env dc thing container
    if c = .none then (if safe then pure .none else M.throw .mismatch)
    else do
      let i ← interp env dc thing item
      match ← M.lift (opGetItem env.utcoffset c i) with
      | some v => pure (newValue env v)
      | none => if safe then pure .none else M.throw (.eng .lookup)
  | .getSlice container start stop safe => do
    let c ← interp env dc thing container
    if c = .none then (if safe then pure .none else M.throw .mismatch)
    else evalSlice env c (interp env dc thing start) (interp env dc thing stop)
  | .sym name builtin => evalSymbol env thing name .undefined builtin
  | .call f args => do
    let fv ← interp env dc thing f
    if fv.isCallable then do
      let vs ← seqM (interps env dc thing args)
      finishCall env dc .undefined fv vs
    else M.throw .mismatch
  | .tern c t f => do
    let v ← interp env dc thing c
    if v.truthy then interp env dc thing t else interp env dc thing f
  | .not e => do
    let v ← interp env dc thing e
    pure (.bool (!v.truthy))
  | .neg e => do
    let v ← interp env dc thing e
    M.lift (opNeg dc v)
/-- a list of trees -/
def interps (env : Env) (dc : DecCtx) (thing : Value) : List Raw → List (M Value)
  | [] => []
  | e :: es => interp env dc thing e :: interps env dc thing es
/-- the items of a mapping literal -/
def interpPairs (env : Env) (dc : DecCtx) (thing : Value) :
    List (Raw × Raw) → List (M Value × M Value)
  | [] => []
  | (k, v) :: rest => (interp env dc thing k, interp env dc thing v) :: interpPairs env dc thing rest
end

/-- Specification: the regex operators -/
def BinOp.isFuzzy : BinOp → Bool
  | .fuzzy .. => true
  | _ => false

mutual
/-- Specification: when folding cannot be observed, for a tree below the comprehension variables `Γ`.
`g`: the rule reads `$re_groups`; `st`: all symbols are untyped and there are no calls.
* regex operators on two constants only if `$re_groups` is not used;
* `to_set` not of constant bytes;
* no safe item access whose key type is statically not the mapping's key type;
* a constant condition of a conditional can be evaluated. -/
def Raw.Foldable (env : Env) (g st : Prop) (Γ : List Assignment) : Raw → Prop
  | .lit v => v.isToken = true
  | .floatLit _ | .datetimeLit _ | .timedeltaLit _ => True
  | .array xs | .set xs => Raw.Foldables env g st Γ xs
  | .mapping kvs => Raw.Foldablep env g st Γ kvs
  | .bin op l r => l.Foldable env g st Γ ∧ r.Foldable env g st Γ ∧
      (g → op.isFuzzy = true → ∀ l' r', Built env env.decCtx Γ l l' → Built env env.decCtx Γ r r' →
        (l'.reduced && r'.reduced) = false)
  | .comp result var iterable cond => iterable.Foldable env g st Γ ∧
      ∀ it t, Built env env.decCtx Γ iterable it → iterVarType it.rt = .ok t →
        cond.Foldable env g st (Γ ++ [⟨var, .undef, t⟩]) ∧
        result.Foldable env g st (Γ ++ [⟨var, .undef, t⟩])
  | .contains c m => c.Foldable env g st Γ ∧ m.Foldable env g st Γ
  | .getAttr o name _ => o.Foldable env g st Γ ∧
      (name = "to_set" → ∀ o', Built env env.decCtx Γ o o' → o'.reduced = true → o'.rt ≠ .bytes)
  | .getItem c i safe => c.Foldable env g st Γ ∧ i.Foldable env g st Γ ∧
      ∀ c' i', Built env env.decCtx Γ c c' → Built env env.decCtx Γ i i' →
        staticMiss c'.rt i'.rt safe = false
  | .getSlice c a b _ => c.Foldable env g st Γ ∧ a.Foldable env g st Γ ∧ b.Foldable env g st Γ
  | .sym name builtin => (builtin = true → name = "re_groups" → g) ∧
      (st → symType env Γ name builtin = .ok .undefined)
  | .call f args => f.Foldable env g st Γ ∧ Raw.Foldables env g st Γ args ∧ ¬st
  | .tern c t f => c.Foldable env g st Γ ∧ t.Foldable env g st Γ ∧ f.Foldable env g st Γ ∧
      ∀ c', Built env env.decCtx Γ c c' → c'.reduced = true →
        ∃ v, eval env env.decCtx .none c' = pure v
  | .not e | .neg e => e.Foldable env g st Γ
/-- all of them -/
def Raw.Foldables (env : Env) (g st : Prop) (Γ : List Assignment) : List Raw → Prop
  | [] => True
  | x :: xs => x.Foldable env g st Γ ∧ Raw.Foldables env g st Γ xs
/-- all keys and values -/
def Raw.Foldablep (env : Env) (g st : Prop) (Γ : List Assignment) : List (Raw × Raw) → Prop
  | [] => True
  | (k, v) :: xs => k.Foldable env g st Γ ∧ v.Foldable env g st Γ ∧ Raw.Foldablep env g st Γ xs
end

/-- Specification: what the embedding program provides for attributes of constants can be written as
literals (no foreign objects, no functions, and inside of sets no numbers other than Decimals). -/
structure Env.ConstOk (env : Env) : Prop where
  resolver : ∀ o name v, o.Canonical env.utcoffset → env.resolver o name = .ok v →
    (newValue env v).Canonical env.utcoffset
  default : ∀ d, env.defaultValue = some d → (newValue env d).Canonical env.utcoffset

/-! ## Constants evaluate to canonical values -/

theorem seqM_gives {P : Value → Prop} : ∀ {ms : List (M Value)} {s s' : St} {vs : List Value},
    (∀ m ∈ ms, Gives P m) → seqM ms s = (.ok vs, s') → ∀ v ∈ vs, P v
  | [], s, s', vs, _, h => by
    simp only [seqM, M.pure_eq_ok] at h
    obtain ⟨rfl, rfl⟩ := h
    simp
  | m :: ms, s, s', vs, hm, h => by
    simp only [seqM, M.bind_eq_ok, M.pure_eq_ok] at h
    obtain ⟨v, s1, h1, ws, s2, h2, rfl, rfl⟩ := h
    intro x hx
    rcases List.mem_cons.1 hx with hx | hx
    · rw [hx]; exact hm m List.mem_cons_self _ _ _ h1
    · exact seqM_gives (fun m hmm => hm m (List.mem_cons_of_mem _ hmm)) h2 x hx

theorem setAdd_canonical {off : TzDb} {acc : List Value} {v : Value} (ha : (Value.set acc).Canonical off)
    (hv : v.Canonical off) (hh : v.hashable = true) : (Value.set (setAdd off acc v)).Canonical off := by
  unfold setAdd
  split
  · exact ha
  · rename_i hn
    simp only [Value.Canonical, allCanonical_iff] at ha ⊢
    refine ⟨?_, ?_, ?_⟩
    · intro x hx
      rcases List.mem_append.1 hx with hx | hx
      · exact ha.1 x hx
      · rw [List.mem_singleton] at hx; rw [hx]; exact hv
    · intro x hx
      rcases List.mem_append.1 hx with hx | hx
      · exact ha.2.1 x hx
      · rw [List.mem_singleton] at hx; rw [hx]; exact hh
    · rw [List.pairwise_append]
      refine ⟨ha.2.2, by simp, ?_⟩
      intro a haa b hb
      rw [List.mem_singleton] at hb
      subst hb
      simp only [List.any_eq_true, not_exists, not_and] at hn
      simpa using hn a haa

theorem setM_gives {off : TzDb} : ∀ {ms : List (M Value)} {acc : List Value} {s s' : St}
    {vs : List Value}, (∀ m ∈ ms, Gives (Value.Canonical off) m) → (Value.set acc).Canonical off →
    setM off acc ms s = (.ok vs, s') → (Value.set vs).Canonical off
  | [], acc, s, s', vs, _, ha, h => by
    simp only [setM, M.pure_eq_ok] at h
    obtain ⟨rfl, rfl⟩ := h
    exact ha
  | m :: ms, acc, s, s', vs, hm, ha, h => by
    simp only [setM, M.bind_eq_ok] at h
    obtain ⟨v, s1, h1, h2⟩ := h
    split at h2
    · rename_i hh
      exact setM_gives (fun m hmm => hm m (List.mem_cons_of_mem _ hmm))
        (setAdd_canonical ha (hm m List.mem_cons_self _ _ _ h1) hh) h2
    · simp at h2

/-- keys as in a canonical dictionary, values that evaluate to canonical values -/
def AccOk (off : TzDb) (acc : List (Value × M Value)) : Prop :=
  (∀ p ∈ acc, p.1.Canonical off ∧ p.1.hashable = true ∧ Gives (Value.Canonical off) p.2) ∧
    acc.Pairwise (fun p q => pyEq off p.1 q.1 = false)

theorem mapInsert_key {α : Type} {off : TzDb} {k : Value} {v : α} : ∀ {acc : List (Value × α)},
    ∀ q ∈ mapInsert off acc k v, q.1 = k ∨ ∃ p ∈ acc, p.1 = q.1
  | [], q, h => by
    simp only [mapInsert, List.mem_singleton] at h
    rw [h]; exact .inl rfl
  | (k', v') :: acc, q, h => by
    simp only [mapInsert] at h
    split at h
    · rcases List.mem_cons.1 h with h | h
      · rw [h]; exact .inr ⟨_, List.mem_cons_self, rfl⟩
      · exact .inr ⟨q, List.mem_cons_of_mem _ h, rfl⟩
    · rcases List.mem_cons.1 h with h | h
      · rw [h]; exact .inr ⟨_, List.mem_cons_self, rfl⟩
      · rcases mapInsert_key q h with h | ⟨p, hp, h⟩
        · exact .inl h
        · exact .inr ⟨p, List.mem_cons_of_mem _ hp, h⟩

theorem mapInsert_accOk {off : TzDb} {k : Value} {m : M Value} (hk : k.Canonical off)
    (hh : k.hashable = true) (hm : Gives (Value.Canonical off) m) :
    ∀ {acc : List (Value × M Value)}, AccOk off acc → AccOk off (mapInsert off acc k m)
  | [], _ => by
    refine ⟨?_, by simp [mapInsert]⟩
    intro p hp
    simp only [mapInsert, List.mem_singleton] at hp
    rw [hp]; exact ⟨hk, hh, hm⟩
  | (k', m') :: acc, ⟨h1, h2⟩ => by
    rw [List.pairwise_cons] at h2
    simp only [mapInsert]
    split
    · refine ⟨?_, ?_⟩
      · intro p hp
        rcases List.mem_cons.1 hp with hp | hp
        · rw [hp]
          have := h1 _ List.mem_cons_self
          exact ⟨this.1, this.2.1, hm⟩
        · exact h1 p (List.mem_cons_of_mem _ hp)
      · rw [List.pairwise_cons]; exact h2
    · rename_i hne
      have ih := mapInsert_accOk hk hh hm (acc := acc)
        ⟨fun p hp => h1 p (List.mem_cons_of_mem _ hp), h2.2⟩
      refine ⟨?_, ?_⟩
      · intro p hp
        rcases List.mem_cons.1 hp with hp | hp
        · rw [hp]; exact h1 _ List.mem_cons_self
        · exact ih.1 p hp
      · rw [List.pairwise_cons]
        refine ⟨?_, ih.2⟩
        intro q hq
        rcases mapInsert_key q hq with h | ⟨p, hp, h⟩
        · rw [h]; simpa using hne
        · rw [← h]; exact h2.1 p hp

theorem mapKeysM_gives {off : TzDb} : ∀ {ms : List (M Value × M Value)} {acc : List (Value × M Value)}
    {s s' : St} {ks : List (Value × M Value)},
    (∀ p ∈ ms, Gives (Value.Canonical off) p.1 ∧ Gives (Value.Canonical off) p.2) → AccOk off acc →
    mapKeysM off acc ms s = (.ok ks, s') → AccOk off ks
  | [], acc, s, s', ks, _, ha, h => by
    simp only [mapKeysM, M.pure_eq_ok] at h
    obtain ⟨rfl, rfl⟩ := h
    exact ha
  | (k, m) :: ms, acc, s, s', ks, hm, ha, h => by
    simp only [mapKeysM, M.bind_eq_ok, M.lift_eq_ok] at h
    obtain ⟨v, s1, h1, t, s2, ⟨_, rfl⟩, h2⟩ := h
    have h0 := hm _ List.mem_cons_self
    split at h2
    · simp at h2
    · split at h2
      · rename_i hh
        exact mapKeysM_gives (fun p hp => hm p (List.mem_cons_of_mem _ hp))
          (mapInsert_accOk (h0.1 _ _ _ h1) hh h0.2 ha) h2
      · simp at h2

theorem mapValsM_gives {off : TzDb} : ∀ {ks : List (Value × M Value)} {s s' : St}
    {items : List (Value × Value)}, AccOk off ks → mapValsM ks s = (.ok items, s') →
    items.map (·.1) = ks.map (·.1) ∧ ∀ p ∈ items, p.1.Canonical off ∧ p.1.hashable = true ∧ p.2.Canonical off
  | [], s, s', items, _, h => by
    simp only [mapValsM, M.pure_eq_ok] at h
    obtain ⟨rfl, rfl⟩ := h
    simp
  | (k, m) :: ks, s, s', items, ha, h => by
    simp only [mapValsM, M.bind_eq_ok, M.pure_eq_ok] at h
    obtain ⟨v, s1, h1, vs, s2, h2, rfl, rfl⟩ := h
    obtain ⟨ha1, ha2⟩ := ha
    rw [List.pairwise_cons] at ha2
    have ⟨i1, i2⟩ := mapValsM_gives ⟨fun p hp => ha1 p (List.mem_cons_of_mem _ hp), ha2.2⟩ h2
    have h0 := ha1 _ List.mem_cons_self
    refine ⟨by simp [i1], ?_⟩
    intro p hp
    rcases List.mem_cons.1 hp with hp | hp
    · rw [hp]; exact ⟨h0.1, h0.2.1, h0.2.2 _ _ _ h1⟩
    · exact i2 p hp

theorem mapping_gives {off : TzDb} {ms : List (M Value × M Value)}
    (hm : ∀ p ∈ ms, Gives (Value.Canonical off) p.1 ∧ Gives (Value.Canonical off) p.2) :
    Gives (Value.Canonical off) (do
      let ks ← mapKeysM off [] ms
      let items ← mapValsM ks
      pure (.map .ordered items)) := by
  intro s v s' h
  simp only [M.bind_eq_ok, M.pure_eq_ok] at h
  obtain ⟨ks, s1, h1, items, s2, h2, rfl, rfl⟩ := h
  have ha := mapKeysM_gives hm ⟨by simp, List.Pairwise.nil⟩ h1
  have ⟨i1, i2⟩ := mapValsM_gives ha h2
  simp only [Value.Canonical]
  refine ⟨pairsCanonical_iff.2 fun p hp => ⟨(i2 p hp).1, (i2 p hp).2.2⟩, fun p hp => (i2 p hp).2.1, ?_⟩
  have h3 : (ks.map (·.1)).Pairwise (fun a b => pyEq off a b = false) := by
    rw [List.pairwise_map]; exact ha.2
  rw [← i1, List.pairwise_map] at h3
  exact h3

/-- what is needed of a constant: its value can be written as a literal, and bytes are known to be
bytes -/
def ConstVal (env : Env) (t : DataType) (v : Value) : Prop :=
  v.Canonical env.utcoffset ∧ (v.isBytes = true → t = .bytes)

theorem Gives.mono {P Q : Value → Prop} {m : M Value} (h : Gives P m) (hpq : ∀ v, P v → Q v) :
    Gives Q m := fun s v s' hm => hpq v (h s v s' hm)

theorem gives_pure {P : Value → Prop} {v : Value} (h : P v) : Gives P (pure v) := by
  intro s w s' hw
  rw [M.pure_eq_ok] at hw
  rw [← hw.1]; exact h

theorem lit_const {env : Env} {dc : DecCtx} {thing v : Value} {t : DataType}
    (hc : v.Canonical env.utcoffset) (ht : v.isBytes = true → t = .bytes) :
    Gives (ConstVal env t) (eval env dc thing (.lit v t)) := by
  simp only [eval]
  exact gives_pure ⟨hc, ht⟩

theorem ofValue_const {env : Env} {dc : DecCtx} {thing v : Value} {node : Expr}
    (hc : v.Canonical env.utcoffset) :
    eval env dc thing (attrLit node (Expr.ofValue env.utcoffset v)) = pure v ∧
    (v.isBytes = true → (attrLit node (Expr.ofValue env.utcoffset v)).rt = .bytes) := by
  have h1 := eval_ofValue env dc thing v hc
  constructor
  · unfold attrLit
    split
    · rename_i w n r a m he
      rw [he] at h1
      split <;> simp only [eval] at h1 ⊢ <;> exact h1
    · exact h1
  · intro hb
    cases v <;> simp [Value.isBytes] at hb
    rfl

theorem ofValue_const' {env : Env} {dc : DecCtx} {thing v : Value}
    (hc : v.Canonical env.utcoffset) :
    eval env dc thing (Expr.ofValue env.utcoffset v) = pure v ∧
    (v.isBytes = true → (Expr.ofValue env.utcoffset v).rt = .bytes) := by
  refine ⟨eval_ofValue env dc thing v hc, ?_⟩
  intro hb
  cases v <;> simp [Value.isBytes] at hb
  rfl

theorem folds_const {env : Env} {dc : DecCtx} {thing : Value} {Γ : List Assignment} {node e : Expr}
    (h : Folds env env.decCtx Γ node e)
    (hn : Gives (Value.Canonical env.utcoffset) (eval env env.decCtx .none node)) :
    Gives (ConstVal env e.rt) (eval env dc thing e) := by
  obtain ⟨v, ⟨s, s', -, hv⟩, hl⟩ := h
  simp only [litOf, except_bind_ok, Except.ok.injEq] at hl
  obtain ⟨t, _, rfl⟩ := hl
  have hc := hn _ _ _ hv
  have := ofValue_const' (dc := dc) (thing := thing) hc
  rw [this.1]
  exact gives_pure ⟨hc, this.2⟩

/-- attributes of constants, at construction -/
theorem attr_const {env : Env} (H : env.ConstOk) {Γ : List Assignment} (hΓ : ∀ a ∈ Γ, a.value = .undef)
    {o v : Value} {name : String} {s s' : St} (hs : s.scopes = Γ) (ho : o.Canonical env.utcoffset)
    (hb : name = "to_set" → o.isBytes = false) (h : evalGetAttr env o name s = (.ok v, s')) :
    v.Canonical env.utcoffset ∨ v = .undef := by
  unfold evalGetAttr at h
  split at h
  · rename_i w hw
    cases h
    exact .inl (canonical_newValue (resolveAttr_canonical ho hb hw))
  · split at h
    · split at h
      · rename_i w s1 hr
        cases h
        unfold ctxResolve at hr
        simp only [Bool.false_eq_true, if_false] at hr
        split at hr
        · rename_i a ha
          cases hr
          right
          have : a ∈ Γ := by rw [← hs]; exact List.mem_of_find?_eq_some ha
          rw [hΓ a this]; rfl
        · simp only [Prod.mk.injEq] at hr
          exact .inl (H.resolver _ _ _ ho hr.1)
      · split at h
        · split at h
          · rename_i d hd
            cases h
            exact .inl (H.default d hd)
          · cases h
        · cases h
    · cases h

theorem slice_gives {env : Env} {c : Value} {a b : M Value} (hc : c.Canonical env.utcoffset) :
    Gives (Value.Canonical env.utcoffset) (evalSlice env c a b) := by
  intro s v s' h
  simp only [evalSlice, M.bind_eq_ok, M.lift_eq_ok, M.pure_eq_ok] at h
  obtain ⟨_, _, _, _, _, ⟨_, rfl⟩, _, _, _, _, _, ⟨_, rfl⟩, w, _, ⟨hw, rfl⟩, rfl, rfl⟩ := h
  have := slice_canonical hc hw
  rw [coerce_canonical _ this]; exact this

theorem canonical_callable {off : TzDb} {f : Value} (hf : f.Canonical off) (hc : f.isCallable = true) :
    ∃ m self, f = .method m self := by
  cases f <;> simp [Value.isCallable] at hc
  · simp [Value.Canonical] at hf
  · simp [Value.Canonical] at hf
  · exact ⟨_, _, rfl⟩

theorem call_gives {env : Env} {dc : DecCtx} {ft rt : DataType} {f : Value} {args : List Value}
    (hf : f.Canonical env.utcoffset) (hcall : f.isCallable = true) :
    Gives (Value.Canonical env.utcoffset) (evalCall env dc ft rt f args) := by
  have key : Gives (Value.Canonical env.utcoffset) (finishCall env dc rt f args) := by
    intro s v s' h
    simp only [finishCall, M.bind_eq_ok, M.lift_eq_ok] at h
    obtain ⟨r, s1, h1, c, s2, ⟨hc, rfl⟩, t, s3, ⟨ht, rfl⟩, h⟩ := h
    simp only [coerceVerify, except_bind_ok, Except.ok.injEq] at hc
    obtain ⟨ct, hct, rfl⟩ := hc
    split at h
    · rw [M.pure_eq_ok] at h
      obtain ⟨rfl, rfl⟩ := h
      have hr : r.Canonical env.utcoffset := by
        simp only [M.catchErr] at h1
        rcases hx : callFn env dc f args s with ⟨y, s4⟩
        rw [hx] at h1
        cases y with
        | error e => simp at h1
        | ok a =>
          simp only [Prod.mk.injEq, Except.ok.injEq] at h1
          obtain ⟨rfl, rfl⟩ := h1
          obtain ⟨m, self, rfl⟩ := canonical_callable hf hcall
          simp only [callFn, callLogged, callBasic, Prod.mk.injEq] at hx
          exact callMethod_canonical hx.1
      rw [coerce_canonical _ hr]
      exact canonical_localise hr
    · simp at h
  unfold evalCall
  split
  · exact key
  · intro s v s' h
    simp only [M.bind_eq_ok, M.lift_eq_ok] at h
    obtain ⟨_, _, ⟨-, rfl⟩, h⟩ := h
    exact key _ _ _ h

/-- the value of a folded attribute -/
theorem attrFold_const {env : Env} (H : env.ConstOk) {Γ : List Assignment}
    (hΓ : ∀ a ∈ Γ, a.value = .undef) {o : Expr} {name : String} {safe : Bool} {v : Value} {e : Expr}
    (ho : Gives (fun o => o.Canonical env.utcoffset ∧ (name = "to_set" → o.isBytes = false))
      (eval env env.decCtx .none o)) (hred : o.reduced = true)
    (hv : FoldVal env env.decCtx Γ (.getAttr o name safe) v) (hl : litOf env.utcoffset v = .ok e) :
    v.Canonical env.utcoffset := by
  obtain ⟨s, s', hs, hv⟩ := hv
  simp only [eval, M.bind_eq_ok] at hv
  obtain ⟨ov, s1, h1, h2⟩ := hv
  have ⟨hc, hb⟩ := ho _ _ _ h1
  split at h2
  · rw [M.pure_eq_ok] at h2
    rw [← h2.1]; trivial
  · have hs1 : s1.scopes = Γ := by
      obtain ⟨x, hx⟩ := reduced_const env o hred
      rw [hx, M.lift_eq_ok] at h1
      rw [← h1.2]; exact hs
    rcases attr_const H hΓ hs1 hc hb h2 with h | h
    · exact h
    · rw [h] at hl
      simp [litOf, fromValue, bind, Except.bind] at hl

mutual
theorem built_const {env : Env} (H : env.ConstOk) {g st : Prop} : ∀ (raw : Raw) {Γ : List Assignment}
    {e : Expr}, raw.Foldable env g st Γ → (∀ a ∈ Γ, a.value = .undef) → Built env env.decCtx Γ raw e →
    e.reduced = true → ∀ dc thing, Gives (ConstVal env e.rt) (eval env dc thing e)
  | .lit v, Γ, e, hf, hΓ, hb, hr, dc, thing => by
    simp only [Built] at hb
    obtain ⟨t, ht, rfl⟩ := hb
    simp only [Raw.Foldable] at hf
    refine lit_const ?_ ?_
    · cases v <;> simp [Value.isToken] at hf <;> trivial
    · intro hv
      cases v <;> simp [Value.isBytes] at hv
      simp only [fromValue, Except.ok.injEq] at ht
      exact ht.symm
  | .floatLit x, Γ, e, hf, hΓ, hb, hr, dc, thing => by
    simp only [Built] at hb
    obtain ⟨d, -, rfl⟩ := hb
    exact lit_const trivial (by simp [Value.isBytes])
  | .datetimeLit x, Γ, e, hf, hΓ, hb, hr, dc, thing => by
    simp only [Built] at hb
    obtain ⟨d, hd, rfl⟩ := hb
    unfold parseDatetime at hd
    split at hd <;> cases hd <;> exact lit_const trivial (by simp [Value.isBytes])
  | .timedeltaLit x, Γ, e, hf, hΓ, hb, hr, dc, thing => by
    simp only [Built] at hb
    obtain ⟨d, -, rfl⟩ := hb
    exact lit_const trivial (by simp [Value.isBytes])
  | .array xs, Γ, e, hf, hΓ, hb, hr, dc, thing => by
    simp only [Built] at hb
    obtain ⟨es, hes, rfl⟩ := hb
    simp only [Raw.Foldable] at hf
    simp only [Expr.reduced] at hr
    have ih := builts_const H xs hf hΓ hes hr dc thing
    intro s v s' h
    simp only [eval, M.bind_eq_ok, M.pure_eq_ok] at h
    obtain ⟨vs, s1, h1, rfl, rfl⟩ := h
    exact ⟨tuple_canonical (seqM_gives ih h1), by simp [Value.tuple, Value.isBytes]⟩
  | .set xs, Γ, e, hf, hΓ, hb, hr, dc, thing => by
    simp only [Built] at hb
    obtain ⟨es, hes, rfl⟩ := hb
    simp only [Raw.Foldable] at hf
    simp only [Expr.reduced] at hr
    have ih := builts_const H xs hf hΓ hes hr dc thing
    intro s v s' h
    simp only [eval, M.bind_eq_ok, M.pure_eq_ok] at h
    obtain ⟨vs, s1, h1, rfl, rfl⟩ := h
    exact ⟨setM_gives ih (by simp [Value.Canonical, Value.AllCanonical]) h1, by simp [Value.isBytes]⟩
  | .mapping kvs, Γ, e, hf, hΓ, hb, hr, dc, thing => by
    simp only [Built] at hb
    obtain ⟨es, hes, -, rfl⟩ := hb
    simp only [Raw.Foldable] at hf
    simp only [Expr.reduced] at hr
    have ih := builtp_const H kvs hf hΓ hes hr dc thing
    intro s v s' h
    simp only [eval] at h
    refine ⟨mapping_gives ih s v s' h, ?_⟩
    simp only [M.bind_eq_ok, M.pure_eq_ok] at h
    obtain ⟨_, _, _, _, _, _, rfl, _⟩ := h
    simp [Value.isBytes]
  | .bin op l r, Γ, e, hf, hΓ, hb, hr, dc, thing => by
    simp only [Built] at hb
    obtain ⟨l', r', h1, h2, -, h3⟩ := hb
    simp only [Raw.Foldable] at hf
    split at h3
    · rename_i hred
      simp only [Bool.and_eq_true] at hred
      refine folds_const h3 ?_
      simp only [eval]
      exact evalBin_canonical
        ((built_const H l hf.1 hΓ h1 hred.1 _ _).mono fun _ h => h.1)
        ((built_const H r hf.2.1 hΓ h2 hred.2 _ _).mono fun _ h => h.1)
    · rw [h3] at hr; simp [Expr.reduced] at hr
  | .comp result var iterable cond, Γ, e, hf, hΓ, hb, hr, dc, thing => by
    simp only [Built] at hb
    obtain ⟨it, t, c, r, -, -, -, -, rfl⟩ := hb
    simp [Expr.reduced] at hr
  | .contains c m, Γ, e, hf, hΓ, hb, hr, dc, thing => by
    simp only [Built] at hb
    obtain ⟨c', m', h1, h2, -, h3⟩ := hb
    split at h3
    · obtain ⟨v, ⟨s, s', -, hv⟩, rfl⟩ := h3
      simp only [eval, M.bind_eq_ok, M.pure_eq_ok, M.lift_eq_ok] at hv
      obtain ⟨_, _, _, _, _, _, _, _, _, b, _, _, rfl, _⟩ := hv
      exact lit_const trivial (by simp [Value.isBytes])
    · rw [h3] at hr; simp [Expr.reduced] at hr
  | .getAttr o name safe, Γ, e, hf, hΓ, hb, hr, dc, thing => by
    simp only [Built] at hb
    obtain ⟨o', h1, -, h3⟩ := hb
    simp only [Raw.Foldable] at hf
    split at h3
    · rename_i hred
      obtain ⟨e', ⟨v, hv, hl⟩, rfl⟩ := h3
      have hc := attrFold_const H hΓ ((built_const H o hf.1 hΓ h1 hred _ _).mono fun w hw =>
        ⟨hw.1, fun hn => by
          by_contra hbb
          exact hf.2 hn o' h1 hred (hw.2 (by simpa using hbb))⟩) hred hv hl
      simp only [litOf, except_bind_ok, Except.ok.injEq] at hl
      obtain ⟨t, _, rfl⟩ := hl
      have := ofValue_const (dc := dc) (thing := thing) (node := .getAttr o' name safe) hc
      rw [this.1]
      exact gives_pure ⟨hc, this.2⟩
    · rw [h3] at hr; simp [Expr.reduced] at hr
  | .getItem c i safe, Γ, e, hf, hΓ, hb, hr, dc, thing => by
    simp only [Built] at hb
    obtain ⟨c', i', h1, h2, -, h3⟩ := hb
    simp only [Raw.Foldable] at hf
    rw [hf.2.2 c' i' h1 h2] at h3
    simp only [Bool.false_eq_true, if_false] at h3
    split at h3
    · rename_i hred
      simp only [Bool.and_eq_true] at hred
      refine folds_const h3 ?_
      intro s v s' h
      simp only [eval, M.bind_eq_ok] at h
      obtain ⟨cv, s1, hc, h⟩ := h
      have hcc := (built_const H c hf.1 hΓ h1 hred.1 _ _ _ _ _ hc).1
      split at h
      · split at h
        · rw [M.pure_eq_ok] at h; rw [← h.1]; trivial
        · simp at h
      · simp only [M.bind_eq_ok, M.lift_eq_ok] at h
        obtain ⟨iv, s2, hi, r, s3, ⟨hg, rfl⟩, h⟩ := h
        split at h
        · rw [M.pure_eq_ok] at h; rw [← h.1]
          exact itemOf_canonical hcc (opGetItem_itemOf hg)
        · split at h
          · rw [M.pure_eq_ok] at h; rw [← h.1]; trivial
          · simp at h
    · rw [h3] at hr; simp [Expr.reduced] at hr
  | .getSlice c a b safe, Γ, e, hf, hΓ, hb, hr, dc, thing => by
    simp only [Built] at hb
    obtain ⟨c', a', b', h1, h2, h3, -, h4⟩ := hb
    simp only [Raw.Foldable] at hf
    split at h4
    · rename_i hred
      simp only [Bool.and_eq_true] at hred
      refine folds_const h4 ?_
      intro s v s' h
      simp only [eval, M.bind_eq_ok] at h
      obtain ⟨cv, s1, hc, h⟩ := h
      have hcc := (built_const H c hf.1 hΓ h1 hred.1.1 _ _ _ _ _ hc).1
      split at h
      · split at h
        · rw [M.pure_eq_ok] at h; rw [← h.1]; trivial
        · simp at h
      · exact slice_gives hcc _ _ _ h
    · rw [h4] at hr; simp [Expr.reduced] at hr
  | .sym name b, Γ, e, hf, hΓ, hb, hr, dc, thing => by
    simp only [Built] at hb
    obtain ⟨t, -, rfl⟩ := hb
    simp [Expr.reduced] at hr
  | .call f args, Γ, e, hf, hΓ, hb, hr, dc, thing => by
    simp only [Built] at hb
    obtain ⟨f', as, h1, h2, -, h3⟩ := hb
    simp only [Raw.Foldable] at hf
    split at h3
    · rename_i hred
      simp only [Bool.and_eq_true] at hred
      refine folds_const h3 ?_
      intro s v s' h
      simp only [eval, M.bind_eq_ok] at h
      obtain ⟨fv, s1, hc, h⟩ := h
      have hcc := (built_const H f hf.1 hΓ h1 hred.1 _ _ _ _ _ hc).1
      split at h
      · rename_i hcall
        simp only [M.bind_eq_ok] at h
        obtain ⟨vs, s2, _, h⟩ := h
        exact call_gives hcc hcall _ _ _ h
      · simp at h
    · rw [h3] at hr; simp [Expr.reduced] at hr
  | .tern c t f, Γ, e, hf, hΓ, hb, hr, dc, thing => by
    simp only [Built] at hb
    obtain ⟨c', t', f', h1, h2, h3, rfl⟩ := hb
    simp only [Raw.Foldable] at hf
    unfold mkTern at hr ⊢
    split
    · rename_i hc
      rw [if_pos hc] at hr
      split
      · rename_i ht
        rw [if_pos ht] at hr
        exact built_const H t hf.2.1 hΓ h2 hr dc thing
      · rename_i ht
        rw [if_neg ht] at hr
        exact built_const H f hf.2.2.1 hΓ h3 hr dc thing
    · rename_i hc
      rw [if_neg hc] at hr
      simp [Expr.reduced] at hr
  | .not x, Γ, e, hf, hΓ, hb, hr, dc, thing => by
    simp only [Built] at hb
    obtain ⟨x', h1, h3⟩ := hb
    split at h3
    · obtain ⟨v, ⟨s, s', -, hv⟩, rfl⟩ := h3
      simp only [eval, M.bind_eq_ok, M.pure_eq_ok] at hv
      obtain ⟨_, _, _, rfl, _⟩ := hv
      exact lit_const trivial (by simp [Value.isBytes])
    · rw [h3] at hr; simp [Expr.reduced] at hr
  | .neg x, Γ, e, hf, hΓ, hb, hr, dc, thing => by
    simp only [Built] at hb
    obtain ⟨x', h1, h3⟩ := hb
    simp only [Raw.Foldable] at hf
    split at h3
    · rename_i hred
      obtain ⟨w, v, t, rfl, -, ⟨s, s', -, hv⟩, rfl⟩ := h3
      simp only [eval, M.bind_eq_ok, M.lift_eq_ok, M.pure_eq_ok] at hv
      obtain ⟨u, s1, ⟨rfl, rfl⟩, hn, -⟩ := hv
      have hw := built_const H x hf hΓ h1 hred env.decCtx .none s w s (by simp [eval])
      refine lit_const (opNeg_canonical hw.1 hn) ?_
      intro hvb
      exfalso
      cases w <;> simp [opNeg, isNumeric] at hn <;> simp only [pyNeg] at hn <;>
        first
        | (have hc := hw.1; simp [Value.Canonical] at hc; done)
        | skip
      · rename_i d
        cases hx : decNeg env.decCtx d with
        | error e => rw [hx] at hn; cases hn
        | ok d => rw [hx] at hn; cases hn; simp [Value.isBytes] at hvb
      · rw [mkTimedelta_ok hn] at hvb
        simp [Value.isBytes] at hvb
    · rw [h3] at hr; simp [Expr.reduced] at hr
theorem builts_const {env : Env} (H : env.ConstOk) {g st : Prop} : ∀ (xs : List Raw)
    {Γ : List Assignment} {es : List Expr}, Raw.Foldables env g st Γ xs →
    (∀ a ∈ Γ, a.value = .undef) → BuiltList env env.decCtx Γ xs es →
    Expr.reducedList es = true → ∀ dc thing, ∀ m ∈ evals env dc thing es,
      Gives (Value.Canonical env.utcoffset) m
  | [], Γ, es, hf, hΓ, hb, hr, dc, thing => by
    simp only [BuiltList] at hb
    subst hb
    simp [evals]
  | x :: xs, Γ, es, hf, hΓ, hb, hr, dc, thing => by
    simp only [BuiltList] at hb
    obtain ⟨e, es', h1, h2, rfl⟩ := hb
    simp only [Raw.Foldables] at hf
    simp only [Expr.reducedList, Bool.and_eq_true] at hr
    intro m hm
    simp only [evals] at hm
    rcases List.mem_cons.1 hm with h | h
    · rw [h]; exact (built_const H x hf.1 hΓ h1 hr.1 dc thing).mono fun _ h => h.1
    · exact builts_const H xs hf.2 hΓ h2 hr.2 dc thing m h
theorem builtp_const {env : Env} (H : env.ConstOk) {g st : Prop} : ∀ (xs : List (Raw × Raw))
    {Γ : List Assignment} {es : List (Expr × Expr)}, Raw.Foldablep env g st Γ xs →
    (∀ a ∈ Γ, a.value = .undef) → BuiltPairs env env.decCtx Γ xs es →
    Expr.reducedPairs es = true → ∀ dc thing, ∀ p ∈ evalPairs env dc thing es,
      Gives (Value.Canonical env.utcoffset) p.1 ∧ Gives (Value.Canonical env.utcoffset) p.2
  | [], Γ, es, hf, hΓ, hb, hr, dc, thing => by
    simp only [BuiltPairs] at hb
    subst hb
    simp [evalPairs]
  | (k, v) :: xs, Γ, es, hf, hΓ, hb, hr, dc, thing => by
    simp only [BuiltPairs] at hb
    obtain ⟨k', v', es', h1, h2, h3, rfl⟩ := hb
    simp only [Raw.Foldablep] at hf
    simp only [Expr.reducedPairs, Bool.and_eq_true] at hr
    intro m hm
    simp only [evalPairs] at hm
    rcases List.mem_cons.1 hm with h | h
    · rw [h]
      exact ⟨(built_const H k hf.1 hΓ h1 hr.1.1 dc thing).mono fun _ h => h.1,
        (built_const H v hf.2.1 hΓ h2 hr.1.2 dc thing).mono fun _ h => h.1⟩
    · exact builtp_const H xs hf.2.2 hΓ h3 hr.2 dc thing m h
end

/-! ## Simulation -/

/-- From states with the scopes `S` (and the same groups, if they matter): if `m` returns, `m'` returns
the same; if `st`, also conversely. -/
def Sim (S : List Assignment) (g st : Prop) {α : Type} (m m' : M α) : Prop :=
  ∀ s s2 : St, s.scopes = S → s2.scopes = S → (g → s.groups = s2.groups) →
    (∀ a s', m s = (.ok a, s') → ∃ s2', m' s2 = (.ok a, s2') ∧ s'.scopes = S ∧ s2'.scopes = S ∧
      (g → s'.groups = s2'.groups)) ∧
    (st → ∀ a s2', m' s2 = (.ok a, s2') → ∃ b s', m s = (.ok b, s'))

theorem sim_base (S : List Assignment) (g st : Prop) : RelBase (Sim S g st) where
  lift x := by
    intro s s2 h h2 hg
    refine ⟨?_, ?_⟩
    · intro a s' hx
      rw [M.lift_eq_ok] at hx
      obtain ⟨hx, rfl⟩ := hx
      exact ⟨s2, by rw [M.lift_eq_ok]; exact ⟨hx, rfl⟩, h, h2, hg⟩
    · intro _ a s2' hx
      rw [M.lift_eq_ok] at hx
      exact ⟨a, s, by rw [M.lift_eq_ok]; exact ⟨hx.1, rfl⟩⟩
  bind := by
    intro α β m m' f f' hm hf s s2 h h2 hg
    obtain ⟨m1, m2⟩ := hm s s2 h h2 hg
    refine ⟨?_, ?_⟩
    · intro b s' hb
      rw [M.bind_eq_ok] at hb
      obtain ⟨a, s1, ha, hb⟩ := hb
      obtain ⟨s3, h3, e1, e3, eg⟩ := m1 a s1 ha
      obtain ⟨s4, h4, e⟩ := (hf a s1 s3 e1 e3 eg).1 b s' hb
      exact ⟨s4, by rw [M.bind_eq_ok]; exact ⟨a, s3, h3, h4⟩, e⟩
    · intro hst b s' hb
      rw [M.bind_eq_ok] at hb
      obtain ⟨a, s3, ha, hb⟩ := hb
      obtain ⟨a', s1, ha'⟩ := m2 hst a s3 ha
      obtain ⟨s3', h3, e1, e3, eg⟩ := m1 a' s1 ha'
      rw [ha] at h3
      simp only [Prod.mk.injEq, Except.ok.injEq] at h3
      obtain ⟨rfl, rfl⟩ := h3
      obtain ⟨b', s4, h4⟩ := (hf a s1 s3 e1 e3 eg).2 hst b s' hb
      exact ⟨b', s4, by rw [M.bind_eq_ok]; exact ⟨a, s1, ha', h4⟩⟩
  setGroups v _ := by
    intro s s2 h h2 hg
    refine ⟨?_, ?_⟩
    · intro a s' hx
      simp only [recordMatch, M.modify_apply, Prod.mk.injEq] at hx
      obtain ⟨_, rfl⟩ := hx
      exact ⟨_, rfl, h, h2, fun _ => rfl⟩
    · intro _ a s2' _
      exact ⟨(), _, rfl⟩
  logCall f args α x := by
    intro s s2 h h2 hg
    refine ⟨?_, ?_⟩
    · intro a s' hx
      simp only [Prod.mk.injEq] at hx
      obtain ⟨hx, rfl⟩ := hx
      exact ⟨_, Prod.ext hx rfl, h, h2, hg⟩
    · intro _ a s2' hx
      simp only [Prod.mk.injEq] at hx
      exact ⟨a, _, Prod.ext hx.1 rfl⟩
  rethrow := by
    intro α e m m' hm s s2 h h2 hg
    obtain ⟨m1, m2⟩ := hm s s2 h h2 hg
    have key : ∀ {m : M α} {s s' : St} {a : α},
        M.catchErr m (fun _ => M.throw e) s = (.ok a, s') ↔ m s = (.ok a, s') := by
      intro m s s' a
      unfold M.catchErr
      rcases m s with ⟨x, t⟩
      cases x <;> simp
    refine ⟨?_, ?_⟩
    · intro a s' ha
      obtain ⟨s3, h3, e3⟩ := m1 a s' (key.1 ha)
      exact ⟨s3, key.2 h3, e3⟩
    · intro hst a s' ha
      obtain ⟨b, s3, h3⟩ := m2 hst a s' (key.1 ha)
      exact ⟨b, s3, key.2 h3⟩

theorem sim_scope {S : List Assignment} {g st : Prop} {a : Assignment} {α : Type} {m m' : M α}
    (h : Sim (S ++ [a]) g st m m') : Sim S g st (M.withScope a m) (M.withScope a m') := by
  intro s s2 hs hs2 hg
  obtain ⟨h1, h2⟩ := h { s with scopes := s.scopes ++ [a] } { s2 with scopes := s2.scopes ++ [a] }
    (by simp [hs]) (by simp [hs2]) hg
  refine ⟨?_, ?_⟩
  · intro x s' hx
    obtain ⟨s1, hm, rfl⟩ := M.withScope_eq_ok hx
    obtain ⟨s3, hm', e1, e3, eg⟩ := h1 x s1 hm
    refine ⟨{ s3 with scopes := s3.scopes.dropLast }, ?_, ?_, ?_, eg⟩
    · simp only [M.withScope, hm']
    · simp [e1]
    · simp [e3]
  · intro hst x s' hx
    obtain ⟨s3, hm', rfl⟩ := M.withScope_eq_ok hx
    obtain ⟨b, s1, hm⟩ := h2 hst x s3 hm'
    exact ⟨b, { s1 with scopes := s1.scopes.dropLast }, by simp only [M.withScope, hm]⟩

theorem sim_loop {S : List Assignment} {g st : Prop} {var : String} {c r c' r' : M Value}
    (hc : ∀ x, Sim (S ++ [⟨var, x, .undefined⟩]) g st c c')
    (hr : ∀ x, Sim (S ++ [⟨var, x, .undefined⟩]) g st r r') : ∀ xs : List Value,
    Sim S g st (compM var c r xs) (compM var c' r' xs)
  | [] => (sim_base S g st).pure _
  | x :: xs => by
    have hB := sim_base (S ++ [⟨var, x, .undefined⟩]) g st
    have hB' := sim_base S g st
    simp only [compM]
    refine hB'.bind (sim_scope (hB.bind (hc x) fun a => hB.ite (fun _ => hB.bind (hr x) fun _ =>
      hB.pure _) (fun _ => hB.pure _))) fun o => hB'.bind (sim_loop hc hr xs) fun vs => hB'.pure _

/-- a constant against a computation that gives the same -/
theorem sim_const {S : List Assignment} {g st : Prop} {m n : M Value} {v : Value} (h : Sim S g st m n)
    (hm : ∀ s : St, s.scopes = S → ∃ s', m s = (.ok v, s') ∧ (g → s'.groups = s.groups)) :
    Sim S g st (pure v) n := by
  intro s s2 hs hs2 hg
  refine ⟨?_, ?_⟩
  · intro a s' ha
    rw [M.pure_eq_ok] at ha
    obtain ⟨rfl, rfl⟩ := ha
    obtain ⟨s1, h1, hg1⟩ := hm s hs
    obtain ⟨s3, h3, e1, e3, eg⟩ := (h s s2 hs hs2 hg).1 _ _ h1
    exact ⟨s3, h3, hs, e3, fun hg' => (hg1 hg').symm.trans (eg hg')⟩
  · intro _ a s2' _
    exact ⟨v, s, rfl⟩

/-- … when the computation has no effects -/
theorem sim_lift {S : List Assignment} {g st : Prop} {m n : M Value} {v : Value} (h : Sim S g st m n)
    (hm : m = pure v) : Sim S g st (pure v) n :=
  sim_const h fun s _ => ⟨s, by rw [hm]; rfl, fun _ => rfl⟩

theorem isLift_ok {m : M Value} {v : Value} {s s' : St} (hl : IsLift m) (h : m s = (.ok v, s')) :
    m = pure v := by
  obtain ⟨x, rfl⟩ := hl
  rw [M.lift_eq_ok] at h
  rw [h.1]; rfl

theorem evalBin_isLift {env : Env} {dc : DecCtx} {op : BinOp} {l r : M Value} (ho : op.isFuzzy = false)
    (hl : IsLift l) (hr : IsLift r) : IsLift (evalBin env dc op l r) := by
  cases op with
  | fuzzy => simp [BinOp.isFuzzy] at ho
  | add | sub => exact hl.bind fun _ => hr.bind fun _ => IsLift.lift _
  | arith => exact hl.bind fun _ => (IsLift.lift _).bind fun _ => hr.bind fun _ =>
      (IsLift.lift _).bind fun _ => IsLift.lift _
  | bit | shift =>
    refine hl.bind fun a => (IsLift.lift _).bind fun t => IsLift.ite
      ((IsLift.lift _).bind fun _ => hr.bind fun _ => IsLift.lift _) ?_
    cases a <;> first | exact hr.bind fun _ => IsLift.lift _ | exact IsLift.throw _
  | and => exact hl.bind fun _ => IsLift.ite (hr.bind fun _ => IsLift.pure _) (IsLift.pure _)
  | or => exact hl.bind fun _ => IsLift.ite (IsLift.pure _) (hr.bind fun _ => IsLift.pure _)
  | eq | ne => exact hl.bind fun _ => hr.bind fun _ => IsLift.pure _
  | cmp => exact hl.bind fun _ => hr.bind fun _ => (IsLift.lift _).bind fun _ => IsLift.pure _

/-- the same outcome from any two states -/
theorem outcome_base : RelBase (fun {α : Type} (m m' : M α) => ∀ s s2 : St, (m s).1 = (m' s2).1) where
  lift x := fun _ _ => rfl
  bind := by
    intro α β m m' f f' hm hf s s2
    have := hm s s2
    rw [M.bind_apply, M.bind_apply]
    rcases h1 : m s with ⟨x, t⟩
    rcases h2 : m' s2 with ⟨x', t'⟩
    rw [h1, h2] at this
    simp only at this
    subst this
    cases x with
    | error e => rfl
    | ok a => exact hf a t t'
  setGroups _ _ := fun _ _ => rfl
  logCall _ _ _ _ := fun _ _ => rfl
  rethrow := by
    intro α e m m' hm s s2
    have := hm s s2
    unfold M.catchErr
    rcases h1 : m s with ⟨x, t⟩
    rcases h2 : m' s2 with ⟨x', t'⟩
    rw [h1, h2] at this
    simp only at this
    subst this
    cases x <;> rfl

/-- a regex operator on constants gives the same whatever the state -/
theorem fuzzy_steady {env : Env} {dc : DecCtx} {op : BinOp} {l r : M Value} {v : Value} {s s' : St}
    (hl : IsLift l) (hr : IsLift r) (h : evalBin env dc op l r s = (.ok v, s')) (t : St) :
    ∃ t', evalBin env dc op l r t = (.ok v, t') := by
  have := evalBin_rel outcome_base env env.resolver env.typeResolver env.defaultValue dc op
    (m := l) (m' := l) (n := r) (n' := r)
    (by obtain ⟨x, rfl⟩ := hl; exact fun _ _ => rfl) (by obtain ⟨x, rfl⟩ := hr; exact fun _ _ => rfl) s t
  rw [h] at this
  exact ⟨(evalBin env dc op l r t).2, Prod.ext this.symm rfl⟩

/-- lookups that only read the scopes and the groups -/
theorem sim_read {S : List Assignment} {g st : Prop} {m : M Value}
    (h : ∀ s s2 : St, s.scopes = S → s2.scopes = S → (g → s.groups = s2.groups) →
      (m s).1 = (m s2).1)
    (hk : ∀ s : St, (m s).2.scopes = s.scopes ∧ (m s).2.groups = s.groups) : Sim S g st m m := by
  intro s s2 hs hs2 hg
  have := h s s2 hs hs2 hg
  refine ⟨?_, ?_⟩
  · intro a s' ha
    rw [ha] at this
    refine ⟨(m s2).2, Prod.ext this.symm rfl, ?_, ?_, ?_⟩
    · have := (hk s).1; rw [ha] at this; exact this.trans hs
    · exact (hk s2).1.trans hs2
    · intro hg'
      have h1 := (hk s).2
      rw [ha] at h1
      exact h1.trans ((hg hg').trans (hk s2).2.symm)
  · intro _ a s' ha
    rw [ha] at this
    exact ⟨a, (m s).2, Prod.ext this rfl⟩

theorem ctxResolve_keeps (env : Env) (thing : Value) (name : String) (b : Bool) (s : St) :
    (ctxResolve env thing name b s).2.scopes = s.scopes ∧
    (ctxResolve env thing name b s).2.groups = s.groups := by
  unfold ctxResolve
  cases b
  · simp only [Bool.false_eq_true, if_false]
    split <;> exact ⟨rfl, rfl⟩
  · simp only [if_true]
    split <;> exact ⟨rfl, rfl⟩

theorem builtinValue_groups {env : Env} {a b : Value} {name : String} (h : name ≠ "re_groups") :
    builtinValue env a name = builtinValue env b name := by
  unfold builtinValue
  split <;> first | rfl | exact absurd rfl h

theorem ctxResolve_reads (env : Env) (thing : Value) (name : String) (b : Bool) (s s2 : St)
    (hs : s.scopes = s2.scopes) (hg : b = true → name = "re_groups" → s.groups = s2.groups) :
    (ctxResolve env thing name b s).1 = (ctxResolve env thing name b s2).1 := by
  unfold ctxResolve
  cases b
  · simp only [Bool.false_eq_true, if_false, hs]
    split <;> rfl
  · simp only [if_true]
    have : builtinValue env s.groups name = builtinValue env s2.groups name := by
      by_cases hn : name = "re_groups"
      · rw [hg rfl hn]
      · exact builtinValue_groups hn
    rw [this]
    split <;> rfl

theorem sim_symbol {S : List Assignment} {g st : Prop} {env : Env} {thing : Value} {name : String}
    {rt : DataType} {b : Bool} (hg : b = true → name = "re_groups" → g) (hst : st → rt = .undefined) :
    Sim S g st (evalSymbol env thing name rt b) (evalSymbol env thing name .undefined b) := by
  have hB := sim_base S g st
  refine hB.bind ?_ fun v => ?_
  · refine sim_read ?_ ?_
    · intro s s2 hs hs2 hgg
      have h1 := ctxResolve_reads env thing name b s s2 (hs.trans hs2.symm)
        (fun hb hn => hgg (hg hb hn))
      unfold M.catchErr
      rcases hx : ctxResolve env thing name b s with ⟨x, t⟩
      rcases hy : ctxResolve env thing name b s2 with ⟨y, t'⟩
      rw [hx, hy] at h1
      simp only at h1
      subst h1
      cases x with
      | ok a => rfl
      | error e =>
        simp only
        cases isSymErr e <;> cases env.defaultValue <;> rfl
    · intro s
      have := ctxResolve_keeps env thing name b s
      unfold M.catchErr
      rcases hx : ctxResolve env thing name b s with ⟨x, t⟩
      rw [hx] at this
      cases x with
      | ok a => exact this
      | error e =>
        simp only
        cases isSymErr e <;> cases env.defaultValue <;> exact this
  · intro s s2 hs hs2 hgg
    refine ⟨?_, ?_⟩
    · intro a s' ha
      rw [M.lift_eq_ok] at ha
      obtain ⟨ha, rfl⟩ := ha
      refine ⟨s2, ?_, hs, hs2, hgg⟩
      rw [M.lift_eq_ok]
      have := checkSymbol_ok ha
      subst this
      exact ⟨rfl, rfl⟩
    · intro h a s2' ha
      rw [hst h]
      rw [M.lift_eq_ok] at ha
      exact ⟨a, s, by rw [M.lift_eq_ok]; exact ⟨ha.1, rfl⟩⟩

theorem sim_attr {S : List Assignment} {g st : Prop} {env : Env} {o : Value} {name : String} :
    Sim S g st (evalGetAttr env o name) (evalGetAttr env o name) := by
  refine sim_read ?_ ?_
  · intro s s2 hs hs2 _
    have h1 := ctxResolve_reads env o name false s s2 (hs.trans hs2.symm) (by simp)
    unfold evalGetAttr
    rcases hx : ctxResolve env o name false s with ⟨x, t⟩
    rcases hy : ctxResolve env o name false s2 with ⟨y, t'⟩
    rw [hx, hy] at h1
    simp only at h1
    subst h1
    cases resolveAttr env o name with
    | ok v => rfl
    | error e =>
      simp only
      cases isAttrErr e with
      | false => rfl
      | true =>
        cases x with
        | ok a => rfl
        | error e =>
          simp only
          cases isSymErr e <;> cases env.defaultValue <;> rfl
  · intro s
    have := ctxResolve_keeps env o name false s
    unfold evalGetAttr
    rcases hx : ctxResolve env o name false s with ⟨x, t⟩
    rw [hx] at this
    cases resolveAttr env o name with
    | ok v => exact ⟨rfl, rfl⟩
    | error e =>
      simp only
      cases isAttrErr e with
      | false => exact ⟨rfl, rfl⟩
      | true =>
        cases x with
        | ok a => exact this
        | error e =>
          simp only
          cases isSymErr e <;> cases env.defaultValue <;> exact this

theorem sim_call {S : List Assignment} {g st : Prop} (hst : ¬st) {env : Env} {dc : DecCtx}
    {ft rt : DataType} {f : Value} {args : List Value} :
    Sim S g st (evalCall env dc ft rt f args) (finishCall env dc .undefined f args) := by
  have hB := sim_base S g st
  have key : Sim S g st (finishCall env dc rt f args) (finishCall env dc .undefined f args) := by
    refine hB.bind (hB.rethrow _ (callFn_rel hB env env.resolver env.typeResolver env.defaultValue dc f args))
      fun r => hB.bind (hB.lift _) fun r => hB.bind (hB.lift _) fun t => ?_
    intro s s2 hs hs2 hg
    refine ⟨?_, fun h => (hst h).elim⟩
    intro a s' ha
    split at ha
    · rw [M.pure_eq_ok] at ha
      obtain ⟨rfl, rfl⟩ := ha
      have : DataType.compat t .undefined = true := by cases t <;> rfl
      rw [if_pos this]
      exact ⟨s2, rfl, hs, hs2, hg⟩
    · simp at ha
  unfold evalCall
  split
  · exact key
  · intro s s2 hs hs2 hg
    refine ⟨?_, fun h => (hst h).elim⟩
    intro a s' ha
    simp only [M.bind_eq_ok, M.lift_eq_ok] at ha
    obtain ⟨_, _, ⟨-, rfl⟩, ha⟩ := ha
    exact (key s s2 hs hs2 hg).1 a s' ha

/-- names in scope at construction are the names in scope at evaluation -/
theorem lookup_names {Γ S : List Assignment} (h : Γ.map (fun a : Assignment => a.name) = S.map fun a : Assignment => a.name)
    {name : String} (hn : scopeLookup Γ name = none) : scopeLookup S name = none := by
  simp only [scopeLookup, List.find?_eq_none, beq_iff_eq] at hn ⊢
  intro a ha hc
  have : name ∈ S.map fun a : Assignment => a.name := List.mem_map.2 ⟨a, ha, hc⟩
  rw [← h] at this
  obtain ⟨b, hb, hc⟩ := List.mem_map.1 this
  exact hn b hb hc

/-- a folded attribute, evaluated at run time -/
theorem attr_steady {env : Env} {Γ S : List Assignment}
    (hn : Γ.map (fun a : Assignment => a.name) = S.map fun a : Assignment => a.name)
    (hΓ : ∀ a ∈ Γ, a.value = .undef) {o : Expr} {name : String} {safe : Bool} {v : Value}
    (hred : o.reduced = true) (hc : v ≠ .undef)
    (hv : FoldVal env env.decCtx Γ (.getAttr o name safe) v) (dc : DecCtx) (thing : Value) (t : St)
    (ht : t.scopes = S) :
    ∃ t', eval env dc thing (.getAttr o name safe) t = (.ok v, t') ∧ t'.groups = t.groups := by
  obtain ⟨s, s', hs, hv⟩ := hv
  obtain ⟨x, hx⟩ := reduced_const env o hred
  simp only [eval, hx, M.bind_eq_ok, M.lift_eq_ok] at hv
  obtain ⟨ov, s1, ⟨rfl, rfl⟩, h2⟩ := hv
  simp only [eval, hx]
  change ∃ t', (if ov = .none ∧ safe = true then pure .none else evalGetAttr env ov name) t = _ ∧ _
  split at h2
  · rename_i hsk
    rw [M.pure_eq_ok] at h2
    rw [if_pos hsk]
    exact ⟨t, by rw [h2.1.symm]; rfl, rfl⟩
  · rename_i hsk
    rw [if_neg hsk]
    unfold evalGetAttr at h2 ⊢
    cases hr : resolveAttr env ov name with
    | ok w =>
      rw [hr] at h2
      simp only [Prod.mk.injEq] at h2 ⊢
      exact ⟨t, ⟨h2.1, rfl⟩, rfl⟩
    | error e =>
      rw [hr] at h2
      simp only at h2 ⊢
      cases hae : isAttrErr e with
      | false => rw [hae] at h2; simp at h2
      | true =>
        rw [hae] at h2
        simp only [if_true] at h2 ⊢
        have hlook : scopeLookup s.scopes name = none := by
          cases hl : scopeLookup s.scopes name with
          | none => rfl
          | some a =>
            exfalso
            have : a ∈ Γ := by rw [← hs]; exact List.mem_of_find?_eq_some hl
            have hr' : ctxResolve env ov name false s = (.ok .undef, s) := by
              simp only [ctxResolve, Bool.false_eq_true, if_false, hl, hΓ a this]
            rw [hr'] at h2
            simp only [Prod.mk.injEq, Except.ok.injEq] at h2
            exact hc h2.1.symm
        have hlook' : scopeLookup t.scopes name = none := by
          rw [ht]; rw [hs] at hlook; exact lookup_names hn hlook
        simp only [ctxResolve, Bool.false_eq_true, if_false, hlook] at h2
        simp only [ctxResolve, Bool.false_eq_true, if_false, hlook']
        cases hrr : env.resolver ov name with
        | ok w =>
          rw [hrr] at h2
          simp only [Prod.mk.injEq] at h2 ⊢
          exact ⟨_, ⟨h2.1, rfl⟩, rfl⟩
        | error e' =>
          rw [hrr] at h2
          simp only at h2 ⊢
          cases hse : isSymErr e' with
          | false => rw [hse] at h2; simp at h2
          | true =>
            rw [hse] at h2
            simp only [if_true] at h2 ⊢
            cases hd : env.defaultValue with
            | none => rw [hd] at h2; simp at h2
            | some d =>
              rw [hd] at h2
              simp only [Prod.mk.injEq] at h2 ⊢
              exact ⟨_, ⟨h2.1, rfl⟩, rfl⟩

/-- a folded call, evaluated at run time -/
theorem call_steady {env : Env} {Γ : List Assignment} {f : Expr} {args : List Expr} {v : Value}
    (hf : Gives (Value.Canonical env.utcoffset) (eval env env.decCtx .none f))
    (hr1 : f.reduced = true) (hr2 : Expr.reducedList args = true)
    (hv : FoldVal env env.decCtx Γ (.call f args) v) (dc : DecCtx) (thing : Value) (t : St) :
    ∃ t', eval env dc thing (.call f args) t = (.ok v, t') ∧ t'.groups = t.groups := by
  obtain ⟨s, s', hs, hv⟩ := hv
  obtain ⟨x, hx⟩ := reduced_const env f hr1
  obtain ⟨ms, hms, hl⟩ := reduceds_const env args hr2
  obtain ⟨y, hy⟩ := seqM_lift hl
  have hcan : ∀ fv, x = .ok fv → fv.Canonical env.utcoffset := by
    intro fv h
    exact hf s fv s (by rw [hx, h]; rfl)
  simp only [eval, hx, hms, hy] at hv ⊢
  cases x with
  | error e => cases hv
  | ok fv =>
    change (if fv.isCallable then (M.lift y >>= fun vs => evalCall env env.decCtx f.rt (callNodeType f.rt) fv vs)
      else M.throw .mismatch) s = _ at hv
    change ∃ t', (if fv.isCallable then (M.lift y >>= fun vs => evalCall env dc f.rt (callNodeType f.rt) fv vs)
      else M.throw .mismatch) t = _ ∧ _
    split at hv
    · rename_i hcall
      rw [if_pos hcall]
      obtain ⟨m, self, rfl⟩ := canonical_callable (hcan _ rfl) hcall
      cases y with
      | error e => cases hv
      | ok vs =>
        change evalCall env env.decCtx f.rt (callNodeType f.rt) (.method m self) vs s = _ at hv
        change ∃ t', evalCall env dc f.rt (callNodeType f.rt) (.method m self) vs t = _ ∧ _
        have hdc : ∀ dc : DecCtx, callFn env dc (.method m self) vs =
            fun s => (callMethod env m self vs, { s with log := s.log ++ [.call (.method m self) vs] }) := by
          intro dc
          rfl
        have key : ∀ (rt : DataType) (s s' : St), finishCall env env.decCtx rt (.method m self) vs s = (.ok v, s') →
            ∃ t', finishCall env dc rt (.method m self) vs t = (.ok v, t') ∧ t'.groups = t.groups := by
          intro rt s s' h
          unfold finishCall at h ⊢
          rw [hdc] at h ⊢
          cases hm : callMethod env m self vs with
          | error e =>
            rw [hm] at h
            simp [M.bind_apply, M.catchErr] at h
          | ok r =>
            rw [hm] at h
            simp only [M.bind_apply, M.catchErr, M.lift_apply] at h ⊢
            cases hcv : coerceVerify env.utcoffset r with
            | error e => rw [hcv] at h; cases h
            | ok r' =>
              rw [hcv] at h
              simp only at h ⊢
              cases hfv : fromValue (localise env r') with
              | error e => rw [hfv] at h; cases h
              | ok ty =>
                rw [hfv] at h
                simp only at h ⊢
                split at h
                · rename_i hcomp
                  rw [if_pos hcomp]
                  rw [M.pure_eq_ok] at h
                  exact ⟨{ t with log := t.log ++ [.call (.method m self) vs] }, by rw [h.1]; rfl, rfl⟩
                · cases h
        unfold evalCall at hv ⊢
        split at hv
        · rename_i he
          rw [if_pos he]
          exact key _ _ _ hv
        · rename_i he
          rw [if_neg he]
          simp only [M.bind_eq_ok, M.lift_eq_ok] at hv
          obtain ⟨_, _, ⟨hva, rfl⟩, hv⟩ := hv
          obtain ⟨t', h1, h2⟩ := key _ _ _ hv
          exact ⟨t', by rw [M.bind_eq_ok]; exact ⟨_, t, by rw [M.lift_eq_ok]; exact ⟨hva, rfl⟩, h1⟩, h2⟩
    · cases hv

theorem setM_nonempty {off : TzDb} : ∀ {ms : List (M Value)} {acc : List Value} {s s' : St}
    {vs : List Value}, setM off acc ms s = (.ok vs, s') → (vs = [] ↔ acc = [] ∧ ms = [])
  | [], acc, s, s', vs, h => by
    simp only [setM, M.pure_eq_ok] at h
    rw [h.1]; simp
  | m :: ms, acc, s, s', vs, h => by
    simp only [setM, M.bind_eq_ok] at h
    obtain ⟨v, s1, h1, h2⟩ := h
    split at h2
    · rw [setM_nonempty h2]
      unfold setAdd
      split
      · rename_i ha
        simp only [reduceCtorEq, and_false, iff_false, not_and]
        intro hn
        rw [hn] at ha
        simp at ha
      · simp
    · simp at h2

theorem mapInsert_ne_nil {α : Type} {off : TzDb} {acc : List (Value × α)} {k : Value} {v : α} :
    mapInsert off acc k v ≠ [] := by
  cases acc with
  | nil => simp [mapInsert]
  | cons p t => simp only [mapInsert]; split <;> simp

theorem mapKeysM_nonempty {off : TzDb} : ∀ {ms : List (M Value × M Value)}
    {acc : List (Value × M Value)} {s s' : St} {ks : List (Value × M Value)},
    mapKeysM off acc ms s = (.ok ks, s') → (ks = [] ↔ acc = [] ∧ ms = [])
  | [], acc, s, s', ks, h => by
    simp only [mapKeysM, M.pure_eq_ok] at h
    rw [h.1]; simp
  | (k, m) :: ms, acc, s, s', ks, h => by
    simp only [mapKeysM, M.bind_eq_ok, M.lift_eq_ok] at h
    obtain ⟨v, s1, h1, t, s2, ⟨_, rfl⟩, h2⟩ := h
    split at h2
    · simp at h2
    · split at h2
      · rw [mapKeysM_nonempty h2]
        simp [mapInsert_ne_nil]
      · simp at h2

theorem seqM_nil {ms : List (M Value)} {s s' : St} {vs : List Value} (h : seqM ms s = (.ok vs, s')) :
    vs = [] ↔ ms = [] := by
  cases ms with
  | nil =>
    simp only [seqM, M.pure_eq_ok] at h
    rw [← h.1]; simp
  | cons m ms =>
    simp only [seqM, M.bind_eq_ok, M.pure_eq_ok] at h
    obtain ⟨v, s1, h1, ws, s2, h2, rfl, rfl⟩ := h
    simp

/-- the truth value construction looks at is the truth value of the constant -/
theorem litTruthy_eq {env : Env} {dc : DecCtx} {thing v : Value} {s s' : St} {e : Expr} (hr : e.reduced = true)
    (h : eval env dc thing e s = (.ok v, s')) : e.litTruthy = v.truthy := by
  cases e <;> simp [Expr.reduced] at hr
  case lit w t =>
    simp only [eval, M.pure_eq_ok] at h
    rw [← h.1]; rfl
  case array xs =>
    simp only [eval, M.bind_eq_ok, M.pure_eq_ok] at h
    obtain ⟨vs, _, h1, rfl, _⟩ := h
    have := seqM_nil h1
    cases xs <;> cases vs <;> simp_all [evals, Expr.litTruthy, Value.truthy, Value.tuple]
  case set xs =>
    simp only [eval, M.bind_eq_ok, M.pure_eq_ok] at h
    obtain ⟨vs, _, h1, rfl, _⟩ := h
    have := setM_nonempty h1
    cases xs <;> cases vs <;> simp_all [evals, Expr.litTruthy, Value.truthy]
  case mapping kvs =>
    simp only [eval, M.bind_eq_ok, M.pure_eq_ok] at h
    obtain ⟨ks, _, h1, items, _, h2, rfl, _⟩ := h
    have h3 := mapKeysM_nonempty h1
    have h4 : items = [] ↔ ks = [] := by
      cases ks with
      | nil => simp only [mapValsM, M.pure_eq_ok] at h2; rw [← h2.1]; simp
      | cons p t =>
        obtain ⟨k, m⟩ := p
        simp only [mapValsM, M.bind_eq_ok, M.pure_eq_ok] at h2
        obtain ⟨_, _, _, _, _, _, rfl, _⟩ := h2
        simp
    rw [h3] at h4
    cases kvs with
    | nil => cases items <;> simp_all [evalPairs, Expr.litTruthy, Value.truthy]
    | cons p t =>
      obtain ⟨k, m⟩ := p
      cases items <;> simp_all [evalPairs, Expr.litTruthy, Value.truthy]

/-! ## The simulation -/

theorem fold_sim {env : Env} {dc : DecCtx} {thing : Value} {Γ S : List Assignment} {g st : Prop}
    {node e : Expr} {n : M Value} (hs : Sim S g st (eval env dc thing node) n)
    (hf : Folds env dc Γ node e) (hc : Gives (Value.Canonical env.utcoffset) (eval env dc .none node))
    (hst : ∀ v, FoldVal env dc Γ node v → ∀ t : St, t.scopes = S →
      ∃ t', eval env dc thing node t = (.ok v, t') ∧ (g → t'.groups = t.groups)) :
    Sim S g st (eval env dc thing e) n := by
  obtain ⟨v, hv, hl⟩ := hf
  simp only [litOf, except_bind_ok, Except.ok.injEq] at hl
  obtain ⟨t, _, rfl⟩ := hl
  have hcv : v.Canonical env.utcoffset := by
    obtain ⟨s, s', -, h⟩ := hv
    exact hc _ _ _ h
  rw [(ofValue_const' hcv).1]
  exact sim_const hs (hst v hv)

theorem steady_of_const {env : Env} {dc : DecCtx} {thing : Value} {Γ : List Assignment} {g : Prop}
    {node : Expr} (h : ∃ x : Except Err Value, ∀ thing, eval env dc thing node = M.lift x) {v : Value}
    (hv : FoldVal env dc Γ node v) (t : St) :
    ∃ t', eval env dc thing node t = (.ok v, t') ∧ (g → t'.groups = t.groups) := by
  obtain ⟨x, hx⟩ := h
  obtain ⟨s, s', -, hv⟩ := hv
  rw [hx, M.lift_eq_ok] at hv
  exact ⟨t, by rw [hx, M.lift_eq_ok]; exact ⟨hv.1, rfl⟩, fun _ => rfl⟩

theorem bin_node_const {env : Env} {dc : DecCtx} {op : BinOp} {l r : Expr} (ho : op.isFuzzy = false)
    (hl : l.reduced = true) (hr : r.reduced = true) :
    ∃ x : Except Err Value, ∀ thing, eval env dc thing (.bin op l r) = M.lift x := by
  obtain ⟨x, hx⟩ := reduced_const env l hl
  obtain ⟨y, hy⟩ := reduced_const env r hr
  obtain ⟨z, hz⟩ := evalBin_isLift (env := env) (dc := dc) ho (IsLift.lift x) (IsLift.lift y)
  exact ⟨z, fun thing => by simp only [eval, hx, hy]; exact hz⟩

theorem contains_node_const {env : Env} {dc : DecCtx} {l r : Expr} 
    (hl : l.reduced = true) (hr : r.reduced = true) :
    ∃ x : Except Err Value, ∀ thing, eval env dc thing (.contains l r) = M.lift x := by
  obtain ⟨x, hx⟩ := reduced_const env l hl
  obtain ⟨y, hy⟩ := reduced_const env r hr
  have : IsLift (eval env dc .none (.contains l r)) := by
    simp only [eval, hx, hy]
    exact (IsLift.lift _).bind fun _ => (IsLift.lift _).bind fun _ => (IsLift.lift _).bind fun _ =>
      (IsLift.lift _).bind fun _ => IsLift.pure _
  obtain ⟨z, hz⟩ := this
  refine ⟨z, fun thing => ?_⟩
  rw [← hz]
  simp only [eval, hx, hy]

theorem getItem_node_const {env : Env} {dc : DecCtx} {l r : Expr} {safe : Bool}
    (hl : l.reduced = true) (hr : r.reduced = true) :
    ∃ x : Except Err Value, ∀ thing, eval env dc thing (.getItem l r safe) = M.lift x := by
  obtain ⟨x, hx⟩ := reduced_const env l hl
  obtain ⟨y, hy⟩ := reduced_const env r hr
  have : IsLift (eval env dc .none (.getItem l r safe)) := by
    simp only [eval, hx, hy]
    refine (IsLift.lift _).bind fun _ => IsLift.ite (IsLift.ite (IsLift.pure _) (IsLift.throw _))
      ((IsLift.lift _).bind fun _ => (IsLift.lift _).bind fun o => ?_)
    cases o
    · exact IsLift.ite (IsLift.pure _) (IsLift.throw _)
    · exact IsLift.pure _
  obtain ⟨z, hz⟩ := this
  refine ⟨z, fun thing => ?_⟩
  rw [← hz]
  simp only [eval, hx, hy]

theorem getSlice_node_const {env : Env} {dc : DecCtx} {c a b : Expr} {safe : Bool}
    (hc : c.reduced = true) (ha : a.reduced = true) (hb : b.reduced = true) :
    ∃ x : Except Err Value, ∀ thing, eval env dc thing (.getSlice c a b safe) = M.lift x := by
  obtain ⟨x, hx⟩ := reduced_const env c hc
  obtain ⟨y, hy⟩ := reduced_const env a ha
  obtain ⟨w, hw⟩ := reduced_const env b hb
  have : IsLift (eval env dc .none (.getSlice c a b safe)) := by
    simp only [eval, hx, hy, hw]
    refine (IsLift.lift _).bind fun _ => IsLift.ite (IsLift.ite (IsLift.pure _) (IsLift.throw _)) ?_
    unfold evalSlice
    exact (IsLift.lift _).bind fun _ => (IsLift.lift _).bind fun _ => (IsLift.lift _).bind fun _ =>
      (IsLift.lift _).bind fun _ => (IsLift.lift _).bind fun _ => IsLift.pure _
  obtain ⟨z, hz⟩ := this
  refine ⟨z, fun thing => ?_⟩
  rw [← hz]
  simp only [eval, hx, hy, hw]

mutual
theorem built_sim {env : Env} (H : env.ConstOk) {g st : Prop} {thing : Value} : ∀ (raw : Raw)
    {Γ S : List Assignment} {e : Expr}, raw.Foldable env g st Γ → (∀ a ∈ Γ, a.value = .undef) →
    Γ.map (fun a : Assignment => a.name) = S.map (fun a : Assignment => a.name) →
    Built env env.decCtx Γ raw e →
    Sim S g st (eval env env.decCtx thing e) (interp env env.decCtx thing raw)
  | .lit v, Γ, S, e, hf, hΓ, hn, hb => by
    simp only [Built] at hb
    obtain ⟨t, ht, rfl⟩ := hb
    simp only [eval, interp]
    exact (sim_base S g st).pure _
  | .floatLit x, Γ, S, e, hf, hΓ, hn, hb => by
    simp only [Built] at hb
    obtain ⟨t, ht, rfl⟩ := hb
    simp only [eval, interp, ht]
    exact (sim_base S g st).pure _
  | .datetimeLit x, Γ, S, e, hf, hΓ, hn, hb => by
    simp only [Built] at hb
    obtain ⟨t, ht, rfl⟩ := hb
    simp only [eval, interp, ht]
    exact (sim_base S g st).pure _
  | .timedeltaLit x, Γ, S, e, hf, hΓ, hn, hb => by
    simp only [Built] at hb
    obtain ⟨t, ht, rfl⟩ := hb
    simp only [eval, interp, ht]
    exact (sim_base S g st).pure _
  | .array xs, Γ, S, e, hf, hΓ, hn, hb => by
    have hB := sim_base S g st
    simp only [Built] at hb
    obtain ⟨es, hes, rfl⟩ := hb
    simp only [Raw.Foldable] at hf
    simp only [eval, interp]
    exact hB.bind (seqM_rel hB (builts_sim H xs hf hΓ hn hes)) fun _ => hB.pure _
  | .set xs, Γ, S, e, hf, hΓ, hn, hb => by
    have hB := sim_base S g st
    simp only [Built] at hb
    obtain ⟨es, hes, rfl⟩ := hb
    simp only [Raw.Foldable] at hf
    simp only [eval, interp]
    exact hB.bind (setM_rel hB _ (builts_sim H xs hf hΓ hn hes) []) fun _ => hB.pure _
  | .mapping kvs, Γ, S, e, hf, hΓ, hn, hb => by
    have hB := sim_base S g st
    simp only [Built] at hb
    obtain ⟨es, hes, -, rfl⟩ := hb
    simp only [Raw.Foldable] at hf
    simp only [eval, interp]
    rw [← bind_assoc, ← bind_assoc]
    exact hB.bind (mapM_rel hB _ (builtp_sim H kvs hf hΓ hn hes) .nil) fun _ => hB.pure _
  | .bin op l r, Γ, S, e, hf, hΓ, hn, hb => by
    have hB := sim_base S g st
    simp only [Built] at hb
    obtain ⟨l', r', h1, h2, -, h3⟩ := hb
    simp only [Raw.Foldable] at hf
    have hnode : Sim S g st (eval env env.decCtx thing (.bin op l' r'))
        (interp env env.decCtx thing (.bin op l r)) := by
      simp only [eval, interp]
      exact evalBin_rel hB env env.resolver env.typeResolver env.defaultValue env.decCtx op
        (built_sim H l hf.1 hΓ hn h1) (built_sim H r hf.2.1 hΓ hn h2)
    split at h3
    · rename_i hred'
      have hred := hred'
      simp only [Bool.and_eq_true] at hred
      refine fold_sim hnode h3 ?_ ?_
      · simp only [eval]
        exact evalBin_canonical
          ((built_const H l hf.1 hΓ h1 hred.1 _ _).mono fun _ h => h.1)
          ((built_const H r hf.2.1 hΓ h2 hred.2 _ _).mono fun _ h => h.1)
      · intro v hv t ht
        cases ho : op.isFuzzy with
        | false => exact steady_of_const (bin_node_const ho hred.1 hred.2) hv t
        | true =>
          obtain ⟨x, hx⟩ := reduced_const env l' hred.1
          obtain ⟨y, hy⟩ := reduced_const env r' hred.2
          obtain ⟨s, s', -, hv⟩ := hv
          simp only [eval, hx, hy] at hv ⊢
          obtain ⟨t', ht'⟩ := fuzzy_steady (IsLift.lift x) (IsLift.lift y) hv t
          refine ⟨t', ht', fun hg => ?_⟩
          rw [hf.2.2 hg ho l' r' h1 h2] at hred'
          cases hred'
    · rw [h3]; exact hnode
  | .comp result var iterable cond, Γ, S, e, hf, hΓ, hn, hb => by
    have hB := sim_base S g st
    simp only [Built] at hb
    obtain ⟨it, t, c, r, h1, ht, h2, h3, rfl⟩ := hb
    simp only [Raw.Foldable] at hf
    have hf2 := hf.2 it t h1 ht
    simp only [eval, interp]
    have hΓ' : ∀ a ∈ Γ ++ [(⟨var, .undef, t⟩ : Assignment)], a.value = .undef := by
      intro a ha
      rcases List.mem_append.1 ha with ha | ha
      · exact hΓ a ha
      · rw [List.mem_singleton] at ha; rw [ha]
    have hn' : ∀ x, (Γ ++ [(⟨var, .undef, t⟩ : Assignment)]).map (fun a : Assignment => a.name) =
        (S ++ [(⟨var, x, .undefined⟩ : Assignment)]).map (fun a : Assignment => a.name) := by
      intro x
      simp [hn]
    refine hB.bind (built_sim H iterable hf.1 hΓ hn h1) fun it => hB.bind (hB.lift _) fun t =>
      hB.ite (fun _ => hB.bind (hB.lift _) fun xs => hB.bind ?_ fun _ => hB.pure _)
        (fun _ => hB.throw _)
    exact sim_loop (fun x => built_sim H cond hf2.1 hΓ' (hn' x) h2)
      (fun x => built_sim H result hf2.2 hΓ' (hn' x) h3) xs
  | .contains c m, Γ, S, e, hf, hΓ, hn, hb => by
    have hB := sim_base S g st
    simp only [Built] at hb
    obtain ⟨c', m', h1, h2, -, h3⟩ := hb
    simp only [Raw.Foldable] at hf
    have hnode : Sim S g st (eval env env.decCtx thing (.contains c' m'))
        (interp env env.decCtx thing (.contains c m)) := by
      simp only [eval, interp]
      exact hB.bind (built_sim H c hf.1 hΓ hn h1) fun _ => hB.bind (hB.lift _) fun _ =>
        hB.bind (built_sim H m hf.2 hΓ hn h2) fun _ => hB.bind (hB.lift _) fun _ => hB.pure _
    split at h3
    · rename_i hred
      simp only [Bool.and_eq_true] at hred
      obtain ⟨v, hv, rfl⟩ := h3
      have := fun t => steady_of_const (g := g) (thing := thing)
        (contains_node_const (dc := env.decCtx) hred.1 hred.2) hv t
      simp only [eval]
      exact sim_const hnode fun t _ => this t
    · rw [h3]; exact hnode
  | .getAttr o name safe, Γ, S, e, hf, hΓ, hn, hb => by
    have hB := sim_base S g st
    simp only [Built] at hb
    obtain ⟨o', h1, -, h3⟩ := hb
    simp only [Raw.Foldable] at hf
    have hnode : Sim S g st (eval env env.decCtx thing (.getAttr o' name safe))
        (interp env env.decCtx thing (.getAttr o name safe)) := by
      simp only [eval, interp]
      exact hB.bind (built_sim H o hf.1 hΓ hn h1) fun _ => hB.ite (fun _ => hB.pure _)
        (fun _ => sim_attr)
    split at h3
    · rename_i hred
      obtain ⟨e', ⟨v, hv, hl⟩, rfl⟩ := h3
      have hc := attrFold_const H hΓ ((built_const H o hf.1 hΓ h1 hred _ _).mono fun w hw =>
        ⟨hw.1, fun hn => by
          by_contra hbb
          exact hf.2 hn o' h1 hred (hw.2 (by simpa using hbb))⟩) hred hv hl
      simp only [litOf, except_bind_ok, Except.ok.injEq] at hl
      obtain ⟨t, _, rfl⟩ := hl
      rw [(ofValue_const (dc := env.decCtx) (thing := thing) (node := .getAttr o' name safe) hc).1]
      refine sim_const hnode fun t ht => ?_
      obtain ⟨t', h1, h2⟩ := attr_steady hn hΓ hred
        (by rintro rfl; simp [Value.Canonical] at hc) hv env.decCtx thing t ht
      exact ⟨t', h1, fun _ => h2⟩
    · rw [h3]; exact hnode
  | .getItem c i safe, Γ, S, e, hf, hΓ, hn, hb => by
    have hB := sim_base S g st
    simp only [Built] at hb
    obtain ⟨c', i', h1, h2, -, h3⟩ := hb
    simp only [Raw.Foldable] at hf
    rw [hf.2.2 c' i' h1 h2] at h3
    simp only [Bool.false_eq_true, if_false] at h3
    have hnode : Sim S g st (eval env env.decCtx thing (.getItem c' i' safe))
        (interp env env.decCtx thing (.getItem c i safe)) := by
      simp only [eval, interp]
      refine hB.bind (built_sim H c hf.1 hΓ hn h1) fun cv => ?_
      refine hB.ite (fun _ => hB.ite (fun _ => hB.pure _) (fun _ => hB.throw _)) (fun _ => ?_)
      refine hB.bind (built_sim H i hf.2.1 hΓ hn h2) fun iv => ?_
      refine hB.bind (hB.lift _) fun o => ?_
      cases o
      · exact hB.ite (fun _ => hB.pure _) (fun _ => hB.throw _)
      · exact hB.pure _
    split at h3
    · rename_i hred
      simp only [Bool.and_eq_true] at hred
      refine fold_sim hnode h3 ?_ fun v hv t _ =>
        steady_of_const (getItem_node_const hred.1 hred.2) hv t
      intro s v s' h
      simp only [eval, M.bind_eq_ok] at h
      obtain ⟨cv, s1, hc, h⟩ := h
      have hcc := (built_const H c hf.1 hΓ h1 hred.1 _ _ _ _ _ hc).1
      split at h
      · split at h
        · rw [M.pure_eq_ok] at h; rw [← h.1]; trivial
        · simp at h
      · simp only [M.bind_eq_ok, M.lift_eq_ok] at h
        obtain ⟨iv, s2, hi, r, s3, ⟨hg, rfl⟩, h⟩ := h
        split at h
        · rw [M.pure_eq_ok] at h; rw [← h.1]
          exact itemOf_canonical hcc (opGetItem_itemOf hg)
        · split at h
          · rw [M.pure_eq_ok] at h; rw [← h.1]; trivial
          · simp at h
    · rw [h3]; exact hnode
  | .getSlice c a b safe, Γ, S, e, hf, hΓ, hn, hb => by
    have hB := sim_base S g st
    simp only [Built] at hb
    obtain ⟨c', a', b', h1, h2, h3, -, h4⟩ := hb
    simp only [Raw.Foldable] at hf
    have hnode : Sim S g st (eval env env.decCtx thing (.getSlice c' a' b' safe))
        (interp env env.decCtx thing (.getSlice c a b safe)) := by
      simp only [eval, interp]
      refine hB.bind (built_sim H c hf.1 hΓ hn h1) fun cv => ?_
      exact hB.ite (fun _ => hB.ite (fun _ => hB.pure _) (fun _ => hB.throw _)) (fun _ =>
        evalSlice_rel hB env env.resolver env.typeResolver env.defaultValue cv
          (built_sim H a hf.2.1 hΓ hn h2) (built_sim H b hf.2.2 hΓ hn h3))
    split at h4
    · rename_i hred
      simp only [Bool.and_eq_true] at hred
      refine fold_sim hnode h4 ?_ fun v hv t _ =>
        steady_of_const (getSlice_node_const hred.1.1 hred.1.2 hred.2) hv t
      intro s v s' h
      simp only [eval, M.bind_eq_ok] at h
      obtain ⟨cv, s1, hc, h⟩ := h
      have hcc := (built_const H c hf.1 hΓ h1 hred.1.1 _ _ _ _ _ hc).1
      split at h
      · split at h
        · rw [M.pure_eq_ok] at h; rw [← h.1]; trivial
        · simp at h
      · exact slice_gives hcc _ _ _ h
    · rw [h4]; exact hnode
  | .sym name b, Γ, S, e, hf, hΓ, hn, hb => by
    simp only [Built] at hb
    obtain ⟨t, ht, rfl⟩ := hb
    simp only [Raw.Foldable] at hf
    simp only [eval, interp]
    exact sim_symbol hf.1 fun hst => by
      have := hf.2 hst
      rw [ht] at this
      exact Except.ok.inj this
  | .call f args, Γ, S, e, hf, hΓ, hn, hb => by
    have hB := sim_base S g st
    simp only [Built] at hb
    obtain ⟨f', as, h1, h2, -, h3⟩ := hb
    simp only [Raw.Foldable] at hf
    have hnode : Sim S g st (eval env env.decCtx thing (.call f' as))
        (interp env env.decCtx thing (.call f args)) := by
      simp only [eval, interp]
      refine hB.bind (built_sim H f hf.1 hΓ hn h1) fun fv => ?_
      refine hB.ite (fun _ => ?_) (fun _ => hB.throw _)
      exact hB.bind (seqM_rel hB (builts_sim H args hf.2.1 hΓ hn h2)) fun vs => sim_call hf.2.2
    split at h3
    · rename_i hred
      simp only [Bool.and_eq_true] at hred
      have hfc := (built_const H f hf.1 hΓ h1 hred.1 env.decCtx .none).mono fun _ h => h.1
      refine fold_sim hnode h3 ?_ fun v hv t _ => ?_
      · intro s v s' h
        simp only [eval, M.bind_eq_ok] at h
        obtain ⟨fv, s1, hc, h⟩ := h
        have hcc := hfc _ _ _ hc
        split at h
        · rename_i hcall
          simp only [M.bind_eq_ok] at h
          obtain ⟨vs, s2, _, h⟩ := h
          exact call_gives hcc hcall _ _ _ h
        · simp at h
      · obtain ⟨t', a1, a2⟩ := call_steady hfc hred.1 hred.2 hv env.decCtx thing t
        exact ⟨t', a1, fun _ => a2⟩
    · rw [h3]; exact hnode
  | .tern c t f, Γ, S, e, hf, hΓ, hn, hb => by
    have hB := sim_base S g st
    simp only [Built] at hb
    obtain ⟨c', t', f', h1, h2, h3, rfl⟩ := hb
    simp only [Raw.Foldable] at hf
    obtain ⟨hf1, hf2, hf3, hf4⟩ := hf
    have hnode : Sim S g st (eval env env.decCtx thing (.tern c' t' f'))
        (interp env env.decCtx thing (.tern c t f)) := by
      simp only [eval, interp]
      exact hB.bind (built_sim H c hf1 hΓ hn h1) fun v =>
        hB.ite (fun _ => built_sim H t hf2 hΓ hn h2) (fun _ => built_sim H f hf3 hΓ hn h3)
    unfold mkTern
    split
    · rename_i hc
      obtain ⟨v, hv⟩ := hf4 c' h1 hc
      have ht := litTruthy_eq (env := env) (dc := env.decCtx) (thing := .none) (v := v)
        (s := St.init) (s' := St.init) hc (by rw [hv]; rfl)
      obtain ⟨x, hx⟩ := reduced_const env c' hc
      have hv' : eval env env.decCtx thing c' = pure v := by rw [hx, ← hx env.decCtx .none, hv]
      have hcond : eval env env.decCtx thing (.tern c' t' f') =
          if v.truthy then eval env env.decCtx thing t' else eval env env.decCtx thing f' := by
        simp only [eval, hv']
        rfl
      rw [hcond] at hnode
      split
      · rename_i htt
        rw [ht] at htt
        rwa [if_pos htt] at hnode
      · rename_i htt
        rw [ht] at htt
        rwa [if_neg htt] at hnode
    · exact hnode
  | .not x, Γ, S, e, hf, hΓ, hn, hb => by
    have hB := sim_base S g st
    simp only [Built] at hb
    obtain ⟨x', h1, h3⟩ := hb
    simp only [Raw.Foldable] at hf
    have hnode : Sim S g st (eval env env.decCtx thing (.not x'))
        (interp env env.decCtx thing (.not x)) := by
      simp only [eval, interp]
      exact hB.bind (built_sim H x hf hΓ hn h1) fun _ => hB.pure _
    split at h3
    · rename_i hred
      obtain ⟨v, hv, rfl⟩ := h3
      obtain ⟨y, hy⟩ := reduced_const env x' hred
      have hlift : ∃ z : Except Err Value, ∀ thing, eval env env.decCtx thing (.not x') = M.lift z := by
        obtain ⟨z, hz⟩ := (IsLift.lift y).bind fun v : Value => IsLift.pure (Value.bool (!v.truthy))
        exact ⟨z, fun thing => by simp only [eval, hy]; exact hz⟩
      simp only [eval]
      exact sim_const hnode fun t _ => steady_of_const hlift hv t
    · rw [h3]; exact hnode
  | .neg x, Γ, S, e, hf, hΓ, hn, hb => by
    have hB := sim_base S g st
    simp only [Built] at hb
    obtain ⟨x', h1, h3⟩ := hb
    simp only [Raw.Foldable] at hf
    have hnode : Sim S g st (eval env env.decCtx thing (.neg x'))
        (interp env env.decCtx thing (.neg x)) := by
      simp only [eval, interp]
      exact hB.bind (built_sim H x hf hΓ hn h1) fun _ => hB.lift _
    split at h3
    · rename_i hred
      obtain ⟨w, v, t, rfl, -, hv, rfl⟩ := h3
      obtain ⟨y, hy⟩ := reduced_const env _ hred
      have hlift : ∃ z : Except Err Value, ∀ thing,
          eval env env.decCtx thing (.neg (.lit w t)) = M.lift z := by
        obtain ⟨z, hz⟩ := (IsLift.lift y).bind fun v : Value => IsLift.lift (opNeg env.decCtx v)
        exact ⟨z, fun thing => by rw [eval, hy]; exact hz⟩
      have := fun t : St => steady_of_const (thing := thing) (g := g) hlift hv t
      rw [eval]
      exact sim_const hnode fun t _ => this t
    · rw [h3]; exact hnode
theorem builts_sim {env : Env} (H : env.ConstOk) {g st : Prop} {thing : Value} : ∀ (xs : List Raw)
    {Γ S : List Assignment} {es : List Expr}, Raw.Foldables env g st Γ xs →
    (∀ a ∈ Γ, a.value = .undef) →
    Γ.map (fun a : Assignment => a.name) = S.map (fun a : Assignment => a.name) →
    BuiltList env env.decCtx Γ xs es →
    List.Forall₂ (fun m m' => Sim S g st m m') (evals env env.decCtx thing es)
      (interps env env.decCtx thing xs)
  | [], Γ, S, es, hf, hΓ, hn, hb => by
    simp only [BuiltList] at hb
    subst hb
    exact .nil
  | x :: xs, Γ, S, es, hf, hΓ, hn, hb => by
    simp only [BuiltList] at hb
    obtain ⟨e, es', h1, h2, rfl⟩ := hb
    simp only [Raw.Foldables] at hf
    exact .cons (built_sim H x hf.1 hΓ hn h1) (builts_sim H xs hf.2 hΓ hn h2)
theorem builtp_sim {env : Env} (H : env.ConstOk) {g st : Prop} {thing : Value} :
    ∀ (xs : List (Raw × Raw)) {Γ S : List Assignment} {es : List (Expr × Expr)},
    Raw.Foldablep env g st Γ xs → (∀ a ∈ Γ, a.value = .undef) →
    Γ.map (fun a : Assignment => a.name) = S.map (fun a : Assignment => a.name) →
    BuiltPairs env env.decCtx Γ xs es →
    RelPairs (Sim S g st) (evalPairs env env.decCtx thing es)
      (interpPairs env env.decCtx thing xs)
  | [], Γ, S, es, hf, hΓ, hn, hb => by
    simp only [BuiltPairs] at hb
    subst hb
    exact .nil
  | (k, v) :: xs, Γ, S, es, hf, hΓ, hn, hb => by
    simp only [BuiltPairs] at hb
    obtain ⟨k', v', es', h1, h2, h3, rfl⟩ := hb
    simp only [Raw.Foldablep] at hf
    exact .cons ⟨built_sim H k hf.1 hΓ hn h1, built_sim H v hf.2.1 hΓ hn h2⟩
      (builtp_sim H xs hf.2.2 hΓ hn h3)
end

/-! ## A condition on the text of the rule -/

/-- Specification: not a collection literal (nor a conditional that could become one). -/
def Raw.notCollection : Raw → Bool
  | .array _ | .set _ | .mapping _ | .tern .. => false
  | _ => true

mutual
/-- Specification: a condition on the tree alone under which folding cannot be observed.  `g`: the rule
may read `$re_groups`.
* if so, one operand of every regex operator contains a symbol or a comprehension;
* `to_set` is not taken of a constant;
* no safe item access `&[...]`;
* the condition of a conditional is not a constant collection. -/
def Raw.Regular (g : Bool) : Raw → Bool
  | .lit v => v.isToken
  | .floatLit _ | .datetimeLit _ | .timedeltaLit _ => true
  | .array xs | .set xs => Raw.regulars g xs
  | .mapping kvs => Raw.regularp g kvs
  | .bin op l r => l.Regular g && r.Regular g && (!(g && op.isFuzzy) || l.live || r.live)
  | .comp result _ iterable cond => iterable.Regular g && cond.Regular g && result.Regular g
  | .contains c m => c.Regular g && m.Regular g
  | .getAttr o name _ => o.Regular g && (name != "to_set" || o.live)
  | .getItem c i safe => c.Regular g && i.Regular g && !safe
  | .getSlice c a b _ => c.Regular g && a.Regular g && b.Regular g
  | .sym name builtin => !(builtin && name == "re_groups") || g
  | .call f args => f.Regular g && Raw.regulars g args
  | .tern c t f => c.Regular g && t.Regular g && f.Regular g && (c.live || c.notCollection)
  | .not e | .neg e => e.Regular g
/-- all of them -/
def Raw.regulars (g : Bool) : List Raw → Bool
  | [] => true
  | x :: xs => x.Regular g && Raw.regulars g xs
/-- all keys and values -/
def Raw.regularp (g : Bool) : List (Raw × Raw) → Bool
  | [] => true
  | (k, v) :: xs => k.Regular g && v.Regular g && Raw.regularp g xs
end

theorem folds_pure {env : Env} {dc : DecCtx} {thing : Value} {Γ : List Assignment} {node e : Expr}
    (h : Folds env dc Γ node e)
    (hn : Gives (Value.Canonical env.utcoffset) (eval env dc .none node)) :
    ∃ v, eval env dc thing e = pure v := by
  obtain ⟨v, ⟨s, s', -, hv⟩, hl⟩ := h
  simp only [litOf, except_bind_ok, Except.ok.injEq] at hl
  obtain ⟨t, _, rfl⟩ := hl
  exact ⟨v, (ofValue_const' (hn _ _ _ hv)).1⟩

theorem getItem_gives {env : Env} {dc : DecCtx} {thing : Value} {c i : Expr} {safe : Bool}
    (h : Gives (Value.Canonical env.utcoffset) (eval env dc thing c)) :
    Gives (Value.Canonical env.utcoffset) (eval env dc thing (.getItem c i safe)) := by
  intro s v s' hv
  simp only [eval, M.bind_eq_ok] at hv
  obtain ⟨cv, s1, hc, hv⟩ := hv
  have hcc := h _ _ _ hc
  split at hv
  · split at hv
    · rw [M.pure_eq_ok] at hv; rw [← hv.1]; trivial
    · simp at hv
  · simp only [M.bind_eq_ok, M.lift_eq_ok] at hv
    obtain ⟨iv, s2, hi, r, s3, ⟨hg, rfl⟩, hv⟩ := hv
    split at hv
    · rw [M.pure_eq_ok] at hv; rw [← hv.1]
      exact itemOf_canonical hcc (opGetItem_itemOf hg)
    · split at hv
      · rw [M.pure_eq_ok] at hv; rw [← hv.1]; trivial
      · simp at hv

theorem getSlice_gives {env : Env} {dc : DecCtx} {thing : Value} {c a b : Expr} {safe : Bool}
    (h : Gives (Value.Canonical env.utcoffset) (eval env dc thing c)) :
    Gives (Value.Canonical env.utcoffset) (eval env dc thing (.getSlice c a b safe)) := by
  intro s v s' hv
  simp only [eval, M.bind_eq_ok] at hv
  obtain ⟨cv, s1, hc, hv⟩ := hv
  have hcc := h _ _ _ hc
  split at hv
  · split at hv
    · rw [M.pure_eq_ok] at hv; rw [← hv.1]; trivial
    · simp at hv
  · exact slice_gives hcc _ _ _ hv

theorem callNode_gives {env : Env} {dc : DecCtx} {thing : Value} {f : Expr} {args : List Expr}
    (h : Gives (Value.Canonical env.utcoffset) (eval env dc thing f)) :
    Gives (Value.Canonical env.utcoffset) (eval env dc thing (.call f args)) := by
  intro s v s' hv
  simp only [eval, M.bind_eq_ok] at hv
  obtain ⟨fv, s1, hc, hv⟩ := hv
  have hcc := h _ _ _ hc
  split at hv
  · rename_i hcall
    simp only [M.bind_eq_ok] at hv
    obtain ⟨vs, s2, _, hv⟩ := hv
    exact call_gives hcc hcall _ _ _ hv
  · simp at hv

/-- A literal made by folding or written in the rule evaluates without an exception, unless it is a
collection literal. -/
theorem cond_pure {env : Env} (H : env.ConstOk) {g st : Prop} (raw : Raw) {Γ : List Assignment}
    {e : Expr} (hf : raw.Foldable env g st Γ) (hΓ : ∀ a ∈ Γ, a.value = .undef)
    (hn : raw.notCollection = true) (hb : Built env env.decCtx Γ raw e) (hr : e.reduced = true) :
    ∃ v, eval env env.decCtx .none e = pure v := by
  have hlit : ∀ v t, ∃ w, eval env env.decCtx .none (.lit v t) = pure w :=
    fun v t => ⟨v, by simp only [eval]⟩
  cases raw with
  | lit v | floatLit x | datetimeLit x | timedeltaLit x =>
    simp only [Built] at hb
    obtain ⟨_, -, rfl⟩ := hb
    exact hlit _ _
  | array | set | mapping | tern => simp [Raw.notCollection] at hn
  | comp =>
    simp only [Built] at hb
    obtain ⟨_, _, _, _, -, -, -, -, rfl⟩ := hb
    simp [Expr.reduced] at hr
  | sym =>
    simp only [Built] at hb
    obtain ⟨_, -, rfl⟩ := hb
    simp [Expr.reduced] at hr
  | bin op l r =>
    simp only [Built] at hb
    obtain ⟨l', r', h1, h2, -, h3⟩ := hb
    simp only [Raw.Foldable] at hf
    split at h3
    · rename_i hred
      simp only [Bool.and_eq_true] at hred
      refine folds_pure h3 ?_
      simp only [eval]
      exact evalBin_canonical
        ((built_const H l hf.1 hΓ h1 hred.1 _ _).mono fun _ h => h.1)
        ((built_const H r hf.2.1 hΓ h2 hred.2 _ _).mono fun _ h => h.1)
    · rw [h3] at hr; simp [Expr.reduced] at hr
  | contains c m =>
    simp only [Built] at hb
    obtain ⟨c', m', h1, h2, -, h3⟩ := hb
    split at h3
    · obtain ⟨v, -, rfl⟩ := h3
      exact hlit _ _
    · rw [h3] at hr; simp [Expr.reduced] at hr
  | getAttr o name safe =>
    simp only [Built] at hb
    obtain ⟨o', h1, -, h3⟩ := hb
    simp only [Raw.Foldable] at hf
    split at h3
    · rename_i hred
      obtain ⟨e', ⟨v, hv, hl⟩, rfl⟩ := h3
      have hc := attrFold_const H hΓ ((built_const H o hf.1 hΓ h1 hred _ _).mono fun w hw =>
        ⟨hw.1, fun hn => by
          by_contra hbb
          exact hf.2 hn o' h1 hred (hw.2 (by simpa using hbb))⟩) hred hv hl
      simp only [litOf, except_bind_ok, Except.ok.injEq] at hl
      obtain ⟨t, _, rfl⟩ := hl
      exact ⟨v, (ofValue_const hc).1⟩
    · rw [h3] at hr; simp [Expr.reduced] at hr
  | getItem c i safe =>
    simp only [Built] at hb
    obtain ⟨c', i', h1, h2, -, h3⟩ := hb
    simp only [Raw.Foldable] at hf
    split at h3
    · rw [h3]; exact hlit _ _
    · split at h3
      · rename_i hred
        simp only [Bool.and_eq_true] at hred
        exact folds_pure h3 (getItem_gives
          ((built_const H c hf.1 hΓ h1 hred.1 _ _).mono fun _ h => h.1))
      · rw [h3] at hr; simp [Expr.reduced] at hr
  | getSlice c a b safe =>
    simp only [Built] at hb
    obtain ⟨c', a', b', h1, h2, h3, -, h4⟩ := hb
    simp only [Raw.Foldable] at hf
    split at h4
    · rename_i hred
      simp only [Bool.and_eq_true] at hred
      exact folds_pure h4 (getSlice_gives
        ((built_const H c hf.1 hΓ h1 hred.1.1 _ _).mono fun _ h => h.1))
    · rw [h4] at hr; simp [Expr.reduced] at hr
  | call f args =>
    simp only [Built] at hb
    obtain ⟨f', as, h1, h2, -, h3⟩ := hb
    simp only [Raw.Foldable] at hf
    split at h3
    · rename_i hred
      simp only [Bool.and_eq_true] at hred
      exact folds_pure h3 (callNode_gives
        ((built_const H f hf.1 hΓ h1 hred.1 _ _).mono fun _ h => h.1))
    · rw [h3] at hr; simp [Expr.reduced] at hr
  | not x =>
    simp only [Built] at hb
    obtain ⟨x', h1, h3⟩ := hb
    split at h3
    · obtain ⟨v, -, rfl⟩ := h3
      exact hlit _ _
    · rw [h3] at hr; simp [Expr.reduced] at hr
  | neg x =>
    simp only [Built] at hb
    obtain ⟨x', h1, h3⟩ := hb
    split at h3
    · obtain ⟨_, v, _, -, -, -, rfl⟩ := h3
      exact hlit _ _
    · rw [h3] at hr; simp [Expr.reduced] at hr

theorem notSafe_noMiss (c i : DataType) : staticMiss c i false = false := by
  cases c <;> simp [staticMiss]

mutual
theorem regular_foldable {env : Env} (H : env.ConstOk) {g : Bool} : ∀ (raw : Raw)
    {Γ : List Assignment}, raw.Regular g = true → (∀ a ∈ Γ, a.value = .undef) →
    raw.Foldable env (g = true) False Γ
  | .lit v, Γ, h, hΓ => by
    simp only [Raw.Regular] at h
    simp only [Raw.Foldable]; exact h
  | .floatLit _, Γ, h, hΓ | .datetimeLit _, Γ, h, hΓ | .timedeltaLit _, Γ, h, hΓ => by
    simp only [Raw.Foldable]
  | .array xs, Γ, h, hΓ | .set xs, Γ, h, hΓ => by
    simp only [Raw.Regular] at h
    simp only [Raw.Foldable]; exact regulars_foldable H xs h hΓ
  | .mapping kvs, Γ, h, hΓ => by
    simp only [Raw.Regular] at h
    simp only [Raw.Foldable]; exact regularp_foldable H kvs h hΓ
  | .bin op l r, Γ, h, hΓ => by
    simp only [Raw.Regular, Bool.and_eq_true, Bool.or_eq_true, Bool.not_eq_true',
      Bool.and_eq_false_iff] at h
    simp only [Raw.Foldable]
    refine ⟨regular_foldable H l h.1.1 hΓ, regular_foldable H r h.1.2 hΓ, ?_⟩
    intro hg ho l' r' h1 h2
    rcases h.2 with ((hc | hc) | hc) | hc
    · rw [hc] at hg; cases hg
    · rw [hc] at ho; cases ho
    · rw [live_not_reduced l hc h1]; rfl
    · rw [live_not_reduced r hc h2, Bool.and_false]
  | .comp result var iterable cond, Γ, h, hΓ => by
    simp only [Raw.Regular, Bool.and_eq_true] at h
    simp only [Raw.Foldable]
    refine ⟨regular_foldable H iterable h.1.1 hΓ, fun it t _ _ => ?_⟩
    have hΓ' : ∀ a ∈ Γ ++ [(⟨var, .undef, t⟩ : Assignment)], a.value = .undef := by
      intro a ha
      rcases List.mem_append.1 ha with ha | ha
      · exact hΓ a ha
      · rw [List.mem_singleton] at ha; rw [ha]
    exact ⟨regular_foldable H cond h.1.2 hΓ', regular_foldable H result h.2 hΓ'⟩
  | .contains c m, Γ, h, hΓ => by
    simp only [Raw.Regular, Bool.and_eq_true] at h
    simp only [Raw.Foldable]
    exact ⟨regular_foldable H c h.1 hΓ, regular_foldable H m h.2 hΓ⟩
  | .getAttr o name safe, Γ, h, hΓ => by
    simp only [Raw.Regular, Bool.and_eq_true, Bool.or_eq_true, bne_iff_ne, ne_eq] at h
    simp only [Raw.Foldable]
    refine ⟨regular_foldable H o h.1 hΓ, ?_⟩
    intro hn o' h1 hr
    rcases h.2 with hc | hc
    · exact (hc hn).elim
    · rw [live_not_reduced o hc h1] at hr; cases hr
  | .getItem c i safe, Γ, h, hΓ => by
    simp only [Raw.Regular, Bool.and_eq_true, Bool.not_eq_true'] at h
    simp only [Raw.Foldable]
    refine ⟨regular_foldable H c h.1.1 hΓ, regular_foldable H i h.1.2 hΓ, ?_⟩
    intro c' i' _ _
    rw [h.2]; exact notSafe_noMiss _ _
  | .getSlice c a b safe, Γ, h, hΓ => by
    simp only [Raw.Regular, Bool.and_eq_true] at h
    simp only [Raw.Foldable]
    exact ⟨regular_foldable H c h.1.1 hΓ, regular_foldable H a h.1.2 hΓ, regular_foldable H b h.2 hΓ⟩
  | .sym name b, Γ, h, hΓ => by
    simp only [Raw.Regular, Bool.or_eq_true, Bool.not_eq_true', Bool.and_eq_false_iff,
      beq_eq_false_iff_ne] at h
    simp only [Raw.Foldable]
    refine ⟨?_, fun hc => hc.elim⟩
    intro hb hn
    rcases h with (hc | hc) | hc
    · rw [hc] at hb; cases hb
    · exact (hc hn).elim
    · exact hc
  | .call f args, Γ, h, hΓ => by
    simp only [Raw.Regular, Bool.and_eq_true] at h
    simp only [Raw.Foldable]
    exact ⟨regular_foldable H f h.1 hΓ, regulars_foldable H args h.2 hΓ, id⟩
  | .tern c t f, Γ, h, hΓ => by
    simp only [Raw.Regular, Bool.and_eq_true, Bool.or_eq_true] at h
    simp only [Raw.Foldable]
    have hc := regular_foldable H c h.1.1.1 hΓ
    refine ⟨hc, regular_foldable H t h.1.1.2 hΓ, regular_foldable H f h.1.2 hΓ, ?_⟩
    intro c' h1 hr
    rcases h.2 with hl | hl
    · rw [live_not_reduced c hl h1] at hr; cases hr
    · exact cond_pure H c hc hΓ hl h1 hr
  | .not x, Γ, h, hΓ | .neg x, Γ, h, hΓ => by
    simp only [Raw.Regular] at h
    simp only [Raw.Foldable]
    exact regular_foldable H x h hΓ
theorem regulars_foldable {env : Env} (H : env.ConstOk) {g : Bool} : ∀ (xs : List Raw)
    {Γ : List Assignment}, Raw.regulars g xs = true → (∀ a ∈ Γ, a.value = .undef) →
    Raw.Foldables env (g = true) False Γ xs
  | [], Γ, h, hΓ => by simp only [Raw.Foldables]
  | x :: xs, Γ, h, hΓ => by
    simp only [Raw.regulars, Bool.and_eq_true] at h
    simp only [Raw.Foldables]
    exact ⟨regular_foldable H x h.1 hΓ, regulars_foldable H xs h.2 hΓ⟩
theorem regularp_foldable {env : Env} (H : env.ConstOk) {g : Bool} : ∀ (xs : List (Raw × Raw))
    {Γ : List Assignment}, Raw.regularp g xs = true → (∀ a ∈ Γ, a.value = .undef) →
    Raw.Foldablep env (g = true) False Γ xs
  | [], Γ, h, hΓ => by simp only [Raw.Foldablep]
  | (k, v) :: xs, Γ, h, hΓ => by
    simp only [Raw.regularp, Bool.and_eq_true] at h
    simp only [Raw.Foldablep]
    exact ⟨regular_foldable H k h.1.1 hΓ, regular_foldable H v h.1.2 hΓ, regularp_foldable H xs h.2 hΓ⟩
end

/-- the default resolver of items gives members of constants -/
theorem constOk_resolveItem {env : Env} (hr : env.resolver = resolveItem env.utcoffset)
    (hd : env.defaultValue = none ∨ env.defaultValue = some .none) : env.ConstOk where
  resolver := by
    intro o name v ho h
    rw [hr] at h
    unfold resolveItem at h
    split at h
    · split at h
      · rename_i k kvs _ _ hl
        cases h
        obtain ⟨p, hp, rfl⟩ := mapLookup_mem hl
        cases k <;> simp only [Value.Canonical] at ho
        exact canonical_newValue (pairsCanonical_iff.1 ho.1 _ hp).2
      · split at h <;> cases h
    · cases h
  default := by
    intro d h
    rcases hd with hd | hd
    · rw [hd] at h; cases h
    · rw [hd] at h; cases h; trivial

/-! ## C01 -/

/-- **C01** (partial): if the rule evaluates to `v`, interpreting the tree directly gives `v` as well,
provided that folding a constant cannot be observed (`Raw.Foldable`, `Env.ConstOk`) and that the
arithmetic on constants gives the same in the constructing thread's decimal context as in the
context's.  None of these can be dropped: `folding_observable`, `thread_context_false`. -/
theorem folding_preserves_partial (env : Env) (H : env.ConstOk) (g : Prop) (raw : Raw)
    (hf : raw.Foldable env g False []) (dct : DecCtx) (hd : raw.SameArith env dct env.decCtx [])
    {s s' : St} (hs : s.scopes = []) {e : Expr} (hc : construct env dct raw s = (.ok e, s'))
    {thing v : Value} {t t' : St} (he : ruleEval env e thing t = (.ok v, t')) :
    ∃ t'', interp env env.decCtx thing raw t.reset = (.ok v, t'') := by
  rw [(thread_context_irrelevant_partial env dct env.decCtx raw s (by rw [hs]; exact hd)).1] at hc
  have hb := build_built raw hc
  rw [hs] at hb
  have hsim := built_sim (S := []) (thing := thing) H raw hf (by simp) rfl hb
  obtain ⟨s2, h2, -⟩ := (hsim t.reset t.reset rfl rfl fun _ => rfl).1 v t' he
  exact ⟨s2, h2⟩

/-- … in particular for a rule that meets the conditions on its text, with the default resolver and
the decimal context of the `Context`. -/
theorem folding_preserves_regular_partial (env : Env)
    (hr : env.resolver = resolveItem env.utcoffset)
    (hdef : env.defaultValue = none ∨ env.defaultValue = some .none) (g : Bool) (raw : Raw)
    (hf : raw.Regular g = true) {s s' : St} (hs : s.scopes = []) {e : Expr}
    (hc : construct env env.decCtx raw s = (.ok e, s')) {thing v : Value} {t t' : St}
    (he : ruleEval env e thing t = (.ok v, t')) :
    ∃ t'', interp env env.decCtx thing raw t.reset = (.ok v, t'') := by
  have H := constOk_resolveItem hr hdef
  have hb := build_built raw hc
  rw [hs] at hb
  have hsim := built_sim (S := []) (thing := thing) H raw
    (regular_foldable H raw hf (by simp)) (by simp) rfl hb
  obtain ⟨s2, h2, -⟩ := (hsim t.reset t.reset rfl rfl fun _ => rfl).1 v t' he
  exact ⟨s2, h2⟩

/-- interpret the tree on a thing, in fresh thread storage -/
def interpRaw (env : Env) (raw : Raw) (thing : Value) : Except Err Value :=
  (interp env env.decCtx thing raw St.init).1

/-- C01, negative: rules for which folding changes the value. -/
theorem folding_observable :
    -- `("a" =~ "a") ? $re_groups : null`: the match happens at construction, its groups are lost
    runRaw sampleEnv (.tern (.bin (.fuzzy false false) (.lit (.str "a")) (.lit (.str "a")))
      (.sym "re_groups" true) (.lit .none)) .none = .ok .none ∧
    interpRaw sampleEnv (.tern (.bin (.fuzzy false false) (.lit (.str "a")) (.lit (.str "a")))
      (.sym "re_groups" true) (.lit .none)) .none = .ok (.tuple [.str "a"]) ∧
    -- `b"a".to_set`: a set of Decimals instead of a set of ints
    runRaw sampleEnv (.getAttr (.lit (.bytes [97])) "to_set" false) .none =
      .ok (.set [.dec (.fin false 97 0)]) ∧
    interpRaw sampleEnv (.getAttr (.lit (.bytes [97])) "to_set" false) .none = .ok (.set [.int 97]) ∧
    -- `{null: 1, "a": 2}&[null]`
    runRaw sampleEnv (.getItem (.mapping [(.lit .none, .floatLit "1"), (.lit (.str "a"), .floatLit "2")])
      (.lit .none) true) .none = .ok .none ∧
    interpRaw sampleEnv (.getItem (.mapping [(.lit .none, .floatLit "1"), (.lit (.str "a"), .floatLit "2")])
      (.lit .none) true) .none = .ok (.dec (.fin false 1 0)) ∧
    -- `({{}} ? 1 : 2)`: a set of an empty mapping cannot be evaluated
    runRaw sampleEnv (.tern (.set [.mapping []]) (.floatLit "1") (.floatLit "2")) .none =
      .ok (.dec (.fin false 1 0)) ∧
    interpRaw sampleEnv (.tern (.set [.mapping []]) (.floatLit "1") (.floatLit "2")) .none =
      .error .typeError := by
  refine ⟨?_, ?_, ?_, ?_, ?_, ?_, ?_, ?_⟩ <;> decide +kernel

/-- `[y * (1 + 2) for y in xs if y > "a".length][0] > 0 and ("b" =~ name) ? $re_groups : {1, 2 + 3}`
meets the hypotheses, and evaluates. -/
def foldSample : Raw :=
  .tern (.bin .and
      (.bin (.cmp .gt) (.getItem (.comp (.bin (.arith .mul) (.sym "y" false)
          (.bin .add (.floatLit "1") (.floatLit "2"))) "y" (.sym "xs" false)
        (.bin (.cmp .gt) (.sym "y" false) (.getAttr (.lit (.str "a")) "length" false)))
        (.floatLit "0") false) (.floatLit "0"))
      (.bin (.fuzzy false false) (.lit (.str "b")) (.sym "name" false)))
    (.sym "re_groups" true) (.set [.floatLit "1", .bin .add (.floatLit "2") (.floatLit "3")])

example : foldSample.Regular true = true ∧
    runRaw sampleEnv foldSample (dictOf [("xs", .seq .list [.int 1, .int 5]), ("name", .str "b")]) =
      .ok (.tuple [.str "b"]) ∧
    interpRaw sampleEnv foldSample (dictOf [("xs", .seq .list [.int 1, .int 5]), ("name", .str "b")]) =
      .ok (.tuple [.str "b"]) ∧
    runRaw sampleEnv foldSample (dictOf [("xs", .seq .list [.int 1, .int 5]), ("name", .str "c")]) =
      .ok (.set [.dec (.fin false 1 0), .dec (.fin false 5 0)]) := by
  refine ⟨?_, ?_, ?_, ?_⟩ <;> decide +kernel

/-! ## C46 -/

theorem eq_base : RelBase (fun {α : Type} (m m' : M α) => m = m') where
  lift _ := rfl
  bind := by
    intro α β m m' f f' hm hf
    rw [hm, funext hf]
  setGroups _ _ := rfl
  logCall _ _ _ _ := rfl
  rethrow := by
    intro α e m m' hm
    rw [hm]

mutual
/-- direct interpretation does not look at declared types -/
theorem interp_untyped (env : Env) (τ : String → Except Err DataType) (dc : DecCtx) (thing : Value) :
    ∀ raw : Raw, interp { env with typeResolver := τ } dc thing raw = interp env dc thing raw
  | .lit _ | .floatLit _ | .timedeltaLit _ => by simp only [interp]
  | .datetimeLit _ | .sym .. => by simp only [interp]; rfl
  | .array xs | .set xs => by simp only [interp, interps_untyped env τ dc thing xs]
  | .mapping kvs => by simp only [interp, interpp_untyped env τ dc thing kvs]
  | .bin op l r => by
    simp only [interp, interp_untyped env τ dc thing l, interp_untyped env τ dc thing r]; rfl
  | .comp result var iterable cond => by
    simp only [interp, interp_untyped env τ dc thing result, interp_untyped env τ dc thing iterable,
      interp_untyped env τ dc thing cond]
  | .contains c m => by
    simp only [interp, interp_untyped env τ dc thing c, interp_untyped env τ dc thing m]
  | .getAttr o _ _ => by simp only [interp, interp_untyped env τ dc thing o]; rfl
  | .getItem c i _ => by
    simp only [interp, interp_untyped env τ dc thing c, interp_untyped env τ dc thing i]; rfl
  | .getSlice c a b _ => by
    simp only [interp, interp_untyped env τ dc thing c, interp_untyped env τ dc thing a,
      interp_untyped env τ dc thing b]; rfl
  | .call f args => by
    simp only [interp, interp_untyped env τ dc thing f, interps_untyped env τ dc thing args]
    have : ∀ fv vs, finishCall { env with typeResolver := τ } dc .undefined fv vs =
        finishCall env dc .undefined fv vs := fun fv vs =>
      (finishCall_rel eq_base env env.resolver τ env.defaultValue dc .undefined fv vs).symm
    simp only [this]
  | .tern c t f => by
    simp only [interp, interp_untyped env τ dc thing c, interp_untyped env τ dc thing t,
      interp_untyped env τ dc thing f]
  | .not e | .neg e => by simp only [interp, interp_untyped env τ dc thing e]
theorem interps_untyped (env : Env) (τ : String → Except Err DataType) (dc : DecCtx) (thing : Value) :
    ∀ xs : List Raw, interps { env with typeResolver := τ } dc thing xs = interps env dc thing xs
  | [] => rfl
  | x :: xs => by
    simp only [interps, interp_untyped env τ dc thing x, interps_untyped env τ dc thing xs]
theorem interpp_untyped (env : Env) (τ : String → Except Err DataType) (dc : DecCtx) (thing : Value) :
    ∀ xs : List (Raw × Raw),
      interpPairs { env with typeResolver := τ } dc thing xs = interpPairs env dc thing xs
  | [] => rfl
  | (k, v) :: xs => by
    simp only [interpPairs, interp_untyped env τ dc thing k, interp_untyped env τ dc thing v,
      interpp_untyped env τ dc thing xs]
end

/-- The same context with all symbols UNDEFINED. -/
def Env.untyped (env : Env) : Env := { env with typeResolver := noTypes }

/-- **C46** (partial): if a rule evaluates under two typings of the same context, it evaluates to the
same value, if folding cannot be observed (`Raw.Regular`). -/
theorem types_irrelevant_partial (env : Env) (hr : env.resolver = resolveItem env.utcoffset)
    (hdef : env.defaultValue = none ∨ env.defaultValue = some .none) (g : Bool) (raw : Raw)
    (hf : raw.Regular g = true) (τ : String → Except Err DataType)
    {s s' r r' : St} (hs : s.scopes = []) (hr0 : r.scopes = []) {e e' : Expr}
    (hc : construct env env.decCtx raw s = (.ok e, s'))
    (hc' : construct { env with typeResolver := τ } env.decCtx raw r = (.ok e', r'))
    {thing v w : Value} {t t' u' : St}
    (he : ruleEval env e thing t = (.ok v, t'))
    (he' : ruleEval { env with typeResolver := τ } e' thing t = (.ok w, u')) : v = w := by
  obtain ⟨_, h1⟩ := folding_preserves_regular_partial env hr hdef g raw hf hs hc he
  obtain ⟨_, h2⟩ := folding_preserves_regular_partial { env with typeResolver := τ } hr hdef g raw hf
    hr0 hc' he'
  rw [show ({ env with typeResolver := τ } : Env).decCtx = env.decCtx from rfl,
    interp_untyped env τ, h1] at h2
  simp only [Prod.mk.injEq, Except.ok.injEq] at h2
  exact h2.1

/-- **C46** (partial): if a rule evaluates to `v` under a typed context, and it can be constructed with
all symbols UNDEFINED, then it evaluates to `v` there, if folding cannot be observed, there are no calls
and no symbol gets a type from a comprehension over a typed iterable (`Raw.Foldable` with `True`).
That it can be constructed cannot be dropped: `untyping_can_invalidate`. -/
theorem untyping_keeps_value_partial (env : Env) (H : env.ConstOk) (g : Prop) (raw : Raw)
    (hf : raw.Foldable env g False []) (hf' : raw.Foldable env.untyped g True [])
    {s s' r r' : St} (hs : s.scopes = []) (hr0 : r.scopes = []) {e e' : Expr}
    (hc : construct env env.decCtx raw s = (.ok e, s'))
    (hc' : construct env.untyped env.decCtx raw r = (.ok e', r'))
    {thing v : Value} {t t' : St} (he : ruleEval env e thing t = (.ok v, t')) :
    ∃ u', ruleEval env.untyped e' thing t = (.ok v, u') := by
  have hb := build_built raw hc
  rw [hs] at hb
  have hb' := build_built raw hc'
  rw [hr0] at hb'
  have sim := built_sim (S := []) (thing := thing) H raw hf (by simp) rfl hb
  have H' : env.untyped.ConstOk := ⟨H.resolver, H.default⟩
  have sim' := built_sim (S := []) (thing := thing) H' raw hf' (by simp) rfl hb'
  obtain ⟨s2, h2, -⟩ := (sim t.reset t.reset rfl rfl fun _ => rfl).1 v t' he
  have h2' : interp env.untyped env.untyped.decCtx thing raw t.reset = (.ok v, s2) := by
    rw [show env.untyped.decCtx = env.decCtx from rfl]
    unfold Env.untyped
    rw [interp_untyped env]; exact h2
  obtain ⟨b, s3, h3⟩ := (sim' t.reset t.reset rfl rfl fun _ => rfl).2 trivial v s2 h2'
  obtain ⟨s4, h4, -⟩ := (sim' t.reset t.reset rfl rfl fun _ => rfl).1 b s3 h3
  rw [h2'] at h4
  simp only [Prod.mk.injEq, Except.ok.injEq] at h4
  rw [h4.1]
  exact ⟨s3, h3⟩

/-- C46, negative: `[1] < [x]` is valid when `x` is FLOAT, and rejected when it is not typed. -/
theorem untyping_can_invalidate :
    runRaw (typedEnv [("x", .float)])
      (.bin (.cmp .lt) (.array [.floatLit "1"]) (.array [.sym "x" false])) (dictOf [("x", .int 2)]) =
      .ok (.bool true) ∧
    runRaw (typedEnv [("x", .float)]).untyped
      (.bin (.cmp .lt) (.array [.floatLit "1"]) (.array [.sym "x" false])) (dictOf [("x", .int 2)]) =
      .error .mismatch := by
  constructor <;> decide +kernel

/-- `x > 1 ? name.length : x + 2` evaluates to the same with and without types -/
def untypedSample : Raw :=
  .tern (.bin (.cmp .gt) (.sym "x" false) (.floatLit "1")) (.getAttr (.sym "name" false) "length" false)
    (.bin .add (.sym "x" false) (.floatLit "2"))

example : let env := typedEnv [("x", .float), ("name", .string)]
    untypedSample.Regular false = true ∧
    runRaw env untypedSample (dictOf [("x", .int 2), ("name", .str "abc")]) = .ok (.dec (.fin false 3 0)) ∧
    runRaw env.untyped untypedSample (dictOf [("x", .int 2), ("name", .str "abc")]) =
      .ok (.dec (.fin false 3 0)) := by
  refine ⟨?_, ?_, ?_⟩ <;> decide +kernel

example : untypedSample.Foldable (typedEnv [("x", .float), ("name", .string)]).untyped False True [] := by
  simp only [untypedSample, Raw.Foldable, BinOp.isFuzzy, Bool.false_eq_true, false_implies, symType,
    if_false, scopeLookup, List.find?_nil, Env.untyped, noTypes, implies_true, and_true, true_and,
    String.reduceEq]
  intro c' h hr
  rw [live_not_reduced _ (by rfl) h] at hr
  cases hr

end RE
