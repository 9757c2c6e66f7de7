import Verif.Model.Reenter
import Verif.Props.RuleComp

/-!
# C72: resolvers and functions that evaluate rules of the same context
-/

namespace RE

set_option linter.unusedSectionVars false
set_option linter.unusedSimpArgs false

/-! ## Specification -/

/-- **Specification.** What a resolver or a function may do to the thread's storage of the context `env`: construct
rules and evaluate rules, any number of them, chosen in any way; the resolvers and functions called by these may do so
as well. -/
inductive Effect (env : Env) : (St → St) → Prop
  | nothing : Effect env (fun s => s)
  | construct {f : St → St} (dct : DecCtx) (raw : Raw) (h : Effect env f) :
    Effect env (fun s => (construct env dct raw (f s)).2)
  | evaluate {f : St → St} {N : Nested} (e : Expr) (thing : Value) (h : Effect env f)
    (hr : ∀ v n, Effect env (N.resolve v n)) (hc : ∀ g as, Effect env (N.call g as)) :
    Effect env (fun s => (ruleEvalN N env e thing (f s)).2)
  | choose {f : St → St → St} (h : ∀ s, Effect env (f s)) : Effect env (fun s => f s s)

/-- **Specification.** The resolver and the functions construct and evaluate rules of the context, or do nothing to it. -/
structure Nested.Ok (N : Nested) (env : Env) : Prop where
  resolve : ∀ thing name, Effect env (N.resolve thing name)
  call : ∀ f args, Effect env (N.call f args)

mutual
/-- **Specification.** There is no comprehension. -/
def Raw.NoComp : Raw → Prop
  | .lit _ | .floatLit _ | .datetimeLit _ | .timedeltaLit _ | .sym .. => True
  | .array xs | .set xs => Raw.NoCompList xs
  | .mapping kvs => Raw.NoCompPairs kvs
  | .bin _ l r => l.NoComp ∧ r.NoComp
  | .comp .. => False
  | .contains c m => c.NoComp ∧ m.NoComp
  | .getAttr o _ _ => o.NoComp
  | .getItem c i _ => c.NoComp ∧ i.NoComp
  | .getSlice c a b _ => c.NoComp ∧ a.NoComp ∧ b.NoComp
  | .call f args => f.NoComp ∧ Raw.NoCompList args
  | .tern c t f => c.NoComp ∧ t.NoComp ∧ f.NoComp
  | .not e | .neg e => e.NoComp
/-- **Specification.** None of them contains a comprehension. -/
def Raw.NoCompList : List Raw → Prop
  | [] => True
  | x :: xs => x.NoComp ∧ Raw.NoCompList xs
/-- **Specification.** None of them contains a comprehension. -/
def Raw.NoCompPairs : List (Raw × Raw) → Prop
  | [] => True
  | (k, v) :: xs => k.NoComp ∧ v.NoComp ∧ Raw.NoCompPairs xs
end

/-- **Specification.** No comprehension is written in the text. -/
def NoComp (codec : LitCodec) (t : List Char) : Prop := ∃ raw, Means codec t raw ∧ raw.NoComp

/-! ## No comprehension, no shadowed name -/

mutual
theorem noComp_noShadow : ∀ raw : Raw, raw.NoComp → ∀ bound, raw.NoShadow bound
  | .lit _, _, b | .floatLit _, _, b | .datetimeLit _, _, b | .timedeltaLit _, _, b | .sym .., _, b => by
    simp [Raw.NoShadow]
  | .array xs, h, b | .set xs, h, b => by
    simp only [Raw.NoComp] at h
    simp only [Raw.NoShadow]
    exact noComps_noShadow xs h b
  | .mapping kvs, h, b => by
    simp only [Raw.NoComp] at h
    simp only [Raw.NoShadow]
    exact noCompp_noShadow kvs h b
  | .comp .., h, b => by simp [Raw.NoComp] at h
  | .bin _ x y, h, b | .contains x y, h, b | .getItem x y _, h, b => by
    simp only [Raw.NoComp] at h
    simp only [Raw.NoShadow]
    exact ⟨noComp_noShadow x h.1 b, noComp_noShadow y h.2 b⟩
  | .getSlice x y z _, h, b | .tern x y z, h, b => by
    simp only [Raw.NoComp] at h
    simp only [Raw.NoShadow]
    exact ⟨noComp_noShadow x h.1 b, noComp_noShadow y h.2.1 b, noComp_noShadow z h.2.2 b⟩
  | .getAttr x _ _, h, b | .not x, h, b | .neg x, h, b => by
    simp only [Raw.NoComp] at h
    simp only [Raw.NoShadow]
    exact noComp_noShadow x h b
  | .call f args, h, b => by
    simp only [Raw.NoComp] at h
    simp only [Raw.NoShadow]
    exact ⟨noComp_noShadow f h.1 b, noComps_noShadow args h.2 b⟩
theorem noComps_noShadow : ∀ xs : List Raw, Raw.NoCompList xs → ∀ bound, Raw.NoShadowList bound xs
  | [], _, b => by simp [Raw.NoShadowList]
  | x :: xs, h, b => by
    simp only [Raw.NoCompList] at h
    simp only [Raw.NoShadowList]
    exact ⟨noComp_noShadow x h.1 b, noComps_noShadow xs h.2 b⟩
theorem noCompp_noShadow : ∀ xs : List (Raw × Raw), Raw.NoCompPairs xs → ∀ bound, Raw.NoShadowPairs bound xs
  | [], _, b => by simp [Raw.NoShadowPairs]
  | (k, v) :: xs, h, b => by
    simp only [Raw.NoCompPairs] at h
    simp only [Raw.NoShadowPairs]
    exact ⟨noComp_noShadow k h.1 b, noComp_noShadow v h.2.1 b, noCompp_noShadow xs h.2.2 b⟩
end

/-! ## Without nested evaluations -/

theorem compM_scopes {x : String} {c r : M Value} (hc : ∀ s : St, (c s).2.scopes = s.scopes)
    (hr : ∀ s : St, (r s).2.scopes = s.scopes) (xs : List Value) (s : St) :
    compN x c r xs s = compM x c r xs s := by
  have hbody : ∀ s : St, ((do
      let c ← c
      if c.truthy then do
        let v ← r
        pure (some v)
      else pure none : M (Option Value)) s).2.scopes = s.scopes := by
    refine bind_scopes hc fun a s => ?_
    rw [M.ite_app]
    split
    · exact bind_scopes hr (fun _ _ => rfl) s
    · rfl
  have hw : ∀ (y : Value) (s : St), withScopeN ⟨x, y, .undefined⟩ (do
      let c ← c
      if c.truthy then do
        let v ← r
        pure (some v)
      else pure none : M (Option Value)) s = M.withScope ⟨x, y, .undefined⟩ (do
      let c ← c
      if c.truthy then do
        let v ← r
        pure (some v)
      else pure none : M (Option Value)) s := by
    intro y s
    have := hbody { s with scopes := s.scopes ++ [⟨x, y, .undefined⟩] }
    simp only [withScopeN, M.withScope]
    generalize (do
      let c ← c
      if c.truthy then do
        let v ← r
        pure (some v)
      else pure none : M (Option Value)) { s with scopes := s.scopes ++ [⟨x, y, .undefined⟩] } = out at this
    obtain ⟨o, t⟩ := out
    simp only at this
    simp only [this]
    cases h : s.scopes ++ [(⟨x, y, .undefined⟩ : Assignment)] with
    | nil => simp at h
    | cons a as => rfl
  induction xs generalizing s with
  | nil => rfl
  | cons y ys ih =>
    simp only [compN, compM, M.bind_apply]
    rw [hw]
    rcases M.withScope ⟨x, y, .undefined⟩ _ s with ⟨o, t⟩
    cases o with
    | error e => rfl
    | ok a => simp only [ih]; rfl

theorem ctxResolveN_quiet (env : Env) : ctxResolveN .quiet env = ctxResolve env := by
  funext thing name b s
  simp only [ctxResolveN, ctxResolve, Nested.quiet]; rfl

theorem evalSymbolN_quiet (env : Env) : evalSymbolN .quiet env = evalSymbol env := by
  funext thing name rt b
  simp only [evalSymbolN, evalSymbol, ctxResolveN_quiet]; rfl

theorem evalGetAttrN_quiet (env : Env) : evalGetAttrN .quiet env = evalGetAttr env := by
  funext o name s
  simp only [evalGetAttrN, evalGetAttr, ctxResolveN_quiet]; rfl

theorem callLoggedN_quiet : callLoggedN .quiet = callLogged := by
  funext env dc f args s
  simp only [callLoggedN, callLogged, Nested.quiet]

theorem mapCallsN_quiet (env : Env) (dc : DecCtx) (f : Value) : ∀ xs, mapCallsN .quiet env dc f xs = mapCalls env dc f xs
  | [] => rfl
  | x :: xs => by simp only [mapCallsN, mapCalls, callLoggedN_quiet, mapCallsN_quiet env dc f xs]

theorem filterCallsN_quiet (env : Env) (dc : DecCtx) (f : Value) :
    ∀ xs, filterCallsN .quiet env dc f xs = filterCalls env dc f xs
  | [] => rfl
  | x :: xs => by simp only [filterCallsN, filterCalls, callLoggedN_quiet, filterCallsN_quiet env dc f xs]

theorem callFnN_quiet (env : Env) (dc : DecCtx) (f : Value) (args : List Value) :
    callFnN .quiet env dc f args = callFn env dc f args := by
  unfold callFnN callFn
  split <;> simp only [mapCallsN_quiet, filterCallsN_quiet, callLoggedN_quiet]

theorem evalCallN_quiet (env : Env) : evalCallN .quiet env = evalCall env := by
  funext dc ft rt f args
  simp only [evalCallN, evalCall, finishCallN, finishCall, callFnN_quiet]

mutual
theorem evalN_quiet (env : Env) (dc : DecCtx) (thing : Value) : ∀ e : Expr, evalN .quiet env dc thing e = eval env dc thing e
  | .lit v _ => by simp only [evalN, eval]
  | .array xs | .set xs => by simp only [evalN, eval, evalsN_quiet env dc thing xs]
  | .mapping kvs => by simp only [evalN, eval, evalPairsN_quiet env dc thing kvs]
  | .bin op l r => by simp only [evalN, eval, evalN_quiet env dc thing l, evalN_quiet env dc thing r]
  | .comp result var iterable cond => by
    have h : compN var (eval env dc thing cond) (eval env dc thing result) =
        compM var (eval env dc thing cond) (eval env dc thing result) := by
      funext xs s
      exact compM_scopes (eval_scopes env dc thing cond) (eval_scopes env dc thing result) xs s
    simp only [evalN, eval, evalN_quiet env dc thing iterable, evalN_quiet env dc thing cond,
      evalN_quiet env dc thing result, h]
  | .contains c m => by simp only [evalN, eval, evalN_quiet env dc thing c, evalN_quiet env dc thing m]
  | .getAttr o name safe => by simp only [evalN, eval, evalN_quiet env dc thing o, evalGetAttrN_quiet]
  | .getItem c i safe => by simp only [evalN, eval, evalN_quiet env dc thing c, evalN_quiet env dc thing i]; rfl
  | .getSlice c a b safe => by
    simp only [evalN, eval, evalN_quiet env dc thing c, evalN_quiet env dc thing a, evalN_quiet env dc thing b]
  | .sym name rt b => by simp only [evalN, eval, evalSymbolN_quiet]
  | .call f args => by
    simp only [evalN, eval, evalN_quiet env dc thing f, evalsN_quiet env dc thing args, evalCallN_quiet]
  | .tern c t f => by
    simp only [evalN, eval, evalN_quiet env dc thing c, evalN_quiet env dc thing t, evalN_quiet env dc thing f]
  | .not e | .neg e => by simp only [evalN, eval, evalN_quiet env dc thing e]
theorem evalsN_quiet (env : Env) (dc : DecCtx) (thing : Value) :
    ∀ es : List Expr, evalsN .quiet env dc thing es = evals env dc thing es
  | [] => by simp only [evalsN, evals]
  | e :: es => by simp only [evalsN, evals, evalN_quiet env dc thing e, evalsN_quiet env dc thing es]
theorem evalPairsN_quiet (env : Env) (dc : DecCtx) (thing : Value) :
    ∀ es : List (Expr × Expr), evalPairsN .quiet env dc thing es = evalPairs env dc thing es
  | [] => by simp only [evalPairsN, evalPairs]
  | (k, v) :: es => by
    simp only [evalPairsN, evalPairs, evalN_quiet env dc thing k, evalN_quiet env dc thing v,
      evalPairsN_quiet env dc thing es]
end

/-- **C72.** Without nested evaluations, evaluation with nested evaluations is evaluation. -/
theorem quiet_evaluation (env : Env) (e : Expr) (thing : Value) (p : Proc) :
    p.evaluateN .quiet env e thing = p.evaluate env e thing := by
  simp only [Proc.evaluateN, Proc.evaluate, ruleEvalN, ruleEval, evalN_quiet]

/-! ## What a nested evaluation leaves behind -/

/-- the variables are kept or cleared -/
structure Clears (f : St → St) : Prop where
  scopes : ∀ s : St, (f s).scopes = s.scopes ∨ (f s).scopes = []

/-- the same value or exception in any two states; the variables are kept or, on the left, cleared -/
structure SameAny {α : Type} (m m' : M α) : Prop where
  out : ∀ s s2 : St, (m s).1 = (m' s2).1
  left : ∀ s : St, (m s).2.scopes = s.scopes ∨ (m s).2.scopes = []
  right : ∀ s : St, (m' s).2.scopes = s.scopes

theorem SameAny.lift {α : Type} (x : Except Err α) : SameAny (M.lift x) (M.lift x) :=
  ⟨fun _ _ => rfl, fun _ => .inl rfl, fun _ => rfl⟩

theorem SameAny.bind {α β : Type} {m m' : M α} {f f' : α → M β} (hm : SameAny m m') (hf : ∀ a, SameAny (f a) (f' a)) :
    SameAny (m >>= f) (m' >>= f') := by
  refine ⟨fun s s2 => ?_, fun s => ?_, bind_scopes hm.right fun a => (hf a).right⟩
  · have := hm.out s s2
    rw [M.bind_apply, M.bind_apply]
    rcases h : m s with ⟨x, t⟩
    rcases h' : m' s2 with ⟨x', t'⟩
    rw [h, h'] at this
    simp only at this
    subst this
    cases x with
    | error e => rfl
    | ok a => exact (hf a).out _ _
  · have h1 := hm.left s
    rw [M.bind_apply]
    rcases h : m s with ⟨x, t⟩
    rw [h] at h1
    cases x with
    | error e => exact h1
    | ok a =>
      simp only at h1 ⊢
      rcases (hf a).left t with h2 | h2
      · rw [h2]; exact h1
      · exact .inr h2

theorem SameAny.rethrow {α : Type} {m m' : M α} (e : Err) (hm : SameAny m m') :
    SameAny (M.catchErr m fun _ => M.throw e) (M.catchErr m' fun _ => M.throw e) := by
  refine ⟨fun s s2 => ?_, fun s => ?_, catch_scopes hm.right⟩
  · have := hm.out s s2
    unfold M.catchErr
    rcases h : m s with ⟨x, t⟩
    rcases h' : m' s2 with ⟨x', t'⟩
    rw [h, h'] at this
    simp only at this
    subst this
    cases x <;> rfl
  · have := hm.left s
    unfold M.catchErr
    rcases h : m s with ⟨x, t⟩
    rw [h] at this
    cases x <;> exact this

/-- all effects of the resolver and the functions keep or clear the variables -/
structure Nested.Clearing (N : Nested) : Prop where
  resolve : ∀ v n, Clears (N.resolve v n)
  call : ∀ f as, Clears (N.call f as)

section
variable {N : Nested} (hN : N.Clearing)
include hN

theorem callLoggedN_any (env : Env) (dc : DecCtx) (f : Value) (args : List Value) :
    SameAny (callLoggedN N env dc f args) (callLogged env dc f args) :=
  ⟨fun _ _ => rfl, fun _ => (hN.call f args).scopes _, fun _ => rfl⟩

theorem mapCallsN_any (env : Env) (dc : DecCtx) (f : Value) : ∀ xs,
    SameAny (mapCallsN N env dc f xs) (mapCalls env dc f xs)
  | [] => SameAny.lift (.ok [])
  | x :: xs => (callLoggedN_any hN env dc f [x]).bind fun _ => (mapCallsN_any env dc f xs).bind fun _ =>
      SameAny.lift (.ok _)

theorem filterCallsN_any (env : Env) (dc : DecCtx) (f : Value) : ∀ xs,
    SameAny (filterCallsN N env dc f xs) (filterCalls env dc f xs)
  | [] => SameAny.lift (.ok [])
  | x :: xs => (callLoggedN_any hN env dc f [x]).bind fun _ => (filterCallsN_any env dc f xs).bind fun _ =>
      SameAny.lift (.ok _)

theorem callFnN_any (env : Env) (dc : DecCtx) (f : Value) (args : List Value) :
    SameAny (callFnN N env dc f args) (callFn env dc f args) := by
  have hlog : ∀ e : Event, SameAny (M.modify (fun s => { s with log := s.log ++ [e] }))
      (M.modify (fun s => { s with log := s.log ++ [e] })) :=
    fun e => ⟨fun _ _ => rfl, fun _ => .inl rfl, fun _ => rfl⟩
  unfold callFnN callFn
  split
  · exact (hlog _).bind fun _ => (SameAny.lift _).bind fun _ => (mapCallsN_any hN env dc _ _).bind fun _ =>
      SameAny.lift (.ok _)
  · exact (hlog _).bind fun _ => (SameAny.lift _).bind fun _ => (filterCallsN_any hN env dc _ _).bind fun _ =>
      SameAny.lift (.ok _)
  · split
    · simp_all
    · simp_all
    · exact callLoggedN_any hN env dc _ _

theorem finishCallN_any (env : Env) (dc : DecCtx) (rt : DataType) (f : Value) (args : List Value) :
    SameAny (finishCallN N env dc rt f args) (finishCall env dc rt f args) := by
  unfold finishCallN finishCall
  refine (SameAny.rethrow _ (callFnN_any hN env dc f args)).bind fun v => (SameAny.lift _).bind fun v =>
    (SameAny.lift _).bind fun t => ?_
  split
  · exact SameAny.lift (.ok _)
  · exact SameAny.lift (.error _)

theorem evalCallN_any (env : Env) (dc : DecCtx) (ft rt : DataType) (f : Value) (args : List Value) :
    SameAny (evalCallN N env dc ft rt f args) (evalCall env dc ft rt f args) := by
  unfold evalCallN evalCall
  split
  · exact finishCallN_any hN env dc rt f args
  · exact (SameAny.lift _).bind fun _ => finishCallN_any hN env dc rt f args

end


/-! ## Relations between evaluation with and without nested evaluations -/

/-- a relation respected by all steps of an evaluation; `c`: comprehensions may occur; `P`: the names that may occur -/
structure RelN (N : Nested) (env : Env) (c : Prop) (P : String → DataType → Bool → Prop)
    (R : {α : Type} → M α → M α → Prop) : Prop where
  lift : ∀ {α : Type} (x : Except Err α), R (M.lift x) (M.lift x)
  bind : ∀ {α β : Type} {m m' : M α} {f f' : α → M β}, R m m' → (∀ a, R (f a) (f' a)) → R (m >>= f) (m' >>= f')
  fuzzy : ∀ (s n : Bool) (a b : Value), R (opFuzzy env s n a b) (opFuzzy env s n a b)
  scope : c → ∀ {α : Type} (a : Assignment) {m m' : M α}, R m m' → R (withScopeN a m) (M.withScope a m')
  symbol : ∀ thing name rt b, P name rt b → R (evalSymbolN N env thing name rt b) (evalSymbol env thing name rt b)
  attr : ∀ o name, R (evalGetAttrN N env o name) (evalGetAttr env o name)
  call : ∀ dc ft rt f args, R (evalCallN N env dc ft rt f args) (evalCall env dc ft rt f args)

section
variable {N : Nested} {env : Env} {c : Prop} {P : String → DataType → Bool → Prop}
  {R : {α : Type} → M α → M α → Prop} (hR : RelN N env c P R)
include hR

theorem RelN.pure {α : Type} (a : α) : R (Pure.pure a : M α) (Pure.pure a) := hR.lift (.ok a)

theorem RelN.throw {α : Type} (e : Err) : R (M.throw e : M α) (M.throw e) := hR.lift (.error e)

theorem RelN.ite {α : Type} {p : Prop} [Decidable p] {m m' n n' : M α}
    (h : p → R m m') (h' : ¬p → R n n') : R (if p then m else n) (if p then m' else n') := by
  split
  · exact h ‹_›
  · exact h' ‹_›

theorem RelN.evalBin (dc : DecCtx) (op : BinOp) {m m' n n' : M Value} (hm : R m m') (hn : R n n') :
    R (RE.evalBin env dc op m n) (RE.evalBin env dc op m' n') := by
  cases op with
  | add => exact hR.bind hm fun a => hR.bind hn fun b => hR.lift _
  | sub => exact hR.bind hm fun a => hR.bind hn fun b => hR.lift _
  | arith op =>
    exact hR.bind hm fun a => hR.bind (hR.lift _) fun _ => hR.bind hn fun b => hR.bind (hR.lift _) fun _ => hR.lift _
  | bit op =>
    refine hR.bind hm fun a => hR.bind (hR.lift _) fun ty => ?_
    refine hR.ite (fun _ => ?_) (fun _ => ?_)
    · exact hR.bind (hR.lift _) fun _ => hR.bind hn fun b => hR.lift _
    · cases a <;> first | exact hR.throw _ | exact hR.bind hn fun b => hR.lift _
  | shift op =>
    refine hR.bind hm fun a => hR.bind (hR.lift _) fun ty => ?_
    refine hR.ite (fun _ => ?_) (fun _ => ?_)
    · exact hR.bind (hR.lift _) fun _ => hR.bind hn fun b => hR.lift _
    · cases a <;> first | exact hR.throw _ | exact hR.bind hn fun b => hR.lift _
  | and => exact hR.bind hm fun a => hR.ite (fun _ => hR.bind hn fun b => hR.pure _) (fun _ => hR.pure _)
  | or => exact hR.bind hm fun a => hR.ite (fun _ => hR.pure _) (fun _ => hR.bind hn fun b => hR.pure _)
  | eq => exact hR.bind hm fun a => hR.bind hn fun b => hR.pure _
  | ne => exact hR.bind hm fun a => hR.bind hn fun b => hR.pure _
  | cmp op => exact hR.bind hm fun a => hR.bind hn fun b => hR.bind (hR.lift _) fun _ => hR.pure _
  | fuzzy s ng =>
    refine hR.bind hm fun a => ?_
    cases a <;> first
      | exact hR.throw _
      | exact hR.bind hn fun b => hR.fuzzy s ng _ b

theorem RelN.seqM {ms ms' : List (M Value)} (h : List.Forall₂ (fun m m' => R m m') ms ms') :
    R (RE.seqM ms) (RE.seqM ms') := by
  induction h with
  | nil => exact hR.pure _
  | cons h _ ih => exact hR.bind h fun v => hR.bind ih fun vs => hR.pure _

theorem RelN.setM (off : TzDb) {ms ms' : List (M Value)} (h : List.Forall₂ (fun m m' => R m m') ms ms')
    (acc : List Value) : R (RE.setM off acc ms) (RE.setM off acc ms') := by
  induction h generalizing acc with
  | nil => exact hR.pure _
  | cons h _ ih => exact hR.bind h fun v => hR.ite (fun _ => ih _) (fun _ => hR.throw _)

theorem RelN.mapValsM {ps ps' : List (Value × M Value)} (h : RelVals R ps ps') :
    R (RE.mapValsM ps) (RE.mapValsM ps') := by
  induction h with
  | nil => exact hR.pure _
  | @cons p p' ps ps' hp h ih =>
    obtain ⟨k1, v1⟩ := p
    obtain ⟨k2, v2⟩ := p'
    obtain ⟨he, hv2⟩ := hp
    simp only at he hv2
    subst he
    exact hR.bind hv2 fun v => hR.bind ih fun vs => hR.pure _

theorem RelN.mapM (off : TzDb) {ps ps' : List (M Value × M Value)} (h : RelPairs R ps ps')
    {acc acc' : List (Value × M Value)} (ha : RelVals R acc acc') :
    R (RE.mapKeysM off acc ps >>= RE.mapValsM) (RE.mapKeysM off acc' ps' >>= RE.mapValsM) := by
  have ethrow : ∀ {α β : Type} (e : Err) (f : α → M β), (M.throw e >>= f) = M.throw e := by intros; rfl
  induction h generalizing acc acc' with
  | nil =>
    have e : ∀ a : List (Value × M Value), (RE.mapKeysM off a [] >>= RE.mapValsM) = RE.mapValsM a := by
      intro a; simp only [mapKeysM, pure_bind]
    rw [e, e]
    exact hR.mapValsM ha
  | @cons p p' ps ps' hp h ih =>
    obtain ⟨k, v⟩ := p
    obtain ⟨k', v'⟩ := p'
    obtain ⟨hk, hv⟩ := hp
    simp only at hk hv
    simp only [mapKeysM, bind_assoc]
    refine hR.bind hk fun key => hR.bind (hR.lift _) fun kt => ?_
    by_cases h1 : (kt.isCompound && !kt.isArray) = true
    · simp only [h1, if_true]
      rw [ethrow]
      exact hR.throw _
    · simp only [h1]
      by_cases h2 : key.hashable = true
      · simp only [h2, if_true]
        exact ih (mapInsert_rel off ha key hv)
      · simp only [h2]
        simp only [Bool.false_eq_true, if_false]
        rw [ethrow]
        exact hR.throw _

theorem RelN.evalSlice (v : Value) {a a' b b' : M Value} (ha : R a a') (hb : R b b') :
    R (RE.evalSlice env v a b) (RE.evalSlice env v a' b') :=
  hR.bind ha fun _ => hR.bind (hR.lift _) fun _ => hR.bind hb fun _ => hR.bind (hR.lift _) fun _ => hR.bind (hR.lift _) fun _ => hR.pure _

theorem RelN.compM (hc : c) (var : String) {k k' r r' : M Value} (hk : R k k') (hr : R r r') (xs : List Value) :
    R (compN var k r xs) (RE.compM var k' r' xs) := by
  induction xs with
  | nil => exact hR.pure _
  | cons x xs ih =>
    refine hR.bind (hR.scope hc _ ?_) fun o => hR.bind ih fun vs => hR.pure _
    exact hR.bind hk fun a => hR.ite (fun _ => hR.bind hr fun v => hR.pure _) (fun _ => hR.pure _)


variable (dc : DecCtx) (thing : Value)

mutual
theorem evalN_relN : ∀ e : Expr, e.allNames P (fun _ => True) → (c ∨ ∀ b, e.NoShadow b) →
    R (evalN N env dc thing e) (eval env dc thing e)
  | .lit v _, _, _ => by simp only [evalN, eval]; exact hR.pure v
  | .array xs, h, hc => by
    simp only [evalN, eval]
    simp only [Expr.allNames] at h
    exact hR.bind (hR.seqM (evalsN_relN xs h (hc.imp_right fun h b => by simpa only [Expr.NoShadow] using h b)))
      fun _ => hR.pure _
  | .set xs, h, hc => by
    simp only [evalN, eval]
    simp only [Expr.allNames] at h
    exact hR.bind (hR.setM _ (evalsN_relN xs h (hc.imp_right fun h b => by simpa only [Expr.NoShadow] using h b)) [])
      fun _ => hR.pure _
  | .mapping kvs, h, hc => by
    simp only [evalN, eval]
    simp only [Expr.allNames] at h
    rw [← bind_assoc, ← bind_assoc]
    exact hR.bind (hR.mapM _ (evalPairsN_relN kvs h
      (hc.imp_right fun h b => by simpa only [Expr.NoShadow] using h b)) .nil) fun _ => hR.pure _
  | .bin op l r, h, hc => by
    simp only [evalN, eval]
    simp only [Expr.allNames] at h
    simp only [Expr.NoShadow] at hc
    exact hR.evalBin dc op (evalN_relN l h.1 (hc.imp_right fun h b => (h b).1))
      (evalN_relN r h.2 (hc.imp_right fun h b => (h b).2))
  | .comp result var iterable cond, h, hc => by
    simp only [evalN, eval]
    simp only [Expr.allNames] at h
    rcases hc with hc | hc
    · refine hR.bind (evalN_relN iterable h.2.1 (.inl hc)) fun it =>
        hR.bind (hR.lift _) fun ty => hR.ite (fun _ => ?_) (fun _ => hR.throw _)
      exact hR.bind (hR.lift _) fun xs =>
        hR.bind (hR.compM hc var (evalN_relN cond h.2.2 (.inl hc)) (evalN_relN result h.1 (.inl hc)) xs) fun _ => hR.pure _
    · have := hc [var]
      simp only [Expr.NoShadow] at this
      exact (this.2.1 (by simp)).elim
  | .contains l r, h, hc => by
    simp only [evalN, eval]
    simp only [Expr.allNames] at h
    simp only [Expr.NoShadow] at hc
    exact hR.bind (evalN_relN l h.1 (hc.imp_right fun h b => (h b).1)) fun _ =>
      hR.bind (hR.lift _) fun _ => hR.bind (evalN_relN r h.2 (hc.imp_right fun h b => (h b).2)) fun _ =>
      hR.bind (hR.lift _) fun _ => hR.pure _
  | .getAttr obj name safe, h, hc => by
    simp only [evalN, eval]
    simp only [Expr.allNames] at h
    simp only [Expr.NoShadow] at hc
    exact hR.bind (evalN_relN obj h.1 hc) fun _ =>
      hR.ite (fun _ => hR.pure _) (fun _ => hR.attr _ name)
  | .getItem l r safe, h, hc => by
    simp only [evalN, eval]
    simp only [Expr.allNames] at h
    simp only [Expr.NoShadow] at hc
    refine hR.bind (evalN_relN l h.1 (hc.imp_right fun h b => (h b).1)) fun cv => ?_
    refine hR.ite (fun _ => hR.ite (fun _ => hR.pure _) (fun _ => hR.throw _)) (fun _ => ?_)
    refine hR.bind (evalN_relN r h.2 (hc.imp_right fun h b => (h b).2)) fun iv => ?_
    refine hR.bind (hR.lift _) fun o => ?_
    cases o
    · exact hR.ite (fun _ => hR.pure _) (fun _ => hR.throw _)
    · exact hR.pure _
  | .getSlice l r r2 safe, h, hc => by
    simp only [evalN, eval]
    simp only [Expr.allNames] at h
    simp only [Expr.NoShadow] at hc
    refine hR.bind (evalN_relN l h.1 (hc.imp_right fun h b => (h b).1)) fun cv => ?_
    exact hR.ite (fun _ => hR.ite (fun _ => hR.pure _) (fun _ => hR.throw _)) (fun _ =>
      hR.evalSlice cv (evalN_relN r h.2.1 (hc.imp_right fun h b => (h b).2.1))
        (evalN_relN r2 h.2.2 (hc.imp_right fun h b => (h b).2.2)))
  | .sym name rt b, h, _ => by
    simp only [evalN, eval]
    simp only [Expr.allNames] at h
    exact hR.symbol thing name rt b h
  | .call f args, h, hc => by
    simp only [evalN, eval]
    simp only [Expr.allNames] at h
    simp only [Expr.NoShadow] at hc
    refine hR.bind (evalN_relN f h.1 (hc.imp_right fun h b => (h b).1)) fun fv => ?_
    refine hR.ite (fun _ => ?_) (fun _ => hR.throw _)
    exact hR.bind (hR.seqM (evalsN_relN args h.2 (hc.imp_right fun h b => (h b).2))) fun vs =>
      hR.call dc _ _ fv vs
  | .tern l r r2, h, hc => by
    simp only [evalN, eval]
    simp only [Expr.allNames] at h
    simp only [Expr.NoShadow] at hc
    exact hR.bind (evalN_relN l h.1 (hc.imp_right fun h b => (h b).1)) fun v =>
      hR.ite (fun _ => evalN_relN r h.2.1 (hc.imp_right fun h b => (h b).2.1))
        (fun _ => evalN_relN r2 h.2.2 (hc.imp_right fun h b => (h b).2.2))
  | .not e, h, hc => by
    simp only [evalN, eval]
    simp only [Expr.allNames] at h
    simp only [Expr.NoShadow] at hc
    exact hR.bind (evalN_relN e h hc) fun _ => hR.pure _
  | .neg e, h, hc => by
    simp only [evalN, eval]
    simp only [Expr.allNames] at h
    simp only [Expr.NoShadow] at hc
    exact hR.bind (evalN_relN e h hc) fun _ => hR.lift _
theorem evalsN_relN : ∀ es : List Expr, Expr.allNamesList P (fun _ => True) es →
    (c ∨ ∀ b, Expr.NoShadowList b es) →
    List.Forall₂ (fun m m' => R m m') (evalsN N env dc thing es) (evals env dc thing es)
  | [], _, _ => .nil
  | e :: es, h, hc => by
    simp only [Expr.allNamesList] at h
    simp only [Expr.NoShadowList] at hc
    exact .cons (evalN_relN e h.1 (hc.imp_right fun h b => (h b).1))
      (evalsN_relN es h.2 (hc.imp_right fun h b => (h b).2))
theorem evalPairsN_relN : ∀ es : List (Expr × Expr), Expr.allNamesPairs P (fun _ => True) es →
    (c ∨ ∀ b, Expr.NoShadowPairs b es) →
    RelPairs R (evalPairsN N env dc thing es) (evalPairs env dc thing es)
  | [], _, _ => .nil
  | (k, v) :: es, h, hc => by
    simp only [Expr.allNamesPairs] at h
    simp only [Expr.NoShadowPairs] at hc
    exact .cons ⟨evalN_relN k h.1 (hc.imp_right fun h b => (h b).1), evalN_relN v h.2.1 (hc.imp_right fun h b => (h b).2.1)⟩
      (evalPairsN_relN es h.2.2 (hc.imp_right fun h b => (h b).2.2))
end
end

/-! ## The main relation -/

/-- On the left with nested evaluations, on the right without.  Either the same value or exception; or the variables
have been cleared, which is noticed when a comprehension ends (`c`). -/
structure Near (c : Prop) {α : Type} (m m' : M α) : Prop where
  run : ∀ s s2 : St, s.scopes = s2.scopes → (m' s2).2.scopes = s2.scopes ∧
    (((m s).1 = (m' s2).1 ∧ (m s).2.scopes = s.scopes) ∨
      ((m s).2.scopes = [] ∧ (s.scopes ≠ [] ∨ (c ∧ (m s).1 = .error (.py .indexError)))))

theorem SameAny.near {c : Prop} {α : Type} {m m' : M α} (h : SameAny m m') : Near c m m' := by
  refine ⟨fun s s2 _ => ⟨h.right s2, ?_⟩⟩
  rcases h.left s with h1 | h1
  · exact .inl ⟨h.out s s2, h1⟩
  · by_cases hs : s.scopes = []
    · exact .inl ⟨h.out s s2, h1.trans hs.symm⟩
    · exact .inr ⟨h1, .inl hs⟩

theorem SameOut.near {c : Prop} {α : Type} {m m' : M α} (h : SameOut m m') : Near c m m' :=
  ⟨fun s s2 hs => ⟨h.right s2, .inl ⟨h.out s s2 hs, h.left s⟩⟩⟩

namespace Near
variable {c : Prop}

theorem lift {α : Type} (x : Except Err α) : Near c (M.lift x) (M.lift x) := (SameAny.lift x).near

theorem pure {α : Type} (a : α) : Near c (Pure.pure a : M α) (Pure.pure a) := lift (.ok a)

theorem throw {α : Type} (e : Err) : Near c (M.throw e : M α) (M.throw e) := lift (.error e)

theorem bind {α β : Type} {m m' : M α} {f f' : α → M β} (hm : Near c m m') (hf : ∀ a, Near c (f a) (f' a)) :
    Near c (m >>= f) (m' >>= f') := by
  have hr : ∀ s2 : St, ((m' >>= f') s2).2.scopes = s2.scopes :=
    bind_scopes (fun s => (hm.run s s rfl).1) (fun a s => ((hf a).run s s rfl).1)
  refine ⟨fun s s2 hs => ⟨hr s2, ?_⟩⟩
  obtain ⟨h1, h2⟩ := hm.run s s2 hs
  rw [M.bind_apply, M.bind_apply]
  rcases e : m s with ⟨x, t⟩
  rcases e' : m' s2 with ⟨x', t'⟩
  rw [e] at h2
  rw [e'] at h1 h2
  simp only at h1 h2
  rcases h2 with ⟨h2, h3⟩ | ⟨h2, h3⟩
  · subst h2
    cases x with
    | error err => exact .inl ⟨rfl, h3⟩
    | ok a =>
      obtain ⟨-, h4⟩ := (hf a).run t t' (h3.trans (hs.trans h1.symm))
      rcases h4 with ⟨h4, h5⟩ | ⟨h4, h5⟩
      · exact .inl ⟨h4, h5.trans h3⟩
      · exact .inr ⟨h4, by rwa [h3] at h5⟩
  · cases x with
    | error err => exact .inr ⟨h2, h3.imp_right fun h => ⟨h.1, congrArg (Except.error ∘ id) (Except.error.inj h.2)⟩⟩
    | ok a =>
      rcases h3 with h3 | ⟨-, h3⟩
      · obtain ⟨-, h4⟩ := (hf a).run t { t with scopes := [] } h2
        rcases h4 with ⟨-, h5⟩ | ⟨h4, -⟩
        · exact .inr ⟨h5.trans h2, .inl h3⟩
        · exact .inr ⟨h4, .inl h3⟩
      · cases h3

theorem ite {α : Type} {p : Prop} [Decidable p] {m m' n n' : M α}
    (h : p → Near c m m') (h' : ¬p → Near c n n') : Near c (if p then m else n) (if p then m' else n') := by
  split
  · exact h ‹_›
  · exact h' ‹_›

theorem withScope (hc : c) {α : Type} (a : Assignment) {m m' : M α} (hm : Near c m m') :
    Near c (withScopeN a m) (M.withScope a m') := by
  refine ⟨fun s s2 hs => ⟨withScope_scopes (fun s => (hm.run s s rfl).1) s2, ?_⟩⟩
  obtain ⟨-, h⟩ := hm.run { s with scopes := s.scopes ++ [a] } { s2 with scopes := s2.scopes ++ [a] } (by simp [hs])
  simp only [withScopeN, M.withScope]
  rcases e : m { s with scopes := s.scopes ++ [a] } with ⟨x, t⟩
  rcases e' : m' { s2 with scopes := s2.scopes ++ [a] } with ⟨x', t'⟩
  rw [e, e'] at h
  simp only at h ⊢
  rcases h with ⟨h1, h2⟩ | ⟨h1, -⟩
  · left
    cases hts : t.scopes with
    | nil => rw [hts] at h2; simp at h2
    | cons b bs =>
      simp only
      refine ⟨h1, ?_⟩
      rw [← hts, h2, List.dropLast_concat]
  · right
    rw [h1]
    exact ⟨h1, .inr ⟨hc, rfl⟩⟩

end Near

section
variable {c : Prop} {N : Nested} (hN : N.Clearing)
include hN

theorem ctxResolve_near (env : Env) (thing : Value) (name : String) (b : Bool)
    (hg : ¬ (b = true ∧ name = "re_groups")) :
    Near c (ctxResolveN N env thing name b) (ctxResolve env thing name b) := by
  refine ⟨fun s s2 hs => ⟨(ctxResolve_keeps env thing name b s2).1, ?_⟩⟩
  have h1 := ctxResolve_reads env thing name b s s2 hs (fun hb hn => (hg ⟨hb, hn⟩).elim)
  rw [← h1]
  unfold ctxResolveN ctxResolve
  cases b with
  | true =>
    simp only [if_true]
    cases builtinValue env s.groups name <;> exact .inl ⟨rfl, rfl⟩
  | false =>
    simp only [Bool.false_eq_true, if_false]
    cases scopeLookup s.scopes name with
    | some a => exact .inl ⟨rfl, rfl⟩
    | none =>
      simp only
      rcases (hN.resolve thing name).scopes { s with log := s.log ++ [.resolve thing name] } with h | h
      · exact .inl ⟨trivial, h⟩
      · by_cases hs : s.scopes = []
        · exact .inl ⟨trivial, h.trans hs.symm⟩
        · exact .inr ⟨h, .inl hs⟩

theorem evalSymbol_near (env : Env) (thing : Value) (name : String) (rt : DataType) (b : Bool)
    (hg : ¬ (b = true ∧ name = "re_groups")) :
    Near c (evalSymbolN N env thing name rt b) (evalSymbol env thing name rt b) := by
  refine Near.bind ?_ fun v => Near.lift _
  refine ⟨fun s s2 hs => ?_⟩
  obtain ⟨h1, h2⟩ := (ctxResolve_near (c := False) hN env thing name b hg).run s s2 hs
  unfold M.catchErr
  rcases hx : ctxResolveN N env thing name b s with ⟨x, t⟩
  rcases hy : ctxResolve env thing name b s2 with ⟨y, t'⟩
  rw [hy] at h1 h2
  rw [hx] at h2
  simp only at h1 h2
  refine ⟨?_, ?_⟩
  · cases y with
    | ok a => exact h1
    | error e =>
      simp only
      cases isSymErr e <;> cases env.defaultValue <;> exact h1
  · rcases h2 with ⟨h2, h3⟩ | ⟨h2, h3 | ⟨h3, -⟩⟩
    · subst h2
      left
      cases x with
      | ok a => exact ⟨by trivial, h3⟩
      | error e =>
        simp only
        cases isSymErr e <;> cases env.defaultValue <;> exact ⟨by trivial, h3⟩
    · right
      refine ⟨?_, .inl h3⟩
      cases x with
      | ok a => exact h2
      | error e =>
        simp only
        cases isSymErr e <;> cases env.defaultValue <;> exact h2
    · exact h3.elim

theorem evalGetAttr_near (env : Env) (o : Value) (name : String) :
    Near c (evalGetAttrN N env o name) (evalGetAttr env o name) := by
  refine ⟨fun s s2 hs => ⟨attr_sameOut.left s2, ?_⟩⟩
  obtain ⟨-, h2⟩ := (ctxResolve_near (c := False) hN env o name false (by simp)).run s s2 hs
  unfold evalGetAttrN evalGetAttr
  rcases hx : ctxResolveN N env o name false s with ⟨x, t⟩
  rcases hy : ctxResolve env o name false s2 with ⟨y, t'⟩
  rw [hx, hy] at h2
  simp only at h2
  cases resolveAttr env o name with
  | ok v => exact .inl ⟨rfl, rfl⟩
  | error e =>
    simp only
    cases isAttrErr e with
    | false => exact .inl (by simp)
    | true =>
      simp only [if_true]
      rcases h2 with ⟨h2, h3⟩ | ⟨h2, h3 | ⟨h3, -⟩⟩
      · subst h2
        left
        cases x with
        | ok a => exact ⟨by trivial, h3⟩
        | error e =>
          simp only
          cases isSymErr e <;> cases env.defaultValue <;> exact ⟨by trivial, h3⟩
      · right
        refine ⟨?_, .inl h3⟩
        cases x with
        | ok a => exact h2
        | error e =>
          simp only
          cases isSymErr e <;> cases env.defaultValue <;> exact h2
      · exact h3.elim

end

/-- the names that may be written: anything but `$re_groups` -/
abbrev NotGroups : String → DataType → Bool → Prop := fun n _ b => ¬ (b = true ∧ n = "re_groups")

theorem near_relN {N : Nested} (hN : N.Clearing) (env : Env) (c : Prop) : RelN N env c NotGroups (@Near c) where
  lift := Near.lift
  bind := Near.bind
  fuzzy s n a b :=
    (opFuzzy_rel sameOut_closed.toRelBase env env.resolver env.typeResolver env.defaultValue s n a b).near
  scope hc _ a _ _ h := Near.withScope hc a h
  symbol thing name rt b h := evalSymbol_near hN env thing name rt b h
  attr o name := evalGetAttr_near hN env o name
  call dc ft rt f args := (evalCallN_any hN env dc ft rt f args).near

/-! ## Nested evaluations clear the variables -/

/-- on the left: the variables are kept or cleared -/
structure KeepsLeft {α : Type} (m m' : M α) : Prop where
  run : ∀ s : St, (m s).2.scopes = s.scopes ∨ (m s).2.scopes = []

theorem keepsLeft_relN {N : Nested} (hN : N.Clearing) (env : Env) :
    RelN N env True (fun _ _ _ => True) (@KeepsLeft) where
  lift x := ⟨fun _ => .inl rfl⟩
  bind := by
    intro α β m m' f f' hm hf
    refine ⟨fun s => ?_⟩
    have h1 := hm.run s
    rw [M.bind_apply]
    rcases h : m s with ⟨x, t⟩
    rw [h] at h1
    cases x with
    | error e => exact h1
    | ok a =>
      simp only at h1 ⊢
      rcases (hf a).run t with h2 | h2
      · rw [h2]; exact h1
      · exact .inr h2
  fuzzy s n a b :=
    ⟨fun st => .inl ((opFuzzy_rel sameOut_closed.toRelBase env env.resolver env.typeResolver env.defaultValue
      s n a b).left st)⟩
  scope := by
    intro _ α a m m' h
    refine ⟨fun s => ?_⟩
    have := h.run { s with scopes := s.scopes ++ [a] }
    simp only [withScopeN]
    rcases e : m { s with scopes := s.scopes ++ [a] } with ⟨x, t⟩
    rw [e] at this
    simp only at this ⊢
    cases hts : t.scopes with
    | nil => exact .inr hts
    | cons b bs =>
      rcases this with h | h
      · left
        simp only [← hts, h, List.dropLast_concat]
      · rw [hts] at h; cases h
  symbol thing name rt b _ := by
    refine ⟨fun s => ?_⟩
    have h1 : (ctxResolveN N env thing name b s).2.scopes = s.scopes ∨
        (ctxResolveN N env thing name b s).2.scopes = [] := by
      unfold ctxResolveN
      cases b with
      | true =>
        simp only [if_true]
        cases builtinValue env s.groups name <;> exact .inl rfl
      | false =>
        simp only [Bool.false_eq_true, if_false]
        cases scopeLookup s.scopes name with
        | some a => exact .inl rfl
        | none => exact (hN.resolve thing name).scopes _
    unfold evalSymbolN
    rw [M.bind_apply]
    unfold M.catchErr
    rcases hx : ctxResolveN N env thing name b s with ⟨x, t⟩
    rw [hx] at h1
    cases x with
    | ok a => exact h1
    | error e =>
      simp only
      cases isSymErr e <;> cases env.defaultValue <;> exact h1
  attr o name := by
    refine ⟨fun s => ?_⟩
    obtain ⟨-, h⟩ := (evalGetAttr_near (c := False) hN env o name).run s s rfl
    exact h.imp And.right And.left
  call dc ft rt f args := ⟨(evalCallN_any hN env dc ft rt f args).left⟩

theorem ruleEvalN_scopes {N : Nested} (hN : N.Clearing) (env : Env) (e : Expr) (thing : Value) (s : St) :
    (ruleEvalN N env e thing s).2.scopes = [] := by
  rcases (evalN_relN (keepsLeft_relN hN env) env.decCtx thing e (Expr.allNames_trivial e) (.inl trivial)).run s.reset
    with h | h
  · exact h
  · exact h

theorem Effect.clears {env : Env} {f : St → St} (h : Effect env f) : Clears f := by
  induction h with
  | nothing => exact ⟨fun _ => .inl rfl⟩
  | construct dct raw _ ih =>
    refine ⟨fun s => ?_⟩
    rw [construct_restores_variables]
    exact ih.scopes s
  | evaluate e thing _ _ _ _ h1 h2 => exact ⟨fun s => .inr (ruleEvalN_scopes ⟨h1, h2⟩ env e thing _)⟩
  | choose _ ih => exact ⟨fun s => (ih s).scopes s⟩

theorem Nested.Ok.clearing {N : Nested} {env : Env} (h : N.Ok env) : N.Clearing :=
  ⟨fun v n => (h.resolve v n).clears, fun f as => (h.call f as).clears⟩

/-! ## The theorems -/

theorem part_noGroups_names {codec : LitCodec} {env : Env} {dct : DecCtx} {t : List Char} {e : Expr}
    (ht : Part codec env dct t e) (hg : NoGroups codec t) : e.allNames NotGroups (fun _ => True) := by
  obtain ⟨raw, hm, hu⟩ := hg
  obtain ⟨raw', hm', hb⟩ := ht.build
  cases means_unique hm hm'
  obtain ⟨s', hb, -⟩ := hb St.init rfl
  have hf := built_free (P := fun u => ¬ (u.dollar = true ∧ u.name = "re_groups")) (Q := fun _ => True) raw [] hu
    (fun _ _ => trivial) (build_built raw hb)
  exact freeIn_allNames (P' := fun n _ b => ¬ (b = true ∧ n = "re_groups")) (fun n b _ _ h => h) e _ hf

/-- **C72.** A rule without comprehension and without `$re_groups` gives what it gives, whichever rules of the same
context the resolver and the functions construct and evaluate meanwhile. -/
theorem nested_harmless {codec : LitCodec} {env : Env} {dct : DecCtx} {t : List Char} {e : Expr}
    (h : Part codec env dct t e) (hg : NoGroups codec t) (hc : NoComp codec t) {N : Nested} (hN : N.Ok env)
    (thing : Value) (p : Proc) : (p.evaluateN N env e thing).1 = (p.evaluate env e thing).1 := by
  have hs : ∀ b, e.NoShadow b := by
    obtain ⟨raw, hm, hu⟩ := hc
    obtain ⟨raw', hm', hb⟩ := h.build
    cases means_unique hm hm'
    obtain ⟨s', hb, -⟩ := hb St.init rfl
    exact fun b => built_noShadow raw b (noComp_noShadow raw hu b) (build_built raw hb)
  obtain ⟨-, h | ⟨-, h | ⟨h, -⟩⟩⟩ := (evalN_relN (near_relN hN.clearing env False) env.decCtx thing e
    (part_noGroups_names h hg) (.inr hs)).run p.st.reset p.st.reset rfl
  · exact h.1
  · exact (h rfl).elim
  · exact h.elim

/-- **C72.** Any rule without `$re_groups`: nested evaluations change nothing, or Python's IndexError is raised. -/
theorem nested_same_or_index_error {codec : LitCodec} {env : Env} {dct : DecCtx} {t : List Char} {e : Expr}
    (h : Part codec env dct t e) (hg : NoGroups codec t) {N : Nested} (hN : N.Ok env) (thing : Value) (p : Proc) :
    (p.evaluateN N env e thing).1 = (p.evaluate env e thing).1 ∨
    (p.evaluateN N env e thing).1 = .error (.py .indexError) := by
  obtain ⟨-, h | ⟨-, h | ⟨-, h⟩⟩⟩ := (evalN_relN (near_relN hN.clearing env True) env.decCtx thing e
    (part_noGroups_names h hg) (.inl trivial)).run p.st.reset p.st.reset rfl
  · exact .inl h.1
  · exact (h rfl).elim
  · exact .inr h

theorem compN_cleared {x : String} {k r : M Value} {y : Value} {ys : List Value} {s : St} {b : Value} {s1 : St}
    (hk : k { s with scopes := s.scopes ++ [⟨x, y, .undefined⟩] } = (.ok b, s1)) (hb : b.truthy = true)
    (hr : (r s1).2.scopes = []) : (compN x k r (y :: ys) s).1 = .error (.py .indexError) := by
  have hbody : ((do
      let c ← k
      if c.truthy then do
        let v ← r
        pure (some v)
      else pure none : M (Option Value)) { s with scopes := s.scopes ++ [⟨x, y, .undefined⟩] }).2.scopes = [] := by
    rw [M.bind_apply, hk]
    simp only
    rw [M.ite_app, if_pos hb, M.bind_apply]
    rcases h : r s1 with ⟨o, t⟩
    rw [h] at hr
    cases o <;> exact hr
  simp only [compN]
  rw [M.bind_apply]
  generalize (do
      let c ← k
      if c.truthy then do
        let v ← r
        pure (some v)
      else pure none : M (Option Value)) = body at hbody
  have hw : (withScopeN ⟨x, y, .undefined⟩ body s).1 = .error (.py .indexError) := by
    simp only [withScopeN]
    rcases h : body { s with scopes := s.scopes ++ [⟨x, y, .undefined⟩] } with ⟨o, t⟩
    rw [h] at hbody
    simp only at hbody ⊢
    rw [hbody]
  rcases h : withScopeN ⟨x, y, .undefined⟩ body s with ⟨o, t⟩
  rw [h] at hw
  cases hw
  rfl

/-- **C72.** A comprehension whose result makes the resolver evaluate a rule of the same context does not survive it: if
there is a member, `[n for x in a]` raises IndexError, whatever `n` is. -/
theorem nested_in_comprehension {codec : LitCodec} {env : Env} {dct : DecCtx} {a n x : List Char} {l e : Expr}
    (hn : IsWord n) (hd : n.head? ≠ some '$') (hx : IsWord x) (hnx : n ≠ x) (ha : Part codec env dct a l)
    (hg : NoGroups codec a)
    (h : Part codec env dct ('[' :: (n ++ (" for ".toList ++ (x ++ (" in ".toList ++ (a ++ [']'])))))) e)
    {N : Nested} (hN : N.Ok env) {thing v m : Value} {ms : List Value} {T : DataType} {p : Proc}
    (hv : (p.evaluate env l thing).1 = .ok v) (hT : fromValue v = .ok T) (hi : T.isIterable = true)
    (hm : v.members = .ok (m :: ms)) (hres : ∀ s, (N.resolve thing (String.ofList n) s).scopes = []) :
    (p.evaluateN N env e thing).1 = .error (.py .indexError) := by
  obtain ⟨ra, hma, -⟩ := ha.build
  have hmn : Means codec n (.sym (String.ofList n) false) := by
    have := means_sym (codec := codec) hn
    rwa [show symRaw n = .sym (String.ofList n) false from by
      unfold symRaw; cases n with
        | nil => rfl
        | cons c cs => split <;> simp_all] at this
  obtain ⟨l2, c, r, s, s1, s2, t, h1, hs, hs1, hc, hr, rfl⟩ := makes_comp (h.makes (means_comp hmn hma hx))
  cases makes_unique h1 (ha.makes hma)
  have hc := build_built _ hc
  have hr := build_built _ hr
  simp only [Built] at hc hr
  obtain ⟨tc, -, rfl⟩ := hc
  obtain ⟨tr, -, rfl⟩ := hr
  obtain ⟨-, hl⟩ := (evalN_relN (near_relN hN.clearing env True) env.decCtx thing l
    (part_noGroups_names ha hg) (.inl trivial)).run p.st.reset p.st.reset rfl
  simp only [Proc.evaluate, ruleEval] at hv
  rw [hv] at hl
  simp only [Proc.evaluateN, ruleEvalN, evalN]
  rw [M.bind_apply]
  rcases he : evalN N env env.decCtx thing l p.st.reset with ⟨o, t1⟩
  rw [he] at hl
  simp only at hl
  rcases hl with ⟨rfl, hl⟩ | ⟨-, hl | ⟨-, rfl⟩⟩
  · simp only
    rw [hT, lift_ok_bind, M.ite_app, if_pos hi, hm, lift_ok_bind, M.bind_apply]
    have := compN_cleared (x := String.ofList x) (y := m) (ys := ms) (s := t1) (k := Pure.pure (.bool true))
      (r := evalSymbolN N env thing (String.ofList n) tr false) rfl rfl (by
        have hl : scopeLookup (t1.scopes ++ [(⟨String.ofList x, m, .undefined⟩ : Assignment)]) (String.ofList n) = none := by
          rw [hl]
          have : String.ofList x ≠ String.ofList n := fun h => hnx (by simpa using congrArg String.toList h.symm)
          simp [scopeLookup, this, St.reset]
        have hr : ∀ s : St, scopeLookup s.scopes (String.ofList n) = none →
            (ctxResolveN N env thing (String.ofList n) false s).2.scopes = [] := by
          intro s h
          simp only [ctxResolveN, Bool.false_eq_true, if_false, h]
          exact hres _
        unfold evalSymbolN
        rw [M.bind_apply]
        unfold M.catchErr
        have hr := hr { t1 with scopes := t1.scopes ++ [⟨String.ofList x, m, .undefined⟩] } hl
        rcases hx : ctxResolveN N env thing (String.ofList n) false
          { t1 with scopes := t1.scopes ++ [⟨String.ofList x, m, .undefined⟩] } with ⟨o, t⟩
        rw [hx] at hr
        cases o with
        | ok a => exact hr
        | error e =>
          simp only
          cases isSymErr e <;> cases env.defaultValue <;> exact hr)
    rcases hcomp : compN (String.ofList x) (Pure.pure (.bool true)) (evalSymbolN N env thing (String.ofList n) tr false)
      (m :: ms) t1 with ⟨o2, t2⟩
    rw [hcomp] at this
    cases this
    rfl
  · exact (hl rfl).elim
  · rfl

/-! ## Cases -/

/-- a resolver that evaluates the rule `true` of its own context when it is asked for `n`, and functions that do so
whenever they are called -/
def sampleNested : Nested where
  resolve _ name s := if name = "n" then (ruleEvalN .quiet sampleEnv (.lit (.bool true) .boolean) .none s).2 else s
  call _ _ s := (ruleEvalN .quiet sampleEnv (.lit (.bool true) .boolean) .none s).2

theorem sampleNested_ok : sampleNested.Ok sampleEnv := by
  have h : Effect sampleEnv (fun s => (ruleEvalN .quiet sampleEnv (.lit (.bool true) .boolean) .none s).2) :=
    .evaluate (f := fun s => s) _ _ .nothing (fun _ _ => .nothing) (fun _ _ => .nothing)
  refine ⟨fun thing name => ?_, fun _ _ => h⟩
  by_cases hn : name = "n"
  · have : sampleNested.resolve thing name =
        fun s => (ruleEvalN .quiet sampleEnv (.lit (.bool true) .boolean) .none s).2 := by
      funext s; simp [sampleNested, hn]
    rw [this]; exact h
  · have : sampleNested.resolve thing name = fun s => s := by
      funext s; simp [sampleNested, hn]
    rw [this]; exact .nothing

/-- A case of the hypotheses of `nested_harmless`: `(n) + (n)`, where asking for `n` evaluates another rule. -/
example (codec : LitCodec) : ∃ e,
    Part codec sampleEnv sampleEnv.decCtx (par ['n'] ++ ' ' :: (spelling .ADD ++ ' ' :: par ['n'])) e ∧
    NoGroups codec (par ['n'] ++ ' ' :: (spelling .ADD ++ ' ' :: par ['n'])) ∧
    NoComp codec (par ['n'] ++ ' ' :: (spelling .ADD ++ ' ' :: par ['n'])) ∧ sampleNested.Ok sampleEnv ∧
    (∀ p : Proc, p.st.scopes ≠ [] → sampleNested.resolve .none "n" p.st ≠ p.st) ∧
    (Proc.new.evaluateN sampleNested sampleEnv e (dictOf [("n", .str "a")])).1 = .ok (.str "aa") := by
  have hn : Means codec ['n'] (.sym "n" false) := means_sym ⟨by decide, by decide⟩
  have hm := means_bin hn hn .ADD (by decide)
  refine ⟨_, ⟨⟨_, hm⟩, [], (rule_of_means hm).trans rfl⟩, ⟨_, hm, by decide⟩, ⟨_, hm, ⟨trivial, trivial⟩⟩,
    sampleNested_ok, fun p hp h => ?_, by decide +kernel⟩
  have := congrArg St.scopes h
  exact hp this.symm

/-- A case of the hypotheses of `nested_in_comprehension`, which the other theorem does not cover: `[n for x in y]`. -/
example (codec : LitCodec) : ∃ l e,
    IsWord ['n'] ∧ IsWord ['x'] ∧ Part codec sampleEnv sampleEnv.decCtx ['y'] l ∧ NoGroups codec ['y'] ∧
    Part codec sampleEnv sampleEnv.decCtx
      ('[' :: (['n'] ++ (" for ".toList ++ (['x'] ++ (" in ".toList ++ (['y'] ++ [']'])))))) e ∧
    sampleNested.Ok sampleEnv ∧
    (Proc.new.evaluate sampleEnv l (dictOf [("n", .str "b"), ("y", .tuple [.str "a"])])).1 = .ok (.tuple [.str "a"]) ∧
    (∀ s, (sampleNested.resolve (dictOf [("n", .str "b"), ("y", .tuple [.str "a"])]) (String.ofList ['n']) s).scopes = []) ∧
    (Proc.new.evaluate sampleEnv e (dictOf [("n", .str "b"), ("y", .tuple [.str "a"])])).1 = .ok (.tuple [.str "b"]) ∧
    (Proc.new.evaluateN sampleNested sampleEnv e (dictOf [("n", .str "b"), ("y", .tuple [.str "a"])])).1 =
      .error (.py .indexError) := by
  have hn : Means codec ['n'] (.sym "n" false) := means_sym ⟨by decide, by decide⟩
  have hy : Means codec ['y'] (.sym "y" false) := means_sym ⟨by decide, by decide⟩
  have hm := means_comp hn hy x_word
  exact ⟨_, _, ⟨by decide, by decide⟩, x_word, ⟨⟨_, hy⟩, [], (rule_of_means hy).trans rfl⟩, ⟨_, hy, by decide⟩,
    ⟨⟨_, hm⟩, [], (rule_of_means hm).trans rfl⟩, sampleNested_ok, by decide +kernel, fun s => rfl, by decide +kernel,
    by decide +kernel⟩

/-- A function that evaluates a rule of the same context breaks the comprehension that calls it: `[f(x) for x in y]`
raises IndexError, although the same rule with a function that returns the same values does not. -/
theorem nested_call_in_comprehension (codec : LitCodec) : ∃ e thing v,
    Part codec sampleEnv sampleEnv.decCtx
      ('[' :: ((par ['f'] ++ par (commas [['x']])) ++ (" for ".toList ++ (['x'] ++ (" in ".toList ++ (['y'] ++ [']'])))))) e ∧
    sampleNested.Ok sampleEnv ∧ (Proc.new.evaluate sampleEnv e thing).1 = .ok v ∧
    (Proc.new.evaluateN sampleNested sampleEnv e thing).1 = .error (.py .indexError) := by
  have hf : Means codec ['f'] (.sym "f" false) := means_sym ⟨by decide, by decide⟩
  have hx : Means codec ['x'] (.sym "x" false) := means_sym x_word
  have hy : Means codec ['y'] (.sym "y" false) := means_sym ⟨by decide, by decide⟩
  have hm := means_comp (means_call hf (.cons hx .nil)) hy x_word
  exact ⟨_, dictOf [("f", .userFn 0), ("y", .tuple [.str "a", .str "b"])], .tuple [.str "a", .str "b"],
    ⟨⟨_, hm⟩, [], (rule_of_means hm).trans rfl⟩, sampleNested_ok, by decide +kernel, by decide +kernel⟩

/-- `$re_groups` is not safe from nested evaluations: in `((x =~ y) and n) and $re_groups`, where asking for `n`
evaluates a rule, the groups of the match are gone. -/
theorem nested_replaces_groups (codec : LitCodec) : ∃ e thing,
    Part codec sampleEnv sampleEnv.decCtx (par (par (par ['x'] ++ ' ' :: (spelling .EQ_FZM ++ ' ' :: par ['y'])) ++
      ' ' :: (spelling .AND ++ ' ' :: par ['n'])) ++ ' ' :: (spelling .AND ++ ' ' :: par "$re_groups".toList)) e ∧
    sampleNested.Ok sampleEnv ∧ (Proc.new.evaluate sampleEnv e thing).1 = .ok (.bool true) ∧
    (Proc.new.evaluateN sampleNested sampleEnv e thing).1 = .ok (.bool false) := by
  have hx : Means codec ['x'] (.sym "x" false) := means_sym x_word
  have hy : Means codec ['y'] (.sym "y" false) := means_sym ⟨by decide, by decide⟩
  have hn : Means codec ['n'] (.sym "n" false) := means_sym ⟨by decide, by decide⟩
  have hg : Means codec "$re_groups".toList (.sym "re_groups" true) :=
    means_sym (n := "$re_groups".toList) ⟨by decide, by decide⟩
  have hm := means_bin (means_bin (means_bin hx hy .EQ_FZM (by decide)) hn .AND (by decide)) hg .AND (by decide)
  exact ⟨_, dictOf [("x", .str "ab"), ("y", .str "a"), ("n", .int 1)],
    ⟨⟨_, hm⟩, [], (rule_of_means hm).trans rfl⟩, sampleNested_ok, by decide +kernel, by decide +kernel⟩

end RE
