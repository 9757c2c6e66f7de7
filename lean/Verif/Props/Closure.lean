import Verif.Model.Rule
import Mathlib.Data.List.Forall2

/-!
# Relational reasoning about evaluation

A relation between two computations that is respected by sequencing, by scopes, by the few
primitive effects and by symbol and attribute lookup relates the two evaluations of any expression.
Used for several properties (independence of earlier evaluations, default values, …).
-/

namespace RE

set_option linter.unusedSectionVars false

/-- the same context with other resolvers and another default value -/
def Env.alt (env : Env) (r : Value → String → Except Err Value)
    (t : String → Except Err DataType) (d : Option Value) : Env :=
  { env with resolver := r, typeResolver := t, defaultValue := d }

/-- the groups of a regex match: an array of strings and nulls -/
def GroupsValue (g : Value) : Prop := ∃ xs, g = .tuple xs ∧ ∀ x ∈ xs, x = .none ∨ ∃ s, x = .str s

theorem groupsValue_mk (gs : List (Option String)) :
    GroupsValue (.tuple (gs.map (fun g => match g with | some x => .str x | none => .none))) := by
  refine ⟨_, rfl, ?_⟩
  intro x hx
  obtain ⟨g, -, rfl⟩ := List.mem_map.1 hx
  cases g <;> simp

/-- Relations between computations that are respected by the combinators of evaluation, except scopes. -/
structure RelBase (R : {α : Type} → M α → M α → Prop) : Prop where
  lift : ∀ {α : Type} (x : Except Err α), R (M.lift x) (M.lift x)
  bind : ∀ {α β : Type} {m m' : M α} {f f' : α → M β},
    R m m' → (∀ a, R (f a) (f' a)) → R (m >>= f) (m' >>= f')
  setGroups : ∀ g : Value, GroupsValue g → R (recordMatch g) (recordMatch g)
  logCall : ∀ (f : Value) (args : List Value) {α : Type} (x : Except Err α),
    R (fun s => (x, { s with log := s.log ++ [.call f args] }))
      (fun s => (x, { s with log := s.log ++ [.call f args] }))
  rethrow : ∀ {α : Type} (e : Err) {m m' : M α}, R m m' →
    R (M.catchErr m fun _ => M.throw e) (M.catchErr m' fun _ => M.throw e)

/-- Relations between computations that are respected by the combinators of evaluation. -/
structure RelClosed (R : {α : Type} → M α → M α → Prop) : Prop extends RelBase R where
  withScope : ∀ {α : Type} (a : Assignment) {m m' : M α}, R m m' → R (M.withScope a m) (M.withScope a m')

mutual
/-- every symbol (name, static type, builtin?) of the expression satisfies `P` and every attribute
name satisfies `Q` -/
def Expr.allNames (P : String → DataType → Bool → Prop) (Q : String → Prop) : Expr → Prop
  | .lit _ _ => True
  | .array xs => Expr.allNamesList P Q xs
  | .set xs => Expr.allNamesList P Q xs
  | .mapping kvs => Expr.allNamesPairs P Q kvs
  | .bin _ l r => l.allNames P Q ∧ r.allNames P Q
  | .comp result _ iterable cond => result.allNames P Q ∧ iterable.allNames P Q ∧ cond.allNames P Q
  | .contains c m => c.allNames P Q ∧ m.allNames P Q
  | .getAttr o name _ => o.allNames P Q ∧ Q name
  | .getItem c i _ => c.allNames P Q ∧ i.allNames P Q
  | .getSlice c a b _ => c.allNames P Q ∧ a.allNames P Q ∧ b.allNames P Q
  | .sym name rt b => P name rt b
  | .call f args => f.allNames P Q ∧ Expr.allNamesList P Q args
  | .tern c t f => c.allNames P Q ∧ t.allNames P Q ∧ f.allNames P Q
  | .not e => e.allNames P Q
  | .neg e => e.allNames P Q
/-- members -/
def Expr.allNamesList (P : String → DataType → Bool → Prop) (Q : String → Prop) : List Expr → Prop
  | [] => True
  | e :: es => e.allNames P Q ∧ Expr.allNamesList P Q es
/-- items -/
def Expr.allNamesPairs (P : String → DataType → Bool → Prop) (Q : String → Prop) :
    List (Expr × Expr) → Prop
  | [] => True
  | (k, v) :: rest => k.allNames P Q ∧ v.allNames P Q ∧ Expr.allNamesPairs P Q rest
end

section
variable {R : {α : Type} → M α → M α → Prop} (hR : RelBase R)
include hR

theorem RelBase.pure {α : Type} (a : α) : R (Pure.pure a : M α) (Pure.pure a) := hR.lift (.ok a)

theorem RelBase.throw {α : Type} (e : Err) : R (M.throw e : M α) (M.throw e) := hR.lift (.error e)

theorem RelBase.ite {α : Type} {p : Prop} [Decidable p] {m m' n n' : M α}
    (h : p → R m m') (h' : ¬p → R n n') : R (if p then m else n) (if p then m' else n') := by
  split
  · exact h ‹_›
  · exact h' ‹_›

theorem opFuzzy_rel (env : Env) (r t d) (s n : Bool) (a b : Value) :
    R (opFuzzy env s n a b) (opFuzzy (env.alt r t d) s n a b) := by
  show R (opFuzzy env s n a b) (opFuzzy env s n a b)
  unfold opFuzzy
  cases b <;> try exact hR.throw _
  · cases a <;> exact hR.pure _
  · refine hR.ite (fun _ => ?_) (fun _ => hR.throw _)
    cases a <;> try exact hR.pure _
    simp only
    split
    · exact hR.bind (hR.setGroups _ (groupsValue_mk _)) (fun _ => hR.pure _)
    · exact hR.pure _

theorem evalBin_rel (env : Env) (r t d) (dc : DecCtx) (op : BinOp) {m m' n n' : M Value}
    (hm : R m m') (hn : R n n') : R (evalBin env dc op m n) (evalBin (env.alt r t d) dc op m' n') := by
  cases op with
  | add => exact hR.bind hm fun a => hR.bind hn fun b => hR.lift _
  | sub => exact hR.bind hm fun a => hR.bind hn fun b => hR.lift _
  | arith op =>
    exact hR.bind hm fun a => hR.bind (hR.lift _) fun _ => hR.bind hn fun b =>
      hR.bind (hR.lift _) fun _ => hR.lift _
  | bit op =>
    refine hR.bind hm fun a => hR.bind (hR.lift _) fun ty => ?_
    refine hR.ite (fun _ => ?_) (fun _ => ?_)
    · exact hR.bind (hR.lift _) fun _ => hR.bind hn fun b => hR.lift _
    · cases a <;> first | exact hR.throw _ | exact hR.bind hn fun b => hR.lift _
  | shift op =>
    refine hR.bind hm fun a => hR.bind (hR.lift _) fun ty => ?_
    refine hR.ite (fun _ => ?_) (fun _ => ?_)
    · exact hR.bind (hR.lift _) fun _ => hR.bind hn fun b => hR.lift _
    · cases a <;> first | exact hR.throw _ | exact hR.bind hn fun b => hR.lift _
  | and => exact hR.bind hm fun a => hR.ite (fun _ => hR.bind hn fun b => hR.pure _) (fun _ => hR.pure _)
  | or => exact hR.bind hm fun a => hR.ite (fun _ => hR.pure _) (fun _ => hR.bind hn fun b => hR.pure _)
  | eq => exact hR.bind hm fun a => hR.bind hn fun b => hR.pure _
  | ne => exact hR.bind hm fun a => hR.bind hn fun b => hR.pure _
  | cmp op => exact hR.bind hm fun a => hR.bind hn fun b => hR.bind (hR.lift _) fun _ => hR.pure _
  | fuzzy s ng =>
    refine hR.bind hm fun a => ?_
    cases a <;> first
      | exact hR.throw _
      | exact hR.bind hn fun b => opFuzzy_rel hR env r t d s ng _ b

/-- pointwise related lists of computations -/
theorem seqM_rel {ms ms' : List (M Value)} (h : List.Forall₂ (fun m m' => R m m') ms ms') :
    R (seqM ms) (seqM ms') := by
  induction h with
  | nil => exact hR.pure _
  | cons h _ ih => exact hR.bind h fun v => hR.bind ih fun vs => hR.pure _

theorem setM_rel (off : TzDb) {ms ms' : List (M Value)}
    (h : List.Forall₂ (fun m m' => R m m') ms ms') (acc : List Value) :
    R (setM off acc ms) (setM off acc ms') := by
  induction h generalizing acc with
  | nil => exact hR.pure _
  | cons h _ ih => exact hR.bind h fun v => hR.ite (fun _ => ih _) (fun _ => hR.throw _)

/-- same keys, pointwise related values -/
def RelVals (R : {α : Type} → M α → M α → Prop) (ps ps' : List (Value × M Value)) : Prop :=
  List.Forall₂ (fun p p' => p.1 = p'.1 ∧ R p.2 p'.2) ps ps'

omit hR in
theorem mapInsert_rel (off : TzDb) {ps ps' : List (Value × M Value)} (h : RelVals R ps ps')
    (k : Value) {v v' : M Value} (hv : R v v') :
    RelVals R (mapInsert off ps k v) (mapInsert off ps' k v') := by
  induction h with
  | nil => exact .cons ⟨rfl, hv⟩ .nil
  | @cons p p' ps ps' hp h ih =>
    obtain ⟨k1, v1⟩ := p
    obtain ⟨k2, v2⟩ := p'
    obtain ⟨he, hv2⟩ := hp
    simp only at he hv2
    subst he
    simp only [mapInsert]
    split
    · exact .cons ⟨rfl, hv⟩ h
    · exact .cons ⟨rfl, hv2⟩ ih

/-- A relation that only holds between a pair of lists of pairs of computations, pointwise. -/
def RelPairs (R : {α : Type} → M α → M α → Prop) (ps ps' : List (M Value × M Value)) : Prop :=
  List.Forall₂ (fun p p' => R p.1 p'.1 ∧ R p.2 p'.2) ps ps'

theorem mapValsM_rel {ps ps' : List (Value × M Value)} (h : RelVals R ps ps') :
    R (mapValsM ps) (mapValsM ps') := by
  induction h with
  | nil => exact hR.pure _
  | @cons p p' ps ps' hp h ih =>
    obtain ⟨k1, v1⟩ := p
    obtain ⟨k2, v2⟩ := p'
    obtain ⟨he, hv2⟩ := hp
    simp only at he hv2
    subst he
    exact hR.bind hv2 fun v => hR.bind ih fun vs => hR.pure _

/-- The key phase followed by the value phase.  (The intermediate result contains computations, so
the two phases are related together.) -/
theorem mapM_rel (off : TzDb) {ps ps' : List (M Value × M Value)} (h : RelPairs R ps ps')
    {acc acc' : List (Value × M Value)} (ha : RelVals R acc acc') :
    R (mapKeysM off acc ps >>= mapValsM) (mapKeysM off acc' ps' >>= mapValsM) := by
  induction h generalizing acc acc' with
  | nil =>
    have e : ∀ a : List (Value × M Value), (mapKeysM off a [] >>= mapValsM) = mapValsM a := by
      intro a; simp only [mapKeysM, pure_bind]
    rw [e, e]
    exact mapValsM_rel hR ha
  | @cons p p' ps ps' hp h ih =>
    obtain ⟨k, v⟩ := p
    obtain ⟨k', v'⟩ := p'
    obtain ⟨hk, hv⟩ := hp
    simp only at hk hv
    simp only [mapKeysM, bind_assoc]
    refine hR.bind hk fun key => hR.bind (hR.lift _) fun kt => ?_
    by_cases h1 : (kt.isCompound && !kt.isArray) = true
    · simp only [h1, if_true]
      have e : ∀ {α β : Type} (e : Err) (f : α → M β), (M.throw e >>= f) = M.throw e := by intros; rfl
      rw [e]
      exact hR.throw _
    · simp only [h1]
      by_cases h2 : key.hashable = true
      · simp only [h2, if_true]
        exact ih (mapInsert_rel off ha key hv)
      · simp only [h2]
        have e : ∀ {α β : Type} (e : Err) (f : α → M β), (M.throw e >>= f) = M.throw e := by intros; rfl
        simp only [Bool.false_eq_true, if_false]
        rw [e]
        exact hR.throw _

theorem callLogged_rel (env : Env) (r t d) (dc : DecCtx) (f : Value) (args : List Value) :
    R (callLogged env dc f args) (callLogged (env.alt r t d) dc f args) :=
  hR.logCall f args (callBasic env dc f args)

theorem mapCalls_rel (env : Env) (r t d) (dc : DecCtx) (f : Value) (xs : List Value) :
    R (mapCalls env dc f xs) (mapCalls (env.alt r t d) dc f xs) := by
  induction xs with
  | nil => exact hR.pure _
  | cons x xs ih => exact hR.bind (callLogged_rel hR env r t d dc f _) fun _ => hR.bind ih fun _ => hR.pure _

theorem filterCalls_rel (env : Env) (r t d) (dc : DecCtx) (f : Value) (xs : List Value) :
    R (filterCalls env dc f xs) (filterCalls (env.alt r t d) dc f xs) := by
  induction xs with
  | nil => exact hR.pure _
  | cons x xs ih => exact hR.bind (callLogged_rel hR env r t d dc f _) fun _ => hR.bind ih fun _ => hR.pure _

theorem callFn_rel (env : Env) (r t d) (dc : DecCtx) (f : Value) (args : List Value) :
    R (callFn env dc f args) (callFn (env.alt r t d) dc f args) := by
  unfold callFn
  split
  · exact hR.bind (hR.logCall _ _ (.ok ())) fun _ => hR.bind (hR.lift _) fun _ =>
      hR.bind (mapCalls_rel hR env r t d dc _ _) fun _ => hR.pure _
  · exact hR.bind (hR.logCall _ _ (.ok ())) fun _ => hR.bind (hR.lift _) fun _ =>
      hR.bind (filterCalls_rel hR env r t d dc _ _) fun _ => hR.pure _
  · exact callLogged_rel hR env r t d dc _ _

theorem finishCall_rel (env : Env) (r t d) (dc : DecCtx) (rt : DataType) (f : Value)
    (args : List Value) :
    R (finishCall env dc rt f args) (finishCall (env.alt r t d) dc rt f args) := by
  unfold finishCall
  refine hR.bind (hR.rethrow _ (callFn_rel hR env r t d dc f args)) fun v => ?_
  exact hR.bind (hR.lift _) fun v => hR.bind (hR.lift _) fun ty =>
    hR.ite (fun _ => hR.pure _) (fun _ => hR.throw _)

theorem evalCall_rel (env : Env) (r t d) (dc : DecCtx) (ft rt : DataType) (f : Value)
    (args : List Value) :
    R (evalCall env dc ft rt f args) (evalCall (env.alt r t d) dc ft rt f args) := by
  unfold evalCall
  exact hR.ite (fun _ => finishCall_rel hR env r t d dc rt f args) (fun _ =>
    hR.bind (hR.lift _) fun _ => finishCall_rel hR env r t d dc rt f args)

theorem evalSlice_rel (env : Env) (r t d) (c : Value) {a a' b b' : M Value} (ha : R a a') (hb : R b b') :
    R (evalSlice env c a b) (evalSlice (env.alt r t d) c a' b') :=
  hR.bind ha fun _ => hR.bind (hR.lift _) fun _ => hR.bind hb fun _ => hR.bind (hR.lift _) fun _ =>
    hR.bind (hR.lift _) fun _ => hR.pure _

end

section
variable {R : {α : Type} → M α → M α → Prop} (hR : RelClosed R)
include hR

theorem compM_rel (var : String) {c c' r r' : M Value} (hc : R c c') (hr : R r r') (xs : List Value) :
    R (compM var c r xs) (compM var c' r' xs) := by
  induction xs with
  | nil => exact hR.pure _
  | cons x xs ih =>
    refine hR.bind (hR.withScope _ ?_) fun o => hR.bind ih fun vs => hR.pure _
    exact hR.bind hc fun a => hR.ite (fun _ => hR.bind hr fun v => hR.pure _) (fun _ => hR.pure _)

variable {env : Env} {r : Value → String → Except Err Value} {t : String → Except Err DataType}
  {d : Option Value} (dc : DecCtx) {thing thing' : Value}
  {P : String → DataType → Bool → Prop} {Q : String → Prop}

mutual
/-- The main closure theorem: related symbol and attribute lookups give related evaluations. -/
theorem eval_rel
    (hsym : ∀ name rt b, P name rt b →
      R (evalSymbol env thing name rt b) (evalSymbol (env.alt r t d) thing' name rt b))
    (hattr : ∀ o name, Q name → R (evalGetAttr env o name) (evalGetAttr (env.alt r t d) o name)) :
    ∀ e : Expr, e.allNames P Q → R (eval env dc thing e) (eval (env.alt r t d) dc thing' e)
  | .lit v _, _ => by simp only [eval]; exact hR.pure v
  | .array xs, h => by
    simp only [eval]
    simp only [Expr.allNames] at h
    exact hR.bind (seqM_rel hR.toRelBase (evals_rel hsym hattr xs h)) fun _ => hR.pure _
  | .set xs, h => by
    simp only [eval]
    simp only [Expr.allNames] at h
    exact hR.bind (setM_rel hR.toRelBase _ (evals_rel hsym hattr xs h) []) fun _ => hR.pure _
  | .mapping kvs, h => by
    simp only [eval]
    simp only [Expr.allNames] at h
    rw [← bind_assoc, ← bind_assoc]
    exact hR.bind (mapM_rel hR.toRelBase _ (evalPairs_rel hsym hattr kvs h) .nil) fun _ => hR.pure _
  | .bin op l r', h => by
    simp only [eval]
    simp only [Expr.allNames] at h
    exact evalBin_rel hR.toRelBase env r t d dc op (eval_rel hsym hattr l h.1) (eval_rel hsym hattr r' h.2)
  | .comp result var iterable cond, h => by
    simp only [eval]
    simp only [Expr.allNames] at h
    refine hR.bind (eval_rel hsym hattr iterable h.2.1) fun it =>
      hR.bind (hR.lift _) fun ty => hR.ite (fun _ => ?_) (fun _ => hR.throw _)
    exact hR.bind (hR.lift _) fun xs =>
      hR.bind (compM_rel hR var (eval_rel hsym hattr cond h.2.2)
        (eval_rel hsym hattr result h.1) xs) fun _ => hR.pure _
  | .contains c m, h => by
    simp only [eval]
    simp only [Expr.allNames] at h
    exact hR.bind (eval_rel hsym hattr c h.1) fun _ =>
      hR.bind (hR.lift _) fun _ => hR.bind (eval_rel hsym hattr m h.2) fun _ =>
      hR.bind (hR.lift _) fun _ => hR.pure _
  | .getAttr obj name safe, h => by
    simp only [eval]
    simp only [Expr.allNames] at h
    exact hR.bind (eval_rel hsym hattr obj h.1) fun _ =>
      hR.ite (fun _ => hR.pure _) (fun _ => hattr _ _ h.2)
  | .getItem c i safe, h => by
    simp only [eval]
    simp only [Expr.allNames] at h
    refine hR.bind (eval_rel hsym hattr c h.1) fun cv => ?_
    refine hR.ite (fun _ => hR.ite (fun _ => hR.pure _) (fun _ => hR.throw _)) (fun _ => ?_)
    refine hR.bind (eval_rel hsym hattr i h.2) fun iv => ?_
    refine hR.bind (hR.lift _) fun o => ?_
    cases o
    · exact hR.ite (fun _ => hR.pure _) (fun _ => hR.throw _)
    · exact hR.pure _
  | .getSlice c a b safe, h => by
    simp only [eval]
    simp only [Expr.allNames] at h
    refine hR.bind (eval_rel hsym hattr c h.1) fun cv => ?_
    exact hR.ite (fun _ => hR.ite (fun _ => hR.pure _) (fun _ => hR.throw _)) (fun _ =>
      evalSlice_rel hR.toRelBase env r t d cv (eval_rel hsym hattr a h.2.1) (eval_rel hsym hattr b h.2.2))
  | .sym name rt b, h => by
    simp only [eval]
    simp only [Expr.allNames] at h
    exact hsym name rt b h
  | .call f args, h => by
    simp only [eval]
    simp only [Expr.allNames] at h
    refine hR.bind (eval_rel hsym hattr f h.1) fun fv => ?_
    refine hR.ite (fun _ => ?_) (fun _ => hR.throw _)
    exact hR.bind (seqM_rel hR.toRelBase (evals_rel hsym hattr args h.2)) fun vs =>
      evalCall_rel hR.toRelBase env r t d dc _ _ fv vs
  | .tern c a b, h => by
    simp only [eval]
    simp only [Expr.allNames] at h
    exact hR.bind (eval_rel hsym hattr c h.1) fun v =>
      hR.ite (fun _ => eval_rel hsym hattr a h.2.1) (fun _ => eval_rel hsym hattr b h.2.2)
  | .not e, h => by
    simp only [eval]
    simp only [Expr.allNames] at h
    exact hR.bind (eval_rel hsym hattr e h) fun _ => hR.pure _
  | .neg e, h => by
    simp only [eval]
    simp only [Expr.allNames] at h
    exact hR.bind (eval_rel hsym hattr e h) fun _ => hR.lift _
theorem evals_rel
    (hsym : ∀ name rt b, P name rt b →
      R (evalSymbol env thing name rt b) (evalSymbol (env.alt r t d) thing' name rt b))
    (hattr : ∀ o name, Q name → R (evalGetAttr env o name) (evalGetAttr (env.alt r t d) o name)) :
    ∀ es : List Expr, Expr.allNamesList P Q es →
      List.Forall₂ (fun m m' => R m m') (evals env dc thing es) (evals (env.alt r t d) dc thing' es)
  | [], _ => .nil
  | e :: es, h => by
    simp only [Expr.allNamesList] at h
    exact .cons (eval_rel hsym hattr e h.1) (evals_rel hsym hattr es h.2)
theorem evalPairs_rel
    (hsym : ∀ name rt b, P name rt b →
      R (evalSymbol env thing name rt b) (evalSymbol (env.alt r t d) thing' name rt b))
    (hattr : ∀ o name, Q name → R (evalGetAttr env o name) (evalGetAttr (env.alt r t d) o name)) :
    ∀ kvs : List (Expr × Expr), Expr.allNamesPairs P Q kvs →
      RelPairs R (evalPairs env dc thing kvs) (evalPairs (env.alt r t d) dc thing' kvs)
  | [], _ => .nil
  | (k, v) :: rest, h => by
    simp only [Expr.allNamesPairs] at h
    exact .cons ⟨eval_rel hsym hattr k h.1, eval_rel hsym hattr v h.2.1⟩
      (evalPairs_rel hsym hattr rest h.2.2)
end
end

mutual
theorem Expr.allNames_trivial (e : Expr) : e.allNames (fun _ _ _ => True) (fun _ => True) := by
  cases e with
  | lit => simp [Expr.allNames]
  | array xs => simp [Expr.allNames, Expr.allNamesList_trivial xs]
  | set xs => simp [Expr.allNames, Expr.allNamesList_trivial xs]
  | mapping kvs => simp [Expr.allNames, Expr.allNamesPairs_trivial kvs]
  | bin op l r => simp [Expr.allNames, l.allNames_trivial, r.allNames_trivial]
  | comp a _ b c => simp [Expr.allNames, a.allNames_trivial, b.allNames_trivial, c.allNames_trivial]
  | contains l r => simp [Expr.allNames, l.allNames_trivial, r.allNames_trivial]
  | getAttr l _ _ => simp [Expr.allNames, l.allNames_trivial]
  | getItem l r _ => simp [Expr.allNames, l.allNames_trivial, r.allNames_trivial]
  | getSlice a b c _ => simp [Expr.allNames, a.allNames_trivial, b.allNames_trivial, c.allNames_trivial]
  | sym => simp [Expr.allNames]
  | call f args => simp [Expr.allNames, f.allNames_trivial, Expr.allNamesList_trivial args]
  | tern a b c => simp [Expr.allNames, a.allNames_trivial, b.allNames_trivial, c.allNames_trivial]
  | not e => simp [Expr.allNames, e.allNames_trivial]
  | neg e => simp [Expr.allNames, e.allNames_trivial]
theorem Expr.allNamesList_trivial (es : List Expr) :
    Expr.allNamesList (fun _ _ _ => True) (fun _ => True) es := by
  cases es with
  | nil => simp [Expr.allNamesList]
  | cons e es => simp [Expr.allNamesList, e.allNames_trivial, Expr.allNamesList_trivial es]
theorem Expr.allNamesPairs_trivial (es : List (Expr × Expr)) :
    Expr.allNamesPairs (fun _ _ _ => True) (fun _ => True) es := by
  match es with
  | [] => simp [Expr.allNamesPairs]
  | (k, v) :: es =>
    simp [Expr.allNamesPairs, k.allNames_trivial, v.allNames_trivial, Expr.allNamesPairs_trivial es]
end

mutual
/-- literals contain no names -/
theorem Expr.allNames_of_reduced {P : String → DataType → Bool → Prop} {Q : String → Prop} :
    ∀ e : Expr, e.reduced = true → e.allNames P Q
  | .lit _ _, _ => by simp [Expr.allNames]
  | .array xs, h => by
    simp only [Expr.allNames]; simp only [Expr.reduced] at h; exact Expr.allNamesList_of_reduced xs h
  | .set xs, h => by
    simp only [Expr.allNames]; simp only [Expr.reduced] at h; exact Expr.allNamesList_of_reduced xs h
  | .mapping kvs, h => by
    simp only [Expr.allNames]; simp only [Expr.reduced] at h; exact Expr.allNamesPairs_of_reduced kvs h
  | .bin .., h => by simp [Expr.reduced] at h
  | .comp .., h => by simp [Expr.reduced] at h
  | .contains .., h => by simp [Expr.reduced] at h
  | .getAttr .., h => by simp [Expr.reduced] at h
  | .getItem .., h => by simp [Expr.reduced] at h
  | .getSlice .., h => by simp [Expr.reduced] at h
  | .sym .., h => by simp [Expr.reduced] at h
  | .call .., h => by simp [Expr.reduced] at h
  | .tern .., h => by simp [Expr.reduced] at h
  | .not .., h => by simp [Expr.reduced] at h
  | .neg .., h => by simp [Expr.reduced] at h
theorem Expr.allNamesList_of_reduced {P : String → DataType → Bool → Prop} {Q : String → Prop} :
    ∀ es : List Expr, Expr.reducedList es = true → Expr.allNamesList P Q es
  | [], _ => by simp [Expr.allNamesList]
  | e :: es, h => by
    simp only [Expr.reducedList, Bool.and_eq_true] at h
    simp only [Expr.allNamesList]
    exact ⟨e.allNames_of_reduced h.1, Expr.allNamesList_of_reduced es h.2⟩
theorem Expr.allNamesPairs_of_reduced {P : String → DataType → Bool → Prop} {Q : String → Prop} :
    ∀ es : List (Expr × Expr), Expr.reducedPairs es = true → Expr.allNamesPairs P Q es
  | [], _ => by simp [Expr.allNamesPairs]
  | (k, v) :: es, h => by
    simp only [Expr.reducedPairs, Bool.and_eq_true] at h
    simp only [Expr.allNamesPairs]
    exact ⟨k.allNames_of_reduced h.1.1, v.allNames_of_reduced h.1.2,
      Expr.allNamesPairs_of_reduced es h.2⟩
end

theorem Env.alt_self (env : Env) : env.alt env.resolver env.typeResolver env.defaultValue = env := rfl

/-- A unary property of computations, as a relation between equal computations. -/
def Both (U : {α : Type} → M α → Prop) {α : Type} (m m' : M α) : Prop := m = m' ∧ U m

/-- Properties of single computations closed under the combinators. -/
structure UnClosed (U : {α : Type} → M α → Prop) : Prop where
  lift : ∀ {α : Type} (x : Except Err α), U (M.lift x)
  bind : ∀ {α β : Type} {m : M α} {f : α → M β}, U m → (∀ a, U (f a)) → U (m >>= f)
  withScope : ∀ {α : Type} (a : Assignment) {m : M α}, U m → U (M.withScope a m)
  setGroups : ∀ g : Value, GroupsValue g → U (recordMatch g)
  logCall : ∀ (f : Value) (args : List Value) {α : Type} (x : Except Err α),
    U (fun s => (x, { s with log := s.log ++ [.call f args] }))
  rethrow : ∀ {α : Type} (e : Err) {m : M α}, U m → U (M.catchErr m fun _ => M.throw e)

theorem UnClosed.both {U : {α : Type} → M α → Prop} (h : UnClosed U) : RelClosed (Both U) where
  lift x := ⟨rfl, h.lift x⟩
  bind := by
    rintro α β m m' f f' ⟨rfl, hm⟩ hf
    obtain rfl : f = f' := funext fun a => (hf a).1
    exact ⟨rfl, h.bind hm fun a => (hf a).2⟩
  withScope := by
    rintro α a m m' ⟨rfl, hm⟩
    exact ⟨rfl, h.withScope a hm⟩
  setGroups g hg := ⟨rfl, h.setGroups g hg⟩
  logCall f args α x := ⟨rfl, h.logCall f args x⟩
  rethrow := by
    rintro α e m m' ⟨rfl, hm⟩
    exact ⟨rfl, h.rethrow e hm⟩

/-- Closure theorem for properties of single computations. -/
theorem eval_un {U : {α : Type} → M α → Prop} (hU : UnClosed U) {env : Env} (dc : DecCtx)
    {thing : Value} {P : String → DataType → Bool → Prop} {Q : String → Prop}
    (hsym : ∀ name rt b, P name rt b → U (evalSymbol env thing name rt b))
    (hattr : ∀ o name, Q name → U (evalGetAttr env o name)) (e : Expr) (h : e.allNames P Q) :
    U (eval env dc thing e) :=
  (eval_rel (R := Both U) hU.both (env := env) (r := env.resolver) (t := env.typeResolver)
    (d := env.defaultValue) dc (thing := thing) (thing' := thing)
    (fun n rt b hp => ⟨rfl, hsym n rt b hp⟩) (fun o n hq => ⟨rfl, hattr o n hq⟩) e h).2

section
variable {R : {α : Type} → M α → M α → Prop} (hR : RelClosed R)
include hR
variable {env : Env} {r : Value → String → Except Err Value} {t : String → Except Err DataType}
  {d : Option Value} (dct : DecCtx)
  (hev : ∀ e, e.allNames (fun _ _ _ => False) (fun _ => True) →
    R (eval env dct .none e) (eval (env.alt r t d) dct .none e))
  (hsym : ∀ name b, R (mkSym env name b) (mkSym (env.alt r t d) name b))
include hev hsym

theorem foldLit_rel (e : Expr) (h : e.allNames (fun _ _ _ => False) (fun _ => True)) :
    R (foldLit env dct e) (foldLit (env.alt r t d) dct e) :=
  hR.bind (hev e h) fun _ => hR.lift _

theorem mkBin_rel (op : BinOp) (l x : Expr) : R (mkBin env dct op l x) (mkBin (env.alt r t d) dct op l x) :=
  hR.bind (hR.lift _) fun _ => hR.ite (fun h => foldLit_rel hR dct hev hsym _ (by
    rw [Bool.and_eq_true] at h
    simp only [Expr.allNames]
    exact ⟨l.allNames_of_reduced h.1, x.allNames_of_reduced h.2⟩)) (fun _ => hR.pure _)

theorem mkContains_rel (c m : Expr) :
    R (mkContains env dct c m) (mkContains (env.alt r t d) dct c m) :=
  hR.bind (hR.lift _) fun _ => hR.ite (fun h => hR.bind (hev _ (by
    rw [Bool.and_eq_true] at h
    simp only [Expr.allNames]
    exact ⟨c.allNames_of_reduced h.1, m.allNames_of_reduced h.2⟩)) fun _ => hR.pure _) (fun _ => hR.pure _)

theorem mkGetAttr_rel (o : Expr) (name : String) (safe : Bool) :
    R (mkGetAttr env dct o name safe) (mkGetAttr (env.alt r t d) dct o name safe) := by
  refine hR.bind (hR.lift _) fun _ => hR.ite (fun h => ?_) (fun _ => hR.pure _)
  refine hR.bind (foldLit_rel hR dct hev hsym _ (by
    simp only [Expr.allNames]
    exact ⟨o.allNames_of_reduced h, trivial⟩)) fun e => ?_
  split
  · exact hR.ite (fun _ => hR.pure _) (fun _ => hR.pure _)
  · exact hR.pure _

theorem mkGetItem_rel (c i : Expr) (safe : Bool) :
    R (mkGetItem env dct c i safe) (mkGetItem (env.alt r t d) dct c i safe) :=
  hR.bind (hR.lift _) fun _ => hR.ite (fun _ => hR.pure _) (fun _ =>
    hR.ite (fun h => foldLit_rel hR dct hev hsym _ (by
      rw [Bool.and_eq_true] at h
      simp only [Expr.allNames]
      exact ⟨c.allNames_of_reduced h.1, i.allNames_of_reduced h.2⟩)) (fun _ => hR.pure _))

theorem mkGetSlice_rel (c a b : Expr) (safe : Bool) :
    R (mkGetSlice env dct c a b safe) (mkGetSlice (env.alt r t d) dct c a b safe) :=
  hR.bind (hR.lift _) fun _ => hR.ite (fun h => foldLit_rel hR dct hev hsym _ (by
      rw [Bool.and_eq_true, Bool.and_eq_true] at h
      simp only [Expr.allNames]
      exact ⟨c.allNames_of_reduced h.1.1, a.allNames_of_reduced h.1.2, b.allNames_of_reduced h.2⟩))
    (fun _ => hR.pure _)

theorem mkCall_rel (f : Expr) (args : List Expr) :
    R (mkCall env dct f args) (mkCall (env.alt r t d) dct f args) := by
  unfold mkCall
  refine hR.ite (fun _ => ?_) (fun _ => hR.bind (hR.lift _) fun _ => ?_)
  all_goals
    exact hR.ite (fun h => foldLit_rel hR dct hev hsym _ (by
      rw [Bool.and_eq_true] at h
      simp only [Expr.allNames]
      exact ⟨f.allNames_of_reduced h.1, Expr.allNamesList_of_reduced args h.2⟩)) (fun _ => hR.pure _)

theorem mkNot_rel (e : Expr) : R (mkNot env dct e) (mkNot (env.alt r t d) dct e) :=
  hR.ite (fun h => hR.bind (hev _ (by
    simp only [Expr.allNames]
    exact e.allNames_of_reduced h)) fun _ => hR.pure _) (fun _ => hR.pure _)

theorem mkNeg_rel (e : Expr) : R (mkNeg env dct e) (mkNeg (env.alt r t d) dct e) := by
  refine hR.ite (fun h => ?_) (fun _ => hR.pure _)
  split
  · exact hR.bind (hev _ (by simp [Expr.allNames])) fun _ => hR.pure _
  · exact hR.bind (hev _ (by simp [Expr.allNames])) fun _ => hR.pure _
  · exact hR.throw _

mutual
/-- Related evaluations and symbol nodes give related constructions. -/
theorem build_rel : ∀ raw : Raw, R (build env dct raw) (build (env.alt r t d) dct raw)
  | .lit v => by simp only [build]; exact hR.lift _
  | .floatLit s => by simp only [build]; exact hR.lift _
  | .datetimeLit s => by simp only [build]; exact hR.lift _
  | .timedeltaLit s => by simp only [build]; exact hR.lift _
  | .array xs => by
    simp only [build]; exact hR.bind (buildList_rel xs) fun _ => hR.pure _
  | .set xs => by
    simp only [build]; exact hR.bind (buildList_rel xs) fun _ => hR.pure _
  | .mapping kvs => by
    simp only [build]; exact hR.bind (buildPairs_rel kvs) fun _ => hR.lift _
  | .bin op l x => by
    simp only [build]
    exact hR.bind (build_rel l) fun _ => hR.bind (build_rel x) fun _ => mkBin_rel hR dct hev hsym _ _ _
  | .comp result var iterable cond => by
    simp only [build]
    refine hR.bind (build_rel iterable) fun it => hR.bind (hR.lift _) fun ty => ?_
    refine hR.bind (hR.withScope _ (hR.bind (build_rel cond) fun _ =>
      hR.bind (build_rel result) fun _ => hR.pure _)) fun p => hR.pure _
  | .contains c m => by
    simp only [build]
    exact hR.bind (build_rel c) fun _ => hR.bind (build_rel m) fun _ => mkContains_rel hR dct hev hsym _ _
  | .getAttr o name safe => by
    simp only [build]
    exact hR.bind (build_rel o) fun _ => mkGetAttr_rel hR dct hev hsym _ _ _
  | .getItem c i safe => by
    simp only [build]
    exact hR.bind (build_rel c) fun _ => hR.bind (build_rel i) fun _ => mkGetItem_rel hR dct hev hsym _ _ _
  | .getSlice c a b safe => by
    simp only [build]
    exact hR.bind (build_rel a) fun _ => hR.bind (build_rel b) fun _ => hR.bind (build_rel c) fun _ =>
      mkGetSlice_rel hR dct hev hsym _ _ _ _
  | .sym name b => by simp only [build]; exact hsym name b
  | .call f args => by
    simp only [build]
    exact hR.bind (build_rel f) fun _ => hR.bind (buildList_rel args) fun _ =>
      mkCall_rel hR dct hev hsym _ _
  | .tern c a b => by
    simp only [build]
    exact hR.bind (build_rel c) fun _ => hR.bind (build_rel a) fun _ => hR.bind (build_rel b) fun _ =>
      hR.pure _
  | .not e => by
    simp only [build]; exact hR.bind (build_rel e) fun _ => mkNot_rel hR dct hev hsym _
  | .neg e => by
    simp only [build]; exact hR.bind (build_rel e) fun _ => mkNeg_rel hR dct hev hsym _
theorem buildList_rel : ∀ xs : List Raw, R (buildList env dct xs) (buildList (env.alt r t d) dct xs)
  | [] => by simp only [buildList]; exact hR.pure _
  | x :: xs => by
    simp only [buildList]
    exact hR.bind (build_rel x) fun _ => hR.bind (buildList_rel xs) fun _ => hR.pure _
theorem buildPairs_rel : ∀ xs : List (Raw × Raw),
    R (buildPairs env dct xs) (buildPairs (env.alt r t d) dct xs)
  | [] => by simp only [buildPairs]; exact hR.pure _
  | (k, v) :: xs => by
    simp only [buildPairs]
    exact hR.bind (build_rel k) fun _ => hR.bind (build_rel v) fun _ =>
      hR.bind (buildPairs_rel xs) fun _ => hR.pure _
end
end

/-- Closure theorem for construction, properties of single computations. -/
theorem build_un {U : {α : Type} → M α → Prop} (hU : UnClosed U) {env : Env} (dct : DecCtx)
    (hev : ∀ e, e.allNames (fun _ _ _ => False) (fun _ => True) → U (eval env dct .none e))
    (hsym : ∀ name b, U (mkSym env name b)) (raw : Raw) :
    U (build env dct raw) :=
  (build_rel (R := Both U) hU.both (env := env) (r := env.resolver) (t := env.typeResolver)
    (d := env.defaultValue) dct (fun e h => ⟨rfl, hev e h⟩) (fun n b => ⟨rfl, hsym n b⟩) raw).2

end RE
