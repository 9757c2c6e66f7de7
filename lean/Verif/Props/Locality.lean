import Verif.Props.RuleText
import Verif.Props.Scope

/-!
# What a rule depends on (C58)

`Context.symbols` is exactly the set of names written in the rules of the context; a rule sees the thing only through
the resolver's answers for these names.
-/

set_option linter.unusedSimpArgs false

namespace RE

/-! ### Locality -/

/-- the same outcome, scopes, groups and symbols, whatever the logs are -/
def SameBut {α : Type} (m m' : M α) : Prop :=
  ∀ sc g sy lg lg', ∃ x sc' g' sy' lg1 lg1', m ⟨sc, g, sy, lg⟩ = (x, ⟨sc', g', sy', lg1⟩) ∧
    m' ⟨sc, g, sy, lg'⟩ = (x, ⟨sc', g', sy', lg1'⟩)

theorem sameBut_closed : RelClosed @SameBut where
  lift x := fun sc g sy lg lg' => ⟨x, sc, g, sy, lg, lg', rfl, rfl⟩
  bind := by
    intro α β m m' f f' hm hf sc g sy lg lg'
    obtain ⟨x, sc1, g1, sy1, l1, l1', h1, h2⟩ := hm sc g sy lg lg'
    cases x with
    | error e => exact ⟨.error e, sc1, g1, sy1, l1, l1', M.bind_error h1, M.bind_error h2⟩
    | ok a =>
      obtain ⟨y, sc2, g2, sy2, l2, l2', h3, h4⟩ := hf a sc1 g1 sy1 l1 l1'
      exact ⟨y, sc2, g2, sy2, l2, l2', (M.bind_ok h1).trans h3, (M.bind_ok h2).trans h4⟩
  setGroups v _ := fun sc g sy lg lg' => ⟨.ok (), sc, v, sy, _, _, rfl, rfl⟩
  logCall f args α x := fun sc g sy lg lg' => ⟨x, sc, g, sy, _, _, rfl, rfl⟩
  rethrow := by
    intro α e m m' hm sc g sy lg lg'
    obtain ⟨x, sc1, g1, sy1, l1, l1', h1, h2⟩ := hm sc g sy lg lg'
    cases x with
    | error e' => exact ⟨.error e, sc1, g1, sy1, l1, l1', by simp [M.catchErr, h1], by simp [M.catchErr, h2]⟩
    | ok a => exact ⟨.ok a, sc1, g1, sy1, l1, l1', by simp [M.catchErr, h1], by simp [M.catchErr, h2]⟩
  withScope := by
    intro α a m m' hm sc g sy lg lg'
    obtain ⟨x, sc1, g1, sy1, l1, l1', h1, h2⟩ := hm (sc ++ [a]) g sy lg lg'
    exact ⟨x, sc1.dropLast, g1, sy1, l1, l1', by simp [M.withScope, h1], by simp [M.withScope, h2]⟩

theorem ctxResolve_same (env : Env) {thing thing' : Value} {name : String} (b : Bool)
    (h : env.resolver thing name = env.resolver thing' name) :
    SameBut (ctxResolve env thing name b) (ctxResolve env thing' name b) := by
  intro sc g sy lg lg'
  unfold ctxResolve
  cases b with
  | true =>
    cases hb : builtinValue env g name with
    | none => exact ⟨_, sc, g, sy, lg, lg', by simp [hb]; rfl, by simp [hb]⟩
    | some v => exact ⟨.ok v, sc, g, sy, lg, lg', by simp [hb], by simp [hb]⟩
  | false =>
    cases hs : scopeLookup sc name with
    | none => exact ⟨env.resolver thing name, sc, g, sy, _, _, by simp [hs]; rfl, by simp [hs, h]; rfl⟩
    | some a => exact ⟨.ok a.value, sc, g, sy, lg, lg', by simp [hs], by simp [hs]⟩

theorem evalSymbol_same (env : Env) {thing thing' : Value} {name : String} (rt : DataType) (b : Bool)
    (h : env.resolver thing name = env.resolver thing' name) :
    SameBut (evalSymbol env thing name rt b) (evalSymbol env thing' name rt b) := by
  unfold evalSymbol
  refine sameBut_closed.bind ?_ fun v => sameBut_closed.lift _
  intro sc g sy lg lg'
  obtain ⟨x, sc1, g1, sy1, l1, l1', h1, h2⟩ := ctxResolve_same env b h sc g sy lg lg'
  cases x with
  | ok a => exact ⟨.ok a, sc1, g1, sy1, l1, l1', by simp [M.catchErr, h1], by simp [M.catchErr, h2]⟩
  | error e =>
    simp only [M.catchErr, h1, h2]
    cases isSymErr e <;> cases env.defaultValue <;> exact ⟨_, sc1, g1, sy1, l1, l1', rfl, rfl⟩

theorem evalGetAttr_same (env : Env) (o : Value) (name : String) :
    SameBut (evalGetAttr env o name) (evalGetAttr env o name) := by
  intro sc g sy lg lg'
  obtain ⟨x, l, h⟩ := evalGetAttr_framed env o name sc g
  exact ⟨x, sc, _, sy, _, _, h sy lg, h sy lg'⟩

/-- **C58.** What evaluating the rule returns or raises depends on the thing only through what the resolver answers for
the names in `Context.symbols`. -/
theorem depends_on_symbols_only (codec : LitCodec) (env : Env) (dct : DecCtx) (text : String) (p p' : Proc) (e : Expr)
    (h : p.rule codec env dct text = (.ok e, p')) (thing thing' : Value)
    (hr : ∀ n ∈ p'.st.symbols, env.resolver thing n = env.resolver thing' n) (q : Proc) :
    (q.evaluate env e thing).1 = (q.evaluate env e thing').1 := by
  rcases hp : (parseText codec p.line text).out with err | ⟨raw, c⟩
  · simp only [Proc.rule, parseRule, hp] at h
    cases h
  · simp only [Proc.rule, parseRule, hp] at h
    have hb := congrArg Prod.fst h
    have hs := congrArg (fun x => x.2.st) h
    simp only at hb hs
    have hn := build_names raw (e := e) (s' := p'.st) (Prod.ext hb hs : construct env dct raw p.st = _)
    have := eval_rel sameBut_closed (env := env) (r := env.resolver) (t := env.typeResolver) (d := env.defaultValue)
      env.decCtx (thing := thing) (thing' := thing') (P := SymIn p'.st) (Q := fun _ => True)
      (fun n rt b hin => evalSymbol_same env rt b (hr n hin)) (fun o n _ => evalGetAttr_same env o n) e
      (Expr.allNames_mono (fun _ _ _ h => h) (fun _ _ => trivial) _ hn)
    obtain ⟨x, _, _, _, _, _, h1, h2⟩ := this [] .none q.st.symbols q.st.log q.st.log
    simp only [Proc.evaluate, ruleEval, St.reset]
    exact (congrArg Prod.fst h1).trans (congrArg Prod.fst h2).symm

/-! ### The recorded names are the written ones -/

/-- a name written in a rule: is it written with a `$`, is it a use of the variable of a comprehension around it? -/
structure Use where
  name : String
  dollar : Bool
  bound : Bool
  deriving DecidableEq, Repr

mutual
/-- **Specification.** The names written in a rule, other than those after a dot and those after `for`; `vars` are the variables of the
comprehensions around it. -/
def Raw.uses (vars : List String) : Raw → List Use
  | .lit _ | .floatLit _ | .datetimeLit _ | .timedeltaLit _ => []
  | .array xs => Raw.usesList vars xs
  | .set xs => Raw.usesList vars xs
  | .mapping kvs => Raw.usesPairs vars kvs
  | .bin _ l r => l.uses vars ++ r.uses vars
  | .comp result var iterable cond =>
    iterable.uses vars ++ (cond.uses (vars ++ [var]) ++ result.uses (vars ++ [var]))
  | .contains c m => c.uses vars ++ m.uses vars
  | .getAttr o _ _ => o.uses vars
  | .getItem c i _ => c.uses vars ++ i.uses vars
  | .getSlice c a b _ => c.uses vars ++ (a.uses vars ++ b.uses vars)
  | .sym n b => [⟨n, b, !b && decide (n ∈ vars)⟩]
  | .call f args => f.uses vars ++ Raw.usesList vars args
  | .tern c t f => c.uses vars ++ (t.uses vars ++ f.uses vars)
  | .not e => e.uses vars
  | .neg e => e.uses vars
/-- members -/
def Raw.usesList (vars : List String) : List Raw → List Use
  | [] => []
  | x :: xs => x.uses vars ++ Raw.usesList vars xs
/-- items -/
def Raw.usesPairs (vars : List String) : List (Raw × Raw) → List Use
  | [] => []
  | (k, v) :: xs => k.uses vars ++ (v.uses vars ++ Raw.usesPairs vars xs)
end

theorem build_any {env : Env} {dct : DecCtx} {raw : Raw} {s s' : St} {e : Expr}
    (h : build env dct raw s = (.ok e, s')) : e.allNames (fun _ _ _ => True) (fun _ => True) :=
  e.allNames_mono (fun _ _ _ _ => trivial) (fun _ _ => trivial) (build_names raw h)

theorem buildList_any {env : Env} {dct : DecCtx} {raw : List Raw} {s s' : St} {e : List Expr}
    (h : buildList env dct raw s = (.ok e, s')) : Expr.allNamesList (fun _ _ _ => True) (fun _ => True) e :=
  Expr.allNamesList_mono (fun _ _ _ _ => trivial) (fun _ _ => trivial) e (buildList_names raw h)

mutual
theorem build_records {env : Env} {dct : DecCtx} : ∀ (raw : Raw) (vars : List String) {s s' : St} {e : Expr},
    build env dct raw s = (.ok e, s') → ∀ n, n ∈ s'.symbols ↔ n ∈ s.symbols ∨ n ∈ (raw.uses vars).map Use.name
  | .lit v, vars, s, s', e, h => by
    simp only [build, M.lift_eq_ok] at h
    obtain ⟨-, rfl⟩ := h
    simp [Raw.uses]
  | .floatLit str, vars, s, s', e, h => by
    simp only [build, M.lift_eq_ok] at h
    obtain ⟨-, rfl⟩ := h
    simp [Raw.uses]
  | .datetimeLit str, vars, s, s', e, h => by
    simp only [build, M.lift_eq_ok] at h
    obtain ⟨-, rfl⟩ := h
    simp [Raw.uses]
  | .timedeltaLit str, vars, s, s', e, h => by
    simp only [build, M.lift_eq_ok] at h
    obtain ⟨-, rfl⟩ := h
    simp [Raw.uses]
  | .array xs, vars, s, s', e, h => by
    simp only [build, M.bind_eq_ok, M.pure_eq_ok] at h
    obtain ⟨es, s1, h1, rfl, rfl⟩ := h
    simp only [Raw.uses]
    exact buildList_records xs vars h1
  | .set xs, vars, s, s', e, h => by
    simp only [build, M.bind_eq_ok, M.pure_eq_ok] at h
    obtain ⟨es, s1, h1, rfl, rfl⟩ := h
    simp only [Raw.uses]
    exact buildList_records xs vars h1
  | .mapping kvs, vars, s, s', e, h => by
    simp only [build, M.bind_eq_ok, M.lift_eq_ok] at h
    obtain ⟨es, s1, h1, h2, rfl⟩ := h
    simp only [Raw.uses]
    exact buildPairs_records kvs vars h1
  | .bin op l r, vars, s, s', e, h => by
    simp only [build, M.bind_eq_ok] at h
    obtain ⟨l', s1, h1, r', s2, h2, h3⟩ := h
    have := (mkBin_names (build_any h1) (build_any h2) h3).2
    intro n
    rw [this, build_records r vars h2, build_records l vars h1]
    simp [Raw.uses, or_assoc, exists_or]
  | .comp result var iterable cond, vars, s, s', e, h => by
    simp only [build, M.bind_eq_ok, M.lift_eq_ok, M.pure_eq_ok] at h
    obtain ⟨it, s1, h1, t, s2, ⟨-, rfl⟩, ⟨c, r⟩, s3, h2, rfl, rfl⟩ := h
    simp only [M.withScope] at h2
    rcases hb : (do
      let c ← build env dct cond
      let r ← build env dct result
      pure (c, r) : M (Expr × Expr)) { s1 with scopes := s1.scopes ++ [⟨var, .undef, t⟩] }
      with ⟨x, s4⟩
    rw [hb] at h2
    simp only [Prod.mk.injEq] at h2
    obtain ⟨rfl, rfl⟩ := h2
    simp only [M.bind_eq_ok, M.pure_eq_ok, Prod.mk.injEq] at hb
    obtain ⟨c', s5, h3, r', s6, h4, ⟨rfl, rfl⟩, rfl⟩ := hb
    intro n
    show n ∈ s6.symbols ↔ _
    rw [build_records result (vars ++ [var]) h4, build_records cond (vars ++ [var]) h3]
    show (n ∈ s1.symbols ∨ _) ∨ _ ↔ _
    rw [build_records iterable vars h1]
    simp only [Raw.uses, List.map_append, List.mem_append]
    constructor
    · rintro (((h | h) | h) | h) <;> simp [h]
    · rintro (h | h | h | h) <;> simp [h]
  | .contains l r, vars, s, s', e, h => by
    simp only [build, M.bind_eq_ok] at h
    obtain ⟨l', s1, h1, r', s2, h2, h3⟩ := h
    have := (mkContains_names (build_any h1) (build_any h2) h3).2
    intro n
    rw [this, build_records r vars h2, build_records l vars h1]
    simp [Raw.uses, or_assoc, exists_or]
  | .getAttr o name safe, vars, s, s', e, h => by
    simp only [build, M.bind_eq_ok] at h
    obtain ⟨o', s1, h1, h3⟩ := h
    have := (mkGetAttr_names (build_any h1) trivial h3).2
    intro n
    rw [this, build_records o vars h1]
    simp [Raw.uses]
  | .getItem l r safe, vars, s, s', e, h => by
    simp only [build, M.bind_eq_ok] at h
    obtain ⟨l', s1, h1, r', s2, h2, h3⟩ := h
    have := (mkGetItem_names (build_any h1) (build_any h2) h3).2
    intro n
    rw [this, build_records r vars h2, build_records l vars h1]
    simp [Raw.uses, or_assoc, exists_or]
  | .getSlice c a b safe, vars, s, s', e, h => by
    simp only [build, M.bind_eq_ok] at h
    obtain ⟨a', s1, h1, b', s2, h2, c', s3, h3, h4⟩ := h
    have := (mkGetSlice_names (build_any h3) (build_any h1) (build_any h2) h4).2
    intro n
    rw [this, build_records c vars h3, build_records b vars h2, build_records a vars h1]
    simp only [Raw.uses, List.map_append, List.mem_append]
    constructor
    · rintro (((h | h) | h) | h) <;> simp [h]
    · rintro (h | h | h | h) <;> simp [h]
  | .sym name b, vars, s, s', e, h => by
    simp only [build, mkSym, M.bind_eq_ok, M.pure_eq_ok] at h
    obtain ⟨_, s1, h1, t, s2, h2, rfl, rfl⟩ := h
    simp only [M.modify_apply, Prod.mk.injEq] at h1
    obtain ⟨-, rfl⟩ := h1
    have : s2.symbols = name :: s.symbols := by
      simp only [ctxResolveType] at h2
      split at h2
      · simp only [Prod.mk.injEq] at h2; rw [← h2.2]
      · split at h2 <;> simp only [Prod.mk.injEq] at h2 <;> rw [← h2.2]
    intro n
    simp [this, Raw.uses, or_comm]
  | .call f args, vars, s, s', e, h => by
    simp only [build, M.bind_eq_ok] at h
    obtain ⟨f', s1, h1, as, s2, h2, h3⟩ := h
    have := (mkCall_names (build_any h1) (buildList_any h2) h3).2
    intro n
    rw [this, buildList_records args vars h2, build_records f vars h1]
    simp [Raw.uses, or_assoc, exists_or]
  | .tern a b c, vars, s, s', e, h => by
    simp only [build, M.bind_eq_ok, M.pure_eq_ok] at h
    obtain ⟨a', s1, h1, b', s2, h2, c', s3, h3, rfl, rfl⟩ := h
    intro n
    rw [build_records c vars h3, build_records b vars h2, build_records a vars h1]
    simp [Raw.uses, or_assoc, exists_or]
  | .not o, vars, s, s', e, h => by
    simp only [build, M.bind_eq_ok] at h
    obtain ⟨o', s1, h1, h3⟩ := h
    have := (mkNot_names (build_any h1) h3).2
    intro n
    rw [this, build_records o vars h1]
    simp [Raw.uses]
  | .neg o, vars, s, s', e, h => by
    simp only [build, M.bind_eq_ok] at h
    obtain ⟨o', s1, h1, h3⟩ := h
    have := (mkNeg_names (build_any h1) h3).2
    intro n
    rw [this, build_records o vars h1]
    simp [Raw.uses]
theorem buildList_records {env : Env} {dct : DecCtx} : ∀ (xs : List Raw) (vars : List String) {s s' : St} {es : List Expr},
    buildList env dct xs s = (.ok es, s') → ∀ n, n ∈ s'.symbols ↔ n ∈ s.symbols ∨ n ∈ (Raw.usesList vars xs).map Use.name
  | [], vars, s, s', es, h => by
    simp only [buildList, M.pure_eq_ok] at h
    obtain ⟨rfl, rfl⟩ := h
    simp [Raw.usesList]
  | x :: xs, vars, s, s', es, h => by
    simp only [buildList, M.bind_eq_ok, M.pure_eq_ok] at h
    obtain ⟨e, s1, h1, es', s2, h2, rfl, rfl⟩ := h
    intro n
    rw [buildList_records xs vars h2, build_records x vars h1]
    simp [Raw.usesList, or_assoc, exists_or]
theorem buildPairs_records {env : Env} {dct : DecCtx} : ∀ (xs : List (Raw × Raw)) (vars : List String) {s s' : St}
    {es : List (Expr × Expr)}, buildPairs env dct xs s = (.ok es, s') →
    ∀ n, n ∈ s'.symbols ↔ n ∈ s.symbols ∨ n ∈ (Raw.usesPairs vars xs).map Use.name
  | [], vars, s, s', es, h => by
    simp only [buildPairs, M.pure_eq_ok] at h
    obtain ⟨rfl, rfl⟩ := h
    simp [Raw.usesPairs]
  | (k, v) :: xs, vars, s, s', es, h => by
    simp only [buildPairs, M.bind_eq_ok, M.pure_eq_ok] at h
    obtain ⟨e, s1, h1, e', s2, h2, es', s3, h3, rfl, rfl⟩ := h
    intro n
    rw [buildPairs_records xs vars h3, build_records v vars h2, build_records k vars h1]
    simp [Raw.usesPairs, or_assoc, exists_or]
end

/-- **C58.** Constructing a rule adds to `Context.symbols` exactly the names written in it: plain ones, `$` ones, and
uses of comprehension variables, wherever they stand; not the names after dots. -/
theorem symbols_exact (codec : LitCodec) (env : Env) (dct : DecCtx) (text : String) (p p' : Proc) (e : Expr)
    (h : p.rule codec env dct text = (.ok e, p')) :
    ∃ raw c, (parseText codec p.line text).out = .ok (raw, c) ∧
      ∀ n, n ∈ p'.st.symbols ↔ n ∈ p.st.symbols ∨ n ∈ (raw.uses []).map Use.name := by
  rcases hp : (parseText codec p.line text).out with err | ⟨raw, c⟩
  · simp only [Proc.rule, parseRule, hp] at h
    cases h
  · simp only [Proc.rule, parseRule, hp] at h
    have hb := congrArg Prod.fst h
    have hs := congrArg (fun x => x.2.st) h
    simp only at hb hs
    exact ⟨raw, c, rfl, build_records raw [] (e := e) (s' := p'.st) (Prod.ext hb hs : construct env dct raw p.st = _)⟩

/-! ### Free names -/

mutual
/-- every name of the expression satisfies `P`, every attribute name `Q` -/
def Expr.FreeIn (P : Use → Prop) (Q : String → Prop) (bound : List String) : Expr → Prop
  | .lit .. => True
  | .sym n _ b => P ⟨n, b, !b && decide (n ∈ bound)⟩
  | .array xs | .set xs => Expr.FreeInList P Q bound xs
  | .mapping kvs => Expr.FreeInPairs P Q bound kvs
  | .bin _ l r => l.FreeIn P Q bound ∧ r.FreeIn P Q bound
  | .comp result var iterable cond =>
    iterable.FreeIn P Q bound ∧ cond.FreeIn P Q (bound ++ [var]) ∧ result.FreeIn P Q (bound ++ [var])
  | .contains c m => c.FreeIn P Q bound ∧ m.FreeIn P Q bound
  | .getAttr o n _ => Q n ∧ o.FreeIn P Q bound
  | .getItem c i _ => c.FreeIn P Q bound ∧ i.FreeIn P Q bound
  | .getSlice c a b _ => c.FreeIn P Q bound ∧ a.FreeIn P Q bound ∧ b.FreeIn P Q bound
  | .call f args => f.FreeIn P Q bound ∧ Expr.FreeInList P Q bound args
  | .tern c t f => c.FreeIn P Q bound ∧ t.FreeIn P Q bound ∧ f.FreeIn P Q bound
  | .not e | .neg e => e.FreeIn P Q bound
def Expr.FreeInList (P : Use → Prop) (Q : String → Prop) (bound : List String) : List Expr → Prop
  | [] => True
  | x :: xs => x.FreeIn P Q bound ∧ Expr.FreeInList P Q bound xs
def Expr.FreeInPairs (P : Use → Prop) (Q : String → Prop) (bound : List String) : List (Expr × Expr) → Prop
  | [] => True
  | (k, v) :: xs => k.FreeIn P Q bound ∧ v.FreeIn P Q bound ∧ Expr.FreeInPairs P Q bound xs
end

section
variable {P : Use → Prop} {Q : String → Prop}

mutual
theorem reduced_free (bound : List String) : ∀ e : Expr, e.reduced = true → e.FreeIn P Q bound
  | .lit .., _ => by simp [Expr.FreeIn]
  | .array xs, h | .set xs, h => by
    simp only [Expr.FreeIn]; simp only [Expr.reduced] at h; exact reduceds_free bound xs h
  | .mapping kvs, h => by
    simp only [Expr.FreeIn]; simp only [Expr.reduced] at h; exact reducedp_free bound kvs h
  | .bin .., h | .comp .., h | .contains .., h | .getAttr .., h | .getItem .., h | .getSlice .., h
  | .sym .., h | .call .., h | .tern .., h | .not _, h | .neg _, h => by simp [Expr.reduced] at h
theorem reduceds_free (bound : List String) : ∀ es : List Expr, Expr.reducedList es = true →
    Expr.FreeInList P Q bound es
  | [], _ => by simp [Expr.FreeInList]
  | e :: es, h => by
    simp only [Expr.reducedList, Bool.and_eq_true] at h
    simp only [Expr.FreeInList]
    exact ⟨reduced_free bound e h.1, reduceds_free bound es h.2⟩
theorem reducedp_free (bound : List String) : ∀ es : List (Expr × Expr),
    Expr.reducedPairs es = true → Expr.FreeInPairs P Q bound es
  | [], _ => by simp [Expr.FreeInPairs]
  | (k, v) :: es, h => by
    simp only [Expr.reducedPairs, Bool.and_eq_true] at h
    simp only [Expr.FreeInPairs]
    exact ⟨reduced_free bound k h.1.1, reduced_free bound v h.1.2,
      reducedp_free bound es h.2⟩
end

theorem litOf_free {off : TzDb} {v : Value} {e : Expr} (bound : List String)
    (h : litOf off v = .ok e) : e.FreeIn P Q bound := by
  simp only [litOf, except_bind_ok, Except.ok.injEq] at h
  obtain ⟨t, _, rfl⟩ := h
  exact reduced_free bound _ (Expr.ofValue_reduced off v)

theorem folds_free {env : Env} {dct : DecCtx} {Γ : List Assignment} {n e : Expr}
    (bound : List String) (h : Folds env dct Γ n e) : e.FreeIn P Q bound := by
  obtain ⟨v, -, h⟩ := h
  exact litOf_free bound h

theorem attrLit_free {bound : List String} {n e : Expr} (h : e.FreeIn P Q bound) :
    (attrLit n e).FreeIn P Q bound := by
  unfold attrLit
  split
  · split <;> simp [Expr.FreeIn]
  · exact h

mutual
theorem built_free {env : Env} {dct : DecCtx} : ∀ (raw : Raw) {Γ : List Assignment} {e : Expr}
    (bound : List String), (∀ x ∈ raw.uses bound, P x) → (∀ x ∈ raw.attrNames, Q x) → Built env dct Γ raw e → e.FreeIn P Q bound
  | .sym n b, Γ, e, bound, hn, hq, h => by
    simp only [Built] at h
    obtain ⟨_, _, rfl⟩ := h
    simp only [Raw.uses] at hn
    simp only [Expr.FreeIn]
    exact hn _ (by simp)
  | .lit _, Γ, e, bound, hn, hq, h | .floatLit _, Γ, e, bound, hn, hq, h | .datetimeLit _, Γ, e, bound, hn, hq, h
  | .timedeltaLit _, Γ, e, bound, hn, hq, h => by
    simp only [Built] at h
    obtain ⟨_, _, rfl⟩ := h
    simp [Expr.FreeIn]
  | .array xs, Γ, e, bound, hn, hq, h | .set xs, Γ, e, bound, hn, hq, h => by
    simp only [Built] at h
    obtain ⟨es, h1, rfl⟩ := h
    simp only [Raw.uses, Raw.attrNames, List.mem_append, List.mem_cons, or_imp, forall_and, forall_eq] at hn hq
    simp only [Expr.FreeIn]
    exact builts_free xs bound hn hq h1
  | .mapping kvs, Γ, e, bound, hn, hq, h => by
    simp only [Built] at h
    obtain ⟨es, h1, -, rfl⟩ := h
    simp only [Raw.uses, Raw.attrNames, List.mem_append, List.mem_cons, or_imp, forall_and, forall_eq] at hn hq
    simp only [Expr.FreeIn]
    exact builtp_free kvs bound hn hq h1
  | .bin op l r, Γ, e, bound, hn, hq, h => by
    simp only [Built] at h
    obtain ⟨l', r', h1, h2, -, h3⟩ := h
    simp only [Raw.uses, Raw.attrNames, List.mem_append, List.mem_cons, or_imp, forall_and, forall_eq] at hn hq
    split at h3
    · exact folds_free bound h3
    · subst h3
      simp only [Expr.FreeIn]
      exact ⟨built_free l bound hn.1 hq.1 h1, built_free r bound hn.2 hq.2 h2⟩
  | .comp result var iterable cond, Γ, e, bound, hn, hq, h => by
    simp only [Built] at h
    obtain ⟨it, t, c, r, h1, -, h2, h3, rfl⟩ := h
    simp only [Raw.uses, Raw.attrNames, List.mem_append, List.mem_cons, or_imp, forall_and, forall_eq] at hn hq
    simp only [Expr.FreeIn]
    exact ⟨built_free iterable bound hn.1 hq.1.2 h1, built_free cond _ hn.2.1 hq.2 h2,
      built_free result _ hn.2.2 hq.1.1 h3⟩
  | .contains l r, Γ, e, bound, hn, hq, h => by
    simp only [Built] at h
    obtain ⟨l', r', h1, h2, -, h3⟩ := h
    simp only [Raw.uses, Raw.attrNames, List.mem_append, List.mem_cons, or_imp, forall_and, forall_eq] at hn hq
    split at h3
    · obtain ⟨v, -, rfl⟩ := h3
      simp [Expr.FreeIn]
    · subst h3
      simp only [Expr.FreeIn]
      exact ⟨built_free l bound hn.1 hq.1 h1, built_free r bound hn.2 hq.2 h2⟩
  | .getAttr o name safe, Γ, e, bound, hn, hq, h => by
    simp only [Built] at h
    obtain ⟨o', h1, -, h3⟩ := h
    simp only [Raw.uses, Raw.attrNames, List.mem_append, List.mem_cons, or_imp, forall_and, forall_eq] at hn hq
    split at h3
    · obtain ⟨e', hf, rfl⟩ := h3
      exact attrLit_free (folds_free bound hf)
    · subst h3
      simp only [Expr.FreeIn]
      exact ⟨hq.1, built_free o bound hn hq.2 h1⟩
  | .getItem l r safe, Γ, e, bound, hn, hq, h => by
    simp only [Built] at h
    obtain ⟨l', r', h1, h2, -, h3⟩ := h
    simp only [Raw.uses, Raw.attrNames, List.mem_append, List.mem_cons, or_imp, forall_and, forall_eq] at hn hq
    split at h3
    · subst h3; simp [Expr.FreeIn]
    split at h3
    · exact folds_free bound h3
    · subst h3
      simp only [Expr.FreeIn]
      exact ⟨built_free l bound hn.1 hq.1 h1, built_free r bound hn.2 hq.2 h2⟩
  | .getSlice c a b safe, Γ, e, bound, hn, hq, h => by
    simp only [Built] at h
    obtain ⟨c', a', b', h1, h2, h3, -, h4⟩ := h
    simp only [Raw.uses, Raw.attrNames, List.mem_append, List.mem_cons, or_imp, forall_and, forall_eq] at hn hq
    split at h4
    · exact folds_free bound h4
    · subst h4
      simp only [Expr.FreeIn]
      exact ⟨built_free c bound hn.1 hq.1.1 h1, built_free a bound hn.2.1 hq.1.2 h2,
        built_free b bound hn.2.2 hq.2 h3⟩
  | .call f args, Γ, e, bound, hn, hq, h => by
    simp only [Built] at h
    obtain ⟨f', as, h1, h2, -, h3⟩ := h
    simp only [Raw.uses, Raw.attrNames, List.mem_append, List.mem_cons, or_imp, forall_and, forall_eq] at hn hq
    split at h3
    · exact folds_free bound h3
    · subst h3
      simp only [Expr.FreeIn]
      exact ⟨built_free f bound hn.1 hq.1 h1, builts_free args bound hn.2 hq.2 h2⟩
  | .tern c t f, Γ, e, bound, hn, hq, h => by
    simp only [Built] at h
    obtain ⟨c', t', f', h1, h2, h3, rfl⟩ := h
    simp only [Raw.uses, Raw.attrNames, List.mem_append, List.mem_cons, or_imp, forall_and, forall_eq] at hn hq
    have i1 := built_free c bound hn.1 hq.1.1 h1
    have i2 := built_free t bound hn.2.1 hq.1.2 h2
    have i3 := built_free f bound hn.2.2 hq.2 h3
    unfold mkTern
    split
    · split
      · exact i2
      · exact i3
    · simp only [Expr.FreeIn]
      exact ⟨i1, i2, i3⟩
  | .not x, Γ, e, bound, hn, hq, h => by
    simp only [Built] at h
    obtain ⟨x', h1, h3⟩ := h
    simp only [Raw.uses, Raw.attrNames, List.mem_append, List.mem_cons, or_imp, forall_and, forall_eq] at hn hq
    split at h3
    · obtain ⟨v, -, rfl⟩ := h3
      simp [Expr.FreeIn]
    · subst h3
      simp only [Expr.FreeIn]
      exact built_free x bound hn hq h1
  | .neg x, Γ, e, bound, hn, hq, h => by
    simp only [Built] at h
    obtain ⟨x', h1, h3⟩ := h
    simp only [Raw.uses, Raw.attrNames, List.mem_append, List.mem_cons, or_imp, forall_and, forall_eq] at hn hq
    split at h3
    · obtain ⟨w, v, t, -, -, -, rfl⟩ := h3
      simp [Expr.FreeIn]
    · subst h3
      simp only [Expr.FreeIn]
      exact built_free x bound hn hq h1
theorem builts_free {env : Env} {dct : DecCtx} : ∀ (xs : List Raw) {Γ : List Assignment}
    {es : List Expr} (bound : List String), (∀ x ∈ Raw.usesList bound xs, P x) → (∀ x ∈ Raw.attrNamesList xs, Q x) → BuiltList env dct Γ xs es →
    Expr.FreeInList P Q bound es
  | [], Γ, es, bound, hn, hq, h => by
    simp only [BuiltList] at h
    subst h; simp [Expr.FreeInList]
  | x :: xs, Γ, es, bound, hn, hq, h => by
    simp only [BuiltList] at h
    obtain ⟨e, es', h1, h2, rfl⟩ := h
    simp only [Raw.usesList, Raw.attrNamesList, List.mem_append, or_imp, forall_and] at hn hq
    simp only [Expr.FreeInList]
    exact ⟨built_free x bound hn.1 hq.1 h1, builts_free xs bound hn.2 hq.2 h2⟩
theorem builtp_free {env : Env} {dct : DecCtx} : ∀ (xs : List (Raw × Raw)) {Γ : List Assignment}
    {es : List (Expr × Expr)} (bound : List String), (∀ x ∈ Raw.usesPairs bound xs, P x) → (∀ x ∈ Raw.attrNamesPairs xs, Q x) →
    BuiltPairs env dct Γ xs es → Expr.FreeInPairs P Q bound es
  | [], Γ, es, bound, hn, hq, h => by
    simp only [BuiltPairs] at h
    subst h; simp [Expr.FreeInPairs]
  | (k, v) :: xs, Γ, es, bound, hn, hq, h => by
    simp only [BuiltPairs] at h
    obtain ⟨k', v', es', h1, h2, h3, rfl⟩ := h
    simp only [Raw.usesPairs, Raw.attrNamesPairs, List.mem_append, or_imp, forall_and] at hn hq
    simp only [Expr.FreeInPairs]
    exact ⟨built_free k bound hn.1 hq.1.1 h1, built_free v bound hn.2.1 hq.1.2 h2,
      builtp_free xs bound hn.2.2 hq.2 h3⟩
end

end

/-! ### A rule sees the thing through its free names only -/

/-- the same outcome, variables, groups and symbols, whatever the logs are, when the variables are `S` -/
def FreeRel (S : List Assignment) {α : Type} (m m' : M α) : Prop :=
  ∀ g sy lg lg', ∃ x g' sy' lg1 lg1', m ⟨S, g, sy, lg⟩ = (x, ⟨S, g', sy', lg1⟩) ∧
    m' ⟨S, g, sy, lg'⟩ = (x, ⟨S, g', sy', lg1'⟩)

theorem freeRel_base (S : List Assignment) : RelBase (FreeRel S) where
  lift x := fun g sy lg lg' => ⟨x, g, sy, lg, lg', rfl, rfl⟩
  bind := by
    intro α β m m' f f' hm hf g sy lg lg'
    obtain ⟨x, g1, sy1, l1, l1', h1, h2⟩ := hm g sy lg lg'
    cases x with
    | error e => exact ⟨.error e, g1, sy1, l1, l1', M.bind_error h1, M.bind_error h2⟩
    | ok a =>
      obtain ⟨y, g2, sy2, l2, l2', h3, h4⟩ := hf a g1 sy1 l1 l1'
      exact ⟨y, g2, sy2, l2, l2', (M.bind_ok h1).trans h3, (M.bind_ok h2).trans h4⟩
  setGroups v _ := fun g sy lg lg' => ⟨.ok (), v, sy, _, _, rfl, rfl⟩
  logCall f args α x := fun g sy lg lg' => ⟨x, g, sy, _, _, rfl, rfl⟩
  rethrow := by
    intro α e m m' hm g sy lg lg'
    obtain ⟨x, g1, sy1, l1, l1', h1, h2⟩ := hm g sy lg lg'
    cases x with
    | error e' => exact ⟨.error e, g1, sy1, l1, l1', by simp [M.catchErr, h1], by simp [M.catchErr, h2]⟩
    | ok a => exact ⟨.ok a, g1, sy1, l1, l1', by simp [M.catchErr, h1], by simp [M.catchErr, h2]⟩

theorem scope_freeRel {S : List Assignment} {a : Assignment} {α : Type} {m m' : M α}
    (h : FreeRel (S ++ [a]) m m') : FreeRel S (M.withScope a m) (M.withScope a m') := by
  intro g sy lg lg'
  obtain ⟨x, g1, sy1, l1, l1', h1, h2⟩ := h g sy lg lg'
  exact ⟨x, g1, sy1, l1, l1', by simp [M.withScope, h1], by simp [M.withScope, h2]⟩

theorem loop_freeRel {S : List Assignment} {var : String} {c r c' r' : M Value}
    (hc : ∀ x, FreeRel (S ++ [⟨var, x, .undefined⟩]) c c') (hr : ∀ x, FreeRel (S ++ [⟨var, x, .undefined⟩]) r r') :
    ∀ xs : List Value, FreeRel S (compM var c r xs) (compM var c' r' xs)
  | [] => (freeRel_base S).pure _
  | x :: xs => by
    have hB := freeRel_base (S ++ [⟨var, x, .undefined⟩])
    have hA := freeRel_base S
    unfold compM
    refine hA.bind (scope_freeRel (hB.bind (hc x) fun a => hB.ite (fun _ => hB.bind (hr x) fun _ => hB.pure _)
        (fun _ => hB.pure _))) fun o => ?_
    exact hA.bind (loop_freeRel hc hr xs) fun vs => hA.pure _

theorem scopeLookup_bound {S : List Assignment} {name : String} (h : name ∈ S.map (·.name)) :
    ∃ a, scopeLookup S name = some a := by
  cases hf : scopeLookup S name with
  | some a => exact ⟨a, rfl⟩
  | none =>
    obtain ⟨a, ha, rfl⟩ := List.mem_map.1 h
    simp only [scopeLookup, List.find?_eq_none] at hf
    exact absurd (by simp) (hf a ha)

theorem symbol_freeRel {S : List Assignment} (env : Env) {thing thing' : Value} {name : String} (rt : DataType) (b : Bool)
    (h : b = false → name ∉ S.map (·.name) → env.resolver thing name = env.resolver thing' name) :
    FreeRel S (evalSymbol env thing name rt b) (evalSymbol env thing' name rt b) := by
  unfold evalSymbol
  refine (freeRel_base S).bind ?_ fun v => (freeRel_base S).lift _
  have hc : FreeRel S (ctxResolve env thing name b) (ctxResolve env thing' name b) := by
    intro g sy lg lg'
    unfold ctxResolve
    cases b with
    | true =>
      cases hb : builtinValue env g name with
      | none => exact ⟨_, g, sy, lg, lg', by simp [hb]; rfl, by simp [hb]⟩
      | some v => exact ⟨.ok v, g, sy, lg, lg', by simp [hb], by simp [hb]⟩
    | false =>
      cases hs : scopeLookup S name with
      | some a => exact ⟨.ok a.value, g, sy, lg, lg', by simp [hs], by simp [hs]⟩
      | none =>
        have h' := h rfl (fun hm => by
          obtain ⟨a, ha⟩ := scopeLookup_bound hm
          rw [hs] at ha; cases ha)
        exact ⟨env.resolver thing name, g, sy, _, _, by simp [hs]; rfl, by simp [hs, h']; rfl⟩
  intro g sy lg lg'
  obtain ⟨x, g1, sy1, l1, l1', h1, h2⟩ := hc g sy lg lg'
  cases x with
  | ok a => exact ⟨.ok a, g1, sy1, l1, l1', by simp [M.catchErr, h1], by simp [M.catchErr, h2]⟩
  | error e =>
    simp only [M.catchErr, h1, h2]
    cases isSymErr e <;> cases env.defaultValue <;> exact ⟨_, g1, sy1, l1, l1', rfl, rfl⟩

theorem attr_freeRel {S : List Assignment} (env : Env) (o : Value) (name : String) :
    FreeRel S (evalGetAttr env o name) (evalGetAttr env o name) := by
  intro g sy lg lg'
  obtain ⟨x, l, h⟩ := evalGetAttr_framed env o name S g
  exact ⟨x, _, sy, _, _, h sy lg, h sy lg'⟩

mutual
theorem eval_freeRel {env : Env} {dc : DecCtx} {thing thing' : Value}
    {P : Use → Prop} {Q : String → Prop} (hP : ∀ n, P ⟨n, false, false⟩ → env.resolver thing n = env.resolver thing' n) : ∀ (e : Expr) {S : List Assignment},
    e.FreeIn P Q (S.map (·.name)) →
    FreeRel S (eval env dc thing e) (eval env dc thing' e)
  | .lit v _, S, h => by simp only [eval]; exact (freeRel_base S).pure _
  | .array xs, S, h => by
    have hB := freeRel_base S
    simp only [Expr.FreeIn] at h
    simp only [eval]
    exact hB.bind (seqM_rel hB (evals_freeRel hP xs h)) fun _ => hB.pure _
  | .set xs, S, h => by
    have hB := freeRel_base S
    simp only [Expr.FreeIn] at h
    simp only [eval]
    exact hB.bind (setM_rel hB _ (evals_freeRel hP xs h) []) fun _ => hB.pure _
  | .mapping kvs, S, h => by
    have hB := freeRel_base S
    simp only [Expr.FreeIn] at h
    simp only [eval]
    rw [← bind_assoc, ← bind_assoc]
    exact hB.bind (mapM_rel hB _ (evalp_freeRel hP kvs h) .nil) fun _ => hB.pure _
  | .bin op l r, S, h => by
    have hB := freeRel_base S
    simp only [Expr.FreeIn] at h
    simp only [eval]
    exact evalBin_rel hB env env.resolver env.typeResolver env.defaultValue dc op
      (eval_freeRel hP l h.1) (eval_freeRel hP r h.2)
  | .comp result var iterable cond, S, h => by
    have hB := freeRel_base S
    simp only [Expr.FreeIn] at h
    obtain ⟨h1, h3, h4⟩ := h
    simp only [eval]
    refine hB.bind (eval_freeRel hP iterable h1) fun it => hB.bind (hB.lift _) fun t =>
      hB.ite (fun _ => hB.bind (hB.lift _) fun xs => hB.bind ?_ fun _ => hB.pure _)
        (fun _ => hB.throw _)
    exact loop_freeRel (fun x => eval_freeRel hP cond (by simpa using h3)) (fun x => eval_freeRel hP result (by simpa using h4)) xs
  | .contains c m, S, h => by
    have hB := freeRel_base S
    simp only [Expr.FreeIn] at h
    simp only [eval]
    exact hB.bind (eval_freeRel hP c h.1) fun _ => hB.bind (hB.lift _) fun _ =>
      hB.bind (eval_freeRel hP m h.2) fun _ => hB.bind (hB.lift _) fun _ => hB.pure _
  | .getAttr o name safe, S, h => by
    have hB := freeRel_base S
    simp only [Expr.FreeIn] at h
    simp only [eval]
    exact hB.bind (eval_freeRel hP o h.2) fun _ => hB.ite (fun _ => hB.pure _)
      (fun _ => attr_freeRel env _ _)
  | .getItem c i safe, S, h => by
    have hB := freeRel_base S
    simp only [Expr.FreeIn] at h
    simp only [eval]
    refine hB.bind (eval_freeRel hP c h.1) fun cv => ?_
    refine hB.ite (fun _ => hB.ite (fun _ => hB.pure _) (fun _ => hB.throw _)) (fun _ => ?_)
    refine hB.bind (eval_freeRel hP i h.2) fun iv => ?_
    refine hB.bind (hB.lift _) fun o => ?_
    cases o
    · exact hB.ite (fun _ => hB.pure _) (fun _ => hB.throw _)
    · exact hB.pure _
  | .getSlice c a b safe, S, h => by
    have hB := freeRel_base S
    simp only [Expr.FreeIn] at h
    simp only [eval]
    refine hB.bind (eval_freeRel hP c h.1) fun cv => ?_
    exact hB.ite (fun _ => hB.ite (fun _ => hB.pure _) (fun _ => hB.throw _)) (fun _ =>
      evalSlice_rel hB env env.resolver env.typeResolver env.defaultValue cv
        (eval_freeRel hP a h.2.1) (eval_freeRel hP b h.2.2))
  | .sym name rt b, S, h => by
    simp only [eval]
    simp only [Expr.FreeIn] at h
    refine symbol_freeRel env rt b fun hb hv => hP name ?_
    subst hb
    simpa [hv] using h
  | .call f args, S, h => by
    have hB := freeRel_base S
    simp only [Expr.FreeIn] at h
    simp only [eval]
    refine hB.bind (eval_freeRel hP f h.1) fun fv => ?_
    refine hB.ite (fun _ => ?_) (fun _ => hB.throw _)
    exact hB.bind (seqM_rel hB (evals_freeRel hP args h.2)) fun vs =>
      evalCall_rel hB env env.resolver env.typeResolver env.defaultValue dc _ _ fv vs
  | .tern c a b, S, h => by
    have hB := freeRel_base S
    simp only [Expr.FreeIn] at h
    simp only [eval]
    exact hB.bind (eval_freeRel hP c h.1) fun v =>
      hB.ite (fun _ => eval_freeRel hP a h.2.1) (fun _ => eval_freeRel hP b h.2.2)
  | .not e, S, h => by
    have hB := freeRel_base S
    simp only [Expr.FreeIn] at h
    simp only [eval]
    exact hB.bind (eval_freeRel hP e h) fun _ => hB.pure _
  | .neg e, S, h => by
    have hB := freeRel_base S
    simp only [Expr.FreeIn] at h
    simp only [eval]
    exact hB.bind (eval_freeRel hP e h) fun _ => hB.lift _
theorem evals_freeRel {env : Env} {dc : DecCtx} {thing thing' : Value}
    {P : Use → Prop} {Q : String → Prop} (hP : ∀ n, P ⟨n, false, false⟩ → env.resolver thing n = env.resolver thing' n) : ∀ (es : List Expr)
    {S : List Assignment}, Expr.FreeInList P Q (S.map (·.name)) es →
    List.Forall₂ (fun m m' => FreeRel S m m') (evals env dc thing es)
      (evals env dc thing' es)
  | [], S, h => .nil
  | e :: es, S, h => by
    simp only [Expr.FreeInList] at h
    exact .cons (eval_freeRel hP e h.1) (evals_freeRel hP es h.2)
theorem evalp_freeRel {env : Env} {dc : DecCtx} {thing thing' : Value}
    {P : Use → Prop} {Q : String → Prop} (hP : ∀ n, P ⟨n, false, false⟩ → env.resolver thing n = env.resolver thing' n) : ∀ (es : List (Expr × Expr))
    {S : List Assignment}, Expr.FreeInPairs P Q (S.map (·.name)) es →
    RelPairs (FreeRel S) (evalPairs env dc thing es) (evalPairs env dc thing' es)
  | [], S, h => .nil
  | (k, v) :: es, S, h => by
    simp only [Expr.FreeInPairs] at h
    exact .cons ⟨eval_freeRel hP k h.1, eval_freeRel hP v h.2.1⟩ (evalp_freeRel hP es h.2.2)
end

/-- **C58.** What evaluating the rule returns or raises depends on the thing only through what the resolver answers for
the names without `$` that the rule takes from outside (so not those bound by its comprehensions). -/
theorem depends_on_free_names (codec : LitCodec) (env : Env) (dct : DecCtx) (text : String) (p p' : Proc) (e : Expr)
    (h : p.rule codec env dct text = (.ok e, p')) (raw : Raw) (c : Option String)
    (hp : (parseText codec p.line text).out = .ok (raw, c)) (thing thing' : Value)
    (hr : ∀ n, ⟨n, false, false⟩ ∈ raw.uses [] → env.resolver thing n = env.resolver thing' n) (q : Proc) :
    (q.evaluate env e thing).1 = (q.evaluate env e thing').1 := by
  simp only [Proc.rule, parseRule, hp] at h
  have hb := congrArg Prod.fst h
  have hs := congrArg (fun x => x.2.st) h
  simp only at hb hs
  have hbu := build_built raw (e := e) (s' := p'.st) (Prod.ext hb hs : construct env dct raw p.st = _)
  have hf := built_free (P := (· ∈ raw.uses [])) (Q := fun _ => True) raw [] (fun _ h => h) (fun _ _ => trivial) hbu
  obtain ⟨x, _, _, _, _, h1, h2⟩ := eval_freeRel (env := env) (dc := env.decCtx) (thing := thing) (thing' := thing')
    (P := (· ∈ raw.uses [])) (Q := fun _ => True) hr e (S := []) hf .none q.st.symbols q.st.log q.st.log
  simp only [Proc.evaluate, ruleEval, St.reset]
  exact (congrArg Prod.fst h1).trans (congrArg Prod.fst h2).symm

end RE
