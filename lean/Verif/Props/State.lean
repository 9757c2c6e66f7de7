import Verif.Props.Closure
import Verif.Model.Sample

/-!
# C14, C17, C19, and the scope part of C15: what evaluation does to the thread's storage
-/

namespace RE

set_option linter.unusedSimpArgs false

/-! ## Specification -/

/-- the value of `$re_groups` after a sequence of events: the groups of the last regex match among
them, or the value before -/
def lastMatch (before : Value) (events : List Event) : Value :=
  events.foldl (fun g ev => match ev with | .matched x => x | _ => g) before

/-- the events recorded by a computation -/
def eventsOf {α : Type} (m : M α) (s : St) : List Event := (m s).2.log.drop s.log.length

/-! ## Frame properties -/

/-- The computation reads only the scopes and the groups; it leaves the scopes and the symbols as
they were, appends to the log, and leaves in `groups` the groups of the last match it logged. -/
def Framed {α : Type} (m : M α) : Prop :=
  ∀ sc g, ∃ x l, ∀ sy lg, m ⟨sc, g, sy, lg⟩ = (x, ⟨sc, lastMatch g l, sy, lg ++ l⟩)

theorem framed_closed : UnClosed @Framed where
  lift x := by intro sc g; exact ⟨x, [], fun sy lg => by simp [lastMatch]⟩
  bind := by
    intro α β m f hm hf sc g
    obtain ⟨x, l, h⟩ := hm sc g
    cases x with
    | error e => exact ⟨.error e, l, fun sy lg => M.bind_error (h sy lg)⟩
    | ok a =>
      obtain ⟨y, l', h'⟩ := hf a sc (lastMatch g l)
      refine ⟨y, l ++ l', fun sy lg => ?_⟩
      rw [M.bind_ok (h sy lg), h' sy (lg ++ l)]
      simp [lastMatch]
  withScope := by
    intro α a m hm sc g
    obtain ⟨x, l, h⟩ := hm (sc ++ [a]) g
    exact ⟨x, l, fun sy lg => by simp [M.withScope, h sy lg]⟩
  setGroups := by
    intro v _ sc g
    exact ⟨.ok (), [.matched v], fun sy lg => by simp [recordMatch, M.modify, lastMatch]⟩
  logCall := by
    intro f args α x sc g
    exact ⟨x, [.call f args], fun sy lg => by simp [lastMatch]⟩
  rethrow := by
    intro α e m hm sc g
    obtain ⟨x, l, h⟩ := hm sc g
    cases x with
    | error e' => exact ⟨.error e, l, fun sy lg => by simp [M.catchErr, h sy lg]⟩
    | ok a => exact ⟨.ok a, l, fun sy lg => by simp [M.catchErr, h sy lg]⟩

/-- what symbol and attribute resolution do to the storage -/
theorem ctxResolve_framed (env : Env) (thing : Value) (name : String) (b : Bool) :
    Framed (ctxResolve env thing name b) := by
  intro sc g
  unfold ctxResolve
  cases b with
  | true =>
    cases h : builtinValue env g name with
    | none => exact ⟨.error (.eng (.symbolResolution name)), [], fun sy lg => by simp [h, lastMatch]⟩
    | some v => exact ⟨.ok v, [], fun sy lg => by simp [h, lastMatch]⟩
  | false =>
    cases h : scopeLookup sc name with
    | none => exact ⟨env.resolver thing name, [.resolve thing name], fun sy lg => by simp [h, lastMatch]⟩
    | some a => exact ⟨.ok a.value, [], fun sy lg => by simp [h, lastMatch]⟩

theorem evalSymbol_framed (env : Env) (thing : Value) (name : String) (rt : DataType) (b : Bool) :
    Framed (evalSymbol env thing name rt b) := by
  unfold evalSymbol
  refine framed_closed.bind ?_ fun v => framed_closed.lift _
  intro sc g
  obtain ⟨x, l, h⟩ := ctxResolve_framed env thing name b sc g
  cases x with
  | ok a => exact ⟨.ok a, l, fun sy lg => by simp [M.catchErr, h sy lg]⟩
  | error e =>
    cases h1 : isSymErr e with
    | false => exact ⟨.error e, l, fun sy lg => by simp [M.catchErr, h sy lg, h1]⟩
    | true =>
      cases h2 : env.defaultValue with
      | none => exact ⟨.error e, l, fun sy lg => by simp [M.catchErr, h sy lg, h1]⟩
      | some d => exact ⟨.ok d, l, fun sy lg => by simp [M.catchErr, h sy lg, h1]⟩

theorem evalGetAttr_framed (env : Env) (o : Value) (name : String) :
    Framed (evalGetAttr env o name) := by
  intro sc g
  unfold evalGetAttr
  cases h : resolveAttr env o name with
  | ok v => exact ⟨.ok (newValue env v), [], fun sy lg => by simp [lastMatch]⟩
  | error e =>
    cases h1 : isAttrErr e with
    | false => exact ⟨.error e, [], fun sy lg => by simp [h1, lastMatch]⟩
    | true =>
      obtain ⟨x, l, h2⟩ := ctxResolve_framed env o name false sc g
      cases x with
      | ok v => exact ⟨.ok (newValue env v), l, fun sy lg => by simp [h1, h2 sy lg]⟩
      | error e' =>
        cases h3 : isSymErr e' with
        | false => exact ⟨.error e', l, fun sy lg => by simp [h1, h2 sy lg, h3]⟩
        | true =>
          cases h4 : env.defaultValue with
          | none => exact ⟨.error e, l, fun sy lg => by simp [h1, h2 sy lg, h3]⟩
          | some d => exact ⟨.ok (newValue env d), l, fun sy lg => by simp [h1, h2 sy lg, h3]⟩

/-- every evaluation is framed -/
theorem eval_framed (env : Env) (dc : DecCtx) (thing : Value) (e : Expr) :
    Framed (eval env dc thing e) :=
  eval_un framed_closed dc (fun n rt b _ => evalSymbol_framed env thing n rt b)
    (fun o n _ => evalGetAttr_framed env o n) e e.allNames_trivial

/-! ## C15 (second half): variables do not leak -/

/-- **C15.** Whether an evaluation returns or raises, the variables assigned afterwards are those
assigned before. -/
theorem eval_restores_variables (env : Env) (dc : DecCtx) (thing : Value) (e : Expr) (s : St) :
    (eval env dc thing e s).2.scopes = s.scopes := by
  obtain ⟨x, l, h⟩ := eval_framed env dc thing e s.scopes s.groups
  rw [show s = ⟨s.scopes, s.groups, s.symbols, s.log⟩ from rfl, h]

/-- **C15.** … and so does building an expression (comprehension variables are also assigned while
a rule is constructed). -/
def Scoped {α : Type} (m : M α) : Prop := ∀ s, (m s).2.scopes = s.scopes

theorem scoped_closed : UnClosed @Scoped where
  lift x := fun s => rfl
  bind := by
    intro α β m f hm hf s
    rw [M.bind_apply]
    have := hm s
    rcases h : m s with ⟨_ | a, s'⟩
    · rw [h] at this; exact this
    · rw [h] at this; exact (hf a s').trans this
  withScope := by
    intro α a m hm s
    have := hm { s with scopes := s.scopes ++ [a] }
    simp [M.withScope, this]
  setGroups := fun g _ s => rfl
  logCall := fun f args α x s => rfl
  rethrow := by
    intro α e m hm s
    have := hm s
    rcases h : m s with ⟨_ | a, s'⟩ <;> rw [h] at this <;> simpa [M.catchErr, h] using this

theorem mkSym_scopes (env : Env) (name : String) (b : Bool) : Scoped (mkSym env name b) := by
  intro s
  simp only [mkSym, M.bind_apply, M.modify_apply, ctxResolveType]
  cases b
  · simp only [Bool.false_eq_true, if_false]
    cases scopeLookup s.scopes name <;> simp
    cases env.typeResolver name <;> rfl
  · rfl

theorem construct_restores_variables (env : Env) (dct : DecCtx) (raw : Raw) (s : St) :
    (construct env dct raw s).2.scopes = s.scopes :=
  build_un scoped_closed dct (fun e _ s => eval_restores_variables env dct .none e s)
    (mkSym_scopes env) raw s

/-! ## C17: independence of earlier use of the thread -/

/-- What a thread can have done before with rules that share the Context. -/
inductive Act where
  | evaluate (e : Expr) (thing : Value)
  | isMatch (e : Expr) (thing : Value)
  | filter (e : Expr) (things : List Value)
  | construct (dct : DecCtx) (raw : Raw)
  | isValid (dct : DecCtx) (raw : Raw)

/-- the storage after an action, whether it returned or raised -/
def Act.run (env : Env) : Act → St → St
  | .evaluate e thing, s => (ruleEval env e thing s).2
  | .isMatch e thing, s => (ruleMatches env e thing s).2
  | .filter e things, s => (ruleFilter env e things s).2
  | .construct dct raw, s => (RE.construct env dct raw s).2
  | .isValid dct raw, s => (RE.isValid env dct raw s).2

/-- the storage after a history of actions -/
def runActs (env : Env) (acts : List Act) (s : St) : St := acts.foldl (fun s a => a.run env s) s

/-- **C17.** What an evaluation returns or raises does not depend on the state of the thread's
storage, nor do the resolver and function calls it makes and the groups it leaves. -/
theorem ruleEval_state_independent (env : Env) (e : Expr) (thing : Value) (s s' : St) :
    (ruleEval env e thing s).1 = (ruleEval env e thing s').1 ∧
    eventsOf (ruleEval env e thing) s = eventsOf (ruleEval env e thing) s' ∧
    (ruleEval env e thing s).2.groups = (ruleEval env e thing s').2.groups := by
  obtain ⟨x, l, h⟩ := eval_framed env env.decCtx thing e [] .none
  have key : ∀ s : St, ruleEval env e thing s = (x, ⟨[], lastMatch .none l, s.symbols, s.log ++ l⟩) :=
    fun s => h s.symbols s.log
  simp [eventsOf, key]

/-- **C17.** The outcome of an evaluation is the same after any history of evaluations (including
raising ones), filters, and rule constructions in the same thread as in a fresh thread. -/
theorem evaluation_independent_of_history (env : Env) (acts : List Act) (e : Expr) (thing : Value) :
    (ruleEval env e thing (runActs env acts St.init)).1 = (ruleEval env e thing St.init).1 :=
  (ruleEval_state_independent env e thing _ _).1

/-- `ruleMatches` is `ruleEval` followed by a truth test -/
theorem ruleMatches_state (env : Env) (e : Expr) (thing : Value) (s : St) :
    (ruleMatches env e thing s).2 = (ruleEval env e thing s).2 := by
  unfold ruleMatches
  rw [M.bind_apply]
  rcases ruleEval env e thing s with ⟨_ | v, s'⟩ <;> rfl

theorem ruleEval_scopes (env : Env) (e : Expr) (thing : Value) (s : St) :
    (ruleEval env e thing s).2.scopes = [] := eval_restores_variables env _ _ e s.reset

theorem ruleFilter_scopes (env : Env) (e : Expr) (things : List Value) (s : St)
    (h : s.scopes = []) : (ruleFilter env e things s).2.scopes = [] := by
  induction things generalizing s with
  | nil => exact h
  | cons t ts ih =>
    have hm : (ruleMatches env e t s).2.scopes = [] := by
      rw [ruleMatches_state]; exact ruleEval_scopes env e t s
    unfold ruleFilter
    rcases hr : ruleMatches env e t s with ⟨_ | b, s'⟩
    · rw [hr] at hm; exact hm
    · rw [hr] at hm; exact ih s' hm

theorem act_scopes (env : Env) (a : Act) (s : St) (h : s.scopes = []) : (a.run env s).scopes = [] := by
  cases a with
  | evaluate e t => exact ruleEval_scopes env e t s
  | isMatch e t =>
    simp only [Act.run]
    rw [ruleMatches_state]; exact ruleEval_scopes env e t s
  | filter e ts => exact ruleFilter_scopes env e ts s h
  | construct dct raw => exact (construct_restores_variables env dct raw s).trans h
  | isValid dct raw =>
    have := (construct_restores_variables env dct raw s).trans h
    simp only [Act.run, isValid]
    rcases hc : RE.construct env dct raw s with ⟨(_ | _) | _, s'⟩ <;> rw [hc] at this <;> exact this

/-- **C15/C17.** Between operations no comprehension variable is assigned. -/
theorem no_variables_between_operations (env : Env) (acts : List Act) :
    (runActs env acts St.init).scopes = [] := by
  suffices ∀ s : St, s.scopes = [] → (runActs env acts s).scopes = [] from this _ rfl
  induction acts with
  | nil => intro s h; exact h
  | cons a as ih => intro s h; exact ih _ (act_scopes env a s h)

/-- A construction reads only the scopes; symbols and log grow, the groups may be overwritten. -/
def Framed2 {α : Type} (m : M α) : Prop :=
  ∀ sc, ∃ x sy' l, ∀ g sy lg, m ⟨sc, g, sy, lg⟩ = (x, ⟨sc, lastMatch g l, sy' ++ sy, lg ++ l⟩)

theorem framed2_closed : UnClosed @Framed2 where
  lift x := by intro sc; exact ⟨x, [], [], fun g sy lg => by simp [lastMatch]⟩
  bind := by
    intro α β m f hm hf sc
    obtain ⟨x, sy', l, h⟩ := hm sc
    cases x with
    | error e => exact ⟨.error e, sy', l, fun g sy lg => M.bind_error (h g sy lg)⟩
    | ok a =>
      obtain ⟨y, sy'', l', h'⟩ := hf a sc
      refine ⟨y, sy'' ++ sy', l ++ l', fun g sy lg => ?_⟩
      rw [M.bind_ok (h g sy lg), h']
      simp [lastMatch]
  withScope := by
    intro α a m hm sc
    obtain ⟨x, sy', l, h⟩ := hm (sc ++ [a])
    exact ⟨x, sy', l, fun g sy lg => by simp [M.withScope, h g sy lg]⟩
  setGroups := by
    intro v _ sc
    exact ⟨.ok (), [], [.matched v], fun g sy lg => by simp [recordMatch, M.modify, lastMatch]⟩
  logCall := by
    intro f args α x sc
    exact ⟨x, [], [.call f args], fun g sy lg => by simp [lastMatch]⟩
  rethrow := by
    intro α e m hm sc
    obtain ⟨x, sy', l, h⟩ := hm sc
    cases x with
    | error e' => exact ⟨.error e, sy', l, fun g sy lg => by simp [M.catchErr, h g sy lg]⟩
    | ok a => exact ⟨.ok a, sy', l, fun g sy lg => by simp [M.catchErr, h g sy lg]⟩

theorem evalGetAttr_framed2 (env : Env) (o : Value) (name : String) :
    Framed2 (evalGetAttr env o name) := by
  intro sc
  have hc : ∃ x l, ∀ g sy lg, ctxResolve env o name false ⟨sc, g, sy, lg⟩ =
      (x, ⟨sc, lastMatch g l, sy, lg ++ l⟩) := by
    unfold ctxResolve
    cases h : scopeLookup sc name with
    | none => exact ⟨env.resolver o name, [.resolve o name], fun g sy lg => by simp [h, lastMatch]⟩
    | some a => exact ⟨.ok a.value, [], fun g sy lg => by simp [h, lastMatch]⟩
  obtain ⟨x, l, h2⟩ := hc
  unfold evalGetAttr
  cases h : resolveAttr env o name with
  | ok v => exact ⟨.ok (newValue env v), [], [], fun g sy lg => by simp [lastMatch]⟩
  | error e =>
    cases h1 : isAttrErr e with
    | false => exact ⟨.error e, [], [], fun g sy lg => by simp [h1, lastMatch]⟩
    | true =>
      cases x with
      | ok v => exact ⟨.ok (newValue env v), [], l, fun g sy lg => by simp [h1, h2 g sy lg]⟩
      | error e' =>
        cases h3 : isSymErr e' with
        | false => exact ⟨.error e', [], l, fun g sy lg => by simp [h1, h2 g sy lg, h3]⟩
        | true =>
          cases h4 : env.defaultValue with
          | none => exact ⟨.error e, [], l, fun g sy lg => by simp [h1, h2 g sy lg, h3]⟩
          | some d => exact ⟨.ok (newValue env d), [], l, fun g sy lg => by simp [h1, h2 g sy lg, h3]⟩

theorem mkSym_framed2 (env : Env) (name : String) (b : Bool) : Framed2 (mkSym env name b) := by
  intro sc
  cases b with
  | true => exact ⟨.ok (.sym name (builtinType name) true), [name], [], fun g sy lg => by
      simp only [mkSym, M.bind_apply, M.modify_apply, ctxResolveType, lastMatch]; simp⟩
  | false =>
    cases h : scopeLookup sc name with
    | some a => exact ⟨.ok (.sym name a.type false), [name], [], fun g sy lg => by
        simp only [mkSym, M.bind_apply, M.modify_apply, ctxResolveType, h, lastMatch]; simp⟩
    | none =>
      cases h' : env.typeResolver name with
      | error e => exact ⟨.error e, [name], [], fun g sy lg => by
          simp only [mkSym, M.bind_apply, M.modify_apply, ctxResolveType, h, h', lastMatch]; simp⟩
      | ok t => exact ⟨.ok (.sym name t false), [name], [], fun g sy lg => by
          simp only [mkSym, M.bind_apply, M.modify_apply, ctxResolveType, h, h', lastMatch]; simp⟩

theorem construct_framed2 (env : Env) (dct : DecCtx) (raw : Raw) : Framed2 (construct env dct raw) :=
  build_un framed2_closed dct
    (fun e he => eval_un framed2_closed dct (P := fun _ _ _ => False) (Q := fun _ => True)
      (fun _ _ _ h => h.elim) (fun o n _ => evalGetAttr_framed2 env o n) e he)
    (mkSym_framed2 env) raw

/-- **C17.** Rule construction, too, has the same outcome after any history as in a fresh thread. -/
theorem construction_independent_of_history (env : Env) (acts : List Act) (dct : DecCtx) (raw : Raw) :
    (construct env dct raw (runActs env acts St.init)).1 = (construct env dct raw St.init).1 := by
  obtain ⟨x, sy', l, h⟩ := construct_framed2 env dct raw []
  have hs := no_variables_between_operations env acts
  generalize runActs env acts St.init = s at hs
  obtain ⟨sc, g, sy, lg⟩ := s
  simp only at hs
  subst hs
  rw [h g sy lg, show St.init = ⟨[], .none, [], []⟩ from rfl, h]

/-- A history in which a regex match has set `$re_groups` and an evaluation raised: the next
evaluation of `$re_groups` still returns null. -/
example :
    let acts := [Act.evaluate (.bin (.fuzzy false false) (.lit (.str "ab") .string)
        (.lit (.str "a") .string)) .none, .evaluate (.sym "nope" .undefined false) .none]
    (runActs sampleEnv [Act.evaluate (.bin (.fuzzy false false) (.lit (.str "ab") .string)
      (.lit (.str "a") .string)) .none] St.init).groups = .tuple [.str "a"] ∧
    (ruleEval sampleEnv (.sym "re_groups" .undefined true) .none
      (runActs sampleEnv acts St.init)).1 = .ok .none := by
  decide +kernel

/-! ## C19: `$re_groups` -/

/-- **C19.** Evaluation starts with `$re_groups` null and changes it only by a regex match: after
any (sub-)evaluation it holds the groups of the last match made by that evaluation, or what it held
before if there was none. -/
theorem re_groups_is_last_match (env : Env) (dc : DecCtx) (thing : Value) (e : Expr) (s : St) :
    (eval env dc thing e s).2.groups = lastMatch s.groups (eventsOf (eval env dc thing e) s) := by
  obtain ⟨x, l, h⟩ := eval_framed env dc thing e s.scopes s.groups
  have := h s.symbols s.log
  simp only [eventsOf]
  rw [show s = ⟨s.scopes, s.groups, s.symbols, s.log⟩ from rfl, this]
  simp

/-- **C19.** A rule evaluation begins with `$re_groups` null: whatever happened before, the groups
after it are those of the last match it made itself, or null. -/
theorem rule_re_groups (env : Env) (e : Expr) (thing : Value) (s : St) :
    (ruleEval env e thing s).2.groups =
      lastMatch .none (eventsOf (ruleEval env e thing) s) :=
  re_groups_is_last_match env env.decCtx thing e s.reset

/-- **C19.** The symbol `$re_groups` evaluates to the recorded groups (null if there was no match). -/
theorem re_groups_symbol (env : Env) (dc : DecCtx) (thing : Value) (s : St) :
    eval env dc thing (.sym "re_groups" .undefined true) s = (.ok (newValue env s.groups), s) := by
  simp [eval, evalSymbol, ctxResolve, builtinValue, M.bind_apply, M.catchErr, checkSymbol,
    DataType.eq]

/-- **C19.** The regex operators: on a match the groups of this match are recorded, otherwise
nothing changes. -/
theorem regex_records_groups (env : Env) (dc : DecCtx) (thing : Value) (search negate : Bool)
    (l r : Expr) (s s1 s2 : St) (text pattern : String)
    (hl : eval env dc thing l s = (.ok (.str text), s1))
    (hr : eval env dc thing r s1 = (.ok (.str pattern), s2))
    (hv : env.reValid pattern = true) :
    match env.reRun search pattern text with
    | none => eval env dc thing (.bin (.fuzzy search negate) l r) s = (.ok (.bool negate), s2)
    | some gs => ∃ s3, eval env dc thing (.bin (.fuzzy search negate) l r) s = (.ok (.bool (!negate)), s3) ∧
        s3.groups = .tuple (gs.map fun g => (g.map Value.str).getD .none) := by
  have e1 : ∀ x, eval env dc thing (.bin (.fuzzy search negate) l r) s = x ↔
      opFuzzy env search negate (.str text) (.str pattern) s2 = x := by
    intro x
    simp only [eval, evalBin]
    rw [M.bind_ok hl]
    simp only
    rw [M.bind_ok hr]
  cases h : env.reRun search pattern text with
  | none =>
    rw [e1]
    simp [opFuzzy, hv, h]
  | some gs =>
    simp only [e1]
    refine ⟨_, by simp [opFuzzy, hv, h, M.bind_apply, recordMatch]; rfl, ?_⟩
    simp only
    congr 1
    apply List.map_congr_left
    intro g _
    cases g <;> rfl

/-- Two matches in one evaluation: the second one determines `$re_groups`. -/
example : (ruleEval sampleEnv (.bin .and
      (.bin (.fuzzy true false) (.sym "x" .undefined false) (.lit (.str "b") .string))
      (.bin (.fuzzy true false) (.sym "x" .undefined false) (.lit (.str "c") .string)))
      (dictOf [("x", .str "abc")]) St.init).2.groups = .tuple [.str "c"] := by
  decide +kernel

/-- **C19 is false at the level of rule texts**: a regex operator between constants is evaluated
when the rule is constructed and its groups are lost.  `("abc" =~ "a") ? $re_groups : "no"`
evaluates to null although the operator matched. -/
theorem re_groups_of_constant_match_false :
    runRaw sampleEnv (.tern (.bin (.fuzzy false false) (.lit (.str "abc")) (.lit (.str "a")))
      (.sym "re_groups" true) (.lit (.str "no"))) .none = .ok .none := by
  decide +kernel

/-! ## C14: `Context.symbols` -/

mutual
/-- the names used after a dot in a parse tree -/
def Raw.attrNames : Raw → List String
  | .lit _ | .floatLit _ | .datetimeLit _ | .timedeltaLit _ => []
  | .array xs => Raw.attrNamesList xs
  | .set xs => Raw.attrNamesList xs
  | .mapping kvs => Raw.attrNamesPairs kvs
  | .bin _ l r => l.attrNames ++ r.attrNames
  | .comp result _ iterable cond => result.attrNames ++ iterable.attrNames ++ cond.attrNames
  | .contains c m => c.attrNames ++ m.attrNames
  | .getAttr o name _ => name :: o.attrNames
  | .getItem c i _ => c.attrNames ++ i.attrNames
  | .getSlice c a b _ => c.attrNames ++ a.attrNames ++ b.attrNames
  | .sym _ _ => []
  | .call f args => f.attrNames ++ Raw.attrNamesList args
  | .tern c t f => c.attrNames ++ t.attrNames ++ f.attrNames
  | .not e => e.attrNames
  | .neg e => e.attrNames
/-- members -/
def Raw.attrNamesList : List Raw → List String
  | [] => []
  | x :: xs => x.attrNames ++ Raw.attrNamesList xs
/-- items -/
def Raw.attrNamesPairs : List (Raw × Raw) → List String
  | [] => []
  | (k, v) :: xs => k.attrNames ++ v.attrNames ++ Raw.attrNamesPairs xs
end

/-- the resolver calls among the events concern the thing and a name of `S`, or an attribute name -/
def Looks (thing : Value) (S : String → Prop) (A : String → Prop) {α : Type} (m : M α) : Prop :=
  ∀ s, ∃ l, (m s).2.log = s.log ++ l ∧
    ∀ o n, Event.resolve o n ∈ l → (o = thing ∧ S n) ∨ A n

theorem looks_closed (thing : Value) (S A : String → Prop) : UnClosed (@Looks thing S A) where
  lift x := fun s => ⟨[], by simp⟩
  bind := by
    intro α β m f hm hf s
    obtain ⟨l, h1, h2⟩ := hm s
    rw [M.bind_apply]
    rcases h : m s with ⟨e | a, s'⟩
    · rw [h] at h1; exact ⟨l, h1, h2⟩
    · rw [h] at h1
      obtain ⟨l', h3, h4⟩ := hf a s'
      refine ⟨l ++ l', ?_, ?_⟩
      · simp only
        rw [h3, h1, List.append_assoc]
      · intro o n ho
        rcases List.mem_append.1 ho with ho | ho
        · exact h2 o n ho
        · exact h4 o n ho
  withScope := by
    intro α a m hm s
    obtain ⟨l, h1, h2⟩ := hm { s with scopes := s.scopes ++ [a] }
    exact ⟨l, by simpa [M.withScope] using h1, h2⟩
  setGroups := fun g _ s => ⟨[.matched g], by simp [recordMatch]⟩
  logCall := fun f args α x s => ⟨[.call f args], by simp⟩
  rethrow := by
    intro α e m hm s
    obtain ⟨l, h1, h2⟩ := hm s
    rcases h : m s with ⟨e' | a, s'⟩ <;> rw [h] at h1 <;>
      exact ⟨l, by simpa [M.catchErr, h] using h1, h2⟩

theorem ctxResolve_looks (env : Env) (thing : Value) (name : String) (b : Bool) (s : St) :
    ∃ l, (ctxResolve env thing name b s).2.log = s.log ++ l ∧
      ∀ o n, Event.resolve o n ∈ l → o = thing ∧ n = name := by
  unfold ctxResolve
  cases b with
  | true =>
    refine ⟨[], ?_, by simp⟩
    simp only [if_true]
    cases builtinValue env s.groups name <;> simp
  | false =>
    cases h : scopeLookup s.scopes name with
    | none => exact ⟨[.resolve thing name], by simp⟩
    | some a => exact ⟨[], by simp⟩

theorem evalSymbol_looks (env : Env) (thing : Value) (name : String) (rt : DataType) (b : Bool)
    (S A : String → Prop) (h : S name) : Looks thing S A (evalSymbol env thing name rt b) := by
  unfold evalSymbol
  refine (looks_closed thing S A).bind ?_ fun v => (looks_closed thing S A).lift _
  intro s
  obtain ⟨l, h1, h2⟩ := ctxResolve_looks env thing name b s
  refine ⟨l, ?_, fun o n ho => .inl ?_⟩
  · simp only [M.catchErr]
    rcases hr : ctxResolve env thing name b s with ⟨e | v, s'⟩
    · rw [hr] at h1
      cases hs : isSymErr e <;> cases hd : env.defaultValue <;> simpa [hs, hd] using h1
    · rw [hr] at h1; exact h1
  · obtain ⟨rfl, rfl⟩ := h2 o n ho
    exact ⟨rfl, h⟩

theorem evalGetAttr_looks (env : Env) (thing o : Value) (name : String) (S A : String → Prop)
    (h : A name) : Looks thing S A (evalGetAttr env o name) := by
  intro s
  obtain ⟨l, h1, h2⟩ := ctxResolve_looks env o name false s
  unfold evalGetAttr
  cases resolveAttr env o name with
  | ok v => exact ⟨[], by simp⟩
  | error e =>
    cases he : isAttrErr e with
    | false => exact ⟨[], by simp [he]⟩
    | true =>
      refine ⟨l, ?_, fun o n ho => .inr ?_⟩
      · simp only [he, if_true]
        rcases hr : ctxResolve env o name false s with ⟨e' | v, s'⟩
        · rw [hr] at h1
          cases h3 : isSymErr e' <;> cases h4 : env.defaultValue <;> simpa [h3]
        · rw [hr] at h1; exact h1
      · obtain ⟨-, rfl⟩ := h2 o n ho
        exact h

mutual
theorem Expr.allNames_mono {P P' : String → DataType → Bool → Prop} {Q Q' : String → Prop}
    (hP : ∀ n rt b, P n rt b → P' n rt b) (hQ : ∀ n, Q n → Q' n) :
    ∀ e : Expr, e.allNames P Q → e.allNames P' Q'
  | .lit _ _, _ => by simp [Expr.allNames]
  | .array xs, h => by
    simp only [Expr.allNames] at h ⊢; exact Expr.allNamesList_mono hP hQ xs h
  | .set xs, h => by
    simp only [Expr.allNames] at h ⊢; exact Expr.allNamesList_mono hP hQ xs h
  | .mapping kvs, h => by
    simp only [Expr.allNames] at h ⊢; exact Expr.allNamesPairs_mono hP hQ kvs h
  | .bin _ l r, h => by
    simp only [Expr.allNames] at h ⊢
    exact ⟨l.allNames_mono hP hQ h.1, r.allNames_mono hP hQ h.2⟩
  | .comp a _ b c, h => by
    simp only [Expr.allNames] at h ⊢
    exact ⟨a.allNames_mono hP hQ h.1, b.allNames_mono hP hQ h.2.1, c.allNames_mono hP hQ h.2.2⟩
  | .contains l r, h => by
    simp only [Expr.allNames] at h ⊢
    exact ⟨l.allNames_mono hP hQ h.1, r.allNames_mono hP hQ h.2⟩
  | .getAttr o n _, h => by
    simp only [Expr.allNames] at h ⊢; exact ⟨o.allNames_mono hP hQ h.1, hQ _ h.2⟩
  | .getItem l r _, h => by
    simp only [Expr.allNames] at h ⊢
    exact ⟨l.allNames_mono hP hQ h.1, r.allNames_mono hP hQ h.2⟩
  | .getSlice a b c _, h => by
    simp only [Expr.allNames] at h ⊢
    exact ⟨a.allNames_mono hP hQ h.1, b.allNames_mono hP hQ h.2.1, c.allNames_mono hP hQ h.2.2⟩
  | .sym _ _ _, h => by simp only [Expr.allNames] at h ⊢; exact hP _ _ _ h
  | .call f args, h => by
    simp only [Expr.allNames] at h ⊢
    exact ⟨f.allNames_mono hP hQ h.1, Expr.allNamesList_mono hP hQ args h.2⟩
  | .tern a b c, h => by
    simp only [Expr.allNames] at h ⊢
    exact ⟨a.allNames_mono hP hQ h.1, b.allNames_mono hP hQ h.2.1, c.allNames_mono hP hQ h.2.2⟩
  | .not e, h => by simp only [Expr.allNames] at h ⊢; exact e.allNames_mono hP hQ h
  | .neg e, h => by simp only [Expr.allNames] at h ⊢; exact e.allNames_mono hP hQ h
theorem Expr.allNamesList_mono {P P' : String → DataType → Bool → Prop} {Q Q' : String → Prop}
    (hP : ∀ n rt b, P n rt b → P' n rt b) (hQ : ∀ n, Q n → Q' n) :
    ∀ es : List Expr, Expr.allNamesList P Q es → Expr.allNamesList P' Q' es
  | [], _ => by simp [Expr.allNamesList]
  | e :: es, h => by
    simp only [Expr.allNamesList] at h ⊢
    exact ⟨e.allNames_mono hP hQ h.1, Expr.allNamesList_mono hP hQ es h.2⟩
theorem Expr.allNamesPairs_mono {P P' : String → DataType → Bool → Prop} {Q Q' : String → Prop}
    (hP : ∀ n rt b, P n rt b → P' n rt b) (hQ : ∀ n, Q n → Q' n) :
    ∀ es : List (Expr × Expr), Expr.allNamesPairs P Q es → Expr.allNamesPairs P' Q' es
  | [], _ => by simp [Expr.allNamesPairs]
  | (k, v) :: es, h => by
    simp only [Expr.allNamesPairs] at h ⊢
    exact ⟨k.allNames_mono hP hQ h.1, v.allNames_mono hP hQ h.2.1,
      Expr.allNamesPairs_mono hP hQ es h.2.2⟩
end

theorem M.bind_eq_ok {α β : Type} {m : M α} {f : α → M β} {s s' : St} {b : β} :
    (m >>= f) s = (.ok b, s') ↔ ∃ a s1, m s = (.ok a, s1) ∧ f a s1 = (.ok b, s') := by
  rw [M.bind_apply]
  rcases h : m s with ⟨e | a, s1⟩
  · simp
  · constructor
    · intro h'; exact ⟨a, s1, rfl, h'⟩
    · rintro ⟨a', s1', h1, h2⟩
      simp only [Prod.mk.injEq, Except.ok.injEq] at h1
      obtain ⟨rfl, rfl⟩ := h1
      exact h2

theorem M.pure_eq_ok {α : Type} {a b : α} {s s' : St} :
    (Pure.pure a : M α) s = (.ok b, s') ↔ a = b ∧ s = s' := by simp

theorem M.lift_eq_ok {α : Type} {x : Except Err α} {b : α} {s s' : St} :
    M.lift x s = (.ok b, s') ↔ x = .ok b ∧ s = s' := by simp

/-- construction only adds symbols -/
theorem build_symbols {env : Env} {dct : DecCtx} {raw : Raw} {s s' : St} {x : Except Err Expr}
    (h : build env dct raw s = (x, s')) : ∀ n ∈ s.symbols, n ∈ s'.symbols := by
  obtain ⟨y, sy', l, hf⟩ := construct_framed2 env dct raw s.scopes
  have := hf s.groups s.symbols s.log
  rw [construct, h] at this
  simp only [Prod.mk.injEq] at this
  rw [this.2]
  intro n hn
  exact List.mem_append_right _ hn

theorem buildList_symbols {env : Env} {dct : DecCtx} {xs : List Raw} {s s' : St} {es : List Expr}
    (h : buildList env dct xs s = (.ok es, s')) : ∀ n ∈ s.symbols, n ∈ s'.symbols := by
  induction xs generalizing s es with
  | nil => simp only [buildList, M.pure_eq_ok] at h; rw [h.2]; exact fun _ h => h
  | cons x xs ih =>
    simp only [buildList, M.bind_eq_ok, M.pure_eq_ok] at h
    obtain ⟨e, s1, h1, es', s2, h2, -, rfl⟩ := h
    exact fun n hn => ih h2 n (build_symbols h1 n hn)

theorem buildPairs_symbols {env : Env} {dct : DecCtx} {xs : List (Raw × Raw)} {s s' : St}
    {es : List (Expr × Expr)} (h : buildPairs env dct xs s = (.ok es, s')) :
    ∀ n ∈ s.symbols, n ∈ s'.symbols := by
  induction xs generalizing s es with
  | nil => simp only [buildPairs, M.pure_eq_ok] at h; rw [h.2]; exact fun _ h => h
  | cons x xs ih =>
    obtain ⟨k, v⟩ := x
    simp only [buildPairs, M.bind_eq_ok, M.pure_eq_ok] at h
    obtain ⟨e, s1, h1, e', s2, h2, es', s3, h3, -, rfl⟩ := h
    exact fun n hn => ih h3 n (build_symbols h2 n (build_symbols h1 n hn))

/-- evaluation leaves the symbols alone -/
theorem eval_symbols {env : Env} {dc : DecCtx} {thing : Value} {e : Expr} {s s' : St}
    {x : Except Err Value} (h : eval env dc thing e s = (x, s')) : s'.symbols = s.symbols := by
  obtain ⟨y, l, hf⟩ := eval_framed env dc thing e s.scopes s.groups
  have := hf s.symbols s.log
  rw [show (⟨s.scopes, s.groups, s.symbols, s.log⟩ : St) = s from rfl, h] at this
  simp only [Prod.mk.injEq] at this
  rw [this.2]

mutual
theorem Expr.ofValue_reduced (off : TzDb) : ∀ v : Value, (Expr.ofValue off v).reduced = true
  | .seq _ xs => by simp only [Expr.ofValue, Expr.reduced]; exact Expr.ofValues_reduced off xs
  | .set xs => by simp only [Expr.ofValue, Expr.reduced]; exact Expr.ofValues_reduced off xs
  | .map _ kvs => by simp only [Expr.ofValue, Expr.reduced]; exact Expr.ofPairs_reduced off kvs
  | .none | .bool _ | .int _ | .float _ | .dec _ | .str _ | .bytes _ | .date _ | .datetime .. |
    .timedelta _ | .builtinFn _ | .userFn _ | .method .. | .obj _ | .undef => by
    simp [Expr.ofValue, Expr.reduced]
theorem Expr.ofValues_reduced (off : TzDb) :
    ∀ vs : List Value, Expr.reducedList (Expr.ofValues off vs) = true
  | [] => by simp [Expr.ofValues, Expr.reducedList]
  | v :: vs => by
    simp [Expr.ofValues, Expr.reducedList, Expr.ofValue_reduced off v, Expr.ofValues_reduced off vs]
theorem Expr.ofPairs_reduced (off : TzDb) :
    ∀ vs : List (Value × Value), Expr.reducedPairs (Expr.ofPairs off vs) = true
  | [] => by simp [Expr.ofPairs, Expr.reducedPairs]
  | (k, v) :: vs => by
    simp [Expr.ofPairs, Expr.reducedPairs, Expr.ofValue_reduced off k, Expr.ofValue_reduced off v,
      Expr.ofPairs_reduced off vs]
end

/-- a folded node is a literal, and the symbols are as before -/
theorem foldLit_ok {env : Env} {dct : DecCtx} {e e' : Expr} {s s' : St}
    (h : foldLit env dct e s = (.ok e', s')) : e'.reduced = true ∧ s'.symbols = s.symbols := by
  simp only [foldLit, M.bind_eq_ok, M.lift_eq_ok] at h
  obtain ⟨v, s1, h1, h2, rfl⟩ := h
  refine ⟨?_, eval_symbols h1⟩
  unfold litOf at h2
  cases hf : fromValue v with
  | error e => rw [hf] at h2; cases h2
  | ok t => rw [hf] at h2; cases h2; exact Expr.ofValue_reduced _ v

section
variable {P : String → DataType → Bool → Prop} {Q : String → Prop} {env : Env} {dct : DecCtx}
  {s s' : St} {e' : Expr}

theorem mkBin_names {op : BinOp} {l r : Expr} (hl : l.allNames P Q) (hr : r.allNames P Q)
    (h : mkBin env dct op l r s = (.ok e', s')) : e'.allNames P Q ∧ s'.symbols = s.symbols := by
  simp only [mkBin, M.bind_eq_ok, M.lift_eq_ok] at h
  obtain ⟨_, s1, ⟨-, rfl⟩, h⟩ := h
  split at h
  · have := foldLit_ok h
    exact ⟨e'.allNames_of_reduced this.1, this.2⟩
  · rw [M.pure_eq_ok] at h
    obtain ⟨rfl, rfl⟩ := h
    simp only [Expr.allNames]
    exact ⟨⟨hl, hr⟩, trivial⟩

theorem mkContains_names {l r : Expr} (hl : l.allNames P Q) (hr : r.allNames P Q)
    (h : mkContains env dct l r s = (.ok e', s')) : e'.allNames P Q ∧ s'.symbols = s.symbols := by
  simp only [mkContains, M.bind_eq_ok, M.lift_eq_ok] at h
  obtain ⟨_, s1, ⟨-, rfl⟩, h⟩ := h
  split at h
  · simp only [M.bind_eq_ok, M.pure_eq_ok] at h
    obtain ⟨v, s2, h1, rfl, rfl⟩ := h
    exact ⟨by simp [Expr.allNames], eval_symbols h1⟩
  · rw [M.pure_eq_ok] at h
    obtain ⟨rfl, rfl⟩ := h
    simp only [Expr.allNames]
    exact ⟨⟨hl, hr⟩, trivial⟩

theorem mkGetAttr_names {o : Expr} {name : String} {safe : Bool} (ho : o.allNames P Q) (hn : Q name)
    (h : mkGetAttr env dct o name safe s = (.ok e', s')) :
    e'.allNames P Q ∧ s'.symbols = s.symbols := by
  simp only [mkGetAttr, M.bind_eq_ok, M.lift_eq_ok] at h
  obtain ⟨_, s1, ⟨-, rfl⟩, h⟩ := h
  split at h
  · simp only [M.bind_eq_ok] at h
    obtain ⟨e1, s2, h1, h2⟩ := h
    have := foldLit_ok h1
    split at h2
    · split at h2 <;> rw [M.pure_eq_ok] at h2 <;> obtain ⟨rfl, rfl⟩ := h2 <;>
        exact ⟨by simp [Expr.allNames], this.2⟩
    · rw [M.pure_eq_ok] at h2
      obtain ⟨rfl, rfl⟩ := h2
      exact ⟨Expr.allNames_of_reduced _ this.1, this.2⟩
  · rw [M.pure_eq_ok] at h
    obtain ⟨rfl, rfl⟩ := h
    simp only [Expr.allNames]
    exact ⟨⟨ho, hn⟩, trivial⟩

theorem mkGetItem_names {l r : Expr} {safe : Bool} (hl : l.allNames P Q) (hr : r.allNames P Q)
    (h : mkGetItem env dct l r safe s = (.ok e', s')) : e'.allNames P Q ∧ s'.symbols = s.symbols := by
  simp only [mkGetItem, M.bind_eq_ok, M.lift_eq_ok] at h
  obtain ⟨_, s1, ⟨-, rfl⟩, h⟩ := h
  split at h
  · rw [M.pure_eq_ok] at h
    obtain ⟨rfl, rfl⟩ := h
    exact ⟨by simp [Expr.allNames], rfl⟩
  · split at h
    · have := foldLit_ok h
      exact ⟨e'.allNames_of_reduced this.1, this.2⟩
    · rw [M.pure_eq_ok] at h
      obtain ⟨rfl, rfl⟩ := h
      simp only [Expr.allNames]
      exact ⟨⟨hl, hr⟩, trivial⟩

theorem mkGetSlice_names {c a b : Expr} {safe : Bool} (hc : c.allNames P Q) (ha : a.allNames P Q)
    (hb : b.allNames P Q) (h : mkGetSlice env dct c a b safe s = (.ok e', s')) :
    e'.allNames P Q ∧ s'.symbols = s.symbols := by
  simp only [mkGetSlice, M.bind_eq_ok, M.lift_eq_ok] at h
  obtain ⟨_, s1, ⟨-, rfl⟩, h⟩ := h
  split at h
  · have := foldLit_ok h
    exact ⟨e'.allNames_of_reduced this.1, this.2⟩
  · rw [M.pure_eq_ok] at h
    obtain ⟨rfl, rfl⟩ := h
    simp only [Expr.allNames]
    exact ⟨⟨hc, ha, hb⟩, trivial⟩

theorem mkCall_names {f : Expr} {args : List Expr} (hf : f.allNames P Q)
    (ha : Expr.allNamesList P Q args) (h : mkCall env dct f args s = (.ok e', s')) :
    e'.allNames P Q ∧ s'.symbols = s.symbols := by
  have fin : ∀ s, (if f.reduced && Expr.reducedList args then foldLit env dct (.call f args)
      else pure (.call f args) : M Expr) s = (.ok e', s') →
      e'.allNames P Q ∧ s'.symbols = s.symbols := by
    intro s h
    split at h
    · have := foldLit_ok h
      exact ⟨e'.allNames_of_reduced this.1, this.2⟩
    · rw [M.pure_eq_ok] at h
      obtain ⟨rfl, rfl⟩ := h
      simp only [Expr.allNames]
      exact ⟨⟨hf, ha⟩, trivial⟩
  unfold mkCall at h
  simp only at h
  by_cases hu : DataType.eq f.rt .undefined = true
  · rw [if_pos hu] at h
    exact fin s h
  · rw [if_neg hu] at h
    simp only [M.bind_eq_ok, M.lift_eq_ok] at h
    obtain ⟨_, s1, ⟨-, rfl⟩, h⟩ := h
    exact fin _ h

theorem mkTern_names {a b c : Expr} (ha : a.allNames P Q) (hb : b.allNames P Q) (hc : c.allNames P Q) :
    (mkTern a b c).allNames P Q := by
  unfold mkTern
  split
  · split <;> assumption
  · simp only [Expr.allNames]; exact ⟨ha, hb, hc⟩

theorem mkNot_names {e : Expr} (he : e.allNames P Q) (h : mkNot env dct e s = (.ok e', s')) :
    e'.allNames P Q ∧ s'.symbols = s.symbols := by
  unfold mkNot at h
  split at h
  · simp only [M.bind_eq_ok, M.pure_eq_ok] at h
    obtain ⟨v, s2, h1, rfl, rfl⟩ := h
    exact ⟨by simp [Expr.allNames], eval_symbols h1⟩
  · rw [M.pure_eq_ok] at h
    obtain ⟨rfl, rfl⟩ := h
    simp only [Expr.allNames]
    exact ⟨he, trivial⟩

theorem mkNeg_names {e : Expr} (he : e.allNames P Q) (h : mkNeg env dct e s = (.ok e', s')) :
    e'.allNames P Q ∧ s'.symbols = s.symbols := by
  unfold mkNeg at h
  split at h
  · split at h
    · simp only [M.bind_eq_ok, M.pure_eq_ok] at h
      obtain ⟨v, s2, h1, rfl, rfl⟩ := h
      exact ⟨by simp [Expr.allNames], eval_symbols h1⟩
    · simp only [M.bind_eq_ok, M.pure_eq_ok] at h
      obtain ⟨v, s2, h1, rfl, rfl⟩ := h
      exact ⟨by simp [Expr.allNames], eval_symbols h1⟩
    · simp at h
  · rw [M.pure_eq_ok] at h
    obtain ⟨rfl, rfl⟩ := h
    simp only [Expr.allNames]
    exact ⟨he, trivial⟩
end

/-- the symbols of the expression are recorded in the state -/
abbrev SymIn (s : St) : String → DataType → Bool → Prop := fun n _ _ => n ∈ s.symbols

theorem SymIn.mono {e : Expr} {s s' : St} {Q Q' : String → Prop}
    (hs : ∀ n ∈ s.symbols, n ∈ s'.symbols) (hQ : ∀ n, Q n → Q' n)
    (h : e.allNames (SymIn s) Q) : e.allNames (SymIn s') Q' :=
  e.allNames_mono (fun n _ _ hn => hs n hn) hQ h

theorem SymIn.mono_eq {e : Expr} {s s' : St} {Q : String → Prop}
    (hs : s'.symbols = s.symbols) (h : e.allNames (SymIn s) Q) : e.allNames (SymIn s') Q :=
  SymIn.mono (fun n hn => hs ▸ hn) (fun _ h => h) h

mutual
/-- names in a constructed expression -/
theorem build_names {env : Env} {dct : DecCtx} : ∀ (raw : Raw) {s s' : St} {e : Expr},
    build env dct raw s = (.ok e, s') → e.allNames (SymIn s') (· ∈ raw.attrNames)
  | .lit v, s, s', e, h => by
    simp only [build, M.lift_eq_ok] at h
    obtain ⟨h, rfl⟩ := h
    cases hf : fromValue v <;> rw [hf] at h <;> cases h
    simp [Expr.allNames]
  | .floatLit str, s, s', e, h => by
    simp only [build, M.lift_eq_ok] at h
    obtain ⟨h, rfl⟩ := h
    cases hf : parseFloat str.toList <;> rw [hf] at h <;> cases h
    simp [Expr.allNames]
  | .datetimeLit str, s, s', e, h => by
    simp only [build, M.lift_eq_ok] at h
    obtain ⟨h, rfl⟩ := h
    cases hf : parseDatetime env str <;> rw [hf] at h <;> cases h
    simp [Expr.allNames]
  | .timedeltaLit str, s, s', e, h => by
    simp only [build, M.lift_eq_ok] at h
    obtain ⟨h, rfl⟩ := h
    cases hf : parseTimedelta str.toList <;> rw [hf] at h <;> cases h
    simp [Expr.allNames]
  | .array xs, s, s', e, h => by
    simp only [build, M.bind_eq_ok, M.pure_eq_ok] at h
    obtain ⟨es, s1, h1, rfl, rfl⟩ := h
    simp only [Expr.allNames, Raw.attrNames]
    exact buildList_names xs h1
  | .set xs, s, s', e, h => by
    simp only [build, M.bind_eq_ok, M.pure_eq_ok] at h
    obtain ⟨es, s1, h1, rfl, rfl⟩ := h
    simp only [Expr.allNames, Raw.attrNames]
    exact buildList_names xs h1
  | .mapping kvs, s, s', e, h => by
    simp only [build, M.bind_eq_ok, M.lift_eq_ok] at h
    obtain ⟨es, s1, h1, h2, rfl⟩ := h
    unfold mkMapping at h2
    cases hm : mkMappingType (memberType (Expr.keyRts es)) (memberType (Expr.valRts es)) true <;>
      rw [hm] at h2 <;> cases h2
    simp only [Expr.allNames, Raw.attrNames]
    exact buildPairs_names kvs h1
  | .bin op l r, s, s', e, h => by
    simp only [build, M.bind_eq_ok] at h
    obtain ⟨l', s1, h1, r', s2, h2, h3⟩ := h
    have hl := build_names l h1
    have hr := build_names r h2
    have := mkBin_names (P := SymIn s2) (Q := (· ∈ (Raw.bin op l r).attrNames))
      (SymIn.mono (build_symbols h2) (fun n hn => by simp [Raw.attrNames, hn]) hl)
      (SymIn.mono (fun _ h => h) (fun n hn => by simp [Raw.attrNames, hn]) hr) h3
    exact SymIn.mono_eq this.2 this.1
  | .comp result var iterable cond, s, s', e, h => by
    simp only [build, M.bind_eq_ok, M.lift_eq_ok, M.pure_eq_ok] at h
    obtain ⟨it, s1, h1, t, s2, ⟨-, rfl⟩, ⟨c, r⟩, s3, h2, rfl, rfl⟩ := h
    simp only [M.withScope] at h2
    rcases hb : (do
      let c ← build env dct cond
      let r ← build env dct result
      pure (c, r) : M (Expr × Expr)) { s1 with scopes := s1.scopes ++ [⟨var, .undef, t⟩] }
      with ⟨x, s4⟩
    rw [hb] at h2
    simp only [Prod.mk.injEq] at h2
    obtain ⟨rfl, rfl⟩ := h2
    simp only [M.bind_eq_ok, M.pure_eq_ok, Prod.mk.injEq] at hb
    obtain ⟨c', s5, h3, r', s6, h4, ⟨rfl, rfl⟩, rfl⟩ := hb
    simp only [Expr.allNames]
    have hi := build_names iterable h1
    have hc := build_names cond h3
    have hr := build_names result h4
    refine ⟨SymIn.mono (fun n hn => hn) (fun n hn => by simp [Raw.attrNames, hn]) hr,
      SymIn.mono (fun n hn => build_symbols h4 n (build_symbols h3 n hn))
        (fun n hn => by simp [Raw.attrNames, hn]) hi,
      SymIn.mono (fun n hn => build_symbols h4 n hn) (fun n hn => by simp [Raw.attrNames, hn]) hc⟩
  | .contains l r, s, s', e, h => by
    simp only [build, M.bind_eq_ok] at h
    obtain ⟨l', s1, h1, r', s2, h2, h3⟩ := h
    have hl := build_names l h1
    have hr := build_names r h2
    have := mkContains_names (P := SymIn s2) (Q := (· ∈ (Raw.contains l r).attrNames))
      (SymIn.mono (build_symbols h2) (fun n hn => by simp [Raw.attrNames, hn]) hl)
      (SymIn.mono (fun _ h => h) (fun n hn => by simp [Raw.attrNames, hn]) hr) h3
    exact SymIn.mono_eq this.2 this.1
  | .getAttr o name safe, s, s', e, h => by
    simp only [build, M.bind_eq_ok] at h
    obtain ⟨o', s1, h1, h3⟩ := h
    have ho := build_names o h1
    have := mkGetAttr_names (P := SymIn s1) (Q := (· ∈ (Raw.getAttr o name safe).attrNames))
      (SymIn.mono (fun _ h => h) (fun n hn => by simp [Raw.attrNames, hn]) ho)
      (by simp [Raw.attrNames]) h3
    exact SymIn.mono_eq this.2 this.1
  | .getItem l r safe, s, s', e, h => by
    simp only [build, M.bind_eq_ok] at h
    obtain ⟨l', s1, h1, r', s2, h2, h3⟩ := h
    have hl := build_names l h1
    have hr := build_names r h2
    have := mkGetItem_names (P := SymIn s2) (Q := (· ∈ (Raw.getItem l r safe).attrNames))
      (SymIn.mono (build_symbols h2) (fun n hn => by simp [Raw.attrNames, hn]) hl)
      (SymIn.mono (fun _ h => h) (fun n hn => by simp [Raw.attrNames, hn]) hr) h3
    exact SymIn.mono_eq this.2 this.1
  | .getSlice c a b safe, s, s', e, h => by
    simp only [build, M.bind_eq_ok] at h
    obtain ⟨a', s1, h1, b', s2, h2, c', s3, h3, h4⟩ := h
    have ha := build_names a h1
    have hb := build_names b h2
    have hc := build_names c h3
    have := mkGetSlice_names (P := SymIn s3) (Q := (· ∈ (Raw.getSlice c a b safe).attrNames))
      (SymIn.mono (fun _ h => h) (fun n hn => by simp [Raw.attrNames, hn]) hc)
      (SymIn.mono (fun n hn => build_symbols h3 n (build_symbols h2 n hn))
        (fun n hn => by simp [Raw.attrNames, hn]) ha)
      (SymIn.mono (build_symbols h3) (fun n hn => by simp [Raw.attrNames, hn]) hb) h4
    exact SymIn.mono_eq this.2 this.1
  | .sym name b, s, s', e, h => by
    simp only [build, mkSym, M.bind_eq_ok, M.pure_eq_ok] at h
    obtain ⟨_, s1, h1, t, s2, h2, rfl, rfl⟩ := h
    simp only [Expr.allNames, SymIn]
    simp only [M.modify_apply, Prod.mk.injEq] at h1
    obtain ⟨-, rfl⟩ := h1
    have : s2.symbols = name :: s.symbols := by
      simp only [ctxResolveType] at h2
      split at h2
      · simp only [Prod.mk.injEq] at h2; rw [← h2.2]
      · split at h2 <;> simp only [Prod.mk.injEq] at h2 <;> rw [← h2.2]
    simp [this]
  | .call f args, s, s', e, h => by
    simp only [build, M.bind_eq_ok] at h
    obtain ⟨f', s1, h1, as, s2, h2, h3⟩ := h
    have hf := build_names f h1
    have ha := buildList_names args h2
    have := mkCall_names (P := SymIn s2) (Q := (· ∈ (Raw.call f args).attrNames))
      (SymIn.mono (buildList_symbols h2) (fun n hn => by simp [Raw.attrNames, hn]) hf)
      (Expr.allNamesList_mono (fun _ _ _ h => h) (fun n hn => by simp [Raw.attrNames, hn]) as ha) h3
    exact SymIn.mono_eq this.2 this.1
  | .tern a b c, s, s', e, h => by
    simp only [build, M.bind_eq_ok, M.pure_eq_ok] at h
    obtain ⟨a', s1, h1, b', s2, h2, c', s3, h3, rfl, rfl⟩ := h
    have ha := build_names a h1
    have hb := build_names b h2
    have hc := build_names c h3
    exact mkTern_names (P := SymIn s3) (Q := (· ∈ (Raw.tern a b c).attrNames))
      (SymIn.mono (fun n hn => build_symbols h3 n (build_symbols h2 n hn))
        (fun n hn => by simp [Raw.attrNames, hn]) ha)
      (SymIn.mono (build_symbols h3) (fun n hn => by simp [Raw.attrNames, hn]) hb)
      (SymIn.mono (fun _ h => h) (fun n hn => by simp [Raw.attrNames, hn]) hc)
  | .not o, s, s', e, h => by
    simp only [build, M.bind_eq_ok] at h
    obtain ⟨o', s1, h1, h3⟩ := h
    have ho := build_names o h1
    have := mkNot_names (P := SymIn s1) (Q := (· ∈ (Raw.not o).attrNames))
      (SymIn.mono (fun _ h => h) (fun n hn => by simp [Raw.attrNames, hn]) ho) h3
    exact SymIn.mono_eq this.2 this.1
  | .neg o, s, s', e, h => by
    simp only [build, M.bind_eq_ok] at h
    obtain ⟨o', s1, h1, h3⟩ := h
    have ho := build_names o h1
    have := mkNeg_names (P := SymIn s1) (Q := (· ∈ (Raw.neg o).attrNames))
      (SymIn.mono (fun _ h => h) (fun n hn => by simp [Raw.attrNames, hn]) ho) h3
    exact SymIn.mono_eq this.2 this.1
theorem buildList_names {env : Env} {dct : DecCtx} : ∀ (xs : List Raw) {s s' : St} {es : List Expr},
    buildList env dct xs s = (.ok es, s') →
    Expr.allNamesList (SymIn s') (· ∈ Raw.attrNamesList xs) es
  | [], s, s', es, h => by
    simp only [buildList, M.pure_eq_ok] at h
    obtain ⟨rfl, rfl⟩ := h
    simp [Expr.allNamesList]
  | x :: xs, s, s', es, h => by
    simp only [buildList, M.bind_eq_ok, M.pure_eq_ok] at h
    obtain ⟨e, s1, h1, es', s2, h2, rfl, rfl⟩ := h
    simp only [Expr.allNamesList]
    exact ⟨SymIn.mono (buildList_symbols h2) (fun n hn => by simp [Raw.attrNamesList, hn])
        (build_names x h1),
      Expr.allNamesList_mono (fun _ _ _ h => h) (fun n hn => by simp [Raw.attrNamesList, hn]) _
        (buildList_names xs h2)⟩
theorem buildPairs_names {env : Env} {dct : DecCtx} : ∀ (xs : List (Raw × Raw)) {s s' : St}
    {es : List (Expr × Expr)}, buildPairs env dct xs s = (.ok es, s') →
    Expr.allNamesPairs (SymIn s') (· ∈ Raw.attrNamesPairs xs) es
  | [], s, s', es, h => by
    simp only [buildPairs, M.pure_eq_ok] at h
    obtain ⟨rfl, rfl⟩ := h
    simp [Expr.allNamesPairs]
  | (k, v) :: xs, s, s', es, h => by
    simp only [buildPairs, M.bind_eq_ok, M.pure_eq_ok] at h
    obtain ⟨e, s1, h1, e', s2, h2, es', s3, h3, rfl, rfl⟩ := h
    simp only [Expr.allNamesPairs]
    exact ⟨SymIn.mono (fun n hn => buildPairs_symbols h3 n (build_symbols h2 n hn))
        (fun n hn => by simp [Raw.attrNamesPairs, hn]) (build_names k h1),
      SymIn.mono (buildPairs_symbols h3) (fun n hn => by simp [Raw.attrNamesPairs, hn])
        (build_names v h2),
      Expr.allNamesPairs_mono (fun _ _ _ h => h) (fun n hn => by simp [Raw.attrNamesPairs, hn]) _
        (buildPairs_names xs h3)⟩
end

/-- **C14.** Let a rule be constructed from a tree, leaving `Context.symbols` as in `s'`.  In every
later evaluation (of any thing, from any state) every resolver call either asks the evaluated thing
for a name in `Context.symbols`, or is an attribute lookup whose name is written after a dot in
the rule. -/
theorem symbols_cover_lookups (env : Env) (dct : DecCtx) (raw : Raw) (s s' : St) (e : Expr)
    (hc : construct env dct raw s = (.ok e, s')) (thing : Value) (s2 : St) (o : Value) (n : String)
    (h : Event.resolve o n ∈ eventsOf (ruleEval env e thing) s2) :
    (o = thing ∧ n ∈ s'.symbols) ∨ n ∈ raw.attrNames := by
  have hn := build_names raw hc
  have := eval_un (looks_closed thing (· ∈ s'.symbols) (· ∈ raw.attrNames)) env.decCtx
    (P := SymIn s') (Q := (· ∈ raw.attrNames))
    (fun n rt b hp => evalSymbol_looks env thing n rt b _ _ hp)
    (fun o n hq => evalGetAttr_looks env thing o n _ _ hq) e hn
  obtain ⟨l, h1, h2⟩ := this s2.reset
  refine h2 o n ?_
  unfold eventsOf at h
  have e1 : (ruleEval env e thing s2).2.log = s2.log ++ l := h1
  rw [e1] at h
  simpa using h

/-- **C14.** For a rule without attribute access, every name the resolver is ever asked for is in
`Context.symbols`. -/
theorem symbols_cover_lookups_no_attributes (env : Env) (dct : DecCtx) (raw : Raw) (s s' : St)
    (e : Expr) (hc : construct env dct raw s = (.ok e, s')) (ha : raw.attrNames = [])
    (thing : Value) (s2 : St) (o : Value) (n : String)
    (h : Event.resolve o n ∈ eventsOf (ruleEval env e thing) s2) : o = thing ∧ n ∈ s'.symbols := by
  rcases symbols_cover_lookups env dct raw s s' e hc thing s2 o n h with h | h
  · exact h
  · rw [ha] at h; cases h

/-- The hypotheses are met: a rule with a comprehension, a symbol and an attribute; the evaluation
calls the resolver for `a` and, as an attribute, for `b`. -/
example :
    let raw := Raw.comp (.bin .add (.sym "x" false) (.getAttr (.sym "m" false) "b" false)) "x"
      (.sym "a" false) (.lit (.bool true))
    let thing := dictOf [("a", .seq .list [.int 1, .int 2]), ("m", dictOf [("b", .int 10)])]
    (∃ e s', construct sampleEnv .default raw St.init = (.ok e, s') ∧
      s'.symbols = ["m", "x", "a"] ∧
      (ruleEval sampleEnv e thing s').1 = .ok (.tuple [.dec (.ofInt 11), .dec (.ofInt 12)]) ∧
      Event.resolve thing "a" ∈ eventsOf (ruleEval sampleEnv e thing) s') := by
  refine ⟨_, _, rfl, ?_⟩
  decide +kernel

end RE
