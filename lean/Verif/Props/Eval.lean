import Verif.Props.State
import Verif.Props.Types

/-!
# C03, C04, C05, C13, C15, C20, C44: operators on arbitrary operand expressions
-/

namespace RE

set_option linter.unusedSimpArgs false

/-! ## C03: operands that are not needed are not evaluated

The right-hand sides below do not mention the skipped operand: it has no effect whatsoever, on the
result, on exceptions, on `$re_groups`, or on the calls made to resolver and functions (all of which
are part of the state). -/

/-- **C03.** `l and r` with a falsy `l`. -/
theorem and_skips_right (env : Env) (dc : DecCtx) (thing : Value) (l r : Expr) (s s1 : St) (v : Value)
    (h : eval env dc thing l s = (.ok v, s1)) (hv : v.truthy = false) :
    eval env dc thing (.bin .and l r) s = (.ok (.bool false), s1) := by
  simp only [eval, evalBin]
  rw [M.bind_ok h]
  simp [hv]

/-- **C03.** `l and r` with a truthy `l`: `r` is evaluated, in the state after `l`, and its truth
value is the result. -/
theorem and_evaluates_right (env : Env) (dc : DecCtx) (thing : Value) (l r : Expr) (s s1 : St)
    (v : Value) (h : eval env dc thing l s = (.ok v, s1)) (hv : v.truthy = true) :
    eval env dc thing (.bin .and l r) s =
      match eval env dc thing r s1 with
      | (.ok w, s2) => (.ok (.bool w.truthy), s2)
      | (.error e, s2) => (.error e, s2) := by
  simp only [eval, evalBin]
  rw [M.bind_ok h]
  simp only [hv, if_true]
  rw [M.bind_apply]
  rcases eval env dc thing r s1 with ⟨_ | _, _⟩ <;> rfl

/-- **C03.** `l or r` with a truthy `l`. -/
theorem or_skips_right (env : Env) (dc : DecCtx) (thing : Value) (l r : Expr) (s s1 : St) (v : Value)
    (h : eval env dc thing l s = (.ok v, s1)) (hv : v.truthy = true) :
    eval env dc thing (.bin .or l r) s = (.ok (.bool true), s1) := by
  simp only [eval, evalBin]
  rw [M.bind_ok h]
  simp [hv]

/-- **C03.** `l or r` with a falsy `l`. -/
theorem or_evaluates_right (env : Env) (dc : DecCtx) (thing : Value) (l r : Expr) (s s1 : St)
    (v : Value) (h : eval env dc thing l s = (.ok v, s1)) (hv : v.truthy = false) :
    eval env dc thing (.bin .or l r) s =
      match eval env dc thing r s1 with
      | (.ok w, s2) => (.ok (.bool w.truthy), s2)
      | (.error e, s2) => (.error e, s2) := by
  simp only [eval, evalBin]
  rw [M.bind_ok h]
  simp only [hv, Bool.false_eq_true, if_false]
  rw [M.bind_apply]
  rcases eval env dc thing r s1 with ⟨_ | _, _⟩ <;> rfl

/-- **C03.** If the left operand raises, the right one is not evaluated. -/
theorem logic_left_raises (env : Env) (dc : DecCtx) (thing : Value) (l r : Expr) (s s1 : St) (e : Err)
    (h : eval env dc thing l s = (.error e, s1)) :
    eval env dc thing (.bin .and l r) s = (.error e, s1) ∧
    eval env dc thing (.bin .or l r) s = (.error e, s1) := by
  simp only [eval, evalBin]
  exact ⟨M.bind_error h, M.bind_error h⟩

/-- **C03.** `c ? t : f` is `t` in the state after `c` if `c` is truthy, otherwise `f`. -/
theorem ternary_evaluates_one (env : Env) (dc : DecCtx) (thing : Value) (c t f : Expr) (s s1 : St)
    (v : Value) (h : eval env dc thing c s = (.ok v, s1)) :
    (v.truthy = true → eval env dc thing (.tern c t f) s = eval env dc thing t s1) ∧
    (v.truthy = false → eval env dc thing (.tern c t f) s = eval env dc thing f s1) := by
  simp only [eval]
  rw [M.bind_ok h]
  constructor <;> intro hv <;> simp [hv]

/-- The skipped operand would raise: `(x and nope)` with `x` false. -/
example : (eval sampleEnv .default (dictOf [("x", .bool false)])
      (.bin .and (.sym "x" .undefined false) (.sym "nope" .undefined false)) St.init).1 =
      .ok (.bool false) ∧
    (eval sampleEnv .default (dictOf [("x", .bool false)]) (.sym "nope" .undefined false) St.init).1 =
      .error (.eng (.symbolResolution "nope")) := by
  decide +kernel

/-- At construction, however, constant parts of unneeded operands are evaluated: `true or (1 / 0)`
cannot be constructed. -/
theorem construction_evaluates_constants :
    runRaw sampleEnv (.bin .or (.lit (.bool true)) (.bin (.arith .tdiv) (.floatLit "1") (.floatLit "0")))
      .none = .error .mismatch := by
  decide +kernel

/-! ## C04: boolean results -/

/-- the operators whose result is documented to be a BOOLEAN -/
def BinOp.isBoolean : BinOp → Bool
  | .and | .or | .eq | .ne | .cmp _ | .fuzzy .. => true
  | .add | .sub | .arith _ | .bit _ | .shift _ => false

theorem opFuzzy_bool {env : Env} {a b : Bool} {l r v : Value} {s s' : St}
    (h : opFuzzy env a b l r s = (.ok v, s')) : ∃ x, v = .bool x := by
  cases r with
  | str p =>
    simp only [opFuzzy] at h
    split at h
    · cases l with
      | str l =>
        simp only at h
        cases hr : env.reRun a p l with
        | none =>
          rw [hr] at h
          simp only [M.pure_eq_ok] at h
          exact ⟨_, h.1.symm⟩
        | some gs =>
          rw [hr] at h
          simp only [M.bind_eq_ok, M.pure_eq_ok] at h
          obtain ⟨_, _, _, rfl, _⟩ := h
          exact ⟨_, rfl⟩
      | _ =>
        simp only [M.pure_eq_ok] at h
        exact ⟨_, h.1.symm⟩
    · simp at h
  | none =>
    cases l <;> simp only [opFuzzy, M.pure_eq_ok] at h <;> exact ⟨_, h.1.symm⟩
  | _ => simp [opFuzzy] at h

theorem evalBin_bool {env : Env} {dc : DecCtx} {op : BinOp} (hop : op.isBoolean = true)
    {l r : M Value} {s s' : St} {v : Value} (h : evalBin env dc op l r s = (.ok v, s')) :
    ∃ b, v = .bool b := by
  cases op with
  | add | sub | arith _ | bit _ | shift _ => simp [BinOp.isBoolean] at hop
  | and =>
    simp only [evalBin, M.bind_eq_ok] at h
    obtain ⟨a, s1, _, h⟩ := h
    split at h
    · simp only [M.bind_eq_ok, M.pure_eq_ok] at h
      obtain ⟨b, s2, _, rfl, _⟩ := h
      exact ⟨_, rfl⟩
    · rw [M.pure_eq_ok] at h
      exact ⟨_, h.1.symm⟩
  | or =>
    simp only [evalBin, M.bind_eq_ok] at h
    obtain ⟨a, s1, _, h⟩ := h
    split at h
    · rw [M.pure_eq_ok] at h
      exact ⟨_, h.1.symm⟩
    · simp only [M.bind_eq_ok, M.pure_eq_ok] at h
      obtain ⟨b, s2, _, rfl, _⟩ := h
      exact ⟨_, rfl⟩
  | eq =>
    simp only [evalBin, M.bind_eq_ok, M.pure_eq_ok] at h
    obtain ⟨a, s1, _, b, s2, _, rfl, _⟩ := h
    exact ⟨_, rfl⟩
  | ne =>
    simp only [evalBin, M.bind_eq_ok, M.pure_eq_ok] at h
    obtain ⟨a, s1, _, b, s2, _, rfl, _⟩ := h
    exact ⟨_, rfl⟩
  | cmp op =>
    simp only [evalBin, M.bind_eq_ok, M.pure_eq_ok] at h
    obtain ⟨a, s1, _, b, s2, _, x, s3, _, rfl, _⟩ := h
    exact ⟨_, rfl⟩
  | fuzzy a b =>
    simp only [evalBin, M.bind_eq_ok] at h
    obtain ⟨x, s1, _, h⟩ := h
    split at h
    · rw [M.bind_eq_ok] at h
      obtain ⟨y, s2, _, h⟩ := h
      exact opFuzzy_bool h
    · rw [M.bind_eq_ok] at h
      obtain ⟨y, s2, _, h⟩ := h
      exact opFuzzy_bool h
    · simp at h

/-- **C04.** A logical, comparison or regex expression that returns, returns True or False. -/
theorem boolean_operators (env : Env) (dc : DecCtx) (thing : Value) (op : BinOp)
    (hop : op.isBoolean = true) (l r : Expr) (s s' : St) (v : Value)
    (h : eval env dc thing (.bin op l r) s = (.ok v, s')) : v = .bool true ∨ v = .bool false := by
  simp only [eval] at h
  obtain ⟨b, rfl⟩ := evalBin_bool hop h
  cases b <;> simp

/-- **C04.** `in`. -/
theorem contains_boolean (env : Env) (dc : DecCtx) (thing : Value) (c m : Expr) (s s' : St) (v : Value)
    (h : eval env dc thing (.contains c m) s = (.ok v, s')) : v = .bool true ∨ v = .bool false := by
  simp only [eval, M.bind_eq_ok, M.pure_eq_ok] at h
  obtain ⟨_, _, _, _, _, _, _, _, _, b, _, _, rfl, _⟩ := h
  cases b <;> simp

/-- **C04.** `not e` is the negated truth value of `e`. -/
theorem not_boolean (env : Env) (dc : DecCtx) (thing : Value) (e : Expr) (s s' : St) (v : Value) :
    eval env dc thing (.not e) s = (.ok v, s') ↔
      ∃ w, eval env dc thing e s = (.ok w, s') ∧ v = .bool (!w.truthy) := by
  simp only [eval, M.bind_eq_ok, M.pure_eq_ok]
  constructor
  · rintro ⟨w, s1, h, rfl, rfl⟩; exact ⟨w, h, rfl⟩
  · rintro ⟨w, h, rfl⟩; exact ⟨w, s', h, rfl, rfl⟩

/-- the trees whose outermost operator is documented to return a BOOLEAN -/
def Raw.isBooleanOp : Raw → Bool
  | .bin op _ _ => op.isBoolean
  | .contains _ _ => true
  | .not _ => true
  | _ => false

theorem litOf_bool {off : TzDb} {b : Bool} : litOf off (.bool b) = .ok (.lit (.bool b) .boolean) := rfl

/-- **C04.** For every rule whose outermost operator is one of these, including rules that were
folded to a literal, `Rule.evaluate` returns True or False whenever it returns. -/
theorem boolean_rules (env : Env) (dct : DecCtx) (raw : Raw) (hraw : raw.isBooleanOp = true)
    (s s1 : St) (e : Expr) (hc : construct env dct raw s = (.ok e, s1)) (thing : Value) (s2 s3 : St)
    (v : Value) (h : ruleEval env e thing s2 = (.ok v, s3)) : v = .bool true ∨ v = .bool false := by
  unfold construct at hc
  unfold ruleEval at h
  cases raw with
  | bin op l r =>
    simp only [Raw.isBooleanOp] at hraw
    simp only [build, M.bind_eq_ok, mkBin, M.lift_eq_ok] at hc
    obtain ⟨l', _, _, r', _, _, _, _, _, hc⟩ := hc
    split at hc
    · simp only [foldLit, M.bind_eq_ok, M.lift_eq_ok] at hc
      obtain ⟨w, _, hw, hlit, _⟩ := hc
      simp only [eval] at hw
      obtain ⟨b, rfl⟩ := evalBin_bool hraw hw
      rw [litOf_bool] at hlit
      cases hlit
      simp only [eval, M.pure_eq_ok] at h
      rw [← h.1]
      cases b <;> simp
    · rw [M.pure_eq_ok] at hc
      obtain ⟨rfl, -⟩ := hc
      exact boolean_operators env _ thing op hraw _ _ _ _ v h
  | contains c m =>
    simp only [build, M.bind_eq_ok, mkContains, M.lift_eq_ok] at hc
    obtain ⟨c', _, _, m', _, _, _, _, _, hc⟩ := hc
    split at hc
    · simp only [M.bind_eq_ok, M.pure_eq_ok] at hc
      obtain ⟨w, _, hw, rfl, _⟩ := hc
      have := contains_boolean _ _ _ _ _ _ _ _ hw
      simp only [eval, M.pure_eq_ok] at h
      rw [← h.1]
      exact this
    · rw [M.pure_eq_ok] at hc
      obtain ⟨rfl, -⟩ := hc
      exact contains_boolean env _ thing _ _ _ _ v h
  | not x =>
    simp only [build, M.bind_eq_ok, mkNot] at hc
    obtain ⟨x', _, _, hc⟩ := hc
    split at hc
    · simp only [M.bind_eq_ok, M.pure_eq_ok] at hc
      obtain ⟨w, _, hw, rfl, _⟩ := hc
      rw [not_boolean] at hw
      obtain ⟨w', _, rfl⟩ := hw
      simp only [eval, M.pure_eq_ok] at h
      rw [← h.1]
      cases w'.truthy <;> simp
    · rw [M.pure_eq_ok] at hc
      obtain ⟨rfl, -⟩ := hc
      obtain ⟨w, _, rfl⟩ := (not_boolean env _ thing _ _ _ v).1 h
      cases w.truthy <;> simp
  | _ => simp [Raw.isBooleanOp] at hraw

/-- **C04.** `Rule.matches` returns exactly the truth value of what `Rule.evaluate` returns, and
raises what it raises. -/
theorem matches_iff (env : Env) (e : Expr) (thing : Value) (s : St) :
    (∀ v s', ruleEval env e thing s = (.ok v, s') → ruleMatches env e thing s = (.ok v.truthy, s')) ∧
    (∀ x s', ruleEval env e thing s = (.error x, s') → ruleMatches env e thing s = (.error x, s')) := by
  constructor
  · intro v s' h; unfold ruleMatches; rw [M.bind_ok h]; rfl
  · intro v s' h; unfold ruleMatches; rw [M.bind_error h]

example : runRaw sampleEnv (.bin .and (.sym "x" false) (.contains (.sym "xs" false) (.sym "x" false)))
    (dictOf [("x", .int 3), ("xs", .seq .list [.int 1, .int 3])]) = .ok (.bool true) := by
  decide +kernel

/-! ## C05: `==` and `!=` -/

/-- **C05.** If both operands evaluate then `a == b` and `a != b` both return, opposite booleans, in
the same state. -/
theorem eq_ne_opposite (env : Env) (dc : DecCtx) (thing : Value) (l r : Expr) (s s1 s2 : St)
    (a b : Value) (hl : eval env dc thing l s = (.ok a, s1)) (hr : eval env dc thing r s1 = (.ok b, s2)) :
    ∃ x : Bool, eval env dc thing (.bin .eq l r) s = (.ok (.bool x), s2) ∧
      eval env dc thing (.bin .ne l r) s = (.ok (.bool (!x)), s2) := by
  refine ⟨opEq env.utcoffset a b, ?_, ?_⟩
  · simp only [eval, evalBin]
    rw [M.bind_ok hl, M.bind_ok hr]
    rfl
  · simp only [eval, evalBin]
    rw [M.bind_ok hl, M.bind_ok hr]
    unfold opEq opNe pyNe
    split <;> simp

/-- values of the same Python type have data types of the same kind -/
theorem kind_of_pyType {a b : Value} {ta tb : DataType} (ha : fromValue a = .ok ta)
    (hb : fromValue b = .ok tb) (h : a.pyType = b.pyType) : ta.kind = tb.kind := by
  have key : ∀ (v : Value) (t : DataType), fromValue v = .ok t → t.kind =
      match v.pyType with
      | .none => .null | .bool => .boolean | .int => .float | .float => .float | .dec => .float
      | .str => .string | .bytes => .bytes | .date => .datetime | .datetime => .datetime
      | .timedelta => .timedelta | .tuple => .array | .list => .array | .range => .array
      | .set => .set | .dict => .mapping | .ordered => .mapping
      | .cFunction => .function | .pyFunction => .function | .partialFn => .function
      | .user _ => .function | .obj _ => .undefined | .undef => .undefined := by
    intro v t hv
    cases v with
    | seq k xs =>
      simp only [fromValue, except_bind_ok] at hv
      obtain ⟨ts, _, hv⟩ := hv
      cases hv
      cases k <;> rfl
    | set xs =>
      simp only [fromValue, except_bind_ok] at hv
      obtain ⟨ts, _, hv⟩ := hv
      cases hv; rfl
    | map k kvs =>
      simp only [fromValue, except_bind_ok, mkMappingType] at hv
      obtain ⟨ts, _, us, _, hv⟩ := hv
      split at hv <;> cases hv
      cases k <;> rfl
    | builtinFn f => simp only [fromValue] at hv; cases hv; cases f <;> rfl
    | obj i => simp [fromValue] at hv
    | undef => simp [fromValue] at hv
    | _ => simp only [fromValue] at hv; cases hv; rfl
  rw [key a ta ha, key b tb hb, h]

/-- **C05.** Operands whose data types are of different kinds are unequal. -/
theorem different_types_unequal (env : Env) (dc : DecCtx) (thing : Value) (l r : Expr) (s s1 s2 : St)
    (a b : Value) (ta tb : DataType) (hl : eval env dc thing l s = (.ok a, s1))
    (hr : eval env dc thing r s1 = (.ok b, s2)) (ha : fromValue a = .ok ta) (hb : fromValue b = .ok tb)
    (hk : ta.kind ≠ tb.kind) :
    eval env dc thing (.bin .eq l r) s = (.ok (.bool false), s2) ∧
    eval env dc thing (.bin .ne l r) s = (.ok (.bool true), s2) := by
  obtain ⟨x, h1, h2⟩ := eq_ne_opposite env dc thing l r s s1 s2 a b hl hr
  have : x = opEq env.utcoffset a b := by
    simp only [eval, evalBin] at h1
    rw [M.bind_ok hl, M.bind_ok hr, M.pure_eq_ok] at h1
    simpa using h1.1.symm
  have hne : a.pyType ≠ b.pyType := fun h => hk (kind_of_pyType ha hb h)
  simp only [opEq, hne, if_false] at this
  subst this
  exact ⟨h1, h2⟩

/-- `true == 1` is false and `true != 1` is true, although Python's `True == 1`. -/
example : runRaw sampleEnv (.bin .eq (.sym "t" false) (.sym "n" false))
      (dictOf [("t", .bool true), ("n", .int 1)]) = .ok (.bool false) ∧
    runRaw sampleEnv (.bin .eq (.sym "n" false) (.sym "n" false))
      (dictOf [("t", .bool true), ("n", .int 1)]) = .ok (.bool true) := by
  decide +kernel

/-! ## C13: the default value -/

/-- **C13.** A symbol the resolver cannot resolve raises SymbolResolutionError without a default
value … -/
theorem unresolved_symbol_raises (env : Env) (dc : DecCtx) (thing : Value) (name n : String)
    (rt : DataType) (s : St) (hs : ∀ a ∈ s.scopes, a.name ≠ name)
    (hr : env.resolver thing name = .error (.eng (.symbolResolution n))) (hd : env.defaultValue = none) :
    (eval env dc thing (.sym name rt false) s).1 = .error (.eng (.symbolResolution n)) := by
  have hl : scopeLookup s.scopes name = none := by
    simp only [scopeLookup, List.find?_eq_none]
    intro a ha
    simpa using hs a ha
  simp [eval, evalSymbol, ctxResolve, hl, hr, M.bind_apply, M.catchErr, isSymErr, hd]

/-- **C13.** … and evaluates to the coerced default otherwise (if the symbol has no declared type). -/
theorem unresolved_symbol_default (env : Env) (dc : DecCtx) (thing : Value) (name n : String)
    (s : St) (hs : ∀ a ∈ s.scopes, a.name ≠ name) (d : Value)
    (hr : env.resolver thing name = .error (.eng (.symbolResolution n)))
    (hd : env.defaultValue = some d) :
    (eval env dc thing (.sym name .undefined false) s).1 = .ok (newValue env d) := by
  have hl : scopeLookup s.scopes name = none := by
    simp only [scopeLookup, List.find?_eq_none]
    intro a ha
    simpa using hs a ha
  simp [eval, evalSymbol, ctxResolve, hl, hr, M.bind_apply, M.catchErr, isSymErr, hd, checkSymbol,
    DataType.eq]

/-- the same context with a default value -/
def Env.withDefault (env : Env) (d : Value) : Env := { env with defaultValue := some d }

/-- everything the first computation returns, the second returns too -/
def Extends {α : Type} (m m' : M α) : Prop := ∀ s a s', m s = (.ok a, s') → m' s = (.ok a, s')

theorem extends_closed : RelClosed @Extends where
  lift x := fun s a s' h => h
  bind := by
    intro α β m m' f f' hm hf s b s' h
    rw [M.bind_eq_ok] at h
    obtain ⟨a, s1, h1, h2⟩ := h
    rw [M.bind_ok (hm _ _ _ h1)]
    exact hf a _ _ _ h2
  withScope := by
    intro α a m m' hm s b s' h
    simp only [M.withScope] at h ⊢
    rcases hr : m { s with scopes := s.scopes ++ [a] } with ⟨x, s1⟩
    rw [hr] at h
    simp only [Prod.mk.injEq] at h
    obtain ⟨rfl, rfl⟩ := h
    rw [hm _ _ _ hr]
  setGroups := fun g _ s a s' h => h
  logCall := fun f args α x s a s' h => h
  rethrow := by
    intro α e m m' hm s a s' h
    simp only [M.catchErr] at h ⊢
    rcases hr : m s with ⟨x | x, s1⟩
    · rw [hr] at h; simp at h
    · rw [hr] at h
      rw [hm _ _ _ hr]
      exact h

/-- **C13.** If a rule is constructed and returns a value without a default value, then with any
default value it is constructed to the same expression and returns the same value, with the same
effects. -/
theorem default_is_conservative (env : Env) (hd : env.defaultValue = none) (d : Value) (dct : DecCtx)
    (raw : Raw) (s s1 : St) (e : Expr) (hc : construct env dct raw s = (.ok e, s1)) (thing : Value)
    (s2 s3 : St) (v : Value) (hv : ruleEval env e thing s2 = (.ok v, s3)) :
    construct (env.withDefault d) dct raw s = (.ok e, s1) ∧
    ruleEval (env.withDefault d) e thing s2 = (.ok v, s3) := by
  have hsym : ∀ thing name rt b, Extends (evalSymbol env thing name rt b)
      (evalSymbol (env.withDefault d) thing name rt b) := by
    intro thing name rt b
    unfold evalSymbol
    refine extends_closed.bind ?_ fun v => extends_closed.lift _
    intro s a s' h
    have e1 : ctxResolve (env.withDefault d) thing name b = ctxResolve env thing name b := rfl
    simp only [M.catchErr, e1] at h ⊢
    rcases hr : ctxResolve env thing name b s with ⟨x | x, s1⟩
    · rw [hr] at h
      simp [hd] at h
    · rw [hr] at h; exact h
  have hattr : ∀ o name, Extends (evalGetAttr env o name) (evalGetAttr (env.withDefault d) o name) := by
    intro o name s a s' h
    have e1 : ctxResolve (env.withDefault d) o name false = ctxResolve env o name false := rfl
    have e2 : resolveAttr (env.withDefault d) o name = resolveAttr env o name := rfl
    have e3 : newValue (env.withDefault d) = newValue env := rfl
    unfold evalGetAttr at h ⊢
    rw [e1, e2, e3]
    cases hr : resolveAttr env o name with
    | ok v => rw [hr] at h; exact h
    | error x =>
      rw [hr] at h
      simp only at h ⊢
      split at h
      · rename_i hx
        rw [if_pos hx]
        rcases hc : ctxResolve env o name false s with ⟨y | y, s1⟩
        · rw [hc] at h
          simp only [hd] at h
          split at h <;> simp at h
        · rw [hc] at h; exact h
      · simp at h
  have hev : ∀ dc thing e, Extends (eval env dc thing e) (eval (env.withDefault d) dc thing e) :=
    fun dc thing e => eval_rel (R := @Extends) extends_closed (env := env) (r := env.resolver)
      (t := env.typeResolver) (d := some d) dc (fun n rt b _ => hsym thing n rt b)
      (fun o n _ => hattr o n) e e.allNames_trivial
  refine ⟨?_, hev _ _ _ _ _ _ hv⟩
  exact build_rel (R := @Extends) extends_closed (env := env) (r := env.resolver)
    (t := env.typeResolver) (d := some d) dct (fun e _ => hev dct .none e)
    (fun n b s a s' h => h) raw s e s1 hc

example : runRaw sampleEnv (.sym "x" false) (dictOf []) = .error (.eng (.symbolResolution "x")) ∧
    runRaw (sampleEnv.withDefault (.int 7)) (.sym "x" false) (dictOf []) = .ok (.dec (.ofInt 7)) ∧
    runRaw (sampleEnv.withDefault (.int 7)) (.sym "x" false) (dictOf [("x", .int 1)]) =
      .ok (.dec (.ofInt 1)) := by
  decide +kernel

/-! ## C15: array comprehensions -/

/-- the state in which condition and result are evaluated: the variable is bound to the member -/
def St.bindVar (s : St) (var : String) (x : Value) : St :=
  { s with scopes := s.scopes ++ [⟨var, x, .undefined⟩] }

/-- the state after condition and result have been evaluated: the variable is gone -/
def St.unbindVar (s : St) : St := { s with scopes := s.scopes.dropLast }

/-- Specification of the loop of a comprehension: for each member in order, the condition is
evaluated with the variable bound to the member; if it is truthy the result expression is evaluated
with the same binding and its value appended. -/
inductive CompRun (env : Env) (dc : DecCtx) (thing : Value) (result cond : Expr) (var : String) :
    St → List Value → List Value → St → Prop where
  | done (s : St) : CompRun env dc thing result cond var s [] [] s
  | skip {s s1 s' : St} {x c : Value} {xs ys : List Value}
      (hc : eval env dc thing cond (s.bindVar var x) = (.ok c, s1)) (hf : c.truthy = false)
      (h : CompRun env dc thing result cond var s1.unbindVar xs ys s') :
      CompRun env dc thing result cond var s (x :: xs) ys s'
  | take {s s1 s2 s' : St} {x c y : Value} {xs ys : List Value}
      (hc : eval env dc thing cond (s.bindVar var x) = (.ok c, s1)) (ht : c.truthy = true)
      (hr : eval env dc thing result s1 = (.ok y, s2))
      (h : CompRun env dc thing result cond var s2.unbindVar xs ys s') :
      CompRun env dc thing result cond var s (x :: xs) (y :: ys) s'

theorem compM_iff (env : Env) (dc : DecCtx) (thing : Value) (result cond : Expr) (var : String)
    (xs ys : List Value) (s s' : St) :
    compM var (eval env dc thing cond) (eval env dc thing result) xs s = (.ok ys, s') ↔
      CompRun env dc thing result cond var s xs ys s' := by
  induction xs generalizing s ys with
  | nil =>
    simp only [compM, M.pure_eq_ok]
    constructor
    · rintro ⟨rfl, rfl⟩; exact .done _
    · intro h; cases h; exact ⟨rfl, rfl⟩
  | cons x xs ih =>
    simp only [compM, M.bind_eq_ok, M.pure_eq_ok]
    constructor
    · rintro ⟨o, s1, h1, zs, s2, h2, h3, rfl⟩
      simp only [M.withScope] at h1
      rcases hm : (do
        let c ← eval env dc thing cond
        if c.truthy then do
          let v ← eval env dc thing result
          pure (some v)
        else pure none : M (Option Value)) (s.bindVar var x) with ⟨y, s3⟩
      simp only [St.bindVar] at hm
      rw [hm] at h1
      simp only [Prod.mk.injEq] at h1
      obtain ⟨rfl, rfl⟩ := h1
      simp only [M.bind_eq_ok] at hm
      obtain ⟨c, s4, hc, hm⟩ := hm
      split at hm
      · simp only [M.bind_eq_ok, M.pure_eq_ok] at hm
        obtain ⟨v, s5, hv, rfl, rfl⟩ := hm
        subst h3
        exact .take hc ‹_› hv ((ih _ _).1 h2)
      · rw [M.pure_eq_ok] at hm
        obtain ⟨rfl, rfl⟩ := hm
        subst h3
        exact .skip hc (Bool.eq_false_iff.2 ‹¬ c.truthy = true›) ((ih _ _).1 h2)
    · intro h
      cases h with
      | @skip _ s1 _ _ c _ _ hc hf h =>
        refine ⟨none, s1.unbindVar, ?_, ys, s', (ih _ _).2 h, rfl, rfl⟩
        simp only [M.withScope]
        have : (do
          let c ← eval env dc thing cond
          if c.truthy then do
            let v ← eval env dc thing result
            pure (some v)
          else pure none : M (Option Value)) (s.bindVar var x) = (.ok none, s1) := by
          rw [M.bind_ok hc]; simp [hf]
        simp only [St.bindVar] at this
        rw [this]; rfl
      | @take _ s1 s2 _ _ c y _ ys' hc ht hr h =>
        refine ⟨some y, s2.unbindVar, ?_, ys', s', (ih _ _).2 h, rfl, rfl⟩
        simp only [M.withScope]
        have : (do
          let c ← eval env dc thing cond
          if c.truthy then do
            let v ← eval env dc thing result
            pure (some v)
          else pure none : M (Option Value)) (s.bindVar var x) = (.ok (some y), s2) := by
          rw [M.bind_ok hc]
          simp only [ht, if_true]
          rw [M.bind_ok hr]; rfl
        simp only [St.bindVar] at this
        rw [this]; rfl

/-- **C15.** `[r for x in it if c]` returns `v` exactly if the iterable evaluates to an array, set
or mapping with members `xs` and the loop over `xs` specified above yields the members of `v`. -/
theorem comprehension_iff (env : Env) (dc : DecCtx) (thing : Value) (result iterable cond : Expr)
    (var : String) (s s' : St) (v : Value) :
    eval env dc thing (.comp result var iterable cond) s = (.ok v, s') ↔
      ∃ it s1 t xs ys, eval env dc thing iterable s = (.ok it, s1) ∧ fromValue it = .ok t ∧
        t.isIterable = true ∧ it.members = .ok xs ∧
        CompRun env dc thing result cond var s1 xs ys s' ∧ v = .tuple ys := by
  simp only [eval, M.bind_eq_ok, M.lift_eq_ok]
  constructor
  · rintro ⟨it, s1, h1, t, s2, ⟨h2, rfl⟩, h3⟩
    split at h3
    · simp only [M.bind_eq_ok, M.lift_eq_ok, M.pure_eq_ok] at h3
      obtain ⟨xs, s3, ⟨h4, rfl⟩, ys, s4, h5, rfl, rfl⟩ := h3
      exact ⟨it, s1, t, xs, ys, h1, h2, ‹_›, h4, (compM_iff ..).1 h5, rfl⟩
    · simp at h3
  · rintro ⟨it, s1, t, xs, ys, h1, h2, h3, h4, h5, rfl⟩
    refine ⟨it, s1, h1, t, s1, ⟨h2, rfl⟩, ?_⟩
    simp only [h3, if_true]
    simp only [M.bind_eq_ok, M.lift_eq_ok, M.pure_eq_ok]
    exact ⟨xs, s1, ⟨h4, rfl⟩, ys, s', (compM_iff ..).2 h5, rfl, rfl⟩

/-- **C15.** In particular, if condition and result always return (the condition `c x`, the result
`f x` when the variable is bound to `x`), the comprehension returns the filtered and mapped list. -/
theorem comprehension_filter_map (env : Env) (dc : DecCtx) (thing : Value)
    (result iterable cond : Expr) (var : String) (s s1 : St) (it : Value) (t : DataType)
    (xs : List Value) (c f : Value → Value)
    (h1 : eval env dc thing iterable s = (.ok it, s1)) (h2 : fromValue it = .ok t)
    (h3 : t.isIterable = true) (h4 : it.members = .ok xs)
    (hc : ∀ x ∈ xs, ∀ s : St, (eval env dc thing cond (s.bindVar var x)).1 = .ok (c x))
    (hf : ∀ x ∈ xs, ∀ s : St, s.scopes.getLast? = some ⟨var, x, .undefined⟩ →
      (eval env dc thing result s).1 = .ok (f x)) :
    (eval env dc thing (.comp result var iterable cond) s).1 =
      .ok (.tuple ((xs.filter fun x => (c x).truthy).map f)) := by
  suffices h : ∀ (xs : List Value) (s1 : St),
      (∀ x ∈ xs, ∀ s : St, (eval env dc thing cond (s.bindVar var x)).1 = .ok (c x)) →
      (∀ x ∈ xs, ∀ s : St, s.scopes.getLast? = some ⟨var, x, .undefined⟩ →
        (eval env dc thing result s).1 = .ok (f x)) →
      ∃ s', CompRun env dc thing result cond var s1 xs ((xs.filter fun x => (c x).truthy).map f) s' by
    obtain ⟨s', h'⟩ := h xs s1 hc hf
    rw [(comprehension_iff env dc thing result iterable cond var s s' _).2
      ⟨it, s1, t, xs, _, h1, h2, h3, h4, h', rfl⟩]
  clear h1 h4 hc hf xs s1
  intro xs
  induction xs with
  | nil => intro s1 _ _; exact ⟨s1, .done s1⟩
  | cons x xs ih =>
    intro s1 hc hf
    have hcx := hc x (by simp) s1
    rcases hr : eval env dc thing cond (s1.bindVar var x) with ⟨y, s2⟩
    rw [hr] at hcx
    simp only at hcx
    subst hcx
    have hs2 : s2.scopes = s1.scopes ++ [⟨var, x, .undefined⟩] := by
      have := eval_restores_variables env dc thing cond (s1.bindVar var x)
      rw [hr] at this; exact this
    cases ht : (c x).truthy with
    | false =>
      obtain ⟨s', h'⟩ := ih s2.unbindVar (fun y hy => hc y (by simp [hy])) (fun y hy => hf y (by simp [hy]))
      exact ⟨s', by simpa [ht] using CompRun.skip hr ht h'⟩
    | true =>
      have hfx := hf x (by simp) s2 (by simp [hs2])
      rcases hr' : eval env dc thing result s2 with ⟨z, s3⟩
      rw [hr'] at hfx
      simp only at hfx
      subst hfx
      obtain ⟨s', h'⟩ := ih s3.unbindVar (fun y hy => hc y (by simp [hy])) (fun y hy => hf y (by simp [hy]))
      exact ⟨s', by simpa [ht] using CompRun.take hr ht hr' h'⟩

/-- `[x + 1 for x in xs if x > 1]` -/
example : runRaw sampleEnv (.comp (.bin .add (.sym "x" false) (.floatLit "1")) "x" (.sym "xs" false)
      (.bin (.cmp .gt) (.sym "x" false) (.floatLit "1")))
    (dictOf [("xs", .seq .list [.int 1, .int 2, .int 0, .int 5])]) =
    .ok (.tuple [.dec (.ofInt 3), .dec (.ofInt 6)]) := by
  decide +kernel

/-! ## C20: safe navigation -/

/-- **C20.** On null, the safe forms evaluate to null, and the index or bounds are not evaluated. -/
theorem safe_navigation_null (env : Env) (dc : DecCtx) (thing : Value) (x i a b : Expr) (name : String)
    (s s1 : St) (h : eval env dc thing x s = (.ok .none, s1)) :
    eval env dc thing (.getAttr x name true) s = (.ok .none, s1) ∧
    eval env dc thing (.getItem x i true) s = (.ok .none, s1) ∧
    eval env dc thing (.getSlice x a b true) s = (.ok .none, s1) := by
  simp only [eval]
  rw [M.bind_ok h, M.bind_ok h, M.bind_ok h]
  simp

theorem isReal_error {v : Value} {e : Err} (h : isReal v = .error e) : e = .py .overflowError := by
  cases v with
  | int i =>
    simp only [isReal] at h
    generalize decFloatOverflows i.natAbs 0 = b at h
    cases b <;> cases h
    rfl
  | _ => cases h

theorem isInteger_error {v : Value} {e : Err} (h : isInteger v = .error e) :
    e = .py .overflowError := by
  unfold isInteger at h
  cases hr : isReal v with
  | error e' =>
    rw [hr] at h
    cases h
    exact isReal_error hr
  | ok b =>
    rw [hr] at h
    cases b with
    | false => cases h
    | true =>
      simp only [bind, Except.bind, if_true] at h
      split at h <;> cases h

theorem assertInteger_error {v : Value} {e : Err} (h : assertInteger v = .error e) :
    e = .py .overflowError ∨ e = .mismatch := by
  unfold assertInteger at h
  cases hr : isInteger v with
  | error e' =>
    rw [hr] at h
    cases h
    exact .inl (isInteger_error hr)
  | ok b =>
    rw [hr] at h
    cases b <;> cases h
    exact .inr rfl

/-- **C20.** A lookup that fails with LookupError in the unsafe form is null in the safe form. -/
theorem safe_item_lookup (env : Env) (dc : DecCtx) (thing : Value) (x i : Expr) (s s1 s2 s' : St)
    (c iv : Value) (hx : eval env dc thing x s = (.ok c, s1))
    (hi : eval env dc thing i s1 = (.ok iv, s2))
    (h : eval env dc thing (.getItem x i false) s = (.error (.eng .lookup), s')) :
    eval env dc thing (.getItem x i true) s = (.ok .none, s') := by
  simp only [eval] at h ⊢
  rw [M.bind_ok hx] at h ⊢
  split at h
  · simp at h
  · rename_i hc
    simp only [hc, if_false]
    rw [M.bind_ok hi] at h ⊢
    rw [M.bind_apply, M.lift_apply] at h ⊢
    cases hg : opGetItem env.utcoffset c iv with
    | error e =>
      rw [hg] at h
      simp only [Prod.mk.injEq, Except.error.injEq] at h
      obtain ⟨rfl, rfl⟩ := h
      exfalso
      -- `opGetItem` itself never raises LookupError
      have : ∀ e, opGetItem env.utcoffset c iv = .error e → e ≠ .eng .lookup := by
        intro e he hh
        subst hh
        have hai : ∀ v, assertInteger v ≠ .error (.eng .lookup) := fun v hv => by
          rcases assertInteger_error hv with h | h <;> cases h
        have hck : itemCheck c iv ≠ .error (.eng .lookup) := by
          unfold itemCheck
          split
          · exact hai _
          · exact hai _
          · exact hai _
          · intro h; cases h
        unfold opGetItem at he
        cases hk : itemCheck c iv with
        | error e =>
          rw [hk] at he
          cases he
          exact hck hk
        | ok u =>
          rw [hk] at he
          simp only [bind, Except.bind] at he
          unfold pyGetItem at he
          repeat' split at he
          all_goals cases he
      exact this _ hg rfl
    | ok o =>
      rw [hg] at h
      cases o with
      | none => simp at h; subst h; rfl
      | some v => simp at h

/-- **C20.** Whenever the unsafe form returns a value (for attributes: on an object that is not
null), the safe form returns the same value with the same effects. -/
theorem safe_extends_unsafe (env : Env) (dc : DecCtx) (thing : Value) (x i a b : Expr) (name : String)
    (s s1 s' : St) (c v : Value) (hx : eval env dc thing x s = (.ok c, s1)) (hc : c ≠ .none) :
    eval env dc thing (.getAttr x name true) s = eval env dc thing (.getAttr x name false) s ∧
    (eval env dc thing (.getItem x i false) s = (.ok v, s') →
      eval env dc thing (.getItem x i true) s = (.ok v, s')) ∧
    eval env dc thing (.getSlice x a b true) s = eval env dc thing (.getSlice x a b false) s := by
  simp only [eval]
  rw [M.bind_ok hx, M.bind_ok hx, M.bind_ok hx, M.bind_ok hx, M.bind_ok hx, M.bind_ok hx]
  simp only [hc, false_and, if_false, true_and, and_true]
  intro h
  simp only [M.bind_eq_ok] at h ⊢
  obtain ⟨iv, s2, hi, o, s3, ho, h⟩ := h
  refine ⟨iv, s2, hi, o, s3, ho, ?_⟩
  cases o with
  | some w => exact h
  | none => simp at h

/-- **C20.** Indexing and slicing null raises in the unsafe form (so the previous theorem covers every
case in which it returns). -/
theorem unsafe_null_raises (env : Env) (dc : DecCtx) (thing : Value) (x i a b : Expr)
    (s s1 : St) (hx : eval env dc thing x s = (.ok .none, s1)) :
    eval env dc thing (.getItem x i false) s = (.error .mismatch, s1) ∧
    eval env dc thing (.getSlice x a b false) s = (.error .mismatch, s1) := by
  simp only [eval]
  rw [M.bind_ok hx, M.bind_ok hx]
  simp

end RE
