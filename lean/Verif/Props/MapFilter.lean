import Verif.Props.Accept
import Verif.Props.BuiltinFns
import Verif.Props.Calls
import Verif.Props.Interp

/-!
# C64: `$map`, `$filter` and comprehensions

`$map(f, a)` is `[f(x) for x in a]` and `$filter(f, a)` is `[x for x in a if f(x)]`, for every array `a` and function `f`.
-/

set_option linter.unusedSimpArgs false

namespace RE

/-- A value a variable takes over as it is: normalised, and not a datetime without timezone (a variable attaches the
default timezone to those, ast.py 149-150). -/
def Settled (env : Env) (v : Value) : Prop := coerce env.utcoffset v = v ∧ v.isNaive = false

theorem localise_settled {env : Env} {v : Value} (h : v.isNaive = false) : localise env v = v := by
  unfold localise
  split
  · cases h
  · rfl

theorem Settled.newValue {env : Env} {v : Value} (h : Settled env v) : newValue env v = v := by
  unfold RE.newValue
  rw [h.1, localise_settled h.2]

theorem localise_truthy (env : Env) (v : Value) : (localise env v).truthy = v.truthy := by
  unfold localise; split <;> rfl

/-- what a name that is no variable evaluates to -/
def nameValue (env : Env) (thing : Value) (name : String) (rt : DataType) (builtin : Bool) : Except Err Value :=
  (evalSymbol env thing name rt builtin ⟨[], .none, [], []⟩).1

theorem evalSymbol_free {env : Env} {thing : Value} {name : String} {rt : DataType} {builtin : Bool} {s : St}
    (h : if builtin then name ≠ "re_groups" else scopeLookup s.scopes name = none) :
    (evalSymbol env thing name rt builtin s).1 = nameValue env thing name rt builtin := by
  unfold nameValue evalSymbol
  cases builtin with
  | true =>
    simp only [if_true] at h
    simp only [M.bind_apply, M.catchErr, ctxResolve, if_true, builtinValue_groups (a := s.groups) (b := .none) h]
    cases builtinValue env .none name with
    | some v => simp only [M.lift_apply]
    | none =>
      simp only [isSymErr]
      cases env.defaultValue <;> simp [M.pure_apply, M.throw_apply, M.lift_apply]
  | false =>
    simp only [Bool.false_eq_true, if_false] at h
    have h0 : scopeLookup [] name = none := rfl
    simp only [M.bind_apply, M.catchErr, ctxResolve, Bool.false_eq_true, if_false, h, h0]
    cases env.resolver thing name with
    | ok v => simp only [M.lift_apply]
    | error err =>
      simp only
      cases isSymErr err <;> cases env.defaultValue <;> simp [M.pure_apply, M.throw_apply, M.lift_apply]

theorem evalSymbol_quiet (env : Env) (thing : Value) (name : String) (rt : DataType) (builtin : Bool) (s : St) :
    ∃ l, (evalSymbol env thing name rt builtin s).2 = { s with log := s.log ++ l } := by
  unfold evalSymbol
  have h1 : ∃ l, (ctxResolve env thing name builtin s).2 = { s with log := s.log ++ l } := by
    unfold ctxResolve
    cases builtin with
    | true => cases builtinValue env s.groups name <;> exact ⟨[], by simp⟩
    | false =>
      simp only [Bool.false_eq_true, if_false]
      cases scopeLookup s.scopes name with
      | some a => exact ⟨[], by simp⟩
      | none => exact ⟨_, rfl⟩
  obtain ⟨l, h1⟩ := h1
  refine ⟨l, ?_⟩
  simp only [M.bind_apply, M.catchErr]
  rcases hc : ctxResolve env thing name builtin s with ⟨err | v, s1⟩
  · rw [hc] at h1
    simp only at h1
    cases hb : isSymErr err <;> cases hd : env.defaultValue <;> simp [M.pure_apply, M.throw_apply, M.lift_apply, h1, hb, hd]
  · rw [hc] at h1
    simp only at h1
    simp [M.lift_apply, h1]

theorem evalSymbol_var {env : Env} {thing : Value} {name : String} {rt : DataType} {s s' : St} {a : Assignment} {v : Value}
    (h : scopeLookup s.scopes name = some a) (hv : evalSymbol env thing name rt false s = (.ok v, s')) :
    v = newValue env a.value := by
  unfold evalSymbol at hv
  simp only [M.bind_apply, M.catchErr, ctxResolve, Bool.false_eq_true, if_false, h, M.lift_apply, Prod.mk.injEq] at hv
  exact checkSymbol_ok hv.1

theorem finishCall_ok {env : Env} {dc : DecCtx} {rt : DataType} {f : Value} {args : List Value} {s s' : St} {v : Value}
    (h : finishCall env dc rt f args s = (.ok v, s')) :
    ∃ r s1, callFn env dc f args s = (.ok r, s1) ∧ v = localise env (coerce env.utcoffset r) := by
  simp only [finishCall, M.bind_eq_ok, M.lift_eq_ok] at h
  obtain ⟨r, s1, h1, c, s2, ⟨h2, rfl⟩, t, s3, ⟨h3, rfl⟩, h4⟩ := h
  rcases hc : callFn env dc f args s with ⟨e | r', s4⟩
  · simp only [M.catchErr, hc, M.throw_apply] at h1
    cases h1
  · simp only [M.catchErr, hc] at h1
    cases h1
    split at h4
    · rw [M.pure_eq_ok] at h4
      exact ⟨r, _, rfl, by rw [← h4.1, ((coerceVerify_iff ..).1 h2).1]⟩
    · cases h4

theorem evalCall_ok {env : Env} {dc : DecCtx} {ft rt : DataType} {f : Value} {args : List Value} {s s' : St} {v : Value}
    (h : evalCall env dc ft rt f args s = (.ok v, s')) :
    ∃ r s1, callFn env dc f args s = (.ok r, s1) ∧ v = localise env (coerce env.utcoffset r) := by
  unfold evalCall at h
  split at h
  · exact finishCall_ok h
  · simp only [M.bind_eq_ok, M.lift_eq_ok] at h
    obtain ⟨_, s1, ⟨-, rfl⟩, h⟩ := h
    exact finishCall_ok h

theorem callFn_one {env : Env} {dc : DecCtx} {f x : Value} : callFn env dc f [x] = callLogged env dc f [x] := by
  unfold callFn
  split
  · rename_i h; cases h
  · rename_i h; cases h
  · rfl

/-- `f(x)` with the variable bound: what the function gives for the variable's value -/
theorem call_on_var {env : Env} {dc : DecCtx} {thing : Value} {f x : String} {tf tx : DataType} {bf : Bool} {s s' : St}
    {m v : Value} {t : DataType} (hs : s.scopes = [⟨x, m, t⟩]) (hfx : if bf then f ≠ "re_groups" else f ≠ x)
    (h : eval env dc thing (.call (.sym f tf bf) [.sym x tx false]) s = (.ok v, s')) :
    ∃ g r, nameValue env thing f tf bf = .ok g ∧ callBasic env dc g [newValue env m] = .ok r ∧
      v = localise env (coerce env.utcoffset r) := by
  simp only [eval, M.bind_eq_ok] at h
  obtain ⟨g, s1, h1, h⟩ := h
  have hg : nameValue env thing f tf bf = .ok g := by
    rw [← evalSymbol_free (s := s), h1]
    cases bf with
    | true => simpa using hfx
    | false =>
      have : (x == f) = false := by simpa using fun h => hfx h.symm
      simp [hs, scopeLookup, this]
  have hs1 : s1.scopes = [⟨x, m, t⟩] := by
    have := eval_restores_variables env dc thing (.sym f tf bf) s
    simp only [eval, h1] at this
    rw [this, hs]
  split at h
  · simp only [evals, seqM, M.bind_eq_ok, M.pure_eq_ok] at h
    obtain ⟨vs, s2, ⟨w, s3, h2, us, s4, ⟨rfl, rfl⟩, rfl, rfl⟩, h3⟩ := h
    simp only [eval] at h2
    have hw := evalSymbol_var (a := ⟨x, m, t⟩) (by simp [hs1, scopeLookup]) h2
    obtain ⟨r, s5, h4, h5⟩ := evalCall_ok h3
    rw [callFn_one] at h4
    simp only [callLogged, Prod.mk.injEq] at h4
    exact ⟨g, r, hg, by rw [← hw]; exact h4.1, h5⟩
  · cases h

theorem compRun_map {env : Env} {dc : DecCtx} {thing : Value} {f x : String} {tf tx : DataType} {bf : Bool} {g : Value}
    (hg : nameValue env thing f tf bf = .ok g) (hfx : if bf then f ≠ "re_groups" else f ≠ x) {t : DataType}
    {s s' : St} {xs vs : List Value} (hs : s.scopes = [])
    (h : CompRun env dc thing (.call (.sym f tf bf) [.sym x tx false]) (.lit (.bool true) t) x s xs vs s') :
    List.Forall₂ (fun m v => ∃ r, callBasic env dc g [newValue env m] = .ok r ∧ v = localise env (coerce env.utcoffset r))
      xs vs := by
  induction h with
  | done => exact .nil
  | skip hc hf h ih =>
    simp only [eval, M.pure_eq_ok] at hc
    rw [← hc.1] at hf
    cases hf
  | @take s s1 s2 s3 m c y xs ys hc ht hr h ih =>
    simp only [eval, M.pure_eq_ok] at hc
    obtain ⟨-, rfl⟩ := hc
    have hsc : (s.bindVar x m).scopes = [⟨x, m, .undefined⟩] := by simp [St.bindVar, hs]
    obtain ⟨g', r, h1, h2, h3⟩ := call_on_var hsc hfx hr
    rw [hg] at h1
    cases h1
    refine .cons ⟨r, h2, h3⟩ (ih ?_)
    have := eval_restores_variables env dc thing (.call (.sym f tf bf) [.sym x tx false]) (s.bindVar x m)
    rw [hr] at this
    simp only at this
    simp only [St.unbindVar, this, hsc]
    rfl

theorem compRun_filter {env : Env} {dc : DecCtx} {thing : Value} {f x : String} {tf tx tx' : DataType} {bf : Bool}
    {g : Value} (hg : nameValue env thing f tf bf = .ok g) (hfx : if bf then f ≠ "re_groups" else f ≠ x)
    {s s' : St} {xs vs : List Value} (hs : s.scopes = [])
    (h : CompRun env dc thing (.sym x tx' false) (.call (.sym f tf bf) [.sym x tx false]) x s xs vs s') :
    ∃ rs, List.Forall₂ (fun m r => callBasic env dc g [newValue env m] = .ok r) xs rs ∧
      vs = (((xs.zip rs).filter fun p => (coerce env.utcoffset p.2).truthy).map fun p => newValue env p.1) := by
  induction h with
  | done => exact ⟨[], .nil, rfl⟩
  | @skip s s1 s3 m c xs ys hc hf h ih =>
    have hsc : (s.bindVar x m).scopes = [⟨x, m, .undefined⟩] := by simp [St.bindVar, hs]
    have h4 := eval_restores_variables env dc thing (.call (.sym f tf bf) [.sym x tx false]) (s.bindVar x m)
    rw [hc] at h4
    simp only at h4
    obtain ⟨g', r, h1, h2, h3⟩ := call_on_var hsc hfx hc
    rw [hg] at h1
    cases h1
    obtain ⟨rs, h5, h6⟩ := ih (by simp only [St.unbindVar, h4, hsc]; rfl)
    rw [h3, localise_truthy] at hf
    exact ⟨r :: rs, .cons h2 h5, by simp [hf, h6]⟩
  | @take s s1 s2 s3 m c y xs ys hc ht hr h ih =>
    have hsc : (s.bindVar x m).scopes = [⟨x, m, .undefined⟩] := by simp [St.bindVar, hs]
    have h4 := eval_restores_variables env dc thing (.call (.sym f tf bf) [.sym x tx false]) (s.bindVar x m)
    rw [hc] at h4
    simp only at h4
    have h7 := eval_restores_variables env dc thing (.sym x tx' false) s1
    rw [hr] at h7
    simp only at h7
    obtain ⟨g', r, h1, h2, h3⟩ := call_on_var hsc hfx hc
    rw [hg] at h1
    cases h1
    obtain ⟨rs, h5, h6⟩ := ih (by simp only [St.unbindVar, h7, h4, hsc]; rfl)
    rw [h3, localise_truthy] at ht
    simp only [eval] at hr
    have hy := evalSymbol_var (a := ⟨x, m, .undefined⟩) (by simp [h4, hsc, scopeLookup]) hr
    exact ⟨r :: rs, .cons h2 h5, by simp [ht, h6, hy]⟩

/-- the call of `$map` or `$filter` -/
theorem map_call {env : Env} {dc : DecCtx} {thing : Value} {f : String} {tf t : DataType} {bf : Bool} {l : Expr}
    {name : String} {b : Builtin} (hb : builtinNamed name = some b) (hf : if bf then f ≠ "re_groups" else True)
    {groups : Value} {sy : List String} {lg : List Event} {s' : St} {v : Value}
    (h : eval env dc thing (.call (.sym name t true) [.sym f tf bf, l]) ⟨[], groups, sy, lg⟩ = (.ok v, s')) :
    ∃ g arr r s1 s2, nameValue env thing f tf bf = .ok g ∧ (eval env dc thing l ⟨[], groups, sy, lg⟩).1 = .ok arr ∧
      callFn env dc (.builtinFn b) [g, arr] s1 = (.ok r, s2) ∧ v = localise env (coerce env.utcoffset r) := by
  have hbv : builtinValue env groups name = some (.builtinFn b) := by
    unfold builtinNamed at hb
    split at hb <;> simp only [Option.some.injEq, reduceCtorEq] at hb <;> subst hb <;> rfl
  simp only [eval, M.bind_eq_ok] at h
  obtain ⟨m, s1, h1, h⟩ := h
  have hm : m = .builtinFn b ∧ s1 = ⟨[], groups, sy, lg⟩ := by
    unfold evalSymbol at h1
    simp only [M.bind_apply, M.catchErr, ctxResolve, if_true, hbv, M.lift_apply, Prod.mk.injEq] at h1
    exact ⟨checkSymbol_ok h1.1, h1.2.symm⟩
  obtain ⟨rfl, rfl⟩ := hm
  have hcall : (Value.builtinFn b).isCallable = true := rfl
  rw [M.ite_app, if_pos hcall] at h
  simp only [evals, seqM] at h
  simp only [M.bind_eq_ok, M.pure_eq_ok] at h
  obtain ⟨vs, s2, ⟨g, s3, h2, us, s4, ⟨arr, s5, h3, ws, s6, ⟨rfl, rfl⟩, rfl, rfl⟩, rfl, rfl⟩, h4⟩ := h
  simp only [eval] at h2
  have hg : nameValue env thing f tf bf = .ok g := by
    rw [← evalSymbol_free (s := ⟨[], groups, sy, lg⟩), h2]
    cases bf with
    | true => simpa using hf
    | false => simp [scopeLookup]
  obtain ⟨lg', h5⟩ := evalSymbol_quiet env thing f tf bf ⟨[], groups, sy, lg⟩
  rw [h2] at h5
  simp only at h5
  subst h5
  obtain ⟨x, l1, hx⟩ := eval_framed env dc thing l [] groups
  obtain ⟨r, s7, h6, h7⟩ := evalCall_ok h4
  refine ⟨g, arr, r, _, s7, hg, ?_, h6, h7⟩
  rw [hx] at h3 ⊢
  cases h3
  rfl

theorem mapCall_ok {env : Env} {dc : DecCtx} {g arr r : Value} {s s' : St}
    (h : callFn env dc (.builtinFn .map) [g, arr] s = (.ok r, s')) :
    ∃ xs ys, arr.members = .ok xs ∧ r = .tuple ys ∧
      List.Forall₂ (fun x y => callBasic env dc g [x] = .ok y) xs ys := by
  simp only [callFn, M.bind_eq_ok, M.lift_eq_ok, M.pure_eq_ok] at h
  obtain ⟨_, s1, -, xs, s2, ⟨h1, rfl⟩, ys, s3, h2, rfl, -⟩ := h
  exact ⟨xs, ys, h1, rfl, mapCalls_ok env dc g xs _ _ _ h2⟩

theorem filterCall_ok {env : Env} {dc : DecCtx} {g arr r : Value} {s s' : St}
    (h : callFn env dc (.builtinFn .filter) [g, arr] s = (.ok r, s')) :
    ∃ xs rs, arr.members = .ok xs ∧ List.Forall₂ (fun x y => callBasic env dc g [x] = .ok y) xs rs ∧
      r = .tuple (((xs.zip rs).filter fun p => p.2.truthy).map Prod.fst) := by
  simp only [callFn, M.bind_eq_ok, M.lift_eq_ok, M.pure_eq_ok] at h
  obtain ⟨_, s1, -, xs, s2, ⟨h1, rfl⟩, ys, s3, h2, rfl, -⟩ := h
  obtain ⟨rs, h3, rfl⟩ := filterCalls_ok env dc g xs _ _ _ h2
  exact ⟨xs, rs, h1, h3, rfl⟩

/-! ### What the two texts are made into -/

/-- the name a word stands for, and whether it is written with a `$` -/
def wordName (w : List Char) : String := match w with | '$' :: cs => String.ofList cs | cs => String.ofList cs
def wordBuiltin (w : List Char) : Bool := match w with | '$' :: _ => true | _ => false

theorem symRaw_eq (w : List Char) : symRaw w = .sym (wordName w) (wordBuiltin w) := by
  rcases w with _ | ⟨c, cs⟩
  · rfl
  · by_cases hc : c = '$'
    · subst hc; rfl
    · have h0 : ∀ cs', c :: cs = '$' :: cs' → False := fun cs' h => hc (List.cons.inj h).1
      simp only [symRaw, wordName, wordBuiltin]

/-- the type a name that is no variable has -/
def wordType (env : Env) (w : List Char) : DataType :=
  if wordBuiltin w then builtinType (wordName w) else (match env.typeResolver (wordName w) with
    | .ok t => t | .error _ => .undefined)

theorem build_word {env : Env} {dct : DecCtx} {w : List Char} {s s' : St} {e : Expr}
    (h : build env dct (symRaw w) s = (.ok e, s')) : ∃ t, e = .sym (wordName w) t (wordBuiltin w) ∧
      s'.scopes = s.scopes ∧ (wordBuiltin w = true ∨ scopeLookup s.scopes (wordName w) = none →
        t = wordType env w) := by
  unfold wordType
  rw [symRaw_eq] at h
  simp only [build, mkSym, M.bind_eq_ok, M.pure_eq_ok] at h
  obtain ⟨_, s1, h1, t, s2, h2, rfl, rfl⟩ := h
  cases h1
  refine ⟨t, rfl, ?_, fun hw => ?_⟩
  · unfold ctxResolveType at h2
    cases hb : wordBuiltin w with
    | true => rw [hb, if_pos rfl] at h2; cases h2; rfl
    | false =>
      rw [hb] at h2
      simp only [Bool.false_eq_true, if_false] at h2
      split at h2 <;> simp only [Prod.mk.injEq] at h2 <;> rw [← h2.2]
  · unfold ctxResolveType at h2
    cases hb : wordBuiltin w with
    | true => rw [hb, if_pos rfl] at h2; cases h2; simp
    | false =>
      rw [hb] at h2
      simp only [hb, Bool.false_eq_true, false_or] at hw
      simp only [Bool.false_eq_true, if_false, hw] at h2
      simp only [Bool.false_eq_true, if_false]
      cases hT : env.typeResolver (wordName w) with
      | ok t' => rw [hT] at h2; cases h2; rfl
      | error e => rw [hT] at h2; cases h2

theorem mkCall_ok {env : Env} {dct : DecCtx} {f : Expr} {args : List Expr} (hf : f.reduced = false) {s s' : St} {e : Expr}
    (h : mkCall env dct f args s = (.ok e, s')) : e = .call f args := by
  unfold mkCall at h
  simp only [hf, Bool.false_and, Bool.false_eq_true, if_false] at h
  split at h
  · cases h
    rfl
  · simp only [M.bind_eq_ok, M.pure_eq_ok] at h
    obtain ⟨_, _, -, rfl, -⟩ := h
    rfl

theorem makes_mapCall {env : Env} {dct : DecCtx} {n f : List Char} {ra : Raw} {e : Expr} (hn : wordBuiltin n = true)
    (h : Makes env dct (.call (symRaw n) [symRaw f, ra]) e) :
    ∃ t l, Makes env dct ra l ∧
      e = .call (.sym (wordName n) t true) [.sym (wordName f) (wordType env f) (wordBuiltin f), l] := by
  obtain ⟨s, s', hs, h⟩ := h
  simp only [build, buildList, M.bind_eq_ok, M.pure_eq_ok] at h
  obtain ⟨fn, s1, h1, as, s2, ⟨fe, s3, h2, es, s4, ⟨l, s5, h3, ws, s6, ⟨rfl, rfl⟩, rfl, rfl⟩, rfl, rfl⟩, h4⟩ := h
  obtain ⟨t, rfl, hs1, -⟩ := build_word h1
  obtain ⟨tf, rfl, hs3, ht⟩ := build_word h2
  have hsc : s3.scopes = [] := by rw [hs3, hs1, hs]
  rw [ht (.inr (by rw [hs1, hs]; rfl))] at h4
  refine ⟨t, l, ⟨s3, _, hsc, h3⟩, ?_⟩
  rw [hn] at h4
  exact mkCall_ok rfl h4

theorem wordName_plain {x : List Char} (hx : x.head? ≠ some '$') : wordName x = String.ofList x ∧ wordBuiltin x = false := by
  rcases x with _ | ⟨c, cs⟩
  · exact ⟨rfl, rfl⟩
  · have hc : c ≠ '$' := by simpa using hx
    simp only [wordName, wordBuiltin]
    constructor <;> split <;> first | rfl | (rename_i h; exact (hc (List.cons.inj h).1).elim)

/-- the call `f(x)` inside a comprehension over `x` -/
theorem build_callOnVar {env : Env} {dct : DecCtx} {f x : List Char} (hx : x.head? ≠ some '$') (hfx : f ≠ x)
    {s s' : St} {t : DataType} {v : Value} {e : Expr} (hs : s.scopes = [⟨String.ofList x, v, t⟩])
    (h : build env dct (.call (symRaw f) [symRaw x]) s = (.ok e, s')) :
    ∃ tx, e = .call (.sym (wordName f) (wordType env f) (wordBuiltin f)) [.sym (String.ofList x) tx false] ∧
      s'.scopes = s.scopes := by
  obtain ⟨hx1, hx2⟩ := wordName_plain hx
  have hsc := build_scopes h
  simp only [build, buildList, M.bind_eq_ok, M.pure_eq_ok] at h
  obtain ⟨fe, s1, h1, as, s2, ⟨xe, s3, h2, ws, s6, ⟨rfl, rfl⟩, rfl, rfl⟩, h4⟩ := h
  obtain ⟨tf, rfl, hs1, ht⟩ := build_word h1
  obtain ⟨tx, rfl, hs3, -⟩ := build_word h2
  rw [hx1, hx2] at h4
  rw [ht (by
    cases hb : wordBuiltin f with
    | true => exact .inl rfl
    | false =>
      refine .inr ?_
      have : (String.ofList x == wordName f) = false := by
        have h1 : f.head? ≠ some '$' := by
          rcases f with _ | ⟨c, cs⟩
          · simp
          · intro hc
            simp only [List.head?_cons, Option.some.injEq] at hc
            subst hc
            cases hb
        rw [(wordName_plain h1).1]
        simpa [String.ofList_inj] using fun h => hfx h.symm
      simp [hs, scopeLookup, this])] at h4
  exact ⟨tx, mkCall_ok rfl h4, hsc⟩

/-- the name of the function means the same inside and outside the comprehension -/
structure WordFree (f x : List Char) : Prop where
  of_var : if wordBuiltin f then wordName f ≠ "re_groups" else wordName f ≠ String.ofList x
  of_word : if wordBuiltin f then wordName f ≠ "re_groups" else True

theorem word_free {f x : List Char} (hfx : f ≠ x) (hfg : f ≠ "$re_groups".toList) : WordFree f x := by
  cases hb : wordBuiltin f with
  | true =>
    have : wordName f ≠ "re_groups" := by
      rcases f with _ | ⟨c, cs⟩
      · cases hb
      · by_cases hc : c = '$'
        · subst hc
          intro h
          refine hfg ?_
          have h' : cs = "re_groups".toList := by
            have := congrArg String.toList h
            simpa [wordName] using this
          rw [h']
          rfl
        · rw [(wordName_plain (x := c :: cs) (by simpa using hc)).2] at hb
          cases hb
    exact ⟨by rw [hb]; exact this, by rw [hb]; exact this⟩
  | false =>
    refine ⟨?_, by rw [hb]; exact trivial⟩
    rw [hb]
    have h1 : f.head? ≠ some '$' := by
      rcases f with _ | ⟨c, cs⟩
      · simp
      · intro hc
        simp only [List.head?_cons, Option.some.injEq] at hc
        subst hc
        cases hb
    simpa [(wordName_plain h1).1, String.ofList_inj] using hfx

theorem makes_comp {env : Env} {dct : DecCtx} {x : List Char} {rr ra rc : Raw} {e : Expr}
    (h : Makes env dct (.comp rr (String.ofList x) ra rc) e) :
    ∃ l c r s s1 s2 t, Makes env dct ra l ∧ s.scopes = [⟨String.ofList x, .undef, t⟩] ∧
      s1.scopes = s.scopes ∧ build env dct rc s = (.ok c, s1) ∧ build env dct rr s1 = (.ok r, s2) ∧
      e = .comp r (String.ofList x) l c := by
  obtain ⟨s, s', hs, h⟩ := h
  simp only [build, M.bind_eq_ok, M.lift_eq_ok, M.pure_eq_ok] at h
  obtain ⟨l, s1, h1, t, s2, ⟨-, rfl⟩, ⟨c, r⟩, s3, h2, rfl, rfl⟩ := h
  have hs1 : s1.scopes = [] := (build_scopes h1).trans hs
  simp only [M.withScope] at h2
  rcases hm : (do
      let c ← build env dct rc
      let r ← build env dct rr
      pure (c, r) : M (Expr × Expr)) { s1 with scopes := s1.scopes ++ [⟨String.ofList x, .undef, t⟩] } with ⟨y, s4⟩
  rw [hm] at h2
  simp only [Prod.mk.injEq] at h2
  obtain ⟨rfl, -⟩ := h2
  simp only [M.bind_eq_ok, M.pure_eq_ok] at hm
  obtain ⟨c', s5, h3, r', s6, h4, h5, rfl⟩ := hm
  cases h5
  exact ⟨l, c, r, _, s5, _, t, ⟨s, s1, hs, h1⟩, by simp [hs1], build_scopes h3, h3, h4, rfl⟩

theorem forall2_unique {α β γ : Type} {R : α → β → Prop} {S : α → γ → Prop} {T : β → γ → Prop} {xs : List α} {ys : List β}
    {zs : List γ} (h1 : List.Forall₂ R xs ys) (h2 : List.Forall₂ S xs zs)
    (h : ∀ x ∈ xs, ∀ y z, R x y → S x z → T y z) : List.Forall₂ T ys zs := by
  induction h1 generalizing zs with
  | nil => cases h2; exact .nil
  | cons hx _ ih =>
    cases h2 with
    | cons hz hzs => exact .cons (h _ (by simp) _ _ hx hz) (ih hzs fun x hx => h x (by simp [hx]))

/-- the text of `$map(f, a)` (or `$filter(f, a)`), every part in parentheses -/
def callText (name f a : List Char) : List Char := par name ++ par (commas [f, a])

/-- the text of `f(x)` -/
def onVar (f x : List Char) : List Char := par f ++ par x

/-- **C64.** `$map(f, a)` and `[f(x) for x in a]` give the same, whenever both are accepted and neither raises: for every
text `a`, every name `f` of a function and every variable `x`, provided that no member of the array and no result of the
function is a datetime without timezone (see `map_naive_differs`). -/
theorem map_is_comprehension {codec : LitCodec} {env : Env} {dct : DecCtx} {a f x : List Char} {l e e' : Expr}
    (ha : Part codec env dct a l) (hf : IsWord f) (hx : IsWord x) (hxd : x.head? ≠ some '$') (hfx : f ≠ x)
    (hfg : f ≠ "$re_groups".toList) (acts acts' : List TextAct)
    (h1 : outcome codec env dct acts (callText "$map".toList f a) = .ok e)
    (h2 : outcome codec env dct acts'
      ('[' :: (onVar f x ++ (" for ".toList ++ (x ++ (" in ".toList ++ (a ++ [']'])))))) = .ok e')
    (thing : Value) (p : Proc) (v v' : Value) (hv : (p.evaluate env e thing).1 = .ok v)
    (hv' : (p.evaluate env e' thing).1 = .ok v')
    (hm : ∀ arr xs, (p.evaluate env l thing).1 = .ok arr → arr.members = .ok xs → ∀ m ∈ xs, Settled env m)
    (hr : ∀ ys, v = .tuple ys → ∀ y ∈ ys, y.isNaive = false) : v = v' := by
  obtain ⟨⟨ra, hma⟩, acts0, hacts⟩ := ha
  have hmf : Means codec f (symRaw f) := means_sym hf
  have hmx : Means codec x (symRaw x) := means_sym hx
  have hmm : Means codec "$map".toList (symRaw "$map".toList) := means_sym ⟨by decide, by decide⟩
  have m0 := rule_makes hma hacts
  have m1 := rule_makes (means_call hmm (.cons hmf (.cons hma .nil))) h1
  have m2 := rule_makes (means_comp (means_call hmf (.cons hmx .nil)) hma hx) h2
  obtain ⟨t, l1, hl1, rfl⟩ := makes_mapCall rfl m1
  obtain ⟨l2, c, r, s, s1, s2, t2, hl2, hs, hs1, hc, hrr, rfl⟩ := makes_comp m2
  cases makes_unique m0 hl1
  cases makes_unique m0 hl2
  obtain ⟨tx, rfl, -⟩ := build_callOnVar hxd hfx (hs1.trans hs) hrr
  have hcc : c = .lit (.bool true) .boolean := by
    simp only [build, fromValue] at hc
    cases hc
    rfl
  subst hcc
  have hfr := word_free (f := f) (x := x) hfx hfg
  simp only [Proc.evaluate, ruleEval, St.reset] at hv hv' hm
  rcases hev : eval env env.decCtx thing (.call (.sym (wordName "$map".toList) t true)
    [.sym (wordName f) (wordType env f) (wordBuiltin f), l]) ⟨[], .none, p.st.symbols, p.st.log⟩ with ⟨y, s3⟩
  rw [hev] at hv
  simp only at hv
  subst hv
  obtain ⟨g, arr, r, s4, s5, hg, harr, hcall, rfl⟩ := map_call (b := .map) rfl hfr.of_word hev
  obtain ⟨xs, ys, hxs, rfl, hys⟩ := mapCall_ok hcall
  rcases hev' : eval env env.decCtx thing (.comp (.call (.sym (wordName f) (wordType env f) (wordBuiltin f))
    [.sym (String.ofList x) tx false]) (String.ofList x) l (.lit (.bool true) .boolean))
    ⟨[], .none, p.st.symbols, p.st.log⟩ with ⟨y, s6⟩
  rw [hev'] at hv'
  simp only at hv'
  subst hv'
  obtain ⟨it, s7, t', xs', vs, hit, -, -, hxs', hrun, rfl⟩ := (comprehension_iff ..).1 hev'
  rw [hit] at harr
  cases harr
  rw [hxs] at hxs'
  cases hxs'
  have hs7 : s7.scopes = [] := by
    have := eval_restores_variables env env.decCtx thing l ⟨[], .none, p.st.symbols, p.st.log⟩
    rw [hit] at this
    exact this
  have hvs := compRun_map hg hfr.of_var hs7 hrun
  have hset := hm arr xs (by rw [hit]) hxs
  have hcoe : localise env (coerce env.utcoffset (.tuple ys)) = .tuple (ys.map (coerce env.utcoffset)) := by
    simp only [coerce, coerceList_eq_map, localise]
  rw [hcoe] at hr ⊢
  replace hr := hr _ rfl
  congr 1
  have h3 : List.Forall₂ (fun y v => v = localise env (coerce env.utcoffset y)) ys vs := by
    refine forall2_unique hys hvs ?_
    rintro m hmem y v hy ⟨r, hr1, rfl⟩
    rw [(hset m hmem).newValue, hy] at hr1
    cases hr1
    rfl
  clear hys hvs hrun hev' hcoe hcall hev
  induction h3 with
  | nil => rfl
  | cons hyv _ ih =>
    simp only [List.map_cons, List.mem_cons, forall_eq_or_imp] at hr ⊢
    rw [ih hr.2, hyv, localise_settled hr.1]

/-- The number a float is converted to is zero only if the float is (so it is for `repr` of Python). -/
def FaithfulTruth : Value → Prop
  | .float f => f.repr.truthy = f.exact.truthy
  | _ => True

theorem coerce_truthy {off : TzDb} {v : Value} (h : FaithfulTruth v) : (coerce off v).truthy = v.truthy := by
  cases v <;> try simp only [coerce, Value.truthy]
  case int i =>
    simp only [Dec.ofInt, Dec.truthy]
    by_cases hi : i = 0
    · subst hi; rfl
    · have h2 : i.natAbs ≠ 0 := by omega
      rw [bne_iff_ne.2 h2, bne_iff_ne.2 hi]
  case float f => exact h
  case seq k xs => cases xs <;> rfl
  case map k kvs =>
    cases kvs with
    | nil => rfl
    | cons p rest =>
      obtain ⟨k', v'⟩ := p
      have hne : ∀ (l acc : List (Value × Value)), acc ≠ [] →
          l.foldl (fun acc p => mapInsert off acc p.1 p.2) acc ≠ [] := by
        intro l
        induction l with
        | nil => exact fun acc h => h
        | cons q l ih =>
          intro acc _
          refine ih _ ?_
          rcases acc with _ | ⟨⟨a, b⟩, r⟩
          · simp [mapInsert]
          · simp only [mapInsert]
            split <;> simp
      have := hne (coercePairs off rest) [(coerce off k', coerce off v')] (by simp)
      simp only [coercePairs, mapOfList, List.foldl_cons, mapInsert, List.isEmpty_cons]
      rw [List.isEmpty_eq_false_iff.2 this]

/-- **C64.** `$filter(f, a)` and `[x for x in a if f(x)]` give the same, whenever both are accepted and neither raises,
under the same conditions. -/
theorem filter_is_comprehension {codec : LitCodec} {env : Env} {dct : DecCtx} {a f x : List Char} {l e e' : Expr}
    (ha : Part codec env dct a l) (hf : IsWord f) (hx : IsWord x) (hxd : x.head? ≠ some '$') (hfx : f ≠ x)
    (hfg : f ≠ "$re_groups".toList) (acts acts' : List TextAct)
    (h1 : outcome codec env dct acts (callText "$filter".toList f a) = .ok e)
    (h2 : outcome codec env dct acts'
      ('[' :: (x ++ (" for ".toList ++ (x ++ (" in ".toList ++ (a ++ (" if ".toList ++ (onVar f x ++ [']'])))))))) = .ok e')
    (thing : Value) (p : Proc) (v v' : Value) (hv : (p.evaluate env e thing).1 = .ok v)
    (hv' : (p.evaluate env e' thing).1 = .ok v')
    (hm : ∀ arr xs, (p.evaluate env l thing).1 = .ok arr → arr.members = .ok xs → ∀ m ∈ xs, Settled env m)
    (hr : ∀ g m r, callBasic env env.decCtx g [m] = .ok r → FaithfulTruth r) : v = v' := by
  obtain ⟨⟨ra, hma⟩, acts0, hacts⟩ := ha
  have hmf : Means codec f (symRaw f) := means_sym hf
  have hmx : Means codec x (symRaw x) := means_sym hx
  have hmm : Means codec "$filter".toList (symRaw "$filter".toList) := means_sym ⟨by decide, by decide⟩
  have m0 := rule_makes hma hacts
  have m1 := rule_makes (means_call hmm (.cons hmf (.cons hma .nil))) h1
  have m2 := rule_makes (means_comp_if hmx hma (means_call hmf (.cons hmx .nil)) hx) h2
  obtain ⟨t, l1, hl1, rfl⟩ := makes_mapCall rfl m1
  obtain ⟨l2, c, r, s, s1, s2, t2, hl2, hs, hs1, hc, hrr, rfl⟩ := makes_comp m2
  cases makes_unique m0 hl1
  cases makes_unique m0 hl2
  obtain ⟨tx, rfl, -⟩ := build_callOnVar hxd hfx hs hc
  obtain ⟨tx', rfl, -, -⟩ := build_word hrr
  rw [(wordName_plain hxd).1, (wordName_plain hxd).2] at hv'
  have hfr := word_free (f := f) (x := x) hfx hfg
  simp only [Proc.evaluate, ruleEval, St.reset] at hv hv' hm
  rcases hev : eval env env.decCtx thing (.call (.sym (wordName "$filter".toList) t true)
    [.sym (wordName f) (wordType env f) (wordBuiltin f), l]) ⟨[], .none, p.st.symbols, p.st.log⟩ with ⟨y, s3⟩
  rw [hev] at hv
  simp only at hv
  subst hv
  obtain ⟨g, arr, r, s4, s5, hg, harr, hcall, rfl⟩ := map_call (b := .filter) rfl hfr.of_word hev
  obtain ⟨xs, rs, hxs, hrs, rfl⟩ := filterCall_ok hcall
  rcases hev' : eval env env.decCtx thing (.comp (.sym (String.ofList x) tx' false) (String.ofList x) l
    (.call (.sym (wordName f) (wordType env f) (wordBuiltin f)) [.sym (String.ofList x) tx false]))
    ⟨[], .none, p.st.symbols, p.st.log⟩ with ⟨y, s6⟩
  rw [hev'] at hv'
  simp only at hv'
  subst hv'
  obtain ⟨it, s7, t', xs', vs, hit, -, -, hxs', hrun, rfl⟩ := (comprehension_iff ..).1 hev'
  rw [hit] at harr
  cases harr
  rw [hxs] at hxs'
  cases hxs'
  have hs7 : s7.scopes = [] := by
    have := eval_restores_variables env env.decCtx thing l ⟨[], .none, p.st.symbols, p.st.log⟩
    rw [hit] at this
    exact this
  obtain ⟨rs', hrs', rfl⟩ := compRun_filter hg hfr.of_var hs7 hrun
  have hset := hm arr xs (by rw [hit]) hxs
  have hcoe : ∀ ys : List Value, localise env (coerce env.utcoffset (.tuple ys)) = .tuple (ys.map (coerce env.utcoffset)) := by
    intro ys
    simp only [coerce, coerceList_eq_map, localise]
  rw [hcoe]
  congr 1
  clear hev hev' hcall hrun hxs hm hcoe hit
  induction hrs generalizing rs' with
  | nil => cases hrs'; rfl
  | @cons m y xs ys hy _ ih =>
    cases hrs' with
    | @cons _ z _ zs hz hzs =>
      have hm := hset m (by simp)
      rw [hm.newValue, hy] at hz
      cases hz
      have := ih _ hzs (fun m' hm' => hset m' (by simp [hm']))
      simp only [List.zip_cons_cons, List.filter_cons, coerce_truthy (hr _ _ _ hy)]
      split
      · simp only [List.map_cons, this, hm.newValue, hm.1]
      · exact this

/-- **C64.** `[x for x in a]` is the array of the members of `a`, if they are settled. -/
theorem identity_comprehension {codec : LitCodec} {env : Env} {dct : DecCtx} {a x : List Char} {l e' : Expr}
    (ha : Part codec env dct a l) (hx : IsWord x) (hxd : x.head? ≠ some '$') (acts' : List TextAct)
    (h2 : outcome codec env dct acts'
      ('[' :: (x ++ (" for ".toList ++ (x ++ (" in ".toList ++ (a ++ [']'])))))) = .ok e')
    (thing : Value) (p : Proc) (arr v' : Value) (xs : List Value) (hv : (p.evaluate env l thing).1 = .ok arr)
    (hv' : (p.evaluate env e' thing).1 = .ok v') (hxs : arr.members = .ok xs) (hm : ∀ m ∈ xs, Settled env m) :
    v' = .tuple xs := by
  obtain ⟨⟨ra, hma⟩, acts0, hacts⟩ := ha
  have hmx : Means codec x (symRaw x) := means_sym hx
  have m0 := rule_makes hma hacts
  have m2 := rule_makes (means_comp hmx hma hx) h2
  obtain ⟨l2, c, r, s, s1, s2, t2, hl2, hs, hs1, hc, hrr, rfl⟩ := makes_comp m2
  cases makes_unique m0 hl2
  obtain ⟨tx', rfl, -, -⟩ := build_word hrr
  rw [(wordName_plain hxd).1, (wordName_plain hxd).2] at hv'
  have hcc : c = .lit (.bool true) .boolean := by
    simp only [build, fromValue] at hc
    cases hc
    rfl
  subst hcc
  simp only [Proc.evaluate, ruleEval, St.reset] at hv hv'
  rcases hev' : eval env env.decCtx thing (.comp (.sym (String.ofList x) tx' false) (String.ofList x) l
    (.lit (.bool true) .boolean)) ⟨[], .none, p.st.symbols, p.st.log⟩ with ⟨y, s6⟩
  rw [hev'] at hv'
  simp only at hv'
  subst hv'
  obtain ⟨it, s7, t', xs', vs, hit, -, -, hxs', hrun, rfl⟩ := (comprehension_iff ..).1 hev'
  rw [hit] at hv
  cases hv
  rw [hxs] at hxs'
  cases hxs'
  have hs7 : s7.scopes = [] := by
    have := eval_restores_variables env env.decCtx thing l ⟨[], .none, p.st.symbols, p.st.log⟩
    rw [hit] at this
    exact this
  congr 1
  clear hit hxs hev'
  induction hrun with
  | done => rfl
  | skip hc hf h ih =>
    simp only [eval, M.pure_eq_ok] at hc
    rw [← hc.1] at hf
    cases hf
  | @take s s1 s2 s3 m c y xs ys hc ht hr h ih =>
    simp only [eval, M.pure_eq_ok] at hc
    obtain ⟨-, rfl⟩ := hc
    have h7 := eval_restores_variables env env.decCtx thing (.sym (String.ofList x) tx' false) (s.bindVar (String.ofList x) m)
    rw [hr] at h7
    simp only at h7
    have hsc : (s.bindVar (String.ofList x) m).scopes = [⟨String.ofList x, m, .undefined⟩] := by simp [St.bindVar, hs7]
    simp only [eval] at hr
    have hy := evalSymbol_var (a := ⟨String.ofList x, m, .undefined⟩) (by simp [hsc, scopeLookup]) hr
    rw [ih (fun m' hm' => hm m' (by simp [hm'])) (by simp only [St.unbindVar, h7, hsc]; rfl), hy, (hm m (by simp)).newValue]

/-! ### The hypotheses are met, and needed -/

/-- `$map(f, a)`, `[f(x) for x in a]`, `$filter(f, a)`, `[x for x in a if f(x)]` and `[x for x in a]` are accepted, and
evaluate to what they should. -/
example (codec : LitCodec) : ∃ l e1 e2 e3 e4 e5,
    Part codec sampleEnv .default ['a'] l ∧ IsWord ['f'] ∧ IsWord ['x'] ∧
    outcome codec sampleEnv .default [] (callText "$map".toList ['f'] ['a']) = .ok e1 ∧
    outcome codec sampleEnv .default [] ('[' :: (onVar ['f'] ['x'] ++ (" for ".toList ++ (['x'] ++ (" in ".toList ++
      (['a'] ++ [']'])))))) = .ok e2 ∧
    outcome codec sampleEnv .default [] (callText "$filter".toList ['f'] ['a']) = .ok e3 ∧
    outcome codec sampleEnv .default [] ('[' :: (['x'] ++ (" for ".toList ++ (['x'] ++ (" in ".toList ++
      (['a'] ++ (" if ".toList ++ (onVar ['f'] ['x'] ++ [']'])))))))) = .ok e4 ∧
    outcome codec sampleEnv .default [] ('[' :: (['x'] ++ (" for ".toList ++ (['x'] ++ (" in ".toList ++
      (['a'] ++ [']'])))))) = .ok e5 ∧
    let thing := dictOf [("f", .userFn 0), ("a", .seq .list [.int 3, .int 0, .str "u"])]
    (Proc.new.evaluate sampleEnv l thing).1 = .ok (.tuple [.dec (.ofInt 3), .dec (.ofInt 0), .str "u"]) ∧
    (Proc.new.evaluate sampleEnv e1 thing).1 = .ok (.tuple [.dec (.ofInt 3), .dec (.ofInt 0), .str "u"]) ∧
    (Proc.new.evaluate sampleEnv e2 thing).1 = .ok (.tuple [.dec (.ofInt 3), .dec (.ofInt 0), .str "u"]) ∧
    (Proc.new.evaluate sampleEnv e3 thing).1 = .ok (.tuple [.dec (.ofInt 3), .str "u"]) ∧
    (Proc.new.evaluate sampleEnv e4 thing).1 = .ok (.tuple [.dec (.ofInt 3), .str "u"]) ∧
    (Proc.new.evaluate sampleEnv e5 thing).1 = .ok (.tuple [.dec (.ofInt 3), .dec (.ofInt 0), .str "u"]) := by
  have hx : Means codec ['x'] (.sym "x" false) := means_sym x_word
  have hf : Means codec ['f'] (.sym "f" false) := means_sym ⟨by decide, by decide⟩
  have ha : Means codec ['a'] (.sym "a" false) := means_sym ⟨by decide, by decide⟩
  have hm : Means codec "$map".toList (.sym "map" true) := means_sym ⟨by decide, by decide⟩
  have hfi : Means codec "$filter".toList (.sym "filter" true) := means_sym ⟨by decide, by decide⟩
  have hcall := means_call hf (.cons hx .nil)
  refine ⟨_, _, _, _, _, _, ⟨⟨_, ha⟩, [], (rule_of_means ha).trans rfl⟩, ⟨by decide, by decide⟩, x_word,
    (rule_of_means (means_call hm (.cons hf (.cons ha .nil)))).trans rfl,
    (rule_of_means (means_comp hcall ha x_word)).trans rfl,
    (rule_of_means (means_call hfi (.cons hf (.cons ha .nil)))).trans rfl,
    (rule_of_means (means_comp_if hx ha hcall x_word)).trans rfl,
    (rule_of_means (means_comp hx ha x_word)).trans rfl, ?_⟩
  decide +kernel

/-- Without the condition on timezones the two differ: a comprehension attaches the default timezone, `$map` does not. -/
theorem map_naive_differs :
    runRaw sampleEnv (.call (.sym "map" true) [.sym "f" false, .sym "a" false])
      (dictOf [("f", .userFn 0), ("a", .seq .list [.datetime 0 none])]) = .ok (.tuple [.datetime 0 none]) ∧
    runRaw sampleEnv (.comp (.call (.sym "f" false) [.sym "x" false]) "x" (.sym "a" false) (.lit (.bool true)))
      (dictOf [("f", .userFn 0), ("a", .seq .list [.datetime 0 none])]) = .ok (.tuple [.datetime 0 (some 0)]) := by
  decide +kernel

end RE
