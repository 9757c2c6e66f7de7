import Verif.Props.RuleLaws
import Verif.Props.RuleSwap
import Verif.Props.BuiltinFns

/-!
# Builtin functions in whole rules (C73)
-/

set_option linter.unusedSimpArgs false
set_option linter.unusedVariables false

namespace RE

/-- The text `($name)(t, …)`. -/
def builtinText (name : String) (ts : List (List Char)) : List Char := par ('$' :: name.toList) ++ par (commas ts)

/-- The text `[t, …]`. -/
def arrayText (ts : List (List Char)) : List Char := '[' :: (commas ts ++ [']'])

/-- The text `[r for x in a]`. -/
def eachText (r x a : List Char) : List Char := '[' :: (r ++ (" for ".toList ++ (x ++ (" in ".toList ++ (a ++ [']'])))))

/-- The text `(a) ? (b) : (c)`. -/
def ternText (a b c : List Char) : List Char := par a ++ " ? ".toList ++ par b ++ " : ".toList ++ par c

/-- The text `not (a)`. -/
def notText (a : List Char) : List Char := "not ".toList ++ par a

theorem builtin_ready {env : Env} {name : String} {f : Builtin} (hf : builtinNamed name = some f) :
    (∀ g, builtinValue env g name = some (.builtinFn f)) ∧ name ≠ "re_groups" ∧
      checkSymbol name (builtinType name) (.builtinFn f) = .ok (.builtinFn f) := by
  unfold builtinNamed at hf
  split at hf <;> simp only [Option.some.injEq, reduceCtorEq] at hf <;> subst hf <;>
    refine ⟨fun _ => rfl, by decide, ?_⟩ <;>
    simp [checkSymbol, builtinType, DataType.eq, fromValue, except_ok_bind, DataType.compat, DataType.compatArgs,
      DataType.isScalar]

theorem builtin_symbol {env : Env} {name : String} {f : Builtin} (hf : builtinNamed name = some f) (thing : Value) (s : St) :
    evalSymbol env thing name (builtinType name) true s = (.ok (.builtinFn f), s) := by
  obtain ⟨h1, -, h2⟩ := builtin_ready (env := env) hf
  have hn : newValue env (.builtinFn f) = .builtinFn f := by simp [newValue, coerce, localise]
  simp only [evalSymbol, M.bind_apply, M.catchErr, ctxResolve, if_true, h1, hn, M.lift_apply, h2]

theorem builtinResult_call {env : Env} {name : String} {f : Builtin} (hf : builtinNamed name = some f) (args : List Value) :
    builtinResult env env.decCtx name args = (evalCall env env.decCtx (builtinType name) (callNodeType (builtinType name))
      (.builtinFn f) args St.init).1 := by
  unfold builtinResult
  simp only [eval, M.bind_apply, builtin_symbol hf, Expr.rt]
  rw [if_pos (show (Value.builtinFn f).isCallable = true from rfl), evals_lits]
  rfl

theorem part_builtin {codec : LitCodec} {env : Env} {dct : DecCtx} {name : String}
    (hw : IsWord ('$' :: name.toList)) :
    Part codec env dct ('$' :: name.toList) (.sym name (builtinType name) true) := by
  have hm : Means codec ('$' :: name.toList) (symRaw ('$' :: name.toList)) := means_sym hw
  refine ⟨⟨_, hm⟩, [], (rule_of_means hm).trans ?_⟩
  rw [symRaw_eq]
  simp only [wordName, wordBuiltin, String.ofList_toList]
  rfl

variable {codec : LitCodec} {env : Env} {thing : Value} {p : Proc} {a b c m : List Char} {x y z : Except Err Value}

theorem forall₂_outcome {ts : List (List Char)} {xs : List (Except Err Value)}
    (h : List.Forall₂ (Outcome codec env thing p) ts xs) :
    ∃ es, List.Forall₂ (Part codec env env.decCtx) ts es ∧ (es.map fun e => (p.evaluate env e thing).1) = xs := by
  induction h with
  | nil => exact ⟨[], .nil, rfl⟩
  | cons h hs ih =>
    obtain ⟨e, he, rfl⟩ := h
    obtain ⟨es, hes, rfl⟩ := ih
    exact ⟨e :: es, .cons he hes, rfl⟩

/-- **C73.** `($name)(t, …)` gives what the builtin function gives for the values the rules `t`, … give; the first of
their exceptions is the exception of the call. -/
theorem Outcome.builtin {name : String} {f : Builtin} (hf : builtinNamed name = some f) (hw : IsWord ('$' :: name.toList))
    {ts : List (List Char)} {xs : List (Except Err Value)} (hp : List.Forall₂ (Outcome codec env thing p) ts xs)
    (hg : ∀ t ∈ ts, NoGroups codec t) (h : Outcome codec env thing p (builtinText name ts) z) :
    z = (arrayOn xs >>= builtinResult env env.decCtx name) := by
  obtain ⟨es, hes, rfl⟩ := forall₂_outcome hp
  obtain ⟨e, he, rfl⟩ := h
  obtain ⟨acts, ho⟩ := he.outcome
  have hs : (p.evaluate env (.sym name (builtinType name) true) thing).1 = .ok (.builtinFn f) := by
    simp only [Proc.evaluate, ruleEval, eval, builtin_symbol hf]
  rw [call_of_rules (part_builtin hw) hes hg acts ho thing p (by simp [Expr.reduced]), hs]
  simp only [callOn, except_ok_bind]
  rw [if_pos (show (Value.builtinFn f).isCallable = true from rfl)]
  simp only [Expr.rt]
  congr 1
  funext vs
  exact (builtinResult_call hf vs).symm

/-- what an array literal gives -/
theorem Outcome.array {ts : List (List Char)} {xs : List (Except Err Value)}
    (hp : List.Forall₂ (Outcome codec env thing p) ts xs) (hg : ∀ t ∈ ts, NoGroups codec t)
    (h : Outcome codec env thing p (arrayText ts) z) : z = (arrayOn xs).map .tuple := by
  obtain ⟨es, hes, rfl⟩ := forall₂_outcome hp
  obtain ⟨e, he, rfl⟩ := h
  obtain ⟨acts, ho⟩ := he.outcome
  exact array_of_rules hes hg acts ho thing p

theorem arrayOn_ok (vs : List Value) : arrayOn (vs.map .ok) = .ok vs := by
  induction vs with
  | nil => rfl
  | cons v vs ih => simp only [List.map_cons, arrayOn, ih, except_ok_bind]


theorem parts_args {env : Env} {dct : DecCtx} {f : Raw} {rs : List Raw} {e : Expr} (h : Makes env dct (.call f rs) e) :
    ∃ es, List.Forall₂ (Makes env dct) rs es := by
  obtain ⟨s, s', hs, h⟩ := h
  simp only [build, M.bind_eq_ok] at h
  obtain ⟨l, s1, h1, es, s2, h2, -⟩ := h
  have hs1 : s1.scopes = [] := (build_scopes h1).trans hs
  exact ⟨es, parts_list hs1 h2⟩

theorem forall₂_values {ts : List (List Char)} {es : List Expr} (h : List.Forall₂ (Part codec env env.decCtx) ts es) :
    List.Forall₂ (Outcome codec env thing p) ts (es.map fun e => (p.evaluate env e thing).1) := by
  induction h with
  | nil => exact .nil
  | cons h hs ih => exact .cons ⟨_, h, rfl⟩ ih

/-- the arguments of an accepted call are accepted rules -/
theorem Outcome.args {name : String} (hw : IsWord ('$' :: name.toList)) {ts : List (List Char)}
    (hg : ∀ t ∈ ts, NoGroups codec t) (h : Outcome codec env thing p (builtinText name ts) z) :
    ∃ xs, List.Forall₂ (Outcome codec env thing p) ts xs := by
  obtain ⟨e, he, -⟩ := h
  obtain ⟨rs, hrs, -⟩ := noGroups_list hg
  obtain ⟨es, hes⟩ := parts_args (he.makes (means_call (means_sym hw) hrs))
  exact ⟨_, forall₂_values (forall₂_parts hrs hes)⟩


/-- what `($name)(t)` gives for what `t` gives -/
theorem Outcome.builtinOne {name : String} {f : Builtin} (hf : builtinNamed name = some f)
    (hw : IsWord ('$' :: name.toList)) (ha : Outcome codec env thing p a x) (hg : NoGroups codec a)
    (h : Outcome codec env thing p (builtinText name [a]) z) :
    z = (x >>= fun v => builtinResult env env.decCtx name [v]) := by
  rw [Outcome.builtin hf hw (.cons ha .nil) (by simpa using hg) h]
  cases x <;> rfl

theorem Outcome.arg {name : String} (hw : IsWord ('$' :: name.toList)) (hg : NoGroups codec a)
    (h : Outcome codec env thing p (builtinText name [a]) z) : ∃ x, Outcome codec env thing p a x := by
  obtain ⟨xs, hx⟩ := h.args hw (by simpa using hg)
  rcases hx with _ | ⟨h1, h2⟩
  exact ⟨_, h1⟩

/-- what `($name)([t, …])` gives when the members give values -/
theorem Outcome.ofArray {name : String} {f : Builtin} (hf : builtinNamed name = some f) (hw : IsWord ('$' :: name.toList))
    {ts : List (List Char)} {vs : List Value} (hp : List.Forall₂ (Outcome codec env thing p) ts (vs.map .ok))
    (hg : ∀ t ∈ ts, NoGroups codec t) (h : Outcome codec env thing p (builtinText name [arrayText ts]) z) :
    z = builtinResult env env.decCtx name [.tuple vs] := by
  have hg' : NoGroups codec (arrayText ts) := noGroups_array hg
  obtain ⟨y, hy⟩ := h.arg hw hg'
  rw [Outcome.builtinOne hf hw hy hg' h, hy.array hp hg, arrayOn_ok]
  rfl

theorem noGroups_builtin {name : String} (hw : IsWord ('$' :: name.toList)) (hn : name ≠ "re_groups")
    {ts : List (List Char)} (hg : ∀ t ∈ ts, NoGroups codec t) : NoGroups codec (builtinText name ts) := by
  refine noGroups_call ⟨_, means_sym hw, ?_⟩ hg
  rw [symRaw_eq]
  simpa [Raw.uses, wordName, wordBuiltin] using hn

/-! ### `$any` and `$all` -/

/-- **C73.** For rules `t`, … that give values of the engine, `$any([t, …])` is true exactly when one of them gives a true
value, and `$all([t, …])` is true exactly when all of them do. -/
theorem any_all_of_rules {ts : List (List Char)} {vs : List Value}
    (hp : List.Forall₂ (Outcome codec env thing p) ts (vs.map .ok)) (hg : ∀ t ∈ ts, NoGroups codec t)
    (hv : ∀ v ∈ vs, ∃ t, fromValue v = .ok t) :
    (∀ z, Outcome codec env thing p (builtinText "any" [arrayText ts]) z →
      ∃ q : Bool, z = .ok (.bool q) ∧ (q = true ↔ ∃ v ∈ vs, v.truthy = true)) ∧
    (∀ z, Outcome codec env thing p (builtinText "all" [arrayText ts]) z →
      ∃ q : Bool, z = .ok (.bool q) ∧ (q = true ↔ ∀ v ∈ vs, v.truthy = true)) := by
  obtain ⟨t, ht⟩ := (seqType_ok (k := .tuple) (xs := vs)).2 hv
  obtain ⟨h1, h2⟩ := any_all env env.decCtx vs t ht
  constructor
  · intro z h
    rw [Outcome.ofArray (f := .any) rfl ⟨by decide, by decide⟩ hp hg h]
    exact h1
  · intro z h
    rw [Outcome.ofArray (f := .all) rfl ⟨by decide, by decide⟩ hp hg h]
    exact h2

/-- **C73.** `$any([a, b])` gives the same as `(a) or (b)`, and `$all([a, b])` the same as `(a) and (b)`, if both rules
give values of the engine. -/
theorem any_is_or {v w : Value} (ha : Outcome codec env thing p a (.ok v)) (hb : Outcome codec env thing p b (.ok w))
    (hga : NoGroups codec a) (hgb : NoGroups codec b) (hv : ∃ t, fromValue v = .ok t) (hw : ∃ t, fromValue w = .ok t) :
    (∀ x y, Outcome codec env thing p (builtinText "any" [arrayText [a, b]]) x →
      Outcome codec env thing p (binText a .OR b) y → x = y) ∧
    (∀ x y, Outcome codec env thing p (builtinText "all" [arrayText [a, b]]) x →
      Outcome codec env thing p (binText a .AND b) y → x = y) := by
  have hp : List.Forall₂ (Outcome codec env thing p) [a, b] ([v, w].map .ok) := .cons ha (.cons hb .nil)
  obtain ⟨h1, h2⟩ := any_all_of_rules hp (by simpa using ⟨hga, hgb⟩) (by simpa using ⟨hv, hw⟩)
  constructor
  · intro x y hx hy
    obtain ⟨q, rfl, hq⟩ := h1 x hx
    rw [ha.operator (by decide) hb hgb hy]
    simp only [meaning, BinOp.on, except_ok_bind]
    simp only [List.mem_cons, List.not_mem_nil, or_false, exists_eq_or_imp, exists_eq_left] at hq
    cases hv : v.truthy <;> cases hw : w.truthy <;> simp_all
  · intro x y hx hy
    obtain ⟨q, rfl, hq⟩ := h2 x hx
    rw [ha.operator (by decide) hb hgb hy]
    simp only [meaning, BinOp.on, except_ok_bind]
    simp only [List.mem_cons, List.not_mem_nil, or_false, forall_eq_or_imp, forall_eq] at hq
    cases hv : v.truthy <;> cases hw : w.truthy <;> simp_all

/-! ### `$sum`, `$min`, `$max` -/

/-- The text `(…(((0) + (t₁)) + (t₂)) …) + (tₙ)`. -/
def plusText (ts : List (List Char)) : List Char := ts.foldl (fun acc t => binText acc .ADD t) ['0']

theorem fold_parts {ts : List (List Char)} {acc : List Char} (hacc : NoGroups codec acc)
    (hg : ∀ t ∈ ts, NoGroups codec t)
    (h : Outcome codec env thing p (ts.foldl (fun acc t => binText acc .ADD t) acc) z) :
    ∃ r, Outcome codec env thing p acc r := by
  induction ts generalizing acc with
  | nil => exact ⟨z, h⟩
  | cons t ts ih =>
    have ht := hg t (by simp)
    obtain ⟨r, hr⟩ := ih (noGroups_bin hacc ht .ADD (by decide)) (fun u hu => hg u (List.mem_cons_of_mem _ hu)) h
    exact (hr.parts (by decide) hacc ht).1

theorem fold_out {ts : List (List Char)} {ds : List Dec} {acc : List Char} {r : Except Err Value}
    (hacc : NoGroups codec acc) (hg : ∀ t ∈ ts, NoGroups codec t)
    (hp : List.Forall₂ (Outcome codec env thing p) ts (ds.map fun d => .ok (.dec d)))
    (hr : Outcome codec env thing p acc r)
    (h : Outcome codec env thing p (ts.foldl (fun acc t => binText acc .ADD t) acc) z) :
    z = (r >>= fun v => addUp env env.decCtx v ds) := by
  induction ds generalizing ts acc r with
  | nil =>
    cases hp
    rw [hr.unique h]
    cases z <;> rfl
  | cons d ds ih =>
    rcases hp with _ | ⟨h1, h2⟩
    rename_i t ts
    have ht := hg t (by simp)
    have hg' : ∀ u ∈ ts, NoGroups codec u := fun u hu => hg u (List.mem_cons_of_mem _ hu)
    have hb := noGroups_bin hacc ht .ADD (by decide)
    obtain ⟨r', hr'⟩ := fold_parts hb hg' h
    rw [ih hb hg' h2 hr' h, hr.operator (by decide) h1 ht hr']
    cases r with
    | error e => rfl
    | ok v => rw [on_values]; rfl

theorem zero_number : Number ['0'] :=
  .inr (.inl ⟨['0'], [], [], by simp, by decide, .inl rfl, .inl rfl, rfl⟩)

theorem outcome_zero : Outcome codec env thing p ['0'] (.ok (.dec (.ofInt 0))) := by
  have hm : Means codec ['0'] (.floatLit (String.ofList ['0'])) := means_number zero_number
  exact ⟨_, ⟨⟨_, hm⟩, [], (rule_of_means hm).trans rfl⟩, rfl⟩

theorem zero_noGroups : NoGroups codec ['0'] := ⟨_, means_number zero_number, by simp [Raw.uses]⟩

/-- **C73.** For rules that give numbers, `$sum([t₁, …, tₙ])` gives what `(…((0) + (t₁)) …) + (tₙ)` gives; where that
raises an exception, `$sum` raises a FunctionCallError. -/
theorem sum_is_plus {ts : List (List Char)} {ds : List Dec}
    (hp : List.Forall₂ (Outcome codec env thing p) ts (ds.map fun d => .ok (.dec d)))
    (hg : ∀ t ∈ ts, NoGroups codec t) (h : Outcome codec env thing p (builtinText "sum" [arrayText ts]) x)
    (h' : Outcome codec env thing p (plusText ts) y) :
    (∀ v, y = .ok v → x = .ok v) ∧ ∀ e, y = .error e → x = .error (.eng .functionCall) := by
  have e1 := Outcome.ofArray (f := .sum) (vs := ds.map .dec) rfl ⟨by decide, by decide⟩ (by simpa using hp) hg h
  have e2 := fold_out zero_noGroups hg hp outcome_zero h'
  have := sum_is_addition env env.decCtx ds
  rw [except_ok_bind] at e2
  rw [← e2] at this
  simp only [Value.floats] at this
  rw [← e1] at this
  cases y with
  | ok v => exact ⟨fun w hw => by cases hw; exact this, by simp⟩
  | error e => exact ⟨by simp, fun _ _ => this⟩

/-- **C73.** For rules that give numbers other than NaN, `$min([t, …])` is what one of the rules gives, and is at most
what any of them gives: `(t) < ($min([t, …]))` is false for each of them.  The same for `$max` and `>`. -/
theorem min_max_of_rules {ts : List (List Char)} {ds : List Dec} (hne : ts ≠ [])
    (hp : List.Forall₂ (Outcome codec env thing p) ts (ds.map fun d => .ok (.dec d)))
    (hg : ∀ t ∈ ts, NoGroups codec t) (hn : ∀ d ∈ ds, d ≠ .nan) :
    (∀ z, Outcome codec env thing p (builtinText "min" [arrayText ts]) z →
      (∃ t ∈ ts, Outcome codec env thing p t z) ∧
      ∀ t ∈ ts, ∀ y, Outcome codec env thing p (binText t .LT (builtinText "min" [arrayText ts])) y →
        y = .ok (.bool false)) ∧
    (∀ z, Outcome codec env thing p (builtinText "max" [arrayText ts]) z →
      (∃ t ∈ ts, Outcome codec env thing p t z) ∧
      ∀ t ∈ ts, ∀ y, Outcome codec env thing p (binText t .GT (builtinText "max" [arrayText ts])) y →
        y = .ok (.bool false)) := by
  have hds : ds ≠ [] := by
    rintro rfl
    cases hp
    exact hne rfl
  have find : ∀ d ∈ ds, ∃ t ∈ ts, Outcome codec env thing p t (.ok (.dec d)) := by
    clear hne hds hn hg
    induction ds generalizing ts with
    | nil => simp
    | cons e ds ih =>
      rcases hp with _ | ⟨h1, h2⟩
      intro d hd
      rcases List.mem_cons.1 hd with rfl | hd
      · exact ⟨_, by simp, h1⟩
      · obtain ⟨t, ht, h⟩ := ih h2 d hd
        exact ⟨t, List.mem_cons_of_mem _ ht, h⟩
  have find' : ∀ t ∈ ts, ∃ d ∈ ds, Outcome codec env thing p t (.ok (.dec d)) := by
    clear hne hds hn hg find
    induction ds generalizing ts with
    | nil => cases hp; simp
    | cons e ds ih =>
      rcases hp with _ | ⟨h1, h2⟩
      intro t ht
      rcases List.mem_cons.1 ht with rfl | ht
      · exact ⟨_, by simp, h1⟩
      · obtain ⟨d, hd, h⟩ := ih h2 t ht
        exact ⟨d, List.mem_cons_of_mem _ hd, h⟩
  have hga : NoGroups codec (arrayText ts) := noGroups_array hg
  have hb : ∀ name : String, IsWord ('$' :: name.toList) → name ≠ "re_groups" → NoGroups codec (builtinText name [arrayText ts]) :=
    fun name hw hn => noGroups_builtin hw hn (by simpa using hga)
  constructor
  · intro z h
    obtain ⟨m, hm, h1, h2⟩ := min_lower_bound env env.decCtx ds hds hn
    have e1 := Outcome.ofArray (f := .min) (vs := ds.map .dec) rfl ⟨by decide, by decide⟩ (by simpa using hp) hg h
    rw [show Value.tuple (ds.map .dec) = Value.floats ds from rfl, h1] at e1
    subst e1
    refine ⟨find m hm, fun t ht y hy => ?_⟩
    obtain ⟨d, hd, hdt⟩ := find' t ht
    rw [hdt.values (by decide) h (hb "min" ⟨by decide, by decide⟩ (by decide)) hy]
    obtain ⟨o, ho⟩ := decCmp_total (hn m hm) (hn d hd)
    have h3 := h2 d hd
    rw [binResult_cmp_dec env _ .le m d o ho] at h3
    have ho' : decCmp d m = some o.swap := by rw [decCmp_swap, ho]; rfl
    simp only [meaning]
    rw [binResult_cmp_dec env _ .lt d m _ ho']
    cases o <;> simp_all [CmpOp.holds]
  · intro z h
    obtain ⟨m, hm, h1, h2⟩ := max_upper_bound env env.decCtx ds hds hn
    have e1 := Outcome.ofArray (f := .max) (vs := ds.map .dec) rfl ⟨by decide, by decide⟩ (by simpa using hp) hg h
    rw [show Value.tuple (ds.map .dec) = Value.floats ds from rfl, h1] at e1
    subst e1
    refine ⟨find m hm, fun t ht y hy => ?_⟩
    obtain ⟨d, hd, hdt⟩ := find' t ht
    rw [hdt.values (by decide) h (hb "max" ⟨by decide, by decide⟩ (by decide)) hy]
    obtain ⟨o, ho⟩ := decCmp_total (hn m hm) (hn d hd)
    have h3 := h2 d hd
    rw [binResult_cmp_dec env _ .ge m d o ho] at h3
    have ho' : decCmp d m = some o.swap := by rw [decCmp_swap, ho]; rfl
    simp only [meaning]
    rw [binResult_cmp_dec env _ .gt d m _ ho']
    cases o <;> simp_all [CmpOp.holds]

/-- what `(a) ? (b) : (c)` gives when `a` gives a value -/
theorem Outcome.choice {v : Value} (ha : Outcome codec env thing p a (.ok v)) (hb : Outcome codec env thing p b x)
    (hc : Outcome codec env thing p c y) (hgb : NoGroups codec b) (hgc : NoGroups codec c)
    (h : Outcome codec env thing p (ternText a b c) z) : z = if v.truthy then x else y := by
  obtain ⟨l, hl, hlv⟩ := ha
  obtain ⟨i, hi, rfl⟩ := hb
  obtain ⟨j, hj, rfl⟩ := hc
  obtain ⟨e, he, rfl⟩ := h
  obtain ⟨acts, ho⟩ := he.outcome
  rw [tern_of_rules hl hi hj hgb hgc acts ho thing p (fun _ => ⟨v, hlv⟩), hlv]
  rfl

/-- **C73.** For rules that give numbers other than NaN, `$min([a, b])` gives the same as `((b) < (a)) ? (b) : (a)` and
`$max([a, b])` the same as `((b) > (a)) ? (b) : (a)`, with the same digits and exponent. -/
theorem min_is_choice {v w : Dec} (ha : Outcome codec env thing p a (.ok (.dec v)))
    (hb : Outcome codec env thing p b (.ok (.dec w))) (hga : NoGroups codec a) (hgb : NoGroups codec b)
    (hv : v ≠ .nan) (hw : w ≠ .nan) :
    (∀ x y, Outcome codec env thing p (builtinText "min" [arrayText [a, b]]) x →
      Outcome codec env thing p (ternText (binText b .LT a) b a) y → x = y) ∧
    (∀ x y, Outcome codec env thing p (builtinText "max" [arrayText [a, b]]) x →
      Outcome codec env thing p (ternText (binText b .GT a) b a) y → x = y) := by
  have hp : List.Forall₂ (Outcome codec env thing p) [a, b] ([Value.dec v, .dec w].map .ok) := .cons ha (.cons hb .nil)
  have hg : ∀ t ∈ [a, b], NoGroups codec t := by simpa using ⟨hga, hgb⟩
  obtain ⟨o, ho⟩ := decCmp_total hw hv
  constructor
  · intro x y hx hy
    rw [Outcome.ofArray (f := .min) rfl ⟨by decide, by decide⟩ hp hg hx,
      show Value.tuple [.dec v, .dec w] = Value.floats [v, w] from rfl, builtin_simple env env.decCtx "min" .min _ rfl rfl (validate_floats "min" .float "min" [v, w] rfl)]
    have hlt : Outcome codec env thing p (binText b .LT a) (.ok (.bool (CmpOp.lt.holds o))) := by
      obtain ⟨e, he, -⟩ := hy
      obtain ⟨l, i, j, hl, -⟩ := he.split_tern (noGroups_bin hgb hga .LT (by decide)) hgb hga
      refine ⟨l, hl, ?_⟩
      rw [hb.values (by decide) ha hga ⟨l, hl, rfl⟩]
      exact binResult_cmp_dec env _ .lt w v o ho
    rw [hlt.choice hb ha hgb hga hy]
    have h0 : callBuiltin env env.decCtx .min [.floats [v, w]] =
        (do if ← pyLess env.utcoffset false (.dec w) (.dec v) then .ok (.dec w) else .ok (.dec v)) := by
      have : callBuiltin env env.decCtx .min [.floats [v, w]] = pyExtreme env.utcoffset false [.dec v, .dec w] := rfl
      rw [this]
      simp only [pyExtreme, List.foldlM_cons, List.foldlM_nil, bind_pure]
    rw [h0, pyLess_dec _ _ _ _ _ ho, except_ok_bind]
    simp only [Bool.false_eq_true, if_false, Value.truthy]
    cases CmpOp.lt.holds o <;> exact checkedResult_dec env _
  · intro x y hx hy
    rw [Outcome.ofArray (f := .max) rfl ⟨by decide, by decide⟩ hp hg hx,
      show Value.tuple [.dec v, .dec w] = Value.floats [v, w] from rfl, builtin_simple env env.decCtx "max" .max _ rfl rfl (validate_floats "max" .float "max" [v, w] rfl)]
    have hlt : Outcome codec env thing p (binText b .GT a) (.ok (.bool (CmpOp.gt.holds o))) := by
      obtain ⟨e, he, -⟩ := hy
      obtain ⟨l, i, j, hl, -⟩ := he.split_tern (noGroups_bin hgb hga .GT (by decide)) hgb hga
      refine ⟨l, hl, ?_⟩
      rw [hb.values (by decide) ha hga ⟨l, hl, rfl⟩]
      exact binResult_cmp_dec env _ .gt w v o ho
    rw [hlt.choice hb ha hgb hga hy]
    have h0 : callBuiltin env env.decCtx .max [.floats [v, w]] =
        (do if ← pyLess env.utcoffset true (.dec w) (.dec v) then .ok (.dec w) else .ok (.dec v)) := by
      have : callBuiltin env env.decCtx .max [.floats [v, w]] = pyExtreme env.utcoffset true [.dec v, .dec w] := rfl
      rw [this]
      simp only [pyExtreme, List.foldlM_cons, List.foldlM_nil, bind_pure]
    rw [h0, pyLess_dec _ _ _ _ _ ho, except_ok_bind]
    simp only [if_true, Value.truthy]
    cases CmpOp.gt.holds o <;> exact checkedResult_dec env _

/-! ### `$abs` -/

theorem abs_result (env : Env) (d : Dec) : builtinResult env env.decCtx "abs" [.dec d] =
    match decAbs env.decCtx d with
    | .ok r => .ok (.dec r)
    | .error _ => .error (.eng .functionCall) := by
  rw [builtin_simple env env.decCtx "abs" .abs _ rfl rfl (by rfl)]
  simp only [callBuiltin]
  rcases decAbs env.decCtx d with e | r
  · rfl
  · exact checkedResult_dec env r

/-- **C73.** If `a` gives a finite number that has room in the decimal context, `$abs(a)` is its absolute value. -/
theorem abs_of_rule {v : Dec} {q : ℚ} (ha : Outcome codec env thing p a (.ok (.dec v))) (hga : NoGroups codec a)
    (hc : 1 ≤ env.decCtx.prec) (hv : v.num = some q) (hr : Representable env.decCtx q)
    (h : Outcome codec env thing p (builtinText "abs" [a]) z) : ∃ r, z = .ok (.dec r) ∧ r.num = some |q| := by
  rw [Outcome.builtinOne (f := .abs) rfl ⟨by decide, by decide⟩ ha hga h, except_ok_bind, abs_result]
  cases v with
  | inf n => cases hv
  | nan => cases hv
  | fin n k e =>
    simp only [Dec.num, Option.some.injEq] at hv
    have hneg : ∀ m, finVal m k e = q ∨ finVal m k e = -q := by
      intro m
      rw [← hv]
      unfold finVal
      cases m <;> cases n <;> simp
    have hrep : ∀ m, Representable env.decCtx (finVal m k e) := by
      intro m
      rcases hneg m with h | h <;> rw [h]
      · exact hr
      · obtain ⟨i, j, h1, h2, h3, h4⟩ := hr
        exact ⟨-i, j, by simpa using h1, h2, h3, by rw [h4]; push_cast; ring⟩
    have hpos : finVal false k e = |q| := by
      have h0 : 0 ≤ finVal false k e := by
        unfold finVal
        simp only [Bool.false_eq_true, if_false]
        positivity
      rcases hneg false with h | h
      · rw [← h, abs_of_nonneg h0]
      · rw [← abs_neg, ← h, abs_of_nonneg h0]
    simp only [decAbs]
    have key : ∀ m, (m = true → k = 0) → ∃ r, (match decFix env.decCtx m k e with
        | .ok r => Except.ok (Value.dec r) | .error _ => .error (.eng .functionCall)) = (.ok (.dec r) : Except Err Value) ∧
          r.num = some |q| := by
      intro m hm
      obtain ⟨q', e', h1, h2⟩ := decFix_exact hc (hrep m)
      refine ⟨.fin m q' e', by rw [h1], ?_⟩
      rw [Dec.num, h2, ← hpos]
      cases m with
      | false => rfl
      | true => rw [hm rfl, finVal_zero, finVal_zero]
    cases n with
    | true =>
      simp only [if_true, decNeg]
      refine key _ ?_
      split <;> simp
    | false =>
      simp only [Bool.false_eq_true, if_false, decPos]
      refine key _ ?_
      split <;> simp

/-- **C73.** If `a` gives a number below zero, `$abs(a)` gives what `-(a)` gives; where that raises an exception, it raises
a FunctionCallError. -/
theorem abs_is_neg {v : Dec} (ha : Outcome codec env thing p a (.ok (.dec v))) (hga : NoGroups codec a)
    (hn : decCmp v (.ofInt 0) = some .lt) (h : Outcome codec env thing p (builtinText "abs" [a]) x)
    (h' : Outcome codec env thing p ('-' :: par a) y) :
    (∀ v, y = .ok v → x = .ok v) ∧ ∀ e, y = .error e → x = .error (.eng .functionCall) := by
  have e1 := Outcome.builtinOne (f := .abs) rfl ⟨by decide, by decide⟩ ha hga h
  rw [except_ok_bind, abs_result] at e1
  have e2 : y = ((decNeg env.decCtx v).mapError Err.ofDec).map Value.dec := by
    obtain ⟨l, hl, hlv⟩ := ha
    obtain ⟨e, he, rfl⟩ := h'
    obtain ⟨acts, ho⟩ := he.outcome
    rw [neg_of_rule hl acts ho thing p, hlv]
    rfl
  have hd : decAbs env.decCtx v = decNeg env.decCtx v := by
    cases v with
    | nan => rfl
    | inf n => cases n <;> first | rfl | (simp [decCmp, Dec.ofInt] at hn)
    | fin n k e =>
      cases n with
      | true => rfl
      | false =>
        exfalso
        have := decCmp_spec (.fin false k e) (.ofInt 0)
        simp only [Dec.key, Dec.ofInt, keyLt] at this hn
        rw [hn] at this
        have h0 : 0 ≤ finVal false k e := by
          unfold finVal
          simp only [Bool.false_eq_true, if_false]
          positivity
        rw [show finVal (decide ((0 : Int) < 0)) (Int.natAbs 0) 0 = 0 from finVal_zero ..] at this
        simp only [lt_irrefl, true_and, false_or, reduceCtorEq, Option.some.injEq, false_and, or_false] at this
        linarith
  rw [hd] at e1
  subst e1 e2
  rcases decNeg env.decCtx v with e | r
  · exact ⟨by simp [Except.mapError, Except.map], fun _ _ => rfl⟩
  · exact ⟨fun w hw => hw, by simp [Except.mapError, Except.map]⟩

/-! ### `$range` -/

/-- **C73.** If `a` gives a whole number `n` and `m` a number, `(m) in ($range(a))` is true exactly when `m` gives one of
the whole numbers `0`, …, `n - 1`. -/
theorem in_range_of_rules {d k : Dec} {n : Int} (ha : Outcome codec env thing p a (.ok (.dec d))) (hd : d.isWhole n)
    (hm : Outcome codec env thing p m (.ok (.dec k))) (hga : NoGroups codec a) (hgm : NoGroups codec m)
    (h : Outcome codec env thing p (inText m (builtinText "range" [a])) z) :
    ∃ q : Bool, z = .ok (.bool q) ∧ (q = true ↔ ∃ i : Int, k.num = some (i : ℚ) ∧ 0 ≤ i ∧ i < n) := by
  have hr : ∃ y, Outcome codec env thing p (builtinText "range" [a]) y := by
    obtain ⟨e, he, -⟩ := h
    obtain ⟨l, r, -, hr⟩ := he.split_in hgm (noGroups_builtin ⟨by decide, by decide⟩ (by decide) (by simpa using hga))
    exact ⟨_, r, hr, rfl⟩
  obtain ⟨y, hy⟩ := hr
  have e1 := Outcome.builtinOne (f := .range) rfl ⟨by decide, by decide⟩ ha hga hy
  obtain ⟨v, zs, h1, rfl, h2, h3⟩ := range_one env env.decCtx d n hd
  rw [except_ok_bind, h1] at e1
  subst e1
  obtain ⟨t, ht⟩ := (seqType_ok (k := .tuple) (xs := zs.map fun z => Value.dec (.ofInt z))).2 (by
    intro x hx
    obtain ⟨z, -, rfl⟩ := List.mem_map.1 hx
    exact ⟨_, rfl⟩)
  obtain ⟨q, rfl, hq⟩ := hm.member hy hgm ht rfl (.inl rfl) h
  refine ⟨q, rfl, hq.trans ?_⟩
  have heq : ∀ i : Int, pyEq env.utcoffset (.dec (.ofInt i)) (.dec k) = true ↔ k.num = some (i : ℚ) := by
    intro i
    have hi : finVal (decide (i < 0)) i.natAbs 0 = (i : ℚ) := by
      have h0 : (if decide (i < 0) = true then -(i.natAbs : ℚ) else (i.natAbs : ℚ)) = (i : ℚ) := by
        have h1 : ((i.natAbs : Int) : ℚ) = (i.natAbs : ℚ) := by simp
        rw [← h1]
        by_cases h : i < 0
        · rw [if_pos (by simpa using h), ← Int.cast_neg]
          congr 1
          omega
        · rw [if_neg (by simpa using h)]
          congr 1
          omega
      unfold finVal
      rw [h0]
      simp
    simp only [pyEq, Value.asNumber]
    rw [decEq_iff]
    cases k with
    | nan => simp [Dec.key, Dec.num]
    | inf b => cases b <;> simp [Dec.key, Dec.ofInt, Dec.num]
    | fin n k e => simp [Dec.key, Dec.ofInt, Dec.num, hi]
  constructor
  · rintro ⟨x, hx, e⟩
    obtain ⟨i, hi, rfl⟩ := List.mem_map.1 hx
    obtain ⟨j, hj, rfl⟩ := List.mem_iff_getElem.1 hi
    have h4 := (h3 j).1 hj
    rw [h2 j hj] at e
    refine ⟨_, (heq _).1 e, by omega, by omega⟩
  · rintro ⟨i, e, h0, h4⟩
    have hj : i.toNat < zs.length := (h3 i.toNat).2 (.inl ⟨by omega, by omega⟩)
    refine ⟨.dec (.ofInt i), List.mem_map.2 ⟨i, ?_, rfl⟩, (heq i).2 e⟩
    have := h2 i.toNat hj
    rw [show (0 : Int) + 1 * (i.toNat : Int) = i by omega] at this
    rw [← this]
    exact List.getElem_mem hj

/-! ### Quantifiers: `$any([c for x in a])` and `$all([c for x in a])` -/

theorem eachOn_all (g : Value → Except Err Value) (xs : List Value) :
    eachOn (fun _ => .ok (.bool true)) g xs = arrayOn (xs.map g) := by
  induction xs with
  | nil => rfl
  | cons v vs ih => simp only [List.map_cons, arrayOn, eachOn, ih, except_ok_bind, Value.truthy, if_true]

/-- the result of a comprehension over a collection is a rule of its own for every member, and what it gives for the
members makes the array -/
theorem Outcome.each {x : List Char} {l : Expr} {T t : DataType} {w : Value} {xs : List Value} {c : List Char}
    (hx : IsWord x) (ha : Part codec env env.decCtx a l) (hT : VarType l.rt T)
    (hl : (p.evaluate env l thing).1 = .ok w) (ht : fromValue w = .ok t) (hi : t.isIterable = true)
    (hm : w.members = .ok xs) (hcl : Clear codec (String.ofList x) c)
    (h : Outcome codec env thing p (eachText c x a) z) :
    ∃ g : Value → Except Err Value,
      (∀ m, Outcome codec (env.bindVar (String.ofList x) T m) thing p c (g m)) ∧ z = (arrayOn (xs.map g)).map .tuple := by
  obtain ⟨e, he, rfl⟩ := h
  obtain ⟨acts, ho⟩ := he.outcome
  have hi0 : ∃ i, outcome codec (env.bindVar (String.ofList x) T .none) env.decCtx [] c = .ok i := by
    have := (comprehension_accepted_plain hx ha hcl acts []).1 T .none hT
    rw [eachText] at ho
    rw [ho] at this
    cases hc : outcome codec (env.bindVar (String.ofList x) T .none) env.decCtx [] c with
    | ok i => exact ⟨i, rfl⟩
    | error e => rw [hc] at this; cases this
  obtain ⟨i, hi'⟩ := hi0
  have hmean : ∃ raw, Means codec c raw := by
    obtain ⟨raw, hm, -⟩ := hcl
    exact ⟨raw, hm⟩
  have hp0 : Part codec (env.bindVar (String.ofList x) T .none) env.decCtx c i := ⟨hmean, [], hi'⟩
  refine ⟨fun m => (p.evaluate (env.bindVar (String.ofList x) T m) i thing).1, fun m => ⟨i, part_any hcl hp0 m, rfl⟩, ?_⟩
  rw [comprehension_of_rules_plain hx ha hT hp0 hcl acts ho thing p, hl]
  simp only [compOn, except_ok_bind, ht, hi, if_true, hm, eachOn_all]
  cases arrayOn (xs.map fun m => (p.evaluate (env.bindVar (String.ofList x) T m) i thing).1) <;> rfl

theorem noGroups_quantified {x c : List Char} (hx : IsWord x) (hga : NoGroups codec a) (hcl : Clear codec (String.ofList x) c) :
    NoGroups codec (eachText c x a) := noGroups_each hga (clear_noGroups hcl) hx

/-- **C73.** Let `a` give a collection, and let the rule `c` give a value of the engine for each member of it, in the
context in which `x` is that member.  Then `$any([c for x in a])` is true exactly when `c` is true for a member, and
`$all([c for x in a])` is true exactly when `c` is true for all members. -/
theorem quantifiers {x : List Char} {l : Expr} {T t : DataType} {w : Value} {xs : List Value} {f : Value → Value}
    (hx : IsWord x) (ha : Part codec env env.decCtx a l) (hga : NoGroups codec a) (hT : VarType l.rt T)
    (hl : (p.evaluate env l thing).1 = .ok w) (ht : fromValue w = .ok t) (hi : t.isIterable = true)
    (hm : w.members = .ok xs) (hcl : Clear codec (String.ofList x) c)
    (hc : ∀ m ∈ xs, Outcome codec (env.bindVar (String.ofList x) T m) thing p c (.ok (f m)))
    (hv : ∀ m ∈ xs, ∃ t, fromValue (f m) = .ok t) :
    (∀ z, Outcome codec env thing p (builtinText "any" [eachText c x a]) z →
      ∃ q : Bool, z = .ok (.bool q) ∧ (q = true ↔ ∃ m ∈ xs, (f m).truthy = true)) ∧
    (∀ z, Outcome codec env thing p (builtinText "all" [eachText c x a]) z →
      ∃ q : Bool, z = .ok (.bool q) ∧ (q = true ↔ ∀ m ∈ xs, (f m).truthy = true)) := by
  have hg := noGroups_quantified hx hga hcl
  obtain ⟨t', ht'⟩ := (seqType_ok (k := .tuple) (xs := xs.map f)).2 (by
    intro v hv'
    obtain ⟨m, hm, rfl⟩ := List.mem_map.1 hv'
    exact hv m hm)
  obtain ⟨h1, h2⟩ := any_all env env.decCtx (xs.map f) t' ht'
  have key : ∀ y, Outcome codec env thing p (eachText c x a) y → y = .ok (.tuple (xs.map f)) := by
    intro y hy
    obtain ⟨g, hg, rfl⟩ := hy.each hx ha hT hl ht hi hm hcl
    have : xs.map g = (xs.map f).map .ok := by
      rw [List.map_map]
      exact List.map_congr_left fun m hm => (hg m).unique (hc m hm)
    rw [this, arrayOn_ok]
    rfl
  constructor
  · intro z h
    obtain ⟨y, hy⟩ := h.arg ⟨by decide, by decide⟩ hg
    rw [Outcome.builtinOne (f := .any) rfl ⟨by decide, by decide⟩ hy hg h, key y hy, except_ok_bind]
    simpa using h1
  · intro z h
    obtain ⟨y, hy⟩ := h.arg ⟨by decide, by decide⟩ hg
    rw [Outcome.builtinOne (f := .all) rfl ⟨by decide, by decide⟩ hy hg h, key y hy, except_ok_bind]
    simpa using h2

theorem clear_not {x : String} {c : List Char} (h : Clear codec x c) : Clear codec x (notText c) := by
  obtain ⟨raw, h1, h2, h3, h4⟩ := h
  exact ⟨_, means_not h1, by simpa only [Raw.NoShadow] using h2, by simpa only [Raw.attrNames] using h3,
    by simpa only [Raw.uses] using h4⟩

theorem arrayOn_map (f : Value → Value) (ys : List (Except Err Value)) :
    arrayOn (ys.map fun y => y.map f) = (arrayOn ys).map (List.map f) := by
  induction ys with
  | nil => rfl
  | cons y ys ih =>
    simp only [List.map_cons, arrayOn, ih]
    cases y with
    | error e => rfl
    | ok v => cases arrayOn ys <;> rfl

theorem arrayOn_mem {ys : List (Except Err Value)} {vs : List Value} (h : arrayOn ys = .ok vs) : ∀ v ∈ vs, .ok v ∈ ys := by
  induction ys generalizing vs with
  | nil => cases h; simp
  | cons y ys ih =>
    simp only [arrayOn, except_bind_ok] at h
    obtain ⟨v, rfl, ws, h2, h3⟩ := h
    cases h3
    intro u hu
    rcases List.mem_cons.1 hu with rfl | hu
    · simp
    · exact List.mem_cons_of_mem _ (ih h2 u hu)

/-- **C73.** `$any([c for x in a])` and `not ($all([not (c) for x in a]))` give the same, as long as `c` gives values of
the engine where it gives any: the same truth value, or the same exception. -/
theorem any_not_all {x : List Char} {l : Expr} {T t : DataType} {w : Value} {xs : List Value} {y y' : Except Err Value}
    (hx : IsWord x) (ha : Part codec env env.decCtx a l) (hga : NoGroups codec a) (hT : VarType l.rt T)
    (hl : (p.evaluate env l thing).1 = .ok w) (ht : fromValue w = .ok t) (hi : t.isIterable = true)
    (hm : w.members = .ok xs) (hcl : Clear codec (String.ofList x) c)
    (hv : ∀ m ∈ xs, ∀ v, Outcome codec (env.bindVar (String.ofList x) T m) thing p c (.ok v) → ∃ t, fromValue v = .ok t)
    (h : Outcome codec env thing p (builtinText "any" [eachText c x a]) y)
    (h' : Outcome codec env thing p (notText (builtinText "all" [eachText (notText c) x a])) y') : y = y' := by
  have hcn := clear_not hcl
  have hg := noGroups_quantified hx hga hcl
  have hgn := noGroups_quantified hx hga hcn
  have hall : ∃ u, Outcome codec env thing p (builtinText "all" [eachText (notText c) x a]) u := by
    obtain ⟨e, he, -⟩ := h'
    obtain ⟨l, hl⟩ := he.split_not (noGroups_builtin ⟨by decide, by decide⟩ (by decide) (by simpa using hgn))
    exact ⟨_, l, hl, rfl⟩
  obtain ⟨u, hu⟩ := hall
  obtain ⟨r, hr⟩ := h.arg ⟨by decide, by decide⟩ hg
  obtain ⟨r', hr'⟩ := hu.arg ⟨by decide, by decide⟩ hgn
  obtain ⟨g, hg1, e1⟩ := hr.each hx ha hT hl ht hi hm hcl
  obtain ⟨g', hg2, e2⟩ := hr'.each hx ha hT hl ht hi hm hcn
  have hgg : xs.map g' = (xs.map g).map fun y => y.map fun v => .bool (!v.truthy) := by
    rw [List.map_map]
    exact List.map_congr_left fun m _ => (hg1 m).negation (hg2 m)
  rw [hgg, arrayOn_map] at e2
  rw [hu.negation h', Outcome.builtinOne (f := .any) rfl ⟨by decide, by decide⟩ hr hg h,
    Outcome.builtinOne (f := .all) rfl ⟨by decide, by decide⟩ hr' hgn hu, e1, e2]
  cases hvs : arrayOn (xs.map g) with
  | error e => rfl
  | ok vs =>
    obtain ⟨t1, ht1⟩ := (seqType_ok (k := .tuple) (xs := vs)).2 (by
      intro v hv'
      obtain ⟨m, hm', e⟩ := List.mem_map.1 (arrayOn_mem hvs v hv')
      exact hv m hm' v (e ▸ hg1 m))
    obtain ⟨t2, ht2⟩ := (seqType_ok (k := .tuple) (xs := vs.map fun v => Value.bool (!v.truthy))).2 (by
      intro v hv'
      obtain ⟨m, hm', rfl⟩ := List.mem_map.1 hv'
      exact ⟨_, rfl⟩)
    obtain ⟨⟨q1, k1, k2⟩, -⟩ := any_all env env.decCtx vs t1 ht1
    obtain ⟨-, q2, k3, k4⟩ := any_all env env.decCtx _ t2 ht2
    simp only [Except.map, except_ok_bind, k1, k3]
    congr 2
    simp only [List.mem_map, forall_exists_index, and_imp, forall_apply_eq_imp_iff₂] at k4
    simp only [truthy_bool] at k4 ⊢
    rw [Bool.eq_iff_iff, k2, Bool.not_eq_true', ← Bool.not_eq_true, k4]
    simp

/-! ### Cases that meet the hypotheses -/

/-- the thing of the examples -/
def builtinThing : Value := dictOf [("x", .dec (.fin true 25 (-1))), ("y", .str "b"), ("z", .tuple [.str "a", .str "b"]), ("n", .dec (.ofInt 3))]


/-- The hypotheses are met: the rules `x`, `y`, `z`, `n` and rules made from them are accepted, and give these values. -/
theorem builtin_rules_witness (codec : LitCodec) :
    let Out := Outcome codec sampleEnv builtinThing Proc.new
    (Out ['x'] (.ok (.dec (.fin true 25 (-1)))) ∧ Out ['n'] (.ok (.dec (.ofInt 3))) ∧ Out ['y'] (.ok (.str "b")) ∧
      NoGroups codec ['x'] ∧ NoGroups codec ['n'] ∧ NoGroups codec ['y']) ∧
    (Out (builtinText "any" [arrayText [['x'], ['y']]]) (.ok (.bool true)) ∧ Out (binText ['x'] .OR ['y']) (.ok (.bool true)) ∧
      Out (builtinText "all" [arrayText [['x'], ['y']]]) (.ok (.bool true)) ∧
      Out (binText ['x'] .AND ['y']) (.ok (.bool true))) ∧
    (Out (builtinText "sum" [arrayText [['x'], ['n']]]) (.ok (.dec (.fin false 5 (-1)))) ∧
      Out (plusText [['x'], ['n']]) (.ok (.dec (.fin false 5 (-1))))) ∧
    (Out (builtinText "min" [arrayText [['n'], ['x']]]) (.ok (.dec (.fin true 25 (-1)))) ∧
      Out (ternText (binText ['x'] .LT ['n']) ['x'] ['n']) (.ok (.dec (.fin true 25 (-1)))) ∧
      Out (binText ['n'] .LT (builtinText "min" [arrayText [['n'], ['x']]])) (.ok (.bool false)) ∧
      Out (builtinText "max" [arrayText [['n'], ['x']]]) (.ok (.dec (.ofInt 3)))) ∧
    (Out (builtinText "abs" [['x']]) (.ok (.dec (.fin false 25 (-1)))) ∧ Out ('-' :: par ['x']) (.ok (.dec (.fin false 25 (-1)))) ∧
      decCmp (.fin true 25 (-1)) (.ofInt 0) = some .lt) ∧
    (Out (inText ['n'] (builtinText "range" [['n']])) (.ok (.bool false)) ∧ (Dec.ofInt 3).isWhole 3) := by
  have hx : Means codec ['x'] (.sym "x" false) := means_sym x_word
  have hy : Means codec ['y'] (.sym "y" false) := means_sym ⟨by decide, by decide⟩
  have hn : Means codec ['n'] (.sym "n" false) := means_sym ⟨by decide, by decide⟩
  have h0 : Means codec ['0'] (.floatLit "0") := means_number zero_number
  have call : ∀ {name : String} {t : List Char} {r : Raw}, IsWord ('$' :: name.toList) → Means codec t r →
      Means codec (builtinText name [t]) (.call (symRaw ('$' :: name.toList)) [r]) :=
    fun hw h => means_call (means_sym hw) (.cons h .nil)
  have arr : ∀ {t u : List Char} {r q : Raw}, Means codec t r → Means codec u q →
      Means codec (arrayText [t, u]) (.array [r, q]) := fun h h' => means_array (.cons h (.cons h' .nil))
  have out : ∀ {t : List Char} {r : Raw} {e : Expr} {v : Value}, Means codec t r →
      (construct sampleEnv .default r St.init).1 = .ok e → (Proc.new.evaluate sampleEnv e builtinThing).1 = .ok v →
      Outcome codec sampleEnv builtinThing Proc.new t (.ok v) :=
    fun hm hb hv => ⟨_, ⟨⟨_, hm⟩, [], (rule_of_means hm).trans hb⟩, hv⟩
  refine ⟨⟨?_, ?_, ?_, ?_, ?_, ?_⟩, ⟨?_, ?_, ?_, ?_⟩, ⟨?_, ?_⟩, ⟨?_, ?_, ?_, ?_⟩, ⟨?_, ?_, ?_⟩, ?_, ?_⟩
  · exact out hx rfl (by decide +kernel)
  · exact out hn rfl (by decide +kernel)
  · exact out hy rfl (by decide +kernel)
  · exact ⟨_, hx, by simp [Raw.uses]⟩
  · exact ⟨_, hn, by simp [Raw.uses]⟩
  · exact ⟨_, hy, by simp [Raw.uses]⟩
  · exact out (call (by exact ⟨by decide, by decide⟩) (arr hx hy)) rfl (by decide +kernel)
  · exact out (means_bin hx hy .OR (by decide)) rfl (by decide +kernel)
  · exact out (call (by exact ⟨by decide, by decide⟩) (arr hx hy)) rfl (by decide +kernel)
  · exact out (means_bin hx hy .AND (by decide)) rfl (by decide +kernel)
  · exact out (call (by exact ⟨by decide, by decide⟩) (arr hx hn)) rfl (by decide +kernel)
  · exact out (means_bin (means_bin h0 hx .ADD (by decide)) hn .ADD (by decide)) rfl (by decide +kernel)
  · exact out (call (by exact ⟨by decide, by decide⟩) (arr hn hx)) rfl (by decide +kernel)
  · exact out (means_tern (means_bin hx hn .LT (by decide)) hx hn) rfl (by decide +kernel)
  · exact out (means_bin hn (call (by exact ⟨by decide, by decide⟩) (arr hn hx)) .LT (by decide)) rfl (by decide +kernel)
  · exact out (call (by exact ⟨by decide, by decide⟩) (arr hn hx)) rfl (by decide +kernel)
  · exact out (call (by exact ⟨by decide, by decide⟩) hx) rfl (by decide +kernel)
  · exact out (means_neg hx) rfl (by decide +kernel)
  · decide +kernel
  · exact out (means_in hn (call (by exact ⟨by decide, by decide⟩) hn)) rfl (by decide +kernel)
  · refine ⟨by simp [Dec.ofInt, Dec.num, finVal], ?_⟩
    have : (3 : ℚ) < (doubleLimit : ℚ) := by
      have h : 3 < doubleLimit := by decide +kernel
      exact_mod_cast h
    simpa using this

/-- The hypotheses of the theorems about quantifiers are met: `(m) == (y)` for the members `m` of `z`. -/
theorem quantifiers_witness (codec : LitCodec) :
    let c := binText ['m'] .EQ ['y']
    let f : Value → Value := fun v => .bool (pyEq sampleEnv.utcoffset v (.str "b"))
    ∃ l, Part codec sampleEnv sampleEnv.decCtx ['z'] l ∧ NoGroups codec ['z'] ∧ VarType l.rt .undefined ∧
      (Proc.new.evaluate sampleEnv l builtinThing).1 = .ok (.tuple [.str "a", .str "b"]) ∧
      Clear codec (String.ofList ['m']) c ∧
      (∀ v ∈ [Value.str "a", .str "b"], Outcome codec (sampleEnv.bindVar (String.ofList ['m']) .undefined v) builtinThing
        Proc.new c (.ok (f v))) ∧
      Outcome codec sampleEnv builtinThing Proc.new (builtinText "any" [eachText c ['m'] ['z']]) (.ok (.bool true)) ∧
      Outcome codec sampleEnv builtinThing Proc.new (builtinText "all" [eachText c ['m'] ['z']]) (.ok (.bool false)) ∧
      Outcome codec sampleEnv builtinThing Proc.new (notText (builtinText "all" [eachText (notText c) ['m'] ['z']]))
        (.ok (.bool true)) := by
  have hm : Means codec ['m'] (.sym "m" false) := means_sym ⟨by decide, by decide⟩
  have hy : Means codec ['y'] (.sym "y" false) := means_sym ⟨by decide, by decide⟩
  have hz : Means codec ['z'] (.sym "z" false) := means_sym ⟨by decide, by decide⟩
  have hc := means_bin hm hy .EQ (by decide)
  have hw : IsWord ['m'] := ⟨by decide, by decide⟩
  have call : ∀ {name : String} {t : List Char} {r : Raw}, IsWord ('$' :: name.toList) → Means codec t r →
      Means codec (builtinText name [t]) (.call (symRaw ('$' :: name.toList)) [r]) :=
    fun hw h => means_call (means_sym hw) (.cons h .nil)
  have out : ∀ {env : Env} {t : List Char} {r : Raw} {e : Expr} {v : Value}, Means codec t r →
      (construct env env.decCtx r St.init).1 = .ok e → (Proc.new.evaluate env e builtinThing).1 = .ok v →
      Outcome codec env builtinThing Proc.new t (.ok v) :=
    fun hm hb hv => ⟨_, ⟨⟨_, hm⟩, [], (rule_of_means hm).trans hb⟩, hv⟩
  refine ⟨_, ⟨⟨_, hz⟩, [], (rule_of_means hz).trans rfl⟩, ⟨_, hz, by simp [Raw.uses]⟩, .unknown, by decide +kernel,
    ⟨_, hc, ⟨trivial, trivial⟩, by decide, by simp [Raw.uses, meaning]⟩, ?_, ?_, ?_, ?_⟩
  · intro v hv
    simp only [List.mem_cons, List.not_mem_nil, or_false] at hv
    rcases hv with rfl | rfl
    · exact out hc rfl (by decide +kernel)
    · exact out hc rfl (by decide +kernel)
  · exact out (call (by exact ⟨by decide, by decide⟩) (means_comp hc hz hw)) rfl (by decide +kernel)
  · exact out (call (by exact ⟨by decide, by decide⟩) (means_comp hc hz hw)) rfl (by decide +kernel)
  · exact out (means_not (call (by exact ⟨by decide, by decide⟩) (means_comp (means_not hc) hz hw))) rfl (by decide +kernel)

end RE
