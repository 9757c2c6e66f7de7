import Verif.Props.Compose
import Verif.Props.RuleText
import Verif.Props.Reduced
import Verif.Props.Interp

/-!
# Laws of the operators, on texts (C57)

Two rules "agree" if, whenever both are accepted, they do the same for every thing: the same value or exception, the
same calls of the resolver and of functions, the same `$re_groups`.
-/

set_option linter.unusedSimpArgs false

namespace RE

/-- After any two histories of their processes: if both texts are accepted, evaluating the two rules is the same, for
every thing and in every process. -/
def Agree (codec : LitCodec) (env : Env) (t u : List Char) : Prop :=
  ∀ (acts acts' : List TextAct) (dct : DecCtx) (e e' : Expr),
    ((runTexts codec env acts Proc.new).rule codec env dct (String.ofList t)).1 = .ok e →
    ((runTexts codec env acts' Proc.new).rule codec env dct (String.ofList u)).1 = .ok e' →
    ∀ (thing : Value) (p : Proc), p.evaluate env e thing = p.evaluate env e' thing

theorem M.ite_app {α : Type} (c : Prop) [Decidable c] (m m' : M α) (s : St) :
    (if c then m else m') s = if c then m s else m' s := by split <;> rfl

theorem truthy_bool (b : Bool) : (Value.bool b).truthy = b := rfl

/-- what `build` makes of the tree, with no variables assigned around it -/
def Makes (env : Env) (dct : DecCtx) (raw : Raw) (e : Expr) : Prop :=
  ∃ s s', s.scopes = [] ∧ build env dct raw s = (.ok e, s')

theorem makes_unique {env : Env} {dct : DecCtx} {raw : Raw} {e e' : Expr} (h : Makes env dct raw e)
    (h' : Makes env dct raw e') : e = e' := by
  obtain ⟨⟨sc, g, sy, lg⟩, s1, h1, h2⟩ := h
  obtain ⟨⟨sc', g', sy', lg'⟩, s2, h3, h4⟩ := h'
  simp only at h1 h3
  subst h1 h3
  obtain ⟨x, sy', l, hx⟩ := construct_framed2 env dct raw []
  simp only [construct] at hx
  rw [hx] at h2 h4
  cases h2
  cases h4
  rfl

theorem rule_makes {codec : LitCodec} {env : Env} {dct : DecCtx} {acts : List TextAct} {t : List Char} {raw : Raw}
    {e : Expr} (ht : Means codec t raw)
    (h : ((runTexts codec env acts Proc.new).rule codec env dct (String.ofList t)).1 = .ok e) : Makes env dct raw e := by
  simp only [Proc.rule, parseRule] at h
  rw [ht] at h
  simp only [construct] at h
  exact ⟨(runTexts codec env acts Proc.new).st, (build env dct raw (runTexts codec env acts Proc.new).st).2,
    runTexts_scopes codec env acts, Prod.ext h rfl⟩

/-- agreement from the trees -/
theorem agree_of {codec : LitCodec} {env : Env} {t u : List Char} {r r' : Raw} (ht : Means codec t r)
    (hu : Means codec u r')
    (h : ∀ dct e e', Makes env dct r e → Makes env dct r' e' → ∀ dc thing, eval env dc thing e = eval env dc thing e') :
    Agree codec env t u := by
  intro acts acts' dct e e' h1 h2 thing p
  simp only [Proc.evaluate, ruleEval, h dct e e' (rule_makes ht h1) (rule_makes hu h2)]

/-! ### What the constructors make -/

theorem makes_not {env : Env} {dct : DecCtx} {r : Raw} {e' : Expr} (h : Makes env dct (.not r) e') :
    ∃ e, Makes env dct r e ∧ (∀ dc thing, eval env dc thing e' = eval env dc thing (.not e)) ∧
      (e.reduced = true → ∃ v, ∀ dc thing, eval env dc thing e = pure v) ∧
      (e'.reduced = true → ∃ v, ∀ dc thing, eval env dc thing e' = pure v) := by
  obtain ⟨s, s', hs, h⟩ := h
  simp only [build, M.bind_eq_ok] at h
  obtain ⟨e, s1, h1, h2⟩ := h
  refine ⟨e, ⟨s, s1, hs, h1⟩, ?_⟩
  unfold mkNot at h2
  by_cases hr : e.reduced = true
  · obtain ⟨x, hx⟩ := reduced_const env e hr
    simp only [hr, if_true, M.bind_eq_ok, M.pure_eq_ok] at h2
    obtain ⟨v, s2, h2, rfl, rfl⟩ := h2
    simp only [eval, hx, M.bind_eq_ok, M.pure_eq_ok, M.lift_eq_ok] at h2
    obtain ⟨w, s3, ⟨rfl, rfl⟩, rfl, rfl⟩ := h2
    refine ⟨fun dc thing => ?_, fun _ => ⟨w, fun dc thing => hx dc thing⟩, fun _ => ⟨_, fun _ _ => rfl⟩⟩
    funext s
    simp [eval, hx, M.bind_apply]
  · simp only [hr, Bool.false_eq_true, if_false, M.pure_eq_ok] at h2
    obtain ⟨rfl, rfl⟩ := h2
    exact ⟨fun _ _ => rfl, fun h => absurd h hr, fun h => by simp [Expr.reduced] at h⟩

/-- The operators whose result is always a boolean that depends on nothing but the operands. -/
def BinOp.isLogical : BinOp → Bool
  | .and | .or | .eq | .ne => true
  | _ => false

theorem logical_lift {env : Env} {op : BinOp} (ho : op.isLogical = true) (x y : Except Err Value) :
    ∃ z : Except Err Value, (∀ dc, evalBin env dc op (M.lift x) (M.lift y) = M.lift z) ∧
      ∀ v, z = .ok v → ∃ b, v = .bool b := by
  cases op <;> simp only [BinOp.isLogical, Bool.false_eq_true] at ho <;> clear ho
  · cases x with
    | error e => exact ⟨.error e, fun _ => rfl, by simp⟩
    | ok a =>
      cases ha : a.truthy
      · exact ⟨.ok (.bool false), fun _ => by funext s; simp only [evalBin, M.bind_apply, M.lift_apply, M.pure_apply, ha, if_true, if_false, Bool.false_eq_true], by simp⟩
      · cases y with
        | error e => exact ⟨.error e, fun _ => by funext s; simp only [evalBin, M.bind_apply, M.lift_apply, M.pure_apply, ha, if_true, if_false, Bool.false_eq_true], by simp⟩
        | ok b => exact ⟨.ok (.bool b.truthy), fun _ => by funext s; simp only [evalBin, M.bind_apply, M.lift_apply, M.pure_apply, ha, if_true, if_false, Bool.false_eq_true], by simp⟩
  · cases x with
    | error e => exact ⟨.error e, fun _ => rfl, by simp⟩
    | ok a =>
      cases ha : a.truthy
      · cases y with
        | error e => exact ⟨.error e, fun _ => by funext s; simp only [evalBin, M.bind_apply, M.lift_apply, M.pure_apply, ha, if_true, if_false, Bool.false_eq_true], by simp⟩
        | ok b => exact ⟨.ok (.bool b.truthy), fun _ => by funext s; simp only [evalBin, M.bind_apply, M.lift_apply, M.pure_apply, ha, if_true, if_false, Bool.false_eq_true], by simp⟩
      · exact ⟨.ok (.bool true), fun _ => by funext s; simp only [evalBin, M.bind_apply, M.lift_apply, M.pure_apply, ha, if_true, if_false, Bool.false_eq_true], by simp⟩
  all_goals
    cases x with
    | error e => exact ⟨.error e, fun _ => rfl, by simp⟩
    | ok a =>
      cases y with
      | error e => exact ⟨.error e, fun _ => rfl, by simp⟩
      | ok b => exact ⟨.ok (.bool _), fun _ => rfl, by simp⟩

theorem makes_logical {env : Env} {dct : DecCtx} {op : BinOp} (ho : op.isLogical = true) {a b : Raw} {e' : Expr}
    (h : Makes env dct (.bin op a b) e') :
    ∃ l r, Makes env dct a l ∧ Makes env dct b r ∧
      ∀ dc thing, eval env dc thing e' = evalBin env dc op (eval env dc thing l) (eval env dc thing r) := by
  obtain ⟨s, s', hs, h⟩ := h
  simp only [build, M.bind_eq_ok] at h
  obtain ⟨l, s1, h1, r, s2, h2, h3⟩ := h
  refine ⟨l, r, ⟨s, s1, hs, h1⟩, ⟨s1, s2, (build_scopes h1).trans hs, h2⟩, ?_⟩
  simp only [mkBin, M.bind_eq_ok, M.lift_eq_ok] at h3
  obtain ⟨_, s3, ⟨-, rfl⟩, h3⟩ := h3
  by_cases hr : (l.reduced && r.reduced) = true
  · simp only [hr, if_true, foldLit, M.bind_eq_ok, M.lift_eq_ok] at h3
    obtain ⟨v, s4, h3, h4, rfl⟩ := h3
    simp only [Bool.and_eq_true] at hr
    obtain ⟨x, hx⟩ := reduced_const env l hr.1
    obtain ⟨y, hy⟩ := reduced_const env r hr.2
    obtain ⟨z, hz, hb⟩ := logical_lift (env := env) ho x y
    simp only [eval, hx, hy, hz, M.lift_eq_ok] at h3
    obtain ⟨rfl, rfl⟩ := h3
    obtain ⟨b, rfl⟩ := hb v rfl
    simp only [litOf, except_bind_ok, Except.ok.injEq] at h4
    obtain ⟨_, -, rfl⟩ := h4
    intro dc thing
    rw [hx, hy, hz]
    rfl
  · simp only [hr, Bool.false_eq_true, if_false, M.pure_eq_ok] at h3
    obtain ⟨rfl, rfl⟩ := h3
    exact fun _ _ => rfl

theorem makes_tern {env : Env} {dct : DecCtx} {a b c : Raw} {e' : Expr} (h : Makes env dct (.tern a b c) e') :
    ∃ l r q, Makes env dct a l ∧ Makes env dct b r ∧ Makes env dct c q ∧ e' = mkTern l r q := by
  obtain ⟨s, s', hs, h⟩ := h
  simp only [build, M.bind_eq_ok, M.pure_eq_ok] at h
  obtain ⟨l, s1, h1, r, s2, h2, q, s3, h3, rfl, rfl⟩ := h
  exact ⟨l, r, q, ⟨s, s1, hs, h1⟩, ⟨s1, s2, (build_scopes h1).trans hs, h2⟩,
    ⟨s2, s3, (build_scopes h2).trans ((build_scopes h1).trans hs), h3⟩, rfl⟩

/-! ### The laws -/

theorem bind_ok' {α β : Type} {m : M α} {f : α → M β} {s s1 : St} {a : α} (h : m s = (.ok a, s1)) :
    (m >>= f) s = f a s1 := by rw [M.bind_apply, h]

theorem bind_err' {α β : Type} {m : M α} {f : α → M β} {s s1 : St} {e : Err} (h : m s = (.error e, s1)) :
    (m >>= f) s = (.error e, s1) := by rw [M.bind_apply, h]

/-- the outcome of the operand, as a boolean -/
def asBool (r : M Value) : M Value := do
  let b ← r
  pure (.bool b.truthy)

/-- the negation of the operand -/
def asNot (r : M Value) : M Value := do
  let b ← r
  pure (.bool (!b.truthy))

theorem eval_not {env : Env} {dc : DecCtx} {thing : Value} {e : Expr} :
    eval env dc thing (.not e) = asNot (eval env dc thing e) := by simp only [eval, asNot]

theorem and_err {env : Env} {dc : DecCtx} {l r : M Value} {s s1 : St} {e : Err} (h : l s = (.error e, s1)) :
    evalBin env dc .and l r s = (.error e, s1) := bind_err' h

theorem or_err {env : Env} {dc : DecCtx} {l r : M Value} {s s1 : St} {e : Err} (h : l s = (.error e, s1)) :
    evalBin env dc .or l r s = (.error e, s1) := bind_err' h

theorem and_ok {env : Env} {dc : DecCtx} {l r : M Value} {s s1 : St} {v : Value} (h : l s = (.ok v, s1)) :
    evalBin env dc .and l r s = if v.truthy then asBool r s1 else (.ok (.bool false), s1) := by
  simp only [evalBin, asBool]
  rw [bind_ok' h, M.ite_app]
  rfl

theorem or_ok {env : Env} {dc : DecCtx} {l r : M Value} {s s1 : St} {v : Value} (h : l s = (.ok v, s1)) :
    evalBin env dc .or l r s = if v.truthy then (.ok (.bool true), s1) else asBool r s1 := by
  simp only [evalBin, asBool]
  rw [bind_ok' h, M.ite_app]
  rfl

theorem asNot_err {r : M Value} {s s1 : St} {e : Err} (h : r s = (.error e, s1)) : asNot r s = (.error e, s1) :=
  bind_err' h

theorem asNot_ok {r : M Value} {s s1 : St} {v : Value} (h : r s = (.ok v, s1)) :
    asNot r s = (.ok (.bool (!v.truthy)), s1) := bind_ok' h

theorem asBool_err {r : M Value} {s s1 : St} {e : Err} (h : r s = (.error e, s1)) : asBool r s = (.error e, s1) :=
  bind_err' h

theorem asBool_ok {r : M Value} {s s1 : St} {v : Value} (h : r s = (.ok v, s1)) :
    asBool r s = (.ok (.bool v.truthy), s1) := bind_ok' h

theorem eval_not_and (env : Env) (dc : DecCtx) (l r : M Value) :
    asNot (evalBin env dc .and l r) = evalBin env dc .or (asNot l) (asNot r) := by
  funext s
  rcases hl : l s with ⟨e | v, s1⟩
  · rw [asNot_err (and_err hl), or_err (asNot_err hl)]
  · rw [or_ok (asNot_ok hl), truthy_bool]
    cases hv : v.truthy
    · rw [asNot_ok (and_ok hl |>.trans (by rw [hv]; rfl))]
      rfl
    · rcases hr : r s1 with ⟨e | w, s2⟩
      · rw [asNot_err (and_ok hl |>.trans (by rw [hv]; exact asBool_err hr))]
        exact (asBool_err (asNot_err hr)).symm
      · rw [asNot_ok (and_ok hl |>.trans (by rw [hv]; exact asBool_ok hr))]
        exact (asBool_ok (asNot_ok hr)).symm

theorem eval_not_or (env : Env) (dc : DecCtx) (l r : M Value) :
    asNot (evalBin env dc .or l r) = evalBin env dc .and (asNot l) (asNot r) := by
  funext s
  rcases hl : l s with ⟨e | v, s1⟩
  · rw [asNot_err (or_err hl), and_err (asNot_err hl)]
  · rw [and_ok (asNot_ok hl), truthy_bool]
    cases hv : v.truthy
    · rcases hr : r s1 with ⟨e | w, s2⟩
      · rw [asNot_err (or_ok hl |>.trans (by rw [hv]; exact asBool_err hr))]
        exact (asBool_err (asNot_err hr)).symm
      · rw [asNot_ok (or_ok hl |>.trans (by rw [hv]; exact asBool_ok hr))]
        exact (asBool_ok (asNot_ok hr)).symm
    · rw [asNot_ok (or_ok hl |>.trans (by rw [hv]; rfl))]
      rfl

/-- **C57.** De Morgan: `not ((a) and (b))` and `(not (a)) or (not (b))` agree. -/
theorem de_morgan_and {codec : LitCodec} {env : Env} {a b : List Char} {ra rb : Raw} (ha : Means codec a ra)
    (hb : Means codec b rb) :
    Agree codec env ("not ".toList ++ par (par a ++ " and ".toList ++ par b))
      (par ("not ".toList ++ par a) ++ " or ".toList ++ par ("not ".toList ++ par b)) := by
  refine agree_of (r := .not (.bin .and ra rb)) (r' := .bin .or (.not ra) (.not rb)) ?_ ?_ ?_
  · have := means_not (means_bin ha hb .AND (by decide))
    simpa [spelling, meaning] using this
  · have := means_bin (means_not ha) (means_not hb) .OR (by decide)
    simpa [spelling, meaning] using this
  · intro dct e e' h h' dc thing
    obtain ⟨x, hx, h1, -⟩ := makes_not h
    obtain ⟨l, r, hl, hr, h2⟩ := makes_logical rfl hx
    obtain ⟨y, z, hy, hz, h3⟩ := makes_logical rfl h'
    obtain ⟨l', hl', h4, -⟩ := makes_not hy
    obtain ⟨r', hr', h5, -⟩ := makes_not hz
    rw [h1, h3, h4, h5, makes_unique hl' hl, makes_unique hr' hr]
    rw [eval_not, eval_not, eval_not, h2]
    exact eval_not_and env dc _ _

/-- **C57.** `not ((a) or (b))` and `(not (a)) and (not (b))` agree. -/
theorem de_morgan_or {codec : LitCodec} {env : Env} {a b : List Char} {ra rb : Raw} (ha : Means codec a ra)
    (hb : Means codec b rb) :
    Agree codec env ("not ".toList ++ par (par a ++ " or ".toList ++ par b))
      (par ("not ".toList ++ par a) ++ " and ".toList ++ par ("not ".toList ++ par b)) := by
  refine agree_of (r := .not (.bin .or ra rb)) (r' := .bin .and (.not ra) (.not rb)) ?_ ?_ ?_
  · have := means_not (means_bin ha hb .OR (by decide))
    simpa [spelling, meaning] using this
  · have := means_bin (means_not ha) (means_not hb) .AND (by decide)
    simpa [spelling, meaning] using this
  · intro dct e e' h h' dc thing
    obtain ⟨x, hx, h1, -⟩ := makes_not h
    obtain ⟨l, r, hl, hr, h2⟩ := makes_logical rfl hx
    obtain ⟨y, z, hy, hz, h3⟩ := makes_logical rfl h'
    obtain ⟨l', hl', h4, -⟩ := makes_not hy
    obtain ⟨r', hr', h5, -⟩ := makes_not hz
    rw [h1, h3, h4, h5, makes_unique hl' hl, makes_unique hr' hr]
    rw [eval_not, eval_not, eval_not, h2]
    exact eval_not_or env dc _ _

/-- **C57.** `and` and `or` are associative. -/
theorem logic_assoc {codec : LitCodec} {env : Env} {a b c : List Char} {ra rb rc : Raw} (ha : Means codec a ra)
    (hb : Means codec b rb) (hc : Means codec c rc) (k : Kind) (hk : k = .AND ∨ k = .OR) :
    Agree codec env (par (par a ++ ' ' :: (spelling k ++ ' ' :: par b)) ++ ' ' :: (spelling k ++ ' ' :: par c))
      (par a ++ ' ' :: (spelling k ++ ' ' :: par (par b ++ ' ' :: (spelling k ++ ' ' :: par c)))) := by
  have hkb : k ∈ binaryKinds := by rcases hk with rfl | rfl <;> decide
  have hop : (meaning k).isLogical = true := by rcases hk with rfl | rfl <;> rfl
  refine agree_of (means_bin (means_bin ha hb k hkb) hc k hkb) (means_bin ha (means_bin hb hc k hkb) k hkb) ?_
  intro dct e e' h h' dc thing
  obtain ⟨x, r, hx, hr, h1⟩ := makes_logical hop h
  obtain ⟨l, m, hl, hm, h2⟩ := makes_logical hop hx
  obtain ⟨l', y, hl', hy, h3⟩ := makes_logical hop h'
  obtain ⟨m', r', hm', hr', h4⟩ := makes_logical hop hy
  rw [h1, h3, h2, h4, makes_unique hl' hl, makes_unique hm' hm, makes_unique hr' hr]
  generalize eval env dc thing l = x
  generalize eval env dc thing m = y
  generalize eval env dc thing r = z
  funext s
  rcases hk with rfl | rfl <;> simp only [meaning, evalBin, M.bind_apply]
  · rcases x s with ⟨e | v, s1⟩
    · rfl
    · simp only [M.bind_apply, M.pure_apply, truthy_bool, M.ite_app]
      cases hv : v.truthy
      · rfl
      · simp only [if_true]
        rcases y s1 with ⟨e | w, s2⟩
        · rfl
        · simp only [M.bind_apply, M.pure_apply, truthy_bool, M.ite_app]
          cases hw : w.truthy
          · rfl
          · simp only [if_true]
            rcases z s2 with ⟨e | u, s3⟩ <;> rfl
  · rcases x s with ⟨e | v, s1⟩
    · rfl
    · simp only [M.bind_apply, M.pure_apply, truthy_bool, M.ite_app]
      cases hv : v.truthy
      · simp only [Bool.false_eq_true, if_false]
        rcases y s1 with ⟨e | w, s2⟩
        · rfl
        · simp only [M.bind_apply, M.pure_apply, truthy_bool, M.ite_app]
          cases hw : w.truthy
          · simp only [Bool.false_eq_true, if_false]
            rcases z s2 with ⟨e | u, s3⟩ <;> rfl
          · rfl
      · rfl

theorem eval_mkTern {env : Env} {dc : DecCtx} {thing : Value} {e t f : Expr}
    (he : e.reduced = true → ∃ v, ∀ dc thing, eval env dc thing e = pure v) :
    eval env dc thing (mkTern e t f) = (do
      let v ← eval env dc thing e
      if v.truthy then eval env dc thing t else eval env dc thing f) := by
  unfold mkTern
  by_cases hr : e.reduced = true
  · obtain ⟨v, hv⟩ := he hr
    have ht : e.litTruthy = v.truthy := litTruthy_eq (env := env) (dc := dc) (thing := thing) (s := St.init)
      (s' := St.init) hr (by rw [hv]; rfl)
    rw [if_pos hr, ht, hv]
    cases hvt : v.truthy
    · funext s
      exact (congrFun (if_neg (by rw [hvt]; decide)) s).symm
    · funext s
      exact (congrFun (if_pos hvt) s).symm
  · rw [if_neg hr]
    simp only [eval]

/-- **C57.** Negating the condition swaps the branches: `(a) ? (b) : (c)` and `(not (a)) ? (c) : (b)` agree. -/
theorem ternary_swap {codec : LitCodec} {env : Env} {a b c : List Char} {ra rb rc : Raw} (ha : Means codec a ra)
    (hb : Means codec b rb) (hc : Means codec c rc) :
    Agree codec env (par a ++ " ? ".toList ++ par b ++ " : ".toList ++ par c)
      (par ("not ".toList ++ par a) ++ " ? ".toList ++ par c ++ " : ".toList ++ par b) := by
  refine agree_of (means_tern ha hb hc) (means_tern (means_not ha) hc hb) ?_
  intro dct e e' h h' dc thing
  obtain ⟨l, r, q, hl, hr, hq, rfl⟩ := makes_tern h
  obtain ⟨x, q', r', hx, hq', hr', rfl⟩ := makes_tern h'
  obtain ⟨l', hl', h1, h2, hx'⟩ := makes_not hx
  have := makes_unique hl' hl
  subst this
  have := makes_unique hq' hq
  subst this
  have := makes_unique hr' hr
  subst this
  rw [eval_mkTern h2, eval_mkTern hx', h1, eval_not]
  funext s
  rcases hl : eval env dc thing l' s with ⟨e | v, s1⟩
  · rw [bind_err' hl, bind_err' (asNot_err hl)]
  · rw [bind_ok' hl, bind_ok' (asNot_ok hl), truthy_bool]
    cases v.truthy <;> rfl

/-- **C57.** `not (not (a))` and `(a) ? true : false` agree: the truth value of `a`. -/
theorem double_negation {codec : LitCodec} {env : Env} {a : List Char} {ra : Raw} (ha : Means codec a ra) :
    Agree codec env ("not ".toList ++ par ("not ".toList ++ par a))
      (par a ++ " ? ".toList ++ par "true".toList ++ " : ".toList ++ par "false".toList) := by
  have ht : Means codec "true".toList (.lit (.bool true)) :=
    (means_iff ..).2 ⟨.bool true, ⟨rfl, [word .TRUE], ⟨⟨rfl, rfl⟩, ⟨by decide, by simp [fixed]⟩, by decide, trivial⟩, rfl, rfl⟩, rfl⟩
  have hf : Means codec "false".toList (.lit (.bool false)) :=
    (means_iff ..).2 ⟨.bool false, ⟨rfl, [word .FALSE], ⟨⟨rfl, rfl⟩, ⟨by decide, by simp [fixed]⟩, by decide, trivial⟩, rfl, rfl⟩, rfl⟩
  refine agree_of (means_not (means_not ha)) (means_tern ha ht hf) ?_
  intro dct e e' h h' dc thing
  obtain ⟨x, hx, h1, -, -⟩ := makes_not h
  obtain ⟨y, hy, h2, h3, -⟩ := makes_not hx
  obtain ⟨l, r, q, hl, hr, hq, rfl⟩ := makes_tern h'
  have := makes_unique hl hy
  subst this
  obtain ⟨s, s', -, hr⟩ := hr
  obtain ⟨s2, s3, -, hq⟩ := hq
  cases hr
  cases hq
  rw [h1, eval_not, h2, eval_not, eval_mkTern h3]
  funext s
  rcases hl : eval env dc thing l s with ⟨e | v, s1⟩
  · rw [bind_err' hl, asNot_err (asNot_err hl)]
  · rw [bind_ok' hl, asNot_ok (asNot_ok hl), truthy_bool]
    cases v.truthy <;> rfl

/-! ### Operators that are negations of others -/

/-- What an evaluation returned, negated; exceptions and effects stay. -/
def negated (r : Except Err Value × Proc) : Except Err Value × Proc :=
  (r.1.map fun v => .bool (!v.truthy), r.2)

/-- `u` is the negation of `t`: one is accepted iff the other is, with the same exception if not, and for every thing
they return opposite booleans or raise the same exception, with the same effects. -/
def Negates (codec : LitCodec) (env : Env) (t u : List Char) : Prop :=
  ∀ (acts acts' : List TextAct) (dct : DecCtx),
    (∀ e, ((runTexts codec env acts Proc.new).rule codec env dct (String.ofList t)).1 = .ok e →
      ∃ e', ((runTexts codec env acts' Proc.new).rule codec env dct (String.ofList u)).1 = .ok e' ∧
        ∀ (thing : Value) (p : Proc), p.evaluate env e' thing = negated (p.evaluate env e thing)) ∧
    (∀ err, ((runTexts codec env acts Proc.new).rule codec env dct (String.ofList t)).1 = .error err →
      ((runTexts codec env acts' Proc.new).rule codec env dct (String.ofList u)).1 = .error err)

theorem asNot_apply (m : M Value) (s : St) : asNot m s = ((m s).1.map fun v => .bool (!v.truthy), (m s).2) := by
  rcases h : m s with ⟨e | v, s1⟩
  · exact asNot_err h
  · exact asNot_ok h

theorem negates_of {codec : LitCodec} {env : Env} {a b : List Char} {ra rb : Raw} (ha : Means codec a ra)
    (hb : Means codec b rb) {k k' : Kind} (hk : k ∈ binaryKinds) (hk' : k' ∈ binaryKinds)
    (hc : ∀ l r, (meaning k').check env l r = (meaning k).check env l r)
    (he : ∀ dc l r, evalBin env dc (meaning k') l r = asNot (evalBin env dc (meaning k) l r))
    (hbool : ∀ dc l r s v s', evalBin env dc (meaning k) l r s = (.ok v, s') → ∃ b, v = .bool b) :
    Negates codec env (par a ++ ' ' :: (spelling k ++ ' ' :: par b)) (par a ++ ' ' :: (spelling k' ++ ' ' :: par b)) := by
  intro acts acts' dct
  rw [rule_independent_of_history, rule_independent_of_history]
  have h1 : (Proc.new.rule codec env dct (String.ofList (par a ++ ' ' :: (spelling k ++ ' ' :: par b)))).1 =
      (build env dct (.bin (meaning k) ra rb) St.init).1 := by
    simp only [Proc.rule, parseRule, Proc.new]
    rw [means_bin ha hb k hk 1]
    rfl
  have h2 : (Proc.new.rule codec env dct (String.ofList (par a ++ ' ' :: (spelling k' ++ ' ' :: par b)))).1 =
      (build env dct (.bin (meaning k') ra rb) St.init).1 := by
    simp only [Proc.rule, parseRule, Proc.new]
    rw [means_bin ha hb k' hk' 1]
    rfl
  rw [h1, h2]
  suffices H : (∀ e, (build env dct (.bin (meaning k) ra rb) St.init).1 = .ok e →
      ∃ e', (build env dct (.bin (meaning k') ra rb) St.init).1 = .ok e' ∧
        ∀ dc thing, eval env dc thing e' = asNot (eval env dc thing e)) ∧
      (∀ err, (build env dct (.bin (meaning k) ra rb) St.init).1 = .error err →
        (build env dct (.bin (meaning k') ra rb) St.init).1 = .error err) by
    refine ⟨fun e h => ?_, H.2⟩
    obtain ⟨e', h3, h4⟩ := H.1 e h
    refine ⟨e', h3, fun thing p => ?_⟩
    simp only [Proc.evaluate, ruleEval, h4, asNot_apply, negated]
  simp only [build]
  rcases hl : build env dct ra St.init with ⟨e | l, s1⟩
  · rw [bind_err' hl, bind_err' hl]
    exact ⟨(fun e h => by cases h), fun err h => h⟩
  rw [bind_ok' hl, bind_ok' hl]
  rcases hr : build env dct rb s1 with ⟨e | r, s2⟩
  · rw [bind_err' hr, bind_err' hr]
    exact ⟨(fun e h => by cases h), fun err h => h⟩
  rw [bind_ok' hr, bind_ok' hr]
  unfold mkBin
  rw [hc]
  cases hch : (meaning k).check env l r with
  | error e => exact ⟨(fun e h => by cases h), fun err h => h⟩
  | ok _ =>
    have hlift : ∀ (f : Unit → M Expr), (M.lift (Except.ok () : Except Err Unit) >>= f) s2 = f () s2 := fun f => rfl
    rw [hlift, hlift, M.ite_app, M.ite_app]
    by_cases hred : (l.reduced && r.reduced) = true
    · rw [if_pos hred, if_pos hred]
      unfold foldLit
      rcases hv : eval env dct .none (.bin (meaning k) l r) s2 with ⟨e | v, s3⟩
      · have hv' : eval env dct .none (.bin (meaning k') l r) s2 = (.error e, s3) := by
          simp only [eval] at hv ⊢
          rw [he]
          exact asNot_err hv
        rw [bind_err' hv, bind_err' hv']
        exact ⟨(fun e h => by cases h), fun err h => h⟩
      · have hv' : eval env dct .none (.bin (meaning k') l r) s2 = (.ok (.bool (!v.truthy)), s3) := by
          simp only [eval] at hv ⊢
          rw [he]
          exact asNot_ok hv
        rw [bind_ok' hv, bind_ok' hv']
        obtain ⟨b, rfl⟩ := hbool dct _ _ s2 v s3 (by simpa only [eval] using hv)
        refine ⟨fun e h => ⟨.lit (.bool !b) .boolean, rfl, ?_⟩, fun err h => by cases h⟩
        cases h
        intro dc thing
        funext s
        exact (asNot_ok (v := .bool b) (s1 := s) rfl).symm
    · rw [if_neg hred, if_neg hred]
      refine ⟨fun e h => ⟨_, rfl, ?_⟩, fun err h => by cases h⟩
      cases h
      intro dc thing
      simp only [eval]
      exact he dc _ _

theorem opNe_eq (off : TzDb) (v w : Value) : opNe off v w = !opEq off v w := by
  unfold opEq opNe pyNe
  by_cases h : v.pyType = w.pyType <;> simp [h]

/-- **C57.** `(a) != (b)` is the negation of `(a) == (b)`. -/
theorem ne_negates_eq {codec : LitCodec} {env : Env} {a b : List Char} {ra rb : Raw} (ha : Means codec a ra)
    (hb : Means codec b rb) :
    Negates codec env (par a ++ " == ".toList ++ par b) (par a ++ " != ".toList ++ par b) := by
  have := negates_of (env := env) ha hb (k := .EQ) (k' := .NE) (by decide) (by decide) (fun _ _ => rfl) ?_ ?_
  · simpa [spelling] using this
  · intro dc l r
    funext s
    rcases hl : l s with ⟨e | v, s1⟩
    · have h1 : evalBin env dc (meaning .EQ) l r s = (.error e, s1) := bind_err' hl
      rw [asNot_err h1]
      exact bind_err' hl
    rcases hr : r s1 with ⟨e | w, s2⟩
    · have h1 : evalBin env dc (meaning .EQ) l r s = (.error e, s2) := (bind_ok' hl).trans (bind_err' hr)
      rw [asNot_err h1]
      exact (bind_ok' hl).trans (bind_err' hr)
    · have h1 : evalBin env dc (meaning .EQ) l r s = (.ok (.bool (opEq env.utcoffset v w)), s2) :=
        (bind_ok' hl).trans (bind_ok' hr)
      rw [asNot_ok h1]
      refine ((bind_ok' hl).trans (bind_ok' hr)).trans ?_
      rw [truthy_bool, ← opNe_eq]
      rfl
  · intro dc l r s v s' h
    rcases hl : l s with ⟨e | x, s1⟩
    · rw [show evalBin env dc (meaning .EQ) l r s = _ from bind_err' hl] at h; cases h
    rcases hr : r s1 with ⟨e | w, s2⟩
    · rw [show evalBin env dc (meaning .EQ) l r s = _ from (bind_ok' hl).trans (bind_err' hr)] at h; cases h
    · rw [show evalBin env dc (meaning .EQ) l r s = _ from (bind_ok' hl).trans (bind_ok' hr)] at h; cases h
      exact ⟨_, rfl⟩

theorem negate_pure (b : Bool) : (Pure.pure (Value.bool (!b)) : M Value) = asNot (Pure.pure (Value.bool b)) := by
  funext s
  exact (asNot_ok (v := .bool b) (s1 := s) rfl).symm

theorem opFuzzy_negate (env : Env) (search : Bool) (v w : Value) :
    opFuzzy env search true v w = asNot (opFuzzy env search false v w) ∧
    ∀ s x s', opFuzzy env search false v w s = (.ok x, s') → ∃ b, x = .bool b := by
  have hp : ∀ b : Bool, (Pure.pure (Value.bool (!b)) : M Value) = asNot (Pure.pure (Value.bool b)) ∧
      ∀ s x s', (Pure.pure (Value.bool b) : M Value) s = (.ok x, s') → ∃ b, x = .bool b := by
    intro b
    refine ⟨negate_pure b, fun s x s' h => ?_⟩
    cases h
    exact ⟨b, rfl⟩
  have ht : ∀ e : Err, (M.throw e : M Value) = asNot (M.throw e) ∧
      ∀ s x s', (M.throw e : M Value) s = (.ok x, s') → ∃ b, x = .bool b := by
    intro e
    refine ⟨by funext s; rfl, fun s x s' h => ?_⟩
    cases h
  cases w
  case str p =>
    simp only [opFuzzy]
    by_cases hv : env.reValid p = true
    · simp only [hv, if_true]
      cases v
      case str l =>
        cases hrun : env.reRun search p l with
        | none => simp only [hrun]; exact hp false
        | some gs =>
          simp only [hrun]
          refine ⟨by funext s; rfl, fun s x s' h => ?_⟩
          cases h
          exact ⟨_, rfl⟩
      all_goals exact hp false
    · simp only [hv]
      exact ht _
  case none =>
    cases v
    case none => exact hp true
    all_goals exact hp false
  all_goals exact ht _

theorem fuzzy_negate (env : Env) (dc : DecCtx) (search : Bool) (l r : M Value) :
    evalBin env dc (.fuzzy search true) l r = asNot (evalBin env dc (.fuzzy search false) l r) ∧
    ∀ s x s', evalBin env dc (.fuzzy search false) l r s = (.ok x, s') → ∃ b, x = .bool b := by
  have key : ∀ s, evalBin env dc (.fuzzy search true) l r s = asNot (evalBin env dc (.fuzzy search false) l r) s ∧
      ∀ x s', evalBin env dc (.fuzzy search false) l r s = (.ok x, s') → ∃ b, x = .bool b := by
    intro s
    simp only [evalBin]
    rcases hl : l s with ⟨e | v, s1⟩
    · rw [asNot_apply, bind_err' hl, bind_err' hl]
      exact ⟨rfl, fun x s' h => by cases h⟩
    · rw [bind_ok' hl, bind_ok' hl, asNot_apply, bind_ok' hl]
      have h2 : ∀ w : Value, (do let b ← r; opFuzzy env search true w b) s1 =
          (((do let b ← r; opFuzzy env search false w b) s1).1.map (fun v : Value => Value.bool (!v.truthy)),
            ((do let b ← r; opFuzzy env search false w b) s1).2) ∧
          ∀ x s', (do let b ← r; opFuzzy env search false w b) s1 = (.ok x, s') → ∃ b, x = .bool b := by
        intro w
        rcases hr : r s1 with ⟨e | u, s2⟩
        · rw [bind_err' hr, bind_err' hr]
          exact ⟨rfl, fun x s' h => by cases h⟩
        · rw [bind_ok' hr, bind_ok' hr, (opFuzzy_negate env search w u).1, asNot_apply]
          exact ⟨rfl, (opFuzzy_negate env search w u).2 s2⟩
      cases v
      case str x => exact h2 (.str x)
      case none => exact h2 .none
      all_goals exact ⟨rfl, fun x s' h => by cases h⟩
  exact ⟨funext fun s => (key s).1, fun s => (key s).2⟩

/-- **C57.** `(a) !~ (b)` is the negation of `(a) =~ (b)`, and `(a) !~~ (b)` of `(a) =~~ (b)`. -/
theorem regex_negates {codec : LitCodec} {env : Env} {a b : List Char} {ra rb : Raw} (ha : Means codec a ra)
    (hb : Means codec b rb) :
    Negates codec env (par a ++ " =~ ".toList ++ par b) (par a ++ " !~ ".toList ++ par b) ∧
    Negates codec env (par a ++ " =~~ ".toList ++ par b) (par a ++ " !~~ ".toList ++ par b) := by
  constructor
  · have := negates_of (env := env) ha hb (k := .EQ_FZM) (k' := .NE_FZM) (by decide) (by decide) (fun _ _ => rfl)
      (fun dc l r => (fuzzy_negate env dc false l r).1) (fun dc l r => (fuzzy_negate env dc false l r).2)
    simpa [spelling] using this
  · have := negates_of (env := env) ha hb (k := .EQ_FZS) (k' := .NE_FZS) (by decide) (by decide) (fun _ _ => rfl)
      (fun dc l r => (fuzzy_negate env dc true l r).1) (fun dc l r => (fuzzy_negate env dc true l r).2)
    simpa [spelling] using this

/-! ### The laws speak of rules that exist -/

theorem rule_of_means {codec : LitCodec} {env : Env} {dct : DecCtx} {t : List Char} {raw : Raw} (h : Means codec t raw) :
    (Proc.new.rule codec env dct (String.ofList t)).1 = (build env dct raw St.init).1 := by
  simp only [Proc.rule, parseRule, Proc.new]
  rw [h 1]
  rfl

/-- Both sides of De Morgan's law are accepted for `x` and `1`, and evaluate to opposite truth values for a falsy and a
truthy `x`. -/
example (codec : LitCodec) : ∃ e e',
    (Proc.new.rule codec sampleEnv .default (String.ofList
      ("not ".toList ++ par (par ['x'] ++ " and ".toList ++ par ['1'])))).1 = .ok e ∧
    (Proc.new.rule codec sampleEnv .default (String.ofList
      (par ("not ".toList ++ par ['x']) ++ " or ".toList ++ par ("not ".toList ++ par ['1'])))).1 = .ok e' ∧
    (Proc.new.evaluate sampleEnv e (dictOf [("x", .dec (.ofInt 0))])).1 = .ok (.bool true) ∧
    (Proc.new.evaluate sampleEnv e' (dictOf [("x", .dec (.ofInt 7))])).1 = .ok (.bool false) := by
  have hx : Means codec ['x'] (.sym "x" false) := means_sym x_word
  have h1 : Means codec ['1'] (.floatLit "1") := means_number one_number
  have hl := means_not (means_bin hx h1 .AND (by decide))
  have hr := means_bin (means_not hx) (means_not h1) .OR (by decide)
  refine ⟨_, _, (rule_of_means hl).trans rfl, (rule_of_means hr).trans rfl, ?_, ?_⟩ <;> decide +kernel

end RE
