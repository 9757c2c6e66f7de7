import Verif.Props.Reduced
import Verif.Model.Sample

/-!
# The decimal context of the constructing thread (C02)

Evaluation happens in the decimal context of the `Context` object.  Construction folds constants in
the decimal context of the calling thread, so a rule can depend on that one, but only through
arithmetic whose operands are all constants.
-/

set_option linter.unusedSimpArgs false
set_option linter.unusedVariables false

namespace RE

/-! ## Specification -/

mutual
/-- Specification: a sub-expression that is certainly not a constant, because a symbol or a
comprehension stays in it: one occurs in an operand that is not dropped at construction. -/
def Raw.live : Raw → Bool
  | .sym .. | .comp .. => true
  | .lit _ | .floatLit _ | .datetimeLit _ | .timedeltaLit _ => false
  | .array xs | .set xs => Raw.liveAny xs
  | .mapping kvs => Raw.livePairs kvs
  | .bin _ l r => l.live || r.live
  | .contains c m => c.live || m.live
  | .getAttr o _ _ => o.live
  | .getItem c i safe => !safe && (c.live || i.live)
  | .getSlice c a b _ => c.live || a.live || b.live
  | .call f args => f.live || Raw.liveAny args
  | .tern c t f => c.live || (t.live && f.live)
  | .not e | .neg e => e.live
/-- one of them -/
def Raw.liveAny : List Raw → Bool
  | [] => false
  | x :: xs => x.live || Raw.liveAny xs
/-- one of the keys or values -/
def Raw.livePairs : List (Raw × Raw) → Bool
  | [] => false
  | (k, v) :: xs => k.live || v.live || Raw.livePairs xs
end

/-- Specification: the operators that compute with numbers in a decimal context. -/
def BinOp.isArith : BinOp → Bool
  | .add | .sub | .arith _ => true
  | _ => false

mutual
/-- Specification: wherever the tree has arithmetic (`+ - * / // % **` or unary minus) or a function
call on constants only, it gives the same result in both decimal contexts (`Γ`: the comprehension variables in scope). -/
def Raw.SameArith (env : Env) (dct dct' : DecCtx) (Γ : List Assignment) : Raw → Prop
  | .lit _ | .floatLit _ | .datetimeLit _ | .timedeltaLit _ | .sym .. => True
  | .array xs | .set xs => Raw.SameAriths env dct dct' Γ xs
  | .mapping kvs => Raw.SameArithp env dct dct' Γ kvs
  | .bin op l r => l.SameArith env dct dct' Γ ∧ r.SameArith env dct dct' Γ ∧
      (op.isArith = true → ∀ l' r', Built env dct Γ l l' → Built env dct Γ r r' →
        l'.reduced = true → r'.reduced = true →
        eval env dct .none (.bin op l' r') = eval env dct' .none (.bin op l' r'))
  | .comp result var iterable cond => iterable.SameArith env dct dct' Γ ∧
      ∀ it t, Built env dct Γ iterable it → iterVarType it.rt = .ok t →
        cond.SameArith env dct dct' (Γ ++ [⟨var, .undef, t⟩]) ∧
        result.SameArith env dct dct' (Γ ++ [⟨var, .undef, t⟩])
  | .contains c m => c.SameArith env dct dct' Γ ∧ m.SameArith env dct dct' Γ
  | .getAttr o _ _ => o.SameArith env dct dct' Γ
  | .getItem c i _ => c.SameArith env dct dct' Γ ∧ i.SameArith env dct dct' Γ
  | .getSlice c a b _ => c.SameArith env dct dct' Γ ∧ a.SameArith env dct dct' Γ ∧
      b.SameArith env dct dct' Γ
  | .call f args => f.SameArith env dct dct' Γ ∧ Raw.SameAriths env dct dct' Γ args ∧
      (∀ f' as, Built env dct Γ f f' → BuiltList env dct Γ args as →
        f'.reduced = true → Expr.reducedList as = true →
        eval env dct .none (.call f' as) = eval env dct' .none (.call f' as))
  | .tern c t f => c.SameArith env dct dct' Γ ∧ t.SameArith env dct dct' Γ ∧
      f.SameArith env dct dct' Γ
  | .not e => e.SameArith env dct dct' Γ
  | .neg e => e.SameArith env dct dct' Γ ∧
      (∀ e', Built env dct Γ e e' → e'.reduced = true →
        eval env dct .none (.neg e') = eval env dct' .none (.neg e'))
/-- all of them -/
def Raw.SameAriths (env : Env) (dct dct' : DecCtx) (Γ : List Assignment) : List Raw → Prop
  | [] => True
  | x :: xs => x.SameArith env dct dct' Γ ∧ Raw.SameAriths env dct dct' Γ xs
/-- all keys and values -/
def Raw.SameArithp (env : Env) (dct dct' : DecCtx) (Γ : List Assignment) : List (Raw × Raw) → Prop
  | [] => True
  | (k, v) :: xs => k.SameArith env dct dct' Γ ∧ v.SameArith env dct dct' Γ ∧
      Raw.SameArithp env dct dct' Γ xs
end

mutual
/-- Specification: no arithmetic and no function call on constants only. -/
def Raw.NoConstArith : Raw → Bool
  | .lit _ | .floatLit _ | .datetimeLit _ | .timedeltaLit _ | .sym .. => true
  | .array xs | .set xs => Raw.noConstAriths xs
  | .mapping kvs => Raw.noConstArithp kvs
  | .bin op l r => (!op.isArith || l.live || r.live) && l.NoConstArith && r.NoConstArith
  | .comp result _ iterable cond => result.NoConstArith && iterable.NoConstArith && cond.NoConstArith
  | .contains c m => c.NoConstArith && m.NoConstArith
  | .getAttr o _ _ => o.NoConstArith
  | .getItem c i _ => c.NoConstArith && i.NoConstArith
  | .getSlice c a b _ => c.NoConstArith && a.NoConstArith && b.NoConstArith
  | .call f args => (f.live || Raw.liveAny args) && f.NoConstArith && Raw.noConstAriths args
  | .tern c t f => c.NoConstArith && t.NoConstArith && f.NoConstArith
  | .not e => e.NoConstArith
  | .neg e => e.live && e.NoConstArith
/-- all of them -/
def Raw.noConstAriths : List Raw → Bool
  | [] => true
  | x :: xs => x.NoConstArith && Raw.noConstAriths xs
/-- all keys and values -/
def Raw.noConstArithp : List (Raw × Raw) → Bool
  | [] => true
  | (k, v) :: xs => k.NoConstArith && v.NoConstArith && Raw.noConstArithp xs
end

/-! ## Live expressions do not become constants -/

mutual
theorem live_not_reduced {env : Env} {dct : DecCtx} : ∀ (raw : Raw) {Γ : List Assignment} {e : Expr},
    raw.live = true → Built env dct Γ raw e → e.reduced = false
  | .lit _, Γ, e, hl, h | .floatLit _, Γ, e, hl, h | .datetimeLit _, Γ, e, hl, h
  | .timedeltaLit _, Γ, e, hl, h => by simp [Raw.live] at hl
  | .sym .., Γ, e, hl, h => by
    simp only [Built] at h
    obtain ⟨_, _, rfl⟩ := h
    rfl
  | .comp .., Γ, e, hl, h => by
    simp only [Built] at h
    obtain ⟨_, _, _, _, _, _, _, _, rfl⟩ := h
    rfl
  | .array xs, Γ, e, hl, h | .set xs, Γ, e, hl, h => by
    simp only [Built] at h
    obtain ⟨es, h1, rfl⟩ := h
    simp only [Raw.live] at hl
    simp only [Expr.reduced]
    exact lives_not_reduced xs hl h1
  | .mapping kvs, Γ, e, hl, h => by
    simp only [Built] at h
    obtain ⟨es, h1, -, rfl⟩ := h
    simp only [Raw.live] at hl
    simp only [Expr.reduced]
    exact livep_not_reduced kvs hl h1
  | .bin op l r, Γ, e, hl, h => by
    simp only [Built] at h
    obtain ⟨l', r', h1, h2, -, h3⟩ := h
    simp only [Raw.live, Bool.or_eq_true] at hl
    have : (l'.reduced && r'.reduced) = false := by
      rcases hl with hl | hl
      · rw [live_not_reduced l hl h1]; rfl
      · rw [live_not_reduced r hl h2, Bool.and_false]
    rw [this] at h3
    simp only [Bool.false_eq_true, if_false] at h3
    rw [h3]; rfl
  | .contains l r, Γ, e, hl, h => by
    simp only [Built] at h
    obtain ⟨l', r', h1, h2, -, h3⟩ := h
    simp only [Raw.live, Bool.or_eq_true] at hl
    have : (l'.reduced && r'.reduced) = false := by
      rcases hl with hl | hl
      · rw [live_not_reduced l hl h1]; rfl
      · rw [live_not_reduced r hl h2, Bool.and_false]
    rw [this] at h3
    simp only [Bool.false_eq_true, if_false] at h3
    rw [h3]; rfl
  | .getAttr o name safe, Γ, e, hl, h => by
    simp only [Built] at h
    obtain ⟨o', h1, -, h3⟩ := h
    simp only [Raw.live] at hl
    rw [live_not_reduced o hl h1] at h3
    simp only [Bool.false_eq_true, if_false] at h3
    rw [h3]; rfl
  | .getItem l r safe, Γ, e, hl, h => by
    simp only [Built] at h
    obtain ⟨l', r', h1, h2, -, h3⟩ := h
    simp only [Raw.live, Bool.and_eq_true, Bool.not_eq_true', Bool.or_eq_true] at hl
    obtain ⟨rfl, hl⟩ := hl
    have hm : staticMiss l'.rt r'.rt false = false := by cases l'.rt <;> simp [staticMiss]
    have : (l'.reduced && r'.reduced) = false := by
      rcases hl with hl | hl
      · rw [live_not_reduced l hl h1]; rfl
      · rw [live_not_reduced r hl h2, Bool.and_false]
    rw [this, hm] at h3
    simp only [Bool.false_eq_true, if_false] at h3
    rw [h3]; rfl
  | .getSlice c a b safe, Γ, e, hl, h => by
    simp only [Built] at h
    obtain ⟨c', a', b', h1, h2, h3, -, h4⟩ := h
    simp only [Raw.live, Bool.or_eq_true] at hl
    have : (c'.reduced && a'.reduced && b'.reduced) = false := by
      rcases hl with (hl | hl) | hl
      · rw [live_not_reduced c hl h1]; rfl
      · rw [live_not_reduced a hl h2, Bool.and_false]; rfl
      · rw [live_not_reduced b hl h3, Bool.and_false]
    rw [this] at h4
    simp only [Bool.false_eq_true, if_false] at h4
    rw [h4]; rfl
  | .call f args, Γ, e, hl, h => by
    simp only [Built] at h
    obtain ⟨f', as, h1, h2, -, h3⟩ := h
    simp only [Raw.live, Bool.or_eq_true] at hl
    have : (f'.reduced && Expr.reducedList as) = false := by
      rcases hl with hl | hl
      · rw [live_not_reduced f hl h1]; rfl
      · rw [lives_not_reduced args hl h2, Bool.and_false]
    rw [this] at h3
    simp only [Bool.false_eq_true, if_false] at h3
    rw [h3]; rfl
  | .tern c t f, Γ, e, hl, h => by
    simp only [Built] at h
    obtain ⟨c', t', f', h1, h2, h3, rfl⟩ := h
    simp only [Raw.live, Bool.or_eq_true, Bool.and_eq_true] at hl
    unfold mkTern
    split
    · rename_i hc
      rcases hl with hl | ⟨hl, hl'⟩
      · rw [live_not_reduced c hl h1] at hc; cases hc
      · split
        · exact live_not_reduced t hl h2
        · exact live_not_reduced f hl' h3
    · rfl
  | .not x, Γ, e, hl, h => by
    simp only [Built] at h
    obtain ⟨x', h1, h3⟩ := h
    simp only [Raw.live] at hl
    rw [live_not_reduced x hl h1] at h3
    simp only [Bool.false_eq_true, if_false] at h3
    rw [h3]; rfl
  | .neg x, Γ, e, hl, h => by
    simp only [Built] at h
    obtain ⟨x', h1, h3⟩ := h
    simp only [Raw.live] at hl
    rw [live_not_reduced x hl h1] at h3
    simp only [Bool.false_eq_true, if_false] at h3
    rw [h3]; rfl
theorem lives_not_reduced {env : Env} {dct : DecCtx} : ∀ (xs : List Raw) {Γ : List Assignment}
    {es : List Expr}, Raw.liveAny xs = true → BuiltList env dct Γ xs es → Expr.reducedList es = false
  | [], Γ, es, hl, h => by simp [Raw.liveAny] at hl
  | x :: xs, Γ, es, hl, h => by
    simp only [BuiltList] at h
    obtain ⟨e, es', h1, h2, rfl⟩ := h
    simp only [Raw.liveAny, Bool.or_eq_true] at hl
    simp only [Expr.reducedList]
    rcases hl with hl | hl
    · rw [live_not_reduced x hl h1]; rfl
    · rw [lives_not_reduced xs hl h2, Bool.and_false]
theorem livep_not_reduced {env : Env} {dct : DecCtx} : ∀ (xs : List (Raw × Raw)) {Γ : List Assignment}
    {es : List (Expr × Expr)}, Raw.livePairs xs = true → BuiltPairs env dct Γ xs es →
    Expr.reducedPairs es = false
  | [], Γ, es, hl, h => by simp [Raw.livePairs] at hl
  | (k, v) :: xs, Γ, es, hl, h => by
    simp only [BuiltPairs] at h
    obtain ⟨k', v', es', h1, h2, h3, rfl⟩ := h
    simp only [Raw.livePairs, Bool.or_eq_true] at hl
    simp only [Expr.reducedPairs]
    rcases hl with (hl | hl) | hl
    · rw [live_not_reduced k hl h1]; rfl
    · rw [live_not_reduced v hl h2, Bool.and_false]; rfl
    · rw [livep_not_reduced xs hl h3, Bool.and_false]
end

mutual
theorem sameArith_of_noConst {env : Env} {dct dct' : DecCtx} : ∀ (raw : Raw) {Γ : List Assignment},
    raw.NoConstArith = true → raw.SameArith env dct dct' Γ
  | .lit _, Γ, h | .floatLit _, Γ, h | .datetimeLit _, Γ, h | .timedeltaLit _, Γ, h
  | .sym .., Γ, h => by simp only [Raw.SameArith]
  | .array xs, Γ, h | .set xs, Γ, h => by
    simp only [Raw.SameArith]; simp only [Raw.NoConstArith] at h
    exact sameAriths_of_noConst xs h
  | .mapping kvs, Γ, h => by
    simp only [Raw.SameArith]; simp only [Raw.NoConstArith] at h
    exact sameArithp_of_noConst kvs h
  | .bin op l r, Γ, h => by
    simp only [Raw.SameArith]
    simp only [Raw.NoConstArith, Bool.and_eq_true, Bool.or_eq_true, Bool.not_eq_true'] at h
    refine ⟨sameArith_of_noConst l h.1.2, sameArith_of_noConst r h.2, ?_⟩
    intro ho l' r' h1 h2 hr1 hr2
    rcases h.1.1 with (h | h) | h
    · rw [h] at ho; cases ho
    · rw [live_not_reduced l h h1] at hr1; cases hr1
    · rw [live_not_reduced r h h2] at hr2; cases hr2
  | .comp result var iterable cond, Γ, h => by
    simp only [Raw.SameArith]
    simp only [Raw.NoConstArith, Bool.and_eq_true] at h
    exact ⟨sameArith_of_noConst iterable h.1.2, fun it t _ _ =>
      ⟨sameArith_of_noConst cond h.2, sameArith_of_noConst result h.1.1⟩⟩
  | .contains c m, Γ, h => by
    simp only [Raw.SameArith]
    simp only [Raw.NoConstArith, Bool.and_eq_true] at h
    exact ⟨sameArith_of_noConst c h.1, sameArith_of_noConst m h.2⟩
  | .getAttr o _ _, Γ, h => by
    simp only [Raw.SameArith]; simp only [Raw.NoConstArith] at h
    exact sameArith_of_noConst o h
  | .getItem c m _, Γ, h => by
    simp only [Raw.SameArith]
    simp only [Raw.NoConstArith, Bool.and_eq_true] at h
    exact ⟨sameArith_of_noConst c h.1, sameArith_of_noConst m h.2⟩
  | .getSlice c a b _, Γ, h => by
    simp only [Raw.SameArith]
    simp only [Raw.NoConstArith, Bool.and_eq_true] at h
    exact ⟨sameArith_of_noConst c h.1.1, sameArith_of_noConst a h.1.2, sameArith_of_noConst b h.2⟩
  | .call f args, Γ, h => by
    simp only [Raw.SameArith]
    simp only [Raw.NoConstArith, Bool.and_eq_true, Bool.or_eq_true] at h
    refine ⟨sameArith_of_noConst f h.1.2, sameAriths_of_noConst args h.2, ?_⟩
    intro f' as h1 h2 hr1 hr2
    rcases h.1.1 with h | h
    · rw [live_not_reduced f h h1] at hr1; cases hr1
    · rw [lives_not_reduced args h h2] at hr2; cases hr2
  | .tern c a b, Γ, h => by
    simp only [Raw.SameArith]
    simp only [Raw.NoConstArith, Bool.and_eq_true] at h
    exact ⟨sameArith_of_noConst c h.1.1, sameArith_of_noConst a h.1.2, sameArith_of_noConst b h.2⟩
  | .not x, Γ, h => by
    simp only [Raw.SameArith]; simp only [Raw.NoConstArith] at h
    exact sameArith_of_noConst x h
  | .neg x, Γ, h => by
    simp only [Raw.SameArith]
    simp only [Raw.NoConstArith, Bool.and_eq_true] at h
    refine ⟨sameArith_of_noConst x h.2, fun e' h1 hr => ?_⟩
    rw [live_not_reduced x h.1 h1] at hr; cases hr
theorem sameAriths_of_noConst {env : Env} {dct dct' : DecCtx} : ∀ (xs : List Raw)
    {Γ : List Assignment}, Raw.noConstAriths xs = true → Raw.SameAriths env dct dct' Γ xs
  | [], Γ, h => by simp only [Raw.SameAriths]
  | x :: xs, Γ, h => by
    simp only [Raw.SameAriths]
    simp only [Raw.noConstAriths, Bool.and_eq_true] at h
    exact ⟨sameArith_of_noConst x h.1, sameAriths_of_noConst xs h.2⟩
theorem sameArithp_of_noConst {env : Env} {dct dct' : DecCtx} : ∀ (xs : List (Raw × Raw))
    {Γ : List Assignment}, Raw.noConstArithp xs = true → Raw.SameArithp env dct dct' Γ xs
  | [], Γ, h => by simp only [Raw.SameArithp]
  | (k, v) :: xs, Γ, h => by
    simp only [Raw.SameArithp]
    simp only [Raw.noConstArithp, Bool.and_eq_true] at h
    exact ⟨sameArith_of_noConst k h.1.1, sameArith_of_noConst v h.1.2, sameArithp_of_noConst xs h.2⟩
end

/-! ## Construction -/

/-- operators that do not compute with decimals do not look at the decimal context -/
theorem evalBin_dc (env : Env) (dc dc' : DecCtx) {op : BinOp} (h : op.isArith = false)
    (l r : M Value) : evalBin env dc op l r = evalBin env dc' op l r := by
  cases op <;> simp [BinOp.isArith] at h <;> rfl

theorem bind_congr_ok {α β : Type} {m m' : M α} {f f' : α → M β} {s : St} (h : m s = m' s)
    (hf : ∀ a s', m s = (.ok a, s') → f a s' = f' a s') : (m >>= f) s = (m' >>= f') s := by
  rw [M.bind_apply, M.bind_apply, ← h]
  rcases hm : m s with ⟨x, s'⟩
  cases x with
  | error e => rfl
  | ok a => exact hf a s' hm

theorem foldLit_congr {env : Env} {dct dct' : DecCtx} {node : Expr}
    (h : eval env dct .none node = eval env dct' .none node) :
    foldLit env dct node = foldLit env dct' node := by
  unfold foldLit; rw [h]

/-- constants evaluate the same in every decimal context -/
theorem reduced_dc {env : Env} (dc dc' : DecCtx) (thing : Value) {e : Expr} (h : e.reduced = true) :
    eval env dc thing e = eval env dc' thing e := by
  obtain ⟨x, hx⟩ := reduced_const env e h
  rw [hx, hx]

mutual
theorem build_thread {env : Env} {dct dct' : DecCtx} : ∀ (raw : Raw) {s : St},
    raw.SameArith env dct dct' s.scopes → build env dct raw s = build env dct' raw s
  | .lit _, s, h | .floatLit _, s, h | .datetimeLit _, s, h | .timedeltaLit _, s, h
  | .sym .., s, h => by simp only [build]
  | .array xs, s, h | .set xs, s, h => by
    simp only [Raw.SameArith] at h
    simp only [build]
    exact bind_congr_ok (builds_thread xs h) fun _ _ _ => rfl
  | .mapping kvs, s, h => by
    simp only [Raw.SameArith] at h
    simp only [build]
    exact bind_congr_ok (buildp_thread kvs h) fun _ _ _ => rfl
  | .bin op l r, s, h => by
    simp only [Raw.SameArith] at h
    obtain ⟨h1, h2, h3⟩ := h
    simp only [build]
    refine bind_congr_ok (build_thread l h1) fun l' s1 hl => ?_
    have e1 := build_scopes hl
    refine bind_congr_ok (build_thread r (by rw [e1]; exact h2)) fun r' s2 hr => ?_
    have hr' := build_built r hr
    rw [e1] at hr'
    unfold mkBin
    refine bind_congr_ok rfl fun _ s3 _ => ?_
    split
    · rename_i hred
      simp only [Bool.and_eq_true] at hred
      rw [foldLit_congr]
      cases ho : op.isArith with
      | true => exact h3 ho l' r' (build_built l hl) hr' hred.1 hred.2
      | false =>
        simp only [eval]
        rw [evalBin_dc env dct dct' ho, reduced_dc dct dct' .none hred.1, reduced_dc dct dct' .none hred.2]
    · rfl
  | .comp result var iterable cond, s, h => by
    simp only [Raw.SameArith] at h
    obtain ⟨h1, h2⟩ := h
    simp only [build]
    refine bind_congr_ok (build_thread iterable h1) fun it s1 hit => ?_
    have e1 := build_scopes hit
    refine bind_congr_ok rfl fun t s2 ht => ?_
    rw [M.lift_eq_ok] at ht
    obtain ⟨ht, rfl⟩ := ht
    obtain ⟨h3, h4⟩ := h2 it t (build_built iterable hit) ht
    refine bind_congr_ok ?_ fun _ _ _ => rfl
    simp only [M.withScope]
    have : ∀ s' : St, s'.scopes = s1.scopes ++ [⟨var, .undef, t⟩] →
        (do let c ← build env dct cond
            let r ← build env dct result
            pure (c, r)) s' =
        (do let c ← build env dct' cond
            let r ← build env dct' result
            pure (c, r)) s' := by
      intro s' hs'
      refine bind_congr_ok (build_thread cond (by rw [hs', e1]; exact h3)) fun c' s3 hc => ?_
      have e2 := build_scopes hc
      exact bind_congr_ok (build_thread result (by rw [e2, hs', e1]; exact h4)) fun _ _ _ => rfl
    rw [this _ rfl]
  | .contains l r, s, h => by
    simp only [Raw.SameArith] at h
    obtain ⟨h1, h2⟩ := h
    simp only [build]
    refine bind_congr_ok (build_thread l h1) fun l' s1 hl => ?_
    have e1 := build_scopes hl
    refine bind_congr_ok (build_thread r (by rw [e1]; exact h2)) fun r' s2 hr => ?_
    unfold mkContains
    refine bind_congr_ok rfl fun _ s3 _ => ?_
    split
    · rename_i hred
      simp only [Bool.and_eq_true] at hred
      simp only [eval]
      rw [reduced_dc dct dct' .none hred.1, reduced_dc dct dct' .none hred.2]
    · rfl
  | .getAttr o name safe, s, h => by
    simp only [Raw.SameArith] at h
    simp only [build]
    refine bind_congr_ok (build_thread o h) fun o' s1 ho => ?_
    unfold mkGetAttr
    refine bind_congr_ok rfl fun _ s3 _ => ?_
    split
    · rename_i hred
      refine bind_congr_ok ?_ fun _ _ _ => rfl
      rw [foldLit_congr (dct' := dct')]
      simp only [eval]
      rw [reduced_dc dct dct' .none hred]
    · rfl
  | .getItem l r safe, s, h => by
    simp only [Raw.SameArith] at h
    obtain ⟨h1, h2⟩ := h
    simp only [build]
    refine bind_congr_ok (build_thread l h1) fun l' s1 hl => ?_
    have e1 := build_scopes hl
    refine bind_congr_ok (build_thread r (by rw [e1]; exact h2)) fun r' s2 hr => ?_
    unfold mkGetItem
    refine bind_congr_ok rfl fun _ s3 _ => ?_
    split
    · rfl
    split
    · rename_i hred
      simp only [Bool.and_eq_true] at hred
      rw [foldLit_congr (dct' := dct')]
      simp only [eval]
      rw [reduced_dc dct dct' .none hred.1, reduced_dc dct dct' .none hred.2]
    · rfl
  | .getSlice c a b safe, s, h => by
    simp only [Raw.SameArith] at h
    obtain ⟨h1, h2, h3⟩ := h
    simp only [build]
    refine bind_congr_ok (build_thread a h2) fun a' s1 ha => ?_
    have e1 := build_scopes ha
    refine bind_congr_ok (build_thread b (by rw [e1]; exact h3)) fun b' s2 hb => ?_
    have e2 := build_scopes hb
    refine bind_congr_ok (build_thread c (by rw [e2, e1]; exact h1)) fun c' s3 hc => ?_
    unfold mkGetSlice
    refine bind_congr_ok rfl fun _ s3 _ => ?_
    split
    · rename_i hred
      simp only [Bool.and_eq_true] at hred
      rw [foldLit_congr (dct' := dct')]
      simp only [eval]
      rw [reduced_dc dct dct' .none hred.1.1, reduced_dc dct dct' .none hred.1.2,
        reduced_dc dct dct' .none hred.2]
    · rfl
  | .call f args, s, h => by
    simp only [Raw.SameArith] at h
    obtain ⟨h1, h2, h3⟩ := h
    simp only [build]
    refine bind_congr_ok (build_thread f h1) fun f' s1 hf => ?_
    have e1 := build_scopes hf
    refine bind_congr_ok (builds_thread args (by rw [e1]; exact h2)) fun as s2 has => ?_
    have ⟨has', _⟩ := buildList_built args has
    rw [e1] at has'
    have : (if f'.reduced && Expr.reducedList as then foldLit env dct (.call f' as)
        else pure (.call f' as)) = (if f'.reduced && Expr.reducedList as then
        foldLit env dct' (.call f' as) else pure (.call f' as)) := by
      split
      · rename_i hred
        simp only [Bool.and_eq_true] at hred
        rw [foldLit_congr (h3 f' as (build_built f hf) has' hred.1 hred.2)]
      · rfl
    simp only [mkCall]
    rw [this]
  | .tern c a b, s, h => by
    simp only [Raw.SameArith] at h
    obtain ⟨h1, h2, h3⟩ := h
    simp only [build]
    refine bind_congr_ok (build_thread c h1) fun a' s1 ha => ?_
    have e1 := build_scopes ha
    refine bind_congr_ok (build_thread a (by rw [e1]; exact h2)) fun b' s2 hb => ?_
    have e2 := build_scopes hb
    exact bind_congr_ok (build_thread b (by rw [e2, e1]; exact h3)) fun c' s3 hc => rfl
  | .not x, s, h => by
    simp only [Raw.SameArith] at h
    simp only [build]
    refine bind_congr_ok (build_thread x h) fun x' s1 hx => ?_
    unfold mkNot
    split
    · rename_i hred
      simp only [eval]
      rw [reduced_dc dct dct' .none hred]
    · rfl
  | .neg x, s, h => by
    simp only [Raw.SameArith] at h
    obtain ⟨h1, h2⟩ := h
    simp only [build]
    refine bind_congr_ok (build_thread x h1) fun x' s1 hx => ?_
    unfold mkNeg
    split
    · rename_i hred
      rw [h2 x' (build_built x hx) hred]
    · rfl
theorem builds_thread {env : Env} {dct dct' : DecCtx} : ∀ (xs : List Raw) {s : St},
    Raw.SameAriths env dct dct' s.scopes xs → buildList env dct xs s = buildList env dct' xs s
  | [], s, h => by simp only [buildList]
  | x :: xs, s, h => by
    simp only [Raw.SameAriths] at h
    simp only [buildList]
    refine bind_congr_ok (build_thread x h.1) fun x' s1 hx => ?_
    have e1 := build_scopes hx
    exact bind_congr_ok (builds_thread xs (by rw [e1]; exact h.2)) fun _ _ _ => rfl
theorem buildp_thread {env : Env} {dct dct' : DecCtx} : ∀ (xs : List (Raw × Raw)) {s : St},
    Raw.SameArithp env dct dct' s.scopes xs → buildPairs env dct xs s = buildPairs env dct' xs s
  | [], s, h => by simp only [buildPairs]
  | (k, v) :: xs, s, h => by
    simp only [Raw.SameArithp] at h
    simp only [buildPairs]
    refine bind_congr_ok (build_thread k h.1) fun k' s1 hk => ?_
    have e1 := build_scopes hk
    refine bind_congr_ok (build_thread v (by rw [e1]; exact h.2.1)) fun v' s2 hv => ?_
    have e2 := build_scopes hv
    exact bind_congr_ok (buildp_thread xs (by rw [e2, e1]; exact h.2.2)) fun _ _ _ => rfl
end

/-! ## C02 -/

/-- Specification: what a rule gives for a thing, if it is constructed and evaluated by a thread whose
decimal context is `dct` (in any state `s` of that thread's storage). -/
def runIn (env : Env) (dct : DecCtx) (raw : Raw) (thing : Value) (s : St) : Except Err Value :=
  match construct env dct raw s with
  | (.ok e, s') => (ruleEval env e thing s').1
  | (.error e, _) => .error e

/-- C02 (partial): if the arithmetic and the calls on constants in the rule give the same in both
decimal contexts, then threads with these decimal contexts construct the same rule (or raise the same
exception), and so get the same value for every thing. -/
theorem thread_context_irrelevant_partial (env : Env) (dct dct' : DecCtx) (raw : Raw) (s : St)
    (h : raw.SameArith env dct dct' s.scopes) :
    construct env dct raw s = construct env dct' raw s ∧
    ∀ thing, runIn env dct raw thing s = runIn env dct' raw thing s := by
  have := build_thread raw h
  refine ⟨this, fun thing => ?_⟩
  unfold runIn construct
  rw [this]

/-- … in particular if every arithmetic operator and every call has an operand that is not a constant:
then the thread's decimal context does not matter at all. -/
theorem thread_context_unused_partial (env : Env) (raw : Raw) (h : raw.NoConstArith = true)
    (dct dct' : DecCtx) (s : St) :
    construct env dct raw s = construct env dct' raw s ∧
    ∀ thing, runIn env dct raw thing s = runIn env dct' raw thing s :=
  thread_context_irrelevant_partial env dct dct' raw s (sameArith_of_noConst raw h)

/-- three digits -/
def lowPrec : DecCtx := { DecCtx.default with prec := 3 }

/-- C02, negative: `1.23456 + 0`, `-1.23456` and the product of two constants inside of a larger rule
are computed in the decimal context of the constructing thread. -/
theorem thread_context_false :
    runIn sampleEnv .default (.bin .add (.floatLit "1.23456") (.floatLit "0")) .none St.init =
      .ok (.dec (.fin false 123456 (-5))) ∧
    runIn sampleEnv lowPrec (.bin .add (.floatLit "1.23456") (.floatLit "0")) .none St.init =
      .ok (.dec (.fin false 123 (-2))) ∧
    runIn sampleEnv lowPrec (.neg (.floatLit "1.23456")) .none St.init =
      .ok (.dec (.fin true 123 (-2))) ∧
    runIn sampleEnv .default (.bin .add (.sym "x" false) (.bin (.arith .mul) (.floatLit "1.23456")
      (.floatLit "1"))) (dictOf [("x", .int 1)]) St.init = .ok (.dec (.fin false 223456 (-5))) ∧
    runIn sampleEnv lowPrec (.bin .add (.sym "x" false) (.bin (.arith .mul) (.floatLit "1.23456")
      (.floatLit "1"))) (dictOf [("x", .int 1)]) St.init = .ok (.dec (.fin false 223 (-2))) := by
  refine ⟨?_, ?_, ?_, ?_, ?_⟩ <;> decide +kernel

/-- `x * 1.23456 + y` has no arithmetic on constants; its value is computed with all digits. -/
def threadSample : Raw :=
  .bin .add (.bin (.arith .mul) (.sym "x" false) (.floatLit "1.23456")) (.sym "y" false)

example : threadSample.NoConstArith = true ∧
    runIn sampleEnv lowPrec threadSample (dictOf [("x", .int 1), ("y", .int 2)]) St.init =
      .ok (.dec (.fin false 323456 (-5))) := by
  constructor <;> decide +kernel

/-- `(1 + 2) * x` has arithmetic on constants, which is exact in both contexts. -/
example : (Raw.bin (.arith .mul) (.bin .add (.floatLit "1") (.floatLit "2")) (.sym "x" false)).SameArith
    sampleEnv .default lowPrec [] := by
  simp only [Raw.SameArith, true_and]
  refine ⟨?_, ?_⟩
  · intro _ l' r' h1 h2 _ _
    simp only [Built] at h1 h2
    obtain ⟨d1, h1, rfl⟩ := h1
    obtain ⟨d2, h2, rfl⟩ := h2
    have e1 : parseFloat "1".toList = .ok (.fin false 1 0) := by decide +kernel
    have e2 : parseFloat "2".toList = .ok (.fin false 2 0) := by decide +kernel
    rw [e1] at h1
    rw [e2] at h2
    cases h1
    cases h2
    simp only [eval, evalBin, pure_bind]
    have : opAdd sampleEnv .default (.dec (.fin false 1 0)) (.dec (.fin false 2 0)) =
        opAdd sampleEnv lowPrec (.dec (.fin false 1 0)) (.dec (.fin false 2 0)) := by decide +kernel
    rw [this]
  · intro _ l' r' _ h2 _ hr
    simp only [Built] at h2
    obtain ⟨t, _, rfl⟩ := h2
    simp [Expr.reduced] at hr

end RE
