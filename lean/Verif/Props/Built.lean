import Verif.Props.Eval

/-!
# What construction produces, without the state

`Built env dct Γ raw e` describes the node `e` that `build` makes from `raw` when the comprehension
variables `Γ` are in scope; proofs about constructed rules go by recursion over the tree `raw`.
-/

set_option linter.unusedSimpArgs false

namespace RE

/-- evaluating `node` at construction returned a value -/
def FoldVal (env : Env) (dct : DecCtx) (Γ : List Assignment) (node : Expr) (v : Value) : Prop :=
  ∃ s s' : St, s.scopes = Γ ∧ eval env dct .none node s = (.ok v, s')

/-- `node` was folded into the literal `e` -/
def Folds (env : Env) (dct : DecCtx) (Γ : List Assignment) (node e : Expr) : Prop :=
  ∃ v, FoldVal env dct Γ node v ∧ litOf env.utcoffset v = .ok e

/-- the type a symbol gets -/
def symType (env : Env) (Γ : List Assignment) (name : String) (builtin : Bool) : Except Err DataType :=
  if builtin then .ok (builtinType name)
  else
    match scopeLookup Γ name with
    | some a => .ok a.type
    | none => env.typeResolver name

/-- the literal a folded attribute becomes: a function keeps the type of the node -/
def attrLit (node e : Expr) : Expr :=
  match e with
  | .lit v (.function n r a m) =>
    if DataType.eq (.function n r a m) .anyFunction && DataType.compat node.rt .anyFunction then
      .lit v node.rt
    else .lit v (.function n r a m)
  | e => e

mutual
def Built (env : Env) (dct : DecCtx) (Γ : List Assignment) : Raw → Expr → Prop
  | .lit v, e => ∃ t, fromValue v = .ok t ∧ e = .lit v t
  | .floatLit s, e => ∃ d, parseFloat s.toList = .ok d ∧ e = .lit (.dec d) .float
  | .datetimeLit s, e => ∃ v, parseDatetime env s = .ok v ∧ e = .lit v .datetime
  | .timedeltaLit s, e => ∃ us, parseTimedelta s.toList = .ok us ∧
      e = .lit (.timedelta us) .timedelta
  | .array xs, e => ∃ es, BuiltList env dct Γ xs es ∧ e = .array es
  | .set xs, e => ∃ es, BuiltList env dct Γ xs es ∧ e = .set es
  | .mapping kvs, e => ∃ es, BuiltPairs env dct Γ kvs es ∧
      (∃ t, mkMappingType (memberType (Expr.keyRts es)) (memberType (Expr.valRts es)) true = .ok t) ∧
      e = .mapping es
  | .bin op l r, e => ∃ l' r', Built env dct Γ l l' ∧ Built env dct Γ r r' ∧
      op.check env l' r' = .ok () ∧
      (if l'.reduced && r'.reduced then Folds env dct Γ (.bin op l' r') e else e = .bin op l' r')
  | .comp result var iterable cond, e => ∃ it t c r, Built env dct Γ iterable it ∧
      iterVarType it.rt = .ok t ∧ Built env dct (Γ ++ [⟨var, .undef, t⟩]) cond c ∧
      Built env dct (Γ ++ [⟨var, .undef, t⟩]) result r ∧ e = .comp r var it c
  | .contains container member, e => ∃ c m, Built env dct Γ container c ∧ Built env dct Γ member m ∧
      checkContains c.rt m.rt = .ok () ∧
      (if c.reduced && m.reduced then
        ∃ v, FoldVal env dct Γ (.contains c m) v ∧ e = .lit v .boolean
       else e = .contains c m)
  | .getAttr obj name safe, e => ∃ o, Built env dct Γ obj o ∧ checkAttr o.rt name safe = .ok () ∧
      (if o.reduced then
        ∃ e', Folds env dct Γ (.getAttr o name safe) e' ∧ e = attrLit (.getAttr o name safe) e'
       else e = .getAttr o name safe)
  | .getItem container item safe, e => ∃ c i, Built env dct Γ container c ∧ Built env dct Γ item i ∧
      checkItem c.rt i.rt safe = .ok () ∧
      (if staticMiss c.rt i.rt safe then e = .lit .none .null
       else if c.reduced && i.reduced then Folds env dct Γ (.getItem c i safe) e
       else e = .getItem c i safe)
  | .getSlice container start stop safe, e => ∃ c a b, Built env dct Γ container c ∧
      Built env dct Γ start a ∧ Built env dct Γ stop b ∧ checkSlice c.rt safe = .ok () ∧
      (if c.reduced && a.reduced && b.reduced then Folds env dct Γ (.getSlice c a b safe) e
       else e = .getSlice c a b safe)
  | .sym name builtin, e => ∃ t, symType env Γ name builtin = .ok t ∧ e = .sym name t builtin
  | .call f args, e => ∃ f' as, Built env dct Γ f f' ∧ BuiltList env dct Γ args as ∧
      (DataType.eq f'.rt .undefined = true ∨ validateCall f'.rt (Expr.rts as) = .ok ()) ∧
      (if f'.reduced && Expr.reducedList as then Folds env dct Γ (.call f' as) e
       else e = .call f' as)
  | .tern c t f, e => ∃ c' t' f', Built env dct Γ c c' ∧ Built env dct Γ t t' ∧ Built env dct Γ f f' ∧
      e = mkTern c' t' f'
  | .not x, e => ∃ x', Built env dct Γ x x' ∧
      (if x'.reduced then ∃ v, FoldVal env dct Γ (.not x') v ∧ e = .lit v .boolean else e = .not x')
  | .neg x, e => ∃ x', Built env dct Γ x x' ∧
      (if x'.reduced then
        ∃ w v t, x' = .lit w t ∧ (t = .float ∨ t = .timedelta) ∧
          FoldVal env dct Γ (.neg x') v ∧ e = .lit v t
       else e = .neg x')
def BuiltList (env : Env) (dct : DecCtx) (Γ : List Assignment) : List Raw → List Expr → Prop
  | [], es => es = []
  | x :: xs, es => ∃ e es', Built env dct Γ x e ∧ BuiltList env dct Γ xs es' ∧ es = e :: es'
def BuiltPairs (env : Env) (dct : DecCtx) (Γ : List Assignment) :
    List (Raw × Raw) → List (Expr × Expr) → Prop
  | [], es => es = []
  | (k, v) :: xs, es => ∃ k' v' es', Built env dct Γ k k' ∧ Built env dct Γ v v' ∧
      BuiltPairs env dct Γ xs es' ∧ es = (k', v') :: es'
end

theorem build_scopes {env : Env} {dct : DecCtx} {raw : Raw} {s s' : St} {x : Except Err Expr}
    (h : build env dct raw s = (x, s')) : s'.scopes = s.scopes := by
  have := construct_restores_variables env dct raw s
  unfold construct at this
  rw [h] at this; exact this

theorem foldLit_folds {env : Env} {dct : DecCtx} {node e : Expr} {s s' : St}
    (h : foldLit env dct node s = (.ok e, s')) : Folds env dct s.scopes node e := by
  simp only [foldLit, M.bind_eq_ok, M.lift_eq_ok] at h
  obtain ⟨v, s1, h1, h2, rfl⟩ := h
  exact ⟨v, ⟨s, _, rfl, h1⟩, h2⟩

theorem M.withScope_eq_ok {α : Type} {a : Assignment} {m : M α} {s s' : St} {x : α}
    (h : M.withScope a m s = (.ok x, s')) :
    ∃ s1, m { s with scopes := s.scopes ++ [a] } = (.ok x, s1) ∧
      s' = { s1 with scopes := s1.scopes.dropLast } := by
  simp only [M.withScope] at h
  rcases hm : m { s with scopes := s.scopes ++ [a] } with ⟨y, s1⟩
  rw [hm] at h
  simp only [Prod.mk.injEq] at h
  obtain ⟨rfl, rfl⟩ := h
  exact ⟨s1, rfl, rfl⟩

mutual
theorem build_built {env : Env} {dct : DecCtx} : ∀ (raw : Raw) {s s' : St} {e : Expr},
    build env dct raw s = (.ok e, s') → Built env dct s.scopes raw e
  | .lit v, s, s', e, h => by
    simp only [build, M.lift_eq_ok, except_bind_ok, Except.ok.injEq] at h
    obtain ⟨⟨t, h1, rfl⟩, rfl⟩ := h
    simp only [Built]
    exact ⟨t, h1, rfl⟩
  | .floatLit x, s, s', e, h => by
    simp only [build, M.lift_eq_ok, except_bind_ok, Except.ok.injEq] at h
    obtain ⟨⟨t, h1, rfl⟩, rfl⟩ := h
    simp only [Built]
    exact ⟨t, h1, rfl⟩
  | .datetimeLit x, s, s', e, h => by
    simp only [build, M.lift_eq_ok, except_bind_ok, Except.ok.injEq] at h
    obtain ⟨⟨t, h1, rfl⟩, rfl⟩ := h
    simp only [Built]
    exact ⟨t, h1, rfl⟩
  | .timedeltaLit x, s, s', e, h => by
    simp only [build, M.lift_eq_ok, except_bind_ok, Except.ok.injEq] at h
    obtain ⟨⟨t, h1, rfl⟩, rfl⟩ := h
    simp only [Built]
    exact ⟨t, h1, rfl⟩
  | .array xs, s, s', e, h => by
    simp only [build, M.bind_eq_ok, M.pure_eq_ok] at h
    obtain ⟨es, s1, h1, rfl, rfl⟩ := h
    simp only [Built]
    exact ⟨es, (buildList_built xs h1).1, rfl⟩
  | .set xs, s, s', e, h => by
    simp only [build, M.bind_eq_ok, M.pure_eq_ok] at h
    obtain ⟨es, s1, h1, rfl, rfl⟩ := h
    simp only [Built]
    exact ⟨es, (buildList_built xs h1).1, rfl⟩
  | .mapping kvs, s, s', e, h => by
    simp only [build, M.bind_eq_ok, M.lift_eq_ok, mkMapping, except_bind_ok, Except.ok.injEq] at h
    obtain ⟨es, s1, h1, ⟨t, ht, rfl⟩, rfl⟩ := h
    simp only [Built]
    exact ⟨es, (buildPairs_built kvs h1).1, ⟨t, ht⟩, rfl⟩
  | .bin op l r, s, s', e, h => by
    simp only [build, M.bind_eq_ok, mkBin, M.lift_eq_ok] at h
    obtain ⟨l', s1, h1, r', s2, h2, _, s3, ⟨hc, rfl⟩, h3⟩ := h
    have e1 := build_scopes h1
    have e2 := build_scopes h2
    simp only [Built]
    refine ⟨l', r', build_built l h1, e1 ▸ build_built r h2, hc, ?_⟩
    split at h3
    · rw [if_pos ‹_›, ← e1, ← e2]; exact foldLit_folds h3
    · rw [if_neg ‹_›]; rw [M.pure_eq_ok] at h3; exact h3.1.symm
  | .comp result var iterable cond, s, s', e, h => by
    simp only [build, M.bind_eq_ok, M.lift_eq_ok] at h
    obtain ⟨it, s1, h1, t, s2, ⟨ht, rfl⟩, ⟨c, r⟩, s3, h2, h3⟩ := h
    obtain ⟨s4, h4, rfl⟩ := M.withScope_eq_ok h2
    simp only [M.bind_eq_ok, M.pure_eq_ok, Prod.mk.injEq] at h4
    obtain ⟨c', s5, hc, r', s6, hr, ⟨rfl, rfl⟩, rfl⟩ := h4
    rw [M.pure_eq_ok] at h3
    obtain ⟨rfl, rfl⟩ := h3
    have e1 := build_scopes h1
    have e2 := build_scopes hc
    have hc' := build_built cond hc
    have hr' := build_built result hr
    rw [e2] at hr'
    simp only [e1] at hc' hr'
    simp only [Built]
    exact ⟨it, t, c', r', build_built iterable h1, ht, hc', hr', rfl⟩
  | .contains c m, s, s', e, h => by
    simp only [build, M.bind_eq_ok, mkContains, M.lift_eq_ok] at h
    obtain ⟨l', s1, h1, r', s2, h2, _, s3, ⟨hc, rfl⟩, h3⟩ := h
    have e1 := build_scopes h1
    have e2 := build_scopes h2
    simp only [Built]
    refine ⟨l', r', build_built c h1, e1 ▸ build_built m h2, hc, ?_⟩
    split at h3
    · rw [if_pos ‹_›]
      simp only [M.bind_eq_ok, M.pure_eq_ok] at h3
      obtain ⟨v, s4, hv, rfl, rfl⟩ := h3
      exact ⟨v, ⟨_, _, e2.trans e1, hv⟩, rfl⟩
    · rw [if_neg ‹_›]; rw [M.pure_eq_ok] at h3; exact h3.1.symm
  | .getAttr o name safe, s, s', e, h => by
    simp only [build, M.bind_eq_ok, mkGetAttr, M.lift_eq_ok] at h
    obtain ⟨o', s1, h1, _, s3, ⟨hc, rfl⟩, h3⟩ := h
    have e1 := build_scopes h1
    simp only [Built]
    refine ⟨o', build_built o h1, hc, ?_⟩
    split at h3
    · rw [if_pos ‹_›]
      simp only [M.bind_eq_ok] at h3
      obtain ⟨e', s4, hf, h4⟩ := h3
      refine ⟨e', e1 ▸ foldLit_folds hf, ?_⟩
      unfold attrLit
      split at h4
      · split at h4 <;> rename_i hcc <;> simp only [hcc, if_true, if_false] <;>
          rw [M.pure_eq_ok] at h4
        · exact h4.1.symm
        · exact h4.1.symm
      · rename_i hne
        rw [M.pure_eq_ok] at h4
        split
        · exact (hne _ _ _ _ _ rfl).elim
        · exact h4.1.symm
    · rw [if_neg ‹_›]; rw [M.pure_eq_ok] at h3; exact h3.1.symm
  | .getItem c i safe, s, s', e, h => by
    simp only [build, M.bind_eq_ok, mkGetItem, M.lift_eq_ok] at h
    obtain ⟨l', s1, h1, r', s2, h2, _, s3, ⟨hc, rfl⟩, h3⟩ := h
    have e1 := build_scopes h1
    have e2 := build_scopes h2
    simp only [Built]
    refine ⟨l', r', build_built c h1, e1 ▸ build_built i h2, hc, ?_⟩
    split at h3
    · rw [if_pos ‹_›]; rw [M.pure_eq_ok] at h3; exact h3.1.symm
    · rw [if_neg ‹_›]
      split at h3
      · rw [if_pos ‹_›, ← e1, ← e2]; exact foldLit_folds h3
      · rw [if_neg ‹_›]; rw [M.pure_eq_ok] at h3; exact h3.1.symm
  | .getSlice c a b safe, s, s', e, h => by
    simp only [build, M.bind_eq_ok, mkGetSlice, M.lift_eq_ok] at h
    obtain ⟨a', s1, h1, b', s2, h2, c', s3, h3, _, s4, ⟨hc, rfl⟩, h4⟩ := h
    have e1 := build_scopes h1
    have e2 := build_scopes h2
    have e3 := build_scopes h3
    have hb' := build_built b h2
    have hc' := build_built c h3
    rw [e1] at hb'
    rw [e2, e1] at hc'
    simp only [Built]
    refine ⟨c', a', b', hc', build_built a h1, hb', hc, ?_⟩
    split at h4
    · rw [if_pos ‹_›, ← e1, ← e2, ← e3]; exact foldLit_folds h4
    · rw [if_neg ‹_›]; rw [M.pure_eq_ok] at h4; exact h4.1.symm
  | .sym name builtin, s, s', e, h => by
    simp only [build, mkSym, M.bind_eq_ok, M.modify_apply, M.pure_eq_ok, Prod.mk.injEq] at h
    obtain ⟨_, s1, ⟨-, rfl⟩, t, s2, h2, rfl, rfl⟩ := h
    simp only [Built]
    refine ⟨t, ?_, rfl⟩
    unfold ctxResolveType at h2
    unfold symType
    split at h2
    · rw [if_pos ‹_›]
      simp only [Prod.mk.injEq] at h2
      exact h2.1
    · rw [if_neg ‹_›]
      simp only at h2 ⊢
      split at h2 <;> rename_i hl <;> simp only [Prod.mk.injEq] at h2 <;> rw [hl] <;> exact h2.1
  | .call f args, s, s', e, h => by
    simp only [build, M.bind_eq_ok, mkCall] at h
    obtain ⟨f', s1, h1, as, s2, h2, h3⟩ := h
    have e1 := build_scopes h1
    have ⟨hl, e2⟩ := buildList_built args h2
    simp only [Built]
    refine ⟨f', as, build_built f h1, e1 ▸ hl, ?_⟩
    split at h3
    · rename_i hu
      refine ⟨.inl hu, ?_⟩
      split at h3
      · rw [if_pos ‹_›, ← e1, ← e2]; exact foldLit_folds h3
      · rw [if_neg ‹_›]; rw [M.pure_eq_ok] at h3; exact h3.1.symm
    · simp only [M.lift_eq_ok, M.bind_eq_ok] at h3
      obtain ⟨_, s3, ⟨hv, rfl⟩, h3⟩ := h3
      refine ⟨.inr hv, ?_⟩
      split at h3
      · rw [if_pos ‹_›, ← e1, ← e2]; exact foldLit_folds h3
      · rw [if_neg ‹_›]; rw [M.pure_eq_ok] at h3; exact h3.1.symm
  | .tern c t f, s, s', e, h => by
    simp only [build, M.bind_eq_ok, M.pure_eq_ok] at h
    obtain ⟨a', s1, h1, b', s2, h2, c', s3, h3, rfl, rfl⟩ := h
    have e1 := build_scopes h1
    have e2 := build_scopes h2
    have hb' := build_built t h2
    have hc' := build_built f h3
    rw [e1] at hb'
    rw [e2, e1] at hc'
    simp only [Built]
    exact ⟨a', b', c', build_built c h1, hb', hc', rfl⟩
  | .not x, s, s', e, h => by
    simp only [build, M.bind_eq_ok, mkNot] at h
    obtain ⟨x', s1, h1, h2⟩ := h
    have e1 := build_scopes h1
    simp only [Built]
    refine ⟨x', build_built x h1, ?_⟩
    split at h2
    · rw [if_pos ‹_›]
      simp only [M.bind_eq_ok, M.pure_eq_ok] at h2
      obtain ⟨v, s2, hv, rfl, rfl⟩ := h2
      exact ⟨v, ⟨_, _, e1, hv⟩, rfl⟩
    · rw [if_neg ‹_›]; rw [M.pure_eq_ok] at h2; exact h2.1.symm
  | .neg x, s, s', e, h => by
    simp only [build, M.bind_eq_ok, mkNeg] at h
    obtain ⟨x', s1, h1, h2⟩ := h
    have e1 := build_scopes h1
    simp only [Built]
    refine ⟨x', build_built x h1, ?_⟩
    split at h2
    · rw [if_pos ‹_›]
      split at h2
      · simp only [M.bind_eq_ok, M.pure_eq_ok] at h2
        obtain ⟨v, s2, hv, rfl, rfl⟩ := h2
        exact ⟨_, v, _, rfl, .inl rfl, ⟨_, _, e1, hv⟩, rfl⟩
      · simp only [M.bind_eq_ok, M.pure_eq_ok] at h2
        obtain ⟨v, s2, hv, rfl, rfl⟩ := h2
        exact ⟨_, v, _, rfl, .inr rfl, ⟨_, _, e1, hv⟩, rfl⟩
      · simp at h2
    · rw [if_neg ‹_›]; rw [M.pure_eq_ok] at h2; exact h2.1.symm
theorem buildList_built {env : Env} {dct : DecCtx} : ∀ (xs : List Raw) {s s' : St} {es : List Expr},
    buildList env dct xs s = (.ok es, s') → BuiltList env dct s.scopes xs es ∧ s'.scopes = s.scopes
  | [], s, s', es, h => by
    simp only [buildList, M.pure_eq_ok] at h
    obtain ⟨rfl, rfl⟩ := h
    simp [BuiltList]
  | x :: xs, s, s', es, h => by
    simp only [buildList, M.bind_eq_ok, M.pure_eq_ok] at h
    obtain ⟨e, s1, h1, es', s2, h2, rfl, rfl⟩ := h
    have e1 := build_scopes h1
    have ⟨hl, e2⟩ := buildList_built xs h2
    rw [e1] at hl e2
    simp only [BuiltList]
    exact ⟨⟨e, es', build_built x h1, hl, rfl⟩, e2⟩
theorem buildPairs_built {env : Env} {dct : DecCtx} : ∀ (xs : List (Raw × Raw)) {s s' : St}
    {es : List (Expr × Expr)},
    buildPairs env dct xs s = (.ok es, s') → BuiltPairs env dct s.scopes xs es ∧ s'.scopes = s.scopes
  | [], s, s', es, h => by
    simp only [buildPairs, M.pure_eq_ok] at h
    obtain ⟨rfl, rfl⟩ := h
    simp [BuiltPairs]
  | (k, v) :: xs, s, s', es, h => by
    simp only [buildPairs, M.bind_eq_ok, M.pure_eq_ok] at h
    obtain ⟨k', s1, h1, v', s2, h2, es', s3, h3, rfl, rfl⟩ := h
    have e1 := build_scopes h1
    have e2 := build_scopes h2
    have ⟨hl, e3⟩ := buildPairs_built xs h3
    have hv := build_built v h2
    rw [e1] at hv
    rw [e2, e1] at hl e3
    simp only [BuiltPairs]
    exact ⟨⟨k', v', es', build_built k h1, hv, hl, rfl⟩, e3⟩
end

end RE
