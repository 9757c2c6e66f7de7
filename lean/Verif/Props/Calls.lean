import Verif.Props.Built

/-!
# Functions, names, attributes (C27, C28, C44, C45)
-/

set_option linter.unusedSimpArgs false

namespace RE

/-! ## C27: datetimes carry a timezone -/

/-- a datetime without timezone, or a date -/
def Value.isNaive : Value → Bool
  | .datetime _ .none => true
  | .date _ => true
  | _ => false

/-- **C27.** What the engine makes of a value it receives: a naive datetime gets the context's default
timezone and keeps its wall clock time, an aware one is unchanged, a date becomes midnight in the
default timezone. -/
theorem newValue_datetime (env : Env) (us d : Int) (tz : Nat) :
    newValue env (.datetime us none) = .datetime us (some env.defaultTz) ∧
    newValue env (.datetime us (some tz)) = .datetime us (some tz) ∧
    newValue env (.date d) = .datetime (d * dayUs) (some env.defaultTz) :=
  ⟨rfl, rfl, rfl⟩

theorem localise_aware (env : Env) (v : Value) (h : ∀ d, v ≠ .date d) :
    (localise env v).isNaive = false := by
  unfold localise
  split
  · rfl
  · rename_i hn
    cases v with
    | date d => exact (h d rfl).elim
    | datetime us tz =>
      cases tz with
      | none => exact (hn us rfl).elim
      | some _ => rfl
    | _ => rfl

theorem coerce_not_date (off : TzDb) (v : Value) (d : Int) : coerce off v ≠ .date d := by
  cases v <;> simp [coerce]

theorem newValue_aware (env : Env) (v : Value) : (newValue env v).isNaive = false :=
  localise_aware env _ (coerce_not_date _ _)

theorem coerce_aware (off : TzDb) (v : Value) (h : v.isNaive = false) :
    (coerce off v).isNaive = false := by
  cases v with
  | date => simp [Value.isNaive] at h
  | datetime us tz => simpa [coerce] using h
  | _ => simp [coerce, Value.isNaive]

theorem checkSymbol_ok {name : String} {rt : DataType} {v w : Value}
    (h : checkSymbol name rt v = .ok w) : w = v := by
  unfold checkSymbol at h
  split at h
  · simpa using h.symm
  · simp only [except_bind_ok] at h
    obtain ⟨vt, hvt, h⟩ := h
    repeat' split at h
    all_goals first | (cases h; done) | (simp only [Except.ok.injEq] at h; exact h.symm)

theorem evalSymbol_aware {env : Env} {thing : Value} {name : String} {rt : DataType} {b : Bool}
    {s s' : St} {v : Value} (h : evalSymbol env thing name rt b s = (.ok v, s')) :
    v.isNaive = false := by
  simp only [evalSymbol, M.bind_eq_ok, M.lift_eq_ok] at h
  obtain ⟨w, s1, -, h, -⟩ := h
  rw [checkSymbol_ok h]
  exact newValue_aware env w

theorem evalGetAttr_aware {env : Env} {o : Value} {name : String} {s s' : St} {v : Value}
    (h : evalGetAttr env o name s = (.ok v, s')) : v.isNaive = false := by
  unfold evalGetAttr at h
  repeat' split at h
  all_goals first
    | (simp only [Prod.mk.injEq, Except.ok.injEq] at h; rw [← h.1]; exact newValue_aware env _)
    | (simp at h; done)

theorem finishCall_aware {env : Env} {dc : DecCtx} {rt : DataType} {f : Value} {args : List Value}
    {s s' : St} {v : Value} (h : finishCall env dc rt f args s = (.ok v, s')) : v.isNaive = false := by
  simp only [finishCall, M.bind_eq_ok, M.lift_eq_ok] at h
  obtain ⟨r, s1, -, c, s2, ⟨hc, rfl⟩, t, s3, ⟨-, rfl⟩, h⟩ := h
  split at h
  · rw [M.pure_eq_ok] at h
    rw [← h.1]
    simp only [coerceVerify, except_bind_ok, Except.ok.injEq] at hc
    obtain ⟨_, -, rfl⟩ := hc
    exact newValue_aware env r
  · simp at h

/-- **C27.** Whatever a symbol, an attribute, an item lookup or a function call evaluates to, it is not
a naive datetime (nor a date). -/
theorem lookups_are_aware (env : Env) (dc : DecCtx) (thing : Value) (e : Expr) (s s' : St) (v : Value)
    (he : match e with | .sym .. | .getAttr .. | .getItem .. | .call .. => True | _ => False)
    (h : eval env dc thing e s = (.ok v, s')) : v.isNaive = false := by
  cases e with
  | sym name rt b =>
    simp only [eval] at h
    exact evalSymbol_aware h
  | getAttr o name safe =>
    simp only [eval, M.bind_eq_ok] at h
    obtain ⟨ov, s1, -, h⟩ := h
    split at h
    · rw [M.pure_eq_ok] at h; rw [← h.1]; rfl
    · exact evalGetAttr_aware h
  | getItem c i safe =>
    simp only [eval, M.bind_eq_ok] at h
    obtain ⟨cv, s1, -, h⟩ := h
    split at h
    · split at h
      · rw [M.pure_eq_ok] at h; rw [← h.1]; rfl
      · simp at h
    · simp only [M.bind_eq_ok, M.lift_eq_ok] at h
      obtain ⟨iv, s2, -, o, s3, -, h⟩ := h
      cases o with
      | some w => simp only [M.pure_eq_ok] at h; rw [← h.1]; exact newValue_aware env w
      | none =>
        simp only at h
        split at h
        · rw [M.pure_eq_ok] at h; rw [← h.1]; rfl
        · simp at h
  | call f args =>
    simp only [eval, M.bind_eq_ok] at h
    obtain ⟨fv, s1, -, h⟩ := h
    split at h
    · simp only [M.bind_eq_ok] at h
      obtain ⟨vs, s2, -, h⟩ := h
      unfold evalCall at h
      split at h
      · exact finishCall_aware h
      · simp only [M.bind_eq_ok] at h
        obtain ⟨_, s3, -, h⟩ := h
        exact finishCall_aware h
    · simp at h
  | _ => exact he.elim

/-- expressions whose value is not a naive datetime by construction -/
def Expr.AwareTop : Expr → Prop
  | .lit v _ => v.isNaive = false
  | .bin .add l r => l.AwareTop ∧ r.AwareTop
  | .bin .sub l r => l.AwareTop ∧ r.AwareTop
  | .tern _ t f => t.AwareTop ∧ f.AwareTop
  | _ => True

theorem numOp_aware {env : Env} {dc : DecCtx} {op : ArithOp} {a b v : Value}
    (h : numOp env dc op a b = .ok v) : v.isNaive = false := by
  have hd : ∀ {x : Except DecErr Dec}, (x.mapError Err.ofDec).map Value.dec = .ok v →
      v.isNaive = false := by
    intro x h
    cases x <;> cases h
    rfl
  have hr : ∀ {x : Except Err RawNum}, x.map RawNum.toValue = .ok v → v.isNaive = false := by
    intro x h
    cases x with
    | error e => cases h
    | ok n => cases h; cases n <;> rfl
  unfold numOp at h
  repeat' split at h
  all_goals first | (cases h; done) | exact hd h | exact hr h | (cases h; rfl)

theorem mkDatetime_ok {us : Int} {tz : Option Nat} {v : Value} (h : mkDatetime us tz = .ok v) :
    v = .datetime us tz := by
  unfold mkDatetime at h
  split at h <;> cases h
  rfl

theorem mkTimedelta_ok {us : Int} {v : Value} (h : mkTimedelta us = .ok v) : v = .timedelta us := by
  unfold mkTimedelta at h
  split at h <;> cases h
  rfl

theorem isNaive_shift {x y : Int} {tz : Option Nat} (h : (Value.datetime x tz).isNaive = false) :
    (Value.datetime y tz).isNaive = false := by
  cases tz <;> simp_all [Value.isNaive]

theorem pyAdd_aware {env : Env} {dc : DecCtx} {a b v : Value} (ha : a.isNaive = false)
    (hb : b.isNaive = false) (h : pyAdd env dc a b = .ok v) : v.isNaive = false := by
  unfold pyAdd at h
  split at h
  · rw [mkDatetime_ok h]; exact isNaive_shift ha
  · rw [mkDatetime_ok h]; exact isNaive_shift hb
  · rw [mkTimedelta_ok h]; rfl
  · cases h; rfl
  · cases h; rfl
  · exact numOp_aware h

theorem pySub_aware {env : Env} {dc : DecCtx} {a b v : Value} (ha : a.isNaive = false)
    (h : pySub env dc a b = .ok v) : v.isNaive = false := by
  unfold pySub at h
  split at h
  · repeat' split at h
    all_goals first | (cases h; done) | (rw [mkTimedelta_ok h]; rfl)
  · rw [mkDatetime_ok h]; exact isNaive_shift ha
  · rw [mkTimedelta_ok h]; rfl
  · exact numOp_aware h

theorem opAdd_py {env : Env} {dc : DecCtx} {a b v : Value} (h : opAdd env dc a b = .ok v) :
    pyAdd env dc a b = .ok v := by
  unfold opAdd at h
  simp only [except_bind_ok] at h
  obtain ⟨_, -, h⟩ := h
  exact h

theorem opSub_py {env : Env} {dc : DecCtx} {a b v : Value} (h : opSub env dc a b = .ok v) :
    pySub env dc a b = .ok v := by
  unfold opSub at h
  simp only [except_bind_ok] at h
  obtain ⟨_, -, h⟩ := h
  exact h

theorem opBitNat_ok {env : Env} {op : BitOp} {a b v : Value} (h : opBitNat env op a b = .ok v) :
    ∃ n : Nat, v = .dec (.ofInt n) := by
  simp only [opBitNat, except_bind_ok] at h
  obtain ⟨_, -, h⟩ := h
  split at h
  · cases h
  · cases h; exact ⟨_, rfl⟩

theorem opBitSet_ok {off : TzDb} {op : BitOp} {xs : List Value} {b v : Value}
    (h : opBitSet off op xs b = .ok v) : ∃ zs, v = .set zs := by
  simp only [opBitSet, except_bind_ok] at h
  obtain ⟨bt, -, h⟩ := h
  repeat' split at h
  · simp only [except_bind_ok, Except.ok.injEq] at h
    obtain ⟨zs, -, rfl⟩ := h
    exact ⟨zs, rfl⟩
  all_goals cases h

theorem evalBit_aware {env : Env} {op : BitOp} {l r : M Value} {s s' : St} {v : Value}
    (h : (do
      let a ← l
      let t ← M.lift (fromValue a)
      if DataType.eq t .float then do
        M.lift (assertNatural a)
        let b ← r
        M.lift (opBitNat env op a b)
      else
        match a with
        | .set xs => do
          let b ← r
          M.lift (opBitSet env.utcoffset op xs b)
        | _ => M.throw .mismatch : M Value) s = (.ok v, s')) :
    (∃ d, v = .dec d) ∨ ∃ zs, v = .set zs := by
  simp only [M.bind_eq_ok, M.lift_eq_ok] at h
  obtain ⟨a, s1, -, t, s2, ⟨-, rfl⟩, h⟩ := h
  split at h
  · simp only [M.bind_eq_ok, M.lift_eq_ok] at h
    obtain ⟨_, s3, -, b, s4, -, h, -⟩ := h
    obtain ⟨n, h⟩ := opBitNat_ok h
    exact .inl ⟨_, h⟩
  · split at h
    · simp only [M.bind_eq_ok, M.lift_eq_ok] at h
      obtain ⟨b, s4, -, h, -⟩ := h
      exact .inr (opBitSet_ok h)
    · simp at h

theorem opNeg_aware {dc : DecCtx} {a v : Value} (h : opNeg dc a = .ok v) : v.isNaive = false := by
  unfold opNeg at h
  cases a with
  | dec d =>
    simp only [isNumeric, Bool.true_or, if_true, pyNeg] at h
    cases hd : decNeg dc d <;> rw [hd] at h <;> cases h
    rfl
  | timedelta us =>
    simp only [Bool.or_true, if_true, pyNeg] at h
    rw [mkTimedelta_ok h]; rfl
  | int i => simp only [isNumeric, Bool.true_or, if_true, pyNeg] at h; cases h; rfl
  | float f => simp only [isNumeric, Bool.true_or, if_true, pyNeg] at h; cases h; rfl
  | _ => simp [isNumeric] at h

theorem eval_aware {env : Env} {dc : DecCtx} {thing : Value} : ∀ (e : Expr) {s s' : St} {v : Value},
    e.AwareTop → eval env dc thing e s = (.ok v, s') → v.isNaive = false
  | .lit w t, s, s', v, ha, h => by
    simp only [eval, M.pure_eq_ok] at h
    rw [← h.1]; simpa [Expr.AwareTop] using ha
  | .array xs, s, s', v, ha, h => by
    simp only [eval, M.bind_eq_ok, M.pure_eq_ok] at h
    obtain ⟨vs, s1, -, rfl, -⟩ := h; rfl
  | .set xs, s, s', v, ha, h => by
    simp only [eval, M.bind_eq_ok, M.pure_eq_ok] at h
    obtain ⟨vs, s1, -, rfl, -⟩ := h; rfl
  | .mapping xs, s, s', v, ha, h => by
    simp only [eval, M.bind_eq_ok, M.pure_eq_ok] at h
    obtain ⟨vs, s1, -, ws, s2, -, rfl, -⟩ := h; rfl
  | .bin op l r, s, s', v, ha, h => by
    simp only [eval] at h
    cases hb : op.isBoolean with
    | true =>
      obtain ⟨b, rfl⟩ := evalBin_bool hb h
      rfl
    | false =>
      cases op with
      | and | or | eq | ne | cmp _ | fuzzy _ _ => simp [BinOp.isBoolean] at hb
      | add =>
        simp only [evalBin, M.bind_eq_ok, M.lift_eq_ok] at h
        obtain ⟨a, s1, h1, b, s2, h2, h3, -⟩ := h
        simp only [Expr.AwareTop] at ha
        exact pyAdd_aware (eval_aware l ha.1 h1) (eval_aware r ha.2 h2) (opAdd_py h3)
      | sub =>
        simp only [evalBin, M.bind_eq_ok, M.lift_eq_ok] at h
        obtain ⟨a, s1, h1, b, s2, h2, h3, -⟩ := h
        simp only [Expr.AwareTop] at ha
        exact pySub_aware (eval_aware l ha.1 h1) (opSub_py h3)
      | arith op =>
        simp only [evalBin, M.bind_eq_ok, M.lift_eq_ok] at h
        obtain ⟨a, s1, h1, _, s2, -, b, s3, -, _, s4, -, h, -⟩ := h
        unfold opArith at h
        split at h
        · rename_i w hw
          cases h
          exact numOp_aware hw
        · split at h <;> cases h
      | bit op =>
        simp only [evalBin] at h
        rcases evalBit_aware h with ⟨d, rfl⟩ | ⟨d, rfl⟩ <;> rfl
      | shift op =>
        simp only [evalBin] at h
        rcases evalBit_aware h with ⟨d, rfl⟩ | ⟨d, rfl⟩ <;> rfl
  | .comp result var iterable cond, s, s', v, ha, h => by
    rw [comprehension_iff] at h
    obtain ⟨it, s1, t, xs, ys, -, -, -, -, -, rfl⟩ := h; rfl
  | .contains c m, s, s', v, ha, h => by
    rcases contains_boolean env dc thing c m s s' v h with rfl | rfl <;> rfl
  | .getAttr o name safe, s, s', v, ha, h => lookups_are_aware _ _ _ _ _ _ _ (by trivial) h
  | .getItem c i safe, s, s', v, ha, h => lookups_are_aware _ _ _ _ _ _ _ (by trivial) h
  | .getSlice c a b safe, s, s', v, ha, h => by
    simp only [eval, M.bind_eq_ok] at h
    obtain ⟨cv, s1, -, h⟩ := h
    split at h
    · split at h
      · rw [M.pure_eq_ok] at h; rw [← h.1]; rfl
      · simp at h
    · simp only [evalSlice, M.bind_eq_ok, M.lift_eq_ok, M.pure_eq_ok] at h
      obtain ⟨_, _, -, _, _, -, _, _, -, _, _, -, w, _, ⟨hw, -⟩, rfl, -⟩ := h
      unfold pyGetSlice at hw
      split at hw <;> cases hw <;> rfl
  | .sym name rt b, s, s', v, ha, h => lookups_are_aware _ _ _ _ _ _ _ (by trivial) h
  | .call f args, s, s', v, ha, h => lookups_are_aware _ _ _ _ _ _ _ (by trivial) h
  | .tern c t f, s, s', v, ha, h => by
    simp only [eval, M.bind_eq_ok] at h
    obtain ⟨cv, s1, -, h⟩ := h
    simp only [Expr.AwareTop] at ha
    split at h
    · exact eval_aware t ha.1 h
    · exact eval_aware f ha.2 h
  | .not e, s, s', v, ha, h => by
    obtain ⟨w, -, rfl⟩ := (not_boolean env dc thing e s s' v).1 h
    rfl
  | .neg e, s, s', v, ha, h => by
    simp only [eval, M.bind_eq_ok, M.lift_eq_ok] at h
    obtain ⟨w, s1, -, h, -⟩ := h
    exact opNeg_aware h

theorem ofValue_awareTop (off : TzDb) (v : Value) (h : v.isNaive = false) :
    (Expr.ofValue off v).AwareTop := by
  cases v <;> simp only [Expr.ofValue, Expr.AwareTop] <;> exact coerce_aware off _ h

theorem folds_awareTop {env : Env} {dct : DecCtx} {Γ : List Assignment} {node e : Expr}
    (hn : node.AwareTop) (h : Folds env dct Γ node e) : e.AwareTop := by
  obtain ⟨v, ⟨s, s', -, hv⟩, hl⟩ := h
  simp only [litOf, except_bind_ok, Except.ok.injEq] at hl
  obtain ⟨t, -, rfl⟩ := hl
  exact ofValue_awareTop _ _ (eval_aware node hn hv)

/-- The values that `true`, `false`, `null`, string and bytes tokens denote, and the number that stands
for an absent start of a slice: the parser makes no other `lit` leaves (`parse_plain`). -/
def Value.isToken : Value → Bool
  | .none | .bool _ | .str _ | .bytes _ | .dec _ => true
  | _ => false

mutual
/-- every literal leaf is one that the parser makes -/
def Raw.Plain : Raw → Prop
  | .lit v => v.isToken = true
  | .floatLit _ | .datetimeLit _ | .timedeltaLit _ => True
  | .array xs => Raw.PlainList xs
  | .set xs => Raw.PlainList xs
  | .mapping kvs => Raw.PlainPairs kvs
  | .bin _ l r => l.Plain ∧ r.Plain
  | .comp result _ iterable cond => result.Plain ∧ iterable.Plain ∧ cond.Plain
  | .contains c m => c.Plain ∧ m.Plain
  | .getAttr o _ _ => o.Plain
  | .getItem c i _ => c.Plain ∧ i.Plain
  | .getSlice c a b _ => c.Plain ∧ a.Plain ∧ b.Plain
  | .sym _ _ => True
  | .call f args => f.Plain ∧ Raw.PlainList args
  | .tern c t f => c.Plain ∧ t.Plain ∧ f.Plain
  | .not e => e.Plain
  | .neg e => e.Plain
def Raw.PlainList : List Raw → Prop
  | [] => True
  | x :: xs => x.Plain ∧ Raw.PlainList xs
def Raw.PlainPairs : List (Raw × Raw) → Prop
  | [] => True
  | (k, v) :: xs => k.Plain ∧ v.Plain ∧ Raw.PlainPairs xs
end

theorem built_awareTop {env : Env} {dct : DecCtx} : ∀ (raw : Raw) {Γ : List Assignment} {e : Expr},
    raw.Plain → Built env dct Γ raw e → e.AwareTop
  | .lit v, Γ, e, hp, h => by
    simp only [Built] at h
    obtain ⟨t, -, rfl⟩ := h
    simp only [Raw.Plain] at hp
    simp only [Expr.AwareTop]
    cases v <;> simp [Value.isToken] at hp <;> rfl
  | .floatLit x, Γ, e, hp, h => by
    simp only [Built] at h
    obtain ⟨t, -, rfl⟩ := h
    rfl
  | .datetimeLit x, Γ, e, hp, h => by
    simp only [Built] at h
    obtain ⟨t, ht, rfl⟩ := h
    unfold parseDatetime at ht
    split at ht <;> cases ht <;> rfl
  | .timedeltaLit x, Γ, e, hp, h => by
    simp only [Built] at h
    obtain ⟨t, -, rfl⟩ := h
    rfl
  | .array xs, Γ, e, hp, h => by
    simp only [Built] at h
    obtain ⟨t, -, rfl⟩ := h
    trivial
  | .set xs, Γ, e, hp, h => by
    simp only [Built] at h
    obtain ⟨t, -, rfl⟩ := h
    trivial
  | .mapping xs, Γ, e, hp, h => by
    simp only [Built] at h
    obtain ⟨t, -, -, rfl⟩ := h
    trivial
  | .bin op l r, Γ, e, hp, h => by
    simp only [Built] at h
    simp only [Raw.Plain] at hp
    obtain ⟨l', r', hl, hr, -, h⟩ := h
    have hl' := built_awareTop l hp.1 hl
    have hr' := built_awareTop r hp.2 hr
    have hn : (Expr.bin op l' r').AwareTop := by
      cases op <;> simp only [Expr.AwareTop] <;> exact ⟨hl', hr'⟩
    split at h
    · exact folds_awareTop hn h
    · rw [h]; exact hn
  | .comp result var iterable cond, Γ, e, hp, h => by
    simp only [Built] at h
    obtain ⟨it, t, c, r, -, -, -, -, rfl⟩ := h
    trivial
  | .contains c m, Γ, e, hp, h => by
    simp only [Built] at h
    obtain ⟨c', m', -, -, -, h⟩ := h
    split at h
    · obtain ⟨v, ⟨s, s', -, hv⟩, rfl⟩ := h
      exact eval_aware (.contains c' m') trivial hv
    · rw [h]; trivial
  | .getAttr o name safe, Γ, e, hp, h => by
    simp only [Built] at h
    obtain ⟨o', -, -, h⟩ := h
    split at h
    · obtain ⟨e', hf, rfl⟩ := h
      have := folds_awareTop (by trivial) hf
      unfold attrLit
      split
      · split <;> exact this
      · exact this
    · rw [h]; trivial
  | .getItem c i safe, Γ, e, hp, h => by
    simp only [Built] at h
    obtain ⟨c', i', -, -, -, h⟩ := h
    split at h
    · rw [h]; rfl
    · split at h
      · exact folds_awareTop (by trivial) h
      · rw [h]; trivial
  | .getSlice c a b safe, Γ, e, hp, h => by
    simp only [Built] at h
    obtain ⟨c', i', _, -, -, -, -, h⟩ := h
    split at h
    · exact folds_awareTop (by trivial) h
    · rw [h]; trivial
  | .sym name b, Γ, e, hp, h => by
    simp only [Built] at h
    obtain ⟨t, -, rfl⟩ := h
    trivial
  | .call f args, Γ, e, hp, h => by
    simp only [Built] at h
    obtain ⟨f', as, -, -, -, h⟩ := h
    split at h
    · exact folds_awareTop (by trivial) h
    · rw [h]; trivial
  | .tern c t f, Γ, e, hp, h => by
    simp only [Built] at h
    simp only [Raw.Plain] at hp
    obtain ⟨c', t', f', -, ht, hf, rfl⟩ := h
    have ht' := built_awareTop t hp.2.1 ht
    have hf' := built_awareTop f hp.2.2 hf
    unfold mkTern
    split
    · split
      · exact ht'
      · exact hf'
    · simp only [Expr.AwareTop]; exact ⟨ht', hf'⟩
  | .not x, Γ, e, hp, h => by
    simp only [Built] at h
    obtain ⟨x', -, h⟩ := h
    split at h
    · obtain ⟨v, ⟨s, s', -, hv⟩, rfl⟩ := h
      exact eval_aware (.not x') trivial hv
    · rw [h]; trivial
  | .neg x, Γ, e, hp, h => by
    simp only [Built] at h
    obtain ⟨x', -, h⟩ := h
    split at h
    · obtain ⟨w, v, t, -, -, ⟨s, s', -, hv⟩, rfl⟩ := h
      exact eval_aware (.neg x') trivial hv
    · rw [h]; trivial

/-- **C27.** Any datetime that any rule returns is timezone-aware, whatever the resolver and the
functions return. -/
theorem rule_datetimes_are_aware (env : Env) (dct : DecCtx) (raw : Raw) (hp : raw.Plain) (s s1 : St)
    (e : Expr) (hc : construct env dct raw s = (.ok e, s1)) (thing : Value) (s2 s3 : St) (us : Int)
    (tz : Option Nat) (h : ruleEval env e thing s2 = (.ok (.datetime us tz), s3)) :
    ∃ z, tz = some z := by
  have := eval_aware e (built_awareTop raw hp (build_built raw hc)) h
  cases tz with
  | none => simp [Value.isNaive] at this
  | some z => exact ⟨z, rfl⟩

/-- `x + t"P1D"` on a naive datetime -/
example : runRaw sampleEnv (.bin .add (.sym "x" false) (.timedeltaLit "P1D"))
      (dictOf [("x", .datetime 5 none)]) = .ok (.datetime (5 + dayUs) (some 0)) ∧
    (Raw.bin .add (.sym "x" false) (.timedeltaLit "P1D")).Plain := by
  constructor
  · decide +kernel
  · simp [Raw.Plain]

/-- Members of arrays are not localised: `xs` evaluates to an array that still holds a naive
datetime. -/
theorem array_members_stay_naive :
    runRaw sampleEnv (.sym "xs" false) (dictOf [("xs", .seq .list [.datetime 5 none])]) =
      .ok (.tuple [.datetime 5 none]) := by
  decide +kernel

end RE
