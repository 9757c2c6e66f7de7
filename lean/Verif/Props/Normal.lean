import Verif.Props.SoundRule

/-!
# Operators and results see normalised values only (C50)
-/

set_option linter.unusedSimpArgs false
set_option linter.unusedVariables false

namespace RE

theorem allNormal_iff : ∀ xs : List Value, Value.AllNormal xs ↔ ∀ x ∈ xs, x.Normal
  | [] => by simp [Value.AllNormal]
  | x :: xs => by simp [Value.AllNormal, allNormal_iff xs]

/-- everything `m` returns satisfies `P` -/
def Emits {α : Type} (P : α → Prop) (m : M α) : Prop := ∀ s s' v, m s = (.ok v, s') → P v

theorem Emits.pure {α : Type} {P : α → Prop} {v : α} (h : P v) : Emits P (Pure.pure v) := by
  intro s s' w hw
  rw [M.pure_eq_ok] at hw
  exact hw.1 ▸ h

theorem Emits.bind {α β : Type} {P : α → Prop} {Q : β → Prop} {m : M α} {f : α → M β} (hm : Emits P m)
    (hf : ∀ a, P a → Emits Q (f a)) : Emits Q (m >>= f) := by
  intro s s' w hw
  rw [M.bind_eq_ok] at hw
  obtain ⟨a, s1, h1, h2⟩ := hw
  exact hf a (hm _ _ _ h1) _ _ _ h2

theorem Emits.any {α : Type} (m : M α) : Emits (fun _ => True) m := fun _ _ _ _ => trivial

theorem Emits.bind' {α β : Type} {Q : β → Prop} {m : M α} {f : α → M β} (hf : ∀ a, Emits Q (f a)) :
    Emits Q (m >>= f) := Emits.bind (Emits.any m) fun a _ => hf a

theorem Emits.lift {α : Type} {P : α → Prop} {x : Except Err α} (h : ∀ v, x = .ok v → P v) : Emits P (M.lift x) := by
  intro s s' w hw
  rw [M.lift_eq_ok] at hw
  exact h _ hw.1

theorem Emits.throw {α : Type} {P : α → Prop} {e : Err} : Emits P (M.throw e : M α) := by
  intro s s' w hw; cases hw

theorem Emits.ite {α : Type} {P : α → Prop} {p : Prop} [Decidable p] {m m' : M α} (h : Emits P m) (h' : Emits P m') :
    Emits P (if p then m else m') := by split <;> assumption

theorem Emits.mono {α : Type} {P Q : α → Prop} {m : M α} (h : Emits P m) (hpq : ∀ v, P v → Q v) : Emits Q m :=
  fun s s' v hv => hpq v (h s s' v hv)

mutual
/-- the literals in the tree are normalised -/
def Expr.NormalLits : Expr → Prop
  | .lit v _ => v.Normal
  | .array xs => Expr.NormalList xs
  | .set xs => Expr.NormalList xs
  | .mapping kvs => Expr.NormalPairs kvs
  | .bin _ l r => l.NormalLits ∧ r.NormalLits
  | .comp r _ it c => r.NormalLits ∧ it.NormalLits ∧ c.NormalLits
  | .contains c m => c.NormalLits ∧ m.NormalLits
  | .getAttr o _ _ => o.NormalLits
  | .getItem c i _ => c.NormalLits ∧ i.NormalLits
  | .getSlice c a b _ => c.NormalLits ∧ a.NormalLits ∧ b.NormalLits
  | .sym _ _ _ => True
  | .call f args => f.NormalLits ∧ Expr.NormalList args
  | .tern c t f => c.NormalLits ∧ t.NormalLits ∧ f.NormalLits
  | .not e => e.NormalLits
  | .neg e => e.NormalLits
def Expr.NormalList : List Expr → Prop
  | [] => True
  | x :: xs => x.NormalLits ∧ Expr.NormalList xs
def Expr.NormalPairs : List (Expr × Expr) → Prop
  | [] => True
  | (k, v) :: xs => k.NormalLits ∧ v.NormalLits ∧ Expr.NormalPairs xs
end

theorem localise_normal (env : Env) {v : Value} (h : v.Normal) : (localise env v).Normal := by
  unfold localise; split <;> first | trivial | exact h

theorem newValue_normal (env : Env) (v : Value) : (newValue env v).Normal :=
  localise_normal env (coerce_normal _ v)

theorem decMap_normal {x : Except DecErr Dec} {v : Value} (h : (x.mapError Err.ofDec).map Value.dec = .ok v) :
    v.Normal := by
  cases x <;> cases h
  trivial

/-- a number that is normalised is a Decimal -/
theorem isNumeric_normal {v : Value} (hn : isNumeric v = true) (h : v.Normal) : ∃ d, v = .dec d := by
  cases v <;> simp_all [isNumeric, Value.Normal]

theorem assertNumeric_normal {v : Value} (hn : assertNumeric v = .ok ()) (h : v.Normal) : ∃ d, v = .dec d := by
  rcases assertNumeric_ok hn with h' | ⟨i, rfl⟩ | ⟨f, rfl⟩
  · exact h'
  · exact absurd h (by simp [Value.Normal])
  · exact absurd h (by simp [Value.Normal])

theorem numOp_normal {env : Env} {dc : DecCtx} {op : ArithOp} {a b v : Value} (hd : a.isDec = true ∨ b.isDec = true)
    (h : numOp env dc op a b = .ok v) : v.Normal := by
  unfold numOp at h
  have : (a.isDec || b.isDec) = true := by simpa using hd
  rw [if_pos this] at h
  split at h
  · exact decMap_normal h
  · cases h

theorem mkDatetime_normal {us : Int} {tz : Option Nat} {v : Value} (h : mkDatetime us tz = .ok v) : v.Normal := by
  unfold mkDatetime at h; split at h <;> cases h; trivial
theorem mkTimedelta_normal {us : Int} {v : Value} (h : mkTimedelta us = .ok v) : v.Normal := by
  unfold mkTimedelta at h; split at h <;> cases h; trivial

theorem opAdd_normal {env : Env} {dc : DecCtx} {a b v : Value} (ha : a.Normal) (hb : b.Normal)
    (h : opAdd env dc a b = .ok v) : v.Normal := by
  simp only [opAdd, except_bind_ok] at h
  obtain ⟨_, hc, h⟩ := h
  unfold pyAdd at h
  split at h
  · exact mkDatetime_normal h
  · exact mkDatetime_normal h
  · exact mkTimedelta_normal h
  · cases h; trivial
  · cases h; trivial
  · rename_i hstr hbytes
    cases a <;> simp only [Value.Normal] at ha <;> first
      | exact numOp_normal (.inl rfl) h
      | (cases b <;> simp_all [numOp, Value.Normal, addCheck, assertNumeric, isNumeric, Value.isBytes, Value.isStr,
           Value.isDec, Value.asIntDec, Value.asInt, Value.asNumber] <;> cases hc)

theorem opSub_normal {env : Env} {dc : DecCtx} {a b v : Value} (ha : a.Normal) (hb : b.Normal)
    (h : opSub env dc a b = .ok v) : v.Normal := by
  simp only [opSub, except_bind_ok] at h
  obtain ⟨_, hc, h⟩ := h
  unfold pySub at h
  split at h
  · split at h
    · exact mkTimedelta_normal h
    · split at h <;> exact mkTimedelta_normal h
    · cases h
  · exact mkDatetime_normal h
  · exact mkTimedelta_normal h
  · cases a <;> simp only [Value.Normal] at ha <;> first
      | exact numOp_normal (.inl rfl) h
      | (cases b <;> simp_all [numOp, Value.Normal, subCheck, assertNumeric, isNumeric, Value.isBytes, Value.isStr,
           Value.isDec, Value.asIntDec, Value.asInt, Value.asNumber] <;> cases hc)

theorem opNeg_normal {dc : DecCtx} {a v : Value} (ha : a.Normal) (h : opNeg dc a = .ok v) : v.Normal := by
  cases a <;> simp only [Value.Normal] at ha <;> simp [opNeg, isNumeric, pyNeg] at h <;> first
    | exact decMap_normal h
    | exact mkTimedelta_normal h

theorem bit_emits {env : Env} {op : BitOp} {l r : M Value} :
    Emits Value.Normal (do
      let a ← l
      let t ← M.lift (fromValue a)
      if DataType.eq t .float then do
        M.lift (assertNatural a)
        let b ← r
        M.lift (opBitNat env op a b)
      else
        match a with
        | .set xs => do
          let b ← r
          M.lift (opBitSet env.utcoffset op xs b)
        | _ => M.throw .mismatch : M Value) := by
  refine Emits.bind' fun a => Emits.bind' fun t => Emits.ite ?_ ?_
  · refine Emits.bind' fun _ => Emits.bind' fun b => Emits.lift fun v h => ?_
    obtain ⟨n, rfl⟩ := opBitNat_ok h
    trivial
  · split
    · refine Emits.bind' fun b => Emits.lift fun v h => ?_
      simp only [opBitSet, except_bind_ok] at h
      obtain ⟨bt, _, h⟩ := h
      split at h
      · split at h
        · simp only [except_bind_ok, Except.ok.injEq] at h
          obtain ⟨zs, _, rfl⟩ := h
          trivial
        · cases h
      · cases h
    · exact Emits.throw

theorem evalBin_emits {env : Env} {dc : DecCtx} {op : BinOp} {l r : M Value} (hl : Emits Value.Normal l)
    (hr : Emits Value.Normal r) : Emits Value.Normal (evalBin env dc op l r) := by
  cases op with
  | add => exact hl.bind fun a ha => hr.bind fun b hb => Emits.lift fun v h => opAdd_normal ha hb h
  | sub => exact hl.bind fun a ha => hr.bind fun b hb => Emits.lift fun v h => opSub_normal ha hb h
  | arith op =>
    refine hl.bind fun a ha => ?_
    refine Emits.bind (P := fun _ => ∃ d, a = .dec d)
      (Emits.lift fun _ h => assertNumeric_normal (by cases ‹Unit›; exact h) ha) fun _ had => ?_
    obtain ⟨d, rfl⟩ := had
    refine hr.bind fun b hb => Emits.bind' fun _ => Emits.lift fun v h => ?_
    unfold opArith at h
    split at h
    · rename_i w hw
      cases h
      exact numOp_normal (.inl rfl) hw
    · split at h <;> cases h
  | bit op => exact bit_emits
  | shift op => exact bit_emits
  | and =>
    exact Emits.bind' fun a => Emits.ite (Emits.bind' fun b => Emits.pure trivial) (Emits.pure trivial)
  | or =>
    exact Emits.bind' fun a => Emits.ite (Emits.pure trivial) (Emits.bind' fun b => Emits.pure trivial)
  | eq => exact Emits.bind' fun a => Emits.bind' fun b => Emits.pure trivial
  | ne => exact Emits.bind' fun a => Emits.bind' fun b => Emits.pure trivial
  | cmp op => exact Emits.bind' fun a => Emits.bind' fun b => Emits.bind' fun _ => Emits.pure trivial
  | fuzzy x y =>
    refine Emits.bind' fun a => ?_
    have : ∀ b, Emits Value.Normal (opFuzzy env x y a b) := by
      intro b
      unfold opFuzzy
      repeat' split
      all_goals first
        | exact Emits.throw
        | exact Emits.pure trivial
        | exact Emits.bind' fun _ => Emits.pure trivial
    split
    · exact Emits.bind' fun b => this b
    · exact Emits.bind' fun b => this b
    · exact Emits.throw

theorem seqM_normal {P : Value → Prop} : ∀ {ms : List (M Value)}, (∀ m ∈ ms, Emits P m) →
    Emits (fun vs => ∀ v ∈ vs, P v) (seqM ms)
  | [], _ => Emits.pure (by simp)
  | m :: ms, h => by
    refine (h m (by simp)).bind fun v hv => (seqM_normal (ms := ms) fun m hm => h m (by simp [hm])).bind
      fun vs hvs => Emits.pure ?_
    intro w hw
    rcases List.mem_cons.1 hw with rfl | hw
    · exact hv
    · exact hvs w hw

theorem mapKeysM_normal {off : TzDb} {P Q : Value → Prop} : ∀ {ms : List (M Value × M Value)}
    {acc : List (Value × M Value)}, (∀ p ∈ acc, P p.1 ∧ Emits Q p.2) → (∀ p ∈ ms, Emits P p.1 ∧ Emits Q p.2) →
    Emits (fun ks => ∀ p ∈ ks, P p.1 ∧ Emits Q p.2) (mapKeysM off acc ms)
  | [], acc, ha, _ => Emits.pure ha
  | (k, v) :: ms, acc, ha, h => by
    obtain ⟨h1, h2⟩ := h (k, v) (by simp)
    refine h1.bind fun key hk => Emits.bind' fun kt => Emits.ite Emits.throw (Emits.ite ?_ Emits.throw)
    refine mapKeysM_normal ?_ (fun p hp => h p (by simp [hp]))
    intro p hp
    obtain ⟨g1, g2⟩ := mapInsert_mem off acc key v p hp
    constructor
    · rcases g1 with g | ⟨q, hq, g⟩
      · rw [g]; exact hk
      · rw [← g]; exact (ha q hq).1
    · rcases g2 with g | ⟨q, hq, g⟩
      · rw [g]; exact h2
      · rw [← g]; exact (ha q hq).2

theorem mapValsM_normal {P Q : Value → Prop} : ∀ {ks : List (Value × M Value)}, (∀ p ∈ ks, P p.1 ∧ Emits Q p.2) →
    Emits (fun kvs => ∀ p ∈ kvs, P p.1 ∧ Q p.2) (mapValsM ks)
  | [], _ => Emits.pure (by simp)
  | (k, m) :: rest, h => by
    obtain ⟨h1, h2⟩ := h (k, m) (by simp)
    refine h2.bind fun v hv => (mapValsM_normal (ks := rest) fun p hp => h p (by simp [hp])).bind
      fun vs hvs => Emits.pure ?_
    intro p hp
    rcases List.mem_cons.1 hp with rfl | hp
    · exact ⟨h1, hv⟩
    · exact hvs p hp

theorem M.withScope_emits {α : Type} {P : α → Prop} {a : Assignment} {m : M α} (h : Emits P m) :
    Emits P (M.withScope a m) := by
  intro s s' v hv
  obtain ⟨s1, h1, -⟩ := M.withScope_eq_ok hv
  exact h _ _ _ h1

theorem compM_normal {P : Value → Prop} {var : String} {c r : M Value} (hr : Emits P r) : ∀ xs : List Value,
    Emits (fun vs => ∀ v ∈ vs, P v) (compM var c r xs)
  | [] => Emits.pure (by simp)
  | x :: xs => by
    refine Emits.bind (P := fun o => ∀ v, o = some v → P v)
      (M.withScope_emits (Emits.bind' fun cv => Emits.ite (hr.bind fun v hv => Emits.pure (by rintro _ ⟨⟩; exact hv))
        (Emits.pure (by rintro _ ⟨⟩)))) fun o ho => (compM_normal hr xs).bind fun vs hvs => Emits.pure ?_
    cases o with
    | none => exact hvs
    | some v =>
      intro w hw
      rcases List.mem_cons.1 hw with rfl | hw
      · exact ho _ rfl
      · exact hvs w hw

mutual
theorem eval_normal {env : Env} {dc : DecCtx} {thing : Value} : ∀ e : Expr, e.NormalLits →
    Emits Value.Normal (eval env dc thing e)
  | .lit v t, h => Emits.pure h
  | .array xs, h => (seqM_normal (evals_normal xs h)).bind fun vs hvs =>
      Emits.pure ⟨rfl, (allNormal_iff vs).2 hvs⟩
  | .set xs, h => Emits.bind' fun vs => Emits.pure trivial
  | .mapping kvs, h =>
      (mapKeysM_normal (acc := []) (by simp) (evalPairs_normal kvs h)).bind fun ks hks =>
        (mapValsM_normal hks).bind fun items hi => Emits.pure ⟨rfl, (pairsNormal_iff items).2 hi⟩
  | .bin op l r, h => evalBin_emits (eval_normal l h.1) (eval_normal r h.2)
  | .comp r var it c, h => by
      simp only [eval]
      refine Emits.bind' fun v => Emits.bind' fun t => Emits.ite ?_ Emits.throw
      exact Emits.bind' fun xs => (compM_normal (eval_normal r h.1) xs).bind fun vs hvs =>
        Emits.pure ⟨rfl, (allNormal_iff vs).2 hvs⟩
  | .contains c m, h => Emits.bind' fun _ => Emits.bind' fun _ => Emits.bind' fun _ => Emits.bind' fun _ =>
      Emits.pure trivial
  | .getAttr o name safe, h => by
      simp only [eval]
      refine Emits.bind' fun v => Emits.ite (Emits.pure trivial) ?_
      intro s s' w hw
      unfold evalGetAttr at hw
      repeat' split at hw
      all_goals first
        | (cases hw; exact newValue_normal _ _)
        | (cases hw; done)
  | .getItem c i safe, h => by
      simp only [eval]
      refine Emits.bind' fun v => Emits.ite (Emits.ite (Emits.pure trivial) Emits.throw) ?_
      refine Emits.bind' fun _ => Emits.bind' fun o => ?_
      cases o with
      | some w => exact Emits.pure (newValue_normal _ _)
      | none => exact Emits.ite (Emits.pure trivial) Emits.throw
  | .getSlice c a b safe, h => by
      simp only [eval]
      refine Emits.bind' fun v => Emits.ite (Emits.ite (Emits.pure trivial) Emits.throw) ?_
      exact Emits.bind' fun _ => Emits.bind' fun _ => Emits.bind' fun _ => Emits.bind' fun _ => Emits.bind' fun _ =>
        Emits.pure (coerce_normal _ _)
  | .sym name rt b, h => by
      simp only [eval, evalSymbol]
      exact Emits.bind' fun v => Emits.lift fun w hw => checkSymbol_ok hw ▸ newValue_normal _ _
  | .call f args, h => by
      simp only [eval]
      refine Emits.bind' fun fv => Emits.ite ?_ Emits.throw
      refine Emits.bind' fun vs => ?_
      have hf : Emits Value.Normal (finishCall env dc (callNodeType f.rt) fv vs) := by
        unfold finishCall
        refine Emits.bind' fun r => Emits.bind (P := Value.Normal) (Emits.lift fun w hw => ?_) fun w hw =>
          Emits.bind' fun t => Emits.ite (Emits.pure (localise_normal env hw)) Emits.throw
        simp only [coerceVerify, except_bind_ok, Except.ok.injEq] at hw
        obtain ⟨_, _, rfl⟩ := hw
        exact coerce_normal _ _
      unfold evalCall
      exact Emits.ite hf (Emits.bind' fun _ => hf)
  | .tern c t f, h => Emits.bind' fun v => Emits.ite (eval_normal t h.2.1) (eval_normal f h.2.2)
  | .not e, h => Emits.bind' fun v => Emits.pure trivial
  | .neg e, h => (eval_normal e h).bind fun v hv => Emits.lift fun w hw => opNeg_normal hv hw
theorem evals_normal {env : Env} {dc : DecCtx} {thing : Value} : ∀ es : List Expr, Expr.NormalList es →
    ∀ m ∈ evals env dc thing es, Emits Value.Normal m
  | [], _ => by simp [evals]
  | e :: es, h => by
    intro m hm
    rcases List.mem_cons.1 hm with rfl | hm
    · exact eval_normal e h.1
    · exact evals_normal es h.2 m hm
theorem evalPairs_normal {env : Env} {dc : DecCtx} {thing : Value} : ∀ es : List (Expr × Expr),
    Expr.NormalPairs es → ∀ p ∈ evalPairs env dc thing es, Emits Value.Normal p.1 ∧ Emits Value.Normal p.2
  | [], _ => by simp [evalPairs]
  | (k, v) :: es, h => by
    intro m hm
    rcases List.mem_cons.1 hm with rfl | hm
    · exact ⟨eval_normal k h.1, eval_normal v h.2.1⟩
    · exact evalPairs_normal es h.2.2 m hm
end

mutual
theorem ofValue_normal (off : TzDb) : ∀ v : Value, (Expr.ofValue off v).NormalLits
  | .seq _ xs => ofValues_normal off xs
  | .set xs => ofValues_normal off xs
  | .map _ kvs => ofPairs_normal off kvs
  | .none => trivial
  | .bool _ => trivial
  | .int _ => trivial
  | .float _ => trivial
  | .dec _ => trivial
  | .str _ => trivial
  | .bytes _ => trivial
  | .date _ => trivial
  | .datetime .. => trivial
  | .timedelta _ => trivial
  | .builtinFn _ => trivial
  | .userFn _ => trivial
  | .method .. => trivial
  | .obj _ => trivial
  | .undef => trivial
theorem ofValues_normal (off : TzDb) : ∀ xs : List Value, Expr.NormalList (Expr.ofValues off xs)
  | [] => trivial
  | x :: xs => ⟨ofValue_normal off x, ofValues_normal off xs⟩
theorem ofPairs_normal (off : TzDb) : ∀ xs : List (Value × Value), Expr.NormalPairs (Expr.ofPairs off xs)
  | [] => trivial
  | (k, v) :: xs => ⟨ofValue_normal off k, ofValue_normal off v, ofPairs_normal off xs⟩
end

theorem folds_normal {env : Env} {dct : DecCtx} {Γ : List Assignment} {node e : Expr}
    (h : Folds env dct Γ node e) : e.NormalLits := by
  obtain ⟨v, -, hl⟩ := h
  simp only [litOf, except_bind_ok, Except.ok.injEq] at hl
  obtain ⟨t, -, rfl⟩ := hl
  exact ofValue_normal _ _

mutual
/-- construction leaves normalised literals only -/
theorem built_normal {env : Env} {dct : DecCtx} : ∀ (raw : Raw) {Γ : List Assignment} {e : Expr}, raw.Plain →
    Built env dct Γ raw e → e.NormalLits
  | .lit v, Γ, e, hp, hb => by
    simp only [Built] at hb
    obtain ⟨t, -, rfl⟩ := hb
    simp only [Raw.Plain] at hp
    cases v <;> simp [Value.isToken] at hp <;> trivial
  | .floatLit x, Γ, e, hp, hb => by simp only [Built] at hb; obtain ⟨d, -, rfl⟩ := hb; trivial
  | .datetimeLit x, Γ, e, hp, hb => by
    simp only [Built] at hb
    obtain ⟨d, hd, rfl⟩ := hb
    unfold parseDatetime at hd
    split at hd <;> cases hd <;> trivial
  | .timedeltaLit x, Γ, e, hp, hb => by simp only [Built] at hb; obtain ⟨d, -, rfl⟩ := hb; trivial
  | .array xs, Γ, e, hp, hb => by simp only [Built] at hb; obtain ⟨es, hes, rfl⟩ := hb; exact builts_normal xs hp hes
  | .set xs, Γ, e, hp, hb => by simp only [Built] at hb; obtain ⟨es, hes, rfl⟩ := hb; exact builts_normal xs hp hes
  | .mapping kvs, Γ, e, hp, hb => by
    simp only [Built] at hb; obtain ⟨es, hes, -, rfl⟩ := hb; exact builtp_normal kvs hp hes
  | .bin op l r, Γ, e, hp, hb => by
    simp only [Built] at hb
    obtain ⟨l', r', hl, hr, -, he⟩ := hb
    split at he
    · exact folds_normal he
    · rw [he]; exact ⟨built_normal l hp.1 hl, built_normal r hp.2 hr⟩
  | .comp r var it c, Γ, e, hp, hb => by
    simp only [Built] at hb
    obtain ⟨it', t, c', r', hit, -, hc, hr, rfl⟩ := hb
    exact ⟨built_normal r hp.1 hr, built_normal it hp.2.1 hit, built_normal c hp.2.2 hc⟩
  | .contains c m, Γ, e, hp, hb => by
    simp only [Built] at hb
    obtain ⟨c', m', hc, hm, -, he⟩ := hb
    split at he
    · obtain ⟨v, ⟨s, s', -, hv⟩, rfl⟩ := he
      exact eval_normal (.contains c' m') ⟨built_normal c hp.1 hc, built_normal m hp.2 hm⟩ _ _ _ hv
    · rw [he]; exact ⟨built_normal c hp.1 hc, built_normal m hp.2 hm⟩
  | .getAttr o name safe, Γ, e, hp, hb => by
    simp only [Built] at hb
    obtain ⟨o', ho, -, he⟩ := hb
    split at he
    · obtain ⟨e', hf, rfl⟩ := he
      have := folds_normal hf
      unfold attrLit
      split
      · split <;> exact this
      · exact this
    · rw [he]; exact (built_normal o hp ho : o'.NormalLits)
  | .getItem c i safe, Γ, e, hp, hb => by
    simp only [Built] at hb
    obtain ⟨c', i', hc, hi, -, he⟩ := hb
    split at he
    · rw [he]; trivial
    split at he
    · exact folds_normal he
    · rw [he]; exact ⟨built_normal c hp.1 hc, built_normal i hp.2 hi⟩
  | .getSlice c a b safe, Γ, e, hp, hb => by
    simp only [Built] at hb
    obtain ⟨c', a', b', hc, ha, hb', -, he⟩ := hb
    split at he
    · exact folds_normal he
    · rw [he]; exact ⟨built_normal c hp.1 hc, built_normal a hp.2.1 ha, built_normal b hp.2.2 hb'⟩
  | .sym name b, Γ, e, hp, hb => by simp only [Built] at hb; obtain ⟨t, -, rfl⟩ := hb; trivial
  | .call f args, Γ, e, hp, hb => by
    simp only [Built] at hb
    obtain ⟨f', as, hf, has, -, he⟩ := hb
    split at he
    · exact folds_normal he
    · rw [he]; exact ⟨built_normal f hp.1 hf, builts_normal args hp.2 has⟩
  | .tern c t f, Γ, e, hp, hb => by
    simp only [Built] at hb
    obtain ⟨c', t', f', hc, ht, hf, rfl⟩ := hb
    have h1 := built_normal c hp.1 hc
    have h2 := built_normal t hp.2.1 ht
    have h3 := built_normal f hp.2.2 hf
    unfold mkTern
    split
    · split <;> assumption
    · exact ⟨h1, h2, h3⟩
  | .not x, Γ, e, hp, hb => by
    simp only [Built] at hb
    obtain ⟨x', hx, he⟩ := hb
    split at he
    · obtain ⟨v, ⟨s, s', -, hv⟩, rfl⟩ := he
      exact eval_normal (.not x') (built_normal x hp hx : x'.NormalLits) _ _ _ hv
    · rw [he]; exact (built_normal x hp hx : x'.NormalLits)
  | .neg x, Γ, e, hp, hb => by
    simp only [Built] at hb
    obtain ⟨x', hx, he⟩ := hb
    have h1 := built_normal x hp hx
    split at he
    · obtain ⟨w, v, t, rfl, -, ⟨s, s', -, hv⟩, rfl⟩ := he
      exact eval_normal (.neg (.lit w t)) h1 _ _ _ hv
    · rw [he]; exact h1
theorem builts_normal {env : Env} {dct : DecCtx} : ∀ (raws : List Raw) {Γ : List Assignment} {es : List Expr},
    Raw.PlainList raws → BuiltList env dct Γ raws es → Expr.NormalList es
  | [], Γ, es, hp, hb => by simp only [BuiltList] at hb; subst hb; trivial
  | x :: xs, Γ, es, hp, hb => by
    simp only [BuiltList] at hb
    obtain ⟨e, es', he, hes, rfl⟩ := hb
    exact ⟨built_normal x hp.1 he, builts_normal xs hp.2 hes⟩
theorem builtp_normal {env : Env} {dct : DecCtx} : ∀ (raws : List (Raw × Raw)) {Γ : List Assignment}
    {es : List (Expr × Expr)}, Raw.PlainPairs raws → BuiltPairs env dct Γ raws es → Expr.NormalPairs es
  | [], Γ, es, hp, hb => by simp only [BuiltPairs] at hb; subst hb; trivial
  | (k, v) :: xs, Γ, es, hp, hb => by
    simp only [BuiltPairs] at hb
    obtain ⟨k', v', es', hk, hv, hes, rfl⟩ := hb
    exact ⟨built_normal k hp.1 hk, built_normal v hp.2.1 hv, builtp_normal xs hp.2.2 hes⟩
end

/-- **C50.** Whatever the resolver and the functions return, the result of a rule is normalised: no Python
int, float, list, range, date or plain dictionary outside of sets. -/
theorem result_normal (env : Env) (dct : DecCtx) (raw : Raw) (hp : raw.Plain) (s s1 : St) (e : Expr)
    (hb : construct env dct raw s = (.ok e, s1)) (thing : Value) (s2 s3 : St) (v : Value)
    (hv : ruleEval env e thing s2 = (.ok v, s3)) : v.Normal :=
  eval_normal e (built_normal raw hp (build_built raw hb)) _ _ _ hv

/-- C50 is met by a rule on raw Python data: `x` on `{"x": [1, {"k": 2}]}` gives normalised values. -/
example : (Raw.sym "x" false).Plain ∧
    runRaw sampleEnv (.sym "x" false)
      (dictOf [("x", .seq .list [.int 1, .map .dict [(.str "k", .int 2)]])]) =
      .ok (.tuple [.dec (.fin false 1 0), .map .ordered [(.str "k", .dec (.fin false 2 0))]]) :=
  ⟨trivial, by decide +kernel⟩

/-- the qualification "outside of sets" is needed: the members of a Python set are not coerced. -/
example : runRaw sampleEnv (.sym "x" false) (dictOf [("x", .set [.int 1])]) = .ok (.set [.int 1]) := by
  decide +kernel

end RE
