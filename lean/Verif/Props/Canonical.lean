import Verif.Props.Reduced
import Verif.Props.SoundCalls

/-!
# Values that survive being turned into a literal

Constant folding replaces a value by literal nodes that evaluate to it again.  That is exact for the
values below: no foreign objects, no functions of the embedding program, and inside of sets no
numbers other than Decimals.
-/

set_option linter.unusedSimpArgs false
set_option linter.unusedVariables false
set_option linter.unusedTactic false
set_option linter.unreachableTactic false

namespace RE

mutual
/-- scalars, functions bound to a value, tuples, and sets and ordered dictionaries as Python makes
them (members and keys hashable and pairwise unequal) -/
def Value.Canonical (off : TzDb) : Value → Prop
  | .none | .bool _ | .dec _ | .str _ | .bytes _ | .datetime .. | .timedelta _ | .method .. => True
  | .seq .tuple xs => Value.AllCanonical off xs
  | .set xs => Value.AllCanonical off xs ∧ (∀ x ∈ xs, x.hashable = true) ∧
      xs.Pairwise (fun a b => pyEq off a b = false)
  | .map .ordered kvs => Value.PairsCanonical off kvs ∧ (∀ p ∈ kvs, p.1.hashable = true) ∧
      kvs.Pairwise (fun p q => pyEq off p.1 q.1 = false)
  | _ => False
def Value.AllCanonical (off : TzDb) : List Value → Prop
  | [] => True
  | x :: xs => x.Canonical off ∧ Value.AllCanonical off xs
def Value.PairsCanonical (off : TzDb) : List (Value × Value) → Prop
  | [] => True
  | (k, v) :: rest => k.Canonical off ∧ v.Canonical off ∧ Value.PairsCanonical off rest
end

theorem allCanonical_iff {off : TzDb} {xs : List Value} :
    Value.AllCanonical off xs ↔ ∀ x ∈ xs, x.Canonical off := by
  induction xs with
  | nil => simp [Value.AllCanonical]
  | cons a t ih => simp [Value.AllCanonical, ih]

theorem pairsCanonical_iff {off : TzDb} {kvs : List (Value × Value)} :
    Value.PairsCanonical off kvs ↔ ∀ p ∈ kvs, p.1.Canonical off ∧ p.2.Canonical off := by
  induction kvs with
  | nil => simp [Value.PairsCanonical]
  | cons a t ih => obtain ⟨k, v⟩ := a; simp [Value.PairsCanonical, ih, and_assoc]

theorem hashable_keyable {v : Value} (h : v.hashable = true) : v.keyable = true := by
  cases v <;> simp_all [Value.hashable, Value.keyable]

mutual
theorem canonical_clean {off : TzDb} : ∀ v : Value, v.Canonical off → v.Clean
  | .seq k xs, h => by
    cases k <;> simp only [Value.Canonical] at h
    simp only [Value.Clean]; exact canonicals_clean xs h
  | .set xs, h => by
    simp only [Value.Canonical] at h
    simp only [Value.Clean]; exact canonicals_clean xs h.1
  | .map k kvs, h => by
    cases k <;> simp only [Value.Canonical] at h
    simp only [Value.Clean]; exact canonicalp_clean kvs h.1 h.2.1
  | .none, _ | .bool _, _ | .int _, _ | .float _, _ | .dec _, _ | .str _, _ | .bytes _, _
  | .date _, _ | .datetime .., _ | .timedelta _, _ | .builtinFn _, _ | .userFn _, _ | .method .., _ => by
    simp [Value.Clean]
  | .obj _, h | .undef, h => by simp [Value.Canonical] at h
theorem canonicals_clean {off : TzDb} : ∀ xs : List Value, Value.AllCanonical off xs → Value.AllClean xs
  | [], _ => trivial
  | x :: xs, h => ⟨canonical_clean x h.1, canonicals_clean xs h.2⟩
theorem canonicalp_clean {off : TzDb} : ∀ kvs : List (Value × Value), Value.PairsCanonical off kvs →
    (∀ p ∈ kvs, p.1.hashable = true) → Value.PairsClean kvs
  | [], _, _ => trivial
  | (k, v) :: kvs, h, hh => ⟨hashable_keyable (hh (k, v) List.mem_cons_self), canonical_clean k h.1,
      canonical_clean v h.2.1, canonicalp_clean kvs h.2.2 fun p hp => hh p (List.mem_cons_of_mem _ hp)⟩
end

mutual
theorem coerce_canonical {off : TzDb} : ∀ v : Value, v.Canonical off → coerce off v = v
  | .seq k xs, h => by
    cases k <;> simp only [Value.Canonical] at h
    simp only [coerce]; rw [coerces_canonical xs h]
  | .map k kvs, h => by
    cases k <;> simp only [Value.Canonical] at h
    simp only [coerce]
    rw [coercep_canonical kvs h.1, mapOfList_distinct off kvs h.2.2]
  | .set _, _ | .none, _ | .bool _, _ | .dec _, _ | .str _, _ | .bytes _, _
  | .datetime .., _ | .timedelta _, _ | .method .., _ => by simp only [coerce]
  | .int _, h | .float _, h | .date _, h | .builtinFn _, h | .userFn _, h
  | .obj _, h | .undef, h => by simp [Value.Canonical] at h
theorem coerces_canonical {off : TzDb} : ∀ xs : List Value, Value.AllCanonical off xs →
    coerceList off xs = xs
  | [], _ => rfl
  | x :: xs, h => by simp only [coerceList]; rw [coerce_canonical x h.1, coerces_canonical xs h.2]
theorem coercep_canonical {off : TzDb} : ∀ kvs : List (Value × Value), Value.PairsCanonical off kvs →
    coercePairs off kvs = kvs
  | [], _ => rfl
  | (k, v) :: kvs, h => by
    simp only [coercePairs]
    rw [coerce_canonical k h.1, coerce_canonical v h.2.1, coercep_canonical kvs h.2.2]
end

theorem canonical_localise {env : Env} {v : Value} {off : TzDb} (h : v.Canonical off) :
    (localise env v).Canonical off := by
  unfold localise
  split
  · trivial
  · exact h

theorem canonical_newValue {env : Env} {v : Value} (h : v.Canonical env.utcoffset) :
    (newValue env v).Canonical env.utcoffset := by
  unfold newValue
  rw [coerce_canonical v h]
  exact canonical_localise h

/-! ## Literals made of canonical values -/

theorem setM_pures {off : TzDb} : ∀ {xs acc : List Value}, (∀ x ∈ xs, x.hashable = true) →
    (acc ++ xs).Pairwise (fun a b => pyEq off a b = false) →
    setM off acc (xs.map fun x => (pure x : M Value)) = pure (acc ++ xs)
  | [], acc, _, _ => by simp [setM]
  | x :: xs, acc, hh, hp => by
    have hx : acc.any (fun y => pyEq off y x) = false := by
      rw [List.any_eq_false]
      intro y hy
      rw [List.pairwise_append] at hp
      have := hp.2.2 y hy x List.mem_cons_self
      simp [this]
    simp only [List.map_cons, setM, pure_bind]
    rw [if_pos (hh x List.mem_cons_self), setAdd, if_neg (by rw [hx]; simp),
      setM_pures (fun x hx => hh x (List.mem_cons_of_mem _ hx)) (by simpa using hp)]
    simp

theorem mapKeysM_pures {off : TzDb} : ∀ {kvs : List (Value × Value)} {acc : List (Value × M Value)},
    (∀ p ∈ kvs, p.1.Canonical off) → (∀ p ∈ kvs, p.1.hashable = true) →
    ((acc.map (·.1)) ++ kvs.map (·.1)).Pairwise (fun a b => pyEq off a b = false) →
    mapKeysM off acc (kvs.map fun p => ((pure p.1 : M Value), (pure p.2 : M Value))) =
      pure (acc ++ kvs.map fun p => (p.1, (pure p.2 : M Value)))
  | [], acc, _, _, _ => by simp [mapKeysM]
  | (k, v) :: kvs, acc, hc, hh, hp => by
    obtain ⟨t, ht⟩ := clean_typed k (canonical_clean k (hc (k, v) List.mem_cons_self))
    have hk := keyable_type (hashable_keyable (hh (k, v) List.mem_cons_self)) ht
    have hx : ∀ p ∈ acc, pyEq off p.1 k = false := by
      intro p hy
      rw [List.pairwise_append] at hp
      exact hp.2.2 p.1 (List.mem_map.2 ⟨p, hy, rfl⟩) k List.mem_cons_self
    simp only [List.map_cons, mapKeysM, pure_bind]
    rw [ht]
    have e : ∀ {β : Type} (f : DataType → M β), (M.lift (.ok t) >>= f) = f t := fun f => rfl
    rw [e, hk, if_neg (by simp), if_pos (hh (k, v) List.mem_cons_self), mapInsert_append off acc k _ hx,
      mapKeysM_pures (fun p hp => hc p (List.mem_cons_of_mem _ hp))
        (fun p hp => hh p (List.mem_cons_of_mem _ hp)) (by simpa using hp)]
    simp

theorem mapValsM_pures : ∀ {kvs : List (Value × Value)},
    mapValsM (kvs.map fun p => (p.1, (pure p.2 : M Value))) = pure kvs
  | [] => rfl
  | (k, v) :: kvs => by simp only [List.map_cons, mapValsM, pure_bind, mapValsM_pures]

theorem seqM_pures : ∀ {xs : List Value}, seqM (xs.map fun x => (pure x : M Value)) = pure xs
  | [] => rfl
  | x :: xs => by simp only [List.map_cons, seqM, pure_bind, seqM_pures]

mutual
/-- the literal made of a canonical value evaluates to that value -/
theorem eval_ofValue (env : Env) (dc : DecCtx) (thing : Value) : ∀ v : Value,
    v.Canonical env.utcoffset → eval env dc thing (Expr.ofValue env.utcoffset v) = pure v
  | .seq k xs, h => by
    cases k <;> simp only [Value.Canonical] at h
    simp only [Expr.ofValue, eval]
    rw [evals_ofValues env dc thing xs h, seqM_pures]
    simp only [pure_bind]
  | .set xs, h => by
    simp only [Value.Canonical] at h
    simp only [Expr.ofValue, eval]
    rw [evals_ofValues env dc thing xs h.1, setM_pures h.2.1 (by simpa using h.2.2)]
    simp only [pure_bind, List.nil_append]
  | .map k kvs, h => by
    cases k <;> simp only [Value.Canonical] at h
    simp only [Expr.ofValue, eval]
    rw [evalPairs_ofPairs env dc thing kvs h.1, mapKeysM_pures
      (fun p hp => (pairsCanonical_iff.1 h.1 p hp).1) h.2.1
      (by simpa [List.pairwise_map] using h.2.2)]
    simp only [pure_bind, List.nil_append, mapValsM_pures]
  | .none, _ | .bool _, _ | .dec _, _ | .str _, _ | .bytes _, _
  | .datetime .., _ | .timedelta _, _ | .method .., _ => by simp only [Expr.ofValue, eval, coerce]
  | .int _, h | .float _, h | .date _, h | .builtinFn _, h | .userFn _, h
  | .obj _, h | .undef, h => by simp [Value.Canonical] at h
theorem evals_ofValues (env : Env) (dc : DecCtx) (thing : Value) : ∀ xs : List Value,
    Value.AllCanonical env.utcoffset xs →
    evals env dc thing (Expr.ofValues env.utcoffset xs) = xs.map fun x => (pure x : M Value)
  | [], _ => rfl
  | x :: xs, h => by
    simp only [Expr.ofValues, evals, List.map_cons]
    rw [eval_ofValue env dc thing x h.1, evals_ofValues env dc thing xs h.2]
theorem evalPairs_ofPairs (env : Env) (dc : DecCtx) (thing : Value) : ∀ kvs : List (Value × Value),
    Value.PairsCanonical env.utcoffset kvs →
    evalPairs env dc thing (Expr.ofPairs env.utcoffset kvs) =
      kvs.map fun p => ((pure p.1 : M Value), (pure p.2 : M Value))
  | [], _ => rfl
  | (k, v) :: kvs, h => by
    simp only [Expr.ofPairs, evalPairs, List.map_cons]
    rw [eval_ofValue env dc thing k h.1, eval_ofValue env dc thing v h.2.1,
      evalPairs_ofPairs env dc thing kvs h.2.2]
end

/-! ## Operations on canonical values -/

theorem canonical_num {off : TzDb} {v : Value} (h : v.Canonical off) (hn : isNumeric v = true) :
    ∃ d, v = .dec d := by
  cases v <;> simp_all [Value.Canonical, isNumeric]

theorem assertNumeric_isNumeric {v : Value} (h : assertNumeric v = .ok ()) : isNumeric v = true := by
  unfold assertNumeric at h
  split at h
  · assumption
  · cases h

theorem numOp_dec {env : Env} {dc : DecCtx} {op : ArithOp} {a b : Dec} {v : Value}
    (h : numOp env dc op (.dec a) (.dec b) = .ok v) : ∃ d, v = .dec d := by
  simp only [numOp, Value.isDec, Bool.or_self, if_true, Value.asIntDec] at h
  cases hx : decOp env dc op a b with
  | error e => rw [hx] at h; cases h
  | ok d => rw [hx] at h; cases h; exact ⟨_, rfl⟩

theorem mkDatetime_canonical {off : TzDb} {us : Int} {tz : Option Nat} {v : Value}
    (h : mkDatetime us tz = .ok v) : v.Canonical off := by
  unfold mkDatetime at h
  split at h <;> cases h
  trivial

theorem mkTimedelta_canonical {off : TzDb} {us : Int} {v : Value}
    (h : mkTimedelta us = .ok v) : v.Canonical off := by
  unfold mkTimedelta at h
  split at h <;> cases h
  trivial

theorem opAdd_canonical {env : Env} {dc : DecCtx} {off : TzDb} {a b v : Value} (ha : a.Canonical off)
    (hb : b.Canonical off) (h : opAdd env dc a b = .ok v) : v.Canonical off := by
  simp only [opAdd, except_bind_ok] at h
  obtain ⟨_, h1, h2⟩ := h
  unfold pyAdd at h2
  split at h2
  · exact mkDatetime_canonical h2
  · exact mkDatetime_canonical h2
  · exact mkTimedelta_canonical h2
  · cases h2; trivial
  · cases h2; trivial
  · rename_i n1 n2 n3 n4 n5
    cases a <;> simp only [Value.Canonical] at ha <;>
    cases b <;> simp only [Value.Canonical] at hb <;>
      first
        | exact (n1 _ _ _ rfl rfl).elim
        | exact (n2 _ _ _ rfl rfl).elim
        | exact (n3 _ _ rfl rfl).elim
        | exact (n4 _ _ rfl rfl).elim
        | exact (n5 _ _ rfl rfl).elim
        | (obtain ⟨d, rfl⟩ := numOp_dec h2; trivial)
        | (exfalso; simp [addCheck, Value.isBytes, Value.isStr, assertNumeric, isNumeric, numOp, Value.isDec,
            Value.asIntDec, Value.asInt, Value.asNumber, except_bind_ok] at h1 h2; done)

theorem opSub_canonical {env : Env} {dc : DecCtx} {off : TzDb} {a b v : Value} (ha : a.Canonical off)
    (hb : b.Canonical off) (h : opSub env dc a b = .ok v) : v.Canonical off := by
  simp only [opSub, except_bind_ok] at h
  obtain ⟨_, h1, h2⟩ := h
  unfold pySub at h2
  split at h2
  · split at h2
    · exact mkTimedelta_canonical h2
    · split at h2 <;> exact mkTimedelta_canonical h2
    · cases h2
  · exact mkDatetime_canonical h2
  · exact mkTimedelta_canonical h2
  · rename_i n1 n2 n3
    cases a <;> simp only [Value.Canonical] at ha <;>
    cases b <;> simp only [Value.Canonical] at hb <;>
      first
        | exact (n1 _ _ _ _ rfl rfl).elim
        | exact (n2 _ _ _ rfl rfl).elim
        | exact (n3 _ _ rfl rfl).elim
        | (obtain ⟨d, rfl⟩ := numOp_dec h2; trivial)
        | (exfalso; simp [subCheck, assertNumeric, isNumeric, numOp, Value.isDec,
            Value.asIntDec, Value.asInt, Value.asNumber, except_bind_ok] at h1 h2; done)

theorem opArith_canonical {env : Env} {dc : DecCtx} {off : TzDb} {op : ArithOp} {a b v : Value}
    (ha : a.Canonical off) (hb : b.Canonical off) (na : assertNumeric a = .ok ())
    (nb : assertNumeric b = .ok ()) (h : opArith env dc op a b = .ok v) : v.Canonical off := by
  obtain ⟨x, rfl⟩ := canonical_num ha (assertNumeric_isNumeric na)
  obtain ⟨y, rfl⟩ := canonical_num hb (assertNumeric_isNumeric nb)
  unfold opArith at h
  split at h
  · rename_i w hw
    cases h
    obtain ⟨d, rfl⟩ := numOp_dec hw
    trivial
  · split at h <;> cases h

theorem opBitSet_canonical {env : Env} {op : BitOp} {xs : List Value} {b v : Value}
    (hx : (Value.set xs).Canonical env.utcoffset) (hb : b.Canonical env.utcoffset)
    (h : opBitSet env.utcoffset op xs b = .ok v) : v.Canonical env.utcoffset := by
  simp only [opBitSet, except_bind_ok] at h
  obtain ⟨bt, -, h⟩ := h
  split at h
  · cases b <;> simp only [reduceCtorEq] at h
    rename_i ys
    simp only [except_bind_ok, Except.ok.injEq] at h
    obtain ⟨zs, hz, rfl⟩ := h
    simp only [Value.Canonical, allCanonical_iff] at hx hb ⊢
    refine ⟨bitSet_members hx.1 hb.1 hz, bitSet_members hx.2.1 hb.2.1 hz, ?_⟩
    cases op <;> simp [bitSet] at hz <;> subst hz
    · exact hx.2.2.filter _
    · rw [List.pairwise_append]
      refine ⟨hx.2.2, hb.2.2.filter _, ?_⟩
      intro a ha b hb
      simp only [List.mem_filter, Bool.not_eq_eq_eq_not, Bool.not_true, List.any_eq_false] at hb
      simpa using hb.2 a ha
    · rw [List.pairwise_append]
      refine ⟨hx.2.2.filter _, hb.2.2.filter _, ?_⟩
      intro a ha b hb
      simp only [List.mem_filter, Bool.not_eq_eq_eq_not, Bool.not_true, List.any_eq_false] at ha hb
      simpa using hb.2 a ha.1
  · cases h

/-- every value the computation returns satisfies `P` -/
def Gives (P : Value → Prop) (m : M Value) : Prop := ∀ s v s', m s = (.ok v, s') → P v

theorem gives_lift {P : Value → Prop} {x : Except Err Value} (h : ∀ v, x = .ok v → P v) :
    Gives P (M.lift x) := by
  intro s v s' hv
  rw [M.lift_eq_ok] at hv
  exact h v hv.1

theorem opFuzzy_canonical {env : Env} {off : TzDb} {a b : Bool} {l r v : Value} {s s' : St}
    (h : opFuzzy env a b l r s = (.ok v, s')) : v.Canonical off := by
  cases r with
  | str p =>
    simp only [opFuzzy] at h
    split at h
    · cases l with
      | str l =>
        simp only at h
        cases hr : env.reRun a p l with
        | none =>
          rw [hr] at h
          simp only [M.pure_eq_ok] at h
          rw [← h.1]; trivial
        | some gs =>
          rw [hr] at h
          simp only [recordMatch, M.bind_apply, M.modify_apply, M.pure_apply, Prod.mk.injEq,
            Except.ok.injEq] at h
          rw [← h.1]; trivial
      | _ =>
        simp only [M.pure_eq_ok] at h
        rw [← h.1]; trivial
    · simp at h
  | none =>
    cases l <;> simp only [opFuzzy, M.pure_eq_ok] at h <;> rw [← h.1] <;> trivial
  | _ => simp [opFuzzy] at h

theorem bit_canonical {env : Env} {op : BitOp} {l r : M Value}
    (hl : Gives (Value.Canonical env.utcoffset) l) (hr : Gives (Value.Canonical env.utcoffset) r) :
    Gives (Value.Canonical env.utcoffset) (do
      let a ← l
      let t ← M.lift (fromValue a)
      if DataType.eq t .float then do
        M.lift (assertNatural a)
        let b ← r
        M.lift (opBitNat env op a b)
      else
        match a with
        | .set xs => do
          let b ← r
          M.lift (opBitSet env.utcoffset op xs b)
        | _ => M.throw .mismatch) := by
  intro s v s' h
  rw [M.bind_eq_ok] at h
  obtain ⟨a, s1, h1, h⟩ := h
  rw [M.bind_eq_ok] at h
  obtain ⟨t, s2, h2, h⟩ := h
  split at h
  · simp only [M.bind_eq_ok, M.lift_eq_ok] at h
    obtain ⟨_, _, _, b, _, _, h, _⟩ := h
    obtain ⟨n, rfl⟩ := opBitNat_ok h
    trivial
  · have ha := hl _ _ _ h1
    cases a <;> simp only [M.throw_apply, Prod.mk.injEq, reduceCtorEq, false_and] at h
    simp only [M.bind_eq_ok, M.lift_eq_ok] at h
    obtain ⟨b, _, h3, h4, _⟩ := h
    exact opBitSet_canonical ha (hr _ _ _ h3) h4

theorem evalBin_canonical {env : Env} {dc : DecCtx} {op : BinOp} {l r : M Value}
    (hl : Gives (Value.Canonical env.utcoffset) l) (hr : Gives (Value.Canonical env.utcoffset) r) :
    Gives (Value.Canonical env.utcoffset) (evalBin env dc op l r) := by
  cases op with
  | bit op => exact bit_canonical hl hr
  | shift op => exact bit_canonical hl hr
  | add =>
    intro s v s' h
    simp only [evalBin, M.bind_eq_ok, M.lift_eq_ok] at h
    obtain ⟨a, _, h1, b, _, h2, h3, _⟩ := h
    exact opAdd_canonical (hl _ _ _ h1) (hr _ _ _ h2) h3
  | sub =>
    intro s v s' h
    simp only [evalBin, M.bind_eq_ok, M.lift_eq_ok] at h
    obtain ⟨a, _, h1, b, _, h2, h3, _⟩ := h
    exact opSub_canonical (hl _ _ _ h1) (hr _ _ _ h2) h3
  | arith op =>
    intro s v s' h
    simp only [evalBin, M.bind_eq_ok, M.lift_eq_ok] at h
    obtain ⟨a, _, h1, _, _, ⟨n1, _⟩, b, _, h2, _, _, ⟨n2, _⟩, h3, _⟩ := h
    exact opArith_canonical (hl _ _ _ h1) (hr _ _ _ h2) n1 n2 h3
  | and =>
    intro s v s' h
    simp only [evalBin] at h
    rw [M.bind_eq_ok] at h
    obtain ⟨a, s1, h1, h⟩ := h
    split at h
    · simp only [M.bind_eq_ok, M.pure_eq_ok] at h
      obtain ⟨_, _, _, rfl, _⟩ := h
      trivial
    · rw [M.pure_eq_ok] at h
      rw [← h.1]; trivial
  | or =>
    intro s v s' h
    simp only [evalBin] at h
    rw [M.bind_eq_ok] at h
    obtain ⟨a, s1, h1, h⟩ := h
    split at h
    · rw [M.pure_eq_ok] at h
      rw [← h.1]; trivial
    · simp only [M.bind_eq_ok, M.pure_eq_ok] at h
      obtain ⟨_, _, _, rfl, _⟩ := h
      trivial
  | eq =>
    intro s v s' h
    simp only [evalBin, M.bind_eq_ok, M.pure_eq_ok] at h
    obtain ⟨_, _, _, _, _, _, rfl, _⟩ := h
    trivial
  | ne =>
    intro s v s' h
    simp only [evalBin, M.bind_eq_ok, M.pure_eq_ok] at h
    obtain ⟨_, _, _, _, _, _, rfl, _⟩ := h
    trivial
  | cmp op =>
    intro s v s' h
    simp only [evalBin, M.bind_eq_ok, M.pure_eq_ok] at h
    obtain ⟨_, _, _, _, _, _, _, _, _, rfl, _⟩ := h
    trivial
  | fuzzy a b =>
    intro s v s' h
    simp only [evalBin] at h
    rw [M.bind_eq_ok] at h
    obtain ⟨x, s1, h1, h⟩ := h
    cases x <;> simp only [M.throw_apply, Prod.mk.injEq, reduceCtorEq, false_and] at h <;>
    · rw [M.bind_eq_ok] at h
      obtain ⟨y, s2, h2, h⟩ := h
      exact opFuzzy_canonical h

theorem opNeg_canonical {dc : DecCtx} {off : TzDb} {a v : Value} (ha : a.Canonical off)
    (h : opNeg dc a = .ok v) : v.Canonical off := by
  cases a <;> simp only [Value.Canonical] at ha <;>
    simp [opNeg, isNumeric, pyNeg] at h
  · rename_i d
    cases hx : decNeg dc d with
    | error e => rw [hx] at h; cases h
    | ok d => rw [hx] at h; cases h; trivial
  · exact mkTimedelta_canonical h

theorem itemOf_canonical {env : Env} {c v : Value} (hc : c.Canonical env.utcoffset) (h : ItemOf c v) :
    (newValue env v).Canonical env.utcoffset := by
  cases h with
  | str c => exact canonical_newValue (by trivial)
  | bytes x => simp only [newValue, coerce, localise]; trivial
  | @seq k xs _ h =>
    cases k <;> simp only [Value.Canonical] at hc
    exact canonical_newValue (allCanonical_iff.1 hc _ h)
  | @map k kvs p h =>
    cases k <;> simp only [Value.Canonical] at hc
    exact canonical_newValue (pairsCanonical_iff.1 hc.1 _ h).2

theorem slice_canonical {off : TzDb} {c v : Value} {a b : Option Int} (hc : c.Canonical off)
    (h : pyGetSlice c a b = .ok v) : v.Canonical off := by
  cases c <;> simp only [pyGetSlice, Except.ok.injEq, reduceCtorEq] at h <;> subst h
  · trivial
  · trivial
  · rename_i k xs
    cases k <;> simp only [Value.Canonical] at hc ⊢
    rw [allCanonical_iff] at hc ⊢
    exact fun x hx => hc x (pySlice_mem hx)

theorem setFold_pairwise {off : TzDb} {xs : List Value} : ∀ {acc : List Value},
    acc.Pairwise (fun a b => pyEq off a b = false) →
    (xs.foldl (setAdd off) acc).Pairwise (fun a b => pyEq off a b = false) := by
  induction xs with
  | nil => exact fun h => h
  | cons x xs ih =>
    intro acc h
    apply ih
    unfold setAdd
    split
    · exact h
    · rename_i hn
      rw [List.pairwise_append]
      refine ⟨h, by simp, ?_⟩
      intro a ha b hb
      rw [List.mem_singleton] at hb
      subst hb
      simp only [List.any_eq_true, not_exists, not_and] at hn
      simpa using hn a ha

theorem allHashable_mem : ∀ {xs : List Value}, Value.allHashable xs = true → ∀ x ∈ xs, x.hashable = true
  | [], _, x, h => by simp at h
  | y :: ys, h, x, hx => by
    simp only [Value.allHashable, Bool.and_eq_true] at h
    rcases List.mem_cons.1 hx with rfl | hx
    · exact h.1
    · exact allHashable_mem h.2 x hx

theorem setOfList_canonical {off : TzDb} {xs ys : List Value} (hx : ∀ x ∈ xs, x.Canonical off)
    (h : setOfList off xs = .ok ys) : (Value.set ys).Canonical off := by
  have hm := setOfList_mem h
  unfold setOfList at h
  split at h
  · rename_i hh
    cases h
    simp only [Value.Canonical]
    refine ⟨allCanonical_iff.2 fun y hy => hx y (hm y hy), fun y hy => allHashable_mem hh y (hm y hy), ?_⟩
    exact setFold_pairwise List.Pairwise.nil
  · cases h

theorem members_canonical {off : TzDb} {v : Value} {xs : List Value} (hv : v.Canonical off)
    (hb : v.isBytes = false) (h : v.members = .ok xs) : ∀ x ∈ xs, x.Canonical off := by
  cases v <;> simp only [Value.members, Except.ok.injEq, reduceCtorEq] at h
  case str s =>
    subst h
    intro x hx
    obtain ⟨c, -, rfl⟩ := List.mem_map.1 hx
    trivial
  case bytes => simp [Value.isBytes] at hb
  case seq k ys =>
    subst h
    cases k <;> simp only [Value.Canonical] at hv
    exact allCanonical_iff.1 hv
  case set ys =>
    subst h
    simp only [Value.Canonical] at hv
    exact allCanonical_iff.1 hv.1
  case map k kvs =>
    subst h
    cases k <;> simp only [Value.Canonical] at hv
    intro x hx
    obtain ⟨p, hp, rfl⟩ := List.mem_map.1 hx
    exact (pairsCanonical_iff.1 hv.1 p hp).1

theorem tuple_canonical {off : TzDb} {xs : List Value} (h : ∀ x ∈ xs, x.Canonical off) :
    (Value.tuple xs).Canonical off := by
  show Value.AllCanonical off xs
  exact allCanonical_iff.2 h

theorem coerceList_map (off : TzDb) : ∀ xs : List Value, coerceList off xs = xs.map (coerce off)
  | [] => rfl
  | x :: xs => by simp only [coerceList, List.map_cons, coerceList_map off xs]

/-- the attribute functions on canonical values; only the members of a set made of bytes stay Python
ints -/
theorem attrValue_canonical {env : Env} {k : AttrKind} {name : String}
    {f : DataType → DataType} {t : DataType} {o w : Value} (hk : attrKind t = some k)
    (ht : fromValue o = .ok t) (hf : attrTypeFn k name = some f) (ho : o.Canonical env.utcoffset)
    (hb : name = "to_set" → o.isBytes = false)
    (h : attrValue env k name o = .ok w) : (coerce env.utcoffset w).Canonical env.utcoffset := by
  have hcan : ∀ {w : Value}, w.Canonical env.utcoffset → (coerce env.utcoffset w).Canonical env.utcoffset := fun hw => by
    rw [coerce_canonical _ hw]; exact hw
  have hnum : ∀ {w : Value}, w.IsNum → (coerce env.utcoffset w).Canonical env.utcoffset := by
    rintro w (⟨d, rfl⟩ | ⟨d, rfl⟩ | ⟨d, rfl⟩) <;> simp only [coerce] <;> trivial
  have hnot : ∀ {P : Prop}, ¬ o.Canonical env.utcoffset → P := fun h => absurd ho h
  cases o <;> simp only [fromValue, except_bind_ok] at ht
  case int | float | date | builtinFn | userFn | obj | undef => exact hnot (by simp [Value.Canonical])
  case none => cases ht; simp [attrKind] at hk
  case bool => cases ht; simp [attrKind] at hk
  case method => cases ht; simp [attrKind] at hk
  case dec d =>
    cases ht
    simp only [attrKind, Option.some.injEq] at hk
    subst hk
    simp only [attrTypeFn] at hf
    split at hf <;> simp only [Option.some.injEq, reduceCtorEq] at hf <;> subst hf <;>
      simp only [attrValue] at h
    · split at h <;> first
        | (cases shortInt_ok h; exact hnum (.inr (.inl ⟨_, rfl⟩))) | (cases h; exact hnum (.inl ⟨_, rfl⟩)) | cases h
    · split at h <;> first
        | (cases shortInt_ok h; exact hnum (.inr (.inl ⟨_, rfl⟩))) | (cases h; exact hnum (.inl ⟨_, rfl⟩)) | cases h
    · cases h; exact hcan (by trivial)
    · cases h; exact hcan (by trivial)
    · simp only [except_bind_ok, Except.ok.injEq] at h
      obtain ⟨_, -, rfl⟩ := h
      exact hcan (by trivial)
    · split at h <;> cases h <;> exact hcan (by trivial)
  case str b =>
    cases ht
    simp only [attrKind, Option.some.injEq] at hk
    subst hk
    simp only [attrTypeFn] at hf
    split at hf <;> simp only [Option.some.injEq, reduceCtorEq] at hf <;> subst hf <;>
      simp only [attrValue, Except.ok.injEq, except_bind_ok] at h
    · subst h; exact hcan (by trivial)
    · subst h; exact hcan (by trivial)
    · subst h; exact hcan (by trivial)
    · obtain ⟨r, hr, h⟩ := h
      cases shortInt_ok h
      exact hnum (stringToFlt_num hr)
    · obtain ⟨r, hr, _, -, h⟩ := h
      cases shortInt_ok h
      exact hnum (stringToFlt_num hr)
    · subst h; exact hcan (by trivial)
    · subst h; exact hcan (by trivial)
    · subst h; exact hnum (.inr (.inl ⟨_, rfl⟩))
    · subst h; exact hcan (by trivial)
    · obtain ⟨xs, hx, rfl⟩ := h
      exact hcan (tuple_canonical (members_canonical (v := .str b) trivial rfl hx))
    · subst h; exact hcan (by trivial)
    · obtain ⟨xs, hx, ys, hy, rfl⟩ := h
      exact hcan (setOfList_canonical (members_canonical (v := .str b) trivial rfl hx) hy)
  case bytes b =>
    cases ht
    simp only [attrKind, Option.some.injEq] at hk
    subst hk
    simp only [attrTypeFn] at hf
    split at hf <;> simp only [Option.some.injEq, reduceCtorEq] at hf <;> subst hf <;>
      simp only [attrValue, Except.ok.injEq, except_bind_ok] at h
    · subst h; exact hcan (by trivial)
    · subst h; exact hcan (by trivial)
    · subst h; exact hcan (by trivial)
    · subst h; exact hnum (.inr (.inl ⟨_, rfl⟩))
    · subst h; exact hcan (by trivial)
    · obtain ⟨xs, hx, rfl⟩ := h
      simp only [Value.members, Except.ok.injEq] at hx
      subst hx
      simp only [coerce]
      show Value.AllCanonical _ _
      rw [allCanonical_iff, coerceList_map]
      intro x hx
      simp only [List.map_map, List.mem_map, Function.comp] at hx
      obtain ⟨y, -, rfl⟩ := hx
      simp only [coerce]; trivial
    · exact absurd (hb rfl) (by simp [Value.isBytes])
  case seq kd zs =>
    have hmem : ∀ {xs : List Value}, (Value.seq kd zs).members = .ok xs →
        ∀ x ∈ xs, x.Canonical env.utcoffset := fun h => members_canonical ho rfl h
    obtain ⟨ts, -, ht⟩ := ht
    cases ht
    simp only [attrKind, Option.some.injEq] at hk
    subst hk
    simp only [attrTypeFn] at hf
    split at hf <;> simp only [Option.some.injEq, reduceCtorEq] at hf <;> subst hf <;>
      simp only [attrValue, Except.ok.injEq, except_bind_ok] at h
    · subst h; exact hcan (by trivial)
    · subst h; exact hcan (by trivial)
    · subst h; exact hnum (.inr (.inl ⟨_, rfl⟩))
    · subst h; exact hcan (by trivial)
    · obtain ⟨xs, hx, rfl⟩ := h
      exact hcan (tuple_canonical (hmem hx))
    · obtain ⟨xs, hx, ys, hy, rfl⟩ := h
      exact hcan (setOfList_canonical (hmem hx) hy)
  case set zs =>
    have hmem : ∀ {xs : List Value}, (Value.set zs).members = .ok xs →
        ∀ x ∈ xs, x.Canonical env.utcoffset := fun h => members_canonical ho rfl h
    obtain ⟨ts, -, ht⟩ := ht
    cases ht
    simp only [attrKind, Option.some.injEq] at hk
    subst hk
    simp only [attrTypeFn] at hf
    split at hf <;> simp only [Option.some.injEq, reduceCtorEq] at hf <;> subst hf <;>
      simp only [attrValue, Except.ok.injEq, except_bind_ok] at h
    · subst h; exact hcan (by trivial)
    · subst h; exact hnum (.inr (.inl ⟨_, rfl⟩))
    · obtain ⟨xs, hx, rfl⟩ := h
      exact hcan (tuple_canonical (hmem hx))
    · obtain ⟨xs, hx, ys, hy, rfl⟩ := h
      exact hcan (setOfList_canonical (hmem hx) hy)
  case map kd kvs =>
    have ho : Value.PairsCanonical env.utcoffset kvs := by
      cases kd with
      | ordered => simp only [Value.Canonical] at ho; exact ho.1
      | dict => exact hnot (by simp [Value.Canonical])
    obtain ⟨ks, -, vs, -, ht⟩ := ht
    unfold mkMappingType at ht
    split at ht <;> cases ht
    simp only [attrKind, Option.some.injEq] at hk
    subst hk
    simp only [attrTypeFn] at hf
    split at hf <;> simp only [Option.some.injEq, reduceCtorEq] at hf <;> subst hf <;>
      simp only [attrValue, Except.ok.injEq] at h
    · subst h
      refine hcan (tuple_canonical fun x hx => ?_)
      obtain ⟨p, hp, rfl⟩ := List.mem_map.1 hx
      exact (pairsCanonical_iff.1 ho p hp).1
    · subst h
      refine hcan (tuple_canonical fun x hx => ?_)
      obtain ⟨p, hp, rfl⟩ := List.mem_map.1 hx
      exact (pairsCanonical_iff.1 ho p hp).2
    · subst h; exact hcan (by trivial)
    · subst h; exact hnum (.inr (.inl ⟨_, rfl⟩))
  case timedelta us =>
    cases ht
    simp only [attrKind, Option.some.injEq] at hk
    subst hk
    simp only [attrTypeFn] at hf
    split at hf <;> simp only [Option.some.injEq, reduceCtorEq] at hf <;> subst hf <;>
      simp only [attrValue, Except.ok.injEq] at h <;> subst h <;>
      first | exact hnum (.inr (.inl ⟨_, rfl⟩)) | exact hnum (.inr (.inr ⟨_, rfl⟩))
  case datetime us tz =>
    cases ht
    simp only [attrKind, Option.some.injEq] at hk
    subst hk
    simp only [attrTypeFn] at hf
    cases tz <;> split at hf <;> simp only [Option.some.injEq, reduceCtorEq] at hf <;> subst hf <;>
      simp only [attrValue, Except.ok.injEq] at h <;> first
        | (subst h; exact hnum (.inr (.inl ⟨_, rfl⟩)))
        | (subst h; exact hnum (.inr (.inr ⟨_, rfl⟩)))
        | (subst h; exact hcan (by trivial))
        | (split at h <;> cases h <;> exact hcan (by trivial))

theorem resolveAttr_canonical {env : Env} {name : String} {o v : Value}
    (ho : o.Canonical env.utcoffset) (hb : name = "to_set" → o.isBytes = false)
    (h : resolveAttr env o name = .ok v) : v.Canonical env.utcoffset := by
  unfold resolveAttr at h
  split at h
  · cases h
  · cases h
  · split at h
    · cases h
    · split at h
      · cases h
      · simp only [except_bind_ok, coerceVerify, Except.ok.injEq] at h
        obtain ⟨w, hw, _, ⟨_, -, rfl⟩, _, -, h⟩ := h
        split at h <;> cases h
        exact attrValue_canonical ‹_› ‹_› ‹_› ho hb hw

theorem callMethod_canonical {env : Env} {off : TzDb} {m : Method} {self v : Value} {args : List Value}
    (h : callMethod env m self args = .ok v) : v.Canonical off := by
  unfold callMethod at h
  split at h
  · simp only at h
    split at h
    · cases h; trivial
    · split at h
      · cases h; trivial
      · split at h <;> cases h; trivial
  · simp only at h
    split at h
    · split at h <;> cases h; trivial
    · split at h
      · split at h <;> cases h; trivial
      · split at h <;> cases h; trivial
  · simp only [except_bind_ok, Except.ok.injEq] at h
    obtain ⟨_, _, _, _, rfl⟩ := h
    trivial
  · simp only [except_bind_ok, Except.ok.injEq] at h
    obtain ⟨_, _, _, _, rfl⟩ := h
    trivial
  · cases h

end RE
