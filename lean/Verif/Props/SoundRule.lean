import Verif.Props.SoundCalls
import Verif.Props.Reduced
import Verif.Props.Names

/-!
# Type soundness of rules (C08)
-/

set_option linter.unusedSimpArgs false
set_option linter.unusedVariables false
set_option linter.unusedTactic false

namespace RE

variable {st : Prop} {A : String → Prop}

/-! ## What the embedding program must provide -/

/-- Specification: what type soundness needs of the embedding program, when the rule is evaluated on
`thing` and accesses the attributes in `A`.  `st` says whether foreign objects are excluded. -/
structure Env.Honest (env : Env) (st : Prop) (A : String → Prop) (thing : Value) : Prop where
  /-- arithmetic does not leave the reals -/
  noComplex : env.NoComplex
  /-- functions return proper dictionaries -/
  keysOk : st → env.KeysOk
  /-- there is no default value, or it is null -/
  default : env.defaultValue = none ∨ env.defaultValue = some .none
  /-- without foreign objects in the thing, the resolver returns none -/
  clean : st → ∀ o name v, o = thing ∨ o.Clean → env.resolver o name = .ok v → v.Clean
  /-- types of which the engine checks only a part (MAPPING, FUNCTION and ARRAY or SET without
  member type) are declared truthfully -/
  declared : ∀ name T v, env.typeResolver name = .ok T → env.resolver thing name = .ok v →
    T.verified = T ∨ v = .none ∨ v.HasType env.Returns T
  /-- the resolver finds no attributes of null under the names of attributes of the engine -/
  null : ∀ name, A name → ∀ k, name ∈ documentedAttributes k → ∀ v, env.resolver .none name ≠ .ok v
  /-- and none of compound values with foreign objects in them -/
  foreign : ¬st → ∀ name, A name → ∀ o T, T ≠ .undefined → o.HasType env.Returns T →
    name ∈ documentedAttributes T.kind → fromValue o = .error .typeError →
    ∀ v, env.resolver o name ≠ .ok v

theorem attrType_documented {t u : DataType} {name : String} (htu : t ≠ .undefined)
    (h : resolveAttrType t name = .ok u) : name ∈ documentedAttributes t.kind := by
  unfold resolveAttrType at h
  split at h
  · cases h
  rename_i k hk
  rw [← attrTypeFn_documented k t hk htu]
  split at h
  · cases h
  · rename_i hf; rw [hf]; rfl

theorem evalGetAttr_sound {env : Env} {thing : Value} (H : env.Honest st A thing) {t : DataType}
    {o v : Value} {name : String} {safe : Bool} {s s' : St} (hA : A name) (ho : o.Sound env st t)
    (hS : scopeLookup s.scopes name = none) (h : evalGetAttr env o name s = (.ok v, s')) :
    v.Sound env st (attrNodeType t name safe) ∧ s'.scopes = s.scopes := by
  unfold evalGetAttr at h
  cases hr : resolveAttr env o name with
  | ok w =>
    rw [hr] at h
    simp only [Prod.mk.injEq, Except.ok.injEq] at h
    obtain ⟨rfl, rfl⟩ := h
    exact ⟨sound_newValue (resolveAttr_sound ho hr), rfl⟩
  | error e =>
    rw [hr] at h
    simp only at h
    split at h
    swap
    · simp at h
    rename_i hi
    have hnf := (resolveAttr_not_found env o name).1 ⟨e, hr, hi⟩
    simp only [ctxResolve, Bool.false_eq_true, if_false, hS] at h
    -- the attribute is not one the engine knows for the static type, or the resolver fails
    have hcase : attrNodeType t name safe = .undefined ∨ ∀ w, env.resolver o name ≠ .ok w := by
      by_cases hu : attrNodeType t name safe = .undefined
      · exact .inl hu
      right
      have htu : t ≠ .undefined := by rintro rfl; exact hu rfl
      have hu1 : ∃ u, resolveAttrType t name = .ok u := by
        unfold attrNodeType at hu
        rw [if_neg (by rw [eq_undefined]; exact htu)] at hu
        split at hu
        · exact absurd rfl hu
        · cases hra : resolveAttrType t name with
          | ok u => exact ⟨u, rfl⟩
          | error e => rw [hra] at hu; exact absurd rfl hu
      obtain ⟨u, hu1⟩ := hu1
      have hdoc := attrType_documented htu hu1
      rcases ho.2 with rfl | hty
      · exact fun w => H.null name hA _ hdoc w
      by_cases hn : o = .none
      · subst hn; exact fun w => H.null name hA _ hdoc w
      rcases hnf with hf | ⟨u', hf, hnd⟩
      · by_cases hs : st
        · obtain ⟨t', ht'⟩ := clean_typed o (ho.1 hs)
          rw [ht'] at hf; cases hf
        · exact H.foreign hs name hA o t htu hty hdoc hf
      · exfalso
        have hk := attrKind_same htu hn hty hf
        have hune : u' ≠ .undefined := by rintro rfl; exact fromValue_ne_undefined o hf
        cases hkk : attrKind t with
        | none => exact attrKind_none t hkk name hdoc
        | some k =>
          rw [hkk] at hk
          exact hnd ((attrTypeFn_documented k u' hk hune name).1
            ((attrTypeFn_documented k t hkk htu name).2 hdoc))
    cases hres : env.resolver o name with
    | ok w =>
      rw [hres] at h
      simp only [Prod.mk.injEq, Except.ok.injEq] at h
      obtain ⟨rfl, rfl⟩ := h
      rcases hcase with hu | hu
      · rw [hu]
        refine ⟨sound_undefined fun hs => clean_newValue _ _ (H.clean hs o name w (.inr (ho.1 hs)) hres), rfl⟩
      · exact absurd hres (hu w)
    | error e' =>
      rw [hres] at h
      simp only at h
      split at h
      · rcases H.default with hd | hd
        · rw [hd] at h; simp at h
        · rw [hd] at h
          simp only [Prod.mk.injEq, Except.ok.injEq] at h
          obtain ⟨rfl, rfl⟩ := h
          exact ⟨sound_none, rfl⟩
      · simp at h

/-! ## Nodes -/

theorem Yields.pure {S : List Assignment} {P : Value → Prop} {v : Value} (h : P v) :
    Yields S P (Pure.pure v : M Value) := by
  intro s s' w hs hm
  rw [M.pure_eq_ok] at hm
  obtain ⟨rfl, rfl⟩ := hm
  exact ⟨h, hs⟩

theorem Yields.bind {S : List Assignment} {P Q : Value → Prop} {m : M Value} {f : Value → M Value}
    (hm : Yields S P m) (hf : ∀ v, P v → Yields S Q (f v)) : Yields S Q (m >>= f) := by
  intro s s' w hs h
  rw [M.bind_eq_ok] at h
  obtain ⟨v, s1, h1, h2⟩ := h
  obtain ⟨hv, hs1⟩ := hm s s1 v hs h1
  exact hf v hv s1 s' w hs1 h2

theorem Yields.throw {S : List Assignment} {P : Value → Prop} {e : Err} :
    Yields S P (M.throw e : M Value) := by
  intro s s' w hs h; simp at h

theorem Yields.ite {S : List Assignment} {P : Value → Prop} {p : Prop} [Decidable p] {m m' : M Value}
    (h : Yields S P m) (h' : Yields S P m') : Yields S P (if p then m else m') := by
  split <;> assumption

theorem Yields.lift {S : List Assignment} {P : Value → Prop} {x : Except Err Value}
    (h : ∀ v, x = .ok v → P v) : Yields S P (M.lift x) := by
  intro s s' w hs hm
  rw [M.lift_eq_ok] at hm
  obtain ⟨h1, rfl⟩ := hm
  exact ⟨h w h1, hs⟩

theorem Yields.lift_bind {α : Type} {S : List Assignment} {Q : Value → Prop} {x : Except Err α}
    {f : α → M Value} (hf : ∀ v, x = .ok v → Yields S Q (f v)) : Yields S Q (M.lift x >>= f) := by
  intro s s' w hs h
  simp only [M.bind_eq_ok, M.lift_eq_ok] at h
  obtain ⟨v, s1, ⟨h1, rfl⟩, h2⟩ := h
  exact hf v h1 s s' w hs h2

/-- constants evaluate alike everywhere -/
theorem yields_reduced {env : Env} {e : Expr} (he : e.reduced = true) {S S' : List Assignment}
    {dc dc' : DecCtx} {thing thing' : Value} {P : Value → Prop} (h : Yields S P (eval env dc thing e)) :
    Yields S' P (eval env dc' thing' e) := by
  obtain ⟨x, hx⟩ := reduced_const env e he
  rw [hx] at h ⊢
  refine Yields.lift fun v hv => ?_
  exact (h { St.init with scopes := S } { St.init with scopes := S } v rfl (by rw [hv]; rfl)).1

theorem rts_eq_map (es : List Expr) : Expr.rts es = es.map Expr.rt := by
  induction es with
  | nil => rfl
  | cons a t ih => simp [Expr.rts, ih]

theorem keyRts_eq_map (es : List (Expr × Expr)) : Expr.keyRts es = es.map (fun p => p.1.rt) := by
  induction es with
  | nil => rfl
  | cons a t ih => obtain ⟨k, v⟩ := a; simp [Expr.keyRts, ih]

theorem valRts_eq_map (es : List (Expr × Expr)) : Expr.valRts es = es.map (fun p => p.2.rt) := by
  induction es with
  | nil => rfl
  | cons a t ih => obtain ⟨k, v⟩ := a; simp [Expr.valRts, ih]

section
variable {env : Env} {dc : DecCtx} {thing : Value} {S : List Assignment}

theorem members_yield {es : List Expr} (h : ∀ e ∈ es, Yields S (Value.Sound env st e.rt) (eval env dc thing e)) :
    ∀ m ∈ evals env dc thing es, Yields S (Value.Sound env st (memberType (Expr.rts es))) m := by
  intro m hm
  rw [evals_eq_map] at hm
  obtain ⟨e, he, rfl⟩ := List.mem_map.1 hm
  refine (h e he).mono fun v hv => sound_member ?_ hv
  rw [rts_eq_map]
  exact List.mem_map.2 ⟨e, he, rfl⟩

theorem array_yields {es : List Expr} (h : ∀ e ∈ es, Yields S (Value.Sound env st e.rt) (eval env dc thing e)) :
    Yields S (Value.Sound env st (Expr.rt (.array es))) (eval env dc thing (.array es)) := by
  intro s s' v hs hm
  simp only [eval, M.bind_eq_ok, M.pure_eq_ok] at hm
  obtain ⟨vs, s1, h1, rfl, rfl⟩ := hm
  obtain ⟨hv, hs1⟩ := seqM_yields (members_yield h) hs h1
  refine ⟨⟨fun hst => ?_, .inr ⟨_, vs, rfl, fun x hx => ?_⟩⟩, hs1⟩
  · simp only [Value.Clean]
    rw [allClean_iff]
    exact fun x hx => (hv x hx).1 hst
  · exact (hv x hx).2.imp (fun h => ⟨rfl, h⟩) id

theorem set_yields {es : List Expr} (h : ∀ e ∈ es, Yields S (Value.Sound env st e.rt) (eval env dc thing e)) :
    Yields S (Value.Sound env st (Expr.rt (.set es))) (eval env dc thing (.set es)) := by
  intro s s' v hs hm
  simp only [eval, M.bind_eq_ok, M.pure_eq_ok] at hm
  obtain ⟨vs, s1, h1, rfl, rfl⟩ := hm
  obtain ⟨hv, hs1⟩ := setM_yields (members_yield h) (by simp) hs h1
  refine ⟨⟨fun hst => ?_, .inr ⟨vs, rfl, fun x hx => ?_⟩⟩, hs1⟩
  · simp only [Value.Clean]
    rw [allClean_iff]
    exact fun x hx => (hv x hx).1 hst
  · exact (hv x hx).2.imp (fun h => ⟨rfl, h⟩) id

theorem mapping_yields {es : List (Expr × Expr)}
    (h : ∀ p ∈ es, Yields S (Value.Sound env st p.1.rt) (eval env dc thing p.1) ∧
      Yields S (Value.Sound env st p.2.rt) (eval env dc thing p.2)) :
    Yields S (Value.Sound env st (Expr.rt (.mapping es))) (eval env dc thing (.mapping es)) := by
  intro s s' v hs hm
  simp only [eval, M.bind_eq_ok, M.pure_eq_ok] at hm
  obtain ⟨ks, s1, h1, vs, s2, h2, rfl, rfl⟩ := hm
  have hp : ∀ p ∈ evalPairs env dc thing es,
      Yields S (Value.Sound env st (memberType (Expr.keyRts es))) p.1 ∧
      Yields S (Value.Sound env st (memberType (Expr.valRts es))) p.2 := by
    intro p hp
    rw [evalPairs_eq_map] at hp
    obtain ⟨q, hq, rfl⟩ := List.mem_map.1 hp
    refine ⟨(h q hq).1.mono fun v hv => sound_member ?_ hv, (h q hq).2.mono fun v hv => sound_member ?_ hv⟩
    · rw [keyRts_eq_map]; exact List.mem_map.2 ⟨q, hq, rfl⟩
    · rw [valRts_eq_map]; exact List.mem_map.2 ⟨q, hq, rfl⟩
  obtain ⟨hk, hs1⟩ := mapKeysM_yields hp (by simp) hs h1
  obtain ⟨hv, hs2⟩ := mapValsM_yields (P := fun x : Value => x.keyable = true ∧
    x.Sound env st (memberType (Expr.keyRts es))) hk hs1 h2
  refine ⟨⟨fun hst => ?_, .inr ⟨_, vs, rfl, fun p hp => ⟨(hv p hp).1.2.2, ?_⟩⟩⟩, hs2⟩
  · simp only [Value.Clean]
    rw [pairsClean_iff]
    exact fun p hp => ⟨⟨(hv p hp).1.1, (hv p hp).1.2.1 hst⟩, (hv p hp).2.1 hst⟩
  · exact (hv p hp).2.2.imp (fun h => ⟨rfl, h⟩) id

theorem contains_yields {c m : Expr} {P Q : Value → Prop} (hc : Yields S P (eval env dc thing c))
    (hm : Yields S Q (eval env dc thing m)) :
    Yields S (Value.Sound env st .boolean) (eval env dc thing (.contains c m)) := by
  simp only [eval]
  exact hc.bind fun v hv => Yields.lift_bind fun t ht => hm.bind fun w hw =>
    Yields.lift_bind fun b hb => Yields.pure (sound_bool b)

theorem getAttr_yields {thing0 : Value} (H : env.Honest st A thing0) {x : Expr} {t : DataType}
    {name : String} {safe : Bool} (hA : A name) (hS : scopeLookup S name = none)
    (hx : Yields S (Value.Sound env st t) (eval env dc thing x)) :
    Yields S (Value.Sound env st (attrNodeType t name safe)) (eval env dc thing (.getAttr x name safe)) := by
  simp only [eval]
  refine hx.bind fun o ho => ?_
  split
  · exact Yields.pure sound_none
  · intro s s' v hs h
    have := evalGetAttr_sound H (safe := safe) hA ho (by rw [hs]; exact hS) h
    exact ⟨this.1, this.2.trans hs⟩

theorem getItem_yields {c i : Expr} {t : DataType} {safe : Bool} {Q : Value → Prop}
    (hc : Yields S (Value.Sound env st t) (eval env dc thing c))
    (hi : Yields S Q (eval env dc thing i)) :
    Yields S (Value.Sound env st (itemNodeType t)) (eval env dc thing (.getItem c i safe)) := by
  simp only [eval]
  refine hc.bind fun o ho => ?_
  split
  · exact (Yields.pure sound_none).ite Yields.throw
  · refine hi.bind fun w hw => Yields.lift_bind fun r hr => ?_
    cases r with
    | none => exact (Yields.pure sound_none).ite Yields.throw
    | some v => exact Yields.pure (sound_newValue (itemOf_sound ho (opGetItem_itemOf hr)))

theorem getSlice_yields {c a b : Expr} {t : DataType} {safe : Bool} {P Q : Value → Prop}
    (hc : Yields S (Value.Sound env st t) (eval env dc thing c))
    (ha : Yields S P (eval env dc thing a)) (hb : Yields S Q (eval env dc thing b)) :
    Yields S (Value.Sound env st (sliceNodeType t)) (eval env dc thing (.getSlice c a b safe)) := by
  simp only [eval]
  refine hc.bind fun o ho => ?_
  split
  · exact (Yields.pure sound_none).ite Yields.throw
  · simp only [evalSlice]
    exact ha.bind fun x hx => Yields.lift_bind fun x' hx' => hb.bind fun y hy =>
      Yields.lift_bind fun y' hy' => Yields.lift_bind fun v hv =>
      Yields.pure (sound_coerce (slice_sound ho hv))

theorem call_yields {thing0 : Value} (H : env.Honest st A thing0) {f : Expr} {args : List Expr}
    (hf : Yields S (Value.Sound env st f.rt) (eval env dc thing f))
    (ha : ∀ e ∈ args, Yields S (Value.Sound env st e.rt) (eval env dc thing e)) :
    Yields S (Value.Sound env st (callNodeType f.rt)) (eval env dc thing (.call f args)) := by
  simp only [eval]
  refine hf.bind fun fv hfv => ?_
  split
  · rename_i hcall
    intro s s' v hs h
    rw [M.bind_eq_ok] at h
    obtain ⟨vs, s1, h1, h2⟩ := h
    obtain ⟨hv, hs1⟩ := seqM_yields (members_yield ha) hs h1
    have := evalCall_sound H.noComplex H.keysOk hfv hcall (fun hst a ha => (hv a ha).1 hst) h2
    exact ⟨this.1, this.2.trans hs1⟩
  · exact Yields.throw

theorem comp_yields {result it cond : Expr} {var : String} {u : DataType} {C : Value → Prop}
    (hu : iterVarType it.rt = .ok u)
    (hit : Yields S (Value.Sound env st it.rt) (eval env dc thing it))
    (hc : ∀ x, Value.Sound env st u x → Yields (S ++ [⟨var, x, .undefined⟩]) C (eval env dc thing cond))
    (hr : ∀ x, Value.Sound env st u x →
      Yields (S ++ [⟨var, x, .undefined⟩]) (Value.Sound env st result.rt) (eval env dc thing result)) :
    Yields S (Value.Sound env st (.array result.rt true)) (eval env dc thing (.comp result var it cond)) := by
  simp only [eval]
  refine hit.bind fun iv hiv => Yields.lift_bind fun t ht => ?_
  split
  swap
  · exact Yields.throw
  refine Yields.lift_bind fun xs hxs => ?_
  intro s s' v hs h
  simp only [M.bind_eq_ok, M.pure_eq_ok] at h
  obtain ⟨vs, s1, h1, rfl, rfl⟩ := h
  obtain ⟨hv, hs1⟩ := compM_yields hc hr (members_sound hiv hu hxs) hs h1
  refine ⟨⟨fun hst => ?_, .inr ⟨_, vs, rfl, fun x hx => ?_⟩⟩, hs1⟩
  · simp only [Value.Clean]
    rw [allClean_iff]
    exact fun x hx => (hv x hx).1 hst
  · exact (hv x hx).2.imp (fun h => ⟨rfl, h⟩) id

theorem tern_yields {c t f : Expr} {C : Value → Prop} (hc : Yields S C (eval env dc thing c))
    (ht : Yields S (Value.Sound env st t.rt) (eval env dc thing t))
    (hf : Yields S (Value.Sound env st f.rt) (eval env dc thing f)) :
    Yields S (Value.Sound env st (ternNodeType t.rt f.rt)) (eval env dc thing (.tern c t f)) := by
  have hany : ∀ {t : DataType} {v : Value}, t.isArray = true → v.Sound env st t →
      v.Sound env st .anyArray := by
    intro t v hta hv
    refine ⟨hv.1, hv.2.imp id fun h => ?_⟩
    cases t <;> simp [DataType.isArray] at hta
    exact (members_any h).1 _ _ rfl
  have key : ∀ v : Value, (v.Sound env st t.rt ∨ v.Sound env st f.rt) →
      v.Sound env st (ternNodeType t.rt f.rt) := by
    intro v hv
    unfold ternNodeType
    split
    · rename_i he
      rcases hv with h | h
      · exact h
      · refine ⟨h.1, h.2.imp id (hasType_eq he v).2⟩
    · split
      · rename_i ha
        simp only [Bool.and_eq_true] at ha
        rcases hv with h | h
        · exact hany ha.1 h
        · exact hany ha.2 h
      · rcases hv with h | h <;> exact sound_undefined h.1
  simp only [eval]
  refine hc.bind fun v hv => Yields.ite (ht.mono fun v h => key v (.inl h)) (hf.mono fun v h => key v (.inr h))

end

/-! ## Folded constants -/

theorem ofValues_eq_map (off : TzDb) (xs : List Value) :
    Expr.ofValues off xs = xs.map (Expr.ofValue off) := by
  induction xs with
  | nil => rfl
  | cons a t ih => simp [Expr.ofValues, ih]

theorem ofPairs_eq_map (off : TzDb) (xs : List (Value × Value)) :
    Expr.ofPairs off xs = xs.map fun p => (Expr.ofValue off p.1, Expr.ofValue off p.2) := by
  induction xs with
  | nil => rfl
  | cons a t ih => obtain ⟨k, v⟩ := a; simp [Expr.ofPairs, ih]

section
variable {env : Env} {dc : DecCtx} {thing : Value} {S : List Assignment}

theorem lit_yields {v : Value} {t : DataType} (h : v.Sound env st t) :
    Yields S (Value.Sound env st t) (eval env dc thing (.lit v t)) := by
  simp only [eval]; exact Yields.pure h

theorem scalar_yields {v : Value} {t : DataType} (h : fromValue v = .ok t) (hc : st → v.Clean) :
    (coerce env.utcoffset v).Sound env st t :=
  sound_coerce ⟨hc, .inr (fromValue_hasType _ v t h)⟩

mutual
theorem ofValue_yields : ∀ (v : Value) (t : DataType), fromValue v = .ok t → (st → v.Clean) →
    Yields S (Value.Sound env st (Expr.ofValue env.utcoffset v).rt)
      (eval env dc thing (Expr.ofValue env.utcoffset v))
  | .seq k xs, t, h, hc => by
    simp only [fromValue, except_bind_ok] at h
    obtain ⟨ts, hts, -⟩ := h
    simp only [Expr.ofValue]
    refine array_yields ?_
    rw [ofValues_eq_map]
    intro e he
    obtain ⟨x, hx, rfl⟩ := List.mem_map.1 he
    exact ofValues_yields xs ts hts (fun hs => by simpa only [Value.Clean] using hc hs) x hx
  | .set xs, t, h, hc => by
    simp only [fromValue, except_bind_ok] at h
    obtain ⟨ts, hts, -⟩ := h
    simp only [Expr.ofValue]
    refine set_yields ?_
    rw [ofValues_eq_map]
    intro e he
    obtain ⟨x, hx, rfl⟩ := List.mem_map.1 he
    exact ofValues_yields xs ts hts (fun hs => by simpa only [Value.Clean] using hc hs) x hx
  | .map k kvs, t, h, hc => by
    simp only [fromValue, except_bind_ok] at h
    obtain ⟨ks, hks, vs, hvs, -⟩ := h
    simp only [Expr.ofValue]
    refine mapping_yields ?_
    rw [ofPairs_eq_map]
    intro e he
    obtain ⟨p, hp, rfl⟩ := List.mem_map.1 he
    exact ofPairs_yields kvs ks vs hks hvs (fun hs => by simpa only [Value.Clean] using hc hs) p hp
  | .none, t, h, hc | .bool _, t, h, hc | .int _, t, h, hc | .float _, t, h, hc | .dec _, t, h, hc
  | .str _, t, h, hc | .bytes _, t, h, hc | .date _, t, h, hc | .datetime .., t, h, hc
  | .timedelta _, t, h, hc | .builtinFn _, t, h, hc | .userFn _, t, h, hc | .method .., t, h, hc
  | .obj _, t, h, hc | .undef, t, h, hc => by
    simp only [Expr.ofValue, h, Expr.rt]
    exact lit_yields (scalar_yields h hc)
theorem ofValues_yields : ∀ (xs : List Value) (ts : List DataType), typesOf xs = .ok ts →
    (st → Value.AllClean xs) → ∀ x ∈ xs,
    Yields S (Value.Sound env st (Expr.ofValue env.utcoffset x).rt)
      (eval env dc thing (Expr.ofValue env.utcoffset x))
  | [], _, _, _, x, hx => by simp at hx
  | y :: ys, ts, h, hc, x, hx => by
    simp only [typesOf, except_bind_ok] at h
    obtain ⟨t, ht, us, hus, -⟩ := h
    rcases List.mem_cons.1 hx with h1 | h1
    · rw [h1]; exact ofValue_yields y t ht fun hs => (hc hs).1
    · exact ofValues_yields ys us hus (fun hs => (hc hs).2) x h1
theorem ofPairs_yields : ∀ (kvs : List (Value × Value)) (ks vs : List DataType),
    typesOfKeys kvs = .ok ks → typesOfVals kvs = .ok vs → (st → Value.PairsClean kvs) → ∀ p ∈ kvs,
    Yields S (Value.Sound env st (Expr.ofValue env.utcoffset p.1).rt)
      (eval env dc thing (Expr.ofValue env.utcoffset p.1)) ∧
    Yields S (Value.Sound env st (Expr.ofValue env.utcoffset p.2).rt)
      (eval env dc thing (Expr.ofValue env.utcoffset p.2))
  | [], _, _, _, _, _, x, hx => by simp at hx
  | (k, v) :: ys, ks, vs, hk, hv, hc, x, hx => by
    simp only [typesOfKeys, typesOfVals, except_bind_ok] at hk hv
    obtain ⟨t, ht, us, hus, -⟩ := hk
    obtain ⟨t', ht', us', hus', -⟩ := hv
    rcases List.mem_cons.1 hx with h1 | h1
    · rw [h1]
      exact ⟨ofValue_yields k t ht fun hs => (hc hs).2.1, ofValue_yields v t' ht' fun hs => (hc hs).2.2.1⟩
    · exact ofPairs_yields ys us us' hus hus' (fun hs => (hc hs).2.2.2) x h1
end

/-- a folded node -/
theorem folds_yields {dct : DecCtx} {Γ : List Assignment} {node e : Expr} {T : DataType}
    (hf : Folds env dct Γ node e) (hn : Yields Γ (Value.Sound env st T) (eval env dct .none node)) :
    Yields S (Value.Sound env st e.rt) (eval env dc thing e) := by
  obtain ⟨v, ⟨s, s', hs, hv⟩, hl⟩ := hf
  simp only [litOf, except_bind_ok, Except.ok.injEq] at hl
  obtain ⟨t, ht, rfl⟩ := hl
  exact ofValue_yields v t ht (hn s s' v hs hv).1.1

end

/-! ## Symbols -/

/-- the comprehension variables in scope at construction (`Γ`) and at evaluation (`S`) -/
def Consistent (env : Env) (st : Prop) (Γ S : List Assignment) : Prop :=
  List.Forall₂ (fun g a => g.name = a.name ∧ a.value.Sound env st g.type) Γ S

theorem consistent_lookup {env : Env} {Γ S : List Assignment} (h : Consistent env st Γ S) (name : String) :
    (scopeLookup Γ name = none ∧ scopeLookup S name = none) ∨
    ∃ g a, scopeLookup Γ name = some g ∧ scopeLookup S name = some a ∧ a.value.Sound env st g.type := by
  induction h with
  | nil => exact .inl ⟨rfl, rfl⟩
  | @cons g a Γ' S' h hs ih =>
    simp only [scopeLookup, List.find?_cons] at ih ⊢
    rw [h.1]
    by_cases hn : (a.name == name) = true
    · rw [hn]; exact .inr ⟨g, a, rfl, rfl, h.2⟩
    · simp only [Bool.not_eq_true] at hn
      rw [hn]; exact ih

theorem consistent_append {env : Env} {Γ S : List Assignment} (h : Consistent env st Γ S) {var : String}
    {x : Value} {t : DataType} (hx : x.Sound env st t) :
    Consistent env st (Γ ++ [⟨var, .undef, t⟩]) (S ++ [⟨var, x, .undefined⟩]) := by
  induction h with
  | nil => exact .cons ⟨rfl, hx⟩ .nil
  | cons h hs ih => exact .cons h ih

theorem consistent_names {env : Env} {Γ S : List Assignment} (h : Consistent env st Γ S) {name : String}
    (hn : scopeLookup Γ name = none) : scopeLookup S name = none := by
  rcases consistent_lookup h name with h | ⟨g, a, h1, h2, h3⟩
  · exact h.2
  · rw [hn] at h1; cases h1

theorem sym_yields {env : Env} {dc : DecCtx} {thing : Value} {Γ S : List Assignment}
    (H : env.Honest st A thing) (hc : Consistent env st Γ S) {name : String} {b : Bool} {t : DataType}
    (ht : symType env Γ name b = .ok t) :
    Yields S (Value.Sound env st t) (eval env dc thing (.sym name t b)) := by
  intro s s' v hs h
  simp only [eval, evalSymbol, M.bind_eq_ok, M.lift_eq_ok] at h
  obtain ⟨w, s1, h1, hck, rfl⟩ := h
  have hv := checkSymbol_ok hck
  unfold M.catchErr at h1
  -- the value found, or the default value
  rcases hr : ctxResolve env thing name b s with ⟨r, s2⟩
  rw [hr] at h1
  have hs2 : s2.scopes = s.scopes := by
    unfold ctxResolve at hr
    split at hr
    · split at hr <;> (cases hr; rfl)
    · split at hr <;> (cases hr; rfl)
  cases r with
  | error e =>
    rcases H.default with hd | hd
    · rw [hd] at h1
      cases hi : isSymErr e <;> simp [hi] at h1
    · rw [hd] at h1
      cases hi : isSymErr e <;> simp [hi] at h1
      obtain ⟨rfl, rfl⟩ := h1
      rw [hv]
      exact ⟨sound_none, hs2.trans hs⟩
  | ok a =>
    simp only [Prod.mk.injEq, Except.ok.injEq] at h1
    obtain ⟨rfl, rfl⟩ := h1
    refine ⟨?_, hs2.trans hs⟩
    unfold ctxResolve at hr
    unfold symType at ht
    split at hr
    · rename_i hb
      rw [if_pos hb] at ht
      cases ht
      split at hr
      · rename_i v0 hv0
        cases hr
        exact builtin_sound hv0 hck
      · cases hr
    · rename_i hb
      rw [if_neg hb] at ht
      rcases consistent_lookup hc name with ⟨h1, h2⟩ | ⟨g, x, h1, h2, hx⟩
      · rw [hs, h2] at hr
        rw [h1] at ht
        simp only [Prod.mk.injEq] at hr
        have hres := hr.1
        subst hv
        refine ⟨fun hst => clean_newValue _ _ (H.clean hst thing name a (.inl rfl) hres), ?_⟩
        rcases H.declared name t a ht hres with h | rfl | h
        · have := checkSymbol_sound hck env.Returns
          rwa [h] at this
        · exact .inl rfl
        · exact .inr (hasType_newValue _ _ _ _ h)
      · rw [hs, h2] at hr
        rw [h1] at ht
        simp only [Prod.mk.injEq, Except.ok.injEq] at hr ht
        obtain ⟨rfl, rfl⟩ := hr
        subst ht hv
        exact sound_newValue hx

/-! ## Rules -/

mutual
/-- Specification: a tree as the parser makes them, all of whose attributes are in `A` and none of
whose comprehension variables is. -/
def Raw.Sane (A : String → Prop) : Raw → Prop
  | .lit v => v.isToken = true
  | .floatLit _ | .datetimeLit _ | .timedeltaLit _ => True
  | .array xs => Raw.SaneList A xs
  | .set xs => Raw.SaneList A xs
  | .mapping kvs => Raw.SanePairs A kvs
  | .bin op l r => op.sane = true ∧ l.Sane A ∧ r.Sane A
  | .comp result var iterable cond => ¬A var ∧ result.Sane A ∧ iterable.Sane A ∧ cond.Sane A
  | .contains c m => c.Sane A ∧ m.Sane A
  | .getAttr o name _ => A name ∧ o.Sane A
  | .getItem c i _ => c.Sane A ∧ i.Sane A
  | .getSlice c a b _ => c.Sane A ∧ a.Sane A ∧ b.Sane A
  | .sym _ _ => True
  | .call f args => f.Sane A ∧ Raw.SaneList A args
  | .tern c t f => c.Sane A ∧ t.Sane A ∧ f.Sane A
  | .not e => e.Sane A
  | .neg e => e.Sane A
def Raw.SaneList (A : String → Prop) : List Raw → Prop
  | [] => True
  | x :: xs => x.Sane A ∧ Raw.SaneList A xs
def Raw.SanePairs (A : String → Prop) : List (Raw × Raw) → Prop
  | [] => True
  | (k, v) :: rest => k.Sane A ∧ v.Sane A ∧ Raw.SanePairs A rest
end

theorem token_sound {env : Env} {v : Value} {t : DataType} (hv : v.isToken = true)
    (h : fromValue v = .ok t) : v.Sound env st t :=
  ⟨fun _ => by cases v <;> simp [Value.isToken] at hv <;> trivial, .inr (fromValue_hasType _ v t h)⟩

theorem lookup_append {Γ : List Assignment} {name : String} {a : Assignment}
    (h : scopeLookup Γ name = none) (hn : a.name ≠ name) : scopeLookup (Γ ++ [a]) name = none := by
  simp only [scopeLookup, List.find?_append, List.find?_eq_none] at h ⊢
  simp only [Option.or_eq_none_iff, List.find?_eq_none, List.mem_singleton]
  refine ⟨h, ?_⟩
  rintro x rfl
  simpa using hn

theorem reducedList_mem {es : List Expr} (h : Expr.reducedList es = true) : ∀ e ∈ es, e.reduced = true := by
  induction es with
  | nil => simp
  | cons a t ih =>
    simp only [Expr.reducedList, Bool.and_eq_true] at h
    intro e he
    rcases List.mem_cons.1 he with rfl | he
    · exact h.1
    · exact ih h.2 e he

mutual
theorem built_sound {env : Env} {dct : DecCtx} {thing : Value} (H : env.Honest st A thing) :
    ∀ (raw : Raw) {Γ S : List Assignment} {e : Expr} (dc : DecCtx), raw.Sane A → Built env dct Γ raw e →
    Consistent env st Γ S → (∀ name, A name → scopeLookup Γ name = none) →
    Yields S (Value.Sound env st e.rt) (eval env dc thing e)
  | .lit v, Γ, S, e, dc, hsa, hb, hc, hA => by
    simp only [Built] at hb
    obtain ⟨t, ht, rfl⟩ := hb
    exact lit_yields (token_sound hsa ht)
  | .floatLit x, Γ, S, e, dc, hsa, hb, hc, hA => by
    simp only [Built] at hb
    obtain ⟨d, -, rfl⟩ := hb
    exact lit_yields ⟨fun _ => trivial, .inr (.inl ⟨_, rfl⟩)⟩
  | .datetimeLit x, Γ, S, e, dc, hsa, hb, hc, hA => by
    simp only [Built] at hb
    obtain ⟨d, hd, rfl⟩ := hb
    unfold parseDatetime at hd
    refine lit_yields ?_
    split at hd <;> cases hd <;> exact ⟨fun _ => trivial, .inr (.inl ⟨_, _, rfl⟩)⟩
  | .timedeltaLit x, Γ, S, e, dc, hsa, hb, hc, hA => by
    simp only [Built] at hb
    obtain ⟨d, -, rfl⟩ := hb
    exact lit_yields ⟨fun _ => trivial, .inr ⟨_, rfl⟩⟩
  | .array xs, Γ, S, e, dc, hsa, hb, hc, hA => by
    simp only [Built] at hb
    obtain ⟨es, hes, rfl⟩ := hb
    exact array_yields (builts_sound H xs dc hsa hes hc hA)
  | .set xs, Γ, S, e, dc, hsa, hb, hc, hA => by
    simp only [Built] at hb
    obtain ⟨es, hes, rfl⟩ := hb
    exact set_yields (builts_sound H xs dc hsa hes hc hA)
  | .mapping kvs, Γ, S, e, dc, hsa, hb, hc, hA => by
    simp only [Built] at hb
    obtain ⟨es, hes, -, rfl⟩ := hb
    exact mapping_yields (builtp_sound H kvs dc hsa hes hc hA)
  | .bin op l r, Γ, S, e, dc, hsa, hb, hc, hA => by
    simp only [Built] at hb
    obtain ⟨l', r', hl, hr, hck, he⟩ := hb
    simp only [Raw.Sane] at hsa
    have hl' := built_sound H l dc hsa.2.1 hl hc hA
    have hr' := built_sound H r dc hsa.2.2 hr hc hA
    have hacc : op.accepts l'.rt = true ∧ op.accepts r'.rt = true := by
      unfold BinOp.check at hck
      by_cases h : (op.accepts l'.rt && op.accepts r'.rt) = true
      · simpa using h
      · rw [if_neg h] at hck
        cases hck
    split at he
    · rename_i hred
      simp only [Bool.and_eq_true] at hred
      refine folds_yields (T := op.rt l'.rt r'.rt) he ?_
      simp only [eval]
      exact evalBin_yields H.noComplex hsa.1 hacc (yields_reduced hred.1 hl') (yields_reduced hred.2 hr')
    · rw [he]
      simp only [eval, Expr.rt]
      exact evalBin_yields H.noComplex hsa.1 hacc hl' hr'
  | .comp result var iterable cond, Γ, S, e, dc, hsa, hb, hc, hA => by
    simp only [Built] at hb
    obtain ⟨it, t, c, r, hit, ht, hcond, hres, rfl⟩ := hb
    simp only [Raw.Sane] at hsa
    have hA' : ∀ name, A name → scopeLookup (Γ ++ [⟨var, .undef, t⟩]) name = none := by
      intro name hn
      exact lookup_append (hA name hn) (by rintro rfl; exact hsa.1 hn)
    exact comp_yields ht (built_sound H iterable dc hsa.2.2.1 hit hc hA)
      (fun x hx => built_sound H cond dc hsa.2.2.2 hcond (consistent_append hc hx) hA')
      (fun x hx => built_sound H result dc hsa.2.1 hres (consistent_append hc hx) hA')
  | .contains c m, Γ, S, e, dc, hsa, hb, hc, hA => by
    simp only [Built] at hb
    obtain ⟨c', m', hc', hm', -, he⟩ := hb
    simp only [Raw.Sane] at hsa
    have h1 := built_sound H c dc hsa.1 hc' hc hA
    have h2 := built_sound H m dc hsa.2 hm' hc hA
    split at he
    · rename_i hred
      simp only [Bool.and_eq_true] at hred
      obtain ⟨v, ⟨s, s', hs, hv⟩, rfl⟩ := he
      exact lit_yields (contains_yields (yields_reduced hred.1 h1) (yields_reduced hred.2 h2) s s' v hs hv).1
    · rw [he]; exact contains_yields h1 h2
  | .getAttr o name safe, Γ, S, e, dc, hsa, hb, hc, hA => by
    simp only [Built] at hb
    obtain ⟨o', ho, -, he⟩ := hb
    simp only [Raw.Sane] at hsa
    have h1 := built_sound H o dc hsa.2 ho hc hA
    split at he
    · rename_i hred
      obtain ⟨e', hf, rfl⟩ := he
      have hnode := getAttr_yields (safe := safe) (dc := dct) (thing := .none) H hsa.1 (hA name hsa.1)
        (yields_reduced hred h1)
      have hy := folds_yields (S := S) (dc := dc) (thing := thing) hf hnode
      obtain ⟨v, ⟨s, s', hs, hv⟩, hl⟩ := hf
      have hvs := (hnode s s' v hs hv).1
      unfold attrLit
      split
      · rename_i w n r a m
        split
        · simp only [litOf, except_bind_ok, Except.ok.injEq] at hl
          obtain ⟨t, ht, hl⟩ := hl
          have hw : w = coerce env.utcoffset v := by
            cases v <;> simp only [Expr.ofValue, Expr.lit.injEq] at hl <;>
              first | exact hl.1.symm | (cases hl; done)
          rw [hw]
          exact lit_yields (sound_coerce hvs)
        · exact hy
      · exact hy
    · rw [he]; exact getAttr_yields H hsa.1 (consistent_names hc (hA name hsa.1)) h1
  | .getItem c i safe, Γ, S, e, dc, hsa, hb, hc, hA => by
    simp only [Built] at hb
    obtain ⟨c', i', hc', hi', -, he⟩ := hb
    simp only [Raw.Sane] at hsa
    have h1 := built_sound H c dc hsa.1 hc' hc hA
    have h2 := built_sound H i dc hsa.2 hi' hc hA
    split at he
    · rw [he]; exact lit_yields sound_none
    split at he
    · rename_i hred
      simp only [Bool.and_eq_true] at hred
      exact folds_yields he (getItem_yields (yields_reduced hred.1 h1) (yields_reduced hred.2 h2))
    · rw [he]; exact getItem_yields h1 h2
  | .getSlice c a b safe, Γ, S, e, dc, hsa, hb, hc, hA => by
    simp only [Built] at hb
    obtain ⟨c', a', b', hc', ha', hb', -, he⟩ := hb
    simp only [Raw.Sane] at hsa
    have h1 := built_sound H c dc hsa.1 hc' hc hA
    have h2 := built_sound H a dc hsa.2.1 ha' hc hA
    have h3 := built_sound H b dc hsa.2.2 hb' hc hA
    split at he
    · rename_i hred
      simp only [Bool.and_eq_true] at hred
      exact folds_yields he (getSlice_yields (yields_reduced hred.1.1 h1) (yields_reduced hred.1.2 h2)
        (yields_reduced hred.2 h3))
    · rw [he]; exact getSlice_yields h1 h2 h3
  | .sym name b, Γ, S, e, dc, hsa, hb, hc, hA => by
    simp only [Built] at hb
    obtain ⟨t, ht, rfl⟩ := hb
    exact sym_yields H hc ht
  | .call f args, Γ, S, e, dc, hsa, hb, hc, hA => by
    simp only [Built] at hb
    obtain ⟨f', as, hf, has, -, he⟩ := hb
    simp only [Raw.Sane] at hsa
    have h1 := built_sound H f dc hsa.1 hf hc hA
    have h2 := builts_sound H args dc hsa.2 has hc hA
    split at he
    · rename_i hred
      simp only [Bool.and_eq_true] at hred
      exact folds_yields he (call_yields H (yields_reduced hred.1 h1)
        fun e he => yields_reduced (reducedList_mem hred.2 e he) (h2 e he))
    · rw [he]; exact call_yields H h1 h2
  | .tern c t f, Γ, S, e, dc, hsa, hb, hc, hA => by
    simp only [Built] at hb
    obtain ⟨c', t', f', hc', ht', hf', rfl⟩ := hb
    simp only [Raw.Sane] at hsa
    have h1 := built_sound H c dc hsa.1 hc' hc hA
    have h2 := built_sound H t dc hsa.2.1 ht' hc hA
    have h3 := built_sound H f dc hsa.2.2 hf' hc hA
    unfold mkTern
    split
    · split
      · exact h2
      · exact h3
    · exact tern_yields h1 h2 h3
  | .not x, Γ, S, e, dc, hsa, hb, hc, hA => by
    simp only [Built] at hb
    obtain ⟨x', hx, he⟩ := hb
    have h1 := built_sound H x dc hsa hx hc hA
    have hn : ∀ {S : List Assignment} {dc : DecCtx} {thing : Value},
        Yields S (Value.Sound env st x'.rt) (eval env dc thing x') →
        Yields S (Value.Sound env st .boolean) (eval env dc thing (.not x')) := by
      intro S dc thing h
      simp only [eval]
      exact h.bind fun v hv => Yields.pure (sound_bool _)
    split at he
    · rename_i hred
      obtain ⟨v, ⟨s, s', hs, hv⟩, rfl⟩ := he
      exact lit_yields (hn (yields_reduced hred h1) s s' v hs hv).1
    · rw [he]; exact hn h1
  | .neg x, Γ, S, e, dc, hsa, hb, hc, hA => by
    simp only [Built] at hb
    obtain ⟨x', hx, he⟩ := hb
    have h1 := built_sound H x dc hsa hx hc hA
    have hn : ∀ {S : List Assignment} {dc : DecCtx} {thing : Value},
        Yields S (Value.Sound env st x'.rt) (eval env dc thing x') →
        Yields S (Value.Sound env st x'.rt) (eval env dc thing (.neg x')) := by
      intro S dc thing h
      simp only [eval]
      exact h.bind fun v hv => Yields.lift fun w hw => opNeg_sound hv hw
    split at he
    · rename_i hred
      obtain ⟨w, v, t, rfl, -, ⟨s, s', hs, hv⟩, rfl⟩ := he
      exact lit_yields (hn (yields_reduced hred h1) s s' v hs hv).1
    · rw [he]; exact hn h1
theorem builts_sound {env : Env} {dct : DecCtx} {thing : Value} (H : env.Honest st A thing) :
    ∀ (raws : List Raw) {Γ S : List Assignment} {es : List Expr} (dc : DecCtx), Raw.SaneList A raws →
    BuiltList env dct Γ raws es →
    Consistent env st Γ S → (∀ name, A name → scopeLookup Γ name = none) →
    ∀ e ∈ es, Yields S (Value.Sound env st e.rt) (eval env dc thing e)
  | [], Γ, S, es, dc, hsa, hb, hc, hA => by
    simp only [BuiltList] at hb
    subst hb; simp
  | x :: xs, Γ, S, es, dc, hsa, hb, hc, hA => by
    simp only [BuiltList] at hb
    obtain ⟨e, es', he, hes, rfl⟩ := hb
    simp only [Raw.SaneList] at hsa
    intro e' he'
    rcases List.mem_cons.1 he' with h | h
    · rw [h]; exact built_sound H x dc hsa.1 he hc hA
    · exact builts_sound H xs dc hsa.2 hes hc hA e' h
theorem builtp_sound {env : Env} {dct : DecCtx} {thing : Value} (H : env.Honest st A thing) :
    ∀ (raws : List (Raw × Raw)) {Γ S : List Assignment} {es : List (Expr × Expr)} (dc : DecCtx),
    Raw.SanePairs A raws → BuiltPairs env dct Γ raws es →
    Consistent env st Γ S → (∀ name, A name → scopeLookup Γ name = none) →
    ∀ p ∈ es, Yields S (Value.Sound env st p.1.rt) (eval env dc thing p.1) ∧
      Yields S (Value.Sound env st p.2.rt) (eval env dc thing p.2)
  | [], Γ, S, es, dc, hsa, hb, hc, hA => by
    simp only [BuiltPairs] at hb
    subst hb; simp
  | (k, v) :: xs, Γ, S, es, dc, hsa, hb, hc, hA => by
    simp only [BuiltPairs] at hb
    obtain ⟨k', v', es', hk, hv, hes, rfl⟩ := hb
    simp only [Raw.SanePairs] at hsa
    intro p hp
    rcases List.mem_cons.1 hp with h | h
    · rw [h]
      exact ⟨built_sound H k dc hsa.1 hk hc hA, built_sound H v dc hsa.2.1 hv hc hA⟩
    · exact builtp_sound H xs dc hsa.2.2 hes hc hA p h
end

/-! ## C08 -/

/-- C08 (partial): if a rule was accepted with static type `e.rt` and evaluation returns a value, that
value is null or a value of the static type, recursively for member types.  This needs an honest
embedding program (`Env.Honest`: no default value other than null; types the engine checks only in
part declared truthfully; no attributes of null or of unsupported objects under the names of builtin
attributes; no complex numbers), and that no comprehension variable has the name of an attribute that
the rule accesses.  `type_soundness_false` shows that without these the property fails. -/
theorem type_soundness_partial (env : Env) (st : Prop) (A : String → Prop) (dct : DecCtx) (raw : Raw)
    (thing : Value) (H : env.Honest st A thing) (hsane : raw.Sane A) (s s1 : St) (hs : s.scopes = [])
    (e : Expr) (hb : construct env dct raw s = (.ok e, s1)) (s2 s3 : St) (v : Value)
    (hv : ruleEval env e thing s2 = (.ok v, s3)) : v = .none ∨ v.HasType env.Returns e.rt := by
  have hbt := build_built raw hb
  rw [hs] at hbt
  exact (built_sound H raw env.decCtx hsane hbt .nil (fun _ _ => rfl) s2.reset s3 v rfl hv).1.2

theorem clean_resolveItem {off : TzDb} {o v : Value} {name : String} (ho : o.Clean)
    (h : resolveItem off o name = .ok v) : v.Clean := by
  unfold resolveItem at h
  split at h
  · rename_i k kvs
    simp only [Value.Clean] at ho
    rw [pairsClean_iff] at ho
    split at h
    · rename_i w hw
      cases h
      obtain ⟨q, hq, rfl⟩ := mapLookup_mem hw
      exact (ho _ hq).2
    · split at h <;> cases h
  · cases h

/-- Specification: a type of which the engine verifies every part when a symbol is resolved. -/
def DataType.Verifiable : DataType → Prop
  | .array .undefined n => n = true
  | .set .undefined n => n = true
  | .mapping k _ n => k = .undefined ∧ n = true
  | .function _ r _ _ => r = .undefined
  | _ => True

theorem verified_of_verifiable {t : DataType} (h : t.Verifiable) : t.verified = t := by
  cases t with
  | array m n =>
    cases m <;> simp_all [DataType.Verifiable, DataType.verified, DataType.anyArray]
  | set m n =>
    cases m <;> simp_all [DataType.Verifiable, DataType.verified, DataType.anySet]
  | mapping k m n => obtain ⟨rfl, rfl⟩ := h; rfl
  | function n r as m => have h : r = .undefined := h; subst h; rfl
  | _ => rfl

/-- C08 for the default resolver: a rule over a dictionary without foreign objects, with any declared
types that the engine verifies completely. -/
theorem type_soundness_dict_partial (env : Env) (A : String → Prop) (dct : DecCtx) (raw : Raw)
    (thing : Value) (hres : env.resolver = resolveItem env.utcoffset) (hclean : thing.Clean)
    (hdef : env.defaultValue = none ∨ env.defaultValue = some .none)
    (htypes : ∀ name T, env.typeResolver name = .ok T → T.Verifiable)
    (hn : env.NoComplex) (hk : env.KeysOk) (hsane : raw.Sane A)
    (s s1 : St) (hs : s.scopes = [])
    (e : Expr) (hb : construct env dct raw s = (.ok e, s1)) (s2 s3 : St) (v : Value)
    (hv : ruleEval env e thing s2 = (.ok v, s3)) : v = .none ∨ v.HasType env.Returns e.rt := by
  refine type_soundness_partial env True A dct raw thing ?_ hsane s s1 hs e hb s2 s3 v hv
  refine ⟨hn, fun _ => hk, hdef, ?_, ?_, ?_, fun h => (h trivial).elim⟩
  · intro _ o name v ho h
    rw [hres] at h
    rcases ho with rfl | ho
    · exact clean_resolveItem hclean h
    · exact clean_resolveItem ho h
  · exact fun name T v hT _ => .inl (verified_of_verifiable (htypes name T hT))
  · intro name _ k _ v h
    rw [hres] at h
    simp [resolveItem] at h

/-- the static type of a rule and the value it evaluates to, in fresh thread storage -/
def runTyped (env : Env) (raw : Raw) (thing : Value) : Except Err (DataType × Value) :=
  match construct env env.decCtx raw St.init with
  | (.ok e, s) => (ruleEval env e thing s).1.map fun v => (e.rt, v)
  | (.error e, _) => .error e

/-- C08, negative: without the hypotheses the property fails. -/
theorem type_soundness_false :
    -- a default value is used for attributes of null, whatever the attribute's type
    runTyped { typedEnv [("x", .string)] with defaultValue := some (.str "d") }
        (.getAttr (.sym "x" false) "length" false) (dictOf [("x", .none)]) = .ok (.float, .str "d") ∧
    -- `[x.length for length in ["a"]]` with x null
    runTyped (typedEnv [("x", .string)])
        (.comp (.getAttr (.sym "x" false) "length" false) "length" (.array [.lit (.str "a")]) (.lit (.bool true)))
        (dictOf [("x", .none)]) = .ok (.array .float true, .tuple [.str "a"]) ∧
    -- `m` declared MAPPING of STRING, with keys of several types
    runTyped (typedEnv [("m", .mapping .string .undefined true)])
        (.sym "m" false) (dictOf [("m", .map .dict [(.str "a", .int 1), (.bool true, .int 2)])]) =
      .ok (.mapping .string .undefined true,
        .map .ordered [(.str "a", .dec (.fin false 1 0)), (.bool true, .dec (.fin false 2 0))]) ∧
    -- `f(y)` with f declared to return ARRAY of FLOAT: the identity, called with a mixed array
    runTyped (typedEnv [("f", .function "f" (.array .float true) none none), ("y", .undefined)])
        (.call (.sym "f" false) [.sym "y" false])
        (dictOf [("f", .userFn 0), ("y", .seq .list [.int 1, .str "a"])]) =
      .ok (.array .float true, .tuple [.dec (.fin false 1 0), .str "a"]) ∧
    -- `{"length": y}.length` with y an object of a class the engine does not know
    runTyped sampleEnv (.getAttr (.mapping [(.lit (.str "length"), .sym "y" false)]) "length" false)
        (dictOf [("y", .obj 7)]) = .ok (.float, .obj 7) ∧
    -- none of these values is null or has the type
    ¬(Value.str "d").Is .float ∧ ¬(Value.tuple [.str "a"]).Is (.array .float true) ∧
    ¬(Value.map .ordered [(.str "a", .dec (.fin false 1 0)), (.bool true, .dec (.fin false 2 0))]).Is
      (.mapping .string .undefined true) ∧
    ¬(Value.tuple [.dec (.fin false 1 0), .str "a"]).Is (.array .float true) ∧
    ¬(Value.obj 7).Is .float := by
  refine ⟨by decide +kernel, by decide +kernel, by decide +kernel, by decide +kernel, by decide +kernel,
    ?_, ?_, ?_, ?_, ?_⟩ <;>
    simp [Value.Is, Value.HasType, Value.tuple]
  exact ⟨.bool true, ⟨_, .inr ⟨rfl, rfl⟩⟩, by simp⟩

/-- A rule that meets the hypotheses: `[x + 1 for x in xs if x > 1]` over `{"xs": [1, 2, 3]}`. -/
def soundSample : Raw :=
  .comp (.bin .add (.sym "x" false) (.floatLit "1")) "x" (.sym "xs" false)
    (.bin (.cmp .gt) (.sym "x" false) (.floatLit "1"))

example : runTyped (typedEnv [("xs", .array .float true)]) soundSample
    (dictOf [("xs", .seq .list [.int 1, .int 2, .int 3])]) =
    .ok (.array .float true, .tuple [.dec (.fin false 3 0), .dec (.fin false 4 0)]) := by decide +kernel

example : let env := typedEnv [("xs", .array .float true)]
    let thing := dictOf [("xs", .seq .list [.int 1, .int 2, .int 3])]
    env.resolver = resolveItem env.utcoffset ∧ thing.Clean ∧
    (env.defaultValue = none ∨ env.defaultValue = some .none) ∧
    (∀ name T, env.typeResolver name = .ok T → T.Verifiable) ∧ env.NoComplex ∧
    soundSample.Sane (fun name => name = "length") := by
  refine ⟨rfl, ?_, .inl rfl, ?_, ?_, ?_⟩
  · simp [dictOf, Value.Clean, Value.PairsClean, Value.AllClean, Value.keyable]
  · intro name T h
    simp only [typedEnv, typeResolverFromDict, List.find?_cons, List.find?_nil] at h
    split at h
    · rename_i p hp
      split at hp
      · cases hp; cases h; trivial
      · cases hp
    · cases h
  · intro op a b i h
    simp [typedEnv, sampleEnv] at h
  · simp [soundSample, Raw.Sane, Value.isToken, BinOp.sane]

end RE
