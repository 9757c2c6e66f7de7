import Verif.Props.TypeSound

/-!
# Type soundness (C08)
-/

set_option linter.unusedSimpArgs false
set_option linter.unusedVariables false
set_option linter.unusedTactic false

namespace RE

/-! ## Clean values -/

/-- neither a set nor a dictionary -/
def Value.keyable : Value → Bool
  | .set _ | .map .. => false
  | _ => true

mutual
/-- Specification: no foreign objects anywhere, and no dictionary with a set or a dictionary as a key
(which Python does not allow anyway). -/
def Value.Clean : Value → Prop
  | .obj _ => False
  | .undef => False
  | .seq _ xs => Value.AllClean xs
  | .set xs => Value.AllClean xs
  | .map _ kvs => Value.PairsClean kvs
  | _ => True
def Value.AllClean : List Value → Prop
  | [] => True
  | x :: xs => x.Clean ∧ Value.AllClean xs
def Value.PairsClean : List (Value × Value) → Prop
  | [] => True
  | (k, v) :: rest => k.keyable = true ∧ k.Clean ∧ v.Clean ∧ Value.PairsClean rest
end

mutual
/-- Specification: no dictionary with a set or a dictionary as a key. -/
def Value.KeysOk : Value → Prop
  | .seq _ xs => Value.AllKeysOk xs
  | .set xs => Value.AllKeysOk xs
  | .map _ kvs => Value.PairsKeysOk kvs
  | _ => True
def Value.AllKeysOk : List Value → Prop
  | [] => True
  | x :: xs => x.KeysOk ∧ Value.AllKeysOk xs
def Value.PairsKeysOk : List (Value × Value) → Prop
  | [] => True
  | (k, v) :: rest => k.keyable = true ∧ k.KeysOk ∧ v.KeysOk ∧ Value.PairsKeysOk rest
end

theorem allClean_iff {xs : List Value} : Value.AllClean xs ↔ ∀ x ∈ xs, x.Clean := by
  induction xs with
  | nil => simp [Value.AllClean]
  | cons a t ih => simp [Value.AllClean, ih]

theorem pairsClean_iff {kvs : List (Value × Value)} : Value.PairsClean kvs ↔
    ∀ p ∈ kvs, (p.1.keyable = true ∧ p.1.Clean) ∧ p.2.Clean := by
  induction kvs with
  | nil => simp [Value.PairsClean]
  | cons a t ih => obtain ⟨k, v⟩ := a; simp [Value.PairsClean, ih, and_assoc]

theorem allKeysOk_iff {xs : List Value} : Value.AllKeysOk xs ↔ ∀ x ∈ xs, x.KeysOk := by
  induction xs with
  | nil => simp [Value.AllKeysOk]
  | cons a t ih => simp [Value.AllKeysOk, ih]

theorem pairsKeysOk_iff {kvs : List (Value × Value)} : Value.PairsKeysOk kvs ↔
    ∀ p ∈ kvs, (p.1.keyable = true ∧ p.1.KeysOk) ∧ p.2.KeysOk := by
  induction kvs with
  | nil => simp [Value.PairsKeysOk]
  | cons a t ih => obtain ⟨k, v⟩ := a; simp [Value.PairsKeysOk, ih, and_assoc]

mutual
theorem clean_keysOk : ∀ v : Value, v.Clean → v.KeysOk
  | .seq _ xs, h => by
    simp only [Value.Clean, Value.KeysOk] at h ⊢; exact cleans_keysOk xs h
  | .set xs, h => by
    simp only [Value.Clean, Value.KeysOk] at h ⊢; exact cleans_keysOk xs h
  | .map _ kvs, h => by
    simp only [Value.Clean, Value.KeysOk] at h ⊢; exact cleanp_keysOk kvs h
  | .none, _ | .bool _, _ | .int _, _ | .float _, _ | .dec _, _ | .str _, _ | .bytes _, _
  | .date _, _ | .datetime .., _ | .timedelta _, _ | .builtinFn _, _ | .userFn _, _ | .method .., _
  | .obj _, _ | .undef, _ => by simp [Value.KeysOk]
theorem cleans_keysOk : ∀ xs : List Value, Value.AllClean xs → Value.AllKeysOk xs
  | [], _ => trivial
  | x :: xs, h => ⟨clean_keysOk x h.1, cleans_keysOk xs h.2⟩
theorem cleanp_keysOk : ∀ kvs : List (Value × Value), Value.PairsClean kvs → Value.PairsKeysOk kvs
  | [], _ => trivial
  | (k, v) :: kvs, h => ⟨h.1, clean_keysOk k h.2.1, clean_keysOk v h.2.2.1, cleanp_keysOk kvs h.2.2.2⟩
end

mutual
theorem clean_of_type : ∀ (v : Value) (t : DataType), v.KeysOk → fromValue v = .ok t → v.Clean
  | .seq _ xs, t, hk, h => by
    simp only [fromValue, except_bind_ok] at h
    obtain ⟨ts, hts, -⟩ := h
    simp only [Value.KeysOk, Value.Clean] at hk ⊢
    exact cleans_of_type xs ts hk hts
  | .set xs, t, hk, h => by
    simp only [fromValue, except_bind_ok] at h
    obtain ⟨ts, hts, -⟩ := h
    simp only [Value.KeysOk, Value.Clean] at hk ⊢
    exact cleans_of_type xs ts hk hts
  | .map _ kvs, t, hk, h => by
    simp only [fromValue, except_bind_ok] at h
    obtain ⟨ks, hks, vs, hvs, -⟩ := h
    simp only [Value.KeysOk, Value.Clean] at hk ⊢
    exact cleanp_of_type kvs ks vs hk hks hvs
  | .none, _, _, _ | .bool _, _, _, _ | .int _, _, _, _ | .float _, _, _, _ | .dec _, _, _, _
  | .str _, _, _, _ | .bytes _, _, _, _ | .date _, _, _, _ | .datetime .., _, _, _
  | .timedelta _, _, _, _ | .builtinFn _, _, _, _ | .userFn _, _, _, _ | .method .., _, _, _ => by
    simp [Value.Clean]
  | .obj _, _, _, h | .undef, _, _, h => by simp [fromValue] at h
theorem cleans_of_type : ∀ (xs : List Value) (ts : List DataType), Value.AllKeysOk xs →
    typesOf xs = .ok ts → Value.AllClean xs
  | [], _, _, _ => trivial
  | x :: xs, ts, hk, h => by
    simp only [typesOf, except_bind_ok] at h
    obtain ⟨t, ht, us, hus, -⟩ := h
    exact ⟨clean_of_type x t hk.1 ht, cleans_of_type xs us hk.2 hus⟩
theorem cleanp_of_type : ∀ (kvs : List (Value × Value)) (ks vs : List DataType), Value.PairsKeysOk kvs →
    typesOfKeys kvs = .ok ks → typesOfVals kvs = .ok vs → Value.PairsClean kvs
  | [], _, _, _, _, _ => trivial
  | (k, v) :: kvs, ks, vs, hk, h1, h2 => by
    simp only [typesOfKeys, typesOfVals, except_bind_ok] at h1 h2
    obtain ⟨t, ht, us, hus, -⟩ := h1
    obtain ⟨t', ht', us', hus', -⟩ := h2
    exact ⟨hk.1, clean_of_type k t hk.2.1 ht, clean_of_type v t' hk.2.2.1 ht',
      cleanp_of_type kvs us us' hk.2.2.2 hus hus'⟩
end

theorem keyable_type {v : Value} {t : DataType} (hv : v.keyable = true) (h : fromValue v = .ok t) :
    (t.isCompound && !t.isArray) = false := by
  cases v
  case set => simp [Value.keyable] at hv
  case map => simp [Value.keyable] at hv
  case seq k xs =>
    simp only [fromValue, except_bind_ok, Except.ok.injEq] at h
    obtain ⟨_, _, rfl⟩ := h
    rfl
  all_goals
    simp only [fromValue, Except.ok.injEq, reduceCtorEq] at h
    try (subst h; rfl)

mutual
theorem clean_typed : ∀ v : Value, v.Clean → ∃ t, fromValue v = .ok t
  | .none, _ | .bool _, _ | .int _, _ | .float _, _ | .dec _, _ | .str _, _ | .bytes _, _
  | .date _, _ | .datetime .., _ | .timedelta _, _ | .builtinFn _, _ | .userFn _, _
  | .method .., _ => ⟨_, rfl⟩
  | .obj _, h => absurd h (by simp [Value.Clean])
  | .undef, h => absurd h (by simp [Value.Clean])
  | .seq _ xs, h => by
    obtain ⟨ts, hts⟩ := cleans_typed xs (by simpa [Value.Clean] using h)
    exact ⟨_, by simp only [fromValue, hts]; rfl⟩
  | .set xs, h => by
    obtain ⟨ts, hts⟩ := cleans_typed xs (by simpa [Value.Clean] using h)
    exact ⟨_, by simp only [fromValue, hts]; rfl⟩
  | .map _ kvs, h => by
    obtain ⟨ks, vs, hks, hvs, hk⟩ := cleanp_typed kvs (by simpa [Value.Clean] using h)
    refine ⟨.mapping (memberType ks) (memberType vs) true, ?_⟩
    simp only [fromValue, hks, hvs]
    show mkMappingType _ _ _ = _
    unfold mkMappingType
    rw [if_neg]
    rcases memberType_eq_or ks with h | h
    · rw [h]; decide
    · simp [hk _ h]
theorem cleans_typed : ∀ xs : List Value, Value.AllClean xs → ∃ ts, typesOf xs = .ok ts
  | [], _ => ⟨[], rfl⟩
  | x :: xs, h => by
    obtain ⟨h1, h2⟩ := h
    obtain ⟨t, ht⟩ := clean_typed x h1
    obtain ⟨ts, hts⟩ := cleans_typed xs h2
    exact ⟨t :: ts, by simp only [typesOf, ht, hts]; rfl⟩
theorem cleanp_typed : ∀ kvs : List (Value × Value), Value.PairsClean kvs →
    ∃ ks vs, typesOfKeys kvs = .ok ks ∧ typesOfVals kvs = .ok vs ∧
      ∀ t ∈ ks, (t.isCompound && !t.isArray) = false
  | [], _ => ⟨[], [], rfl, rfl, by simp⟩
  | (k, v) :: rest, h => by
    obtain ⟨h0, h1, h2, h3⟩ := h
    obtain ⟨t, ht⟩ := clean_typed k h1
    obtain ⟨u, hu⟩ := clean_typed v h2
    obtain ⟨ks, vs, hks, hvs, hk⟩ := cleanp_typed rest h3
    refine ⟨t :: ks, u :: vs, by simp only [typesOfKeys, ht, hks]; rfl,
      by simp only [typesOfVals, hu, hvs]; rfl, ?_⟩
    intro t' ht'
    rcases List.mem_cons.1 ht' with rfl | h
    · exact keyable_type h0 ht
    · exact hk _ h
end

theorem keyable_coerce (off : TzDb) (v : Value) : (coerce off v).keyable = v.keyable := by
  cases v <;> rfl

mutual
theorem keysOk_coerce (off : TzDb) : ∀ v : Value, v.KeysOk → (coerce off v).KeysOk
  | .seq _ xs, h => by
    simp only [coerce, Value.KeysOk] at h ⊢; exact keysOks_coerce off xs h
  | .set xs, h => by simpa only [coerce] using h
  | .map _ kvs, h => by
    simp only [coerce, Value.KeysOk] at h ⊢
    have := keysOkp_coerce off kvs h
    rw [pairsKeysOk_iff] at this ⊢
    exact mapFold_parts off (P := fun x : Value => x.keyable = true ∧ x.KeysOk)
      (Q := fun x : Value => x.KeysOk) _ [] this (by simp)
  | .none, _ | .bool _, _ | .int _, _ | .float _, _ | .dec _, _ | .str _, _ | .bytes _, _
  | .date _, _ | .datetime .., _ | .timedelta _, _ | .builtinFn _, _ | .userFn _, _ | .method .., _
  | .obj _, _ | .undef, _ => by simp [coerce, Value.KeysOk]
theorem keysOks_coerce (off : TzDb) : ∀ xs : List Value, Value.AllKeysOk xs →
    Value.AllKeysOk (coerceList off xs)
  | [], _ => trivial
  | x :: xs, h => ⟨keysOk_coerce off x h.1, keysOks_coerce off xs h.2⟩
theorem keysOkp_coerce (off : TzDb) : ∀ kvs : List (Value × Value), Value.PairsKeysOk kvs →
    Value.PairsKeysOk (coercePairs off kvs)
  | [], _ => trivial
  | (k, v) :: kvs, h => ⟨(keyable_coerce off k).trans h.1, keysOk_coerce off k h.2.1,
      keysOk_coerce off v h.2.2.1, keysOkp_coerce off kvs h.2.2.2⟩
end

mutual
theorem clean_coerce (off : TzDb) : ∀ v : Value, v.Clean → (coerce off v).Clean
  | .seq _ xs, h => by
    simp only [coerce, Value.Clean] at h ⊢; exact cleans_coerce off xs h
  | .set xs, h => by simpa only [coerce] using h
  | .map _ kvs, h => by
    simp only [coerce, Value.Clean] at h ⊢
    have := cleanp_coerce off kvs h
    rw [pairsClean_iff] at this ⊢
    exact mapFold_parts off (P := fun x : Value => x.keyable = true ∧ x.Clean)
      (Q := fun x : Value => x.Clean) _ [] this (by simp)
  | .none, _ | .bool _, _ | .int _, _ | .float _, _ | .dec _, _ | .str _, _ | .bytes _, _
  | .date _, _ | .datetime .., _ | .timedelta _, _ | .builtinFn _, _ | .userFn _, _
  | .method .., _ => by simp [coerce, Value.Clean]
  | .obj _, h | .undef, h => by simp [Value.Clean] at h
theorem cleans_coerce (off : TzDb) : ∀ xs : List Value, Value.AllClean xs →
    Value.AllClean (coerceList off xs)
  | [], _ => trivial
  | x :: xs, h => ⟨clean_coerce off x h.1, cleans_coerce off xs h.2⟩
theorem cleanp_coerce (off : TzDb) : ∀ kvs : List (Value × Value), Value.PairsClean kvs →
    Value.PairsClean (coercePairs off kvs)
  | [], _ => trivial
  | (k, v) :: kvs, h => ⟨(keyable_coerce off k).trans h.1, clean_coerce off k h.2.1,
      clean_coerce off v h.2.2.1, cleanp_coerce off kvs h.2.2.2⟩
end

theorem clean_localise (env : Env) (v : Value) (h : v.Clean) : (localise env v).Clean := by
  unfold localise
  split
  · simp [Value.Clean]
  · exact h

theorem clean_newValue (env : Env) (v : Value) (h : v.Clean) : (newValue env v).Clean :=
  clean_localise env _ (clean_coerce _ v h)

/-! ## Functions -/

/-- Specification: some call of `f` returned, and `r` is the value the engine makes of the result. -/
def Env.Returns (env : Env) (f r : Value) : Prop :=
  ∃ (dc : DecCtx) (args : List Value) (s s' : St) (w : Value),
    callFn env dc f args s = (.ok w, s') ∧ r = newValue env w

/-- types for which the engine's compatibility check is a complete check -/
def DataType.flat : DataType → Bool
  | .array .undefined true => true
  | .set .undefined true => true
  | .mapping .undefined .undefined true => true
  | .array .. | .set .. | .mapping .. => false
  | .function _ r _ _ => r.flat
  | _ => true

theorem flat_hasType (calls : Value → Value → Prop) : ∀ (t u : DataType) (r : Value), t.flat = true →
    fromValue r = .ok u → DataType.compat u t = true → r.HasType calls t
  | .undefined, u, r, _, _, _ => trivial
  | .function _ ret _ _, u, r, hf, hu, hc => by
    have h := fromValue_hasType calls r u hu
    have hne := fromValue_ne_undefined r
    cases u <;> simp [DataType.compat] at hc <;> try exact absurd hu hne
    refine ⟨h.1, fun r' t' _ ht' hc' => ?_⟩
    exact flat_hasType calls ret t' r' (by simpa [DataType.flat] using hf) ht' hc'
  | .array m n, u, r, hf, hu, hc => by
    have h := fromValue_hasType calls r u hu
    have hne := fromValue_ne_undefined r
    cases u <;> simp [DataType.compat] at hc <;> try exact absurd hu hne
    cases m <;> cases n <;> simp [DataType.flat] at hf
    exact (members_any h).1 _ _ rfl
  | .set m n, u, r, hf, hu, hc => by
    have h := fromValue_hasType calls r u hu
    have hne := fromValue_ne_undefined r
    cases u <;> simp [DataType.compat] at hc <;> try exact absurd hu hne
    cases m <;> cases n <;> simp [DataType.flat] at hf
    exact (members_any h).2 _ _ rfl
  | .mapping k m n, u, r, hf, hu, hc => by
    have h := fromValue_hasType calls r u hu
    have hne := fromValue_ne_undefined r
    cases u <;> simp [DataType.compat] at hc <;> try exact absurd hu hne
    cases k <;> cases m <;> cases n <;> simp [DataType.flat] at hf
    obtain ⟨kind, kvs, rfl, h⟩ := h
    exact ⟨kind, kvs, rfl, fun _ _ => ⟨.inr trivial, .inr trivial⟩⟩
  | .boolean, u, r, _, hu, hc | .bytes, u, r, _, hu, hc | .string, u, r, _, hu, hc
  | .timedelta, u, r, _, hu, hc | .null, u, r, _, hu, hc | .float, u, r, _, hu, hc
  | .datetime, u, r, _, hu, hc => by
    have h := fromValue_hasType calls r u hu
    have hne := fromValue_ne_undefined r
    cases u <;> simp [DataType.compat] at hc <;> first | exact absurd hu hne | exact h

theorem flat_function (calls : Value → Value → Prop) {n : String} {ret : DataType}
    {as : Option (List DataType)} {m : Option Nat} {v : Value} (hf : ret.flat = true)
    (hv : v.isCallable = true) : v.HasType calls (.function n ret as m) :=
  ⟨hv, fun r t _ ht hc => flat_hasType calls ret t r hf ht hc⟩

theorem range_returns {env : Env} {r : Value} (h : env.Returns (.builtinFn .range) r) :
    r.HasType env.Returns (.array .float true) := by
  obtain ⟨dc, args, s, s', w, h, rfl⟩ := h
  apply hasType_newValue
  simp only [callFn, callLogged, callBasic, callBuiltin, Prod.mk.injEq] at h
  have h := h.1
  have hp : ∀ a b c, (Value.seq .list (pyRange a b c)).HasType env.Returns (.array .float true) := by
    intro a b c
    refine ⟨_, _, rfl, fun x hx => ?_⟩
    simp only [pyRange, List.mem_map] at hx
    obtain ⟨i, -, rfl⟩ := hx
    exact .inr (.inr (.inl ⟨_, rfl⟩))
  unfold builtinRange at h
  simp only at h
  repeat' split at h
  all_goals (try (cases h; done))
  all_goals
    simp only [except_bind_ok] at h
    obtain ⟨i, -, h⟩ := h
    repeat' split at h
  all_goals (try (simp only [except_bind_ok] at h))
  all_goals (try (simp only [Except.ok.injEq] at h; subst h; exact hp _ _ _))
  all_goals
    obtain ⟨j, -, h⟩ := h
    repeat' split at h
    all_goals (try (simp only [except_bind_ok] at h))
    all_goals (try (simp only [Except.ok.injEq] at h; subst h; exact hp _ _ _))
  all_goals
    obtain ⟨j, -, h⟩ := h
    simp only [Except.ok.injEq] at h; subst h; exact hp _ _ _

theorem split_returns {env : Env} {r : Value} (h : env.Returns (.builtinFn .split) r) :
    r.HasType env.Returns (.array .string true) := by
  obtain ⟨dc, args, s, s', w, h, rfl⟩ := h
  apply hasType_newValue
  simp only [callFn, callLogged, callBasic, callBuiltin, Prod.mk.injEq] at h
  have h := h.1
  have hp : ∀ ps : List (List Char), (Value.tuple (ps.map fun p => .str (String.ofList p))).HasType
      env.Returns (.array .string true) := by
    intro ps
    refine ⟨_, _, rfl, fun x hx => ?_⟩
    simp only [List.mem_map] at hx
    obtain ⟨i, -, rfl⟩ := hx
    exact .inr ⟨_, rfl⟩
  unfold builtinSplit at h
  simp only at h
  repeat' split at h
  all_goals (try (cases h; done))
  all_goals
    simp only [except_bind_ok] at h
    obtain ⟨i, -, h⟩ := h
    first
      | (obtain ⟨ps, -, h⟩ := h
         simp only [Except.ok.injEq] at h
         subst h
         exact hp ps)
      | (cases h; done)

/-! ## Sound values -/

/-- Specification: null or a value of type `t`, and, where `st` is the case, without foreign objects. -/
def Value.Sound (env : Env) (st : Prop) (t : DataType) (v : Value) : Prop :=
  (st → v.Clean) ∧ (v = .none ∨ v.HasType env.Returns t)

variable {st : Prop}

/-- a number -/
def Value.IsNum (v : Value) : Prop := (∃ d, v = .dec d) ∨ (∃ i, v = .int i) ∨ ∃ f, v = .float f

theorem isNumeric_iff {v : Value} : isNumeric v = true ↔ v.IsNum := by
  cases v <;> simp [isNumeric, Value.IsNum]

theorem Value.IsNum.clean {v : Value} (h : v.IsNum) : v.Clean := by
  rcases h with ⟨_, rfl⟩ | ⟨_, rfl⟩ | ⟨_, rfl⟩ <;> trivial

theorem Value.IsNum.sound {env : Env} {v : Value} (h : v.IsNum) : v.Sound env st .float :=
  ⟨fun _ => h.clean, .inr h⟩

theorem sound_undefined {env : Env} {v : Value} (h : st → v.Clean) : v.Sound env st .undefined :=
  ⟨h, .inr trivial⟩

theorem sound_bool {env : Env} (b : Bool) : (Value.bool b).Sound env st .boolean :=
  ⟨fun _ => trivial, .inr ⟨b, rfl⟩⟩

theorem sound_none {env : Env} {t : DataType} : Value.none.Sound env st t := ⟨fun _ => trivial, .inl rfl⟩

theorem sound_newValue {env : Env} {t : DataType} {v : Value} (h : v.Sound env st t) :
    (newValue env v).Sound env st t := by
  refine ⟨fun hs => clean_newValue env v (h.1 hs), ?_⟩
  rcases h.2 with rfl | h
  · exact .inl rfl
  · exact .inr (hasType_newValue _ env t v h)

theorem sound_coerce {env : Env} {t : DataType} {v : Value} (h : v.Sound env st t) :
    (coerce env.utcoffset v).Sound env st t := by
  refine ⟨fun hs => clean_coerce _ v (h.1 hs), ?_⟩
  rcases h.2 with rfl | h
  · exact .inl rfl
  · exact .inr (hasType_coerce _ _ t v h)

theorem sound_eq {env : Env} {t u : DataType} {v : Value} (he : DataType.eq t u = true)
    (h : v.Sound env st t) : v.Sound env st u :=
  ⟨h.1, h.2.imp id (hasType_eq he v).1⟩

/-- the type of a value of a known shape -/
theorem sound_type {env : Env} {t : DataType} {v : Value} (h : v.Sound env st t) (hu : t ≠ .undefined) :
    (v.IsNum → t = .float) ∧ ((∃ us tz, v = .datetime us tz) → t = .datetime) ∧
    ((∃ us, v = .timedelta us) → t = .timedelta) ∧ ((∃ x, v = .str x) → t = .string) ∧
    ((∃ x, v = .bytes x) → t = .bytes) ∧ ((∃ xs, v = .set xs) → t.isSet = true) := by
  obtain ⟨-, h⟩ := h
  refine ⟨?_, ?_, ?_, ?_, ?_, ?_⟩
  · intro hv
    rcases hv with ⟨_, rfl⟩ | ⟨_, rfl⟩ | ⟨_, rfl⟩ <;> cases t <;>
      simp_all [Value.HasType, Value.isCallable]
  all_goals
    intro hv
    first | obtain ⟨_, _, rfl⟩ := hv | obtain ⟨_, rfl⟩ := hv
    cases t <;> simp_all [Value.HasType, Value.isCallable, DataType.isSet]

/-- no complex numbers: raising raw (set member) floats to powers always gives a float -/
def Env.NoComplex (env : Env) : Prop := ∀ op a b i, env.rawArith op a b ≠ .ok (.complex i)

theorem numOp_num {env : Env} (hn : env.NoComplex) {dc : DecCtx} {op : ArithOp} {a b v : Value}
    (h : numOp env dc op a b = .ok v) : v.IsNum := by
  have hd : ∀ {x : Except DecErr Dec}, (x.mapError Err.ofDec).map Value.dec = .ok v → v.IsNum := by
    intro x h
    cases x <;> cases h
    exact .inl ⟨_, rfl⟩
  have hr : ∀ {op a b}, (env.rawArith op a b).map RawNum.toValue = .ok v → v.IsNum := by
    intro op a b h
    rcases hx : env.rawArith op a b with e | n
    · rw [hx] at h; cases h
    · rw [hx] at h
      cases h
      cases n with
      | int i => exact .inr (.inl ⟨_, rfl⟩)
      | float f => exact .inr (.inr ⟨_, rfl⟩)
      | complex i => exact absurd hx (hn op a b i)
  unfold numOp at h
  repeat' split at h
  all_goals first
    | (cases h; done)
    | exact hd h
    | exact hr h
    | (cases h; exact .inr (.inl ⟨_, rfl⟩))
    | (cases h; exact .inr (.inr ⟨_, rfl⟩))

theorem assertNumeric_ok {v : Value} (h : assertNumeric v = .ok ()) : v.IsNum := by
  unfold assertNumeric at h
  split at h
  · exact isNumeric_iff.1 ‹_›
  · cases h

theorem isReal_num {v : Value} (h : isReal v = .ok true) : v.IsNum := by
  cases v <;> simp [isReal] at h
  · exact .inr (.inl ⟨_, rfl⟩)
  · exact .inr (.inr ⟨_, rfl⟩)
  · exact .inl ⟨_, rfl⟩

theorem isInteger_num {v : Value} (h : isInteger v = .ok true) : v.IsNum := by
  simp only [isInteger, except_bind_ok] at h
  obtain ⟨b, hb, h⟩ := h
  split at h
  · rename_i hb'
    exact isReal_num (by rw [hb, hb'])
  · simp at h

theorem assertNatural_num {v : Value} (h : assertNatural v = .ok ()) : v.IsNum := by
  simp only [assertNatural, isNatural, except_bind_ok] at h
  obtain ⟨b, ⟨c, hc, h1⟩, h2⟩ := h
  split at h1
  · rename_i hc'
    exact isInteger_num (by rw [hc, hc'])
  · simp only [Except.ok.injEq] at h1
    subst h1
    simp at h2

/-- what an addition can be -/
theorem opAdd_shape {env : Env} (hn : env.NoComplex) {dc : DecCtx} {a b v : Value}
    (h : opAdd env dc a b = .ok v) :
    ((∃ us tz, a = .datetime us tz) ∧ (∃ us, b = .timedelta us) ∧ ∃ us tz, v = .datetime us tz) ∨
    ((∃ us, a = .timedelta us) ∧ (∃ us tz, b = .datetime us tz) ∧ ∃ us tz, v = .datetime us tz) ∨
    ((∃ us, a = .timedelta us) ∧ (∃ us, b = .timedelta us) ∧ ∃ us, v = .timedelta us) ∨
    ((∃ x, a = .str x) ∧ ∃ x, v = .str x) ∨ ((∃ x, a = .bytes x) ∧ ∃ x, v = .bytes x) ∨
    (a.IsNum ∧ v.IsNum) := by
  simp only [opAdd, except_bind_ok] at h
  obtain ⟨u, hc, h⟩ := h
  unfold pyAdd at h
  split at h
  · exact .inl ⟨⟨_, _, rfl⟩, ⟨_, rfl⟩, _, _, mkDatetime_ok h⟩
  · exact .inr (.inl ⟨⟨_, rfl⟩, ⟨_, _, rfl⟩, _, _, mkDatetime_ok h⟩)
  · exact .inr (.inr (.inl ⟨⟨_, rfl⟩, ⟨_, rfl⟩, _, mkTimedelta_ok h⟩))
  · cases h; exact .inr (.inr (.inr (.inl ⟨⟨_, rfl⟩, _, rfl⟩)))
  · cases h; exact .inr (.inr (.inr (.inr (.inl ⟨⟨_, rfl⟩, _, rfl⟩))))
  · rename_i h1 h2 h3 h4 h5
    have hv := numOp_num hn h
    by_cases ha : a.IsNum
    · exact .inr (.inr (.inr (.inr (.inr ⟨ha, hv⟩))))
    · exfalso
      cases a <;> simp [Value.IsNum] at ha <;> cases b <;>
        simp_all [addCheck, numOp, Value.isDec, Value.asInt, Value.asIntDec, Value.asNumber,
          Value.isBytes, Value.isStr, assertNumeric, isNumeric, bind, Except.bind]

theorem opSub_shape {env : Env} (hn : env.NoComplex) {dc : DecCtx} {a b v : Value}
    (h : opSub env dc a b = .ok v) :
    ((∃ us tz, a = .datetime us tz) ∧ (∃ us tz, b = .datetime us tz) ∧ ∃ us, v = .timedelta us) ∨
    ((∃ us tz, a = .datetime us tz) ∧ (∃ us, b = .timedelta us) ∧ ∃ us tz, v = .datetime us tz) ∨
    ((∃ us, a = .timedelta us) ∧ (∃ us, b = .timedelta us) ∧ ∃ us, v = .timedelta us) ∨
    (a.IsNum ∧ v.IsNum) := by
  simp only [opSub, except_bind_ok] at h
  obtain ⟨u, hc, h⟩ := h
  unfold pySub at h
  split at h
  · left
    refine ⟨⟨_, _, rfl⟩, ⟨_, _, rfl⟩, ?_⟩
    repeat' split at h
    all_goals first | (cases h; done) | exact ⟨_, mkTimedelta_ok h⟩
  · exact .inr (.inl ⟨⟨_, _, rfl⟩, ⟨_, rfl⟩, _, _, mkDatetime_ok h⟩)
  · exact .inr (.inr (.inl ⟨⟨_, rfl⟩, ⟨_, rfl⟩, _, mkTimedelta_ok h⟩))
  · have hv := numOp_num hn h
    by_cases ha : a.IsNum
    · exact .inr (.inr (.inr ⟨ha, hv⟩))
    · exfalso
      cases a <;> simp [Value.IsNum] at ha <;> cases b <;>
        simp_all [subCheck, numOp, Value.isDec, Value.asInt, Value.asIntDec, Value.asNumber,
          assertNumeric, isNumeric, bind, Except.bind]

theorem eq_undefined {t : DataType} : DataType.eq t .undefined = true ↔ t = .undefined := by
  cases t <;> simp [DataType.eq]

theorem sound_add {env : Env} (hn : env.NoComplex) {dc : DecCtx} {a b v : Value} {tl tr : DataType}
    (ha : a.Sound env st tl) (hb : b.Sound env st tr) (h : opAdd env dc a b = .ok v) :
    v.Sound env st (addType tl tr) := by
  unfold addType
  split
  · apply sound_undefined
    rcases opAdd_shape hn h with ⟨-, -, _, _, rfl⟩ | ⟨-, -, _, _, rfl⟩ | ⟨-, -, _, rfl⟩ | ⟨-, _, rfl⟩ |
      ⟨-, _, rfl⟩ | ⟨-, h⟩ <;> first | exact fun _ => trivial | exact fun _ => h.clean
  · rename_i hu
    simp only [Bool.or_eq_true, eq_undefined, not_or] at hu
    have hl := sound_type ha hu.1
    have hr := sound_type hb hu.2
    rcases opAdd_shape hn h with ⟨h1, h2, _, _, rfl⟩ | ⟨h1, h2, _, _, rfl⟩ | ⟨h1, h2, _, rfl⟩ |
      ⟨h1, _, rfl⟩ | ⟨h1, _, rfl⟩ | ⟨h1, h⟩
    · rw [hl.2.1 h1]; exact ⟨fun _ => trivial, .inr (.inl ⟨_, _, rfl⟩)⟩
    · rw [hl.2.2.1 h1, hr.2.1 h2]; exact ⟨fun _ => trivial, .inr (.inl ⟨_, _, rfl⟩)⟩
    · rw [hl.2.2.1 h1, hr.2.2.1 h2]; exact ⟨fun _ => trivial, .inr ⟨_, rfl⟩⟩
    · rw [hl.2.2.2.1 h1]; exact ⟨fun _ => trivial, .inr ⟨_, rfl⟩⟩
    · rw [hl.2.2.2.2.1 h1]; exact ⟨fun _ => trivial, .inr ⟨_, rfl⟩⟩
    · rw [hl.1 h1]; exact h.sound

theorem sound_sub {env : Env} (hn : env.NoComplex) {dc : DecCtx} {a b v : Value} {tl tr : DataType}
    (ha : a.Sound env st tl) (hb : b.Sound env st tr) (h : opSub env dc a b = .ok v) :
    v.Sound env st (subType tl tr) := by
  unfold subType
  split
  · apply sound_undefined
    rcases opSub_shape hn h with ⟨-, -, _, rfl⟩ | ⟨-, -, _, _, rfl⟩ | ⟨-, -, _, rfl⟩ | ⟨-, h⟩ <;>
      first | exact fun _ => trivial | exact fun _ => h.clean
  · rename_i hu
    simp only [Bool.or_eq_true, eq_undefined, not_or] at hu
    have hl := sound_type ha hu.1
    have hr := sound_type hb hu.2
    rcases opSub_shape hn h with ⟨h1, h2, _, rfl⟩ | ⟨h1, h2, _, _, rfl⟩ | ⟨h1, h2, _, rfl⟩ | ⟨h1, h⟩
    · rw [hl.2.1 h1, hr.2.1 h2]; exact ⟨fun _ => trivial, .inr ⟨_, rfl⟩⟩
    · rw [hl.2.1 h1, hr.2.2.1 h2]; exact ⟨fun _ => trivial, .inr (.inl ⟨_, _, rfl⟩)⟩
    · rw [hl.2.2.1 h1, hr.2.2.1 h2]; exact ⟨fun _ => trivial, .inr ⟨_, rfl⟩⟩
    · rw [hl.1 h1]; exact h.sound

theorem opNeg_sound {env : Env} {dc : DecCtx} {a v : Value} {t : DataType} (ha : a.Sound env st t)
    (h : opNeg dc a = .ok v) : v.Sound env st t := by
  have hshape : (a.IsNum ∧ v.IsNum) ∨ ((∃ us, a = .timedelta us) ∧ ∃ us, v = .timedelta us) := by
    unfold opNeg at h
    cases a <;> simp [isNumeric] at h
    · cases h; exact .inl ⟨.inr (.inl ⟨_, rfl⟩), .inr (.inl ⟨_, rfl⟩)⟩
    · cases h; exact .inl ⟨.inr (.inr ⟨_, rfl⟩), .inr (.inr ⟨_, rfl⟩)⟩
    · simp only [pyNeg] at h
      rename_i d
      refine .inl ⟨.inl ⟨_, rfl⟩, ?_⟩
      cases hx : decNeg dc d with
      | error e => rw [hx] at h; cases h
      | ok y => rw [hx] at h; cases h; exact .inl ⟨_, rfl⟩
    · exact .inr ⟨⟨_, rfl⟩, _, mkTimedelta_ok h⟩
  by_cases hu : t = .undefined
  · subst hu
    apply sound_undefined
    rcases hshape with ⟨-, h⟩ | ⟨-, _, rfl⟩
    · exact fun _ => h.clean
    · exact fun _ => trivial
  · have := sound_type ha hu
    rcases hshape with ⟨h1, h⟩ | ⟨h1, _, rfl⟩
    · rw [this.1 h1]; exact h.sound
    · rw [this.2.2.1 h1]; exact ⟨fun _ => trivial, .inr ⟨_, rfl⟩⟩

theorem bitSet_members {off : TzDb} {op : BitOp} {xs ys zs : List Value} {P : Value → Prop}
    (hx : ∀ x ∈ xs, P x) (hy : ∀ y ∈ ys, P y) (h : bitSet off op xs ys = .ok zs) : ∀ z ∈ zs, P z := by
  intro z hz
  cases op <;> simp [bitSet] at h <;> subst h <;>
    simp only [List.mem_append, List.mem_filter] at hz
  · exact hx z hz.1
  · rcases hz with hz | hz
    · exact hx z hz
    · exact hy z hz.1
  · rcases hz with hz | hz
    · exact hx z hz.1
    · exact hy z hz.1

/-- what a set operation can be -/
theorem opBitSet_shape {env : Env} {op : BitOp} {xs : List Value} {b v : Value}
    (hx : st → ∀ x ∈ xs, x.Clean) (hb : st → b.Clean) (h : opBitSet env.utcoffset op xs b = .ok v) :
    (∃ ys, b = .set ys) ∧ (st → v.Clean) ∧ (∃ zs, v = .set zs) ∧ op ≠ .lsh ∧ op ≠ .rsh := by
  simp only [opBitSet, except_bind_ok] at h
  obtain ⟨bt, -, h⟩ := h
  repeat' split at h
  · rename_i ys _
    simp only [except_bind_ok, Except.ok.injEq] at h
    obtain ⟨zs, hz, rfl⟩ := h
    refine ⟨⟨_, rfl⟩, ?_, ⟨_, rfl⟩, ?_, ?_⟩
    · intro hst
      simp only [Value.Clean]
      rw [allClean_iff]
      exact bitSet_members (hx hst) (allClean_iff.1 (by simpa [Value.Clean] using hb hst)) hz
    · rintro rfl; simp [bitSet] at hz
    · rintro rfl; simp [bitSet] at hz
  all_goals cases h

theorem set_hasAny {env : Env} {v : Value} (h : st → v.Clean) (hv : ∃ zs, v = .set zs) :
    v.Sound env st .anySet := by
  obtain ⟨zs, rfl⟩ := hv
  exact ⟨h, .inr ⟨zs, rfl, fun _ _ => .inr trivial⟩⟩

/-! ## Computations -/

/-- with the comprehension variables `S` in scope, every value `m` returns satisfies `P` -/
def Yields (S : List Assignment) (P : Value → Prop) (m : M Value) : Prop :=
  ∀ s s' v, s.scopes = S → m s = (.ok v, s') → P v ∧ s'.scopes = S

theorem Yields.mono {S : List Assignment} {P Q : Value → Prop} {m : M Value} (h : Yields S P m)
    (hpq : ∀ v, P v → Q v) : Yields S Q m := by
  intro s s' v hs hm
  exact ⟨hpq v (h s s' v hs hm).1, (h s s' v hs hm).2⟩

theorem seqM_yields {S : List Assignment} {P : Value → Prop} : ∀ {ms : List (M Value)},
    (∀ m ∈ ms, Yields S P m) → ∀ {s s' : St} {vs : List Value}, s.scopes = S →
    seqM ms s = (.ok vs, s') → (∀ v ∈ vs, P v) ∧ s'.scopes = S
  | [], _, s, s', vs, hs, h => by
    simp only [seqM, M.pure_eq_ok] at h
    obtain ⟨rfl, rfl⟩ := h
    exact ⟨by simp, hs⟩
  | m :: ms, hm, s, s', vs, hs, h => by
    simp only [seqM, M.bind_eq_ok, M.pure_eq_ok] at h
    obtain ⟨v, s1, h1, ws, s2, h2, rfl, rfl⟩ := h
    obtain ⟨hv, hs1⟩ := hm m List.mem_cons_self s s1 v hs h1
    obtain ⟨hw, hs2⟩ := seqM_yields (fun m h => hm m (List.mem_cons_of_mem _ h)) hs1 h2
    refine ⟨fun x hx => ?_, hs2⟩
    rcases List.mem_cons.1 hx with rfl | hx
    · exact hv
    · exact hw x hx

theorem setM_yields {off : TzDb} {S : List Assignment} {P : Value → Prop} : ∀ {ms : List (M Value)},
    (∀ m ∈ ms, Yields S P m) → ∀ {acc : List Value} {s s' : St} {vs : List Value},
    (∀ v ∈ acc, P v) → s.scopes = S →
    setM off acc ms s = (.ok vs, s') → (∀ v ∈ vs, P v) ∧ s'.scopes = S
  | [], _, acc, s, s', vs, ha, hs, h => by
    simp only [setM, M.pure_eq_ok] at h
    obtain ⟨rfl, rfl⟩ := h
    exact ⟨ha, hs⟩
  | m :: ms, hm, acc, s, s', vs, ha, hs, h => by
    simp only [setM, M.bind_eq_ok] at h
    obtain ⟨v, s1, h1, h2⟩ := h
    obtain ⟨hv, hs1⟩ := hm m List.mem_cons_self s s1 v hs h1
    split at h2
    · refine setM_yields (fun m h => hm m (List.mem_cons_of_mem _ h)) ?_ hs1 h2
      intro x hx
      unfold setAdd at hx
      split at hx
      · exact ha x hx
      · rcases List.mem_append.1 hx with hx | hx
        · exact ha x hx
        · rw [List.mem_singleton.1 hx]; exact hv
    · simp at h2

theorem mapKeysM_yields {off : TzDb} {S : List Assignment} {P Q : Value → Prop} :
    ∀ {ms : List (M Value × M Value)}, (∀ p ∈ ms, Yields S P p.1 ∧ Yields S Q p.2) →
    ∀ {acc : List (Value × M Value)} {s s' : St} {vs : List (Value × M Value)},
    (∀ p ∈ acc, (p.1.keyable = true ∧ P p.1) ∧ Yields S Q p.2) → s.scopes = S →
    mapKeysM off acc ms s = (.ok vs, s') →
    (∀ p ∈ vs, (p.1.keyable = true ∧ P p.1) ∧ Yields S Q p.2) ∧ s'.scopes = S
  | [], _, acc, s, s', vs, ha, hs, h => by
    simp only [mapKeysM, M.pure_eq_ok] at h
    obtain ⟨rfl, rfl⟩ := h
    exact ⟨ha, hs⟩
  | (k, m) :: ms, hm, acc, s, s', vs, ha, hs, h => by
    simp only [mapKeysM, M.bind_eq_ok, M.lift_eq_ok] at h
    obtain ⟨key, s1, h1, kt, s2, ⟨hkt, rfl⟩, h2⟩ := h
    obtain ⟨hv, hs1⟩ := (hm (k, m) List.mem_cons_self).1 s s1 key hs h1
    have hmq := (hm (k, m) List.mem_cons_self).2
    split at h2
    · simp at h2
    rename_i hc
    split at h2
    · have hkey : key.keyable = true := by
        cases key with
        | set xs =>
          simp only [fromValue, except_bind_ok, Except.ok.injEq] at hkt
          obtain ⟨_, _, rfl⟩ := hkt
          exact absurd rfl hc
        | map kd kvs =>
          simp only [fromValue, except_bind_ok, mkMappingType] at hkt
          obtain ⟨_, _, _, _, hkt⟩ := hkt
          split at hkt
          · simp at hkt
          · simp only [Except.ok.injEq] at hkt
            subst hkt
            exact absurd rfl hc
        | _ => rfl
      refine mapKeysM_yields (fun m h => hm m (List.mem_cons_of_mem _ h)) ?_ hs1 h2
      exact mapInsert_parts off (P := fun x : Value => x.keyable = true ∧ P x)
        (Q := fun m => Yields S Q m) acc key m ⟨hkey, hv⟩ hmq ha
    · simp at h2

theorem mapValsM_yields {S : List Assignment} {P Q : Value → Prop} :
    ∀ {ms : List (Value × M Value)}, (∀ p ∈ ms, P p.1 ∧ Yields S Q p.2) →
    ∀ {s s' : St} {vs : List (Value × Value)}, s.scopes = S → mapValsM ms s = (.ok vs, s') →
    (∀ p ∈ vs, P p.1 ∧ Q p.2) ∧ s'.scopes = S
  | [], _, s, s', vs, hs, h => by
    simp only [mapValsM, M.pure_eq_ok] at h
    obtain ⟨rfl, rfl⟩ := h
    exact ⟨by simp, hs⟩
  | (k, m) :: ms, hm, s, s', vs, hs, h => by
    simp only [mapValsM, M.bind_eq_ok, M.pure_eq_ok] at h
    obtain ⟨v, s1, h1, ws, s2, h2, rfl, rfl⟩ := h
    have h0 := hm (k, m) List.mem_cons_self
    obtain ⟨hv, hs1⟩ := h0.2 s s1 v hs h1
    obtain ⟨hw, hs2⟩ := mapValsM_yields (fun m h => hm m (List.mem_cons_of_mem _ h)) hs1 h2
    refine ⟨fun x hx => ?_, hs2⟩
    rcases List.mem_cons.1 hx with rfl | hx
    · exact ⟨h0.1, hv⟩
    · exact hw x hx

theorem compM_yields {S : List Assignment} {var : String} {c r : M Value} {X P : Value → Prop}
    {C : Value → Prop}
    (hc : ∀ x, X x → Yields (S ++ [⟨var, x, .undefined⟩]) C c)
    (hr : ∀ x, X x → Yields (S ++ [⟨var, x, .undefined⟩]) P r) :
    ∀ {xs : List Value}, (∀ x ∈ xs, X x) → ∀ {s s' : St} {vs : List Value}, s.scopes = S →
    compM var c r xs s = (.ok vs, s') → (∀ v ∈ vs, P v) ∧ s'.scopes = S
  | [], _, s, s', vs, hs, h => by
    simp only [compM, M.pure_eq_ok] at h
    obtain ⟨rfl, rfl⟩ := h
    exact ⟨by simp, hs⟩
  | x :: xs, hx, s, s', vs, hs, h => by
    simp only [compM, M.bind_eq_ok, M.pure_eq_ok] at h
    obtain ⟨o, s1, h1, ws, s2, h2, rfl, rfl⟩ := h
    obtain ⟨s3, h3, rfl⟩ := M.withScope_eq_ok h1
    simp only [M.bind_eq_ok] at h3
    obtain ⟨cv, s4, h4, h5⟩ := h3
    have hx0 := hx x List.mem_cons_self
    obtain ⟨-, hs4⟩ := hc x hx0 { s with scopes := s.scopes ++ [⟨var, x, .undefined⟩] } s4 cv
      (by simp [hs]) h4
    have hs3 : s3.scopes = S ++ [⟨var, x, .undefined⟩] ∧ ∀ v, o = some v → P v := by
      split at h5
      · simp only [M.bind_eq_ok, M.pure_eq_ok] at h5
        obtain ⟨v, s5, h6, rfl, rfl⟩ := h5
        obtain ⟨hv, hs5⟩ := hr x hx0 s4 _ v hs4 h6
        refine ⟨hs5, ?_⟩
        rintro v' h
        cases h
        exact hv
      · rw [M.pure_eq_ok] at h5
        obtain ⟨rfl, rfl⟩ := h5
        exact ⟨hs4, by simp⟩
    obtain ⟨hw, hs2⟩ := compM_yields hc hr (fun y hy => hx y (List.mem_cons_of_mem _ hy))
      (s := { s3 with scopes := s3.scopes.dropLast }) (by simp [hs3.1]) h2
    refine ⟨?_, hs2⟩
    cases o with
    | none => exact hw
    | some v =>
      intro y hy
      rcases List.mem_cons.1 hy with rfl | hy
      · exact hs3.2 _ rfl
      · exact hw y hy

theorem opFuzzy_scopes {env : Env} {a b : Bool} {l r v : Value} {s s' : St}
    (h : opFuzzy env a b l r s = (.ok v, s')) : s'.scopes = s.scopes := by
  cases r with
  | str p =>
    simp only [opFuzzy] at h
    split at h
    · cases l with
      | str l =>
        simp only at h
        cases hr : env.reRun a p l with
        | none =>
          rw [hr] at h
          simp only [M.pure_eq_ok] at h
          rw [← h.2]
        | some gs =>
          rw [hr] at h
          simp only [recordMatch, M.bind_apply, M.modify_apply, M.pure_apply, Prod.mk.injEq] at h
          rw [← h.2]
      | _ =>
        simp only [M.pure_eq_ok] at h
        rw [← h.2]
    · simp at h
  | none =>
    cases l <;> simp only [opFuzzy, M.pure_eq_ok] at h <;> rw [← h.2]
  | _ => simp [opFuzzy] at h

theorem bit_yields {env : Env} {dc : DecCtx} {op : BitOp} {l r : M Value} {S : List Assignment}
    {tl tr dflt : DataType} (hl : Yields S (Value.Sound env st tl) l) (hr : Yields S (Value.Sound env st tr) r)
    (hd : dflt = .undefined ∨ ((op = .lsh ∨ op = .rsh) ∧ dflt = .float ∧ tl.isSet = false ∧
      tr.isSet = false)) :
    Yields S (Value.Sound env st (bitType dflt tl tr)) (do
      let a ← l
      let t ← M.lift (fromValue a)
      if DataType.eq t .float then do
        M.lift (assertNatural a)
        let b ← r
        M.lift (opBitNat env op a b)
      else
        match a with
        | .set xs => do
          let b ← r
          M.lift (opBitSet env.utcoffset op xs b)
        | _ => M.throw .mismatch : M Value) := by
  intro s s' v hs h
  simp only [M.bind_eq_ok, M.lift_eq_ok] at h
  obtain ⟨a, s1, h1, t, s2, ⟨ht, rfl⟩, h⟩ := h
  obtain ⟨ha, hs1⟩ := hl s s1 a hs h1
  split at h
  · simp only [M.bind_eq_ok, M.lift_eq_ok] at h
    obtain ⟨_, s3, ⟨hna, rfl⟩, b, s4, h4, h, rfl⟩ := h
    obtain ⟨hb, hs4⟩ := hr _ _ _ hs1 h4
    refine ⟨?_, hs4⟩
    obtain ⟨d, hd⟩ : ∃ d, v = .dec d := (opBitNat_ok h).elim fun _ h => ⟨_, h⟩
    subst hd
    have han := assertNatural_num hna
    have hbn : b.IsNum := by
      simp only [opBitNat, except_bind_ok] at h
      obtain ⟨_, h, -⟩ := h
      exact assertNatural_num h
    have hnum : (Value.dec d).IsNum := .inl ⟨_, rfl⟩
    have hl' : tl = .undefined ∨ tl = .float := by
      by_cases hu : tl = .undefined
      · exact .inl hu
      · exact .inr ((sound_type ha hu).1 han)
    have hr' : tr = .undefined ∨ tr = .float := by
      by_cases hu : tr = .undefined
      · exact .inl hu
      · exact .inr ((sound_type hb hu).1 hbn)
    rcases hl' with rfl | rfl <;> rcases hr' with rfl | rfl <;> rcases hd with rfl | ⟨-, rfl, -⟩ <;>
      first | exact hnum.sound | exact sound_undefined (fun _ => hnum.clean)
  · split at h
    · rename_i xs _
      simp only [M.bind_eq_ok, M.lift_eq_ok] at h
      obtain ⟨b, s4, h4, h, rfl⟩ := h
      obtain ⟨hb, hs4⟩ := hr _ _ _ hs1 h4
      refine ⟨?_, hs4⟩
      obtain ⟨hbs, hcl, hvs, ho1, ho2⟩ := opBitSet_shape
        (fun hst => allClean_iff.1 (by simpa [Value.Clean] using ha.1 hst)) hb.1 h
      have hset : v.Sound env st .anySet := set_hasAny hcl hvs
      rcases hd with rfl | ⟨h0, -⟩
      · have hl' : tl = .undefined ∨ tl.isSet = true := by
          by_cases hu : tl = .undefined
          · exact .inl hu
          · exact .inr ((sound_type ha hu).2.2.2.2.2 ⟨_, rfl⟩)
        have hr' : tr = .undefined ∨ tr.isSet = true := by
          by_cases hu : tr = .undefined
          · exact .inl hu
          · exact .inr ((sound_type hb hu).2.2.2.2.2 hbs)
        unfold bitType
        split
        · exact hset
        · rename_i hns
          simp only [Bool.or_eq_true, not_or] at hns
          rcases hl' with rfl | h1 <;> rcases hr' with rfl | h2
          · exact sound_undefined hcl
          · exact absurd h2 hns.2
          · exact absurd h1 hns.1
          · exact absurd h1 hns.1
      · rcases h0 with rfl | rfl
        · exact absurd rfl ho1
        · exact absurd rfl ho2
    · simp at h

/-- the operators of the node classes for `&`, `|`, `^` and for shifts -/
def BinOp.sane : BinOp → Bool
  | .bit op => match op with
    | .and | .or | .xor => true
    | _ => false
  | .shift op => match op with
    | .lsh | .rsh => true
    | _ => false
  | .arith op => match op with
    | .add | .sub => false
    | _ => true
  | _ => true

theorem evalBin_yields {env : Env} (hn : env.NoComplex) {dc : DecCtx} {op : BinOp} {l r : M Value}
    {S : List Assignment} {tl tr : DataType} (hop : op.sane = true)
    (hacc : op.accepts tl = true ∧ op.accepts tr = true)
    (hl : Yields S (Value.Sound env st tl) l) (hr : Yields S (Value.Sound env st tr) r) :
    Yields S (Value.Sound env st (op.rt tl tr)) (evalBin env dc op l r) := by
  by_cases hb : op.isBoolean = true
  · intro s s' v hs h
    have hbool : ∃ b, v = .bool b := evalBin_bool hb h
    obtain ⟨b, rfl⟩ := hbool
    have hrt : op.rt tl tr = .boolean := by cases op <;> first | rfl | (simp [BinOp.isBoolean] at hb)
    rw [hrt]
    refine ⟨sound_bool b, ?_⟩
    cases op <;> simp only [BinOp.isBoolean, Bool.false_eq_true] at hb <;>
      simp only [evalBin, M.bind_eq_ok] at h <;> obtain ⟨a, s1, h1, h⟩ := h <;>
      have hs1 := (hl s s1 a hs h1).2
    · split at h
      · simp only [M.bind_eq_ok, M.pure_eq_ok] at h
        obtain ⟨b', s2, h2, -, rfl⟩ := h
        exact (hr _ _ _ hs1 h2).2
      · rw [M.pure_eq_ok] at h; rw [← h.2]; exact hs1
    · split at h
      · rw [M.pure_eq_ok] at h; rw [← h.2]; exact hs1
      · simp only [M.bind_eq_ok, M.pure_eq_ok] at h
        obtain ⟨b', s2, h2, -, rfl⟩ := h
        exact (hr _ _ _ hs1 h2).2
    · obtain ⟨b', s2, h2, h⟩ := h
      rw [M.pure_eq_ok] at h; rw [← h.2]; exact (hr _ _ _ hs1 h2).2
    · obtain ⟨b', s2, h2, h⟩ := h
      rw [M.pure_eq_ok] at h; rw [← h.2]; exact (hr _ _ _ hs1 h2).2
    · simp only [M.lift_eq_ok] at h
      obtain ⟨b', s2, h2, x, s3, ⟨-, rfl⟩, h⟩ := h
      rw [M.pure_eq_ok] at h; rw [← h.2]; exact (hr _ _ _ hs1 h2).2
    · split at h
      · simp only [M.bind_eq_ok] at h
        obtain ⟨b', s2, h2, h⟩ := h
        rw [opFuzzy_scopes h]; exact (hr _ _ _ hs1 h2).2
      · simp only [M.bind_eq_ok] at h
        obtain ⟨b', s2, h2, h⟩ := h
        rw [opFuzzy_scopes h]; exact (hr _ _ _ hs1 h2).2
      · simp at h
  · cases op <;> simp only [BinOp.isBoolean, not_true] at hb
    case add =>
      intro s s' v hs h
      simp only [evalBin, M.bind_eq_ok, M.lift_eq_ok] at h
      obtain ⟨a, s1, h1, b, s2, h2, h, rfl⟩ := h
      obtain ⟨ha, hs1⟩ := hl s s1 a hs h1
      obtain ⟨hb, hs2⟩ := hr _ _ _ hs1 h2
      exact ⟨sound_add hn ha hb h, hs2⟩
    case sub =>
      intro s s' v hs h
      simp only [evalBin, M.bind_eq_ok, M.lift_eq_ok] at h
      obtain ⟨a, s1, h1, b, s2, h2, h, rfl⟩ := h
      obtain ⟨ha, hs1⟩ := hl s s1 a hs h1
      obtain ⟨hb, hs2⟩ := hr _ _ _ hs1 h2
      exact ⟨sound_sub hn ha hb h, hs2⟩
    case arith op =>
      intro s s' v hs h
      simp only [evalBin, M.bind_eq_ok, M.lift_eq_ok] at h
      obtain ⟨a, s1, h1, _, _, ⟨-, rfl⟩, b, s2, h2, _, _, ⟨-, rfl⟩, h, rfl⟩ := h
      obtain ⟨ha, hs1⟩ := hl s s1 a hs h1
      obtain ⟨hb, hs2⟩ := hr _ _ _ hs1 h2
      refine ⟨?_, hs2⟩
      unfold opArith at h
      split at h
      · rename_i heq
        cases h
        exact (numOp_num hn heq).sound
      · split at h <;> cases h
    case bit op =>
      exact bit_yields (dc := dc) hl hr (.inl rfl)
    case shift op =>
      have hns : ∀ t, BinOp.accepts (.shift op) t = true → t.isSet = false := by
        intro t ht
        cases t <;> simp [BinOp.accepts, BinOp.compatibleTypes, DataType.eq, DataType.compat,
          DataType.isSet] at ht ⊢
      refine bit_yields (dc := dc) hl hr (.inr ⟨?_, rfl, hns _ hacc.1, hns _ hacc.2⟩)
      cases op <;> simp [BinOp.sane] at hop ⊢

end RE
