import Verif.Props.Calls

/-!
# What it means for a value to have a type; declared types of symbols (C09)
-/

set_option linter.unusedSimpArgs false

namespace RE

/-- Specification: `v` is a value of type `T`, recursively for member types.  A FLOAT is a Decimal, an
int or a float; a DATETIME is a datetime or a date; UNDEFINED says nothing.  Members of compound
values may be null if the type says so; mapping keys may be null.  A FUNCTION is something callable
of which every result (`calls v r`: some call of `v` gave `r`) that the engine accepts (its type is
compatible with the declared return type) has the declared return type. -/
def Value.HasType (calls : Value → Value → Prop) : DataType → Value → Prop
  | .boolean, v => ∃ b, v = .bool b
  | .bytes, v => ∃ b, v = .bytes b
  | .string, v => ∃ s, v = .str s
  | .timedelta, v => ∃ us, v = .timedelta us
  | .null, v => v = .none
  | .float, v => (∃ d, v = .dec d) ∨ (∃ i, v = .int i) ∨ ∃ f, v = .float f
  | .datetime, v => (∃ us tz, v = .datetime us tz) ∨ ∃ d, v = .date d
  | .undefined, _ => True
  | .array m nullable, v => ∃ k xs, v = .seq k xs ∧
      ∀ x ∈ xs, (nullable = true ∧ x = .none) ∨ Value.HasType calls m x
  | .set m nullable, v => ∃ xs, v = .set xs ∧
      ∀ x ∈ xs, (nullable = true ∧ x = .none) ∨ Value.HasType calls m x
  | .mapping k m nullable, v => ∃ kind kvs, v = .map kind kvs ∧ ∀ p ∈ kvs,
      (p.1 = .none ∨ Value.HasType calls k p.1) ∧
      ((nullable = true ∧ p.2 = .none) ∨ Value.HasType calls m p.2)
  | .function _ ret _ _, v => v.isCallable = true ∧ ∀ r t, calls v r → fromValue r = .ok t →
      DataType.compat t ret = true → Value.HasType calls ret r

/-- Specification: `v` is a value of type `T`, not saying anything about results of functions. -/
abbrev Value.Is (T : DataType) (v : Value) : Prop := v.HasType (fun _ _ => False) T

/-! ## Basic facts -/

mutual
theorem compat_anon : ∀ t u : DataType, DataType.compat t u.anon = DataType.compat t u
  | t, .array m n => by
    cases t <;> simp [DataType.anon, DataType.compat, compat_anon _ m]
  | t, .set m n => by
    cases t <;> simp [DataType.anon, DataType.compat, compat_anon _ m]
  | t, .mapping k m n => by
    cases t <;> simp [DataType.anon, DataType.compat, compat_anon _ m, compat_anon _ k]
  | t, .function _ r as _ => by
    cases t <;> simp [DataType.anon, DataType.compat, compat_anon _ r, compatArgs_anon _ as]
  | t, .boolean | t, .bytes | t, .string | t, .timedelta | t, .null | t, .float | t, .datetime
  | t, .undefined => by simp [DataType.anon]
theorem compatArgs_anon : ∀ t u, DataType.compatArgs t (DataType.anonArgs u) = DataType.compatArgs t u
  | t, none => by simp [DataType.anonArgs]
  | none, some us => by simp [DataType.anonArgs, DataType.compatArgs]
  | some ts, some us => by simp [DataType.anonArgs, DataType.compatArgs, compatList_anon ts us]
theorem compatList_anon : ∀ t u, DataType.compatList t (DataType.anonList u) = DataType.compatList t u
  | [], [] => by simp [DataType.anonList]
  | [], _ :: _ => by simp [DataType.anonList, DataType.compatList]
  | _ :: _, [] => by simp [DataType.anonList, DataType.compatList]
  | t :: ts, u :: us => by
    simp [DataType.anonList, DataType.compatList, compat_anon t u, compatList_anon ts us]
end

/-- equal types have the same values (function names do not matter) -/
theorem hasType_anon (calls : Value → Value → Prop) : ∀ (t : DataType) (v : Value),
    v.HasType calls t.anon ↔ v.HasType calls t
  | .boolean, v | .bytes, v | .string, v | .timedelta, v | .null, v | .float, v | .datetime, v
  | .undefined, v => by simp [DataType.anon]
  | .array m n, v => by simp only [DataType.anon, Value.HasType, hasType_anon calls m]
  | .set m n, v => by simp only [DataType.anon, Value.HasType, hasType_anon calls m]
  | .mapping k m n, v => by
    simp only [DataType.anon, Value.HasType, hasType_anon calls m, hasType_anon calls k]
  | .function _ ret _ _, v => by simp only [DataType.anon, Value.HasType, hasType_anon calls ret, compat_anon]

theorem hasType_eq {calls : Value → Value → Prop} {t u : DataType} (h : DataType.eq t u = true)
    (v : Value) : v.HasType calls t ↔ v.HasType calls u := by
  rw [← hasType_anon calls t, ← hasType_anon calls u, (dataType_eq_iff t u).1 h]

theorem members_hasType {calls : Value → Value → Prop} {xs : List Value} {ts : List DataType}
    (h : typesOf xs = .ok ts)
    (ih : ∀ x ∈ xs, ∀ t, fromValue x = .ok t → x.HasType calls t) :
    ∀ x ∈ xs, x = .none ∨ x.HasType calls (memberType ts) := by
  intro x hx
  by_cases hm : memberType ts = .undefined
  · right; rw [hm]; trivial
  · rcases membersHaveType_of_typesOf h hm x hx with h0 | ⟨t, ht, he⟩
    · exact .inl h0
    · right
      have := ih x hx t ht
      rwa [← hasType_anon, he, hasType_anon] at this

mutual
/-- the type `from_value` reports is a type of the value -/
theorem fromValue_hasType (calls : Value → Value → Prop) : ∀ (v : Value) (t : DataType),
    fromValue v = .ok t → v.HasType calls t
  | .none, t, h | .bool _, t, h | .int _, t, h | .float _, t, h | .dec _, t, h | .str _, t, h
  | .bytes _, t, h | .date _, t, h | .datetime .., t, h | .timedelta _, t, h => by
    simp only [fromValue, Except.ok.injEq] at h
    subst h; simp [Value.HasType]
  | .builtinFn _, t, h | .userFn _, t, h | .method .., t, h => by
    simp only [fromValue, Except.ok.injEq] at h
    subst h; simp [Value.HasType, Value.isCallable]
  | .obj _, t, h | .undef, t, h => by simp [fromValue] at h
  | .seq k xs, t, h => by
    simp only [fromValue, except_bind_ok, Except.ok.injEq] at h
    obtain ⟨ts, hts, rfl⟩ := h
    refine ⟨k, xs, rfl, fun x hx => ?_⟩
    rcases members_hasType hts (fromValues_hasType calls xs) x hx with h | h
    · exact .inl ⟨rfl, h⟩
    · exact .inr h
  | .set xs, t, h => by
    simp only [fromValue, except_bind_ok, Except.ok.injEq] at h
    obtain ⟨ts, hts, rfl⟩ := h
    refine ⟨xs, rfl, fun x hx => ?_⟩
    rcases members_hasType hts (fromValues_hasType calls xs) x hx with h | h
    · exact .inl ⟨rfl, h⟩
    · exact .inr h
  | .map k kvs, t, h => by
    simp only [fromValue, except_bind_ok, mkMappingType] at h
    obtain ⟨ks, hks, vs, hvs, h⟩ := h
    split at h
    · simp at h
    · simp only [Except.ok.injEq] at h
      subst h
      rw [typesOfKeys_eq] at hks
      rw [typesOfVals_eq] at hvs
      have hp := fromPairs_hasType calls kvs
      refine ⟨k, kvs, rfl, fun p hp' => ⟨?_, ?_⟩⟩
      · refine members_hasType hks ?_ p.1 (List.mem_map.2 ⟨p, hp', rfl⟩)
        intro x hx t ht
        obtain ⟨q, hq, rfl⟩ := List.mem_map.1 hx
        exact (hp q hq).1 t ht
      · rcases members_hasType hvs (by
          intro x hx t ht
          obtain ⟨q, hq, rfl⟩ := List.mem_map.1 hx
          exact (hp q hq).2 t ht) p.2 (List.mem_map.2 ⟨p, hp', rfl⟩) with h | h
        · exact .inl ⟨rfl, h⟩
        · exact .inr h
theorem fromValues_hasType (calls : Value → Value → Prop) : ∀ (xs : List Value), ∀ x ∈ xs,
    ∀ t, fromValue x = .ok t → x.HasType calls t
  | y :: ys, x, hx, t, ht => by
    rcases List.mem_cons.1 hx with h | h
    · exact h ▸ fromValue_hasType calls y t (h ▸ ht)
    · exact fromValues_hasType calls ys x h t ht
theorem fromPairs_hasType (calls : Value → Value → Prop) : ∀ (kvs : List (Value × Value)), ∀ p ∈ kvs,
    (∀ t, fromValue p.1 = .ok t → p.1.HasType calls t) ∧
    (∀ t, fromValue p.2 = .ok t → p.2.HasType calls t)
  | (k, v) :: rest, p, hp => by
    rcases List.mem_cons.1 hp with h | h
    · subst h; exact ⟨fromValue_hasType calls k, fromValue_hasType calls v⟩
    · exact fromPairs_hasType calls rest p h
end

theorem mapInsert_parts {α : Type} (off : TzDb) {P : Value → Prop} {Q : α → Prop}
    (acc : List (Value × α)) (k : Value) (v : α) (hk : P k) (hv : Q v)
    (h : ∀ p ∈ acc, P p.1 ∧ Q p.2) : ∀ p ∈ mapInsert off acc k v, P p.1 ∧ Q p.2 := by
  intro p hp
  induction acc with
  | nil =>
    simp only [mapInsert, List.mem_cons, List.not_mem_nil, or_false] at hp
    subst hp; exact ⟨hk, hv⟩
  | cons a acc ih =>
    obtain ⟨k', v'⟩ := a
    have h1 : P k' ∧ Q v' := h (k', v') List.mem_cons_self
    have h2 : ∀ p ∈ acc, P p.1 ∧ Q p.2 := fun p hp => h p (List.mem_cons_of_mem _ hp)
    simp only [mapInsert] at hp
    split at hp
    · rcases List.mem_cons.1 hp with h | h
      · subst h; exact ⟨h1.1, hv⟩
      · exact h2 p h
    · rcases List.mem_cons.1 hp with h | h
      · subst h; exact h1
      · exact ih h2 h

theorem mapFold_parts {α : Type} (off : TzDb) {P : Value → Prop} {Q : α → Prop} :
    ∀ (kvs acc : List (Value × α)), (∀ p ∈ kvs, P p.1 ∧ Q p.2) → (∀ p ∈ acc, P p.1 ∧ Q p.2) →
    ∀ p ∈ kvs.foldl (fun acc p => mapInsert off acc p.1 p.2) acc, P p.1 ∧ Q p.2
  | [], acc, _, ha => ha
  | q :: kvs, acc, h, ha => by
    simp only [List.foldl_cons]
    exact mapFold_parts off kvs _ (fun p hp => h p (List.mem_cons_of_mem _ hp))
      (mapInsert_parts off acc q.1 q.2 (h q List.mem_cons_self).1 (h q List.mem_cons_self).2 ha)

theorem coerce_none {off : TzDb} {v : Value} : coerce off v = .none ↔ v = .none := by
  cases v <;> simp [coerce]

theorem coerce_callable {off : TzDb} {v : Value} (h : v.isCallable = true) : coerce off v = v := by
  cases v <;> simp_all [coerce, Value.isCallable]

/-- conversion keeps the type -/
theorem hasType_coerce (calls : Value → Value → Prop) (off : TzDb) : ∀ (t : DataType) (v : Value),
    v.HasType calls t → (coerce off v).HasType calls t
  | .boolean, v, h => by obtain ⟨b, rfl⟩ := h; exact ⟨b, rfl⟩
  | .bytes, v, h => by obtain ⟨b, rfl⟩ := h; exact ⟨b, rfl⟩
  | .string, v, h => by obtain ⟨b, rfl⟩ := h; exact ⟨b, rfl⟩
  | .timedelta, v, h => by obtain ⟨b, rfl⟩ := h; exact ⟨b, rfl⟩
  | .null, v, h => by
    have h : v = .none := h
    subst h; exact rfl
  | .float, v, h => by
    rcases h with ⟨b, rfl⟩ | ⟨b, rfl⟩ | ⟨b, rfl⟩ <;> exact .inl ⟨_, rfl⟩
  | .datetime, v, h => by
    rcases h with ⟨b, c, rfl⟩ | ⟨b, rfl⟩ <;> exact .inl ⟨_, _, rfl⟩
  | .undefined, v, h => trivial
  | .array m n, v, h => by
    obtain ⟨k, xs, rfl, h⟩ := h
    refine ⟨.tuple, coerceList off xs, rfl, fun y hy => ?_⟩
    rw [coerceList_eq_map] at hy
    obtain ⟨x, hx, rfl⟩ := List.mem_map.1 hy
    rcases h x hx with ⟨h1, rfl⟩ | h1
    · exact .inl ⟨h1, rfl⟩
    · exact .inr (hasType_coerce calls off m x h1)
  | .set m n, v, h => by
    obtain ⟨xs, rfl, h⟩ := h
    exact ⟨xs, rfl, h⟩
  | .mapping k m n, v, h => by
    obtain ⟨kind, kvs, rfl, h⟩ := h
    refine ⟨.ordered, mapOfList off (coercePairs off kvs), rfl, ?_⟩
    refine mapFold_parts off (P := fun x : Value => x = Value.none ∨ x.HasType calls k)
      (Q := fun x : Value => (n = true ∧ x = Value.none) ∨ x.HasType calls m) _ [] ?_ (by simp)
    rw [coercePairs_eq_map]
    intro p hp
    obtain ⟨q, hq, rfl⟩ := List.mem_map.1 hp
    obtain ⟨h1, h2⟩ := h q hq
    refine ⟨?_, ?_⟩
    · rcases h1 with h1 | h1
      · exact .inl (coerce_none.2 h1)
      · exact .inr (hasType_coerce calls off k _ h1)
    · rcases h2 with ⟨h2, h3⟩ | h2
      · exact .inl ⟨h2, coerce_none.2 h3⟩
      · exact .inr (hasType_coerce calls off m _ h2)
  | .function _ ret _ _, v, h => by
    rw [coerce_callable h.1]; exact h

theorem hasType_localise (calls : Value → Value → Prop) (env : Env) (t : DataType) (v : Value)
    (h : v.HasType calls t) : (localise env v).HasType calls t := by
  unfold localise
  split
  · cases t <;> simp_all [Value.HasType, Value.isCallable]
  · exact h

theorem hasType_newValue (calls : Value → Value → Prop) (env : Env) (t : DataType) (v : Value)
    (h : v.HasType calls t) : (newValue env v).HasType calls t :=
  hasType_localise calls env t _ (hasType_coerce calls _ t v h)

/-! ## C09 — declared types of symbols -/

/-- what the engine verifies of a declared type: of a MAPPING neither the key type nor that there
are no null values, of an ARRAY or SET without member type nothing about the members -/
def DataType.verified : DataType → DataType
  | .array .undefined _ => .anyArray
  | .set .undefined _ => .anySet
  | .mapping _ v _ => .mapping .undefined v true
  | .function n _ a m => .function n .undefined a m
  | t => t

theorem compat_scalar {vt rt : DataType} (hs : rt.isScalar = true) (hr : rt ≠ .undefined)
    (hv : vt ≠ .undefined) (hc : DataType.compat vt rt = true) :
    vt = rt ∨ (vt.isFunction = true ∧ rt.isFunction = true) := by
  cases vt <;> cases rt <;> simp_all [DataType.compat, DataType.isScalar, DataType.isFunction]

theorem members_any {calls : Value → Value → Prop} {t : DataType} {v : Value} (h : v.HasType calls t) :
    (∀ m n, t = .array m n → v.HasType calls .anyArray) ∧
    (∀ m n, t = .set m n → v.HasType calls .anySet) := by
  constructor
  · rintro m n rfl
    obtain ⟨k, xs, rfl, -⟩ := h
    exact ⟨k, xs, rfl, fun _ _ => .inr trivial⟩
  · rintro m n rfl
    obtain ⟨xs, rfl, -⟩ := h
    exact ⟨xs, rfl, fun _ _ => .inr trivial⟩

theorem null_of_mismatch {vt : DataType} {v w : Value} {e : Err} (hvt : fromValue v = .ok vt)
    (h : (if DataType.eq vt .null = true then (.ok v : Except Err Value) else .error e) = .ok w) :
    v = .none := by
  split at h
  · rename_i hn
    have : vt = .null := by cases vt <;> simp_all [DataType.eq]
    subst this
    exact fromValue_null hvt
  · simp at h

theorem ite_error_ok {α : Type} {p : Prop} [Decidable p] {e : Err} {x : Except Err α} {w : α}
    (h : (if p then .error e else x) = .ok w) : ¬p ∧ x = .ok w := by
  split at h
  · simp at h
  · exact ⟨‹_›, h⟩

theorem ite_cases {α : Type} {p : Prop} [Decidable p] {x y : α} {w : α}
    (h : (if p then x else y) = w) : (p ∧ x = w) ∨ (¬p ∧ y = w) := by
  split at h
  · exact .inl ⟨‹_›, h⟩
  · exact .inr ⟨‹_›, h⟩

theorem checkSymbol_sound {name : String} {rt : DataType} {v w : Value}
    (h : checkSymbol name rt v = .ok w) (calls : Value → Value → Prop) :
    v = .none ∨ v.HasType calls rt.verified := by
  unfold checkSymbol at h
  split at h
  · rename_i hu
    have : rt = .undefined := by cases rt <;> simp_all [DataType.eq]
    subst this
    exact .inr trivial
  rename_i hu
  have hru : rt ≠ .undefined := by rintro rfl; exact hu rfl
  simp only [except_bind_ok] at h
  obtain ⟨vt, hvt, h⟩ := h
  have hty := fromValue_hasType calls v vt hvt
  have hund : vt ≠ .undefined := by rintro rfl; exact fromValue_ne_undefined v hvt
  split at h
  swap
  · exact .inl (null_of_mismatch hvt h)
  rename_i hc
  split at h
  · -- scalar
    rename_i hs
    right
    rcases compat_scalar hs hru hund hc with rfl | ⟨h1, h2⟩
    · cases vt <;> simp_all [DataType.verified, DataType.isScalar, Value.HasType]
    · cases rt <;> simp [DataType.isFunction] at h2
      cases vt <;> simp [DataType.isFunction] at h1
      exact ⟨hty.1, fun _ _ _ _ _ => trivial⟩
  · -- compound
    rename_i hs
    cases rt <;> simp [DataType.isScalar] at hs
    case array m n =>
      cases vt <;> simp [DataType.compat] at hc hund
      rename_i m' n'
      split at h
      · rename_i hm
        have : m = .undefined := by
          cases m <;> simp_all [DataType.eq, DataType.valueType]
        subst this
        exact .inr ((members_any hty).1 _ _ rfl)
      rename_i hm
      have hm' : m ≠ .undefined := by rintro rfl; exact hm rfl
      obtain ⟨k, xs, rfl, hx⟩ := hty
      dsimp only [DataType.valueType] at h
      obtain ⟨hnull, h⟩ := ite_error_ok h
      rcases ite_cases h with ⟨he, h⟩ | ⟨-, h⟩
      · right
        have hver : (DataType.array m n).verified = .array m n := by
          cases m <;> first | rfl | exact absurd rfl hm'
        rw [hver]
        refine ⟨k, xs, rfl, fun x hxm => ?_⟩
        rcases hx x hxm with ⟨-, rfl⟩ | h2
        · by_cases hn : n = true
          · exact .inl ⟨hn, rfl⟩
          · right
            have hany : (xs.any fun y => y == Value.none) = true :=
              List.any_eq_true.2 ⟨_, hxm, by simp⟩
            simp only [hany, Bool.not_eq_true] at hnull hn
            simp only [hn, Bool.not_false, Bool.and_true, Bool.not_eq_eq_eq_not, Bool.not_not,
              Bool.not_true] at hnull
            have : m = .null := by cases m <;> simp_all [DataType.eq]
            subst this; rfl
        · exact .inr ((hasType_eq he x).2 h2)
      · exact .inl (null_of_mismatch hvt h)
    case set m n =>
      cases vt <;> simp [DataType.compat] at hc hund
      rename_i m' n'
      split at h
      · rename_i hm
        have : m = .undefined := by
          cases m <;> simp_all [DataType.eq, DataType.valueType]
        subst this
        exact .inr ((members_any hty).2 _ _ rfl)
      rename_i hm
      have hm' : m ≠ .undefined := by rintro rfl; exact hm rfl
      obtain ⟨xs, rfl, hx⟩ := hty
      dsimp only [DataType.valueType] at h
      obtain ⟨hnull, h⟩ := ite_error_ok h
      rcases ite_cases h with ⟨he, h⟩ | ⟨-, h⟩
      · right
        have hver : (DataType.set m n).verified = .set m n := by
          cases m <;> first | rfl | exact absurd rfl hm'
        rw [hver]
        refine ⟨xs, rfl, fun x hxm => ?_⟩
        rcases hx x hxm with ⟨-, rfl⟩ | h2
        · by_cases hn : n = true
          · exact .inl ⟨hn, rfl⟩
          · right
            have hany : (xs.any fun y => y == Value.none) = true :=
              List.any_eq_true.2 ⟨_, hxm, by simp⟩
            simp only [hany, Bool.not_eq_true] at hnull hn
            simp only [hn, Bool.not_false, Bool.and_true, Bool.not_eq_eq_eq_not, Bool.not_not,
              Bool.not_true] at hnull
            have : m = .null := by cases m <;> simp_all [DataType.eq]
            subst this; rfl
        · exact .inr ((hasType_eq he x).2 h2)
      · exact .inl (null_of_mismatch hvt h)
    case mapping kt m n =>
      cases vt <;> simp [DataType.compat] at hc hund
      rename_i kt' m' n'
      obtain ⟨k, kvs, rfl, hx⟩ := hty
      dsimp only [DataType.valueType] at h
      rcases ite_cases h with ⟨hm, h⟩ | ⟨-, h⟩
      · have : m = .undefined := by cases m <;> simp_all [DataType.eq]
        subst this
        exact .inr ⟨k, kvs, rfl, fun p hp => ⟨.inr trivial, .inr trivial⟩⟩
      obtain ⟨-, h⟩ := ite_error_ok h
      rcases ite_cases h with ⟨he, h⟩ | ⟨-, h⟩
      · right
        refine ⟨k, kvs, rfl, fun p hp => ⟨.inr trivial, ?_⟩⟩
        rcases (hx p hp).2 with ⟨-, h2⟩ | h2
        · exact .inl ⟨rfl, h2⟩
        · exact .inr ((hasType_eq he p.2).2 h2)
      · exact .inl (null_of_mismatch hvt h)

theorem checkSymbol_cases (name : String) (T : DataType) {v : Value} {t : DataType}
    (ht : fromValue v = .ok t) : (∃ w, checkSymbol name T v = .ok w) ∨
    checkSymbol name T v = .error (.eng (.symbolType name)) := by
  unfold checkSymbol
  rw [ht]
  simp only [bind, Except.bind]
  repeat' split
  all_goals first
    | exact .inl ⟨_, rfl⟩
    | exact .inr rfl

theorem eval_sym_sound {env : Env} {dc : DecCtx} {thing : Value} {name : String} {T : DataType}
    {b : Bool} {s s' : St} {v : Value} (h : eval env dc thing (.sym name T b) s = (.ok v, s'))
    (calls : Value → Value → Prop) : v = .none ∨ v.HasType calls T.verified := by
  simp only [eval, evalSymbol, M.bind_eq_ok, M.lift_eq_ok] at h
  obtain ⟨w, s1, -, h, -⟩ := h
  rw [checkSymbol_ok h]
  exact checkSymbol_sound h calls

/-- C09 (for every declared type other than MAPPING; an ARRAY or SET declared non-nullable must have
a member type): a symbol declared with type `T` yields null or a value of type `T`. -/
theorem symbol_declared_type (env : Env) (dc : DecCtx) (thing : Value) (name : String) (T : DataType)
    (hm : T.isMapping = false) (ha : T ≠ .array .undefined false) (hs : T ≠ .set .undefined false)
    (s s' : St) (v : Value) (h : eval env dc thing (.sym name T false) s = (.ok v, s')) :
    v = .none ∨ v.Is T := by
  rcases eval_sym_sound h (fun _ _ => False) with h1 | h1
  · exact .inl h1
  right
  clear h
  cases T with
  | array m n =>
    by_cases hm : m = .undefined
    · subst hm
      cases n
      · exact absurd rfl ha
      · exact h1
    · cases m <;> first | exact h1 | exact absurd rfl hm
  | set m n =>
    by_cases hm : m = .undefined
    · subst hm
      cases n
      · exact absurd rfl hs
      · exact h1
    · cases m <;> first | exact h1 | exact absurd rfl hm
  | function => exact ⟨h1.1, fun _ _ h => h.elim⟩
  | mapping => simp [DataType.isMapping] at hm
  | _ => exact h1

/-- C09 for MAPPING types.  Missing: the engine checks neither the keys nor `value_type_nullable`
(see `mapping_symbol_unchecked`). -/
theorem symbol_declared_mapping_partial (env : Env) (dc : DecCtx) (thing : Value) (name : String)
    (kt vt : DataType) (n : Bool) (s s' : St) (v : Value)
    (h : eval env dc thing (.sym name (.mapping kt vt n) false) s = (.ok v, s')) :
    v = .none ∨ ∃ kind kvs, v = .map kind kvs ∧ ∀ p ∈ kvs, p.2 = .none ∨ p.2.Is vt := by
  rcases eval_sym_sound h (fun _ _ => False) with h1 | h1
  · exact .inl h1
  right
  clear h
  obtain ⟨kind, kvs, rfl, h⟩ := h1
  refine ⟨kind, kvs, rfl, fun p hp => ?_⟩
  rcases (h p hp).2 with ⟨-, h⟩ | h
  · exact .inl h
  · exact .inr h

/-- C09: whatever else the resolver returns makes the evaluation raise SymbolTypeError (a value
without any data type makes it raise TypeError).  The value is the one resolved, after conversion. -/
theorem symbol_type_error (env : Env) (dc : DecCtx) (thing : Value) (name : String) (T : DataType)
    (u : Value) (hu : env.resolver thing name = .ok u) (s : St) (hs : s.scopes = [])
    (t : DataType) (ht : fromValue (newValue env u) = .ok t)
    (h0 : newValue env u ≠ .none) (hT : ¬ (newValue env u).Is T.verified) :
    (eval env dc thing (.sym name T false) s).1 = .error (.eng (.symbolType name)) := by
  have hne : ∀ w, checkSymbol name T (newValue env u) ≠ .ok w := by
    intro w hw
    rcases checkSymbol_sound hw (fun _ _ => False) with h | h
    · exact h0 h
    · exact hT h
  have herr : checkSymbol name T (newValue env u) = .error (.eng (.symbolType name)) := by
    rcases checkSymbol_cases name T ht with ⟨w, h⟩ | h
    · exact absurd h (hne w)
    · exact h
  simp only [eval, evalSymbol, M.bind_apply, M.catchErr, ctxResolve, hs, scopeLookup, List.find?_nil,
    hu, M.lift_apply, Bool.false_eq_true, if_false, herr]

/-- the type of a symbol outside of comprehensions is the one the type resolver declares -/
theorem symbol_rule_declared_type (env : Env) (dct : DecCtx) (name : String) (T : DataType)
    (hd : env.typeResolver name = .ok T) (s s1 : St) (hs : s.scopes = []) (e : Expr)
    (hc : construct env dct (.sym name false) s = (.ok e, s1)) : e = .sym name T false := by
  have := build_built _ hc
  simp only [Built, symType, hs, scopeLookup, List.find?_nil, hd, Bool.false_eq_true, if_false,
    Except.ok.injEq] at this
  obtain ⟨t, rfl, rfl⟩ := this
  rfl

/-- a context with declared types -/
def typedEnv (types : List (String × DataType)) : Env :=
  { sampleEnv with typeResolver := typeResolverFromDict types }

/-- a typed array of numbers with a null: accepted if nullable, else SymbolTypeError -/
example : runRaw (typedEnv [("x", .array .float true)]) (.sym "x" false)
    (dictOf [("x", .seq .list [.int 1, .none])]) =
    .ok (.tuple [.dec (.fin false 1 0), .none]) := by decide +kernel
example : runRaw (typedEnv [("x", .array .float false)]) (.sym "x" false)
    (dictOf [("x", .seq .list [.int 1, .none])]) = .error (.eng (.symbolType "x")) := by decide +kernel
example : runRaw (typedEnv [("x", .array .float true)]) (.sym "x" false)
    (dictOf [("x", .seq .list [.int 1, .str "a"])]) = .error (.eng (.symbolType "x")) := by
  decide +kernel
example : runRaw (typedEnv [("x", .string)]) (.sym "x" false)
    (dictOf [("x", .int 1)]) = .error (.eng (.symbolType "x")) := by decide +kernel

/-- C09, negative: a symbol declared as MAPPING of STRING to non-null FLOAT may yield a mapping with a
null value (the check for nulls looks at the keys), and one with keys that are not strings (a mapping
with keys of several types has key type UNDEFINED, which is compatible with everything). -/
theorem mapping_symbol_unchecked :
    let env := typedEnv [("m", .mapping .string .float false)]
    runRaw env (.sym "m" false) (dictOf [("m", dictOf [("a", .int 1), ("b", .none)])]) =
      .ok (.map .ordered [(.str "a", .dec (.fin false 1 0)), (.str "b", .none)]) ∧
    runRaw env (.sym "m" false)
        (dictOf [("m", .map .dict [(.str "a", .int 1), (.bool true, .int 2)])]) =
      .ok (.map .ordered [(.str "a", .dec (.fin false 1 0)), (.bool true, .dec (.fin false 2 0))]) := by
  constructor <;> decide +kernel

/-- The engine is stricter than the type: an empty array is not accepted for ARRAY of FLOAT, because
its member type is UNDEFINED. -/
theorem empty_array_rejected :
    (Value.tuple []).Is (.array .float true) ∧
    runRaw (typedEnv [("x", .array .float true)]) (.sym "x" false) (dictOf [("x", .seq .list [])]) =
      .error (.eng (.symbolType "x")) := by
  refine ⟨⟨_, [], rfl, by simp⟩, by decide +kernel⟩

end RE
