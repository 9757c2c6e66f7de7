import Verif.Model.Types
import Mathlib.Tactic.Cases

/-!
# C10, C11, C12: data types and coercion
-/

namespace RE

/-! ## C10 — equality and compatibility of data types -/

/-- Specification: the twelve kinds of data type. -/
inductive TypeKind where
  | array | bytes | boolean | datetime | float | function | mapping | null | set | string
  | timedelta | undefined
  deriving DecidableEq

/-- the kind of a data type definition -/
def DataType.kind : DataType → TypeKind
  | .array .. => .array
  | .bytes => .bytes
  | .boolean => .boolean
  | .datetime => .datetime
  | .float => .float
  | .function .. => .function
  | .mapping .. => .mapping
  | .null => .null
  | .set .. => .set
  | .string => .string
  | .timedelta => .timedelta
  | .undefined => .undefined

mutual
/-- Specification: forget the names of functions. -/
def DataType.anon : DataType → DataType
  | .array v n => .array v.anon n
  | .function _ r as m => .function "" r.anon (DataType.anonArgs as) m
  | .mapping k v n => .mapping k.anon v.anon n
  | .set v n => .set v.anon n
  | t => t
def DataType.anonArgs : Option (List DataType) → Option (List DataType)
  | none => none
  | some ts => some (DataType.anonList ts)
def DataType.anonList : List DataType → List DataType
  | [] => []
  | t :: ts => t.anon :: DataType.anonList ts
end

mutual
/-- Two data types are equal exactly if they are the same definition up to function names. -/
theorem dataType_eq_iff : ∀ a b : DataType, DataType.eq a b = true ↔ a.anon = b.anon
  | .array a n, b => by cases b <;> simp [DataType.eq, DataType.anon, dataType_eq_iff a]
  | .bytes, b => by cases b <;> simp [DataType.eq, DataType.anon]
  | .boolean, b => by cases b <;> simp [DataType.eq, DataType.anon]
  | .datetime, b => by cases b <;> simp [DataType.eq, DataType.anon]
  | .float, b => by cases b <;> simp [DataType.eq, DataType.anon]
  | .function x r as m, b => by
    cases b <;> simp [DataType.eq, DataType.anon, dataType_eq_iff r, dataType_eqArgs_iff as, and_assoc]
  | .mapping k v n, b => by
    cases b <;> simp [DataType.eq, DataType.anon, dataType_eq_iff k, dataType_eq_iff v, and_assoc]
  | .null, b => by cases b <;> simp [DataType.eq, DataType.anon]
  | .set a n, b => by cases b <;> simp [DataType.eq, DataType.anon, dataType_eq_iff a]
  | .string, b => by cases b <;> simp [DataType.eq, DataType.anon]
  | .timedelta, b => by cases b <;> simp [DataType.eq, DataType.anon]
  | .undefined, b => by cases b <;> simp [DataType.eq, DataType.anon]
theorem dataType_eqArgs_iff : ∀ a b, DataType.eqArgs a b = true ↔ DataType.anonArgs a = DataType.anonArgs b
  | none, b => by cases b <;> simp [DataType.eqArgs, DataType.anonArgs]
  | some as, b => by cases b <;> simp [DataType.eqArgs, DataType.anonArgs, dataType_eqList_iff as]
theorem dataType_eqList_iff : ∀ a b, DataType.eqList a b = true ↔ DataType.anonList a = DataType.anonList b
  | [], b => by cases b <;> simp [DataType.eqList, DataType.anonList]
  | a :: as, b => by
    cases b <;> simp [DataType.eqList, DataType.anonList, dataType_eq_iff a, dataType_eqList_iff as]
end

/-- C10: equality of data types is an equivalence relation. -/
theorem dataType_eq_equivalence : Equivalence (fun a b : DataType => DataType.eq a b = true) where
  refl a := (dataType_eq_iff a a).2 rfl
  symm {a b} h := (dataType_eq_iff b a).2 ((dataType_eq_iff a b).1 h).symm
  trans {a b c} h h' :=
    (dataType_eq_iff a c).2 (((dataType_eq_iff a b).1 h).trans ((dataType_eq_iff b c).1 h'))

@[simp] theorem DataType.eq_refl (a : DataType) : DataType.eq a a = true := dataType_eq_equivalence.refl a

mutual
/-- C10: compatibility is symmetric. -/
theorem dataType_compat_symm : ∀ a b : DataType, DataType.compat a b = DataType.compat b a
  | .array a _, b => by cases b <;> simp [DataType.compat, dataType_compat_symm a]
  | .bytes, b => by cases b <;> simp [DataType.compat]
  | .boolean, b => by cases b <;> simp [DataType.compat]
  | .datetime, b => by cases b <;> simp [DataType.compat]
  | .float, b => by cases b <;> simp [DataType.compat]
  | .function _ r as m, b => by
    cases b with
    | function _ s bs n =>
      simp only [DataType.compat, dataType_compat_symm r, dataType_compatArgs_symm as]
      congr 1
      cases m <;> cases n <;> simp [Bool.beq_comm]
    | _ => simp [DataType.compat]
  | .mapping k v _, b => by
    cases b <;> simp [DataType.compat, dataType_compat_symm k, dataType_compat_symm v]
  | .null, b => by cases b <;> simp [DataType.compat]
  | .set a _, b => by cases b <;> simp [DataType.compat, dataType_compat_symm a]
  | .string, b => by cases b <;> simp [DataType.compat]
  | .timedelta, b => by cases b <;> simp [DataType.compat]
  | .undefined, b => by cases b <;> simp [DataType.compat]
theorem dataType_compatArgs_symm : ∀ a b, DataType.compatArgs a b = DataType.compatArgs b a
  | none, b => by cases b <;> simp [DataType.compatArgs]
  | some as, b => by cases b <;> simp [DataType.compatArgs, dataType_compatList_symm as]
theorem dataType_compatList_symm : ∀ a b, DataType.compatList a b = DataType.compatList b a
  | [], b => by cases b <;> simp [DataType.compatList]
  | a :: as, b => by
    cases b <;> simp [DataType.compatList, dataType_compat_symm a, dataType_compatList_symm as]
end

/-- C10: UNDEFINED is compatible with everything. -/
theorem dataType_compat_undefined (a : DataType) :
    DataType.compat .undefined a = true ∧ DataType.compat a .undefined = true := by
  cases a <;> simp [DataType.compat]

mutual
/-- C10: equal data types are compatible. -/
theorem dataType_compat_of_eq : ∀ a b : DataType, DataType.eq a b = true → DataType.compat a b = true
  | .array a _, b => by
    cases b <;> simp [DataType.compat, DataType.eq]
    intro h _; exact dataType_compat_of_eq a _ h
  | .bytes, b => by cases b <;> simp [DataType.compat, DataType.eq]
  | .boolean, b => by cases b <;> simp [DataType.compat, DataType.eq]
  | .datetime, b => by cases b <;> simp [DataType.compat, DataType.eq]
  | .float, b => by cases b <;> simp [DataType.compat, DataType.eq]
  | .function _ r as m, b => by
    cases b with
    | function _ s bs n =>
      simp only [DataType.compat, DataType.eq, Bool.and_eq_true, beq_iff_eq]
      rintro ⟨⟨h1, h2⟩, rfl⟩
      refine ⟨⟨dataType_compat_of_eq r _ h1, dataType_compatArgs_of_eq as _ h2⟩, ?_⟩
      cases m <;> simp
    | _ => simp [DataType.compat, DataType.eq]
  | .mapping k v _, b => by
    cases b <;> simp [DataType.compat, DataType.eq]
    intro h h' _; exact ⟨dataType_compat_of_eq k _ h, dataType_compat_of_eq v _ h'⟩
  | .null, b => by cases b <;> simp [DataType.compat, DataType.eq]
  | .set a _, b => by
    cases b <;> simp [DataType.compat, DataType.eq]
    intro h _; exact dataType_compat_of_eq a _ h
  | .string, b => by cases b <;> simp [DataType.compat, DataType.eq]
  | .timedelta, b => by cases b <;> simp [DataType.compat, DataType.eq]
  | .undefined, b => by cases b <;> simp [DataType.compat]
theorem dataType_compatArgs_of_eq :
    ∀ a b, DataType.eqArgs a b = true → DataType.compatArgs a b = true
  | none, b => by cases b <;> simp [DataType.compatArgs]
  | some as, b => by
    cases b <;> simp [DataType.compatArgs, DataType.eqArgs]
    exact dataType_compatList_of_eq as _
theorem dataType_compatList_of_eq :
    ∀ a b, DataType.eqList a b = true → DataType.compatList a b = true
  | [], b => by cases b <;> simp [DataType.compatList, DataType.eqList]
  | a :: as, b => by
    cases b <;> simp [DataType.compatList, DataType.eqList]
    intro h h'; exact ⟨dataType_compat_of_eq a _ h, dataType_compatList_of_eq as _ h'⟩
end

/-- C10: compatibility is reflexive. -/
theorem dataType_compat_refl (a : DataType) : DataType.compat a a = true :=
  dataType_compat_of_eq a a (DataType.eq_refl a)

/-- C10: types of different kinds are incompatible, unless one is UNDEFINED. -/
theorem dataType_compat_kind (a b : DataType) (ha : a ≠ .undefined) (hb : b ≠ .undefined)
    (h : DataType.compat a b = true) : a.kind = b.kind := by
  cases a <;> cases b <;> simp_all [DataType.compat, DataType.kind]

/-- C10: compatibility looks inside compound types: member types have to be compatible, and
nullability does not matter. -/
theorem dataType_compat_members (a b c d : DataType) (n m : Bool) :
    (DataType.compat (.array a n) (.array b m) = DataType.compat a b) ∧
    (DataType.compat (.set a n) (.set b m) = DataType.compat a b) ∧
    (DataType.compat (.mapping a c n) (.mapping b d m) = (DataType.compat a b && DataType.compat c d))
    := by simp [DataType.compat]

/-- Compatibility is not transitive (so it is not an equivalence): UNDEFINED links any two types. -/
theorem dataType_compat_not_trans :
    ¬ ∀ a b c, DataType.compat a b = true → DataType.compat b c = true → DataType.compat a c = true := by
  intro h
  have := h .float .undefined .string rfl rfl
  simp [DataType.compat] at this

example : DataType.eq (.function "a" .float (some [.string]) (some 1))
    (.function "b" .float (some [.string]) (some 1)) = true := by decide

/-! ## C12 — `DataType.from_value` -/

/-- the first component of a bind in `Except` -/
theorem except_bind_ok {ε α β : Type} {x : Except ε α} {f : α → Except ε β} {b : β} :
    (x >>= f) = .ok b ↔ ∃ a, x = .ok a ∧ f a = .ok b := by
  cases x <;> simp [bind, Except.bind]

theorem memberType_spec (ts : List DataType) (h : memberType ts ≠ .undefined) :
    ∀ t ∈ ts, t = .null ∨ DataType.eq t (memberType ts) = true := by
  intro t ht
  unfold memberType at *
  by_cases hn : t = .null
  · exact .inl hn
  right
  have hmem : t ∈ ts.filter (fun t => !DataType.eq t .null) := by
    rw [List.mem_filter]
    refine ⟨ht, ?_⟩
    cases t <;> simp_all [DataType.eq]
  split at h
  · exact absurd rfl h
  next u rest hf =>
    rw [hf] at hmem
    split at h
    · rename_i hall
      rw [if_pos hall]
      rcases List.mem_cons.1 hmem with rfl | hm
      · simp
      · exact List.all_eq_true.1 hall t hm
    · exact absurd rfl h

theorem typesOf_ok : ∀ {xs : List Value} {ts : List DataType}, typesOf xs = .ok ts →
    List.Forall₂ (fun x t => fromValue x = .ok t) xs ts
  | [], ts, h => by
    simp only [typesOf, Except.ok.injEq] at h
    subst h; exact .nil
  | x :: xs, ts, h => by
    simp only [typesOf, except_bind_ok] at h
    obtain ⟨t, ht, us, hus, h⟩ := h
    simp only [Except.ok.injEq] at h
    subst h
    exact .cons ht (typesOf_ok hus)

theorem typesOfKeys_eq : ∀ kvs : List (Value × Value), typesOfKeys kvs = typesOf (kvs.map (·.1))
  | [] => rfl
  | (k, _) :: rest => by simp [typesOfKeys, typesOf, typesOfKeys_eq rest]

theorem typesOfVals_eq : ∀ kvs : List (Value × Value), typesOfVals kvs = typesOf (kvs.map (·.2))
  | [] => rfl
  | (_, v) :: rest => by simp [typesOfVals, typesOf, typesOfVals_eq rest]

theorem forall₂_mem_left {α β : Type} {R : α → β → Prop} {as : List α} {bs : List β}
    (h : List.Forall₂ R as bs) : ∀ a ∈ as, ∃ b ∈ bs, R a b := by
  induction h with
  | nil => simp
  | cons hr _ ih =>
    intro a ha
    rcases List.mem_cons.1 ha with rfl | ha
    · exact ⟨_, List.mem_cons_self, hr⟩
    · obtain ⟨b, hb, hR⟩ := ih a ha
      exact ⟨b, List.mem_cons_of_mem _ hb, hR⟩

/-- Specification of "every member is null or has exactly type `m`". -/
def MembersHaveType (xs : List Value) (m : DataType) : Prop :=
  ∀ x ∈ xs, x = .none ∨ ∃ t, fromValue x = .ok t ∧ t.anon = m.anon

theorem fromValue_null {v : Value} (h : fromValue v = .ok .null) : v = .none := by
  cases v <;> simp [fromValue, except_bind_ok, mkMappingType] at h ⊢
  obtain ⟨_, _, _, _, h⟩ := h
  split at h <;> simp at h

theorem membersHaveType_of_typesOf {xs : List Value} {ts : List DataType}
    (h : typesOf xs = .ok ts) (hm : memberType ts ≠ .undefined) : MembersHaveType xs (memberType ts) := by
  intro x hx
  obtain ⟨t, ht, hxt⟩ := forall₂_mem_left (typesOf_ok h) x hx
  rcases memberType_spec ts hm t ht with rfl | he
  · exact .inl (fromValue_null hxt)
  · exact .inr ⟨t, hxt, (dataType_eq_iff _ _).1 he⟩

/-- C12: `from_value` never answers UNDEFINED. -/
theorem fromValue_ne_undefined (v : Value) : fromValue v ≠ .ok .undefined := by
  intro h
  cases v <;> simp [fromValue, except_bind_ok, mkMappingType] at h
  obtain ⟨_, _, _, _, h⟩ := h
  split at h <;> simp at h

/-- C12: a member type reported for an array is the type of all its members that are not null. -/
theorem fromValue_array_precise (k : SeqKind) (xs : List Value) (m : DataType) (n : Bool)
    (h : fromValue (.seq k xs) = .ok (.array m n)) (hm : m ≠ .undefined) : MembersHaveType xs m := by
  simp only [fromValue, except_bind_ok, Except.ok.injEq, DataType.array.injEq] at h
  obtain ⟨ts, hts, rfl, rfl⟩ := h
  exact membersHaveType_of_typesOf hts hm

/-- C12: a member type reported for a set is the type of all its members that are not null. -/
theorem fromValue_set_precise (xs : List Value) (m : DataType) (n : Bool)
    (h : fromValue (.set xs) = .ok (.set m n)) (hm : m ≠ .undefined) : MembersHaveType xs m := by
  simp only [fromValue, except_bind_ok, Except.ok.injEq, DataType.set.injEq] at h
  obtain ⟨ts, hts, rfl, rfl⟩ := h
  exact membersHaveType_of_typesOf hts hm

/-- C12: key and value types reported for a mapping are the types of all its keys and values. -/
theorem fromValue_mapping_precise (k : MapKind) (kvs : List (Value × Value)) (kt vt : DataType)
    (n : Bool) (h : fromValue (.map k kvs) = .ok (.mapping kt vt n)) :
    (kt ≠ .undefined → MembersHaveType (kvs.map (·.1)) kt) ∧
    (vt ≠ .undefined → MembersHaveType (kvs.map (·.2)) vt) := by
  simp only [fromValue, except_bind_ok, mkMappingType] at h
  obtain ⟨ks, hks, vs, hvs, h⟩ := h
  split at h
  · simp at h
  · simp only [Except.ok.injEq, DataType.mapping.injEq] at h
    obtain ⟨rfl, rfl, rfl⟩ := h
    rw [typesOfKeys_eq] at hks
    rw [typesOfVals_eq] at hvs
    exact ⟨membersHaveType_of_typesOf hks, membersHaveType_of_typesOf hvs⟩

mutual
/-- Specification: values the engine supports — no foreign objects anywhere, and (as for every
Python dictionary) hashable mapping keys. -/
def Value.Supported : Value → Prop
  | .obj _ => False
  | .undef => False
  | .seq _ xs => Value.AllSupported xs
  | .set xs => Value.AllSupported xs
  | .map _ kvs => Value.PairsSupported kvs
  | _ => True
def Value.AllSupported : List Value → Prop
  | [] => True
  | x :: xs => x.Supported ∧ Value.AllSupported xs
def Value.PairsSupported : List (Value × Value) → Prop
  | [] => True
  | (k, v) :: rest => k.hashable = true ∧ k.Supported ∧ v.Supported ∧ Value.PairsSupported rest
end

theorem memberType_eq_or (ts : List DataType) :
    memberType ts = .undefined ∨ memberType ts ∈ ts := by
  unfold memberType
  split
  · exact .inl rfl
  next u rest hf =>
    split
    · right
      have : u ∈ ts.filter (fun t => !DataType.eq t .null) := by rw [hf]; simp
      exact (List.mem_filter.1 this).1
    · exact .inl rfl

theorem fromValue_hashable {v : Value} {t : DataType} (hv : v.hashable = true)
    (h : fromValue v = .ok t) : t.isCompound = false ∨ t.isArray = true := by
  cases v
  case seq k xs =>
    simp only [fromValue, except_bind_ok, Except.ok.injEq] at h
    obtain ⟨_, _, rfl⟩ := h
    exact .inr rfl
  case set => simp [Value.hashable] at hv
  case map => simp [Value.hashable] at hv
  all_goals
    simp only [fromValue, Except.ok.injEq, reduceCtorEq] at h
    try (subst h; exact .inl rfl)

mutual
/-- C12: `from_value` is total on supported values. -/
theorem fromValue_total : ∀ v : Value, v.Supported → ∃ t, fromValue v = .ok t
  | .none, _ => ⟨_, rfl⟩
  | .bool _, _ => ⟨_, rfl⟩
  | .int _, _ => ⟨_, rfl⟩
  | .float _, _ => ⟨_, rfl⟩
  | .dec _, _ => ⟨_, rfl⟩
  | .str _, _ => ⟨_, rfl⟩
  | .bytes _, _ => ⟨_, rfl⟩
  | .date _, _ => ⟨_, rfl⟩
  | .datetime .., _ => ⟨_, rfl⟩
  | .timedelta _, _ => ⟨_, rfl⟩
  | .builtinFn _, _ => ⟨_, rfl⟩
  | .userFn _, _ => ⟨_, rfl⟩
  | .method .., _ => ⟨_, rfl⟩
  | .obj _, h => absurd h (by simp [Value.Supported])
  | .undef, h => absurd h (by simp [Value.Supported])
  | .seq _ xs, h => by
    obtain ⟨ts, hts⟩ := typesOf_total xs (by simpa [Value.Supported] using h)
    exact ⟨_, by simp only [fromValue, hts]; rfl⟩
  | .set xs, h => by
    obtain ⟨ts, hts⟩ := typesOf_total xs (by simpa [Value.Supported] using h)
    exact ⟨_, by simp only [fromValue, hts]; rfl⟩
  | .map _ kvs, h => by
    obtain ⟨ks, vs, hks, hvs, hk⟩ := typesOfPairs_total kvs (by simpa [Value.Supported] using h)
    refine ⟨.mapping (memberType ks) (memberType vs) true, ?_⟩
    simp only [fromValue, hks, hvs]
    show mkMappingType _ _ _ = _
    unfold mkMappingType
    rw [if_neg]
    rcases memberType_eq_or ks with h | h
    · rw [h]; decide
    · have := hk _ h
      rcases this with h' | h' <;> simp [h']
theorem typesOf_total : ∀ xs : List Value, Value.AllSupported xs → ∃ ts, typesOf xs = .ok ts
  | [], _ => ⟨[], rfl⟩
  | x :: xs, h => by
    obtain ⟨h1, h2⟩ := h
    obtain ⟨t, ht⟩ := fromValue_total x h1
    obtain ⟨ts, hts⟩ := typesOf_total xs h2
    exact ⟨t :: ts, by simp only [typesOf, ht, hts]; rfl⟩
theorem typesOfPairs_total : ∀ kvs : List (Value × Value), Value.PairsSupported kvs →
    ∃ ks vs, typesOfKeys kvs = .ok ks ∧ typesOfVals kvs = .ok vs ∧
      ∀ t ∈ ks, t.isCompound = false ∨ t.isArray = true
  | [], _ => ⟨[], [], rfl, rfl, by simp⟩
  | (k, v) :: rest, h => by
    obtain ⟨h0, h1, h2, h3⟩ := h
    obtain ⟨t, ht⟩ := fromValue_total k h1
    obtain ⟨u, hu⟩ := fromValue_total v h2
    obtain ⟨ks, vs, hks, hvs, hk⟩ := typesOfPairs_total rest h3
    refine ⟨t :: ks, u :: vs, by simp only [typesOfKeys, ht, hks]; rfl,
      by simp only [typesOfVals, hu, hvs]; rfl, ?_⟩
    intro t' ht'
    rcases List.mem_cons.1 ht' with rfl | h
    · exact fromValue_hashable h0 ht
    · exact hk _ h
end

/-- C12: exactly the foreign objects make `from_value` raise, and then it raises TypeError or (for
mappings with unhashable keys, which Python does not have) EngineError. -/
example : fromValue (.tuple [.int 1, .none, .dec (.fin false 5 (-1))]) = .ok (.array .float true) := by
  decide
example : fromValue (.tuple [.int 1, .str "x"]) = .ok (.array .undefined true) := by decide
example : (Value.map .dict [(.str "a", .tuple [.int 1]), (.tuple [.int 2], .none)]).Supported := by
  simp [Value.Supported, Value.PairsSupported, Value.AllSupported, Value.hashable, Value.allHashable]

/-! ## C11 — `coerce_value` -/

mutual
/-- Specification: no Python int, float, list, range, date or (unordered) dict outside of sets. -/
def Value.Normal : Value → Prop
  | .int _ => False
  | .float _ => False
  | .date _ => False
  | .seq k xs => k = .tuple ∧ Value.AllNormal xs
  | .map k kvs => k = .ordered ∧ Value.PairsNormal kvs
  | _ => True
def Value.AllNormal : List Value → Prop
  | [] => True
  | x :: xs => x.Normal ∧ Value.AllNormal xs
def Value.PairsNormal : List (Value × Value) → Prop
  | [] => True
  | (k, v) :: rest => k.Normal ∧ v.Normal ∧ Value.PairsNormal rest
end

theorem pairsNormal_iff : ∀ kvs : List (Value × Value),
    Value.PairsNormal kvs ↔ ∀ p ∈ kvs, p.1.Normal ∧ p.2.Normal
  | [] => by simp [Value.PairsNormal]
  | (k, v) :: rest => by simp [Value.PairsNormal, pairsNormal_iff rest, and_assoc]

theorem mapInsert_mem {α : Type} (off : TzDb) (kvs : List (Value × α)) (k : Value) (v : α) :
    ∀ p ∈ mapInsert off kvs k v, (p.1 = k ∨ ∃ q ∈ kvs, q.1 = p.1) ∧ (p.2 = v ∨ ∃ q ∈ kvs, q.2 = p.2) := by
  induction kvs with
  | nil => simp [mapInsert]
  | cons q rest ih =>
    obtain ⟨k', v'⟩ := q
    intro p hp
    simp only [mapInsert] at hp
    split at hp
    · rcases List.mem_cons.1 hp with rfl | h
      · exact ⟨.inr ⟨(k', v'), by simp, rfl⟩, .inl rfl⟩
      · exact ⟨.inr ⟨p, by simp [h], rfl⟩, .inr ⟨p, by simp [h], rfl⟩⟩
    · rcases List.mem_cons.1 hp with rfl | h
      · exact ⟨.inr ⟨(k', v'), by simp, rfl⟩, .inr ⟨(k', v'), by simp, rfl⟩⟩
      · obtain ⟨h1, h2⟩ := ih p h
        refine ⟨h1.imp id ?_, h2.imp id ?_⟩
        · rintro ⟨q, hq, he⟩; exact ⟨q, by simp [hq], he⟩
        · rintro ⟨q, hq, he⟩; exact ⟨q, by simp [hq], he⟩

theorem mapFold_normal (off : TzDb) (kvs acc : List (Value × Value))
    (h : Value.PairsNormal kvs) (ha : Value.PairsNormal acc) :
    Value.PairsNormal (kvs.foldl (fun acc p => mapInsert off acc p.1 p.2) acc) := by
  induction kvs generalizing acc with
  | nil => exact ha
  | cons p rest ih =>
    obtain ⟨k, v⟩ := p
    obtain ⟨hk, hv, hr⟩ := h
    refine ih _ hr ?_
    rw [pairsNormal_iff] at ha ⊢
    intro p hp
    obtain ⟨h1, h2⟩ := mapInsert_mem off acc k v p hp
    constructor
    · rcases h1 with h | ⟨q, hq, h⟩
      · rw [h]; exact hk
      · rw [← h]; exact (ha q hq).1
    · rcases h2 with h | ⟨q, hq, h⟩
      · rw [h]; exact hv
      · rw [← h]; exact (ha q hq).2

mutual
/-- C11: the result of `coerce_value` is normal. -/
theorem coerce_normal (off : TzDb) : ∀ v : Value, (coerce off v).Normal
  | .none => by simp [coerce, Value.Normal]
  | .bool _ => by simp [coerce, Value.Normal]
  | .int _ => by simp [coerce, Value.Normal]
  | .float _ => by simp [coerce, Value.Normal]
  | .dec _ => by simp [coerce, Value.Normal]
  | .str _ => by simp [coerce, Value.Normal]
  | .bytes _ => by simp [coerce, Value.Normal]
  | .date _ => by simp [coerce, Value.Normal]
  | .datetime .. => by simp [coerce, Value.Normal]
  | .timedelta _ => by simp [coerce, Value.Normal]
  | .seq _ xs => by simp [coerce, Value.Normal, coerceList_normal off xs]
  | .set _ => by simp [coerce, Value.Normal]
  | .map _ kvs => by
    simp only [coerce, Value.Normal, true_and]
    exact mapFold_normal off _ [] (coercePairs_normal off kvs) trivial
  | .builtinFn _ => by simp [coerce, Value.Normal]
  | .userFn _ => by simp [coerce, Value.Normal]
  | .method .. => by simp [coerce, Value.Normal]
  | .obj _ => by simp [coerce, Value.Normal]
  | .undef => by simp [coerce, Value.Normal]
theorem coerceList_normal (off : TzDb) : ∀ xs, Value.AllNormal (coerceList off xs)
  | [] => trivial
  | x :: xs => ⟨coerce_normal off x, coerceList_normal off xs⟩
theorem coercePairs_normal (off : TzDb) : ∀ kvs, Value.PairsNormal (coercePairs off kvs)
  | [] => trivial
  | (k, v) :: rest => ⟨coerce_normal off k, coerce_normal off v, coercePairs_normal off rest⟩
end

/-- Keys pairwise unequal, as in every Python dictionary. -/
def DistinctKeys {α : Type} (off : TzDb) (kvs : List (Value × α)) : Prop :=
  kvs.Pairwise (fun p q => pyEq off p.1 q.1 = false)

theorem mapInsert_append {α : Type} (off : TzDb) (acc : List (Value × α)) (k : Value) (v : α)
    (h : ∀ p ∈ acc, pyEq off p.1 k = false) : mapInsert off acc k v = acc ++ [(k, v)] := by
  induction acc with
  | nil => rfl
  | cons p rest ih =>
    obtain ⟨k', v'⟩ := p
    have h0 := h (k', v') (by simp)
    simp only [mapInsert, h0]
    simp [ih (fun p hp => h p (by simp [hp]))]

theorem mapFold_distinct {α : Type} (off : TzDb) (kvs acc : List (Value × α))
    (h : DistinctKeys off (acc ++ kvs)) :
    kvs.foldl (fun acc p => mapInsert off acc p.1 p.2) acc = acc ++ kvs := by
  induction kvs generalizing acc with
  | nil => simp
  | cons p rest ih =>
    obtain ⟨k, v⟩ := p
    have hk : ∀ p ∈ acc, pyEq off p.1 k = false := by
      intro p hp
      exact (List.pairwise_append.1 h).2.2 p hp (k, v) (by simp)
    simp only [List.foldl_cons]
    rw [mapInsert_append off acc k v hk, ih]
    · simp
    · simpa using h

theorem mapOfList_distinct {α : Type} (off : TzDb) (kvs : List (Value × α))
    (h : DistinctKeys off kvs) : mapOfList off kvs = kvs := by
  simpa [mapOfList] using mapFold_distinct off kvs [] (by simpa using h)

theorem mapInsert_keys {α : Type} (off : TzDb) (acc : List (Value × α)) (k : Value) (v : α) :
    (mapInsert off acc k v).map (·.1) =
      if acc.any (fun p => pyEq off p.1 k) then acc.map (·.1) else acc.map (·.1) ++ [k] := by
  induction acc with
  | nil => rfl
  | cons p rest ih =>
    obtain ⟨k', v'⟩ := p
    simp only [mapInsert, List.any_cons]
    by_cases h : pyEq off k' k = true
    · simp [h]
    · simp only [h, Bool.false_eq_true, if_false, Bool.false_or, List.map_cons, ih]
      split <;> simp

theorem distinctKeys_iff {α : Type} (off : TzDb) (kvs : List (Value × α)) :
    DistinctKeys off kvs ↔ (kvs.map (·.1)).Pairwise (fun a b => pyEq off a b = false) := by
  simp [DistinctKeys, List.pairwise_map]

theorem mapInsert_distinctKeys {α : Type} (off : TzDb) (acc : List (Value × α)) (k : Value)
    (v : α) (h : DistinctKeys off acc) : DistinctKeys off (mapInsert off acc k v) := by
  rw [distinctKeys_iff] at h ⊢
  rw [mapInsert_keys]
  split
  · exact h
  next hn =>
    rw [List.pairwise_append]
    refine ⟨h, by simp, ?_⟩
    intro a ha b hb
    simp only [List.mem_singleton] at hb
    subst hb
    simp only [List.any_eq_true, not_exists, not_and] at hn
    obtain ⟨p, hp, rfl⟩ := List.mem_map.1 ha
    simpa using hn p hp

theorem mapOfList_distinctKeys {α : Type} (off : TzDb) (kvs : List (Value × α)) :
    DistinctKeys off (mapOfList off kvs) := by
  suffices ∀ (kvs acc : List (Value × α)), DistinctKeys off acc →
      DistinctKeys off (kvs.foldl (fun acc p => mapInsert off acc p.1 p.2) acc) from
    this kvs [] (by simp [DistinctKeys])
  intro kvs
  induction kvs with
  | nil => intro acc h; exact h
  | cons p rest ih => intro acc h; exact ih _ (mapInsert_distinctKeys off acc p.1 p.2 h)

/-- a value on which `coerce_value` does nothing -/
def Fixed (off : TzDb) (v : Value) : Prop := coerce off v = v

theorem mapFold_fixed (off : TzDb) (kvs acc : List (Value × Value))
    (h : ∀ p ∈ kvs, Fixed off p.1 ∧ Fixed off p.2) (ha : ∀ p ∈ acc, Fixed off p.1 ∧ Fixed off p.2) :
    ∀ p ∈ kvs.foldl (fun acc p => mapInsert off acc p.1 p.2) acc, Fixed off p.1 ∧ Fixed off p.2 := by
  induction kvs generalizing acc with
  | nil => exact ha
  | cons p rest ih =>
    refine ih _ (fun q hq => h q (by simp [hq])) ?_
    intro q hq
    obtain ⟨h1, h2⟩ := mapInsert_mem off acc p.1 p.2 q hq
    constructor
    · rcases h1 with h' | ⟨r, hr, h'⟩
      · rw [h']; exact (h p (by simp)).1
      · rw [← h']; exact (ha r hr).1
    · rcases h2 with h' | ⟨r, hr, h'⟩
      · rw [h']; exact (h p (by simp)).2
      · rw [← h']; exact (ha r hr).2

theorem coercePairs_eq_map (off : TzDb) :
    ∀ kvs, coercePairs off kvs = kvs.map (fun p => (coerce off p.1, coerce off p.2))
  | [] => rfl
  | (k, v) :: rest => by simp [coercePairs, coercePairs_eq_map off rest]

theorem coerceList_eq_map (off : TzDb) : ∀ xs, coerceList off xs = xs.map (coerce off)
  | [] => rfl
  | x :: xs => by simp [coerceList, coerceList_eq_map off xs]

theorem coercePairs_fixed (off : TzDb) (kvs : List (Value × Value))
    (h : ∀ p ∈ kvs, Fixed off p.1 ∧ Fixed off p.2) : coercePairs off kvs = kvs := by
  rw [coercePairs_eq_map]
  conv_rhs => rw [← List.map_id kvs]
  apply List.map_congr_left
  intro p hp
  obtain ⟨h1, h2⟩ := h p hp
  simp only [id]
  rw [h1, h2]

mutual
/-- C11: `coerce_value` is idempotent. -/
theorem coerce_idem (off : TzDb) : ∀ v : Value, coerce off (coerce off v) = coerce off v
  | .none => by simp [coerce]
  | .bool _ => by simp [coerce]
  | .int _ => by simp [coerce]
  | .float _ => by simp [coerce]
  | .dec _ => by simp [coerce]
  | .str _ => by simp [coerce]
  | .bytes _ => by simp [coerce]
  | .date _ => by simp [coerce]
  | .datetime .. => by simp [coerce]
  | .timedelta _ => by simp [coerce]
  | .seq _ xs => by simp [coerce, coerceList_idem off xs]
  | .set _ => by simp [coerce]
  | .map _ kvs => by
    simp only [coerce, Value.map.injEq, true_and]
    rw [coercePairs_fixed off, mapOfList_distinct]
    · exact mapOfList_distinctKeys off _
    · exact mapFold_fixed off _ [] (coercePairs_idem off kvs) (by simp)
  | .builtinFn _ => by simp [coerce]
  | .userFn _ => by simp [coerce]
  | .method .. => by simp [coerce]
  | .obj _ => by simp [coerce]
  | .undef => by simp [coerce]
theorem coerceList_idem (off : TzDb) :
    ∀ xs, coerceList off (coerceList off xs) = coerceList off xs
  | [] => rfl
  | x :: xs => by simp [coerceList, coerce_idem off x, coerceList_idem off xs]
theorem coercePairs_idem (off : TzDb) :
    ∀ kvs, ∀ p ∈ coercePairs off kvs, Fixed off p.1 ∧ Fixed off p.2
  | [] => by simp [coercePairs]
  | (k, v) :: rest => by
    intro p hp
    simp only [coercePairs, List.mem_cons] at hp
    rcases hp with rfl | hp
    · exact ⟨coerce_idem off k, coerce_idem off v⟩
    · exact coercePairs_idem off rest p hp
end

mutual
/-- Specification: in every mapping, keys stay different from each other after conversion. -/
def KeysStayDistinct (off : TzDb) : Value → Prop
  | .seq _ xs => AllKeysStayDistinct off xs
  | .map _ kvs => (kvs.map (fun p => coerce off p.1)).Pairwise (fun a b => pyEq off a b = false) ∧
      PairsKeysStayDistinct off kvs
  | _ => True
def AllKeysStayDistinct (off : TzDb) : List Value → Prop
  | [] => True
  | x :: xs => KeysStayDistinct off x ∧ AllKeysStayDistinct off xs
def PairsKeysStayDistinct (off : TzDb) : List (Value × Value) → Prop
  | [] => True
  | (k, v) :: rest =>
    KeysStayDistinct off k ∧ KeysStayDistinct off v ∧ PairsKeysStayDistinct off rest
end

mutual
/-- C11 (partial: needs that conversion does not make two mapping keys equal): `coerce_value`
preserves the data type, including whether it has one. -/
theorem coerce_type_partial (off : TzDb) :
    ∀ v : Value, KeysStayDistinct off v → fromValue (coerce off v) = fromValue v
  | .none, _ => rfl
  | .bool _, _ => rfl
  | .int _, _ => rfl
  | .float _, _ => rfl
  | .dec _, _ => rfl
  | .str _, _ => rfl
  | .bytes _, _ => rfl
  | .date _, _ => rfl
  | .datetime .., _ => rfl
  | .timedelta _, _ => rfl
  | .seq _ xs, h => by
    simp only [coerce, fromValue, coerceList_types off xs (by simpa [KeysStayDistinct] using h)]
  | .set _, _ => rfl
  | .map _ kvs, h => by
    simp only [KeysStayDistinct] at h
    have hd : mapOfList off (coercePairs off kvs) = coercePairs off kvs := by
      apply mapOfList_distinct
      rw [distinctKeys_iff, coercePairs_eq_map, List.map_map]
      exact h.1
    obtain ⟨h1, h2⟩ := coercePairs_types off kvs h.2
    simp only [coerce, fromValue, hd, h1, h2]
  | .builtinFn _, _ => rfl
  | .userFn _, _ => rfl
  | .method .., _ => rfl
  | .obj _, _ => rfl
  | .undef, _ => rfl
theorem coerceList_types (off : TzDb) :
    ∀ xs, AllKeysStayDistinct off xs → typesOf (coerceList off xs) = typesOf xs
  | [], _ => rfl
  | x :: xs, h => by
    simp only [coerceList, typesOf, coerce_type_partial off x h.1, coerceList_types off xs h.2]
theorem coercePairs_types (off : TzDb) :
    ∀ kvs, PairsKeysStayDistinct off kvs →
      typesOfKeys (coercePairs off kvs) = typesOfKeys kvs ∧
      typesOfVals (coercePairs off kvs) = typesOfVals kvs
  | [], _ => ⟨rfl, rfl⟩
  | (k, v) :: rest, h => by
    obtain ⟨h1, h2, h3⟩ := h
    obtain ⟨e1, e2⟩ := coercePairs_types off rest h3
    simp only [coercePairs, typesOfKeys, typesOfVals, coerce_type_partial off k h1,
      coerce_type_partial off v h2, e1, e2, and_self]
end

/-- C11, negative: without that hypothesis the type can change.  The float `0.1` and
`Decimal('0.1')` are different keys, but are both converted to `Decimal('0.1')`. -/
theorem coerce_type_false : ∃ (off : TzDb) (v : Value),
    DistinctKeys off (match v with | .map _ kvs => kvs | _ => []) ∧
    fromValue v = .ok (.mapping .float .undefined true) ∧
    fromValue (coerce off v) = .ok (.mapping .float .float true) := by
  refine ⟨fun _ _ => ⟨0, false⟩, .map .dict
    [(.float ⟨.fin false 1000000000000000055511151231257827021181583404541015625 (-55),
        .fin false 1 (-1)⟩, .str "a"),
     (.dec (.fin false 1 (-1)), .int 1)], ?_, by decide +kernel, by decide +kernel⟩
  simp only [DistinctKeys, List.pairwise_cons, List.mem_cons, List.not_mem_nil, or_false, forall_eq,
    IsEmpty.forall_iff, implies_true, List.Pairwise.nil, and_true]
  decide +kernel

/-- non-vacuity of `KeysStayDistinct` on a mapping -/
example : KeysStayDistinct (fun _ _ => ⟨0, false⟩) (.map .dict [(.int 1, .seq .list [.int 2]), (.int 3, .none)]) := by
  refine ⟨?_, ?_⟩
  · simp only [List.map, List.pairwise_cons]
    refine ⟨?_, by simp⟩
    intro a ha
    simp only [List.mem_cons, List.not_mem_nil, or_false] at ha
    subst ha; decide +kernel
  · simp [PairsKeysStayDistinct, KeysStayDistinct, AllKeysStayDistinct]

/-- C11: with verification, `coerce_value` succeeds exactly on values that (after conversion) have a
data type, and then returns the same conversion. -/
theorem coerceVerify_iff (off : TzDb) (v w : Value) :
    coerceVerify off v = .ok w ↔ w = coerce off v ∧ ∃ t, fromValue w = .ok t := by
  unfold coerceVerify
  simp only [except_bind_ok]
  constructor
  · rintro ⟨t, ht, h⟩
    simp only [Except.ok.injEq] at h
    subst h
    exact ⟨rfl, t, ht⟩
  · rintro ⟨rfl, t, ht⟩
    exact ⟨t, ht, rfl⟩

end RE
