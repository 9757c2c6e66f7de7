import Verif.Model.TypeDefs
import Verif.Props.Types

/-!
# Data type definitions as values (C60)
-/

set_option linter.unusedSimpArgs false

namespace RE

/-! ### Equality -/

mutual
theorem TypeObj.eq_refl : ∀ a : TypeObj, TypeObj.eq a a = true
  | .array a n => by simp [TypeObj.eq, TypeObj.eq_refl a]
  | .function x r as m => by simp [TypeObj.eq, TypeObj.eq_refl r, TypeObj.eqArgs_refl as]
  | .mapping k v n => by simp [TypeObj.eq, TypeObj.eq_refl k, TypeObj.eq_refl v]
  | .set a n => by simp [TypeObj.eq, TypeObj.eq_refl a]
  | .bytes | .boolean | .datetime | .float | .null | .string | .timedelta | .undefined => by simp [TypeObj.eq]
theorem TypeObj.eqArgs_refl : ∀ a : Option (Bool × List TypeObj), TypeObj.eqArgs a a = true
  | none => rfl
  | some (l, ts) => by simp [TypeObj.eqArgs, TypeObj.eqList_refl ts]
theorem TypeObj.eqList_refl : ∀ a : List TypeObj, TypeObj.eqList a a = true
  | [] => rfl
  | t :: ts => by simp [TypeObj.eqList, TypeObj.eq_refl t, TypeObj.eqList_refl ts]
end

mutual
/-- the definition without the names of functions -/
def TypeObj.unnamed : TypeObj → TypeObj
  | .array a n => .array a.unnamed n
  | .function _ r as m => .function "" r.unnamed (TypeObj.unnamedArgs as) m
  | .mapping k v n => .mapping k.unnamed v.unnamed n
  | .set a n => .set a.unnamed n
  | .bytes => .bytes
  | .boolean => .boolean
  | .datetime => .datetime
  | .float => .float
  | .null => .null
  | .string => .string
  | .timedelta => .timedelta
  | .undefined => .undefined
/-- the argument types without names -/
def TypeObj.unnamedArgs : Option (Bool × List TypeObj) → Option (Bool × List TypeObj)
  | none => none
  | some (l, ts) => some (l, TypeObj.unnamedList ts)
/-- a list of types without names -/
def TypeObj.unnamedList : List TypeObj → List TypeObj
  | [] => []
  | t :: ts => t.unnamed :: TypeObj.unnamedList ts
end

mutual
/-- **C60.** `==` of two definitions says that they are the same but for the names of functions. -/
theorem typeObj_eq_iff : ∀ a b : TypeObj, TypeObj.eq a b = true ↔ a.unnamed = b.unnamed
  | .array a n, b => by cases b <;> simp [TypeObj.eq, TypeObj.unnamed, typeObj_eq_iff a]
  | .function x r as m, b => by
    cases b <;> simp [TypeObj.eq, TypeObj.unnamed, typeObj_eq_iff r, typeObj_eqArgs_iff as, and_assoc]
  | .mapping k v n, b => by
    cases b <;> simp [TypeObj.eq, TypeObj.unnamed, typeObj_eq_iff k, typeObj_eq_iff v, and_assoc]
  | .set a n, b => by cases b <;> simp [TypeObj.eq, TypeObj.unnamed, typeObj_eq_iff a]
  | .bytes, b => by cases b <;> simp [TypeObj.eq, TypeObj.unnamed]
  | .boolean, b => by cases b <;> simp [TypeObj.eq, TypeObj.unnamed]
  | .datetime, b => by cases b <;> simp [TypeObj.eq, TypeObj.unnamed]
  | .float, b => by cases b <;> simp [TypeObj.eq, TypeObj.unnamed]
  | .null, b => by cases b <;> simp [TypeObj.eq, TypeObj.unnamed]
  | .string, b => by cases b <;> simp [TypeObj.eq, TypeObj.unnamed]
  | .timedelta, b => by cases b <;> simp [TypeObj.eq, TypeObj.unnamed]
  | .undefined, b => by cases b <;> simp [TypeObj.eq, TypeObj.unnamed]
theorem typeObj_eqArgs_iff : ∀ a b : Option (Bool × List TypeObj),
    TypeObj.eqArgs a b = true ↔ TypeObj.unnamedArgs a = TypeObj.unnamedArgs b
  | none, b => by rcases b with _ | ⟨l, ts⟩ <;> simp [TypeObj.eqArgs, TypeObj.unnamedArgs]
  | some (l, ts), b => by
    rcases b with _ | ⟨l', ts'⟩ <;> simp [TypeObj.eqArgs, TypeObj.unnamedArgs, typeObj_eqList_iff ts]
theorem typeObj_eqList_iff : ∀ a b : List TypeObj,
    TypeObj.eqList a b = true ↔ TypeObj.unnamedList a = TypeObj.unnamedList b
  | [], b => by cases b <;> simp [TypeObj.eqList, TypeObj.unnamedList]
  | t :: ts, b => by cases b <;> simp [TypeObj.eqList, TypeObj.unnamedList, typeObj_eq_iff t, typeObj_eqList_iff ts]
end

/-- **C60.** `==` is an equivalence relation on definitions. -/
theorem typeObj_equivalence : Equivalence (fun a b : TypeObj => TypeObj.eq a b = true) where
  refl := TypeObj.eq_refl
  symm h := (typeObj_eq_iff _ _).2 ((typeObj_eq_iff _ _).1 h).symm
  trans h h' := (typeObj_eq_iff _ _).2 (((typeObj_eq_iff _ _).1 h).trans ((typeObj_eq_iff _ _).1 h'))

/-! ### Hashes -/

mutual
theorem hashKey_unnamed : ∀ a : TypeObj, a.unnamed.hashKey = a.hashKey
  | .array a n => by simp [TypeObj.hashKey, TypeObj.unnamed, hashKey_unnamed a]
  | .function x r as m => by simp [TypeObj.hashKey, TypeObj.unnamed, hashKey_unnamed r, hashArgs_unnamed as]
  | .mapping k v n => by simp [TypeObj.hashKey, TypeObj.unnamed, hashKey_unnamed k, hashKey_unnamed v]
  | .set a n => by simp [TypeObj.hashKey, TypeObj.unnamed, hashKey_unnamed a]
  | .bytes | .boolean | .datetime | .float | .null | .string | .timedelta | .undefined => by simp [TypeObj.unnamed]
theorem hashArgs_unnamed : ∀ a : Option (Bool × List TypeObj), TypeObj.hashArgs (TypeObj.unnamedArgs a) = TypeObj.hashArgs a
  | none => rfl
  | some (true, ts) => rfl
  | some (false, ts) => by simp [TypeObj.hashArgs, TypeObj.unnamedArgs, hashList_unnamed ts]
theorem hashList_unnamed : ∀ a : List TypeObj, TypeObj.hashList (TypeObj.unnamedList a) = TypeObj.hashList a
  | [] => rfl
  | t :: ts => by simp [TypeObj.hashList, TypeObj.unnamedList, hashKey_unnamed t, hashList_unnamed ts]
end

/-- **C60.** Equal definitions have equal hashes, whatever `hash` makes of tuples, and are hashable together: definitions
can be members of sets and keys of dictionaries. -/
theorem equal_types_equal_hashes {a b : TypeObj} (h : TypeObj.eq a b = true) (hash : HashKey → Int) :
    a.hashKey.map hash = b.hashKey.map hash := by
  rw [← hashKey_unnamed a, ← hashKey_unnamed b, (typeObj_eq_iff a b).1 h]

mutual
/-- some FUNCTION in the definition was given its argument types as a list -/
def TypeObj.HasList : TypeObj → Prop
  | .array a _ | .set a _ => a.HasList
  | .function _ r as _ => r.HasList ∨ TypeObj.HasListArgs as
  | .mapping k v _ => k.HasList ∨ v.HasList
  | _ => False
/-- the argument types are a list, or contain such a definition -/
def TypeObj.HasListArgs : Option (Bool × List TypeObj) → Prop
  | none => False
  | some (l, ts) => l = true ∨ TypeObj.HasListIn ts
/-- one of the types contains such a definition -/
def TypeObj.HasListIn : List TypeObj → Prop
  | [] => False
  | t :: ts => t.HasList ∨ TypeObj.HasListIn ts
end

mutual
/-- **C60.** A definition can be hashed unless a FUNCTION in it was given its argument types as a list. -/
theorem hashable_iff : ∀ a : TypeObj, (∃ k, a.hashKey = some k) ↔ ¬ a.HasList
  | .array a n => by
    rw [TypeObj.HasList, ← hashable_iff a]; cases h : a.hashKey <;> simp [TypeObj.hashKey, h]
  | .set a n => by
    rw [TypeObj.HasList, ← hashable_iff a]; cases h : a.hashKey <;> simp [TypeObj.hashKey, h]
  | .mapping k v n => by
    rw [TypeObj.HasList, not_or, ← hashable_iff k, ← hashable_iff v]
    cases h : k.hashKey <;> cases h' : v.hashKey <;> simp [TypeObj.hashKey, h, h']
  | .function x r as m => by
    rw [TypeObj.HasList, not_or, ← hashable_iff r, ← hashableArgs_iff as]
    cases h : r.hashKey <;> cases h' : TypeObj.hashArgs as <;> simp [TypeObj.hashKey, h, h']
  | .bytes | .boolean | .datetime | .float | .null | .string | .timedelta | .undefined => by
    simp [TypeObj.hashKey, TypeObj.HasList]
theorem hashableArgs_iff : ∀ a : Option (Bool × List TypeObj), (∃ k, TypeObj.hashArgs a = some k) ↔ ¬ TypeObj.HasListArgs a
  | none => by simp [TypeObj.hashArgs, TypeObj.HasListArgs]
  | some (true, ts) => by simp [TypeObj.hashArgs, TypeObj.HasListArgs]
  | some (false, ts) => by
    have := hashableList_iff ts
    simp only [TypeObj.HasListArgs, Bool.false_eq_true, false_or, ← this]
    cases h : TypeObj.hashList ts <;> simp [TypeObj.hashArgs, h]
theorem hashableList_iff : ∀ a : List TypeObj, (∃ k, TypeObj.hashList a = some k) ↔ ¬ TypeObj.HasListIn a
  | [] => by simp [TypeObj.hashList, TypeObj.HasListIn]
  | t :: ts => by
    rw [TypeObj.HasListIn, not_or, ← hashable_iff t, ← hashableList_iff ts]
    cases h : t.hashKey <;> cases h' : TypeObj.hashList ts <;> simp [TypeObj.hashList, h, h']
end

/-- The hashes do separate the constants, and equal definitions need not be the same object: two functions of the same
signature with different names are equal and hash alike; the same signature as a list and as a tuple is not equal, and
with a list there is no hash. -/
theorem hash_witness :
    let f (n : String) (l : Bool) := TypeObj.function n .float (some (l, [.array .string true])) (some 1)
    TypeObj.eq (f "f" false) (f "g" false) = true ∧ TypeObj.eq (f "f" false) (f "f" true) = false ∧
    (∃ k, (f "f" false).hashKey = some k) ∧ (f "f" true).hashKey = none ∧
    TypeObj.bytes.hashKey ≠ TypeObj.string.hashKey := by
  refine ⟨rfl, rfl, ⟨_, rfl⟩, rfl, ?_⟩
  simp [TypeObj.hashKey]

/-! ### The rest of the model's view -/

mutual
theorem toDataType_unnamed : ∀ a : TypeObj, a.unnamed.toDataType = a.toDataType.anon
  | .array a n => by simp [TypeObj.toDataType, TypeObj.unnamed, DataType.anon, toDataType_unnamed a]
  | .function x r as m => by
    simp [TypeObj.toDataType, TypeObj.unnamed, DataType.anon, toDataType_unnamed r, toArgs_unnamed as]
  | .mapping k v n => by
    simp [TypeObj.toDataType, TypeObj.unnamed, DataType.anon, toDataType_unnamed k, toDataType_unnamed v]
  | .set a n => by simp [TypeObj.toDataType, TypeObj.unnamed, DataType.anon, toDataType_unnamed a]
  | .bytes | .boolean | .datetime | .float | .null | .string | .timedelta | .undefined => by
    simp [TypeObj.toDataType, TypeObj.unnamed, DataType.anon]
theorem toArgs_unnamed : ∀ a : Option (Bool × List TypeObj),
    TypeObj.toArgs (TypeObj.unnamedArgs a) = DataType.anonArgs (TypeObj.toArgs a)
  | none => by simp [TypeObj.toArgs, TypeObj.unnamedArgs, DataType.anonArgs]
  | some (l, ts) => by simp [TypeObj.toArgs, TypeObj.unnamedArgs, DataType.anonArgs, toTypes_unnamed ts]
theorem toTypes_unnamed : ∀ a : List TypeObj,
    TypeObj.toTypes (TypeObj.unnamedList a) = DataType.anonList (TypeObj.toTypes a)
  | [] => by simp [TypeObj.toTypes, TypeObj.unnamedList, DataType.anonList]
  | t :: ts => by simp [TypeObj.toTypes, TypeObj.unnamedList, DataType.anonList, toDataType_unnamed t, toTypes_unnamed ts]
end

/-- Definitions that are equal are equal in the rest of the model, where a list of argument types is a tuple. -/
theorem toDataType_eq {a b : TypeObj} (h : TypeObj.eq a b = true) : DataType.eq a.toDataType b.toDataType = true := by
  rw [dataType_eq_iff, ← toDataType_unnamed, ← toDataType_unnamed, (typeObj_eq_iff a b).1 h]

/-! ### Constructors -/

/-- **C60.** `DataType.FUNCTION(name, …)`: with argument types and no minimum every argument is required; a minimum over
the number of arguments is a ValueError; argument types that are no sequence are a TypeError; without argument types
anything may be given. -/
theorem function_type (name : String) (ret : TypeObj) (l : Bool) (ts : List TypeObj) (m : Nat) :
    mkFunctionType name ret (.sequence l ts) none = .ok (.function name ret (some (l, ts)) (some ts.length)) ∧
    (m ≤ ts.length → mkFunctionType name ret (.sequence l ts) (some m) = .ok (.function name ret (some (l, ts)) (some m))) ∧
    (ts.length < m → mkFunctionType name ret (.sequence l ts) (some m) = .error (.py .valueError)) ∧
    (∀ k, mkFunctionType name ret .other k = .error .typeError) ∧
    ∀ k, mkFunctionType name ret .unspecified k = .ok (.function name ret none k) := by
  refine ⟨by simp [mkFunctionType], fun h => ?_, fun h => ?_, fun _ => rfl, fun _ => rfl⟩
  · simp [mkFunctionType, Nat.not_lt.2 h]
  · simp [mkFunctionType, h]

/-- **C60.** `DataType.MAPPING(key, …)` is refused with EngineError exactly if the keys are SETs or MAPPINGs, and agrees
with the constructor used in the rest of the model. -/
theorem mapping_type (k v : TypeObj) (n : Bool) :
    (mkMappingObj k v n = .ok (.mapping k v n) ↔ ∀ t b, k ≠ .set t b ∧ ∀ u, k ≠ .mapping t u b) ∧
    (mkMappingObj k v n = .error (.eng .engine) ↔ ¬ ∀ t b, k ≠ .set t b ∧ ∀ u, k ≠ .mapping t u b) ∧
    (mkMappingObj k v n).map TypeObj.toDataType = mkMappingType k.toDataType v.toDataType n := by
  cases k <;> simp [mkMappingObj, mkMappingType, TypeObj.toDataType, Except.map, DataType.isCompound, DataType.isScalar,
    DataType.isArray]

/-! ### Names -/

/-- a lookup in a table without repeated names finds the entries of the table -/
theorem lookup_table {β : Type} {name : String} {v : β} : ∀ {l : List (String × β)}, (l.map (·.1)).Nodup →
    (l.lookup name = some v ↔ (name, v) ∈ l)
  | [], _ => by simp
  | (n, w) :: l, h => by
    simp only [List.map_cons, List.nodup_cons, List.mem_map, not_exists, not_and] at h
    rw [List.lookup_cons, List.mem_cons]
    by_cases hn : name = n
    · subst hn
      simp only [beq_self_eq_true, if_true, Option.some.injEq, Prod.mk.injEq, true_and]
      constructor
      · intro h; exact .inl h.symm
      · rintro (h' | h')
        · exact h'.symm
        · exact (h.1 _ h' rfl).elim
    · rw [show (name == n) = false by simpa using hn]
      simp only [Prod.mk.injEq, hn, false_and, false_or]
      exact lookup_table h.2

/-- the names of the constants are distinct -/
theorem typeConstants_nodup : (typeConstants.map (·.1)).Nodup := by decide

/-- **C60.** `DataType.from_name` gives the twelve constants by their names, and ValueError for every other text. -/
theorem from_name_iff (s : String) (t : TypeObj) :
    (fromName (.str s) = .ok t ↔ (s, t) ∈ typeConstants) ∧
    ((∀ t, (s, t) ∉ typeConstants) → fromName (.str s) = .error (.py .valueError)) ∧
    fromName .other = .error .typeError := by
  have hl : ∀ t, typeConstants.lookup s = some t ↔ (s, t) ∈ typeConstants := fun t => lookup_table typeConstants_nodup
  refine ⟨?_, fun h => ?_, rfl⟩
  · rw [← hl]; simp only [fromName]; cases typeConstants.lookup s <;> simp
  · simp only [fromName]
    cases hk : typeConstants.lookup s with
    | none => rfl
    | some t => exact (h t ((hl t).1 hk)).elim

/-- **C60.** The class is a container of its constants: `DataType[name]` gives the same as `from_name`, and KeyError
exactly for the names that iteration does not list. -/
theorem type_container (s : String) (t : TypeObj) :
    (typeGetItem s = .ok t ↔ fromName (.str s) = .ok t) ∧
    (typeGetItem s = .error (.py .keyError) ↔ s ∉ typeNames) ∧
    typeNames.Nodup ∧ typeNames.length = 12 := by
  have hl : ∀ t, typeConstants.lookup s = some t ↔ (s, t) ∈ typeConstants := fun t => lookup_table typeConstants_nodup
  refine ⟨?_, ?_, typeConstants_nodup, rfl⟩
  · rw [(from_name_iff s t).1]
    by_cases hs : s ∈ typeNames
    · simp only [typeGetItem, List.contains_iff_mem, hs, if_true, ← hl]
      cases typeConstants.lookup s <;> simp
    · simp only [typeGetItem, List.contains_iff_mem, hs, if_false]
      constructor
      · intro h; cases h
      · intro h; exact (hs (List.mem_map.2 ⟨_, h, rfl⟩)).elim
  · by_cases hs : s ∈ typeNames
    · simp only [typeGetItem, List.contains_iff_mem, hs, if_true, not_true, iff_false]
      cases typeConstants.lookup s <;> simp
    · simp [typeGetItem, hs]

/-- The hypotheses are met: FLOAT is found, `float` is not, and neither is `from_name`. -/
theorem from_name_sample : fromName (.str "FLOAT") = .ok .float ∧ fromName (.str "float") = .error (.py .valueError) ∧
    fromName (.str "from_name") = .error (.py .valueError) ∧ ("FLOAT", TypeObj.float) ∈ typeConstants :=
  ⟨rfl, rfl, rfl, by simp [typeConstants]⟩

end RE
