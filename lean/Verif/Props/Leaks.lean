import Verif.Props.Normal

/-!
# Which operand values make an operator raise something other than an EngineError (C29)

Tables of the operand pairs, per operator, and the proof that they are exact for the normalised values
that reach operators.
-/

set_option linter.unusedSimpArgs false
set_option linter.unusedVariables false

namespace RE

/-- **Specification.** Somewhere inside the value is an object without data type. -/
inductive Value.Foreign : Value → Prop
  | obj (i : Nat) : Value.Foreign (.obj i)
  | undef : Value.Foreign .undef
  | seq {k : SeqKind} {xs : List Value} {x : Value} : x ∈ xs → x.Foreign → Value.Foreign (.seq k xs)
  | set {xs : List Value} {x : Value} : x ∈ xs → x.Foreign → Value.Foreign (.set xs)
  | key {k : MapKind} {kvs : List (Value × Value)} {p : Value × Value} :
      p ∈ kvs → p.1.Foreign → Value.Foreign (.map k kvs)
  | val {k : MapKind} {kvs : List (Value × Value)} {p : Value × Value} :
      p ∈ kvs → p.2.Foreign → Value.Foreign (.map k kvs)

mutual
theorem foreign_of_error : ∀ (v : Value) {k : PyErr}, fromValue v = .error (.py k) → v.Foreign
  | .bool _, _, h | .bytes _, _, h | .date _, _, h | .datetime .., _, h | .timedelta _, _, h
  | .dec _, _, h | .float _, _, h | .int _, _, h | .none, _, h | .str _, _, h | .builtinFn _, _, h
  | .userFn _, _, h | .method .., _, h => by cases h
  | .obj i, _, h => .obj i
  | .undef, _, h => .undef
  | .set xs, e, h => by
    simp only [fromValue, except_bind_error] at h
    rcases h with h | ⟨_, -, h⟩
    · obtain ⟨x, hx, hf⟩ := foreigns_of_error xs h
      exact .set hx hf
    · cases h
  | .seq _ xs, e, h => by
    simp only [fromValue, except_bind_error] at h
    rcases h with h | ⟨_, -, h⟩
    · obtain ⟨x, hx, hf⟩ := foreigns_of_error xs h
      exact .seq hx hf
    · cases h
  | .map _ kvs, e, h => by
    simp only [fromValue, except_bind_error] at h
    rcases h with h | ⟨_, -, h | ⟨_, -, h⟩⟩
    · obtain ⟨x, hx, hf⟩ := foreignk_of_error kvs h
      exact .key hx hf
    · obtain ⟨x, hx, hf⟩ := foreignv_of_error kvs h
      exact .val hx hf
    · unfold mkMappingType at h
      split at h <;> cases h
theorem foreigns_of_error : ∀ (xs : List Value) {k : PyErr}, typesOf xs = .error (.py k) → ∃ x ∈ xs, x.Foreign
  | [], _, h => by cases h
  | x :: xs, e, h => by
    simp only [typesOf, except_bind_error] at h
    rcases h with h | ⟨_, -, h | ⟨_, -, h⟩⟩
    · exact ⟨x, by simp, foreign_of_error x h⟩
    · obtain ⟨y, hy, hf⟩ := foreigns_of_error xs h
      exact ⟨y, by simp [hy], hf⟩
    · cases h
theorem foreignk_of_error : ∀ (xs : List (Value × Value)) {k : PyErr}, typesOfKeys xs = .error (.py k) →
    ∃ p ∈ xs, p.1.Foreign
  | [], _, h => by cases h
  | (x, v) :: xs, e, h => by
    simp only [typesOfKeys, except_bind_error] at h
    rcases h with h | ⟨_, -, h | ⟨_, -, h⟩⟩
    · exact ⟨(x, v), by simp, foreign_of_error x h⟩
    · obtain ⟨y, hy, hf⟩ := foreignk_of_error xs h
      exact ⟨y, List.mem_cons_of_mem _ hy, hf⟩
    · cases h
theorem foreignv_of_error : ∀ (xs : List (Value × Value)) {k : PyErr}, typesOfVals xs = .error (.py k) →
    ∃ p ∈ xs, p.2.Foreign
  | [], _, h => by cases h
  | (k, x) :: xs, e, h => by
    simp only [typesOfVals, except_bind_error] at h
    rcases h with h | ⟨_, -, h | ⟨_, -, h⟩⟩
    · exact ⟨(k, x), by simp, foreign_of_error x h⟩
    · obtain ⟨y, hy, hf⟩ := foreignv_of_error xs h
      exact ⟨y, List.mem_cons_of_mem _ hy, hf⟩
    · cases h
end

theorem typesOf_ok_mem : ∀ {xs : List Value} {ts : List DataType}, typesOf xs = .ok ts → ∀ x ∈ xs, ∃ t, fromValue x = .ok t
  | [], _, _, _, hx => by simp at hx
  | y :: ys, ts, h, x, hx => by
    simp only [typesOf, except_bind_ok] at h
    obtain ⟨t, ht, us, hus, -⟩ := h
    rcases List.mem_cons.1 hx with rfl | hx
    · exact ⟨t, ht⟩
    · exact typesOf_ok_mem hus x hx
theorem typesOfKeys_ok_mem : ∀ {xs : List (Value × Value)} {ts : List DataType}, typesOfKeys xs = .ok ts →
    ∀ p ∈ xs, ∃ t, fromValue p.1 = .ok t
  | [], _, _, _, hx => by simp at hx
  | (y, w) :: ys, ts, h, x, hx => by
    simp only [typesOfKeys, except_bind_ok] at h
    obtain ⟨t, ht, us, hus, -⟩ := h
    rcases List.mem_cons.1 hx with rfl | hx
    · exact ⟨t, ht⟩
    · exact typesOfKeys_ok_mem hus x hx
theorem typesOfVals_ok_mem : ∀ {xs : List (Value × Value)} {ts : List DataType}, typesOfVals xs = .ok ts →
    ∀ p ∈ xs, ∃ t, fromValue p.2 = .ok t
  | [], _, _, _, hx => by simp at hx
  | (y, w) :: ys, ts, h, x, hx => by
    simp only [typesOfVals, except_bind_ok] at h
    obtain ⟨t, ht, us, hus, -⟩ := h
    rcases List.mem_cons.1 hx with rfl | hx
    · exact ⟨t, ht⟩
    · exact typesOfVals_ok_mem hus x hx

/-- a value with a foreign object in it has no data type -/
theorem Value.Foreign.untyped {v : Value} (h : v.Foreign) : ∀ t, fromValue v ≠ .ok t := by
  induction h with
  | obj i => intro t ht; cases ht
  | undef => intro t ht; cases ht
  | seq hx hf ih =>
    intro t ht
    simp only [fromValue, except_bind_ok] at ht
    obtain ⟨ts, hts, -⟩ := ht
    obtain ⟨u, hu⟩ := typesOf_ok_mem hts _ hx
    exact ih u hu
  | set hx hf ih =>
    intro t ht
    simp only [fromValue, except_bind_ok] at ht
    obtain ⟨ts, hts, -⟩ := ht
    obtain ⟨u, hu⟩ := typesOf_ok_mem hts _ hx
    exact ih u hu
  | key hx hf ih =>
    intro t ht
    simp only [fromValue, except_bind_ok] at ht
    obtain ⟨ts, hts, -⟩ := ht
    obtain ⟨u, hu⟩ := typesOfKeys_ok_mem hts _ hx
    exact ih u hu
  | val hx hf ih =>
    intro t ht
    simp only [fromValue, except_bind_ok] at ht
    obtain ⟨ks, hks, ts, hts, -⟩ := ht
    obtain ⟨u, hu⟩ := typesOfVals_ok_mem hts _ hx
    exact ih u hu

theorem mapOfList_mem {α : Type} (off : TzDb) (kvs : List (Value × α)) :
    ∀ p ∈ mapOfList off kvs, (∃ q ∈ kvs, q.1 = p.1) ∧ ∃ q ∈ kvs, q.2 = p.2 := by
  have : ∀ (kvs acc : List (Value × α)) (p : Value × α),
      p ∈ kvs.foldl (fun acc q => mapInsert off acc q.1 q.2) acc →
      (∃ q ∈ acc ++ kvs, q.1 = p.1) ∧ ∃ q ∈ acc ++ kvs, q.2 = p.2 := by
    intro kvs
    induction kvs with
    | nil => intro acc p hp; simp only [List.foldl_nil] at hp; simp only [List.append_nil]; exact ⟨⟨p, hp, rfl⟩, ⟨p, hp, rfl⟩⟩
    | cons q rest ih =>
      intro acc p hp
      simp only [List.foldl_cons] at hp
      obtain ⟨⟨a, ha, h1⟩, ⟨b, hb, h2⟩⟩ := ih _ p hp
      constructor
      · rcases List.mem_append.1 ha with ha | ha
        · rcases (mapInsert_mem off acc q.1 q.2 a ha).1 with h | ⟨c, hc, h⟩
          · exact ⟨q, by simp, by rw [← h1, h]⟩
          · exact ⟨c, by simp [hc], by rw [← h1, h]⟩
        · exact ⟨a, by simp [ha], h1⟩
      · rcases List.mem_append.1 hb with hb | hb
        · rcases (mapInsert_mem off acc q.1 q.2 b hb).2 with h | ⟨c, hc, h⟩
          · exact ⟨q, by simp, by rw [← h2, h]⟩
          · exact ⟨c, by simp [hc], by rw [← h2, h]⟩
        · exact ⟨b, by simp [hb], h2⟩
  intro p hp
  simpa using this kvs [] p hp

theorem coerceList_mem (off : TzDb) : ∀ {xs : List Value} {y : Value}, y ∈ coerceList off xs → ∃ x ∈ xs, y = coerce off x
  | [], _, h => by simp [coerceList] at h
  | x :: xs, y, h => by
    rcases List.mem_cons.1 h with rfl | h
    · exact ⟨x, by simp, rfl⟩
    · obtain ⟨z, hz, rfl⟩ := coerceList_mem off h
      exact ⟨z, by simp [hz], rfl⟩
theorem coercePairs_mem (off : TzDb) : ∀ {xs : List (Value × Value)} {y : Value × Value}, y ∈ coercePairs off xs →
    ∃ x ∈ xs, y = (coerce off x.1, coerce off x.2)
  | [], _, h => by simp [coercePairs] at h
  | (k, v) :: xs, y, h => by
    rcases List.mem_cons.1 h with rfl | h
    · exact ⟨(k, v), by simp, rfl⟩
    · obtain ⟨z, hz, rfl⟩ := coercePairs_mem off h
      exact ⟨z, List.mem_cons_of_mem _ hz, rfl⟩

/-- coercion does not bring in foreign objects -/
theorem foreign_of_coerce (off : TzDb) : ∀ v : Value, (coerce off v).Foreign → v.Foreign
  | .seq k xs, h => by
    simp only [coerce] at h
    cases h with
    | seq hx hf =>
      obtain ⟨x, hm, rfl⟩ := coerceList_mem off hx
      have := List.sizeOf_lt_of_mem hm
      exact .seq hm (foreign_of_coerce off x hf)
  | .map k kvs, h => by
    simp only [coerce] at h
    cases h with
    | key hx hf =>
      obtain ⟨⟨q, hq, he⟩, -⟩ := mapOfList_mem off _ _ hx
      obtain ⟨p, hp, rfl⟩ := coercePairs_mem off hq
      rw [← he] at hf
      have : sizeOf p.1 < sizeOf kvs := by
        have h1 := List.sizeOf_lt_of_mem hp
        have h2 : sizeOf p.1 < sizeOf p := by obtain ⟨a, b⟩ := p; simp only [Prod.mk.sizeOf_spec]; omega
        omega
      exact .key hp (foreign_of_coerce off p.1 hf)
    | val hx hf =>
      obtain ⟨-, ⟨q, hq, he⟩⟩ := mapOfList_mem off _ _ hx
      obtain ⟨p, hp, rfl⟩ := coercePairs_mem off hq
      rw [← he] at hf
      have : sizeOf p.2 < sizeOf kvs := by
        have h1 := List.sizeOf_lt_of_mem hp
        have h2 : sizeOf p.2 < sizeOf p := by obtain ⟨a, b⟩ := p; simp only [Prod.mk.sizeOf_spec]; omega
        omega
      exact .val hp (foreign_of_coerce off p.2 hf)
  | .date d, h => by cases h
  | .float f, h => by cases h
  | .int i, h => by cases h
  | .none, h | .bool _, h | .dec _, h | .str _, h | .bytes _, h | .datetime .., h | .timedelta _, h
  | .builtinFn _, h | .userFn _, h | .method .., h | .obj _, h | .undef, h | .set _, h => h
termination_by v => sizeOf v
decreasing_by
  all_goals simp_wf
  all_goals omega

theorem foreign_of_localise (env : Env) {v : Value} (h : (localise env v).Foreign) : v.Foreign := by
  unfold localise at h
  split at h
  · cases h
  · exact h

theorem foreign_of_newValue (env : Env) {v : Value} (h : (newValue env v).Foreign) : v.Foreign :=
  foreign_of_coerce _ _ (foreign_of_localise env h)

/-- a computation raises something other than an EngineError -/
def Except.Leaks {α : Type} (x : Except Err α) : Prop := ∃ k, x = .error (.py k)

theorem leaks_bind {α β : Type} {x : Except Err α} {f : α → Except Err β} :
    Except.Leaks (x >>= f) ↔ Except.Leaks x ∨ ∃ a, x = .ok a ∧ Except.Leaks (f a) := by
  constructor
  · rintro ⟨k, hk⟩
    rw [except_bind_error] at hk
    rcases hk with h | ⟨a, h1, h2⟩
    · exact .inl ⟨k, h⟩
    · exact .inr ⟨a, h1, k, h2⟩
  · rintro (⟨k, hk⟩ | ⟨a, h1, k, h2⟩)
    · exact ⟨k, by rw [hk]; rfl⟩
    · exact ⟨k, by rw [h1]; exact h2⟩

@[simp] theorem not_leaks_ok {α : Type} {a : α} : ¬Except.Leaks (.ok a : Except Err α) := by rintro ⟨k, hk⟩; cases hk
@[simp] theorem not_leaks_eng {α : Type} {e : EngErr} : ¬Except.Leaks (.error (.eng e) : Except Err α) := by
  rintro ⟨k, hk⟩; cases hk
@[simp] theorem leaks_py {α : Type} {k : PyErr} : Except.Leaks (.error (.py k) : Except Err α) := ⟨k, rfl⟩

theorem leaks_fromValue {v : Value} (h : Except.Leaks (fromValue v)) : v.Foreign := by
  obtain ⟨k, hk⟩ := h; exact foreign_of_error v hk

theorem assertNumeric_no_leak (v : Value) : ¬Except.Leaks (assertNumeric v) := by
  unfold assertNumeric; split <;> simp

theorem isInteger_no_leak {v : Value} (h : v.Normal) : ¬Except.Leaks (isInteger v) := by
  rintro ⟨k, hk⟩
  cases v <;> simp only [Value.Normal] at h <;> simp [isInteger, isReal, bind, Except.bind] at hk
  split at hk <;> (try split at hk) <;> cases hk

theorem assertInteger_no_leak {v : Value} (h : v.Normal) : ¬Except.Leaks (assertInteger v) := by
  intro hl
  unfold assertInteger at hl
  rw [leaks_bind] at hl
  rcases hl with hl | ⟨a, -, hl⟩
  · exact isInteger_no_leak h hl
  · split at hl <;> simp at hl

theorem assertNatural_no_leak {v : Value} (h : v.Normal) : ¬Except.Leaks (assertNatural v) := by
  intro hl
  unfold assertNatural isNatural at hl
  rw [leaks_bind, leaks_bind] at hl
  rcases hl with (hl | ⟨a, -, hl⟩) | ⟨a, -, hl⟩
  · exact isInteger_no_leak h hl
  · split at hl <;> simp at hl
  · split at hl <;> simp at hl

/-! ## The tables -/

/-- **Specification.** `left + right` raises something other than an EngineError: bytes and anything else, a string
and anything but a string (bytes on the right are noticed), Decimal addition signals, a date or a
duration out of range. -/
inductive AddLeak (dc : DecCtx) : Value → Value → Prop
  | bytes (x : List UInt8) (b : Value) : (∀ y, b ≠ .bytes y) → AddLeak dc (.bytes x) b
  | str (x : String) (b : Value) : (∀ y, b ≠ .str y) → (∀ y, b ≠ .bytes y) → AddLeak dc (.str x) b
  | dec (x y : Dec) (e : DecErr) : decAdd dc x y = .error e → AddLeak dc (.dec x) (.dec y)
  | datetime (x y : Int) (tz : Option Nat) : ¬(0 ≤ x + y ∧ x + y < maxOrdinal * dayUs) →
      AddLeak dc (.datetime x tz) (.timedelta y)
  | datetime' (x y : Int) (tz : Option Nat) : ¬(0 ≤ x + y ∧ x + y < maxOrdinal * dayUs) →
      AddLeak dc (.timedelta x) (.datetime y tz)
  | timedelta (x y : Int) : ¬(-(999999999 * dayUs) ≤ x + y ∧ x + y < 1000000000 * dayUs) →
      AddLeak dc (.timedelta x) (.timedelta y)

/-- **Specification.** `left - right` raises something other than an EngineError: Decimal subtraction signals, a date
or a duration out of range, a naive and an aware datetime. -/
inductive SubLeak (off : TzDb) (dc : DecCtx) : Value → Value → Prop
  | dec (x y : Dec) (e : DecErr) : decSub dc x y = .error e → SubLeak off dc (.dec x) (.dec y)
  | datetime (x y : Int) (tz : Option Nat) : ¬(0 ≤ x - y ∧ x - y < maxOrdinal * dayUs) →
      SubLeak off dc (.datetime x tz) (.timedelta y)
  | timedelta (x y : Int) : ¬(-(999999999 * dayUs) ≤ x - y ∧ x - y < 1000000000 * dayUs) →
      SubLeak off dc (.timedelta x) (.timedelta y)
  | difference (x y : Int) (s : Option Nat) : ¬(-(999999999 * dayUs) ≤ x - y ∧ x - y < 1000000000 * dayUs) →
      SubLeak off dc (.datetime x s) (.datetime y s)
  | zones (x y : Int) (s t : Nat) : s ≠ t → ¬(-(999999999 * dayUs) ≤ utcOf off x s - utcOf off y t ∧
        utcOf off x s - utcOf off y t < 1000000000 * dayUs) →
      SubLeak off dc (.datetime x (some s)) (.datetime y (some t))
  | naive (x y : Int) (s t : Option Nat) : s.isNone ≠ t.isNone → SubLeak off dc (.datetime x s) (.datetime y t)

/-- values of types without order -/
def Value.unorderable : Value → Bool
  | .map .. | .builtinFn _ | .userFn _ | .method .. | .obj _ | .undef => true
  | _ => false

/-- **Specification.** Operands that make an ordering raise something other than an EngineError: a NaN and a number, a
naive and an aware datetime, two values of one type that has no order, or arrays with such members at
the same position. -/
inductive Unordered : Value → Value → Prop
  | nanL (y : Dec) : Unordered (.dec .nan) (.dec y)
  | nanR (x : Dec) : Unordered (.dec x) (.dec .nan)
  | naive (x y : Int) (s t : Option Nat) : s.isNone ≠ t.isNone → Unordered (.datetime x s) (.datetime y t)
  | noOrder {a b : Value} : a.unorderable = true → b.unorderable = true → a.pyType = b.pyType → Unordered a b
  | member {xs ys : List Value} {i : Nat} {x y : Value} : xs[i]? = some x → ys[i]? = some y → Unordered x y →
      Unordered (.tuple xs) (.tuple ys)

/-- **Specification.** `member in container` raises something other than an EngineError: the container is neither text
nor a collection, the member of a set or mapping is not hashable, or a foreign object is looked up in
text. -/
inductive InLeak : Value → Value → Prop
  | container {c m : Value} : (∀ xs, c ≠ .tuple xs) → (∀ xs, c ≠ .set xs) → (∀ kvs, c ≠ .map .ordered kvs) →
      (∀ s, c ≠ .str s) → (∀ s, c ≠ .bytes s) → InLeak c m
  | set {xs : List Value} {m : Value} : (∀ ys, m ≠ .set ys) → m.hashable = false → InLeak (.set xs) m
  | map {k : MapKind} {kvs : List (Value × Value)} {m : Value} : m.hashable = false → InLeak (.map k kvs) m
  | str {s : String} {m : Value} : m.Foreign → InLeak (.str s) m
  | bytes {s : List UInt8} {m : Value} : m.Foreign → InLeak (.bytes s) m

/-- **Specification.** A shift of natural numbers whose result has too many digits. -/
def LongShift (env : Env) (op : BitOp) (a b : Value) : Prop :=
  op = .lsh ∧ ∃ digits, env.maxStrDigits = some digits ∧ 10 ^ digits ≤ (toInt a).toNat * 2 ^ (toInt b).toNat

/-- **Specification.** A pattern that makes `re.compile` raise OverflowError. -/
def LongPattern (env : Env) (b : Value) : Prop := ∃ p, b = .str p ∧ env.reValid p = false ∧ env.reLimit p = true

/-- **Specification.** The operand pairs for which a binary operator raises something other than an EngineError. -/
inductive OpLeak (env : Env) (dc : DecCtx) : BinOp → Value → Value → Prop
  | add {a b : Value} : AddLeak dc a b → OpLeak env dc .add a b
  | sub {a b : Value} : SubLeak env.utcoffset dc a b → OpLeak env dc .sub a b
  | cmp {op : CmpOp} {a b : Value} : op ≠ .ne → Unordered a b → OpLeak env dc (.cmp op) a b
  | bit {op : BitOp} {xs : List Value} {b : Value} : b.Foreign → OpLeak env dc (.bit op) (.set xs) b
  | shift {op : BitOp} {xs : List Value} {b : Value} : b.Foreign → OpLeak env dc (.shift op) (.set xs) b
  /-- (the parser makes no such node) -/
  | bitSets {op : BitOp} {xs ys : List Value} : op = .lsh ∨ op = .rsh → OpLeak env dc (.bit op) (.set xs) (.set ys)
  | shiftSets {op : BitOp} {xs ys : List Value} : OpLeak env dc (.shift op) (.set xs) (.set ys)
  /-- (the parser makes no such node) -/
  | bitLong {op : BitOp} {a b : Value} : LongShift env op a b → OpLeak env dc (.bit op) a b
  | shiftLong {op : BitOp} {a b : Value} : LongShift env op a b → OpLeak env dc (.shift op) a b
  | pattern {se ne : Bool} {a b : Value} : LongPattern env b → OpLeak env dc (.fuzzy se ne) a b

/-- **Specification.** Left operands for which an operator raises something other than an EngineError before looking at
the right one. -/
def LeftLeak : BinOp → Value → Prop
  | .bit _, a => a.Foreign
  | .shift _, a => a.Foreign
  | _, _ => False

/-- does the operator go on to its right operand? -/
def BinOp.Reaches : BinOp → Value → Prop
  | .and, a => a.truthy = true
  | .or, a => a.truthy = false
  | _, _ => True

theorem mkDatetime_leaks {us : Int} {tz : Option Nat} :
    Except.Leaks (mkDatetime us tz) ↔ ¬(0 ≤ us ∧ us < maxOrdinal * dayUs) := by
  unfold mkDatetime datetimeInRange; split <;> rename_i h <;> simp at h <;> simp <;> omega

theorem mkTimedelta_leaks {us : Int} :
    Except.Leaks (mkTimedelta us) ↔ ¬(-(999999999 * dayUs) ≤ us ∧ us < 1000000000 * dayUs) := by
  unfold mkTimedelta timedeltaInRange; split <;> rename_i h <;> simp at h <;> simp <;> omega

theorem decMap_leaks {x : Except DecErr Dec} :
    Except.Leaks ((x.mapError Err.ofDec).map Value.dec) ↔ ∃ e, x = .error e := by
  cases x with
  | ok d => simp [Except.mapError, Except.map]
  | error e => simp [Except.mapError, Except.map]; cases e <;> simp [Err.ofDec]

theorem assertNumeric_dec {a : Value} (ha : a.Normal) : assertNumeric a = .ok () ↔ ∃ d, a = .dec d := by
  constructor
  · intro h; exact assertNumeric_normal h ha
  · rintro ⟨d, rfl⟩; rfl

theorem numeric_leaks {α : Type} {a b : Value} {x : Except Err α} :
    Except.Leaks (do assertNumeric a; assertNumeric b; x) ↔
      assertNumeric a = .ok () ∧ assertNumeric b = .ok () ∧ Except.Leaks x := by
  simp only [leaks_bind, assertNumeric_no_leak, false_or]
  constructor
  · rintro ⟨_, h1, _, h2, h3⟩; exact ⟨h1, h2, h3⟩
  · rintro ⟨h1, h2, h3⟩; exact ⟨_, h1, _, h2, h3⟩

/-- the table for `+` is exact -/
theorem add_leaks_iff (env : Env) (dc : DecCtx) {a b : Value} (ha : a.Normal) (hb : b.Normal) :
    Except.Leaks (opAdd env dc a b) ↔ AddLeak dc a b := by
  unfold opAdd
  constructor
  · intro h
    cases a <;> cases b <;> simp only [Value.Normal] at ha hb <;>
      simp [addCheck, leaks_bind, Value.isBytes, Value.isStr, assertNumeric, isNumeric, pyAdd, mkDatetime_leaks,
        mkTimedelta_leaks, numOp, Value.isDec, Value.asIntDec, Value.asInt, Value.asNumber, decOp, decMap_leaks,
        bind, Except.bind, pure, Except.pure] at h
    all_goals first
      | (exact .bytes _ _ (by simp))
      | (exact .str _ _ (by simp) (by simp))
      | (obtain ⟨e, he⟩ := h; exact .dec _ _ _ he)
      | (refine .datetime _ _ _ ?_; omega)
      | (refine .datetime' _ _ _ ?_; omega)
      | (refine .timedelta _ _ ?_; omega)
  · intro h
    cases h with
    | bytes x b hb' =>
      cases b <;> simp [addCheck, leaks_bind, Value.isBytes, Value.isStr, pyAdd, numOp, Value.isDec, Value.asIntDec,
        Value.asInt, Value.asNumber, bind, Except.bind] at hb' ⊢
    | str x b h1 h2 =>
      cases b <;> simp [addCheck, leaks_bind, Value.isBytes, Value.isStr, pyAdd, numOp, Value.isDec, Value.asIntDec,
        Value.asInt, Value.asNumber, bind, Except.bind] at h1 h2 ⊢
    | dec x y e h =>
      simp [addCheck, Value.isBytes, Value.isStr, assertNumeric, isNumeric, pyAdd, numOp, Value.isDec, Value.asIntDec,
        decOp, decMap_leaks, bind, Except.bind, h]
    | datetime x y tz h => 
      simp only [addCheck, pyAdd, bind, Except.bind, mkDatetime_leaks]; exact h
    | datetime' x y tz h =>
      simp only [addCheck, pyAdd, bind, Except.bind, mkDatetime_leaks]; omega
    | timedelta x y h =>
      simp only [addCheck, pyAdd, bind, Except.bind, mkTimedelta_leaks]; exact h

/-- the table for `-` is exact -/
theorem sub_leaks_iff (env : Env) (dc : DecCtx) {a b : Value} (ha : a.Normal) (hb : b.Normal) :
    Except.Leaks (opSub env dc a b) ↔ SubLeak env.utcoffset dc a b := by
  unfold opSub
  constructor
  · intro h
    cases a <;> cases b <;> simp only [Value.Normal] at ha hb <;>
      simp [subCheck, leaks_bind, assertNumeric, isNumeric, 
        bind, Except.bind, pure, Except.pure] at h
    case dec.dec x y =>
      simp [pySub, numOp, Value.isDec, Value.asIntDec, decOp, decMap_leaks] at h
      obtain ⟨e, he⟩ := h; exact .dec _ _ _ he
    case datetime.timedelta x s y =>
      simp only [pySub, mkDatetime_leaks] at h; exact .datetime _ _ _ h
    case timedelta.timedelta x y =>
      simp only [pySub, mkTimedelta_leaks] at h; exact .timedelta _ _ h
    case datetime.datetime x s y t =>
      cases s with
      | none =>
        cases t with
        | none => simp only [pySub, mkTimedelta_leaks] at h; exact .difference _ _ _ h
        | some t => exact .naive _ _ _ _ (by simp)
      | some s =>
        cases t with
        | none => exact .naive _ _ _ _ (by simp)
        | some t =>
          simp only [pySub] at h
          by_cases hst : s = t
          · rw [if_pos hst, mkTimedelta_leaks] at h
            subst hst; exact .difference _ _ _ h
          · rw [if_neg hst, mkTimedelta_leaks] at h
            exact .zones _ _ _ _ hst h
  · intro h
    cases h with
    | dec x y e h =>
      simp [subCheck, assertNumeric, isNumeric, pySub, numOp, Value.isDec, Value.asIntDec, decOp, decMap_leaks, bind,
        Except.bind, h]
    | datetime x y tz h => simp only [subCheck, pySub, bind, Except.bind, mkDatetime_leaks]; exact h
    | timedelta x y h => simp only [subCheck, pySub, bind, Except.bind, mkTimedelta_leaks]; exact h
    | difference x y s h =>
      cases s with
      | none => simp only [subCheck, pySub, bind, Except.bind, mkTimedelta_leaks]; exact h
      | some s => simp only [subCheck, pySub, bind, Except.bind, if_true, mkTimedelta_leaks]; exact h
    | zones x y s t hst h => simp only [subCheck, pySub, bind, Except.bind, if_neg hst, mkTimedelta_leaks]; exact h
    | naive x y s t hst => cases s <;> cases t <;> simp [subCheck, pySub, bind, Except.bind] at hst ⊢

/-- multiplication, division, remainder and powers of normalised values raise EngineErrors only -/
theorem arith_no_leak (env : Env) (dc : DecCtx) (op : ArithOp) {a b : Value} (ha : a.Normal) (hb : b.Normal)
    (h1 : assertNumeric a = .ok ()) (h2 : assertNumeric b = .ok ()) : ¬Except.Leaks (opArith env dc op a b) := by
  obtain ⟨x, rfl⟩ := assertNumeric_normal h1 ha
  obtain ⟨y, rfl⟩ := assertNumeric_normal h2 hb
  simp only [opArith, numOp, Value.isDec, Value.asIntDec, Bool.or_self, if_true]
  cases h : decOp env dc op x y with
  | ok d => simp [Except.mapError, Except.map]
  | error e => cases e <;> simp [Except.mapError, Except.map, Err.ofDec, isArithmeticError]

theorem fromValue_seq_ok {k : SeqKind} {xs : List Value} {t : DataType} (h : fromValue (.seq k xs) = .ok t) :
    ∃ u, t = .array u true := by
  simp only [fromValue, except_bind_ok] at h
  obtain ⟨ts, -, h⟩ := h
  cases h; exact ⟨_, rfl⟩
theorem fromValue_set_ok {xs : List Value} {t : DataType} (h : fromValue (.set xs) = .ok t) :
    ∃ u, t = .set u true := by
  simp only [fromValue, except_bind_ok] at h
  obtain ⟨ts, -, h⟩ := h
  cases h; exact ⟨_, rfl⟩
theorem fromValue_map_ok {k : MapKind} {kvs : List (Value × Value)} {t : DataType}
    (h : fromValue (.map k kvs) = .ok t) : ∃ a b, t = .mapping a b true := by
  simp only [fromValue, except_bind_ok, mkMappingType] at h
  obtain ⟨ts, -, us, -, h⟩ := h
  split at h <;> cases h
  exact ⟨_, _, rfl⟩

theorem fromValue_string {m : Value} {t : DataType} (h : fromValue m = .ok t) (he : DataType.eq t .string = true) :
    ∃ s, m = .str s := by
  cases m
  case str s => exact ⟨s, rfl⟩
  case seq k xs => obtain ⟨u, rfl⟩ := fromValue_seq_ok h; simp [DataType.eq] at he
  case set xs => obtain ⟨u, rfl⟩ := fromValue_set_ok h; simp [DataType.eq] at he
  case map k kvs => obtain ⟨u, w, rfl⟩ := fromValue_map_ok h; simp [DataType.eq] at he
  all_goals (cases h <;> simp [DataType.eq] at he)
theorem fromValue_bytes {m : Value} {t : DataType} (h : fromValue m = .ok t) (he : DataType.eq t .bytes = true) :
    ∃ s, m = .bytes s := by
  cases m
  case bytes s => exact ⟨s, rfl⟩
  case seq k xs => obtain ⟨u, rfl⟩ := fromValue_seq_ok h; simp [DataType.eq] at he
  case set xs => obtain ⟨u, rfl⟩ := fromValue_set_ok h; simp [DataType.eq] at he
  case map k kvs => obtain ⟨u, w, rfl⟩ := fromValue_map_ok h; simp [DataType.eq] at he
  all_goals (cases h <;> simp [DataType.eq] at he)
theorem fromValue_float {m : Value} {t : DataType} (h : fromValue m = .ok t) (he : DataType.eq t .float = true) :
    isNumeric m = true := by
  cases m
  case dec d => rfl
  case float d => rfl
  case int d => rfl
  case seq k xs => obtain ⟨u, rfl⟩ := fromValue_seq_ok h; simp [DataType.eq] at he
  case set xs => obtain ⟨u, rfl⟩ := fromValue_set_ok h; simp [DataType.eq] at he
  case map k kvs => obtain ⟨u, w, rfl⟩ := fromValue_map_ok h; simp [DataType.eq] at he
  all_goals (cases h <;> simp [DataType.eq] at he)
/-- the table for `in` is complete -/
theorem in_leaks (off : TzDb) {ct : DataType} {c m : Value} (hc : c.Normal) (hct : fromValue c = .ok ct)
    (h : Except.Leaks (opContains off ct c m)) : InLeak c m := by
  cases c
  case str s =>
    cases hct
    simp only [opContains, DataType.eq, Bool.or_true, if_true, leaks_bind] at h
    rcases h with h | ⟨t, ht, h⟩
    · exact .str (leaks_fromValue h)
    · split at h
      · rename_i he
        obtain ⟨x, rfl⟩ := fromValue_string ht he
        simp [pyIn] at h
      · simp at h
  case bytes s =>
    cases hct
    simp only [opContains, DataType.eq, Bool.true_or, if_true, leaks_bind] at h
    rcases h with h | ⟨t, ht, h⟩
    · exact .bytes (leaks_fromValue h)
    · split at h
      · rename_i he
        obtain ⟨x, rfl⟩ := fromValue_bytes ht he
        simp [pyIn] at h
      · simp at h
  case seq k xs =>
    obtain ⟨u, rfl⟩ := fromValue_seq_ok hct
    simp [opContains, DataType.eq, pyIn] at h
  case set xs =>
    obtain ⟨u, rfl⟩ := fromValue_set_ok hct
    simp only [opContains, DataType.eq, Bool.or_self, Bool.false_eq_true, if_false] at h
    have hm : ∀ ys, m ≠ .set ys := by
      rintro ys rfl; simp [pyIn] at h
    refine .set hm ?_
    by_contra hh
    have hh : m.hashable = true := by simpa using hh
    cases m <;> simp_all [pyIn]
  case map k kvs =>
    obtain ⟨u, w, rfl⟩ := fromValue_map_ok hct
    simp only [opContains, DataType.eq, Bool.or_self, Bool.false_eq_true, if_false] at h
    refine .map ?_
    by_contra hh
    have hh : m.hashable = true := by simpa using hh
    simp [pyIn, hh] at h
  all_goals exact .container (by simp) (by simp) (by simp) (by simp) (by simp)

/-- … and does not list too much -/
theorem inLeak_leaks (off : TzDb) {ct : DataType} {c m : Value} (hc : c.Normal) (hct : fromValue c = .ok ct)
    (hm : m.Foreign → fromValue m = .error .typeError) (h : InLeak c m) : Except.Leaks (opContains off ct c m) := by
  cases h with
  | container h1 h2 h3 h4 h5 =>
    cases c
    case str s => exact absurd rfl (h4 s)
    case bytes s => exact absurd rfl (h5 s)
    case set xs => exact absurd rfl (h2 xs)
    case seq k xs => simp only [Value.Normal] at hc; obtain ⟨rfl, -⟩ := hc; exact absurd rfl (h1 xs)
    case map k xs => simp only [Value.Normal] at hc; obtain ⟨rfl, -⟩ := hc; exact absurd rfl (h3 xs)
    all_goals (cases hct <;> simp [opContains, DataType.eq, pyIn])
  | set h1 h2 =>
    obtain ⟨u, rfl⟩ := fromValue_set_ok hct
    simp only [opContains, DataType.eq, Bool.or_self, Bool.false_eq_true, if_false]
    cases m <;> simp_all [pyIn]
  | map h1 =>
    obtain ⟨u, w, rfl⟩ := fromValue_map_ok hct
    simp [opContains, DataType.eq, pyIn, h1]
  | str h1 => cases hct; simp [opContains, DataType.eq, hm h1, bind, Except.bind]
  | bytes h1 => cases hct; simp [opContains, DataType.eq, hm h1, bind, Except.bind]

theorem decCmpOp_leaks {op : CmpOp} {x y : Dec} (h : Except.Leaks (decCmpOp op x y)) :
    op ≠ .ne ∧ (x = .nan ∨ y = .nan) := by
  unfold decCmpOp at h
  split at h
  · simp at h
  · rename_i hn
    split at h
    · simp at h
    · rename_i hop
      refine ⟨hop, ?_⟩
      cases x <;> cases y <;> simp_all [decCmp]

/-- a coarser type -/
def PyType.tag : PyType → Nat
  | .none => 0 | .bool => 1 | .int => 2 | .float => 3 | .dec => 4 | .str => 5 | .bytes => 6 | .date => 7
  | .datetime => 8 | .timedelta => 9 | .tuple => 10 | .list => 10 | .range => 10 | .set => 11
  | .dict => 12 | .ordered => 12 | .cFunction => 13 | .pyFunction => 13 | .partialFn => 13 | .user _ => 14
  | .obj _ => 15 | .undef => 16
def Value.tag : Value → Nat
  | .none => 0 | .bool _ => 1 | .int _ => 2 | .float _ => 3 | .dec _ => 4 | .str _ => 5 | .bytes _ => 6 | .date _ => 7
  | .datetime .. => 8 | .timedelta _ => 9 | .seq .. => 10 | .set _ => 11
  | .map .. => 12 | .builtinFn _ => 13 | .method .. => 13 | .userFn _ => 14
  | .obj _ => 15 | .undef => 16
theorem Value.tag_eq (v : Value) : v.tag = v.pyType.tag := by
  cases v <;> try rfl
  case seq k xs => cases k <;> rfl
  case map k xs => cases k <;> rfl
  case builtinFn f => cases f <;> rfl
theorem tag_of_pyType {a b : Value} (h : a.pyType = b.pyType) : a.tag = b.tag := by
  rw [Value.tag_eq, Value.tag_eq, h]

theorem pyCmp_ne_ok (off : TzDb) (a b : Value) : ¬Except.Leaks (pyCmp off .ne a b) := by
  intro h
  unfold pyCmp at h
  split at h
  case h_5 => exact (decCmpOp_leaks h).1 rfl
  case h_4 => split at h <;> simp at h
  case h_9 =>
    split at h
    · simp at h
    · split at h <;> simp at h
    · rw [if_pos rfl] at h; simp at h
  case h_11 => simp at h
  all_goals simp at h

theorem pyCmp_leaks {off : TzDb} {op : CmpOp} {a b : Value} (ha : a.Normal) (hb : b.Normal)
    (hne : ¬(a = .none ∧ b = .none)) (ht : a.pyType = b.pyType) (htup : ∀ xs, a ≠ .tuple xs)
    (h : Except.Leaks (pyCmp off op a b)) : op ≠ .ne ∧ Unordered a b := by
  have hop : op ≠ .ne := by rintro rfl; exact pyCmp_ne_ok off a b h
  refine ⟨hop, ?_⟩
  have hg := tag_of_pyType ht
  cases a <;> simp only [Value.Normal] at ha
  case none => cases b <;> simp [Value.tag] at hg hne
  case bool x => cases b <;> simp [Value.tag] at hg; simp [pyCmp] at h
  case str x => cases b <;> simp [Value.tag] at hg; simp [pyCmp] at h
  case bytes x => cases b <;> simp [Value.tag] at hg; simp [pyCmp] at h
  case timedelta x => cases b <;> simp [Value.tag] at hg; simp [pyCmp] at h
  case dec x =>
    cases b <;> simp [Value.tag] at hg
    rcases (decCmpOp_leaks h).2 with rfl | rfl
    · exact .nanL _
    · exact .nanR _
  case datetime x s =>
    cases b <;> simp [Value.tag] at hg
    rename_i y t
    refine .naive _ _ _ _ ?_
    intro hs
    cases s <;> cases t <;> simp [pyCmp] at h hs
    split at h <;> simp [hop] at h
  case seq k xs => obtain ⟨rfl, -⟩ := ha; exact absurd rfl (htup xs)
  case set xs =>
    cases b <;> simp [Value.tag] at hg
    cases op <;> simp [pyCmp] at h
  all_goals (cases b <;> first | (simp [Value.tag] at hg; done) | exact .noOrder rfl rfl ht)

mutual
theorem opCmp_leaks {off : TzDb} : ∀ (a : Value) {op : CmpOp} (b : Value), a.Normal → b.Normal →
    Except.Leaks (opCmpValues off a op b) → op ≠ .ne ∧ Unordered a b
  | .seq k xs, op, b, ha, hb, h => by
    simp only [Value.Normal] at ha
    obtain ⟨rfl, ha⟩ := ha
    cases b
    case seq k ys =>
      simp only [Value.Normal] at hb
      obtain ⟨rfl, hb⟩ := hb
      simp only [opCmpValues] at h
      obtain ⟨h1, i, x, y, hx, hy, hu⟩ := opCmpArrays_leaks xs ys _ _ ha hb h
      exact ⟨h1, .member hx hy hu⟩
    all_goals
      simp only [opCmpValues] at h
      split at h
      · rename_i ht; have := tag_of_pyType ht; simp [Value.tag] at this
      · simp at h
  | .none, op, b, ha, hb, h => by
    cases b
    case none => simp [opCmpValues] at h
    all_goals
      simp only [opCmpValues] at h
      split at h
      · rename_i ht; have := tag_of_pyType ht; simp [Value.tag] at this
      · simp at h
  | .bool _, op, b, ha, hb, h | .int _, op, b, ha, hb, h | .float _, op, b, ha, hb, h | .dec _, op, b, ha, hb, h
  | .str _, op, b, ha, hb, h | .bytes _, op, b, ha, hb, h | .date _, op, b, ha, hb, h
  | .datetime .., op, b, ha, hb, h | .timedelta _, op, b, ha, hb, h | .set _, op, b, ha, hb, h
  | .map .., op, b, ha, hb, h | .builtinFn _, op, b, ha, hb, h | .userFn _, op, b, ha, hb, h
  | .method .., op, b, ha, hb, h | .obj _, op, b, ha, hb, h | .undef, op, b, ha, hb, h => by
    simp only [opCmpValues] at h
    split at h
    · rename_i ht
      exact pyCmp_leaks ha hb (by simp) ht (by simp) h
    · simp at h
theorem opCmpArrays_leaks {off : TzDb} : ∀ (xs : List Value) {op : CmpOp} (ys : List Value) (n m : Nat),
    Value.AllNormal xs → Value.AllNormal ys → Except.Leaks (opCmpArrays off xs op ys n m) →
    op ≠ .ne ∧ ∃ (i : Nat) (x y : Value), xs[i]? = some x ∧ ys[i]? = some y ∧ Unordered x y
  | x :: xs, op, y :: ys, n, m, ha, hb, h => by
    simp only [opCmpArrays, leaks_bind] at h
    rcases h with h | ⟨r, -, h⟩
    · exact absurd rfl (opCmp_leaks x y ha.1 hb.1 h).1
    · split at h
      · obtain ⟨h1, h2⟩ := opCmp_leaks x y ha.1 hb.1 h
        exact ⟨h1, 0, x, y, rfl, rfl, h2⟩
      · obtain ⟨h1, i, x', y', hx, hy, hu⟩ := opCmpArrays_leaks xs ys n m ha.2 hb.2 h
        exact ⟨h1, i + 1, x', y', by simpa using hx, by simpa using hy, hu⟩
  | [], op, ys, n, m, ha, hb, h => by
    cases ys <;> simp only [opCmpArrays] at h <;> split at h <;> simp [pyCmp] at h
  | x :: xs, op, [], n, m, ha, hb, h => by
    simp only [opCmpArrays] at h; split at h <;> simp [pyCmp] at h
end

theorem M.bind_eq_error {α β : Type} {m : M α} {f : α → M β} {s s' : St} {e : Err} :
    (m >>= f) s = (.error e, s') ↔
      m s = (.error e, s') ∨ ∃ a s1, m s = (.ok a, s1) ∧ f a s1 = (.error e, s') := by
  rw [M.bind_apply]
  rcases h : m s with ⟨e' | a, s1⟩
  · simp
  · simp only [Prod.mk.injEq, reduceCtorEq, false_and, false_or]
    constructor
    · intro h'; exact ⟨a, s1, ⟨rfl, rfl⟩, h'⟩
    · rintro ⟨a', s1', ⟨h1, h2⟩, h3⟩
      cases h1; cases h2
      exact h3

theorem M.lift_eq_error {α : Type} {x : Except Err α} {e : Err} {s s' : St} :
    M.lift x s = (.error e, s') ↔ x = .error e ∧ s = s' := by simp

theorem opBitNat_leaks {env : Env} {op : BitOp} {a b : Value} (hb : b.Normal) (h : Except.Leaks (opBitNat env op a b)) :
    LongShift env op a b := by
  unfold opBitNat at h
  rw [leaks_bind] at h
  rcases h with h | ⟨_, -, h⟩
  · exact absurd h (assertNatural_no_leak hb)
  · obtain ⟨k, h⟩ := h
    simp only at h
    split at h
    · rename_i hc
      obtain ⟨rfl, hl⟩ := hc
      unfold Env.tooLong at hl
      split at hl
      · cases hl
      · rename_i digits hd
        refine ⟨rfl, digits, hd, ?_⟩
        simpa only [bitNat, Nat.shiftLeft_eq, decide_eq_true_eq] using hl
    · cases h

theorem opBitSet_leaks {off : TzDb} {op : BitOp} {xs : List Value} {b : Value}
    (h : Except.Leaks (opBitSet off op xs b)) : b.Foreign ∨ ((op = .lsh ∨ op = .rsh) ∧ ∃ ys, b = .set ys) := by
  unfold opBitSet at h
  rw [leaks_bind] at h
  rcases h with h | ⟨t, ht, h⟩
  · exact .inl (leaks_fromValue h)
  · split at h
    · rename_i hc
      cases b
      case set ys =>
        refine .inr ⟨?_, ys, rfl⟩
        simp only [leaks_bind] at h
        rcases h with h | ⟨z, -, h⟩
        · cases op <;> simp [bitSet] at h <;> simp
        · simp at h
      case seq k ys => obtain ⟨u, rfl⟩ := fromValue_seq_ok ht; simp [DataType.compat] at hc
      case map k ys => obtain ⟨u, w, rfl⟩ := fromValue_map_ok ht; simp [DataType.compat] at hc
      all_goals (cases ht <;> simp [DataType.compat, DataType.anyFunction, DataType.anySet] at hc)
    · simp at h

theorem opFuzzy_leaks {env : Env} {se ne : Bool} {a b : Value} {s s' : St} {k : PyErr}
    (h : opFuzzy env se ne a b s = (.error (.py k), s')) : LongPattern env b := by
  cases b <;> simp only [opFuzzy] at h
  case str p =>
    split at h
    · cases a
      case str l =>
        cases hg : env.reRun se p l with
        | none => simp [hg] at h
        | some gs => simp only [hg, M.bind_eq_error, recordMatch] at h; simp at h
      all_goals simp at h
    · rename_i hv
      refine ⟨p, rfl, by simpa using hv, ?_⟩
      by_cases hl : env.reLimit p = true
      · exact hl
      · simp [Env.reError, hl] at h
  case none => cases a <;> simp at h
  all_goals simp at h

/-- Where an exception other than an EngineError comes from in a binary operator. -/
theorem evalBin_leaks {env : Env} {dc : DecCtx} {op : BinOp} {l r : M Value} (hl : Emits Value.Normal l)
    (hr : Emits Value.Normal r) {s s' : St} {k : PyErr}
    (h : evalBin env dc op l r s = (.error (.py k), s')) :
    l s = (.error (.py k), s') ∨ ∃ a s1, l s = (.ok a, s1) ∧ (LeftLeak op a ∨
      (op.Reaches a ∧ (r s1 = (.error (.py k), s') ∨ ∃ b s2, r s1 = (.ok b, s2) ∧ OpLeak env dc op a b))) := by
  cases op <;> simp only [evalBin, M.bind_eq_error] at h <;>
    (rcases h with h | ⟨a, s1, h1, h⟩; · exact .inl h) <;> refine .inr ⟨a, s1, h1, ?_⟩
  case add =>
    rcases h with h | ⟨b, s2, h2, h⟩
    · exact .inr ⟨trivial, .inl h⟩
    · rw [M.lift_eq_error] at h
      exact .inr ⟨trivial, .inr ⟨b, s2, h2, .add ((add_leaks_iff env dc (hl _ _ _ h1) (hr _ _ _ h2)).1 ⟨k, h.1⟩)⟩⟩
  case sub =>
    rcases h with h | ⟨b, s2, h2, h⟩
    · exact .inr ⟨trivial, .inl h⟩
    · rw [M.lift_eq_error] at h
      exact .inr ⟨trivial, .inr ⟨b, s2, h2, .sub ((sub_leaks_iff env dc (hl _ _ _ h1) (hr _ _ _ h2)).1 ⟨k, h.1⟩)⟩⟩
  case arith o =>
    rcases h with h | ⟨u, s2, h2, h⟩
    · rw [M.lift_eq_error] at h; exact absurd ⟨k, h.1⟩ (assertNumeric_no_leak a)
    rw [M.lift_eq_ok] at h2
    obtain ⟨h2, rfl⟩ := h2
    rcases h with h | ⟨b, s3, h3, h⟩
    · exact .inr ⟨trivial, .inl h⟩
    rcases h with h | ⟨u, s4, h4, h⟩
    · rw [M.lift_eq_error] at h; exact absurd ⟨k, h.1⟩ (assertNumeric_no_leak b)
    rw [M.lift_eq_ok] at h4
    rw [M.lift_eq_error] at h
    exact absurd ⟨k, h.1⟩ (arith_no_leak env dc o (hl _ _ _ h1) (hr _ _ _ h3) h2 h4.1)
  case bit o =>
    rcases h with h | ⟨u, s2, h2, h⟩
    · rw [M.lift_eq_error] at h; exact .inl (foreign_of_error _ h.1)
    rw [M.lift_eq_ok] at h2
    obtain ⟨h2, rfl⟩ := h2
    split at h
    · simp only [M.bind_eq_error] at h
      rcases h with h | ⟨u, s3, h3, h⟩
      · rw [M.lift_eq_error] at h; exact absurd ⟨k, h.1⟩ (assertNatural_no_leak (hl _ _ _ h1))
      rw [M.lift_eq_ok] at h3
      obtain ⟨h3, rfl⟩ := h3
      rcases h with h | ⟨b, s4, h4, h⟩
      · exact .inr ⟨trivial, .inl h⟩
      rw [M.lift_eq_error] at h
      exact .inr ⟨trivial, .inr ⟨b, s4, h4, .bitLong (opBitNat_leaks (hr _ _ _ h4) ⟨k, h.1⟩)⟩⟩
    · cases a
      case set xs =>
        simp only [M.bind_eq_error] at h
        rcases h with h | ⟨b, s4, h4, h⟩
        · exact .inr ⟨trivial, .inl h⟩
        rw [M.lift_eq_error] at h
        rcases opBitSet_leaks ⟨k, h.1⟩ with hf | ⟨ho, ys, rfl⟩
        · exact .inr ⟨trivial, .inr ⟨b, s4, h4, .bit hf⟩⟩
        · exact .inr ⟨trivial, .inr ⟨_, s4, h4, .bitSets ho⟩⟩
      all_goals simp at h
  case shift o =>
    rcases h with h | ⟨u, s2, h2, h⟩
    · rw [M.lift_eq_error] at h; exact .inl (foreign_of_error _ h.1)
    rw [M.lift_eq_ok] at h2
    obtain ⟨h2, rfl⟩ := h2
    split at h
    · simp only [M.bind_eq_error] at h
      rcases h with h | ⟨u, s3, h3, h⟩
      · rw [M.lift_eq_error] at h; exact absurd ⟨k, h.1⟩ (assertNatural_no_leak (hl _ _ _ h1))
      rw [M.lift_eq_ok] at h3
      obtain ⟨h3, rfl⟩ := h3
      rcases h with h | ⟨b, s4, h4, h⟩
      · exact .inr ⟨trivial, .inl h⟩
      rw [M.lift_eq_error] at h
      exact .inr ⟨trivial, .inr ⟨b, s4, h4, .shiftLong (opBitNat_leaks (hr _ _ _ h4) ⟨k, h.1⟩)⟩⟩
    · cases a
      case set xs =>
        simp only [M.bind_eq_error] at h
        rcases h with h | ⟨b, s4, h4, h⟩
        · exact .inr ⟨trivial, .inl h⟩
        rw [M.lift_eq_error] at h
        rcases opBitSet_leaks ⟨k, h.1⟩ with hf | ⟨ho, ys, rfl⟩
        · exact .inr ⟨trivial, .inr ⟨b, s4, h4, .shift hf⟩⟩
        · exact .inr ⟨trivial, .inr ⟨_, s4, h4, .shiftSets⟩⟩
      all_goals simp at h
  case and =>
    split at h
    · rename_i ht
      simp only [M.bind_eq_error] at h
      rcases h with h | ⟨b, s4, h4, h⟩
      · exact .inr ⟨ht, .inl h⟩
      · simp at h
    · simp at h
  case or =>
    split at h
    · simp at h
    · rename_i ht
      simp only [M.bind_eq_error] at h
      rcases h with h | ⟨b, s4, h4, h⟩
      · exact .inr ⟨by simpa [BinOp.Reaches] using ht, .inl h⟩
      · simp at h
  case eq =>
    rcases h with h | ⟨b, s2, h2, h⟩
    · exact .inr ⟨trivial, .inl h⟩
    · simp at h
  case ne =>
    rcases h with h | ⟨b, s2, h2, h⟩
    · exact .inr ⟨trivial, .inl h⟩
    · simp at h
  case cmp o =>
    rcases h with h | ⟨b, s2, h2, h⟩
    · exact .inr ⟨trivial, .inl h⟩
    · rcases h with h | ⟨u, s3, h3, h⟩
      · rw [M.lift_eq_error] at h
        obtain ⟨h1', h2'⟩ := opCmp_leaks a b (hl _ _ _ h1) (hr _ _ _ h2) ⟨k, h.1⟩
        exact .inr ⟨trivial, .inr ⟨b, s2, h2, .cmp h1' h2'⟩⟩
      · simp at h
  case fuzzy se ne =>
    have key : (r >>= fun b => opFuzzy env se ne a b) s1 = (.error (.py k), s') → r s1 = (.error (.py k), s') ∨
        ∃ b s2, r s1 = (.ok b, s2) ∧ OpLeak env dc (.fuzzy se ne) a b := by
      intro h
      rw [M.bind_eq_error] at h
      rcases h with h | ⟨b, s2, h2, h⟩
      · exact .inl h
      · exact .inr ⟨b, s2, h2, .pattern (opFuzzy_leaks h)⟩
    cases a
    case str x => exact .inr ⟨trivial, key h⟩
    case none => exact .inr ⟨trivial, key h⟩
    all_goals simp at h

end RE
