import Verif.Props.Escape

/-!
# Rules whose operand types are known (C29)

In a rule all of whose operand types are known at construction, evaluated on data without foreign
objects, the only operations that can raise something other than an EngineError are the ones listed
in `LocalFault`.
-/

set_option linter.unusedSimpArgs false
set_option linter.unusedVariables false

namespace RE

/-! ## Specification -/

/-- **Specification.** Types whose values can be members of sets and keys of mappings. -/
def DataType.keyType : DataType → Bool
  | .boolean | .bytes | .datetime | .float | .null | .string | .timedelta => true
  | .array m _ => m.keyType
  | _ => false

/-- **Specification.** Types of members of arrays that can be ordered. -/
def DataType.memberOrder : DataType → Bool
  | .boolean | .bytes | .float | .null | .string | .timedelta => true
  | .array m _ => m.memberOrder
  | _ => false

/-- **Specification.** Types that can be ordered. -/
def DataType.orderType : DataType → Bool
  | .datetime => true
  | t => t.memberOrder

/-- the type is known -/
def DataType.known : DataType → Bool
  | .undefined => false
  | _ => true

/-- **Specification.** The operand types are known as far as the operator needs it. -/
def BinOp.typedOk : BinOp → DataType → DataType → Bool
  | .add, l, r => l.known && r.known
  | .shift _, l, _ => l.known
  | .cmp .ne, _, _ => true
  | .cmp _, l, r => l.orderType || r.orderType
  | _, _, _ => true

mutual
/-- **Specification.** The types of the operands in a built expression are known as far as the operations need it. -/
def Expr.typed : Expr → Bool
  | .lit _ _ => true
  | .array xs => Expr.typedList xs
  | .set xs => Expr.typedList xs && xs.all (fun x => x.rt.keyType)
  | .mapping kvs => Expr.typedPairs kvs && kvs.all (fun p => p.1.rt.keyType)
  | .bin op l r => l.typed && r.typed && op.typedOk l.rt r.rt
  | .comp r _ it c => r.typed && it.typed && c.typed
  | .contains c m => c.typed && m.typed &&
      (match c.rt with
       | .undefined => false
       | .set .. | .mapping .. => m.rt.keyType
       | _ => true)
  | .getAttr o name _ => o.typed && (name != "to_set" ||
      (match o.rt with
       | .string | .bytes => true
       | .array m _ => m.keyType
       | _ => false))
  | .getItem c i _ => c.typed && i.typed &&
      (match c.rt with
       | .undefined => false
       | .mapping .. => i.rt.keyType
       | _ => true)
  | .getSlice c a b _ => c.typed && a.typed && b.typed && c.rt.known
  | .sym _ _ _ => true
  | .call f args => f.typed && Expr.typedList args
  | .tern c t f => c.typed && t.typed && f.typed
  | .not e => e.typed
  | .neg e => e.typed
def Expr.typedList : List Expr → Bool
  | [] => true
  | x :: xs => x.typed && Expr.typedList xs
def Expr.typedPairs : List (Expr × Expr) → Bool
  | [] => true
  | (k, v) :: rest => k.typed && v.typed && Expr.typedPairs rest
end

/-- **Specification.** `n` is a part of the expression. -/
inductive Within (n : Expr) : Expr → Prop
  | self : Within n n
  | array {xs : List Expr} {x : Expr} : x ∈ xs → Within n x → Within n (.array xs)
  | set {xs : List Expr} {x : Expr} : x ∈ xs → Within n x → Within n (.set xs)
  | key {kvs : List (Expr × Expr)} {p : Expr × Expr} : p ∈ kvs → Within n p.1 → Within n (.mapping kvs)
  | val {kvs : List (Expr × Expr)} {p : Expr × Expr} : p ∈ kvs → Within n p.2 → Within n (.mapping kvs)
  | left {op : BinOp} {l r : Expr} : Within n l → Within n (.bin op l r)
  | right {op : BinOp} {l r : Expr} : Within n r → Within n (.bin op l r)
  | result {r it c : Expr} {var : String} : Within n r → Within n (.comp r var it c)
  | iterable {r it c : Expr} {var : String} : Within n it → Within n (.comp r var it c)
  | condition {r it c : Expr} {var : String} : Within n c → Within n (.comp r var it c)
  | container {c m : Expr} : Within n c → Within n (.contains c m)
  | member {c m : Expr} : Within n m → Within n (.contains c m)
  | object {o : Expr} {name : String} {safe : Bool} : Within n o → Within n (.getAttr o name safe)
  | itemOf {c i : Expr} {safe : Bool} : Within n c → Within n (.getItem c i safe)
  | item {c i : Expr} {safe : Bool} : Within n i → Within n (.getItem c i safe)
  | sliceOf {c a b : Expr} {safe : Bool} : Within n c → Within n (.getSlice c a b safe)
  | start {c a b : Expr} {safe : Bool} : Within n a → Within n (.getSlice c a b safe)
  | stop {c a b : Expr} {safe : Bool} : Within n b → Within n (.getSlice c a b safe)
  | function {f : Expr} {args : List Expr} : Within n f → Within n (.call f args)
  | argument {f : Expr} {args : List Expr} {x : Expr} : x ∈ args → Within n x → Within n (.call f args)
  | test {c t f : Expr} : Within n c → Within n (.tern c t f)
  | whenTrue {c t f : Expr} : Within n t → Within n (.tern c t f)
  | whenFalse {c t f : Expr} : Within n f → Within n (.tern c t f)
  | not {e : Expr} : Within n e → Within n (.not e)
  | neg {e : Expr} : Within n e → Within n (.neg e)

/-- **Specification.** A NaN is compared with a number, possibly inside arrays. -/
inductive NanCompared : Value → Value → Prop
  | nanL (y : Dec) : NanCompared (.dec .nan) (.dec y)
  | nanR (x : Dec) : NanCompared (.dec x) (.dec .nan)
  | member {xs ys : List Value} {i : Nat} {x y : Value} : xs[i]? = some x → ys[i]? = some y → NanCompared x y →
      NanCompared (.tuple xs) (.tuple ys)

/-- text -/
def Value.isText : Value → Bool
  | .str _ | .bytes _ => true
  | _ => false

/-- **Specification.** The operations on operands of known types that can raise something other than an EngineError. -/
inductive LocalFault (env : Env) (dc : DecCtx) (thing : Value) : Expr → Prop
  /-- `text + null` -/
  | addNull {S : List Assignment} {l r : Expr} {a : Value} : CanBe env dc thing S l a → a.isText = true →
      CanBe env dc thing S r .none → LocalFault env dc thing (.bin .add l r)
  /-- a sum out of range, or of opposite infinities -/
  | add {S : List Assignment} {l r : Expr} {a b : Value} : CanBe env dc thing S l a → a.isText = false →
      CanBe env dc thing S r b → AddLeak dc a b → LocalFault env dc thing (.bin .add l r)
  /-- a difference out of range, or of equal infinities -/
  | sub {S : List Assignment} {l r : Expr} {a b : Value} : CanBe env dc thing S l a → a.isNaive = false →
      CanBe env dc thing S r b → b.isNaive = false → SubLeak env.utcoffset dc a b →
      LocalFault env dc thing (.bin .sub l r)
  /-- `-value` out of range -/
  | neg {S : List Assignment} {x : Expr} {a : Value} : CanBe env dc thing S x a → NegLeak dc a →
      LocalFault env dc thing (.neg x)
  /-- an ordering with a NaN (of operands of their static types) -/
  | order {S : List Assignment} {op : CmpOp} {l r : Expr} {a b : Value} : CanBe env dc thing S l a →
      CanBe env dc thing S r b → (a = .none ∨ a.HasType env.Returns l.rt) → (b = .none ∨ b.HasType env.Returns r.rt) →
      NanCompared a b → LocalFault env dc thing (.bin (.cmp op) l r)
  /-- a shift with too many digits -/
  | shift {S : List Assignment} {op : BitOp} {l r : Expr} {a b : Value} : CanBe env dc thing S l a →
      CanBe env dc thing S r b → LongShift env op a b → LocalFault env dc thing (.bin (.shift op) l r)
  /-- a pattern, not a literal, that makes `re.compile` raise OverflowError -/
  | pattern {S : List Assignment} {search negate : Bool} {l r : Expr} {b : Value} : CanBe env dc thing S r b →
      (∀ v t, r ≠ .lit v t) → LongPattern env b → LocalFault env dc thing (.bin (.fuzzy search negate) l r)
  /-- `member in null` -/
  | contains {S : List Assignment} {c m : Expr} : CanBe env dc thing S c .none →
      LocalFault env dc thing (.contains c m)
  /-- `to_flt` and `to_int` of text that is not a number, and `to_flt`, `floor`, `ceiling` with a result that is too long
  for `repr` -/
  | attr {S : List Assignment} {o : Expr} {v : Value} {name : String} {safe : Bool} : CanBe env dc thing S o v →
      name = "to_flt" ∨ name = "to_int" ∨ name = "floor" ∨ name = "ceiling" → AttrLeak env v name →
      LocalFault env dc thing (.getAttr o name safe)
  /-- the resolver raised something other than an EngineError, for a symbol -/
  | symbol {name : String} {rt : DataType} {k : PyErr} : env.resolver thing name = .error (.py k) →
      LocalFault env dc thing (.sym name rt false)
  /-- the resolver raised something other than an EngineError, for an attribute -/
  | resolver {S : List Assignment} {o : Expr} {v : Value} {name : String} {safe : Bool} {k : PyErr} :
      CanBe env dc thing S o v → env.resolver v name = .error (.py k) → LocalFault env dc thing (.getAttr o name safe)
  /-- a function returned an object without data type -/
  | call {S : List Assignment} {f : Expr} {args : List Expr} {fv r : Value} {vs : List Value} {s s' : St} :
      CanBe env dc thing S f fv → List.Forall₂ (CanBe env dc thing S) args vs →
      callFn env dc fv vs s = (.ok r, s') → r.Foreign → LocalFault env dc thing (.call f args)

/-! ## Values of known types -/

theorem clean_not_foreign {v : Value} (h : v.Clean) : ¬v.Foreign := by
  intro hf
  obtain ⟨t, ht⟩ := clean_typed v h
  exact hf.untyped t ht

theorem keyType_cases {calls : Value → Value → Prop} {t : DataType} {v : Value} (ht : t.keyType = true)
    (h : v = .none ∨ v.HasType calls t) :
    (v.hashable = true ∧ ¬v.Foreign) ∨ ∃ m n k xs, t = .array m n ∧ v = .seq k xs ∧
      ∀ x ∈ xs, x = .none ∨ x.HasType calls m := by
  rcases h with rfl | h
  · exact .inl ⟨rfl, by rintro ⟨⟩⟩
  cases t <;> simp only [DataType.keyType, Bool.false_eq_true] at ht <;> simp only [Value.HasType] at h
  case float =>
    rcases h with ⟨x, rfl⟩ | ⟨x, rfl⟩ | ⟨x, rfl⟩ <;> exact .inl ⟨rfl, by rintro ⟨⟩⟩
  case datetime =>
    rcases h with ⟨x, y, rfl⟩ | ⟨x, rfl⟩ <;> exact .inl ⟨rfl, by rintro ⟨⟩⟩
  case null => subst h; exact .inl ⟨rfl, by rintro ⟨⟩⟩
  case array m n =>
    obtain ⟨k, xs, rfl, hx⟩ := h
    exact .inr ⟨m, n, k, xs, rfl, rfl, fun x hm => (hx x hm).imp (·.2) id⟩
  all_goals
    obtain ⟨x, rfl⟩ := h
    exact .inl ⟨rfl, by rintro ⟨⟩⟩

theorem keyType_hashable {calls : Value → Value → Prop} : ∀ (t : DataType) {v : Value}, t.keyType = true → v.Normal →
    v = .none ∨ v.HasType calls t → v.hashable = true
  | .array m n, v, ht, hn, h => by
    rcases keyType_cases ht h with h | ⟨m', n', k, xs, he, rfl, hx⟩
    · exact h.1
    · cases he
      simp only [Value.Normal] at hn
      obtain ⟨rfl, hn⟩ := hn
      simp only [Value.hashable, allHashable_iff]
      rw [allNormal_iff] at hn
      intro x hm
      exact keyType_hashable m ht (hn x hm) (hx x hm)
  | .boolean, v, ht, hn, h | .bytes, v, ht, hn, h | .string, v, ht, hn, h | .timedelta, v, ht, hn, h
  | .null, v, ht, hn, h | .float, v, ht, hn, h | .datetime, v, ht, hn, h | .undefined, v, ht, hn, h
  | .set .., v, ht, hn, h | .mapping .., v, ht, hn, h | .function .., v, ht, hn, h => by
    rcases keyType_cases ht h with h | ⟨m', n', k, xs, he, -⟩
    · exact h.1
    · cases he

theorem keyType_foreign {calls : Value → Value → Prop} : ∀ (t : DataType) {v : Value}, t.keyType = true →
    v = .none ∨ v.HasType calls t → ¬v.Foreign
  | .array m n, v, ht, h => by
    rcases keyType_cases ht h with h | ⟨m', n', k, xs, he, rfl, hx⟩
    · exact h.2
    · cases he
      intro hf
      obtain ⟨x, hm, hf⟩ := foreign_tuple hf
      exact keyType_foreign m ht (hx x hm) hf
  | .boolean, v, ht, h | .bytes, v, ht, h | .string, v, ht, h | .timedelta, v, ht, h
  | .null, v, ht, h | .float, v, ht, h | .datetime, v, ht, h | .undefined, v, ht, h
  | .set .., v, ht, h | .mapping .., v, ht, h | .function .., v, ht, h => by
    rcases keyType_cases ht h with h | ⟨m', n', k, xs, he, -⟩
    · exact h.2
    · cases he

theorem unordered_symm {a b : Value} (h : Unordered a b) : Unordered b a := by
  induction h with
  | nanL y => exact .nanR y
  | nanR x => exact .nanL x
  | naive x y s t h => exact .naive y x t s (Ne.symm h)
  | noOrder ha hb h => exact .noOrder hb ha h.symm
  | member hx hy h ih => exact .member hy hx ih

theorem nanCompared_symm {a b : Value} (h : NanCompared a b) : NanCompared b a := by
  induction h with
  | nanL y => exact .nanR y
  | nanR x => exact .nanL x
  | member hx hy h ih => exact .member hy hx ih

theorem memberOrder_nan {calls : Value → Value → Prop} {a b : Value} (h : Unordered a b) :
    ∀ {t : DataType}, t.memberOrder = true → a = .none ∨ a.HasType calls t → NanCompared a b := by
  induction h with
  | nanL y => intros; exact .nanL y
  | nanR x => intros; exact .nanR x
  | naive x y s u h =>
    intro t ht h
    exfalso
    rcases h with h | h
    · cases h
    · cases t <;> simp [DataType.memberOrder, Value.HasType] at ht h
  | @noOrder a b ha hb h =>
    intro t ht h
    exfalso
    rcases h with rfl | h
    · cases ha
    · cases t <;> simp [DataType.memberOrder] at ht <;> simp only [Value.HasType] at h <;>
      first
        | (obtain ⟨x, rfl⟩ := h; cases ha; done)
        | (subst h; cases ha; done)
        | (rcases h with ⟨x, rfl⟩ | ⟨x, rfl⟩ | ⟨x, rfl⟩ <;> cases ha; done)
        | (obtain ⟨x, y, rfl, -⟩ := h; cases ha; done)
  | @member xs ys i x y hx hy h ih =>
    intro t ht h
    rcases h with h | h
    · cases h
    · cases t <;> simp [DataType.memberOrder, Value.HasType, Value.tuple] at ht h
      rename_i m n
      exact .member hx hy (ih ht ((h x (List.mem_of_getElem? hx)).imp (·.2) id))

theorem orderType_nan {calls : Value → Value → Prop} {a b : Value} {t : DataType} (h : Unordered a b)
    (ha : a.isNaive = false) (hb : b.isNaive = false) (ht : t.orderType = true)
    (hv : a = .none ∨ a.HasType calls t) : NanCompared a b := by
  by_cases hd : t = .datetime
  · subst hd
    rcases hv with rfl | hv
    · cases h with
      | noOrder h1 _ _ => cases h1
    · simp only [Value.HasType] at hv
      rcases hv with ⟨us, tz, rfl⟩ | ⟨d, rfl⟩
      · cases h with
        | naive _ _ _ u h =>
          exfalso
          cases tz <;> cases u <;> simp_all [Value.isNaive]
        | noOrder h1 _ _ => cases h1
      · cases h with
        | noOrder h1 _ _ => cases h1
  · refine memberOrder_nan h ?_ hv
    cases t <;> simp_all [DataType.orderType]

/-! ## Folded constants have no faults -/

section
variable {env : Env} {dc : DecCtx} {thing : Value} {S : List Assignment}

theorem canBe_yields {P : Value → Prop} {e : Expr} {v : Value} (h : Yields S P (eval env dc thing e))
    (hv : CanBe env dc thing S e v) : P v := by
  obtain ⟨s, s', hs, hv⟩ := hv
  exact (h s s' v hs.1 hv).1

theorem canBe_normal {e : Expr} {v : Value} (h : e.NormalLits) (hv : CanBe env dc thing S e v) : v.Normal := by
  obtain ⟨s, s', hs, hv⟩ := hv
  exact eval_normal e h _ _ _ hv

theorem canBe_aware {e : Expr} {v : Value} (h : e.AwareTop) (hv : CanBe env dc thing S e v) : v.isNaive = false := by
  obtain ⟨s, s', hs, hv⟩ := hv
  exact eval_aware e h hv

theorem typedList_iff {es : List Expr} : Expr.typedList es = true ↔ ∀ e ∈ es, e.typed = true := by
  induction es with
  | nil => simp [Expr.typedList]
  | cons x xs ih => simp [Expr.typedList, ih]

theorem typedPairs_iff {es : List (Expr × Expr)} :
    Expr.typedPairs es = true ↔ ∀ p ∈ es, p.1.typed = true ∧ p.2.typed = true := by
  induction es with
  | nil => simp [Expr.typedPairs]
  | cons x xs ih => obtain ⟨k, v⟩ := x; simp [Expr.typedPairs, ih, and_assoc]

theorem normalPairs_iff {es : List (Expr × Expr)} (h : Expr.NormalPairs es) :
    ∀ p ∈ es, p.1.NormalLits ∧ p.2.NormalLits := by
  induction es with
  | nil => simp
  | cons x xs ih =>
    obtain ⟨k, v⟩ := x
    intro p hp
    rcases List.mem_cons.1 hp with rfl | hp
    · exact ⟨h.1, h.2.1⟩
    · exact ih h.2.2 p hp

theorem faultAny_iff {es : List Expr} : FaultAny env dc thing es S ↔ ∃ e ∈ es, Fault env dc thing e S := by
  induction es with
  | nil => simp [FaultAny]
  | cons x xs ih => simp [FaultAny, ih]

theorem faultPairs_iff {es : List (Expr × Expr)} : FaultPairs env dc thing es S ↔
    ∃ p ∈ es, Fault env dc thing p.1 S ∨ Fault env dc thing p.2 S := by
  induction es with
  | nil => simp [FaultPairs]
  | cons x xs ih => obtain ⟨k, v⟩ := x; simp [FaultPairs, ih, or_assoc]

variable {st : Prop}

/-- members of key types are hashable -/
theorem key_ok {e : Expr} {v : Value} (hy : Yields S (Value.Sound env st e.rt) (eval env dc thing e)) (hn : e.NormalLits)
    (hk : e.rt.keyType = true) (hv : CanBe env dc thing S e v) : v.hashable = true ∧ ¬v.Foreign :=
  ⟨keyType_hashable _ hk (canBe_normal hn hv) (canBe_yields hy hv).2,
    keyType_foreign _ hk (canBe_yields hy hv).2⟩

mutual
theorem ofValue_no_fault : ∀ (v : Value) (t : DataType), fromValue v = .ok t →
    (Expr.ofValue env.utcoffset v).typed = true → ¬Fault env dc thing (Expr.ofValue env.utcoffset v) S
  | .seq k xs, t, h, ht => by
    simp only [fromValue, except_bind_ok] at h
    obtain ⟨ts, hts, -⟩ := h
    simp only [Expr.ofValue, Expr.typed, Fault, ofValues_eq_map, typedList_iff, faultAny_iff] at ht ⊢
    rintro ⟨e, he, hf⟩
    obtain ⟨x, hx, rfl⟩ := List.mem_map.1 he
    exact ofValues_no_fault xs ts hts x hx (ht _ he) hf
  | .set xs, t, h, ht => by
    simp only [fromValue, except_bind_ok] at h
    obtain ⟨ts, hts, -⟩ := h
    simp only [Expr.ofValue, Expr.typed, Fault, ofValues_eq_map, typedList_iff, faultAny_iff, Bool.and_eq_true,
      List.all_eq_true] at ht ⊢
    rintro (⟨e, he, hf⟩ | ⟨e, he, v, hv, hh⟩)
    · obtain ⟨x, hx, rfl⟩ := List.mem_map.1 he
      exact ofValues_no_fault xs ts hts x hx (ht.1 _ he) hf
    · have hk := ht.2 e he
      obtain ⟨x, hx, rfl⟩ := List.mem_map.1 he
      have := key_ok (st := False) (ofValues_yields xs ts hts (fun h => h.elim) x hx) (ofValue_normal _ _) hk hv
      rw [hh] at this
      exact absurd this.1 (by simp)
  | .map k kvs, t, h, ht => by
    simp only [fromValue, except_bind_ok] at h
    obtain ⟨ks, hks, vs, hvs, -⟩ := h
    simp only [Expr.ofValue, Expr.typed, Fault, ofPairs_eq_map, typedPairs_iff, faultPairs_iff, Bool.and_eq_true,
      List.all_eq_true] at ht ⊢
    rintro (⟨e, he, hf⟩ | ⟨e, he, v, hv, hh⟩)
    · have ht' := ht.1 e he
      obtain ⟨p, hp, rfl⟩ := List.mem_map.1 he
      exact ofPairs_no_fault kvs ks vs hks hvs p hp ht' hf
    · have hk := ht.2 e he
      obtain ⟨p, hp, rfl⟩ := List.mem_map.1 he
      have := key_ok (st := False) (ofPairs_yields kvs ks vs hks hvs (fun h => h.elim) p hp).1 (ofValue_normal _ _) hk hv
      rcases hh with hh | hh
      · exact this.2 hh
      · rw [hh] at this
        exact absurd this.1 (by simp)
  | .none, t, h, _ | .bool _, t, h, _ | .int _, t, h, _ | .float _, t, h, _ | .dec _, t, h, _
  | .str _, t, h, _ | .bytes _, t, h, _ | .date _, t, h, _ | .datetime .., t, h, _
  | .timedelta _, t, h, _ | .builtinFn _, t, h, _ | .userFn _, t, h, _ | .method .., t, h, _
  | .obj _, t, h, _ | .undef, t, h, _ => by
    simp only [Expr.ofValue, Fault, not_false_eq_true]
theorem ofValues_no_fault : ∀ (xs : List Value) (ts : List DataType), typesOf xs = .ok ts → ∀ x ∈ xs,
    (Expr.ofValue env.utcoffset x).typed = true → ¬Fault env dc thing (Expr.ofValue env.utcoffset x) S
  | [], _, _, x, hx => by simp at hx
  | y :: ys, ts, h, x, hx => by
    simp only [typesOf, except_bind_ok] at h
    obtain ⟨t, ht, us, hus, -⟩ := h
    rcases List.mem_cons.1 hx with h1 | h1
    · rw [h1]; exact ofValue_no_fault y t ht
    · exact ofValues_no_fault ys us hus x h1
theorem ofPairs_no_fault : ∀ (kvs : List (Value × Value)) (ks vs : List DataType),
    typesOfKeys kvs = .ok ks → typesOfVals kvs = .ok vs → ∀ p ∈ kvs,
    ((Expr.ofValue env.utcoffset p.1).typed = true ∧ (Expr.ofValue env.utcoffset p.2).typed = true) →
    ¬(Fault env dc thing (Expr.ofValue env.utcoffset p.1) S ∨ Fault env dc thing (Expr.ofValue env.utcoffset p.2) S)
  | [], _, _, _, _, x, hx => by simp at hx
  | (k, v) :: ys, ks, vs, hk, hv, x, hx => by
    simp only [typesOfKeys, typesOfVals, except_bind_ok] at hk hv
    obtain ⟨t, ht, us, hus, -⟩ := hk
    obtain ⟨t', ht', us', hus', -⟩ := hv
    rcases List.mem_cons.1 hx with h1 | h1
    · rw [h1]
      rintro ⟨h1, h2⟩ (hf | hf)
      · exact ofValue_no_fault k t ht h1 hf
      · exact ofValue_no_fault v t' ht' h2 hf
    · exact ofPairs_no_fault ys us us' hus hus' x h1
end

theorem folds_no_fault {dct : DecCtx} {Γ : List Assignment} {node e : Expr}
    (hf : Folds env dct Γ node e) (ht : e.typed = true) : ¬Fault env dc thing e S := by
  obtain ⟨v, -, hl⟩ := hf
  simp only [litOf, except_bind_ok, Except.ok.injEq] at hl
  obtain ⟨t, h, rfl⟩ := hl
  exact ofValue_no_fault v t h ht

end

/-! ## Faults of nodes with known types -/

section
variable {env : Env} {dc : DecCtx} {thing : Value} {S : List Assignment}

theorem opLeak_local {op : BinOp} {l r : Expr} {a b : Value} (hl : Value.Sound env True l.rt a) (hr : Value.Sound env True r.rt b)
    (la : a.isNaive = false) (lb : b.isNaive = false) (hs : op.sane = true) (hck : op.check env l r = .ok ())
    (ht : op.typedOk l.rt r.rt = true) (ca : CanBe env dc thing S l a) (cb : CanBe env dc thing S r b)
    (h : OpLeak env dc op a b) : LocalFault env dc thing (.bin op l r) := by
  have hacc : op.accepts l.rt = true ∧ op.accepts r.rt = true := by
    unfold BinOp.check at hck
    by_cases h : (op.accepts l.rt && op.accepts r.rt) = true
    · simpa using h
    · rw [if_neg h] at hck
      cases hck
  cases h with
  | sub h => exact .sub ca la cb lb h
  | @cmp op a b hop h =>
    have ho : (l.rt.orderType || r.rt.orderType) = true := by
      cases op <;> first | exact absurd rfl hop | exact ht
    rw [Bool.or_eq_true] at ho
    rcases ho with ho | ho
    · exact .order ca cb hl.2 hr.2 (orderType_nan h la lb ho hl.2)
    · exact .order ca cb hl.2 hr.2 (nanCompared_symm (orderType_nan (unordered_symm h) lb la ho hr.2))
  | @bitLong op a b h => exfalso; obtain ⟨rfl, -⟩ := h; cases hs
  | shiftLong h => exact .shift ca cb h
  | @pattern se ne a b h =>
    refine .pattern cb ?_ h
    rintro v t rfl
    obtain ⟨p, rfl, hv, -⟩ := h
    obtain ⟨s, s', -, hc⟩ := cb
    simp only [eval, M.pure_eq_ok] at hc
    obtain ⟨rfl, -⟩ := hc
    unfold BinOp.check at hck
    rw [if_pos (by simp [hacc])] at hck
    simp [hv, Bind.bind, Except.bind] at hck
  | bit h => exact absurd h (clean_not_foreign (hr.1 trivial))
  | shift h => exact absurd h (clean_not_foreign (hr.1 trivial))
  | @bitSets op xs ys h => exfalso; rcases h with rfl | rfl <;> cases hs
  | @shiftSets op xs ys =>
    exfalso
    have hk : l.rt.known = true := ht
    have hty := hl.2
    have hac := hacc.1
    simp only [BinOp.accepts, BinOp.compatibleTypes] at hac
    generalize l.rt = t at hk hty hac
    cases t <;> simp_all [DataType.known, DataType.eq, DataType.compat, Value.HasType]
  | add h =>
    by_cases hx : a.isText = true
    · have hrb : b = .none := by
        have hk : (l.rt.known && r.rt.known) = true := ht
        have hta := hl.2
        have htb := hr.2
        have hac := hacc.1
        unfold BinOp.check at hck
        rw [if_pos (by simp [hacc])] at hck
        simp only [Bind.bind, Except.bind] at hck
        simp only [BinOp.accepts, BinOp.compatibleTypes] at hac
        generalize l.rt = t at hk hta hac hck
        generalize r.rt = u at hk htb hck
        simp only [Bool.and_eq_true] at hk
        cases a <;> simp [Value.isText] at hx <;>
        cases t <;> simp [DataType.known, DataType.eq, DataType.compat, Value.HasType, bothKnown] at hk hta hac hck <;>
        cases u <;> simp [DataType.known, DataType.eq, DataType.compat, Value.HasType, bothKnown] at hk htb hck <;>
        · rcases htb with rfl | ⟨y, rfl⟩
          · rfl
          · cases h; first | (rename_i h1; exact absurd rfl (h1 y)) | (rename_i h1 h2; exact absurd rfl (h1 y))
      subst hrb
      exact .addNull ca hx cb
    · exact .add ca (by simpa using hx) cb h

theorem inLeak_local {c m : Expr} {v w : Value} (hl : Value.Sound env True c.rt v) (hr : Value.Sound env True m.rt w)
    (hn : v.Normal) (hwn : w.Normal) (hck : checkContains c.rt m.rt = .ok ())
    (ht : (match c.rt with | .undefined => false | .set .. | .mapping .. => m.rt.keyType | _ => true) = true)
    (cv : CanBe env dc thing S c v) (h : InLeak v w) : LocalFault env dc thing (.contains c m) := by
  by_cases hv : v = .none
  · rw [hv] at cv; exact .contains cv
  exfalso
  have hty : v.HasType env.Returns c.rt := by
    rcases hl.2 with h | h
    · exact absurd h hv
    · exact h
  generalize c.rt = t at hty ht hck
  cases h with
  | container h1 h2 h3 h4 h5 =>
    cases t <;> simp [checkContains, DataType.eq, DataType.isScalar] at ht hck <;> simp only [Value.HasType] at hty
    case bytes => obtain ⟨x, rfl⟩ := hty; exact h5 x rfl
    case string => obtain ⟨x, rfl⟩ := hty; exact h4 x rfl
    case array =>
      obtain ⟨k, xs, rfl, -⟩ := hty
      simp only [Value.Normal] at hn
      obtain ⟨rfl, -⟩ := hn
      exact h1 xs rfl
    case set => obtain ⟨xs, rfl, -⟩ := hty; exact h2 xs rfl
    case mapping =>
      obtain ⟨k, xs, rfl, -⟩ := hty
      simp only [Value.Normal] at hn
      obtain ⟨rfl, -⟩ := hn
      exact h3 xs rfl
  | set h1 h2 =>
    cases t <;> simp [checkContains, DataType.eq, DataType.isScalar] at ht hck <;> simp [Value.HasType] at hty
    have := keyType_hashable _ ht hwn hr.2
    rw [h2] at this; cases this
  | map h2 =>
    cases t <;> simp [checkContains, DataType.eq, DataType.isScalar] at ht hck <;> simp [Value.HasType] at hty
    have := keyType_hashable _ ht hwn hr.2
    rw [h2] at this; cases this
  | str h => exact clean_not_foreign (hr.1 trivial) h
  | bytes h => exact clean_not_foreign (hr.1 trivial) h

theorem itemLeak_typed {c i : Expr} {safe : Bool} {v w : Value} (hl : Value.Sound env True c.rt v)
    (hr : Value.Sound env True i.rt w) (hn : v.Normal) (hwn : w.Normal) (hck : checkItem c.rt i.rt safe = .ok ())
    (ht : (match c.rt with | .undefined => false | .mapping .. => i.rt.keyType | _ => true) = true)
    (hv : v ≠ .none) : ¬ItemLeak v w := by
  intro h
  have hty : v.HasType env.Returns c.rt := by
    rcases hl.2 with h | h
    · exact absurd h hv
    · exact h
  generalize c.rt = t at hty ht hck
  cases h with
  | container h1 h2 h3 h4 =>
    cases t <;> simp [checkItem] at ht hck <;> simp only [Value.HasType] at hty
    case bytes => obtain ⟨x, rfl⟩ := hty; exact h2 x rfl
    case null => exact hv hty
    case string => obtain ⟨x, rfl⟩ := hty; exact h1 x rfl
    case array =>
      obtain ⟨k, xs, rfl, -⟩ := hty
      simp only [Value.Normal] at hn
      obtain ⟨rfl, -⟩ := hn
      exact h3 xs rfl
    case mapping =>
      obtain ⟨k, xs, rfl, -⟩ := hty
      simp only [Value.Normal] at hn
      obtain ⟨rfl, -⟩ := hn
      exact h4 xs rfl
  | key h2 =>
    cases t <;> simp [checkItem] at ht hck <;> simp [Value.HasType] at hty
    have := keyType_hashable _ ht hwn hr.2
    rw [h2] at this; cases this

theorem sliceLeak_typed {c : Expr} {safe : Bool} {v : Value} (hl : Value.Sound env True c.rt v)
    (hn : v.Normal) (hck : checkSlice c.rt safe = .ok ()) (ht : c.rt.known = true)
    (hv : v ≠ .none) : ¬SliceLeak v := by
  rintro ⟨h1, h2, h3⟩
  have hty : v.HasType env.Returns c.rt := by
    rcases hl.2 with h | h
    · exact absurd h hv
    · exact h
  generalize c.rt = t at hty ht hck
  cases t <;> simp [checkSlice, DataType.known] at ht hck <;> simp only [Value.HasType] at hty
  case bytes => obtain ⟨x, rfl⟩ := hty; exact h2 x rfl
  case null => exact hv hty
  case string => obtain ⟨x, rfl⟩ := hty; exact h1 x rfl
  case array =>
    obtain ⟨k, xs, rfl, -⟩ := hty
    simp only [Value.Normal] at hn
    obtain ⟨rfl, -⟩ := hn
    exact h3 xs rfl

theorem attrLeak_local {o : Expr} {name : String} {safe : Bool} {v : Value}
    (hl : Value.Sound env True o.rt v) (hn : v.Normal)
    (ht : (name != "to_set" || (match o.rt with | .string | .bytes => true | .array m _ => m.keyType | _ => false)) = true)
    (cv : CanBe env dc thing S o v) (h : AttrLeak env v name) : LocalFault env dc thing (.getAttr o name safe) := by
  cases h with
  | toFlt h => exact .attr cv (.inl rfl) (.toFlt h)
  | toInt h => exact .attr cv (.inr (.inl rfl)) (.toInt h)
  | floor h => exact .attr cv (.inr (.inr (.inl rfl))) (.floor h)
  | ceiling h => exact .attr cv (.inr (.inr (.inr rfl))) (.ceiling h)
  | resolver h => exact .resolver cv h
  | @toSet v x xs hm hx hh =>
    exfalso
    simp only [bne_self_eq_false, Bool.false_or] at ht
    have hty := hl.2
    generalize o.rt = t at hty ht
    rcases hty with rfl | hty
    · cases hm
    cases t <;> simp only [Bool.false_eq_true] at ht <;> simp only [Value.HasType] at hty
    case bytes =>
      obtain ⟨b, rfl⟩ := hty
      cases hm
      obtain ⟨y, -, rfl⟩ := List.mem_map.1 hx
      cases hh
    case string =>
      obtain ⟨b, rfl⟩ := hty
      cases hm
      obtain ⟨y, -, rfl⟩ := List.mem_map.1 hx
      cases hh
    case array =>
      obtain ⟨k, ys, rfl, hy⟩ := hty
      cases hm
      simp only [Value.Normal] at hn
      obtain ⟨rfl, hn⟩ := hn
      rw [allNormal_iff] at hn
      have := keyType_hashable _ ht (hn x hx) ((hy x hx).imp (·.2) id)
      rw [hh] at this; cases this

end

theorem forall₂_right {α β : Type} {R : α → β → Prop} {xs : List α} {ys : List β} (h : List.Forall₂ R xs ys) {y : β}
    (hy : y ∈ ys) : ∃ x ∈ xs, R x y := by
  induction h with
  | nil => simp at hy
  | cons h _ ih =>
    rcases List.mem_cons.1 hy with rfl | hy
    · exact ⟨_, by simp, h⟩
    · obtain ⟨x, hx, hr⟩ := ih hy
      exact ⟨x, by simp [hx], hr⟩

mutual
/-- In a rule with known operand types, every fault is one of those in `LocalFault`. -/
theorem typed_fault {env : Env} {dct dc : DecCtx} {thing : Value} {A : String → Prop} (H : env.Honest True A thing) :
    ∀ (raw : Raw) {Γ S : List Assignment} {e : Expr}, raw.Sane A → raw.Plain →
    Built env dct Γ raw e → Consistent env True Γ S → (∀ name, A name → scopeLookup Γ name = none) →
    e.typed = true → Fault env dc thing e S → ∃ n, Within n e ∧ LocalFault env dc thing n
  | .lit v, Γ, S, e, hsa, hp, hb, hc, hA, ht, hf => by
    simp only [Built] at hb
    obtain ⟨t, -, rfl⟩ := hb
    exact hf.elim
  | .floatLit v, Γ, S, e, hsa, hp, hb, hc, hA, ht, hf => by
    simp only [Built] at hb
    obtain ⟨t, -, rfl⟩ := hb
    exact hf.elim
  | .datetimeLit v, Γ, S, e, hsa, hp, hb, hc, hA, ht, hf => by
    simp only [Built] at hb
    obtain ⟨t, -, rfl⟩ := hb
    exact hf.elim
  | .timedeltaLit v, Γ, S, e, hsa, hp, hb, hc, hA, ht, hf => by
    simp only [Built] at hb
    obtain ⟨t, -, rfl⟩ := hb
    exact hf.elim
  | .array xs, Γ, S, e, hsa, hp, hb, hc, hA, ht, hf => by
    simp only [Built] at hb
    obtain ⟨es, hes, rfl⟩ := hb
    simp only [Expr.typed] at ht
    simp only [Fault] at hf
    obtain ⟨x, hx, n, hn, hl⟩ := typed_faults H xs hsa hp hes hc hA ht hf
    exact ⟨n, .array hx hn, hl⟩
  | .set xs, Γ, S, e, hsa, hp, hb, hc, hA, ht, hf => by
    simp only [Built] at hb
    obtain ⟨es, hes, rfl⟩ := hb
    simp only [Expr.typed, Bool.and_eq_true, List.all_eq_true] at ht
    simp only [Fault] at hf
    rcases hf with hf | ⟨x, hx, v, hv, hh⟩
    · obtain ⟨x, hx, n, hn, hl⟩ := typed_faults H xs hsa hp hes hc hA ht.1 hf
      exact ⟨n, .set hx hn, hl⟩
    · exfalso
      have := (key_ok (builts_sound H xs dc hsa hes hc hA x hx) (normal_of_list (builts_normal xs hp hes) x hx)
        (ht.2 x hx) hv).1
      rw [hh] at this; cases this
  | .mapping kvs, Γ, S, e, hsa, hp, hb, hc, hA, ht, hf => by
    simp only [Built] at hb
    obtain ⟨es, hes, -, rfl⟩ := hb
    simp only [Expr.typed, Bool.and_eq_true, List.all_eq_true] at ht
    simp only [Fault] at hf
    rcases hf with hf | ⟨x, hx, v, hv, hh⟩
    · obtain ⟨x, hx, n, hn, hl⟩ := typed_faultp H kvs hsa hp hes hc hA ht.1 hf
      rcases hn with hn | hn
      · exact ⟨n, .key hx hn, hl⟩
      · exact ⟨n, .val hx hn, hl⟩
    · exfalso
      have := key_ok (builtp_sound H kvs dc hsa hes hc hA x hx).1 (normalPairs_iff (builtp_normal kvs hp hes) x hx).1
        (ht.2 x hx) hv
      rcases hh with hh | hh
      · exact this.2 hh
      · rw [hh] at this; cases this.1
  | .bin op l r, Γ, S, e, hsa, hp, hb, hc, hA, ht, hf => by
    simp only [Built] at hb
    obtain ⟨l', r', hl, hr, hck, he⟩ := hb
    split at he
    · exact absurd hf (folds_no_fault he ht)
    subst he
    simp only [Raw.Sane] at hsa
    simp only [Raw.Plain] at hp
    simp only [Expr.typed, Bool.and_eq_true] at ht
    simp only [Fault] at hf
    have sl := built_sound H l dc hsa.2.1 hl hc hA
    have sr := built_sound H r dc hsa.2.2 hr hc hA
    rcases hf with hf | ⟨a, ca, hf⟩
    · obtain ⟨n, hn, h⟩ := typed_fault H l hsa.2.1 hp.1 hl hc hA ht.1.1 hf
      exact ⟨n, .left hn, h⟩
    rcases hf with hf | ⟨-, hf | ⟨b, cb, hf⟩⟩
    · exfalso
      have := clean_not_foreign ((canBe_yields sl ca).1 trivial)
      cases op <;> first | exact hf | exact this hf
    · obtain ⟨n, hn, h⟩ := typed_fault H r hsa.2.2 hp.2 hr hc hA ht.1.2 hf
      exact ⟨n, .right hn, h⟩
    · exact ⟨_, .self, opLeak_local (canBe_yields sl ca) (canBe_yields sr cb)
        (canBe_aware (built_awareTop l hp.1 hl) ca) (canBe_aware (built_awareTop r hp.2 hr) cb)
        hsa.1 hck ht.2 ca cb hf⟩
  | .comp result var iterable cond, Γ, S, e, hsa, hp, hb, hc, hA, ht, hf => by
    simp only [Built] at hb
    obtain ⟨it, t, c, r, hit, hty, hcond, hres, rfl⟩ := hb
    simp only [Raw.Sane] at hsa
    simp only [Raw.Plain] at hp
    simp only [Expr.typed, Bool.and_eq_true] at ht
    simp only [Fault] at hf
    have hA' : ∀ name, A name → scopeLookup (Γ ++ [⟨var, .undef, t⟩]) name = none := by
      intro name hn
      exact lookup_append (hA name hn) (by rintro rfl; exact hsa.1 hn)
    have si := built_sound H iterable dc hsa.2.2.1 hit hc hA
    rcases hf with hf | ⟨v, cv, hf⟩
    · obtain ⟨n, hn, h⟩ := typed_fault H iterable hsa.2.2.1 hp.2.1 hit hc hA ht.1.2 hf
      exact ⟨n, .iterable hn, h⟩
    rcases hf with hf | ⟨xs, hxs, x, hx, hf⟩
    · exact absurd hf (clean_not_foreign ((canBe_yields si cv).1 trivial))
    have hsx : Value.Sound env True t x := members_sound (canBe_yields si cv) hty hxs x hx
    have hcon := consistent_append (var := var) hc hsx
    rcases hf with hf | ⟨-, hf⟩
    · obtain ⟨n, hn, h⟩ := typed_fault H cond hsa.2.2.2 hp.2.2 hcond hcon hA' ht.2 hf
      exact ⟨n, .condition hn, h⟩
    · obtain ⟨n, hn, h⟩ := typed_fault H result hsa.2.1 hp.1 hres hcon hA' ht.1.1 hf
      exact ⟨n, .result hn, h⟩
  | .contains c m, Γ, S, e, hsa, hp, hb, hc, hA, ht, hf => by
    simp only [Built] at hb
    obtain ⟨c', m', hc', hm', hck, he⟩ := hb
    split at he
    · obtain ⟨v, -, rfl⟩ := he
      exact hf.elim
    subst he
    simp only [Raw.Sane] at hsa
    simp only [Raw.Plain] at hp
    simp only [Expr.typed, Bool.and_eq_true] at ht
    simp only [Fault] at hf
    have sc := built_sound H c dc hsa.1 hc' hc hA
    have sm := built_sound H m dc hsa.2 hm' hc hA
    rcases hf with hf | ⟨v, cv, hf⟩
    · obtain ⟨n, hn, h⟩ := typed_fault H c hsa.1 hp.1 hc' hc hA ht.1.1 hf
      exact ⟨n, .container hn, h⟩
    rcases hf with hf | hf | ⟨w, cw, hf⟩
    · exact absurd hf (clean_not_foreign ((canBe_yields sc cv).1 trivial))
    · obtain ⟨n, hn, h⟩ := typed_fault H m hsa.2 hp.2 hm' hc hA ht.1.2 hf
      exact ⟨n, .member hn, h⟩
    · exact ⟨_, .self, inLeak_local (canBe_yields sc cv) (canBe_yields sm cw)
        (canBe_normal (built_normal c hp.1 hc') cv) (canBe_normal (built_normal m hp.2 hm') cw) hck ht.2 cv hf⟩
  | .getAttr o name safe, Γ, S, e, hsa, hp, hb, hc, hA, ht, hf => by
    simp only [Built] at hb
    obtain ⟨o', ho, -, he⟩ := hb
    split at he
    · obtain ⟨e', hfo, rfl⟩ := he
      exfalso
      revert ht hf
      unfold attrLit
      split
      · split <;> exact fun _ hf => hf
      · exact fun ht hf => folds_no_fault hfo ht hf
    subst he
    simp only [Raw.Sane] at hsa
    simp only [Raw.Plain] at hp
    simp only [Expr.typed, Bool.and_eq_true] at ht
    simp only [Fault] at hf
    have so := built_sound H o dc hsa.2 ho hc hA
    rcases hf with hf | ⟨v, cv, hf⟩
    · obtain ⟨n, hn, h⟩ := typed_fault H o hsa.2 hp ho hc hA ht.1 hf
      exact ⟨n, .object hn, h⟩
    · exact ⟨_, .self, attrLeak_local (canBe_yields so cv) (canBe_normal (built_normal o hp ho) cv) ht.2 cv hf⟩
  | .getItem c i safe, Γ, S, e, hsa, hp, hb, hc, hA, ht, hf => by
    simp only [Built] at hb
    obtain ⟨c', i', hc', hi', hck, he⟩ := hb
    split at he
    · subst he; exact hf.elim
    split at he
    · exact absurd hf (folds_no_fault he ht)
    subst he
    simp only [Raw.Sane] at hsa
    simp only [Raw.Plain] at hp
    simp only [Expr.typed, Bool.and_eq_true] at ht
    simp only [Fault] at hf
    have sc := built_sound H c dc hsa.1 hc' hc hA
    have si := built_sound H i dc hsa.2 hi' hc hA
    rcases hf with hf | ⟨v, cv, hv, hf⟩
    · obtain ⟨n, hn, h⟩ := typed_fault H c hsa.1 hp.1 hc' hc hA ht.1.1 hf
      exact ⟨n, .itemOf hn, h⟩
    rcases hf with hf | ⟨w, cw, hf⟩
    · obtain ⟨n, hn, h⟩ := typed_fault H i hsa.2 hp.2 hi' hc hA ht.1.2 hf
      exact ⟨n, .item hn, h⟩
    · exact absurd hf (itemLeak_typed (canBe_yields sc cv) (canBe_yields si cw)
        (canBe_normal (built_normal c hp.1 hc') cv) (canBe_normal (built_normal i hp.2 hi') cw) hck ht.2 hv)
  | .getSlice c a b safe, Γ, S, e, hsa, hp, hb, hc, hA, ht, hf => by
    simp only [Built] at hb
    obtain ⟨c', a', b', hc', ha', hb', hck, he⟩ := hb
    split at he
    · exact absurd hf (folds_no_fault he ht)
    subst he
    simp only [Raw.Sane] at hsa
    simp only [Raw.Plain] at hp
    simp only [Expr.typed, Bool.and_eq_true] at ht
    simp only [Fault] at hf
    have sc := built_sound H c dc hsa.1 hc' hc hA
    rcases hf with hf | ⟨v, cv, hv, hf⟩
    · obtain ⟨n, hn, h⟩ := typed_fault H c hsa.1 hp.1 hc' hc hA ht.1.1.1 hf
      exact ⟨n, .sliceOf hn, h⟩
    rcases hf with hf | hf | hf
    · obtain ⟨n, hn, h⟩ := typed_fault H a hsa.2.1 hp.2.1 ha' hc hA ht.1.1.2 hf
      exact ⟨n, .start hn, h⟩
    · obtain ⟨n, hn, h⟩ := typed_fault H b hsa.2.2 hp.2.2 hb' hc hA ht.1.2 hf
      exact ⟨n, .stop hn, h⟩
    · exact absurd hf (sliceLeak_typed (canBe_yields sc cv) (canBe_normal (built_normal c hp.1 hc') cv) hck ht.2 hv)
  | .sym name b, Γ, S, e, hsa, hp, hb, hc, hA, ht, hf => by
    simp only [Built] at hb
    obtain ⟨t, -, rfl⟩ := hb
    simp only [Fault] at hf
    rcases hf with ⟨rfl, k, h⟩ | ⟨-, v, hv, hf⟩
    · exact ⟨_, .self, .symbol h⟩
    exfalso
    rcases hf with ⟨-, ⟨a, ha, -, rfl⟩ | h⟩ | h
    · obtain ⟨g, -, hg⟩ := forall₂_right hc ha
      exact clean_not_foreign (hg.2.1 trivial) hv
    · exact clean_not_foreign (H.clean trivial _ _ _ (.inl rfl) h) hv
    · rcases H.default with h' | h' <;> rw [h'] at h <;> cases h
      cases hv
  | .call f args, Γ, S, e, hsa, hp, hb, hc, hA, ht, hf => by
    simp only [Built] at hb
    obtain ⟨f', as, hf', has, hck, he⟩ := hb
    split at he
    · exact absurd hf (folds_no_fault he ht)
    subst he
    simp only [Raw.Sane] at hsa
    simp only [Raw.Plain] at hp
    simp only [Expr.typed, Bool.and_eq_true] at ht
    simp only [Fault] at hf
    have sa := builts_sound H args dc hsa.2 has hc hA
    rcases hf with hf | ⟨v, cv, hf⟩
    · obtain ⟨n, hn, h⟩ := typed_fault H f hsa.1 hp.1 hf' hc hA ht.1 hf
      exact ⟨n, .function hn, h⟩
    rcases hf with hf | ⟨vs, hvs, hf⟩
    · obtain ⟨x, hx, n, hn, h⟩ := typed_faults H args hsa.2 hp.2 has hc hA ht.2 hf
      exact ⟨n, .argument hx hn, h⟩
    rcases hf with ⟨-, w, hw, hf⟩ | ⟨s, s', r, hr, hf⟩
    · exfalso
      obtain ⟨x, hx, hcw⟩ := forall₂_right hvs hw
      exact clean_not_foreign ((canBe_yields (sa x hx) hcw).1 trivial) hf
    · exact ⟨_, .self, .call cv hvs hr hf⟩
  | .tern c t f, Γ, S, e, hsa, hp, hb, hc, hA, ht, hf => by
    simp only [Built] at hb
    obtain ⟨c', t', f', hc', ht', hf', rfl⟩ := hb
    simp only [Raw.Sane] at hsa
    simp only [Raw.Plain] at hp
    unfold mkTern at ht hf ⊢
    split at ht
    · split at ht
      · rename_i h1 h2
        rw [if_pos h1, if_pos h2] at hf ⊢
        exact typed_fault H t hsa.2.1 hp.2.1 ht' hc hA ht hf
      · rename_i h1 h2
        rw [if_pos h1, if_neg h2] at hf ⊢
        exact typed_fault H f hsa.2.2 hp.2.2 hf' hc hA ht hf
    · rename_i h1
      rw [if_neg h1] at hf ⊢
      simp only [Expr.typed, Bool.and_eq_true] at ht
      simp only [Fault] at hf
      rcases hf with hf | ⟨v, cv, ⟨-, hf⟩ | ⟨-, hf⟩⟩
      · obtain ⟨n, hn, h⟩ := typed_fault H c hsa.1 hp.1 hc' hc hA ht.1.1 hf
        exact ⟨n, .test hn, h⟩
      · obtain ⟨n, hn, h⟩ := typed_fault H t hsa.2.1 hp.2.1 ht' hc hA ht.1.2 hf
        exact ⟨n, .whenTrue hn, h⟩
      · obtain ⟨n, hn, h⟩ := typed_fault H f hsa.2.2 hp.2.2 hf' hc hA ht.2 hf
        exact ⟨n, .whenFalse hn, h⟩
  | .not x, Γ, S, e, hsa, hp, hb, hc, hA, ht, hf => by
    simp only [Built] at hb
    obtain ⟨x', hx, he⟩ := hb
    split at he
    · obtain ⟨v, -, rfl⟩ := he
      exact hf.elim
    subst he
    obtain ⟨n, hn, h⟩ := typed_fault H x hsa hp hx hc hA ht hf
    exact ⟨n, .not hn, h⟩
  | .neg x, Γ, S, e, hsa, hp, hb, hc, hA, ht, hf => by
    simp only [Built] at hb
    obtain ⟨x', hx, he⟩ := hb
    split at he
    · obtain ⟨w, v, t, -, -, -, rfl⟩ := he
      exact hf.elim
    subst he
    simp only [Fault] at hf
    rcases hf with hf | ⟨v, cv, hf⟩
    · obtain ⟨n, hn, h⟩ := typed_fault H x hsa hp hx hc hA ht hf
      exact ⟨n, .neg hn, h⟩
    · exact ⟨_, .self, .neg cv hf⟩
theorem typed_faults {env : Env} {dct dc : DecCtx} {thing : Value} {A : String → Prop} (H : env.Honest True A thing) :
    ∀ (xs : List Raw) {Γ S : List Assignment} {es : List Expr}, Raw.SaneList A xs →
    Raw.PlainList xs → BuiltList env dct Γ xs es → Consistent env True Γ S →
    (∀ name, A name → scopeLookup Γ name = none) → Expr.typedList es = true → FaultAny env dc thing es S →
    ∃ x ∈ es, ∃ n, Within n x ∧ LocalFault env dc thing n
  | [], Γ, S, es, hsa, hp, hb, hc, hA, ht, hf => by
    simp only [BuiltList] at hb
    subst hb
    exact hf.elim
  | x :: xs, Γ, S, es, hsa, hp, hb, hc, hA, ht, hf => by
    simp only [BuiltList] at hb
    obtain ⟨e, es', he, hes, rfl⟩ := hb
    simp only [Expr.typedList, Bool.and_eq_true] at ht
    simp only [FaultAny] at hf
    rcases hf with hf | hf
    · obtain ⟨n, hn, h⟩ := typed_fault H x hsa.1 hp.1 he hc hA ht.1 hf
      exact ⟨e, by simp, n, hn, h⟩
    · obtain ⟨y, hy, n, hn, h⟩ := typed_faults H xs hsa.2 hp.2 hes hc hA ht.2 hf
      exact ⟨y, by simp [hy], n, hn, h⟩
theorem typed_faultp {env : Env} {dct dc : DecCtx} {thing : Value} {A : String → Prop} (H : env.Honest True A thing) :
    ∀ (xs : List (Raw × Raw)) {Γ S : List Assignment} {es : List (Expr × Expr)},
    Raw.SanePairs A xs → Raw.PlainPairs xs → BuiltPairs env dct Γ xs es → Consistent env True Γ S →
    (∀ name, A name → scopeLookup Γ name = none) → Expr.typedPairs es = true → FaultPairs env dc thing es S →
    ∃ p ∈ es, ∃ n, (Within n p.1 ∨ Within n p.2) ∧ LocalFault env dc thing n
  | [], Γ, S, es, hsa, hp, hb, hc, hA, ht, hf => by
    simp only [BuiltPairs] at hb
    subst hb
    exact hf.elim
  | (k, v) :: xs, Γ, S, es, hsa, hp, hb, hc, hA, ht, hf => by
    simp only [BuiltPairs] at hb
    obtain ⟨k', v', es', hk, hv, hes, rfl⟩ := hb
    simp only [Expr.typedPairs, Bool.and_eq_true] at ht
    simp only [FaultPairs] at hf
    rcases hf with hf | hf | hf
    · obtain ⟨n, hn, h⟩ := typed_fault H k hsa.1 hp.1 hk hc hA ht.1.1 hf
      exact ⟨(k', v'), by simp, n, .inl hn, h⟩
    · obtain ⟨n, hn, h⟩ := typed_fault H v hsa.2.1 hp.2.1 hv hc hA ht.1.2 hf
      exact ⟨(k', v'), by simp, n, .inr hn, h⟩
    · obtain ⟨y, hy, n, hn, h⟩ := typed_faultp H xs hsa.2.2 hp.2.2 hes hc hA ht.2 hf
      exact ⟨y, List.mem_cons_of_mem _ hy, n, hn, h⟩
end

/-- **C29 (partial), rules with known operand types.** Data without foreign objects, an honest embedding program, and a
built rule whose operand types are known: if `Rule.evaluate` raises something other than an EngineError,
then a part of the rule did one of the things listed in `LocalFault`: a sum, difference or negation out of
range (or of infinities), a shift with too many digits, an ordering with a NaN, `text + null`, a computed pattern that
`re.compile` gives up on, `member in null`, `to_flt`, `floor` or `ceiling` with too many digits, `to_flt` or `to_int` of
text that is not a number, or a resolver or function that broke its contract.  In particular there
are no TypeErrors for ill-typed operands. -/
theorem typed_escape_partial (env : Env) (A : String → Prop) (dct : DecCtx) (raw : Raw) (thing : Value)
    (H : env.Honest True A thing) (hsane : raw.Sane A) (hp : raw.Plain) (s s1 : St) (hs : s.scopes = [])
    (e : Expr) (hb : construct env dct raw s = (.ok e, s1)) (ht : e.typed = true) (s2 s3 : St) (k : PyErr)
    (hv : ruleEval env e thing s2 = (.error (.py k), s3)) :
    ∃ n, Within n e ∧ LocalFault env env.decCtx thing n := by
  have hbt := build_built raw hb
  rw [hs] at hbt
  exact typed_fault H raw hsane hp hbt .nil (fun _ _ => rfl) ht
    (escape_origin_partial env dct raw hp s s1 e hb thing s2 s3 k hv)

/-- types without numbers -/
def DataType.noNumbers : DataType → Bool
  | .boolean | .bytes | .datetime | .null | .string | .timedelta => true
  | .array m _ => m.noNumbers
  | _ => false

/-- **Specification.** Parts of rules to which none of the cases of `LocalFault` apply. -/
def Expr.quiet : Expr → Bool
  | .bin .add _ _ | .bin .sub _ _ | .bin (.shift .lsh) _ _ | .neg _ | .call .. => false
  | .bin (.fuzzy ..) _ (.lit ..) => true
  | .bin (.fuzzy ..) _ _ => false
  | .bin (.cmp _) l r => l.rt.noNumbers || r.rt.noNumbers
  | .contains (.array _) _ | .contains (.set _) _ | .contains (.mapping _) _ | .contains (.comp ..) _ => true
  | .contains (.lit v _) _ => v != .none
  | .contains _ _ => false
  | .getAttr _ name _ => name != "to_flt" && name != "to_int" && name != "floor" && name != "ceiling"
  | _ => true

theorem noNumbers_nan {calls : Value → Value → Prop} {a b : Value} (h : NanCompared a b) :
    ∀ {t : DataType}, t.noNumbers = true → ¬(a = .none ∨ a.HasType calls t) := by
  induction h with
  | nanL y | nanR x =>
    rintro t ht (h | h)
    · cases h
    · cases t <;> simp [DataType.noNumbers, Value.HasType] at ht h
  | @member xs ys i x y hx hy h ih =>
    rintro t ht (h | h)
    · cases h
    · cases t <;> simp [DataType.noNumbers, Value.HasType, Value.tuple] at ht h
      rename_i m n
      exact ih ht ((h x (List.mem_of_getElem? hx)).imp (·.2) id)

theorem quiet_no_fault {env : Env} {dc : DecCtx} {thing : Value} (hpol : env.PoliteResolver) {n : Expr} (h : n.quiet = true) :
    ¬LocalFault env dc thing n := by
  intro hf
  cases hf with
  | addNull | add | sub | neg | call => cases h
  | shift _ _ hl => obtain ⟨rfl, -⟩ := hl; cases h
  | @pattern S se ne l r b _ hr _ =>
    cases r
    case lit v t => exact (hr _ _ rfl).elim
    all_goals simp [Expr.quiet] at h
  | order ca cb ta tb hn =>
    simp only [Expr.quiet, Bool.or_eq_true] at h
    rcases h with h | h
    · exact noNumbers_nan hn h ta
    · exact noNumbers_nan (nanCompared_symm hn) h tb
  | @contains S c m hc =>
    obtain ⟨s, s', -, hc⟩ := hc
    cases c <;> simp [Expr.quiet] at h
    case lit v t => simp only [eval, M.pure_eq_ok] at hc; exact h hc.1
    case array xs =>
      simp only [eval, M.bind_eq_ok, M.pure_eq_ok] at hc
      obtain ⟨_, _, -, hc, -⟩ := hc
      cases hc
    case set xs =>
      simp only [eval, M.bind_eq_ok, M.pure_eq_ok] at hc
      obtain ⟨_, _, -, hc, -⟩ := hc
      cases hc
    case mapping xs =>
      simp only [eval, M.bind_eq_ok, M.pure_eq_ok] at hc
      obtain ⟨_, _, -, _, _, -, hc, -⟩ := hc
      cases hc
    case comp r var it c =>
      simp only [eval, M.bind_eq_ok] at hc
      obtain ⟨_, _, -, _, _, -, hc⟩ := hc
      split at hc
      · simp only [M.bind_eq_ok, M.pure_eq_ok] at hc
        obtain ⟨_, _, -, _, _, -, hc, -⟩ := hc
        cases hc
      · cases hc
  | attr _ hname _ =>
    rcases hname with rfl | rfl | rfl | rfl <;> simp [Expr.quiet] at h
  | symbol h' => exact hpol _ _ _ h'
  | resolver _ h' => exact hpol _ _ _ h'

/-- **C29, rules with known operand types.** If moreover the rule has no additions, subtractions, negations, left shifts,
calls, orderings of numbers, `to_flt`, `to_int`, `floor` or `ceiling`, uses `in` only with literals and comprehensions, patterns only as
literals, and the
resolver raises only EngineErrors, then so does `Rule.evaluate`. -/
theorem typed_contained_partial (env : Env) (A : String → Prop) (dct : DecCtx) (raw : Raw) (thing : Value)
    (H : env.Honest True A thing) (hpol : env.PoliteResolver) (hsane : raw.Sane A) (hp : raw.Plain)
    (s s1 : St) (hs : s.scopes = []) (e : Expr) (hb : construct env dct raw s = (.ok e, s1))
    (ht : e.typed = true) (hq : ∀ n, Within n e → n.quiet = true) (s2 s3 : St) (err : Err)
    (hv : ruleEval env e thing s2 = (.error err, s3)) : err.isEngine = true := by
  cases err with
  | eng _ => rfl
  | py k =>
    obtain ⟨n, hn, hf⟩ := typed_escape_partial env A dct raw thing H hsane hp s s1 hs e hb ht s2 s3 k hv
    exact absurd hf (quiet_no_fault hpol (hq n hn))

/-! ## The hypotheses are met -/

mutual
/-- a check of every part of an expression -/
def Expr.allParts (p : Expr → Bool) : Expr → Bool
  | .lit v t => p (.lit v t)
  | .array xs => p (.array xs) && Expr.allPartsList p xs
  | .set xs => p (.set xs) && Expr.allPartsList p xs
  | .mapping kvs => p (.mapping kvs) && Expr.allPartsPairs p kvs
  | .bin op l r => p (.bin op l r) && l.allParts p && r.allParts p
  | .comp r v it c => p (.comp r v it c) && r.allParts p && it.allParts p && c.allParts p
  | .contains c m => p (.contains c m) && c.allParts p && m.allParts p
  | .getAttr o name safe => p (.getAttr o name safe) && o.allParts p
  | .getItem c i safe => p (.getItem c i safe) && c.allParts p && i.allParts p
  | .getSlice c a b safe => p (.getSlice c a b safe) && c.allParts p && a.allParts p && b.allParts p
  | .sym name rt b => p (.sym name rt b)
  | .call f args => p (.call f args) && f.allParts p && Expr.allPartsList p args
  | .tern c t f => p (.tern c t f) && c.allParts p && t.allParts p && f.allParts p
  | .not e => p (.not e) && e.allParts p
  | .neg e => p (.neg e) && e.allParts p
def Expr.allPartsList (p : Expr → Bool) : List Expr → Bool
  | [] => true
  | x :: xs => x.allParts p && Expr.allPartsList p xs
def Expr.allPartsPairs (p : Expr → Bool) : List (Expr × Expr) → Bool
  | [] => true
  | (k, v) :: rest => k.allParts p && v.allParts p && Expr.allPartsPairs p rest
end

theorem allPartsList_mem {p : Expr → Bool} : ∀ {xs : List Expr}, Expr.allPartsList p xs = true → ∀ x ∈ xs, x.allParts p = true
  | [], _, x, hx => by simp at hx
  | y :: ys, h, x, hx => by
    simp only [Expr.allPartsList, Bool.and_eq_true] at h
    rcases List.mem_cons.1 hx with rfl | hx
    · exact h.1
    · exact allPartsList_mem h.2 x hx

theorem allPartsPairs_mem {p : Expr → Bool} : ∀ {xs : List (Expr × Expr)}, Expr.allPartsPairs p xs = true →
    ∀ x ∈ xs, x.1.allParts p = true ∧ x.2.allParts p = true
  | [], _, x, hx => by simp at hx
  | (k, v) :: ys, h, x, hx => by
    simp only [Expr.allPartsPairs, Bool.and_eq_true] at h
    rcases List.mem_cons.1 hx with rfl | hx
    · exact h.1
    · exact allPartsPairs_mem h.2 x hx

theorem allParts_within {p : Expr → Bool} {n e : Expr} (h : Within n e) : e.allParts p = true → p n = true := by
  induction h with
  | self => cases n <;> simp_all [Expr.allParts]
  | array hx _ ih | set hx _ ih =>
    intro h
    simp only [Expr.allParts, Bool.and_eq_true] at h
    exact ih (allPartsList_mem h.2 _ hx)
  | argument hx _ ih =>
    intro h
    simp only [Expr.allParts, Bool.and_eq_true] at h
    exact ih (allPartsList_mem h.2 _ hx)
  | key hx _ ih =>
    intro h
    simp only [Expr.allParts, Bool.and_eq_true] at h
    exact ih (allPartsPairs_mem h.2 _ hx).1
  | val hx _ ih =>
    intro h
    simp only [Expr.allParts, Bool.and_eq_true] at h
    exact ih (allPartsPairs_mem h.2 _ hx).2
  | _ => intro h; simp_all [Expr.allParts]

/-- `name == "x" and (x % 2 in [1, 2]) and tag =~ "a"` over typed symbols -/
def typedSample : Raw :=
  .bin .and (.bin .eq (.sym "name" false) (.lit (.str "x")))
    (.bin .and (.contains (.array [.floatLit "1", .floatLit "2"]) (.bin (.arith .mod) (.sym "x" false) (.floatLit "2")))
      (.bin (.cmp .lt) (.sym "name" false) (.lit (.str "y"))))

/-- its environment: the default resolver on dictionaries with string keys, errors of others made EngineErrors -/
def typedSampleEnv : Env := { politeEnv with
  typeResolver := typeResolverFromDict [("name", .string), ("x", .float)] }

theorem politeEnv_clean {o v : Value} {name : String} (ho : o.Clean) (h : politeEnv.resolver o name = .ok v) : v.Clean := by
  simp only [politeEnv] at h
  split at h
  · rename_i hr; cases h; exact clean_resolveItem ho hr
  · cases h

theorem typedSample_honest {thing : Value} (h : thing.Clean) :
    { typedSampleEnv with callUser := fun _ _ => .error (.eng .functionCall) }.Honest True (fun _ => False) thing where
  noComplex := by intro op a b i h; simp [typedSampleEnv, politeEnv, sampleEnv] at h
  keysOk := fun _ => ⟨(by intro n args v h; cases h), fun _ => trivial⟩
  default := .inl rfl
  clean := by
    intro _ o name v ho h'
    rcases ho with rfl | ho
    · exact politeEnv_clean h h'
    · exact politeEnv_clean ho h'
  declared := by
    intro name T v hT _
    left
    simp only [typedSampleEnv, typeResolverFromDict, List.find?_cons, List.find?_nil] at hT
    revert hT
    cases "name" == name <;> cases "x" == name <;> simp <;> rintro rfl <;> rfl
  null := by intro _ h; exact h.elim
  foreign := fun h => (h trivial).elim

/-- a typed rule that can raise nothing but EngineErrors, on any dictionary without foreign objects -/
example (thing : Value) (h : thing.Clean) (s2 s3 : St) (e : Expr) (s1 : St) (err : Err)
    (hb : construct { typedSampleEnv with callUser := fun _ _ => .error (.eng .functionCall) } .default typedSample St.init
      = (.ok e, s1))
    (hv : ruleEval { typedSampleEnv with callUser := fun _ _ => .error (.eng .functionCall) } e thing s2 = (.error err, s3)) :
    err.isEngine = true := by
  have he : e.typed = true ∧ e.allParts Expr.quiet = true := by
    have hc : (match (construct { typedSampleEnv with callUser := fun _ _ => .error (.eng .functionCall) } .default
      typedSample St.init).1 with | .ok e => e.typed && e.allParts Expr.quiet | .error _ => false) = true := by decide +kernel
    rw [hb] at hc
    simpa using hc
  exact typed_contained_partial _ _ _ typedSample thing (typedSample_honest h) (fun o n k => politeEnv_polite o n k)
    (by simp [typedSample, Raw.Sane, Raw.SaneList, Value.isToken, BinOp.sane])
    (by simp [typedSample, Raw.Plain, Raw.PlainList, Value.isToken]) _ _ rfl e hb he.1
    (fun n hn => allParts_within hn he.2) s2 s3 err hv

/-- the example is constructed -/
example : (construct { typedSampleEnv with callUser := fun _ _ => .error (.eng .functionCall) } .default
    typedSample St.init).1.isOk = true := by decide +kernel

end RE
