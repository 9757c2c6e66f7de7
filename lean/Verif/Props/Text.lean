import Verif.Props.Calls
import Verif.Props.Bits
import Verif.Props.Times
import Mathlib.Data.List.Infix

/-!
# Functions on text, bytes and arrays: `starts_with`/`ends_with` (C34), `hex`/`base64` (C36)
-/

set_option linter.unusedSimpArgs false

namespace RE

/-- Specification: what `v.name(args…)` evaluates to (or raises), where `v` is an expression of static type `ty` and
all operands are values. -/
def methodResult (env : Env) (dc : DecCtx) (ty : DataType) (v : Value) (name : String) (args : List Value) :
    Except Err Value :=
  (eval env dc .none (.call (.getAttr (.lit v ty) name false) (args.map fun a => .lit a .undefined)) St.init).1

/-- Specification: what `$name(args…)` evaluates to (or raises). -/
def builtinResult (env : Env) (dc : DecCtx) (name : String) (args : List Value) : Except Err Value :=
  (eval env dc .none (.call (.sym name (builtinType name) true) (args.map fun a => .lit a .undefined)) St.init).1

theorem evals_lits (env : Env) (dc : DecCtx) (thing : Value) (args : List Value) :
    seqM (evals env dc thing (args.map fun a => .lit a .undefined)) = pure args := by
  induction args with
  | nil => rfl
  | cons a as ih => simp only [List.map_cons, evals, seqM, eval, ih, pure_bind]

/-- is the function one of the builtins `map` and `filter`? -/
def isHigher : Value → Bool
  | .builtinFn .map | .builtinFn .filter => true
  | _ => false

theorem callFn_basic (env : Env) (dc : DecCtx) (f : Value) (args : List Value) (h : isHigher f = false) :
    callFn env dc f args = callLogged env dc f args := by
  unfold callFn
  split
  · simp [isHigher] at h
  · simp [isHigher] at h
  · rfl

/-- the result of a call after the checks -/
def checkedResult (env : Env) (rt : DataType) (x : Except Err Value) : Except Err Value :=
  match x with
  | .error _ => .error (.eng .functionCall)
  | .ok r => do
    let r ← coerceVerify env.utcoffset r
    let t ← fromValue (localise env r)
    if DataType.compat t rt then .ok (localise env r) else .error (.eng .functionCall)

theorem finishCall_fst (env : Env) (dc : DecCtx) (rt : DataType) (f : Value) (args : List Value) (s : St) :
    (finishCall env dc rt f args s).1 = checkedResult env rt ((callFn env dc f args s).1) := by
  simp only [finishCall, M.bind_apply, M.catchErr]
  rcases callFn env dc f args s with ⟨e | r, s'⟩
  · rfl
  · simp only [M.lift_apply, checkedResult]
    rcases coerceVerify env.utcoffset r with e | w
    · rfl
    · simp only [except_ok_bind, M.bind_apply, M.lift_apply]
      rcases fromValue (localise env w) with e | t
      · rfl
      · simp only [except_ok_bind]
        split <;> rfl

theorem builtinResult_eq (env : Env) (dc : DecCtx) (name : String) (args : List Value) (f : Value)
    (hf : builtinValue env .none name = some f) (hn : newValue env f = f) (hc : f.isCallable = true)
    (hs : checkSymbol name (builtinType name) f = .ok f)
    (hu : DataType.eq (builtinType name) .undefined = false)
    (hv : validateCallValues (builtinType name) args = .ok ()) :
    builtinResult env dc name args =
      checkedResult env (callNodeType (builtinType name)) ((callFn env dc f args St.init).1) := by
  unfold builtinResult
  have h1 : evalSymbol env .none name (builtinType name) true St.init = (.ok f, St.init) := by
    simp only [evalSymbol, M.bind_apply, M.catchErr, ctxResolve, if_true, St.init, hf, hn, M.lift_apply, hs]
  simp only [eval, M.bind_apply, h1, hc, if_true, Expr.rt]
  rw [evals_lits]
  simp only [M.pure_apply, evalCall, hu, Bool.false_eq_true, if_false, M.bind_apply, M.lift_apply, hv]
  exact finishCall_fst ..

/-- a call of a builtin whose arguments do not fit its signature -/
theorem builtinResult_invalid (env : Env) (dc : DecCtx) (name : String) (args : List Value) (f : Value)
    (hf : builtinValue env .none name = some f) (hn : newValue env f = f) (hc : f.isCallable = true)
    (hs : checkSymbol name (builtinType name) f = .ok f)
    (hu : DataType.eq (builtinType name) .undefined = false) (e : Err)
    (hv : validateCallValues (builtinType name) args = .error e) :
    builtinResult env dc name args = .error e := by
  unfold builtinResult
  have h1 : evalSymbol env .none name (builtinType name) true St.init = (.ok f, St.init) := by
    simp only [evalSymbol, M.bind_apply, M.catchErr, ctxResolve, if_true, St.init, hf, hn, M.lift_apply, hs]
  simp only [eval, M.bind_apply, h1, hc, if_true, Expr.rt]
  rw [evals_lits]
  simp only [M.pure_apply, evalCall, hu, Bool.false_eq_true, if_false, M.bind_apply, M.lift_apply, hv]

theorem methodResult_eq (env : Env) (dc : DecCtx) (ty : DataType) (v : Value) (name : String) (args : List Value)
    (m : Method) (hr : resolveAttr env v name = .ok (.method m v))
    (hv : DataType.eq (attrNodeType ty name false) .undefined = true ∨
      validateCallValues (attrNodeType ty name false) args = .ok ()) :
    methodResult env dc ty v name args =
      checkedResult env (callNodeType (attrNodeType ty name false)) (callMethod env m v args) := by
  unfold methodResult
  have hn : newValue env (.method m v) = .method m v := by simp [newValue, coerce, localise]
  have hc : (Value.method m v).isCallable = true := rfl
  simp only [eval, M.bind_apply, M.pure_apply, evalGetAttr, hr, hn, Bool.false_eq_true, and_false, if_false,
    Expr.rt]
  rw [if_pos hc, evals_lits, M.bind_apply]
  simp only [M.pure_apply, evalCall]
  by_cases h : DataType.eq (attrNodeType ty name false) .undefined = true
  · simp only [h, if_true]
    rw [finishCall_fst, callFn_basic _ _ _ _ (by rfl)]
    rfl
  · have hv := hv.resolve_left h
    simp only [h, if_false, Bool.false_eq_true, M.bind_apply, M.lift_apply, hv]
    rw [finishCall_fst, callFn_basic _ _ _ _ (by rfl)]
    rfl

/-! ## C34 -/

/-- what the checks make of a boolean -/
theorem checkedResult_bool (env : Env) (rt : DataType) (b : Bool) (h : DataType.compat .boolean rt = true) :
    checkedResult env rt (.ok (.bool b)) = .ok (.bool b) := by
  simp [checkedResult, coerceVerify, coerce, fromValue, localise, except_ok_bind, h]

theorem pySlice_take {α : Type} (xs : List α) (n : Nat) : pySlice xs none (some (n : Int)) = xs.take n := by
  simp only [pySlice, sliceBound]
  rw [if_neg (by omega)]
  simp only [Int.toNat_natCast, List.drop_zero]
  rcases Nat.le_total n xs.length with h | h
  · rw [Nat.min_eq_left h]
  · rw [Nat.min_eq_right h, List.take_length, List.take_of_length_le h]

theorem pySlice_drop {α : Type} (xs : List α) (n : Nat) (hn : n ≠ 0) :
    pySlice xs (some (-(n : Int))) none = xs.drop (xs.length - n) := by
  simp only [pySlice, sliceBound]
  rw [if_pos (by omega)]
  simp only [List.take_length]
  congr 1
  omega

/-- Specification: the static type of the receiver is unknown or the type of the value. -/
def KnownAs (ty actual : DataType) : Prop := ty = .undefined ∨ ty = actual


theorem attrNodeType_with {ty t : DataType} {name : String} (hty : KnownAs ty t) (k : AttrKind)
    (ht : t ≠ .undefined ∧ t ≠ .null) (hk : attrKind t = some k) (ha : attrTypeFn k name = some (withType name)) :
    attrNodeType ty name false = .undefined ∨ attrNodeType ty name false = withType name t := by
  rcases hty with rfl | rfl
  · left; rfl
  · right
    have h1 : DataType.eq ty .undefined = false := by
      cases ty <;> first | rfl | simp [attrKind] at hk ht
    simp only [attrNodeType, h1, Bool.false_eq_true, if_false, Bool.and_false, resolveAttrType, hk, ha]

theorem with_result (env : Env) (dc : DecCtx) (ty t : DataType) (hty : KnownAs ty t) (v p : Value) (name : String)
    (m : Method) (k : AttrKind) (hn : t ≠ .undefined ∧ t ≠ .null) (ht : fromValue v = .ok t) (hk : attrKind t = some k)
    (ha : attrTypeFn k name = some (withType name)) (hm : attrValue env k name v = .ok (.method m v))
    (u : DataType) (hu : fromValue p = .ok u) (hc : DataType.compat u t = true) (b : Bool)
    (hcall : callMethod env m v [p] = .ok (.bool b)) :
    methodResult env dc ty v name [p] = .ok (.bool b) := by
  have hr : resolveAttr env v name = .ok (.method m v) := by
    simp only [resolveAttr, ht, hk, ha, hm, except_ok_bind, coerceVerify, coerce, fromValue, withType]
    simp [DataType.compat, DataType.compatArgs]
  rcases attrNodeType_with hty k hn hk ha with h | h
  · rw [methodResult_eq env dc ty v name [p] m hr (by left; rw [h]; rfl), hcall]
    apply checkedResult_bool
    rw [h]; rfl
  · rw [methodResult_eq env dc ty v name [p] m hr ?_, hcall]
    · apply checkedResult_bool
      rw [h]; rfl
    · right
      rw [h]
      simp [withType, validateCallValues, validateArgs, hu, except_ok_bind, hc]

theorem take_beq_iff {α : Type} [BEq α] [LawfulBEq α] (xs ps : List α) :
    xs.take ps.length = ps ↔ ∃ rest, xs = ps ++ rest := by
  constructor
  · intro h
    exact ⟨xs.drop ps.length, by conv_lhs => rw [← List.take_append_drop ps.length xs, h]⟩
  · rintro ⟨rest, rfl⟩; simp

theorem drop_beq_iff {α : Type} [BEq α] [LawfulBEq α] (xs ps : List α) :
    xs.drop (xs.length - ps.length) = ps ↔ ∃ rest, xs = rest ++ ps := by
  constructor
  · intro h
    exact ⟨xs.take (xs.length - ps.length), by conv_lhs => rw [← List.take_append_drop (xs.length - ps.length) xs, h]⟩
  · rintro ⟨rest, rfl⟩
    have : (rest ++ ps).length - ps.length = rest.length := by simp
    rw [this, List.drop_left]

/-- **C34**: `s.starts_with(p)` for strings. -/
theorem starts_with_string (env : Env) (dc : DecCtx) (ty : DataType) (hty : KnownAs ty .string) (s p : String) :
    ∃ b, methodResult env dc ty (.str s) "starts_with" [.str p] = .ok (.bool b) ∧
      (b = true ↔ ∃ rest, s.toList = p.toList ++ rest) := by
  refine ⟨s.toList.take p.toList.length == p.toList, ?_, by rw [beq_iff_eq, take_beq_iff]⟩
  refine with_result env dc ty .string hty _ _ _ .startsWith .string (by simp) rfl rfl rfl rfl .string rfl rfl _ ?_
  simp only [callMethod, pyLen, Value.len, except_ok_bind, pyGetSlice, pySlice_take, pyEq]
  congr 2
  rw [Bool.eq_iff_iff]
  simp only [beq_iff_eq]
  exact ⟨fun h => by rw [← h]; simp, fun h => by rw [h]; simp⟩

/-- **C34**: `s.starts_with(p)` for bytes. -/
theorem starts_with_bytes (env : Env) (dc : DecCtx) (ty : DataType) (hty : KnownAs ty .bytes) (s p : List UInt8) :
    ∃ b, methodResult env dc ty (.bytes s) "starts_with" [.bytes p] = .ok (.bool b) ∧
      (b = true ↔ ∃ rest, s = p ++ rest) := by
  refine ⟨s.take p.length == p, ?_, by rw [beq_iff_eq, take_beq_iff]⟩
  refine with_result env dc ty .bytes hty _ _ _ .startsWith .bytes (by simp) rfl rfl rfl rfl .bytes rfl rfl _ ?_
  simp only [callMethod, pyLen, Value.len, except_ok_bind, pyGetSlice, pySlice_take, pyEq]

/-- **C34** for strings: `s.ends_with(p)` for a suffix that is not empty. -/
theorem ends_with_string_partial (env : Env) (dc : DecCtx) (ty : DataType) (hty : KnownAs ty .string) (s p : String)
    (hp : p ≠ "") :
    ∃ b, methodResult env dc ty (.str s) "ends_with" [.str p] = .ok (.bool b) ∧
      (b = true ↔ ∃ rest, s.toList = rest ++ p.toList) := by
  have hp' : p.toList.length ≠ 0 := by
    intro h
    apply hp
    have : p.toList = [] := List.eq_nil_of_length_eq_zero h
    rw [← String.ofList_toList (s := p), this]
  refine ⟨s.toList.drop (s.toList.length - p.toList.length) == p.toList, ?_, by rw [beq_iff_eq, drop_beq_iff]⟩
  refine with_result env dc ty .string hty _ _ _ .endsWith .string (by simp) rfl rfl rfl rfl .string rfl rfl _ ?_
  simp only [callMethod, pyLen, Value.len, except_ok_bind, pyGetSlice, pySlice_drop _ _ hp', pyEq]
  congr 2
  rw [Bool.eq_iff_iff]
  simp only [beq_iff_eq]
  exact ⟨fun h => by conv_rhs => rw [← h, String.toList_ofList], fun h => by rw [h, String.ofList_toList]⟩

/-- **C34** for bytes: `s.ends_with(p)` for a suffix that is not empty. -/
theorem ends_with_bytes_partial (env : Env) (dc : DecCtx) (ty : DataType) (hty : KnownAs ty .bytes)
    (s p : List UInt8) (hp : p ≠ []) :
    ∃ b, methodResult env dc ty (.bytes s) "ends_with" [.bytes p] = .ok (.bool b) ∧
      (b = true ↔ ∃ rest, s = rest ++ p) := by
  have hp' : p.length ≠ 0 := by simpa using hp
  refine ⟨s.drop (s.length - p.length) == p, ?_, by rw [beq_iff_eq, drop_beq_iff]⟩
  refine with_result env dc ty .bytes hty _ _ _ .endsWith .bytes (by simp) rfl rfl rfl rfl .bytes rfl rfl _ ?_
  simp only [callMethod, pyLen, Value.len, except_ok_bind, pyGetSlice, pySlice_drop _ _ hp', pyEq]

theorem pyEqSeq_iff (off : TzDb) (xs ys : List Value) :
    pyEqSeq off xs ys = true ↔ List.Forall₂ (fun a b => pyEq off a b = true) xs ys := by
  induction xs generalizing ys with
  | nil => cases ys <;> simp [pyEqSeq]
  | cons x xs ih => cases ys <;> simp [pyEqSeq, ih]

/-- **C34**: `a.starts_with(p)` for arrays: the members of the prefix are equal to the first members of the array. -/
theorem starts_with_array (env : Env) (dc : DecCtx) (ty t u : DataType) (hty : KnownAs ty t) (xs ps : List Value)
    (ht : fromValue (.tuple xs) = .ok t) (hu : fromValue (.tuple ps) = .ok u) (hc : DataType.compat u t = true) :
    ∃ b, methodResult env dc ty (.tuple xs) "starts_with" [.tuple ps] = .ok (.bool b) ∧
      (b = true ↔ ∃ pre rest, xs = pre ++ rest ∧ List.Forall₂ (fun a b => pyEq env.utcoffset a b = true) pre ps) := by
  refine ⟨pyEqSeq env.utcoffset (xs.take ps.length) ps, ?_, ?_⟩
  · obtain ⟨ts, -, rfl⟩ : ∃ ts, typesOf xs = .ok ts ∧ DataType.array (memberType ts) true = t := by
      simpa [fromValue, except_bind_ok] using ht
    refine with_result env dc ty _ hty _ _ _ .startsWith .array (by simp) ht rfl rfl rfl u hu hc _ ?_
    simp only [callMethod, pyLen, Value.len, except_ok_bind, pyGetSlice, pySlice_take, pyEq, beq_self_eq_true,
      Bool.true_and]
  · rw [pyEqSeq_iff]
    constructor
    · intro h
      exact ⟨_, xs.drop ps.length, (List.take_append_drop _ _).symm, h⟩
    · rintro ⟨pre, rest, rfl, h⟩
      rw [← h.length_eq, List.take_left]
      exact h

/-- **C34** for arrays: `a.ends_with(p)` for a suffix that is not empty. -/
theorem ends_with_array_partial (env : Env) (dc : DecCtx) (ty t u : DataType) (hty : KnownAs ty t)
    (xs ps : List Value) (ht : fromValue (.tuple xs) = .ok t) (hu : fromValue (.tuple ps) = .ok u)
    (hc : DataType.compat u t = true) (hp : ps ≠ []) :
    ∃ b, methodResult env dc ty (.tuple xs) "ends_with" [.tuple ps] = .ok (.bool b) ∧
      (b = true ↔ ∃ rest suf, xs = rest ++ suf ∧ List.Forall₂ (fun a b => pyEq env.utcoffset a b = true) suf ps) := by
  have hp' : ps.length ≠ 0 := by simpa using hp
  refine ⟨pyEqSeq env.utcoffset (xs.drop (xs.length - ps.length)) ps, ?_, ?_⟩
  · obtain ⟨ts, -, rfl⟩ : ∃ ts, typesOf xs = .ok ts ∧ DataType.array (memberType ts) true = t := by
      simpa [fromValue, except_bind_ok] using ht
    refine with_result env dc ty _ hty _ _ _ .endsWith .array (by simp) ht rfl rfl rfl u hu hc _ ?_
    simp only [callMethod, pyLen, Value.len, except_ok_bind, pyGetSlice, pySlice_drop _ _ hp', pyEq,
      beq_self_eq_true, Bool.true_and]
  · rw [pyEqSeq_iff]
    constructor
    · intro h
      exact ⟨xs.take (xs.length - ps.length), _, (List.take_append_drop _ _).symm, h⟩
    · rintro ⟨rest, suf, rfl, h⟩
      have : (rest ++ suf).length - ps.length = rest.length := by rw [← h.length_eq]; simp
      rw [this, List.drop_left]
      exact h

/-- C34 does not hold for the empty suffix: `"a".ends_with("")` is False, and in general `s.ends_with("")` is True
only for the empty string. -/
theorem ends_with_empty (env : Env) (dc : DecCtx) (ty : DataType) (hty : KnownAs ty .string) (s : String) :
    methodResult env dc ty (.str s) "ends_with" [.str ""] = .ok (.bool (s == "")) := by
  refine with_result env dc ty .string hty _ _ _ .endsWith .string (by simp) rfl rfl rfl rfl .string rfl rfl _ ?_
  simp [callMethod, pyLen, Value.len, except_ok_bind, pyGetSlice, pyEq, pySlice, sliceBound]

/-- Witness for C34. -/
theorem starts_with_witness :
    methodResult sampleEnv .default .string (.str "abc") "starts_with" [.str "ab"] = .ok (.bool true) ∧
    methodResult sampleEnv .default .undefined (.str "abc") "ends_with" [.str "bc"] = .ok (.bool true) ∧
    methodResult sampleEnv .default .undefined (.str "abc") "ends_with" [.str ""] = .ok (.bool false) ∧
    runRaw sampleEnv (.call (.getAttr (.sym "x" false) "starts_with" false) [.lit (.str "xy")])
      (dictOf [("x", .str "xyz")]) = .ok (.bool true) := by
  decide +kernel

/-! ## C36 -/

theorem checkedResult_str (env : Env) (rt : DataType) (b : String) (h : DataType.compat .string rt = true) :
    checkedResult env rt (.ok (.str b)) = .ok (.str b) := by
  simp [checkedResult, coerceVerify, coerce, fromValue, localise, except_ok_bind, h]

theorem checkedResult_bytes (env : Env) (rt : DataType) (b : List UInt8) (h : DataType.compat .bytes rt = true) :
    checkedResult env rt (.ok (.bytes b)) = .ok (.bytes b) := by
  simp [checkedResult, coerceVerify, coerce, fromValue, localise, except_ok_bind, h]

theorem digitVal_hexDigit : ∀ n, n < 16 → digitVal (hexDigit n) = some n := by decide

theorem hex_roundtrip (b : List UInt8) : hexDecode (hexEncode b) = some b := by
  induction b with
  | nil => rfl
  | cons x xs ih =>
    have hx := x.toNat_lt
    simp only [hexEncode, hexDecode, digitVal_hexDigit _ (show x.toNat / 16 < 16 by omega),
      digitVal_hexDigit _ (show x.toNat % 16 < 16 by omega), ih]
    congr 2
    rw [show x.toNat / 16 * 16 + x.toNat % 16 = x.toNat by omega]
    exact UInt8.ofNat_toNat

theorem b64Val_b64Char : ∀ n, n < 64 → b64Val (b64Char n) = some n := by decide
theorem b64Char_ne : ∀ n, n < 64 → (b64Char n == '=') = false := by decide

theorem byte_eq {x : UInt8} {n : Nat} (h : n = x.toNat) : UInt8.ofNat n = x := by
  subst h; exact UInt8.ofNat_toNat

theorem b64_step0 (n : Nat) (h : n < 64) (cs : List Char) (l p : Nat) :
    b64DecodeAux (b64Char n :: cs) 0 l p = b64DecodeAux cs 1 n 0 := by
  simp only [b64DecodeAux, b64Char_ne _ h, b64Val_b64Char _ h, Bool.false_eq_true, if_false, if_true]

theorem b64_step1 (n : Nat) (h : n < 64) (cs : List Char) (l p : Nat) :
    b64DecodeAux (b64Char n :: cs) 1 l p = (b64DecodeAux cs 2 (n % 16) 0).map (UInt8.ofNat (l * 4 + n / 16) :: ·) := by
  simp only [b64DecodeAux, b64Char_ne _ h, b64Val_b64Char _ h, Bool.false_eq_true, if_false, if_true, one_ne_zero]

theorem b64_step2 (n : Nat) (h : n < 64) (cs : List Char) (l p : Nat) :
    b64DecodeAux (b64Char n :: cs) 2 l p = (b64DecodeAux cs 3 (n % 4) 0).map (UInt8.ofNat (l * 16 + n / 4) :: ·) := by
  simp only [b64DecodeAux, b64Char_ne _ h, b64Val_b64Char _ h, Bool.false_eq_true, if_false, if_true,
    show (2 : Nat) ≠ 0 by decide, show (2 : Nat) ≠ 1 by decide]

theorem b64_step3 (n : Nat) (h : n < 64) (cs : List Char) (l p : Nat) :
    b64DecodeAux (b64Char n :: cs) 3 l p = (b64DecodeAux cs 0 0 0).map (UInt8.ofNat (l * 64 + n) :: ·) := by
  simp only [b64DecodeAux, b64Char_ne _ h, b64Val_b64Char _ h, Bool.false_eq_true, if_false, if_true,
    show (3 : Nat) ≠ 0 by decide, show (3 : Nat) ≠ 1 by decide, show (3 : Nat) ≠ 2 by decide]

theorem b64_pad2 (l : Nat) : b64DecodeAux ['=', '='] 2 l 0 = some [] := rfl
theorem b64_pad1 (l : Nat) : b64DecodeAux ['='] 3 l 0 = some [] := rfl

theorem b64_roundtrip (b : List UInt8) : b64Decode (b64Encode b) = some b := by
  unfold b64Decode
  induction b using b64Encode.induct with
  | case1 => rfl
  | case2 a =>
    have ha := a.toNat_lt
    rw [b64Encode, b64_step0 _ (by omega), b64_step1 _ (by omega), b64_pad2]
    simp only [Option.map_some]
    rw [byte_eq (x := a) (by omega)]
  | case3 a b =>
    have ha := a.toNat_lt
    have hb := b.toNat_lt
    rw [b64Encode, b64_step0 _ (by omega), b64_step1 _ (by omega), b64_step2 _ (by omega), b64_pad1]
    simp only [Option.map_some]
    rw [byte_eq (x := a) (by omega), byte_eq (x := b) (by omega)]
  | case4 a b c rest ih =>
    have ha := a.toNat_lt
    have hb := b.toNat_lt
    have hc := c.toNat_lt
    rw [b64Encode, b64_step0 _ (by omega), b64_step1 _ (by omega), b64_step2 _ (by omega), b64_step3 _ (by omega), ih]
    simp only [Option.map_some]
    rw [byte_eq (x := a) (by omega), byte_eq (x := b) (by omega), byte_eq (x := c) (by omega)]

theorem pyLower_hex (env : Env) : pyLower env "hex" = "hex" := by
  unfold pyLower; rw [if_pos (by decide)]; rfl
theorem pyLower_b64 (env : Env) : pyLower env "base64" = "base64" := by
  unfold pyLower; rw [if_pos (by decide)]; rfl

theorem decode_hex_eq (env : Env) (dc : DecCtx) (ty : DataType) (hty : KnownAs ty .bytes) (b : List UInt8) :
    methodResult env dc ty (.bytes b) "decode" [.str "hex"] = .ok (.str (String.ofList (hexEncode b))) := by
  rw [methodResult_eq env dc ty _ _ _ .decode rfl (by rcases hty with rfl | rfl <;> [left; right] <;> rfl)]
  simp only [callMethod, pyLower_hex]
  exact checkedResult_str env _ _ (by rcases hty with rfl | rfl <;> rfl)

theorem decode_b64_eq (env : Env) (dc : DecCtx) (ty : DataType) (hty : KnownAs ty .bytes) (b : List UInt8) :
    methodResult env dc ty (.bytes b) "decode" [.str "base64"] = .ok (.str (String.ofList (b64Encode b))) := by
  rw [methodResult_eq env dc ty _ _ _ .decode rfl (by rcases hty with rfl | rfl <;> [left; right] <;> rfl)]
  simp only [callMethod, pyLower_b64]
  exact checkedResult_str env _ _ (by rcases hty with rfl | rfl <;> rfl)

/-- **C36**: decoding bytes with `hex` gives a string, and encoding that string with `hex` gives the bytes back. -/
theorem hex_roundtrips (env : Env) (dc : DecCtx) (ty ty' : DataType) (hty : KnownAs ty .bytes)
    (hty' : KnownAs ty' .string) (b : List UInt8) :
    ∃ s, methodResult env dc ty (.bytes b) "decode" [.str "hex"] = .ok (.str s) ∧
      methodResult env dc ty' (.str s) "encode" [.str "hex"] = .ok (.bytes b) := by
  refine ⟨_, decode_hex_eq env dc ty hty b, ?_⟩
  rw [methodResult_eq env dc ty' _ _ _ .encode rfl (by rcases hty' with rfl | rfl <;> [left; right] <;> rfl)]
  simp only [callMethod, pyLower_hex, String.toList_ofList, hex_roundtrip]
  exact checkedResult_bytes env _ _ (by rcases hty' with rfl | rfl <;> rfl)

/-- **C36**: so with `base64`. -/
theorem base64_roundtrips (env : Env) (dc : DecCtx) (ty ty' : DataType) (hty : KnownAs ty .bytes)
    (hty' : KnownAs ty' .string) (b : List UInt8) :
    ∃ s, methodResult env dc ty (.bytes b) "decode" [.str "base64"] = .ok (.str s) ∧
      methodResult env dc ty' (.str s) "encode" [.str "base64"] = .ok (.bytes b) := by
  refine ⟨_, decode_b64_eq env dc ty hty b, ?_⟩
  rw [methodResult_eq env dc ty' _ _ _ .encode rfl (by rcases hty' with rfl | rfl <;> [left; right] <;> rfl)]
  simp only [callMethod, pyLower_b64, String.toList_ofList, b64_roundtrip]
  exact checkedResult_bytes env _ _ (by rcases hty' with rfl | rfl <;> rfl)

/-- Witness for C36: the encodings of `Man` and of its prefixes are the standard ones. -/
theorem transcoding_witness :
    methodResult sampleEnv .default .bytes (.bytes [0x4d, 0x61, 0x6e]) "decode" [.str "base64"] = .ok (.str "TWFu") ∧
    methodResult sampleEnv .default .bytes (.bytes [0x4d, 0x61]) "decode" [.str "base64"] = .ok (.str "TWE=") ∧
    methodResult sampleEnv .default .bytes (.bytes [0x4d]) "decode" [.str "base64"] = .ok (.str "TQ==") ∧
    methodResult sampleEnv .default .bytes (.bytes [0x4d, 0xff]) "decode" [.str "HEX"] = .ok (.str "4dff") ∧
    runRaw sampleEnv (.call (.getAttr (.sym "x" false) "encode" false) [.lit (.str "base64")])
      (dictOf [("x", .str "TWE=")]) = .ok (.bytes [0x4d, 0x61]) := by
  decide +kernel

end RE
