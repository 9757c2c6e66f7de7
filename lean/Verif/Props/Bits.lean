import Verif.Props.Arith
import Verif.Props.Collections
import Mathlib.Data.Rat.Floor

/-!
# C23: bitwise operators; C21: indexes and slices
-/

namespace RE

set_option linter.unusedSimpArgs false

theorem except_ok_bind {ε α β : Type} (a : α) (f : α → Except ε β) : (Except.ok a >>= f) = f a := rfl

/-! ## Whole numbers -/

theorem decFloor_val (n : Bool) (k : Nat) (e : Int) : decFloor n k e = ⌊finVal n k e⌋ := by
  unfold decFloor
  split
  · rename_i h
    rw [scaled_val n k e 0 h]
    simp
  · rename_i h
    have h1 : finVal n k e = ((if n then -(k : Int) else k : Int) : ℚ) / ((10 ^ (-e).toNat : Nat) : ℚ) := by
      have h2 : (10 : ℚ) ^ e = (((10 ^ (-e).toNat : Nat) : ℚ))⁻¹ := by
        rw [← ten_zpow_nat, ← zpow_neg]
        congr 1
        omega
      unfold finVal
      rw [h2, div_eq_mul_inv]
      cases n <;> simp
    rw [h1]
    have := Rat.floor_intCast_div_natCast (if n then -(k : Int) else k : Int) (10 ^ (-e).toNat)
    rw [this]

theorem decIsInt_iff (n : Bool) (k : Nat) (e : Int) :
    decIsInt n k e = true ↔ ∃ z : Int, finVal n k e = z := by
  unfold decIsInt
  rw [decEq_iff, decFloor_val]
  have hof : ∀ z : Int, finVal (decide (z < 0)) z.natAbs 0 = z := by
    intro z
    unfold finVal
    by_cases h : z < 0
    · simp only [h, decide_true, if_true, zpow_zero, mul_one]
      rw [Nat.cast_natAbs, Int.cast_abs, abs_of_neg (by exact_mod_cast h), neg_neg]
    · simp only [h, decide_false, if_false, Bool.false_eq_true, zpow_zero, mul_one]
      rw [Nat.cast_natAbs, Int.cast_abs, abs_of_nonneg (by exact_mod_cast not_lt.mp h)]
  simp only [Dec.key, Dec.ofInt, Option.some.injEq, hof]
  constructor
  · rintro ⟨x, h1, h2⟩
    rw [← h2, Prod.mk.injEq] at h1
    exact ⟨_, h1.2.symm⟩
  · rintro ⟨z, hz⟩
    refine ⟨_, rfl, ?_⟩
    rw [hz, Int.floor_intCast]

theorem decTrunc_int (n : Bool) (k : Nat) (e : Int) (z : Int) (h : finVal n k e = z) :
    decTrunc n k e = z := by
  unfold decTrunc
  by_cases he : 0 ≤ e
  · simp only [he, if_true]
    have h1 := scaled_val n k e 0 he
    rw [h] at h1
    unfold scaled at h1
    simp only [sub_zero, zpow_zero, mul_one] at h1
    have := Int.cast_injective h1
    rw [this]
  · simp only [he, if_false]
    -- the coefficient is a multiple of the power of ten
    have h2 : (10 : ℚ) ^ e = (((10 ^ (-e).toNat : Nat) : ℚ))⁻¹ := by
      rw [← ten_zpow_nat, ← zpow_neg]
      congr 1
      omega
    have hp : (0 : ℚ) < ((10 ^ (-e).toNat : Nat) : ℚ) := by positivity
    unfold finVal at h
    rw [h2, ← div_eq_mul_inv, div_eq_iff hp.ne'] at h
    have h3 : (if n then -(k : Int) else k) = z * ((10 ^ (-e).toNat : Nat) : Int) := by
      have : (((if n then -(k : Int) else k : Int)) : ℚ) = ((z * ((10 ^ (-e).toNat : Nat) : Int) : Int) : ℚ) := by
        push_cast at h ⊢
        exact h
      exact_mod_cast this
    generalize hP : 10 ^ (-e).toNat = P at h3
    have hP0 : 0 < P := by rw [← hP]; positivity
    have hk : k = z.natAbs * P := by
      have := congrArg Int.natAbs h3
      rw [Int.natAbs_mul] at this
      cases n <;> simpa using this
    have hkd : k / P = z.natAbs := by rw [hk, Nat.mul_div_cancel _ hP0]
    rw [hkd]
    rcases Nat.eq_zero_or_pos z.natAbs with h0 | h0
    · have : z = 0 := by omega
      subst this; cases n <;> simp
    · have hk0 : 0 < k := by rw [hk]; positivity
      cases n
      · simp only [Bool.false_eq_true, if_false] at h3 ⊢
        have : 0 < z := by
          have : 0 < z * (P : Int) := by rw [← h3]; exact_mod_cast hk0
          exact pos_of_mul_pos_left this (by positivity)
        omega
      · simp only [if_true] at h3 ⊢
        have : z < 0 := by
          have : z * (P : Int) < 0 := by rw [← h3]; omega
          by_contra hz
          have := mul_nonneg (not_lt.mp hz) (by positivity : (0 : Int) ≤ (P : Int))
          omega
        omega

theorem decFloatOverflows_iff (n : Bool) (k : Nat) (e : Int) :
    decFloatOverflows k e = true ↔ (doubleLimit : ℚ) ≤ |finVal n k e| := by
  unfold decFloatOverflows
  generalize doubleLimit = B
  rw [decide_eq_true_iff, finVal_abs]
  have h10 : (10 : ℚ) ≠ 0 := by norm_num
  have h1 : (10 : ℚ) ^ e = ((10 ^ e.toNat : Nat) : ℚ) / ((10 ^ (-e).toNat : Nat) : ℚ) := by
    rw [← ten_zpow_nat, ← ten_zpow_nat, ← zpow_sub₀ h10]
    congr 1
    omega
  have hp : (0 : ℚ) < ((10 ^ (-e).toNat : Nat) : ℚ) := by positivity
  rw [h1, ← mul_div_assoc, le_div_iff₀ hp]
  exact_mod_cast Iff.rfl

/-- Specification: the Decimal is a whole number in the range of binary floating point numbers, the
only ones accepted as indexes and operands of the bitwise operators. -/
def Dec.isWhole (d : Dec) (z : Int) : Prop := d.num = some (z : ℚ) ∧ |(z : ℚ)| < (doubleLimit : ℚ)

theorem isInteger_dec (d : Dec) : ∃ b : Bool, isInteger (.dec d) = .ok b ∧
    (b = true ↔ ∃ z, d.isWhole z) := by
  unfold Dec.isWhole
  have hdl : ∀ x : ℚ, |x| < (doubleLimit : ℚ) ↔ ¬ (doubleLimit : ℚ) ≤ |x| := fun x => (not_le).symm
  cases d with
  | fin n k e =>
    simp only [isInteger, isReal, decIsFinite, except_ok_bind, Bool.not_eq_true']
    cases hov : decFloatOverflows k e with
    | true =>
      refine ⟨false, by simp, ?_⟩
      have := (decFloatOverflows_iff n k e).mp hov
      simp only [Bool.false_eq_true, false_iff]
      rintro ⟨z, hz, hz'⟩
      simp only [Dec.num, Option.some.injEq] at hz
      rw [← hz] at hz'
      exact absurd this (not_le.mpr hz')
    | false =>
      refine ⟨decIsInt n k e, by simp, ?_⟩
      rw [decIsInt_iff]
      have h1 : ¬ (doubleLimit : ℚ) ≤ |finVal n k e| := by
        rw [← decFloatOverflows_iff n k e, hov]; simp
      constructor
      · rintro ⟨z, hz⟩
        refine ⟨z, by rw [Dec.num, hz], ?_⟩
        rw [← hz]; exact not_le.mp h1
      · rintro ⟨z, hz, -⟩
        simp only [Dec.num, Option.some.injEq] at hz
        exact ⟨z, hz⟩
  | inf b => exact ⟨false, by simp [isInteger, isReal, decIsFinite, except_ok_bind], by simp [Dec.num]⟩
  | nan => exact ⟨false, by simp [isInteger, isReal, decIsFinite, except_ok_bind], by simp [Dec.num]⟩

theorem toInt_whole {d : Dec} {z : Int} (h : d.isWhole z) : toInt (.dec d) = z := by
  obtain ⟨h, -⟩ := h
  cases d with
  | fin n k e =>
    simp only [Dec.num, Option.some.injEq] at h
    simp only [toInt]
    exact decTrunc_int n k e z h
  | inf b => simp [Dec.num] at h
  | nan => simp [Dec.num] at h

theorem isNegative_whole {d : Dec} {z : Int} (h : d.isWhole z) : isNegative (.dec d) = decide (z < 0) := by
  obtain ⟨h, -⟩ := h
  cases d with
  | fin n k e =>
    simp only [Dec.num, Option.some.injEq] at h
    simp only [isNegative]
    have hE := ten_zpow_pos e
    have key : (n && k != 0) = true ↔ z < 0 := by
      have : z < 0 ↔ finVal n k e < 0 := by rw [h]; exact_mod_cast Iff.rfl
      rw [this]
      cases n
      · simp only [Bool.false_and, Bool.false_eq_true, false_iff, not_lt]
        unfold finVal
        exact mul_nonneg (by simp) hE.le
      · simp only [Bool.true_and, bne_iff_ne, ne_eq]
        unfold finVal
        rw [if_pos rfl, neg_mul, Left.neg_neg_iff]
        constructor
        · intro hk
          have : 0 < k := by omega
          positivity
        · rintro hk rfl
          simp at hk
    rcases hb : (n && k != 0) with _ | _
    · rw [eq_comm, decide_eq_false_iff_not, ← key, hb]; simp
    · rw [eq_comm, decide_eq_true_iff, ← key, hb]
  | inf b => simp [Dec.num] at h
  | nan => simp [Dec.num] at h

/-- Specification: the Decimal is an accepted natural number. -/
def Dec.isNat (d : Dec) (n : Nat) : Prop := d.isWhole n

theorem isWhole_unique {d : Dec} {z w : Int} (h : d.isWhole z) (h' : d.isWhole w) : z = w := by
  have := h.1.symm.trans h'.1
  simp only [Option.some.injEq] at this
  exact_mod_cast this

theorem assertNatural_dec (d : Dec) :
    (∃ n, d.isNat n ∧ assertNatural (.dec d) = .ok ()) ∨
    ((¬ ∃ n, d.isNat n) ∧ assertNatural (.dec d) = .error .mismatch) := by
  obtain ⟨b, hb, hiff⟩ := isInteger_dec d
  unfold assertNatural isNatural
  rw [hb]
  cases b with
  | false =>
    right
    refine ⟨?_, by simp [except_ok_bind]⟩
    rintro ⟨n, hn⟩
    have := hiff.mpr ⟨_, hn⟩
    simp at this
  | true =>
    obtain ⟨z, hz⟩ := hiff.mp rfl
    simp only [except_ok_bind, if_true, isNegative_whole hz]
    by_cases hneg : z < 0
    · right
      refine ⟨?_, by simp [hneg]⟩
      rintro ⟨n, hn⟩
      have := isWhole_unique hz hn
      omega
    · left
      refine ⟨z.toNat, ?_, by simp [hneg]⟩
      unfold Dec.isNat
      rw [Int.toNat_of_nonneg (by omega)]
      exact hz

theorem assertInteger_dec (d : Dec) :
    (∃ z, d.isWhole z ∧ assertInteger (.dec d) = .ok ()) ∨
    ((¬ ∃ z, d.isWhole z) ∧ assertInteger (.dec d) = .error .mismatch) := by
  obtain ⟨b, hb, hiff⟩ := isInteger_dec d
  unfold assertInteger
  rw [hb]
  cases b with
  | false =>
    right
    exact ⟨fun h => by simpa using hiff.mpr h, by simp [except_ok_bind]⟩
  | true =>
    obtain ⟨z, hz⟩ := hiff.mp rfl
    exact .inl ⟨z, hz, by simp [except_ok_bind]⟩

/-! ## C23 -/

/-- the operator nodes of the five bitwise operators -/
def bitNode : BitOp → BinOp
  | .lsh => .shift .lsh
  | .rsh => .shift .rsh
  | op => .bit op

theorem binResult_bit_dec (env : Env) (dc : DecCtx) (op : BitOp) (a : Dec) (b : Value) :
    binResult env dc (bitNode op) (.dec a) b = (do
      assertNatural (.dec a)
      opBitNat env op (.dec a) b) := by
  unfold binResult
  have h : fromValue (.dec a) = .ok .float := rfl
  cases op <;>
    simp only [bitNode, eval, evalBin, M.bind_apply, M.pure_apply, M.lift_apply, h, DataType.eq, if_true] <;>
    (rcases assertNatural (.dec a) with e | _ <;> rfl)

/-- Specification: the mathematical meaning of the operators on natural numbers: bit by bit for `&`,
`|` and `^`, multiplication and division by powers of two for the shifts. -/
def BitSpec (op : BitOp) (n m r : Nat) : Prop :=
  match op with
  | .and => ∀ i, r.testBit i = (n.testBit i && m.testBit i)
  | .or => ∀ i, r.testBit i = (n.testBit i || m.testBit i)
  | .xor => ∀ i, r.testBit i = (n.testBit i != m.testBit i)
  | .lsh => r = n * 2 ^ m
  | .rsh => r = n / 2 ^ m

theorem bitNat_spec (op : BitOp) (n m : Nat) : BitSpec op n m (bitNat op n m) := by
  cases op <;> simp [BitSpec, bitNat, Nat.testBit_and, Nat.testBit_or, Nat.testBit_xor,
    Nat.shiftLeft_eq, Nat.shiftRight_eq_div_pow]

/-- **C23**: the bitwise operators are exact on natural numbers, in every decimal context, up to CPython's limit on the
length of an int turned into text. -/
theorem bitwise_exact (env : Env) (dc : DecCtx) (op : BitOp) (a b : Dec) (n m : Nat) (ha : a.isNat n)
    (hb : b.isNat m) (hshort : op = .lsh → ∀ digits, env.maxStrDigits = some digits → n * 2 ^ m < 10 ^ digits) :
    ∃ d, ∃ r : Nat, binResult env dc (bitNode op) (.dec a) (.dec b) = .ok (.dec d) ∧ d.num = some ((r : Nat) : ℚ) ∧
      BitSpec op n m r := by
  rw [binResult_bit_dec]
  have h1 := (assertNatural_dec a).resolve_right (fun h => h.1 ⟨n, ha⟩)
  have h2 := (assertNatural_dec b).resolve_right (fun h => h.1 ⟨m, hb⟩)
  obtain ⟨-, -, h1⟩ := h1
  obtain ⟨-, -, h2⟩ := h2
  refine ⟨.ofInt (bitNat op n m), bitNat op n m, ?_, ?_, bitNat_spec op n m⟩
  · rw [h1]
    unfold opBitNat
    rw [h2, toInt_whole ha, toInt_whole hb]
    refine if_neg ?_
    rintro ⟨rfl, hl⟩
    unfold Env.tooLong at hl
    split at hl
    · cases hl
    · rename_i digits hd
      have := hshort rfl digits hd
      simp only [bitNat, Int.toNat_natCast, Nat.shiftLeft_eq, decide_eq_true_eq] at hl
      omega
  · simp [Dec.ofInt, Dec.num, finVal]

/-- **C23**: a shift whose result is longer than `sys.get_int_max_str_digits()` (4300 by default) raises ValueError. -/
theorem bitwise_too_long (env : Env) (dc : DecCtx) (a b : Dec) (n m digits : Nat) (ha : a.isNat n) (hb : b.isNat m)
    (hd : env.maxStrDigits = some digits) (hlong : 10 ^ digits ≤ n * 2 ^ m) :
    binResult env dc (bitNode .lsh) (.dec a) (.dec b) = .error (.py .valueError) := by
  rw [binResult_bit_dec]
  obtain ⟨-, -, h1⟩ := (assertNatural_dec a).resolve_right (fun h => h.1 ⟨n, ha⟩)
  obtain ⟨-, -, h2⟩ := (assertNatural_dec b).resolve_right (fun h => h.1 ⟨m, hb⟩)
  rw [h1]
  unfold opBitNat
  rw [h2, toInt_whole ha, toInt_whole hb]
  refine if_pos ⟨rfl, ?_⟩
  simp only [Env.tooLong, hd, bitNat, Int.toNat_natCast, Nat.shiftLeft_eq, decide_eq_true_eq]
  exact hlong

/-- **C23**: an operand that is not an accepted natural number (negative, fractional, infinite, NaN or
not a number at all) raises an EvaluationError. -/
theorem bitwise_rejects (env : Env) (dc : DecCtx) (op : BitOp) (a b : Dec) (v : Value)
    (hv : isNumeric v = false) :
    ((¬ ∃ n, a.isNat n) → binResult env dc (bitNode op) (.dec a) v = .error (.eng .evaluation)) ∧
    ((¬ ∃ n, a.isNat n) → binResult env dc (bitNode op) (.dec a) (.dec b) = .error (.eng .evaluation)) ∧
    ((¬ ∃ n, b.isNat n) → binResult env dc (bitNode op) (.dec a) (.dec b) = .error (.eng .evaluation)) ∧
    binResult env dc (bitNode op) (.dec a) v = .error (.eng .evaluation) := by
  have hb1 : ∀ w, (¬ ∃ n, a.isNat n) → binResult env dc (bitNode op) (.dec a) w = .error (.eng .evaluation) := by
    intro w h
    rw [binResult_bit_dec, ((assertNatural_dec a).resolve_left (fun ⟨n, hn, _⟩ => h ⟨n, hn⟩)).2]
    rfl
  have hb2 : ∀ w, assertNatural w = .error .mismatch →
      binResult env dc (bitNode op) (.dec a) w = .error (.eng .evaluation) := by
    intro w h
    rw [binResult_bit_dec]
    rcases assertNatural_dec a with ⟨-, -, h1⟩ | ⟨-, h1⟩
    · rw [h1]; unfold opBitNat; rw [h]; rfl
    · rw [h1]; rfl
  refine ⟨hb1 _, hb1 _, fun h => hb2 _ ((assertNatural_dec b).resolve_left (fun ⟨n, hn, _⟩ => h ⟨n, hn⟩)).2,
    hb2 _ ?_⟩
  cases v <;> first | rfl | simp [isNumeric] at hv

/-- Witness for C23: `1 << 100 | 1` is exact although it has more than 28 digits; and a natural number
beyond the range of binary floats is rejected; `1 << 20000` is too long. -/
theorem bitwise_witness :
    (Dec.fin false 10 1).isNat 100 ∧
    binResult sampleEnv .default (.shift .lsh) (.dec (.fin false 1 0)) (.dec (.fin false 10 1)) =
      .ok (.dec (.fin false 1267650600228229401496703205376 0)) ∧
    binResult sampleEnv .default (.bit .or) (.dec (.fin false 1 309)) (.dec (.fin false 1 0)) =
      .error (.eng .evaluation) ∧
    binResult sampleEnv .default (.shift .lsh) (.dec (.fin false 1 0)) (.dec (.fin false 20000 0)) =
      .error (.py .valueError) := by
  refine ⟨⟨by norm_num [Dec.num, finVal], ?_⟩, by decide +kernel, by decide +kernel, by decide +kernel⟩
  have : (100 : Nat) < doubleLimit := by decide +kernel
  have h2 : ((100 : Nat) : ℚ) < (doubleLimit : ℚ) := by exact_mod_cast this
  simpa using h2

/-! ### Sets -/

/-- Specification: `v` is a member of the set with these members (that is `v in s`, see
`in_collection`). -/
def SetHas (off : TzDb) (xs : List Value) (v : Value) : Prop := ∃ x ∈ xs, pyEq off x v = true

/-- Specification: the set operations. -/
def SetSpec (op : BitOp) (p q r : Prop) : Prop :=
  match op with
  | .and => r ↔ (p ∧ q)
  | .or => r ↔ (p ∨ q)
  | .xor => r ↔ ((p ∧ ¬ q) ∨ (q ∧ ¬ p))
  | _ => False

theorem set_member_good {off : TzDb} {xs : List Value} (h : (Value.set xs).WF off) :
    ∀ x ∈ xs, x.WF off ∧ x.hashable = true := by
  simp only [Value.WF, allWF_iff] at h
  exact fun x hx => ⟨h.1 x hx, h.2.1 x hx⟩

theorem setHas_of_eq {off : TzDb} (htz : TzOk off) {ys : List Value} (hy : (Value.set ys).WF off)
    {x v : Value} (h : pyEq off x v = true) (hw : x.WF off) (hh : x.hashable = true) :
    SetHas off ys v ↔ SetHas off ys x := by
  constructor
  · rintro ⟨y, hy', h1⟩
    refine ⟨y, hy', ?_⟩
    have hv := pyEq_symm htz x v hw h
    exact pyEq_trans htz y v x (noDict_of_hashable x v hw hh h) h1 hv
  · rintro ⟨y, hy', h1⟩
    refine ⟨y, hy', ?_⟩
    obtain ⟨hyw, hyh⟩ := set_member_good hy y hy'
    exact pyEq_trans htz y x v (noDict_of_hashable y x hyw hyh h1) h1 h

/-- **C23**: on sets `&`, `|` and `^` are intersection, union and symmetric difference, and the result
is again a set without duplicates. -/
theorem set_algebra (env : Env) (dc : DecCtx) (htz : TzOk env.utcoffset) (op : BitOp)
    (hop : op = .and ∨ op = .or ∨ op = .xor) (xs ys : List Value) (t u : DataType)
    (hx : (Value.set xs).WF env.utcoffset) (hy : (Value.set ys).WF env.utcoffset)
    (ht : fromValue (.set xs) = .ok t) (hu : fromValue (.set ys) = .ok u) :
    ∃ zs, binResult env dc (.bit op) (.set xs) (.set ys) = .ok (.set zs) ∧
      (Value.set zs).WF env.utcoffset ∧
      ∀ v, SetSpec op (SetHas env.utcoffset xs v) (SetHas env.utcoffset ys v) (SetHas env.utcoffset zs v) := by
  have htf : DataType.eq t .float = false := by
    simp only [fromValue] at ht
    obtain ⟨ts, -, ht⟩ := except_bind_ok.mp ht
    · injection ht with ht; subst ht; rfl
  have huf : DataType.compat u .anySet = true := by
    simp only [fromValue] at hu
    obtain ⟨ts, -, hu⟩ := except_bind_ok.mp hu
    · injection hu with hu; subst hu; cases memberType ts <;> simp [DataType.compat]
  have hres : ∀ zs, bitSet env.utcoffset op xs ys = .ok zs →
      binResult env dc (.bit op) (.set xs) (.set ys) = .ok (.set zs) := by
    intro zs hz
    unfold binResult
    simp only [eval, evalBin, M.bind_apply, M.pure_apply, M.lift_apply, ht, htf, Bool.false_eq_true,
      if_false, opBitSet, hu, except_ok_bind, huf, if_true, hz]
  have hgx := set_member_good hx
  have hgy := set_member_good hy
  have hpx : xs.Pairwise (fun a b => pyEq env.utcoffset a b = false) := by
    simp only [Value.WF] at hx; exact hx.2.2
  have hpy : ys.Pairwise (fun a b => pyEq env.utcoffset a b = false) := by
    simp only [Value.WF] at hy; exact hy.2.2
  have hwf : ∀ zs, (∀ z ∈ zs, z ∈ xs ∨ z ∈ ys) →
      zs.Pairwise (fun a b => pyEq env.utcoffset a b = false) → (Value.set zs).WF env.utcoffset := by
    intro zs hz hp
    simp only [Value.WF, allWF_iff]
    exact ⟨fun z h => (hz z h).elim (fun h => (hgx z h).1) (fun h => (hgy z h).1),
      fun z h => (hz z h).elim (fun h => (hgx z h).2) (fun h => (hgy z h).2), hp⟩
  have hany : ∀ (zs : List Value) (x : Value),
      zs.any (fun z => pyEq env.utcoffset z x) = true ↔ SetHas env.utcoffset zs x := by
    intro zs x
    simp [SetHas, List.any_eq_true]
  have hcross : ∀ (as bs : List Value), (∀ a ∈ as, a.WF env.utcoffset ∧ a.hashable = true) →
      as.Pairwise (fun a b => pyEq env.utcoffset a b = false) →
      (∀ b ∈ bs, ¬ SetHas env.utcoffset as b) →
      bs.Pairwise (fun a b => pyEq env.utcoffset a b = false) →
      (as ++ bs).Pairwise (fun a b => pyEq env.utcoffset a b = false) := by
    intro as bs _ h1 h2 h3
    rw [List.pairwise_append]
    refine ⟨h1, h3, fun a ha b hb => ?_⟩
    cases hab : pyEq env.utcoffset a b
    · rfl
    · exact absurd ⟨a, ha, hab⟩ (h2 b hb)
  rcases hop with rfl | rfl | rfl
  · refine ⟨_, hres _ rfl, hwf _ ?_ (hpx.filter _), fun v => ?_⟩
    · intro z hz; exact .inl (List.mem_filter.mp hz).1
    · change SetHas _ _ v ↔ _
      constructor
      · rintro ⟨x, hx', h⟩
        obtain ⟨h1, h2⟩ := List.mem_filter.mp hx'
        obtain ⟨hw, hh⟩ := hgx x h1
        exact ⟨⟨x, h1, h⟩, (setHas_of_eq htz hy h hw hh).mpr ((hany _ _).mp h2)⟩
      · rintro ⟨⟨x, h1, h⟩, h2⟩
        obtain ⟨hw, hh⟩ := hgx x h1
        exact ⟨x, List.mem_filter.mpr ⟨h1, (hany _ _).mpr ((setHas_of_eq htz hy h hw hh).mp h2)⟩, h⟩
  · refine ⟨_, hres _ rfl, hwf _ ?_ ?_, fun v => ?_⟩
    · intro z hz
      rcases List.mem_append.mp hz with h | h
      · exact .inl h
      · exact .inr (List.mem_filter.mp h).1
    · refine hcross _ _ hgx hpx ?_ (hpy.filter _)
      intro b hb
      have := (List.mem_filter.mp hb).2
      rw [Bool.not_eq_true', ← Bool.not_eq_true, hany] at this
      exact this
    · change SetHas _ _ v ↔ _
      constructor
      · rintro ⟨x, hx', h⟩
        rcases List.mem_append.mp hx' with h1 | h1
        · exact .inl ⟨x, h1, h⟩
        · exact .inr ⟨x, (List.mem_filter.mp h1).1, h⟩
      · rintro (⟨x, h1, h⟩ | ⟨y, h1, h⟩)
        · exact ⟨x, List.mem_append_left _ h1, h⟩
        · obtain ⟨hw, hh⟩ := hgy y h1
          by_cases hxy : SetHas env.utcoffset xs y
          · obtain ⟨x, hx', h2⟩ := (setHas_of_eq htz hx h hw hh).mpr hxy
            exact ⟨x, List.mem_append_left _ hx', h2⟩
          · refine ⟨y, List.mem_append_right _ (List.mem_filter.mpr ⟨h1, ?_⟩), h⟩
            rw [Bool.not_eq_true', ← Bool.not_eq_true, hany]
            exact hxy
  · refine ⟨_, hres _ rfl, hwf _ ?_ ?_, fun v => ?_⟩
    · intro z hz
      rcases List.mem_append.mp hz with h | h
      · exact .inl (List.mem_filter.mp h).1
      · exact .inr (List.mem_filter.mp h).1
    · refine hcross _ _ (fun a ha => hgx a (List.mem_filter.mp ha).1) (hpx.filter _) ?_ (hpy.filter _)
      intro b hb
      have := (List.mem_filter.mp hb).2
      rw [Bool.not_eq_true', ← Bool.not_eq_true, hany] at this
      rintro ⟨a, ha, h⟩
      exact this ⟨a, (List.mem_filter.mp ha).1, h⟩
    · change SetHas _ _ v ↔ _
      have hfil : ∀ (zs : List Value) (x : Value), (!zs.any (fun z => pyEq env.utcoffset z x)) = true ↔
          ¬ SetHas env.utcoffset zs x := by
        intro zs x
        rw [Bool.not_eq_true', ← Bool.not_eq_true, hany]
      constructor
      · rintro ⟨x, hx', h⟩
        rcases List.mem_append.mp hx' with h1 | h1
        · obtain ⟨h2, h3⟩ := List.mem_filter.mp h1
          obtain ⟨hw, hh⟩ := hgx x h2
          exact .inl ⟨⟨x, h2, h⟩, fun h4 => (hfil _ _).mp h3 ((setHas_of_eq htz hy h hw hh).mp h4)⟩
        · obtain ⟨h2, h3⟩ := List.mem_filter.mp h1
          obtain ⟨hw, hh⟩ := hgy x h2
          exact .inr ⟨⟨x, h2, h⟩, fun h4 => (hfil _ _).mp h3 ((setHas_of_eq htz hx h hw hh).mp h4)⟩
      · rintro (⟨⟨x, h1, h⟩, h2⟩ | ⟨⟨x, h1, h⟩, h2⟩)
        · obtain ⟨hw, hh⟩ := hgx x h1
          exact ⟨x, List.mem_append_left _ (List.mem_filter.mpr ⟨h1, (hfil _ _).mpr
            fun h4 => h2 ((setHas_of_eq htz hy h hw hh).mpr h4)⟩), h⟩
        · obtain ⟨hw, hh⟩ := hgy x h1
          exact ⟨x, List.mem_append_right _ (List.mem_filter.mpr ⟨h1, (hfil _ _).mpr
            fun h4 => h2 ((setHas_of_eq htz hx h hw hh).mpr h4)⟩), h⟩

/-- Witness for `set_algebra`: `{1, 2} ^ {2.0, "a"}` is `{1, "a"}`. -/
theorem set_algebra_witness :
    (Value.set [.dec (.fin false 1 0), .dec (.fin false 2 0)]).WF sampleEnv.utcoffset ∧
    (Value.set [.dec (.fin false 20 (-1)), .str "a"]).WF sampleEnv.utcoffset ∧
    binResult sampleEnv .default (.bit .xor) (.set [.dec (.fin false 1 0), .dec (.fin false 2 0)])
      (.set [.dec (.fin false 20 (-1)), .str "a"]) = .ok (.set [.dec (.fin false 1 0), .str "a"]) := by
  refine ⟨?_, ?_, by decide +kernel⟩ <;> simp only [Value.WF, Value.AllWF] <;>
    refine ⟨by trivial, by simp [Value.hashable], ?_⟩ <;> simp <;> decide +kernel

end RE
