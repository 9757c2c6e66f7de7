import Verif.Props.DecRound
import Verif.Props.Compare

/-!
# C24, C25: arithmetic on numbers
-/

namespace RE

set_option linter.unusedSimpArgs false

/-! ## Specification -/

/-- Specification: the number a FLOAT value stands for, if it is finite. -/
def Dec.num : Dec → Option ℚ
  | .fin n k e => some (finVal n k e)
  | _ => none

/-- Specification: what an arithmetic operation whose exact result is `v` does in a decimal context.
It returns a FLOAT less than one unit in the last place from `v`, on the side the rounding mode asks
for, and `v` itself if that has at most `prec` digits; or it raises, and then `v` is larger than every
number of the context. -/
def Rounded (c : DecCtx) (v : ℚ) (isErr : Err → Prop) (r : Except Err Value) : Prop :=
  (∃ d x, r = .ok (.dec d) ∧ d.num = some x ∧ |x - v| < ulpBound c v ∧ RoundsTo c v x ∧
    (Representable c v → x = v)) ∨
  (∃ e, r = .error e ∧ isErr e ∧ ∀ u, Representable c u → |u| < |v|)

/-! ## Results of the operators -/

theorem binResult_add (env : Env) (dc : DecCtx) (a b : Value) :
    binResult env dc .add a b = opAdd env dc a b := by
  unfold binResult
  simp only [eval, evalBin, M.bind_apply, M.pure_apply, M.lift_apply]

theorem binResult_sub (env : Env) (dc : DecCtx) (a b : Value) :
    binResult env dc .sub a b = opSub env dc a b := by
  unfold binResult
  simp only [eval, evalBin, M.bind_apply, M.pure_apply, M.lift_apply]

theorem binResult_arith (env : Env) (dc : DecCtx) (op : ArithOp) (a b : Value) :
    binResult env dc (.arith op) a b = (do
      assertNumeric a
      assertNumeric b
      opArith env dc op a b) := by
  unfold binResult
  simp only [eval, evalBin, M.bind_apply, M.pure_apply, M.lift_apply]
  rcases assertNumeric a with e | _
  · rfl
  · rcases assertNumeric b with e | _
    · rfl
    · rfl

theorem binResult_add_dec (env : Env) (dc : DecCtx) (a b : Dec) :
    binResult env dc .add (.dec a) (.dec b) = ((decAdd dc a b).mapError Err.ofDec).map Value.dec := by
  rw [binResult_add]
  rfl

theorem binResult_sub_dec (env : Env) (dc : DecCtx) (a b : Dec) :
    binResult env dc .sub (.dec a) (.dec b) = ((decSub dc a b).mapError Err.ofDec).map Value.dec := by
  rw [binResult_sub]
  rfl

/-- the `EvaluationError` of `ArithmeticExpression` -/
theorem binResult_arith_dec (env : Env) (dc : DecCtx) (op : ArithOp) (a b : Dec) :
    binResult env dc (.arith op) (.dec a) (.dec b) =
      ((decOp env dc op a b).mapError (fun _ => Err.mismatch)).map Value.dec := by
  rw [binResult_arith]
  change opArith env dc op (.dec a) (.dec b) = _
  unfold opArith
  change (match ((decOp env dc op a b).mapError Err.ofDec).map Value.dec with
    | .ok v => _ | .error e => _) = _
  rcases decOp env dc op a b with e | v
  · cases e <;> rfl
  · rfl

/-! ## C24 -/

theorem decAdd_fin (c : DecCtx) (na : Bool) (ca : Nat) (ea : Int) (nb : Bool) (cb : Nat) (eb : Int) :
    ∃ neg k e, decAdd c (.fin na ca ea) (.fin nb cb eb) = decFix c neg k e ∧
      finVal neg k e = finVal na ca ea + finVal nb cb eb := by
  unfold decAdd
  have ha := scaled_val na ca ea (min ea eb) (min_le_left _ _)
  have hb := scaled_val nb cb eb (min ea eb) (min_le_right _ _)
  simp only
  split
  · rename_i h
    refine ⟨_, _, _, rfl, ?_⟩
    rw [finVal_zero, ha, hb, ← add_mul, ← Int.cast_add, h]
    simp
  · refine ⟨_, _, _, rfl, ?_⟩
    rw [ha, hb, ← add_mul, ← Int.cast_add]
    generalize scaled na ca ea (min ea eb) + scaled nb cb eb (min ea eb) = s
    unfold finVal
    congr 1
    by_cases h : s < 0
    · simp only [h, decide_true, if_true]
      rw [Nat.cast_natAbs, Int.cast_abs, abs_of_neg (by exact_mod_cast h), neg_neg]
    · simp only [h, decide_false, if_false, Bool.false_eq_true]
      rw [Nat.cast_natAbs, Int.cast_abs, abs_of_nonneg (by exact_mod_cast not_lt.mp h)]

theorem decMul_fin (c : DecCtx) (na : Bool) (ca : Nat) (ea : Int) (nb : Bool) (cb : Nat) (eb : Int) :
    ∃ neg k e, decMul c (.fin na ca ea) (.fin nb cb eb) = decFix c neg k e ∧
      finVal neg k e = finVal na ca ea * finVal nb cb eb := by
  refine ⟨_, _, _, rfl, ?_⟩
  unfold finVal
  rw [ten_zpow_add]
  cases na <;> cases nb <;> simp <;> ring

theorem finVal_negate (n : Bool) (k : Nat) (e : Int) : finVal (!n) k e = -finVal n k e := by
  unfold finVal
  cases n <;> simp

/-- the error raised when a sum is too large (`decimal.Overflow`, which is not an engine error) -/
def IsOverflow (e : Err) : Prop := e = .py .decimalOverflow

/-- `EvaluationError` -/
def IsEvaluationError (e : Err) : Prop := e = .eng .evaluation

theorem rounded_of_fix {c : DecCtx} (hc : c.Valid) {neg : Bool} {k : Nat} {e : Int} {v : ℚ}
    (hv : finVal neg k e = v) {r : Except DecErr Dec} (hr : r = decFix c neg k e) (f : DecErr → Err)
    {P : Err → Prop} (hf : P (f .overflow)) : Rounded c v P ((r.mapError f).map Value.dec) := by
  subst hv
  rcases decFix_spec hc neg k e with ⟨q, e', h1, h2, h3, h4⟩ | ⟨h1, h2⟩
  · left
    rw [hr, h1]
    exact ⟨_, _, rfl, rfl, h2, h3, h4⟩
  · right
    rw [hr, h1]
    exact ⟨_, rfl, hf, h2⟩

/-- **C24**: the sum of two numbers is the exact one, correctly rounded to the context's precision. -/
theorem add_rounded (env : Env) (dc : DecCtx) (hc : dc.Valid) (a b : Dec) (x y : ℚ)
    (ha : a.num = some x) (hb : b.num = some y) :
    Rounded dc (x + y) IsOverflow (binResult env dc .add (.dec a) (.dec b)) := by
  rw [binResult_add_dec]
  cases a <;> simp only [Dec.num, Option.some.injEq, reduceCtorEq] at ha
  cases b <;> simp only [Dec.num, Option.some.injEq, reduceCtorEq] at hb
  obtain ⟨neg, k, e, h1, h2⟩ := decAdd_fin dc _ _ _ _ _ _
  exact rounded_of_fix hc (by rw [h2, ha, hb]) h1 _ rfl

/-- **C24**: so is the difference -/
theorem sub_rounded (env : Env) (dc : DecCtx) (hc : dc.Valid) (a b : Dec) (x y : ℚ)
    (ha : a.num = some x) (hb : b.num = some y) :
    Rounded dc (x - y) IsOverflow (binResult env dc .sub (.dec a) (.dec b)) := by
  rw [binResult_sub_dec]
  cases a <;> simp only [Dec.num, Option.some.injEq, reduceCtorEq] at ha
  cases b <;> simp only [Dec.num, Option.some.injEq, reduceCtorEq] at hb
  obtain ⟨neg, k, e, h1, h2⟩ := decAdd_fin dc _ _ _ _ _ _
  exact rounded_of_fix hc (by rw [h2, finVal_negate, ha, hb, sub_eq_add_neg]) h1 _ rfl

/-- **C24**: and the product. -/
theorem mul_rounded (env : Env) (dc : DecCtx) (hc : dc.Valid) (a b : Dec) (x y : ℚ)
    (ha : a.num = some x) (hb : b.num = some y) :
    Rounded dc (x * y) IsEvaluationError (binResult env dc (.arith .mul) (.dec a) (.dec b)) := by
  rw [binResult_arith_dec]
  cases a <;> simp only [Dec.num, Option.some.injEq, reduceCtorEq] at ha
  cases b <;> simp only [Dec.num, Option.some.injEq, reduceCtorEq] at hb
  obtain ⟨neg, k, e, h1, h2⟩ := decMul_fin dc _ _ _ _ _ _
  exact rounded_of_fix hc (by rw [h2, ha, hb]) h1 _ rfl

/-- **C24**: `a + b` and `b + a` are the same value (or raise the same error), for all numbers. -/
theorem add_commutative (env : Env) (dc : DecCtx) (a b : Dec) :
    binResult env dc .add (.dec a) (.dec b) = binResult env dc .add (.dec b) (.dec a) := by
  rw [binResult_add_dec, binResult_add_dec]
  congr 2
  cases a <;> cases b <;> simp only [decAdd]
  · rename_i na ca ea nb cb eb
    rw [min_comm eb ea, Int.add_comm]
    have h1 : (dc.rounding = .floor ∧ na ≠ nb) ↔ (dc.rounding = .floor ∧ nb ≠ na) := by
      rw [ne_comm]
    have h2 : (ca = 0 ∧ cb = 0) ↔ (cb = 0 ∧ ca = 0) := and_comm
    simp only [h1, h2, Bool.and_comm]
  · rename_i x y
    cases x <;> cases y <;> rfl

/-- **C24**: `a * b` and `b * a` are the same value (or raise the same error), for all numbers. -/
theorem mul_commutative (env : Env) (dc : DecCtx) (a b : Dec) :
    binResult env dc (.arith .mul) (.dec a) (.dec b) = binResult env dc (.arith .mul) (.dec b) (.dec a) := by
  rw [binResult_arith_dec, binResult_arith_dec]
  congr 2
  cases a <;> cases b <;> simp only [decOp, decMul, Bool.xor_comm, Nat.mul_comm, Int.add_comm]

/-- Witness for C24: 28 nines plus 1 is exact (10^28 has one significant digit); plus 2 it is not, and
is rounded to 28 digits. -/
theorem add_witness :
    binResult sampleEnv .default .add (.dec (.fin false 9999999999999999999999999999 0))
      (.dec (.fin false 1 0)) = .ok (.dec (.fin false 1000000000000000000000000000 1)) ∧
    binResult sampleEnv .default .add (.dec (.fin false 9999999999999999999999999999 0))
      (.dec (.fin false 7 0)) = .ok (.dec (.fin false 1000000000000000000000000001 1)) := by
  constructor <;> decide +kernel

/-! ## C25 -/

/-- **C25**: dividing a (finite) number by zero raises an EvaluationError, for `/`, `//` and `%`. -/
theorem division_by_zero (env : Env) (dc : DecCtx) (op : ArithOp)
    (hop : op = .tdiv ∨ op = .fdiv ∨ op = .mod) (a b : Dec) (x : ℚ) (ha : a.num = some x)
    (hb : b.num = some 0) :
    binResult env dc (.arith op) (.dec a) (.dec b) = .error (.eng .evaluation) := by
  rw [binResult_arith_dec]
  cases a <;> simp only [Dec.num, Option.some.injEq, reduceCtorEq] at ha
  cases b <;> simp only [Dec.num, Option.some.injEq, reduceCtorEq] at hb
  rename_i na ca ea nb cb eb
  have hcb : cb = 0 := by
    have := finVal_abs nb cb eb
    rw [hb, abs_zero] at this
    have := (mul_eq_zero.mp this.symm).resolve_right (ten_zpow_pos eb).ne'
    exact_mod_cast this
  subst hcb
  rcases hop with rfl | rfl | rfl
  · by_cases h : ca = 0 <;> simp [decOp, decDiv, h, Except.mapError, Except.map, Err.mismatch]
  · by_cases h : ca = 0 <;> simp [decOp, decFloorDiv, h, Except.mapError, Except.map, Err.mismatch]
  · simp [decOp, decMod, Except.mapError, Except.map, Err.mismatch]

theorem stripZeros_val (n k : Nat) (e : Int) (neg : Bool) :
    finVal neg (stripZeros n k e).1 (stripZeros n k e).2 = finVal neg k e := by
  induction n generalizing k e with
  | zero => rfl
  | succ n ih =>
    unfold stripZeros
    by_cases h : k % 10 = 0
    · simp only [h, if_true]
      rw [ih, finVal_signed, finVal_signed]
      congr 1
      have h2 : (k : ℚ) = ((k / 10 : Nat) : ℚ) * 10 := by
        have h3 : k = k / 10 * 10 := by omega
        calc (k : ℚ) = ((k / 10 * 10 : Nat) : ℚ) := by rw [← h3]
          _ = _ := by push_cast; ring
      rw [h2, ten_zpow_add]
      simp
      ring
    · simp [h]

/-- the quotient `num / den` with its last digit adjusted lies in the same rounding cell -/
theorem inCell_sticky {c : DecCtx} (num den : Nat) (e : Int) (hden : 0 < den)
    (hbig : 10 ^ c.prec ≤ num / den) (hr : num % den ≠ 0) :
    InCell c (if num / den % 5 = 0 then num / den + 1 else num / den) e
      ((num : ℚ) / den * (10 : ℚ) ^ e) := by
  set k := num / den with hk
  set k' := (if k % 5 = 0 then k + 1 else k) with hk'
  have hkk : k ≤ k' ∧ k' ≤ k + 1 := by rw [hk']; split <;> omega
  have hmod5 : k' % 5 ≠ 0 := by rw [hk']; split <;> omega
  have hk0 : k' ≠ 0 := by intro h; rw [h] at hmod5; simp at hmod5
  have hlt : e < fixExp c k' e := by
    have h1 : ¬ ndigits k' ≤ c.prec := by
      intro h
      have h2 := (ndigits_bounds hk0).2
      have : 10 ^ ndigits k' ≤ 10 ^ c.prec := Nat.pow_le_pow_right (by norm_num) h
      omega
    have : (ndigits k' : Int) + e - c.prec ≤ fixExp c k' e := le_max_left _ _
    omega
  refine ⟨fun h => absurd hlt (by omega), fun _ => ?_⟩
  obtain ⟨n, hn⟩ : ∃ n : Nat, fixExp c k' e = e + (n + 1 : Nat) :=
    ⟨(fixExp c k' e - e).toNat - 1, by omega⟩
  have hn' : (fixExp c k' e - e).toNat = n + 1 := by omega
  rw [hn', hn]
  -- the power cut off is ten times `t`
  obtain ⟨t, ht⟩ : ∃ t, 10 ^ (n + 1) = 10 * t := ⟨10 ^ n, by rw [pow_succ]; ring⟩
  have htp : 0 < t := by
    have : 0 < 10 ^ (n + 1) := by positivity
    omega
  have hdm := Nat.div_add_mod num den
  have hrlt := Nat.mod_lt num hden
  have hp : (0 : ℚ) < ((10 ^ (n + 1) : Nat) : ℚ) := by positivity
  have hd : (0 : ℚ) < (den : ℚ) := by exact_mod_cast hden
  -- the fraction
  have hkm := Nat.div_add_mod k' (10 ^ (n + 1))
  have hkm2 := Nat.mod_lt k' (show 0 < 10 ^ (n + 1) by positivity)
  have hcast : (num : ℚ) / den = (k : ℚ) + ((num % den : Nat) : ℚ) / den := by
    rw [eq_comm, ← sub_eq_zero]
    have : (num : ℚ) = (den : ℚ) * (k : ℚ) + ((num % den : Nat) : ℚ) := by exact_mod_cast hdm.symm
    rw [this]
    field_simp
    ring
  have hr0 : (0 : ℚ) < ((num % den : Nat) : ℚ) / den := by
    apply div_pos _ hd
    have : 0 < num % den := by omega
    exact_mod_cast this
  have hr1 : ((num % den : Nat) : ℚ) / den < 1 := by
    rw [div_lt_one hd]; exact_mod_cast hrlt
  generalize hg : ((num % den : Nat) : ℚ) / den = g at hcast hr0 hr1
  -- `k' mod p` is neither 0 nor p/2
  have hm5 : ∀ j, k' % (10 ^ (n + 1)) = 5 * j → False := by
    intro j hj
    apply hmod5
    rw [ht] at hj hkm
    have : k' = 5 * (2 * t * (k' / (10 * t)) + j) := by
      rw [← hkm] at *
      nlinarith
    rw [this]; simp
  set m := k' % 10 ^ (n + 1) with hm
  set q := k' / 10 ^ (n + 1) with hq
  -- m = (k - q p) or one more
  have hmk : (m : ℚ) = (k' : ℚ) - (q : ℚ) * ((10 ^ (n + 1) : Nat) : ℚ) := by
    have : (k' : ℚ) = ((10 ^ (n + 1) : Nat) : ℚ) * (q : ℚ) + (m : ℚ) := by exact_mod_cast hkm.symm
    rw [this]; ring
  have hm1 : 1 ≤ m := by
    rcases Nat.eq_zero_or_pos m with h | h
    · exact absurd (hm5 0 (by omega)) id
    · exact h
  -- the true fraction is strictly between m - 1 and m + 1
  have hklow : (m : ℚ) - 1 ≤ (k : ℚ) - (q : ℚ) * ((10 ^ (n + 1) : Nat) : ℚ) := by
    rw [hmk]
    have : (k' : ℚ) ≤ (k : ℚ) + 1 := by exact_mod_cast hkk.2
    linarith
  have hkhigh : (k : ℚ) - (q : ℚ) * ((10 ^ (n + 1) : Nat) : ℚ) ≤ (m : ℚ) := by
    rw [hmk]
    have : (k : ℚ) ≤ (k' : ℚ) := by exact_mod_cast hkk.1
    linarith
  have hmlt : (m : ℚ) + 1 ≤ ((10 ^ (n + 1) : Nat) : ℚ) := by exact_mod_cast hkm2
  have hm1' : (1 : ℚ) ≤ (m : ℚ) := by exact_mod_cast hm1
  refine ⟨((k : ℚ) + g - (q : ℚ) * ((10 ^ (n + 1) : Nat) : ℚ)) / ((10 ^ (n + 1) : Nat) : ℚ), ?_, ?_, ?_,
    ?_, ?_, ?_⟩
  · apply div_nonneg _ hp.le
    linarith
  · rw [div_lt_one hp]
    linarith
  · rw [hcast, ten_zpow_add, ten_zpow_nat]
    field_simp
    ring
  · constructor
    · intro h; omega
    · intro h
      have := (div_eq_zero_iff.mp h).resolve_right hp.ne'
      linarith
  · rw [← mul_div_assoc, div_lt_one hp]
    have hne : 2 * m ≠ 10 ^ (n + 1) := fun h => hm5 t (by omega)
    constructor
    · intro h
      have h2 : 2 * (m + 1) ≤ 10 ^ (n + 1) := by rw [ht] at h ⊢; omega
      have h3 : 2 * ((m : ℚ) + 1) ≤ ((10 ^ (n + 1) : Nat) : ℚ) := by exact_mod_cast h2
      linarith
    · intro h
      by_contra h2
      have h3 : 10 ^ (n + 1) + 2 ≤ 2 * m := by rw [ht] at h2 hne ⊢; omega
      have h4 : ((10 ^ (n + 1) : Nat) : ℚ) + 2 ≤ 2 * (m : ℚ) := by exact_mod_cast h3
      linarith
  · have hne : 2 * m ≠ 10 ^ (n + 1) := fun h => hm5 t (by omega)
    refine ⟨fun h => absurd h hne, fun h => ?_⟩
    exfalso
    rw [← mul_div_assoc, div_eq_one_iff_eq hp.ne'] at h
    rcases lt_or_gt_of_ne hne with h2 | h2
    · have h2 : 2 * (m + 1) ≤ 10 ^ (n + 1) := by rw [ht] at h2 ⊢; omega
      have h3 : 2 * ((m : ℚ) + 1) ≤ ((10 ^ (n + 1) : Nat) : ℚ) := by exact_mod_cast h2
      linarith
    · have h3 : 10 ^ (n + 1) + 2 ≤ 2 * m := by rw [ht] at h2 ⊢; omega
      have h4 : ((10 ^ (n + 1) : Nat) : ℚ) + 2 ≤ 2 * (m : ℚ) := by exact_mod_cast h3
      linarith

/-- when the quotient does not terminate in time it is not representable -/
theorem not_representable_of_mod {c : DecCtx} (num den : Nat) (e : Int) (hden : 0 < den)
    (hbig : 10 ^ c.prec ≤ num / den) (hr : num % den ≠ 0) (neg : Bool) :
    ¬ Representable c (signed neg ((num : ℚ) / den * (10 : ℚ) ^ e)) := by
  rintro ⟨k, g, hk, -, -, hv⟩
  have hd : (0 : ℚ) < (den : ℚ) := by exact_mod_cast hden
  have hx : (0 : ℚ) ≤ (num : ℚ) / den * (10 : ℚ) ^ e := by positivity
  have h1 : (num : ℚ) / den * (10 : ℚ) ^ e = (k.natAbs : ℚ) * (10 : ℚ) ^ g := by
    rw [← signed_abs neg hx, hv, abs_mul, abs_of_pos (ten_zpow_pos g), Nat.cast_natAbs, Int.cast_abs]
  have hk' : k.natAbs < 10 ^ c.prec := by
    have : (k.natAbs : Int) < ((10 ^ c.prec : Nat) : Int) := by
      rw [Int.natCast_natAbs]; exact_mod_cast hk
    exact_mod_cast this
  generalize k.natAbs = n at h1 hk'
  have hge : e ≤ g := by
    by_contra hlt
    have h2 : ((10 ^ c.prec : Nat) : ℚ) ≤ (num : ℚ) / den := by
      rw [le_div_iff₀ hd]
      have : 10 ^ c.prec * den ≤ num := (Nat.le_div_iff_mul_le hden).mp hbig
      exact_mod_cast this
    have h3 : (n : ℚ) < ((10 ^ c.prec : Nat) : ℚ) := by exact_mod_cast hk'
    have h4 : (10 : ℚ) ^ g ≤ (10 : ℚ) ^ e := ten_zpow_le.mpr (by omega)
    have h5 := ten_zpow_pos e
    have h6 := ten_zpow_pos g
    have h7 : (n : ℚ) * (10 : ℚ) ^ g < (num : ℚ) / den * (10 : ℚ) ^ e := by
      calc (n : ℚ) * (10 : ℚ) ^ g ≤ (n : ℚ) * (10 : ℚ) ^ e :=
            mul_le_mul_of_nonneg_left h4 (by positivity)
        _ < _ := mul_lt_mul_of_pos_right (h3.trans_le h2) h5
    linarith
  have h2 : (num : ℚ) / den = ((n * 10 ^ (g - e).toNat : Nat) : ℚ) := by
    have hge' : g = ((g - e).toNat : Int) + e := by omega
    rw [hge', ten_zpow_add, ten_zpow_nat, ← mul_assoc] at h1
    have := mul_right_cancel₀ (ten_zpow_pos e).ne' h1
    rw [this]
    push_cast
    rfl
  rw [div_eq_iff hd.ne'] at h2
  have h3 : num = n * 10 ^ (g - e).toNat * den := by exact_mod_cast h2
  apply hr
  rw [h3]
  exact Nat.mul_mod_left _ _

/-- **C24** for division: `a / b` is the exact quotient, correctly rounded. -/
theorem div_rounded (env : Env) (dc : DecCtx) (hc : dc.Valid) (a b : Dec) (x y : ℚ)
    (ha : a.num = some x) (hb : b.num = some y) (hy : y ≠ 0) :
    Rounded dc (x / y) IsEvaluationError (binResult env dc (.arith .tdiv) (.dec a) (.dec b)) := by
  rw [binResult_arith_dec]
  cases a <;> simp only [Dec.num, Option.some.injEq, reduceCtorEq] at ha
  cases b <;> simp only [Dec.num, Option.some.injEq, reduceCtorEq] at hb
  rename_i na ca ea nb cb eb
  have hcb : cb ≠ 0 := by rintro rfl; rw [finVal_zero] at hb; exact hy hb.symm
  simp only [decOp, decDiv, hcb, if_false]
  by_cases hca : ca = 0
  · subst hca
    rw [if_pos rfl]
    refine rounded_of_fix hc ?_ rfl _ rfl
    rw [finVal_zero, ← ha, finVal_zero, zero_div]
  rw [if_neg hca]
  subst ha hb
  generalize hsh : (ndigits cb : Int) - ndigits ca + dc.prec + 1 = shift
  generalize he : ea - eb - shift = e
  have hden : 0 < cb * 10 ^ (-shift).toNat := by positivity
  -- the exact quotient
  have hval : finVal na ca ea / finVal nb cb eb = signed (xor na nb)
      (((ca * 10 ^ shift.toNat : Nat) : ℚ) / ((cb * 10 ^ (-shift).toNat : Nat) : ℚ) * (10 : ℚ) ^ e) := by
    have hea : ea = eb + ((shift.toNat : Int) - ((-shift).toNat : Int)) + e := by omega
    have h10 : (10 : ℚ) ≠ 0 := by norm_num
    have hcb' : (cb : ℚ) ≠ 0 := by exact_mod_cast hcb
    unfold finVal signed
    rw [hea, ten_zpow_add, ten_zpow_add, zpow_sub₀ h10, ten_zpow_nat, ten_zpow_nat]
    have h1 := (ten_zpow_pos eb).ne'
    have h2 : ((10 ^ (-shift).toNat : Nat) : ℚ) ≠ 0 := by positivity
    push_cast at *
    cases na <;> cases nb <;> simp <;> field_simp
  have hbig : 10 ^ dc.prec ≤ ca * 10 ^ shift.toNat / (cb * 10 ^ (-shift).toNat) := by
    rw [Nat.le_div_iff_mul_le hden]
    obtain ⟨h1, -⟩ := ndigits_bounds hca
    obtain ⟨-, h2⟩ := ndigits_bounds hcb
    have := ndigits_pos ca
    calc 10 ^ dc.prec * (cb * 10 ^ (-shift).toNat)
        ≤ 10 ^ dc.prec * (10 ^ ndigits cb * 10 ^ (-shift).toNat) :=
          Nat.mul_le_mul_left _ (Nat.mul_le_mul_right _ h2.le)
      _ = 10 ^ (dc.prec + ndigits cb + (-shift).toNat) := by rw [← pow_add, ← pow_add]; ring_nf
      _ = 10 ^ ((ndigits ca - 1) + shift.toNat) := by congr 1; omega
      _ = 10 ^ (ndigits ca - 1) * 10 ^ shift.toNat := by rw [pow_add]
      _ ≤ _ := Nat.mul_le_mul_right _ h1
  rw [hval]
  generalize ca * 10 ^ shift.toNat = num at *
  generalize cb * 10 ^ (-shift).toNat = den at *
  by_cases hr : num % den = 0
  · simp only [hr, ne_eq, not_true_eq_false, if_false]
    refine rounded_of_fix hc ?_ rfl _ rfl
    rw [stripZeros_val, finVal_signed]
    congr 2
    have hdd : (den : ℚ) ≠ 0 := by exact_mod_cast hden.ne'
    rw [eq_div_iff hdd]
    exact_mod_cast Nat.div_mul_cancel (Nat.dvd_of_mod_eq_zero hr)
  · simp only [ne_eq, hr, not_false_eq_true, if_true]
    have hcell := inCell_sticky (c := dc) num den e hden hbig hr
    have hk0 : (if num / den % 5 = 0 then num / den + 1 else num / den) ≠ 0 := by
      have : 0 < 10 ^ dc.prec := by positivity
      split <;> omega
    have hx : (0 : ℚ) ≤ (num : ℚ) / den * (10 : ℚ) ^ e := by positivity
    generalize (if num / den % 5 = 0 then num / den + 1 else num / den) = k at *
    cases h : decFix dc (xor na nb) k e with
    | ok d =>
      left
      obtain ⟨q', e', rfl, h1, h2⟩ := decFix_near hc.prec hk0 h hcell
      exact ⟨_, _, rfl, rfl, h1, h2, fun hrep =>
        absurd hrep (not_representable_of_mod num den e hden hbig hr _)⟩
    | error err =>
      right
      obtain ⟨rfl, h1⟩ := decFix_error hc h hcell
      refine ⟨_, rfl, rfl, ?_⟩
      rw [signed_abs _ hx]; exact h1

theorem signed_mul (neg : Bool) (x y : ℚ) : signed neg (x * y) = signed neg x * y := by
  cases neg <;> simp [signed]

/-- a signed integer quotient -/
def signedInt (neg : Bool) (q : Nat) : Int := if neg then -(q : Int) else q

theorem finVal_int (neg : Bool) (q : Nat) : finVal neg q 0 = (signedInt neg q : ℚ) := by
  cases neg <;> simp [finVal, signedInt]

/-- the exact division with remainder on the common exponent -/
theorem divide_exact (na : Bool) (ca : Nat) (ea : Int) (nb : Bool) (cb : Nat) (eb : Int) (hcb : cb ≠ 0)
    (e : Int) (he : e = min ea eb) (X Y : Nat) (hX : X = ca * 10 ^ (ea - e).toNat)
    (hY : Y = cb * 10 ^ (eb - e).toNat) :
    finVal na (X % Y) e = finVal na ca ea - (signedInt (xor na nb) (X / Y) : ℚ) * finVal nb cb eb ∧
    |finVal na (X % Y) e| < |finVal nb cb eb| ∧ |finVal na (X % Y) e| ≤ |finVal na ca ea| ∧
    0 ≤ finVal na (X % Y) e * finVal na ca ea ∧ Y ≠ 0 ∧
    |finVal na ca ea / finVal nb cb eb| = (X : ℚ) / Y := by
  have hY0 : Y ≠ 0 := by rw [hY]; positivity
  have h1 : finVal na ca ea = signed na (X : ℚ) * (10 : ℚ) ^ e := by
    rw [scaled_val na ca ea e (by omega), scaled, hX]
    cases na <;> simp [signed]
  have h2 : finVal nb cb eb = signed nb (Y : ℚ) * (10 : ℚ) ^ e := by
    rw [scaled_val nb cb eb e (by omega), scaled, hY]
    cases nb <;> simp [signed]
  have h3 : finVal na (X % Y) e = signed na ((X % Y : Nat) : ℚ) * (10 : ℚ) ^ e := by
    rw [finVal_signed, signed_mul]
  have hE := ten_zpow_pos e
  have hdm : (X : ℚ) = (Y : ℚ) * ((X / Y : Nat) : ℚ) + ((X % Y : Nat) : ℚ) := by
    exact_mod_cast (Nat.div_add_mod X Y).symm
  have hlt : ((X % Y : Nat) : ℚ) < (Y : ℚ) := by exact_mod_cast Nat.mod_lt X (by omega)
  have hle : ((X % Y : Nat) : ℚ) ≤ (X : ℚ) := by exact_mod_cast Nat.mod_le X Y
  refine ⟨?_, ?_, ?_, ?_, hY0, ?_⟩
  · rw [h1, h2, h3, hdm]
    unfold signed signedInt
    generalize X / Y = q
    cases na <;> cases nb <;> simp <;> ring
  · rw [h2, h3, abs_mul, abs_mul, signed_abs _ (by positivity), signed_abs _ (by positivity),
      abs_of_pos hE]
    exact mul_lt_mul_of_pos_right hlt hE
  · rw [h1, h3, abs_mul, abs_mul, signed_abs _ (by positivity), signed_abs _ (by positivity),
      abs_of_pos hE]
    exact mul_le_mul_of_nonneg_right hle hE.le
  · rw [h1, h3]
    unfold signed
    cases na <;> simp <;> positivity
  · rw [h1, h2, abs_div, abs_mul, abs_mul, signed_abs _ (by positivity), signed_abs _ (by positivity),
      abs_of_pos hE, mul_div_mul_right _ _ hE.ne']

theorem representable_remainder {c : DecCtx} {x y r : ℚ} {q : Int} (hx : Representable c x)
    (hy : Representable c y) (hr : r = x - q * y) (h1 : |r| < |y|) (h2 : |r| ≤ |x|) :
    Representable c r := by
  obtain ⟨k1, e1, hk1, ha1, hb1, rfl⟩ := hx
  obtain ⟨k2, e2, hk2, ha2, hb2, rfl⟩ := hy
  have key : ∀ (k f : Int) (j : Nat), f + j = k → (10 : ℚ) ^ k = ((10 ^ j : Nat) : ℚ) * (10 : ℚ) ^ f := by
    intro k f j h
    rw [← h, add_comm, ten_zpow_add, ten_zpow_nat]
  rcases le_total e1 e2 with h | h
  · have h10 := key e2 e1 (e2 - e1).toNat (by omega)
    refine ⟨k1 - q * (k2 * (10 ^ (e2 - e1).toNat : Nat)), e1, ?_, ha1, hb1, ?_⟩
    · refine lt_of_le_of_lt ?_ hk1
      have h3 : r = ((k1 - q * (k2 * (10 ^ (e2 - e1).toNat : Nat)) : Int) : ℚ) * (10 : ℚ) ^ e1 := by
        rw [hr, h10]; push_cast; ring
      rw [h3, abs_mul, abs_mul, mul_le_mul_iff_left₀ (abs_pos.mpr (ten_zpow_pos e1).ne')] at h2
      exact_mod_cast h2
    · rw [hr, h10]; push_cast; ring
  · have h10 := key e1 e2 (e1 - e2).toNat (by omega)
    refine ⟨k1 * (10 ^ (e1 - e2).toNat : Nat) - q * k2, e2, ?_, ha2, hb2, ?_⟩
    · refine lt_trans ?_ hk2
      have h3 : r = ((k1 * (10 ^ (e1 - e2).toNat : Nat) - q * k2 : Int) : ℚ) * (10 : ℚ) ^ e2 := by
        rw [hr, h10]; push_cast; ring
      rw [h3, abs_mul, abs_mul, mul_lt_mul_iff_left₀ (abs_pos.mpr (ten_zpow_pos e2).ne')] at h1
      exact_mod_cast h1
    · rw [hr, h10]; push_cast; ring

/-- **C25**: when `a // b` returns `q`, it is the quotient truncated towards zero: a whole number with
`a = q * b + r` for a remainder `r` that is smaller than `b` and does not have the opposite sign of `a`;
and `a % b` is that `r` rounded to the context, exactly `r` if both operands fit the context. -/
theorem quotient_remainder (env : Env) (dc : DecCtx) (hc : dc.Valid) (a b : Dec) (x y : ℚ)
    (ha : a.num = some x) (hb : b.num = some y) (hy : y ≠ 0) (v : Value)
    (h : binResult env dc (.arith .fdiv) (.dec a) (.dec b) = .ok v) :
    ∃ d, ∃ q : Int, v = .dec d ∧ d.num = some (q : ℚ) ∧ |x - q * y| < |y| ∧ 0 ≤ (x - q * y) * x ∧
      Rounded dc (x - q * y) IsEvaluationError (binResult env dc (.arith .mod) (.dec a) (.dec b)) ∧
      (Representable dc x → Representable dc y → ∃ r,
        binResult env dc (.arith .mod) (.dec a) (.dec b) = .ok (.dec r) ∧ r.num = some (x - q * y)) := by
  rw [binResult_arith_dec] at h
  rw [binResult_arith_dec]
  cases a <;> simp only [Dec.num, Option.some.injEq, reduceCtorEq] at ha
  cases b <;> simp only [Dec.num, Option.some.injEq, reduceCtorEq] at hb
  rename_i na ca ea nb cb eb
  have hcb : cb ≠ 0 := by rintro rfl; rw [finVal_zero] at hb; exact hy hb.symm
  subst ha hb
  simp only [decOp, decFloorDiv, hcb, if_false, decDivide] at h
  obtain ⟨h1, h2, h3, h4, h5, -⟩ := divide_exact na ca ea nb cb eb hcb _ rfl _ _ rfl rfl
  simp only [decOp, decMod, hcb, if_false, decDivide]
  generalize hX : ca * 10 ^ (ea - min ea eb).toNat = X at *
  generalize hY : cb * 10 ^ (eb - min ea eb).toNat = Y at *
  by_cases hlt : X / Y < 10 ^ dc.prec
  · rw [if_pos hlt] at h ⊢
    change ((decFix dc (xor na nb) (X / Y) 0).mapError _).map Value.dec = _ at h
    change ∃ d, ∃ q : Int, _ ∧ _ ∧ _ ∧ _ ∧ Rounded dc _ _ (((decFix dc na (X % Y) (min ea eb)).mapError _).map Value.dec) ∧
      (_ → _ → ∃ r, ((decFix dc na (X % Y) (min ea eb)).mapError _).map Value.dec = _ ∧ _)
    have hq : ∃ d, decFix dc (xor na nb) (X / Y) 0 = .ok d ∧ v = .dec d ∧
        d.num = some (signedInt (xor na nb) (X / Y) : ℚ) := by
      cases hf : decFix dc (xor na nb) (X / Y) 0 with
      | error e => rw [hf] at h; cases h
      | ok d =>
        rw [hf] at h
        injection h with h
        refine ⟨d, rfl, h.symm, ?_⟩
        by_cases hq0 : X / Y = 0
        · rw [hq0] at hf ⊢
          obtain ⟨e', he'⟩ := decFix_zero (c := dc) (xor na nb) 0
          rw [he'] at hf
          injection hf with hf
          rw [← hf, Dec.num, finVal_zero]
          cases (xor na nb) <;> simp [signedInt]
        · rcases decFix_ok hc.prec hq0 hf with ⟨-, rfl⟩ | ⟨hbad, -⟩
          · rw [Dec.num, finVal_int]
          · exfalso
            have h6 : ndigits (X / Y) ≤ dc.prec := (ndigits_le hc.prec).mpr hlt
            have h7 : fixExp dc (X / Y) 0 ≤ 0 := by
              unfold fixExp
              have := hc.emin
              have := hc.prec
              refine max_le ?_ ?_ <;> omega
            omega
    obtain ⟨d, -, hv, hd⟩ := hq
    refine ⟨d, signedInt (xor na nb) (X / Y), hv, hd, ?_⟩
    rw [← h1]
    refine ⟨h2, h4, rounded_of_fix hc rfl rfl _ rfl, fun hx hy => ?_⟩
    obtain ⟨q', e', h8, h9⟩ := decFix_exact hc.prec (neg := na) (k := X % Y) (e := min ea eb)
      (representable_remainder hx hy h1 h2 h3)
    refine ⟨_, by rw [h8]; rfl, ?_⟩
    rw [Dec.num, h9]
  · rw [if_neg hlt] at h
    cases h

/-- **C25**: `a // b` returns whenever the quotient has at most `prec` digits before the point (in a
context whose exponent range allows such numbers at all). -/
theorem floordiv_returns (env : Env) (dc : DecCtx) (hc : dc.Valid) (he : (dc.prec : Int) ≤ dc.emax + 1)
    (a b : Dec) (x y : ℚ) (ha : a.num = some x) (hb : b.num = some y) (hy : y ≠ 0)
    (hsmall : |x / y| < 10 ^ dc.prec) :
    ∃ d, binResult env dc (.arith .fdiv) (.dec a) (.dec b) = .ok (.dec d) := by
  rw [binResult_arith_dec]
  cases a <;> simp only [Dec.num, Option.some.injEq, reduceCtorEq] at ha
  cases b <;> simp only [Dec.num, Option.some.injEq, reduceCtorEq] at hb
  rename_i na ca ea nb cb eb
  have hcb : cb ≠ 0 := by rintro rfl; rw [finVal_zero] at hb; exact hy hb.symm
  subst ha hb
  simp only [decOp, decFloorDiv, hcb, if_false, decDivide]
  obtain ⟨-, -, -, -, h5, h6⟩ := divide_exact na ca ea nb cb eb hcb _ rfl _ _ rfl rfl
  generalize hX : ca * 10 ^ (ea - min ea eb).toNat = X at *
  generalize hY : cb * 10 ^ (eb - min ea eb).toNat = Y at *
  have hlt : X / Y < 10 ^ dc.prec := by
    rw [h6, div_lt_iff₀ (by positivity)] at hsmall
    rw [Nat.div_lt_iff_lt_mul (by omega)]
    exact_mod_cast hsmall
  rw [if_pos hlt]
  change ∃ d, ((decFix dc (xor na nb) (X / Y) 0).mapError _).map Value.dec = _
  obtain ⟨q', e', h8, -⟩ := decFix_exact hc.prec (neg := xor na nb) (k := X / Y) (e := 0)
    ⟨signedInt (xor na nb) (X / Y), 0, by
      have : |signedInt (xor na nb) (X / Y)| = ((X / Y : Nat) : Int) := by
        generalize X / Y = q
        cases xor na nb <;> simp [signedInt]
      rw [this]; exact_mod_cast hlt, by have := hc.emin; have := hc.prec; omega, by omega, by
      rw [finVal_int]; simp⟩
  rw [h8]
  exact ⟨_, rfl⟩

/-- Witness for C25: -7 // 2 is -3 (not -4) and -7 % 2 is -1. -/
theorem floordiv_witness :
    binResult sampleEnv .default (.arith .fdiv) (.dec (.fin true 7 0)) (.dec (.fin false 2 0)) =
      .ok (.dec (.fin true 3 0)) ∧
    binResult sampleEnv .default (.arith .mod) (.dec (.fin true 7 0)) (.dec (.fin false 2 0)) =
      .ok (.dec (.fin true 1 0)) ∧ DecCtx.default.Valid := by
  refine ⟨by decide +kernel, by decide +kernel, ⟨by decide, by decide, by decide⟩⟩

end RE
