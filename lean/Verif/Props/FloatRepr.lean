import Verif.Props.Float64
import Verif.Props.Arith

/-!
# The `repr` of a float gives a short decimal back

The engine turns floats into Decimals by way of `repr` (types.py 55-58).  A decimal number with at most `2 ** 52`
units of its last place survives the conversion to a float and back.
-/

namespace RE

theorem pow10_eq (e : Int) : pow10 e = (10 : ℚ) ^ e := by
  unfold pow10
  by_cases h : 0 ≤ e
  · obtain ⟨n, rfl⟩ := Int.eq_ofNat_of_zero_le h
    simp
  · obtain ⟨n, hn⟩ := Int.eq_ofNat_of_zero_le (a := -e) (by omega)
    have he : e = -(n : Int) := by omega
    subst he
    simp only [h, if_false, neg_neg, Int.toNat_natCast, zpow_neg, zpow_natCast, Nat.cast_pow, Nat.cast_ofNat, one_div]

theorem ilog10_spec {q : ℚ} (hq : 0 < q) : (10 : ℚ) ^ ilog10 q ≤ q ∧ q < (10 : ℚ) ^ (ilog10 q + 1) := by
  have hn : 0 < q.num := Rat.num_pos.2 hq
  have hd : 0 < q.den := q.den_pos
  have hqe : q = (q.num.natAbs : ℚ) / q.den := by
    have : (q.num.natAbs : ℚ) = (q.num : ℚ) := by rw [Nat.cast_natAbs, abs_of_pos hn]
    rw [this, Rat.num_div_den]
  generalize hN : q.num.natAbs = N at hqe
  generalize hD : q.den = D at hqe hd
  have hN0 : N ≠ 0 := by rw [← hN]; omega
  have hd0 : D ≠ 0 := by omega
  have a1 : (10 : ℚ) ^ (Nat.log 10 N) ≤ N := by exact_mod_cast Nat.pow_log_le_self 10 hN0
  have a2 : (N : ℚ) < (10 : ℚ) ^ (Nat.log 10 N + 1) := by
    exact_mod_cast Nat.lt_pow_succ_log_self (b := 10) (by norm_num) N
  have b1 : (10 : ℚ) ^ (Nat.log 10 D) ≤ D := by exact_mod_cast Nat.pow_log_le_self 10 hd0
  have b2 : (D : ℚ) < (10 : ℚ) ^ (Nat.log 10 D + 1) := by
    exact_mod_cast Nat.lt_pow_succ_log_self (b := 10) (by norm_num) D
  generalize hk : (ndigits N : Int) - (ndigits D : Int) = k
  have hk' : (Nat.log 10 N : Int) - Nat.log 10 D = k := by rw [← hk]; simp [ndigits]
  have hDq : (0 : ℚ) < D := by exact_mod_cast hd
  have lo : (10 : ℚ) ^ (k - 1) ≤ q := by
    rw [hqe, le_div_iff₀ hDq]
    calc (10 : ℚ) ^ (k - 1) * D ≤ (10 : ℚ) ^ (k - 1) * (10 : ℚ) ^ (Nat.log 10 D + 1) := by
          apply mul_le_mul_of_nonneg_left b2.le; positivity
      _ = (10 : ℚ) ^ (Nat.log 10 N) := by
          rw [← zpow_natCast, ← zpow_natCast, ← zpow_add₀ (by norm_num)]; congr 1; push_cast; omega
      _ ≤ N := a1
  have hi : q < (10 : ℚ) ^ (k + 1) := by
    rw [hqe, div_lt_iff₀ hDq]
    calc (N : ℚ) < (10 : ℚ) ^ (Nat.log 10 N + 1) := a2
      _ = (10 : ℚ) ^ (k + 1) * (10 : ℚ) ^ (Nat.log 10 D) := by
          rw [← zpow_natCast, ← zpow_natCast, ← zpow_add₀ (by norm_num)]; congr 1; push_cast; omega
      _ ≤ (10 : ℚ) ^ (k + 1) * D := by
          apply mul_le_mul_of_nonneg_left b1; positivity
  unfold ilog10
  simp only [hN, hD, hk, pow10_eq]
  split_ifs with h
  · refine ⟨lo, ?_⟩
    rwa [sub_add_cancel]
  · exact ⟨not_lt.1 h, hi⟩

theorem reprAt_sound {x : ℚ} {e : Int} {d : Nat} (h : reprAt x e = some d) : fl64 (d * (10 : ℚ) ^ e) = x := by
  unfold reprAt at h
  simp only [pow10_eq] at h
  split_ifs at h with h1 h2 h3 h4 h5 h6 <;> cases h <;> simp_all

theorem reprAt_complete {x : ℚ} (hx : 0 ≤ x) {e : Int} {n : Nat} (hn : |n * (10 : ℚ) ^ e - x| < (10 : ℚ) ^ e)
    (hfl : fl64 (n * (10 : ℚ) ^ e) = x) : ∃ d, reprAt x e = some d := by
  have hp : (0 : ℚ) < (10 : ℚ) ^ e := by positivity
  have f0 : 0 ≤ x / (10 : ℚ) ^ e := by positivity
  have f1 := Int.floor_le (x / (10 : ℚ) ^ e)
  have f2 := Int.lt_floor_add_one (x / (10 : ℚ) ^ e)
  obtain ⟨lo, hlo⟩ := Int.eq_ofNat_of_zero_le (Int.floor_nonneg.2 f0)
  rw [hlo] at f1 f2
  rw [le_div_iff₀ hp] at f1
  rw [div_lt_iff₀ hp] at f2
  push_cast at f1 f2
  rw [abs_lt] at hn
  have h1 : (lo : ℚ) < n + 1 := by
    have : (lo : ℚ) * (10 : ℚ) ^ e < (n + 1) * (10 : ℚ) ^ e := by nlinarith [hn.1]
    exact lt_of_mul_lt_mul_right this hp.le
  have h2 : (n : ℚ) < lo + 2 := by
    have : (n : ℚ) * (10 : ℚ) ^ e < (lo + 2) * (10 : ℚ) ^ e := by nlinarith [hn.2]
    exact lt_of_mul_lt_mul_right this hp.le
  have h1' : lo < n + 1 := by exact_mod_cast h1
  have h2' : n < lo + 2 := by exact_mod_cast h2
  have hf : (x / (10 : ℚ) ^ e).floor.toNat = lo := by
    have : (x / (10 : ℚ) ^ e).floor = ⌊x / (10 : ℚ) ^ e⌋ := rfl
    rw [this, hlo]; rfl
  rcases (by omega : n = lo ∨ n = lo + 1) with rfl | rfl
  · unfold reprAt
    simp only [pow10_eq, hf, hfl, decide_true, Bool.true_and]
    split_ifs <;> simp
  · unfold reprAt
    simp only [pow10_eq, hf, hfl, decide_true, Bool.and_true]
    split_ifs <;> simp

theorem reprSearch_spec (x : ℚ) (j : Int) (hj : ∃ d, reprAt x j = some d) :
    ∀ (n : Nat) (e : Int), j ≤ e → e - j < n →
      fl64 ((reprSearch x n e).1 * (10 : ℚ) ^ (reprSearch x n e).2) = x ∧ j ≤ (reprSearch x n e).2
  | 0, e, h1, h2 => by omega
  | n + 1, e, h1, h2 => by
    unfold reprSearch
    cases hr : reprAt x e with
    | some d => exact ⟨reprAt_sound hr, h1⟩
    | none =>
      have hne : j ≠ e := by
        rintro rfl
        obtain ⟨d, hd⟩ := hj
        rw [hr] at hd; cases hd
      exact reprSearch_spec x j hj n (e - 1) (by omega) (by omega)

/-- two numbers with the same float are close -/
theorem same_float_close {a b : ℚ} (ha : 0 ≤ a) (hb : 0 ≤ b) (h : fl64 a = fl64 b) :
    |b - a| ≤ (a + b) / 2 ^ 53 + 2 / 2 ^ 1075 := by
  have h1 := abs_le.1 (fl64_error ha)
  have h2 := abs_le.1 (fl64_error hb)
  rw [← h] at h2
  rw [abs_le]
  have : (a + b) / 2 ^ 53 = a / 2 ^ 53 + b / 2 ^ 53 := by ring
  have h3 : (2 : ℚ) / 2 ^ 1075 = 1 / 2 ^ 1075 + 1 / 2 ^ 1075 := by ring
  rw [this, h3]
  constructor <;> linarith [h1.1, h1.2, h2.1, h2.2]

theorem ten_zpow_ge {j : Int} (hj : -290 ≤ j) : (2 : ℚ) / 2 ^ 1075 ≤ (10 : ℚ) ^ j / 2 ^ 60 := by
  have h1 : (10 : ℚ) ^ (-290 : Int) ≤ (10 : ℚ) ^ j := zpow_le_zpow_right₀ (by norm_num) hj
  have h2 : (2 : ℚ) / 2 ^ 1075 ≤ (10 : ℚ) ^ (-290 : Int) / 2 ^ 60 := by
    rw [zpow_neg]
    rw [div_le_div_iff₀ (by positivity) (by positivity)]
    have hz : (10 : ℚ) ^ (290 : Int) = 10 ^ 290 := by norm_cast
    rw [hz]
    have h3 : (10 : ℚ) ^ 290 ≤ 2 ^ 1014 := by
      have : (10 : ℚ) ^ 10 ≤ 2 ^ 34 := by norm_num
      calc (10 : ℚ) ^ 290 = (10 ^ 10) ^ 29 := by rw [← pow_mul]
        _ ≤ (2 ^ 34) ^ 29 := pow_le_pow_left₀ (by positivity) this 29
        _ = 2 ^ 986 := by rw [← pow_mul]
        _ ≤ 2 ^ 1014 := pow_le_pow_right₀ (by norm_num) (by norm_num)
    have h4 : (0 : ℚ) < 10 ^ 290 := by positivity
    have h5 : (2 : ℚ) * 2 ^ 60 * 10 ^ 290 ≤ 2 ^ 1075 := by
      calc (2 : ℚ) * 2 ^ 60 * 10 ^ 290 ≤ 2 * 2 ^ 60 * 2 ^ 1014 := by
            apply mul_le_mul_of_nonneg_left h3; positivity
        _ = 2 ^ 1075 := by rw [← pow_succ', ← pow_add]
    calc (2 : ℚ) * 2 ^ 60 = 2 * 2 ^ 60 * 10 ^ 290 * (10 ^ 290)⁻¹ := by
          rw [mul_assoc (2 * 2 ^ 60), mul_inv_cancel₀ h4.ne', mul_one]
      _ ≤ 2 ^ 1075 * (10 ^ 290)⁻¹ := mul_le_mul_of_nonneg_right h5 (by positivity)
      _ = (10 ^ 290)⁻¹ * 2 ^ 1075 := mul_comm _ _
  refine h2.trans ?_
  exact div_le_div_of_nonneg_right h1 (by positivity)

/-- the only multiple of `10 ** j` with the same float as a number with few units of `10 ** j` -/
theorem same_float_eq {m n : Nat} {j : Int} (hj : -290 ≤ j) (hm : m ≤ 45 * 10 ^ 14)
    (h : fl64 (m * (10 : ℚ) ^ j) = fl64 (n * (10 : ℚ) ^ j)) : m = n := by
  have hp : (0 : ℚ) < (10 : ℚ) ^ j := by positivity
  have hc := same_float_close (a := m * (10 : ℚ) ^ j) (b := n * (10 : ℚ) ^ j) (by positivity) (by positivity) h
  have hs := ten_zpow_ge hj
  have hfac : (n : ℚ) * (10 : ℚ) ^ j - m * (10 : ℚ) ^ j = ((n : ℚ) - m) * (10 : ℚ) ^ j := by ring
  have hfac2 : (m * (10 : ℚ) ^ j + n * (10 : ℚ) ^ j) / 2 ^ 53 = ((m + n) / 2 ^ 53) * (10 : ℚ) ^ j := by ring
  rw [hfac, hfac2, abs_mul, abs_of_pos hp] at hc
  have hc2 : |(n : ℚ) - m| ≤ (m + n) / 2 ^ 53 + 1 / 2 ^ 60 := by
    have : |(n : ℚ) - m| * (10 : ℚ) ^ j ≤ ((m + n) / 2 ^ 53 + 1 / 2 ^ 60) * (10 : ℚ) ^ j := by linarith
    exact le_of_mul_le_mul_right this hp
  have hmq : (m : ℚ) ≤ 4500000000000000 := by exact_mod_cast hm
  have hlt : |(n : ℚ) - m| < 1 := by
    have hle := (abs_le.1 hc2).2
    have hn : (n : ℚ) ≤ 4500000000000002 := by
      norm_num at hle
      linarith
    refine hc2.trans_lt ?_
    norm_num
    linarith
  have hlt' : |(n : Int) - m| < 1 := by exact_mod_cast hlt
  have := Int.abs_lt_one_iff.1 hlt'
  omega

/-- `repr` gives a short decimal back -/
theorem repr_search_exact {m : Nat} {j : Int} (hm0 : 0 < m) (hm : m ≤ 45 * 10 ^ 14) (hj : -289 ≤ j) :
    let x := fl64 (m * (10 : ℚ) ^ j)
    let r := reprSearch x 17 (ilog10 x)
    (r.1 : ℚ) * (10 : ℚ) ^ r.2 = m * (10 : ℚ) ^ j := by
  intro x r
  have hp : (0 : ℚ) < (10 : ℚ) ^ j := by positivity
  have hmq : (m : ℚ) ≤ 45 * 10 ^ 14 := by exact_mod_cast hm
  have hm1 : (1 : ℚ) ≤ m := by exact_mod_cast hm0
  set D : ℚ := m * (10 : ℚ) ^ j with hD
  have hDpos : 0 < D := by positivity
  have hDle : (10 : ℚ) ^ j ≤ D := by rw [hD]; nlinarith
  have herr := abs_le.1 (fl64_error hDpos.le)
  have htiny : (1 : ℚ) / 2 ^ 1075 ≤ (10 : ℚ) ^ j / 2 ^ 60 := by
    have := ten_zpow_ge (j := j) (by omega)
    have h2 : (1 : ℚ) / 2 ^ 1075 ≤ 2 / 2 ^ 1075 := div_le_div_of_nonneg_right (by norm_num) (by positivity)
    linarith
  -- the error is below 6/10 of a unit, and below a millionth of the number
  have e1 : |x - D| ≤ 6 / 10 * (10 : ℚ) ^ j := by
    have hb : D / 2 ^ 53 ≤ 5 / 10 * (10 : ℚ) ^ j := by
      rw [hD]
      have : (m : ℚ) / 2 ^ 53 ≤ 5 / 10 := by linarith
      have := mul_le_mul_of_nonneg_right this hp.le
      calc (m : ℚ) * (10 : ℚ) ^ j / 2 ^ 53 = m / 2 ^ 53 * (10 : ℚ) ^ j := by ring
        _ ≤ _ := this
    have hc : (10 : ℚ) ^ j / 2 ^ 60 ≤ 1 / 10 * (10 : ℚ) ^ j := by
      have : (10 : ℚ) ^ j / 2 ^ 60 = (1 / 2 ^ 60) * (10 : ℚ) ^ j := by ring
      rw [this]
      exact mul_le_mul_of_nonneg_right (by norm_num) hp.le
    rw [abs_le]
    constructor <;> linarith [herr.1, herr.2]
  have e2 : |x - D| ≤ D / 1000000 := by
    have hb : D / 2 ^ 53 ≤ D / 2000000 := by
      apply div_le_div_of_nonneg_left hDpos.le (by norm_num) (by norm_num)
    have hc : (10 : ℚ) ^ j / 2 ^ 60 ≤ D / 2000000 := by
      apply div_le_div₀ hDpos.le hDle (by norm_num) (by norm_num)
    rw [abs_le]
    constructor <;> linarith [herr.1, herr.2]
  rw [abs_le] at e1 e2
  have hx : 0 < x := by linarith [e2.1]
  obtain ⟨k1, k2⟩ := ilog10_spec hx
  set k := ilog10 x with hk
  -- the place of the leading digit
  have hk_hi : k ≤ j + 15 := by
    by_contra hc
    have h1 : (10 : ℚ) ^ (j + 16) ≤ (10 : ℚ) ^ k := zpow_le_zpow_right₀ (by norm_num) (by omega)
    rw [zpow_add₀ (by norm_num)] at h1
    have : x ≤ (45 * 10 ^ 14 + 1) * (10 : ℚ) ^ j := by
      have := mul_le_mul_of_nonneg_right hmq hp.le
      rw [← hD] at this
      linarith [e1.2]
    have h3 : (10 : ℚ) ^ (16 : Int) = 10 ^ 16 := by norm_cast
    rw [h3] at h1
    nlinarith
  have key : ∃ (j' : Int) (m' : Nat), -290 ≤ j' ∧ m' ≤ 45 * 10 ^ 14 ∧ D = m' * (10 : ℚ) ^ j' ∧ j' ≤ k ∧ k - j' < 17 ∧
      |(m' : ℚ) * (10 : ℚ) ^ j' - x| < (10 : ℚ) ^ j' := by
    by_cases hjk : j ≤ k
    · refine ⟨j, m, by omega, hm, rfl, hjk, by omega, ?_⟩
      rw [← hD, abs_lt]
      constructor <;> linarith
    · -- the float is just below a power of ten
      have hk1 : k = j - 1 := by
        by_contra hc
        have h1 : (10 : ℚ) ^ (k + 1) ≤ (10 : ℚ) ^ (j - 1) := zpow_le_zpow_right₀ (by norm_num) (by omega)
        have h2 : (10 : ℚ) ^ (j - 1) = (10 : ℚ) ^ j / 10 := by rw [zpow_sub₀ (by norm_num), zpow_one]
        rw [h2] at h1
        linarith [e2.1]
      have h1 : x < (10 : ℚ) ^ j := by rw [hk1, sub_add_cancel] at k2; exact k2
      have hm2 : m = 1 := by
        by_contra hc
        have : (2 : ℚ) ≤ m := by exact_mod_cast (by omega : 2 ≤ m)
        have : 2 * (10 : ℚ) ^ j ≤ D := by rw [hD]; nlinarith
        linarith [e2.1]
      have h2 : (10 : ℚ) ^ (j - 1) = (10 : ℚ) ^ j / 10 := by rw [zpow_sub₀ (by norm_num), zpow_one]
      have hD' : D = (10 : ℚ) ^ j := by rw [hD, hm2]; simp
      refine ⟨j - 1, 10, by omega, by norm_num, ?_, by omega, by omega, ?_⟩
      · rw [hD', h2]; push_cast; ring
      · rw [h2, abs_lt]
        push_cast
        constructor <;> linarith [e2.1, e2.2]
  obtain ⟨j', m', hj', hm', hDm, hjk, hkj, hclose⟩ := key
  have hfl : fl64 ((m' : ℚ) * (10 : ℚ) ^ j') = x := by rw [← hDm]
  obtain ⟨s1, s2⟩ := reprSearch_spec x j' (reprAt_complete hx.le hclose hfl) 17 k hjk (by omega)
  change fl64 ((r.1 : ℚ) * (10 : ℚ) ^ r.2) = x at s1
  change j' ≤ r.2 at s2
  obtain ⟨t, ht⟩ := Int.eq_ofNat_of_zero_le (sub_nonneg.2 s2)
  have hr : (r.1 : ℚ) * (10 : ℚ) ^ r.2 = ((r.1 * 10 ^ t : Nat) : ℚ) * (10 : ℚ) ^ j' := by
    have : r.2 = t + j' := by omega
    rw [this, zpow_add₀ (by norm_num), zpow_natCast]
    push_cast; ring
  rw [hr] at s1 ⊢
  rw [hDm, same_float_eq hj' hm' (hfl.trans s1.symm)]

theorem reprDigits_val (x : ℚ) :
    ((reprDigits x).1 : ℚ) * (10 : ℚ) ^ (reprDigits x).2 =
      ((reprSearch x 17 (ilog10 x)).1 : ℚ) * (10 : ℚ) ^ (reprSearch x 17 (ilog10 x)).2 := by
  unfold reprDigits
  simp only
  split_ifs with h
  · generalize (reprSearch x 17 (ilog10 x)).1 = d at h
    generalize (reprSearch x 17 (ilog10 x)).2 = e
    obtain ⟨c, rfl⟩ := Nat.dvd_of_mod_eq_zero h
    simp only [Nat.mul_div_cancel_left c (by norm_num : 0 < 10)]
    rw [zpow_add₀ (by norm_num), zpow_one]
    push_cast
    ring
  · rfl

theorem reprDec_num {x : ℚ} (neg : Bool) (hx : x ≠ 0) : (reprDec neg x).num =
    some ((if neg then -1 else 1) * (((reprDigits x).1 : ℚ) * (10 : ℚ) ^ (reprDigits x).2)) := by
  unfold reprDec
  simp only [hx, if_false]
  generalize (reprDigits x).1 = d
  generalize (reprDigits x).2 = e
  split_ifs with h1 h2 h2
  · simp only [Dec.num, finVal, h2, if_true, Option.some.injEq]
    obtain ⟨n, rfl⟩ := Int.eq_ofNat_of_zero_le h1.1
    simp only [Int.toNat_natCast, zpow_natCast]
    push_cast
    rw [pow_succ]
    norm_num
    ring
  · simp only [Dec.num, finVal, h2, Option.some.injEq]
    obtain ⟨n, rfl⟩ := Int.eq_ofNat_of_zero_le h1.1
    simp only [Int.toNat_natCast, zpow_natCast]
    push_cast
    rw [pow_succ]
    norm_num
    ring
  · simp [Dec.num, finVal, h2]
  · simp [Dec.num, finVal, h2]

/-- **A short decimal number survives the conversion to a float and back.** -/
theorem float_repr_exact {m : Nat} {j : Int} (neg : Bool) (hm : m ≤ 45 * 10 ^ 14) (hj : -289 ≤ j) (hj' : j ≤ 290) :
    (floatNear neg (m * (10 : ℚ) ^ j)).repr.num = some ((if neg then -1 else 1) * (m * (10 : ℚ) ^ j)) := by
  rcases Nat.eq_zero_or_pos m with rfl | hm0
  · have : fl64 0 = 0 := by simp [fl64]
    have h2 : ¬ pow2 1024 ≤ 0 := not_le.2 (pow2_pos _)
    simp [floatNear, floatOf, this, h2, reprDec, Dec.num, finVal]
  have hp : (0 : ℚ) < (10 : ℚ) ^ j := by positivity
  have hmq : (m : ℚ) ≤ 45 * 10 ^ 14 := by exact_mod_cast hm
  have hm1 : (1 : ℚ) ≤ m := by exact_mod_cast hm0
  have hs := repr_search_exact hm0 hm hj
  have herr := abs_le.1 (fl64_error' (q := m * (10 : ℚ) ^ j) (by positivity))
  have hbig : (m : ℚ) * (10 : ℚ) ^ j ≤ 10 ^ 306 := by
    have h1 : (10 : ℚ) ^ j ≤ (10 : ℚ) ^ (290 : Int) := zpow_le_zpow_right₀ (by norm_num) hj'
    have h2 : (10 : ℚ) ^ (290 : Int) = 10 ^ 290 := by norm_cast
    calc (m : ℚ) * (10 : ℚ) ^ j ≤ 10 ^ 16 * 10 ^ 290 := by
          rw [← h2]
          apply mul_le_mul (by linarith) h1 hp.le (by positivity)
      _ = 10 ^ 306 := by rw [← pow_add]
  have hnot : ¬ pow2 1024 ≤ fl64 (m * (10 : ℚ) ^ j) := by
    rw [pow2_eq, not_le]
    have h1 : (10 : ℚ) ^ 306 * 2 < 2 ^ 1024 := by
      have : (10 : ℚ) ^ 9 < 2 ^ 30 := by norm_num
      calc (10 : ℚ) ^ 306 * 2 = (10 ^ 9) ^ 34 * 2 := by rw [← pow_mul]
        _ ≤ (2 ^ 30) ^ 34 * 2 := by
            apply mul_le_mul_of_nonneg_right (pow_le_pow_left₀ (by positivity) this.le 34) (by norm_num)
        _ = 2 ^ 1021 := by rw [← pow_mul, ← pow_succ]
        _ < 2 ^ 1024 := pow_lt_pow_right₀ (by norm_num) (by norm_num)
    have h2 : (2 : ℚ) ^ (1024 : Int) = 2 ^ 1024 := zpow_natCast (2 : ℚ) 1024
    rw [h2]
    have h5 : (1 : ℚ) ≤ 10 ^ 306 := one_le_pow₀ (by norm_num)
    have h6 : (0 : ℚ) ≤ (m : ℚ) * (10 : ℚ) ^ j := by positivity
    generalize (10 : ℚ) ^ 306 = T at *
    generalize (2 : ℚ) ^ 1024 = U at *
    generalize (m : ℚ) * (10 : ℚ) ^ j = D at *
    have h3 : D / 2 ^ 53 ≤ T / 4 := by linarith
    have h4 : (1 : ℚ) / 2 ^ 100 ≤ T / 4 := by
      have : (1 : ℚ) / 2 ^ 100 ≤ 1 / 4 := by norm_num
      linarith
    have h7 := herr.2
    generalize fl64 D = F at *
    generalize D / 2 ^ 53 = A at *
    generalize (1 : ℚ) / 2 ^ 100 = B at *
    clear h2 herr hs
    linarith
  have hx : fl64 (m * (10 : ℚ) ^ j) ≠ 0 := by
    intro h0
    have := same_float_eq (n := 0) (by omega : -290 ≤ j) hm (by rw [h0]; simp [fl64])
    omega
  simp only [floatNear, floatOf, hnot, if_false, reprDec_num neg hx, reprDigits_val, hs]

end RE
