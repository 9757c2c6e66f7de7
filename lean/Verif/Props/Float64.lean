import Verif.Model.Float64
import Mathlib.Tactic.Linarith
import Mathlib.Tactic.Positivity
import Mathlib.Tactic.NormNum
import Mathlib.Tactic.Ring
import Mathlib.Tactic.FieldSimp
import Mathlib.Algebra.Order.Round
import Mathlib.Algebra.Order.Field.Power

/-!
# The rounding of binary floats

`fl64` gives a binary float (`Binary64`), and none is nearer (`fl64_nearest`); the error bounds used for C39 follow.
-/

namespace RE

theorem pow2_eq (e : Int) : pow2 e = (2 : ℚ) ^ e := by
  unfold pow2
  by_cases h : 0 ≤ e
  · obtain ⟨n, rfl⟩ := Int.eq_ofNat_of_zero_le h
    simp
  · obtain ⟨n, hn⟩ := Int.eq_ofNat_of_zero_le (a := -e) (by omega)
    have he : e = -(n : Int) := by omega
    subst he
    simp only [h, if_false, neg_neg, Int.toNat_natCast, zpow_neg, zpow_natCast, Nat.cast_pow, Nat.cast_ofNat,
      one_div]

theorem pow2_pos (e : Int) : 0 < pow2 e := by rw [pow2_eq]; positivity

theorem roundEven_error (q : ℚ) : |(roundEven q : ℚ) - q| ≤ 1 / 2 := by
  have h1 := Int.floor_le q
  have h2 := Int.lt_floor_add_one q
  unfold roundEven
  simp only
  split_ifs with h3 h4 h5 <;> rw [abs_le] <;> push_cast <;> constructor <;> linarith

theorem roundEven_int (n : Int) : roundEven (n : ℚ) = n := by simp [roundEven]

/-- no integer is nearer -/
theorem roundEven_nearest (q : ℚ) (n : Int) : |(roundEven q : ℚ) - q| ≤ |(n : ℚ) - q| := by
  by_cases h : n = roundEven q
  · rw [h]
  have h1 := roundEven_error q
  have h2 : (1 : ℚ) ≤ |(n : ℚ) - roundEven q| := by
    have : (1 : Int) ≤ |n - roundEven q| := Int.one_le_abs (sub_ne_zero.2 h)
    exact_mod_cast this
  have h3 : |(n : ℚ) - roundEven q| ≤ |(n : ℚ) - q| + |(roundEven q : ℚ) - q| := by
    have := abs_sub_le (n : ℚ) q (roundEven q)
    rwa [abs_sub_comm q] at this
  linarith

theorem ilog2_spec {q : ℚ} (hq : 0 < q) : (2 : ℚ) ^ ilog2 q ≤ q ∧ q < (2 : ℚ) ^ (ilog2 q + 1) := by
  have hn : 0 < q.num := Rat.num_pos.2 hq
  have hd : 0 < q.den := q.den_pos
  have hqe : q = (q.num.natAbs : ℚ) / q.den := by
    have : (q.num.natAbs : ℚ) = (q.num : ℚ) := by
      rw [Nat.cast_natAbs, abs_of_pos hn]
    rw [this, Rat.num_div_den]
  generalize hN : q.num.natAbs = N at hqe
  generalize hD : q.den = D at hqe hd
  have hN0 : N ≠ 0 := by rw [← hN]; omega
  have hd0 : D ≠ 0 := by omega
  have a1 : ((2 : ℚ)) ^ (Nat.log2 N) ≤ N := by exact_mod_cast Nat.log2_self_le hN0
  have a2 : (N : ℚ) < (2 : ℚ) ^ (Nat.log2 N + 1) := by exact_mod_cast Nat.lt_log2_self
  have b1 : ((2 : ℚ)) ^ (Nat.log2 D) ≤ D := by exact_mod_cast Nat.log2_self_le hd0
  have b2 : (D : ℚ) < (2 : ℚ) ^ (Nat.log2 D + 1) := by exact_mod_cast Nat.lt_log2_self
  generalize hk : (Nat.log2 N : Int) - (Nat.log2 D : Int) = k
  have hDq : (0 : ℚ) < D := by exact_mod_cast hd
  have lo : (2 : ℚ) ^ (k - 1) ≤ q := by
    rw [hqe, le_div_iff₀ hDq]
    calc (2 : ℚ) ^ (k - 1) * D ≤ (2 : ℚ) ^ (k - 1) * (2 : ℚ) ^ (Nat.log2 D + 1) := by
          apply mul_le_mul_of_nonneg_left b2.le; positivity
      _ = (2 : ℚ) ^ (Nat.log2 N) := by
          rw [← zpow_natCast, ← zpow_natCast, ← zpow_add₀ (by norm_num)]; congr 1; push_cast; omega
      _ ≤ N := a1
  have hi : q < (2 : ℚ) ^ (k + 1) := by
    rw [hqe, div_lt_iff₀ hDq]
    calc (N : ℚ) < (2 : ℚ) ^ (Nat.log2 N + 1) := a2
      _ = (2 : ℚ) ^ (k + 1) * (2 : ℚ) ^ (Nat.log2 D) := by
          rw [← zpow_natCast, ← zpow_natCast, ← zpow_add₀ (by norm_num)]; congr 1; push_cast; omega
      _ ≤ (2 : ℚ) ^ (k + 1) * D := by
          apply mul_le_mul_of_nonneg_left b1; positivity
  unfold ilog2
  simp only [hN, hD, hk, pow2_eq]
  split_ifs with h
  · refine ⟨lo, ?_⟩
    rwa [sub_add_cancel]
  · exact ⟨not_lt.1 h, hi⟩

/-- Specification: the numbers that are binary floats (without an upper bound for the exponent): at most 53
binary digits, and none below `2 ** -1074`. -/
def Binary64 (x : ℚ) : Prop := ∃ (m e : Int), |m| ≤ 2 ^ 53 ∧ -1074 ≤ e ∧ x = m * (2 : ℚ) ^ e

theorem fl64_pos {q : ℚ} (hq : 0 < q) : fl64 q = (roundEven (q / (2 : ℚ) ^ lastPlace q) : ℚ) * (2 : ℚ) ^ lastPlace q := by
  simp [fl64, hq.ne', pow2_eq]

theorem lastPlace_ge (q : ℚ) : -1074 ≤ lastPlace q := le_max_right _ _

/-- a number has at most 53 binary digits above its last place -/
theorem scaled_lt {q : ℚ} (hq : 0 < q) : q / (2 : ℚ) ^ lastPlace q < 2 ^ 53 := by
  rw [div_lt_iff₀ (by positivity)]
  refine (ilog2_spec hq).2.trans_le ?_
  rw [← zpow_natCast, ← zpow_add₀ (by norm_num)]
  apply zpow_le_zpow_right₀ (by norm_num)
  have : ilog2 q - 52 ≤ lastPlace q := le_max_left _ _
  push_cast; omega

theorem roundEven_le {q : ℚ} {n : Int} (h : q ≤ n) : roundEven q ≤ n := by
  by_contra hc
  have h1 : n + 1 ≤ roundEven q := by omega
  have h2 := roundEven_nearest q n
  have h3 : ((n : ℚ) + 1) ≤ roundEven q := by exact_mod_cast h1
  rw [abs_of_nonneg (by linarith), abs_of_nonneg (by linarith)] at h2
  linarith

theorem le_roundEven {q : ℚ} {n : Int} (h : (n : ℚ) ≤ q) : n ≤ roundEven q := by
  by_contra hc
  have h1 : roundEven q + 1 ≤ n := by omega
  have h2 := roundEven_nearest q n
  have h3 : ((roundEven q : ℚ) + 1) ≤ n := by exact_mod_cast h1
  rw [abs_of_nonpos (by linarith), abs_of_nonpos (by linarith)] at h2
  linarith

theorem roundEven_nonneg {q : ℚ} (h : 0 ≤ q) : 0 ≤ roundEven q := le_roundEven (by exact_mod_cast h)

theorem fl64_nonneg {q : ℚ} (hq : 0 ≤ q) : 0 ≤ fl64 q := by
  rcases hq.eq_or_lt with rfl | h
  · simp [fl64]
  · rw [fl64_pos h]
    have : (0 : ℚ) ≤ roundEven (q / (2 : ℚ) ^ lastPlace q) := by
      exact_mod_cast roundEven_nonneg (by positivity)
    positivity

/-- `fl64` gives a binary float. -/
theorem fl64_binary {q : ℚ} (hq : 0 ≤ q) : Binary64 (fl64 q) := by
  rcases hq.eq_or_lt with rfl | h
  · exact ⟨0, 0, by norm_num, by norm_num, by simp [fl64]⟩
  · refine ⟨roundEven (q / (2 : ℚ) ^ lastPlace q), lastPlace q, ?_, lastPlace_ge q, fl64_pos h⟩
    rw [abs_of_nonneg (roundEven_nonneg (by positivity))]
    apply roundEven_le
    push_cast
    exact (scaled_lt h).le

/-- No binary float is nearer than the one `fl64` gives. -/
theorem fl64_nearest {q x : ℚ} (hq : 0 ≤ q) (hx : Binary64 x) : |fl64 q - q| ≤ |x - q| := by
  rcases hq.eq_or_lt with rfl | h
  · simp [fl64]
  rw [fl64_pos h]
  set L := lastPlace q with hL
  have hp : (0 : ℚ) < (2 : ℚ) ^ L := by positivity
  obtain ⟨m, e, hm, he, rfl⟩ := hx
  have scale : ∀ n : ℚ, |n * (2 : ℚ) ^ L - q| = |n - q / (2 : ℚ) ^ L| * (2 : ℚ) ^ L := by
    intro n
    rw [← abs_of_pos hp, ← abs_mul, abs_of_pos hp]
    congr 1
    field_simp
  by_cases hle : L ≤ e
  · -- a whole number of last places
    obtain ⟨d, hd⟩ := Int.eq_ofNat_of_zero_le (sub_nonneg.2 hle)
    have hx : (m : ℚ) * (2 : ℚ) ^ e = ((m * 2 ^ d : Int) : ℚ) * (2 : ℚ) ^ L := by
      have : e = d + L := by omega
      rw [this, zpow_add₀ (by norm_num)]
      push_cast
      rw [zpow_natCast]; ring
    rw [hx, scale, scale]
    exact mul_le_mul_of_nonneg_right (roundEven_nearest _ _) hp.le
  · -- smaller last place: the float is below the leading power of two
    have hL' : L = ilog2 q - 52 := by
      rw [hL]; unfold lastPlace
      rcases max_choice (ilog2 q - 52) (-1074) with h' | h'
      · exact h'
      · rw [hL] at hle; unfold lastPlace at hle; omega
    have hx : |(m : ℚ) * (2 : ℚ) ^ e| ≤ (2 : ℚ) ^ ilog2 q := by
      rw [abs_mul, abs_of_pos (a := (2 : ℚ) ^ e) (by positivity)]
      have hm' : |(m : ℚ)| ≤ 2 ^ 53 := by exact_mod_cast hm
      calc |(m : ℚ)| * (2 : ℚ) ^ e ≤ 2 ^ 53 * (2 : ℚ) ^ e := by
            apply mul_le_mul_of_nonneg_right hm'; positivity
        _ = (2 : ℚ) ^ (53 + e) := by rw [zpow_add₀ (by norm_num)]; norm_num
        _ ≤ (2 : ℚ) ^ ilog2 q := by apply zpow_le_zpow_right₀ (by norm_num); omega
    have hq2 := (ilog2_spec h).1
    have hx2 := (abs_le.1 hx).2
    have hpow : (2 : ℚ) ^ ilog2 q = ((2 ^ 52 : Int) : ℚ) * (2 : ℚ) ^ L := by
      rw [hL', zpow_sub₀ (by norm_num)]; push_cast; field_simp
    calc |(roundEven (q / 2 ^ L) : ℚ) * 2 ^ L - q| = |(roundEven (q / 2 ^ L) : ℚ) - q / 2 ^ L| * 2 ^ L := scale _
      _ ≤ |((2 ^ 52 : Int) : ℚ) - q / 2 ^ L| * 2 ^ L := mul_le_mul_of_nonneg_right (roundEven_nearest _ _) hp.le
      _ = |(2 : ℚ) ^ ilog2 q - q| := by rw [← scale, ← hpow]
      _ ≤ |(m : ℚ) * 2 ^ e - q| := by
        rw [abs_of_nonpos (by linarith), abs_of_nonpos (by linarith)]
        linarith

/-- the integer halfway case goes to the even neighbour -/
theorem roundEven_half (q : ℚ) (h : roundEven q % 2 ≠ 0) : |(roundEven q : ℚ) - q| < 1 / 2 := by
  have h1 := Int.floor_le q
  have h2 := Int.lt_floor_add_one q
  unfold roundEven at *
  simp only at *
  split_ifs at * with h3 h4 h5
  · rw [abs_lt]; constructor <;> linarith
  · rw [abs_lt]; push_cast; constructor <;> linarith
  · exact (h h5).elim
  · exact (h (by omega)).elim

/-- Specification: a binary float whose last binary digit is zero: 52 digits are enough for it. -/
def Even64 (x : ℚ) : Prop := ∃ m e : Int, |m| ≤ 2 ^ 52 ∧ -1073 ≤ e ∧ x = (m : ℚ) * (2 : ℚ) ^ e

/-- If another binary float is as near, `fl64` gives the even one. -/
theorem fl64_even {q x : ℚ} (hq : 0 ≤ q) (hx : Binary64 x) (hne : x ≠ fl64 q) (ht : |x - q| = |fl64 q - q|) :
    Even64 (fl64 q) := by
  rcases hq.eq_or_lt with rfl | h
  · exact ⟨0, 0, by norm_num, by norm_num, by simp [fl64]⟩
  rw [fl64_pos h] at *
  have hb : |roundEven (q / (2 : ℚ) ^ lastPlace q)| ≤ 2 ^ 53 := by
    rw [abs_of_nonneg (roundEven_nonneg (by positivity))]
    apply roundEven_le
    push_cast
    exact (scaled_lt h).le
  have hge := lastPlace_ge q
  set L := lastPlace q with hL
  set r := roundEven (q / (2 : ℚ) ^ L) with hr
  have hp : (0 : ℚ) < (2 : ℚ) ^ L := by positivity
  by_cases hodd : r % 2 = 0
  · refine ⟨r / 2, L + 1, ?_, by omega, ?_⟩
    · rw [abs_le] at *; omega
    · have : r = r / 2 * 2 := by omega
      rw [zpow_add₀ (by norm_num), zpow_one]
      conv_lhs => rw [this]
      push_cast; ring
  · exfalso
    have hlt := roundEven_half _ hodd
    rw [← hr] at hlt
    have scale : ∀ n : ℚ, |n * (2 : ℚ) ^ L - q| = |n - q / (2 : ℚ) ^ L| * (2 : ℚ) ^ L := by
      intro n
      rw [← abs_of_pos hp, ← abs_mul, abs_of_pos hp]
      congr 1
      field_simp
    -- no other whole number of last places is as near
    have whole : ∀ n : Int, x ≠ (n : ℚ) * (2 : ℚ) ^ L := by
      rintro n rfl
      rw [scale, scale] at ht
      have ht' := mul_right_cancel₀ hp.ne' ht
      have hnr : n ≠ r := fun hnr => hne (by rw [hnr])
      have h2 : (1 : ℚ) ≤ |(n : ℚ) - r| := by
        have : (1 : Int) ≤ |n - r| := Int.one_le_abs (sub_ne_zero.2 hnr)
        exact_mod_cast this
      have h3 : |(n : ℚ) - r| ≤ |(n : ℚ) - q / 2 ^ L| + |(r : ℚ) - q / 2 ^ L| := by
        have := abs_sub_le (n : ℚ) (q / 2 ^ L) r
        rwa [abs_sub_comm (q / 2 ^ L)] at this
      linarith
    obtain ⟨m, e, hm, he, rfl⟩ := hx
    by_cases hle : L ≤ e
    · obtain ⟨d, hd⟩ := Int.eq_ofNat_of_zero_le (sub_nonneg.2 hle)
      refine whole (m * 2 ^ d) ?_
      have : e = d + L := by omega
      rw [this, zpow_add₀ (by norm_num)]
      push_cast
      rw [zpow_natCast]; ring
    · have hL' : L = ilog2 q - 52 := by
        rw [hL]; unfold lastPlace
        rcases max_choice (ilog2 q - 52) (-1074) with h' | h'
        · exact h'
        · rw [hL] at hle; unfold lastPlace at hle; omega
      have hx : |(m : ℚ) * (2 : ℚ) ^ e| ≤ (2 : ℚ) ^ ilog2 q := by
        rw [abs_mul, abs_of_pos (a := (2 : ℚ) ^ e) (by positivity)]
        have hm' : |(m : ℚ)| ≤ 2 ^ 53 := by exact_mod_cast hm
        calc |(m : ℚ)| * (2 : ℚ) ^ e ≤ 2 ^ 53 * (2 : ℚ) ^ e := by
              apply mul_le_mul_of_nonneg_right hm'; positivity
          _ = (2 : ℚ) ^ (53 + e) := by rw [zpow_add₀ (by norm_num)]; norm_num
          _ ≤ (2 : ℚ) ^ ilog2 q := by apply zpow_le_zpow_right₀ (by norm_num); omega
      have hq2 := (ilog2_spec h).1
      have hx2 := (abs_le.1 hx).2
      have hpow : (2 : ℚ) ^ ilog2 q = ((2 ^ 52 : Int) : ℚ) * (2 : ℚ) ^ L := by
        rw [hL', zpow_sub₀ (by norm_num)]; push_cast; field_simp
      have hnear : |(r : ℚ) * 2 ^ L - q| ≤ |(2 : ℚ) ^ ilog2 q - q| := by
        rw [hpow, scale, scale]
        exact mul_le_mul_of_nonneg_right (roundEven_nearest _ _) hp.le
      rw [← ht, abs_of_nonpos (by linarith), abs_of_nonpos (by linarith)] at hnear
      refine whole (2 ^ 52) ?_
      rw [← hpow]
      linarith

/-- the hypotheses of `fl64_even` are met: `2 ** 53 + 1` is halfway between two floats, and the even one is taken -/
theorem fl64_even_witness : fl64 9007199254740993 = 9007199254740992 ∧
    Binary64 9007199254740994 ∧ (9007199254740994 : ℚ) ≠ fl64 9007199254740993 ∧
    |(9007199254740994 : ℚ) - 9007199254740993| = |fl64 9007199254740993 - 9007199254740993| ∧
    fl64 9007199254740995 = 9007199254740996 := by
  have h1 : fl64 9007199254740993 = 9007199254740992 := by decide +kernel
  have h2 : fl64 9007199254740995 = 9007199254740996 := by decide +kernel
  refine ⟨h1, ⟨4503599627370497, 1, by norm_num, by norm_num, by norm_num⟩, ?_, ?_, h2⟩ <;> rw [h1] <;> norm_num

/-- A binary float is kept. -/
theorem fl64_exact {x : ℚ} (h0 : 0 ≤ x) (hx : Binary64 x) : fl64 x = x := by
  have := fl64_nearest h0 hx
  simpa [sub_eq_zero] using this

/-- The error is at most the 53rd binary digit, or half the smallest float. -/
theorem fl64_error {q : ℚ} (hq : 0 ≤ q) : |fl64 q - q| ≤ q / 2 ^ 53 + 1 / 2 ^ 1075 := by
  rcases hq.eq_or_lt with rfl | h
  · simp only [fl64, if_true]; norm_num
  rw [fl64_pos h]
  set L := lastPlace q with hL
  have hp : (0 : ℚ) < (2 : ℚ) ^ L := by positivity
  have h1 : |(roundEven (q / 2 ^ L) : ℚ) * 2 ^ L - q| ≤ (2 : ℚ) ^ L / 2 := by
    have : (roundEven (q / 2 ^ L) : ℚ) * 2 ^ L - q = ((roundEven (q / 2 ^ L) : ℚ) - q / 2 ^ L) * 2 ^ L := by
      field_simp
    rw [this, abs_mul, abs_of_pos hp]
    have := mul_le_mul_of_nonneg_right (roundEven_error (q / 2 ^ L)) hp.le
    linarith
  refine h1.trans ?_
  have hs : (0 : ℚ) < 1 / 2 ^ 1075 := by positivity
  have hs' : (0 : ℚ) ≤ q / 2 ^ 53 := by positivity
  rcases max_choice (ilog2 q - 52) (-1074) with h' | h'
  · have hle : (2 : ℚ) ^ L / 2 ≤ q / 2 ^ 53 := by
      have e1 : (2 : ℚ) ^ L = (2 : ℚ) ^ ilog2 q / 2 ^ 52 := by
        rw [hL, lastPlace, h', zpow_sub₀ (by norm_num)]; norm_cast
      rw [e1]
      have := (ilog2_spec h).1
      rw [div_div, div_le_div_iff₀ (by positivity) (by positivity)]
      nlinarith [this]
    linarith
  · have e1 : (2 : ℚ) ^ L / 2 = 1 / 2 ^ 1075 := by
      rw [hL, lastPlace, h']
      have key : ∀ n : ℕ, ((2 : ℚ) ^ (-(n : ℤ))) / 2 = 1 / 2 ^ (n + 1) := by
        intro n; rw [zpow_neg, zpow_natCast, pow_succ]; field_simp
      exact key 1074
    linarith

theorem binary64_int {n : Int} (h : |n| ≤ 2 ^ 53) : Binary64 (n : ℚ) := ⟨n, 0, h, by norm_num, by simp⟩

theorem fl64_int {n : Int} (h0 : 0 ≤ n) (h : n ≤ 2 ^ 53) : fl64 (n : ℚ) = n :=
  fl64_exact (by exact_mod_cast h0) (binary64_int (by rwa [abs_of_nonneg h0]))

theorem fl64_error' {q : ℚ} (hq : 0 ≤ q) : |fl64 q - q| ≤ q / 2 ^ 53 + 1 / 2 ^ 100 := by
  refine (fl64_error hq).trans (add_le_add_right ?_ _)
  apply one_div_le_one_div_of_le (by positivity)
  exact pow_le_pow_right₀ (by norm_num) (by norm_num)

/-! ### The constructor of `timedelta` -/

/-- one component: the leftover grows by less than a microsecond, and the total is nearly exact -/
theorem tdAccum_spec {u : Int} (hu : 0 ≤ u) {num : ℚ} (hn : 0 ≤ num) (acc : Int × ℚ)
    (hlo : 0 ≤ acc.2) (hlo' : acc.2 ≤ 7) :
    0 ≤ (tdAccum u num acc).2 ∧ (tdAccum u num acc).2 ≤ acc.2 + 1 + 1 / 2 ^ 49 ∧
    |((tdAccum u num acc).1 + (tdAccum u num acc).2) - (acc.1 + acc.2 + u * num)| ≤ u / 2 ^ 53 + 1 / 2 ^ 49 := by
  have f1 := Int.floor_le num
  have f2 := Int.lt_floor_add_one num
  have hu' : (0 : ℚ) ≤ u := by exact_mod_cast hu
  unfold tdAccum
  simp only
  split_ifs with h
  · refine ⟨hlo, by linarith [show (0 : ℚ) < 1 / 2 ^ 49 by positivity], ?_⟩
    have : (num : ℚ) = ⌊num⌋ := by linarith
    have h0 : ((acc.1 + ⌊num⌋ * u : Int) : ℚ) + acc.2 - (acc.1 + acc.2 + u * num) = 0 := by
      push_cast
      rw [← this]; ring
    rw [h0, abs_zero]; positivity
  · have hfr : 0 ≤ num - ⌊num⌋ := by linarith
    have hfr' : num - ⌊num⌋ ≤ 1 := by linarith
    set fr := num - ⌊num⌋ with hfr_def
    have hp : 0 ≤ (u : ℚ) * fr := mul_nonneg hu' hfr
    have hp' : (u : ℚ) * fr ≤ u := by nlinarith
    have e1 := abs_le.1 (fl64_error' hp)
    set part := fl64 (u * fr) with hpart
    have g1 := Int.floor_le part
    have g2 := Int.lt_floor_add_one part
    have hl : 0 ≤ acc.2 + (part - ⌊part⌋) := by linarith
    have e2 := abs_le.1 (fl64_error' hl)
    have hdiv : (u : ℚ) * fr / 2 ^ 53 ≤ u / 2 ^ 53 := by
      apply div_le_div_of_nonneg_right hp'; positivity
    have hdiv2 : (acc.2 + (part - ⌊part⌋)) / 2 ^ 53 ≤ 8 / 2 ^ 53 := by
      apply div_le_div_of_nonneg_right _ (by positivity); linarith
    have c1 : (8 : ℚ) / 2 ^ 53 + 1 / 2 ^ 100 + 1 / 2 ^ 100 ≤ 1 / 2 ^ 49 := by norm_num
    have c2 : (0 : ℚ) < 1 / 2 ^ 100 := by positivity
    refine ⟨fl64_nonneg hl, by linarith [e2.2], ?_⟩
    have hun : (u : ℚ) * num = u * fr + ⌊num⌋ * u := by rw [hfr_def]; ring
    rw [abs_le, hun]
    push_cast
    constructor <;> linarith [e2.1, e2.2, e1.1, e1.2]

/-- the exact sum of a list of components -/
def exactSum (cs : List (Int × ℚ)) : ℚ := (cs.map (fun c => (c.1 : ℚ) * c.2)).sum

/-- the sum of the units -/
def unitSum (cs : List (Int × ℚ)) : ℚ := (cs.map (fun c => (c.1 : ℚ))).sum

theorem fold_spec : ∀ (cs : List (Int × ℚ)), (∀ c ∈ cs, 0 ≤ c.1 ∧ 0 ≤ c.2) → cs.length ≤ 5 →
    let r := cs.foldr (fun c acc => tdAccum c.1 c.2 acc) (0, 0)
    0 ≤ r.2 ∧ r.2 ≤ cs.length * (1 + 1 / 2 ^ 49) ∧
    |(r.1 + r.2) - exactSum cs| ≤ unitSum cs / 2 ^ 53 + cs.length * (1 / 2 ^ 49)
  | [], _, _ => by simp [exactSum, unitSum]
  | c :: cs, h, hl => by
    have hl' : cs.length + 1 ≤ 5 := by simpa using hl
    obtain ⟨i1, i2, i3⟩ := fold_spec cs (fun x hx => h x (by simp [hx])) (by omega)
    obtain ⟨hc1, hc2⟩ := h c (by simp)
    simp only [List.foldr_cons]
    generalize hr : cs.foldr (fun c acc => tdAccum c.1 c.2 acc) (0, 0) = r at i1 i2 i3
    have hlq : (cs.length : ℚ) ≤ 4 := by exact_mod_cast (by omega : cs.length ≤ 4)
    have hb : r.2 ≤ 7 := by
      refine i2.trans ?_
      have : (cs.length : ℚ) * (1 + 1 / 2 ^ 49) ≤ 4 * (1 + 1 / 2 ^ 49) := by
        apply mul_le_mul_of_nonneg_right hlq; positivity
      refine this.trans ?_
      norm_num
    obtain ⟨j1, j2, j3⟩ := tdAccum_spec hc1 hc2 r i1 hb
    refine ⟨j1, ?_, ?_⟩
    · simp only [List.length_cons]; push_cast; linarith
    · simp only [exactSum, unitSum, List.map_cons, List.sum_cons, List.length_cons] at i3 ⊢
      rw [abs_le] at i3 j3 ⊢
      push_cast
      rw [add_div]
      constructor <;> linarith [i3.1, i3.2, j3.1, j3.2]

theorem tdRound_error (acc : Int × ℚ) : |(tdRound acc : ℚ) - (acc.1 + acc.2)| ≤ 1 / 2 := by
  have f1 := Int.floor_le (acc.2 + 1 / 2)
  have f2 := Int.lt_floor_add_one (acc.2 + 1 / 2)
  by_cases h : |((cRound acc.2 : Int) : ℚ) - acc.2| = 1 / 2
  · -- the leftover is a half
    have hval : tdRound acc = acc.1 + (2 * ⌊(acc.2 + ((acc.1 % 2 : Int) : ℚ)) * (1 / 2) + 1 / 2⌋ - acc.1 % 2) :=
      if_pos h
    rw [hval]
    simp only [cRound] at h
    have hodd : acc.1 % 2 = 0 ∨ acc.1 % 2 = 1 := Int.emod_two_eq_zero_or_one _
    set w := ⌊acc.2 + 1 / 2⌋ with hw
    have hlo : acc.2 = w - 1 / 2 := by
      rcases (abs_eq (by norm_num : (0 : ℚ) ≤ 1 / 2)).1 h with h' | h' <;> linarith
    have key : ∀ z : Int, z = 0 ∨ z = 1 →
        |(2 * (⌊(acc.2 + (z : ℚ)) * (1 / 2) + 1 / 2⌋ : ℚ) - z) - acc.2| ≤ 1 / 2 := by
      intro z hz
      rw [hlo]
      have hfl : ⌊((w : ℚ) - 1 / 2 + (z : ℚ)) * (1 / 2) + 1 / 2⌋ = (w + z) / 2 := by
        rw [Int.floor_eq_iff]
        have h1 := Int.emod_add_mul_ediv (w + z) 2
        have h2 : (w + z) % 2 = 0 ∨ (w + z) % 2 = 1 := Int.emod_two_eq_zero_or_one _
        have h3 : ((w : ℚ) + z) = ((w + z) % 2 : Int) + 2 * ((w + z) / 2 : Int) := by exact_mod_cast h1.symm
        rcases h2 with h2 | h2 <;> rw [h2] at h3 <;> push_cast at h3 <;> constructor <;> linarith
      rw [hfl]
      have h1 := Int.emod_add_mul_ediv (w + z) 2
      have h2 : (w + z) % 2 = 0 ∨ (w + z) % 2 = 1 := Int.emod_two_eq_zero_or_one _
      have h3 : ((w : ℚ) + z) = ((w + z) % 2 : Int) + 2 * ((w + z) / 2 : Int) := by exact_mod_cast h1.symm
      rw [abs_le]
      rcases h2 with h2 | h2 <;> rw [h2] at h3 <;> push_cast at h3 <;> constructor <;> linarith
    have := key _ hodd
    rw [abs_le] at this ⊢
    push_cast
    constructor <;> linarith [this.1, this.2]
  · have hval : tdRound acc = acc.1 + ⌊acc.2 + 1 / 2⌋ := if_neg h
    rw [hval, abs_le]; push_cast; constructor <;> linarith

theorem timedeltaOf_error (cs : List (Int × ℚ)) (h : ∀ c ∈ cs, 0 ≤ c.1 ∧ 0 ≤ c.2) (hl : cs.length ≤ 5) :
    |(timedeltaOf cs : ℚ) - exactSum cs| ≤ 1 / 2 + unitSum cs / 2 ^ 53 + 5 / 2 ^ 49 := by
  obtain ⟨-, -, h3⟩ := fold_spec cs h hl
  have h4 := tdRound_error (cs.foldr (fun c acc => tdAccum c.1 c.2 acc) (0, 0))
  have hlq : (cs.length : ℚ) ≤ 5 := by exact_mod_cast hl
  have : (cs.length : ℚ) * (1 / 2 ^ 49) ≤ 5 / 2 ^ 49 := by
    have := mul_le_mul_of_nonneg_right hlq (show (0 : ℚ) ≤ 1 / 2 ^ 49 by positivity)
    linarith
  unfold timedeltaOf
  rw [abs_le] at h3 h4 ⊢
  constructor <;> linarith [h3.1, h3.2, h4.1, h4.2]

/-- whole components add up exactly -/
theorem timedeltaOf_int (cs : List (Int × Int)) :
    timedeltaOf (cs.map (fun c => (c.1, (c.2 : ℚ)))) = (cs.map (fun c => c.1 * c.2)).sum := by
  have key : (cs.map (fun c => (c.1, (c.2 : ℚ)))).foldr (fun c acc => tdAccum c.1 c.2 acc) (0, 0) =
      ((cs.map (fun c => c.1 * c.2)).sum, 0) := by
    induction cs with
    | nil => rfl
    | cons c cs ih =>
      rw [List.map_cons, List.foldr_cons, ih]
      simp only [List.map_cons, List.sum_cons, tdAccum, Int.floor_intCast, sub_self, if_true]
      rw [Int.mul_comm, Int.add_comm]
  unfold timedeltaOf
  rw [key]
  have : cRound 0 = 0 := by simp only [cRound]; rw [Int.floor_eq_iff]; norm_num
  simp [tdRound, this]

end RE
