import Verif.Props.DecVal
import Mathlib.Algebra.Order.Floor.Ring
import Mathlib.Algebra.Order.Ring.Abs

/-!
# Rounding of Decimals
-/

namespace RE

set_option linter.unusedSimpArgs false

/-! ## Specification -/

/-- Specification: the contexts that can be made in Python (`decimal.Context` checks these bounds). -/
structure DecCtx.Valid (c : DecCtx) : Prop where
  prec : 1 ≤ c.prec
  emin : c.emin ≤ 0
  emax : 0 ≤ c.emax

/-- Specification: the number has at most `prec` significant digits and an exponent in range: it is a
value of a Decimal in this context. -/
def Representable (c : DecCtx) (v : ℚ) : Prop :=
  ∃ (k e : Int), |k| < 10 ^ c.prec ∧ c.emin - c.prec + 1 ≤ e ∧ e ≤ c.emax - c.prec + 1 ∧
    v = (k : ℚ) * (10 : ℚ) ^ e

/-- Specification: one unit in the last place of a number with `prec` significant digits: at most
`10 ^ (1 - prec)` of the number itself, or the smallest positive number of the context. -/
def ulpBound (c : DecCtx) (v : ℚ) : ℚ :=
  max ((10 : ℚ) ^ (1 - (c.prec : Int)) * |v|) ((10 : ℚ) ^ (c.emin - c.prec + 1))

/-- Specification: the side on which each rounding mode may leave the exact value, and the closeness
of the "half" modes. -/
def RoundsTo (c : DecCtx) (v r : ℚ) : Prop :=
  match c.rounding with
  | .floor => r ≤ v
  | .ceiling => v ≤ r
  | .down => |r| ≤ |v|
  | .up => |v| ≤ |r|
  | .halfUp | .halfDown | .halfEven => 2 * |r - v| ≤ ulpBound c v
  | .zeroFiveUp => True

/-! ## Digits -/

theorem ndigits_bounds {n : Nat} (h : n ≠ 0) : 10 ^ (ndigits n - 1) ≤ n ∧ n < 10 ^ ndigits n := by
  unfold ndigits
  constructor
  · simpa using Nat.pow_log_le_self 10 h
  · exact Nat.lt_pow_succ_log_self (by norm_num) n

theorem ndigits_pos (n : Nat) : 1 ≤ ndigits n := by unfold ndigits; omega

theorem ndigits_le {n p : Nat} (hp : 1 ≤ p) : ndigits n ≤ p ↔ n < 10 ^ p := by
  by_cases h : n = 0
  · subst h; simp [ndigits, hp]
  · obtain ⟨h1, h2⟩ := ndigits_bounds h
    constructor
    · intro h3
      exact h2.trans_le (Nat.pow_le_pow_right (by norm_num) h3)
    · intro h3
      have : 10 ^ (ndigits n - 1) < 10 ^ p := h1.trans_lt h3
      have := (Nat.pow_lt_pow_iff_right (by norm_num : 1 < 10)).mp this
      omega

theorem ten_zpow_pos (e : Int) : (0 : ℚ) < (10 : ℚ) ^ e := by positivity

theorem ten_zpow_le {a b : Int} : (10 : ℚ) ^ a ≤ (10 : ℚ) ^ b ↔ a ≤ b :=
  zpow_le_zpow_iff_right₀ (by norm_num)

theorem ten_zpow_lt {a b : Int} : (10 : ℚ) ^ a < (10 : ℚ) ^ b ↔ a < b :=
  zpow_lt_zpow_iff_right₀ (by norm_num)

theorem ten_zpow_add (a b : Int) : (10 : ℚ) ^ (a + b) = (10 : ℚ) ^ a * (10 : ℚ) ^ b :=
  zpow_add₀ (by norm_num) a b

theorem ten_zpow_nat (n : Nat) : (10 : ℚ) ^ (n : Int) = ((10 ^ n : Nat) : ℚ) := by
  rw [zpow_natCast]; push_cast; rfl

theorem finVal_abs (neg : Bool) (k : Nat) (e : Int) : |finVal neg k e| = (k : ℚ) * (10 : ℚ) ^ e := by
  unfold finVal
  rw [abs_mul, abs_of_pos (ten_zpow_pos e)]
  cases neg <;> simp

/-! ## What `_fix` does -/

/-- the exponent below which digits are cut off -/
def fixExp (c : DecCtx) (k : Nat) (e : Int) : Int :=
  max ((ndigits k : Int) + e - c.prec) (c.emin - c.prec + 1)

theorem fix_quot_lt {c : DecCtx} {k : Nat} {e : Int} (hk : k ≠ 0) (h : e < fixExp c k e) :
    k / 10 ^ (fixExp c k e - e).toNat < 10 ^ c.prec := by
  rw [Nat.div_lt_iff_lt_mul (by positivity), ← pow_add]
  refine (ndigits_bounds hk).2.trans_le (Nat.pow_le_pow_right (by norm_num) ?_)
  have : (ndigits k : Int) + e - c.prec ≤ fixExp c k e := le_max_left _ _
  omega

theorem carry_value {c : DecCtx} (hc : 1 ≤ c.prec) {q : Nat} (hq : q ≤ 10 ^ c.prec) (em : Int)
    (neg : Bool) (h : c.prec < ndigits q) : finVal neg (q / 10) (em + 1) = finVal neg q em := by
  have h1 : ¬ q < 10 ^ c.prec := fun h' => absurd ((ndigits_le hc).mpr h') (by omega)
  have h2 : q = 10 ^ c.prec := by omega
  obtain ⟨m, hm⟩ : ∃ m, c.prec = m + 1 := ⟨c.prec - 1, by omega⟩
  have h3 : q / 10 = 10 ^ m := by rw [h2, hm, pow_succ]; simp
  have h4 : (q : ℚ) = ((q / 10 : Nat) : ℚ) * 10 := by rw [h3, h2, hm, pow_succ]; push_cast; ring
  unfold finVal
  rw [h4, ten_zpow_add]
  cases neg <;> simp <;> ring

/-- `_fix` of a non-zero number that returns: the number itself, or a neighbour on the coarser grid. -/
theorem decFix_ok {c : DecCtx} (hc : 1 ≤ c.prec) {neg : Bool} {k : Nat} {e : Int} (hk : k ≠ 0) {d : Dec}
    (h : decFix c neg k e = .ok d) :
    (fixExp c k e ≤ e ∧ d = .fin neg k e) ∨
    (e < fixExp c k e ∧ ∃ q' e', d = .fin neg q' e' ∧
      finVal neg q' e' = finVal neg
        (if roundsAway c.rounding neg (k / 10 ^ (fixExp c k e - e).toNat)
          (k % 10 ^ (fixExp c k e - e).toNat) (10 ^ (fixExp c k e - e).toNat)
         then k / 10 ^ (fixExp c k e - e).toNat + 1 else k / 10 ^ (fixExp c k e - e).toNat)
        (fixExp c k e)) := by
  unfold decFix at h
  simp only [hk, if_false] at h
  simp only [show max ((ndigits k : Int) + e - c.prec) (c.emin - c.prec + 1) = fixExp c k e from rfl] at h
  split at h
  · cases h
  · by_cases hlt : e < fixExp c k e
    · rw [if_pos hlt] at h
      right
      refine ⟨hlt, ?_⟩
      have hq := fix_quot_lt hk hlt
      generalize roundsAway c.rounding neg (k / 10 ^ (fixExp c k e - e).toNat)
          (k % 10 ^ (fixExp c k e - e).toNat) (10 ^ (fixExp c k e - e).toNat) = away at h ⊢
      generalize k / 10 ^ (fixExp c k e - e).toNat = q at h hq ⊢
      have hq' : (if away = true then q + 1 else q) ≤ 10 ^ c.prec := by split <;> omega
      generalize (if away = true then q + 1 else q) = q1 at h hq' ⊢
      by_cases hcar : c.prec < ndigits q1
      · simp only [hcar, if_true] at h
        split at h
        · cases h
        · injection h with h
          exact ⟨_, _, h.symm, carry_value hc hq' _ _ hcar⟩
      · simp only [hcar, if_false] at h
        split at h
        · cases h
        · injection h with h
          exact ⟨_, _, h.symm, rfl⟩
    · rw [if_neg hlt] at h
      injection h with h
      exact .inl ⟨by omega, h.symm⟩

/-- the exact magnitude `x` is in the grid cell `[q, q+1)` of the coefficient `k`, on the same side of
its middle -/
def InCell (c : DecCtx) (k : Nat) (e : Int) (x : ℚ) : Prop :=
  (fixExp c k e ≤ e → x = (k : ℚ) * (10 : ℚ) ^ e) ∧
  (e < fixExp c k e → ∃ f : ℚ, 0 ≤ f ∧ f < 1 ∧
    x = ((k / 10 ^ (fixExp c k e - e).toNat : Nat) + f) * (10 : ℚ) ^ (fixExp c k e) ∧
    (k % 10 ^ (fixExp c k e - e).toNat = 0 ↔ f = 0) ∧
    (2 * (k % 10 ^ (fixExp c k e - e).toNat) < 10 ^ (fixExp c k e - e).toNat ↔ 2 * f < 1) ∧
    (2 * (k % 10 ^ (fixExp c k e - e).toNat) = 10 ^ (fixExp c k e - e).toNat ↔ 2 * f = 1))

theorem inCell_self (c : DecCtx) (k : Nat) (e : Int) : InCell c k e ((k : ℚ) * (10 : ℚ) ^ e) := by
  refine ⟨fun _ => rfl, fun h => ?_⟩
  obtain ⟨n, hn⟩ : ∃ n : Nat, fixExp c k e = e + n := ⟨(fixExp c k e - e).toNat, by omega⟩
  have hn' : (fixExp c k e - e).toNat = n := by omega
  rw [hn', hn]
  have hp : (0 : ℚ) < ((10 ^ n : Nat) : ℚ) := by positivity
  have hlt : k % 10 ^ n < 10 ^ n := Nat.mod_lt _ (by positivity)
  refine ⟨((k % 10 ^ n : Nat) : ℚ) / ((10 ^ n : Nat) : ℚ), by positivity, ?_, ?_, ?_, ?_, ?_⟩
  · rw [div_lt_one hp]; exact_mod_cast hlt
  · rw [ten_zpow_add, ten_zpow_nat]
    have hdm : (k : ℚ) = ((10 ^ n : Nat) : ℚ) * ((k / 10 ^ n : Nat) : ℚ) + ((k % 10 ^ n : Nat) : ℚ) := by
      exact_mod_cast (Nat.div_add_mod k (10 ^ n)).symm
    generalize ((k / 10 ^ n : Nat) : ℚ) = q at *
    generalize ((k % 10 ^ n : Nat) : ℚ) = r at *
    rw [hdm]
    field_simp
  · rw [div_eq_zero_iff]
    simp
  · rw [← mul_div_assoc, div_lt_one hp]
    exact_mod_cast Iff.rfl
  · rw [← mul_div_assoc, div_eq_one_iff_eq hp.ne']
    exact_mod_cast Iff.rfl

theorem fixExp_le_ulp {c : DecCtx} (hc : 1 ≤ c.prec) {k : Nat} {e : Int} (hk : k ≠ 0)
    (hlt : e < fixExp c k e) {f : ℚ} (hf : 0 ≤ f) (v : ℚ)
    (hv : |v| = ((k / 10 ^ (fixExp c k e - e).toNat : Nat) + f) * (10 : ℚ) ^ (fixExp c k e)) :
    (10 : ℚ) ^ (fixExp c k e) ≤ ulpBound c v := by
  unfold ulpBound
  rcases le_total ((ndigits k : Int) + e - c.prec) (c.emin - c.prec + 1) with h | h
  · have : fixExp c k e = c.emin - c.prec + 1 := max_eq_right h
    rw [this]
    exact le_max_right _ _
  · have he : fixExp c k e = (ndigits k : Int) + e - c.prec := max_eq_left h
    refine le_trans ?_ (le_max_left _ _)
    rw [hv]
    have hnd : c.prec ≤ ndigits k := by omega
    have hq : 10 ^ (c.prec - 1) ≤ k / 10 ^ (fixExp c k e - e).toNat := by
      rw [Nat.le_div_iff_mul_le (by positivity), ← pow_add]
      refine le_trans (Nat.pow_le_pow_right (by norm_num) ?_) (ndigits_bounds hk).1
      omega
    have hq' : ((10 ^ (c.prec - 1) : Nat) : ℚ) ≤ ((k / 10 ^ (fixExp c k e - e).toNat : Nat) : ℚ) := by
      exact_mod_cast hq
    rw [← ten_zpow_nat] at hq'
    generalize ((k / 10 ^ (fixExp c k e - e).toNat : Nat) : ℚ) = q at *
    have h1 : (1 : ℚ) ≤ (10 : ℚ) ^ (1 - (c.prec : Int)) * (10 : ℚ) ^ ((c.prec - 1 : Nat) : Int) := by
      rw [← ten_zpow_add]
      calc (1 : ℚ) = (10 : ℚ) ^ (0 : Int) := by simp
        _ ≤ _ := ten_zpow_le.mpr (by omega)
    have h2 : (1 : ℚ) ≤ (10 : ℚ) ^ (1 - (c.prec : Int)) * (q + f) := by
      have := ten_zpow_pos (1 - (c.prec : Int))
      nlinarith
    have := ten_zpow_pos (fixExp c k e)
    nlinarith

/-- a magnitude with a sign -/
def signed (neg : Bool) (x : ℚ) : ℚ := if neg then -x else x

theorem finVal_signed (neg : Bool) (k : Nat) (e : Int) :
    finVal neg k e = signed neg ((k : ℚ) * (10 : ℚ) ^ e) := by
  unfold finVal signed
  cases neg <;> simp

theorem signed_abs (neg : Bool) {x : ℚ} (hx : 0 ≤ x) : |signed neg x| = x := by
  cases neg <;> simp [signed, abs_of_nonneg hx]

theorem signed_sub_abs (neg : Bool) (x y : ℚ) : |signed neg x - signed neg y| = |x - y| := by
  cases neg
  · simp [signed]
  · simp only [signed, if_true]
    rw [show -x - -y = -(x - y) by ring, abs_neg]

theorem roundsTo_refl (c : DecCtx) (v : ℚ) : RoundsTo c v v := by
  unfold RoundsTo
  have : (0 : ℚ) ≤ ulpBound c v := le_trans (ten_zpow_pos _).le (le_max_right _ _)
  cases c.rounding <;> simp [this]

/-- Rounding is correct: less than one unit in the last place off, on the side of the rounding mode. -/
theorem decFix_near {c : DecCtx} (hc : 1 ≤ c.prec) {neg : Bool} {k : Nat} {e : Int} (hk : k ≠ 0)
    {d : Dec} (h : decFix c neg k e = .ok d) {x : ℚ} (hx : InCell c k e x) :
    ∃ q' e', d = .fin neg q' e' ∧
      |finVal neg q' e' - signed neg x| < ulpBound c (signed neg x) ∧
      RoundsTo c (signed neg x) (finVal neg q' e') := by
  rcases decFix_ok hc hk h with ⟨hle, rfl⟩ | ⟨hlt, q', e', rfl, hv⟩
  · refine ⟨_, _, rfl, ?_⟩
    rw [hx.1 hle, finVal_signed]
    refine ⟨?_, roundsTo_refl _ _⟩
    simp only [sub_self, abs_zero]
    exact lt_of_lt_of_le (ten_zpow_pos _) (le_max_right _ _)
  · obtain ⟨f, hf0, hf1, hxe, hr0, hr1, hr2⟩ := hx.2 hlt
    have hx0 : 0 ≤ x := by rw [hxe]; positivity
    have hulp := fixExp_le_ulp hc hk hlt hf0 (signed neg x) (by rw [signed_abs _ hx0, hxe])
    refine ⟨_, _, rfl, ?_⟩
    rw [hv, finVal_signed]
    have hE := ten_zpow_pos (fixExp c k e)
    generalize (10 : ℚ) ^ fixExp c k e = E at *
    generalize 10 ^ (fixExp c k e - e).toNat = p at *
    have key : (roundsAway c.rounding neg (k / p) (k % p) p = true ∨
        roundsAway c.rounding neg (k / p) (k % p) p = false) := by
      cases roundsAway c.rounding neg (k / p) (k % p) p <;> simp
    have hq0 : (0 : ℚ) ≤ ((k / p : Nat) : ℚ) := by positivity
    have hqe : ∀ (r : Nat) , ((k / p : Nat) : ℚ) = (r : ℚ) → (r : ℚ) = ((k / p : Nat) : ℚ) := fun _ h => h.symm
    rcases key with hk' | hk'
    · -- away from zero
      simp only [hk', if_true]
      have hfr : 0 < f := by
        rcases hf0.lt_or_eq with h | h
        · exact h
        · exfalso
          have hz := hr0.mpr h.symm
          rw [hz] at hk' hr1 hr2
          have hp : 0 < p := by
            by_contra hp
            have : p = 0 := by omega
            rw [this] at hr2
            have := hr2.mp rfl
            rw [← h] at this
            norm_num at this
          cases hmode : c.rounding <;> simp [hmode, roundsAway] at hk' <;> omega
      have hdiff : |signed neg (((k / p + 1 : Nat) : ℚ) * E) - signed neg x| = (1 - f) * E := by
        rw [signed_sub_abs, hxe]
        push_cast
        rw [show ((k / p : Nat) + 1 : ℚ) * E - ((k / p : Nat) + f) * E = (1 - f) * E by ring]
        exact abs_of_nonneg (mul_nonneg (by linarith) hE.le)
      refine ⟨by rw [hdiff]; nlinarith, ?_⟩
      unfold RoundsTo
      have hmag : x ≤ ((k / p + 1 : Nat) : ℚ) * E := by
        rw [hxe]; push_cast; nlinarith
      have hmag0 : (0 : ℚ) ≤ ((k / p + 1 : Nat) : ℚ) * E := by positivity
      have hhalf : 1 ≤ 2 * f → 2 * ((1 - f) * E) ≤ ulpBound c (signed neg x) := fun h => by nlinarith
      cases hmode : c.rounding <;> simp only [hmode, roundsAway] at hk' ⊢
      · -- ceiling
        have : neg = false := by simp at hk'; exact hk'.2
        subst this
        simpa [signed] using hmag
      · have : neg = true := by simp at hk'; exact hk'.2
        subst this
        simpa [signed] using hmag
      · cases hk'
      · rw [signed_abs _ hx0, signed_abs _ hmag0]; exact hmag
      · rw [hdiff]
        have : ¬ 2 * (k % p) < p := by simp at hk'; omega
        exact hhalf (not_lt.mp (fun h => this (hr1.mpr h)))
      · rw [hdiff]
        have : ¬ 2 * (k % p) < p := by simp at hk'; omega
        exact hhalf (not_lt.mp (fun h => this (hr1.mpr h)))
      · rw [hdiff]
        have : ¬ 2 * (k % p) < p := by simp at hk'; omega
        exact hhalf (not_lt.mp (fun h => this (hr1.mpr h)))
    · simp only [hk', Bool.false_eq_true, if_false]
      have hdiff : |signed neg (((k / p : Nat) : ℚ) * E) - signed neg x| = f * E := by
        rw [signed_sub_abs, hxe]
        rw [show ((k / p : Nat) : ℚ) * E - ((k / p : Nat) + f) * E = -(f * E) by ring, abs_neg]
        exact abs_of_nonneg (mul_nonneg hf0 hE.le)
      refine ⟨by rw [hdiff]; nlinarith, ?_⟩
      unfold RoundsTo
      have hmag : ((k / p : Nat) : ℚ) * E ≤ x := by rw [hxe]; nlinarith
      have hmag0 : (0 : ℚ) ≤ ((k / p : Nat) : ℚ) * E := by positivity
      have hex : k % p = 0 → x = ((k / p : Nat) : ℚ) * E := fun h => by rw [hxe, hr0.mp h]; ring
      have hhalf : 2 * f ≤ 1 → 2 * (f * E) ≤ ulpBound c (signed neg x) := fun h => by nlinarith
      cases hmode : c.rounding <;> simp only [hmode, roundsAway] at hk' ⊢
      · cases neg
        · simp at hk'; rw [hex hk']
        · simpa [signed] using hmag
      · cases neg
        · simpa [signed] using hmag
        · simp at hk'; rw [hex hk']
      · rw [signed_abs _ hx0, signed_abs _ hmag0]; exact hmag
      · simp at hk'; rw [← hex hk']
      · rw [hdiff]
        have : 2 * (k % p) < p := by simp at hk'; omega
        exact hhalf (hr1.mp this).le
      · rw [hdiff]
        have : 2 * (k % p) < p ∨ 2 * (k % p) = p := by simp at hk'; omega
        rcases this with h | h
        · exact hhalf (hr1.mp h).le
        · exact hhalf (hr2.mp h).le
      · rw [hdiff]
        have : 2 * (k % p) < p ∨ 2 * (k % p) = p := by simp at hk'; omega
        rcases this with h | h
        · exact hhalf (hr1.mp h).le
        · exact hhalf (hr2.mp h).le

theorem decFix_zero {c : DecCtx} (neg : Bool) (e : Int) : ∃ e', decFix c neg 0 e = .ok (.fin neg 0 e') := by
  unfold decFix
  simp

theorem finVal_zero (neg : Bool) (e : Int) : finVal neg 0 e = 0 := by
  unfold finVal; simp

/-- A representable number is returned as it is. -/
theorem decFix_exact {c : DecCtx} (hc : 1 ≤ c.prec) {neg : Bool} {k : Nat} {e : Int}
    (hr : Representable c (finVal neg k e)) :
    ∃ q' e', decFix c neg k e = .ok (.fin neg q' e') ∧ finVal neg q' e' = finVal neg k e := by
  by_cases hk : k = 0
  · subst hk
    obtain ⟨e', he'⟩ := decFix_zero (c := c) neg e
    exact ⟨0, e', he', by rw [finVal_zero, finVal_zero]⟩
  obtain ⟨m, g, hm, hg1, hg2, hv⟩ := hr
  have hv' : (k : ℚ) * (10 : ℚ) ^ e = (m.natAbs : ℚ) * (10 : ℚ) ^ g := by
    rw [← finVal_abs neg, hv, abs_mul, abs_of_pos (ten_zpow_pos g)]
    rw [Nat.cast_natAbs, Int.cast_abs]
  have hm' : m.natAbs < 10 ^ c.prec := by
    have : (m.natAbs : Int) < ((10 ^ c.prec : Nat) : Int) := by
      rw [Int.natCast_natAbs]; exact_mod_cast hm
    exact_mod_cast this
  generalize m.natAbs = n at hv' hm'
  obtain ⟨hd1, hd2⟩ := ndigits_bounds hk
  have hnd := ndigits_pos k
  have hE : (ndigits k : Int) + e - c.prec ≤ g := by
    have h1 : (10 : ℚ) ^ (((ndigits k - 1 : Nat) : Int) + e) < (10 : ℚ) ^ ((c.prec : Int) + g) := by
      rw [ten_zpow_add, ten_zpow_add, ten_zpow_nat, ten_zpow_nat]
      calc _ ≤ (k : ℚ) * (10 : ℚ) ^ e := by
            apply mul_le_mul_of_nonneg_right _ (ten_zpow_pos e).le
            exact_mod_cast hd1
        _ = (n : ℚ) * (10 : ℚ) ^ g := hv'
        _ < _ := by
            apply mul_lt_mul_of_pos_right _ (ten_zpow_pos g)
            exact_mod_cast hm'
    have := ten_zpow_lt.mp h1
    omega
  have hEm : fixExp c k e ≤ g := max_le hE (by omega)
  unfold decFix
  simp only [hk, if_false]
  simp only [show max ((ndigits k : Int) + e - c.prec) (c.emin - c.prec + 1) = fixExp c k e from rfl]
  rw [if_neg (by omega)]
  by_cases hlt : e < fixExp c k e
  · simp only [if_pos hlt]
    have hq := fix_quot_lt hk hlt
    -- the coefficient is a multiple of the power that is cut off
    have hkn : k = n * 10 ^ (g - e).toNat := by
      have : (k : ℚ) = ((n * 10 ^ (g - e).toNat : Nat) : ℚ) := by
        have hge : g = ((g - e).toNat : Int) + e := by omega
        rw [hge, ten_zpow_add, ten_zpow_nat, ← mul_assoc] at hv'
        have := mul_right_cancel₀ (ten_zpow_pos e).ne' hv'
        rw [this]
        push_cast
        have h2 : ((((g - e).toNat : Int) + e - e).toNat) = (g - e).toNat := by omega
        rfl
      exact_mod_cast this
    have hdvd : 10 ^ (fixExp c k e - e).toNat ∣ k := by
      refine Dvd.dvd.trans (pow_dvd_pow 10 (?_ : (fixExp c k e - e).toNat ≤ (g - e).toNat)) (Dvd.intro_left _ hkn.symm)
      omega
    have hr0 := Nat.mod_eq_zero_of_dvd hdvd
    have hpp : 0 < 10 ^ (fixExp c k e - e).toNat := by positivity
    have hvq : finVal neg (k / 10 ^ (fixExp c k e - e).toNat) (fixExp c k e) = finVal neg k e := by
      rw [finVal_signed, finVal_signed]
      congr 1
      have h3 : fixExp c k e = ((fixExp c k e - e).toNat : Int) + e := by omega
      have h4 : k = k / 10 ^ (fixExp c k e - e).toNat * 10 ^ (fixExp c k e - e).toNat :=
        (Nat.div_mul_cancel hdvd).symm
      calc ((k / 10 ^ (fixExp c k e - e).toNat : Nat) : ℚ) * (10 : ℚ) ^ (fixExp c k e)
          = ((k / 10 ^ (fixExp c k e - e).toNat : Nat) : ℚ) *
            ((10 : ℚ) ^ (((fixExp c k e - e).toNat : Int)) * (10 : ℚ) ^ e) := by
            rw [← ten_zpow_add, ← h3]
        _ = ((k / 10 ^ (fixExp c k e - e).toNat * 10 ^ (fixExp c k e - e).toNat : Nat) : ℚ) *
            (10 : ℚ) ^ e := by rw [ten_zpow_nat]; push_cast; ring
        _ = _ := by rw [← h4]
    rw [hr0]
    generalize hqq : k / 10 ^ (fixExp c k e - e).toNat = q at *
    generalize 10 ^ (fixExp c k e - e).toNat = p at hpp ⊢
    have haway : roundsAway c.rounding neg q 0 p = false := by
      unfold roundsAway
      cases c.rounding <;> simp <;> omega
    rw [haway]
    simp only [Bool.false_eq_true, if_false]
    have : ¬ c.prec < ndigits q := by rw [not_lt]; exact (ndigits_le hc).mpr hq
    simp only [this, if_false]
    rw [if_neg (by omega)]
    exact ⟨_, _, rfl, hvq⟩
  · simp only [if_neg hlt]
    exact ⟨_, _, rfl, rfl⟩

theorem representable_abs_le {c : DecCtx} {v : ℚ} (h : Representable c v) :
    |v| ≤ ((10 ^ c.prec - 1 : Nat) : ℚ) * (10 : ℚ) ^ (c.emax - c.prec + 1) := by
  obtain ⟨k, e, hk, -, he, rfl⟩ := h
  rw [abs_mul, abs_of_pos (ten_zpow_pos e)]
  have h1 : |(k : ℚ)| ≤ ((10 ^ c.prec - 1 : Nat) : ℚ) := by
    have : |k| ≤ ((10 ^ c.prec - 1 : Nat) : Int) := by
      have hp : 1 ≤ 10 ^ c.prec := Nat.one_le_pow _ _ (by norm_num)
      rw [Nat.cast_sub hp]
      push_cast
      omega
    exact_mod_cast this
  exact mul_le_mul h1 (ten_zpow_le.mpr he) (ten_zpow_pos e).le (by positivity)

/-- `_fix` fails only on numbers larger than every number of the context. -/
theorem decFix_error {c : DecCtx} (hc : c.Valid) {neg : Bool} {k : Nat} {e : Int} {err : DecErr}
    (h : decFix c neg k e = .error err) {x : ℚ} (hx : InCell c k e x) :
    err = .overflow ∧ ∀ v, Representable c v → |v| < x := by
  have hk : k ≠ 0 := by
    rintro rfl
    obtain ⟨e', he'⟩ := decFix_zero (c := c) neg e
    rw [he'] at h; cases h
  have hvalid := hc.emin
  have hvalid' := hc.emax
  obtain ⟨hd1, hd2⟩ := ndigits_bounds hk
  have hnd := ndigits_pos k
  have hpp : (1 : Nat) ≤ 10 ^ c.prec := Nat.one_le_pow _ _ (by norm_num)
  unfold decFix at h
  simp only [hk, if_false] at h
  simp only [show max ((ndigits k : Int) + e - c.prec) (c.emin - c.prec + 1) = fixExp c k e from rfl] at h
  have hbig : ∀ v, ((10 ^ c.prec - 1 : Nat) : ℚ) * (10 : ℚ) ^ (c.emax - c.prec + 1) < x →
      Representable c v → |v| < x := fun v hv hr => (representable_abs_le hr).trans_lt hv
  split at h
  · -- too many digits before the point
    rename_i hover
    injection h with h
    refine ⟨h.symm, fun v hv => hbig v ?_ hv⟩
    have hxl : (10 : ℚ) ^ (((ndigits k - 1 : Nat) : Int) + e) ≤ x := by
      by_cases hlt : e < fixExp c k e
      · obtain ⟨f, hf0, -, hxe, -⟩ := hx.2 hlt
        rw [hxe]
        have he : fixExp c k e = (ndigits k : Int) + e - c.prec := max_eq_left (by omega)
        have hq : 10 ^ (c.prec - 1) ≤ k / 10 ^ (fixExp c k e - e).toNat := by
          rw [Nat.le_div_iff_mul_le (by positivity), ← pow_add]
          refine le_trans (Nat.pow_le_pow_right (by norm_num) ?_) hd1
          have := hc.prec
          omega
        have hq' : ((10 ^ (c.prec - 1) : Nat) : ℚ) ≤ ((k / 10 ^ (fixExp c k e - e).toNat : Nat) : ℚ) := by
          exact_mod_cast hq
        calc (10 : ℚ) ^ (((ndigits k - 1 : Nat) : Int) + e)
            = ((10 ^ (c.prec - 1) : Nat) : ℚ) * (10 : ℚ) ^ (fixExp c k e) := by
              rw [← ten_zpow_nat, ← ten_zpow_add]
              congr 1
              have := hc.prec
              omega
          _ ≤ _ := mul_le_mul_of_nonneg_right (by linarith) (ten_zpow_pos _).le
      · rw [hx.1 (by omega), ten_zpow_add, ten_zpow_nat]
        apply mul_le_mul_of_nonneg_right _ (ten_zpow_pos e).le
        exact_mod_cast hd1
    refine lt_of_lt_of_le ?_ hxl
    calc ((10 ^ c.prec - 1 : Nat) : ℚ) * (10 : ℚ) ^ (c.emax - c.prec + 1)
        < ((10 ^ c.prec : Nat) : ℚ) * (10 : ℚ) ^ (c.emax - c.prec + 1) := by
          apply mul_lt_mul_of_pos_right _ (ten_zpow_pos _)
          exact_mod_cast (by omega : 10 ^ c.prec - 1 < 10 ^ c.prec)
      _ = (10 : ℚ) ^ ((c.prec : Int) + (c.emax - c.prec + 1)) := by
          rw [ten_zpow_add (c.prec : Int), ten_zpow_nat]
      _ ≤ _ := ten_zpow_le.mpr (by omega)
  · rename_i hover
    by_cases hlt : e < fixExp c k e
    · rw [if_pos hlt] at h
      have hq := fix_quot_lt hk hlt
      obtain ⟨f, hf0, hf1, hxe, hr0, hr1, hr2⟩ := hx.2 hlt
      have hpo : 0 < 10 ^ (fixExp c k e - e).toNat := by positivity
      have hem : fixExp c k e ≤ c.emax - c.prec + 1 := max_le (by omega) (by omega)
      have hE := ten_zpow_pos (fixExp c k e)
      generalize hpe : 10 ^ (fixExp c k e - e).toNat = p at *
      by_cases haway : roundsAway c.rounding neg (k / p) (k % p) p = true
      · simp only [haway, if_true] at h
        by_cases hcar : c.prec < ndigits (k / p + 1)
        · simp only [hcar, if_true] at h
          split at h
          · rename_i h1
            injection h with h
            refine ⟨h.symm, fun v hv => hbig v ?_ hv⟩
            have heq : fixExp c k e = c.emax - c.prec + 1 := by omega
            have h2 : ¬ k / p + 1 < 10 ^ c.prec := fun h' =>
              absurd ((ndigits_le hc.prec).mpr h') (by omega)
            have h3 : k / p = 10 ^ c.prec - 1 := by omega
            have hf : 0 < f := by
              rcases hf0.lt_or_eq with h | h
              · exact h
              · exfalso
                have hz := hr0.mpr h.symm
                rw [hz] at haway
                cases hmode : c.rounding <;> simp [hmode, roundsAway] at haway <;> omega
            rw [hxe, ← heq, h3]
            apply mul_lt_mul_of_pos_right _ hE
            linarith
          · cases h
        · simp only [hcar, if_false] at h
          rw [if_neg (by omega)] at h
          cases h
      · simp only [haway, if_false] at h
        have : ¬ c.prec < ndigits (k / p) := by rw [not_lt]; exact (ndigits_le hc.prec).mpr hq
        simp only [this, if_false, Bool.false_eq_true] at h
        rw [if_neg (by omega)] at h
        cases h
    · rw [if_neg hlt] at h
      cases h

/-- Rounding, summarised: of a number that is not zero. -/
theorem decFix_spec {c : DecCtx} (hc : c.Valid) (neg : Bool) (k : Nat) (e : Int) :
    (∃ q' e', decFix c neg k e = .ok (.fin neg q' e') ∧
      |finVal neg q' e' - finVal neg k e| < ulpBound c (finVal neg k e) ∧
      RoundsTo c (finVal neg k e) (finVal neg q' e') ∧
      (Representable c (finVal neg k e) → finVal neg q' e' = finVal neg k e)) ∨
    (decFix c neg k e = .error .overflow ∧ ∀ v, Representable c v → |v| < |finVal neg k e|) := by
  by_cases hk : k = 0
  · subst hk
    obtain ⟨e', he'⟩ := decFix_zero (c := c) neg e
    refine .inl ⟨0, e', he', ?_⟩
    rw [finVal_zero, finVal_zero]
    refine ⟨?_, roundsTo_refl _ _, fun _ => rfl⟩
    simp only [sub_self, abs_zero]
    exact lt_of_lt_of_le (ten_zpow_pos _) (le_max_right _ _)
  · have hcell := inCell_self c k e
    cases h : decFix c neg k e with
    | ok d =>
      left
      obtain ⟨q', e', rfl, h1, h2⟩ := decFix_near hc.prec hk h hcell
      rw [← finVal_signed] at h1 h2
      refine ⟨q', e', rfl, h1, h2, fun hr => ?_⟩
      obtain ⟨q2, e2, h3, h4⟩ := decFix_exact hc.prec hr
      rw [h] at h3
      injection h3 with h3
      injection h3 with _ h5 h6
      rw [h5, h6]; exact h4
    | error err =>
      right
      obtain ⟨rfl, h1⟩ := decFix_error hc h hcell
      refine ⟨rfl, ?_⟩
      rw [finVal_abs]; exact h1

end RE
