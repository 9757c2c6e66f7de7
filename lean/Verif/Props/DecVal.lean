import Verif.Model.Dec
import Mathlib.Data.Rat.Defs
import Mathlib.Algebra.Order.Field.Basic
import Mathlib.Algebra.Order.Field.Rat
import Mathlib.Tactic.Ring
import Mathlib.Tactic.Linarith
import Mathlib.Tactic.Positivity
import Mathlib.Tactic.FieldSimp
import Mathlib.Tactic.NormNum
import Mathlib.Algebra.Order.Field.Power

/-!
# The rational value of a Decimal
-/

namespace RE

/-- Specification: the number `±coeff * 10 ^ exp`. -/
def finVal (neg : Bool) (coeff : Nat) (exp : Int) : ℚ :=
  (if neg then -(coeff : ℚ) else coeff) * (10 : ℚ) ^ exp

theorem scaled_val (neg : Bool) (coeff : Nat) (exp e : Int) (h : e ≤ exp) :
    finVal neg coeff exp = (scaled neg coeff exp e : ℚ) * (10 : ℚ) ^ e := by
  unfold finVal scaled
  have h10 : (10 : ℚ) ≠ 0 := by norm_num
  have hexp : (10 : ℚ) ^ exp = (10 : ℚ) ^ ((exp - e).toNat : ℕ) * (10 : ℚ) ^ e := by
    rw [← zpow_natCast, ← zpow_add₀ h10]
    congr 1
    omega
  rw [hexp]
  cases neg <;> simp <;> ring

theorem scaled_compare (na : Bool) (ca : Nat) (ea : Int) (nb : Bool) (cb : Nat) (eb e : Int)
    (ha : e ≤ ea) (hb : e ≤ eb) :
    (scaled na ca ea e < scaled nb cb eb e ↔ finVal na ca ea < finVal nb cb eb) ∧
    (scaled na ca ea e = scaled nb cb eb e ↔ finVal na ca ea = finVal nb cb eb) := by
  have hp : (0 : ℚ) < (10 : ℚ) ^ e := by positivity
  rw [scaled_val na ca ea e ha, scaled_val nb cb eb e hb]
  constructor
  · rw [mul_lt_mul_iff_left₀ hp]
    exact Int.cast_lt.symm
  · rw [mul_left_inj' hp.ne']
    exact Int.cast_inj.symm

/-- Specification: the position of a Decimal on the extended number line, first -∞ (0), then the
numbers (1, by value), then ∞ (2). -/
def Dec.key : Dec → Option (Nat × ℚ)
  | .nan => none
  | .inf true => some (0, 0)
  | .inf false => some (2, 0)
  | .fin n k e => some (1, finVal n k e)

/-- lexicographic order of the keys -/
def keyLt (a b : Nat × ℚ) : Prop := a.1 < b.1 ∨ (a.1 = b.1 ∧ a.2 < b.2)

theorem keyLt_trichotomy (a b : Nat × ℚ) : keyLt a b ∨ a = b ∨ keyLt b a := by
  unfold keyLt
  rcases lt_trichotomy a.1 b.1 with h | h | h
  · exact .inl (.inl h)
  · rcases lt_trichotomy a.2 b.2 with h' | h' | h'
    · exact .inl (.inr ⟨h, h'⟩)
    · exact .inr (.inl (Prod.ext h h'))
    · exact .inr (.inr (.inr ⟨h.symm, h'⟩))
  · exact .inr (.inr (.inl h))

theorem keyLt_irrefl (a : Nat × ℚ) : ¬ keyLt a a := by
  unfold keyLt; simp

theorem keyLt_trans {a b c : Nat × ℚ} (h : keyLt a b) (h' : keyLt b c) : keyLt a c := by
  unfold keyLt at *
  rcases h with h | ⟨h, g⟩ <;> rcases h' with h' | ⟨h', g'⟩
  · exact .inl (h.trans h')
  · exact .inl (h' ▸ h)
  · exact .inl (h ▸ h')
  · exact .inr ⟨h.trans h', g.trans g'⟩

theorem keyLt_asymm {a b : Nat × ℚ} (h : keyLt a b) : ¬ keyLt b a := fun h' =>
  keyLt_irrefl a (keyLt_trans h h')

/-- The three-way comparison of Decimals is that of their positions; NaN is not comparable. -/
theorem decCmp_spec (a b : Dec) :
    match a.key, b.key with
    | some x, some y =>
      (decCmp a b = some .lt ∧ keyLt x y) ∨ (decCmp a b = some .eq ∧ x = y) ∨
      (decCmp a b = some .gt ∧ keyLt y x)
    | _, _ => decCmp a b = none := by
  cases a with
  | nan => cases b <;> simp [Dec.key, decCmp]
  | inf na =>
    cases b with
    | nan => cases na <;> simp [Dec.key, decCmp]
    | inf nb => cases na <;> cases nb <;> simp [Dec.key, decCmp, keyLt] <;> decide
    | fin nb cb eb => cases na <;> simp [Dec.key, decCmp, keyLt]
  | fin na ca ea =>
    cases b with
    | nan => simp [Dec.key, decCmp]
    | inf nb => cases nb <;> simp [Dec.key, decCmp, keyLt]
    | fin nb cb eb =>
      simp only [Dec.key, decCmp, keyLt, lt_irrefl, false_or, true_and, Option.some.injEq,
        Prod.mk.injEq]
      obtain ⟨h1, h2⟩ := scaled_compare na ca ea nb cb eb (min ea eb) (min_le_left _ _) (min_le_right _ _)
      obtain ⟨h3, -⟩ := scaled_compare nb cb eb na ca ea (min ea eb) (min_le_right _ _) (min_le_left _ _)
      rw [← h1, ← h2, ← h3]
      generalize scaled na ca ea (min ea eb) = x
      generalize scaled nb cb eb (min ea eb) = y
      rcases lt_trichotomy x y with h | h | h
      · left; exact ⟨by rw [compare_lt_iff_lt]; exact h, h⟩
      · right; left; exact ⟨by rw [compare_eq_iff_eq]; exact h, h⟩
      · right; right; exact ⟨by rw [compare_gt_iff_gt]; exact h, h⟩

/-- Equality of Decimals: both are numbers or infinities in the same position. -/
theorem decEq_iff (a b : Dec) : decEq a b = true ↔ ∃ x, a.key = some x ∧ b.key = some x := by
  have := decCmp_spec a b
  unfold decEq
  cases ha : a.key with
  | none => rw [ha] at this; simp [this]
  | some x =>
    cases hb : b.key with
    | none => rw [ha, hb] at this; simp [this]
    | some y =>
      rw [ha, hb] at this
      simp only at this
      rcases this with ⟨h, h'⟩ | ⟨h, h'⟩ | ⟨h, h'⟩
      · rw [h]
        have : x ≠ y := by rintro rfl; exact keyLt_irrefl _ h'
        simp [this, Ne.symm this]
      · rw [h]; simp [h']
      · rw [h]
        have : x ≠ y := by rintro rfl; exact keyLt_irrefl _ h'
        simp [this, Ne.symm this]

theorem decEq_symm (a b : Dec) : decEq a b = decEq b a := by
  rw [Bool.eq_iff_iff, decEq_iff, decEq_iff]
  constructor <;> rintro ⟨x, h1, h2⟩ <;> exact ⟨x, h2, h1⟩

theorem decEq_trans {a b c : Dec} (h : decEq a b = true) (h' : decEq b c = true) :
    decEq a c = true := by
  rw [decEq_iff] at *
  obtain ⟨x, h1, h2⟩ := h
  obtain ⟨y, h3, h4⟩ := h'
  rw [h2] at h3
  cases h3
  exact ⟨x, h1, h4⟩

theorem decEq_refl {a : Dec} (h : a ≠ .nan) : decEq a a = true := by
  rw [decEq_iff]
  cases a with
  | nan => exact (h rfl).elim
  | inf n => cases n <;> exact ⟨_, rfl, rfl⟩
  | fin n k e => exact ⟨_, rfl, rfl⟩

/-- the outcome of a comparison in the other direction -/
theorem decCmp_swap (a b : Dec) : decCmp b a = (decCmp a b).map Ordering.swap := by
  have h1 := decCmp_spec a b
  have h2 := decCmp_spec b a
  cases ha : a.key with
  | none =>
    rw [ha] at h1 h2
    cases hb : b.key <;> rw [hb] at h1 h2 <;> simp only at h1 h2 <;> rw [h1, h2] <;> rfl
  | some x =>
    cases hb : b.key with
    | none => rw [ha, hb] at h1 h2; simp only at h1 h2; rw [h1, h2]; rfl
    | some y =>
      rw [ha, hb] at h1 h2
      simp only at h1 h2
      rcases h1 with ⟨h, h'⟩ | ⟨h, h'⟩ | ⟨h, h'⟩ <;> rcases h2 with ⟨g, g'⟩ | ⟨g, g'⟩ | ⟨g, g'⟩ <;>
        rw [h, g]
      all_goals first
        | rfl
        | exact (keyLt_asymm h' g').elim
        | (subst h'; exact (keyLt_irrefl _ g').elim)
        | (subst g'; exact (keyLt_irrefl _ h').elim)

theorem decCmp_trans_lt {a b c : Dec} (h : decCmp a b = some .lt) (h' : decCmp b c = some .lt) :
    decCmp a c = some .lt := by
  have h1 := decCmp_spec a b
  have h2 := decCmp_spec b c
  have h3 := decCmp_spec a c
  cases ha : a.key <;> cases hb : b.key <;> cases hc : c.key <;> rw [ha, hb] at h1 <;>
    rw [hb, hc] at h2 <;> rw [ha, hc] at h3 <;> simp [h, h'] at h1 h2 h3
  have := keyLt_trans h1 h2
  rcases h3 with ⟨h, -⟩ | ⟨-, h⟩ | ⟨-, h⟩
  · exact h
  · exact (keyLt_irrefl _ (h ▸ this)).elim
  · exact (keyLt_asymm this h).elim

theorem decCmp_eq_left {a b c : Dec} (h : decCmp a b = some .eq) : decCmp a c = decCmp b c := by
  have h1 := decCmp_spec a b
  have h2 := decCmp_spec b c
  have h3 := decCmp_spec a c
  cases ha : a.key <;> cases hb : b.key <;> rw [ha, hb] at h1 <;> simp [h] at h1
  subst h1
  cases hc : c.key <;> rw [hb, hc] at h2 <;> rw [ha, hc] at h3 <;> simp only at h2 h3
  · rw [h2, h3]
  · rcases h2 with ⟨h, h'⟩ | ⟨h, h'⟩ | ⟨h, h'⟩ <;> rcases h3 with ⟨g, g'⟩ | ⟨g, g'⟩ | ⟨g, g'⟩ <;>
      rw [h, g]
    all_goals first
      | exact (keyLt_asymm h' g').elim
      | (subst h'; exact (keyLt_irrefl _ g').elim)
      | (subst g'; exact (keyLt_irrefl _ h').elim)

end RE
